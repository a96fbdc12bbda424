import Verif.Lemmas.IncGamma
import Mathlib.Analysis.SpecialFunctions.Gamma.Deriv
import Mathlib.MeasureTheory.Integral.DominatedConvergence

/-!
# `bn` is a continuous function of the Sersic index
-/

namespace Verif.Lemmas

open Real Set Filter Topology MeasureTheory

theorem lowerGamma_continuousAt_index {s x : ℝ} (hs : 0 < s) (hx : 0 ≤ x) : ContinuousAt (fun s => lowerGamma s x) s := by
  unfold lowerGamma
  refine intervalIntegral.continuousAt_of_dominated_interval
    (bound := fun t => Real.exp (-t) * t ^ (s / 2 - 1) + Real.exp (-t) * t ^ (2 * s - 1)) ?_ ?_
    ((gammaInt _ (by linarith) le_rfl hx).add (gammaInt _ (by linarith) le_rfl hx)) ?_
  · filter_upwards [Ioi_mem_nhds hs] with s' hs'
    exact (gammaInt s' hs' le_rfl hx).def'.aestronglyMeasurable
  · filter_upwards [Ioo_mem_nhds (by linarith : s / 2 < s) (by linarith : s < 2 * s)] with s' hs'
    filter_upwards with t ht
    rw [uIoc_of_le hx] at ht
    have h0 : 0 < t := ht.1
    rw [Real.norm_of_nonneg (by positivity), ← mul_add]
    refine mul_le_mul_of_nonneg_left ?_ (Real.exp_pos _).le
    have p1 := Real.rpow_pos_of_pos h0 (s / 2 - 1)
    have p2 := Real.rpow_pos_of_pos h0 (2 * s - 1)
    rcases le_total t 1 with h1 | h1
    · have := Real.rpow_le_rpow_of_exponent_ge h0 h1 (by linarith [hs'.1] : s / 2 - 1 ≤ s' - 1)
      linarith
    · have := Real.rpow_le_rpow_of_exponent_le h1 (by linarith [hs'.2] : s' - 1 ≤ 2 * s - 1)
      linarith
  · filter_upwards with t ht
    rw [uIoc_of_le hx] at ht
    exact continuousAt_const.mul (ContinuousAt.rpow continuousAt_const (continuousAt_id.sub continuousAt_const) (Or.inl ht.1.ne'))

theorem gammainc_continuousAt_index {s x : ℝ} (hs : 0 < s) (hx : 0 ≤ x) : ContinuousAt (fun s => gammainc s x) s := by
  unfold gammainc
  refine (lowerGamma_continuousAt_index hs hx).div ?_ (Real.Gamma_pos_of_pos hs).ne'
  exact (Real.differentiableAt_Gamma fun m => by have := Nat.cast_nonneg (α := ℝ) m; linarith).continuousAt

theorem bn_continuousAt {n : ℝ} (hn : 0 < n) : ContinuousAt bn n := by
  have hb := bn_pos hn
  have c : ∀ x : ℝ, 0 ≤ x → ContinuousAt (fun n => gammainc (2 * n) x) n := fun x hx => by
    have h1 : ContinuousAt (fun n : ℝ => 2 * n) n := by fun_prop
    exact ContinuousAt.comp (f := fun n : ℝ => 2 * n) (g := fun s => gammainc s x) (gammainc_continuousAt_index (by linarith) hx) h1
  rw [ContinuousAt, tendsto_order]
  constructor
  · intro a ha
    have hm0 : 0 ≤ max a 0 := le_max_right _ _
    have hm : max a 0 < bn n := max_lt ha hb
    have h1 := gammainc_strictMono (2 * n) (by linarith) hm0 (mem_Ici.2 hb.le) hm
    rw [bn_half hn] at h1
    filter_upwards [(c _ hm0).eventually_lt_const h1, Ioi_mem_nhds hn] with n' hn1 hn2
    have hn2 : 0 < n' := hn2
    by_contra hle
    have h2 := (gammainc_strictMono (2 * n') (by linarith)).monotoneOn (mem_Ici.2 (bn_pos hn2).le) hm0 ((not_lt.1 hle).trans (le_max_left _ _))
    rw [bn_half hn2] at h2
    linarith
  · intro a ha
    have ha0 : 0 ≤ a := hb.le.trans ha.le
    have h1 := gammainc_strictMono (2 * n) (by linarith) (mem_Ici.2 hb.le) ha0 ha
    rw [bn_half hn] at h1
    filter_upwards [(c _ ha0).eventually_const_lt h1, Ioi_mem_nhds hn] with n' hn1 hn2
    have hn2 : 0 < n' := hn2
    by_contra hle
    have h2 := (gammainc_strictMono (2 * n') (by linarith)).monotoneOn ha0 (mem_Ici.2 (bn_pos hn2).le) (not_lt.1 hle)
    rw [bn_half hn2] at h2
    linarith

end Verif.Lemmas

import Verif.Spec.Galaxy
import Verif.Spec.Petrosian
import Verif.Lemmas.Petrosian
import Mathlib.Analysis.SpecialFunctions.Integrals.Basic
import Mathlib.MeasureTheory.Integral.DominatedConvergence

/-!
# Curves of growth of ideal galaxies
-/

set_option linter.unusedSectionVars false

namespace Verif.Lemmas

open Real Set MeasureTheory Filter Topology Verif.Spec

variable {I : ℝ → ℝ} (G : Galaxy I) {q : ℝ}
include G

theorem gal_contOn (q : ℝ) : ContinuousOn (fun t => 2 * π * t * I t * q) (Ici 0) :=
  ((continuousOn_const.mul continuousOn_id).mul G.cont).mul continuousOn_const

theorem gal_int (q : ℝ) {a b : ℝ} (ha : 0 ≤ a) (hb : 0 ≤ b) :
    IntervalIntegrable (fun t => 2 * π * t * I t * q) volume a b := by
  refine ((gal_contOn G q).mono ?_).intervalIntegrable
  intro t ht
  exact le_trans (le_min ha hb) ht.1

theorem gal_sub (q : ℝ) {a b : ℝ} (ha : 0 ≤ a) (hb : 0 ≤ b) :
    enclosed I q b - enclosed I q a = ∫ t in a..b, 2 * π * t * I t * q := by
  unfold enclosed
  have := intervalIntegral.integral_add_adjacent_intervals (gal_int G q le_rfl ha) (gal_int G q ha hb)
  linarith

omit G in
theorem gal_ring_area (c q a b : ℝ) : ∫ t in a..b, 2 * π * t * c * q = c * (π * q * b ^ 2 - π * q * a ^ 2) := by
  have h : (fun t : ℝ => 2 * π * t * c * q) = fun t => (2 * π * c * q) * t := funext fun t => by ring
  rw [h, intervalIntegral.integral_const_mul, integral_id]
  ring

theorem gal_ring (hq : 0 < q) {a b : ℝ} (ha : 0 ≤ a) (hab : a ≤ b) :
    I b * (π * q * b ^ 2 - π * q * a ^ 2) ≤ enclosed I q b - enclosed I q a ∧
      enclosed I q b - enclosed I q a ≤ I a * (π * q * b ^ 2 - π * q * a ^ 2) := by
  have hb := ha.trans hab
  have hp := Real.pi_pos
  rw [gal_sub G q ha hb, ← gal_ring_area, ← gal_ring_area]
  have hc : ∀ c : ℝ, IntervalIntegrable (fun t : ℝ => 2 * π * t * c * q) volume a b := fun c =>
    (by fun_prop : Continuous fun t : ℝ => 2 * π * t * c * q).intervalIntegrable _ _
  constructor
  · refine intervalIntegral.integral_mono_on hab (hc _) (gal_int G q ha hb) fun t ht => ?_
    have ht0 : 0 ≤ t := ha.trans ht.1
    have : I b ≤ I t := G.falls.antitoneOn ht0 hb ht.2
    have h2 : 0 ≤ 2 * π * t := by positivity
    exact mul_le_mul_of_nonneg_right (mul_le_mul_of_nonneg_left this h2) hq.le
  · refine intervalIntegral.integral_mono_on hab (gal_int G q ha hb) (hc _) fun t ht => ?_
    have ht0 : 0 ≤ t := ha.trans ht.1
    have : I t ≤ I a := G.falls.antitoneOn ha ht0 ht.1
    have h2 : 0 ≤ 2 * π * t := by positivity
    exact mul_le_mul_of_nonneg_right (mul_le_mul_of_nonneg_left this h2) hq.le

omit G in
theorem gal_zero (q : ℝ) : enclosed I q 0 = 0 := by simp [enclosed]

omit G in
theorem gal_axis (q r : ℝ) : enclosed I q r = q * enclosed I 1 r := by
  unfold enclosed
  rw [← intervalIntegral.integral_const_mul]
  congr 1
  funext t
  ring

theorem gal_strictMono (hq : 0 < q) : StrictMonoOn (enclosed I q) (Ici 0) := by
  intro a ha b hb hab
  have h := (gal_ring G hq (mem_Ici.1 ha) hab.le).1
  have hI := G.pos b hb
  have hp := Real.pi_pos
  have hsq : a ^ 2 < b ^ 2 := pow_lt_pow_left₀ hab ha (by norm_num)
  have : 0 < I b * (π * q * b ^ 2 - π * q * a ^ 2) := by
    refine mul_pos hI ?_
    rw [← mul_sub]
    exact mul_pos (mul_pos hp hq) (sub_pos.2 hsq)
  linarith

theorem gal_pos (hq : 0 < q) {r : ℝ} (hr : 0 < r) : 0 < enclosed I q r := by
  have := gal_strictMono G hq (mem_Ici.2 le_rfl) (mem_Ici.2 hr.le) hr
  rwa [gal_zero] at this

theorem gal_cont (q : ℝ) : ContinuousOn (enclosed I q) (Ici 0) := by
  intro x hx
  have hx : 0 ≤ x := hx
  have h := intervalIntegral.continuousOn_primitive_interval'
    (gal_int G q le_rfl (by linarith : (0 : ℝ) ≤ x + 1)) left_mem_uIcc
  rw [uIcc_of_le (by linarith)] at h
  have h2 := h x ⟨hx, by linarith⟩
  refine h2.mono_of_mem_nhdsWithin ?_
  rw [mem_nhdsWithin]
  exact ⟨Iio (x + 1), isOpen_Iio, by simp, fun y hy => ⟨hy.2, le_of_lt hy.1⟩⟩

/-- Local intensity at `s` over the mean intensity inside `t`. -/
noncomputable def mixRatio (I : ℝ → ℝ) (s t : ℝ) : ℝ := I s / (enclosed I 1 t / (π * t ^ 2))

omit G in
theorem mixRatio_self (r : ℝ) : mixRatio I r r = petroRatio I r := rfl

omit G in
theorem mixRatio_axis (hq : 0 < q) (s t : ℝ) : mixRatio I s t = I s / (enclosed I q t / (π * q * t ^ 2)) := by
  unfold mixRatio
  rw [gal_axis q]
  congr 1
  rw [show π * q * t ^ 2 = q * (π * t ^ 2) by ring, mul_div_mul_left _ _ hq.ne']

theorem mixRatio_contOn : ContinuousOn (fun p : ℝ × ℝ => mixRatio I p.1 p.2) (Ioi 0 ×ˢ Ioi 0) := by
  unfold mixRatio
  have h1 : ContinuousOn (fun p : ℝ × ℝ => I p.1) (Ioi 0 ×ˢ Ioi 0) :=
    G.cont.comp continuousOn_fst fun p hp => mem_Ici.2 (le_of_lt (mem_Ioi.1 hp.1))
  have h2 : ContinuousOn (fun p : ℝ × ℝ => enclosed I 1 p.2) (Ioi 0 ×ˢ Ioi 0) :=
    (gal_cont G 1).comp continuousOn_snd fun p hp => mem_Ici.2 (le_of_lt (mem_Ioi.1 hp.2))
  refine h1.div (h2.div (by fun_prop) ?_) ?_
  · intro p hp
    have := Real.pi_pos
    have h : (0 : ℝ) < p.2 := hp.2
    positivity
  · intro p hp
    have := Real.pi_pos
    have h : (0 : ℝ) < p.2 := hp.2
    have := gal_pos G one_pos h
    positivity

/-- Near a radius with Petrosian ratio below `v`, every mixed ratio is below `v`. -/
theorem mixRatio_near {r v : ℝ} (hr : 0 < r) (hv : petroRatio I r < v) :
    ∃ ρ > 0, ∀ s t, |s - r| ≤ ρ → |t - r| ≤ ρ → mixRatio I s t < v := by
  have hc : ContinuousAt (fun p : ℝ × ℝ => mixRatio I p.1 p.2) (r, r) :=
    (mixRatio_contOn G).continuousAt ((isOpen_Ioi.prod isOpen_Ioi).mem_nhds ⟨hr, hr⟩)
  have := hc.eventually (gt_mem_nhds (show mixRatio I r r < v from hv))
  obtain ⟨ρ, hρ, h⟩ := Metric.eventually_nhds_iff.1 this
  refine ⟨ρ / 2, by linarith, fun s t hs ht => @h (s, t) ?_⟩
  rw [Prod.dist_eq, Real.dist_eq, Real.dist_eq]
  exact max_lt (by linarith) (by linarith)

theorem petroRatio_continuousAt {r : ℝ} (hr : 0 < r) : ContinuousAt (petroRatio I) r := by
  have hc : ContinuousAt (fun p : ℝ × ℝ => mixRatio I p.1 p.2) (r, r) :=
    (mixRatio_contOn G).continuousAt ((isOpen_Ioi.prod isOpen_Ioi).mem_nhds ⟨hr, hr⟩)
  exact ContinuousAt.comp (f := fun r : ℝ => (r, r)) hc (by fun_prop)

/-- The Petrosian ratio is positive and less than one. -/
theorem petroRatio_mem {r : ℝ} (hr : 0 < r) : 0 < petroRatio I r ∧ petroRatio I r < 1 := by
  have hp := Real.pi_pos
  have hE := gal_pos G one_pos hr
  have hle : ∀ s, 0 < s → petroRatio I s ≤ 1 := by
    intro s hs
    have hE := gal_pos G one_pos hs
    have h := (gal_ring G one_pos le_rfl hs.le).1
    rw [gal_zero] at h
    unfold petroRatio
    rw [div_le_one (by positivity), le_div_iff₀ (by positivity)]
    linarith
  refine ⟨?_, ?_⟩
  · unfold petroRatio
    have := G.pos r hr.le
    positivity
  · have h1 := G.ratioFalls (mem_Ioi.2 (half_pos hr)) (mem_Ioi.2 hr) (half_lt_self hr)
    exact lt_of_lt_of_le h1 (hle _ (half_pos hr))

/-- The ring ratio computed by the code is between the Petrosian ratio at the outer radius and the mixed ratio, and at most 1. -/
theorem gal_ratio (hq : 0 < q) {a b : ℝ} (ha : 0 ≤ a) (hab : a < b) :
    ∃ v, ratio (π * q * a ^ 2) (enclosed I q a) (π * q * b ^ 2) (enclosed I q b) = F.fin v ∧
      petroRatio I b ≤ v ∧ v ≤ mixRatio I a b ∧ v ≤ 1 := by
  have hb : 0 < b := lt_of_le_of_lt ha hab
  have hp := Real.pi_pos
  have hE := gal_pos G hq hb
  have hsq : a ^ 2 < b ^ 2 := pow_lt_pow_left₀ hab ha (by norm_num)
  have hA : 0 < π * q * b ^ 2 - π * q * a ^ 2 := by
    rw [← mul_sub]
    exact mul_pos (mul_pos hp hq) (sub_pos.2 hsq)
  have hB : 0 < π * q * b ^ 2 := by positivity
  have hm : 0 < enclosed I q b / (π * q * b ^ 2) := div_pos hE hB
  obtain ⟨h1, h2⟩ := gal_ring G hq ha hab.le
  refine ⟨(enclosed I q b - enclosed I q a) / (π * q * b ^ 2 - π * q * a ^ 2) / (enclosed I q b / (π * q * b ^ 2)), ?_, ?_, ?_, ?_⟩
  · unfold ratio
    rw [F.fin_div_of_ne _ hA.ne', F.fin_div_of_ne _ hB.ne', F.fin_div_of_ne _ hm.ne']
  · rw [← mixRatio_self, mixRatio_axis hq]
    refine div_le_div_of_nonneg_right ?_ hm.le
    rw [le_div_iff₀ hA]
    exact h1
  · rw [mixRatio_axis hq]
    refine div_le_div_of_nonneg_right ?_ hm.le
    rw [div_le_iff₀ hA]
    exact h2
  · rw [div_le_one hm, div_le_div_iff₀ hA hB]
    -- the inner mean is at least the ring mean
    have h3 := (gal_ring G hq le_rfl ha).1
    rw [gal_zero] at h3
    have h4 : (enclosed I q b - enclosed I q a) * (π * q * a ^ 2) ≤ enclosed I q a * (π * q * b ^ 2 - π * q * a ^ 2) := by
      calc (enclosed I q b - enclosed I q a) * (π * q * a ^ 2)
          ≤ I a * (π * q * b ^ 2 - π * q * a ^ 2) * (π * q * a ^ 2) := mul_le_mul_of_nonneg_right h2 (by positivity)
        _ = (I a * (π * q * a ^ 2 - π * q * 0 ^ 2)) * (π * q * b ^ 2 - π * q * a ^ 2) := by ring
        _ ≤ _ := mul_le_mul_of_nonneg_right (by linarith) hA.le
    nlinarith
  
end Verif.Lemmas

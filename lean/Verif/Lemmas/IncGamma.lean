import Verif.Model.Profiles
import Mathlib.Analysis.SpecialFunctions.Pow.Asymptotics
import Mathlib.Analysis.SpecialFunctions.Pow.Deriv
import Mathlib.Analysis.Calculus.Deriv.MeanValue
import Mathlib.MeasureTheory.Integral.IntegralEqImproper
import Mathlib.Topology.Order.IntermediateValue

/-!
# The incomplete gamma function
-/

namespace Verif.Lemmas

open Real Set Filter Topology MeasureTheory

theorem gammaInt (s : ℝ) (hs : 0 < s) {a b : ℝ} (ha : 0 ≤ a) (hb : 0 ≤ b) :
    IntervalIntegrable (fun t : ℝ => Real.exp (-t) * t ^ (s - 1)) volume a b := by
  rw [intervalIntegrable_iff]
  refine (Real.GammaIntegral_convergent hs).mono_set ?_
  intro t ht
  exact lt_of_le_of_lt (le_min ha hb) ht.1

theorem lowerGamma_zero (s : ℝ) : lowerGamma s 0 = 0 := by simp [lowerGamma]

theorem lowerGamma_hasDerivAt (s : ℝ) (hs : 0 < s) {x : ℝ} (hx : 0 < x) :
    HasDerivAt (lowerGamma s) (Real.exp (-x) * x ^ (s - 1)) x := by
  unfold lowerGamma
  have hc : ∀ y : ℝ, 0 < y → ContinuousAt (fun t : ℝ => Real.exp (-t) * t ^ (s - 1)) y := by
    intro y hy
    exact (Real.continuous_exp.comp continuous_neg).continuousAt.mul
      (Real.continuousAt_rpow_const _ _ (Or.inl hy.ne'))
  refine intervalIntegral.integral_hasDerivAt_right (gammaInt s hs le_rfl hx.le) ?_ (hc x hx)
  have : ContinuousOn (fun t : ℝ => Real.exp (-t) * t ^ (s - 1)) (Ioi 0) :=
    fun y hy => (hc y hy).continuousWithinAt
  exact this.stronglyMeasurableAtFilter isOpen_Ioi x hx

theorem lowerGamma_continuousOn (s : ℝ) (hs : 0 < s) : ContinuousOn (lowerGamma s) (Ici 0) := by
  intro x hx
  have hx : 0 ≤ x := hx
  have h := intervalIntegral.continuousOn_primitive_interval'
    (gammaInt s hs le_rfl (by linarith : (0 : ℝ) ≤ x + 1)) (left_mem_uIcc)
  rw [uIcc_of_le (by linarith)] at h
  have h2 := h x ⟨hx, by linarith⟩
  refine h2.mono_of_mem_nhdsWithin ?_
  rw [mem_nhdsWithin]
  exact ⟨Iio (x + 1), isOpen_Iio, by simp, fun y hy => ⟨hy.2, le_of_lt hy.1⟩⟩

theorem lowerGamma_strictMono (s : ℝ) (hs : 0 < s) : StrictMonoOn (lowerGamma s) (Ici 0) := by
  refine strictMonoOn_of_deriv_pos (convex_Ici 0) (lowerGamma_continuousOn s hs) ?_
  intro x hx
  rw [interior_Ici] at hx
  rw [(lowerGamma_hasDerivAt s hs hx).deriv]
  exact mul_pos (Real.exp_pos _) (Real.rpow_pos_of_pos hx _)

theorem lowerGamma_pos (s : ℝ) (hs : 0 < s) {x : ℝ} (hx : 0 < x) : 0 < lowerGamma s x := by
  have := lowerGamma_strictMono s hs (mem_Ici.2 le_rfl) (mem_Ici.2 hx.le) hx
  rwa [lowerGamma_zero] at this

theorem lowerGamma_tendsto (s : ℝ) (hs : 0 < s) :
    Tendsto (lowerGamma s) atTop (𝓝 (Real.Gamma s)) := by
  rw [Real.Gamma_eq_integral hs]
  exact intervalIntegral_tendsto_integral_Ioi 0 (Real.GammaIntegral_convergent hs) tendsto_id

theorem lowerGamma_lt (s : ℝ) (hs : 0 < s) {x : ℝ} (hx : 0 ≤ x) :
    lowerGamma s x < Real.Gamma s := by
  have h1 : lowerGamma s x < lowerGamma s (x + 1) :=
    lowerGamma_strictMono s hs (mem_Ici.2 hx) (mem_Ici.2 (by linarith)) (by linarith)
  have h2 : lowerGamma s (x + 1) ≤ Real.Gamma s := by
    refine ge_of_tendsto (lowerGamma_tendsto s hs) ?_
    filter_upwards [eventually_ge_atTop (x + 1)] with y hy
    exact (lowerGamma_strictMono s hs).monotoneOn (mem_Ici.2 (by linarith))
      (mem_Ici.2 (by linarith)) hy
  exact lt_of_lt_of_le h1 h2

/-! ### `gammainc` -/

theorem gammainc_strictMono (s : ℝ) (hs : 0 < s) : StrictMonoOn (gammainc s) (Ici 0) := by
  intro x hx y hy hxy
  exact div_lt_div_of_pos_right (lowerGamma_strictMono s hs hx hy hxy)
    (Real.Gamma_pos_of_pos hs)

theorem gammainc_zero (s : ℝ) : gammainc s 0 = 0 := by simp [gammainc, lowerGamma_zero]

theorem gammainc_lt_one (s : ℝ) (hs : 0 < s) {x : ℝ} (hx : 0 ≤ x) : gammainc s x < 1 := by
  unfold gammainc
  rw [div_lt_one (Real.Gamma_pos_of_pos hs)]
  exact lowerGamma_lt s hs hx

theorem gammainc_nonneg (s : ℝ) (hs : 0 < s) {x : ℝ} (hx : 0 ≤ x) : 0 ≤ gammainc s x := by
  have := (gammainc_strictMono s hs).monotoneOn (mem_Ici.2 le_rfl) (mem_Ici.2 hx) hx
  rwa [gammainc_zero] at this

theorem gammainc_tendsto (s : ℝ) (hs : 0 < s) : Tendsto (gammainc s) atTop (𝓝 1) := by
  have := (lowerGamma_tendsto s hs).div_const (Real.Gamma s)
  rwa [div_self (Real.Gamma_pos_of_pos hs).ne'] at this

theorem gammainc_surj (s : ℝ) (hs : 0 < s) {p : ℝ} (h0 : 0 ≤ p) (h1 : p < 1) :
    ∃ x, 0 ≤ x ∧ gammainc s x = p := by
  obtain ⟨M, hM0, hM⟩ : ∃ M, 0 ≤ M ∧ p < gammainc s M := by
    have := ((gammainc_tendsto s hs).eventually (lt_mem_nhds h1)).and (eventually_ge_atTop 0)
    obtain ⟨M, hM⟩ := this.exists
    exact ⟨M, hM.2, hM.1⟩
  have hc : ContinuousOn (gammainc s) (Icc 0 M) :=
    ((lowerGamma_continuousOn s hs).div_const _).mono Icc_subset_Ici_self
  have := intermediate_value_Icc hM0 hc
  rw [gammainc_zero] at this
  obtain ⟨x, hx, hxp⟩ := this ⟨h0, hM.le⟩
  exact ⟨x, hx.1, hxp⟩

theorem gammaincinv_spec (s : ℝ) (hs : 0 < s) {p : ℝ} (h0 : 0 ≤ p) (h1 : p < 1) :
    0 ≤ gammaincinv s p ∧ gammainc s (gammaincinv s p) = p := by
  have h := gammainc_surj s hs h0 h1
  unfold gammaincinv
  rw [dif_pos h]
  exact Classical.choose_spec h

/-- The value of `gammaincinv` is determined by the specification, so the choice in its
definition does not matter. -/
theorem gammaincinv_unique (s : ℝ) (hs : 0 < s) {p x : ℝ} (hx : 0 ≤ x)
    (h : gammainc s x = p) : gammaincinv s p = x := by
  have h0 : 0 ≤ p := h ▸ gammainc_nonneg s hs hx
  have h1 : p < 1 := h ▸ gammainc_lt_one s hs hx
  obtain ⟨g0, g1⟩ := gammaincinv_spec s hs h0 h1
  exact (gammainc_strictMono s hs).injOn (mem_Ici.2 g0) (mem_Ici.2 hx) (g1.trans h.symm)

theorem bn_pos {n : ℝ} (hn : 0 < n) : 0 < bn n := by
  obtain ⟨g0, g1⟩ := gammaincinv_spec (2 * n) (by linarith) (p := 1 / 2) (by norm_num)
    (by norm_num)
  refine lt_of_le_of_ne g0 ?_
  intro h
  unfold bn at h
  rw [← h, gammainc_zero] at g1
  norm_num at g1

theorem bn_half {n : ℝ} (hn : 0 < n) : gammainc (2 * n) (bn n) = 1 / 2 :=
  (gammaincinv_spec (2 * n) (by linarith) (p := 1 / 2) (by norm_num) (by norm_num)).2

theorem gamma_mul_gammainc (s x : ℝ) (hs : 0 < s) :
    Real.Gamma s * gammainc s x = lowerGamma s x := by
  unfold gammainc
  rw [mul_div_cancel₀ _ (Real.Gamma_pos_of_pos hs).ne']

/-! ### The recurrence and the ratio `x^s e^{-x} / (s γ(s, x))` -/

theorem lowerGamma_succ (s : ℝ) (hs : 0 < s) {x : ℝ} (hx : 0 ≤ x) :
    s * lowerGamma s x = Real.exp (-x) * x ^ s + lowerGamma (s + 1) x := by
  have hkc : Continuous (fun t : ℝ => Real.exp (-t) * t ^ s) :=
    (Real.continuous_exp.comp continuous_neg).mul (Real.continuous_rpow_const hs.le)
  have hd : ∀ t ∈ Ioo 0 x, HasDerivAt
      (fun t => s * lowerGamma s t - Real.exp (-t) * t ^ s - lowerGamma (s + 1) t) 0 t := by
    intro t ht
    have h1 := (lowerGamma_hasDerivAt s hs ht.1).const_mul s
    have h2 := (lowerGamma_hasDerivAt (s + 1) (by linarith) ht.1)
    have h3 : HasDerivAt (fun t : ℝ => Real.exp (-t)) (-Real.exp (-t)) t := by
      exact ((Real.hasDerivAt_exp (-t)).comp t (hasDerivAt_neg t)).congr_deriv (by ring)
    have h4 := Real.hasDerivAt_rpow_const (x := t) (p := s) (Or.inl ht.1.ne')
    have h5 := (h1.sub (h3.mul h4)).sub h2
    refine h5.congr_deriv ?_
    rw [add_sub_cancel_right]
    ring
  have hc : ContinuousOn
      (fun t => s * lowerGamma s t - Real.exp (-t) * t ^ s - lowerGamma (s + 1) t)
      (Icc 0 x) :=
    ((((lowerGamma_continuousOn s hs).const_smul s).sub hkc.continuousOn).sub
      (lowerGamma_continuousOn (s + 1) (by linarith))).mono Icc_subset_Ici_self
  have := intervalIntegral.integral_eq_sub_of_hasDerivAt_of_le hx hc hd (by simp)
  simp only [intervalIntegral.integral_zero, lowerGamma_zero, Real.zero_rpow hs.ne'] at this
  linarith

theorem lowerGamma_succ_lt (s : ℝ) (hs : 0 < s) {x : ℝ} (hx : 0 < x) :
    lowerGamma (s + 1) x < x * lowerGamma s x := by
  -- `x γ(s,x) - γ(s+1,x)` is 0 at 0 and has derivative `γ(s,x) > 0`
  have hd : ∀ t ∈ Ioi (0 : ℝ), HasDerivAt
      (fun t => t * lowerGamma s t - lowerGamma (s + 1) t) (lowerGamma s t) t := by
    intro t ht
    have ht : 0 < t := ht
    have h1 := (hasDerivAt_id t).mul (lowerGamma_hasDerivAt s hs ht)
    have h2 := (lowerGamma_hasDerivAt (s + 1) (by linarith) ht)
    refine (h1.sub h2).congr_deriv ?_
    have : t ^ s = t * t ^ (s - 1) := by
      rw [Real.rpow_sub_one ht.ne']
      field_simp
    rw [add_sub_cancel_right, this]
    simp only [id]
    ring
  have hm : StrictMonoOn (fun t => t * lowerGamma s t - lowerGamma (s + 1) t) (Ici 0) := by
    refine strictMonoOn_of_deriv_pos (convex_Ici 0) ?_ ?_
    · exact (continuousOn_id.mul (lowerGamma_continuousOn s hs)).sub
        (lowerGamma_continuousOn (s + 1) (by linarith))
    · intro t ht
      rw [interior_Ici] at ht
      rw [(hd t ht).deriv]
      exact lowerGamma_pos s hs ht
  have := hm (mem_Ici.2 le_rfl) (mem_Ici.2 hx.le) hx
  simp only [lowerGamma_zero] at this
  linarith

/-- `x^s e^{-x} / (s γ(s, x))`. -/
noncomputable def etaOf (s x : ℝ) : ℝ := (Real.exp (-x) * x ^ s) / (s * lowerGamma s x)

theorem etaOf_pos (s : ℝ) (hs : 0 < s) {x : ℝ} (hx : 0 < x) : 0 < etaOf s x :=
  div_pos (mul_pos (Real.exp_pos _) (Real.rpow_pos_of_pos hx _))
    (mul_pos hs (lowerGamma_pos s hs hx))

theorem etaOf_lt_one (s : ℝ) (hs : 0 < s) {x : ℝ} (hx : 0 < x) : etaOf s x < 1 := by
  unfold etaOf
  rw [div_lt_one (mul_pos hs (lowerGamma_pos s hs hx)), lowerGamma_succ s hs hx.le]
  have := lowerGamma_pos (s + 1) (by linarith) hx
  linarith

theorem etaOf_gt (s : ℝ) (hs : 0 < s) {x : ℝ} (hx : 0 < x) : 1 - x / s < etaOf s x := by
  have hg := lowerGamma_pos s hs hx
  unfold etaOf
  rw [lt_div_iff₀ (mul_pos hs hg)]
  have h1 := lowerGamma_succ s hs hx.le
  have h2 := lowerGamma_succ_lt s hs hx
  have : (1 - x / s) * (s * lowerGamma s x) = s * lowerGamma s x - x * lowerGamma s x := by
    field_simp
  rw [this]
  linarith

theorem etaOf_hasDerivAt (s : ℝ) (hs : 0 < s) {x : ℝ} (hx : 0 < x) :
    HasDerivAt (etaOf s) (Real.exp (-x) * x ^ s / (s * lowerGamma s x ^ 2 * x) *
      (lowerGamma (s + 1) x - x * lowerGamma s x)) x := by
  have hg := lowerGamma_pos s hs hx
  have h1 := (lowerGamma_hasDerivAt s hs hx).const_mul s
  have h3 : HasDerivAt (fun t : ℝ => Real.exp (-t)) (-Real.exp (-x)) x := by
    exact ((Real.hasDerivAt_exp (-x)).comp x (hasDerivAt_neg x)).congr_deriv (by ring)
  have h4 := Real.hasDerivAt_rpow_const (x := x) (p := s) (Or.inl hx.ne')
  have h5 := (h3.mul h4).div h1 (mul_pos hs hg).ne'
  refine h5.congr_deriv ?_
  have e1 : x ^ (s - 1) = x ^ s / x := Real.rpow_sub_one hx.ne' s
  have e2 := lowerGamma_succ s hs hx.le
  have e3 : lowerGamma (s + 1) x = s * lowerGamma s x - Real.exp (-x) * x ^ s := by linarith
  rw [e1, e3]
  field_simp
  simp only [Pi.mul_apply]
  ring

theorem etaOf_strictAnti (s : ℝ) (hs : 0 < s) : StrictAntiOn (etaOf s) (Ioi 0) := by
  refine strictAntiOn_of_deriv_neg (convex_Ioi 0) ?_ ?_
  · intro x hx
    exact (etaOf_hasDerivAt s hs hx).continuousAt.continuousWithinAt
  · intro x hx
    rw [interior_Ioi] at hx
    have hx : 0 < x := hx
    rw [(etaOf_hasDerivAt s hs hx).deriv]
    have hg := lowerGamma_pos s hs hx
    refine mul_neg_of_pos_of_neg ?_ ?_
    · exact div_pos (mul_pos (Real.exp_pos _) (Real.rpow_pos_of_pos hx _)) (by positivity)
    · have := lowerGamma_succ_lt s hs hx
      linarith

theorem etaOf_continuousOn (s : ℝ) (hs : 0 < s) : ContinuousOn (etaOf s) (Ioi 0) := fun _ hx =>
  (etaOf_hasDerivAt s hs hx).continuousAt.continuousWithinAt

theorem etaOf_tendsto_zero (s : ℝ) (hs : 0 < s) : Tendsto (etaOf s) (𝓝[>] 0) (𝓝 1) := by
  have hl : Tendsto (fun x : ℝ => 1 - x / s) (𝓝[>] 0) (𝓝 1) := by
    have : Tendsto (fun x : ℝ => 1 - x / s) (𝓝 0) (𝓝 (1 - 0 / s)) :=
      (continuous_const.sub (continuous_id.div_const s)).tendsto 0
    rw [zero_div, sub_zero] at this
    exact this.mono_left nhdsWithin_le_nhds
  refine tendsto_of_tendsto_of_tendsto_of_le_of_le' hl tendsto_const_nhds ?_ ?_
  · filter_upwards [self_mem_nhdsWithin] with x hx using (etaOf_gt s hs hx).le
  · filter_upwards [self_mem_nhdsWithin] with x hx using (etaOf_lt_one s hs hx).le

theorem etaOf_tendsto_top (s : ℝ) (hs : 0 < s) : Tendsto (etaOf s) atTop (𝓝 0) := by
  have h1 : Tendsto (fun x : ℝ => Real.exp (-x) * x ^ s) atTop (𝓝 0) := by
    refine (tendsto_rpow_mul_exp_neg_mul_atTop_nhds_zero s 1 one_pos).congr ?_
    intro x
    rw [neg_one_mul, mul_comm]
  have h2 := (lowerGamma_tendsto s hs).const_mul s
  have h3 := h1.div h2 (mul_pos hs (Real.Gamma_pos_of_pos hs)).ne'
  rwa [zero_div] at h3

theorem etaOf_surj (s : ℝ) (hs : 0 < s) {p : ℝ} (h0 : 0 < p) (h1 : p < 1) :
    ∃ x, 0 < x ∧ etaOf s x = p := by
  obtain ⟨a, ha0, ha⟩ : ∃ a, 0 < a ∧ p < etaOf s a := by
    have := ((etaOf_tendsto_zero s hs).eventually (lt_mem_nhds h1)).and self_mem_nhdsWithin
    obtain ⟨a, ha⟩ := this.exists
    exact ⟨a, ha.2, ha.1⟩
  obtain ⟨b, hb0, hb⟩ : ∃ b, a ≤ b ∧ etaOf s b < p := by
    have := ((etaOf_tendsto_top s hs).eventually (gt_mem_nhds h0)).and (eventually_ge_atTop a)
    obtain ⟨b, hb⟩ := this.exists
    exact ⟨b, hb.2, hb.1⟩
  have hc : ContinuousOn (etaOf s) (Icc a b) :=
    (etaOf_continuousOn s hs).mono (fun x hx => lt_of_lt_of_le ha0 hx.1)
  obtain ⟨x, hx, hxp⟩ := intermediate_value_Icc' hb0 hc ⟨hb.le, ha.le⟩
  exact ⟨x, lt_of_lt_of_le ha0 hx.1, hxp⟩

end Verif.Lemmas

import Verif.Lemmas.EllipseArea
import Verif.Spec.Profiles
import Mathlib.Analysis.SpecialFunctions.PolarCoord
import Mathlib.MeasureTheory.Integral.Prod
import Mathlib.MeasureTheory.Integral.IntervalIntegral.FundThmCalculus

/-!
# The integral of a profile with elliptical isophotes over one of its isophotes
-/

set_option linter.unusedSectionVars false

namespace Verif.Lemmas

open MeasureTheory Real Set

/-- Integration over the plane in the coordinates in which an ellipse is the unit disc. -/
theorem integral_toDisc (e : Ellipse ℝ) (ha : 0 < e.a) (hb : 0 < e.b) (G : ℝ × ℝ → ℝ) :
    ∫ p : ℝ × ℝ, G (toDisc e (p - (e.cx, e.cy))) = e.a * e.b * ∫ u, G u := by
  have hd := toDisc_det e ha hb
  have hab : 0 < e.a * e.b := mul_pos ha hb
  have hd0 : LinearMap.det (toDisc e) ≠ 0 := by rw [hd]; positivity
  rw [integral_sub_right_eq_self (fun p => G (toDisc e p)) (e.cx, e.cy)]
  let E : (ℝ × ℝ) ≃L[ℝ] ℝ × ℝ := (LinearMap.equivOfDetNeZero (toDisc e) hd0).toContinuousLinearEquiv
  have hE : ∀ p, E p = toDisc e p := fun p => rfl
  have hme : MeasurableEmbedding (toDisc e) := by
    have := E.toHomeomorph.measurableEmbedding
    exact this
  rw [← hme.integral_map, Measure.map_linearMap_addHaar_eq_smul_addHaar _ hd0, integral_smul_measure, hd,
    ENNReal.toReal_ofReal (abs_nonneg _), one_div, inv_inv, abs_of_pos hab, smul_eq_mul]

/-- A function of the distance from the origin, over the unit disc. -/
theorem integral_disc (J : ℝ → ℝ) :
    ∫ u : ℝ × ℝ, disc.indicator (fun u => J (√(u.1 ^ 2 + u.2 ^ 2))) u = 2 * π * ∫ s in (0 : ℝ)..1, s * J s := by
  rw [← integral_comp_polarCoord_symm]
  have h1 : ∀ p ∈ polarCoord.target, p.1 • disc.indicator (fun u => J (√(u.1 ^ 2 + u.2 ^ 2))) (polarCoord.symm p) =
      (Iio (1 : ℝ)).indicator (fun s => s * J s) p.1 * 1 := by
    rintro ⟨s, φ⟩ ⟨hs, -⟩
    have hs : 0 < s := hs
    have hsq : (s * cos φ) ^ 2 + (s * sin φ) ^ 2 = s ^ 2 := by
      have := cos_sq_add_sin_sq φ
      linear_combination s ^ 2 * this
    by_cases h : s < 1
    · rw [indicator_of_mem (show s ∈ Iio (1 : ℝ) from h), indicator_of_mem]
      · simp only [polarCoord_symm_apply, hsq, Real.sqrt_sq hs.le, smul_eq_mul, mul_one]
      · simp only [disc, mem_setOf_eq, polarCoord_symm_apply, hsq]
        nlinarith
    · rw [indicator_of_notMem (show s ∉ Iio (1 : ℝ) from h), indicator_of_notMem]
      · simp
      · simp only [disc, mem_setOf_eq, polarCoord_symm_apply, hsq, not_lt]
        nlinarith [not_lt.1 h]
  rw [setIntegral_congr_fun polarCoord.open_target.measurableSet h1, polarCoord_target, Measure.volume_eq_prod]
  rw [setIntegral_prod_mul ((Iio (1 : ℝ)).indicator fun s => s * J s) (fun _ => (1 : ℝ))]
  rw [setIntegral_indicator measurableSet_Iio, setIntegral_const, measureReal_def, Real.volume_Ioo, Ioi_inter_Iio,
    ENNReal.toReal_ofReal (by linarith [pi_pos]), intervalIntegral.integral_of_le zero_le_one, integral_Ioc_eq_integral_Ioo]
  simp only [smul_eq_mul, mul_one]
  ring

/-- The light of a profile with elliptical isophotes inside an isophote: the integral over the plane is the integral over the radius. -/
theorem integral_isophote (I : ℝ → ℝ) {x0 y0 r ellip theta : ℝ} (hr : 0 < r) (he : ellip < 1) :
    ∫ p in (⟨x0, y0, r, r * (1 - ellip), theta⟩ : Ellipse ℝ).set, I (Spec.ellRadius p.1 p.2 x0 y0 ellip theta) =
      Spec.enclosed I (1 - ellip) r := by
  set e : Ellipse ℝ := ⟨x0, y0, r, r * (1 - ellip), theta⟩ with hedef
  have hq : 0 < 1 - ellip := by linarith
  have hb : 0 < e.b := mul_pos hr hq
  rw [← integral_indicator (ellipse_open e).measurableSet]
  have h1 : ∀ p : ℝ × ℝ, e.set.indicator (fun p => I (Spec.ellRadius p.1 p.2 x0 y0 ellip theta)) p =
      disc.indicator (fun u => I (r * √(u.1 ^ 2 + u.2 ^ 2))) (toDisc e (p - (e.cx, e.cy))) := by
    intro p
    have hmem : p ∈ e.set ↔ toDisc e (p - (e.cx, e.cy)) ∈ disc := by
      conv_lhs => rw [ellipse_preimage]
      exact Iff.rfl
    by_cases h : p ∈ e.set
    · rw [indicator_of_mem h, indicator_of_mem (hmem.1 h)]
      congr 1
      rw [toDisc_apply]
      unfold Spec.ellRadius
      have : ∀ x : ℝ, r * √x = √(r ^ 2 * x) := by
        intro x; rw [Real.sqrt_mul (by positivity), Real.sqrt_sq hr.le]
      rw [this]
      congr 1
      simp only [hedef, Prod.fst_sub, Prod.snd_sub]
      field_simp
    · rw [indicator_of_notMem h, indicator_of_notMem (fun h' => h (hmem.2 h'))]
  simp only [h1]
  rw [integral_toDisc e hr hb, integral_disc fun s => I (r * s)]
  unfold Spec.enclosed
  have hsub := intervalIntegral.integral_comp_mul_left (a := (0 : ℝ)) (b := 1) (fun t => t * I t) hr.ne'
  have hs2 : ∫ s in (0 : ℝ)..1, s * I (r * s) = r⁻¹ * ∫ s in (0 : ℝ)..1, r * s * I (r * s) := by
    rw [← intervalIntegral.integral_const_mul]
    congr 1; funext s; field_simp
  rw [hs2, hsub, mul_zero, mul_one, smul_eq_mul]
  have h3 : ∫ t in (0 : ℝ)..r, 2 * π * t * I t * (1 - ellip) = 2 * π * (1 - ellip) * ∫ t in (0 : ℝ)..r, t * I t := by
    rw [← intervalIntegral.integral_const_mul]
    congr 1; funext t; ring
  rw [h3]
  simp only [hedef]
  field_simp

end Verif.Lemmas

import Verif.Lemmas.EllipseIntegral
import Mathlib.MeasureTheory.Integral.Bochner.ContinuousLinearMap
import Mathlib.MeasureTheory.Integral.IntervalIntegral.FundThmCalculus
import Mathlib.Analysis.SpecialFunctions.Integrals.Basic

/-!
# The integral over the plane of a function of a homogeneous function
-/

set_option linter.unusedSectionVars false

namespace Verif.Lemmas

open MeasureTheory Real Set

variable {N : ℝ × ℝ → ℝ}

theorem volume_below (h0 : ∀ u, 0 ≤ N u) (hs : ∀ t : ℝ, 0 < t → ∀ u, N (t • u) = t * N u) (b : ℝ) :
    volume {u | N u < b} = ENNReal.ofReal (max b 0 ^ 2) * volume {u | N u < 1} := by
  rcases le_or_gt b 0 with hb | hb
  · have : {u | N u < b} = ∅ := by
      ext u; simp only [mem_setOf_eq, mem_empty_iff_false, iff_false, not_lt]; exact hb.trans (h0 u)
    rw [this, max_eq_right hb]; simp
  · have : {u | N u < b} = (b⁻¹ • ·) ⁻¹' {u | N u < 1} := by
      ext u
      simp only [mem_preimage, mem_setOf_eq, hs _ (inv_pos.2 hb)]
      rw [inv_mul_lt_iff₀ hb, mul_one]
    rw [this, Measure.addHaar_preimage_smul _ (inv_ne_zero hb.ne'), max_eq_left hb.le]
    congr 2
    simp [abs_of_pos hb]

/-- If `N` is homogeneous of degree 1, the values of `N` are distributed with density `2 V s`, `V` the area where `N` is below 1. -/
theorem integral_homogeneous (hm : Measurable N) (h0 : ∀ u, 0 ≤ N u) (hs : ∀ t : ℝ, 0 < t → ∀ u, N (t • u) = t * N u)
    (hV : volume {u | N u < 1} ≠ ⊤) {F : ℝ → ℝ} (hF : Measurable F) :
    ∫ u, F (N u) = (volume {u | N u < 1}).toReal * ∫ s in Ioi (0 : ℝ), 2 * s * F s := by
  set V := (volume {u | N u < 1}).toReal with hVdef
  have hV0 : 0 ≤ V := ENNReal.toReal_nonneg
  have hVV : volume {u | N u < 1} = ENNReal.ofReal V := (ENNReal.ofReal_toReal hV).symm
  set d : ℝ → ENNReal := fun s => ENNReal.ofReal (2 * V * s) with hd
  have hdm : Measurable d := by fun_prop
  set ν : Measure ℝ := (volume.restrict (Ioi 0)).withDensity d with hν
  have hIio : ∀ b, Measure.map N volume (Iio b) = ENNReal.ofReal (max b 0 ^ 2 * V) ∧ ν (Iio b) = ENNReal.ofReal (max b 0 ^ 2 * V) := by
    intro b
    constructor
    · rw [Measure.map_apply hm measurableSet_Iio]
      show volume {u | N u < b} = _
      rw [volume_below h0 hs, hVV, ENNReal.ofReal_mul (by positivity)]
    · rw [hν, withDensity_apply _ measurableSet_Iio, Measure.restrict_restrict measurableSet_Iio, inter_comm, Ioi_inter_Iio]
      rcases le_or_gt b 0 with hb | hb
      · rw [Ioo_eq_empty (not_lt.2 hb), max_eq_right hb]; simp
      · rw [max_eq_left hb.le, ← ofReal_integral_eq_lintegral_ofReal]
        · congr 1
          rw [← integral_Ioc_eq_integral_Ioo, ← intervalIntegral.integral_of_le hb.le, intervalIntegral.integral_const_mul, integral_id]
          ring
        · apply IntegrableOn.mono_set (t := Icc 0 b) _ Ioo_subset_Icc_self
          exact Continuous.integrableOn_Icc (by fun_prop)
        · filter_upwards [ae_restrict_mem measurableSet_Ioo] with s hs'
          have := hs'.1
          simp only [Pi.zero_apply]
          positivity
  have heq : Measure.map N volume = ν := by
    have hIco : ∀ (ρ : Measure ℝ), (∀ b, ρ (Iio b) = ENNReal.ofReal (max b 0 ^ 2 * V)) → ∀ a b, a < b →
        ρ (Ico a b) = ENNReal.ofReal (max b 0 ^ 2 * V) - ENNReal.ofReal (max a 0 ^ 2 * V) := by
      intro ρ hρ a b hab
      have : Ico a b = Iio b \ Iio a := by
        ext x; simp [and_comm]
      rw [this, measure_diff (Iio_subset_Iio hab.le) measurableSet_Iio.nullMeasurableSet (by rw [hρ]; exact ENNReal.ofReal_ne_top), hρ, hρ]
    apply Measure.ext_of_Ico'
    · intro a b hab
      rw [hIco _ (fun b => (hIio b).1) a b hab]
      exact ENNReal.sub_ne_top ENNReal.ofReal_ne_top
    · intro a b hab
      rw [hIco _ (fun b => (hIio b).1) a b hab, hIco _ (fun b => (hIio b).2) a b hab]
  rw [← integral_map hm.aemeasurable hF.aestronglyMeasurable, heq, hν, integral_withDensity_eq_integral_toReal_smul hdm
    (Filter.Eventually.of_forall fun _ => ENNReal.ofReal_lt_top), ← integral_const_mul]
  apply setIntegral_congr_fun measurableSet_Ioi
  intro s hs'
  have hs' : 0 < s := hs'
  simp only [hd, smul_eq_mul]
  rw [ENNReal.toReal_ofReal (by positivity)]
  ring

end Verif.Lemmas

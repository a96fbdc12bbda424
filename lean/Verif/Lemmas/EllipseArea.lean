import Verif.Model.Overlap
import Mathlib.MeasureTheory.Measure.Lebesgue.VolumeOfBalls
import Mathlib.MeasureTheory.Measure.Haar.NormedSpace
import Mathlib.LinearAlgebra.Matrix.ToLin
import Mathlib.LinearAlgebra.Determinant

/-!
# The area of an ellipse
-/

set_option linter.unusedSectionVars false

namespace Verif.Lemmas

open MeasureTheory Real

/-- The open unit disc. -/
def disc : Set (ℝ × ℝ) := {p | p.1 ^ 2 + p.2 ^ 2 < 1}

theorem disc_open : IsOpen disc :=
  isOpen_lt (by fun_prop) continuous_const

theorem volume_disc : volume disc = ENNReal.ofReal π := by
  have h := Complex.volume_preserving_equiv_real_prod.measure_preimage disc_open.measurableSet.nullMeasurableSet
  rw [← h]
  have e : Complex.measurableEquivRealProd ⁻¹' disc = Metric.ball (0 : ℂ) 1 := by
    ext z
    simp only [disc, Set.mem_preimage, Set.mem_setOf_eq, Metric.mem_ball, dist_zero_right, Complex.measurableEquivRealProd_apply]
    have : ‖z‖ < 1 ↔ ‖z‖ ^ 2 < 1 := by
      rw [sq_lt_one_iff_abs_lt_one, abs_of_nonneg (norm_nonneg z)]
    rw [this, Complex.sq_norm, Complex.normSq_apply, pow_two, pow_two]
  rw [e, Complex.volume_ball]
  simp [ENNReal.ofReal, NNReal.pi, Real.toNNReal_of_nonneg Real.pi_pos.le]
  rfl

/-- The linear map that sends the centred ellipse to the unit disc. -/
noncomputable def toDisc (e : Ellipse ℝ) : ℝ × ℝ →ₗ[ℝ] ℝ × ℝ :=
  Matrix.toLin (Module.Basis.finTwoProd ℝ) (Module.Basis.finTwoProd ℝ)
    !![cos e.theta / e.a, sin e.theta / e.a; -sin e.theta / e.b, cos e.theta / e.b]

theorem toDisc_apply (e : Ellipse ℝ) (p : ℝ × ℝ) :
    toDisc e p = (cos e.theta / e.a * p.1 + sin e.theta / e.a * p.2, -sin e.theta / e.b * p.1 + cos e.theta / e.b * p.2) := by
  unfold toDisc
  rw [Matrix.toLin_finTwoProd_apply]

theorem toDisc_det (e : Ellipse ℝ) (ha : 0 < e.a) (hb : 0 < e.b) : LinearMap.det (toDisc e) = 1 / (e.a * e.b) := by
  unfold toDisc
  rw [LinearMap.det_toLin, Matrix.det_fin_two_of]
  have := Real.cos_sq_add_sin_sq e.theta
  field_simp
  linarith

theorem ellipse_preimage (e : Ellipse ℝ) :
    e.set = (fun p : ℝ × ℝ => p - (e.cx, e.cy)) ⁻¹' (toDisc e ⁻¹' disc) := by
  ext p
  simp only [Ellipse.set, Set.mem_setOf_eq, Set.mem_preimage, toDisc_apply, disc, Prod.fst_sub, Prod.snd_sub]
  have e1 : ((p.1 - e.cx) * cos e.theta + (p.2 - e.cy) * sin e.theta) / e.a =
      cos e.theta / e.a * (p.1 - e.cx) + sin e.theta / e.a * (p.2 - e.cy) := by ring
  have e2 : ((p.2 - e.cy) * cos e.theta - (p.1 - e.cx) * sin e.theta) / e.b =
      -sin e.theta / e.b * (p.1 - e.cx) + cos e.theta / e.b * (p.2 - e.cy) := by ring
  rw [e1, e2]

theorem ellipse_open (e : Ellipse ℝ) : IsOpen e.set := by
  unfold Ellipse.set
  exact isOpen_lt (by fun_prop) continuous_const

/-- The area of the ellipse is `π a b`. -/
theorem volume_ellipse (e : Ellipse ℝ) (ha : 0 < e.a) (hb : 0 < e.b) : volume e.set = ENNReal.ofReal (π * e.a * e.b) := by
  have hd := toDisc_det e ha hb
  have hab : 0 < e.a * e.b := mul_pos ha hb
  have hm : MeasurableSet (toDisc e ⁻¹' disc) := by
    have hc : Continuous (toDisc e) := LinearMap.continuous_of_finiteDimensional _
    exact (disc_open.preimage hc).measurableSet
  rw [ellipse_preimage, (measurePreserving_sub_right volume (e.cx, e.cy)).measure_preimage hm.nullMeasurableSet,
    Measure.addHaar_preimage_linearMap _ (by rw [hd]; positivity), hd, volume_disc, ← ENNReal.ofReal_mul (abs_nonneg _)]
  congr 1
  rw [one_div, inv_inv, abs_of_pos hab]
  ring

end Verif.Lemmas

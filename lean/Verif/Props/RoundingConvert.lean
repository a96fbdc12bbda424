import Verif.Model.RoundingUtils
import Verif.Props.RoundingProfile
import Verif.Props.Utils

/-!
# C157: the conversions of petrofit/utils.py in floating point
-/

set_option linter.unusedSectionVars false
set_option linter.unusedVariables false

namespace Verif.Spec

/-- `x` is `y` up to a relative error `t`. -/
def RelNear {K : Type} [Field K] [LinearOrder K] (t x y : K) : Prop := |x - y| ≤ t * |y|

end Verif.Spec

namespace Verif.Props

open Verif F Spec

section
variable {K : Type} [Field K] [LinearOrder K] [IsStrictOrderedRing K] {fl : K → K} {u : K}

theorem relErr_zero (hu : RelErr u fl) : fl 0 = 0 := by
  have := hu 0
  rw [abs_zero, mul_zero, sub_zero] at this
  exact abs_eq_zero.1 (le_antisymm this (abs_nonneg _))

theorem relErr_pos (hu : RelErr u fl) (h1 : u < 1) {x : K} (hx : 0 < x) : 0 < fl x := by
  have := hu x
  rw [abs_of_pos hx, abs_le] at this
  nlinarith [this.1]

theorem relErr_ne (hu : RelErr u fl) (h1 : u < 1) {x : K} (hx : x ≠ 0) : fl x ≠ 0 := by
  intro h0
  have := hu x
  rw [h0, zero_sub, abs_neg] at this
  have hp : 0 < |x| := abs_pos.2 hx
  nlinarith

theorem near_fl (hu : RelErr u fl) {t x y : K} (hu0 : 0 ≤ u) (h : RelNear t x y) : RelNear (t + u + t * u) (fl x) y := by
  have h1 := hu x
  unfold RelNear at h ⊢
  have h2 : |x| ≤ (1 + t) * |y| := by
    have := abs_add_le (x - y) y
    rw [sub_add_cancel] at this
    linarith
  have h3 := abs_add_le (fl x - x) (x - y)
  rw [sub_add_sub_cancel] at h3
  nlinarith [mul_le_mul_of_nonneg_left h2 hu0]

theorem near_mul {s t x y x' y' : K} (hs : 0 ≤ s) (h : RelNear s x y) (h' : RelNear t x' y') : RelNear (s + t + s * t) (x * x') (y * y') := by
  unfold RelNear at *
  have e : x * x' - y * y' = (x - y) * (x' - y') + (x - y) * y' + y * (x' - y') := by ring
  rw [e, abs_mul y y']
  have h1 := abs_add_le ((x - y) * (x' - y') + (x - y) * y') (y * (x' - y'))
  have h2 := abs_add_le ((x - y) * (x' - y')) ((x - y) * y')
  rw [abs_mul] at h1
  rw [abs_mul, abs_mul] at h2
  have h3 : |x - y| * |x' - y'| ≤ (s * |y|) * (t * |y'|) := mul_le_mul h h' (abs_nonneg _) (mul_nonneg hs (abs_nonneg _))
  have h4 : |x - y| * |y'| ≤ (s * |y|) * |y'| := mul_le_mul_of_nonneg_right h (abs_nonneg _)
  have h5 : |y| * |x' - y'| ≤ |y| * (t * |y'|) := mul_le_mul_of_nonneg_left h' (abs_nonneg _)
  nlinarith

theorem near_inv {t x y : K} (ht : t < 1) (hy : y ≠ 0) (h : RelNear t x y) : RelNear (t / (1 - t)) x⁻¹ y⁻¹ := by
  unfold RelNear at *
  have hy' : 0 < |y| := abs_pos.2 hy
  have ht1 : 0 < 1 - t := by linarith
  have h1 : (1 - t) * |y| ≤ |x| := by
    have := abs_sub_abs_le_abs_sub y x
    rw [abs_sub_comm y x] at this
    linarith
  have hx' : 0 < |x| := lt_of_lt_of_le (mul_pos ht1 hy') h1
  have hx : x ≠ 0 := abs_pos.1 hx'
  have e : x⁻¹ - y⁻¹ = -(x - y) / (x * y) := by field_simp; ring
  rw [e, abs_div, abs_neg, abs_mul, abs_inv, div_le_iff₀ (mul_pos hx' hy')]
  rw [show t / (1 - t) * |y|⁻¹ * (|x| * |y|) = t * |x| / (1 - t) by field_simp, le_div_iff₀ ht1]
  by_cases ht0 : 0 ≤ t
  · nlinarith [mul_le_mul_of_nonneg_left h ht1.le, mul_le_mul_of_nonneg_left h1 ht0]
  · exfalso
    nlinarith [abs_nonneg (x - y), not_le.1 ht0]

theorem near_mono {s t x y : K} (hst : s ≤ t) (h : RelNear s x y) : RelNear t x y :=
  h.trans (mul_le_mul_of_nonneg_right hst (abs_nonneg _))

theorem near_refl (x : K) : RelNear 0 x x := by unfold RelNear; simp

theorem near_div {s t x y x' y' : K} (hs : 0 ≤ s) (ht : t < 1) (hy' : y' ≠ 0) (h : RelNear s x y) (h' : RelNear t x' y') :
    RelNear (s + t / (1 - t) + s * (t / (1 - t))) (x / x') (y / y') := by
  rw [div_eq_mul_inv x, div_eq_mul_inv y]
  exact near_mul hs h (near_inv ht hy' h')

/-! ### Ellipticity and elongation -/

theorem ellipToElongR_fin (hu : RelErr u fl) (h1 : u < 1) {e : K} (he : e ≠ 1) :
    ellipToElongR fl (fin e) = .ok (fin (fl (1 / fl (1 - e)))) := by
  have h : fl (1 - e) ≠ 0 := relErr_ne hu h1 (sub_ne_zero.2 (Ne.symm he))
  unfold ellipToElongR pyDiv
  simp only [fin_sub, F.rnd]
  rw [if_neg (by simpa [F.eqv] using h), fin_div_of_ne _ h]
  rfl

theorem elongToEllipR_fin {q : K} (hq : q ≠ 0) : elongToEllipR fl (fin q) = .ok (fin (fl (fl (q - 1) / q))) := by
  unfold elongToEllipR pyDiv
  simp only [fin_sub, F.rnd]
  rw [if_neg (by simpa [F.eqv] using hq), fin_div_of_ne _ hq]
  rfl

/-- **C157, range and order.**  In rounded arithmetic ellipticities in `[0, 1)` become elongations at least one, in order, and
representable elongations at least one become ellipticities in `[0, 1]`. -/
theorem C157_range (hfl : Rounding fl) (hu : RelErr u fl) (h1 : u < 1) :
    (∀ e : K, 0 ≤ e → e < 1 → ∃ q, 1 ≤ q ∧ ellipToElongR fl (fin e) = .ok (fin q) ∧
      ∀ e', e ≤ e' → e' < 1 → ∃ q', q ≤ q' ∧ ellipToElongR fl (fin e') = .ok (fin q')) ∧
    (∀ q : K, 1 ≤ q → fl q = q → ∃ e, 0 ≤ e ∧ e ≤ 1 ∧ elongToEllipR fl (fin q) = .ok (fin e)) := by
  constructor
  · intro e h0 he
    refine ⟨_, ?_, ellipToElongR_fin hu h1 he.ne, ?_⟩
    · have hd : 0 < fl (1 - e) := relErr_pos hu h1 (by linarith)
      have hd' : fl (1 - e) ≤ 1 := (hfl.mono (by linarith)).trans hfl.one.le
      have : fl 1 ≤ fl (1 / fl (1 - e)) := hfl.mono (by rw [le_div_iff₀ hd]; linarith)
      rwa [hfl.one] at this
    · intro e' hle he'
      refine ⟨_, ?_, ellipToElongR_fin hu h1 he'.ne⟩
      apply hfl.mono
      apply div_le_div_of_nonneg_left zero_le_one (relErr_pos hu h1 (by linarith))
      exact hfl.mono (by linarith)
  · intro q hq hrep
    have hq0 : 0 < q := lt_of_lt_of_le one_pos hq
    refine ⟨_, ?_, ?_, elongToEllipR_fin hq0.ne'⟩
    · refine (relErr_zero hu).ge.trans (hfl.mono (div_nonneg ?_ hq0.le))
      exact (relErr_zero hu).ge.trans (hfl.mono (by linarith))
    · refine (hfl.mono ?_).trans hfl.one.le
      rw [div_le_one hq0]
      calc fl (q - 1) ≤ fl q := hfl.mono (by linarith)
        _ = q := hrep

/-- **C157, from ellipticity and back.**  The round trip changes an ellipticity in `[0, 1)` by at most `5 u`. -/
theorem C157_ellip (hu : RelErr u fl) (hu0 : 0 ≤ u) (hu1 : u ≤ 1 / 8) {e : K} (h0 : 0 ≤ e) (h1 : e < 1) :
    ∃ q e', ellipToElongR fl (fin e) = .ok (fin q) ∧ elongToEllipR fl (fin q) = .ok (fin e') ∧ |e' - e| ≤ 5 * u := by
  have hu1' : u < 1 := by linarith
  set d := fl (1 - e) with hd
  have hdp : 0 < d := relErr_pos hu hu1' (by linarith)
  set q := fl (1 / d) with hq
  have hqp : 0 < q := relErr_pos hu hu1' (one_div_pos.2 hdp)
  refine ⟨q, fl (fl (q - 1) / q), ellipToElongR_fin hu hu1' h1.ne, elongToEllipR_fin hqp.ne', ?_⟩
  have hdn : RelNear u d (1 - e) := hu (1 - e)
  have hqn : RelNear u q (1 / d) := hu (1 / d)
  have hiq : RelNear (u / (1 - u)) q⁻¹ d := by
    have := near_inv hu1' (one_div_pos.2 hdp).ne' hqn
    rwa [one_div, inv_inv] at this
  have hs : u / (1 - u) ≤ 8 / 7 * u := by
    rw [div_le_iff₀ (by linarith)]; nlinarith
  have h2 : |q⁻¹ - (1 - e)| ≤ 16 / 7 * u := by
    have a1 : |q⁻¹ - d| ≤ 8 / 7 * u * d := by
      have := near_mono hs hiq
      unfold RelNear at this; rwa [abs_of_pos hdp] at this
    have a2 : |d - (1 - e)| ≤ u * (1 - e) := by
      unfold RelNear at hdn; rwa [abs_of_pos (by linarith : (0 : K) < 1 - e)] at hdn
    have a3 := abs_add_le (q⁻¹ - d) (d - (1 - e))
    rw [sub_add_sub_cancel] at a3
    have a4 : d ≤ (1 + u) * (1 - e) := by linarith [(abs_le.1 a2).2]
    have a5 : 8 / 7 * u * d ≤ 8 / 7 * u * ((1 + u) * (1 - e)) := mul_le_mul_of_nonneg_left a4 (by positivity)
    have a6 : u * ((1 + u) * (1 - e)) ≤ u * (9 / 8) := by
      apply mul_le_mul_of_nonneg_left _ hu0
      nlinarith
    have a7 : u * (1 - e) ≤ u := by nlinarith
    linarith
  have hm : RelNear (u + u + u * u) (fl (fl (q - 1) / q)) ((q - 1) / q) := by
    apply near_fl hu hu0
    have := near_div hu0 one_pos hqp.ne' (hu (q - 1)) (near_refl q)
    simpa using this
  have hme : (q - 1) / q = 1 - q⁻¹ := by field_simp
  have hip : 0 < q⁻¹ := inv_pos.2 hqp
  rw [abs_le] at h2
  have hmb : |(q - 1) / q| ≤ 1 := by
    rw [hme, abs_le]
    constructor <;> linarith
  have h3 : |fl (fl (q - 1) / q) - (q - 1) / q| ≤ 17 / 8 * u := by
    unfold RelNear at hm
    have : u + u + u * u ≤ 17 / 8 * u := by nlinarith
    calc _ ≤ _ := hm
      _ ≤ (17 / 8 * u) * 1 := mul_le_mul this hmb (abs_nonneg _) (by positivity)
      _ = _ := mul_one _
  rw [hme, abs_le] at h3
  rw [abs_le]
  constructor <;> linarith

/-- **C157, from elongation and back.**  The round trip changes an elongation `q` by at most `8 u q²`, as long as `8 u q ≤ 1`. -/
theorem C157_elong (hu : RelErr u fl) (hu0 : 0 ≤ u) (hu1 : u ≤ 1 / 8) {q : K} (h1 : 1 ≤ q) (hqu : 8 * u * q ≤ 1) :
    ∃ e q', elongToEllipR fl (fin q) = .ok (fin e) ∧ ellipToElongR fl (fin e) = .ok (fin q') ∧ |q' - q| ≤ 8 * u * q ^ 2 := by
  have hu1' : u < 1 := by linarith
  have hq0 : 0 < q := lt_of_lt_of_le one_pos h1
  have hip : 0 < q⁻¹ := inv_pos.2 hq0
  set e := fl (fl (q - 1) / q) with he
  have hm : RelNear (u + u + u * u) e ((q - 1) / q) := by
    apply near_fl hu hu0
    have := near_div hu0 one_pos hq0.ne' (hu (q - 1)) (near_refl q)
    simpa using this
  have hme : (q - 1) / q = 1 - q⁻¹ := by field_simp
  have hi1 : q⁻¹ ≤ 1 := inv_le_one_of_one_le₀ h1
  have huq : u ≤ u * q := le_mul_of_one_le_right hu0 h1
  have h3 : |e - (1 - q⁻¹)| ≤ 17 / 8 * u := by
    rw [hme] at hm
    unfold RelNear at hm
    have h4 : u + u + u * u ≤ 17 / 8 * u := by nlinarith
    have h5 : |1 - q⁻¹| ≤ 1 := by rw [abs_le]; constructor <;> linarith
    calc _ ≤ _ := hm
      _ ≤ (17 / 8 * u) * 1 := mul_le_mul h4 h5 (abs_nonneg _) (by positivity)
      _ = _ := mul_one _
  have hn : RelNear (17 / 8 * (u * q)) (1 - e) q⁻¹ := by
    unfold RelNear
    rw [abs_of_pos hip, show 17 / 8 * (u * q) * q⁻¹ = 17 / 8 * u by field_simp, show 1 - e - q⁻¹ = -(e - (1 - q⁻¹)) by ring, abs_neg]
    exact h3
  have hs1 : 17 / 8 * (u * q) < 1 := by linarith
  have hne : e ≠ 1 := by
    intro h
    rw [h, sub_self] at hn
    unfold RelNear at hn
    rw [zero_sub, abs_neg, abs_of_pos hip] at hn
    nlinarith
  refine ⟨e, fl (1 / fl (1 - e)), elongToEllipR_fin hq0.ne', ellipToElongR_fin hu hu1' hne, ?_⟩
  have hd : RelNear (17 / 5 * (u * q)) (fl (1 - e)) q⁻¹ := by
    apply near_mono _ (near_fl hu hu0 hn)
    nlinarith
  have hi : RelNear (6 * (u * q)) (1 / fl (1 - e)) q := by
    have := near_inv (by linarith) hip.ne' hd
    rw [inv_inv, ← one_div] at this
    apply near_mono _ this
    rw [div_le_iff₀ (by linarith)]
    nlinarith [mul_nonneg hu0 hq0.le]
  have hf := near_fl hu hu0 hi
  unfold RelNear at hf
  rw [abs_of_pos hq0] at hf
  refine hf.trans ?_
  rw [show 8 * u * q ^ 2 = (8 * (u * q)) * q by ring]
  apply mul_le_mul_of_nonneg_right _ hq0.le
  nlinarith [mul_nonneg hu0 hq0.le]

/-! ### Pixels and angles -/

theorem npAllclose_self (s : K) : npAllclose (fin s) (fin s) = true := by
  have : (0 : K) ≤ 1 / 10 ^ 8 + 1 / 10 ^ 5 * |s| := by positivity
  simp only [npAllclose, F.isFin, Bool.and_self, if_true, fin_sub, sub_self, abs_fin, abs_zero, fin_mul, fin_add, le_fin,
    decide_eq_true_eq]
  exact this

/-- **C157, pixels to angles and back.**  The angle of a number of pixels has a relative error of at most `4 u`; the round trip changes
the number of pixels by at most `2 u + u²`, relatively. -/
theorem C157_pixels (hu : RelErr u fl) (hu0 : 0 ≤ u) (hu1 : u ≤ 1 / 8) {s c : K} (hs : s ≠ 0) (hc : 0 < c) (p : K) :
    ∃ v p', pixelToAngularR fl (fin p) ⟨fin s, fin s, c⟩ = .ok ⟨fin v, 1⟩ ∧ RelNear (4 * u) v (p * (s * c)) ∧
      angularToPixelR fl ⟨fin v, 1⟩ ⟨fin s, fin s, c⟩ = .ok (fin p') ∧ RelNear (2 * u + u ^ 2) p' p := by
  have hu1' : u < 1 := by linarith
  set S := fl (s * fl c) with hS
  have hSn : S ≠ 0 := relErr_ne hu hu1' (mul_ne_zero hs (relErr_ne hu hu1' hc.ne'))
  have hSc : RelNear (u + u + u * u) S (s * c) := by
    apply near_fl hu hu0
    have := near_mul (le_refl (0 : K)) (near_refl s) (hu c)
    simpa using this
  have hp2 : RelNear (u + u + u * u) (p * S) (p * (s * c)) := by
    have := near_mul (le_refl (0 : K)) (near_refl p) hSc
    simpa using this
  refine ⟨fl (p * S), fl (fl (p * S) / S), ?_, ?_, ?_, ?_⟩
  · unfold pixelToAngularR
    rw [if_pos (npAllclose_self s)]
    simp only [div_one, F.rnd, fin_mul, ← hS]
  · apply near_mono _ (near_fl hu hu0 hp2)
    nlinarith
  · unfold angularToPixelR
    rw [if_pos (npAllclose_self s)]
    simp only [div_one, F.rnd, fin_mul, ← hS, fin_div_of_ne _ hSn]
  · have h1 := near_div hu0 one_pos hSn (hu (p * S)) (near_refl S)
    rw [mul_div_assoc, div_self hSn, mul_one] at h1
    apply near_mono _ (near_fl hu hu0 h1)
    simp only [zero_div, sub_zero, mul_zero, add_zero]
    nlinarith

end

/-! ### Areas -/

section
variable {fl : ℝ → ℝ} {u : ℝ}

theorem near_sqrt {t x y : ℝ} (ht : 0 ≤ t) (hx : 0 ≤ x) (hy : 0 ≤ y) (h : RelNear t x y) : RelNear t (Real.sqrt x) (Real.sqrt y) := by
  unfold RelNear at *
  rw [abs_of_nonneg hy] at h
  rw [abs_of_nonneg (Real.sqrt_nonneg y)]
  rcases hy.eq_or_lt with rfl | hy0
  · have : x = 0 := by
      rw [mul_zero, sub_zero] at h
      exact abs_eq_zero.1 (le_antisymm h (abs_nonneg _))
    simp [this]
  · have hsy : 0 < Real.sqrt y := Real.sqrt_pos.2 hy0
    have hsx := Real.sqrt_nonneg x
    have e : x - y = (Real.sqrt x - Real.sqrt y) * (Real.sqrt x + Real.sqrt y) := by
      have h1 := Real.mul_self_sqrt hx
      have h2 := Real.mul_self_sqrt hy
      linear_combination -h1 + h2
    rw [e, abs_mul, abs_of_pos (by linarith : 0 < Real.sqrt x + Real.sqrt y)] at h
    have h2 := Real.mul_self_sqrt hy
    have h3 : |Real.sqrt x - Real.sqrt y| * Real.sqrt y ≤ (t * Real.sqrt y) * Real.sqrt y := by
      nlinarith [abs_nonneg (Real.sqrt x - Real.sqrt y), mul_nonneg (abs_nonneg (Real.sqrt x - Real.sqrt y)) hsx]
    exact le_of_mul_le_mul_right h3 hsy

theorem relErr_nonneg (hu : RelErr u fl) (h1 : u < 1) {x : ℝ} (hx : 0 ≤ x) : 0 ≤ fl x := by
  rcases hx.eq_or_lt with rfl | h
  · rw [relErr_zero hu]
  · exact (relErr_pos hu h1 h).le

theorem sqrt_fin' {x : ℝ} (hx : 0 ≤ x) : F.sqrt (fin x) = fin (Real.sqrt x) := by
  simp only [F.sqrt, not_lt.2 hx, if_false]; rfl

/-- **C157, areas.**  The semi-axes have relative errors of at most `5 u` and `7 u`, and the ellipse with these axes has the given area up to
a relative error of `15 u`. -/
theorem C157_area (hu : RelErr u fl) (hu0 : 0 ≤ u) (hu1 : u ≤ 1 / 16) {area e : ℝ} (ha : 0 ≤ area) (he : 0 < e) :
    ∃ a b : ℝ, ellipticalAreaToRR fl (fin area) (fin e) = (fin a, fin b) ∧ RelNear (5 * u) a (Real.sqrt (e * area / Real.pi)) ∧
      RelNear (7 * u) b (Real.sqrt (e * area / Real.pi) / e) ∧ RelNear (15 * u) (Real.pi * (a * b)) area := by
  have hu1' : u < 1 := by linarith
  have hpi := Real.pi_pos
  have hP : 0 < fl Real.pi := relErr_pos hu hu1' hpi
  have hea : 0 ≤ e * area := mul_nonneg he.le ha
  set x := fl (fl (e * area) / fl Real.pi) with hx
  have hx0 : 0 ≤ x := relErr_nonneg hu hu1' (div_nonneg (relErr_nonneg hu hu1' hea) hP.le)
  have hy0 : 0 ≤ e * area / Real.pi := div_nonneg hea hpi.le
  have hxn : RelNear (10 / 3 * u) x (e * area / Real.pi) := by
    have h1 := near_div hu0 hu1' hpi.ne' (hu (e * area)) (hu Real.pi)
    have h2 : u / (1 - u) ≤ 16 / 15 * u := by rw [div_le_iff₀ (by linarith)]; nlinarith
    have h3 : RelNear (32 / 15 * u) (fl (e * area) / fl Real.pi) (e * area / Real.pi) := by
      apply near_mono _ h1
      nlinarith [mul_le_mul_of_nonneg_left h2 hu0]
    apply near_mono _ (near_fl hu hu0 h3)
    nlinarith
  have hs := near_sqrt (by positivity) hx0 hy0 hxn
  set r := Real.sqrt (e * area / Real.pi) with hr
  have han : RelNear (5 * u) (fl (Real.sqrt x)) r := by
    apply near_mono _ (near_fl hu hu0 hs)
    nlinarith
  have hbn : RelNear (7 * u) (fl (fl (Real.sqrt x) / e)) (r / e) := by
    have h1 := near_div (by positivity) one_pos he.ne' han (near_refl e)
    apply near_mono _ (near_fl hu hu0 h1)
    simp only [zero_div, sub_zero, mul_zero, add_zero]
    nlinarith
  refine ⟨fl (Real.sqrt x), fl (fl (Real.sqrt x) / e), ?_, han, hbn, ?_⟩
  · unfold ellipticalAreaToRR
    simp only [fin_mul, F.rnd, fin_div_of_ne _ hP.ne', ← hx, sqrt_fin' hx0, fin_div_of_ne _ he.ne']
  · have h1 := near_mul (le_refl (0 : ℝ)) (near_refl Real.pi) (near_mul (by positivity) han hbn)
    have h2 : Real.pi * (r * (r / e)) = area := by
      have : r * r = e * area / Real.pi := Real.mul_self_sqrt hy0
      rw [← mul_div_assoc, this]
      field_simp
    rw [h2] at h1
    apply near_mono _ h1
    nlinarith

/-- **C157, circles.**  With elongation one both functions return the very same number, for a representable area. -/
theorem C157_circle (hfl : Rounding fl) (hu : RelErr u fl) (hu1 : u < 1) {area : ℝ} (ha : 0 ≤ area) (hrep : fl area = area) :
    ellipticalAreaToRR fl (fin area) (fin 1) = (circleAreaToRR fl (fin area), circleAreaToRR fl (fin area)) := by
  have hP : 0 < fl Real.pi := relErr_pos hu hu1 Real.pi_pos
  have hx0 : 0 ≤ fl (area / fl Real.pi) := relErr_nonneg hu hu1 (div_nonneg ha hP.le)
  unfold ellipticalAreaToRR circleAreaToRR
  simp only [fin_mul, one_mul, F.rnd, hrep, fin_div_of_ne _ hP.ne', sqrt_fin' hx0, fin_div_of_ne _ (one_ne_zero : (1 : ℝ) ≠ 0), div_one, hfl.idem]

end

/-! ### binary64 -/

/-- binary64 meets the hypotheses. -/
example : RelErr ((2 : ℝ) ^ (-(53 : ℤ))) (flBits 53) ∧ Rounding (flBits 53 : ℝ → ℝ) ∧ ((2 : ℝ) ^ (-(53 : ℤ))) ≤ 1 / 16 :=
  ⟨flBits_relErr 53 (by norm_num), flBits_rounding 53 (by norm_num), by norm_num⟩

/-- **C157 is violated for huge elongations**: the ellipticity of `2 ** 54` is exactly one, and converting it back raises
ZeroDivisionError. -/
theorem C157_huge_violated : elongToEllipR fl53 (fin (2 ^ 54 : ℚ)) = .ok (fin 1) ∧
    ellipToElongR fl53 (fin (1 : ℚ)) = .error .zeroDivisionError := by
  decide +kernel

/-- **C157 is violated for huge elongations**: `elong_to_ellip` is not monotone at `2 ** 53 + 4`. -/
theorem C157_order_violated : ∃ e : ℚ, elongToEllipR fl53 (fin (2 ^ 53 + 4 : ℚ)) = .ok (fin 1) ∧
    elongToEllipR fl53 (fin (2 ^ 53 + 6 : ℚ)) = .ok (fin e) ∧ e < 1 := by
  refine ⟨1 - 1 / 2 ^ 52, ?_⟩
  decide +kernel


/-- Subtracting one is exact for representable numbers in `[1, 2 ^ p]`. -/
theorem sub_one_exact {K : Type} [Field K] [LinearOrder K] [IsStrictOrderedRing K] [FloorRing K] (p : Nat) (hp : 1 ≤ p) (k j : ℤ) (hk : |k| ≤ 2 ^ p)
    (h1 : (1 : K) ≤ k * (2 : K) ^ j) (h2 : (k : K) * (2 : K) ^ j ≤ 2 ^ p) :
    flBits p ((k : K) * (2 : K) ^ j - 1) = (k : K) * (2 : K) ^ j - 1 := by
  rcases le_total j 0 with hj | hj
  · obtain ⟨n, rfl⟩ := Int.exists_eq_neg_ofNat hj
    have e : (k : K) * (2 : K) ^ (-(n : ℤ)) - 1 = ((k - 2 ^ n : ℤ) : K) * (2 : K) ^ (-(n : ℤ)) := by
      push_cast
      rw [zpow_neg, zpow_natCast]
      field_simp
    have hk1 : (2 : ℤ) ^ n ≤ k := by
      rw [zpow_neg, zpow_natCast, ← div_eq_mul_inv, le_div_iff₀ (by positivity), one_mul] at h1
      exact_mod_cast h1
    rw [e]
    apply flBits_repr p hp
    have hpos : (0 : ℤ) < 2 ^ n := by positivity
    rw [abs_le] at hk ⊢
    constructor <;> linarith [hk.1, hk.2, (by positivity : (0 : ℤ) ≤ 2 ^ p)]
  · obtain ⟨n, rfl⟩ := Int.eq_ofNat_of_zero_le hj
    have e : (k : K) * (2 : K) ^ ((n : ℕ) : ℤ) - 1 = ((k * 2 ^ n - 1 : ℤ) : K) * (2 : K) ^ (0 : ℤ) := by
      push_cast
      rw [zpow_natCast, zpow_zero, mul_one]
    have h1' : (1 : ℤ) ≤ k * 2 ^ n := by rw [zpow_natCast] at h1; exact_mod_cast h1
    have h2' : k * 2 ^ n ≤ (2 : ℤ) ^ p := by rw [zpow_natCast] at h2; exact_mod_cast h2
    rw [e]
    apply flBits_repr p hp
    rw [abs_le]
    constructor <;> linarith [(by positivity : (0 : ℤ) ≤ 2 ^ p)]

/-- **C157, order of elongations.**  For binary numbers `q ≤ q'` in `[1, 2 ^ p]`, the ellipticities are in order. -/
theorem C157_order_partial {K : Type} [Field K] [LinearOrder K] [IsStrictOrderedRing K] [FloorRing K] (p : Nat) (hp : 1 ≤ p) (k j k' j' : ℤ)
    (hk : |k| ≤ 2 ^ p) (hk' : |k'| ≤ 2 ^ p) (h1 : (1 : K) ≤ k * (2 : K) ^ j) (h2 : (k : K) * (2 : K) ^ j ≤ k' * (2 : K) ^ j')
    (h3 : (k' : K) * (2 : K) ^ j' ≤ 2 ^ p) :
    ∃ e e', elongToEllipR (flBits p) (fin ((k : K) * (2 : K) ^ j)) = .ok (fin e) ∧
      elongToEllipR (flBits p) (fin ((k' : K) * (2 : K) ^ j')) = .ok (fin e') ∧ e ≤ e' := by
  have hq : (0 : K) < k * (2 : K) ^ j := lt_of_lt_of_le one_pos h1
  refine ⟨_, _, elongToEllipR_fin hq.ne', elongToEllipR_fin (hq.trans_le h2).ne', ?_⟩
  rw [sub_one_exact p hp k j hk h1 (h2.trans h3), sub_one_exact p hp k' j' hk' (h1.trans h2) h3]
  apply (flBits_rounding p hp).mono
  rw [div_le_div_iff₀ hq (hq.trans_le h2)]
  nlinarith

/-- The hypotheses hold: elongations 3/2 and 5/2. -/
example : ((3 : ℤ) : ℚ) * (2 : ℚ) ^ (-1 : ℤ) = 3 / 2 ∧ (1 : ℚ) ≤ ((3 : ℤ) : ℚ) * (2 : ℚ) ^ (-1 : ℤ) ∧
    ((3 : ℤ) : ℚ) * (2 : ℚ) ^ (-1 : ℤ) ≤ ((5 : ℤ) : ℚ) * (2 : ℚ) ^ (-1 : ℤ) ∧ ((5 : ℤ) : ℚ) * (2 : ℚ) ^ (-1 : ℤ) ≤ 2 ^ 53 := by norm_num

end Verif.Props

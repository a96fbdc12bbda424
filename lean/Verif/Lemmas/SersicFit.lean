import Verif.Model.Simulation
import Verif.Lemmas.IncGamma
import Mathlib.Analysis.Calculus.LocalExtr.Rolle
import Mathlib.Analysis.SpecialFunctions.Pow.Deriv
import Mathlib.Analysis.SpecialFunctions.Trigonometric.Angle

/-!
# The parameters of a Sersic profile are determined by few values
-/

set_option linter.unusedSectionVars false

namespace Verif.Lemmas

open Verif

/-- Two power laws `k z^p` and `k' z^p'` whose difference is the same at three points are the same. -/
theorem powers_unique {k k' p p' c z₁ z₂ z₃ : ℝ} (hk : 0 < k) (hk' : 0 < k') (hp : 0 < p) (hp' : 0 < p') (h0 : 0 ≤ z₁) (h12 : z₁ < z₂)
    (h23 : z₂ < z₃) (e1 : k * z₁ ^ p - k' * z₁ ^ p' = c) (e2 : k * z₂ ^ p - k' * z₂ ^ p' = c) (e3 : k * z₃ ^ p - k' * z₃ ^ p' = c) :
    p = p' ∧ k = k' ∧ c = 0 := by
  have hpp : p = p' := by
    by_contra hne
    have hcont : Continuous fun z : ℝ => k * z ^ p - k' * z ^ p' :=
      (continuous_const.mul (Real.continuous_rpow_const hp.le)).sub (continuous_const.mul (Real.continuous_rpow_const hp'.le))
    have hder : ∀ z : ℝ, 0 < z → HasDerivAt (fun z : ℝ => k * z ^ p - k' * z ^ p') (k * (p * z ^ (p - 1)) - k' * (p' * z ^ (p' - 1))) z :=
      fun z hz => ((Real.hasDerivAt_rpow_const (Or.inl hz.ne')).const_mul k).sub ((Real.hasDerivAt_rpow_const (Or.inl hz.ne')).const_mul k')
    obtain ⟨u, hu, hu'⟩ := exists_hasDerivAt_eq_zero h12 hcont.continuousOn (e1.trans e2.symm) fun z hz => hder z (h0.trans_lt hz.1)
    obtain ⟨v, hv, hv'⟩ := exists_hasDerivAt_eq_zero h23 hcont.continuousOn (e2.trans e3.symm)
      fun z hz => hder z ((h0.trans_lt h12).trans hz.1)
    have key : ∀ z : ℝ, 0 < z → k * (p * z ^ (p - 1)) - k' * (p' * z ^ (p' - 1)) = 0 → z ^ (p - p') = k' * p' / (k * p) := by
      intro z hz he
      have h1 : z ^ (p - 1) = z ^ (p - p') * z ^ (p' - 1) := by
        rw [← Real.rpow_add hz]
        congr 1
        ring
      have h2 := Real.rpow_pos_of_pos hz (p' - 1)
      rw [h1] at he
      have h3 : (k * p * z ^ (p - p') - k' * p') * z ^ (p' - 1) = 0 := by linarith
      have h4 := (mul_eq_zero.1 h3).resolve_right h2.ne'
      rw [eq_div_iff (mul_pos hk hp).ne']
      linarith
    have hu0 : 0 < u := h0.trans_lt hu.1
    have hv0 : 0 < v := (h0.trans_lt h12).trans hv.1
    have huv : u < v := hu.2.trans hv.1
    have h5 := (key u hu0 hu').trans (key v hv0 hv').symm
    rcases lt_or_gt_of_ne (sub_ne_zero.2 hne) with h6 | h6
    · exact absurd h5 (Real.rpow_lt_rpow_of_neg hu0 huv h6).ne'
    · exact absurd h5 (Real.rpow_lt_rpow hu0.le huv h6).ne
  subst hpp
  have h1 : z₁ ^ p < z₂ ^ p := Real.rpow_lt_rpow h0 h12 hp
  have h2 : (k - k') * (z₁ ^ p - z₂ ^ p) = 0 := by linarith
  have h3 : k = k' := sub_eq_zero.1 ((mul_eq_zero.1 h2).resolve_right (sub_ne_zero.2 h1.ne))
  subst h3
  exact ⟨rfl, rfl, by linarith⟩

/-- The profile along the major axis. -/
theorem sersic_params_unique {A A' r r' n n' z₁ z₂ z₃ : ℝ} (hA : 0 < A) (hr : 0 < r) (hr' : 0 < r') (hn : 0 < n) (hn' : 0 < n')
    (h0 : 0 ≤ z₁) (h12 : z₁ < z₂) (h23 : z₂ < z₃)
    (e : ∀ z ∈ ({z₁, z₂, z₃} : Set ℝ), A' * Real.exp (-bn n' * ((z / r') ^ (1 / n') - 1)) = A * Real.exp (-bn n * ((z / r) ^ (1 / n) - 1))) :
    A' = A ∧ r' = r ∧ n' = n := by
  have hA' : 0 < A' := by
    have h1 := e z₁ (by simp)
    have h2 : 0 < A * Real.exp (-bn n * ((z₁ / r) ^ (1 / n) - 1)) := mul_pos hA (Real.exp_pos _)
    rw [← h1] at h2
    exact pos_of_mul_pos_left h2 (Real.exp_pos _).le
  have hb := bn_pos hn
  have hb' := bn_pos hn'
  have hp := one_div_pos.2 hn
  have hp' := one_div_pos.2 hn'
  have hz : ∀ z ∈ ({z₁, z₂, z₃} : Set ℝ), bn n / r ^ (1 / n) * z ^ (1 / n) - bn n' / r' ^ (1 / n') * z ^ (1 / n') =
      (Real.log A + bn n) - (Real.log A' + bn n') := by
    intro z hz
    have h1 := congrArg Real.log (e z hz)
    have hz0 : 0 ≤ z := by
      rcases hz with rfl | rfl | rfl <;> linarith
    rw [Real.log_mul hA'.ne' (Real.exp_pos _).ne', Real.log_mul hA.ne' (Real.exp_pos _).ne', Real.log_exp, Real.log_exp,
      Real.div_rpow hz0 hr.le, Real.div_rpow hz0 hr'.le] at h1
    rw [div_mul_eq_mul_div, div_mul_eq_mul_div, mul_div_assoc, mul_div_assoc]
    linarith
  obtain ⟨h1, h2, h3⟩ := powers_unique (div_pos hb (Real.rpow_pos_of_pos hr _)) (div_pos hb' (Real.rpow_pos_of_pos hr' _)) hp hp' h0 h12 h23
    (hz z₁ (by simp)) (hz z₂ (by simp)) (hz z₃ (by simp))
  have h4 : n' = n := by
    rw [one_div, one_div] at h1
    exact (inv_injective h1).symm
  subst h4
  have h5 : r ^ (1 / n') = r' ^ (1 / n') := by
    have h7 := Real.rpow_pos_of_pos hr (1 / n')
    have h8 := Real.rpow_pos_of_pos hr' (1 / n')
    rw [div_eq_div_iff h7.ne' h8.ne'] at h2
    exact (mul_left_cancel₀ hb.ne' h2).symm
  have h6 : r = r' := (Real.rpow_left_inj hr.le hr'.le hp.ne').1 h5
  refine ⟨Real.log_injOn_pos hA' hA (by linarith), h6.symm, rfl⟩

/-- A quadratic form written with axis lengths and an angle determines the axis lengths, and the angle up to half a turn unless it is a circle. -/
theorem ellipse_unique {a b t a' b' t' : ℝ} (hab : 0 < a) (h1 : a ≤ b) (hab' : 0 < a') (h1' : a' ≤ b')
    (exx : a * Real.cos t ^ 2 + b * Real.sin t ^ 2 = a' * Real.cos t' ^ 2 + b' * Real.sin t' ^ 2)
    (eyy : a * Real.sin t ^ 2 + b * Real.cos t ^ 2 = a' * Real.sin t' ^ 2 + b' * Real.cos t' ^ 2)
    (exy : (a - b) * (Real.sin t * Real.cos t) = (a' - b') * (Real.sin t' * Real.cos t')) :
    a' = a ∧ b' = b ∧ (a ≠ b → ∃ k : ℤ, t' = t + k * Real.pi) := by
  have c1 := Real.sin_sq_add_cos_sq t
  have c2 := Real.sin_sq_add_cos_sq t'
  have hs : a + b = a' + b' := by
    have l1 : a * Real.cos t ^ 2 + b * Real.sin t ^ 2 + (a * Real.sin t ^ 2 + b * Real.cos t ^ 2) = (a + b) * (Real.sin t ^ 2 + Real.cos t ^ 2) := by ring
    have l2 : a' * Real.cos t' ^ 2 + b' * Real.sin t' ^ 2 + (a' * Real.sin t' ^ 2 + b' * Real.cos t' ^ 2) =
      (a' + b') * (Real.sin t' ^ 2 + Real.cos t' ^ 2) := by ring
    rw [c1] at l1
    rw [c2] at l2
    linarith
  have hc : (b - a) * Real.cos (2 * t) = (b' - a') * Real.cos (2 * t') := by
    rw [Real.cos_two_mul', Real.cos_two_mul']
    linarith
  have hsn : (b - a) * Real.sin (2 * t) = (b' - a') * Real.sin (2 * t') := by
    rw [Real.sin_two_mul, Real.sin_two_mul]
    linarith
  have hd : (b - a) ^ 2 = (b' - a') ^ 2 := by
    have d1 := Real.sin_sq_add_cos_sq (2 * t)
    have d2 := Real.sin_sq_add_cos_sq (2 * t')
    have l1 : (b - a) ^ 2 * (Real.sin (2 * t) ^ 2 + Real.cos (2 * t) ^ 2) =
      ((b - a) * Real.sin (2 * t)) ^ 2 + ((b - a) * Real.cos (2 * t)) ^ 2 := by ring
    have l2 : (b' - a') ^ 2 * (Real.sin (2 * t') ^ 2 + Real.cos (2 * t') ^ 2) =
      ((b' - a') * Real.sin (2 * t')) ^ 2 + ((b' - a') * Real.cos (2 * t')) ^ 2 := by ring
    rw [d1, hsn, hc] at l1
    rw [d2] at l2
    linarith
  have hd' : b - a = b' - a' := by
    rw [← Real.sqrt_sq (sub_nonneg.2 h1), ← Real.sqrt_sq (sub_nonneg.2 h1'), hd]
  refine ⟨by linarith, by linarith, fun hne => ?_⟩
  have h0 : b - a ≠ 0 := sub_ne_zero.2 hne.symm
  rw [← hd'] at hc hsn
  have h2 := mul_left_cancel₀ h0 hc
  have h3 := mul_left_cancel₀ h0 hsn
  have h4 : ((2 * t' : ℝ) : Real.Angle) = ((2 * t : ℝ) : Real.Angle) := Real.Angle.cos_sin_inj h2.symm h3.symm
  obtain ⟨k, hk⟩ := Real.Angle.angle_eq_iff_two_pi_dvd_sub.1 h4
  exact ⟨k, by linarith⟩

/-- The square of the scaled radius in `sersic2D`. -/
noncomputable def scaledSq (r q t dx dy : ℝ) : ℝ :=
  ((dx * Real.cos t + dy * Real.sin t) / r) ^ 2 + ((-dx * Real.sin t + dy * Real.cos t) / (q * r)) ^ 2

theorem scaledSq_nonneg (r q t dx dy : ℝ) : 0 ≤ scaledSq r q t dx dy := by unfold scaledSq; positivity

theorem scaledSq_pos {r q : ℝ} (hr : 0 < r) (hq : 0 < q) (t : ℝ) {dx dy : ℝ} (h : dx ≠ 0 ∨ dy ≠ 0) : 0 < scaledSq r q t dx dy := by
  refine lt_of_le_of_ne (scaledSq_nonneg _ _ _ _ _) fun h0 => ?_
  unfold scaledSq at h0
  have h1 := (add_eq_zero_iff_of_nonneg (sq_nonneg _) (sq_nonneg _)).1 h0.symm
  have h2 : dx * Real.cos t + dy * Real.sin t = 0 := by
    have := pow_eq_zero_iff (two_ne_zero) |>.1 h1.1
    exact (div_eq_zero_iff.1 this).resolve_right hr.ne'
  have h3 : -dx * Real.sin t + dy * Real.cos t = 0 := by
    have := pow_eq_zero_iff (two_ne_zero) |>.1 h1.2
    exact (div_eq_zero_iff.1 this).resolve_right (mul_pos hq hr).ne'
  have c := Real.sin_sq_add_cos_sq t
  have h4 : dx ^ 2 + dy ^ 2 = 0 := by
    have : dx ^ 2 + dy ^ 2 = (dx ^ 2 + dy ^ 2) * (Real.sin t ^ 2 + Real.cos t ^ 2) := by rw [c, mul_one]
    rw [this, show (dx ^ 2 + dy ^ 2) * (Real.sin t ^ 2 + Real.cos t ^ 2) =
      (dx * Real.cos t + dy * Real.sin t) ^ 2 + (-dx * Real.sin t + dy * Real.cos t) ^ 2 by ring, h2, h3]
    norm_num
  rcases h with h | h
  · have := sq_pos_of_ne_zero h; nlinarith [sq_nonneg dy]
  · have := sq_pos_of_ne_zero h; nlinarith [sq_nonneg dx]

/-- The scaled radii in the directions of the axes and of the diagonal determine the ellipse. -/
theorem scaledSq_unique {r q t r' q' t' : ℝ} (hr : 0 < r) (hq : 0 < q) (hq1 : q ≤ 1) (hr' : 0 < r') (hq' : 0 < q') (hq1' : q' ≤ 1)
    (e10 : scaledSq r' q' t' 1 0 = scaledSq r q t 1 0) (e01 : scaledSq r' q' t' 0 1 = scaledSq r q t 0 1)
    (e11 : scaledSq r' q' t' 1 1 = scaledSq r q t 1 1) : r' = r ∧ q' = q ∧ (q ≠ 1 → ∃ k : ℤ, t' = t + k * Real.pi) := by
  have form : ∀ r q t dx dy : ℝ, scaledSq r q t dx dy = ((1 / r ^ 2) * Real.cos t ^ 2 + (1 / (q * r) ^ 2) * Real.sin t ^ 2) * dx ^ 2 +
      ((1 / r ^ 2) * Real.sin t ^ 2 + (1 / (q * r) ^ 2) * Real.cos t ^ 2) * dy ^ 2 +
      2 * ((1 / r ^ 2 - 1 / (q * r) ^ 2) * (Real.sin t * Real.cos t)) * dx * dy := by
    intro r q t dx dy
    unfold scaledSq
    rw [div_pow, div_pow, div_eq_mul_one_div, div_eq_mul_one_div (_ ^ 2) ((q * r) ^ 2)]
    ring
  rw [form, form] at e10 e01 e11
  have hle : ∀ r q : ℝ, 0 < r → 0 < q → q ≤ 1 → 1 / r ^ 2 ≤ 1 / (q * r) ^ 2 := fun r q hr hq hq1 => by
    have : q * r ≤ r := by nlinarith
    have hqr := mul_pos hq hr
    exact one_div_le_one_div_of_le (by positivity) (pow_le_pow_left₀ hqr.le this 2)
  obtain ⟨h1, h2, h3⟩ := ellipse_unique (a := 1 / r ^ 2) (b := 1 / (q * r) ^ 2) (t := t) (a' := 1 / r' ^ 2) (b' := 1 / (q' * r') ^ 2) (t' := t')
    (by positivity) (hle r q hr hq hq1) (by positivity) (hle r' q' hr' hq' hq1') (by linarith) (by linarith) (by linarith)
  have inj : ∀ x y : ℝ, 0 < x → 0 < y → 1 / x ^ 2 = 1 / y ^ 2 → x = y := fun x y hx hy h => by
    have h4 : x ^ 2 = y ^ 2 := by
      rw [one_div, one_div] at h
      exact inv_injective h
    exact (pow_left_inj₀ hx.le hy.le two_ne_zero).1 h4
  have hrr := inj _ _ hr' hr h1
  subst hrr
  have hqq := inj _ _ (mul_pos hq' hr') (mul_pos hq hr') h2
  have hqq' := mul_right_cancel₀ hr'.ne' hqq
  subst hqq'
  refine ⟨rfl, rfl, fun hne => h3 fun he => hne ?_⟩
  have := inj _ _ hr' (mul_pos hq' hr') he
  have h5 : (1 - q') * r' = 0 := by linarith
  linarith [(mul_eq_zero.1 h5).resolve_right hr'.ne']

theorem sersic2D_scaled (x y A r n x0 y0 e t : ℝ) :
    sersic2D x y A r n x0 y0 e t = A * Real.exp (-bn n * (Real.sqrt (scaledSq r (1 - e) t (x - x0) (y - y0)) ^ (1 / n) - 1)) := rfl

/-- Five pixels at and next to the centre determine everything. -/
theorem sersic_centre_unique {A A' r r' n n' e e' t t' x0 y0 : ℝ} (hA : 0 < A) (hr : 0 < r) (hr' : 0 < r') (hn : 0 < n) (hn' : 0 < n')
    (he : 0 ≤ e) (he1 : e < 1) (he' : 0 ≤ e') (he1' : e' < 1)
    (h : ∀ d ∈ ({(0, 0), (1, 0), (2, 0), (0, 1), (1, 1)} : Set (ℝ × ℝ)),
      sersic2D (x0 + d.1) (y0 + d.2) A' r' n' x0 y0 e' t' = sersic2D (x0 + d.1) (y0 + d.2) A r n x0 y0 e t) :
    A' = A ∧ r' = r ∧ n' = n ∧ e' = e ∧ (e ≠ 0 → ∃ k : ℤ, t' = t + k * Real.pi) := by
  have hb := bn_pos hn
  have hb' := bn_pos hn'
  have hp := one_div_pos.2 hn
  have hp' := one_div_pos.2 hn'
  have hq : 0 < 1 - e := by linarith
  have hq' : 0 < 1 - e' := by linarith
  simp only [sersic2D_scaled, add_sub_cancel_left] at h
  have h00 := h (0, 0) (by simp)
  simp only [scaledSq, zero_mul, neg_zero, add_zero, zero_div, ne_eq, OfNat.ofNat_ne_zero, not_false_eq_true, zero_pow, Real.sqrt_zero,
    Real.zero_rpow hp.ne', Real.zero_rpow hp'.ne', zero_sub, mul_neg, mul_one, neg_neg] at h00
  have hA' : 0 < A' := by
    have h2 : 0 < A * Real.exp (bn n) := mul_pos hA (Real.exp_pos _)
    rw [← h00] at h2
    exact pos_of_mul_pos_left h2 (Real.exp_pos _).le
  have hl : Real.log A' + bn n' = Real.log A + bn n := by
    have h1 := congrArg Real.log h00
    rwa [Real.log_mul hA'.ne' (Real.exp_pos _).ne', Real.log_mul hA.ne' (Real.exp_pos _).ne', Real.log_exp, Real.log_exp] at h1
  have key : ∀ d ∈ ({(0, 0), (1, 0), (2, 0), (0, 1), (1, 1)} : Set (ℝ × ℝ)),
      bn n' * Real.sqrt (scaledSq r' (1 - e') t' d.1 d.2) ^ (1 / n') = bn n * Real.sqrt (scaledSq r (1 - e) t d.1 d.2) ^ (1 / n) := by
    intro d hd
    have h1 := congrArg Real.log (h d hd)
    rw [Real.log_mul hA'.ne' (Real.exp_pos _).ne', Real.log_mul hA.ne' (Real.exp_pos _).ne', Real.log_exp, Real.log_exp] at h1
    linarith
  have dbl : ∀ r q t : ℝ, Real.sqrt (scaledSq r q t 2 0) = 2 * Real.sqrt (scaledSq r q t 1 0) := fun r q t => by
    rw [show scaledSq r q t 2 0 = 2 ^ 2 * scaledSq r q t 1 0 by unfold scaledSq; ring, Real.sqrt_mul (by norm_num), Real.sqrt_sq (by norm_num)]
  have k1 := key (1, 0) (by simp)
  have k2 := key (2, 0) (by simp)
  have k3 := key (0, 1) (by simp)
  have k4 := key (1, 1) (by simp)
  simp only at k1 k2 k3 k4
  have s1 : 0 < Real.sqrt (scaledSq r (1 - e) t 1 0) := Real.sqrt_pos.2 (scaledSq_pos hr hq t (Or.inl one_ne_zero))
  rw [dbl, dbl, Real.mul_rpow (by norm_num) (Real.sqrt_nonneg _), Real.mul_rpow (by norm_num) (Real.sqrt_nonneg _),
    mul_left_comm, mul_left_comm (bn n), k1] at k2
  have k5 := mul_right_cancel₀ (mul_pos hb (Real.rpow_pos_of_pos s1 _)).ne' k2
  have k6 : 1 / n' = 1 / n := by
    have := congrArg Real.log k5
    rw [Real.log_rpow (by norm_num), Real.log_rpow (by norm_num)] at this
    exact mul_right_cancel₀ (Real.log_pos (by norm_num)).ne' this
  have hnn : n' = n := by
    rw [one_div, one_div] at k6
    exact inv_injective k6
  subst hnn
  have inj : ∀ u v : ℝ, 0 ≤ u → 0 ≤ v → bn n' * Real.sqrt u ^ (1 / n') = bn n' * Real.sqrt v ^ (1 / n') → u = v := fun u v hu hv huv => by
    have h1 := mul_left_cancel₀ hb.ne' huv
    have h2 := (Real.rpow_left_inj (Real.sqrt_nonneg _) (Real.sqrt_nonneg _) hp.ne').1 h1
    exact (Real.sqrt_inj hu hv).1 h2
  obtain ⟨g1, g2, g3⟩ := scaledSq_unique hr hq (by linarith) hr' hq' (by linarith)
    (inj _ _ (scaledSq_nonneg _ _ _ _ _) (scaledSq_nonneg _ _ _ _ _) k1) (inj _ _ (scaledSq_nonneg _ _ _ _ _) (scaledSq_nonneg _ _ _ _ _) k3)
    (inj _ _ (scaledSq_nonneg _ _ _ _ _) (scaledSq_nonneg _ _ _ _ _) k4)
  exact ⟨Real.log_injOn_pos hA' hA (by linarith), g1, rfl, by linarith, fun h0 => g3 fun h1 => h0 (by linarith)⟩

end Verif.Lemmas

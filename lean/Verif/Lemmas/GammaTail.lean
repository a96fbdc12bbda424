import Verif.Props.Profiles
import Mathlib.Analysis.Complex.ExponentialBounds

/-!
# Tails of the incomplete gamma function
-/

namespace Verif.Lemmas

open Real Set Filter Topology MeasureTheory

theorem gammaTail_mul (s : ℝ) (hs : 0 < s) {x : ℝ} (hx : 0 < x) :
    x * (Real.Gamma s - lowerGamma s x) ≤ Real.Gamma (s + 1) - lowerGamma (s + 1) x := by
  have hs1 : 0 < s + 1 := by linarith
  have hm : MonotoneOn (fun y => lowerGamma (s + 1) y - x * lowerGamma s y) (Ici x) := by
    have hd : ∀ y, x ≤ y → HasDerivAt (fun y => lowerGamma (s + 1) y - x * lowerGamma s y)
        (Real.exp (-y) * y ^ (s + 1 - 1) - x * (Real.exp (-y) * y ^ (s - 1))) y := fun y hy =>
      (lowerGamma_hasDerivAt (s + 1) hs1 (hx.trans_le hy)).sub ((lowerGamma_hasDerivAt s hs (hx.trans_le hy)).const_mul x)
    refine monotoneOn_of_deriv_nonneg (convex_Ici x) (fun y hy => (hd y hy).continuousAt.continuousWithinAt)
      (fun y hy => ?_) (fun y hy => ?_)
    · rw [interior_Ici] at hy
      exact (hd y (le_of_lt hy)).differentiableAt.differentiableWithinAt
    · rw [interior_Ici] at hy
      have hy' : x < y := hy
      have hy0 : 0 < y := hx.trans hy'
      rw [(hd y hy'.le).deriv]
      have e : y ^ (s + 1 - 1) = y * y ^ (s - 1) := by
        rw [add_sub_cancel_right, Real.rpow_sub_one hy0.ne']
        field_simp
      rw [e]
      have := mul_nonneg (mul_nonneg (Real.exp_pos (-y)).le (Real.rpow_pos_of_pos hy0 (s - 1)).le) (sub_nonneg.2 hy'.le)
      nlinarith
  have hl : Tendsto (fun y => lowerGamma (s + 1) y - x * lowerGamma s y) atTop (𝓝 (Real.Gamma (s + 1) - x * Real.Gamma s)) :=
    (lowerGamma_tendsto (s + 1) hs1).sub ((lowerGamma_tendsto s hs).const_mul x)
  have := ge_of_tendsto hl (by
    filter_upwards [eventually_ge_atTop x] with y hy
    exact hm (mem_Ici.2 le_rfl) (mem_Ici.2 hy) hy)
  simp only [] at this
  linarith

theorem lowerGamma_one (x : ℝ) : lowerGamma 1 x = 1 - Real.exp (-x) := by
  unfold lowerGamma
  simp

theorem gammaTail_ge (s : ℝ) (hs : 1 ≤ s) {x : ℝ} (hx : 0 < x) :
    Real.exp (-x) * x ^ s ≤ x * (Real.Gamma s - lowerGamma s x) := by
  rcases hs.eq_or_lt with rfl | hs
  · rw [lowerGamma_one, Real.Gamma_one, Real.rpow_one]
    linarith
  · have h0 : 0 < s - 1 := by linarith
    have h1 := lowerGamma_succ (s - 1) h0 hx.le
    have h2 := lowerGamma_lt (s - 1) h0 hx.le
    have h3 := Real.Gamma_add_one h0.ne'
    rw [sub_add_cancel] at h1 h3
    have h4 : x ^ s = x * x ^ (s - 1) := by
      rw [Real.rpow_sub_one hx.ne']
      field_simp
    have h5 := mul_lt_mul_of_pos_left h2 h0
    rw [h4, ← mul_assoc, mul_comm _ x, mul_assoc]
    refine mul_le_mul_of_nonneg_left ?_ hx.le
    linarith

/-- Where 99 percent of the light is enclosed the Petrosian ratio is below one fifth. -/
theorem etaOf_lt_fifth (s : ℝ) (hs : 1 ≤ s) {x : ℝ} (hx : 0 < x) (h : lowerGamma s x = 99 / 100 * Real.Gamma s) :
    etaOf s x < 1 / 5 := by
  have hs0 : 0 < s := by linarith
  have hG := Real.Gamma_pos_of_pos hs0
  have h1 := gammaTail_mul s hs0 hx
  have h2 := gammaTail_mul (s + 1) (by linarith) hx
  have h3 := lowerGamma_pos (s + 1 + 1) (by linarith) hx
  rw [Real.Gamma_add_one (by linarith : s + 1 ≠ 0), Real.Gamma_add_one hs0.ne'] at h2
  rw [Real.Gamma_add_one hs0.ne'] at h1
  rw [h] at h1
  have h4 := mul_le_mul_of_nonneg_left h1 hx.le
  have h5 : x ^ 2 * Real.Gamma s ≤ 100 * s * (s + 1) * Real.Gamma s := by nlinarith
  have h6 : x ^ 2 ≤ 100 * s * (s + 1) := le_of_mul_le_mul_right h5 hG
  have h7 : x < 19 * s := by
    by_contra hcon
    have := not_lt.1 hcon
    nlinarith
  have h8 := gammaTail_ge s hs hx
  rw [h] at h8
  unfold etaOf
  rw [h, div_lt_iff₀ (by positivity)]
  have := mul_lt_mul_of_pos_right h7 hG
  nlinarith

/-- `γ(s, x) / x^s` falls. -/
theorem lowerGamma_scale (s : ℝ) (hs : 0 < s) {x q : ℝ} (hx : 0 < x) (hq : 0 < q) (hq1 : q ≤ 1) :
    q ^ s * lowerGamma s x ≤ lowerGamma s (q * x) := by
  have hm : AntitoneOn (fun t => lowerGamma s t * t ^ (-s)) (Ioi 0) := by
    have hd : ∀ t, 0 < t → HasDerivAt (fun t => lowerGamma s t * t ^ (-s))
        (Real.exp (-t) * t ^ (s - 1) * t ^ (-s) + lowerGamma s t * (-s * t ^ (-s - 1))) t := fun t ht => by
      have h1 := (hasDerivAt_id t).rpow_const (p := -s) (Or.inl ht.ne')
      simp only [id, one_mul] at h1
      exact (lowerGamma_hasDerivAt s hs ht).mul h1
    refine antitoneOn_of_deriv_nonpos (convex_Ioi 0) (fun t ht => (hd t ht).continuousAt.continuousWithinAt)
      (fun t ht => ?_) (fun t ht => ?_)
    · rw [interior_Ioi] at ht
      exact (hd t ht).differentiableAt.differentiableWithinAt
    · rw [interior_Ioi] at ht
      have ht : 0 < t := ht
      rw [(hd t ht).deriv]
      have h1 := lowerGamma_succ s hs ht.le
      have h2 := lowerGamma_pos (s + 1) (by linarith) ht
      have e1 : t ^ (s - 1) * t ^ (-s) = t ^ s * t ^ (-s - 1) := by
        rw [← Real.rpow_add ht, ← Real.rpow_add ht]
        congr 1
        ring
      have h3 : (Real.exp (-t) * t ^ s - s * lowerGamma s t) * t ^ (-s - 1) ≤ 0 :=
        mul_nonpos_of_nonpos_of_nonneg (by linarith) (Real.rpow_pos_of_pos ht _).le
      calc _ = (Real.exp (-t) * t ^ s - s * lowerGamma s t) * t ^ (-s - 1) := by rw [mul_assoc, e1]; ring
        _ ≤ 0 := h3
  have hqx : 0 < q * x := mul_pos hq hx
  have := hm (mem_Ioi.2 hqx) (mem_Ioi.2 hx) (by nlinarith)
  simp only [] at this
  rw [Real.rpow_neg hqx.le, Real.rpow_neg hx.le, Real.mul_rpow hq.le hx.le] at this
  have h1 := Real.rpow_pos_of_pos hq s
  have h2 := Real.rpow_pos_of_pos hx s
  have h3 : lowerGamma s x * (x ^ s)⁻¹ * (q ^ s * x ^ s) ≤ lowerGamma s (q * x) * (q ^ s * x ^ s)⁻¹ * (q ^ s * x ^ s) :=
    mul_le_mul_of_nonneg_right this (by positivity)
  rw [inv_mul_cancel_right₀ (by positivity)] at h3
  calc _ = lowerGamma s x * (x ^ s)⁻¹ * (q ^ s * x ^ s) := by field_simp
    _ ≤ _ := h3

/-- Far out the Petrosian ratio is below one fifth. -/
theorem etaOf_far (s : ℝ) (hs : 4 ≤ s) {x : ℝ} (hx : 7 / 4 * s ≤ x) : etaOf s x < 1 / 5 := by
  have hx0 : 0 < x := by linarith
  have h1 := lowerGamma_succ s (by linarith) hx0.le
  have h2 := lowerGamma_succ (s + 1) (by linarith) hx0.le
  have h3 := lowerGamma_succ (s + 1 + 1) (by linarith) hx0.le
  have h4 := lowerGamma_succ (s + 1 + 1 + 1) (by linarith) hx0.le
  have h5 := lowerGamma_pos (s + 1 + 1 + 1 + 1) (by linarith) hx0
  rw [Real.rpow_add_one hx0.ne', Real.rpow_add_one hx0.ne', Real.rpow_add_one hx0.ne'] at h4
  rw [Real.rpow_add_one hx0.ne', Real.rpow_add_one hx0.ne'] at h3
  rw [Real.rpow_add_one hx0.ne'] at h2
  have hw : 0 < Real.exp (-x) * x ^ s := mul_pos (Real.exp_pos _) (Real.rpow_pos_of_pos hx0 _)
  have hg := lowerGamma_pos s (by linarith) hx0
  unfold etaOf
  rw [div_lt_iff₀ (by positivity), h1]
  generalize Real.exp (-x) = E at *
  generalize x ^ s = P at *
  have k4 : 0 < lowerGamma (s + 1 + 1 + 1) x := lowerGamma_pos _ (by linarith) hx0
  have k3 : 0 < lowerGamma (s + 1 + 1) x := lowerGamma_pos _ (by linarith) hx0
  have k2 : 0 < lowerGamma (s + 1) x := lowerGamma_pos _ (by linarith) hx0
  generalize lowerGamma (s + 1 + 1 + 1) x = g3 at *
  generalize lowerGamma (s + 1 + 1) x = g2 at *
  generalize lowerGamma (s + 1) x = g1 at *
  generalize hW : E * P = W at *
  have l3 : x / (s + 1 + 1 + 1) * (W * x ^ 2) ≤ g3 := by
    rw [div_mul_eq_mul_div, div_le_iff₀ (by linarith)]
    have : E * (P * x * x * x) = x * (W * x ^ 2) := by rw [← hW]; ring
    linarith
  have r3 : 1 ≤ x / (s + 1 + 1 + 1) := by rw [le_div_iff₀ (by linarith)]; linarith
  have r2 : 7 / 6 ≤ x / (s + 1 + 1) := by rw [le_div_iff₀ (by linarith)]; linarith
  have r1 : 7 / 5 ≤ x / (s + 1) := by rw [le_div_iff₀ (by linarith)]; linarith
  have m3 : W * x ^ 2 ≤ g3 := by
    have := mul_le_mul_of_nonneg_right r3 (by positivity : (0 : ℝ) ≤ W * x ^ 2)
    linarith
  have m2 : 7 / 6 * (2 * (W * x)) ≤ g2 := by
    have e : E * (P * x * x) = x * (W * x) := by rw [← hW]; ring
    have e2 : W * x ^ 2 = x * (W * x) := by ring
    have : x / (s + 1 + 1) * (2 * (W * x)) ≤ g2 := by
      rw [div_mul_eq_mul_div, div_le_iff₀ (by linarith)]
      linarith
    have := mul_le_mul_of_nonneg_right r2 (by positivity : (0 : ℝ) ≤ 2 * (W * x))
    linarith
  have m1 : 7 / 5 * (10 / 3 * W) ≤ g1 := by
    have e : E * (P * x) = W * x := by rw [← hW]; ring
    have : x / (s + 1) * (10 / 3 * W) ≤ g1 := by
      rw [div_mul_eq_mul_div, div_le_iff₀ (by linarith)]
      linarith
    have := mul_le_mul_of_nonneg_right r1 (by positivity : (0 : ℝ) ≤ 10 / 3 * W)
    linarith
  linarith

/-- At 0.65 of the radius enclosing 99 percent of the light the Petrosian ratio is below one fifth. -/
theorem etaOf_lt_fifth' (s : ℝ) (hs : 4 ≤ s) {y q : ℝ} (hy : 0 < y) (h : lowerGamma s y = 99 / 100 * Real.Gamma s) (hq : 0 < q)
    (hqs : q ^ s = (13 / 20) ^ 2) : etaOf s (q * y) < 1 / 5 := by
  have hs0 : 0 < s := by linarith
  have hG := Real.Gamma_pos_of_pos hs0
  have hx : 0 < q * y := mul_pos hq hy
  by_contra hcon
  have hcon := not_lt.1 hcon
  have hfar : q * y < 7 / 4 * s := by
    by_contra hf
    have := etaOf_far s hs (not_lt.1 hf)
    linarith
  have hL : Real.log (20 / 13) ≤ 442 / 1000 := by
    rw [Real.log_le_iff_le_exp (by norm_num)]
    have := Real.quadratic_le_exp_of_nonneg (by norm_num : (0 : ℝ) ≤ 442 / 1000)
    norm_num at this ⊢
    linarith
  have hlog : s * Real.log q = -(2 * Real.log (20 / 13)) := by
    have e : (13 / 20 : ℝ) = (20 / 13)⁻¹ := by norm_num
    rw [← Real.log_rpow hq, hqs, Real.log_pow, e, Real.log_inv]
    push_cast
    ring
  have hu : -Real.log q ≤ 884 / 1000 / s := by
    rw [le_div_iff₀ hs0]
    linarith
  have hu' : 884 / 1000 / s ≤ 221 / 1000 := by
    rw [div_le_iff₀ hs0]
    linarith
  have hq1 : 1 - q ≤ 884 / 1000 / s := by
    have := Real.add_one_le_exp (Real.log q)
    rw [Real.exp_log hq] at this
    linarith
  have hqle : q ≤ 1 := by
    by_contra hc
    have := Real.log_pos (not_le.1 hc)
    have h2 := Real.log_pos (by norm_num : (1 : ℝ) < 20 / 13)
    nlinarith
  have hq2 : 779 / 1000 ≤ q := by linarith
  have hys : y ≤ 9 / 4 * s := by nlinarith
  have hdiff : y - q * y ≤ 2 := by
    have h1 : y * (1 - q) ≤ 9 / 4 * s * (884 / 1000 / s) := mul_le_mul hys hq1 (by linarith) (by positivity)
    have h2 : 9 / 4 * s * (884 / 1000 / s) = 9 / 4 * (884 / 1000) := by field_simp
    rw [h2] at h1
    linarith
  have h1 := gammaTail_ge s (by linarith) hy
  rw [h] at h1
  have h2 := lowerGamma_scale s hs0 hy hq hqle
  rw [h, hqs] at h2
  unfold etaOf at hcon
  rw [le_div_iff₀ (mul_pos hs0 (lowerGamma_pos s hs0 hx)), Real.mul_rpow hq.le hy.le, hqs] at hcon
  have hE : Real.exp (-(q * y)) = Real.exp (-y) * Real.exp (y - q * y) := by rw [← Real.exp_add]; congr 1; ring
  have h3 : Real.exp (y - q * y) ≤ Real.exp 1 ^ 2 := by
    rw [← Real.exp_nat_mul]
    exact Real.exp_le_exp.2 (by push_cast; linarith)
  have h4 : Real.exp 1 ^ 2 ≤ 74 / 10 := by
    have := Real.exp_one_lt_d9
    have := Real.exp_pos 1
    nlinarith
  have h5 : Real.exp (-(q * y)) * y ^ s ≤ 74 / 10 * (Real.exp (-y) * y ^ s) := by
    rw [hE]
    have : 0 < Real.exp (-y) * y ^ s := mul_pos (Real.exp_pos _) (Real.rpow_pos_of_pos hy _)
    nlinarith
  have h6 : 1 / 5 * (s * ((13 / 20) ^ 2 * (99 / 100 * Real.Gamma s))) ≤ 1 / 5 * (s * lowerGamma s (q * y)) := by
    refine mul_le_mul_of_nonneg_left (mul_le_mul_of_nonneg_left h2 hs0.le) (by norm_num)
  have h7 : y * Real.Gamma s ≤ 9 / 4 * s * Real.Gamma s := mul_le_mul_of_nonneg_right hys hG.le
  have h8 := mul_pos hs0 hG
  nlinarith

end Verif.Lemmas

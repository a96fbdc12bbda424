import Verif.Props.PSFImage
import Mathlib.MeasureTheory.Integral.IntervalIntegral.FundThmCalculus
import Mathlib.MeasureTheory.Integral.DominatedConvergence
import Mathlib.Analysis.SpecialFunctions.Integrals.Basic

/-!
# The midpoint rule, in one and two dimensions
-/

set_option linter.unusedSectionVars false
set_option linter.unusedVariables false

namespace Verif.Lemmas

open MeasureTheory intervalIntegral

/-- One cell: the error of the midpoint is the integral of the second difference. -/
theorem mid_cell {f : ℝ → ℝ} (hf : Continuous f) (m r : ℝ) :
    (∫ u in (m - r)..(m + r), f u) - 2 * r * f m = ∫ d in (0 : ℝ)..r, (f (m + d) + f (m - d) - 2 * f m) := by
  have i1 : ∫ d in (0 : ℝ)..r, f (m + d) = ∫ u in m..(m + r), f u := by
    rw [intervalIntegral.integral_comp_add_left (fun u => f u) m]; simp
  have i2 : ∫ d in (0 : ℝ)..r, f (m - d) = ∫ u in (m - r)..m, f u := by
    rw [intervalIntegral.integral_comp_sub_left (fun u => f u) m]; simp
  have c1 : Continuous fun d => f (m + d) := by fun_prop
  have c2 : Continuous fun d => f (m - d) := by fun_prop
  have c3 : Continuous fun d => f (m + d) + f (m - d) := by fun_prop
  rw [intervalIntegral.integral_sub (c3.intervalIntegrable _ _) (continuous_const.intervalIntegrable _ _),
    intervalIntegral.integral_add (c1.intervalIntegrable _ _) (c2.intervalIntegrable _ _), i1, i2, intervalIntegral.integral_const, smul_eq_mul,
    ← integral_add_adjacent_intervals (hf.intervalIntegrable (m - r) m) (hf.intervalIntegrable m (m + r))]
  ring

/-- One cell, bounded. -/
theorem mid_bound {f φ : ℝ → ℝ} (hf : Continuous f) (hφ : Continuous φ) {m r : ℝ} (hr : 0 ≤ r)
    (h : ∀ d, 0 ≤ d → d ≤ r → |f (m + d) + f (m - d) - 2 * f m| ≤ φ d) :
    |(∫ u in (m - r)..(m + r), f u) - 2 * r * f m| ≤ ∫ d in (0 : ℝ)..r, φ d := by
  rw [mid_cell hf]
  have c : Continuous fun d => f (m + d) + f (m - d) - 2 * f m := by fun_prop
  refine (intervalIntegral.abs_integral_le_integral_abs hr).trans ?_
  exact intervalIntegral.integral_mono_on hr (c.abs.intervalIntegrable _ _) (hφ.intervalIntegrable _ _) fun d hd => h d hd.1 hd.2

/-- The samples of an interval of width `w` centred at `c`, in `k` cells. -/
noncomputable def node (c w : ℝ) (k a : Nat) : ℝ := c + w * ((a + 1 / 2) / k - 1 / 2)

/-- The whole interval: mean value against mean of the samples. -/
theorem mid_mean {f φ : ℝ → ℝ} (hf : Continuous f) (hφ : Continuous φ) {c w : ℝ} (hw : 0 < w) {k : Nat} (hk : 0 < k)
    (h : ∀ m d, 0 ≤ d → d ≤ w / k / 2 → |m - c| + d ≤ w / 2 → |f (m + d) + f (m - d) - 2 * f m| ≤ φ d) :
    |(∑ a ∈ Finset.range k, f (node c w k a)) / k - (∫ u in (c - w / 2)..(c + w / 2), f u) / w| ≤
      (∫ d in (0 : ℝ)..(w / k / 2), φ d) / (w / k) := by
  have hk0 : (0 : ℝ) < k := by exact_mod_cast hk
  have hc : ∀ a : ℕ, c - w / 2 + w * (a : ℝ) / k = node c w k a - w / k / 2 := by
    intro a; unfold node; field_simp; ring
  have hd : ∀ a : ℕ, c - w / 2 + w * ((a + 1 : ℕ) : ℝ) / k = node c w k a + w / k / 2 := by
    intro a; unfold node; push_cast; field_simp; ring
  have hsum := sum_integral_adjacent_intervals (μ := volume) (f := f) (a := fun a : ℕ => c - w / 2 + w * (a : ℝ) / k) (n := k)
    fun _ _ => hf.intervalIntegrable _ _
  have e0 : c - w / 2 + w * ((0 : ℕ) : ℝ) / k = c - w / 2 := by simp
  have e1 : c - w / 2 + w * (k : ℝ) / k = c + w / 2 := by field_simp; ring
  simp only [e0, e1] at hsum
  rw [← hsum]
  have hcell : ∀ a ∈ Finset.range k, |(∫ u in (c - w / 2 + w * (a : ℝ) / k)..(c - w / 2 + w * ((a + 1 : ℕ) : ℝ) / k), f u) -
      w / k * f (node c w k a)| ≤ ∫ d in (0 : ℝ)..(w / k / 2), φ d := by
    intro a ha
    rw [Finset.mem_range] at ha
    rw [hc, hd]
    have := mid_bound (m := node c w k a) (r := w / k / 2) hf hφ (by positivity) fun d h0 h1 => ?_
    · rwa [show 2 * (w / k / 2) = w / (k : ℝ) by ring] at this
    · refine h _ _ h0 h1 ?_
      have ha' : (a : ℝ) + 1 ≤ k := by exact_mod_cast ha
      have ha0 : (0 : ℝ) ≤ a := Nat.cast_nonneg a
      have hm : |node c w k a - c| ≤ w / 2 - w / k / 2 := by
        have q1 : 0 ≤ w * (a : ℝ) / k := by positivity
        have q2 : w * ((a : ℝ) + 1) / k ≤ w := by rw [div_le_iff₀ hk0]; exact mul_le_mul_of_nonneg_left ha' hw.le
        have q3 := hc a
        have q4 : w * ((a : ℝ) + 1) / k = w * (a : ℝ) / k + w / k := by ring
        rw [abs_le]; constructor <;> linarith
      linarith
  have key : (∑ a ∈ Finset.range k, f (node c w k a)) / k - (∑ a ∈ Finset.range k,
      ∫ u in (c - w / 2 + w * (a : ℝ) / k)..(c - w / 2 + w * ((a + 1 : ℕ) : ℝ) / k), f u) / w =
      -(∑ a ∈ Finset.range k, ((∫ u in (c - w / 2 + w * (a : ℝ) / k)..(c - w / 2 + w * ((a + 1 : ℕ) : ℝ) / k), f u) -
        w / k * f (node c w k a))) / w := by
    rw [Finset.sum_sub_distrib, ← Finset.mul_sum]; field_simp; ring
  rw [key, abs_div, abs_neg, abs_of_pos hw, div_le_iff₀ hw]
  refine (Finset.abs_sum_le_sum_abs _ _).trans ((Finset.sum_le_sum hcell).trans ?_)
  rw [Finset.sum_const, Finset.card_range, nsmul_eq_mul]
  apply le_of_eq; field_simp

end Verif.Lemmas

namespace Verif.Spec

open MeasureTheory

/-- The mean of `g` over the square of width `w` centred at `(x, y)`, as an integral. -/
noncomputable def cellLight (g : ℝ → ℝ → ℝ) (x y w : ℝ) : ℝ :=
  (∫ u in (x - w / 2)..(x + w / 2), ∫ v in (y - w / 2)..(y + w / 2), g u v) / w ^ 2

/-- The light on the unit pixel centred at `(x, y)`. -/
noncomputable def pixelLight (g : ℝ → ℝ → ℝ) (x y : ℝ) : ℝ :=
  ∫ u in (x - 1 / 2)..(x + 1 / 2), ∫ v in (y - 1 / 2)..(y + 1 / 2), g u v

end Verif.Spec

namespace Verif.Lemmas

open MeasureTheory intervalIntegral Spec

theorem cellLight_one (g : ℝ → ℝ → ℝ) (x y : ℝ) : cellLight g x y 1 = pixelLight g x y := by
  simp [cellLight, pixelLight]

theorem cellMean_unit (g : ℝ → ℝ → ℝ) (x y : ℝ) (k : Nat) : cellMean g x y 1 k = pixelMean g x y k := by
  simp [cellMean, pixelMean]

/-- Two dimensions. -/
theorem mid_square {g : ℝ → ℝ → ℝ} (hg : Continuous (Function.uncurry g)) {φ ψ : ℝ → ℝ} (hφ : Continuous φ) (hψ : Continuous ψ)
    {x y w : ℝ} (hw : 0 < w) {k : Nat} (hk : 0 < k)
    (hx : ∀ m v d, 0 ≤ d → d ≤ w / k / 2 → |m - x| + d ≤ w / 2 → |v - y| ≤ w / 2 → |g (m + d) v + g (m - d) v - 2 * g m v| ≤ φ d)
    (hy : ∀ u m d, 0 ≤ d → d ≤ w / k / 2 → |u - x| ≤ w / 2 → |m - y| + d ≤ w / 2 → |g u (m + d) + g u (m - d) - 2 * g u m| ≤ ψ d) :
    |cellMean g x y w k - cellLight g x y w| ≤ ((∫ d in (0 : ℝ)..(w / k / 2), φ d) + ∫ d in (0 : ℝ)..(w / k / 2), ψ d) / (w / k) := by
  have hk0 : (0 : ℝ) < k := by exact_mod_cast hk
  set G : ℝ → ℝ := fun u => (∫ v in (y - w / 2)..(y + w / 2), g u v) / w with hG
  have hGc : Continuous G := (continuous_parametric_intervalIntegral_of_continuous' hg _ _).div_const w
  have hgu : ∀ u, Continuous (g u) := fun u => hg.comp (by fun_prop : Continuous fun v => (u, v))
  have h1 := mid_mean hGc hφ (c := x) hw hk fun m d h0 h1 h2 => by
    have hle : y - w / 2 ≤ y + w / 2 := by linarith
    have e : G (m + d) + G (m - d) - 2 * G m = (∫ v in (y - w / 2)..(y + w / 2), (g (m + d) v + g (m - d) v - 2 * g m v)) / w := by
      have c1 : Continuous fun v => g (m + d) v + g (m - d) v := (hgu _).add (hgu _)
      have c2 : Continuous fun v => 2 * g m v := continuous_const.mul (hgu _)
      rw [intervalIntegral.integral_sub (c1.intervalIntegrable _ _) (c2.intervalIntegrable _ _),
        intervalIntegral.integral_add ((hgu _).intervalIntegrable _ _) ((hgu _).intervalIntegrable _ _),
        intervalIntegral.integral_const_mul]
      simp only [hG]; ring
    rw [e, abs_div, abs_of_pos hw, div_le_iff₀ hw]
    refine (intervalIntegral.abs_integral_le_integral_abs hle).trans ?_
    calc _ ≤ ∫ _v in (y - w / 2)..(y + w / 2), φ d := by
          refine intervalIntegral.integral_mono_on hle ?_ (continuous_const.intervalIntegrable _ _) fun v hv => ?_
          · exact ((((hgu _).add (hgu _)).sub (continuous_const.mul (hgu _))).abs).intervalIntegrable _ _
          · exact hx m v d h0 h1 h2 (by rw [abs_le]; constructor <;> linarith [hv.1, hv.2])
      _ = φ d * w := by rw [intervalIntegral.integral_const, smul_eq_mul]; ring
  have hnode : ∀ b, b < k → |node x w k b - x| ≤ w / 2 := by
    intro b hb
    have hb' : (b : ℝ) + 1 ≤ k := by exact_mod_cast hb
    have hb0 : (0 : ℝ) ≤ b := Nat.cast_nonneg b
    have q1 : 0 ≤ (b + 1 / 2 : ℝ) / k := by positivity
    have q2 : (b + 1 / 2 : ℝ) / k ≤ 1 := by rw [div_le_one hk0]; linarith
    unfold node
    rw [add_sub_cancel_left, abs_mul, abs_of_pos hw]
    have : |(b + 1 / 2 : ℝ) / k - 1 / 2| ≤ 1 / 2 := by rw [abs_le]; constructor <;> linarith
    nlinarith
  have h2 : ∀ b ∈ Finset.range k, |(∑ a ∈ Finset.range k, g (node x w k b) (node y w k a)) / k - G (node x w k b)| ≤
      (∫ d in (0 : ℝ)..(w / k / 2), ψ d) / (w / k) := by
    intro b hb
    exact mid_mean (hgu _) hψ hw hk fun m d h0 h1 h2 => hy _ m d h0 h1 (hnode b (Finset.mem_range.1 hb)) h2
  have e1 : cellMean g x y w k = (∑ b ∈ Finset.range k, (∑ a ∈ Finset.range k, g (node x w k b) (node y w k a)) / k) / k := by
    unfold cellMean node
    rw [Finset.sum_comm, ← Finset.sum_div, div_div, pow_two]
  have e2 : cellLight g x y w = (∫ u in (x - w / 2)..(x + w / 2), G u) / w := by
    unfold cellLight
    simp only [hG]
    rw [intervalIntegral.integral_div]; field_simp
  have h3 : |(∑ b ∈ Finset.range k, (∑ a ∈ Finset.range k, g (node x w k b) (node y w k a)) / k) / k -
      (∑ b ∈ Finset.range k, G (node x w k b)) / k| ≤ (∫ d in (0 : ℝ)..(w / k / 2), ψ d) / (w / k) := by
    rw [← sub_div, ← Finset.sum_sub_distrib, abs_div, abs_of_pos hk0, div_le_iff₀ hk0]
    refine (Finset.abs_sum_le_sum_abs _ _).trans ((Finset.sum_le_sum h2).trans ?_)
    rw [Finset.sum_const, Finset.card_range, nsmul_eq_mul]
    apply le_of_eq; ring
  rw [e1, e2, add_div]
  have := abs_sub_le ((∑ b ∈ Finset.range k, (∑ a ∈ Finset.range k, g (node x w k b) (node y w k a)) / k) / k)
    ((∑ b ∈ Finset.range k, G (node x w k b)) / k) ((∫ u in (x - w / 2)..(x + w / 2), G u) / w)
  linarith

end Verif.Lemmas

import Verif.Props.PSFImage
import Mathlib.Tactic.Positivity

/-!
# Values of a model with a PSF lie between the values of the model nearby
-/

set_option linter.unusedSectionVars false
set_option linter.unusedVariables false

namespace Verif.Props

open Verif F Spec PSFModel

theorem block_mean_close {p : Nat} (hp : 0 < p) {t : Nat → Nat → ℝ} {c ε : ℝ} (h : ∀ a < p, ∀ b < p, |t a b - c| ≤ ε) :
    |(∑ a ∈ Finset.range p, ∑ b ∈ Finset.range p, t a b) / (p : ℝ) ^ 2 - c| ≤ ε := by
  have hp' : (0 : ℝ) < (p : ℝ) ^ 2 := by positivity
  have e : (∑ a ∈ Finset.range p, ∑ b ∈ Finset.range p, t a b) / (p : ℝ) ^ 2 - c = (∑ a ∈ Finset.range p, ∑ b ∈ Finset.range p, (t a b - c)) / (p : ℝ) ^ 2 := by
    simp only [Finset.sum_sub_distrib, Finset.sum_const, Finset.card_range, nsmul_eq_mul]
    field_simp
  rw [e, abs_div, abs_of_pos hp', div_le_iff₀ hp']
  refine (Finset.abs_sum_le_sum_abs _ _).trans ?_
  calc ∑ a ∈ Finset.range p, |∑ b ∈ Finset.range p, (t a b - c)| ≤ ∑ a ∈ Finset.range p, ∑ b ∈ Finset.range p, ε :=
        Finset.sum_le_sum fun a ha => (Finset.abs_sum_le_sum_abs _ _).trans
          (Finset.sum_le_sum fun b hb => h a (Finset.mem_range.1 ha) b (Finset.mem_range.1 hb))
    _ = ε * (p : ℝ) ^ 2 := by simp; ring

/-- A PSF that is not negative, has the total one and at most `R` pixels along each axis. -/
structure Kernel (R : Nat) (Q : Img ℝ) : Prop where
  height : Q.h ≤ R
  width : Q.w ≤ R
  nonneg : ∀ u < Q.h, ∀ v < Q.w, 0 ≤ Q.px u v
  one : ∑ u ∈ Finset.range Q.h, ∑ v ∈ Finset.range Q.w, Q.px u v = 1

theorem kernel_close {R : Nat} {Q : Img ℝ} (hQ : Kernel R Q) {T : Int → Int → ℝ} {c ε : ℝ} {i j : Int}
    (h : ∀ r s : Int, i - R ≤ r → r ≤ i + R → j - R ≤ s → s ≤ j + R → |T r s - c| ≤ ε) : |convAt Q T i j - c| ≤ ε := by
  obtain ⟨h1, h2, h3, h4⟩ := hQ
  have e : convAt Q T i j - c = ∑ u ∈ Finset.range Q.h, ∑ v ∈ Finset.range Q.w,
      Q.px u v * (T (i + ((Q.h - 1) / 2 : Nat) - u) (j + ((Q.w - 1) / 2 : Nat) - v) - c) := by
    have e1 : c = ∑ u ∈ Finset.range Q.h, ∑ v ∈ Finset.range Q.w, Q.px u v * c := by
      simp only [← Finset.sum_mul]
      rw [h4, one_mul]
    conv_lhs => rw [e1]
    unfold convAt
    rw [← Finset.sum_sub_distrib]
    refine Finset.sum_congr rfl fun u _ => ?_
    rw [← Finset.sum_sub_distrib]
    exact Finset.sum_congr rfl fun v _ => by ring
  rw [e]
  refine (Finset.abs_sum_le_sum_abs _ _).trans ?_
  calc _ ≤ ∑ u ∈ Finset.range Q.h, ∑ v ∈ Finset.range Q.w, Q.px u v * ε := by
        refine Finset.sum_le_sum fun u hu => (Finset.abs_sum_le_sum_abs _ _).trans (Finset.sum_le_sum fun v hv => ?_)
        rw [Finset.mem_range] at hu hv
        rw [abs_mul, abs_of_nonneg (h3 u hu v hv)]
        refine mul_le_mul_of_nonneg_left (h _ _ ?_ ?_ ?_ ?_) (h3 u hu v hv) <;> omega
    _ = ε := by
        simp only [← Finset.sum_mul]
        rw [h4, one_mul]

/-- Where the samples of cell `r` are. -/
theorem sample_within {p k : Nat} (hp : 0 < p) {a : Nat} (ha : a < k) (x0 : ℝ) (r : Int) :
    x0 + r / p - 1 / 2 ≤ cellCentre x0 p r + 1 / (p : ℝ) * (((a : ℝ) + 1 / 2) / k - 1 / 2) ∧
      cellCentre x0 p r + 1 / (p : ℝ) * (((a : ℝ) + 1 / 2) / k - 1 / 2) ≤ x0 + (r + 1) / p - 1 / 2 := by
  have hp' : (0 : ℝ) < p := by exact_mod_cast hp
  have hk : (0 : ℝ) < k := by exact_mod_cast (show 0 < k by omega)
  have ha' : (a : ℝ) + 1 ≤ k := by exact_mod_cast ha
  have h1 : 0 ≤ ((a : ℝ) + 1 / 2) / k := by positivity
  have h2 : ((a : ℝ) + 1 / 2) / k ≤ 1 := by rw [div_le_one hk]; linarith
  have e : cellCentre x0 p r + 1 / (p : ℝ) * (((a : ℝ) + 1 / 2) / k - 1 / 2) = x0 + r / p - 1 / 2 + 1 / p * (((a : ℝ) + 1 / 2) / k) := by
    unfold cellCentre
    field_simp
    ring
  have h3 : 0 ≤ 1 / (p : ℝ) * (((a : ℝ) + 1 / 2) / k) := by positivity
  have h4 : 1 / (p : ℝ) * (((a : ℝ) + 1 / 2) / k) ≤ 1 / p := by
    have : (0 : ℝ) ≤ 1 / p := by positivity
    nlinarith
  have h5 : ((r : ℝ) + 1) / p = r / p + 1 / p := by ring
  rw [e, h5]
  constructor <;> linarith

variable {g : ℝ → ℝ → ℝ} {x0 y0 : ℝ} {n p R : Nat} {k : Int → Int → Nat} {Q : Img ℝ}

/-- Away from the border of the image, the value with the PSF is close to what the model is nearby. -/
theorem blur_close (hp : 0 < p) (hk : ∀ r s, 0 < k r s) (hQ : Kernel R Q) {i j : Nat} (hi : R ≤ i) (hi' : i + R < n) (hj : R ≤ j) (hj' : j + R < n)
    {c ε : ℝ} (h : ∀ x y, |x - (x0 + j)| ≤ R + 2 → |y - (y0 + i)| ≤ R + 2 → |g x y - c| ≤ ε) :
    |cellsOfPixel (convAt Q (psfCells g x0 y0 n p k)) p i j - c| ≤ ε := by
  have hp' : (1 : ℝ) ≤ p := by exact_mod_cast hp
  have hp0 : (0 : ℝ) < p := by linarith
  have hpos : ∀ {i : Nat} {x0 : ℝ} {a : Nat} {r : Int} {t : ℝ}, a < p → ((i * p + a : Nat) : Int) - R ≤ r → r ≤ ((i * p + a : Nat) : Int) + R →
      x0 + r / p - 1 / 2 ≤ t → t ≤ x0 + (r + 1) / p - 1 / 2 → |t - (x0 + i)| ≤ R + 2 := by
    intro i x0 a r t ha h1 h2 h3 h4
    have a1 : ((i * p : Nat) : ℝ) - R ≤ r := by
      have : ((i * p : Nat) : Int) - R ≤ r := by push_cast at h1 ⊢; omega
      exact_mod_cast this
    have a2 : (r : ℝ) + 1 ≤ ((i * p : Nat) : ℝ) + p + R := by
      have : r + 1 ≤ ((i * p : Nat) : Int) + p + R := by push_cast at h2 ⊢; omega
      exact_mod_cast this
    push_cast at a1 a2
    have hR : (0 : ℝ) ≤ R := by positivity
    have b1 : (i : ℝ) - R ≤ r / p := by
      rw [le_div_iff₀ hp0]
      nlinarith
    have b2 : ((r : ℝ) + 1) / p ≤ i + 1 + R := by
      rw [div_le_iff₀ hp0]
      nlinarith
    rw [abs_le]
    constructor <;> linarith
  unfold cellsOfPixel
  refine block_mean_close hp fun a ha b hb => kernel_close hQ fun r s h1 h2 h3 h4 => ?_
  have b1 : R ≤ i * p := hi.trans (Nat.le_mul_of_pos_right _ hp)
  have b2 : R ≤ j * p := hj.trans (Nat.le_mul_of_pos_right _ hp)
  have b3 : (i + R + 1) * p ≤ n * p := Nat.mul_le_mul_right _ hi'
  have b4 : (j + R + 1) * p ≤ n * p := Nat.mul_le_mul_right _ hj'
  have b5 : R ≤ R * p := Nat.le_mul_of_pos_right _ hp
  have hin : 0 ≤ r ∧ r < (n * p : Nat) ∧ 0 ≤ s ∧ s < (n * p : Nat) := by
    rw [Nat.add_mul, Nat.add_mul] at b3 b4
    generalize i * p = ip at *
    generalize j * p = jp at *
    generalize n * p = np at *
    generalize R * p = Rp at *
    push_cast at h1 h2 h3 h4
    refine ⟨?_, ?_, ?_, ?_⟩ <;> omega
  unfold psfCells
  rw [if_pos hin]
  unfold cellMean
  refine block_mean_close (hk r s) fun a' ha' b' hb' => ?_
  obtain ⟨u1, u2⟩ := sample_within hp hb' x0 s
  obtain ⟨v1, v2⟩ := sample_within hp ha' y0 r
  exact h _ _ (hpos hb h3 h4 u1 u2) (hpos ha h1 h2 v1 v2)

/-- Everywhere, the value with the PSF is bounded as the model is. -/
theorem blur_bound (hp : 0 < p) (hk : ∀ r s, 0 < k r s) (hQ : Kernel R Q) (i j : Nat) {G : ℝ} (hG : 0 ≤ G)
    (h : ∀ x y, x0 - 1 ≤ x → x ≤ x0 + n → y0 - 1 ≤ y → y ≤ y0 + n → |g x y| ≤ G) :
    |cellsOfPixel (convAt Q (psfCells g x0 y0 n p k)) p i j| ≤ G := by
  have hp0 : (0 : ℝ) < p := by exact_mod_cast hp
  have hpos : ∀ {x0 : ℝ} {r : Int} {t : ℝ}, 0 ≤ r → r < (n * p : Nat) →
      x0 + r / p - 1 / 2 ≤ t → t ≤ x0 + (r + 1) / p - 1 / 2 → x0 - 1 ≤ t ∧ t ≤ x0 + n := by
    intro x0 r t h1 h2 h3 h4
    have a1 : (0 : ℝ) ≤ r := by exact_mod_cast h1
    have a2 : (r : ℝ) + 1 ≤ n * p := by
      have : r + 1 ≤ (n * p : Nat) := by omega
      exact_mod_cast this
    have b1 : (0 : ℝ) ≤ r / p := by positivity
    have b2 : ((r : ℝ) + 1) / p ≤ n := by rwa [div_le_iff₀ hp0]
    constructor <;> linarith
  rw [← sub_zero (cellsOfPixel _ _ _ _)]
  unfold cellsOfPixel
  refine block_mean_close hp fun a ha b hb => kernel_close hQ fun r s h1 h2 h3 h4 => ?_
  unfold psfCells
  split
  · rename_i hin
    unfold cellMean
    refine block_mean_close (hk r s) fun a' ha' b' hb' => ?_
    rw [sub_zero]
    obtain ⟨u1, u2⟩ := sample_within hp hb' x0 s
    obtain ⟨v1, v2⟩ := sample_within hp ha' y0 r
    obtain ⟨c1, c2⟩ := hpos hin.2.2.1 hin.2.2.2 u1 u2
    obtain ⟨c3, c4⟩ := hpos hin.1 hin.2.1 v1 v2
    exact h _ _ c1 c2 c3 c4
  · simpa using hG

/-- The same for pixel means. -/
theorem pixelMean_near {f : Nat} (hf : 0 < f) {x y c ε : ℝ} (h : ∀ x' y', |x' - x| ≤ 1 → |y' - y| ≤ 1 → |g x' y' - c| ≤ ε) :
    |pixelMean g x y f - c| ≤ ε := by
  have hpos : ∀ {t : ℝ} {a : Nat}, a < f → |t + (((a : ℝ) + 1 / 2) / f - 1 / 2) - t| ≤ 1 := by
    intro t a ha
    have hf0 : (0 : ℝ) < f := by exact_mod_cast hf
    have ha' : (a : ℝ) + 1 ≤ f := by exact_mod_cast ha
    have h1 : 0 ≤ ((a : ℝ) + 1 / 2) / f := by positivity
    have h2 : ((a : ℝ) + 1 / 2) / f ≤ 1 := by rw [div_le_one hf0]; linarith
    rw [abs_le]
    constructor <;> linarith
  unfold pixelMean
  exact block_mean_close hf fun a ha b hb => h _ _ (hpos hb) (hpos ha)

end Verif.Props

import Verif.Spec.PSFModel
import Verif.Lemmas.Photometry
import Mathlib.Algebra.BigOperators.Intervals
import Mathlib.Tactic.FieldSimp
import Mathlib.Tactic.Ring
import Mathlib.Tactic.Linarith
import Mathlib.Tactic.NormNum

/-!
# Grids, block sums and convolution
-/

set_option linter.unusedSectionVars false
set_option linter.unusedSimpArgs false

namespace Verif

open Spec PSFModel

variable {K : Type} [Field K] [LinearOrder K] [IsStrictOrderedRing K] [FloorRing K]

theorem npArange_length (n : Nat) : (npArange (1 / 2) ((n : Nat) : K)).length = n := by
  unfold npArange
  rw [List.length_map, List.length_range]
  have : ⌈((n : Nat) : K) - 1 / 2⌉ = (n : Int) := by
    rw [Int.ceil_eq_iff]
    constructor
    · push_cast; linarith
    · push_cast; linarith
  rw [this]; simp

theorem npArange_get (n k : Nat) (hk : k < n) : (npArange (1 / 2) ((n : Nat) : K)).getD k 0 = 1 / 2 + (k : K) := by
  have hl : k < (npArange (1 / 2) ((n : Nat) : K)).length := by rw [npArange_length]; exact hk
  simp only [List.getD, List.getElem?_eq_getElem hl, Option.getD_some]
  simp [npArange]

theorem getD_map' {α β : Type} (l : List α) (f : α → β) (d : α) (d' : β) (k : Nat) (hk : k < l.length) :
    (l.map f).getD k d' = f (l.getD k d) := by
  simp [List.getD, List.getElem?_eq_getElem hk]

/-- The grid of a non-negative size. -/
theorem makeGrid_spec (size f : Nat) (o : K × K) :
    (makeGrid (size : Int) o f).1.h = size * f ∧ (makeGrid (size : Int) o f).1.w = size * f ∧
    (makeGrid (size : Int) o f).2.h = size * f ∧ (makeGrid (size : Int) o f).2.w = size * f ∧
    ∀ i j, i < size * f → j < size * f →
      (makeGrid (size : Int) o f).1.px i j = o.1 + ((j + 1 / 2) / f - 1 / 2) ∧
      (makeGrid (size : Int) o f).2.px i j = o.2 + ((i + 1 / 2) / f - 1 / 2) := by
  have hc : (((size : Int) * (f : Int) : Int) : K) = ((size * f : Nat) : K) := by push_cast; rfl
  unfold makeGrid meshgrid
  simp only [hc, List.length_map, npArange_length, true_and]
  intro i j hi hj
  have hl : ∀ k, k < size * f → k < (npArange (1 / 2) ((size * f : Nat) : K)).length := fun k hk => by
    rw [npArange_length]; exact hk
  constructor
  · rw [getD_map' _ _ 0 _ _ (by rw [List.length_map]; exact hl j hj), getD_map' _ _ 0 _ _ (hl j hj), npArange_get _ _ hj]; ring
  · rw [getD_map' _ _ 0 _ _ (by rw [List.length_map]; exact hl i hi), getD_map' _ _ 0 _ _ (hl i hi), npArange_get _ _ hi]; ring

theorem blockReduce_px (im : Img K) (f i j : Nat) :
    (blockReduce im f).px i j = ∑ a ∈ Finset.range f, ∑ b ∈ Finset.range f, im.px (i * f + a) (j * f + b) := by
  simp only [blockReduce, sum_range_list]

/-- A sum over blocks is a sum over everything. -/
theorem sum_blocks (n f : Nat) (g : Nat → K) :
    ∑ i ∈ Finset.range n, ∑ a ∈ Finset.range f, g (i * f + a) = ∑ k ∈ Finset.range (n * f), g k := by
  induction n with
  | zero => simp
  | succ n ih =>
    rw [Finset.sum_range_succ, ih, Nat.succ_mul, Finset.sum_range_add]

/-- Block sums of block sums. -/
theorem blockReduce_twice (im : Img K) (p q i j : Nat) :
    (blockReduce (blockReduce im q) p).px i j = (blockReduce im (p * q)).px i j := by
  rw [blockReduce_px, blockReduce_px]
  simp only [blockReduce_px]
  rw [← sum_blocks p q (fun a => ∑ b ∈ Finset.range (p * q), im.px (i * (p * q) + a) (j * (p * q) + b))]
  apply Finset.sum_congr rfl
  intro a _
  rw [Finset.sum_comm]
  apply Finset.sum_congr rfl
  intro c _
  rw [← sum_blocks p q (fun b => im.px (i * (p * q) + (a * q + c)) (j * (p * q) + b))]
  apply Finset.sum_congr rfl
  intro b _
  apply Finset.sum_congr rfl
  intro d _
  congr 1 <;> ring

theorem divBy_px (im : Img K) (c : K) (i j : Nat) : (im.divBy c).px i j = im.px i j / c := rfl

/-- The block mean of a sampled function is its pixel mean. -/
theorem sample_mean (S : SubModel K) (params : List K) (size f i j : Nat) (hf : 0 < f) (o : K × K) (hi : i < size) (hj : j < size) :
    ((blockReduce (sample S params (makeGrid (size : Int) o f)) f).divBy ((f : K) ^ 2)).px i j =
      pixelMean (S.eval params) (o.1 + j) (o.2 + i) f := by
  rw [divBy_px, blockReduce_px]
  unfold pixelMean
  congr 1
  apply Finset.sum_congr rfl
  intro a ha
  apply Finset.sum_congr rfl
  intro b hb
  rw [Finset.mem_range] at ha hb
  have h1 : i * f + a < size * f := by
    calc i * f + a < i * f + f := by omega
      _ = (i + 1) * f := by ring
      _ ≤ size * f := Nat.mul_le_mul_right _ hi
  have h2 : j * f + b < size * f := by
    calc j * f + b < j * f + f := by omega
      _ = (j + 1) * f := by ring
      _ ≤ size * f := Nat.mul_le_mul_right _ hj
  obtain ⟨-, -, -, -, hg⟩ := makeGrid_spec size f o
  obtain ⟨hx, hy⟩ := hg _ _ h1 h2
  have hf0 : (f : K) ≠ 0 := by exact_mod_cast hf.ne'
  simp only [sample]
  rw [hx, hy]
  congr 1
  · push_cast; field_simp; ring
  · push_cast; field_simp; ring

theorem pixelMean_one (g : K → K → K) (x y : K) : pixelMean g x y 1 = g x y := by
  simp [pixelMean]

/-! ### Convolution -/

theorem convolveSame_px (im psf : Img K) (i j : Nat) : (convolveSame im psf).px i j =
    ∑ a ∈ Finset.range psf.h, ∑ b ∈ Finset.range psf.w,
      psf.px a b * im.zeroPad ((i : Int) + (((psf.h - 1) / 2 : Nat) : Int) - a) ((j : Int) + (((psf.w - 1) / 2 : Nat) : Int) - b) := by
  simp only [convolveSame, sum_range_list]

theorem zeroPad_nat (im : Img K) (i j : Nat) : im.zeroPad i j = if i < im.h ∧ j < im.w then im.px i j else 0 := by
  unfold Img.zeroPad
  by_cases h : i < im.h ∧ j < im.w
  · rw [if_pos h, if_pos (by omega)]; simp
  · rw [if_neg h, if_neg (by omega)]

/-- Shifting a sum over an axis when the function vanishes outside the part that stays on the axis. -/
theorem sum_shift (h : Nat) (s : Int) (g : Int → K) (hg : ∀ k : Int, g k ≠ 0 → 0 ≤ k ∧ k < h ∧ 0 ≤ k - s ∧ k - s < h) :
    ∑ i ∈ Finset.range h, g ((i : Int) + s) = ∑ k ∈ Finset.range h, g (k : Int) := by
  apply Finset.sum_bij_ne_zero (fun (i : Nat) _ _ => ((i : Int) + s).toNat)
  · intro i hi hne
    obtain ⟨a, b, _, _⟩ := hg _ hne
    rw [Finset.mem_range]; omega
  · intro i hi hne j hj hne' he
    obtain ⟨a, _, _, _⟩ := hg _ hne
    obtain ⟨c, _, _, _⟩ := hg _ hne'
    omega
  · intro k hk hne
    obtain ⟨a, b, c, d⟩ := hg _ hne
    refine ⟨((k : Int) - s).toNat, by rw [Finset.mem_range]; omega, ?_, by omega⟩
    have : ((((k : Int) - s).toNat : Nat) : Int) + s = k := by omega
    rw [this]; exact hne
  · intro i hi hne
    obtain ⟨a, _, _, _⟩ := hg _ hne
    rw [Int.toNat_of_nonneg a]

end Verif

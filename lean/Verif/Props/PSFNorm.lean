import Verif.Model.PSFChecks
import Verif.Props.PSFImage

/-!
# C120 to C122: normalisation, rotation and centring of the PSF
-/

set_option linter.unusedSectionVars false
set_option linter.unusedSimpArgs false

namespace Verif.Spec

variable {K : Type} [Field K] [LinearOrder K]

/-- The first moments of an image about pixel `(0, 0)`: row and column. -/
def momentRow (im : Img K) : K := ∑ i ∈ Finset.range im.h, ∑ j ∈ Finset.range im.w, (i : K) * im.px i j
@[inherit_doc momentRow]
def momentCol (im : Img K) : K := ∑ i ∈ Finset.range im.h, ∑ j ∈ Finset.range im.w, (j : K) * im.px i j

/-- The pixels that are not zero are far enough from the border for a PSF of this shape. -/
def Inside (im psf : Img K) : Prop :=
  ∀ i j, i < im.h → j < im.w → im.px i j ≠ 0 →
    (psf.h - 1) / 2 ≤ i ∧ i + psf.h / 2 < im.h ∧ (psf.w - 1) / 2 ≤ j ∧ j + psf.w / 2 < im.w

end Verif.Spec

namespace Verif.Props

open F Spec PSFModel

section
variable {K : Type} [Field K] [LinearOrder K] [IsStrictOrderedRing K] [FloorRing K]

/-! ### C120 -/

theorem rint_eq_even {x : K} {n : Int} (hn : n % 2 = 0) : rint x = n ↔ |x - n| ≤ 1 / 2 := by
  have h1 : (⌊x⌋ : K) ≤ x := Int.floor_le x
  have h2 : x < ⌊x⌋ + 1 := Int.lt_floor_add_one x
  rw [abs_le]
  unfold rint
  constructor
  · intro h
    split_ifs at h with a b c
    · rw [← h]; constructor <;> linarith
    · rw [← h]; push_cast; constructor <;> linarith
    · rw [← h]; constructor <;> linarith
    · rw [← h]; push_cast; constructor <;> linarith
  · rintro ⟨h3, h4⟩
    have lo : (n : K) < ⌊x⌋ + 2 := by linarith
    have hi : ((⌊x⌋ : Int) : K) - 1 < n := by linarith
    have lo' : n < ⌊x⌋ + 2 := by exact_mod_cast lo
    have hi' : ⌊x⌋ - 1 < n := by exact_mod_cast hi
    have hcase : n = ⌊x⌋ ∨ n = ⌊x⌋ + 1 := by omega
    split_ifs with a b c
    · rcases hcase with h | h
      · exact h.symm
      · rw [h] at h3; push_cast at h3; linarith
    · rcases hcase with h | h
      · rw [h] at h4; linarith
      · exact h.symm
    · rcases hcase with h | h
      · exact h.symm
      · omega
    · rcases hcase with h | h
      · omega
      · exact h.symm

/-- **C120.** Setting a PSF stays silent exactly when its sum is a number within `5·10⁻⁷` of 1. -/
theorem C120_silent_iff (s : F K) : psfWarns s = false ↔ ∃ x, s = fin x ∧ |x - 1| ≤ 5 / 10 ^ 7 := by
  cases s with
  | nan => simp [psfWarns, npRound6, F.eqv]
  | ninf => simp [psfWarns, npRound6, F.eqv]
  | pinf => simp [psfWarns, npRound6, F.eqv]
  | fin x =>
    have e : psfWarns (fin x) = false ↔ rint (x * 10 ^ 6) = 10 ^ 6 := by
      unfold psfWarns npRound6
      simp only [Bool.not_eq_false', eqv_fin, decide_eq_true_eq]
      rw [div_eq_one_iff_eq (by positivity)]
      exact_mod_cast Iff.rfl
    rw [e, rint_eq_even (by decide)]
    have : x * 10 ^ 6 - ((10 ^ 6 : Int) : K) = (x - 1) * 10 ^ 6 := by push_cast; ring
    rw [this, abs_mul, abs_of_pos (by positivity : (0 : K) < 10 ^ 6)]
    constructor
    · intro h
      refine ⟨x, rfl, ?_⟩
      rw [le_div_iff₀ (by positivity)]
      linarith
    · rintro ⟨y, hy, h⟩
      injection hy with hy
      subst hy
      rw [le_div_iff₀ (by positivity)] at h
      linarith

/-- **C120, flux.** A PSF that was set without a warning changes the flux of an image away from the borders by less than a millionth. -/
theorem C120_flux (im psf : Img K) (h : psfWarns (fin (total psf)) = false) (hs : Inside im psf) :
    |total (convolveSame im psf) - total im| ≤ |total im| * (5 / 10 ^ 7) := by
  obtain ⟨x, hx, hle⟩ := (C120_silent_iff _).1 h
  injection hx with hx
  rw [C59_flux im psf hs, hx]
  have : total im * x - total im = total im * (x - 1) := by ring
  rw [this, abs_mul]
  exact mul_le_mul_of_nonneg_left hle (abs_nonneg _)

/-! ### C121 -/

/-- **C121, half turn.** Turning a PSF by 180° conserves its sum. -/
theorem C121_half_turn (im : Img K) : total (rotate180 im) = total im := by
  unfold total rotate180
  simp only
  rw [← Finset.sum_range_reflect (fun i => ∑ j ∈ Finset.range im.w, im.px i j)]
  apply Finset.sum_congr rfl
  intro i hi
  rw [← Finset.sum_range_reflect (fun j => im.px (im.h - 1 - i) j)]
  apply Finset.sum_congr rfl
  intro j hj
  rw [Finset.mem_range] at hi hj
  have e1 : (im.h : Int) - 1 - i = ((im.h - 1 - i : Nat) : Int) := by omega
  have e2 : (im.w : Int) - 1 - j = ((im.w - 1 - j : Nat) : Int) := by omega
  rw [e1, e2, zeroPad_nat, if_pos (by omega)]

theorem rotate90_square (im : Img K) (n : Nat) (hh : im.h = n) (hw : im.w = n) (i j : Nat) (hi : i < n) (hj : j < n) :
    (rotate90 im).px i j = im.px j (n - 1 - i) := by
  unfold rotate90
  simp only [hh, hw, sub_self, Int.zero_ediv, add_zero]
  have e2 : ((n : Int) + n) / 2 - 1 - i = ((n - 1 - i : Nat) : Int) := by omega
  rw [e2, zeroPad_nat, if_pos (by omega)]

/-- **C121, quarter turn.** Turning a square PSF by 90° conserves its sum. -/
theorem C121_square_partial (im : Img K) (n : Nat) (hh : im.h = n) (hw : im.w = n) : total (rotate90 im) = total im := by
  have : total (rotate90 im) = ∑ i ∈ Finset.range n, ∑ j ∈ Finset.range n, im.px j (n - 1 - i) := by
    unfold total
    show ∑ i ∈ Finset.range im.h, ∑ j ∈ Finset.range im.w, _ = _
    rw [hh, hw]
    apply Finset.sum_congr rfl
    intro i hi
    apply Finset.sum_congr rfl
    intro j hj
    exact rotate90_square im n hh hw i j (Finset.mem_range.1 hi) (Finset.mem_range.1 hj)
  rw [this, Finset.sum_comm]
  unfold total
  rw [hh, hw]
  apply Finset.sum_congr rfl
  intro j _
  exact Finset.sum_range_reflect (fun i => im.px j i) n

/-- Two quarter turns of a square are a half turn. -/
theorem C121_two_quarters (im : Img K) (n : Nat) (hh : im.h = n) (hw : im.w = n) : (rotate90 (rotate90 im)).Same (rotate180 im) := by
  refine ⟨rfl, rfl, fun i j hi hj => ?_⟩
  have hi' : i < n := by rw [← hh]; exact hi
  have hj' : j < n := by rw [← hw]; exact hj
  rw [rotate90_square (rotate90 im) n hh hw i j hi' hj', rotate90_square im n hh hw j _ hj' (by omega)]
  unfold rotate180
  simp only [hh, hw]
  have e1 : (n : Int) - 1 - i = ((n - 1 - i : Nat) : Int) := by omega
  have e2 : (n : Int) - 1 - j = ((n - 1 - j : Nat) : Int) := by omega
  rw [e1, e2, zeroPad_nat, if_pos (by omega)]

/-! ### C122 -/

theorem zeroPad_inside {im psf : Img K} (hs : Inside im psf) (a b : Int) (hne : im.zeroPad a b ≠ 0) :
    0 ≤ a ∧ a < im.h ∧ 0 ≤ b ∧ b < im.w ∧ (((psf.h - 1) / 2 : Nat) : Int) ≤ a ∧
      a + ((psf.h / 2 : Nat) : Int) < im.h ∧ (((psf.w - 1) / 2 : Nat) : Int) ≤ b ∧ b + ((psf.w / 2 : Nat) : Int) < im.w := by
  unfold Img.zeroPad at hne
  split_ifs at hne with hc
  · have := hs a.toNat b.toNat (by omega) (by omega) hne
    omega
  · exact absurd rfl hne

/-- A weighted total of the convolution as a sum over PSF and image pixels. -/
theorem weighted_conv (im psf : Img K) (hs : Inside im psf) (φ : Int → Int → K) :
    ∑ i ∈ Finset.range im.h, ∑ j ∈ Finset.range im.w, φ i j * (convolveSame im psf).px i j =
      ∑ a ∈ Finset.range psf.h, ∑ b ∈ Finset.range psf.w, psf.px a b * ∑ k ∈ Finset.range im.h, ∑ l ∈ Finset.range im.w,
        φ ((k : Int) + a - ((psf.h - 1) / 2 : Nat)) ((l : Int) + b - ((psf.w - 1) / 2 : Nat)) * im.px k l := by
  have inner : ∀ a b : Nat, a < psf.h → b < psf.w →
      ∑ i ∈ Finset.range im.h, ∑ j ∈ Finset.range im.w, φ i j *
        im.zeroPad ((i : Int) + (((psf.h - 1) / 2 : Nat) : Int) - a) ((j : Int) + (((psf.w - 1) / 2 : Nat) : Int) - b) =
      ∑ k ∈ Finset.range im.h, ∑ l ∈ Finset.range im.w,
        φ ((k : Int) + a - ((psf.h - 1) / 2 : Nat)) ((l : Int) + b - ((psf.w - 1) / 2 : Nat)) * im.px k l := by
    intro a b ha hb
    set s : Int := (((psf.h - 1) / 2 : Nat) : Int) - a with hsd
    set t : Int := (((psf.w - 1) / 2 : Nat) : Int) - b with htd
    have h1 : ∀ i r : Int, ∑ j ∈ Finset.range im.w, φ i j * im.zeroPad r ((j : Int) + t) =
        ∑ j ∈ Finset.range im.w, φ i ((j : Int) - t) * im.zeroPad r (j : Int) := by
      intro i r
      have := sum_shift im.w t (fun k => φ i (k - t) * im.zeroPad r k) (fun k hk => by
        obtain ⟨_, _, h3, h4, _, _, h7, h8⟩ := zeroPad_inside hs r k (right_ne_zero_of_mul hk)
        omega)
      simp only [add_sub_cancel_right] at this
      exact this
    have h2 := sum_shift im.h s (fun k => ∑ j ∈ Finset.range im.w, φ (k - s) ((j : Int) - t) * im.zeroPad k (j : Int)) (fun k hk => by
      obtain ⟨j, _, hj⟩ := Finset.exists_ne_zero_of_sum_ne_zero hk
      obtain ⟨h3, h4, _, _, h7, h8, _, _⟩ := zeroPad_inside hs k j (right_ne_zero_of_mul hj)
      omega)
    simp only [add_sub_cancel_right] at h2
    have e : ∀ (i : Nat) (c a : Int), (i : Int) + c - a = i + (c - a) := by intro i c a; ring
    simp only [e, ← hsd, ← htd, h1]
    rw [h2]
    apply Finset.sum_congr rfl
    intro k hk
    apply Finset.sum_congr rfl
    intro l hl
    rw [Finset.mem_range] at hk hl
    rw [zeroPad_nat, if_pos ⟨hk, hl⟩]
    congr 2 <;> omega
  have hswap : ∀ i ∈ Finset.range im.h, ∑ j ∈ Finset.range im.w, φ i j * (convolveSame im psf).px i j =
      ∑ a ∈ Finset.range psf.h, ∑ b ∈ Finset.range psf.w, psf.px a b * ∑ j ∈ Finset.range im.w, φ i j *
        im.zeroPad ((i : Int) + (((psf.h - 1) / 2 : Nat) : Int) - a) ((j : Int) + (((psf.w - 1) / 2 : Nat) : Int) - b) := by
    intro i _
    simp only [convolveSame_px, Finset.mul_sum]
    rw [Finset.sum_comm]
    apply Finset.sum_congr rfl
    intro a _
    rw [Finset.sum_comm]
    apply Finset.sum_congr rfl
    intro b _
    apply Finset.sum_congr rfl
    intro j _
    ring
  rw [Finset.sum_congr rfl hswap, Finset.sum_comm]
  apply Finset.sum_congr rfl
  intro a ha
  rw [Finset.sum_comm]
  apply Finset.sum_congr rfl
  intro b hb
  rw [← Finset.mul_sum, inner a b (Finset.mem_range.1 ha) (Finset.mem_range.1 hb)]

/-- **C122, shift.** Convolution moves the first moments of an image by its flux times the first moments of the PSF about the pixel
`((h-1)//2, (w-1)//2)`. -/
theorem C122_shift (im psf : Img K) (hs : Inside im psf) :
    momentRow (convolveSame im psf) = momentRow im * total psf + total im * (momentRow psf - (((psf.h - 1) / 2 : Nat) : K) * total psf) ∧
    momentCol (convolveSame im psf) = momentCol im * total psf + total im * (momentCol psf - (((psf.w - 1) / 2 : Nat) : K) * total psf) := by
  constructor
  · have := weighted_conv im psf hs (fun i _ => (i : K))
    unfold momentRow
    show ∑ i ∈ Finset.range im.h, ∑ j ∈ Finset.range im.w, _ = _
    have h2 : ∀ a b : Nat, psf.px a b * ∑ k ∈ Finset.range im.h, ∑ l ∈ Finset.range im.w,
        ((((k : Int) + a - ((psf.h - 1) / 2 : Nat) : Int)) : K) * im.px k l =
        psf.px a b * momentRow im + ((a : K) * psf.px a b) * total im - psf.px a b * ((((psf.h - 1) / 2 : Nat) : K) * total im) := by
      intro a b
      have : ∑ k ∈ Finset.range im.h, ∑ l ∈ Finset.range im.w,
          ((((k : Int) + a - ((psf.h - 1) / 2 : Nat) : Int)) : K) * im.px k l =
          momentRow im + (a : K) * total im - (((psf.h - 1) / 2 : Nat) : K) * total im := by
        unfold momentRow total
        simp only [Finset.mul_sum, ← Finset.sum_add_distrib, ← Finset.sum_sub_distrib]
        apply Finset.sum_congr rfl
        intro k _
        apply Finset.sum_congr rfl
        intro l _
        simp only [Int.cast_sub, Int.cast_add, Int.cast_natCast]; ring
      rw [this]; ring
    simp only [Int.cast_natCast] at this
    rw [this]
    simp only [h2]
    unfold momentRow total
    simp only [Finset.sum_sub_distrib, Finset.sum_add_distrib, ← Finset.sum_mul]
    ring
  · have := weighted_conv im psf hs (fun _ j => (j : K))
    unfold momentCol
    show ∑ i ∈ Finset.range im.h, ∑ j ∈ Finset.range im.w, _ = _
    have h2 : ∀ a b : Nat, psf.px a b * ∑ k ∈ Finset.range im.h, ∑ l ∈ Finset.range im.w,
        ((((l : Int) + b - ((psf.w - 1) / 2 : Nat) : Int)) : K) * im.px k l =
        psf.px a b * momentCol im + ((b : K) * psf.px a b) * total im - psf.px a b * ((((psf.w - 1) / 2 : Nat) : K) * total im) := by
      intro a b
      have : ∑ k ∈ Finset.range im.h, ∑ l ∈ Finset.range im.w,
          ((((l : Int) + b - ((psf.w - 1) / 2 : Nat) : Int)) : K) * im.px k l =
          momentCol im + (b : K) * total im - (((psf.w - 1) / 2 : Nat) : K) * total im := by
        unfold momentCol total
        simp only [Finset.mul_sum, ← Finset.sum_add_distrib, ← Finset.sum_sub_distrib]
        apply Finset.sum_congr rfl
        intro k _
        apply Finset.sum_congr rfl
        intro l _
        simp only [Int.cast_sub, Int.cast_add, Int.cast_natCast]; ring
      rw [this]; ring
    simp only [Int.cast_natCast] at this
    rw [this]
    simp only [h2]
    unfold momentCol total
    simp only [Finset.sum_sub_distrib, Finset.sum_add_distrib, ← Finset.sum_mul]
    ring

/-- The moment of a PSF that is symmetric under a half turn is half of `h - 1` times its sum. -/
theorem symmetric_moment (psf : Img K) (hsym : ∀ a b, a < psf.h → b < psf.w → psf.px (psf.h - 1 - a) (psf.w - 1 - b) = psf.px a b) :
    2 * momentRow psf = ((psf.h : K) - 1) * total psf ∧ 2 * momentCol psf = ((psf.w : K) - 1) * total psf := by
  have flip : ∀ g : Nat → Nat → K, ∑ i ∈ Finset.range psf.h, ∑ j ∈ Finset.range psf.w, g i j =
      ∑ i ∈ Finset.range psf.h, ∑ j ∈ Finset.range psf.w, g (psf.h - 1 - i) (psf.w - 1 - j) := by
    intro g
    rw [← Finset.sum_range_reflect (fun i => ∑ j ∈ Finset.range psf.w, g i j)]
    apply Finset.sum_congr rfl
    intro i _
    rw [← Finset.sum_range_reflect (fun j => g (psf.h - 1 - i) j)]
  constructor
  · have : momentRow psf = ((psf.h : K) - 1) * total psf - momentRow psf := by
      unfold momentRow total
      conv_lhs => rw [flip]
      rw [Finset.mul_sum, ← Finset.sum_sub_distrib]
      apply Finset.sum_congr rfl
      intro i hi
      rw [Finset.mul_sum, ← Finset.sum_sub_distrib]
      apply Finset.sum_congr rfl
      intro j hj
      rw [Finset.mem_range] at hi hj
      rw [hsym i j hi hj]
      have : ((psf.h - 1 - i : Nat) : K) = (psf.h : K) - 1 - i := by
        rw [Nat.cast_sub (by omega), Nat.cast_sub (by omega)]; simp
      rw [this]; ring
    linarith
  · have : momentCol psf = ((psf.w : K) - 1) * total psf - momentCol psf := by
      unfold momentCol total
      conv_lhs => rw [flip]
      rw [Finset.mul_sum, ← Finset.sum_sub_distrib]
      apply Finset.sum_congr rfl
      intro i hi
      rw [Finset.mul_sum, ← Finset.sum_sub_distrib]
      apply Finset.sum_congr rfl
      intro j hj
      rw [Finset.mem_range] at hi hj
      rw [hsym i j hi hj]
      have : ((psf.w - 1 - j : Nat) : K) = (psf.w : K) - 1 - j := by
        rw [Nat.cast_sub (by omega), Nat.cast_sub (by omega)]; simp
      rw [this]; ring
    linarith

/-- **C122, odd sizes.** A normalised PSF of odd height and width that is symmetric under a half turn leaves the centroid where it is. -/
theorem C122_odd_partial (im psf : Img K) (hs : Inside im psf) (h1 : total psf = 1) (oh : psf.h % 2 = 1) (ow : psf.w % 2 = 1)
    (hsym : ∀ a b, a < psf.h → b < psf.w → psf.px (psf.h - 1 - a) (psf.w - 1 - b) = psf.px a b) :
    total (convolveSame im psf) = total im ∧ momentRow (convolveSame im psf) = momentRow im ∧
      momentCol (convolveSame im psf) = momentCol im := by
  obtain ⟨m1, m2⟩ := symmetric_moment psf hsym
  obtain ⟨s1, s2⟩ := C122_shift im psf hs
  have half : ∀ n : Nat, n % 2 = 1 → 2 * (((n - 1) / 2 : Nat) : K) = (n : K) - 1 := by
    intro n hn
    have : 2 * ((n - 1) / 2) + 1 = n := by omega
    have h : ((2 * ((n - 1) / 2) + 1 : Nat) : K) = (n : K) := by rw [this]
    rw [← h]; push_cast; ring
  have e1 := half psf.h oh
  have e2 := half psf.w ow
  rw [h1] at m1 m2 s1 s2
  refine ⟨by rw [C59_flux im psf hs, h1, mul_one], ?_, ?_⟩
  · rw [s1]
    have : momentRow psf = (((psf.h - 1) / 2 : Nat) : K) := by linarith
    rw [this]; ring
  · rw [s2]
    have : momentCol psf = (((psf.w - 1) / 2 : Nat) : K) := by linarith
    rw [this]; ring

/-- **C122, even sizes, violated.** A normalised PSF of even height that is symmetric under a half turn moves every image by half a pixel
along the rows axis (and likewise for an even width). -/
theorem C122_even_violated (im psf : Img K) (hs : Inside im psf) (h1 : total psf = 1)
    (hsym : ∀ a b, a < psf.h → b < psf.w → psf.px (psf.h - 1 - a) (psf.w - 1 - b) = psf.px a b) :
    (psf.h % 2 = 0 → 0 < psf.h → momentRow (convolveSame im psf) = momentRow im + total im / 2) ∧
    (psf.w % 2 = 0 → 0 < psf.w → momentCol (convolveSame im psf) = momentCol im + total im / 2) := by
  obtain ⟨m1, m2⟩ := symmetric_moment psf hsym
  obtain ⟨s1, s2⟩ := C122_shift im psf hs
  have half : ∀ n : Nat, n % 2 = 0 → 0 < n → 2 * (((n - 1) / 2 : Nat) : K) = (n : K) - 2 := by
    intro n hn h0
    have : 2 * ((n - 1) / 2) + 2 = n := by omega
    have h : ((2 * ((n - 1) / 2) + 2 : Nat) : K) = (n : K) := by rw [this]
    rw [← h]; push_cast; ring
  rw [h1] at m1 m2 s1 s2
  refine ⟨fun e p => ?_, fun e p => ?_⟩
  · have e1 := half psf.h e p
    rw [s1]
    have : momentRow psf - (((psf.h - 1) / 2 : Nat) : K) * 1 = 1 / 2 := by linarith
    rw [this]; ring
  · have e1 := half psf.w e p
    rw [s2]
    have : momentCol psf - (((psf.w - 1) / 2 : Nat) : K) * 1 = 1 / 2 := by linarith
    rw [this]; ring

end

/-! ### Witnesses -/

/-- A star in the middle of a 5×5 image. -/
def star5 : SubModel ℚ := ⟨[], fun _ x y => if x = 2 ∧ y = 2 then 1 else 0⟩

/-- A PSF of one row and three columns. -/
def rowPsf : Img ℚ := Img.ofRows 0 [[1 / 4, 1 / 2, 1 / 4]]

/-- The pixels of a 5×5 image. -/
def grid55 : List (ℚ × ℚ) := (List.range 5).flatMap fun j : Nat => (List.range 5).map fun i : Nat => ((i : ℚ), (j : ℚ))

/-- **C121, violated.** A normalised PSF of 1×3 pixels, accepted without a warning, loses half of its light when `psf_pa` is 90 and so does
the model image. -/
theorem C121_violated : total rowPsf = 1 ∧ psfWarns (fin (total rowPsf)) = false ∧ total (rotate90 rowPsf) = 1 / 2 ∧
    ∃ M, PSFModel.init star5 (some rowPsf) .none .none = .ok M ∧
      (M.evaluate (fun p _ => rotate90 p) grid55 [] 0).1.map List.sum = .ok 1 ∧
      (M.evaluate (fun p _ => rotate90 p) grid55 [] 90).1.map List.sum = .ok (1 / 2) := by
  refine ⟨by decide +kernel, by decide +kernel, by decide +kernel, _, rfl, ?_, ?_⟩ <;> decide +kernel

/-- Non-vacuity of C120 and C122: a star and a 2×2 PSF; the light is spread evenly over four pixels whose centre is `(2.5, 2.5)`. -/
example : let im : Img ℚ := ⟨5, 5, fun i j => if i = 2 ∧ j = 2 then 1 else 0⟩
    let psf : Img ℚ := Img.ofRows 0 [[1 / 4, 1 / 4], [1 / 4, 1 / 4]]
    total psf = 1 ∧ psfWarns (fin (total psf)) = false ∧ momentRow im = 2 ∧ momentRow (convolveSame im psf) = 5 / 2 ∧
      momentCol (convolveSame im psf) = 5 / 2 := by
  decide +kernel

/-- A sum off by a millionth warns, one off by a quarter of a millionth does not. -/
example : psfWarns (fin (1000001 / 1000000 : ℚ)) = true ∧ psfWarns (fin (4000001 / 4000000 : ℚ)) = false ∧ psfWarns (nan : F ℚ) = true := by
  decide +kernel

end Verif.Props

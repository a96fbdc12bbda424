import Verif.Model.IntImages
import Verif.Props.Segmentation
import Verif.Props.Utils
import Mathlib.Data.Rat.Floor

/-!
# C177: images of integers
-/

set_option linter.unusedSectionVars false
set_option linter.unusedVariables false

namespace Verif.Spec

open Verif F

/-- An image of integers as an image of floats (`image.astype(float)`). -/
def asFloats {K : Type} [Field K] (a : Img Int) : Img (F K) := a.map fun v : Int => fin (v : K)

end Verif.Spec

namespace Verif.Props

open Verif F MM Spec

section
variable {K : Type} [Field K] [LinearOrder K] [IsStrictOrderedRing K] [FloorRing K]

/-- **C177, masked images: violated.** With the default fill value `masked_segm_image` of an integer image raises ValueError, also when no pixel is masked; for the same
image as floats it returns (C49). -/
theorem C177_masked_violated (m : Mem K) (s : SegSource) (image : Img Int) (segm : Img Int) (mb : Bool) (hs : WellTyped s) (hne : labelsOf m s ≠ [] ∨ mb = false) :
    (maskedSegmImageInt s image segm none mb m).1 = .error .valueError := by
  obtain ⟨r, e, a, b, c⟩ := segmMask_run m s segm mb hs hne
  unfold maskedSegmImageInt
  rw [bind_ok e]
  rfl

/-- **C177, masked images with an integer fill value.** The result is the one for the image as floats. -/
theorem C177_masked_partial (m : Mem K) (s : SegSource) (image : Img Int) (segm : Img Int) (mb : Bool) (v : Int) (hs : WellTyped s)
    (hne : labelsOf m s ≠ [] ∨ mb = false) (hsh : segm.h = image.h ∧ segm.w = image.w) (r : Nat) (hr : m.imgs r = asFloats image) :
    ∃ im m' r' m'', maskedSegmImageInt s image segm (some (fin (v : K))) mb m = (.ok im, m') ∧
      maskedSegmImage s r segm (some (fin (v : K))) mb m = (.ok r', m'') ∧ (m''.imgs r').Same (asFloats im) := by
  obtain ⟨r', m'', h1, -, -, h4, h5, h6⟩ := C49_masked m s r segm (some (fin (v : K))) mb hs hne (by rw [hr]; exact hsh)
  obtain ⟨mask, e, a, b, c⟩ := segmMask_run m s segm mb hs hne
  rw [hr] at h4 h5 h6
  have hv : toIntPixel (fin (v : K)) = .ok v := by
    unfold toIntPixel
    simp
  refine ⟨{ image with px := fun i j => if !(mask.px i j) then v else image.px i j }, ⟨listsAfter m s mb, m.imgs, m.next⟩, r', m'', ?_, h1, h4, h5, fun i j hi hj => ?_⟩
  · unfold maskedSegmImageInt
    rw [bind_ok e]
    simp only [Option.getD_some, hv]
    rw [bind_ok (show lift (K := K) (.ok v) _ = (.ok v, _) from rfl), if_neg (by rw [a, b]; exact not_not.2 hsh)]
    rfl
  · obtain ⟨h7, h8⟩ := h6 i j (h4 ▸ hi) (h5 ▸ hj)
    simp only [asFloats, Img.map]
    by_cases hsel : Selected segm (labelsOf m s) mb i j
    · rw [h7 hsel, (c i j).2 hsel]
      rfl
    · rw [h8 hsel, show mask.px i j = false from by
        by_contra hcon
        exact hsel ((c i j).1 (by simpa using hcon))]
      rfl

/-- **C177, fill values: violated.** A positive fill value that is not an integer loses its fraction. -/
theorem C177_fill_violated (m : Mem K) (s : SegSource) (image : Img Int) (segm : Img Int) (mb : Bool) (x : K) (hs : WellTyped s)
    (hne : labelsOf m s ≠ [] ∨ mb = false) (hsh : segm.h = image.h ∧ segm.w = image.w) (hx0 : 0 ≤ x) (hx : ∀ v : Int, (v : K) ≠ x) :
    ∃ im m', maskedSegmImageInt s image segm (some (fin x)) mb m = (.ok im, m') ∧
      ∀ i j, ¬ Selected segm (labelsOf m s) mb i j → im.px i j = ⌊x⌋ ∧ (asFloats im : Img (F K)).px i j ≠ fin x := by
  obtain ⟨mask, e, a, b, c⟩ := segmMask_run m s segm mb hs hne
  have hv : toIntPixel (fin x) = .ok ⌊x⌋ := by
    simp only [toIntPixel, if_pos hx0]
  refine ⟨{ image with px := fun i j => if !(mask.px i j) then ⌊x⌋ else image.px i j }, ⟨listsAfter m s mb, m.imgs, m.next⟩, ?_, fun i j hsel => ⟨?_, fun he => hx _ (F.fin.inj he)⟩⟩
  · unfold maskedSegmImageInt
    rw [bind_ok e]
    simp only [Option.getD_some, hv]
    rw [bind_ok (show lift (K := K) (.ok ⌊x⌋) _ = (.ok ⌊x⌋, _) from rfl), if_neg (by rw [a, b]; exact not_not.2 hsh)]
    rfl
  · simp only
    rw [show mask.px i j = false from by
        by_contra hcon
        exact hsel ((c i j).1 (by simpa using hcon))]
    rfl

/-- **C177, source photometry: violated.** `source_photometry` of an integer image raises ValueError, for every source and all radii. -/
theorem C177_source_photometry_violated (m : Mem K) (source : SourceRow K) (image segm : Img Int) {rList : List K} (hr : rList ≠ []) (requested : Option Nat)
    (mb : Bool) : (sourceImagesInt source image segm rList requested mb m).1 = .error .valueError := by
  have hn : ∃ n, cutoutSize requested rList = .ok n := by
    unfold cutoutSize
    cases requested with
    | some n => exact ⟨_, rfl⟩
    | none =>
      cases hmax : rList.max? with
      | none => exact absurd (List.max?_eq_none_iff.1 hmax) hr
      | some v => exact ⟨_, rfl⟩
  obtain ⟨n, hn⟩ := hn
  have h1 := C177_masked_violated m (.label source.label) image segm mb trivial (Or.inl (by simp [labelsOf]))
  unfold sourceImagesInt
  rw [hn, bind_ok (show lift (K := K) (.ok n) m = (.ok n, m) from rfl)]
  have h2 : maskedSegmImageInt (.label source.label) image segm (some nan) mb m = (.error .valueError, (maskedSegmImageInt (.label source.label) image segm (some (nan : F K)) mb m).2) :=
    Prod.ext h1 rfl
  rw [bind_run, h2]

end

section
variable {K : Type} [Field K] [LinearOrder K]

theorem wrap_inside {t : IntType} {v : Int} (h1 : t.lo ≤ v) (h2 : v ≤ t.hi) : t.wrap v = v := by
  unfold IntType.wrap
  rw [Int.emod_eq_of_lt (by omega) (by omega)]
  omega

/-- **C177, cutouts of floats: violated.** A cutout of floats cannot be subtracted from an integer image, and the image is left as it was. -/
theorem C177_cutout_floats_violated (t : IntType) (mem : Nat → Img Int) (r : Nat) (target : Img (F K)) (x y : Int) :
    cutoutSubtractInt t mem r (.floats target) x y = (.error .typeError, mem) := rfl

/-- **C177, cutouts of integers.** If no difference leaves the range of the dtype, the result is the one for images of floats. -/
theorem C177_cutout_partial (t : IntType) (mem : Nat → Img Int) (r : Nat) (target : Img Int) (x y : Int)
    (hrange : ∀ i j i' j', t.lo ≤ (mem r).px i j - target.px i' j' ∧ (mem r).px i j - target.px i' j' ≤ t.hi) :
    cutoutSubtract (K := K) (fun k => asFloats (mem k)) r (asFloats target) x y =
      ((cutoutSubtractInt (K := K) t mem r (.ints target) x y).1, fun k => asFloats ((cutoutSubtractInt (K := K) t mem r (.ints target) x y).2 k)) := by
  unfold cutoutSubtract cutoutSubtractInt
  simp only [asFloats, Img.map]
  by_cases hc : (broadcasts target.h (sliceLen (mem r).h (max 0 (y - (target.h / 2 : Nat))) (max 0 (y + (target.h / 2 : Nat)))) &&
      broadcasts target.w (sliceLen (mem r).w (max 0 (x - (target.w / 2 : Nat))) (max 0 (x + (target.w / 2 : Nat))))) = true
  · simp only [hc, if_true]
    refine Prod.ext rfl ?_
    funext k
    by_cases hk : k = r
    · subst hk
      simp only [if_true]
      congr 1
      funext i j
      split
      · next h =>
        refine (if_pos h).trans ?_
        rw [wrap_inside (hrange _ _ _ _).1 (hrange _ _ _ _).2]
        show fin _ = fin _
        congr 1
        push_cast
        exact (sub_eq_add_neg _ _).symm
      · next h => exact if_neg h
    · simp only [if_neg hk]
  · rw [Bool.not_eq_true] at hc
    simp only [hc, Bool.false_eq_true, if_false]

/-- **C177, unsigned integers: violated.** For images of unsigned integers a difference below zero becomes a large number: no pixel of the result is negative, whatever is
subtracted. -/
theorem C177_unsigned_violated (hi : Int) (hhi : 0 ≤ hi) (mem : Nat → Img Int) (r : Nat) (target : Img Int) (x y : Int) (a b : Nat) (hh : target.h = 2 * a)
    (hw : target.w = 2 * b) (hy0 : (a : Int) ≤ y) (hy1 : y + a ≤ (mem r).h) (hx0 : (b : Int) ≤ x) (hx1 : x + b ≤ (mem r).w) {i j : Nat} (hi' : i < 2 * a) (hj' : j < 2 * b)
    (hlt : (mem r).px ((y - a).toNat + i) ((x - b).toNat + j) < target.px i j)
    (hge : target.px i j - hi - 1 ≤ (mem r).px ((y - a).toNat + i) ((x - b).toNat + j)) :
    ∃ mem', cutoutSubtractInt (K := K) ⟨0, hi⟩ mem r (.ints target) x y = (.ok r, mem') ∧
      (mem' r).px ((y - a).toNat + i) ((x - b).toNat + j) = (mem r).px ((y - a).toNat + i) ((x - b).toNat + j) - target.px i j + (hi + 1) ∧
      0 ≤ (mem' r).px ((y - a).toNat + i) ((x - b).toNat + j) := by
  have e1 : 2 * a / 2 = a := by omega
  have e2 : 2 * b / 2 = b := by omega
  have hs1 : sliceLen (mem r).h (max 0 (y - (target.h / 2 : Nat))) (max 0 (y + (target.h / 2 : Nat))) = target.h := by
    rw [hh]; exact sliceLen_inside hy0 hy1
  have hs2 : sliceLen (mem r).w (max 0 (x - (target.w / 2 : Nat))) (max 0 (x + (target.w / 2 : Nat))) = target.w := by
    rw [hw]; exact sliceLen_inside hx0 hx1
  have hval : ∀ p q : Int, p < q → q - hi - 1 ≤ p → IntType.wrap ⟨0, hi⟩ (p - q) = p - q + (hi + 1) := fun p q h1 h2 => by
    unfold IntType.wrap
    simp only [sub_zero, zero_add]
    rw [← Int.add_emod_right, Int.emod_eq_of_lt (by omega) (by omega)]
  unfold cutoutSubtractInt
  simp only [hs1, hs2, broadcasts, decide_true, Bool.true_or, Bool.and_self, if_true]
  have key : IntType.wrap ⟨0, hi⟩ ((mem r).px ((y - a).toNat + i) ((x - b).toNat + j) -
      target.px (if target.h = 1 then 0 else (y - a).toNat + i - (max 0 (y - (target.h / 2 : Nat))).toNat)
        (if target.w = 1 then 0 else (x - b).toNat + j - (max 0 (x - (target.w / 2 : Nat))).toNat)) =
      (mem r).px ((y - a).toNat + i) ((x - b).toNat + j) - target.px i j + (hi + 1) := by
    rw [if_neg (by omega), if_neg (by omega), show (y - a).toNat + i - (max 0 (y - (target.h / 2 : Nat))).toNat = i by rw [hh, e1]; omega,
      show (x - b).toNat + j - (max 0 (x - (target.w / 2 : Nat))).toNat = j by rw [hw, e2]; omega]
    exact hval _ _ hlt hge
  refine ⟨_, rfl, ?_⟩
  simp only [if_true]
  rw [if_pos (by rw [hh, hw, e1, e2]; omega), key]
  exact ⟨rfl, by omega⟩

end

/-! ### Examples -/

example : (maskedSegmImageInt (K := ℚ) (.label 2) (Img.ofRows 0 [[10, 11, 12], [13, 14, 15]]) segm23 none true mem23).1 = .error .valueError :=
  C177_masked_violated _ _ _ _ _ trivial (Or.inl (by simp [labelsOf]))

example : ((maskedSegmImageInt (K := ℚ) (.label 2) (Img.ofRows 0 [[10, 11, 12], [13, 14, 15]]) segm23 (some (fin (-7))) true mem23).1.toOption.map Img.rows) =
    some [[-7, -7, 12], [-7, 14, -7]] := by decide +kernel

/-- `source_photometry` of a small integer image. -/
example : (sourceImagesInt (K := ℚ) ⟨2, 2, 0, 1, 0⟩ (Img.ofRows 0 [[10, 11, 12], [13, 14, 15]]) segm23 [1, 2] none false mem23).1 = .error .valueError :=
  C177_source_photometry_violated _ _ _ _ (by simp) _ _

/-- Three minus five in `uint16`. -/
example : ((cutoutSubtractInt (K := ℚ) ⟨0, 65535⟩ (fun _ => Img.ofRows 0 [[3, 9], [9, 9]]) 0 (.ints (Img.ofRows 0 [[5, 5], [5, 5]])) 1 1).2 0).rows =
    [[65534, 4], [4, 4]] := by decide +kernel

end Verif.Props

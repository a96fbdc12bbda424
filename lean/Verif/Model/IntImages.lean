import Verif.Model.Segmentation
import Verif.Model.UtilsMore
import Mathlib.Algebra.Order.Floor.Ring

/-!
# Images of integers: petrofit/segmentation.py and petrofit/utils.py

The other models take images of floats.  Raw images and simple test images have an integer dtype, and numpy keeps the dtype when it assigns to pixels
or works in place.
-/

set_option linter.unusedSectionVars false

namespace Verif

open F MM

/-- A numpy integer dtype by its range, for example `uint16` is `⟨0, 65535⟩`. -/
structure IntType where
  lo : Int
  hi : Int

/-- Arithmetic of a numpy integer dtype: the result modulo the number of values. -/
def IntType.wrap (t : IntType) (v : Int) : Int := t.lo + (v - t.lo) % (t.hi - t.lo + 1)

section
variable {K : Type} [Field K] [LinearOrder K] [FloorRing K]

/-- The integer that numpy stores when a float is assigned to an element of an integer array: NaN is a ValueError, infinities are an OverflowError (an
`exception` here), other values lose their fraction.  Simplification: the result is taken to be in the range of the dtype. -/
def toIntPixel : F K → Except PyErr Int
  | nan => .error .valueError
  | ninf => .error .exception
  | pinf => .error .exception
  | fin x => .ok (if 0 ≤ x then ⌊x⌋ else ⌈x⌉)

/-- petrofit/segmentation.py:248-286 `masked_segm_image` for an integer ndarray: `np.invert(None)` raises TypeError, then the fill value is converted,
then the shapes are compared. -/
def maskedSegmImageInt (source : SegSource) (image : Img Int) (segm : Img Int) (fill : Option (F K) := none)
    (maskBackground : Bool := false) : MM K (Img Int) := do
  let fill := fill.getD nan
  let mask ← segmMask source segm maskBackground
  match mask with
  | none => lift (.error .typeError)
  | some m => do
    let v ← lift (toIntPixel fill)
    if ¬ (m.h = image.h ∧ m.w = image.w) then lift (.error .indexError)
    else pure { image with px := fun i j => if !(m.px i j) then v else image.px i j }

/-- petrofit/segmentation.py:608-639: the first part of `source_photometry`, up to the second masked image, for an integer ndarray. -/
def sourceImagesInt (source : SourceRow K) (image : Img Int) (segm : Img Int) (rList : List K) (requested : Option Nat)
    (maskBackground : Bool) : MM K (Nat × Img Int × Img Int) := do
  let n ← lift (cutoutSize requested rList)
  let full ← maskedSegmImageInt (.label source.label) image segm (some nan) maskBackground
  let bg ← maskedSegmImageInt (.label 0) image segm (some nan) false
  pure (n, full, bg)

end

/-- The second argument of `cutout_subtract`: floats, or integers of the same dtype as the image. -/
inductive CutoutArg (K : Type)
  | floats (t : Img (F K))
  | ints (t : Img Int)

/-- petrofit/utils.py:211-237 `cutout_subtract` for an integer image: numpy does not cast the float difference back (`UFuncTypeError`, a TypeError), and integers
wrap around.  Otherwise as `Verif.cutoutSubtract`. -/
def cutoutSubtractInt {K : Type} (t : IntType) (mem : Nat → Img Int) (r : Nat) (arg : CutoutArg K) (x y : Int) :
    Except PyErr Nat × (Nat → Img Int) :=
  match arg with
  | .floats _ => (.error .typeError, mem)
  | .ints target =>
    let image := mem r
    let ymin := max 0 (y - (target.h / 2 : Nat))
    let ymax := max 0 (y + (target.h / 2 : Nat))
    let xmin := max 0 (x - (target.w / 2 : Nat))
    let xmax := max 0 (x + (target.w / 2 : Nat))
    if broadcasts target.h (sliceLen image.h ymin ymax) && broadcasts target.w (sliceLen image.w xmin xmax) then
      (.ok r, fun k => if k = r then
        { image with px := fun i j =>
            if ymin ≤ i ∧ i < ymax ∧ xmin ≤ j ∧ j < xmax then
              IntType.wrap t <| image.px i j - target.px (if target.h = 1 then 0 else i - ymin.toNat) (if target.w = 1 then 0 else j - xmin.toNat)
            else image.px i j }
        else mem k)
    else (.error .valueError, mem)

end Verif

import Verif.Model.Correction
import Verif.Base.Image
import Verif.Base.Sqrt

/-!
# petrofit/photometry.py

The pixel weights of photutils (`ApertureMask`) are a parameter, see `Verif.Spec.OverlapLaw` for what is assumed of them and
`Verif.Model.Overlap` for the three photutils methods.  Plotting is not modelled.
-/

set_option linter.unusedSectionVars false

namespace Verif

open F

section
variable {K : Type} [Field K] [LinearOrder K]

/-- `np.rint` on a finite number: round half to even. -/
def rint [FloorRing K] (x : K) : Int :=
  if x - ⌊x⌋ < 1 / 2 then ⌊x⌋ else if 1 / 2 < x - ⌊x⌋ then ⌊x⌋ + 1 else if ⌊x⌋ % 2 = 0 then ⌊x⌋ else ⌊x⌋ + 1

/-- `np.round(x, 6)`: scale by `10**6`, `rint`, scale back. -/
def npRound6 [FloorRing K] : F K → F K
  | fin x => fin ((rint (x * 10 ^ 6) : K) / 10 ^ 6)
  | x => x

/-- A photutils `EllipticalAperture`: centre (x, y), semi-axes and angle. -/
structure Ellipse (K : Type) where
  cx : K
  cy : K
  a : K
  b : K
  theta : K

/-- photutils `EllipticalAperture(position, a, b, theta)`: both axes must be positive. -/
def ellipticalAperture (cx cy a b theta : K) : Except PyErr (Ellipse K) :=
  if a ≤ 0 ∨ b ≤ 0 then .error .valueError else .ok ⟨cx, cy, a, b, theta⟩

/-- petrofit/photometry.py:48-72 `radial_elliptical_aperture`, for finite python floats. -/
def radialEllipticalAperture (cx cy r elong theta : K) : Except PyErr (Ellipse K) :=
  if elong = 0 then .error .zeroDivisionError
  else ellipticalAperture cx cy r (r / elong) theta

/-- A photutils `EllipticalAnnulus`. -/
structure Annulus (K : Type) where
  cx : K
  cy : K
  aIn : K
  aOut : K
  bIn : K
  bOut : K
  theta : K

/-- photutils `EllipticalAnnulus(position, a_in, a_out, b_out, theta=theta)`: `a_out > a_in`, and without `b_in` the inner ellipse has
the axis ratio of the outer one; all axes must be positive. -/
def ellipticalAnnulus (cx cy aIn aOut bOut theta : K) : Except PyErr (Annulus K) :=
  if aOut ≤ aIn then .error .valueError
  else
    let bIn := bOut * aIn / aOut
    if aIn ≤ 0 ∨ aOut ≤ 0 ∨ bOut ≤ 0 ∨ bIn ≤ 0 then .error .valueError
    else .ok ⟨cx, cy, aIn, aOut, bIn, bOut, theta⟩

/-- petrofit/photometry.py:75-105 `radial_elliptical_annulus`, for finite python floats (`b_in` of line 102 is computed and not used). -/
def radialEllipticalAnnulus (cx cy r dr elong theta : K) : Except PyErr (Annulus K) :=
  if elong = 0 then .error .zeroDivisionError
  else ellipticalAnnulus cx cy r (r + dr) ((r + dr) / elong) theta

/-- The overlap of an aperture with the pixel grid: the weight of the pixel in row `i` and column `j`, and whether the bounding box of
the aperture meets an image of height `h` and width `w` at all. -/
structure Overlap (K : Type) where
  weight : Ellipse K → Nat → Nat → K
  hits : Ellipse K → Nat → Nat → Bool

/-- All pixels (row, column) of an image. -/
def pixels (h w : Nat) : List (Nat × Nat) := (List.range h).flatMap fun i => (List.range w).map fun j => (i, j)

/-- photutils `ApertureMask._get_overlap_cutouts`: the pixels that count have positive weight and are not masked (`bad` is True for masked
pixels). -/
def goodPixels (ov : Overlap K) (e : Ellipse K) (h w : Nat) (bad : Option (Img Bool)) : List (Nat × Nat) :=
  (pixels h w).filter fun p => decide (0 < ov.weight e p.1 p.2) && !(match bad with | none => false | some m => m.px p.1 p.2)

/-- Same shape as `data`, when given. -/
def shapeOk {α β : Type} (data : Img α) : Option (Img β) → Bool
  | none => true
  | some e => e.h == data.h && e.w == data.w

section
variable [HasSqrt K]

/-- photutils `PixelAperture.do_photometry` for one position: the sum of data times weight, and the list of errors, which is empty
without an error map (when the aperture box meets the image).  Shapes must agree; no overlap gives NaN for both. -/
def doPhotometry (ov : Overlap K) (e : Ellipse K) (data : Img (F K)) (error : Option (Img (F K))) (bad : Option (Img Bool)) :
    Except PyErr (F K × List (F K)) :=
  if !shapeOk data error then .error .valueError
  else if !shapeOk data bad then .error .valueError
  else if !ov.hits e data.h data.w then .ok (nan, [nan])
  else
    let g := goodPixels ov e data.h data.w bad
    let s := npSum (g.map fun p => data.px p.1 p.2 * fin (ov.weight e p.1 p.2))
    match error with
    | none => .ok (s, [])
    | some er => .ok (s, [F.sqrt (npSum (g.map fun p => F.sq (er.px p.1 p.2) * fin (ov.weight e p.1 p.2)))])

variable [FloorRing K]

/-- petrofit/photometry.py:197-224, one iteration of the loop: the flux, the area and the error at one radius. -/
def photometryAt (ov : Overlap K) (image : Img (F K)) (cx cy : K) (error : Option (Img (F K))) (bad : Option (Img Bool))
    (elong theta r : K) : Except PyErr (F K × F K × F K) := do
  let aperture ← radialEllipticalAperture cx cy r elong theta
  let (value, err) ← doPhotometry ov aperture image error bad
  let (area, _) ← doPhotometry ov aperture (image.map fun _ => fin 1) none bad
  let area := npRound6 area
  let value := npRound6 value
  let err := match err with
    | [] => nan
    | x :: _ => npRound6 x
  if value.isNaN then .error .exception
  else .ok (value, area, err)

/-- petrofit/photometry.py:108-227 `radial_photometry` (`plot=False`).  `mask` is True for pixels to use, line 196 inverts it. -/
def radialPhotometry (ov : Overlap K) (image : Img (F K)) (cx cy : K) (rList : List K) (error : Option (Img (F K)))
    (mask : Option (Img Bool)) (elong theta : K) : Except PyErr (List (F K) × List (F K) × List (F K)) := do
  let bad := mask.map fun m => m.map fun b => !b
  let l ← rList.mapM (photometryAt ov image cx cy error bad elong theta)
  .ok (l.map (·.1), l.map (·.2.1), l.map (·.2.2))

end
end
end Verif

import Verif.Model.Photometry
import Verif.Model.Rounding

/-!
# Aperture photometry in rounded arithmetic

`radial_photometry` with a rounding after every operation.  The order of the additions matters now: `np.sum` of a contiguous array uses
numpy's pairwise summation.  The pixel weights are the numbers that photutils computed, with their own rounding in them.
-/

set_option linter.unusedSectionVars false

namespace Verif

open F

section
variable {α : Type} (add : α → α → α) (zero : α)

/-- The eight accumulators of numpy's `pairwise_sum` are added as a tree. -/
def pwJoin : List α → α
  | [r0, r1, r2, r3, r4, r5, r6, r7] => add (add (add r0 r1) (add r2 r3)) (add (add r4 r5) (add r6 r7))
  | _ => zero

/-- The loop of numpy's `pairwise_sum` for 8 to 128 numbers: eight accumulators, whose total takes the remaining (at most 7) numbers. -/
def pwBlock (r l : List α) : α :=
  if 8 ≤ l.length then pwBlock (List.zipWith add r (l.take 8)) (l.drop 8) else l.foldl add (pwJoin add zero r)
  termination_by l.length
  decreasing_by simp; omega

/-- numpy's `pairwise_sum` (`numpy/_core/src/umath/loops_utils.h.src`): fewer than 8 numbers one after the other, up to 128 in eight
accumulators, more in two halves of which the first is a multiple of 8. -/
def pairwiseSum (l : List α) : α :=
  if l.length < 8 then l.foldl add zero
  else if l.length ≤ 128 then pwBlock add zero (l.take 8) (l.drop 8)
  else
    let n := l.length / 2 - l.length / 2 % 8
    add (pairwiseSum (l.take n)) (pairwiseSum (l.drop n))
  termination_by l.length
  decreasing_by all_goals simp; omega

end

section
variable {K : Type} [Field K] [LinearOrder K] (fl : K → K)

/-- `np.sum` of a contiguous float array in rounded arithmetic. -/
def npSumR (l : List (F K)) : F K := pairwiseSum (fun a b => (a + b).rnd fl) (fin 0) l

/-- `np.round(x, 6)` in rounded arithmetic: multiply, `rint`, divide. -/
def npRound6R [FloorRing K] : F K → F K
  | fin x => fin (fl ((rint (fl (x * 10 ^ 6)) : K) / 10 ^ 6))
  | x => x

/-- petrofit/photometry.py:48-72 `radial_elliptical_aperture` in rounded arithmetic. -/
def radialEllipticalApertureR (cx cy r elong theta : K) : Except PyErr (Ellipse K) :=
  if elong = 0 then .error .zeroDivisionError
  else ellipticalAperture cx cy r (fl (r / elong)) theta

/-- photutils `PixelAperture.do_photometry` for one position in rounded arithmetic, compare `doPhotometry`. -/
def doPhotometryR [HasSqrt K] (ov : Overlap K) (e : Ellipse K) (data : Img (F K)) (error : Option (Img (F K))) (bad : Option (Img Bool)) :
    Except PyErr (F K × List (F K)) :=
  if !shapeOk data error then .error .valueError
  else if !shapeOk data bad then .error .valueError
  else if !ov.hits e data.h data.w then .ok (nan, [nan])
  else
    let g := goodPixels ov e data.h data.w bad
    let s := npSumR fl (g.map fun p => (data.px p.1 p.2 * fin (ov.weight e p.1 p.2)).rnd fl)
    match error with
    | none => .ok (s, [])
    | some er => .ok (s, [(F.sqrt (npSumR fl (g.map fun p => ((F.sq (er.px p.1 p.2)).rnd fl * fin (ov.weight e p.1 p.2)).rnd fl))).rnd fl])

variable [HasSqrt K] [FloorRing K]

/-- petrofit/photometry.py:197-224, one iteration of the loop in rounded arithmetic. -/
def photometryAtR (ov : Overlap K) (image : Img (F K)) (cx cy : K) (error : Option (Img (F K))) (bad : Option (Img Bool))
    (elong theta r : K) : Except PyErr (F K × F K × F K) := do
  let aperture ← radialEllipticalApertureR fl cx cy r elong theta
  let (value, err) ← doPhotometryR fl ov aperture image error bad
  let (area, _) ← doPhotometryR fl ov aperture (image.map fun _ => fin 1) none bad
  let area := npRound6R fl area
  let value := npRound6R fl value
  let err := match err with
    | [] => nan
    | x :: _ => npRound6R fl x
  if value.isNaN then .error .exception
  else .ok (value, area, err)

/-- petrofit/photometry.py:108-227 `radial_photometry` (`plot=False`) in rounded arithmetic. -/
def radialPhotometryR (ov : Overlap K) (image : Img (F K)) (cx cy : K) (rList : List K) (error : Option (Img (F K)))
    (mask : Option (Img Bool)) (elong theta : K) : Except PyErr (List (F K) × List (F K) × List (F K)) := do
  let bad := mask.map fun m => m.map fun b => !b
  let l ← rList.mapM (photometryAtR fl ov image cx cy error bad elong theta)
  .ok (l.map (·.1), l.map (·.2.1), l.map (·.2.2))

end
end Verif

import Verif.Model.RoundingModel
import Verif.Model.RoundingPhotometry

/-!
# `PSFConvolvedModel2D.evaluate` in floating point

The whole of `evaluate`, with oversampling, windows and PSFs, as it computes in floats. How numpy adds up a block, how scipy convolves (directly or with Fourier
transforms) and rotates is left open: these are functions of which only the accuracy is assumed (`Spec.FloatLaw`). The stored PSF and the wrapped model are those of the
float computation. Simplification: the grid is made anew in every call (C07 is about the cache). Arrays are never infinite or NaN.
-/

set_option linter.unusedSectionVars false

namespace Verif

/-- The arithmetic `evaluate` runs on: `fl` rounds the result of one operation, `sum` is `np.sum` over the pixels of a block, `conv` is
`scipy.signal.convolve(image, psf, mode="same")` and `rot` is `scipy.ndimage.rotate(psf, angle, reshape=False)`. -/
structure FloatOps (K : Type) where
  fl : K → K
  sum : List K → K
  conv : Img K → Img K → Img K
  rot : Img K → K → Img K

variable {K : Type} [Field K] [LinearOrder K] [FloorRing K]

/-- petrofit/modeling/models.py:97-117 `make_grid` in rounded arithmetic, with any factor. -/
def makeGridFl (fl : K → K) (size : Int) (origin : K × K) (factor : Nat) : Img K × Img K :=
  let axis (o : K) := (npArangeR fl (1 / 2) ((size * factor : Int) : K)).map fun v => fl (fl (fl (v / (factor : K)) - 1 / 2) + o)
  meshgrid (axis origin.1) (axis origin.2)

/-- `block_reduce(image, f) / f**2` in rounded arithmetic (petrofit/modeling/models.py:444-446, 496-499, 536). -/
def blockMeanFl (ops : FloatOps K) (im : Img K) (f : Nat) : Img K :=
  ⟨im.h / f, im.w / f, fun i j =>
    ops.fl (ops.sum ((List.range f).flatMap fun a => (List.range f).map fun b => im.px (i * f + a) (j * f + b)) / (f : K) ^ 2)⟩

/-- One arithmetic `evaluate` may run on (petrofit/modeling/models.py:444, 497, 532, 536): numpy's pairwise summation, and convolutions computed directly, with the products added up
pairwise. -/
def directOps (fl : K → K) (rot : Img K → K → Img K) : FloatOps K where
  fl := fl
  sum := pairwiseSum (fun a b => fl (a + b)) 0
  conv im Q := ⟨im.h, im.w, fun i j => pairwiseSum (fun a b => fl (a + b)) 0 ((List.range Q.h).flatMap fun a => (List.range Q.w).map fun b =>
    fl (Q.px a b * im.zeroPad ((i : Int) + (((Q.h - 1) / 2 : Nat) : Int) - a) ((j : Int) + (((Q.w - 1) / 2 : Nat) : Int) - b)))⟩
  rot := rot

namespace PSFModel

/-- petrofit/modeling/models.py:453-522 in rounded arithmetic: the oversampled window, pasted into the image. -/
def pasteWindowFl (ops : FloatOps K) (M : PSFModel K) (params : List K) (image : Img K) (iMax jMax : Nat) (x y : Center K) (size : Int) (factor : Nat) :
    Except PyErr (Img K) := do
  let toPsf := factor / M.psfFactor
  if toPsf ≤ 1 then .ok image
  else do
    let x0 ← centerValue M.sub params x
    let y0 ← centerValue M.sub params y
    let originX := ops.fl ((rint x0 : K) - ((size / 2 : Int) : K))
    let originY := ops.fl ((rint y0 : K) - ((size / 2 : Int) : K))
    let sub := blockMeanFl ops (sample M.sub params (makeGridFl ops.fl size (originX, originY) factor)) toPsf
    let iSubMin := if rint originX < 0 then 0 else rint originX
    let jSubMin := if rint originY < 0 then 0 else rint originY
    let iSubMax := if rint originX + size > iMax then (iMax : Int) + 1 else rint originX + size
    let jSubMax := if rint originY + size > jMax then (jMax : Int) + 1 else rint originY + size
    sliceAssign image (jSubMin * M.psfFactor) (jSubMax * M.psfFactor) (iSubMin * M.psfFactor) (iSubMax * M.psfFactor) sub

/-- petrofit/modeling/models.py:441-522 in rounded arithmetic: the model image at PSF resolution. -/
def oversampledFl (ops : FloatOps K) (M : PSFModel K) (params : List K) (image : Img K) (iMax jMax : Nat) : Except PyErr (Img K) :=
  match M.oversample with
  | .window x y size factor => M.pasteWindowFl ops params image iMax jMax x y size factor
  | _ =>
    let toPsf := M.gridFactor / M.psfFactor
    .ok (if 1 < toPsf then blockMeanFl ops image toPsf else image)

/-- The PSF that `evaluate` convolves with (petrofit/modeling/models.py:527-531): rotated if the angle is not zero. -/
def kernel (rot : Img K → K → Img K) (psf : Img K) (psfPa : K) : Img K := if psfPa ≠ 0 then rot psf psfPa else psf

/-- petrofit/modeling/models.py:524-536 in rounded arithmetic: convolution and reduction to the resolution of the data. -/
def convolvedFl (ops : FloatOps K) (M : PSFModel K) (psfPa : K) (image : Img K) : Img K :=
  let image := match M.psf with
    | none => image
    | some psf => ops.conv image (kernel ops.rot psf psfPa)
  if 1 < M.psfFactor then blockMeanFl ops image M.psfFactor else image

/-- petrofit/modeling/models.py:353-538 `evaluate` in rounded arithmetic: the values at the coordinates. -/
def evaluateFl (ops : FloatOps K) (M : PSFModel K) (coords : List (K × K)) (params : List K) (psfPa : K) : Except PyErr (List K) :=
  match (coords.map (·.1)).min?, (coords.map (·.1)).max?, (coords.map (·.2)).min?, (coords.map (·.2)).max? with
  | some xMin, some xMax, some yMin, some yMax => do
    let iMax := indexOfR ops.fl xMax xMin
    let jMax := indexOfR ops.fl yMax yMin
    let grid := makeGridFl ops.fl ((max iMax jMax + 1 : Nat) : Int) (xMin, yMin) M.gridFactor
    let image ← M.oversampledFl ops params (sample M.sub params grid) iMax jMax
    coords.mapM fun c => pick (M.convolvedFl ops psfPa image) (indexOfR ops.fl c.2 yMin, indexOfR ops.fl c.1 xMin)
  | _, _, _, _ => .error .valueError

end PSFModel
end Verif

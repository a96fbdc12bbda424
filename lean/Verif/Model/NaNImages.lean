import Verif.Model.PSFModel

/-!
# petrofit/modeling/models.py: `PSFConvolvedModel2D.evaluate` for a wrapped model with undefined values

`Nuker2D` and `CoreSersic2D` (lines 601 and 636) write NaN at their centre.  Here the wrapped model gives numbers or NaN (`none`); settings,
grids and the cache are those of `PSFModel`, whose own `sub.eval` is not used.
-/

set_option linter.unusedSectionVars false

namespace Verif

variable {K : Type} [Field K] [LinearOrder K]

/-- A sum of numpy floats without infinities: NaN as soon as one of them is NaN. -/
def nanSum (l : List (Option K)) : Option K := l.foldr (fun a s => a.bind fun x => s.map fun y => x + y) (some 0)

/-- astropy `block_reduce(image, f)`, see `blockReduce`. -/
def blockReduceN (im : Img (Option K)) (f : Nat) : Img (Option K) :=
  ⟨im.h / f, im.w / f, fun i j =>
    nanSum ((List.range f).map fun a => nanSum ((List.range f).map fun b => im.px (i * f + a) (j * f + b)))⟩

/-- Elementwise division by a number. -/
def Img.divByN (im : Img (Option K)) (c : K) : Img (Option K) := ⟨im.h, im.w, fun i j => (im.px i j).map fun v => v / c⟩

/-- The pixel at signed indices, zero outside the image. -/
def Img.zeroPadN (im : Img (Option K)) (i j : Int) : Option K :=
  if 0 ≤ i ∧ i < im.h ∧ 0 ≤ j ∧ j < im.w then im.px i.toNat j.toNat else some 0

/-- `scipy.signal.convolve(image, psf, mode="same")` with `method="direct"`: `0 * NaN` is NaN, too. -/
def convolveDirectN (im : Img (Option K)) (psf : Img K) : Img (Option K) :=
  ⟨im.h, im.w, fun i j =>
    nanSum ((List.range psf.h).map fun a : Nat => nanSum ((List.range psf.w).map fun b : Nat =>
      (im.zeroPadN ((i : Int) + (((psf.h - 1) / 2 : Nat) : Int) - a) ((j : Int) + (((psf.w - 1) / 2 : Nat) : Int) - b)).map
        fun v => psf.px a b * v))⟩

/-- Is a pixel NaN? -/
def Img.anyNaN (im : Img (Option K)) : Bool := (List.range im.h).any fun i => (List.range im.w).any fun j => (im.px i j).isNone

/-- petrofit/modeling/models.py:532 `convolve(model_image, psf, mode="same")` with the default `method="auto"`: scipy's
`choose_conv_method` decides from the shapes of float arrays (`fft`) whether to multiply Fourier transforms, which are sums over all
pixels, or to convolve directly.  For numbers both are the same (rounding is not modelled). -/
def convolveN (fft : Nat × Nat → Nat × Nat → Bool) (im : Img (Option K)) (psf : Img K) : Img (Option K) :=
  if fft (im.h, im.w) (psf.h, psf.w) && im.anyNaN then ⟨im.h, im.w, fun _ _ => none⟩ else convolveDirectN im psf

namespace PSFModel

section
variable [FloorRing K]

/-- Sampling the wrapped model on a grid. -/
def sampleN (g : List K → K → K → Option K) (params : List K) (grid : Img K × Img K) : Img (Option K) :=
  ⟨grid.1.h, grid.1.w, fun i j => g params (grid.1.px i j) (grid.2.px i j)⟩

/-- `image[r0:r1, c0:c1] = sub`, see `sliceAssign`. -/
def sliceAssignN (im : Img (Option K)) (r0 r1 c0 c1 : Int) (sub : Img (Option K)) : Except PyErr (Img (Option K)) :=
  let a := sliceBound im.h r0
  let b := sliceBound im.h r1
  let c := sliceBound im.w c0
  let d := sliceBound im.w c1
  if broadcasts sub.h (b - a) && broadcasts sub.w (d - c) then
    .ok ⟨im.h, im.w, fun i j =>
      if a ≤ i ∧ i < b ∧ c ≤ j ∧ j < d then
        sub.px (if sub.h = 1 then 0 else i - a) (if sub.w = 1 then 0 else j - c)
      else im.px i j⟩
  else .error .valueError

/-- petrofit/modeling/models.py:453-522: the oversampled window, see `pasteWindow`. -/
def pasteWindowN (M : PSFModel K) (g : List K → K → K → Option K) (params : List K) (image : Img (Option K)) (iMax jMax : Nat)
    (x y : Center K) (size : Int) (factor : Nat) : Except PyErr (Img (Option K)) := do
  let toPsf := factor / M.psfFactor
  if toPsf ≤ 1 then .ok image
  else do
    let x0 ← centerValue M.sub params x
    let y0 ← centerValue M.sub params y
    let originX : Int := rint x0 - size / 2
    let originY : Int := rint y0 - size / 2
    let sub := (blockReduceN (sampleN g params (makeGrid size ((originX : K), (originY : K)) factor)) toPsf).divByN ((toPsf : K) ^ 2)
    let iSubMin := if originX < 0 then 0 else originX
    let jSubMin := if originY < 0 then 0 else originY
    let iSubMax := if originX + size > iMax then (iMax : Int) + 1 else originX + size
    let jSubMax := if originY + size > jMax then (jMax : Int) + 1 else originY + size
    sliceAssignN image (jSubMin * M.psfFactor) (jSubMax * M.psfFactor) (iSubMin * M.psfFactor) (iSubMax * M.psfFactor) sub

/-- petrofit/modeling/models.py:441-522: the model image at PSF resolution, see `oversampled`. -/
def oversampledN (M : PSFModel K) (g : List K → K → K → Option K) (params : List K) (gridFactor : Nat) (image : Img (Option K))
    (iMax jMax : Nat) : Except PyErr (Img (Option K)) :=
  match M.oversample with
  | .window x y size factor => M.pasteWindowN g params image iMax jMax x y size factor
  | _ =>
    let toPsf := gridFactor / M.psfFactor
    .ok (if 1 < toPsf then (blockReduceN image toPsf).divByN ((toPsf : K) ^ 2) else image)

/-- petrofit/modeling/models.py:524-536: PSF convolution and reduction to the resolution of the data, see `convolved`. -/
def convolvedN (M : PSFModel K) (fft : Nat × Nat → Nat × Nat → Bool) (rot : Img K → K → Img K) (psfPa : K) (image : Img (Option K)) :
    Img (Option K) :=
  let image := match M.psf with
    | none => image
    | some psf => convolveN fft image (if psfPa ≠ 0 then rot psf psfPa else psf)
  if 1 < M.psfFactor then (blockReduceN image M.psfFactor).divByN ((M.psfFactor : K) ^ 2) else image

/-- `image[j, i]` for non-negative indices. -/
def pickN (im : Img (Option K)) (p : Nat × Nat) : Except PyErr (Option K) :=
  if p.1 < im.h ∧ p.2 < im.w then .ok (im.px p.1 p.2) else .error .indexError

/-- petrofit/modeling/models.py:433-538: the values at the image indices, see `valuesOn`. -/
def valuesOnN (M : PSFModel K) (g : List K → K → K → Option K) (fft : Nat × Nat → Nat × Nat → Bool) (rot : Img K → K → Img K)
    (idx : List (Nat × Nat)) (params : List K) (psfPa : K) (iMax jMax : Nat) (grid : Img K × Img K) :
    Except PyErr (List (Option K)) := do
  let image ← M.oversampledN g params M.gridFactor (sampleN g params grid) iMax jMax
  idx.mapM (pickN (M.convolvedN fft rot psfPa image))

/-- petrofit/modeling/models.py:353-538 `evaluate`, see `PSFModel.evaluate`. -/
def evaluateN (M : PSFModel K) (g : List K → K → K → Option K) (fft : Nat × Nat → Nat × Nat → Bool) (rot : Img K → K → Img K)
    (coords : List (K × K)) (params : List K) (psfPa : K) : Except PyErr (List (Option K)) × PSFModel K :=
  match (coords.map (·.1)).min?, (coords.map (·.1)).max?, (coords.map (·.2)).min?, (coords.map (·.2)).max? with
  | some xMin, some xMax, some yMin, some yMax =>
    let iMax := indexOf xMax xMin
    let jMax := indexOf yMax yMin
    let gm := M.mainGrid (max iMax jMax + 1) M.gridFactor (xMin, xMax, yMin, yMax)
    (M.valuesOnN g fft rot (coords.map fun c => (indexOf c.2 yMin, indexOf c.1 xMin)) params psfPa iMax jMax gm.1, gm.2)
  | _, _, _, _ => (.error .valueError, M)

end
end PSFModel
end Verif

import Verif.Model.PSFModel
import Mathlib.Data.List.Sort

/-!
# petrofit/modeling/fitting.py: what is fitted, image sizes and `model_to_image`

The optimiser is a parameter: a function from the data it is given to the fitted model.
-/

set_option linter.unusedSectionVars false

namespace Verif

variable {K : Type} [Field K] [LinearOrder K]

/-! ### `fit_model` -/

/-- The arrays a fitter is called with: coordinates, values, and weights if there are any.  For a masked image the values are a masked
array: `zMask` says which are masked (none for a plain array). -/
structure FitData (K : Type) where
  x : List Nat
  y : List Nat
  z : List (F K)
  zMask : List Bool
  w : Option (List (F K))

/-- `np.where(cond)` for an array of shape `(h, w)`: the row and column indices of the True entries, row by row. -/
def npWhere (h w : Nat) (cond : Nat → Nat → Bool) : List (Nat × Nat) :=
  (List.range h).flatMap fun i => ((List.range w).filter fun j => cond i j).map fun j => (i, j)

/-- petrofit/modeling/fitting.py:95-106: the pixels that are fitted.  `np.where` looks at the data of a masked array and not at its mask;
indexing keeps the mask. -/
def fitData (image : Img (F K)) (mask : Nat → Nat → Bool) (weights : Option (Img (F K))) : Except PyErr (FitData K) :=
  let idx := npWhere image.h image.w fun i j => !(image.px i j).isNaN
  let y := idx.map (·.1)
  let x := idx.map (·.2)
  let z := List.zipWith (fun i j => image.px i j) y x
  let zm := List.zipWith (fun i j => mask i j) y x
  match weights with
  | none => .ok ⟨x, y, z, zm, none⟩
  | some wt =>
    if wt.h = image.h ∧ wt.w = image.w then .ok ⟨x, y, z, zm, some (List.zipWith (fun i j => wt.px i j) y x)⟩
    else .error .assertionError

/-- petrofit/modeling/fitting.py:31-126 `fit_model`: the fitted model (the second return value, the fitter class, is not modelled). -/
def fitModel {M : Type} (fitter : M → FitData K → Except PyErr M) (image : Img (F K)) (mask : Nat → Nat → Bool) (model : M)
    (weights : Option (Img (F K))) : Except PyErr M := do
  let d ← fitData image mask weights
  fitter model d

/-- petrofit/modeling/fitting.py:248-292 `fit_background`; `clip image sigma` is the mask of `sigma_clip(image, sigma)`. -/
def fitBackground {M : Type} (clip : Img (F K) → K → Nat → Nat → Bool) (fitter : M → FitData K → Except PyErr M) (image : Img (F K))
    (model : M) (sigma : Option K) : Except PyErr M :=
  match sigma with
  | none => fitModel fitter image (fun _ _ => false) model none
  | some s => fitModel fitter image (clip image s) model none

/-! ### `astropy.stats.sigma_clip` -/

/-- The median of a list. -/
def medianK (l : List K) : K :=
  let s := l.insertionSort (· ≤ ·)
  if s.length % 2 = 1 then s.getD (s.length / 2) 0 else (s.getD (s.length / 2 - 1) 0 + s.getD (s.length / 2) 0) / 2

/-- The population variance of a list. -/
def varK (l : List K) : K :=
  let m := l.sum / l.length
  (l.map fun v => (v - m) ^ 2).sum / l.length

/-- `sigma_clip` with its defaults (median, standard deviation, at most 5 iterations): the last centre and the square of the last
half-width; a value is outside when its squared distance from the centre exceeds it. -/
def clipBounds (sigma : K) : Nat → List K → K × K
  | 0, l => (medianK l, sigma ^ 2 * varK l)
  | n + 1, l =>
    let c := medianK l
    let b := sigma ^ 2 * varK l
    let l' := l.filter fun v => (v - c) ^ 2 ≤ b
    if l'.length = l.length then (c, b) else clipBounds sigma n l'

/-- The mask of `sigma_clip(image, sigma)`: values outside the bounds, and values that are not finite. -/
def sigmaClipMask (im : Img (F K)) (sigma : K) (i j : Nat) : Bool :=
  let l := ((List.range im.h).flatMap fun i => (List.range im.w).map fun j => im.px i j).filterMap fun
    | .fin v => some v
    | _ => none
  let b := clipBounds sigma 4 l
  match im.px i j with
  | .fin v => decide (b.2 < (v - b.1) ^ 2)
  | _ => true

/-! ### Image sizes -/

/-- A number or something else, as an element of a size or as a size. -/
inductive SizeElt (K : Type)
  | num (v : F K)
  | other

/-- The `size` argument: python or numpy numbers, lists and tuples, and everything else (bools, strings, None, arrays). -/
inductive SizeArg (K : Type)
  | num (v : F K)
  | seq (l : List (SizeElt K))
  | other

section
variable [FloorRing K]

/-- `not v % 1`, then `int(v)`. -/
def wholeNumber : F K → Except PyErr Int
  | .fin v => if v - ⌊v⌋ = 0 then .ok ⌊v⌋ else .error .assertionError
  | _ => .error .assertionError

/-- An element of a sequence: `%` fails on what is not a number. -/
def SizeElt.whole : SizeElt K → Except PyErr Int
  | .num v => wholeNumber v
  | .other => .error .typeError

/-- petrofit/modeling/fitting.py:129-165 `_validate_image_size`. -/
def validateImageSize : SizeArg K → Except PyErr (Int × Int)
  | .seq [a, b] => do
    let x ← a.whole
    let y ← b.whole
    .ok (x, y)
  | .seq _ => .error .assertionError
  | .num v => do
    let x ← wholeNumber v
    .ok (x, x)
  | .other => .error .valueError

/-- The `center` argument: a list or tuple of numbers, or something else. -/
inductive CenterArg (K : Type)
  | seq (l : List K)
  | other

/-- petrofit/modeling/fitting.py:168-181 `model_center_to_image_origin`. -/
def modelCenterToImageOrigin (center : CenterArg K) (size : SizeArg K) : Except PyErr (K × K) := do
  let s ← validateImageSize size
  match center with
  | .seq [cx, cy] => .ok (cx - ((s.1 / 2 : Int) : K), cy - ((s.2 / 2 : Int) : K))
  | _ => .error .assertionError

/-! ### `astropy.convolution.discretize_model` -/

/-- A model as a function on coordinate arrays. -/
abbrev GridModel (K : Type) := Img K → Img K → Except PyErr (Img K)

/-- A model that is evaluated point by point. -/
def pointwise (g : K → K → K) : GridModel K := fun X Y => .ok ⟨X.h, X.w, fun i j => g (X.px i j) (Y.px i j)⟩

/-- The discretisation modes. -/
inductive DiscMode
  | center | linearInterp | oversample | integrate | other

/-- `mode="center"`: the model on `np.meshgrid(np.arange(*x_range), np.arange(*y_range))`. -/
def discretizeCenter (m : GridModel K) (xr yr : K × K) : Except PyErr (Img K) :=
  let g := meshgrid (npArange xr.1 xr.2) (npArange yr.1 yr.2)
  m g.1 g.2

/-- `mode="linear_interp"`: means over the corners of the pixels. -/
def discretizeBilinear (m : GridModel K) (xr yr : K × K) : Except PyErr (Img K) := do
  let g := meshgrid (npArange (xr.1 - 1 / 2) (xr.2 + 1 / 2)) (npArange (yr.1 - 1 / 2) (yr.2 + 1 / 2))
  let v ← m g.1 g.2
  .ok ⟨v.h - 1, v.w - 1, fun i j =>
    1 / 2 * (1 / 2 * (v.px (i + 1) (j + 1) + v.px i (j + 1)) + 1 / 2 * (v.px (i + 1) j + v.px i j))⟩

/-- `np.linspace(a, b, num)` of numbers. -/
def linspaceK (a b : K) (num : Nat) : List K :=
  (List.range num).map fun k : Nat => if num = 1 then a else (k : K) * ((b - a) / ((num : K) - 1)) + a

/-- `mode="oversample"`: means over `f × f` samples. -/
def discretizeOversample (m : GridModel K) (xr yr : K × K) (f : Int) : Except PyErr (Img K) :=
  if f = 0 then .error .zeroDivisionError
  else
    let nx := ⌊(xr.2 - xr.1) * f⌋
    let ny := ⌊(yr.2 - yr.1) * f⌋
    if nx < 0 ∨ ny < 0 ∨ f < 0 then .error .valueError
    else do
      let axis (r : K × K) (n : Int) := linspaceK (r.1 - 1 / 2 * (1 - 1 / (f : K))) (r.2 - 1 / 2 * (1 + 1 / (f : K))) n.toNat
      let g := meshgrid (axis xr nx) (axis yr ny)
      let v ← m g.1 g.2
      .ok ⟨v.h / f.toNat, v.w / f.toNat, fun i j =>
        ((List.range f.toNat).map fun a =>
          ((List.range f.toNat).map fun b => v.px (i * f.toNat + a) (j * f.toNat + b)).sum / (f : K)).sum / (f : K)⟩

/-- `discretize_model` for a 2D model; `integrate` is not modelled. -/
def discretizeModel (integ : GridModel K → K × K → K × K → Except PyErr (Img K)) (m : GridModel K) (xr yr : K × K) (mode : DiscMode)
    (factor : K) : Except PyErr (Img K) :=
  if xr.2 - xr.1 ≠ ⌊xr.2 - xr.1⌋ then .error .valueError
  else if yr.2 - yr.1 ≠ ⌊yr.2 - yr.1⌋ then .error .valueError
  else if factor ≠ ⌊factor⌋ then .error .valueError
  else match mode with
    | .center => discretizeCenter m xr yr
    | .linearInterp => discretizeBilinear m xr yr
    | .oversample => discretizeOversample m xr yr ⌊factor⌋
    | .integrate => integ m xr yr
    | .other => .error .valueError

/-- petrofit/modeling/fitting.py:234-237: the origin of the image. -/
def imageOrigin (center : Option (CenterArg K)) (size : SizeArg K) : Except PyErr (K × K) :=
  match center with
  | none => .ok (0, 0)
  | some c => modelCenterToImageOrigin c size

/-- petrofit/modeling/fitting.py:184-245 `model_to_image`. -/
def modelToImage (integ : GridModel K → K × K → K × K → Except PyErr (Img K)) (m : GridModel K) (size : SizeArg K) (mode : DiscMode)
    (factor : K) (center : Option (CenterArg K)) : Except PyErr (Img K) := do
  let s ← validateImageSize size
  let o ← imageOrigin center size
  discretizeModel integ m (o.1, o.1 + (s.1 : K)) (o.2, o.2 + (s.2 : K)) mode factor

/-- A `PSFConvolvedModel2D` as a function on coordinate arrays (petrofit/modeling/models.py:353-538): the coordinates of all pixels
are evaluated together. -/
def PSFModel.onGrid (M : PSFModel K) (rot : Img K → K → Img K) (params : List K) (pa : K) : GridModel K := fun X Y => do
  let v ← (M.evaluate rot ((List.range X.h).flatMap fun i => (List.range X.w).map fun j => (X.px i j, Y.px i j)) params pa).1
  .ok ⟨X.h, X.w, fun i j => v.getD (i * X.w + j) 0⟩

end
end Verif

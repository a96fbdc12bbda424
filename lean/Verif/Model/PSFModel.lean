import Verif.Model.Photometry
import Verif.Model.UtilsMore

/-!
# petrofit/modeling/models.py: sampling grids and `PSFConvolvedModel2D`

Coordinates, parameters and model values are finite numbers.  The wrapped model is a function of its parameters and the coordinates.
-/

set_option linter.unusedSectionVars false

namespace Verif

variable {K : Type} [Field K] [LinearOrder K]

/-- `np.arange(start, stop, 1)`. -/
def npArange [FloorRing K] (start stop : K) : List K := (List.range ⌈stop - start⌉.toNat).map fun k : Nat => start + (k : K)

/-- `np.meshgrid(xs, ys)`: the x and the y coordinate at every pixel. -/
def meshgrid (xs ys : List K) : Img K × Img K :=
  (⟨ys.length, xs.length, fun _ j => xs.getD j 0⟩, ⟨ys.length, xs.length, fun i _ => ys.getD i 0⟩)

/-- petrofit/modeling/models.py:97-117 `make_grid`; `factor` is an int (line 112). -/
def makeGrid [FloorRing K] (size : Int) (origin : K × K) (factor : Nat) : Img K × Img K :=
  let xArange := (npArange (1 / 2) ((size * factor : Int) : K)).map fun v => v / (factor : K) - 1 / 2
  let yArange := (npArange (1 / 2) ((size * factor : Int) : K)).map fun v => v / (factor : K) - 1 / 2
  meshgrid (xArange.map fun v => v + origin.1) (yArange.map fun v => v + origin.2)

/-- astropy `block_reduce(image, f)` with the default `func=np.sum`: sums over blocks of `f × f` pixels; rows and columns that do not
fill a block are dropped. -/
def blockReduce (im : Img K) (f : Nat) : Img K :=
  ⟨im.h / f, im.w / f, fun i j =>
    ((List.range f).map fun a => ((List.range f).map fun b => im.px (i * f + a) (j * f + b)).sum).sum⟩

/-- Elementwise division by a number. -/
def Img.divBy (im : Img K) (c : K) : Img K := im.map fun v => v / c

/-- The pixel at signed indices, zero outside the image. -/
def Img.zeroPad (im : Img K) (i j : Int) : K :=
  if 0 ≤ i ∧ i < im.h ∧ 0 ≤ j ∧ j < im.w then im.px i.toNat j.toNat else 0

/-- `scipy.signal.convolve(image, psf, mode="same")`: the full convolution, of which the part of the shape of `image` is kept that
starts at `(psf.shape - 1) // 2`. -/
def convolveSame (im psf : Img K) : Img K :=
  ⟨im.h, im.w, fun i j =>
    ((List.range psf.h).map fun a => ((List.range psf.w).map fun b =>
      psf.px a b * im.zeroPad ((i : Int) + (((psf.h - 1) / 2 : Nat) : Int) - a) ((j : Int) + (((psf.w - 1) / 2 : Nat) : Int) - b)).sum).sum⟩

/-! ### Settings -/

/-- Centre coordinate of an oversampling window: a number or the name of a parameter. -/
inductive Center (K : Type)
  | num (v : K)
  | name (s : String)

/-- The stored `oversample` setting. -/
inductive Oversample (K : Type)
  | none
  | int (k : Nat)
  | window (x y : Center K) (size : Int) (factor : Nat)

/-- The values that can be assigned to `oversample`: sizes and factors of a window that are not python ints are `none`. -/
inductive OversampleArg (K : Type)
  | none
  | int (k : Int)
  | window (x y : Center K) (size factor : Option Int)
  | badLength
  | other

/-- The values that can be assigned to `psf_oversample`. -/
inductive PsfOversampleArg
  | none
  | int (k : Int)
  | other

/-- The wrapped model: parameter names and the value at a coordinate. -/
structure SubModel (K : Type) where
  paramNames : List String
  eval : List K → K → K → K

/-- petrofit/modeling/models.py:156-164: the settings and the grid cache of a `PSFConvolvedModel2D`. -/
structure PSFModel (K : Type) where
  sub : SubModel K
  psf : Option (Img K)
  oversample : Oversample K
  psfOversample : Option Nat
  cacheGrid : Bool
  cachedSize : Nat
  cachedFactor : Nat
  cachedGrid : Option (Img K × Img K)
  cachedRange : Option (K × K × K × K)

namespace PSFModel

/-- petrofit/modeling/models.py:319-323 `_get_oversample_factor`. -/
def oversampleFactor (M : PSFModel K) : Nat :=
  match M.oversample with
  | .none => 1
  | .int k => k
  | .window _ _ _ f => f

/-- petrofit/modeling/models.py:325-326 `_get_psf_factor`. -/
def psfFactor (M : PSFModel K) : Nat := M.psfOversample.getD 1

/-- petrofit/modeling/models.py:257-263: the `psf` setter (the normalisation only warns). -/
def setPsf (M : PSFModel K) (psf : Option (Img K)) : PSFModel K := { M with psf := psf }

/-- petrofit/modeling/models.py:289-294: the checks on the factor. -/
def checkFactor (M : PSFModel K) (factor : Int) : Except PyErr Nat :=
  if factor ≤ 0 then .error .valueError
  else if factor % (M.psfFactor : Int) ≠ 0 then .error .valueError
  else .ok factor.toNat

/-- petrofit/modeling/models.py:270-295: the `oversample` setter; `None` is stored without a check. -/
def setOversample (M : PSFModel K) : OversampleArg K → Except PyErr (PSFModel K)
  | .none => .ok { M with oversample := .none }
  | .badLength => .error .valueError
  | .window x y (some size) (some factor) => do
    let f ← M.checkFactor factor
    .ok { M with oversample := .window x y size f }
  | .window _ _ _ _ => .error .valueError
  | .int k => do
    let f ← M.checkFactor k
    .ok { M with oversample := .int f }
  | .other => .error .typeError

/-- petrofit/modeling/models.py:302-317: the `psf_oversample` setter. -/
def setPsfOversample (M : PSFModel K) : PsfOversampleArg → Except PyErr (PSFModel K)
  | .none => .ok { M with psfOversample := none }
  | .int k =>
    if M.psf.isNone then .error .valueError
    else if k ≤ 0 then .error .typeError
    else if (M.oversampleFactor : Int) % k ≠ 0 then .error .valueError
    else .ok { M with psfOversample := some k.toNat }
  | .other => if M.psf.isNone then .error .valueError else .error .typeError

/-- petrofit/modeling/models.py:166-192: the constructor (parameters aside): `psf`, then `oversample`, then `psf_oversample`. -/
def init (sub : SubModel K) (psf : Option (Img K)) (oversample : OversampleArg K) (psfOversample : PsfOversampleArg) :
    Except PyErr (PSFModel K) := do
  let M : PSFModel K := ⟨sub, psf, .none, none, true, 0, 0, none, none⟩
  let M ← M.setOversample oversample
  M.setPsfOversample psfOversample

/-- petrofit/modeling/models.py:328-335 `clear_cached_grid`. -/
def clearCachedGrid (M : PSFModel K) : PSFModel K :=
  { M with cachedSize := 0, cachedFactor := 0, cachedGrid := none, cachedRange := none }

/-- petrofit/modeling/models.py:342-351: the `cache_grid` setter for a bool. -/
def setCacheGrid (M : PSFModel K) (v : Bool) : PSFModel K :=
  if v then { M with cacheGrid := true } else { M with cacheGrid := false }.clearCachedGrid

/-! ### Evaluation -/

section
variable [FloorRing K]

/-- petrofit/modeling/models.py:383-385: image indices of coordinates, `(x - x.min()).astype(int)`. -/
def indexOf (v m : K) : Nat := ⌊v - m⌋.toNat

/-- petrofit/modeling/models.py:411-431: the main grid, from the cache or new. -/
def mainGrid (M : PSFModel K) (size factor : Nat) (range : K × K × K × K) : (Img K × Img K) × PSFModel K :=
  if size = M.cachedSize ∧ factor = M.cachedFactor ∧ M.cachedRange = some range then
    (M.cachedGrid.getD (⟨0, 0, fun _ _ => 0⟩, ⟨0, 0, fun _ _ => 0⟩), M)
  else
    let g := makeGrid (size : Int) (range.1, range.2.2.1) factor
    (g, if M.cacheGrid then
        { M with cachedGrid := some g, cachedSize := size, cachedFactor := factor, cachedRange := some range }
      else M)

/-- Sampling the wrapped model on a grid. -/
def sample (S : SubModel K) (params : List K) (g : Img K × Img K) : Img K :=
  ⟨g.1.h, g.1.w, fun i j => S.eval params (g.1.px i j) (g.2.px i j)⟩

/-- petrofit/modeling/models.py:458-475: the number for a window centre. -/
def centerValue (S : SubModel K) (params : List K) : Center K → Except PyErr K
  | .num v => .ok v
  | .name s =>
    if s ∈ S.paramNames then
      match params[S.paramNames.idxOf s]? with
      | some v => .ok v
      | none => .error .indexError
    else .error .assertionError

/-- A python slice bound on an axis of length `n`. -/
def sliceBound (n : Nat) (k : Int) : Nat := if k < 0 then (n + k).toNat else min n k.toNat

/-- `image[r0:r1, c0:c1] = sub`: numpy assignment with broadcasting. -/
def sliceAssign (im : Img K) (r0 r1 c0 c1 : Int) (sub : Img K) : Except PyErr (Img K) :=
  let a := sliceBound im.h r0
  let b := sliceBound im.h r1
  let c := sliceBound im.w c0
  let d := sliceBound im.w c1
  if broadcasts sub.h (b - a) && broadcasts sub.w (d - c) then
    .ok ⟨im.h, im.w, fun i j =>
      if a ≤ i ∧ i < b ∧ c ≤ j ∧ j < d then
        sub.px (if sub.h = 1 then 0 else i - a) (if sub.w = 1 then 0 else j - c)
      else im.px i j⟩
  else .error .valueError

/-- petrofit/modeling/models.py:453-522: the oversampled window, pasted into the image. -/
def pasteWindow (M : PSFModel K) (params : List K) (image : Img K) (iMax jMax : Nat) (x y : Center K) (size : Int) (factor : Nat) :
    Except PyErr (Img K) := do
  let toPsf := factor / M.psfFactor
  if toPsf ≤ 1 then .ok image
  else do
    let x0 ← centerValue M.sub params x
    let y0 ← centerValue M.sub params y
    let originX : Int := rint x0 - size / 2
    let originY : Int := rint y0 - size / 2
    let sub := (blockReduce (sample M.sub params (makeGrid size ((originX : K), (originY : K)) factor)) toPsf).divBy ((toPsf : K) ^ 2)
    let iSubMin := if originX < 0 then 0 else originX
    let jSubMin := if originY < 0 then 0 else originY
    let iSubMax := if originX + size > iMax then (iMax : Int) + 1 else originX + size
    let jSubMax := if originY + size > jMax then (jMax : Int) + 1 else originY + size
    sliceAssign image (jSubMin * M.psfFactor) (jSubMax * M.psfFactor) (iSubMin * M.psfFactor) (iSubMax * M.psfFactor) sub

/-- petrofit/modeling/models.py:441-522: the model image at PSF resolution. -/
def oversampled (M : PSFModel K) (params : List K) (gridFactor : Nat) (image : Img K) (iMax jMax : Nat) : Except PyErr (Img K) :=
  match M.oversample with
  | .window x y size factor => M.pasteWindow params image iMax jMax x y size factor
  | _ =>
    let toPsf := gridFactor / M.psfFactor
    .ok (if 1 < toPsf then (blockReduce image toPsf).divBy ((toPsf : K) ^ 2) else image)

/-- petrofit/modeling/models.py:524-536: PSF convolution (`rot` is `scipy.ndimage.rotate` with `reshape=False`) and reduction to the
resolution of the data. -/
def convolved (M : PSFModel K) (rot : Img K → K → Img K) (psfPa : K) (image : Img K) : Img K :=
  let image := match M.psf with
    | none => image
    | some psf => convolveSame image (if psfPa ≠ 0 then rot psf psfPa else psf)
  if 1 < M.psfFactor then (blockReduce image M.psfFactor).divBy ((M.psfFactor : K) ^ 2) else image

/-- `image[j, i]` for non-negative indices. -/
def pick (im : Img K) (p : Nat × Nat) : Except PyErr K :=
  if p.1 < im.h ∧ p.2 < im.w then .ok (im.px p.1 p.2) else .error .indexError

/-- petrofit/modeling/models.py:387-401: the oversampling of the main grid. -/
def gridFactor (M : PSFModel K) : Nat :=
  match M.oversample with
  | .window _ _ _ _ => M.psfFactor
  | _ => M.oversampleFactor

/-- petrofit/modeling/models.py:433-538: the values at the image indices, from the main grid. -/
def valuesOn (M : PSFModel K) (rot : Img K → K → Img K) (idx : List (Nat × Nat)) (params : List K) (psfPa : K) (iMax jMax : Nat)
    (grid : Img K × Img K) : Except PyErr (List K) := do
  let image ← M.oversampled params M.gridFactor (sample M.sub params grid) iMax jMax
  idx.mapM (pick (M.convolved rot psfPa image))

/-- petrofit/modeling/models.py:353-538 `evaluate`: the values at the coordinates and the model with its updated cache. -/
def evaluate (M : PSFModel K) (rot : Img K → K → Img K) (coords : List (K × K)) (params : List K) (psfPa : K) :
    Except PyErr (List K) × PSFModel K :=
  match (coords.map (·.1)).min?, (coords.map (·.1)).max?, (coords.map (·.2)).min?, (coords.map (·.2)).max? with
  | some xMin, some xMax, some yMin, some yMax =>
    let iMax := indexOf xMax xMin
    let jMax := indexOf yMax yMin
    let gm := M.mainGrid (max iMax jMax + 1) M.gridFactor (xMin, xMax, yMin, yMax)
    (M.valuesOn rot (coords.map fun c => (indexOf c.2 yMin, indexOf c.1 xMin)) params psfPa iMax jMax gm.1, gm.2)
  | _, _, _, _ => (.error .valueError, M)

end
end PSFModel
end Verif

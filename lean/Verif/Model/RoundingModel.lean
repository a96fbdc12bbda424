import Verif.Model.Rounding
import Verif.Model.PSFModel
import Verif.Model.Fitting

/-!
# Coordinates and pixel indices of model images in rounded arithmetic

`model_to_image` and `PSFConvolvedModel2D.evaluate` with a rounding after every operation on coordinates.  The values of the wrapped model
are those of a function of the coordinates.  Simplifications: sizes are positive ints, `mode="center"`, and a wrapped model without PSF and
without oversampling.
-/

set_option linter.unusedSectionVars false

namespace Verif

section
variable {K : Type} [Field K] [LinearOrder K] [FloorRing K] (fl : K → K)

/-- `np.arange(start, stop, 1)` of floats: `ceil((stop - start) / 1)` entries; numpy computes the first two, `start` and `start + 1`, takes
their difference as step and fills in `start + k * step` (`DOUBLE_fill` in numpy/_core/src/multiarray/arraytypes.c.src). -/
def npArangeR (start stop : K) : List K :=
  (List.range ⌈fl (stop - start)⌉.toNat).map fun k : Nat =>
    if k = 0 then start else if k = 1 then fl (start + 1) else fl (start + fl ((k : K) * fl (fl (start + 1) - start)))

/-- petrofit/modeling/models.py:97-117 `make_grid` with `factor=1` in rounded arithmetic. -/
def makeGridR (size : Nat) (origin : K × K) : Img K × Img K :=
  let axis (o : K) := (npArangeR fl (1 / 2) (size : K)).map fun v => fl (fl (fl (v / 1) - 1 / 2) + o)
  meshgrid (axis origin.1) (axis origin.2)

/-- petrofit/modeling/models.py:384-385 in rounded arithmetic: `(x - x.min()).astype(int)`. -/
def indexOfR (v m : K) : Nat := ⌊fl (v - m)⌋.toNat

/-- petrofit/modeling/models.py:353-538 `evaluate` in rounded arithmetic, for `psf=None` and `oversample=None`. -/
def evaluateR (S : SubModel K) (coords : List (K × K)) (params : List K) : Except PyErr (List K) :=
  match (coords.map (·.1)).min?, (coords.map (·.1)).max?, (coords.map (·.2)).min?, (coords.map (·.2)).max? with
  | some xMin, some xMax, some yMin, some yMax =>
    let size := max (indexOfR fl xMax xMin) (indexOfR fl yMax yMin) + 1
    let image := PSFModel.sample S params (makeGridR fl size (xMin, yMin))
    coords.mapM fun c => PSFModel.pick image (indexOfR fl c.2 yMin, indexOfR fl c.1 xMin)
  | _, _, _, _ => .error .valueError

/-- A wrapped model as a function on coordinate arrays, compare `PSFModel.onGrid`. -/
def onGridR (S : SubModel K) (params : List K) : GridModel K := fun X Y => do
  let v ← evaluateR fl S ((List.range X.h).flatMap fun i => (List.range X.w).map fun j => (X.px i j, Y.px i j)) params
  .ok ⟨X.h, X.w, fun i j => v.getD (i * X.w + j) 0⟩

/-- petrofit/modeling/fitting.py:168-245: `model_to_image(model, (nx, ny), center=(cx, cy))` in rounded arithmetic, with the check of
`astropy.convolution.discretize_model` that the ranges are whole numbers. -/
def modelToImageR (m : GridModel K) (nx ny : Nat) (cx cy : K) : Except PyErr (Img K) :=
  let ox := fl (cx - ((nx / 2 : Nat) : K))
  let oy := fl (cy - ((ny / 2 : Nat) : K))
  let ex := fl (ox + nx)
  let ey := fl (oy + ny)
  if fl (ex - ox) ≠ ⌊fl (ex - ox)⌋ then .error .valueError
  else if fl (ey - oy) ≠ ⌊fl (ey - oy)⌋ then .error .valueError
  else
    let g := meshgrid (npArangeR fl ox ex) (npArangeR fl oy ey)
    m g.1 g.2

end
end Verif

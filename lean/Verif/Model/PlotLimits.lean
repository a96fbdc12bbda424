import Verif.Base.Sqrt
import Verif.Model.Fitting
import Verif.Model.Gaussian

/-!
# petrofit/modeling/fitting.py: the colour limits of `plot_fit`
-/

set_option linter.unusedSectionVars false

namespace Verif

open F

section
variable {K : Type} [Field K] [LinearOrder K] [HasSqrt K]

/-- `np.nanstd(image)`: the population standard deviation of the pixels that are not NaN; NaN when there are none, and when one of them is
infinite (`inf - inf`). -/
def nanStd (im : Img (F K)) : F K :=
  let l := ((List.range im.h).flatMap fun i => (List.range im.w).map fun j => im.px i j).filter fun x => !x.isNaN
  let v := l.filterMap fun
    | .fin v => some v
    | _ => none
  if l.isEmpty || v.length ≠ l.length then nan else fin (HasSqrt.sqrt (varK v))

/-- python's `max(a, b)` of two floats: the first unless the second is larger, so a NaN stays when it comes first and loses when it comes
second. -/
def pyMax2 (a b : F K) : F K := if F.lt a b then b else a

/-- petrofit/modeling/fitting.py:432-436 (`plot_fit`): the limits `(vmin, vmax)` of the colours of the three panels. -/
def plotLimits (image model : Img (F K)) (vmin vmax : Option (F K)) : F K × F K :=
  let vmax := match vmax with
    | none => pyMax2 (nanStd image) (nanStd model) * fin 3
    | some v => v
  let vmin := match vmin with
    | none => -vmax
    | some v => v
  (vmin, vmax)

/-- matplotlib `Normalize(vmin, vmax)` when a panel is drawn (petrofit/modeling/fitting.py:438, 445, 451): ValueError when `vmin > vmax`. -/
def drawPanel (lim : F K × F K) : Except PyErr Unit := if F.lt lim.2 lim.1 then .error .valueError else .ok ()

end

end Verif

import Verif.Base.NumPy

/-!
# petrofit/utils.py, the functions used by the Petrosian code
-/

set_option linter.unusedSectionVars false

namespace Verif

open F

variable {K : Type} [Field K] [LinearOrder K]

/-- The family of interpolators: `interp1d(x, y, kind)` for every kind string. -/
abbrev InterpFam (K : Type) := String → Interp K

/-- `interp1d(x, y, kind=kind)(q)` where `kind` may be python `None`: scipy raises NotImplementedError for `kind=None`. -/
def interp1d (ip : InterpFam K) (kind : Option String) (x y : List (F K)) (q : F K) : Except PyErr (F K) :=
  match kind with
  | none => .error .notImplementedError
  | some k => ip k x y q

/-- petrofit/utils.py:122-151 `get_interpolated_values`. -/
def getInterpolatedValues (ip : InterpFam K) (x y : List (F K)) (num : Nat := 5000)
    (kind : Option String := some "cubic") : Except PyErr (List (F K) × List (F K)) :=
  match kind with
  | none => .ok (x, y)
  | some k => do
    let num := if x.length > num then x.length else num
    let lo ← pyMin x
    let hi ← pyMax x
    let xNew := npLinspace lo hi num
    let yNew ← xNew.mapM (ip k x y)
    .ok (xNew, yNew)

/-- petrofit/utils.py:154-166 `closest_value_index`. -/
def closestValueIndex (value : F K) (array : List (F K)) (growing : Bool := false) : Except PyErr (Option Nat) :=
  match firstWhere (fun a => if growing then F.le value a else F.le a value) array with
  | none => .ok none
  | some idx => do
    let i ← npArgmin ((array.take (idx + 1)).map fun a => F.abs (a - value))
    .ok (some i)

end Verif

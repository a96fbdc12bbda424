import Verif.Model.Petrosian
import Mathlib.Algebra.Order.Floor.Ring

/-!
# petrofit/petrosian/core.py `calculate_petrosian` with an integer area array

`np.zeros_like(area_diff)` takes the dtype of `area_diff`, so with an integer `area_list` the arrays `I_at_r`, `I_at_r_err` and
`petrosian_err` are integer arrays and the masked assignments cast.  The flux array may be integer or float: it only enters true
divisions and differences, so it is modelled by its float values.
-/

set_option linter.unusedSectionVars false

namespace Verif

open F

variable {K : Type} [Field K] [LinearOrder K] [IsStrictOrderedRing K] [FloorRing K]

/-- numpy's float to int64 cast in an array assignment: truncation towards zero; NaN and infinities give the smallest int64 (what
x86-64 does; with a RuntimeWarning).  Overflow of finite values is not modelled. -/
def castInt : F K → ℤ
  | fin x => if 0 ≤ x then ⌊x⌋ else ⌈x⌉
  | _ => -2 ^ 63

/-- petrofit/petrosian/core.py:54-79 with `area_list` an integer array: as `petrosianRaw`, with the cast of line 73. -/
def petrosianRawInt (area : List ℤ) (flux : List (F K)) : Except PyErr (List (F K)) :=
  let a : List (F K) := area.map fun z : ℤ => (fin (z : K) : F K)
  if area.length ≠ flux.length then .error .assertionError
  else if ¬ 2 < area.length then .error .assertionError
  else if ¬ (npDiff a).all (fun d => F.le (fin 0) d) then .error .assertionError
  else
    let iAvg := List.zipWith (· / ·) flux.tail a.tail
    let iAtR := List.zipWith (fun df da => if F.lt (fin 0) da then fin (castInt (df / da) : K) else fin 0) (npDiff flux) (npDiff a)
    .ok (nan :: List.zipWith (· / ·) iAtR iAvg)

/-- petrofit/petrosian/core.py:24-124 `calculate_petrosian` with `area_list` an integer array.  When errors are asked for,
`petrosian_err` is an integer array and `np.insert(petrosian_err, 0, np.nan)` (line 115) raises ValueError (cannot convert float NaN
to integer). -/
def calculatePetrosianInt (area : List ℤ) (flux : List (F K)) (areaErr fluxErr : Option (List (F K)) := none) :
    Except PyErr (List (F K) × Option (List (F K))) := do
  let raw ← petrosianRawInt area flux
  let petro ← fancyIndex raw (uniqueInverse (area.map fun z : ℤ => (fin (z : K) : F K)))
  if areaErr.isNone && fluxErr.isNone then .ok (petro, none)
  else
    let aE := areaErr.getD (area.map fun _ => fin 0)
    let fE := fluxErr.getD (flux.map fun _ => fin 0)
    if aE.length ≠ area.length then .error .assertionError
    else if fE.length ≠ flux.length then .error .assertionError
    else .error .valueError

end Verif

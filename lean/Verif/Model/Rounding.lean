import Verif.Model.Petrosian
import Mathlib.Data.Int.Log
import Mathlib.Algebra.Order.Round

/-!
# The Petrosian code in rounded arithmetic

The other models compute with exact numbers.  Here every arithmetic operation of the code is followed by a rounding `fl`, the way IEEE
arithmetic works: the result of an operation is the rounded exact result.  `fl` is a parameter; `fl53` is rounding to 53 significant bits,
ties to even (binary64 without overflow and underflow).  Comparisons, `min`, `max` and absolute values do not round.
-/

set_option linter.unusedSectionVars false

namespace Verif

open F

section
variable {K : Type} [Field K] [LinearOrder K]

/-- Rounding of a result; NaN and infinities stay. -/
def F.rnd (fl : K → K) : F K → F K
  | fin x => fin (fl x)
  | y => y

variable (fl : K → K)

/-- `np.linspace` in rounded arithmetic: `step = (stop - start) / div`, `arange(num) * step + start`, last entry set to `stop`. -/
def npLinspaceR (start stop : F K) (num : Nat) : List (F K) :=
  let step := if 1 < num then (((stop - start).rnd fl) / fin ((num - 1 : Nat) : K)).rnd fl else (stop - start).rnd fl
  (List.range num).map fun i =>
    if 1 < num ∧ i + 1 = num then stop else ((fin (i : K) * step).rnd fl + start).rnd fl

/-- petrofit/utils.py:154-166 `closest_value_index` in rounded arithmetic. -/
def closestValueIndexR (value : F K) (array : List (F K)) (growing : Bool := false) : Except PyErr (Option Nat) :=
  match firstWhere (fun a => if growing then F.le value a else F.le a value) array with
  | none => .ok none
  | some idx => do
    let i ← npArgmin ((array.take (idx + 1)).map fun a => F.abs ((a - value).rnd fl))
    .ok (some i)

/-- petrofit/utils.py:122-151 `get_interpolated_values` in rounded arithmetic. The interpolator is any function, so its own rounding is
included. -/
def getInterpolatedValuesR (ip : InterpFam K) (x y : List (F K)) (num : Nat := 5000)
    (kind : Option String := some "cubic") : Except PyErr (List (F K) × List (F K)) :=
  match kind with
  | none => .ok (x, y)
  | some k => do
    let num := if x.length > num then x.length else num
    let lo ← pyMin x
    let hi ← pyMax x
    let xNew := npLinspaceR fl lo hi num
    let yNew ← xNew.mapM (ip k x y)
    .ok (xNew, yNew)

/-- petrofit/petrosian/core.py:190-192, 308-309 in rounded arithmetic. -/
def radiusAtR (v : F K) (xy : List (F K) × List (F K)) (growing : Bool) : Except PyErr (F K) := do
  match ← closestValueIndexR fl v xy.2 growing with
  | none => .ok nan
  | some i => getItem xy.1 i

/-- petrofit/petrosian/core.py:127-200 `calculate_petrosian_r` in rounded arithmetic, without errors. -/
def calculatePetrosianRR (ip : InterpFam K) (rList petro : List (F K)) (eta : F K)
    (kind : Option String := some "cubic") (num : Nat := 5000) : Except PyErr (F K) := do
  let r ← setItem0 rList (fin 0)
  let p ← setItem0 petro (fin 1)
  radiusAtR fl eta (← getInterpolatedValuesR fl ip r p num kind) false

/-- petrofit/petrosian/core.py:289-315 `fraction_to_r` in rounded arithmetic, without flux errors. -/
def fractionToRR (ip : InterpFam K) (fraction : F K) (rList fluxList : List (F K)) (rPetrosian epsilon epsilonFraction : F K)
    (kind : Option String := some "cubic") (num : Nat := 5000) : Except PyErr (F K) := do
  let rEps := (rPetrosian * epsilon).rnd fl
  let hi ← pyMax rList
  if F.lt hi rEps then .ok nan
  else do
    let k := kind.getD "cubic"
    let epsilonFlux ← ip k rList fluxList rEps
    let fractionalFlux := (epsilonFlux * (← pyDiv fraction epsilonFraction).rnd fl).rnd fl
    radiusAtR fl fractionalFlux (← getInterpolatedValuesR fl ip rList fluxList num kind) true

/-- petrofit/petrosian/core.py:54-79 in rounded arithmetic: validation and the profile before `np.unique` re-indexing. -/
def petrosianRawR (area flux : List (F K)) : Except PyErr (List (F K)) :=
  let dA := (npDiff area).map (F.rnd fl)
  let dF := (npDiff flux).map (F.rnd fl)
  if area.length ≠ flux.length then .error .assertionError
  else if ¬ 2 < area.length then .error .assertionError
  else if ¬ dA.all (fun d => F.le (fin 0) d) then .error .assertionError
  else
    let iAvg := List.zipWith (fun f a => (f / a).rnd fl) flux.tail area.tail
    let iAtR := List.zipWith (fun df da => if F.lt (fin 0) da then (df / da).rnd fl else fin 0) dF dA
    .ok (nan :: List.zipWith (fun a b => (a / b).rnd fl) iAtR iAvg)

/-- petrofit/petrosian/core.py:24-84 `calculate_petrosian` in rounded arithmetic, without errors. -/
def calculatePetrosianFl (area flux : List (F K)) : Except PyErr (List (F K)) := do
  fancyIndex (← petrosianRawR fl area flux) (uniqueInverse area)

/-- petrofit/utils.py:57 `make_radius_list` with `log=False` in rounded arithmetic: `x * max_pix / n`. -/
def makeRadiusListR (maxPix : F K) (n : Nat) : List (F K) :=
  (List.range n).map fun i => ((fin ((i + 1 : Nat) : K) * maxPix).rnd fl / fin (n : K)).rnd fl

/-- petrofit/petrosian/core.py:454-461: the concentration index from two radii, in rounded arithmetic. The library `log10` is rounded too. -/
def concentrationR [HasLog10 K] (r1 r2 : F K) : F K :=
  if r1.isNaN || r2.isNaN then nan else (fin 5 * (F.log10 ((r2 / r1).rnd fl)).rnd fl).rnd fl

end

section fl53
variable {K : Type} [Field K] [LinearOrder K] [FloorRing K]

/-- Nearest integer, ties to even. -/
def rne (x : K) : ℤ :=
  if x - ⌊x⌋ < 1 / 2 then ⌊x⌋ else if 1 / 2 < x - ⌊x⌋ then ⌊x⌋ + 1 else if ⌊x⌋ % 2 = 0 then ⌊x⌋ else ⌊x⌋ + 1

/-- Rounding of a positive number to `p` significant bits, ties to even, with an unbounded exponent. -/
def flPos (p : Nat) (x : K) : K :=
  let e : ℤ := Int.log 2 x - (p : ℤ) + 1
  (rne (x / (2 : K) ^ e) : K) * (2 : K) ^ e

/-- Rounding to `p` significant bits; the sign is a separate bit. -/
def flBits (p : Nat) (x : K) : K := if 0 < x then flPos p x else if x < 0 then -flPos p (-x) else 0

/-- binary64 rounding (without overflow and underflow). -/
def fl53 (x : K) : K := flBits 53 x

end fl53

end Verif

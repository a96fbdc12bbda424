import Verif.Model.Utils

/-!
# petrofit/petrosian/core.py
-/

set_option linter.unusedSectionVars false

namespace Verif

open F

variable {K : Type} [Field K] [LinearOrder K]

section profile
variable [HasSqrt K]

/-- `x ** 2`. -/
def F.sq (x : F K) : F K := x * x

/-- petrofit/petrosian/core.py:54-79: validation and the profile before `np.unique` re-indexing.
Masked assignment `I_at_r[zero_mask] = ...` into a zero array is written elementwise. -/
def petrosianRaw (area flux : List (F K)) : Except PyErr (List (F K)) :=
  if area.length ≠ flux.length then .error .assertionError
  else if ¬ 2 < area.length then .error .assertionError
  else if ¬ (npDiff area).all (fun d => F.le (fin 0) d) then .error .assertionError
  else
    let iAvg := List.zipWith (· / ·) flux.tail area.tail
    let iAtR := List.zipWith (fun df da => if F.lt (fin 0) da then df / da else fin 0) (npDiff flux) (npDiff area)
    .ok (nan :: List.zipWith (· / ·) iAtR iAvg)

/-- petrofit/petrosian/core.py:94-118: the error array before re-indexing; `petro` is the already re-indexed profile of line 83. -/
def petrosianErrRaw (area flux petro areaErr fluxErr : List (F K)) : List (F K) :=
  let areaDiff := npDiff area
  let fluxDiff := npDiff flux
  let iAvg := List.zipWith (· / ·) flux.tail area.tail
  let iAtR := List.zipWith (fun df da => if F.lt (fin 0) da then df / da else fin 0) fluxDiff areaDiff
  let quad := fun (e : List (F K)) => List.zipWith (fun a b => F.sqrt (F.sq a + F.sq b)) e.dropLast e.tail
  let areaDiffErr := quad areaErr
  let fluxDiffErr := quad fluxErr
  let iAtRErr := List.zipWith (fun (t : (F K × F K) × F K) (u : F K × F K) =>
      -- t = ((flux_diff_err, flux_diff), I_at_r), u = (area_diff_err, area_diff)
      if F.lt (fin 0) u.2 then F.abs t.2 * F.sqrt (F.sq (t.1.1 / t.1.2) + F.sq (u.1 / u.2)) else fin 0)
    ((fluxDiffErr.zip fluxDiff).zip iAtR) (areaDiffErr.zip areaDiff)
  let iAvgErr := List.zipWith (fun (t : (F K × F K) × F K) (u : F K × F K) =>
      F.abs t.2 * F.sqrt (F.sq (t.1.1 / t.1.2) + F.sq (u.1 / u.2)))
    ((fluxErr.tail.zip flux.tail).zip iAvg) (areaErr.tail.zip area.tail)
  let err := List.zipWith (fun (t : F K × F K) (u : (F K × F K) × (F K × F K)) =>
      -- t = (area_diff, petrosian_list[1:]), u = ((I_at_r_err, I_at_r), (I_avg_err, I_avg))
      if F.lt (fin 0) t.1 then F.abs t.2 * F.sqrt (F.sq (u.1.1 / u.1.2) + F.sq (u.2.1 / u.2.2)) else fin 0)
    (areaDiff.zip petro.tail) ((iAtRErr.zip iAtR).zip (iAvgErr.zip iAvg))
  nan :: err

/-- petrofit/petrosian/core.py:24-124 `calculate_petrosian`. -/
def calculatePetrosian (area flux : List (F K)) (areaErr fluxErr : Option (List (F K)) := none) :
    Except PyErr (List (F K) × Option (List (F K))) := do
  let raw ← petrosianRaw area flux
  let uniqueIndices := uniqueInverse area
  let petro ← fancyIndex raw uniqueIndices
  if areaErr.isNone && fluxErr.isNone then .ok (petro, none)
  else
    let aE := areaErr.getD (area.map fun _ => fin 0)
    let fE := fluxErr.getD (flux.map fun _ => fin 0)
    if aE.length ≠ area.length then .error .assertionError
    else if fE.length ≠ flux.length then .error .assertionError
    else do
      let err ← fancyIndex (petrosianErrRaw area flux petro aE fE) uniqueIndices
      .ok (petro, some err)

end profile

section radii
variable (ip : InterpFam K)

/-- The two lines `idx = closest_value_index(v, y); r = np.nan if idx is None else x[idx]`
(petrofit/petrosian/core.py:190-192, 206-207, 213-214, 308-309, 345-346, 351-352). -/
def radiusAt (v : F K) (xy : List (F K) × List (F K)) (growing : Bool) : Except PyErr (F K) := do
  match ← closestValueIndex v xy.2 growing with
  | none => .ok nan
  | some i => getItem xy.1 i

/-- petrofit/petrosian/core.py:127-219 `calculate_petrosian_r`. -/
def calculatePetrosianR (rList petro : List (F K)) (err : Option (List (F K))) (eta : F K)
    (kind : Option String := some "cubic") (num : Nat := 5000) : Except PyErr (F K × F K) := do
  let r ← setItem0 rList (fin 0)
  let p ← setItem0 petro (fin 1)
  let rPetro ← radiusAt eta (← getInterpolatedValues ip r p num kind) false
  match err with
  | none => .ok (rPetro, nan)
  | some err =>
    if rPetro.isNaN then .ok (rPetro, nan)
    else do
      let e ← setItem0 err (fin 0)
      let up ← zipOp (· + ·) p e
      let rUp ← radiusAt eta (← getInterpolatedValues ip r up num kind) false
      let lo ← zipOp (· - ·) p e
      let rLo ← radiusAt eta (← getInterpolatedValues ip r lo num kind) false
      .ok (rPetro, (rUp - rLo) / fin 2)

/-- Division of two python floats: ZeroDivisionError for a zero denominator. -/
def pyDiv (a b : F K) : Except PyErr (F K) :=
  if F.eqv b (fin 0) then .error .zeroDivisionError else .ok (a / b)

/-- petrofit/petrosian/core.py:222-356 `fraction_to_r`.  The scalar arguments are python floats. -/
def fractionToR (fraction : F K) (rList fluxList : List (F K)) (rPetrosian : F K)
    (fluxErr : Option (List (F K))) (rPetrosianErr : Option (F K)) (epsilon epsilonFraction : F K)
    (kind : Option String := some "cubic") (num : Nat := 5000) : Except PyErr (F K × F K) := do
  let rEps := rPetrosian * epsilon
  let hi ← pyMax rList
  if F.lt hi rEps then .ok (nan, nan)
  else do
    let k := kind.getD "cubic"
    let epsilonFlux ← ip k rList fluxList rEps
    let fractionalFlux := epsilonFlux * (← pyDiv fraction epsilonFraction)
    let rFrac ← radiusAt fractionalFlux (← getInterpolatedValues ip rList fluxList num kind) true
    match fluxErr with
    | none => .ok (rFrac, nan)
    | some fe =>
      if rFrac.isNaN then .ok (rFrac, nan)
      else do
        let rEpsErr := match rPetrosianErr with
          | none => fin 0
          | some e => if e.isNaN then fin 0 else e
        let lower ← zipOp (· - ·) fluxList fe
        let upper ← zipOp (· + ·) fluxList fe
        let fLo ← ip k rList lower (rEps - rEpsErr)
        let fUp ← ip k rList upper (rEps + rEpsErr)
        let fErr := (fUp - fLo) / fin 2
        let rUp ← radiusAt (fractionalFlux + fErr) (← getInterpolatedValues ip rList lower) true
        let rLo ← radiusAt (fractionalFlux - fErr) (← getInterpolatedValues ip rList upper) true
        .ok (rFrac, (rUp - rLo) / fin 2)

/-- petrofit/petrosian/core.py:359-461 `calculate_concentration_index`. -/
def calculateConcentrationIndex [HasLog10 K] (fraction1 fraction2 : F K) (rList fluxList : List (F K)) (rPetrosian : F K)
    (fluxErr : Option (List (F K))) (rPetrosianErr : Option (F K)) (epsilon epsilonFraction : F K)
    (kind : Option String := some "cubic") (num : Nat := 5000) : Except PyErr (F K × F K × F K) := do
  let r1 ← fractionToR ip fraction1 rList fluxList rPetrosian fluxErr rPetrosianErr epsilon epsilonFraction kind num
  let r2 ← fractionToR ip fraction2 rList fluxList rPetrosian fluxErr rPetrosianErr epsilon epsilonFraction kind num
  if r1.1.isNaN || r2.1.isNaN then .ok (nan, nan, nan)
  else .ok (r1.1, r2.1, fin 5 * F.log10 (r2.1 / r1.1))

end radii

/-- petrofit/petrosian/core.py:464-562: the attributes of a `Petrosian` object. -/
structure Petrosian (K : Type) where
  rList : List (F K)
  areaList : List (F K)
  fluxList : List (F K)
  areaErr : Option (List (F K))
  fluxErr : Option (List (F K))
  eta : F K
  epsilon : F K
  epsilonFraction : F K
  totalFluxFraction : F K
  interpKind : Option String
  interpNum : Nat
  petrosianList : List (F K)
  petrosianErr : Option (List (F K))

namespace Petrosian

section init
variable [HasSqrt K]

/-- petrofit/petrosian/core.py:476-589 `__init__`, `_validate_input_arrays`, `_update_petrosian`.
Arrays are one-dimensional by type, so the `shape` assertions compare lengths. -/
def init (rList areaList fluxList : List (F K)) (areaErr fluxErr : Option (List (F K)))
    (eta epsilon epsilonFraction totalFluxFraction : F K) (interpKind : Option String := some "cubic")
    (interpNum : Nat := 5000) : Except PyErr (Petrosian K) := do
  if ¬ 2 < rList.length then .error .assertionError
  else if rList.length ≠ fluxList.length then .error .assertionError
  else if fluxErr.any (fun e => e.length ≠ fluxList.length) then .error .assertionError
  else if areaErr.any (fun e => e.length ≠ areaList.length) then .error .assertionError
  else do
    let (pl, pe) ← calculatePetrosian areaList fluxList areaErr fluxErr
    .ok { rList, areaList, fluxList, areaErr, fluxErr, eta, epsilon, epsilonFraction, totalFluxFraction,
          interpKind, interpNum, petrosianList := pl, petrosianErr := pe }

end init

variable (ip : InterpFam K) (p : Petrosian K)

/-- petrofit/petrosian/core.py:591-602 `_calculate_petrosian_r`. -/
def calcPetrosianR : Except PyErr (F K × F K) :=
  Verif.calculatePetrosianR ip p.rList p.petrosianList p.petrosianErr p.eta p.interpKind p.interpNum

/-- petrofit/petrosian/core.py:743-749 `r_petrosian`. -/
def rPetrosian : Except PyErr (F K) := (p.calcPetrosianR ip).map Prod.fst

/-- petrofit/petrosian/core.py:751-755 `r_petrosian_err`. -/
def rPetrosianErr : Except PyErr (F K) := (p.calcPetrosianR ip).map Prod.snd

/-- petrofit/petrosian/core.py:604-619 `_calculate_fraction_to_r`. -/
def calcFractionToR (fraction : F K) : Except PyErr (F K × F K) := do
  let rp ← p.rPetrosian ip
  let rpe ← p.rPetrosianErr ip
  Verif.fractionToR ip fraction p.rList p.fluxList rp p.fluxErr (some rpe) p.epsilon p.epsilonFraction
    p.interpKind p.interpNum

/-- petrofit/petrosian/core.py:621-660 `concentration_index`. -/
def concentrationIndex [HasLog10 K] (fraction1 fraction2 : F K) : Except PyErr (F K × F K × F K) := do
  let rp ← p.rPetrosian ip
  let rpe ← p.rPetrosianErr ip
  Verif.calculateConcentrationIndex ip fraction1 fraction2 p.rList p.fluxList rp p.fluxErr (some rpe) p.epsilon
    p.epsilonFraction p.interpKind p.interpNum

/-- petrofit/petrosian/core.py:757-760 `r_epsilon`. -/
def rEpsilon : Except PyErr (F K) := do return (← p.rPetrosian ip) * p.epsilon

/-- petrofit/petrosian/core.py:762-765 `r_epsilon_in_range` (numpy `min`/`max`; equal to python's on NaN-free radii). -/
def rEpsilonInRange : Except PyErr Bool := do
  let lo ← pyMin p.rList
  let re ← p.rEpsilon ip
  let hi ← pyMax p.rList
  return F.le lo re && F.le re hi

/-- petrofit/petrosian/core.py:767-771 `r_total_flux`. -/
def rTotalFlux : Except PyErr (F K) := (p.calcFractionToR ip p.totalFluxFraction).map Prod.fst

/-- petrofit/petrosian/core.py:773-777 `r_total_flux_err`. -/
def rTotalFluxErr : Except PyErr (F K) := (p.calcFractionToR ip p.totalFluxFraction).map Prod.snd

/-- petrofit/petrosian/core.py:834-838 `r_half_light`; `0.5` is exact. -/
def rHalfLight : Except PyErr (F K) := (p.calcFractionToR ip (fin (1 / 2))).map Prod.fst

/-- petrofit/petrosian/core.py:840-844 `r_half_light_err`. -/
def rHalfLightErr : Except PyErr (F K) := (p.calcFractionToR ip (fin (1 / 2))).map Prod.snd

/-- petrofit/petrosian/core.py:784-789 and 812-817: flux at a radius, NaN when the radius is not inside the radii. -/
def fluxAt (r : F K) : Except PyErr (F K) := do
  let lo ← pyMin p.rList
  let hi ← pyMax p.rList
  if F.le lo r && F.le r hi then interp1d ip p.interpKind p.rList p.fluxList r
  else .ok nan

/-- petrofit/petrosian/core.py:779-789 `total_flux`. -/
def totalFlux : Except PyErr (F K) := do p.fluxAt ip (← p.rTotalFlux ip)

/-- petrofit/petrosian/core.py:807-817 `half_flux`. -/
def halfFlux : Except PyErr (F K) := do p.fluxAt ip (← p.rHalfLight ip)

/-- petrofit/petrosian/core.py:791-805 `total_flux_err`. -/
def totalFluxErr [HasSqrt K] : Except PyErr (F K) := do
  let rTotal ← p.rTotalFlux ip
  let rTotalErr ← p.rTotalFluxErr ip
  match p.fluxErr with
  | none => .ok nan
  | some fe =>
    let tf ← p.totalFlux ip
    if tf.isNaN then .ok nan
    else do
      let e ← ip "nearest" p.rList fe rTotal
      .ok (F.sqrt (F.sq e + F.sq rTotalErr))

/-- petrofit/petrosian/core.py:846-849 `r_50`. -/
def r50 : Except PyErr (F K) := p.rHalfLight ip

/-- petrofit/petrosian/core.py:851-854 `r_50_err`. -/
def r50Err : Except PyErr (F K) := p.rHalfLightErr ip

/-- petrofit/petrosian/core.py:856-859 `fraction_flux_to_r`. -/
def fractionFluxToR (fraction : F K) : Except PyErr (F K) := (p.calcFractionToR ip fraction).map Prod.fst

/-- petrofit/petrosian/core.py:861-864 `fraction_flux_to_r_err`. -/
def fractionFluxToRErr (fraction : F K) : Except PyErr (F K) := (p.calcFractionToR ip fraction).map Prod.snd

/-- petrofit/petrosian/core.py:884-887 `c2080`. -/
def c2080 [HasLog10 K] : Except PyErr (F K) :=
  (p.concentrationIndex ip (fin (1 / 5)) (fin (4 / 5))).map fun t => t.2.2

/-- petrofit/petrosian/core.py:889-892 `c5090`. -/
def c5090 [HasLog10 K] : Except PyErr (F K) :=
  (p.concentrationIndex ip (fin (1 / 2)) (fin (9 / 10))).map fun t => t.2.2

/-- Attribute lookup of the float-valued names a `Petrosian` object has: the properties of petrofit/petrosian/core.py:687-892
(`verbose`, plotting constants and the arrays are not float-valued).  Any other name is an AttributeError. -/
def getattr [HasSqrt K] [HasLog10 K] (name : String) : Except PyErr (F K) :=
  if name = "epsilon" then .ok p.epsilon
  else if name = "eta" then .ok p.eta
  else if name = "epsilon_fraction" then .ok p.epsilonFraction
  else if name = "total_flux_fraction" then .ok p.totalFluxFraction
  else if name = "r_petrosian" then p.rPetrosian ip
  else if name = "r_petrosian_err" then p.rPetrosianErr ip
  else if name = "r_epsilon" then p.rEpsilon ip
  else if name = "r_total_flux" then p.rTotalFlux ip
  else if name = "r_total_flux_err" then p.rTotalFluxErr ip
  else if name = "total_flux" then p.totalFlux ip
  else if name = "total_flux_err" then p.totalFluxErr ip
  else if name = "half_flux" then p.halfFlux ip
  else if name = "r_half_light" then p.rHalfLight ip
  else if name = "r_half_light_err" then p.rHalfLightErr ip
  else if name = "r_50" then p.r50 ip
  else if name = "r_50_err" then p.r50Err ip
  else if name = "c2080" then p.c2080 ip
  else if name = "c5090" then p.c5090 ip
  else .error .attributeError

/-- petrofit/petrosian/core.py:819-832 `half_flux_err`: reads the attributes `r_half_flux_err` and `r_half_flux`. -/
def halfFluxErr [HasSqrt K] [HasLog10 K] : Except PyErr (F K) := do
  let rHalfErr ← p.getattr ip "r_half_flux_err"
  match p.fluxErr with
  | none => .ok nan
  | some fe =>
    let hf ← p.halfFlux ip
    if hf.isNaN then .ok nan
    else do
      let e ← ip "nearest" p.rList fe (← p.getattr ip "r_half_flux")
      .ok (F.sqrt (F.sq e + F.sq rHalfErr))

end Petrosian

end Verif

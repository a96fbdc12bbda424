import Verif.Model.Petrosian

/-!
# Arrays as mutable objects, and the Petrosian code over such a heap

The pure model passes arrays by value.  Here arrays live in a heap and variables hold references, so aliasing and in-place writes are
visible.  Every numpy expression that creates an array is an allocation when the code later writes into it or hands it on; unnamed
temporaries that are never written are values.
-/

set_option linter.unusedSectionVars false

namespace Verif

open F

/-- The heap of one-dimensional float arrays: addresses below `next` are allocated. -/
structure Heap (K : Type) where
  next : Nat
  mem : Nat → List (F K)

/-- A python computation: it may raise, and heap effects done before an exception stay. -/
def HM (K α : Type) := Heap K → Except PyErr α × Heap K

namespace HM
variable {K α β : Type}

instance : Monad (HM K) where
  pure a := fun h => (.ok a, h)
  bind m f := fun h => match m h with
    | (.ok a, h') => f a h'
    | (.error e, h') => (.error e, h')

/-- A computation without heap effects. -/
def lift (e : Except PyErr α) : HM K α := fun h => (e, h)

/-- A new array. -/
def alloc (l : List (F K)) : HM K Nat := fun h =>
  (.ok h.next, { next := h.next + 1, mem := fun i => if i = h.next then l else h.mem i })

/-- The contents of the array at `r`. -/
def read (r : Nat) : HM K (List (F K)) := fun h => (.ok (h.mem r), h)

/-- `np.array(x)` of an array: a copy. -/
def npArray (r : Nat) : HM K Nat := do alloc (← read r)

/-- `None if x is None else np.array(x)`. -/
def npArrayOpt : Option Nat → HM K (Option Nat)
  | none => pure none
  | some r => do return some (← npArray r)

/-- Overwrite the contents of the array at `r` in place. -/
def write (r : Nat) (l : List (F K)) : HM K Unit := fun h =>
  (.ok (), { h with mem := fun i => if i = r then l else h.mem i })

/-- `a[0] = v` in place. -/
def set0 (r : Nat) (v : F K) : HM K Unit := do
  let l ← lift (setItem0 (← read r) v)
  write r l

end HM

variable {K : Type} [Field K] [LinearOrder K]

open HM

/-- petrofit/petrosian/core.py:87-88: `np.zeros_like(l) if x is None else np.array(x)`. -/
def zerosOr (l : List (F K)) : Option Nat → HM K Nat
  | none => alloc (l.map fun _ => fin 0)
  | some e => npArray e

section profile
variable [HasSqrt K]

/-- petrofit/petrosian/core.py:24-124 `calculate_petrosian` over the heap: lines 55-56 and 87-88 copy the arguments; `I_at_r`
(lines 72-73) is a new zero array that is then written; the results are new arrays. -/
def calculatePetrosianH (area flux : Nat) (areaErr fluxErr : Option Nat) : HM K (Nat × Option Nat) := do
  let area ← npArray area
  let flux ← npArray flux
  let areaV ← read area
  let fluxV ← read flux
  let raw ← lift (petrosianRaw areaV fluxV)
  -- line 72: `I_at_r = np.zeros_like(area_diff)`, line 73: masked assignment into it
  let iAtR ← alloc ((npDiff areaV).map fun _ => fin 0)
  write iAtR (List.zipWith (fun df da => if F.lt (fin 0) da then df / da else fin 0) (npDiff fluxV) (npDiff areaV))
  let petro ← alloc (← lift (fancyIndex raw (uniqueInverse areaV)))
  if areaErr.isNone && fluxErr.isNone then return (petro, none)
  else
    let aE ← zerosOr areaV areaErr
    let fE ← zerosOr fluxV fluxErr
    let aEV ← read aE
    let fEV ← read fE
    if aEV.length ≠ areaV.length then lift (.error .assertionError)
    else if fEV.length ≠ fluxV.length then lift (.error .assertionError)
    else do
      let petroV ← read petro
      let err ← alloc (← lift (fancyIndex (petrosianErrRaw areaV fluxV petroV aEV fEV) (uniqueInverse areaV)))
      return (petro, some err)

end profile

variable (ip : InterpFam K)

/-- petrofit/utils.py:122-151 `get_interpolated_values` over the heap: with `kind=None` the very arguments are returned. -/
def getInterpolatedValuesH (x y : Nat) (num : Nat := 5000) (kind : Option String := some "cubic") : HM K (Nat × Nat) :=
  match kind with
  | none => pure (x, y)
  | some k => do
    let t ← lift (getInterpolatedValues ip (← read x) (← read y) num (some k))
    let xNew ← alloc t.1
    let yNew ← alloc t.2
    return (xNew, yNew)

/-- `idx = closest_value_index(v, y); r = np.nan if idx is None else x[idx]` over the heap (no writes). -/
def radiusAtH (v : F K) (xy : Nat × Nat) (growing : Bool) : HM K (F K) := do
  lift (radiusAt v (← read xy.1, ← read xy.2) growing)

/-- petrofit/petrosian/core.py:127-219 `calculate_petrosian_r` over the heap: lines 174-177 copy the arguments, lines 182, 183 and 200
write into the copies. -/
def calculatePetrosianRH (rList petro : Nat) (err : Option Nat) (eta : F K) (kind : Option String) (num : Nat) :
    HM K (F K × F K) := do
  let rList ← npArray rList
  let petro ← npArray petro
  let err ← npArrayOpt err
  set0 rList (fin 0)
  set0 petro (fin 1)
  let rPetro ← radiusAtH eta (← getInterpolatedValuesH ip rList petro num kind) false
  match err with
  | none => return (rPetro, nan)
  | some err =>
    if rPetro.isNaN then return (rPetro, nan)
    else do
      set0 err (fin 0)
      let up ← alloc (← lift (zipOp (· + ·) (← read petro) (← read err)))
      let rUp ← radiusAtH eta (← getInterpolatedValuesH ip rList up num kind) false
      let lo ← alloc (← lift (zipOp (· - ·) (← read petro) (← read err)))
      let rLo ← radiusAtH eta (← getInterpolatedValuesH ip rList lo num kind) false
      return (rPetro, (rUp - rLo) / fin 2)

/-- petrofit/petrosian/core.py:222-356 `fraction_to_r` over the heap: lines 282-287 copy the arguments; nothing is written. -/
def fractionToRH (fraction : F K) (rList fluxList : Nat) (rPetrosian : F K) (fluxErr : Option Nat) (rPetrosianErr : Option (F K))
    (epsilon epsilonFraction : F K) (kind : Option String) (num : Nat) : HM K (F K × F K) := do
  let rList ← npArray rList
  let fluxList ← npArray fluxList
  let fluxErr ← npArrayOpt fluxErr
  let rEps := rPetrosian * epsilon
  let hi ← lift (pyMax (← read rList))
  if F.lt hi rEps then return (nan, nan)
  else do
    let k := kind.getD "cubic"
    let epsilonFlux ← lift (ip k (← read rList) (← read fluxList) rEps)
    let q ← lift (pyDiv fraction epsilonFraction)
    let fractionalFlux := epsilonFlux * q
    let rFrac ← radiusAtH fractionalFlux (← getInterpolatedValuesH ip rList fluxList num kind) true
    match fluxErr with
    | none => return (rFrac, nan)
    | some fe =>
      if rFrac.isNaN then return (rFrac, nan)
      else do
        let rEpsErr := match rPetrosianErr with
          | none => fin 0
          | some e => if e.isNaN then fin 0 else e
        let lower ← alloc (← lift (zipOp (· - ·) (← read fluxList) (← read fe)))
        let upper ← alloc (← lift (zipOp (· + ·) (← read fluxList) (← read fe)))
        let fLo ← lift (ip k (← read rList) (← read lower) (rEps - rEpsErr))
        let fUp ← lift (ip k (← read rList) (← read upper) (rEps + rEpsErr))
        let fErr := (fUp - fLo) / fin 2
        let rUp ← radiusAtH (fractionalFlux + fErr) (← getInterpolatedValuesH ip rList lower) true
        let rLo ← radiusAtH (fractionalFlux - fErr) (← getInterpolatedValuesH ip rList upper) true
        return (rFrac, (rUp - rLo) / fin 2)

/-- petrofit/petrosian/core.py:359-461 `calculate_concentration_index` over the heap. -/
def calculateConcentrationIndexH [HasLog10 K] (fraction1 fraction2 : F K) (rList fluxList : Nat) (rPetrosian : F K)
    (fluxErr : Option Nat) (rPetrosianErr : Option (F K)) (epsilon epsilonFraction : F K)
    (kind : Option String) (num : Nat) : HM K (F K × F K × F K) := do
  let r1 ← fractionToRH ip fraction1 rList fluxList rPetrosian fluxErr rPetrosianErr epsilon epsilonFraction kind num
  let r2 ← fractionToRH ip fraction2 rList fluxList rPetrosian fluxErr rPetrosianErr epsilon epsilonFraction kind num
  if r1.1.isNaN || r2.1.isNaN then return (nan, nan, nan)
  else return (r1.1, r2.1, fin 5 * F.log10 (r2.1 / r1.1))

/-- petrofit/petrosian/core.py:464-562: a `Petrosian` object; array attributes are references. -/
structure PetrosianH (K : Type) where
  rList : Nat
  areaList : Nat
  fluxList : Nat
  areaErr : Option Nat
  fluxErr : Option Nat
  eta : F K
  epsilon : F K
  epsilonFraction : F K
  totalFluxFraction : F K
  interpKind : Option String
  interpNum : Nat
  petrosianList : Nat
  petrosianErr : Option Nat

namespace PetrosianH

/-- petrofit/petrosian/core.py:476-589 `__init__` over the heap: lines 541-546 copy every array argument. -/
def init [HasSqrt K] (rList areaList fluxList : Nat) (areaErr fluxErr : Option Nat)
    (eta epsilon epsilonFraction totalFluxFraction : F K) (interpKind : Option String) (interpNum : Nat) :
    HM K (PetrosianH K) := do
  let rList ← npArray rList
  let areaList ← npArray areaList
  let fluxList ← npArray fluxList
  let areaErr ← npArrayOpt areaErr
  let fluxErr ← npArrayOpt fluxErr
  let h ← (fun h => (.ok h, h) : HM K (Heap K))
  if ¬ 2 < (h.mem rList).length then lift (.error .assertionError)
  else if (h.mem rList).length ≠ (h.mem fluxList).length then lift (.error .assertionError)
  else if fluxErr.any (fun e => (h.mem e).length ≠ (h.mem fluxList).length) then lift (.error .assertionError)
  else if areaErr.any (fun e => (h.mem e).length ≠ (h.mem areaList).length) then lift (.error .assertionError)
  else do
    let (pl, pe) ← calculatePetrosianH areaList fluxList areaErr fluxErr
    return { rList, areaList, fluxList, areaErr, fluxErr, eta, epsilon, epsilonFraction, totalFluxFraction,
             interpKind, interpNum, petrosianList := pl, petrosianErr := pe }

variable (p : PetrosianH K)

/-- petrofit/petrosian/core.py:591-602 and 743-755. -/
def calcPetrosianR : HM K (F K × F K) :=
  calculatePetrosianRH ip p.rList p.petrosianList p.petrosianErr p.eta p.interpKind p.interpNum

/-- petrofit/petrosian/core.py:604-619: `r_petrosian` and `r_petrosian_err` are recomputed on every access. -/
def calcFractionToR (fraction : F K) : HM K (F K × F K) := do
  let rp ← p.calcPetrosianR ip
  let rpe ← p.calcPetrosianR ip
  fractionToRH ip fraction p.rList p.fluxList rp.1 p.fluxErr (some rpe.2) p.epsilon p.epsilonFraction p.interpKind p.interpNum

/-- petrofit/petrosian/core.py:621-660 `concentration_index`. -/
def concentrationIndex [HasLog10 K] (fraction1 fraction2 : F K) : HM K (F K × F K × F K) := do
  let rp ← p.calcPetrosianR ip
  let rpe ← p.calcPetrosianR ip
  calculateConcentrationIndexH ip fraction1 fraction2 p.rList p.fluxList rp.1 p.fluxErr (some rpe.2) p.epsilon
    p.epsilonFraction p.interpKind p.interpNum

/-- petrofit/petrosian/core.py:784-789 and 812-817. -/
def fluxAt (r : F K) : HM K (F K) := do
  let lo ← lift (pyMin (← read p.rList))
  let hi ← lift (pyMax (← read p.rList))
  if F.le lo r && F.le r hi then lift (interp1d ip p.interpKind (← read p.rList) (← read p.fluxList) r)
  else return nan

/-- petrofit/petrosian/core.py:791-805 `total_flux_err`. -/
def totalFluxErr [HasSqrt K] : HM K (F K) := do
  let rTotal ← p.calcFractionToR ip p.totalFluxFraction
  let rTotalErr ← p.calcFractionToR ip p.totalFluxFraction
  match p.fluxErr with
  | none => return nan
  | some fe =>
    let tr ← p.calcFractionToR ip p.totalFluxFraction
    let tf ← p.fluxAt ip tr.1
    if tf.isNaN then return nan
    else do
      let e ← lift (ip "nearest" (← read p.rList) (← read fe) rTotal.1)
      return F.sqrt (F.sq e + F.sq rTotalErr.2)

end PetrosianH

/-- The readable results of a `Petrosian` object. -/
inductive PQuery (K : Type)
  | rPetrosian | rPetrosianErr | rEpsilon | fraction (f : F K) | fractionErr (f : F K) | rTotalFlux | rTotalFluxErr
  | rHalfLight | rHalfLightErr | totalFlux | totalFluxErr | halfFlux | concentration (f1 f2 : F K)

/-- A read of a property or method (petrofit/petrosian/core.py:621-660, 743-892), as the list of numbers it returns. -/
def PetrosianH.ask [HasSqrt K] [HasLog10 K] (p : PetrosianH K) : PQuery K → HM K (List (F K))
  | .rPetrosian => do return [(← p.calcPetrosianR ip).1]
  | .rPetrosianErr => do return [(← p.calcPetrosianR ip).2]
  | .rEpsilon => do return [(← p.calcPetrosianR ip).1 * p.epsilon]
  | .fraction f => do return [(← p.calcFractionToR ip f).1]
  | .fractionErr f => do return [(← p.calcFractionToR ip f).2]
  | .rTotalFlux => do return [(← p.calcFractionToR ip p.totalFluxFraction).1]
  | .rTotalFluxErr => do return [(← p.calcFractionToR ip p.totalFluxFraction).2]
  | .rHalfLight => do return [(← p.calcFractionToR ip (fin (1 / 2))).1]
  | .rHalfLightErr => do return [(← p.calcFractionToR ip (fin (1 / 2))).2]
  | .totalFlux => do return [← p.fluxAt ip (← p.calcFractionToR ip p.totalFluxFraction).1]
  | .totalFluxErr => do return [← p.totalFluxErr ip]
  | .halfFlux => do return [← p.fluxAt ip (← p.calcFractionToR ip (fin (1 / 2))).1]
  | .concentration f1 f2 => do
    let t ← p.concentrationIndex ip f1 f2
    return [t.1, t.2.1, t.2.2]

/-- The same read on the pure object. -/
def Petrosian.ask [HasSqrt K] [HasLog10 K] (p : Petrosian K) : PQuery K → Except PyErr (List (F K))
  | .rPetrosian => (p.rPetrosian ip).map ([·])
  | .rPetrosianErr => (p.rPetrosianErr ip).map ([·])
  | .rEpsilon => (p.rEpsilon ip).map ([·])
  | .fraction f => (p.fractionFluxToR ip f).map ([·])
  | .fractionErr f => (p.fractionFluxToRErr ip f).map ([·])
  | .rTotalFlux => (p.rTotalFlux ip).map ([·])
  | .rTotalFluxErr => (p.rTotalFluxErr ip).map ([·])
  | .rHalfLight => (p.rHalfLight ip).map ([·])
  | .rHalfLightErr => (p.rHalfLightErr ip).map ([·])
  | .totalFlux => (p.totalFlux ip).map ([·])
  | .totalFluxErr => (p.totalFluxErr ip).map ([·])
  | .halfFlux => (p.halfFlux ip).map ([·])
  | .concentration f1 f2 => (p.concentrationIndex ip f1 f2).map fun t => [t.1, t.2.1, t.2.2]

/-- What can happen to a constructed `Petrosian` object: assignments to its parameters (setters of petrofit/petrosian/core.py:687-741 and
the plain attributes `interp_kind`, `interp_num`), reads, and writes of the caller into the caller's own arrays. -/
inductive PetrosianOp (K : Type)
  | setEta (v : F K) | setEpsilon (v : F K) | setEpsilonFraction (v : F K) | setTotalFluxFraction (v : F K)
  | setKind (v : Option String) | setNum (v : Nat)
  | ask (q : PQuery K)
  | callerWrite (r : Nat) (l : List (F K))
  | callerAlloc (l : List (F K))

/-- One operation: new object state, new heap, and the answer of a read. -/
def PetrosianH.step [HasSqrt K] [HasLog10 K] (p : PetrosianH K) (h : Heap K) :
    PetrosianOp K → PetrosianH K × Heap K × Option (Except PyErr (List (F K)))
  | .setEta v => ({ p with eta := v }, h, none)
  | .setEpsilon v => ({ p with epsilon := v }, h, none)
  | .setEpsilonFraction v => ({ p with epsilonFraction := v }, h, none)
  | .setTotalFluxFraction v => ({ p with totalFluxFraction := v }, h, none)
  | .setKind v => ({ p with interpKind := v }, h, none)
  | .setNum v => ({ p with interpNum := v }, h, none)
  | .ask q => let t := p.ask ip q h; (p, t.2, some t.1)
  | .callerWrite r l => (p, (write r l h).2, none)
  | .callerAlloc l => (p, (alloc l h).2, none)

/-- A history: the answers of all reads in order, with the final state. -/
def PetrosianH.run [HasSqrt K] [HasLog10 K] (p : PetrosianH K) (h : Heap K) :
    List (PetrosianOp K) → PetrosianH K × Heap K × List (Option (Except PyErr (List (F K))))
  | [] => (p, h, [])
  | op :: ops =>
    let s := p.step ip h op
    let t := PetrosianH.run s.1 s.2.1 ops
    (t.1, t.2.1, s.2.2 :: t.2.2)

end Verif

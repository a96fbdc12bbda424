import Verif.Model.Heap

/-!
# Specification of "the current parameter values" after a history
-/

namespace Verif.Spec

open F

variable {K α : Type}

/-- The last value the operations assign (as selected by `sel`), or the initial value. -/
def lastOr {Op : Type} (sel : Op → Option α) (ops : List Op) (init : α) : α := ((ops.filterMap sel).getLast?).getD init

/-- Values assigned to each parameter. -/
def etaOf : PetrosianOp K → Option (F K) | .setEta v => some v | _ => none
def epsilonOf : PetrosianOp K → Option (F K) | .setEpsilon v => some v | _ => none
def epsilonFractionOf : PetrosianOp K → Option (F K) | .setEpsilonFraction v => some v | _ => none
def totalFluxFractionOf : PetrosianOp K → Option (F K) | .setTotalFluxFraction v => some v | _ => none
def kindOf : PetrosianOp K → Option (Option String) | .setKind v => some v | _ => none
def numOf : PetrosianOp K → Option Nat | .setNum v => some v | _ => none

/-- Contents the caller writes into the array `r`. -/
def writeOf (r : Nat) : PetrosianOp K → Option (List (F K))
  | .callerWrite r' l => if r' = r then some l else none
  | _ => none

/-- The array addresses a `Petrosian` object holds. -/
def refs (p : PetrosianH K) : List Nat :=
  [p.rList, p.areaList, p.fluxList, p.petrosianList] ++ p.areaErr.toList ++ p.fluxErr.toList ++ p.petrosianErr.toList

/-- The caller never writes through the object's own array attributes (`p.r_list[0] = ...`). -/
def CallerOnly (p : PetrosianH K) (ops : List (PetrosianOp K)) : Prop := ∀ r l, .callerWrite r l ∈ ops → r ∉ refs p

end Verif.Spec

import Verif.Model.Wrapper

/-!
# Histories of calls, and the expected bounds and parameters
-/

namespace Verif.Spec

/-- What a caller can do with dictionaries: call the two functions, create a dictionary, or replace the contents of a dictionary they
hold a reference to (which covers item assignment, deletion, `clear`, `update`, ...). -/
inductive DictOp
  | sersic (override : Option Nat)
  | gen (override : Option Nat)
  | new (d : Dict Bound)
  | write (a : Nat) (d : Dict Bound)

/-- The caller's view: memory and the addresses the caller has references to. -/
structure DictState where
  heap : DictHeap
  refs : List Nat

/-- One step; an argument or a target to which the caller has no reference cannot occur, such a step does nothing. -/
noncomputable def DictState.step (s : DictState) : DictOp → DictState
  | .sersic o =>
    if ∀ a ∈ o, a ∈ s.refs then
      let r := getDefaultSersicBounds s.heap o
      ⟨r.2, r.1 :: s.refs⟩
    else s
  | .gen o =>
    if ∀ a ∈ o, a ∈ s.refs then
      let r := getDefaultGenSersicBounds s.heap o
      ⟨r.2, r.1 :: s.refs⟩
    else s
  | .new d => ⟨s.heap ++ [d], s.heap.length :: s.refs⟩
  | .write a d => if a ∈ s.refs then ⟨List.set s.heap a d, s.refs⟩ else s

/-- A history, from the start of the program. -/
noncomputable def DictState.run (ops : List DictOp) : DictState := ops.foldl DictState.step ⟨DictHeap.start, []⟩

/-- The documented default bounds of a Sersic profile. -/
noncomputable def defaultBound (k : String) : Option Bound :=
  if k = "amplitude" then some (some 0, none)
  else if k = "r_eff" then some (some 0.001, none)
  else if k = "n" then some (some 0.1, some 10)
  else if k = "ellip" then some (some 0, some 0.99)
  else if k = "theta" then some (some (-(2 * Real.pi)), some (2 * Real.pi))
  else none

/-- The documented default bounds of a generalised Sersic profile. -/
noncomputable def defaultGenBound (k : String) : Option Bound :=
  if k = "c_0" then some (some 0, some 2) else defaultBound k

/-- Changes of parameters: on the wrapper or, through the caller's own reference, on the model that was wrapped. -/
inductive ParamOp (K : Type)
  | onWrapper (nm : String) (f : ParamState K → ParamState K)
  | onSub (nm : String) (f : ParamState K → ParamState K)

variable {K : Type}

/-- One step of a history of parameter changes. -/
def stepParam (w : Wrapped K) : ParamOp K → Wrapped K
  | .onWrapper nm f => ⟨w.sub, w.own.modify nm f⟩
  | .onSub nm f => ⟨w.sub.modify nm f, w.own⟩

/-- What the changes on the wrapper make of the parameter `nm`. -/
def expected (nm : String) : ParamState K → List (ParamOp K) → ParamState K
  | s, [] => s
  | s, .onWrapper nm' f :: t => expected nm (if nm' = nm then f s else s) t
  | s, .onSub _ _ :: t => expected nm s t

end Verif.Spec

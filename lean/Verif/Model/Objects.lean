import Verif.Model.Correction
import Verif.Model.Heap

/-!
# Several `Petrosian` objects and `PetrosianCorrection.correct`

Objects are mutable and live in a store; a reference to an object is its position.  `copy(p)` is python's shallow copy: a new object whose
array attributes are the same arrays.
-/

set_option linter.unusedSectionVars false

namespace Verif

open F HM

variable {K : Type} [Field K] [LinearOrder K] [HasSqrt K] [HasLog10 K]

/-- The store: arrays and objects. -/
structure World (K : Type) where
  heap : Heap K
  objs : List (PetrosianH K)

variable (ip : InterpFam K)

/-- petrofit/petrosian/correction.py:380-391 `_get_xyz_from_p` over the heap. -/
def getXYZH (p : PetrosianH K) : HM K (F K × F K × F K) := do
  let p02 ← calculatePetrosianRH ip p.rList p.petrosianList none (fin (1 / 5)) (some "cubic") 5000
  let _ ← calculatePetrosianRH ip p.rList p.petrosianList none (fin (3 / 10)) (some "cubic") 5000
  let _ ← calculatePetrosianRH ip p.rList p.petrosianList none (fin (2 / 5)) (some "cubic") 5000
  let _ ← calculatePetrosianRH ip p.rList p.petrosianList none (fin (1 / 2)) (some "cubic") 5000
  let y0 ← p.calcFractionToR ip (fin (1 / 2))
  let z0 ← p.concentrationIndex ip (fin (1 / 5)) (fin (4 / 5))
  return (p02.1, y0.1, z0.2.2)

/-- petrofit/petrosian/correction.py:475-504 `estimate_epsilon` over the heap (the grid is only read). -/
def estimateEpsilonH (c : Correction K) (p : PetrosianH K) : HM K (F K) := do
  let t ← getXYZH ip p
  let row ← lift (c.closestRow t.1 t.2.1 t.2.2)
  lift (Correction.epsilonFromRow c.grid.names row p.epsilonFraction p.eta)

/-- petrofit/petrosian/correction.py:461-465 `correct(p)` for the object at position `k`: `copy(p)` appends a new object, `p` is read,
and the `epsilon` of the new object is assigned.  When `estimate_epsilon` raises, the copy is unreachable and dropped. -/
def World.correct (c : Correction K) (k : Nat) (w : World K) : Except PyErr Nat × World K :=
  match w.objs[k]? with
  | none => (.error .indexError, w)
  | some p =>
    let new := w.objs.length
    let objs := w.objs ++ [p]
    match estimateEpsilonH ip c p w.heap with
    | (.error e, h) => (.error e, { heap := h, objs := w.objs })
    | (.ok e, h) => (.ok new, { heap := h, objs := objs.modify new fun q => { q with epsilon := e } })

/-- What can happen: an operation on the object at position `k` (or, for caller writes, on no object), or a call `c.correct(p_k)`. -/
inductive WorldOp (K : Type)
  | on (k : Nat) (op : PetrosianOp K)
  | correct (c : Correction K) (k : Nat)

/-- One step with its answer: the numbers of a read, or the reference returned by `correct`. -/
def World.step (w : World K) : WorldOp K → World K × Option (Except PyErr (List (F K) ⊕ Nat))
  | .on k op => match w.objs[k]? with
    | none => (w, none)
    | some p =>
      let s := p.step ip w.heap op
      ({ heap := s.2.1, objs := w.objs.modify k fun _ => s.1 }, s.2.2.map (Except.map Sum.inl))
  | .correct c k => let t := World.correct ip c k w; (t.2, some (t.1.map Sum.inr))

/-- A history and its answers. -/
def World.run (w : World K) : List (WorldOp K) → World K × List (Option (Except PyErr (List (F K) ⊕ Nat)))
  | [] => (w, [])
  | op :: ops =>
    let s := w.step ip op
    let t := World.run s.1 ops
    (t.1, s.2 :: t.2)

end Verif

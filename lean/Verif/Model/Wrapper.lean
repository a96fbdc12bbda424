import Verif.Model.PSFModel
import Mathlib.Data.List.Nodup
import Mathlib.Analysis.SpecialFunctions.Trigonometric.Basic

/-!
# petrofit/modeling/models.py: default bounds and the parameters of `PSFConvolvedModel2D`
-/

set_option linter.unusedSectionVars false

namespace Verif

/-! ### Python dictionaries -/

/-- A python dictionary in insertion order. -/
abbrev Dict (V : Type) := List (String × V)

namespace Dict
variable {V : Type}

/-- `d.get(k)`. -/
def get? (d : Dict V) (k : String) : Option V := (d.find? fun e => e.1 = k).map (·.2)

/-- `d[k] = v`: replaces the value of an existing key in place, appends a new key. -/
def set : Dict V → String → V → Dict V
  | [], k, v => [(k, v)]
  | e :: t, k, v => if e.1 = k then (k, v) :: t else e :: set t k v

/-- `d.update(o)`. -/
def update (d o : Dict V) : Dict V := o.foldl (fun d e => set d e.1 e.2) d

/-- `del d[k]`. -/
def del (d : Dict V) (k : String) : Dict V := d.filter fun e => e.1 ≠ k

end Dict

/-! ### Default bounds -/

/-- A pair of bounds; `none` is python's `None`. -/
abbrev Bound := Option ℝ × Option ℝ

/-- The memory: all dictionaries ever created, by address.  Address 0 is the dictionary which is the default value of the argument
`override` of `get_default_sersic_bounds` (petrofit/modeling/models.py:73), address 1 that of `get_default_gen_sersic_bounds`
(line 86); python creates both once, when the functions are defined. -/
abbrev DictHeap := List (Dict Bound)

/-- The memory after the definitions of the two functions. -/
def DictHeap.start : DictHeap := [[], []]

/-- The contents at an address. -/
def DictHeap.at (h : DictHeap) (a : Nat) : Dict Bound := h.getD a []

/-- petrofit/modeling/models.py:73-83 `get_default_sersic_bounds(override={})`: the address of the result and the memory after the
call.  `override` is the address of the dictionary passed, `none` when the argument is left out. -/
noncomputable def getDefaultSersicBounds (h : DictHeap) (override : Option Nat) : Nat × DictHeap :=
  let bounds : Dict Bound := [
    ("amplitude", (some 0, none)),
    ("r_eff", (some (1 / 1000), none)),
    ("n", (some (1 / 10), some 10)),
    ("ellip", (some 0, some (99 / 100))),
    ("theta", (some (-2 * Real.pi), some (2 * Real.pi)))]
  (h.length, h ++ [Dict.update bounds (h.at (override.getD 0))])

/-- petrofit/modeling/models.py:86-94 `get_default_gen_sersic_bounds(override={})`. -/
noncomputable def getDefaultGenSersicBounds (h : DictHeap) (override : Option Nat) : Nat × DictHeap :=
  let (a, h) := getDefaultSersicBounds h none
  let h : DictHeap := List.set h a (Dict.set (DictHeap.at h a) "c_0" (some 0, some 2))
  let h : DictHeap := List.set h a (Dict.update (DictHeap.at h a) (DictHeap.at h (override.getD 1)))
  (a, h)

/-! ### Parameters of a wrapped model -/

variable {K : Type}

/-- One astropy `Parameter` of a model: value, `fixed` flag and bounds (`tied` is not modelled). -/
structure ParamState (K : Type) where
  value : K
  fixed : Bool
  bounds : Option K × Option K
deriving DecidableEq

/-- The parameters of an astropy model, in order. -/
abbrev Params (K : Type) := List (String × ParamState K)

/-- Changing the parameter `nm` (`setattr(model, nm, v)`, `model.fixed[nm] = b`, `model.bounds[nm] = b`). -/
def Params.modify (ps : Params K) (nm : String) (f : ParamState K → ParamState K) : Params K :=
  ps.map fun p => if p.1 = nm then (p.1, f p.2) else p

/-- `getattr(model, nm)`. -/
def Params.get? (ps : Params K) (nm : String) : Option (ParamState K) := (ps.find? fun p => p.1 = nm).map (·.2)

/-- `model.fixed` as a dictionary. -/
def Params.fixed (ps : Params K) : Dict Bool := ps.map fun p => (p.1, p.2.fixed)

/-- `model.bounds` as a dictionary. -/
def Params.bounds (ps : Params K) : Dict (Option K × Option K) := ps.map fun p => (p.1, p.2.bounds)

/-- `model.fixed.update(d)` (astropy's `_ConstraintsDict` writes through to the parameters). -/
def Params.updateFixed (ps : Params K) (d : Dict Bool) : Params K :=
  d.foldl (fun ps e => ps.modify e.1 fun s => { s with fixed := e.2 }) ps

/-- `model.bounds.update(d)`. -/
def Params.updateBounds (ps : Params K) (d : Dict (Option K × Option K)) : Params K :=
  d.foldl (fun ps e => ps.modify e.1 fun s => { s with bounds := e.2 }) ps

/-- The wrapped model (kept by reference, petrofit/modeling/models.py:182) and the wrapper's own parameters. -/
structure Wrapped (K : Type) where
  sub : Params K
  own : Params K

/-- petrofit/modeling/models.py:199-222 `_load_parameters`: a fresh parameter per parameter of the sub-model, with its current value
as default, then `psf_pa` with default 0.  A fresh `Parameter` is free and unbounded. -/
def loadParameters [Zero K] (m : Params K) : Params K :=
  m.map (fun p => (p.1, ⟨p.2.value, false, (none, none)⟩)) ++ [("psf_pa", ⟨0, false, (none, none)⟩)]

/-- petrofit/modeling/models.py:166-197: the constructor (parameters only).  `fixed` and `bounds` are the keyword arguments of these
names; astropy's constructor applies them to the fresh parameters, and lines 194-197 copy the sub-model's dictionaries when a keyword
is not given. -/
def wrap [Zero K] (m : Params K) (fixed : Option (Dict Bool)) (bounds : Option (Dict (Option K × Option K))) : Wrapped K :=
  let own := loadParameters m
  let own := match fixed with
    | some d => own.updateFixed d
    | none => own
  let own := match bounds with
    | some d => own.updateBounds d
    | none => own
  let own := match fixed with
    | some _ => own
    | none => own.updateFixed m.fixed
  let own := match bounds with
    | some _ => own
    | none => own.updateBounds m.bounds
  ⟨m, own⟩

/-- petrofit/modeling/models.py:224-241: the property `model`, a copy of the sub-model with the wrapper's values, flags and bounds.
`none` is the AttributeError for a name the wrapper does not have. -/
def Wrapped.model (w : Wrapped K) : Option (Params K) := do
  let m ← (w.sub.map (·.1)).foldlM (fun m nm => do
    let s ← w.own.get? nm
    pure (Params.modify m nm fun t => { t with value := s.value })) w.sub
  let fixed := w.own.fixed.del "psf_pa"
  let bounds := w.own.bounds.del "psf_pa"
  let m := m.updateFixed fixed
  let m := m.updateBounds bounds
  pure m

end Verif

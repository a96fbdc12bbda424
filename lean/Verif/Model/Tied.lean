import Verif.Model.Wrapper

/-!
# petrofit/modeling/models.py: tied parameters of `PSFConvolvedModel2D`

`Verif.Model.Wrapper` leaves out astropy's third kind of constraint: `model.tied[name]` is a function of the model that gives the value of the
parameter.  Bounds are left out here; they are in `Verif.Model.Wrapper`.
-/

namespace Verif

variable {K : Type}

/-- A tie: the value of a parameter from the values of the parameters by name (python: a function of the model, which reads attributes). -/
abbrev Tie (K : Type) := (String → Option K) → K

/-- A parameter: value, `fixed` flag and tie (`none` is `False`, the default of astropy). -/
structure TState (K : Type) where
  value : K
  fixed : Bool
  tie : Option (Tie K)

/-- The parameters of an astropy model, in order. -/
abbrev TParams (K : Type) := List (String × TState K)

namespace TParams

/-- `getattr(model, nm).value`. -/
def get (ps : TParams K) (nm : String) : Option K := (ps.find? fun p => p.1 = nm).map (·.2.value)

/-- `setattr(model, nm, v)`. -/
def setValue (ps : TParams K) (nm : String) (v : K) : TParams K := ps.map fun p => if p.1 = nm then (p.1, { p.2 with value := v }) else p

/-- astropy `model_to_fit_params`: the parameters that are handed to the optimizer, those neither fixed nor tied. -/
def isFree (s : TState K) : Bool := !s.fixed && s.tie.isNone

/-- The names of the parameters that are handed to the optimizer. -/
def freeNames (ps : TParams K) : List String := (ps.filter fun p => isFree p.2).map (·.1)

/-- astropy `fitter_to_model_params`, first part: the values of the optimizer (inside the bounds) go to the free parameters, in order. -/
def assignFree : TParams K → List K → TParams K
  | [], _ => []
  | p :: t, v => if isFree p.2 then
      match v with
      | [] => p :: assignFree t []
      | x :: v => (p.1, { p.2 with value := x }) :: assignFree t v
    else p :: assignFree t v

/-- astropy `fitter_to_model_params`, second part: every tied parameter in turn gets the value of its tie at the current model. -/
def applyTies (ps : TParams K) : TParams K :=
  ps.foldl (fun m p => match p.2.tie with
    | some t => m.setValue p.1 (t m.get)
    | none => m) ps

/-- astropy `fitter_to_model_params`: the model for a vector of the optimizer, in particular the fitted model. -/
def fitted (ps : TParams K) (v : List K) : TParams K := (ps.assignFree v).applyTies

/-- `model.fixed.update(d)`. -/
def updateFixed (ps : TParams K) (d : Dict Bool) : TParams K := ps.map fun p => (p.1, { p.2 with fixed := (Dict.get? d p.1).getD p.2.fixed })

end TParams

/-- The wrapped model and the parameters of the wrapper. -/
structure TWrapped (K : Type) where
  sub : TParams K
  own : TParams K

/-- petrofit/modeling/models.py:166-222: the constructor: fresh parameters with the values of the wrapped model and `psf_pa`; the keyword
`tied` is applied by astropy's constructor; lines 194-197 copy `fixed` (and `bounds`) of the wrapped model, but not `tied`. -/
def wrapTied [Zero K] (m : TParams K) (fixed : Option (Dict Bool)) (tied : Option (Dict (Tie K))) : TWrapped K :=
  let own : TParams K := m.map (fun p => (p.1, ⟨p.2.value, false, none⟩)) ++ [("psf_pa", ⟨0, false, none⟩)]
  let own : TParams K := match tied with
    | some d => own.map fun p => (p.1, { p.2 with tie := Dict.get? d p.1 })
    | none => own
  let own : TParams K := match fixed with
    | some d => TParams.updateFixed own d
    | none => TParams.updateFixed own (m.map fun p => (p.1, p.2.fixed))
  ⟨m, own⟩

/-- petrofit/modeling/models.py:224-241: the property `model`: a copy of the wrapped model, ties included, with the values and `fixed` flags of
the wrapper. -/
def TWrapped.model (w : TWrapped K) : TParams K :=
  let m : TParams K := w.sub.map fun p => (p.1, { p.2 with value := (w.own.get p.1).getD p.2.value })
  m.updateFixed ((w.own.map fun p => (p.1, p.2.fixed)).filter fun p => p.1 ≠ "psf_pa")

/-- Fitting a wrapper: astropy works on the parameters of the wrapper. -/
def TWrapped.fitted (w : TWrapped K) (v : List K) : TWrapped K := ⟨w.sub, w.own.fitted v⟩

end Verif

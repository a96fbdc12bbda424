import Verif.Model.Fitting

/-!
# petrofit/modeling/fitting.py: `fit_model` and `fit_background` with the fitter objects

`Verif.Model.Fitting` has the data and the fitted model; here is also which object is asked to fit, with which options, and which object is
returned.  What an instance does when it is called is a parameter.
-/

namespace Verif

/-- The fitter classes of astropy; line 111 of fitting.py distinguishes the first three. -/
inductive FitterClass
  | trf | levMar | lm | linear | other (name : String)
  deriving DecidableEq

/-- The options that are passed to the call of a fitter: `maxiter`, `epsilon`, `acc` and `estimate_jacobian`. -/
structure FitOptions (K : Type) where
  maxiter : Nat
  epsilon : K
  acc : K
  estimateJacobian : Bool

/-- An instance of a fitter class: `calc_uncertainties` of its constructor, and `fit_info`, which a call sets. -/
structure FitterObj (I : Type) where
  cls : FitterClass
  calcUncertainties : Bool
  fitInfo : Option I

/-- A python object that is a fitter class or an instance of one. -/
inductive FitterRef (I : Type)
  | cls (c : FitterClass)
  | obj (o : FitterObj I)

/-- `fitter.fit_info`: the constructors of astropy's fitters set this attribute, so the classes do not have it (AttributeError). -/
def FitterRef.fitInfo {I : Type} : FitterRef I → Except PyErr (Option I)
  | .cls _ => .error .attributeError
  | .obj o => .ok o.fitInfo

/-- Calling an instance with options (if any), a model and data: a new fitted model and the information on the fit. -/
abbrev FitCall (K M I : Type) := FitterObj I → Option (FitOptions K) → M → FitData K → Except PyErr (M × I)

section
variable {K M I : Type} [Field K] [LinearOrder K]

/-- petrofit/modeling/fitting.py:31-126 `fit_model`: line 109 makes the instance, lines 111-124 call it, and line 126 returns `fitter`,
which is the class. -/
def fitModelObjects (call : FitCall K M I) (image : Img (F K)) (mask : Nat → Nat → Bool) (model : M) (weights : Option (Img (F K)))
    (fitter : FitterClass) (calcUncertainties : Bool) (options : FitOptions K) : Except PyErr (M × FitterRef I) := do
  let d ← fitData image mask weights
  let inst : FitterObj I := ⟨fitter, calcUncertainties, none⟩
  let r ← if fitter = .trf ∨ fitter = .levMar ∨ fitter = .lm then call inst (some options) model d else call inst none model d
  .ok (r.1, .cls fitter)

/-- petrofit/modeling/fitting.py:248-292 `fit_background`: no weights, and the default options of `fit_model` (lines 36-40). -/
def fitBackgroundObjects (call : FitCall K M I) (clip : Img (F K) → K → Nat → Nat → Bool) (image : Img (F K)) (model : M) (sigma : Option K)
    (fitter : FitterClass) (calcUncertainties : Bool) (defaults : FitOptions K) : Except PyErr (M × FitterRef I) :=
  match sigma with
  | none => fitModelObjects call image (fun _ _ => false) model none fitter calcUncertainties defaults
  | some s => fitModelObjects call image (clip image s) model none fitter calcUncertainties defaults

end
end Verif

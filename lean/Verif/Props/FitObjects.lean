import Verif.Model.FitObjects
import Mathlib.Algebra.Order.Field.Rat

/-!
# C176: the fitter that `fit_model` returns, and the options it passes
-/

set_option linter.unusedSectionVars false

namespace Verif.Spec

open Verif

/-- The fitter classes whose call takes `maxiter`, `epsilon`, `acc` and `estimate_jacobian`, among those that petrofit documents
(fitting.py:59-60), and `LMLSQFitter`. -/
def Iterative (c : FitterClass) : Prop := c = .trf ∨ c = .levMar ∨ c = .lm

/-- What one call of the instance does with the pixels of the image: the promise of `fit_model`. -/
def FitsWith {K M I : Type} [Field K] [LinearOrder K] (call : FitCall K M I) (image : Img (F K)) (mask : Nat → Nat → Bool) (model : M)
    (weights : Option (Img (F K))) (o : FitterObj I) (options : Option (FitOptions K)) (fitted : M) (info : I) : Prop :=
  ∃ d, fitData image mask weights = .ok d ∧ call o options model d = .ok (fitted, info)

end Verif.Spec

namespace Verif.Props

open Verif F Spec

section
variable {K M I : Type} [Field K] [LinearOrder K] (call : FitCall K M I) (image : Img (F K)) (mask : Nat → Nat → Bool) (model : M)
  (weights : Option (Img (F K))) (cu : Bool) (options : FitOptions K)

/-- **C176, the fitted model.** The first return value is what `fit_model` of C62 and of the theorems on fits gives, for the fitter that calls a fresh
instance of the class. -/
theorem C176_model (c : FitterClass) :
    (fitModelObjects call image mask model weights c cu options).map Prod.fst =
      fitModel (fun m d => (call ⟨c, cu, none⟩ (if c = .trf ∨ c = .levMar ∨ c = .lm then some options else none) m d).map Prod.fst) image mask model weights := by
  unfold fitModelObjects fitModel
  cases fitData image mask weights with
  | error e => rfl
  | ok d =>
    simp only [Bind.bind, Except.bind]
    by_cases hc : c = .trf ∨ c = .levMar ∨ c = .lm
    · rw [if_pos hc, if_pos hc]
      cases call ⟨c, cu, none⟩ (some options) model d <;> rfl
    · rw [if_neg hc, if_neg hc]
      cases call ⟨c, cu, none⟩ none model d <;> rfl

/-- **C176, options.** `calc_uncertainties` reaches every fitter, and the other options reach the iterative fitters: a fit that succeeds is
a call of a fresh instance with these options on the pixels of the image. -/
theorem C176_options {c : FitterClass} (hc : Iterative c) {fitted : M} {ref : FitterRef I}
    (h : fitModelObjects call image mask model weights c cu options = .ok (fitted, ref)) :
    ∃ info, FitsWith call image mask model weights ⟨c, cu, none⟩ (some options) fitted info := by
  unfold fitModelObjects at h
  cases hd : fitData image mask weights with
  | error e =>
    rw [hd] at h
    cases h
  | ok d =>
    rw [hd] at h
    simp only [Bind.bind, Except.bind] at h
    rw [if_pos (show c = .trf ∨ c = .levMar ∨ c = .lm from hc)] at h
    cases hr : call ⟨c, cu, none⟩ (some options) model d with
    | error e =>
      rw [hr] at h
      cases h
    | ok r =>
      rw [hr] at h
      cases h
      exact ⟨r.2, d, hd, hr⟩

/-- **C176, other fitters.** They are called without options: two calls of `fit_model` that differ in `maxiter`, `epsilon`, `acc` or `estimate_jacobian` give
the same result. -/
theorem C176_options_ignored {c : FitterClass} (hc : ¬ Iterative c) (options' : FitOptions K) :
    fitModelObjects call image mask model weights c cu options = fitModelObjects call image mask model weights c cu options' := by
  have hc' : ¬ (c = .trf ∨ c = .levMar ∨ c = .lm) := hc
  unfold fitModelObjects
  simp only [if_neg hc']

/-- **C176, the returned fitter: violated.** `fit_model` returns the class it was given and not the instance that did the fit, so `fit_info` of the returned
object is an AttributeError after every fit, with and without `calc_uncertainties`. -/
theorem C176_fitter_violated {c : FitterClass} {fitted : M} {ref : FitterRef I}
    (h : fitModelObjects call image mask model weights c cu options = .ok (fitted, ref)) :
    ref = .cls c ∧ ref.fitInfo = .error .attributeError := by
  unfold fitModelObjects at h
  cases hd : fitData image mask weights with
  | error e =>
    rw [hd] at h
    cases h
  | ok d =>
    rw [hd] at h
    simp only [Bind.bind, Except.bind] at h
    split at h <;> split at h <;> cases h
    · exact ⟨rfl, rfl⟩
    · exact ⟨rfl, rfl⟩

/-- **C176, background fits.** `fit_background` returns the class as well, and its model is that of `fitBackground`. -/
theorem C176_background (clip : Img (F K) → K → Nat → Nat → Bool) (sigma : Option K) (c : FitterClass) :
    ((fitBackgroundObjects call clip image model sigma c cu options).map Prod.fst =
      fitBackground clip (fun m d => (call ⟨c, cu, none⟩ (if c = .trf ∨ c = .levMar ∨ c = .lm then some options else none) m d).map Prod.fst) image model sigma) ∧
    ∀ fitted ref, fitBackgroundObjects call clip image model sigma c cu options = .ok (fitted, ref) → ref.fitInfo = .error .attributeError := by
  cases sigma with
  | none => exact ⟨C176_model _ _ _ _ _ _ _ c, fun fitted ref h => (C176_fitter_violated _ _ _ _ _ _ _ h).2⟩
  | some s => exact ⟨C176_model _ _ _ _ _ _ _ c, fun fitted ref h => (C176_fitter_violated _ _ _ _ _ _ _ h).2⟩

end

/-! ### Examples -/

/-- A fitter that sets the model to the first value, and reports the number of iterations it was allowed. -/
def firstValueCall : FitCall ℚ (F ℚ) (Option Nat) := fun _ o _ d => .ok (d.z.getD 0 nan, o.map FitOptions.maxiter)

/-- A fit of one pixel with covariances: the model is fitted, the information is not available. -/
example : ∃ ref, fitModelObjects firstValueCall (Img.ofRows nan [[fin 5]]) (fun _ _ => false) (fin 0) none .trf true ⟨5000, 1, 1, false⟩ = .ok (fin 5, ref) ∧
    ref.fitInfo = .error .attributeError ∧ firstValueCall ⟨.trf, true, none⟩ (some ⟨5000, 1, 1, false⟩) (fin 0) ⟨[0], [0], [fin 5], [false], none⟩ = .ok (fin 5, some 5000) := by
  have h : ∀ ref, fitModelObjects firstValueCall (Img.ofRows nan [[fin 5]]) (fun _ _ => false) (fin 0) none .trf true ⟨5000, 1, 1, false⟩ = .ok (fin 5, ref) →
      ref.fitInfo = .error .attributeError := fun ref h => (C176_fitter_violated _ _ _ _ _ _ _ h).2
  exact ⟨.cls .trf, rfl, rfl, rfl⟩

/-- `maxiter` does not reach `DogBoxLSQFitter`, whose call would take it. -/
example (call : FitCall ℚ (F ℚ) (Option Nat)) (image : Img (F ℚ)) :
    fitModelObjects call image (fun _ _ => false) (fin 0) none (.other "DogBoxLSQFitter") false ⟨1, 1, 1, false⟩ =
      fitModelObjects call image (fun _ _ => false) (fin 0) none (.other "DogBoxLSQFitter") false ⟨5000, 1, 1, false⟩ :=
  C176_options_ignored _ _ _ _ _ _ _ (by unfold Iterative; simp) _

end Verif.Props

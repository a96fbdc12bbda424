import Verif.Model.Fitting
import Verif.Model.Simulation

/-!
# What a best fit is, and the parameters of a Sersic model
-/

namespace Verif.Spec

open Verif

/-- The number in an array element (0 for NaN and infinities, which the statements exclude). -/
noncomputable def numberOf : F ℝ → ℝ
  | .fin v => v
  | _ => 0

/-- What a least-squares fitter of astropy minimises for the model function `f`: the sum over the unmasked data of
`(weight * (f(x, y) - z))²`, with weight one if there are no weights. -/
noncomputable def wChi2 (f : ℝ → ℝ → ℝ) (d : FitData ℝ) : ℝ :=
  ((List.range d.z.length).map fun k => if d.zMask.getD k true then 0 else
    ((match d.w with | none => 1 | some w => numberOf (w.getD k .nan)) * (f (d.x.getD k 0) (d.y.getD k 0) - numberOf (d.z.getD k .nan))) ^ 2).sum

/-- `p` is a best fit of the family `fam` to the data, among the parameters that are allowed. -/
def BestFit {M : Type} (fam : M → ℝ → ℝ → ℝ) (allowed : M → Prop) (d : FitData ℝ) (p : M) : Prop :=
  allowed p ∧ ∀ q, allowed q → wChi2 (fam p) d ≤ wChi2 (fam q) d

/-- What is assumed of a fitter: what it returns is a best fit (the global one; an optimiser that stops in a local minimum is outside). -/
def BestFitter {M : Type} (fam : M → ℝ → ℝ → ℝ) (allowed : M → Prop) (fitter : M → FitData ℝ → Except PyErr M) : Prop :=
  ∀ m d p, fitter m d = .ok p → BestFit fam allowed d p

/-- The parameters of `Sersic2D`. -/
structure SersicP where
  amplitude : ℝ
  rEff : ℝ
  n : ℝ
  x0 : ℝ
  y0 : ℝ
  ellip : ℝ
  theta : ℝ

/-- The model image. -/
noncomputable def SersicP.at_ (p : SersicP) (x y : ℝ) : ℝ := sersic2D x y p.amplitude p.rEff p.n p.x0 p.y0 p.ellip p.theta

/-- Inside the bounds of `get_default_sersic_bounds` (petrofit/modeling/models.py:73-83). -/
def SersicP.InBounds (p : SersicP) : Prop :=
  0 ≤ p.amplitude ∧ 1 / 1000 ≤ p.rEff ∧ (1 / 10 ≤ p.n ∧ p.n ≤ 10) ∧ (0 ≤ p.ellip ∧ p.ellip ≤ 99 / 100) ∧
    (-2 * Real.pi ≤ p.theta ∧ p.theta ≤ 2 * Real.pi)

end Verif.Spec

import Verif.Model.Simulation

/-!
# Sums of models

`PSFConvolvedModel2D` takes a `CompoundModel` as well as a single model (petrofit/modeling/models.py:122); docs/multi_object.ipynb and
docs/quick_start.ipynb fit the sum of several `Sersic2D` models, one per galaxy, in this way. Only sums are modelled, of models with any parameters.
-/

namespace Verif

/-- The value of `m_0 + m_1 + ...`: astropy's `CompoundModel.evaluate`, which petrofit/modeling/models.py:439 and :489 call with the parameters of all
the parts one after the other (`*sub_model_params`). Each part takes as many of them as it has. Sums of numbers are exact here, so the order of the
additions does not matter. -/
def compoundEval {K : Type} [Zero K] [Add K] : List (SubModel K) → List K → K → K → K
  | [], _, _, _ => 0
  | m :: ms, params, x, y => m.eval (params.take m.paramNames.length) x y + compoundEval ms (params.drop m.paramNames.length) x y

/-- `m_0 + m_1 + ...` as a model that can be wrapped. The parameters are named as those of the parts, with the number of the part (`x_0_2`); these are the
names that petrofit/modeling/models.py:194-200 copies. -/
def compound {K : Type} [Zero K] [Add K] (parts : List (SubModel K)) : SubModel K where
  paramNames := (parts.zipIdx.map fun p => p.1.paramNames.map fun name => s!"{name}_{p.2}").flatten
  eval := compoundEval parts

/-- astropy's `Const2D`, for the sky. -/
def constSub {K : Type} [Zero K] : SubModel K where
  paramNames := ["amplitude"]
  eval := fun p _ _ => match p with
    | [c] => c
    | _ => 0

/-- Several `Sersic2D` models, and a `Const2D` model if the sky is fitted too. -/
noncomputable def galaxiesSub (k : Nat) (sky : Bool) : SubModel ℝ := compound (List.replicate k sersicSub ++ if sky then [constSub] else [])

end Verif

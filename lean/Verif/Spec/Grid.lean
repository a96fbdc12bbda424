import Verif.Spec.Interp
import Mathlib.Data.Real.Basic
import Mathlib.Algebra.BigOperators.Group.List.Basic

/-!
# Specification of the correction grid lookup
-/

namespace Verif.Spec

open F

/-- Arithmetic mean. -/
noncomputable def mean (l : List ℝ) : ℝ := l.sum / l.length

/-- Population variance. -/
noncomputable def variance (l : List ℝ) : ℝ := (l.map fun x => (x - mean l) ^ 2).sum / l.length

/-- Squared distance of grid point `i` to the measured triple in units of the column variances. -/
noncomputable def stdDist2 (X Y Z : List ℝ) (x0 y0 z0 : ℝ) (i : Nat) : ℝ :=
  (X.getD i 0 - x0) ^ 2 / variance X + (Y.getD i 0 - y0) ^ 2 / variance Y + (Z.getD i 0 - z0) ^ 2 / variance Z

/-- `i` is the first grid point closest to the measured triple. -/
def Nearest (X Y Z : List ℝ) (x0 y0 z0 : ℝ) (i : Nat) : Prop :=
  i < X.length ∧ (∀ j, j < X.length → stdDist2 X Y Z x0 y0 z0 i ≤ stdDist2 X Y Z x0 y0 z0 j) ∧
  ∀ j, j < i → stdDist2 X Y Z x0 y0 z0 i < stdDist2 X Y Z x0 y0 z0 j

/-- A measured value is a number inside the range of a column. -/
def InsideCol {K : Type} [Field K] [LinearOrder K] (X : List K) (v : F K) : Prop := ∃ q, v = fin q ∧ InRange X q

end Verif.Spec

import Verif.Model.Catalogs
import Mathlib.Analysis.InnerProductSpace.PiL2
import Mathlib.Geometry.Euclidean.Angle.Unoriented.Basic

/-!
# Nearest neighbours on the sky
-/

namespace Verif.Spec

open Verif

/-- A KD-tree that works: the index is in range and no other vector is nearer. -/
def NearestTree (tree : List (ℝ × ℝ × ℝ) → ℝ × ℝ × ℝ → Nat) : Prop :=
  ∀ vs v, vs ≠ [] → ∃ h : tree vs v < vs.length, ∀ j (h' : j < vs.length), chord v vs[tree vs v] ≤ chord v vs[j]

/-- The direction to a position, as a vector of Euclidean space. -/
noncomputable def direction (ra dec : ℝ) : EuclideanSpace ℝ (Fin 3) :=
  !₂[Real.cos (dec * Real.pi / 180) * Real.cos (ra * Real.pi / 180), Real.cos (dec * Real.pi / 180) * Real.sin (ra * Real.pi / 180),
    Real.sin (dec * Real.pi / 180)]

/-- The angle between two positions on the sky. -/
noncomputable def skyAngle (ra1 dec1 ra2 dec2 : ℝ) : ℝ := InnerProductGeometry.angle (direction ra1 dec1) (direction ra2 dec2)

end Verif.Spec

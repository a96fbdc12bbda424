import Verif.Spec.Interp

/-!
# What a not-a-knot cubic spline is
-/

namespace Verif.Spec

/-- A cubic in powers of `q - x`. -/
structure Cubic (K : Type) where
  (a b c d : K)

variable {K : Type} [Field K] [LinearOrder K]

/-- The value at distance `t`. -/
def Cubic.at (p : Cubic K) (t : K) : K := p.a + p.b * t + p.c * t ^ 2 + p.d * t ^ 3

/-- The slope at distance `t`. -/
def Cubic.slope (p : Cubic K) (t : K) : K := p.b + 2 * p.c * t + 3 * p.d * t ^ 2

/-- Half the second derivative at distance `t`. -/
def Cubic.bend (p : Cubic K) (t : K) : K := p.c + 3 * p.d * t

/-- One cubic per segment, `P i` from node `i` to node `i + 1`: through the points, with slope and curvature continuous at the inner
nodes, and one cubic on the first two and on the last two segments. -/
structure CubicSpline (xs ys : List K) (P : Nat → Cubic K) : Prop where
  left : ∀ i (hx : i + 1 < xs.length) (hy : i < ys.length), (P i).at 0 = ys[i]
  right : ∀ i (hx : i + 1 < xs.length) (hy : i + 1 < ys.length), (P i).at (xs[i + 1] - xs[i]) = ys[i + 1]
  slope : ∀ i (h : i + 2 < xs.length), (P i).slope (xs[i + 1] - xs[i]) = (P (i + 1)).slope 0
  bend : ∀ i (h : i + 2 < xs.length), (P i).bend (xs[i + 1] - xs[i]) = (P (i + 1)).bend 0
  first : (P 0).d = (P 1).d
  last : (P (xs.length - 3)).d = (P (xs.length - 2)).d

end Verif.Spec

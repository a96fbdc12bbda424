import Verif.Spec.Tame
import Mathlib.Algebra.BigOperators.Group.Finset.Basic
import Mathlib.Data.Nat.Log

/-!
# Interpolation and pixel weights computed with rounding errors
-/

namespace Verif.Spec

open F

variable {K : Type} [Field K] [LinearOrder K]

/-- An interpolant that was evaluated in rounded arithmetic: it overshoots by at most `C` times the largest difference of neighbouring data
values, on nodes whose gaps differ by at most the factor `ρ`, and by `e` times the largest absolute data value. -/
def GentleR (ρ C e : K) (I : Interp K) : Prop :=
  ∀ xs ys : List K, ∀ hl : xs.length = ys.length, 4 ≤ xs.length →
    ∀ g > 0, (∀ i (h : i + 1 < xs.length), g ≤ xs[i + 1] - xs[i] ∧ xs[i + 1] - xs[i] ≤ ρ * g) →
    ∀ δ B, (∀ i (h : i + 1 < ys.length), |ys[i + 1] - ys[i]| ≤ δ) → (∀ y ∈ ys, |y| ≤ B) →
    ∀ j (h : j + 1 < xs.length) q, xs[j] ≤ q → q ≤ xs[j + 1] →
    ∃ v, I (xs.map fin) (ys.map fin) (fin q) = .ok (fin v) ∧
      min ys[j] ys[j + 1] - (C * δ + e * B) ≤ v ∧ v ≤ max ys[j] ys[j + 1] + (C * δ + e * B)

/-- How much two sets of pixel weights differ in total, on a frame of `h` rows and `w` columns. -/
def weightError (h w : Nat) (wt wt' : Nat → Nat → K) : K :=
  ∑ i ∈ Finset.range h, ∑ j ∈ Finset.range w, |wt i j - wt' i j|

/-- The error allowed for a flux or area of an aperture of area `α` on a frame of `h` rows and `w` columns, per unit of brightness: the rounding
to six decimals, `28 + log₂` (number of pixels) roundings of the sum, and the error `τ` of the weights. -/
def photError (u : K) (h w : Nat) (α τ : K) : K := 1 / 10 ^ 6 + ((1 + u) ^ (28 + Nat.log 2 (h * w - 15)) - 1) * (α + τ) + τ

end Verif.Spec

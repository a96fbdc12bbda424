import Verif.Spec.Galaxy

/-!
# Interpolants that overshoot in a controlled way
-/

namespace Verif.Spec

open F

variable {K : Type} [Field K] [LinearOrder K]

/-- The interpolant `I` on nodes whose gaps are all between `g` and `ρ g`, the outermost gaps being at most `ρe` times the ones next to them:
if neighbouring data values differ by at most `δ` on the segments `L, …, H` and by at most `B` anywhere, the interpolant on a segment that
is `k` or more segments away from the ends of this range (or the range goes up to that end of the data) overshoots the two data values
around the query by at most `C (δ + θ^k B)`. -/
def Tame (ρ ρe C θ : K) (I : Interp K) : Prop :=
  ∀ xs ys : List K, ∀ hl : xs.length = ys.length, 4 ≤ xs.length →
    ∀ g > 0, (∀ i (h : i + 1 < xs.length), g ≤ xs[i + 1] - xs[i] ∧ xs[i + 1] - xs[i] ≤ ρ * g) →
    (∀ h : 2 < xs.length, xs[1] - xs[0] ≤ ρe * (xs[2] - xs[1])) →
    (∀ k (h : xs.length = k + 3), xs[k + 2] - xs[k + 1] ≤ ρe * (xs[k + 1] - xs[k])) →
    ∀ δ B, (∀ i (h : i + 1 < ys.length), |ys[i + 1] - ys[i]| ≤ B) →
    ∀ L H k, (∀ i (h : i + 1 < ys.length), L ≤ i → i ≤ H → |ys[i + 1] - ys[i]| ≤ δ) →
    ∀ j (h : j + 1 < xs.length) q, xs[j] ≤ q → q ≤ xs[j + 1] → L ≤ j → j ≤ H → (L = 0 ∨ L + k + 2 ≤ j) →
      (xs.length ≤ H + 2 ∨ j + k + 2 ≤ H) →
    ∃ v, I (xs.map fin) (ys.map fin) (fin q) = .ok (fin v) ∧
      min ys[j] ys[j + 1] - C * (δ + θ ^ k * B) ≤ v ∧ v ≤ max ys[j] ys[j + 1] + C * (δ + θ ^ k * B)

/-- The interpolant overshoots by at most `C` times the largest difference of neighbouring data values, on nodes whose gaps differ by at most
the factor `ρ`. -/
def Gentle (ρ C : K) (I : Interp K) : Prop :=
  ∀ xs ys : List K, ∀ hl : xs.length = ys.length, 4 ≤ xs.length →
    ∀ g > 0, (∀ i (h : i + 1 < xs.length), g ≤ xs[i + 1] - xs[i] ∧ xs[i + 1] - xs[i] ≤ ρ * g) →
    ∀ δ, (∀ i (h : i + 1 < ys.length), |ys[i + 1] - ys[i]| ≤ δ) →
    ∀ j (h : j + 1 < xs.length) q, xs[j] ≤ q → q ≤ xs[j + 1] →
    ∃ v, I (xs.map fin) (ys.map fin) (fin q) = .ok (fin v) ∧ min ys[j] ys[j + 1] - C * δ ≤ v ∧ v ≤ max ys[j] ys[j + 1] + C * δ

/-- Aperture radii whose gaps differ by at most the factor `ρ`, the gap from the centre to the second radius included (the code replaces the
first radius by 0). -/
def EvenRadii {K : Type} [Field K] [LinearOrder K] (ρ : K) (R : List K) : Prop :=
  ∃ g > 0, (∀ i (h : i + 1 < R.length), g ≤ R[i + 1] - R[i] ∧ R[i + 1] - R[i] ≤ ρ * g) ∧ ∀ h : 1 < R.length, R[1] ≤ ρ * g

/-- The interpolant of the data `(N, Y)` exists, and for queries up to `T` it leaves the interval of the two data values around the query by at
most `d`. -/
def Calm (d T : K) (I : Interp K) (N Y : List K) : Prop :=
  ∀ j (h : j + 1 < N.length) (h' : j + 1 < Y.length) q, N[j] ≤ q → q ≤ N[j + 1] →
    ∃ v, I (N.map fin) (Y.map fin) (fin q) = .ok (fin v) ∧ (q ≤ T → min Y[j] Y[j + 1] - d ≤ v ∧ v ≤ max Y[j] Y[j + 1] + d)

/-- The same with less asked for: below, leaving the interval by `d` is allowed for values that stay above `lo - d` in any case, and above it only
matters for queries from `a` on. -/
def CalmPast (lo a d T : K) (I : Interp K) (N Y : List K) : Prop :=
  ∀ j (h : j + 1 < N.length) (h' : j + 1 < Y.length) q, N[j] ≤ q → q ≤ N[j + 1] →
    ∃ v, I (N.map fin) (Y.map fin) (fin q) = .ok (fin v) ∧
      (q ≤ T → min (min Y[j] Y[j + 1]) lo - d ≤ v ∧ (a ≤ q → v ≤ max Y[j] Y[j + 1] + d))

/-- What is needed of the interpolation on the radii of the correction grid (0, 3, 5, …, 199, 300, 400, …): it stays between neighbouring data,
or it overshoots in a controlled way. -/
def GridInterp (I : Interp K) : Prop := BetweenNodes I ∨ Tame (101 / 2) (3 / 2) (51005 / 2) (3 / 5) I

end Verif.Spec

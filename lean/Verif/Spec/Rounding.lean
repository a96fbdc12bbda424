import Verif.Spec.Interp
import Mathlib.Algebra.Order.Field.Basic
import Mathlib.Order.Monotone.Basic

/-!
# What a rounding function must satisfy
-/

namespace Verif.Spec

variable {K : Type} [Field K] [LinearOrder K]

/-- Rounding to nearest (or towards zero) in a symmetric set of numbers that contains 1. -/
structure Rounding (fl : K → K) : Prop where
  mono : Monotone fl
  neg : ∀ x, fl (-x) = -fl x
  idem : ∀ x, fl (fl x) = fl x
  one : fl 1 = 1

/-- The relative error of rounding is at most `u`. -/
def RelErr (u : K) (fl : K → K) : Prop := ∀ x, |fl x - x| ≤ u * |x|

/-- Multiplying by powers of two commutes with rounding. -/
def Binary (fl : K → K) : Prop := ∀ (j : ℤ) x, fl ((2 : K) ^ j * x) = (2 : K) ^ j * fl x

/-- What remains of the contract of an interpolator in rounded arithmetic: a number inside the range, an error outside. -/
structure RangeLaw (I : Interp K) (m : Nat) : Prop where
  total : ∀ xs ys : List K, xs.length = ys.length → m ≤ xs.length → Incr xs → ∀ q, InRange xs q →
    ∃ v, I (xs.map F.fin) (ys.map F.fin) (F.fin q) = .ok (F.fin v)
  outside : ∀ xs ys : List K, xs.length = ys.length → m ≤ xs.length → Incr xs → ∀ q, OutRange xs q →
    I (xs.map F.fin) (ys.map F.fin) (F.fin q) = .error .valueError
  atNaN : ∀ xs ys : List K, xs.length = ys.length → m ≤ xs.length → Incr xs →
    I (xs.map F.fin) (ys.map F.fin) F.nan = .ok F.nan

end Verif.Spec

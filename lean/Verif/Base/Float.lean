import Mathlib.Algebra.Order.Field.Basic
import Mathlib.Tactic.Ring
import Mathlib.Tactic.Linarith
import Mathlib.Tactic.FieldSimp
import Mathlib.Tactic.NormNum

/-!
# Python exceptions and IEEE-style numbers

`PyErr` are the exception classes the modelled code can raise.  `F K` models a python/numpy float: NaN, the two
infinities, or an exact value of the ordered field `K`.

Simplifications (stated in DESIGN.md): finite arithmetic is exact (no rounding, overflow or underflow) and there is one
zero, which as a denominator behaves like `+0.0`.
-/

set_option linter.unusedSectionVars false

namespace Verif

/-- Python exception classes raised by the modelled code or by the library calls it makes. -/
inductive PyErr
  | assertionError | valueError | typeError | indexError | keyError | attributeError
  | notImplementedError | zeroDivisionError | exception
  deriving DecidableEq, Repr

/-- A float: NaN, -inf, +inf or a finite value. -/
inductive F (K : Type)
  | nan | ninf | pinf | fin (x : K)
  deriving DecidableEq, Repr

namespace F

variable {K : Type}

/-- `np.isnan`. -/
def isNaN : F K → Bool
  | nan => true
  | _ => false

/-- `np.isfinite`. -/
def isFin : F K → Bool
  | fin _ => true
  | _ => false

section ops
variable [Field K] [LinearOrder K]

/-- The infinity with the sign of `k`; NaN for zero.  This is `k * inf`, and also `k / +0.0`. -/
def sgnInf (k : K) : F K := if 0 < k then pinf else if k < 0 then ninf else nan

/-- IEEE negation. -/
protected def neg : F K → F K
  | nan => nan | ninf => pinf | pinf => ninf | fin x => fin (-x)

/-- IEEE addition. -/
protected def add : F K → F K → F K
  | nan, _ => nan
  | _, nan => nan
  | fin a, fin b => fin (a + b)
  | pinf, ninf => nan
  | ninf, pinf => nan
  | pinf, _ => pinf
  | _, pinf => pinf
  | ninf, _ => ninf
  | _, ninf => ninf

/-- IEEE multiplication. -/
protected def mul : F K → F K → F K
  | nan, _ => nan
  | _, nan => nan
  | fin a, fin b => fin (a * b)
  | fin a, pinf => sgnInf a
  | fin a, ninf => sgnInf (-a)
  | pinf, fin a => sgnInf a
  | ninf, fin a => sgnInf (-a)
  | pinf, pinf => pinf
  | ninf, ninf => pinf
  | pinf, ninf => ninf
  | ninf, pinf => ninf

/-- IEEE division (a zero denominator counts as `+0.0`). -/
protected def div : F K → F K → F K
  | nan, _ => nan
  | _, nan => nan
  | fin a, fin b => if b = 0 then sgnInf a else fin (a / b)
  | fin _, _ => fin 0
  | pinf, fin b => if b < 0 then ninf else pinf
  | ninf, fin b => if b < 0 then pinf else ninf
  | _, _ => nan

instance : Neg (F K) := ⟨F.neg⟩
instance : Add (F K) := ⟨F.add⟩
instance : Mul (F K) := ⟨F.mul⟩
instance : Div (F K) := ⟨F.div⟩
instance : Sub (F K) := ⟨fun a b => a + -b⟩

/-- `abs`. -/
protected def abs : F K → F K
  | nan => nan | ninf => pinf | pinf => pinf | fin x => fin (if 0 ≤ x then x else -x)

/-- `a <= b` (False when NaN is involved). -/
def le : F K → F K → Bool
  | nan, _ => false
  | _, nan => false
  | ninf, _ => true
  | _, pinf => true
  | fin a, fin b => decide (a ≤ b)
  | pinf, _ => false
  | _, ninf => false

/-- `a < b` (False when NaN is involved). -/
def lt : F K → F K → Bool
  | nan, _ => false
  | _, nan => false
  | fin a, fin b => decide (a < b)
  | ninf, ninf => false
  | ninf, _ => true
  | pinf, _ => false
  | _, pinf => true
  | _, ninf => false

/-- `a == b` (False when NaN is involved). -/
def eqv : F K → F K → Bool
  | fin a, fin b => decide (a = b)
  | pinf, pinf => true
  | ninf, ninf => true
  | _, _ => false

@[simp] theorem fin_add (a b : K) : (fin a + fin b : F K) = fin (a + b) := rfl
@[simp] theorem neg_fin (a : K) : (-(fin a) : F K) = fin (-a) := rfl
@[simp] theorem fin_sub (a b : K) : (fin a - fin b : F K) = fin (a - b) := by
  show fin (a + -b) = _; rw [sub_eq_add_neg]
@[simp] theorem fin_mul (a b : K) : (fin a * fin b : F K) = fin (a * b) := rfl
theorem fin_div (a b : K) : (fin a / fin b : F K) = if b = 0 then sgnInf a else fin (a / b) := rfl
@[simp] theorem fin_div_of_ne (a : K) {b : K} (h : b ≠ 0) : (fin a / fin b : F K) = fin (a / b) := by
  rw [fin_div, if_neg h]
@[simp] theorem nan_add (a : F K) : nan + a = nan := by cases a <;> rfl
@[simp] theorem add_nan (a : F K) : a + nan = nan := by cases a <;> rfl
@[simp] theorem nan_mul (a : F K) : nan * a = nan := by cases a <;> rfl
@[simp] theorem mul_nan (a : F K) : a * nan = nan := by cases a <;> rfl
@[simp] theorem nan_div (a : F K) : nan / a = nan := by cases a <;> rfl
@[simp] theorem div_nan (a : F K) : a / nan = nan := by cases a <;> rfl
@[simp] theorem neg_nan : (-nan : F K) = nan := rfl
@[simp] theorem nan_sub (a : F K) : nan - a = nan := by show nan + -a = nan; simp
@[simp] theorem sub_nan (a : F K) : a - nan = nan := by show a + -nan = nan; simp
@[simp] theorem le_fin (a b : K) : le (fin a) (fin b) = decide (a ≤ b) := rfl
@[simp] theorem lt_fin (a b : K) : lt (fin a) (fin b) = decide (a < b) := rfl
@[simp] theorem eqv_fin (a b : K) : eqv (fin a) (fin b) = decide (a = b) := rfl
@[simp] theorem nan_le (a : F K) : le nan a = false := by cases a <;> rfl
@[simp] theorem le_nan (a : F K) : le a nan = false := by cases a <;> rfl
@[simp] theorem nan_lt (a : F K) : lt nan a = false := by cases a <;> rfl
@[simp] theorem lt_nan (a : F K) : lt a nan = false := by cases a <;> rfl
@[simp] theorem isNaN_fin (a : K) : isNaN (fin a) = false := rfl
@[simp] theorem isNaN_nan : isNaN (nan : F K) = true := rfl
@[simp] theorem abs_nan : F.abs (nan : F K) = nan := rfl

theorem isNaN_iff (a : F K) : a.isNaN = true ↔ a = nan := by cases a <;> simp [isNaN]

end ops

section ordered
variable [Field K] [LinearOrder K] [IsStrictOrderedRing K]

@[simp] theorem abs_fin (a : K) : F.abs (fin a) = fin |a| := by
  by_cases h : 0 ≤ a
  · simp [F.abs, h, abs_of_nonneg h]
  · have h' : a ≤ 0 := le_of_lt (not_le.mp h)
    simp [F.abs, h, abs_of_nonpos h']

/-- Multiplying by a non-zero constant in numerator and denominator does not change an IEEE quotient of finite numbers,
provided the constant is positive or the denominator is non-zero. -/
theorem mul_div_mul_left' (c a b : K) (hc : 0 < c) :
    (fin (c * a) / fin (c * b) : F K) = fin a / fin b := by
  rw [fin_div, fin_div]
  by_cases hb : b = 0
  · subst hb
    simp only [mul_zero, if_true, sgnInf]
    by_cases h1 : 0 < a
    · simp [h1, hc]
    · by_cases h2 : a < 0
      · simp [h1, h2, mul_neg_of_pos_of_neg hc h2, not_lt.mpr (mul_neg_of_pos_of_neg hc h2).le]
      · have : a = 0 := le_antisymm (not_lt.mp h1) (not_lt.mp h2)
        subst this; simp
  · rw [if_neg hb, if_neg (mul_ne_zero hc.ne' hb), mul_div_mul_left _ _ hc.ne']

end ordered

end F

/-- `math.sqrt`/`np.sqrt` on finite numbers. -/
class HasSqrt (K : Type) where
  sqrt : K → K

namespace F
variable {K : Type} [Field K] [LinearOrder K] [HasSqrt K]

/-- `np.sqrt`: NaN for negative input. -/
protected def sqrt : F K → F K
  | nan => nan | ninf => nan | pinf => pinf
  | fin x => if x < 0 then nan else fin (HasSqrt.sqrt x)

end F

/-- `np.log10` on finite positive numbers. -/
class HasLog10 (K : Type) where
  log10 : K → K

namespace F
variable {K : Type} [Field K] [LinearOrder K] [HasLog10 K]

/-- `np.log10`: -inf at zero, NaN for negative input. -/
protected def log10 : F K → F K
  | nan => nan | ninf => nan | pinf => pinf
  | fin x => if x = 0 then ninf else if x < 0 then nan else fin (HasLog10.log10 x)

end F
end Verif

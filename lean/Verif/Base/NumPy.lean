import Verif.Base.Float
import Mathlib.Data.List.Basic

/-!
# The numpy/scipy primitives the modelled code calls

One-dimensional float arrays are `List (F K)`.
-/

set_option linter.unusedSectionVars false

namespace Verif

open F

section
variable {K : Type} [Field K] [LinearOrder K]

/-- `np.diff`. -/
def npDiff (l : List (F K)) : List (F K) := List.zipWith (fun b a => b - a) l.tail l

/-- `np.where(mask)[0][0]` if the mask has a True entry: the index of the first entry satisfying `p`. -/
def firstWhere {α : Type} (p : α → Bool) : List α → Option Nat
  | [] => none
  | a :: l => if p a then some 0 else (firstWhere p l).map (· + 1)

/-- The loop of numpy's `argmin` for floats: stop at the first NaN, otherwise move to `x` when not `x >= best`. -/
def argminAux (best : F K) (bi : Nat) : Nat → List (F K) → Nat
  | _, [] => bi
  | i, x :: xs =>
    if best.isNaN then bi
    else if F.le best x then argminAux best bi (i + 1) xs
    else argminAux x i (i + 1) xs

/-- `ndarray.argmin()`; numpy raises ValueError on an empty array. -/
def npArgmin : List (F K) → Except PyErr Nat
  | [] => .error .valueError
  | x :: xs => .ok (argminAux x 0 1 xs)

/-- python's builtin `max` over an array: keep the first, replace when strictly greater. -/
def pyMax : List (F K) → Except PyErr (F K)
  | [] => .error .valueError
  | x :: xs => .ok (xs.foldl (fun m a => if F.lt m a then a else m) x)

/-- python's builtin `min` over an array. -/
def pyMin : List (F K) → Except PyErr (F K)
  | [] => .error .valueError
  | x :: xs => .ok (xs.foldl (fun m a => if F.lt a m then a else m) x)

/-- `np.linspace(start, stop, num, endpoint=True)`. -/
def npLinspace (start stop : F K) (num : Nat) : List (F K) :=
  let step := if 1 < num then (stop - start) / fin ((num - 1 : Nat) : K) else stop - start
  (List.range num).map fun i =>
    if 1 < num ∧ i + 1 = num then stop else fin (i : K) * step + start

/-- The `return_inverse` result of `np.unique` on an array that is already sorted: position of each entry in the
list of distinct values (numpy: cumulative sum of "differs from the previous entry", minus one). -/
def uniqueInverseAux : Nat → List (F K) → List Nat
  | n, a :: b :: l =>
    let n' := if F.eqv a b then n else n + 1
    n' :: uniqueInverseAux n' (b :: l)
  | _, _ => []

/-- See `uniqueInverseAux`. -/
def uniqueInverse : List (F K) → List Nat
  | [] => []
  | a :: l => 0 :: uniqueInverseAux 0 (a :: l)

/-- Fancy indexing `a[idx]` with non-negative indices: IndexError when an index is out of bounds. -/
def fancyIndex {α : Type} (a : List α) (idx : List Nat) : Except PyErr (List α) :=
  idx.mapM fun i => match a[i]? with
    | some v => .ok v
    | none => .error .indexError

/-- `a[i]` for a non-negative integer. -/
def getItem {α : Type} (a : List α) (i : Nat) : Except PyErr α :=
  match a[i]? with
  | some v => .ok v
  | none => .error .indexError

/-- `a[0] = v` on a fresh copy. -/
def setItem0 {α : Type} (a : List α) (v : α) : Except PyErr (List α) :=
  match a with
  | [] => .error .indexError
  | _ :: l => .ok (v :: l)

/-- Elementwise binary operation on two arrays of equal length; numpy raises ValueError when the lengths differ
(broadcasting of length-one arrays is not modelled). -/
def zipOp {α β γ : Type} (f : α → β → γ) (a : List α) (b : List β) : Except PyErr (List γ) :=
  if a.length = b.length then .ok (List.zipWith f a b) else .error .valueError

/-- `scipy.interpolate.interp1d(x, y, kind)` applied to one query point.  Everything that can raise (construction or
evaluation) is an error value. -/
abbrev Interp (K : Type) := List (F K) → List (F K) → F K → Except PyErr (F K)

/-- The segment search and formula of scipy's `'linear'` kind (`_call_linear` / `np.interp`) for a sorted x array and a
query inside the range: the first segment whose right end is >= q. -/
def linSeg : List (F K × F K) → F K → F K
  | (x0, y0) :: (x1, y1) :: rest, q =>
    if F.le q x1 then (y1 - y0) / (x1 - x0) * (q - x0) + y0
    else linSeg ((x1, y1) :: rest) q
  | [(_, y0)], _ => y0
  | [], _ => nan

/-- `interp1d(x, y, kind='linear')`: ValueError for mismatched or empty arrays and for queries outside `[x[0], x[-1]]`
(`bounds_error` default), NaN for a NaN query.  Simplification: scipy sorts x first; the model requires x sorted. -/
def linearInterp : Interp K := fun x y q =>
  if x.length ≠ y.length then .error .valueError
  else match x.head?, x.getLast? with
    | some a, some b =>
      if F.lt q a || F.lt b q then .error .valueError
      else if q.isNaN then .ok nan
      else .ok (linSeg (x.zip y) q)
    | _, _ => .error .valueError

end

end Verif

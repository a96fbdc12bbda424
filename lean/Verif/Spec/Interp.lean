import Verif.Base.NumPy

/-!
# Contract of `scipy.interpolate.interp1d` and the uniform sampling grid
-/

namespace Verif.Spec

open F

variable {K : Type} [Field K] [LinearOrder K]

/-- Strictly increasing abscissae. -/
def Incr (xs : List K) : Prop := xs.Pairwise (· < ·)

/-- `q` is between the smallest and the largest entry. -/
def InRange (xs : List K) (q : K) : Prop := (∃ x ∈ xs, x ≤ q) ∧ ∃ x ∈ xs, q ≤ x

/-- `q` is outside. -/
def OutRange (xs : List K) (q : K) : Prop := xs ≠ [] ∧ ((∀ x ∈ xs, q < x) ∨ ∀ x ∈ xs, x < q)

/-- What the code relies on: the behaviour of one `interp1d` kind that needs at least `m` points, on finite data with strictly
increasing abscissae. -/
structure Lawful (I : Interp K) (m : Nat) : Prop where
  pos : 0 < m
  few : ∀ x y q, x.length < m → I x y q = .error .valueError
  mismatch : ∀ x y q, x.length ≠ y.length → I x y q = .error .valueError
  total : ∀ xs ys : List K, xs.length = ys.length → m ≤ xs.length → Incr xs → ∀ q, InRange xs q →
    ∃ v, I (xs.map fin) (ys.map fin) (fin q) = .ok (fin v)
  outside : ∀ xs ys : List K, xs.length = ys.length → m ≤ xs.length → Incr xs → ∀ q, OutRange xs q →
    I (xs.map fin) (ys.map fin) (fin q) = .error .valueError
  atNaN : ∀ xs ys : List K, xs.length = ys.length → m ≤ xs.length → Incr xs →
    I (xs.map fin) (ys.map fin) nan = .ok nan
  node : ∀ xs ys : List K, ∀ hl : xs.length = ys.length, m ≤ xs.length → Incr xs → ∀ i (h : i < xs.length),
    I (xs.map fin) (ys.map fin) (fin xs[i]) = .ok (fin ys[i])
  smul : ∀ xs ys : List K, xs.length = ys.length → m ≤ xs.length → Incr xs → ∀ q v c,
    I (xs.map fin) (ys.map fin) (fin q) = .ok (fin v) →
    I (xs.map fin) ((ys.map (c * ·)).map fin) (fin q) = .ok (fin (c * v))
  xscale : ∀ xs ys : List K, xs.length = ys.length → m ≤ xs.length → Incr xs → ∀ q v c, 0 < c →
    I (xs.map fin) (ys.map fin) (fin q) = .ok (fin v) →
    I ((xs.map (c * ·)).map fin) (ys.map fin) (fin (c * q)) = .ok (fin v)

/-- The `i`-th of `n` evenly spaced points from `lo` to `hi`. -/
def gridPt (lo hi : K) (n i : Nat) : K := lo + (i : K) * ((hi - lo) / ((n : K) - 1))

end Verif.Spec

namespace Verif.Spec

open F

variable {K : Type} [Field K] [LinearOrder K]

/-- The samples the radius search looks at: the data themselves for `kind=None`, otherwise the interpolant on
`max num len` evenly spaced points over the full range. -/
def Sampled (ip : String → Interp K) (kind : Option String) (num : Nat) (R : List K) (P : List (F K))
    (xs : List K) (ys : List (F K)) : Prop :=
  match kind with
  | none => xs = R ∧ ys = P
  | some k => ∃ lo hi, (lo ∈ R ∧ ∀ x ∈ R, lo ≤ x) ∧ (hi ∈ R ∧ ∀ x ∈ R, x ≤ hi) ∧
      xs = (List.range (max num R.length)).map (gridPt lo hi (max num R.length)) ∧
      List.Forall₂ (fun x y => ip k (R.map fin) P (fin x) = .ok y) xs ys

/-- The value `x` reaches `v` (from above, or from below when `growing`). -/
def Reaches (growing : Bool) (v x : K) : Prop := if growing then v ≤ x else x ≤ v

end Verif.Spec

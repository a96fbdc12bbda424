import Verif.Model.Fitting
import Verif.Spec.PSFModel
import Verif.Spec.Segmentation

/-!
# Planes and least squares
-/

set_option linter.unusedSectionVars false

namespace Verif.Spec

variable {K : Type} [Field K] [LinearOrder K]

/-- The plane `a x + b y + c` (`astropy.modeling.models.Planar2D`). -/
@[ext] structure Plane (K : Type) where
  a : K
  b : K
  c : K
  deriving DecidableEq

namespace Plane

/-- The value at a point. -/
def at_ (p : Plane K) (x y : K) : K := p.a * x + p.b * y + p.c

/-- Sum of planes. -/
def add (p q : Plane K) : Plane K := ⟨p.a + q.a, p.b + q.b, p.c + q.c⟩

end Plane

/-- A data point: coordinates and value. -/
structure Point (K : Type) where
  x : K
  y : K
  z : K

/-- The sum of the squared residuals of a plane. -/
def chi2 (p : Plane K) (pts : List (Point K)) : K := (pts.map fun d => (p.at_ d.x d.y - d.z) ^ 2).sum

/-- `p` is a least-squares plane of the points. -/
def IsLsq (p : Plane K) (pts : List (Point K)) : Prop := ∀ q : Plane K, chi2 p pts ≤ chi2 q pts

/-- Three of the points are not on a line. -/
def Spread (pts : List (Point K)) : Prop :=
  ∃ p ∈ pts, ∃ q ∈ pts, ∃ r ∈ pts, (q.x - p.x) * (r.y - p.y) - (r.x - p.x) * (q.y - p.y) ≠ 0

/-- The points a fitter has to look at: the unmasked entries (`none` if one of them is infinite or NaN). -/
def fitPoints (d : FitData K) : Option (List (Point K)) :=
  ((d.x.zip (d.y.zip (d.z.zip d.zMask))).filter fun e => !e.2.2.2).mapM fun e =>
    match e.2.2.1 with
    | .fin z => some ⟨(e.1 : K), (e.2.1 : K), z⟩
    | _ => none

/-- What is needed of a linear fitter (`LinearLSQFitter` on `Planar2D`): on finite data that are not on a line, without weights, it
returns a least-squares plane of the unmasked points. -/
def LinearFitter (fitter : Plane K → FitData K → Except PyErr (Plane K)) : Prop :=
  ∀ m d pts, d.w = none → fitPoints d = some pts → Spread pts → ∃ p, fitter m d = .ok p ∧ IsLsq p pts

end Verif.Spec

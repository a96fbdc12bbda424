import Verif.Spec.Profiles
import Verif.Spec.Interp

/-!
# An ideal galaxy and its exactly measured curve of growth
-/

namespace Verif.Spec

open F Real

/-- A surface brightness profile for which the Petrosian radius makes sense: positive, continuous, falling outwards, with a
Petrosian ratio (local over mean intensity) that falls outwards. -/
structure Galaxy (I : ℝ → ℝ) : Prop where
  cont : ContinuousOn I (Set.Ici 0)
  pos : ∀ r, 0 ≤ r → 0 < I r
  falls : StrictAntiOn I (Set.Ici 0)
  ratioFalls : StrictAntiOn (petroRatio I) (Set.Ioi 0)

/-- Aperture radii that start within `δ` of the centre, grow, and are never more than `δ` apart. -/
structure Fine (δ : ℝ) (R : List ℝ) : Prop where
  three : 3 ≤ R.length
  first : ∀ h : 0 < R.length, (0 : ℝ) < R[0] ∧ R[0] ≤ δ
  step : ∀ i (h : i + 1 < R.length), R[i] < R[i + 1] ∧ R[i + 1] - R[i] ≤ δ

/-- The largest aperture reaches `r`. -/
def Covers (R : List ℝ) (r : ℝ) : Prop := ∃ x ∈ R, r ≤ x

/-- Exact areas of the elliptical apertures of axis ratio `q`. -/
noncomputable def areas (q : ℝ) (R : List ℝ) : List (F ℝ) := R.map fun r => fin (π * q * r ^ 2)

/-- Exact fluxes in the elliptical apertures of axis ratio `q`. -/
noncomputable def fluxes (I : ℝ → ℝ) (q : ℝ) (R : List ℝ) : List (F ℝ) := R.map fun r => fin (enclosed I q r)

/-- The interpolant stays between the two data points around the query (linear, previous, next, nearest, ...; not cubic splines). -/
def BetweenNodes {K : Type} [Field K] [LinearOrder K] (I : Interp K) : Prop :=
  ∀ xs ys : List K, ∀ hl : xs.length = ys.length, 2 ≤ xs.length → Incr xs → ∀ j (h : j + 1 < xs.length) q, xs[j] ≤ q →
    q ≤ xs[j + 1] → ∃ v, I (xs.map fin) (ys.map fin) (fin q) = .ok (fin v) ∧ min ys[j] ys[j + 1] ≤ v ∧ v ≤ max ys[j] ys[j + 1]

end Verif.Spec

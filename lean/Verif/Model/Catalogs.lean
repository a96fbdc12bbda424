import Verif.Base.NumPy
import Mathlib.Analysis.SpecialFunctions.Complex.Arg

/-!
# petrofit/utils.py:78-82 `match_catalogs`

The wrapper around `SkyCoord.match_to_catalog_sky` of astropy: positions become unit vectors, a KD-tree finds a nearest vector, and the
separation is computed with Vincenty's formula.  The KD-tree is a parameter; `Spec.NearestTree` says what is assumed of it.
-/

namespace Verif

noncomputable section

/-- A position on the sky in degrees. -/
structure SkyPos where
  ra : ℝ
  dec : ℝ

/-- Degrees to radians. -/
def radians (x : ℝ) : ℝ := x * (Real.pi / 180)

/-- `SkyCoord(ra=ra, dec=dec, unit="deg")` (petrofit/utils.py:80-81): the arrays must have equal lengths and every declination must lie between
-90 and 90 degrees, ValueError otherwise.  Simplifications: `unit="deg"` only, finite numbers, no broadcasting of scalars. -/
def skyCoords (ra dec : List ℝ) : Except PyErr (List SkyPos) :=
  if ra.length ≠ dec.length then .error .valueError
  else if ∃ d ∈ dec, d < -90 ∨ 90 < d then .error .valueError
  else .ok (List.zipWith SkyPos.mk ra dec)

/-- `UnitSphericalRepresentation.to_cartesian`. -/
def SkyPos.vec (p : SkyPos) : ℝ × ℝ × ℝ :=
  (Real.cos (radians p.dec) * Real.cos (radians p.ra), Real.cos (radians p.dec) * Real.sin (radians p.ra), Real.sin (radians p.dec))

/-- The Euclidean distance of two vectors. -/
def chord (u v : ℝ × ℝ × ℝ) : ℝ := Real.sqrt ((u.1 - v.1) ^ 2 + (u.2.1 - v.2.1) ^ 2 + (u.2.2 - v.2.2) ^ 2)

/-- `np.arctan2(y, x)`. -/
def arctan2 (y x : ℝ) : ℝ := Complex.arg ⟨x, y⟩

/-- astropy `angular_separation` (Vincenty's formula), in radians. -/
def SkyPos.separation (p q : SkyPos) : ℝ :=
  let sdlon := Real.sin (radians q.ra - radians p.ra)
  let cdlon := Real.cos (radians q.ra - radians p.ra)
  let slat1 := Real.sin (radians p.dec)
  let slat2 := Real.sin (radians q.dec)
  let clat1 := Real.cos (radians p.dec)
  let clat2 := Real.cos (radians q.dec)
  let num1 := clat2 * sdlon
  let num2 := clat1 * slat2 - slat1 * clat2 * cdlon
  let denominator := slat1 * slat2 + clat1 * clat2 * cdlon
  arctan2 (Real.sqrt (num1 ^ 2 + num2 ^ 2)) denominator

/-- petrofit/utils.py:78-82 `match_catalogs`: the indices into the second catalogue, the separations on the sky (radians) and the distances of
the unit vectors.  `tree vs v` is the index that the KD-tree of the vectors `vs` returns for the query `v`.  An empty second catalogue is a
ValueError. -/
def matchCatalogs (tree : List (ℝ × ℝ × ℝ) → ℝ × ℝ × ℝ → Nat) (ra1 dec1 ra2 dec2 : List ℝ) :
    Except PyErr (List Nat × List ℝ × List ℝ) := do
  let c1 ← skyCoords ra1 dec1
  let c2 ← skyCoords ra2 dec2
  if c2.isEmpty then .error .valueError
  else
    let vs := c2.map SkyPos.vec
    let idx := c1.map fun p => tree vs p.vec
    let found := idx.map fun k => c2.getD k ⟨0, 0⟩
    .ok (idx, List.zipWith (fun p q => p.separation q) c1 found, List.zipWith (fun p q => chord p.vec q.vec) c1 found)

end

end Verif

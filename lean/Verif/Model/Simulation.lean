import Verif.Base.Sqrt
import Verif.Model.Correction
import Verif.Model.Fitting
import Verif.Model.Photometry
import Verif.Model.Profiles

/-!
# petrofit/petrosian/correction.py:24-184 `_generate_petrosian_correction` as a whole

From `(r_eff, n)` to the row of the correction grid: the Sersic numbers, the radii, the model image, the photometry and the row
(`Verif.Model.Correction.simRow`).  Plotting is left out.  The Sersic numbers are real numbers (`Verif.Model.Profiles`); the photometry
rounds to six decimals as the code does.
-/

namespace Verif

open F

noncomputable section

/-- astropy's `Sersic2D.evaluate`, which petrofit uses as is (correction.py:65-73), at one point.  For positive radii it is the function
that `GenSersic2D` (petrofit/modeling/models.py:572-591) generalises. -/
def sersic2D (x y amplitude rEff n x0 y0 ellip theta : ℝ) : ℝ :=
  let xMaj := (x - x0) * Real.cos theta + (y - y0) * Real.sin theta
  let xMin := -(x - x0) * Real.sin theta + (y - y0) * Real.cos theta
  let z := Real.sqrt ((xMaj / rEff) ^ 2 + (xMin / ((1 - ellip) * rEff)) ^ 2)
  amplitude * Real.exp (-bn n * (z ^ (1 / n) - 1))

/-- `Sersic2D` as a model that can be wrapped: parameter names in astropy's order. -/
def sersicSub : SubModel ℝ where
  paramNames := ["amplitude", "r_eff", "n", "x_0", "y_0", "ellip", "theta"]
  eval := fun p x y => match p with
    | [amplitude, rEff, n, x0, y0, ellip, theta] => sersic2D x y amplitude rEff n x0 y0 ellip theta
    | _ => 0

/-- `sersic_enclosed(np.inf, ...)` (petrofit/modeling/models.py:653-668): `x` is infinite and `gammainc(2n, inf) = 1`. -/
def sersicTotal (amplitude rEff n ellip : ℝ) : ℝ :=
  let b := bn n
  let g := Real.Gamma (2 * n) * 1
  amplitude * rEff ^ 2 * 2 * Real.pi * n * (Real.exp b / b ^ (2 * n)) * g * (1 - ellip)

/-- The Sersic numbers of one simulation. -/
structure SimNumbers where
  amplitude : ℝ
  lTotal : ℝ
  totalFlux : ℝ
  r20 : ℝ
  r80 : ℝ
  rTotal : ℝ

/-- petrofit/petrosian/correction.py:32-44: the amplitude, the total flux and the radii. -/
def simNumbers (rEff n : ℝ) : SimNumbers :=
  let amplitude := 100 / Real.exp (gammaincinv (2 * n) (1 / 2))
  let lTotal := sersicTotal amplitude rEff n 0
  let totalFlux := lTotal * (99 / 100)
  let inv (fraction : ℝ) := sersicEnclosedInv (totalFlux * fraction) amplitude rEff n 0
  ⟨amplitude, lTotal, totalFlux, inv (1 / 5), inv (4 / 5), inv 1⟩

/-- petrofit/petrosian/correction.py:46-55: the radii. -/
def simRs (rEff n : ℝ) : List Nat := simRadii (simMaxR rEff n (simNumbers rEff n).rTotal)

/-- petrofit/petrosian/correction.py:57 `image_size = max(r_list) * 2` (`max` of an empty list raises ValueError; the list is never
empty when `max_r >= 0`). -/
def simSize (rs : List Nat) : Nat := rs.foldl max 0 * 2

/-- petrofit/petrosian/correction.py:59-60: `x_0` and `y_0`. -/
def simCentre (rs : List Nat) : Nat := simSize rs / 2

/-- petrofit/petrosian/correction.py:62-81: the model image. -/
def simImage (integ : GridModel ℝ → ℝ × ℝ → ℝ × ℝ → Except PyErr (Img ℝ)) (rot : Img ℝ → ℝ → Img ℝ) (psf : Option (Img ℝ))
    (oversample : OversampleArg ℝ) (psfOversample : PsfOversampleArg) (rEff n : ℝ) : Except PyErr (Img ℝ) := do
  let rs := simRs rEff n
  let c : ℝ := (simCentre rs : ℝ)
  let M ← PSFModel.init sersicSub psf oversample psfOversample
  modelToImage integ (M.onGrid rot [(simNumbers rEff n).amplitude, rEff, n, c, c, 0, 0] 0) (.num (fin (simSize rs : ℝ))) .center 1
    (some (.seq [c, c]))

/-- petrofit/petrosian/correction.py:83-86: the photometry of the image (fluxes, areas, errors). -/
def simPhotometry (ov : Overlap ℝ) (image : Img ℝ) (rs : List Nat) : Except PyErr (List (F ℝ) × List (F ℝ) × List (F ℝ)) :=
  radialPhotometry ov (image.map fin) (simCentre rs) (simCentre rs) (rs.map fun r : Nat => (r : ℝ)) none none 1 0

/-- petrofit/petrosian/correction.py:24-184 `_generate_petrosian_correction`. -/
def simulate (ip : InterpFam ℝ) (ov : Overlap ℝ) (integ : GridModel ℝ → ℝ × ℝ → ℝ × ℝ → Except PyErr (Img ℝ))
    (rot : Img ℝ → ℝ → Img ℝ) (psf : Option (Img ℝ)) (oversample : OversampleArg ℝ) (psfOversample : PsfOversampleArg)
    (rEff n : ℝ) : Except PyErr (List (F ℝ)) := do
  let s := simNumbers rEff n
  let rs := simRs rEff n
  let image ← simImage integ rot psf oversample psfOversample rEff n
  let ph ← simPhotometry ov image rs
  simRow ip (fin n) (fin rEff) (fin s.r20) (fin s.r80) (fin s.rTotal) (fin s.lTotal) (fin s.totalFlux) (rs.map fun r : Nat => fin (r : ℝ))
    ph.2.1 ph.1

end

end Verif

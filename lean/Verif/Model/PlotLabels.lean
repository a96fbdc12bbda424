import Verif.Model.Rounding
import Verif.Model.Plots

/-!
# petrofit/petrosian/core.py: labels of `Petrosian.plot` and `Petrosian.plot_cog`, and `_plot_radii`
-/

namespace Verif

open F

/-- `int(x)` of a float: truncation towards zero; ValueError for NaN and OverflowError (modelled as `exception`) for infinities. -/
def pyIntF {K : Type} [Field K] [LinearOrder K] [FloorRing K] : F K → Except PyErr ℤ
  | .fin x => .ok (if 0 ≤ x then ⌊x⌋ else ⌈x⌉)
  | .nan => .error .valueError
  | _ => .error .exception

/-- petrofit/petrosian/core.py:912, 1173 `int(self.total_flux_fraction * 100)`: the subscript of `L` in the legend. -/
def legendPercent {K : Type} [Field K] [LinearOrder K] [FloorRing K] (fl : K → K) (fraction : F K) : Except PyErr ℤ :=
  pyIntF ((fraction * fin 100).rnd fl)

/-- petrofit/petrosian/core.py:993, 1127: `"" if radius_unit is None else str(radius_unit)`. -/
def unitText (unit : Option String) : String := unit.getD ""

/-- petrofit/petrosian/core.py:1045-1048, 1190-1193: the conditional expression covers the whole sum. -/
def xLabel (unit : Option String) : String :=
  if unitText unit ≠ "" then "Aperture Radius" ++ (" [" ++ unitText unit ++ "]") else ""

/-- petrofit/petrosian/core.py:1194-1197: here the conditional expression is in parentheses. `flux_unit` is used as it is. -/
def yLabelCog (unit : Option String) : String :=
  "$L(\\leq r)$" ++ (if unitText unit ≠ "" then " [" ++ unitText unit ++ "]" else "")

/-- A vertical line drawn by `_plot_radii`: its radius and the subscript of its label. -/
structure RadiusLine (K : Type) where
  x : F K
  symbol : String
  sub : F K ⊕ ℤ

/-- petrofit/petrosian/core.py:894-933 `_plot_radii`: a line for each radius that is not NaN. -/
def plotRadii {K : Type} [Field K] [LinearOrder K] [FloorRing K] (fl : K → K) (eta rP rTotal rHalf totalFluxFraction : F K) :
    Except PyErr (List (RadiusLine K)) := do
  let a := if rP.isNaN then [] else [⟨rP, "p", .inl eta⟩]
  let b ← if rTotal.isNaN then .ok [] else do
    let k ← legendPercent fl totalFluxFraction
    .ok [⟨rTotal, "total", .inr k⟩]
  let c := if rHalf.isNaN then [] else [⟨rHalf, "50", .inr 50⟩]
  .ok (a ++ b ++ c)

end Verif

import Mathlib.Analysis.SpecialFunctions.Pow.Real
import Mathlib.Analysis.SpecialFunctions.Sqrt
import Mathlib.Analysis.SpecialFunctions.Trigonometric.Basic
import Mathlib.MeasureTheory.Integral.IntervalIntegral.Basic

/-!
# What the analytic profiles should be

Textbook definitions (Sersic 1963; Graham & Driver 2005; Graham et al. 2003; Lauer et al.
1995; Petrosian 1976), written without any helper of the model.
-/

namespace Verif.Spec

open Real

noncomputable section

/-- Sersic intensity at radius `t`: `Ie exp(-b ((t/Re)^(1/n) - 1))`. -/
def sersic (b ie re n t : ℝ) : ℝ := ie * Real.exp (-(b * ((t / re) ^ (1 / n) - 1)))

/-- The coefficient `b` for which the radius `Re` is the half light radius: half of the
light of the profile `e^{-b t^{1/n}}`, i.e. half of `Γ(2n) = ∫ e^{-t} t^{2n-1}`, is inside
`t = b`. -/
def HalfLight (b n : ℝ) : Prop :=
  0 < b ∧ ∫ t in (0 : ℝ)..b, Real.exp (-t) * t ^ (2 * n - 1) =
    (∫ t in Set.Ioi (0 : ℝ), Real.exp (-t) * t ^ (2 * n - 1)) / 2

/-- Flux inside the ellipse with semi major axis `r` and axis ratio `q` of a profile with
elliptical isophotes of that axis ratio and intensity `I` along the major axis. -/
def enclosed (I : ℝ → ℝ) (q r : ℝ) : ℝ := ∫ t in (0 : ℝ)..r, 2 * π * t * I t * q

/-- The Petrosian ratio at `r` of a circular profile: local intensity over the mean
intensity inside `r`. -/
def petroRatio (I : ℝ → ℝ) (r : ℝ) : ℝ := I r / (enclosed I 1 r / (π * r ^ 2))

/-- The elliptical radius of a point: the semi major axis of the ellipse with axis ratio
`1 - ellip` and position angle `theta` around the centre which goes through the point. -/
def ellRadius (x y x0 y0 ellip theta : ℝ) : ℝ :=
  √(((x - x0) * Real.cos theta + (y - y0) * Real.sin theta) ^ 2 +
    ((-(x - x0) * Real.sin theta + (y - y0) * Real.cos theta) / (1 - ellip)) ^ 2)

/-- Euclidean distance. -/
def distTo (x y x0 y0 : ℝ) : ℝ := √((x - x0) ^ 2 + (y - y0) ^ 2)

/-- The Nuker law (Lauer et al. 1995), intensity `Ib` at the break radius `rb`. -/
def nuker (ib rb alpha beta gamma r : ℝ) : ℝ :=
  ib * (2 : ℝ) ^ ((beta - gamma) / alpha) * (r / rb) ^ (-gamma) *
    (1 + (r / rb) ^ alpha) ^ ((gamma - beta) / alpha)

/-- The core-Sersic law (Graham et al. 2003, equations 5 and 6), intensity `Ib` at the break
radius `rb`. -/
def coreSersic (b ib re rb n alpha gamma r : ℝ) : ℝ :=
  ib * (2 : ℝ) ^ (-(gamma / alpha)) * Real.exp (b * ((2 : ℝ) ^ (1 / alpha) * rb / re) ^ (1 / n)) *
    (1 + (rb / r) ^ alpha) ^ (gamma / alpha) *
    Real.exp (-(b * ((r ^ alpha + rb ^ alpha) / re ^ alpha) ^ (1 / (alpha * n))))

end

end Verif.Spec

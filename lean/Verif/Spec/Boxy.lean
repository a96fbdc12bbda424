import Verif.Spec.Profiles

/-!
# Generalised ellipses
-/

namespace Verif.Spec

open Real

noncomputable section

/-- The radius of a point in generalised ellipses (Peng et al. 2010): the semi major axis of the curve
`|X / a|^(c0 + 2) + |Y / (a (1 - ellip))|^(c0 + 2) = 1` around the centre which goes through the point, `X` and `Y` along the axes. -/
def boxRadius (x y x0 y0 ellip theta c0 : ℝ) : ℝ :=
  (|(x - x0) * Real.cos theta + (y - y0) * Real.sin theta| ^ (c0 + 2) +
    |(-(x - x0) * Real.sin theta + (y - y0) * Real.cos theta) / (1 - ellip)| ^ (c0 + 2)) ^ (1 / (c0 + 2))

/-- The area of the curve `|X|^p + |Y|^p = 1`. -/
def boxArea (p : ℝ) : ℝ := (MeasureTheory.volume {u : ℝ × ℝ | |u.1| ^ p + |u.2| ^ p < 1}).toReal

end

end Verif.Spec

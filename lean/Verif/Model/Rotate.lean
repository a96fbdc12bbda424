import Verif.Model.PSFChecks
import Mathlib.Analysis.SpecialFunctions.Trigonometric.Basic

/-!
# petrofit/modeling/models.py:531: the rotation of the PSF by any angle
-/

namespace Verif

/-- petrofit/modeling/models.py:531 `rotate(psf, psf_p, reshape=False)`, that is `scipy.ndimage.rotate` with `order=3`, `mode="constant"` and
`cval=0`: output pixel `o` is the interpolated input at `matrix @ o + offset` with `matrix = [[c, s], [-s, c]]` and
`offset = (shape - 1) / 2 - matrix @ ((shape - 1) / 2)`, and zero if that point is outside of `[0, h - 1] × [0, w - 1]`.  `interp` is the spline
(row and column of the point); numbers are real. -/
noncomputable def rotateBy (interp : Img ℝ → ℝ → ℝ → ℝ) (im : Img ℝ) (angle : ℝ) : Img ℝ :=
  let c := Real.cos (angle * Real.pi / 180)
  let s := Real.sin (angle * Real.pi / 180)
  let ch := ((im.h : ℝ) - 1) / 2
  let cw := ((im.w : ℝ) - 1) / 2
  ⟨im.h, im.w, fun i j =>
    let y := c * i + s * j + (ch - (c * ch + s * cw))
    let x := -s * i + c * j + (cw - (-s * ch + c * cw))
    if (0 ≤ y ∧ y ≤ im.h - 1) ∧ 0 ≤ x ∧ x ≤ im.w - 1 then interp im y x else 0⟩

end Verif

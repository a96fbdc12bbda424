import Mathlib.Analysis.SpecialFunctions.Gamma.Basic
import Mathlib.Analysis.SpecialFunctions.Trigonometric.Basic
import Mathlib.Analysis.SpecialFunctions.Pow.Real

/-!
# The analytic profiles of `petrofit/modeling/models.py`

The functions are modelled over the real numbers.  `np.exp`, `np.cos`, `np.sin`, `np.sqrt`,
`**` and `abs` are the mathematical functions, and the special functions of
`scipy.special` are modelled by their mathematical definitions: rounding, overflow and the
finite accuracy of scipy are not modelled.

Arguments for which the Python code produces NaN (for instance `petrosian_profile` at
`r = 0`, or a negative number raised to a fractional power) are outside of the model; every
theorem has hypotheses which exclude them.  The only NaN the code writes on purpose, the
centre of `Nuker2D` and of `CoreSersic2D`, is modelled by `none`.
-/

namespace Verif

open Real

noncomputable section

/-! ### `scipy.special` -/

/-- The lower incomplete gamma function `γ(s, x)`, which is what the code computes as
`gamma(s) * gammainc(s, x)`. -/
def lowerGamma (s x : ℝ) : ℝ := ∫ t in (0 : ℝ)..x, Real.exp (-t) * t ^ (s - 1)

/-- `scipy.special.gammainc(s, x)` (imported in `petrofit/modeling/models.py:9`): the
regularised lower incomplete gamma function. -/
def gammainc (s x : ℝ) : ℝ := lowerGamma s x / Real.Gamma s

open Classical in
/-- `scipy.special.gammaincinv(s, p)` (imported in `petrofit/modeling/models.py:9`): the
`x ≥ 0` with `gammainc(s, x) = p`.  That there is exactly one for `s > 0` and `0 ≤ p < 1` is
proved in `Verif.Lemmas.IncGamma`; outside of this range (where scipy returns infinity or
NaN) the value is irrelevant. -/
def gammaincinv (s p : ℝ) : ℝ :=
  if h : ∃ x, 0 ≤ x ∧ gammainc s x = p then Classical.choose h else 0

/-- `bn = gammaincinv(2.0 * n, 0.5)`; `petrofit/modeling/models.py:581, 629, 655, 673, 697`. -/
def bn (n : ℝ) : ℝ := gammaincinv (2 * n) (1 / 2)

/-! ### Intensities -/

/-- `Ie_to_I0`; `petrofit/modeling/models.py:33-50`. -/
def ieToI0 (ie n : ℝ) : ℝ := ie * Real.exp (gammaincinv (2 * n) (1 / 2))

/-- `I0_to_Ie`; `petrofit/modeling/models.py:53-70`. -/
def i0ToIe (i0 n : ℝ) : ℝ := i0 / Real.exp (gammaincinv (2 * n) (1 / 2))

/-! ### Fluxes -/

/-- `sersic_enclosed(r, amplitude, r_eff, n, ellip=0)`;
`petrofit/modeling/models.py:653-668` (the astropy wrapper `sersic_enclosed_model`, lines
689-692, is the same function). -/
def sersicEnclosed (r amplitude rEff n ellip : ℝ) : ℝ :=
  let b := bn n
  let x := b * (r / rEff) ^ (1 / n)
  let g := Real.Gamma (2 * n) * gammainc (2 * n) x
  amplitude * rEff ^ 2 * 2 * π * n * (Real.exp b / b ^ (2 * n)) * g * (1 - ellip)

/-- `sersic_enclosed_inv(f, amplitude, r_eff, n, ellip=0)`;
`petrofit/modeling/models.py:671-686`. -/
def sersicEnclosedInv (f amplitude rEff n ellip : ℝ) : ℝ :=
  let b := bn n
  let g := f / (amplitude * rEff ^ 2 * 2 * π * n * (Real.exp b / b ^ (2 * n)) * (1 - ellip))
  let x := gammaincinv (2 * n) (g / Real.Gamma (2 * n))
  (x / b) ^ n * rEff

/-- `petrosian_profile(r, r_eff, n)`; `petrofit/modeling/models.py:695-703` (the astropy
wrapper `petrosian_model`, lines 706-709, is the same function). -/
def petrosianProfile (r rEff n : ℝ) : ℝ :=
  let b := bn n
  let x := b * (r / rEff) ^ (1 / n)
  let g := Real.Gamma (2 * n) * gammainc (2 * n) x
  (Real.exp (-x) * x ^ (2 * n)) / (2 * n * g)

/-! ### Two dimensional models -/

/-- `GenSersic2D.evaluate`; `petrofit/modeling/models.py:572-591`, for one point. -/
def genSersic2D (x y amplitude rEff n x0 y0 ellip theta c0 : ℝ) : ℝ :=
  let b' := bn n
  let a := rEff
  let b := (1 - ellip) * rEff
  let xMaj := (x - x0) * Real.cos theta + (y - y0) * Real.sin theta
  let xMin := -(x - x0) * Real.sin theta + (y - y0) * Real.cos theta
  let z := (|xMaj / a| ^ (c0 + 2) + |xMin / b| ^ (c0 + 2)) ^ (1 / (c0 + 2))
  amplitude * Real.exp (-b' * (z ^ (1 / n) - 1))

/-- `Nuker2D`; `petrofit/modeling/models.py:594-608`, for one point of an array; `none` is
the NaN which line 601 writes at the centre. -/
def nuker2D (x y amplitude rBreak x0 y0 alpha betta gamma : ℝ) : Option ℝ :=
  let xMaj := (x - x0) + (y - y0)
  let xMin := -(x - x0) + (y - y0)
  let r := √(xMaj ^ 2 + xMin ^ 2)
  if r = 0 then none
  else some (amplitude * (2 : ℝ) ^ ((betta - gamma) / alpha) * (r / rBreak) ^ (-gamma) *
    (1 + (r / rBreak) ^ alpha) ^ ((gamma - betta) / alpha))

/-- `CoreSersic2D`; `petrofit/modeling/models.py:611-650`, for one point of an array; `none`
is the NaN which line 636 writes at the centre. -/
def coreSersic2D (x y amplitude rEff rBreak n x0 y0 alpha gamma ellip theta : ℝ) :
    Option ℝ :=
  let b' := bn n
  let a := rEff
  let b := (1 - ellip) * rEff
  let xMaj := (x - x0) * Real.cos theta + (y - y0) * Real.sin theta
  let xMin := -(x - x0) * Real.sin theta + (y - y0) * Real.cos theta
  let r := √((xMaj / a) ^ 2 + (xMin / b) ^ 2)
  if r = 0 then none
  else
    let i := amplitude * (2 : ℝ) ^ (-(gamma / alpha)) *
      Real.exp (b' * ((2 : ℝ) ^ (1 / alpha) * (rBreak / rEff)) ^ (1 / n))
    some (i * (1 + (rBreak / r) ^ alpha) ^ (gamma / alpha) *
      Real.exp (-b' * ((r ^ alpha + rBreak ^ alpha) / rEff ^ alpha) ^ (1 / (alpha * n))))

end

end Verif

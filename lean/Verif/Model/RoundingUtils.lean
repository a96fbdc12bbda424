import Verif.Model.Rounding
import Verif.Model.UtilsMore

/-!
# The conversions of petrofit/utils.py in rounded arithmetic

Every operation is followed by a rounding `fl`, see Model/Rounding.lean.
-/

set_option linter.unusedSectionVars false

namespace Verif

open F

section
variable {K : Type} [Field K] [LinearOrder K] (fl : K → K)

/-- petrofit/utils.py:40-42 `ellip_to_elong` of a python float, in rounded arithmetic. -/
def ellipToElongR (ellip : F K) : Except PyErr (F K) := (pyDiv (fin 1) ((fin 1 - ellip).rnd fl)).map (F.rnd fl)

/-- petrofit/utils.py:45-47 `elong_to_ellip` of a python float, in rounded arithmetic. -/
def elongToEllipR (elong : F K) : Except PyErr (F K) := (pyDiv ((elong - fin 1).rnd fl) elong).map (F.rnd fl)

/-- petrofit/utils.py:85-94 `angular_to_pixel` in rounded arithmetic.  astropy multiplies the scale with the (rounded) ratio of the units
and divides.  The comparison `np.allclose` is that of Model/UtilsMore.lean. -/
def angularToPixelR (t : Angle K) (w : Wcs K) : Except PyErr (F K) :=
  if npAllclose w.scale0 w.scale1 then .ok ((t.value / (w.scale0 * (fin (w.cunit / t.unit)).rnd fl).rnd fl).rnd fl) else .error .assertionError

/-- petrofit/utils.py:97-107 `pixel_to_angular` in rounded arithmetic. -/
def pixelToAngularR (p : F K) (w : Wcs K) : Except PyErr (Angle K) :=
  if npAllclose w.scale0 w.scale1 then .ok ⟨(p * (w.scale0 * (fin (w.cunit / 1)).rnd fl).rnd fl).rnd fl, 1⟩ else .error .assertionError

end

section
variable (fl : ℝ → ℝ)

/-- petrofit/utils.py:110-114 `elliptical_area_to_r` in rounded arithmetic; `np.pi` is the rounded number. -/
noncomputable def ellipticalAreaToRR (area elong : F ℝ) : F ℝ × F ℝ :=
  let a := (F.sqrt ((((elong * area).rnd fl) / (fin Real.pi).rnd fl).rnd fl)).rnd fl
  (a, (a / elong).rnd fl)

/-- petrofit/utils.py:117-119 `circle_area_to_r` in rounded arithmetic. -/
noncomputable def circleAreaToRR (area : F ℝ) : F ℝ := (F.sqrt ((area / (fin Real.pi).rnd fl).rnd fl)).rnd fl

end
end Verif

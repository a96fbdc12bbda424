import Verif.Model.Fitting
import Mathlib.Analysis.SpecialFunctions.Log.Basic
import Mathlib.Analysis.SpecialFunctions.Trigonometric.Basic
import Mathlib.Analysis.SpecialFunctions.Sqrt

/-!
# petrofit/modeling/fitting.py: `fit_gaussian2d`, `plot_fit` and `measure_fwhm`
-/

set_option linter.unusedSectionVars false

namespace Verif

/-- The parameters of `astropy.modeling.models.Gaussian2D`. -/
structure Gauss2D (α : Type) where
  amplitude : α
  xMean : α
  yMean : α
  xStddev : α
  yStddev : α
  theta : α

/-- Elementwise function. -/
def Gauss2D.map {α β : Type} (f : α → β) (g : Gauss2D α) : Gauss2D β :=
  ⟨f g.amplitude, f g.xMean, f g.yMean, f g.xStddev, f g.yStddev, f g.theta⟩

section
variable {K : Type} [Field K] [LinearOrder K]

/-- `image.max()`: ValueError on an empty array, NaN if some value is NaN. -/
def imageMax (im : Img (F K)) : Except PyErr (F K) :=
  match (List.range im.h).flatMap fun i => (List.range im.w).map fun j => im.px i j with
  | [] => .error .valueError
  | a :: l => .ok (l.foldl (fun m v => if m.isNaN || v.isNaN then .nan else if F.lt m v then v else m) a)

/-- petrofit/modeling/fitting.py:311-318: the model the fit is started from (`x_stddev`, `y_stddev` and `theta` have the defaults of
astropy, 1, 1 and 0). -/
def gaussStart (im : Img (F K)) : Except PyErr (Gauss2D (F K)) := do
  let m ← imageMax im
  .ok ⟨m, .fin ((im.w / 2 : Nat) : K), .fin ((im.h / 2 : Nat) : K), .fin 1, .fin 1, .fin 0⟩

/-- petrofit/modeling/fitting.py:295-321 `fit_gaussian2d`. -/
def fitGaussian2d (fitter : Gauss2D (F K) → FitData K → Except PyErr (Gauss2D (F K))) (im : Img (F K)) :
    Except PyErr (Gauss2D (F K)) := do
  let m ← gaussStart im
  fitModel fitter im (fun _ _ => false) m none

/-- petrofit/modeling/fitting.py:410-424 and 474 `plot_fit`: the model image and the residual image.  The drawing is not modelled. -/
def plotFit [FloorRing K] (integ : GridModel K → K × K → K × K → Except PyErr (Img K)) (m : GridModel K) (image : Img (F K))
    (mode : DiscMode) (center : Option (CenterArg K)) : Except PyErr (Img K × Img (F K)) := do
  let mi ← modelToImage integ m (.seq [.num (.fin (image.w : K)), .num (.fin (image.h : K))]) mode 1 center
  if image.h = mi.h ∧ image.w = mi.w then
    .ok (mi, ⟨image.h, image.w, fun i j => image.px i j - .fin (mi.px i j)⟩)
  else .error .valueError

end

noncomputable section

/-- `Gaussian2D.evaluate` of astropy. -/
def Gauss2D.eval (g : Gauss2D ℝ) (x y : ℝ) : ℝ :=
  let cost2 := Real.cos g.theta ^ 2
  let sint2 := Real.sin g.theta ^ 2
  let sin2t := Real.sin (2 * g.theta)
  let xstd2 := g.xStddev ^ 2
  let ystd2 := g.yStddev ^ 2
  let xdiff := x - g.xMean
  let ydiff := y - g.yMean
  let a := 0.5 * (cost2 / xstd2 + sint2 / ystd2)
  let b := 0.5 * (sin2t / xstd2 - sin2t / ystd2)
  let c := 0.5 * (sint2 / xstd2 + cost2 / ystd2)
  g.amplitude * Real.exp (-(a * xdiff ^ 2 + b * xdiff * ydiff + c * ydiff ^ 2))

/-- `astropy.stats.gaussian_sigma_to_fwhm`. -/
def gaussianSigmaToFwhm : ℝ := 2 * √(2 * Real.log 2)

/-- petrofit/modeling/fitting.py:519-578 `measure_fwhm`.  `int(np.round(mean_fwhm))` (line 527-528) fails on NaN and on infinities
(OverflowError, modelled as `exception`).  With `plot` the call `plot_fit(image, fitted_line)` passes the image as the model and the
fitted model as the image, and `image.shape` fails: models have no attribute `shape`. -/
def measureFwhm (fitter : Gauss2D (F ℝ) → FitData ℝ → Except PyErr (Gauss2D (F ℝ))) (im : Img (F ℝ)) (plot : Bool := true) :
    Except PyErr (F ℝ × F ℝ) := do
  let g ← fitGaussian2d fitter im
  let xFwhm := g.xStddev * .fin gaussianSigmaToFwhm
  let yFwhm := g.yStddev * .fin gaussianSigmaToFwhm
  match (xFwhm + yFwhm) / .fin 2 with
  | .nan => .error .valueError
  | .fin _ => if plot then .error .attributeError else .ok (xFwhm, yFwhm)
  | _ => .error .exception

end

end Verif

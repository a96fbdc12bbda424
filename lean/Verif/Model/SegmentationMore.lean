import Verif.Model.Segmentation
import Mathlib.Analysis.Real.Pi.Bounds

/-!
# petrofit/segmentation.py: the catalog pipeline, source accessors, isophote amplitudes and the residual plot

The detection, deblending, catalog and isophote algorithms of photutils are parameters.
-/

set_option linter.unusedSectionVars false

namespace Verif

open F MM

/-- The photutils functions of the pipeline: `detect_sources(data, threshold, npixels)` (no source: `None`),
`deblend_sources(data, segm, npixels, nlevels, contrast)` and `SourceCatalog(data, segm, wcs)`.  `T`, `W` and `C` are the thresholds, WCS
objects and catalogs. -/
structure SegLib (K T W C : Type) where
  detect : Img (F K) → T → Option Nat → Except PyErr (Option (Img Int))
  deblend : Img (F K) → Option (Img Int) → Option Nat → Nat → F K → Except PyErr (Img Int)
  catalog : Img (F K) → Option (Img Int) → Option W → Except PyErr C

/-- The `image` argument: an array, or a `CCDData` or `Cutout2D` holding one. -/
inductive ImageArg (K : Type)
  | array (a : Img (F K))
  | ccdData (a : Img (F K))
  | cutout (a : Img (F K))

/-- The array of an image argument (`image.data`). -/
def ImageArg.data {K : Type} : ImageArg K → Img (F K)
  | .array a => a
  | .ccdData a => a
  | .cutout a => a

section
variable {K T W C : Type} [Field K] [LinearOrder K] (lib : SegLib K T W C)

/-- petrofit/segmentation.py:289-318 `make_segments`. -/
def makeSegments (image : Img (F K)) (npixels : Option Nat) (threshold : T) : Except PyErr (Option (Img Int)) :=
  lib.detect image threshold npixels

/-- petrofit/segmentation.py:321-368 `deblend_segments`. -/
def deblendSegments (image : Img (F K)) (segm : Option (Img Int)) (npixels : Option Nat) (nlevels : Nat := 30)
    (contrast : F K := fin (1 / 1000)) : Except PyErr (Img Int) :=
  lib.deblend image segm npixels nlevels contrast

/-- petrofit/segmentation.py:455-462: the first map is drawn when there is one. -/
def firstPlot (plot : Bool) (segm : Option (Img Int)) : List (String × Img Int) :=
  match segm with
  | some s => if plot then [("Segmentation Map", s)] else []
  | none => []

/-- petrofit/segmentation.py:371-485 `make_catalog`: the catalog, the map, the deblended map, and what is drawn.  Line 473 uses the axes of
the first plot, which exist only when there is a first map (otherwise UnboundLocalError). -/
def makeCatalog (image : ImageArg K) (threshold : T) (wcs : Option W) (deblend : Bool := true) (npixels : Option Nat := none)
    (nlevels : Nat := 30) (contrast : F K := fin (1 / 1000)) (plot : Bool := true) :
    Except PyErr ((C × Option (Img Int) × Option (Img Int)) × List (String × Img Int)) := do
  let image := image.data
  let segm ← makeSegments lib image npixels threshold
  let drawn := firstPlot plot segm
  if deblend then do
    let d ← deblendSegments lib image segm npixels nlevels contrast
    if plot && segm.isNone then .error .exception
    else do
      let cat ← lib.catalog image (some d) wcs
      .ok ((cat, segm, some d), drawn ++ (if plot then [("Deblended Segmentation Map", d)] else []))
  else do
    let cat ← lib.catalog image segm wcs
    .ok ((cat, segm, none), drawn)

/-- petrofit/segmentation.py:56-62 `plot_segment_residual` for an array: returns the array shown.  `temp[np.where(segm.data != 0)] = 0.0`
raises IndexError when a non-zero label lies outside the image. -/
def plotSegmentResidual (segm : Img Int) (image : Nat) : MM K (Img (F K)) := do
  let temp ← newImg (← getImg image)
  let px ← getImg temp
  if (pixels segm.h segm.w).any fun q => segm.px q.1 q.2 != 0 && !(decide (q.1 < px.h) && decide (q.2 < px.w)) then
    lift (.error .indexError)
  else do
    setImg temp { px with px := fun i j => if i < segm.h ∧ j < segm.w ∧ segm.px i j ≠ 0 then fin 0 else px.px i j }
    getImg temp

/-- petrofit/segmentation.py:101-167 `get_amplitude_at_r`: `float(r)` (line 141; `None` stands for a value that is not a number: TypeError) is
outside the `try`; any exception of the isophote fit (`fit`: image, x0, y0, ellip, theta, r) gives NaN and a warning (second component). -/
def getAmplitudeAtR (fit : Img (F K) → F K → F K → F K → F K → F K → Except PyErr (F K)) (r : Option (F K)) (image : ImageArg K)
    (x0 y0 ellip theta : F K) : Except PyErr (F K × Bool) :=
  match r with
  | none => .error .typeError
  | some r =>
    match fit image.data x0 y0 ellip theta r with
    | .ok a => .ok (a, false)
    | .error _ => .ok (nan, true)

end

/-! ### Source accessors -/

/-- A source: an entry of a `SourceCatalog`, with the position of its maximum, its semi-axes and its orientation in degrees, or the row
of a table with these columns. -/
inductive Source
  | catalog (xmax ymax : Nat) (major minor orientationDeg : ℝ)
  | row (xmax ymax : Nat) (elongation ellipticity orientationDeg : ℝ)

namespace Source

/-- petrofit/segmentation.py:65-71 `get_source_position`. -/
def position : Source → Nat × Nat
  | catalog x y _ _ _ => (x, y)
  | row x y _ _ _ => (x, y)

/-- petrofit/segmentation.py:74-80 `get_source_elong`; photutils' elongation is major over minor axis. -/
noncomputable def elong : Source → ℝ
  | catalog _ _ a b _ => a / b
  | row _ _ e _ _ => e

/-- petrofit/segmentation.py:83-89 `get_source_ellip`; photutils' ellipticity is 1 - minor / major. -/
noncomputable def ellip : Source → ℝ
  | catalog _ _ a b _ => 1 - b / a
  | row _ _ _ e _ => e

/-- petrofit/segmentation.py:92-98 `get_source_theta`: degrees to radians, with `Quantity.to` or `np.deg2rad`. -/
noncomputable def theta : Source → ℝ
  | catalog _ _ _ _ d => d * (Real.pi / 180)
  | row _ _ _ _ d => d * (Real.pi / 180)

/-- A row of `SourceCatalog.to_table()` (photutils). -/
noncomputable def toTable : Source → Source
  | catalog x y a b d => row x y (a / b) (1 - b / a) d
  | s => s

end Source
end Verif

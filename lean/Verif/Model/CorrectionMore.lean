import Verif.Model.Correction
import Verif.Model.UtilsMore

/-!
# petrofit/petrosian/correction.py: grid files, grid queries and the grid plot; angular radii of a Petrosian object

Files are tables by name: the table format is taken to store the numbers exactly (as `ascii.ecsv` and FITS do).
-/

set_option linter.unusedSectionVars false

namespace Verif

open F

/-- The files: the table stored under each name. -/
abbrev Files (K : Type) := String → Option (Table K)

section
variable {K : Type} [Field K] [LinearOrder K]

namespace Correction

/-- petrofit/petrosian/correction.py:393-401 `read`: `Table.read`, then the class is constructed from the table alone, so `enforce_range` has
its default.  A missing file raises (FileNotFoundError). -/
def read (fs : Files K) (file : String) : Except PyErr (Correction K) :=
  match fs file with
  | none => .error .exception
  | some t => init t

variable (c : Correction K)

/-- petrofit/petrosian/correction.py:403-405 `write`: `Table.write` without `overwrite` raises (OSError) when the file exists. -/
def write (fs : Files K) (file : String) : Except PyErr (Files K) :=
  match fs file with
  | some _ => .error .exception
  | none => .ok fun name => if name = file then some c.grid else fs name

/-- petrofit/petrosian/correction.py:407-410 `grid_keys`. -/
def gridKeys : List String := c.grid.names

/-- petrofit/petrosian/correction.py:412-414 `unique_grid_values`. -/
def uniqueGridValues (key : String) : Except PyErr (List (F K)) := do
  let l ← c.grid.col key
  .ok ((uniqueIndex l).map Prod.fst)

/-- petrofit/petrosian/correction.py:416-419 `filter_grid`: `np.where(column == value)`, then the rows at these indices. -/
def filterGrid (key : String) (value : F K) : Except PyErr (Table K) := do
  let l ← c.grid.col key
  let idx := (List.range l.length).filter fun i => F.eqv (l.getD i nan) value
  let rows ← idx.mapM fun i => getItem c.grid.rows i
  .ok { names := c.grid.names, rows := rows }

end Correction

/-- What `_plot_grid` draws on its three axes: the coloured grid points, their colours and the upper colour limit, and, for a target, its
three markers and the three segments from the target to the highlighted row. -/
structure CorrectionPlot (K : Type) where
  points : List (List (F K × F K))
  colours : List (F K)
  vmax : F K
  targets : List (F K × F K)
  links : List ((F K × F K) × (F K × F K))

namespace Correction
variable (c : Correction K) [HasSqrt K]

/-- petrofit/petrosian/correction.py:506-624 `_plot_grid` with a target: `max` of the colour column (ValueError when there are no rows),
three scatter plots, three target markers, three links. -/
def plotGrid (x0 y0 z0 : F K) (cmapKey : String := "n") : Except PyErr (CorrectionPlot K) := do
  let sim ← c.grid.col cmapKey
  let top ← pyMax sim
  let idx ← npArgmin (c.dr x0 y0 z0)
  let cx ← getItem c.x idx
  let cy ← getItem c.y idx
  let cz ← getItem c.z idx
  .ok { points := [c.x.zip c.y, c.x.zip c.z, c.y.zip c.z]
        colours := sim
        vmax := top + fin 1
        targets := [(x0, y0), (x0, z0), (y0, z0)]
        links := [((x0, y0), (cx, cy)), ((x0, z0), (cx, cz)), ((y0, z0), (cy, cz))] }

/-- petrofit/petrosian/correction.py:626-674 `plot_correction`. -/
def plotCorrection (ip : InterpFam K) [HasLog10 K] (p : Petrosian K) (cmapKey : String := "n") : Except PyErr (CorrectionPlot K) := do
  let t ← getXYZ ip p
  c.plotGrid t.1 t.2.1 t.2.2 cmapKey

end Correction

namespace Petrosian
variable (p : Petrosian K) (ip : InterpFam K)

/-- petrofit/petrosian/core.py:866-873 `r_half_light_arcsec`. -/
def rHalfLightArcsec (w : Wcs K) : Except PyErr (F K) := do
  let r ← p.rHalfLight ip
  if !r.isNaN then do
    let a ← pixelToAngular r w
    .ok a.value
  else .ok nan

/-- petrofit/petrosian/core.py:875-882 `r_total_flux_arcsec`. -/
def rTotalFluxArcsec (w : Wcs K) : Except PyErr (F K) := do
  let r ← p.rTotalFlux ip
  if !r.isNaN then do
    let a ← pixelToAngular r w
    .ok a.value
  else .ok nan

end Petrosian
end
end Verif

import Verif.Model.Plots
import Verif.Model.PlotLabels
import Verif.Model.PlotLimits

/-!
# Which axes the plotting functions draw on

matplotlib keeps the axes of all figures and a current one; petrofit draws on axes that are passed or on the current one.  Colours, fonts and
sizes are not modelled.  A call that raises may leave an incomplete drawing, which is not modelled either.
-/

set_option linter.unusedSectionVars false

namespace Verif

open F

/-- What can be done to an axes. -/
inductive AxCmd (K : Type)
  | item (p : PlotItem K)
  | title (s : String)
  | xlabel (s : String)
  | ylabel (s : String)
  | minorticks
  | ticks (which : String)
  | xlim (lo : K)
  | ylim (lo : K)
  | legend
  | image (im : Img (F K)) (vmin vmax : F K)
  | noYTickLabels
  | colorbar (label : String)

/-- All axes of all figures, with what was done to them, and the current one. -/
structure Canvas (K : Type) where
  axes : List (List (AxCmd K))
  current : Option Nat

namespace Canvas
variable {K : Type} [Field K] [LinearOrder K]

/-- `plt.gca()`: the current axes, made if there is none. -/
def gca (c : Canvas K) : Nat × Canvas K :=
  match c.current with
  | some i => (i, c)
  | none => (c.axes.length, ⟨c.axes ++ [[]], some c.axes.length⟩)

/-- Commands to axes `i`. -/
def addTo (i : Nat) (cmds : List (AxCmd K)) (c : Canvas K) : Canvas K := { c with axes := c.axes.modify i (· ++ cmds) }

/-- `ax` or, for `None`, `plt.gca()` (petrofit/petrosian/core.py:993-994 and 1128-1129, petrofit/utils.py:242-243). -/
def resolve (ax : Option Nat) (c : Canvas K) : Nat × Canvas K :=
  match ax with
  | some i => (i, c)
  | none => c.gca

/-- petrofit/utils.py:240-263 `mpl_tick_frame`. -/
def mplTickFrame (ax : Option Nat) (minorticks : Bool) (c : Canvas K) : Canvas K :=
  let (i, c) := c.resolve ax
  c.addTo i ((if minorticks then [.minorticks] else []) ++ [.ticks "minor", .ticks "major"])

/-- `n` new axes; the last one becomes the current one (`plt.subplots`, `fig.add_axes`). -/
def newAxes (n : Nat) (c : Canvas K) : Canvas K := ⟨c.axes ++ List.replicate n [], if n = 0 then c.current else some (c.axes.length + n - 1)⟩

end Canvas

section
variable {K : Type} [Field K] [LinearOrder K]

namespace Petrosian
variable (ip : InterpFam K) (p : Petrosian K)

/-- petrofit/petrosian/core.py:992-1063 `Petrosian.plot`: `mpl_tick_frame` is called without the axes.  The axes returned and the canvas. -/
def plotOn (title : String) (unit : Option String) (legend : Bool) (ax : Option Nat) (c : Canvas K) : Except PyErr (Nat × Canvas K) := do
  let items ← p.plot ip
  let (i, c) := c.resolve ax
  let c := c.addTo i (items.map .item ++ [.title title, .xlabel (xLabel unit), .ylabel "Petrosian Index $\\eta(r)$"])
  let c := c.mplTickFrame none true
  let c := c.addTo i ([.xlim 0] ++ if legend then [.legend] else [])
  .ok (i, c)

/-- petrofit/petrosian/core.py:1127-1207 `Petrosian.plot_cog`: the same. -/
def plotCogOn (title : String) (unit fluxUnit : Option String) (legend : Bool) (ax : Option Nat) (c : Canvas K) :
    Except PyErr (Nat × Canvas K) := do
  let items ← p.plotCog ip
  let (i, c) := c.resolve ax
  let c := c.addTo i (items.map .item ++ [.title title, .xlabel (xLabel unit), .ylabel (yLabelCog fluxUnit)])
  let c := c.mplTickFrame none true
  let c := c.addTo i ([.xlim 0, .ylim 0] ++ if legend then [.legend] else [])
  .ok (i, c)

end Petrosian

/-- petrofit/modeling/fitting.py:434-476 (`plot_fit`): the three panels, given the images and the limits.  The index of the first panel and the
canvas. -/
def plotFitOn (image model residual : Img (F K)) (lim : F K × F K) (cbar : Bool) (fluxLabel : String) (c : Canvas K) : Nat × Canvas K :=
  let k := c.axes.length
  let c := c.newAxes 3
  let c := c.addTo k [.image image lim.1 lim.2, .title "Data", .xlabel "Pixels", .ylabel "Pixels"]
  let c := c.mplTickFrame (some k) true
  let c := c.addTo (k + 1) [.image model lim.1 lim.2, .title "Model", .xlabel "Pixels"]
  let c := c.mplTickFrame (some (k + 1)) true
  let c := c.addTo (k + 2) [.image residual lim.1 lim.2, .title "Residual", .xlabel "Pixels"]
  let c := c.mplTickFrame (some (k + 2)) true
  let c := c.addTo (k + 1) [.noYTickLabels]
  let c := c.addTo (k + 2) [.noYTickLabels]
  let c := if cbar then (c.newAxes 1).addTo (k + 3) [.colorbar fluxLabel] else c
  (k, c)

end

end Verif

import Verif.Model.Petrosian
import Verif.Model.Photometry

/-!
# petrofit/petrosian/core.py: what `Petrosian.plot`, `plot_cog` and `imshow` draw

A plot is the list of things drawn, in order; colours, labels and axis decorations are not modelled.
-/

set_option linter.unusedSectionVars false

namespace Verif

open F

/-- Things drawn on a matplotlib axis. -/
inductive PlotItem (K : Type)
  | errorbars (x y : List (F K)) (yerr : Option (List (F K)))
  | band (x lo hi : List (F K))
  | hline (y : F K)
  | vline (x : F K)
  | point (x y : F K)
  | pointErr (x y xerr : F K)

variable {K : Type} [Field K] [LinearOrder K]

/-- `ax.errorbar(x, y, yerr=yerr)`: matplotlib raises ValueError for negative errors and for lengths that do not agree. -/
def errorbars (x y : List (F K)) (yerr : Option (List (F K))) : Except PyErr (PlotItem K) :=
  if x.length ≠ y.length then .error .valueError
  else if yerr.any (fun e => e.length ≠ y.length || e.any fun v => F.lt v (fin 0)) then .error .valueError
  else .ok (.errorbars x y yerr)

/-- `ax.fill_between(x, y - err, y + err)` under the condition of petrofit/petrosian/core.py:1006 and 1141; `y - None` is a TypeError. -/
def errorBand (errAlpha : Option K) (has : Bool) (x y : List (F K)) (err : Option (List (F K))) : Except PyErr (List (PlotItem K)) :=
  if errAlpha.any (fun a => 0 < a) && has then
    match err with
    | none => .error .typeError
    | some e => do
      let lo ← zipOp (· - ·) y e
      let hi ← zipOp (· + ·) y e
      .ok [.band x lo hi]
  else .ok []

namespace Petrosian
variable (ip : InterpFam K) (p : Petrosian K)

/-- petrofit/petrosian/core.py:992-1043 `Petrosian.plot`.  The last line drawn is `axhline(0)`; a negative `xerr` is a ValueError. -/
def plot (plotR : Bool := true) (errAlpha : Option K := some (1 / 5)) : Except PyErr (List (PlotItem K)) := do
  let bars ← errorbars p.rList p.petrosianList p.petrosianErr
  let band ← errorBand errAlpha p.petrosianErr.isSome p.rList p.petrosianList p.petrosianErr
  let r ← p.rPetrosian ip
  let e ← p.rPetrosianErr ip
  let marks ← if plotR then
      if r.isNaN then .ok [.hline p.eta]
      else if e.isNaN then .ok [.hline p.eta, .vline r, .point r p.eta]
      else if F.lt e (fin 0) then .error .valueError
      else .ok [.hline p.eta, .vline r, .pointErr r p.eta e]
    else .ok []
  .ok (bars :: band ++ marks ++ [.hline (fin 0)])

/-- petrofit/petrosian/core.py:1127-1186 `Petrosian.plot_cog`.  The band is guarded by `has_petrosian_err` but drawn with `flux_err`. -/
def plotCog (plotR : Bool := true) (errAlpha : Option K := some (1 / 5)) : Except PyErr (List (PlotItem K)) := do
  let bars ← errorbars p.rList p.fluxList p.fluxErr
  let band ← errorBand errAlpha p.petrosianErr.isSome p.rList p.fluxList p.fluxErr
  let marks ← if plotR then do
      let rh ← p.rHalfLight ip
      let fh ← p.halfFlux ip
      let rt ← p.rTotalFlux ip
      let ft ← p.totalFlux ip
      .ok ((if !rh.isNaN && !fh.isNaN then [.vline rh, .hline fh, .point rh fh] else []) ++
        (if !rt.isNaN && !ft.isNaN then [.vline rt, .hline ft, .point rt ft] else []))
    else .ok []
  .ok (bars :: band ++ marks)

/-- petrofit/petrosian/core.py:1231-1249 `Petrosian.imshow`: the apertures drawn.  An infinite radius is outside the model of apertures. -/
def imshow (cx cy elong theta : K) : Except PyErr (List (String × Ellipse K)) := do
  let rh ← p.rHalfLight ip
  let rt ← p.rTotalFlux ip
  let r20 ← p.fractionFluxToR ip (fin (1 / 5))
  let r80 ← p.fractionFluxToR ip (fin (4 / 5))
  let drawn ← [("r_half_light", rh), ("r_total_flux", rt), ("r_20", r20), ("r_80", r80)].mapM fun (lr : String × F K) =>
    match lr.2 with
    | fin r => if 0 < r then do
        let ap ← radialEllipticalAperture cx cy r elong theta
        .ok [(lr.1, ap)]
      else .ok []
    | pinf => .error .exception
    | _ => .ok []
  .ok drawn.flatten

end Petrosian

end Verif

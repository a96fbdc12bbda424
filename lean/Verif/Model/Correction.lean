import Verif.Model.Petrosian
import Mathlib.Algebra.Order.Floor.Ring

/-!
# petrofit/petrosian/correction.py

The image simulation inside `_generate_petrosian_correction` (model image and photometry) is a parameter: the model starts from the
radii, areas and fluxes it yields.  Plotting, progress bars and file output are not modelled (a failing write is caught by the code,
lines 331-338, and the grid is returned anyway).
-/

set_option linter.unusedSectionVars false

namespace Verif

open F

/-- An astropy `Table` with float columns: column names and rows. -/
structure Table (K : Type) where
  names : List String
  rows : List (List (F K))

/-- Position of a column; KeyError when there is no such column. -/
def colIndex (names : List String) (key : String) : Except PyErr Nat :=
  if key ∈ names then .ok (names.idxOf key) else .error .keyError

/-- `row[key]`. -/
def rowGet {K : Type} (names : List String) (row : List (F K)) (key : String) : Except PyErr (F K) := do
  getItem row (← colIndex names key)

/-- `table[key].value`: the column as an array. -/
def Table.col {K : Type} (t : Table K) (key : String) : Except PyErr (List (F K)) := do
  let j ← colIndex t.names key
  t.rows.mapM fun r => getItem r j

section
variable {K : Type} [Field K] [LinearOrder K]

/-- `np.sum` of a float array (exact, so the summation order is immaterial). -/
def npSum (l : List (F K)) : F K := l.foldr (· + ·) (fin 0)

/-- `np.mean`. -/
def npMean (l : List (F K)) : F K := npSum l / fin (l.length : K)

/-- `np.std` (population standard deviation). -/
def npStd [HasSqrt K] (l : List (F K)) : F K :=
  let m := npMean l
  F.sqrt (npMean (l.map fun x => F.sq (x - m)))

/-- `np.min`: NaN if any entry is NaN, ValueError on an empty array. -/
def npMin (l : List (F K)) : Except PyErr (F K) := if l.any F.isNaN then .ok nan else pyMin l

/-- `np.max`. -/
def npMax (l : List (F K)) : Except PyErr (F K) := if l.any F.isNaN then .ok nan else pyMax l

/-- petrofit/petrosian/correction.py:342-378: the attributes of a `PetrosianCorrection`. -/
structure Correction (K : Type) where
  enforceRange : Bool
  grid : Table K
  x : List (F K)
  y : List (F K)
  z : List (F K)

namespace Correction

/-- petrofit/petrosian/correction.py:347-378 `__init__` for an astropy Table. -/
def init (grid : Table K) (enforceRange : Bool := true) : Except PyErr (Correction K) := do
  let x ← grid.col "p02"
  let y ← grid.col "u_r_50"
  let z ← grid.col "u_c2080"
  .ok { enforceRange, grid, x, y, z }

variable (c : Correction K)

/-- petrofit/petrosian/correction.py:421-436 `_dr`; the three weights are 100 (line 378). -/
def dr [HasSqrt K] (x0 y0 z0 : F K) : List (F K) :=
  let sx := npStd c.x
  let sy := npStd c.y
  let sz := npStd c.z
  let dx := c.x.map fun x => fin 100 * (x - x0) / sx
  let dy := c.y.map fun y => fin 100 * (y - y0) / sy
  let dz := c.z.map fun z => fin 100 * (z - z0) / sz
  List.zipWith (fun a (b : F K × F K) => F.sqrt (F.sq a + F.sq b.1 + F.sq b.2)) dx (dy.zip dz)

/-- One `assert np.min(l) <= v <= np.max(l)`. -/
def assertIn (l : List (F K)) (v : F K) : Except PyErr Unit := do
  let lo ← npMin l
  if F.le lo v then do
    let hi ← npMax l
    if F.le v hi then .ok () else .error .assertionError
  else .error .assertionError

/-- petrofit/petrosian/correction.py:438-447 `_validate_input`. -/
def validateInput (x0 y0 z0 : F K) : Except PyErr Unit := do
  assertIn c.x x0
  assertIn c.y y0
  assertIn c.z z0

/-- petrofit/petrosian/correction.py:449-454 `_closest_row`. -/
def closestRow [HasSqrt K] (x0 y0 z0 : F K) : Except PyErr (List (F K)) := do
  if c.enforceRange then c.validateInput x0 y0 z0
  let i ← npArgmin (c.dr x0 y0 z0)
  getItem c.grid.rows i

/-- petrofit/petrosian/correction.py:380-391 `_get_xyz_from_p`: the Petrosian radii at eta = 0.2, 0.3, 0.4, 0.5 use the default
interpolation settings of `calculate_petrosian_r`, not those of the object; only the first is used. -/
def getXYZ (ip : InterpFam K) [HasLog10 K] (p : Petrosian K) : Except PyErr (F K × F K × F K) := do
  let p02 ← calculatePetrosianR ip p.rList p.petrosianList none (fin (1 / 5))
  let _ ← calculatePetrosianR ip p.rList p.petrosianList none (fin (3 / 10))
  let _ ← calculatePetrosianR ip p.rList p.petrosianList none (fin (2 / 5))
  let _ ← calculatePetrosianR ip p.rList p.petrosianList none (fin (1 / 2))
  let y0 ← p.r50 ip
  let z0 ← p.c2080 ip
  .ok (p02.1, y0, z0)

variable (ip : InterpFam K) [HasSqrt K] [HasLog10 K]

/-- petrofit/petrosian/correction.py:456-459 `_get_corrected_row`. -/
def correctedRow (p : Petrosian K) : Except PyErr (List (F K)) := do
  let t ← getXYZ ip p
  c.closestRow t.1 t.2.1 t.2.2

/-- petrofit/petrosian/correction.py:467-473 `estimate_n`. -/
def estimateN (p : Petrosian K) : Except PyErr (F K) := do
  rowGet c.grid.names (← c.correctedRow ip p) "n"

/-- petrofit/petrosian/correction.py:483-494: the radius column chosen by `epsilon_fraction` (0.5, 0.8 and 0.99). -/
def radiusKey (epsilonFraction : F K) : Option String :=
  if F.eqv epsilonFraction (fin (1 / 2)) then some "c_r_eff"
  else if F.eqv epsilonFraction (fin (4 / 5)) then some "c_r_80"
  else if F.eqv epsilonFraction (fin (99 / 100)) then some "c_r_99"
  else none

/-- petrofit/petrosian/correction.py:362 `eta_keys`. -/
def etaKey (eta : F K) : Option String :=
  if F.eqv eta (fin (1 / 5)) then some "p02"
  else if F.eqv eta (fin (3 / 10)) then some "p03"
  else if F.eqv eta (fin (2 / 5)) then some "p04"
  else if F.eqv eta (fin (1 / 2)) then some "p05"
  else none

/-- petrofit/petrosian/correction.py:480-504: the part of `estimate_epsilon` after the row is found. -/
def epsilonFromRow (names : List String) (row : List (F K)) (epsilonFraction eta : F K) : Except PyErr (F K) := do
  match radiusKey epsilonFraction with
  | none => .error .valueError
  | some k => do
    let rEp ← rowGet names row k
    match etaKey eta with
    | none => .error .valueError
    | some k' => do
      let rP ← rowGet names row k'
      .ok (rEp / rP)

/-- petrofit/petrosian/correction.py:475-504 `estimate_epsilon`. -/
def estimateEpsilon (p : Petrosian K) : Except PyErr (F K) := do
  let row ← c.correctedRow ip p
  epsilonFromRow c.grid.names row p.epsilonFraction p.eta

/-- petrofit/petrosian/correction.py:461-465 `correct`: the objects are immutable values here, see `Verif.Model.Objects` for the object store. -/
def correct (p : Petrosian K) : Except PyErr (Petrosian K) := do
  let e ← c.estimateEpsilon ip p
  .ok { p with epsilon := e }

end Correction
end

/-! ### Grid generation -/

/-- petrofit/petrosian/correction.py:297-328: the column names. -/
def gridNames : List String :=
  ["n", "r_eff", "sersic_r_20", "sersic_r_80", "sersic_r_99", "sersic_L_inf", "p02", "p03", "p04", "p05", "p0502", "p0302",
   "u_epsilon", "u_epsilon_50", "u_epsilon_80", "u_r_50", "u_r_99", "u_r_20", "u_r_80", "u_c2080", "u_c5090",
   "c_epsilon", "c_epsilon_50", "c_epsilon_80", "c_r_50", "c_r_99", "c_r_20", "c_r_80", "c_c2080", "c_c5090"]

/-- petrofit/petrosian/correction.py:271-275: one argument per (n, r_eff), n-major; `rnd` is `np.round(., 6)` (line 269). The other
entries of each argument list are the same for all. -/
def gridArgs {K : Type} (rnd : F K → F K) (rEffs ns : List (F K)) : List (F K × F K) :=
  (ns.map rnd).flatMap fun n => rEffs.map fun r => (r, n)

/-- petrofit/petrosian/correction.py:279-284: the serial loop. -/
def serialRows {A R : Type} (gen : A → Except PyErr R) (args : List A) : Except PyErr (List R) := args.mapM gen

/-- `ProgressBar.map(multiprocess=...)` of astropy: items are tagged with their index, handed to a process pool, collected in completion
order (`done` is the list of tagged items in the order in which they finish), sorted by the index and stripped.  An exception of the
item that is collected first is raised.  `zip(*[])` on an empty list is a ValueError. -/
def poolRows {A R : Type} (gen : A → Except PyErr R) (done : List (Nat × A)) : Except PyErr (List R) := do
  let results ← done.mapM fun t => do return (t.1, ← gen t.2)
  if results.isEmpty then .error .valueError
  else .ok ((results.mergeSort fun a b => decide (a.1 ≤ b.1)).map Prod.snd)

/-- petrofit/petrosian/correction.py:277-328: `n_cpu` and `plot` select the serial loop or the pool; the rows become a table.
`done` is the order in which the pool finishes. -/
def generateTable {K A : Type} (gen : A → Except PyErr (List (F K))) (args : List A) (nCpu : Option Nat) (plot : Bool)
    (done : List (Nat × A)) : Except PyErr (Table K) := do
  if nCpu = none ∨ nCpu = some 1 then
    let rows ← serialRows gen args
    .ok ⟨gridNames, rows⟩
  else if plot then .error .assertionError
  else
    let rows ← poolRows gen done
    .ok ⟨gridNames, rows⟩

/-- python's `range(a, b, s)` for natural numbers, `s > 0`. -/
def pyRange (a b s : Nat) : List Nat := (List.range ((b - a + (s - 1)) / s)).map fun i => a + s * i

/-- petrofit/petrosian/correction.py:50-55: the radii of one simulation, for `max_r >= 0` (`int` truncates). -/
def simRadii {K : Type} [LinearOrder K] [Ring K] [FloorRing K] (maxR : K) : List Nat :=
  let m := ⌊maxR⌋.toNat
  if 200 ≤ maxR then pyRange 1 201 2 ++ pyRange 300 (m + 100) 100
  else pyRange 1 (m + 2) 2

/-- petrofit/petrosian/correction.py:47-49: `max_r` (1.3 is the decimal 13/10). -/
def simMaxR {K : Type} [LinearOrder K] [Field K] (rEff n rTotalFlux : K) : K :=
  if rEff < 7 ∧ n < 1 then rTotalFlux * 50
  else if n < 2 then rTotalFlux * 3 else rTotalFlux * (13 / 10)

section row
variable {K : Type} [Field K] [LinearOrder K]

/-- Insertion of a (value, index) pair by value, before equal ones; NaN goes last.  Duplicate values are dropped in favour of the
inserted (earlier) one. -/
def uniqueInsert (v : F K) (i : Nat) : List (F K × Nat) → List (F K × Nat)
  | [] => [(v, i)]
  | (w, j) :: l =>
    if F.lt v w || (w.isNaN && !v.isNaN) then (v, i) :: (w, j) :: l
    else if F.eqv v w || (w.isNaN && v.isNaN) then (v, i) :: l
    else (w, j) :: uniqueInsert v i l

/-- `np.unique(a, return_index=True)`: the sorted distinct values with the index of their first occurrence. -/
def uniqueIndex (a : List (F K)) : List (F K × Nat) :=
  (a.zipIdx).foldr (fun t acc => uniqueInsert t.1 t.2 acc) []

variable (ip : InterpFam K) [HasSqrt K] [HasLog10 K]

/-- petrofit/petrosian/correction.py:90-167: the row of one simulation, given the Sersic numbers (lines 34-44) and the photometry of the
simulated image (lines 84-86). `np.round(a, 6) == np.round(b, 6)` is modelled by `a == b` (equal numbers round equally; the model does not
distinguish numbers that only round equally). -/
def simRow (n rEff r20 r80 rTotal lTotal totalFlux : F K) (rList area flux : List (F K)) : Except PyErr (List (F K)) := do
  let p ← Petrosian.init rList area flux none none (fin (1 / 5)) (fin 2) (fin (99 / 100)) (fin (99 / 100))
  let ci ← p.concentrationIndex ip (fin (1 / 5)) (fin (4 / 5))
  if ci.1.isNaN || ci.2.1.isNaN || ci.2.2.isNaN then .error .exception
  else do
    let idx := uniqueIndex flux
    let fl ← idx.mapM fun t => getItem flux t.2
    let rl ← idx.mapM fun t => getItem rList t.2
    let mTotal ← ip "linear" fl rl totalFlux
    let m80 ← ip "linear" fl rl (totalFlux * fin (4 / 5))
    let rp ← p.rPetrosian ip
    let cEps := mTotal / rp
    let cEps80 := m80 / rp
    let cp : Petrosian K := { p with epsilon := cEps }
    let pl ← calculatePetrosian p.areaList p.fluxList
    let p02 ← calculatePetrosianR ip p.rList pl.1 none (fin (1 / 5))
    let p03 ← calculatePetrosianR ip p.rList pl.1 none (fin (3 / 10))
    let p04 ← calculatePetrosianR ip p.rList pl.1 none (fin (2 / 5))
    let p05 ← calculatePetrosianR ip p.rList pl.1 none (fin (1 / 2))
    if ¬ F.eqv rp p02.1 then .error .assertionError
    else do
      let u50 ← p.fractionFluxToR ip (fin (1 / 2))
      let u20 ← p.fractionFluxToR ip (fin (1 / 5))
      let u80 ← p.fractionFluxToR ip (fin (4 / 5))
      let c50 ← cp.fractionFluxToR ip (fin (1 / 2))
      let c20 ← cp.fractionFluxToR ip (fin (1 / 5))
      let c80 ← cp.fractionFluxToR ip (fin (4 / 5))
      let u99 ← p.rTotalFlux ip
      let uc2080 ← p.c2080 ip
      let uc5090 ← p.c5090 ip
      let c99 ← cp.rTotalFlux ip
      let cc2080 ← cp.c2080 ip
      let cc5090 ← cp.c5090 ip
      .ok [n, rEff, r20, r80, rTotal, lTotal, p02.1, p03.1, p04.1, p05.1,
        fin 5 * F.log10 (p02.1 / p05.1), fin 5 * F.log10 (p02.1 / p03.1),
        p.epsilon, u50 / rp, u80 / rp, u50, u99, u20, u80, uc2080, uc5090,
        cEps, c50 / rp, cEps80, c50, c99, c20, c80, cc2080, cc5090]

end row

end Verif

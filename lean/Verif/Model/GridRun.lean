import Verif.Model.CorrectionMore

/-!
# petrofit/petrosian/correction.py: `generate_petrosian_sersic_correction` as a whole, with its files

The simulation of one pair `(r_eff, n)` is a parameter (see `Verif.Model.Correction.simRow`), as is `Table.write`.
-/

namespace Verif

open F

/-- The documented values of `n_cpu`: `None`, a bool or an int. -/
inductive NCpu
  | none
  | bool (b : Bool)
  | int (z : Int)
  deriving DecidableEq

/-- `n_cpu == 1` (correction.py:279); python has `True == 1`. -/
def NCpu.isOne : NCpu → Bool
  | .none => false
  | .bool b => b
  | .int z => z = 1

/-- `if multiprocess` in astropy's `ProgressBar.map`. -/
def NCpu.truthy : NCpu → Bool
  | .none => false
  | .bool b => b
  | .int z => z ≠ 0

/-- astropy's `ProgressBar.map_unordered` starts processes unless `not multiprocess or multiprocess < 1`. -/
def NCpu.atLeastOne : NCpu → Bool
  | .none => false
  | .bool b => b
  | .int z => 1 ≤ z

/-- Are worker processes started?  correction.py:279-295. -/
def NCpu.usesPool (c : NCpu) : Bool := c ≠ .none && !c.isOne && c.truthy && c.atLeastOne

/-- petrofit/petrosian/correction.py:277-295: the rows.  `done` is the order in which the tagged items finish; without processes that is the
order of the items. -/
def gridRows {A R : Type} (gen : A → Except PyErr R) (args : List A) (nCpu : NCpu) (plot : Bool) (done : List (Nat × A)) :
    Except PyErr (List R) :=
  if nCpu = .none || nCpu.isOne then serialRows gen args
  else if plot then .error .assertionError
  else if nCpu.truthy then
    poolRows gen (if nCpu.atLeastOne then done else args.zipIdx.map Prod.swap)
  else serialRows gen args

section
variable {K : Type} [Field K] [LinearOrder K]

/-- `Table.write(name, overwrite=...)`: the files afterwards and the exception, if one was raised. -/
abbrev TableWriter (K : Type) := Files K → String → Table K → Bool → Files K × Option PyErr

/-- petrofit/petrosian/correction.py:255-259: the default lists, `np.arange(10, 105, 5)` and `np.arange(0.5, 5, 0.5)`. -/
def defaultREff : List (F K) := (List.range 19).map fun i => fin (10 + 5 * (i : K))

/-- See `defaultREff`. -/
def defaultN : List (F K) := (List.range 9).map fun i => fin ((1 + (i : K)) / 2)

/-- petrofit/petrosian/correction.py:187-339 `generate_petrosian_sersic_correction`: the returned table or exception, and the files
afterwards.  An exception of the write is printed and dropped (lines 331-338).  Simplification: the warning about the PSF sum is left out;
`psf`, `oversample`, `psf_oversample` and `plot` reach the simulation through `gen`. -/
def generateCorrection (gen : F K × F K → Except PyErr (List (F K))) (rnd : F K → F K) (W : TableWriter K) (fs : Files K)
    (file : Option String) (rEffs ns : Option (List (F K))) (overwrite : Bool) (nCpu : NCpu) (plot : Bool)
    (done : List (Nat × (F K × F K))) : Except PyErr (Table K) × Files K :=
  let args := gridArgs rnd (rEffs.getD defaultREff) (ns.getD defaultN)
  match gridRows gen args nCpu plot done with
  | .error e => (.error e, fs)
  | .ok rows =>
    let t : Table K := ⟨gridNames, rows⟩
    match file with
    | none => (.ok t, fs)
    | some name => (.ok t, (W fs name t overwrite).1)

end

end Verif

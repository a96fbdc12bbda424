import Verif.Model.GridRun
import Verif.Props.CorrectionGrid

/-!
# C99, C100: generating a correction grid — files and `n_cpu`
-/

set_option linter.unusedSectionVars false
set_option linter.unusedVariables false

namespace Verif.Spec

/-- Contract of `Table.write`: other files stay; an existing file is only replaced with `overwrite`, and refusing leaves it alone; without
an exception the file holds the table. -/
structure WriterLaw {K : Type} (W : TableWriter K) : Prop where
  others : ∀ fs name t o n', n' ≠ name → (W fs name t o).1 n' = fs n'
  refuse : ∀ fs name t u, fs name = some u → W fs name t false = (fs, some .exception)
  stored : ∀ fs name t o, (W fs name t o).2 = none → (W fs name t o).1 name = some t

end Verif.Spec

namespace Verif.Props

open F Spec

section
variable {K : Type} [Field K] [LinearOrder K]

/-- **C99, the run.** A simulation that raises leaves every file as it was.  Otherwise the returned table does not depend on the files, the
file name, `overwrite` or the success of the write; only the named file can change; and if the write raised nothing, reading the file gives
the correction built from the returned table. -/
theorem C99_saved (gen : F K × F K → Except PyErr (List (F K))) (rnd : F K → F K) (W : TableWriter K) (hW : WriterLaw W) (fs : Files K)
    (file : Option String) (rEffs ns : Option (List (F K))) (overwrite : Bool) (nCpu : NCpu) (plot : Bool)
    (done : List (Nat × (F K × F K))) :
    let res := generateCorrection gen rnd W fs file rEffs ns overwrite nCpu plot done
    (∀ e, res.1 = .error e → res.2 = fs) ∧
    (∀ W' fs' file' o', (generateCorrection gen rnd W' fs' file' rEffs ns o' nCpu plot done).1 = res.1) ∧
    (∀ name, file ≠ some name → res.2 name = fs name) ∧
    (∀ t name, res.1 = .ok t → file = some name → (W fs name t overwrite).2 = none →
      res.2 name = some t ∧ Correction.read res.2 name = Correction.init t) := by
  dsimp only
  unfold generateCorrection
  dsimp only
  cases gridRows gen (gridArgs rnd (rEffs.getD defaultREff) (ns.getD defaultN)) nCpu plot done with
  | error e =>
    refine ⟨fun e' h => rfl, fun W' fs' file' o' => rfl, fun name hn => rfl, fun t name h => (nomatch h)⟩
  | ok rows =>
    cases file with
    | none =>
      refine ⟨fun e' h => (nomatch h), fun W' fs' file' o' => ?_, fun name hn => rfl, fun t name h h' => (nomatch h')⟩
      cases file' <;> rfl
    | some name =>
      refine ⟨fun e' h => (nomatch h), fun W' fs' file' o' => ?_, fun n' hn => ?_, fun t n' h h' hw => ?_⟩
      · cases file' <;> rfl
      · exact hW.others _ _ _ _ _ fun h => hn (by rw [h])
      · cases h
        cases h'
        have := hW.stored _ _ _ _ hw
        refine ⟨this, ?_⟩
        unfold Correction.read
        dsimp only
        rw [this]

/-- **C99, what fails.** When the file exists and `overwrite` is off, the call returns normally although the file still holds the old
table; a program that then reads the file uses the old grid. -/
theorem C99_violated (gen : F K × F K → Except PyErr (List (F K))) (rnd : F K → F K) (W : TableWriter K) (hW : WriterLaw W) (fs : Files K)
    (name : String) (rEffs ns : Option (List (F K))) (nCpu : NCpu) (plot : Bool) (done : List (Nat × (F K × F K))) (old t : Table K)
    (hold : fs name = some old)
    (hr : (generateCorrection gen rnd W fs none rEffs ns false nCpu plot done).1 = .ok t) :
    let res := generateCorrection gen rnd W fs (some name) rEffs ns false nCpu plot done
    res.1 = .ok t ∧ res.2 = fs ∧ Correction.read res.2 name = Correction.init old := by
  have h1 := (C99_saved gen rnd W hW fs none rEffs ns false nCpu plot done).2.1 W fs (some name) false
  rw [hr] at h1
  have h2 : (generateCorrection gen rnd W fs (some name) rEffs ns false nCpu plot done).2 = fs := by
    unfold generateCorrection
    dsimp only
    cases gridRows gen (gridArgs rnd (rEffs.getD defaultREff) (ns.getD defaultN)) nCpu plot done with
    | error e => rfl
    | ok rows => dsimp only; rw [hW.refuse _ _ _ _ hold]
  refine ⟨h1, h2, ?_⟩
  rw [h2]
  unfold Correction.read
  rw [hold]

/-- The table writer of the model of `PetrosianCorrection.write`, with `overwrite`. -/
def plainWriter : TableWriter K := fun fs name t o =>
  match fs name, o with
  | some _, false => (fs, some .exception)
  | _, _ => (fun n' => if n' = name then some t else fs n', none)

theorem plainWriter_law : WriterLaw (plainWriter : TableWriter K) where
  others := by
    intro fs name t o n' hn
    unfold plainWriter
    split <;> simp [hn]
  refuse := by
    intro fs name t u h
    unfold plainWriter
    rw [h]
  stored := by
    intro fs name t o h
    unfold plainWriter at h ⊢
    split
    · rename_i h1; rw [h1] at h; cases h
    · simp

/-- Non-vacuity of C99: the first run writes the file, a second run with another index leaves it. -/
example :
    let gen : F ℚ × F ℚ → Except PyErr (List (F ℚ)) := fun a => .ok [a.2, a.1]
    let r1 := generateCorrection gen id plainWriter (fun _ => none) (some "g.ecsv") (some [fin 10]) (some [fin 1]) false .none false []
    let r2 := generateCorrection gen id plainWriter r1.2 (some "g.ecsv") (some [fin 10]) (some [fin 4]) false .none false []
    r1.1 = .ok ⟨gridNames, [[fin 1, fin 10]]⟩ ∧ r1.2 "g.ecsv" = some ⟨gridNames, [[fin 1, fin 10]]⟩ ∧
      r2.1 = .ok ⟨gridNames, [[fin 4, fin 10]]⟩ ∧ r2.2 "g.ecsv" = some ⟨gridNames, [[fin 1, fin 10]]⟩ := by
  refine ⟨rfl, rfl, rfl, rfl⟩

/-! ### C100: `n_cpu` -/

theorem gridArgs_ne_nil (rnd : F K → F K) {rEffs ns : List (F K)} (hr : rEffs ≠ []) (hn : ns ≠ []) : gridArgs rnd rEffs ns ≠ [] := by
  intro he
  have hz := gridArgs_length rnd rEffs ns
  rw [he, List.length_nil] at hz
  have hp := Nat.mul_pos (List.length_pos_iff.2 hn) (List.length_pos_iff.2 hr)
  omega

/-- **C100.** For `n_cpu` `None`, `True`, `False` or any integer, negative ones included, and for every order in which processes finish,
the grid is that of the serial loop, as long as there is at least one pair and plotting is off. -/
theorem C100_n_cpu (gen : F K × F K → Except PyErr (List (F K))) (rnd : F K → F K) (rEffs ns : List (F K)) (hr : rEffs ≠ []) (hn : ns ≠ [])
    (nCpu : NCpu) (done : List (Nat × (F K × F K))) (hd : done.Perm (tagged (gridArgs rnd rEffs ns))) (W : TableWriter K) (fs : Files K)
    (file : Option String) (o : Bool) (t : Table K)
    (hs : (generateCorrection gen rnd W fs file (some rEffs) (some ns) o .none false []).1 = .ok t) :
    generateCorrection gen rnd W fs file (some rEffs) (some ns) o nCpu false done =
      generateCorrection gen rnd W fs file (some rEffs) (some ns) o .none false [] := by
  have hrow : ∃ rows, serialRows gen (gridArgs rnd rEffs ns) = .ok rows := by
    unfold generateCorrection at hs
    dsimp only [Option.getD_some] at hs
    unfold gridRows at hs
    rw [if_pos (by simp)] at hs
    cases h : serialRows gen (gridArgs rnd rEffs ns) with
    | error e => rw [h] at hs; cases hs
    | ok rows => exact ⟨rows, rfl⟩
  obtain ⟨rows, hrows⟩ := hrow
  have h0 : gridRows gen (gridArgs rnd rEffs ns) .none false [] = .ok rows := by
    unfold gridRows
    rw [if_pos (by simp), hrows]
  have h1 : gridRows gen (gridArgs rnd rEffs ns) nCpu false done = .ok rows := by
    unfold gridRows
    split_ifs with a b c d
    · exact hrows
    · cases b
    · exact pool_eq_serial gen _ rows hrows (gridArgs_ne_nil rnd hr hn) done hd
    · exact pool_eq_serial gen _ rows hrows (gridArgs_ne_nil rnd hr hn) _ (List.Perm.refl _)
    · exact hrows
  unfold generateCorrection
  dsimp only [Option.getD_some]
  rw [h0, h1]

/-- **C100, what fails.** `n_cpu=True`, documented as "use the multiprocessing module", never starts a process and accepts `plot=True`; and
with an empty list of radii `n_cpu=2` raises ValueError where the serial loop returns an empty grid. -/
theorem C100_violated (gen : F K × F K → Except PyErr (List (F K))) (rnd : F K → F K) (W : TableWriter K) (fs : Files K)
    (file : Option String) (rEffs ns : Option (List (F K))) (o plot : Bool) (done : List (Nat × (F K × F K))) :
    NCpu.usesPool (.bool true) = false ∧
    generateCorrection gen rnd W fs file rEffs ns o (.bool true) plot done = generateCorrection gen rnd W fs file rEffs ns o .none plot [] ∧
    (generateCorrection gen rnd W fs file (some []) ns o (.int 2) false []).1 = .error .valueError ∧
    (generateCorrection gen rnd W fs file (some []) ns o .none false []).1 = .ok ⟨gridNames, []⟩ := by
  have he : gridArgs rnd [] (ns.getD defaultN) = [] := by
    unfold gridArgs
    induction ns.getD defaultN with
    | nil => rfl
    | cons a l ih => simpa using ih
  refine ⟨rfl, rfl, ?_, ?_⟩
  · unfold generateCorrection
    dsimp only [Option.getD_some]
    rw [he]
    rfl
  · unfold generateCorrection
    dsimp only [Option.getD_some]
    rw [he]
    cases file <;> rfl

/-- C100: processes are started exactly for integers above one. -/
theorem C100_pool (c : NCpu) : c.usesPool = true ↔ ∃ z : Int, c = .int z ∧ 1 < z := by
  cases c with
  | none => simp [NCpu.usesPool]
  | bool b => cases b <;> simp [NCpu.usesPool, NCpu.isOne, NCpu.truthy]
  | int z =>
    simp only [NCpu.usesPool, NCpu.isOne, NCpu.truthy, NCpu.atLeastOne, NCpu.int.injEq, Bool.and_eq_true, Bool.not_eq_true',
      decide_eq_true_eq, decide_eq_false_iff_not, ne_eq, reduceCtorEq, not_false_eq_true, true_and, exists_eq_left']
    omega

/-- Non-vacuity of C100: three radii, two indices, scrambled completion. -/
example : (generateCorrection (fun a : F ℚ × F ℚ => .ok [a.2, a.1]) id plainWriter (fun _ => none) none (some [fin 1, fin 2, fin 3])
      (some [fin 7, fin 8]) false (.int 4) false
      [(4, fin 2, fin 8), (0, fin 1, fin 7), (5, fin 3, fin 8), (2, fin 3, fin 7), (1, fin 2, fin 7), (3, fin 1, fin 8)]).1 =
    .ok ⟨gridNames, [[fin 7, fin 1], [fin 7, fin 2], [fin 7, fin 3], [fin 8, fin 1], [fin 8, fin 2], [fin 8, fin 3]]⟩ := by
  rw [C100_n_cpu _ id _ _ (by simp) (by simp) (.int 4) _ (by decide +kernel) plainWriter _ none false _ rfl]
  rfl

/-- The default lists. -/
example : (defaultREff : List (F ℚ)).getLast? = some (fin 100) ∧ (defaultN : List (F ℚ)).head? = some (fin (1 / 2)) ∧
    (defaultN : List (F ℚ)).getLast? = some (fin (9 / 2)) := by decide +kernel

end
end Verif.Props

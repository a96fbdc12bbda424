import Verif.Model.Objects
import Verif.Props.PetrosianState
import Verif.Lemmas.Correction

/-!
# C31: `correct` returns a new profile and leaves its input untouched
-/

set_option linter.unusedSectionVars false
set_option linter.unusedVariables false
set_option linter.unusedSimpArgs false

namespace Verif.Props

open F Spec

section
variable {K : Type} [Field K] [LinearOrder K] [IsStrictOrderedRing K] [HasSqrt K] [HasLog10 K]

/-- The answer of one operation on a record. -/
def answerOf (ip : InterpFam K) (P : Petrosian K) : PetrosianOp K → Option (Except PyErr (List (F K) ⊕ Nat))
  | .ask q => some ((P.ask ip q).map Sum.inl)
  | _ => none

/-- Specification: profiles are independent immutable records.  An assignment changes the record it is made on and no other; `correct`
adds a record that differs from the source in epsilon only. -/
def valueStep (ip : InterpFam K) (Ps : List (Petrosian K)) : WorldOp K → List (Petrosian K) × Option (Except PyErr (List (F K) ⊕ Nat))
  | .on k op => match Ps[k]? with
    | none => (Ps, none)
    | some P => (Ps.modify k fun P => assigned P [op], answerOf ip P op)
  | .correct c k => match Ps[k]? with
    | none => (Ps, some (.error .indexError))
    | some P => match c.estimateEpsilon ip P with
      | .error e => (Ps, some (.error e))
      | .ok e => (Ps ++ [{ P with epsilon := e }], some (.ok (.inr Ps.length)))

/-- The answers of a history over independent records. -/
def valueRun (ip : InterpFam K) (Ps : List (Petrosian K)) : List (WorldOp K) → List (Option (Except PyErr (List (F K) ⊕ Nat)))
  | [] => []
  | op :: ops => (valueStep ip Ps op).2 :: valueRun ip (valueStep ip Ps op).1 ops

theorem modify_self {α : Type} {l : List α} {k : Nat} {p : α} (f : α → α) (h : l[k]? = some p) : (l.modify k f)[k]? = some (f p) := by
  rw [List.getElem?_modify, h]; simp

theorem modify_ne {α : Type} {l : List α} {k j : Nat} (f : α → α) (h : k ≠ j) : (l.modify k f)[j]? = l[j]? := by
  rw [List.getElem?_modify]; simp [h]

theorem Sim.getXYZH (ip : InterpFam K) {n : Nat} {h : Heap K} {p : PetrosianH K} {P : Petrosian K} (hR : Rep n h p P) :
    Sim h.next h (fun _ a b => a = b) (getXYZH ip p) (Correction.getXYZ ip P) := by
  unfold Verif.getXYZH Correction.getXYZ Petrosian.r50 Petrosian.rHalfLight Petrosian.c2080
  refine Sim.bind (Sim.calculatePetrosianRH ip hR.r.1 hR.pl.1 (err := none) (E := none) trivial _ _ _) le_rfl fun a b h1 f1 e => ?_
  subst e
  have hR := hR.frame f1
  refine Sim.bind (Sim.calculatePetrosianRH ip hR.r.1 hR.pl.1 (err := none) (E := none) trivial _ _ _) f1.1 fun _ _ h2 f2 e => ?_
  have l2 := f1.1.trans f2.1
  have hR := hR.frame f2
  refine Sim.bind (Sim.calculatePetrosianRH ip hR.r.1 hR.pl.1 (err := none) (E := none) trivial _ _ _) l2 fun _ _ h3 f3 e => ?_
  have l3 := l2.trans f3.1
  have hR := hR.frame f3
  refine Sim.bind (Sim.calculatePetrosianRH ip hR.r.1 hR.pl.1 (err := none) (E := none) trivial _ _ _) l3 fun _ _ h4 f4 e => ?_
  have l4 := l3.trans f4.1
  have hR := hR.frame f4
  rw [bind_map_fst]
  refine Sim.bind (Sim.calcFractionToR ip hR _) l4 fun _ _ h5 f5 e5 => ?_
  subst e5
  have l5 := l4.trans f5.1
  have hR := hR.frame f5
  rw [show ∀ (e : Except PyErr (F K × F K × F K)) (f : F K → Except PyErr (F K × F K × F K)),
    (e.map (fun t => t.2.2) >>= f) = (e >>= fun t => f t.2.2) from fun e f => by cases e <;> rfl]
  refine Sim.bind (Sim.concentrationIndex ip hR _ _) l5 fun _ _ h6 f6 e6 => ?_
  subst e6
  exact Sim.pure rfl

theorem Sim.estimateEpsilonH (ip : InterpFam K) (c : Correction K) {n : Nat} {h : Heap K} {p : PetrosianH K} {P : Petrosian K}
    (hR : Rep n h p P) : Sim h.next h (fun _ a b => a = b) (estimateEpsilonH ip c p) (c.estimateEpsilon ip P) := by
  unfold Verif.estimateEpsilonH Correction.estimateEpsilon Correction.correctedRow
  obtain ⟨s1, s2, s3, _⟩ := hR.scalars
  rw [s1, s3, bind_assoc]
  refine Sim.bind (Sim.getXYZH ip hR) le_rfl fun a b h1 f1 e => ?_
  subst e
  exact Sim.bind_lift fun row _ => Sim.lift

/-- The invariant between the store and the records. -/
structure Holds (n : Nat) (S : List Nat) (w : World K) (Ps : List (Petrosian K)) : Prop where
  len : w.objs.length = Ps.length
  rep : ∀ (k : Nat) p P, w.objs[k]? = some p → Ps[k]? = some P → Rep n w.heap p P
  refs : ∀ (k : Nat) p, w.objs[k]? = some p → ∀ x ∈ refs p, x ∈ S

theorem world_step (ip : InterpFam K) {n : Nat} {S : List Nat} {w : World K} {Ps : List (Petrosian K)} (hw : Holds n S w Ps)
    (op : WorldOp K) (hop : ∀ k r l, op = .on k (.callerWrite r l) → r ∉ S) :
    Holds n S (w.step ip op).1 (valueStep ip Ps op).1 ∧ (w.step ip op).2 = (valueStep ip Ps op).2 ∧
    w.heap.next ≤ (w.step ip op).1.heap.next ∧
    ∀ i, i < w.heap.next → (∀ k l, op ≠ .on k (.callerWrite i l)) → (w.step ip op).1.heap.mem i = w.heap.mem i := by
  have none_iff : ∀ k : Nat, w.objs[k]? = none ↔ Ps[k]? = none := by
    intro k; rw [List.getElem?_eq_none_iff, List.getElem?_eq_none_iff, hw.len]
  cases op with
  | on k op =>
    cases hk : w.objs[k]? with
    | none =>
      have e1 : w.step ip (.on k op) = (w, none) := by simp only [World.step, hk]
      have e2 : valueStep ip Ps (.on k op) = (Ps, none) := by simp only [valueStep, (none_iff k).1 hk]
      rw [e1, e2]
      exact ⟨hw, rfl, le_rfl, fun i hi _ => rfl⟩
    | some p =>
      cases hP : Ps[k]? with
      | none => rw [(none_iff k).2 hP] at hk; cases hk
      | some P =>
        have e1 : w.step ip (.on k op) = (⟨(p.step ip w.heap op).2.1, w.objs.modify k fun _ => (p.step ip w.heap op).1⟩,
            (p.step ip w.heap op).2.2.map (Except.map Sum.inl)) := by simp only [World.step, hk]
        have e2 : valueStep ip Ps (.on k op) = (Ps.modify k fun P => assigned P [op], answerOf ip P op) := by simp only [valueStep, hP]
        rw [e1, e2]
        have hR := hw.rep k p P hk hP
        have hop' : ∀ r l, op = .callerWrite r l → r ∉ refs p := by
          rintro r l rfl hr
          exact hop k r l rfl (hw.refs k p hk r hr)
        obtain ⟨g1, g2, g3, g4, g5⟩ := step_rep ip hR op hop'
        have hmem : ∀ i, i < w.heap.next → (∀ l, op ≠ .callerWrite i l) → (p.step ip w.heap op).2.1.mem i = w.heap.mem i := by
          intro i hi hne
          rw [g5 i hi, lastOr_cons, lastOr_nil]
          have : writeOf i op = none := by
            cases op <;> simp only [writeOf]
            rename_i r l
            rw [if_neg]
            rintro rfl
            exact hne l rfl
          rw [this]; rfl
        -- other objects keep their arrays
        have hothers : ∀ p' P', (∀ x ∈ refs p', x ∈ S) → Rep n w.heap p' P' → Rep n (p.step ip w.heap op).2.1 p' P' := by
          intro p' P' hS hR'
          cases op with
          | callerWrite r l => exact rep_write hR' l (fun hr => hop k r l rfl (hS r hr))
          | ask q => exact hR'.frame ⟨g4, fun i hi => hmem i hi (by simp)⟩
          | callerAlloc q => exact hR'.frame ⟨g4, fun i hi => hmem i hi (by simp)⟩
          | setEta v => exact hR'
          | setEpsilon v => exact hR'
          | setEpsilonFraction v => exact hR'
          | setTotalFluxFraction v => exact hR'
          | setKind v => exact hR'
          | setNum v => exact hR'
        refine ⟨⟨by simp [hw.len], ?_, ?_⟩, ?_, g4, fun i hi hne => hmem i hi (fun l hl => hne k l (by rw [hl]))⟩
        · intro j p' P' hj hPj
          by_cases hjk : k = j
          · subst hjk
            rw [modify_self _ hk] at hj; rw [modify_self _ hP] at hPj
            injection hj with hj; injection hPj with hPj
            subst hj hPj
            exact g1
          · rw [modify_ne _ hjk] at hj hPj
            exact hothers p' P' (hw.refs j p' hj) (hw.rep j p' P' hj hPj)
        · intro j p' hj x hx
          by_cases hjk : k = j
          · subst hjk
            rw [modify_self _ hk] at hj
            injection hj with hj
            subst hj
            rw [g2] at hx
            exact hw.refs k p hk x hx
          · rw [modify_ne _ hjk] at hj
            exact hw.refs j p' hj x hx
        · cases op with
          | ask q =>
            show ((p.step ip w.heap (.ask q)).2.2).map _ = _
            rw [g3 q rfl]; rfl
          | callerWrite => rfl
          | callerAlloc => rfl
          | setEta => rfl
          | setEpsilon => rfl
          | setEpsilonFraction => rfl
          | setTotalFluxFraction => rfl
          | setKind => rfl
          | setNum => rfl
  | correct c k =>
    cases hk : w.objs[k]? with
    | none =>
      have e1 : w.step ip (.correct c k) = (w, some (.error .indexError)) := by simp only [World.step, World.correct, hk, Except.map]
      have e2 : valueStep ip Ps (.correct c k) = (Ps, some (.error .indexError)) := by simp only [valueStep, (none_iff k).1 hk]
      rw [e1, e2]
      exact ⟨hw, rfl, le_rfl, fun i hi _ => rfl⟩
    | some p =>
      cases hP : Ps[k]? with
      | none => rw [(none_iff k).2 hP] at hk; cases hk
      | some P =>
        have hR := hw.rep k p P hk hP
        obtain ⟨e1, e2⟩ := sim_eq (Sim.estimateEpsilonH ip c hR)
        rcases he : estimateEpsilonH ip c p w.heap with ⟨x, h⟩
        rw [he] at e1 e2
        simp only at e1 e2
        cases x with
        | error e =>
          have a1 : w.step ip (.correct c k) = (⟨h, w.objs⟩, some (.error e)) := by simp only [World.step, World.correct, hk, he, Except.map]
          have a2 : valueStep ip Ps (.correct c k) = (Ps, some (.error e)) := by simp only [valueStep, hP, ← e1]
          rw [a1, a2]
          exact ⟨⟨hw.len, fun j p' P' hj hPj => (hw.rep j p' P' hj hPj).frame e2, hw.refs⟩, rfl, e2.1, fun i hi _ => e2.2 i hi⟩
        | ok e =>
          have a1 : w.step ip (.correct c k) = (⟨h, (w.objs ++ [p]).modify w.objs.length fun q => { q with epsilon := e }⟩,
              some (.ok (.inr w.objs.length))) := by simp only [World.step, World.correct, hk, he, Except.map]
          have a2 : valueStep ip Ps (.correct c k) = (Ps ++ [{ P with epsilon := e }], some (.ok (.inr Ps.length))) := by
            simp only [valueStep, hP, ← e1]
          rw [a1, a2]
          refine ⟨⟨by simp [hw.len], ?_, ?_⟩, ?_, e2.1, fun i hi _ => e2.2 i hi⟩
          · intro j p' P' hj hPj
            by_cases hjn : w.objs.length = j
            · subst hjn
              rw [modify_self _ List.getElem?_concat_length] at hj
              rw [hw.len, List.getElem?_concat_length] at hPj
              injection hj with hj; injection hPj with hPj
              subst hj hPj
              have hF := hR.frame e2
              exact ⟨hF.r, hF.a, hF.f, hF.ae, hF.fe, hF.pl, hF.pe, hF.scalars.1, rfl, hF.scalars.2.2⟩
            · rw [modify_ne _ hjn] at hj
              have hjl : j < w.objs.length := by
                have := (List.getElem?_eq_some_iff.1 hj).1
                simp at this; omega
              rw [List.getElem?_append_left hjl] at hj
              rw [List.getElem?_append_left (by rw [← hw.len]; exact hjl)] at hPj
              exact (hw.rep j p' P' hj hPj).frame e2
          · intro j p' hj x hx
            by_cases hjn : w.objs.length = j
            · subst hjn
              rw [modify_self _ List.getElem?_concat_length] at hj
              injection hj with hj
              subst hj
              exact hw.refs k p hk x hx
            · rw [modify_ne _ hjn] at hj
              have hjl : j < w.objs.length := by
                have := (List.getElem?_eq_some_iff.1 hj).1
                simp at this; omega
              rw [List.getElem?_append_left hjl] at hj
              exact hw.refs j p' hj x hx
          · simp only [hw.len]

/-- C31 over histories: with any number of profiles, corrected copies (which share their arrays with the source), assignments on any of
them, reads and caller writes, in any order, every answer is the answer of independent immutable records: an assignment on a corrected
copy never shows on its source or the other way round, and the store's old arrays stay as the caller left them. -/
theorem C31_copies_independent (ip : InterpFam K) (n : Nat) (S : List Nat) (ops : List (WorldOp K)) :
    ∀ (w : World K) (Ps : List (Petrosian K)), Holds n S w Ps → (∀ k r l, .on k (.callerWrite r l) ∈ ops → r ∉ S) →
    (w.run ip ops).2 = valueRun ip Ps ops ∧
    ∀ i, i < w.heap.next → (∀ k l, .on k (.callerWrite i l) ∉ ops) → (w.run ip ops).1.heap.mem i = w.heap.mem i := by
  induction ops with
  | nil => intro w Ps _ _; exact ⟨rfl, fun i _ _ => rfl⟩
  | cons op ops ih =>
    intro w Ps hw hc
    obtain ⟨h1, h2, h3, h4⟩ := world_step ip hw op (fun k r l h => hc k r l (by simp [h]))
    obtain ⟨g1, g2⟩ := ih _ _ h1 (fun k r l h => hc k r l (List.mem_cons_of_mem _ h))
    constructor
    · simp only [World.run, valueRun, h2, g1]
    · intro i hi hne
      simp only [World.run]
      rw [g2 i (lt_of_lt_of_le hi h3) (fun k l h => hne k l (List.mem_cons_of_mem _ h))]
      exact h4 i hi (fun k l h => hne k l (by simp [h]))

/-- C31, one call: `correct` on a freshly constructed profile returns a new object; the old object and all existing arrays are unchanged,
the new one holds the same arrays and parameters except epsilon, and its epsilon is the estimated one. -/
theorem C31_correct (ip : InterpFam K) (c : Correction K) (n : Nat) (w w' : World K) (k new : Nat) (p : PetrosianH K) (P : Petrosian K)
    (hp : w.objs[k]? = some p) (hR : Rep n w.heap p P) (h : World.correct ip c k w = (.ok new, w')) :
    ∃ e, c.estimateEpsilon ip P = .ok e ∧ new = w.objs.length ∧ w'.objs = w.objs ++ [{ p with epsilon := e }] ∧
      (∀ i, i < w.heap.next → w'.heap.mem i = w.heap.mem i) ∧ Rep n w'.heap p P ∧ Rep n w'.heap { p with epsilon := e } { P with epsilon := e } ∧
      c.correct ip P = .ok { P with epsilon := e } ∧
      ({ P with epsilon := e } : Petrosian K).rPetrosian ip = P.rPetrosian ip ∧
      ({ P with epsilon := e } : Petrosian K).rPetrosianErr ip = P.rPetrosianErr ip := by
  unfold World.correct at h
  rw [hp] at h
  obtain ⟨e1, e2⟩ := sim_eq (Sim.estimateEpsilonH ip c hR)
  rcases he : estimateEpsilonH ip c p w.heap with ⟨x, hh⟩
  rw [he] at e1 e2
  simp only [he] at h e1 e2
  cases x with
  | error e => cases h
  | ok e =>
    injection h with ha hb
    injection ha with ha
    subst ha hb
    have hF := hR.frame e2
    refine ⟨e, e1.symm, rfl, ?_, e2.2, hF, ⟨hF.r, hF.a, hF.f, hF.ae, hF.fe, hF.pl, hF.pe, hF.scalars.1, rfl, hF.scalars.2.2⟩, ?_, rfl, rfl⟩
    · apply List.ext_getElem?
      intro j
      by_cases hj : w.objs.length = j
      · subst hj
        rw [modify_self _ List.getElem?_concat_length, List.getElem?_concat_length]
      · rw [modify_ne _ hj]
        rcases Nat.lt_or_gt_of_ne hj with h' | h'
        · rw [List.getElem?_eq_none (by simp; omega), List.getElem?_eq_none (by simp; omega)]
        · rw [List.getElem?_append_left h', List.getElem?_append_left h']
    · unfold Correction.correct; rw [← e1]; rfl

/-- C31: when `correct` raises, nothing changed. -/
theorem C31_correct_raises (ip : InterpFam K) (c : Correction K) (n : Nat) (w w' : World K) (k : Nat) (p : PetrosianH K) (P : Petrosian K)
    (e : PyErr) (hp : w.objs[k]? = some p) (hR : Rep n w.heap p P) (h : World.correct ip c k w = (.error e, w')) :
    w'.objs = w.objs ∧ (∀ i, i < w.heap.next → w'.heap.mem i = w.heap.mem i) ∧ c.estimateEpsilon ip P = .error e := by
  unfold World.correct at h
  rw [hp] at h
  obtain ⟨e1, e2⟩ := sim_eq (Sim.estimateEpsilonH ip c hR)
  rcases he : estimateEpsilonH ip c p w.heap with ⟨x, hh⟩
  rw [he] at e1 e2
  simp only [he] at h e1 e2
  cases x with
  | ok e => cases h
  | error e' =>
    injection h with ha hb
    injection ha with ha
    subst ha hb
    exact ⟨rfl, e2.2, e1.symm⟩

/-- Non-vacuity: a profile at position 0, its corrected copy at position 1 (epsilon 4/2 from the single grid row), then assignments to
both; each read sees its own object's epsilon only. The interpolator is constant. -/
def exampleWorld : World ℚ :=
  ⟨⟨4, fun i => if i = 0 then [1, 2, 3].map fin else if i = 1 then [1, 2, 3].map fin else if i = 2 then [1, 1, 1].map fin
      else [nan, fin (1 / 10), fin (1 / 20)]⟩,
    [⟨0, 1, 2, none, none, fin (1 / 5), fin 1, fin (4 / 5), fin 1, none, 10, 3, none⟩]⟩

/-- The corresponding record. -/
def exampleRecord : Petrosian ℚ :=
  ⟨[1, 2, 3].map fin, [1, 2, 3].map fin, [1, 1, 1].map fin, none, none, fin (1 / 5), fin 1, fin (4 / 5), fin 1, none, 10,
    [nan, fin (1 / 10), fin (1 / 20)], none⟩

example : Holds 0 [0, 1, 2, 3] exampleWorld [exampleRecord] := by
  refine ⟨rfl, ?_, ?_⟩
  · intro k p P hk hP
    cases k with
    | succ k => simp [exampleWorld] at hk
    | zero =>
      simp only [exampleWorld, List.getElem?_cons_zero, Option.some.injEq] at hk hP
      subst hk hP
      exact ⟨⟨⟨by decide, rfl⟩, Nat.zero_le _⟩, ⟨⟨by decide, rfl⟩, Nat.zero_le _⟩, ⟨⟨by decide, rfl⟩, Nat.zero_le _⟩, ⟨trivial, by simp⟩,
        ⟨trivial, by simp⟩, ⟨⟨by decide, rfl⟩, Nat.zero_le _⟩, ⟨trivial, by simp⟩, rfl, rfl, rfl, rfl, rfl, rfl⟩
  · intro k p hk
    cases k with
    | succ k => simp [exampleWorld] at hk
    | zero =>
      simp only [exampleWorld, List.getElem?_cons_zero, Option.some.injEq] at hk
      subst hk
      decide

/-- A one-row grid (the constant columns make all distances NaN, so the first row is used). -/
def exampleCorrection : Correction ℚ :=
  ⟨false, ⟨["n", "c_r_80", "p02"], [[fin 1, fin 4, fin 2]]⟩, [fin 2], [fin 1], [fin 1]⟩

/-- The history computes no logarithm of anything but 1; any function will do. -/
local instance exampleLog' : HasLog10 ℚ := ⟨fun x => x⟩

example : (exampleWorld.run (fun _ _ _ _ => .ok (fin (1 / 5))) [.correct exampleCorrection 0, .on 1 (.ask .rEpsilon), .on 0 (.ask .rEpsilon),
      .on 0 (.setEpsilon (fin 3)), .on 1 (.ask .rEpsilon), .on 1 (.setEpsilon (fin 5)), .on 0 (.ask .rEpsilon)]).2 =
    [(some (.ok (.inr 1)) : Option (Except PyErr (List (F ℚ) ⊕ Nat))), some (Except.ok (.inl [fin 4])), some (Except.ok (.inl [fin 2])), none, some (Except.ok (.inl [fin 4])), none,
      some (Except.ok (.inl [fin 6]))] := by
  decide +kernel

end
end Verif.Props

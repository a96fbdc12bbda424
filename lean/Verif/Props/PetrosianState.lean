import Verif.Lemmas.Heap
import Verif.Spec.History
import Verif.Base.Sqrt

/-!
# C24, C25: Petrosian objects have no hidden state and never touch the caller's arrays
-/

set_option linter.unusedSectionVars false
set_option linter.unusedVariables false
set_option linter.unusedSimpArgs false

namespace Verif.Props

open F Spec

section
variable {K : Type} [Field K] [LinearOrder K] [IsStrictOrderedRing K] [HasSqrt K] [HasLog10 K]

theorem lastOr_nil {Op α : Type} (sel : Op → Option α) (init : α) : lastOr sel [] init = init := rfl

theorem lastOr_cons {Op α : Type} (sel : Op → Option α) (op : Op) (ops : List Op) (init : α) :
    lastOr sel (op :: ops) init = lastOr sel ops ((sel op).getD init) := by
  unfold lastOr
  rw [List.filterMap_cons]
  cases h : sel op with
  | none => rfl
  | some v =>
    rw [List.getLast?_cons]
    rfl

/-- The pure object after the assignments of a history. -/
def assigned (P : Petrosian K) (ops : List (PetrosianOp K)) : Petrosian K :=
  { P with eta := lastOr etaOf ops P.eta, epsilon := lastOr epsilonOf ops P.epsilon,
           epsilonFraction := lastOr epsilonFractionOf ops P.epsilonFraction,
           totalFluxFraction := lastOr totalFluxFractionOf ops P.totalFluxFraction,
           interpKind := lastOr kindOf ops P.interpKind, interpNum := lastOr numOf ops P.interpNum }

theorem assigned_cons (P : Petrosian K) (op : PetrosianOp K) (ops : List (PetrosianOp K)) :
    assigned P (op :: ops) = assigned (assigned P [op]) ops := by
  unfold assigned
  simp only [lastOr_cons, lastOr_nil]

theorem rep_write {n : Nat} {h : Heap K} {p : PetrosianH K} {P : Petrosian K} (hR : Rep n h p P) {r : Nat} (l : List (F K))
    (hr : r ∉ refs p) : Rep n (HM.write r l h).2 p P := by
  have key : ∀ r' l', r' ∈ refs p → At h r' l' → At (HM.write r l h).2 r' l' := by
    intro r' l' hm ha
    refine ⟨ha.1, ?_⟩
    simp only [HM.write]
    rw [if_neg (by rintro rfl; exact hr hm)]
    exact ha.2
  have keyO : ∀ (x : Option Nat) l', (∀ i, x = some i → i ∈ refs p) → AtO h x l' → AtO (HM.write r l h).2 x l' := by
    intro x l' hm ha
    cases x <;> cases l' <;> first | exact ha | exact key _ _ (hm _ rfl) ha
  exact ⟨⟨key _ _ (by simp [refs]) hR.r.1, hR.r.2⟩, ⟨key _ _ (by simp [refs]) hR.a.1, hR.a.2⟩,
    ⟨key _ _ (by simp [refs]) hR.f.1, hR.f.2⟩, ⟨keyO _ _ (by simp +contextual [refs]) hR.ae.1, hR.ae.2⟩,
    ⟨keyO _ _ (by simp +contextual [refs]) hR.fe.1, hR.fe.2⟩, ⟨key _ _ (by simp [refs]) hR.pl.1, hR.pl.2⟩,
    ⟨keyO _ _ (by simp +contextual [refs]) hR.pe.1, hR.pe.2⟩, hR.scalars⟩

theorem sim_eq {α : Type} {n : Nat} {h : Heap K} {m : HM K α} {e : Except PyErr α} (hs : Sim n h (fun _ a b => a = b) m e) :
    (m h).1 = e ∧ Frame n h (m h).2 := by
  refine ⟨?_, hs.1⟩
  have := hs.2
  cases h1 : (m h).1 <;> cases e <;> simp_all

/-- One step of a history. -/
theorem step_rep (ip : InterpFam K) {n : Nat} {h : Heap K} {p : PetrosianH K} {P : Petrosian K} (hR : Rep n h p P) (op : PetrosianOp K)
    (hop : ∀ r l, op = .callerWrite r l → r ∉ refs p) :
    Rep n (p.step ip h op).2.1 (p.step ip h op).1 (assigned P [op]) ∧ refs (p.step ip h op).1 = refs p ∧
    (∀ q, op = .ask q → (p.step ip h op).2.2 = some (P.ask ip q)) ∧
    h.next ≤ (p.step ip h op).2.1.next ∧
    (∀ i, i < h.next → (p.step ip h op).2.1.mem i = lastOr (writeOf i) [op] (h.mem i)) := by
  cases op with
  | ask q =>
    obtain ⟨h1, h2⟩ := sim_eq (Sim.ask ip hR q)
    refine ⟨hR.frame h2, rfl, ?_, h2.1, fun i hi => h2.2 i hi⟩
    rintro q' ⟨⟩
    show some (p.ask ip q h).1 = _
    rw [h1]
  | callerWrite r l =>
    refine ⟨rep_write hR l (hop r l rfl), rfl, (by rintro q ⟨⟩), le_rfl, ?_⟩
    intro i hi
    show (if i = r then l else h.mem i) = _
    rw [lastOr_cons, lastOr_nil]
    by_cases hir : i = r
    · subst hir; simp [writeOf]
    · have : ¬ r = i := fun e => hir e.symm
      simp [writeOf, hir, this]
  | callerAlloc l =>
    have hf : Frame h.next h (HM.alloc l h).2 := (Sim.alloc l).1
    exact ⟨hR.frame hf, rfl, (by rintro q ⟨⟩), hf.1, fun i hi => hf.2 i hi⟩
  | setEta v =>
    refine ⟨⟨hR.r, hR.a, hR.f, hR.ae, hR.fe, hR.pl, hR.pe, ?_⟩, rfl, (by rintro q ⟨⟩), le_rfl, fun i hi => rfl⟩
    exact ⟨rfl, hR.scalars.2⟩
  | setEpsilon v =>
    refine ⟨⟨hR.r, hR.a, hR.f, hR.ae, hR.fe, hR.pl, hR.pe, ?_⟩, rfl, (by rintro q ⟨⟩), le_rfl, fun i hi => rfl⟩
    exact ⟨hR.scalars.1, rfl, hR.scalars.2.2⟩
  | setEpsilonFraction v =>
    refine ⟨⟨hR.r, hR.a, hR.f, hR.ae, hR.fe, hR.pl, hR.pe, ?_⟩, rfl, (by rintro q ⟨⟩), le_rfl, fun i hi => rfl⟩
    exact ⟨hR.scalars.1, hR.scalars.2.1, rfl, hR.scalars.2.2.2⟩
  | setTotalFluxFraction v =>
    refine ⟨⟨hR.r, hR.a, hR.f, hR.ae, hR.fe, hR.pl, hR.pe, ?_⟩, rfl, (by rintro q ⟨⟩), le_rfl, fun i hi => rfl⟩
    exact ⟨hR.scalars.1, hR.scalars.2.1, hR.scalars.2.2.1, rfl, hR.scalars.2.2.2.2⟩
  | setKind v =>
    refine ⟨⟨hR.r, hR.a, hR.f, hR.ae, hR.fe, hR.pl, hR.pe, ?_⟩, rfl, (by rintro q ⟨⟩), le_rfl, fun i hi => rfl⟩
    exact ⟨hR.scalars.1, hR.scalars.2.1, hR.scalars.2.2.1, hR.scalars.2.2.2.1, rfl, hR.scalars.2.2.2.2.2⟩
  | setNum v =>
    refine ⟨⟨hR.r, hR.a, hR.f, hR.ae, hR.fe, hR.pl, hR.pe, ?_⟩, rfl, (by rintro q ⟨⟩), le_rfl, fun i hi => rfl⟩
    exact ⟨hR.scalars.1, hR.scalars.2.1, hR.scalars.2.2.1, hR.scalars.2.2.2.1, hR.scalars.2.2.2.2.1, rfl⟩

/-- A whole history. -/
theorem run_rep (ip : InterpFam K) (n : Nat) (ops : List (PetrosianOp K)) : ∀ {h : Heap K} {p : PetrosianH K} {P : Petrosian K},
    Rep n h p P → CallerOnly p ops →
    (∀ i q, ops[i]? = some (.ask q) → (p.run ip h ops).2.2[i]? = some (some ((assigned P (ops.take i)).ask ip q))) ∧
    (∀ i, i < h.next → (p.run ip h ops).2.1.mem i = lastOr (writeOf i) ops (h.mem i)) := by
  induction ops with
  | nil => intro h p P hR _; exact ⟨by simp, fun i _ => rfl⟩
  | cons op ops ih =>
    intro h p P hR hc
    obtain ⟨h1, h2, h3, h4, h5⟩ := step_rep ip hR op (fun r l hop => hc r l (by simp [hop]))
    have hc' : CallerOnly (p.step ip h op).1 ops := by
      intro r l hm
      rw [h2]
      exact hc r l (List.mem_cons_of_mem _ hm)
    obtain ⟨g1, g2⟩ := ih h1 hc'
    constructor
    · intro i q hi
      cases i with
      | zero =>
        simp only [List.getElem?_cons_zero, Option.some.injEq] at hi
        simp only [PetrosianH.run, List.getElem?_cons_zero, List.take_zero]
        rw [h3 q hi]
        rfl
      | succ i =>
        simp only [List.getElem?_cons_succ] at hi
        simp only [PetrosianH.run, List.getElem?_cons_succ, List.take_succ_cons]
        rw [g1 i q hi, ← assigned_cons]
    · intro i hi
      simp only [PetrosianH.run]
      rw [g2 i (lt_of_lt_of_le hi h4), h5 i hi, lastOr_cons, lastOr_cons, lastOr_nil]

/-- C24: after any history of parameter assignments, reads and caller writes, every read answers exactly what a freshly constructed
object with the original arrays and the current parameter values answers. -/
theorem C24_no_hidden_state (ip : InterpFam K) (h0 h1 : Heap K) (r a f : Nat) (ae fe : Option Nat) (R A Y : List (F K))
    (AE FE : Option (List (F K))) (hr : At h0 r R) (ha : At h0 a A) (hf : At h0 f Y) (hae : AtO h0 ae AE) (hfe : AtO h0 fe FE)
    (eta eps epsf tff : F K) (kind : Option String) (num : Nat) (p : PetrosianH K)
    (hinit : PetrosianH.init r a f ae fe eta eps epsf tff kind num h0 = (.ok p, h1))
    (ops : List (PetrosianOp K)) (hc : CallerOnly p ops) (i : Nat) (q : PQuery K) (hi : ops[i]? = some (.ask q)) :
    (p.run ip h1 ops).2.2[i]? = some (some ((Petrosian.init R A Y AE FE
        (lastOr etaOf (ops.take i) eta) (lastOr epsilonOf (ops.take i) eps) (lastOr epsilonFractionOf (ops.take i) epsf)
        (lastOr totalFluxFractionOf (ops.take i) tff) (lastOr kindOf (ops.take i) kind) (lastOr numOf (ops.take i) num)).bind
      fun P => P.ask ip q)) := by
  obtain ⟨hfr, hrep⟩ := Sim.init hr ha hf hae hfe eta eps epsf tff kind num
  rw [hinit] at hrep
  cases hP : Petrosian.init R A Y AE FE eta eps epsf tff kind num with
  | error e => rw [hP] at hrep; exact absurd hrep (by simp)
  | ok P =>
    rw [hP] at hrep
    simp only at hrep
    obtain ⟨g1, g2, g3, g4, pl, pe, g5, rfl⟩ := Petrosian.init_ok_iff.1 hP
    rw [(run_rep ip _ ops hrep hc).1 i q hi]
    have : ∀ eta eps epsf tff kind num, Petrosian.init R A Y AE FE eta eps epsf tff kind num =
        .ok ⟨R, A, Y, AE, FE, eta, eps, epsf, tff, kind, num, pl, pe⟩ :=
      fun eta eps epsf tff kind num => Petrosian.init_ok_iff.2 ⟨g1, g2, g3, g4, pl, pe, g5, rfl⟩
    rw [this]
    rfl

/-- C24: `r_petrosian` (and its error) depend on the arrays, eta and the interpolation settings only. -/
theorem C24_eta_only (ip : InterpFam K) (R A Y : List (F K)) (AE FE : Option (List (F K))) (eta eps epsf tff eps' epsf' tff' : F K)
    (kind : Option String) (num : Nat) :
    ((Petrosian.init R A Y AE FE eta eps epsf tff kind num).bind fun P => P.rPetrosian ip) =
      ((Petrosian.init R A Y AE FE eta eps' epsf' tff' kind num).bind fun P => P.rPetrosian ip) ∧
    ((Petrosian.init R A Y AE FE eta eps epsf tff kind num).bind fun P => P.rPetrosianErr ip) =
      ((Petrosian.init R A Y AE FE eta eps' epsf' tff' kind num).bind fun P => P.rPetrosianErr ip) := by
  have key : (∃ e, Petrosian.init R A Y AE FE eta eps epsf tff kind num = .error e ∧
      Petrosian.init R A Y AE FE eta eps' epsf' tff' kind num = .error e) ∨
      ∃ pl pe, ∀ eps epsf tff, Petrosian.init R A Y AE FE eta eps epsf tff kind num =
        .ok ⟨R, A, Y, AE, FE, eta, eps, epsf, tff, kind, num, pl, pe⟩ := by
    cases hP : Petrosian.init R A Y AE FE eta eps epsf tff kind num with
    | ok P =>
      obtain ⟨g1, g2, g3, g4, pl, pe, g5, rfl⟩ := Petrosian.init_ok_iff.1 hP
      exact Or.inr ⟨pl, pe, fun eps epsf tff => Petrosian.init_ok_iff.2 ⟨g1, g2, g3, g4, pl, pe, g5, rfl⟩⟩
    | error e =>
      refine Or.inl ⟨e, rfl, ?_⟩
      unfold Petrosian.init at hP ⊢
      split at hP
      · rename_i c; rw [if_pos c]; exact hP
      rename_i c; rw [if_neg c]
      split at hP
      · rename_i c; rw [if_pos c]; exact hP
      rename_i c; rw [if_neg c]
      split at hP
      · rename_i c; rw [if_pos c]; exact hP
      rename_i c; rw [if_neg c]
      split at hP
      · rename_i c; rw [if_pos c]; exact hP
      rename_i c; rw [if_neg c]
      cases hcp : calculatePetrosian A Y AE FE with
      | error x => rw [hcp] at hP; exact hP
      | ok t => rw [hcp] at hP; cases hP
  rcases key with ⟨e, h1, h2⟩ | ⟨pl, pe, h⟩
  · rw [h1, h2]; exact ⟨rfl, rfl⟩
  · rw [h, h]; exact ⟨rfl, rfl⟩

/-- C25: the three functions return what the pure functions return on the arrays' contents and leave every array that existed before the
call unchanged, also when they raise. -/
theorem C25_functions_frame (ip : InterpFam K) (h : Heap K) (r p : Nat) (err err' : Option Nat) (R P : List (F K))
    (E E' : Option (List (F K))) (hr : At h r R) (hp : At h p P) (he : AtO h err E) (he' : AtO h err' E') :
    (∀ eta kind num, (calculatePetrosianRH ip r p err eta kind num h).1 = calculatePetrosianR ip R P E eta kind num ∧
      ∀ i, i < h.next → (calculatePetrosianRH ip r p err eta kind num h).2.mem i = h.mem i) ∧
    (∀ f rp rpe eps epsf kind num, (fractionToRH ip f r p rp err rpe eps epsf kind num h).1 =
        fractionToR ip f R P rp E rpe eps epsf kind num ∧
      ∀ i, i < h.next → (fractionToRH ip f r p rp err rpe eps epsf kind num h).2.mem i = h.mem i) ∧
    (∀ i, i < h.next → (calculatePetrosianH r p err' err h).2.mem i = h.mem i) ∧
    (match (calculatePetrosianH r p err' err h), calculatePetrosian R P E' E with
      | (.ok (x, y), h'), .ok (X, Y) => At h' x X ∧ AtO h' y Y
      | (.error x, _), .error y => x = y
      | _, _ => False) := by
  refine ⟨fun eta kind num => ?_, fun f rp rpe eps epsf kind num => ?_, ?_, ?_⟩
  · obtain ⟨h1, h2⟩ := sim_eq (Sim.calculatePetrosianRH ip hr hp he eta kind num)
    exact ⟨h1, h2.2⟩
  · obtain ⟨h1, h2⟩ := sim_eq (Sim.fractionToRH ip hr hp he f rp rpe eps epsf kind num)
    exact ⟨h1, h2.2⟩
  · exact (Sim.calculatePetrosianH hr hp he' he).1.2
  · have := (Sim.calculatePetrosianH hr hp he' he).2
    rcases h1 : calculatePetrosianH r p err' err h with ⟨x, h'⟩
    rw [h1] at this
    cases x <;> cases h2 : calculatePetrosian R P E' E <;> rw [h2] at this <;> simp_all

/-- C25: constructing an object leaves all existing arrays unchanged and the object holds only new arrays, so the caller's arrays
are never its own. -/
theorem C25_init_copies (h0 h1 : Heap K) (r a f : Nat) (ae fe : Option Nat) (R A Y : List (F K))
    (AE FE : Option (List (F K))) (hr : At h0 r R) (ha : At h0 a A) (hf : At h0 f Y) (hae : AtO h0 ae AE) (hfe : AtO h0 fe FE)
    (eta eps epsf tff : F K) (kind : Option String) (num : Nat) (p : PetrosianH K)
    (hinit : PetrosianH.init r a f ae fe eta eps epsf tff kind num h0 = (.ok p, h1)) :
    (∀ i, i < h0.next → h1.mem i = h0.mem i) ∧ ∀ x ∈ refs p, h0.next ≤ x := by
  obtain ⟨hfr, hrep⟩ := Sim.init hr ha hf hae hfe eta eps epsf tff kind num
  rw [hinit] at hrep hfr
  refine ⟨hfr.2, ?_⟩
  cases hP : Petrosian.init R A Y AE FE eta eps epsf tff kind num with
  | error e => rw [hP] at hrep; exact absurd hrep (by simp)
  | ok P =>
    rw [hP] at hrep
    simp only at hrep
    intro x hx
    simp only [refs, List.mem_append, List.mem_cons, List.not_mem_nil, or_false, Option.mem_toList, Option.mem_def] at hx
    rcases hx with ((((rfl | rfl | rfl | rfl) | hx) | hx) | hx)
    · exact hrep.r.2
    · exact hrep.a.2
    · exact hrep.f.2
    · exact hrep.pl.2
    · exact hrep.ae.2 x hx
    · exact hrep.fe.2 x hx
    · exact hrep.pe.2 x hx

/-- C25: whatever history follows, an array of the caller holds what the caller last wrote into it (or its old contents): no read and no
assignment on the object touches it. -/
theorem C25_caller_arrays (ip : InterpFam K) (h0 h1 : Heap K) (r a f : Nat) (ae fe : Option Nat) (R A Y : List (F K))
    (AE FE : Option (List (F K))) (hr : At h0 r R) (ha : At h0 a A) (hf : At h0 f Y) (hae : AtO h0 ae AE) (hfe : AtO h0 fe FE)
    (eta eps epsf tff : F K) (kind : Option String) (num : Nat) (p : PetrosianH K)
    (hinit : PetrosianH.init r a f ae fe eta eps epsf tff kind num h0 = (.ok p, h1))
    (ops : List (PetrosianOp K)) (hc : CallerOnly p ops) (i : Nat) (hi : i < h0.next) :
    (p.run ip h1 ops).2.1.mem i = lastOr (writeOf i) ops (h0.mem i) := by
  obtain ⟨hfr, hrep⟩ := Sim.init hr ha hf hae hfe eta eps epsf tff kind num
  rw [hinit] at hrep hfr
  cases hP : Petrosian.init R A Y AE FE eta eps epsf tff kind num with
  | error e => rw [hP] at hrep; exact absurd hrep (by simp)
  | ok P =>
    rw [hP] at hrep
    simp only at hrep
    rw [(run_rep ip _ ops hrep hc).2 i (lt_of_lt_of_le hi hfr.1)]
    show _ = lastOr (writeOf i) ops (h0.mem i)
    rw [show h1.mem i = h0.mem i from hfr.2 i hi]

/-- Non-vacuity of C24/C25: three caller arrays, an object built on them, and a history in which the caller overwrites an input array
between two reads; the second read still uses the original data and the new epsilon. -/
def exampleHeap : Heap ℚ := ⟨3, fun i => if i = 0 then [1, 2, 4, 6].map fin else if i = 1 then [1, 4, 16, 36].map fin else [2, 5, 8, 9].map fin⟩

example : At exampleHeap 0 ([1, 2, 4, 6].map fin) ∧ At exampleHeap 1 ([1, 4, 16, 36].map fin) ∧ At exampleHeap 2 ([2, 5, 8, 9].map fin) := by
  refine ⟨⟨by decide, rfl⟩, ⟨by decide, rfl⟩, ⟨by decide, rfl⟩⟩

/-- The example history reads no logarithm; any function will do. -/
local instance exampleLog : HasLog10 ℚ := ⟨fun x => x⟩

example : (match PetrosianH.init 0 1 2 none none (fin (4 / 5)) (fin 2) (fin 1) (fin (9 / 10)) (some "linear") 16 exampleHeap with
    | (.ok p, h) => (p.run (fun _ => linearInterp) h [.ask .rEpsilon, .callerWrite 0 [fin 7], .setEpsilon (fin 3), .ask .rEpsilon]).2.2
    | _ => []) = [some (Except.ok [fin 4]), none, none, some (Except.ok [fin 6])] := by
  decide +kernel

end

end Verif.Props

import Verif.Props.PetrosianState
import Verif.Props.PetrosianProfile
import Verif.Model.PetrosianArrays

/-!
# C130: writing into the arrays a `Petrosian` object hands out
-/

set_option linter.unusedSectionVars false
set_option linter.unusedVariables false
set_option linter.unusedSimpArgs false

namespace Verif.Spec

/-- The contents shown by an attribute after a history of writes. -/
def shown {K : Type} (r : Option Nat) (ops : List (PetrosianOp K)) (before : Option (List (F K))) : Option (List (F K)) :=
  r.bind fun i => before.map fun l => lastOr (writeOf i) ops l

end Verif.Spec

namespace Verif.Props

open F Spec

section
variable {K : Type} [Field K] [LinearOrder K] [IsStrictOrderedRing K] [HasSqrt K] [HasLog10 K]

/-- The pure object whose settings are the assigned ones and whose arrays, the profile included, are what the attributes of `p` show. -/
def current (p : PetrosianH K) (P : Petrosian K) (ops : List (PetrosianOp K)) : Petrosian K :=
  { assigned P ops with
    rList := lastOr (writeOf p.rList) ops P.rList
    areaList := lastOr (writeOf p.areaList) ops P.areaList
    fluxList := lastOr (writeOf p.fluxList) ops P.fluxList
    areaErr := shown p.areaErr ops P.areaErr
    fluxErr := shown p.fluxErr ops P.fluxErr
    petrosianList := lastOr (writeOf p.petrosianList) ops P.petrosianList
    petrosianErr := shown p.petrosianErr ops P.petrosianErr }

/-- The references of `p` and `p'` are the same. -/
def SameArrays (p p' : PetrosianH K) : Prop := ∀ w, p'.array w = p.array w

theorem shown_cons (r : Option Nat) (op : PetrosianOp K) (ops : List (PetrosianOp K)) (b : Option (List (F K))) :
    shown r (op :: ops) b = shown r ops (shown r [op] b) := by
  cases r <;> cases b <;> simp [shown, lastOr_cons, lastOr_nil]

theorem current_cons {p p' : PetrosianH K} (hs : SameArrays p p') (P : Petrosian K) (op : PetrosianOp K) (ops : List (PetrosianOp K)) :
    current p P (op :: ops) = current p' (current p P [op]) ops := by
  have h1 : p'.rList = p.rList := by simpa [PetrosianH.array] using hs .rList
  have h2 : p'.areaList = p.areaList := by simpa [PetrosianH.array] using hs .areaList
  have h3 : p'.fluxList = p.fluxList := by simpa [PetrosianH.array] using hs .fluxList
  have h4 : p'.petrosianList = p.petrosianList := by simpa [PetrosianH.array] using hs .petrosianList
  have h5 : p'.areaErr = p.areaErr := hs .areaErr
  have h6 : p'.fluxErr = p.fluxErr := hs .fluxErr
  have h7 : p'.petrosianErr = p.petrosianErr := hs .petrosianErr
  unfold current
  rw [h1, h2, h3, h4, h5, h6, h7, shown_cons p.areaErr, shown_cons p.fluxErr, shown_cons p.petrosianErr]
  simp only [assigned, lastOr_cons, lastOr_nil]

theorem shown_nil {h : Heap K} {r : Option Nat} {b : Option (List (F K))} (ha : AtO h r b) : shown r [] b = b := by
  cases r <;> cases b <;> simp_all [shown, AtO, lastOr_nil]

theorem shown_other {h : Heap K} {r : Option Nat} {b : Option (List (F K))} (ha : AtO h r b) {x : Nat} {l : List (F K)}
    (hx : ∀ i, r = some i → i ≠ x) : shown r [.callerWrite x l] b = b := by
  cases r <;> cases b
  · rfl
  · exact ha.elim
  · exact ha.elim
  · have := hx _ rfl
    simp [shown, lastOr_cons, lastOr_nil, writeOf, Ne.symm this]

theorem current_quiet {n : Nat} {h : Heap K} {p : PetrosianH K} {P : Petrosian K} (hR : Rep n h p P) (op : PetrosianOp K)
    (hop : ∀ i, writeOf i op = none) : current p P [op] = assigned P [op] := by
  have hw : ∀ i (l : List (F K)), lastOr (writeOf i) [op] l = l := by
    intro i l; rw [lastOr_cons, lastOr_nil, hop]; rfl
  have hsh : ∀ {r : Option Nat} {b : Option (List (F K))}, AtO h r b → shown r [op] b = b := by
    intro r b ha
    cases r <;> cases b <;> simp_all [shown, AtO]
  unfold current
  rw [hw, hw, hw, hw, hsh hR.ae.1, hsh hR.fe.1, hsh hR.pe.1]
  rfl

theorem rep_write_any {n : Nat} {h : Heap K} {p : PetrosianH K} {P : Petrosian K} (hR : Rep n h p P) (r : Nat) (l : List (F K)) :
    Rep n (HM.write r l h).2 p (current p P [.callerWrite r l]) := by
  have key : ∀ {r' l'}, At h r' l' → At (HM.write r l h).2 r' (lastOr (writeOf r') [.callerWrite r l] l') := by
    intro r' l' ha
    refine ⟨ha.1, ?_⟩
    rw [lastOr_cons, lastOr_nil]
    simp only [HM.write, writeOf]
    by_cases e : r' = r
    · subst e; simp
    · rw [if_neg e, if_neg (fun e' => e e'.symm)]; exact ha.2
  have keyO : ∀ {r' l'}, AtO h r' l' → AtO (HM.write r l h).2 r' (shown r' [.callerWrite r l] l') := by
    intro r' l' ha
    cases r' <;> cases l' <;> first | exact ha | exact key ha | exact ha.elim
  exact ⟨⟨key hR.r.1, hR.r.2⟩, ⟨key hR.a.1, hR.a.2⟩, ⟨key hR.f.1, hR.f.2⟩, ⟨keyO hR.ae.1, hR.ae.2⟩, ⟨keyO hR.fe.1, hR.fe.2⟩,
    ⟨key hR.pl.1, hR.pl.2⟩, ⟨keyO hR.pe.1, hR.pe.2⟩, hR.scalars⟩

theorem step_any (ip : InterpFam K) {n : Nat} {h : Heap K} {p : PetrosianH K} {P : Petrosian K} (hR : Rep n h p P) (op : PetrosianOp K) :
    Rep n (p.step ip h op).2.1 (p.step ip h op).1 (current p P [op]) ∧ SameArrays p (p.step ip h op).1 ∧
    (∀ q, op = .ask q → (p.step ip h op).2.2 = some (P.ask ip q)) := by
  by_cases hw : ∃ r l, op = .callerWrite r l
  · obtain ⟨r, l, rfl⟩ := hw
    exact ⟨rep_write_any hR r l, fun _ => rfl, by rintro q ⟨⟩⟩
  · have h1 := step_rep ip hR op (fun r l e => absurd ⟨r, l, e⟩ hw)
    refine ⟨?_, ?_, h1.2.2.1⟩
    · rw [current_quiet hR op]
      · exact h1.1
      · intro i
        cases op <;> first | rfl | exact absurd ⟨_, _, rfl⟩ hw
    · cases op <;> intro w <;> cases w <;> rfl

theorem run_any (ip : InterpFam K) (n : Nat) (ops : List (PetrosianOp K)) : ∀ {h : Heap K} {p : PetrosianH K} {P : Petrosian K},
    Rep n h p P → ∀ i q, ops[i]? = some (.ask q) → (p.run ip h ops).2.2[i]? = some (some ((current p P (ops.take i)).ask ip q)) := by
  induction ops with
  | nil => intro h p P hR i q hi; simp at hi
  | cons op ops ih =>
    intro h p P hR i q hi
    obtain ⟨h1, h2, h3⟩ := step_any ip hR op
    cases i with
    | zero =>
      simp only [List.getElem?_cons_zero, Option.some.injEq] at hi
      simp only [PetrosianH.run, List.getElem?_cons_zero, List.take_zero]
      rw [h3 q hi]
      have : current p P [] = P := by
        unfold current
        rw [shown_nil hR.ae.1, shown_nil hR.fe.1, shown_nil hR.pe.1]
        rfl
      rw [this]
    | succ i =>
      simp only [List.getElem?_cons_succ] at hi
      simp only [PetrosianH.run, List.getElem?_cons_succ, List.take_succ_cons]
      rw [ih h1 i q hi, ← current_cons h2]

/-- **C130, exactly what happens.** After any history of assignments, reads and writes of the caller - into its own arrays or into any array
it got from the object - every read answers from the arrays as the attributes show them, with the profile of the constructor unless that
very array was overwritten. -/
theorem C130_history (ip : InterpFam K) (h0 h1 : Heap K) (r a f : Nat) (ae fe : Option Nat) (R A Y : List (F K))
    (AE FE : Option (List (F K))) (hr : At h0 r R) (ha : At h0 a A) (hf : At h0 f Y) (hae : AtO h0 ae AE) (hfe : AtO h0 fe FE)
    (eta eps epsf tff : F K) (kind : Option String) (num : Nat) (p : PetrosianH K)
    (hinit : PetrosianH.init r a f ae fe eta eps epsf tff kind num h0 = (.ok p, h1)) :
    ∃ pl pe, calculatePetrosian A Y AE FE = .ok (pl, pe) ∧
      ∀ (ops : List (PetrosianOp K)) (i : Nat) (q : PQuery K), ops[i]? = some (.ask q) →
        (p.run ip h1 ops).2.2[i]? = some (some (Petrosian.ask ip
          ⟨lastOr (writeOf p.rList) (ops.take i) R, lastOr (writeOf p.areaList) (ops.take i) A,
           lastOr (writeOf p.fluxList) (ops.take i) Y, shown p.areaErr (ops.take i) AE, shown p.fluxErr (ops.take i) FE,
           lastOr etaOf (ops.take i) eta, lastOr epsilonOf (ops.take i) eps, lastOr epsilonFractionOf (ops.take i) epsf,
           lastOr totalFluxFractionOf (ops.take i) tff, lastOr kindOf (ops.take i) kind, lastOr numOf (ops.take i) num,
           lastOr (writeOf p.petrosianList) (ops.take i) pl, shown p.petrosianErr (ops.take i) pe⟩ q)) := by
  obtain ⟨hfr, hrep⟩ := Sim.init hr ha hf hae hfe eta eps epsf tff kind num
  rw [hinit] at hrep
  cases hP : Petrosian.init R A Y AE FE eta eps epsf tff kind num with
  | error e => rw [hP] at hrep; exact absurd hrep (by simp)
  | ok P =>
    rw [hP] at hrep
    simp only at hrep
    obtain ⟨g1, g2, g3, g4, pl, pe, g5, rfl⟩ := Petrosian.init_ok_iff.1 hP
    refine ⟨pl, pe, g5, fun ops i q hi => ?_⟩
    rw [run_any ip _ ops hrep i q hi]
    rfl

/-- The arrays of a new object do not overlap: only `petrosian_list` and `petrosian_err` lie above all others. -/
theorem init_separate {h : Heap K} {r a f : Nat} {ae fe : Option Nat} {R A Y : List (F K)} {AE FE : Option (List (F K))}
    (hr : At h r R) (ha : At h a A) (hf : At h f Y) (hae : AtO h ae AE) (hfe : AtO h fe FE) (eta eps epsf tff : F K)
    (kind : Option String) (num : Nat) :
    Sim h.next h (fun h' p (P : Petrosian K) => p.rList < p.areaList ∧ p.areaList < p.fluxList ∧ (∀ i, p.areaErr = some i → p.fluxList < i) ∧
        (∀ i, p.fluxErr = some i → p.fluxList < i) ∧ p.fluxList < p.petrosianList ∧ (∀ i, p.petrosianErr = some i → p.fluxList < i))
      (PetrosianH.init r a f ae fe eta eps epsf tff kind num) (Petrosian.init R A Y AE FE eta eps epsf tff kind num) := by
  unfold PetrosianH.init Petrosian.init
  refine Sim.bind_left (Sim.npArray hr) le_rfl fun r1 h1 f1 ⟨ar1, br1⟩ => ?_
  refine Sim.bind_left (Sim.npArray (ha.frame f1)) f1.1 fun a1 h2 f2 ⟨aa1, ba1⟩ => ?_
  refine Sim.bind_left (Sim.npArray ((hf.frame f1).frame f2)) (f1.1.trans f2.1) fun p1 h3 f3 ⟨ap1, bp1⟩ => ?_
  have l3 := f1.1.trans (f2.1.trans f3.1)
  refine Sim.bind_left (Sim.npArrayOpt (((hae.frame f1).frame f2).frame f3)) l3 fun ae1 h4 f4 ⟨aae, bae⟩ => ?_
  refine Sim.bind_left (Sim.npArrayOpt ((((hfe.frame f1).frame f2).frame f3).frame f4)) (l3.trans f4.1) fun fe1 h5 f5 ⟨afe, bfe⟩ => ?_
  have l5 := l3.trans (f4.1.trans f5.1)
  refine Sim.bind_left (n₁ := h.next) (b := ()) (R := fun h' x _ => h' = h5 ∧ x = h5) ⟨Frame.refl _ _, rfl, rfl⟩ le_rfl
    fun hp h6 _ ⟨e1, e2⟩ => ?_
  subst e1 e2
  have ar := (((ar1.frame f2).frame f3).frame f4).frame f5
  have aa := ((aa1.frame f3).frame f4).frame f5
  have ap := (ap1.frame f4).frame f5
  have aae := aae.frame f5
  rw [ar.2, ap.2, aa.2]
  by_cases c1 : ¬ 2 < R.length
  · rw [if_pos c1, if_pos c1]; exact Sim.error
  rw [if_neg c1, if_neg c1]
  by_cases c2 : R.length ≠ Y.length
  · rw [if_pos c2, if_pos c2]; exact Sim.error
  rw [if_neg c2, if_neg c2]
  have hany : ∀ {x : Option Nat} {X : Option (List (F K))} {n : Nat}, AtO hp x X →
      (x.any fun e => (hp.mem e).length ≠ n) = X.any fun e => e.length ≠ n := by
    intro x X n hx
    cases x <;> cases X
    · rfl
    · exact absurd hx (by simp [AtO])
    · exact absurd hx (by simp [AtO])
    · simp only [Option.any_some]; rw [hx.2]
  rw [hany afe, hany aae]
  by_cases c3 : (FE.any fun e => decide (e.length ≠ Y.length)) = true
  · rw [if_pos c3, if_pos c3]; exact Sim.error
  rw [if_neg c3, if_neg c3]
  by_cases c4 : (AE.any fun e => decide (e.length ≠ A.length)) = true
  · rw [if_pos c4, if_pos c4]; exact Sim.error
  rw [if_neg c4, if_neg c4]
  refine Sim.bind (Sim.calculatePetrosianH aa ap aae afe) l5 fun x y h7 f7 ⟨⟨q1, q2⟩, q3, q4⟩ => ?_
  have t1 : r1 < h1.next := ar1.1
  have t2 : a1 < h2.next := aa1.1
  have t3 : p1 < h3.next := ap1.1
  have t4 : p1 < hp.next := lt_of_lt_of_le t3 (f4.1.trans f5.1)
  exact Sim.pure ⟨lt_of_lt_of_le t1 ba1, lt_of_lt_of_le t2 bp1, fun i hi => lt_of_lt_of_le t3 (bae i hi),
    fun i hi => lt_of_lt_of_le (lt_of_lt_of_le t3 f4.1) (bfe i hi), lt_of_lt_of_le t4 q2, fun i hi => lt_of_lt_of_le t4 (q4 i hi)⟩

/-- One write, one read. -/
theorem write_then_ask (ip : InterpFam K) (h0 h1 : Heap K) (r a f : Nat) (ae fe : Option Nat) (R A Y : List (F K))
    (AE FE : Option (List (F K))) (hr : At h0 r R) (ha : At h0 a A) (hf : At h0 f Y) (hae : AtO h0 ae AE) (hfe : AtO h0 fe FE)
    (eta eps epsf tff : F K) (kind : Option String) (num : Nat) (p : PetrosianH K)
    (hinit : PetrosianH.init r a f ae fe eta eps epsf tff kind num h0 = (.ok p, h1)) (l : List (F K)) (q : PQuery K) :
    ∃ pl pe, calculatePetrosian A Y AE FE = .ok (pl, pe) ∧
      (p.run ip h1 [.ask q]).2.2 = [some (Petrosian.ask ip ⟨R, A, Y, AE, FE, eta, eps, epsf, tff, kind, num, pl, pe⟩ q)] ∧
      (p.run ip h1 [.callerWrite p.areaList l, .ask q]).2.2 =
        [none, some (Petrosian.ask ip ⟨R, l, Y, AE, FE, eta, eps, epsf, tff, kind, num, pl, pe⟩ q)] ∧
      (p.run ip h1 [.callerWrite p.fluxList l, .ask q]).2.2 =
        [none, some (Petrosian.ask ip ⟨R, A, l, AE, FE, eta, eps, epsf, tff, kind, num, pl, pe⟩ q)] ∧
      (p.run ip h1 [.callerWrite p.rList l, .ask q]).2.2 =
        [none, some (Petrosian.ask ip ⟨l, A, Y, AE, FE, eta, eps, epsf, tff, kind, num, pl, pe⟩ q)] := by
  have hsep := (init_separate hr ha hf hae hfe eta eps epsf tff kind num).2
  have hrep := (Sim.init hr ha hf hae hfe eta eps epsf tff kind num).2
  rw [hinit] at hsep hrep
  cases hP : Petrosian.init R A Y AE FE eta eps epsf tff kind num with
  | error e => rw [hP] at hsep; exact absurd hsep (by simp)
  | ok P =>
    rw [hP] at hsep hrep
    simp only at hsep hrep
    obtain ⟨s1, s2, s3, s4, s5, s6⟩ := hsep
    obtain ⟨g1, g2, g3, g4, pl, pe, g5, rfl⟩ := Petrosian.init_ok_iff.1 hP
    refine ⟨pl, pe, g5, ?_, ?_, ?_, ?_⟩
    · show [some (p.ask ip q h1).1] = _
      rw [(sim_eq (Sim.ask ip hrep q)).1]
    all_goals
      show [none, some (p.ask ip q (HM.write _ l h1).2).1] = _
      rw [(sim_eq (Sim.ask ip (rep_write_any hrep _ l) q)).1]
      congr 3
      unfold current assigned
      rw [shown_other hrep.ae.1, shown_other hrep.fe.1, shown_other hrep.pe.1]
      · simp only [lastOr_cons, lastOr_nil, writeOf, etaOf, epsilonOf, epsilonFractionOf, totalFluxFractionOf, kindOf, numOf]
        simp [s1.ne, s1.ne', s2.ne, s2.ne', s5.ne, s5.ne', (s1.trans s2).ne, (s1.trans s2).ne', (s2.trans s5).ne, (s2.trans s5).ne',
          (s1.trans (s2.trans s5)).ne, (s1.trans (s2.trans s5)).ne']
      · intro i hi; have := s6 i hi; omega
      · intro i hi; have := s4 i hi; omega
      · intro i hi; have := s3 i hi; omega

/-- **C130, areas.** Writing into `area_list` never changes any result. -/
theorem C130_area_ignored (ip : InterpFam K) (h0 h1 : Heap K) (r a f : Nat) (ae fe : Option Nat) (R A Y : List (F K))
    (AE FE : Option (List (F K))) (hr : At h0 r R) (ha : At h0 a A) (hf : At h0 f Y) (hae : AtO h0 ae AE) (hfe : AtO h0 fe FE)
    (eta eps epsf tff : F K) (kind : Option String) (num : Nat) (p : PetrosianH K)
    (hinit : PetrosianH.init r a f ae fe eta eps epsf tff kind num h0 = (.ok p, h1)) (l : List (F K)) (q : PQuery K) :
    (p.run ip h1 [.callerWrite p.areaList l, .ask q]).2.2 = none :: (p.run ip h1 [.ask q]).2.2 := by
  obtain ⟨pl, pe, -, h2, h3, -, -⟩ := write_then_ask ip h0 h1 r a f ae fe R A Y AE FE hr ha hf hae hfe eta eps epsf tff kind num p hinit l q
  rw [h2, h3]
  cases q <;> rfl

/-- **C130, fluxes.** Writing into `flux_list` never changes the Petrosian radius, its error or r_epsilon, while the fluxes and the fraction
radii are read from the new fluxes. -/
theorem C130_radius_stale (ip : InterpFam K) (h0 h1 : Heap K) (r a f : Nat) (ae fe : Option Nat) (R A Y : List (F K))
    (AE FE : Option (List (F K))) (hr : At h0 r R) (ha : At h0 a A) (hf : At h0 f Y) (hae : AtO h0 ae AE) (hfe : AtO h0 fe FE)
    (eta eps epsf tff : F K) (kind : Option String) (num : Nat) (p : PetrosianH K)
    (hinit : PetrosianH.init r a f ae fe eta eps epsf tff kind num h0 = (.ok p, h1)) (l : List (F K)) (q : PQuery K)
    (hq : q = .rPetrosian ∨ q = .rPetrosianErr ∨ q = .rEpsilon) :
    (p.run ip h1 [.callerWrite p.fluxList l, .ask q]).2.2 = none :: (p.run ip h1 [.ask q]).2.2 := by
  obtain ⟨pl, pe, -, h2, -, h3, -⟩ := write_then_ask ip h0 h1 r a f ae fe R A Y AE FE hr ha hf hae hfe eta eps epsf tff kind num p hinit l q
  rw [h2, h3]
  rcases hq with rfl | rfl | rfl <;> rfl

/-- **C130, multiplication in place.** After `p.flux_list *= c` with a positive `c` (no errors given) every read answers what an object
constructed from the arrays shown answers. -/
theorem C130_scaled_partial (ip : InterpFam K) (h0 h1 : Heap K) (r a f : Nat) (R : List (F K)) (A Y : List K)
    (hr : At h0 r R) (ha : At h0 a (A.map fin)) (hf : At h0 f (Y.map fin))
    (eta eps epsf tff : F K) (kind : Option String) (num : Nat) (p : PetrosianH K)
    (hinit : PetrosianH.init r a f none none eta eps epsf tff kind num h0 = (.ok p, h1)) (c : K) (hc : 0 < c) (q : PQuery K) :
    (p.run ip h1 [.callerWrite p.fluxList ((Y.map (c * ·)).map fin), .ask q]).2.2 =
      [none, some ((Petrosian.init R (A.map fin) ((Y.map (c * ·)).map fin) none none eta eps epsf tff kind num).bind fun P => P.ask ip q)] := by
  obtain ⟨pl, pe, h1', -, -, h3, -⟩ := write_then_ask ip h0 h1 r a f none none R (A.map fin) (Y.map fin) none none hr ha hf trivial trivial
    eta eps epsf tff kind num p hinit ((Y.map (c * ·)).map fin) q
  have hrep := (Sim.init hr ha hf (ae := none) (fe := none) (AE := none) (FE := none) trivial trivial eta eps epsf tff kind num).2
  rw [hinit] at hrep
  cases hP : Petrosian.init R (A.map fin) (Y.map fin) none none eta eps epsf tff kind num with
  | error e => rw [hP] at hrep; exact absurd hrep (by simp)
  | ok P =>
    obtain ⟨g1, g2, -, -, -⟩ := Petrosian.init_ok_iff.1 hP
    have : Petrosian.init R (A.map fin) ((Y.map (c * ·)).map fin) none none eta eps epsf tff kind num =
        .ok ⟨R, A.map fin, (Y.map (c * ·)).map fin, none, none, eta, eps, epsf, tff, kind, num, pl, pe⟩ := by
      refine Petrosian.init_ok_iff.2 ⟨g1, by simpa using g2, by simp, by simp, pl, pe, ?_, rfl⟩
      rw [(C03_unit_independence A Y c).1 (Or.inl hc)]; exact h1'
    rw [h3, this]
    rfl

end

section witness

local instance arraysLog : HasLog10 ℚ := ⟨fun x => x⟩

/-- The answers of the object on `exampleHeap` to a history. -/
def answers (ops : PetrosianH ℚ → List (PetrosianOp ℚ)) : List (Option (Except PyErr (List (F ℚ)))) :=
  match PetrosianH.init 0 1 2 none none (fin (1 / 2)) (fin 1) (fin 1) (fin (9 / 10)) (some "linear") 16 exampleHeap with
  | (.ok p, h) => (p.run (fun _ => linearInterp) h (ops p)).2.2
  | _ => []

/-- **C130, violated.** A pixel is found to be bad and the fluxes are corrected in place: `r_petrosian` stays that of the old fluxes, an
object constructed from the arrays shown has another one. -/
theorem C130_violated :
    answers (fun p => [.ask .rPetrosian, .callerWrite p.fluxList ([2, 8, 20, 24].map fin), .ask .rPetrosian, .ask .totalFlux]) =
      [some (.ok [fin 4]), none, some (.ok [fin 4]), some (.ok [fin 18])] ∧
    ((Petrosian.init ([1, 2, 4, 6].map fin) ([1, 4, 16, 36].map fin) ([2, 8, 20, 24].map fin) none none (fin (1 / 2)) (fin 1) (fin 1)
      (fin (9 / 10)) (some "linear") 16).bind fun P => (P.ask (fun _ => linearInterp) .rPetrosian : Except PyErr (List (F ℚ)))) = .ok [fin (26 / 5)] := by
  decide +kernel

end witness
end Verif.Props

import Verif.Lemmas.Correction
import Mathlib.Data.List.Sort
import Mathlib.Data.Rat.Floor

/-!
# C32, C33: generation of the correction grid
-/

set_option linter.unusedSectionVars false
set_option linter.unusedVariables false
set_option linter.unusedSimpArgs false

namespace Verif.Props

open F Spec

/-- Items tagged with their position. -/
def tagged {A : Type} (args : List A) : List (Nat × A) := args.zipIdx.map Prod.swap

theorem mapM_error_iff {α β : Type} {f : α → Except PyErr β} {l : List α} :
    (∃ e, l.mapM f = .error e) ↔ ∃ a ∈ l, ∃ e, f a = .error e := by
  induction l with
  | nil => simp [pure, Except.pure]
  | cons a l ih =>
    rw [List.mapM_cons]
    cases h : f a with
    | error e => simp [h, bind, Except.bind]
    | ok v =>
      cases h' : l.mapM f with
      | error e =>
        have := ih.1 ⟨e, h'⟩
        simp [h, h', bind, Except.bind, this]
      | ok vs =>
        have hn : ¬ ∃ a ∈ l, ∃ e, f a = .error e := by rw [← ih, h']; simp
        simp only [bind, Except.bind, pure, Except.pure, h, List.mem_cons, exists_eq_or_imp, reduceCtorEq, exists_false, false_or]
        simpa using hn

theorem mapM_perm {α β : Type} {f : α → Except PyErr β} {l l' : List α} (h : l.Perm l') :
    ∀ {r}, l.mapM f = .ok r → ∃ r', l'.mapM f = .ok r' ∧ r.Perm r' := by
  induction h with
  | nil => intro r hr; exact ⟨r, hr, .refl _⟩
  | cons a _ ih =>
    intro r hr
    rw [List.mapM_cons] at hr
    obtain ⟨v, h1, hr⟩ := bind_eq_ok.1 hr
    obtain ⟨vs, h2, hr⟩ := bind_eq_ok.1 hr
    cases hr
    obtain ⟨r', h3, h4⟩ := ih h2
    exact ⟨v :: r', by rw [List.mapM_cons, h1, Except.bind_ok, h3]; rfl, h4.cons v⟩
  | swap a b l =>
    intro r hr
    rw [List.mapM_cons, List.mapM_cons] at hr
    obtain ⟨v, h1, hr⟩ := bind_eq_ok.1 hr
    obtain ⟨vs, h2, hr⟩ := bind_eq_ok.1 hr
    obtain ⟨w, h3, h4⟩ := bind_eq_ok.1 h2
    obtain ⟨ws, h5, h6⟩ := bind_eq_ok.1 h4
    cases h6
    cases hr
    refine ⟨w :: v :: ws, ?_, .swap _ _ _⟩
    rw [List.mapM_cons, List.mapM_cons, h1, h3, h5]
    rfl
  | trans _ _ ih1 ih2 =>
    intro r hr
    obtain ⟨r1, h1, p1⟩ := ih1 hr
    obtain ⟨r2, h2, p2⟩ := ih2 h1
    exact ⟨r2, h2, p1.trans p2⟩

theorem tagged_mapM {A R : Type} (gen : A → Except PyErr R) (args : List A) (rows : List R) (hs : args.mapM gen = .ok rows) :
    (tagged args).mapM (fun t => do return (t.1, ← gen t.2)) = .ok (tagged rows) := by
  have hlen := mapM_length hs
  rw [mapM_eq_ok]
  unfold tagged
  rw [List.forall₂_iff_get]
  refine ⟨by simp [hlen], ?_⟩
  intro i h1 h2
  simp only [List.length_map, List.length_zipIdx] at h1 h2
  simp only [List.get_eq_getElem, List.getElem_map, List.getElem_zipIdx, Prod.swap, (mapM_getElem hs i h1).2, Except.bind_ok, zero_add]
  rfl

/-- The process pool returns the rows of the serial loop, whatever the completion order. -/
theorem pool_eq_serial {A R : Type} (gen : A → Except PyErr R) (args : List A) (rows : List R) (hs : serialRows gen args = .ok rows)
    (hne : args ≠ []) (done : List (Nat × A)) (hd : done.Perm (tagged args)) : poolRows gen done = .ok rows := by
  have hlen := mapM_length hs
  obtain ⟨res, h1, h2⟩ := mapM_perm hd.symm (tagged_mapM gen args rows hs)
  unfold poolRows
  rw [h1, Except.bind_ok]
  have hl : (tagged rows).length = rows.length := by simp [tagged]
  have hp : 0 < rows.length := by rw [hlen]; exact List.length_pos_iff.2 hne
  rw [if_neg]
  · have : (res.mergeSort fun a b => decide (a.1 ≤ b.1)) = tagged rows := by
      refine List.Perm.eq_of_pairwise (le := fun a b : Nat × R => a.1 ≤ b.1) ?_ ?_ ?_ ((List.mergeSort_perm _ _).trans h2.symm)
      · intro a b ha hb hab hba
        have ha' := h2.mem_iff.2 ((List.mergeSort_perm _ _).mem_iff.1 ha)
        obtain ⟨i, hi, rfl⟩ := List.mem_iff_getElem.1 ha'
        obtain ⟨j, hj, rfl⟩ := List.mem_iff_getElem.1 hb
        simp only [tagged, List.getElem_map, List.getElem_zipIdx, Prod.swap, zero_add] at hab hba ⊢
        obtain rfl : i = j := le_antisymm hab hba
        rfl
      · have := List.pairwise_mergeSort (le := fun a b : Nat × R => decide (a.1 ≤ b.1)) (by simp; intros; omega)
          (by simp; intros; omega) res
        exact this.imp (by simp)
      · rw [List.pairwise_iff_getElem]
        intro i j hi hj hij
        simp only [tagged, List.getElem_map, List.getElem_zipIdx, Prod.swap, zero_add]
        exact hij.le
    rw [this]
    congr 1
    apply List.ext_getElem
    · simp [tagged]
    · intro i h1 h2
      simp [tagged]
  · have := h2.length_eq
    intro he
    rw [List.isEmpty_iff] at he
    rw [he, hl, List.length_nil] at this
    omega

theorem gridArgs_getElem {K : Type} (rnd : F K → F K) (rEffs ns : List (F K)) (i j : Nat) (hi : i < ns.length) (hj : j < rEffs.length) :
    (gridArgs rnd rEffs ns)[i * rEffs.length + j]? = some (rEffs[j], rnd ns[i]) := by
  unfold gridArgs
  induction ns generalizing i with
  | nil => simp at hi
  | cons n ns ih =>
    rw [List.map_cons, List.flatMap_cons]
    cases i with
    | zero =>
      rw [Nat.zero_mul, Nat.zero_add, List.getElem?_append_left (by simpa using hj)]
      simp [hj]
    | succ i =>
      rw [List.getElem?_append_right (by simp [Nat.succ_mul]; omega)]
      have := ih i (by simpa using hi)
      rw [List.length_map, show (i + 1) * rEffs.length + j - rEffs.length = i * rEffs.length + j by rw [Nat.succ_mul]; omega, this]
      simp

theorem gridArgs_length {K : Type} (rnd : F K → F K) (rEffs ns : List (F K)) :
    (gridArgs rnd rEffs ns).length = ns.length * rEffs.length := by
  unfold gridArgs
  induction ns with
  | nil => simp
  | cons n ns ih => rw [List.map_cons, List.flatMap_cons, List.length_append, ih, List.length_map, List.length_cons, Nat.succ_mul]; omega

/-- C32: for any simulation `gen`, any `n_cpu` (with plotting off) and any completion order, the table is that of the serial loop: row
`i * len(r_eff_list) + j` is the simulation of `(r_eff_list[j], n_list[i])`, and there is one row per pair. -/
theorem C32_scheduling {K : Type} (gen : F K × F K → Except PyErr (List (F K))) (rnd : F K → F K) (rEffs ns : List (F K))
    (nCpu : Option Nat) (done : List (Nat × (F K × F K))) (hd : done.Perm (tagged (gridArgs rnd rEffs ns)))
    (hr : rEffs ≠ []) (hn : ns ≠ []) (t : Table K) (plot : Bool)
    (hs : generateTable gen (gridArgs rnd rEffs ns) (some 1) plot [] = .ok t) :
    generateTable gen (gridArgs rnd rEffs ns) nCpu false done = .ok t ∧ t.names = gridNames ∧
    t.rows.length = ns.length * rEffs.length ∧
    ∀ i j (hi : i < ns.length) (hj : j < rEffs.length), ∃ row, t.rows[i * rEffs.length + j]? = some row ∧
      gen (rEffs[j], rnd ns[i]) = .ok row := by
  unfold generateTable at hs
  rw [if_pos (Or.inr rfl)] at hs
  obtain ⟨rows, h1, h2⟩ := bind_eq_ok.1 hs
  cases h2
  have hlen := mapM_length h1
  rw [gridArgs_length] at hlen
  refine ⟨?_, rfl, hlen, ?_⟩
  · unfold generateTable
    split
    · rw [h1]; rfl
    · rw [if_neg (by simp), pool_eq_serial gen _ rows h1 ?_ done hd]
      · rfl
      · intro he
        have hz := gridArgs_length rnd rEffs ns
        rw [he, List.length_nil] at hz
        have hp := Nat.mul_pos (List.length_pos_iff.2 hn) (List.length_pos_iff.2 hr)
        omega
  · intro i j hi hj
    have hb : i * rEffs.length + j < (gridArgs rnd rEffs ns).length := by
      rw [gridArgs_length]
      calc i * rEffs.length + j < i * rEffs.length + rEffs.length := by omega
        _ = (i + 1) * rEffs.length := by rw [Nat.succ_mul]
        _ ≤ ns.length * rEffs.length := Nat.mul_le_mul_right _ hi
    obtain ⟨hb', hm⟩ := mapM_getElem h1 _ hb
    have he := gridArgs_getElem rnd rEffs ns i j hi hj
    rw [List.getElem?_eq_getElem hb] at he
    injection he with he
    rw [he] at hm
    exact ⟨_, List.getElem?_eq_getElem hb', hm⟩

/-- C32: when a simulation raises, the serial loop raises and so does the pool under every completion order. -/
theorem C32_failure {K : Type} (gen : F K × F K → Except PyErr (List (F K))) (rnd : F K → F K) (rEffs ns : List (F K))
    (nCpu : Option Nat) (done : List (Nat × (F K × F K))) (hd : done.Perm (tagged (gridArgs rnd rEffs ns))) (plot : Bool) (e : PyErr)
    (hs : generateTable gen (gridArgs rnd rEffs ns) (some 1) plot [] = .error e) :
    ∃ e', generateTable gen (gridArgs rnd rEffs ns) nCpu false done = .error e' := by
  unfold generateTable at hs ⊢
  rw [if_pos (Or.inr rfl)] at hs
  have h1 : ∃ e, serialRows gen (gridArgs rnd rEffs ns) = .error e := by
    cases h : serialRows gen (gridArgs rnd rEffs ns) with
    | error e => exact ⟨e, rfl⟩
    | ok r => rw [h] at hs; cases hs
  split
  · obtain ⟨e', h⟩ := h1; rw [h]; exact ⟨e', rfl⟩
  · rw [if_neg (by simp)]
    obtain ⟨a, ha, e', hae⟩ := mapM_error_iff.1 h1
    obtain ⟨i, hi, rfl⟩ := List.mem_iff_getElem.1 ha
    have hm : (i, (gridArgs rnd rEffs ns)[i]) ∈ done := by
      rw [hd.mem_iff, tagged, List.mem_iff_getElem]
      exact ⟨i, by simpa using hi, by simp⟩
    obtain ⟨e'', h⟩ := mapM_error_iff (f := fun t : Nat × (F K × F K) => (do return (t.1, ← gen t.2) : Except PyErr (Nat × List (F K)))).2 ⟨_, hm, e', (by simp only [hae]; rfl :
      (fun t : Nat × (F K × F K) => (do return (t.1, ← gen t.2) : Except PyErr (Nat × List (F K)))) (i, (gridArgs rnd rEffs ns)[i]) = .error e')⟩
    unfold poolRows
    rw [h]
    exact ⟨e'', rfl⟩

/-- C32: thirty distinct column names, and every simulated row has thirty entries. -/
theorem C32_columns {K : Type} [Field K] [LinearOrder K] [HasSqrt K] [HasLog10 K] (ip : InterpFam K)
    (n rEff r20 r80 rTotal lTotal totalFlux : F K) (rList area flux row : List (F K))
    (h : simRow ip n rEff r20 r80 rTotal lTotal totalFlux rList area flux = .ok row) :
    row.length = 30 ∧ row[0]? = some n ∧ row[1]? = some rEff ∧ gridNames.length = 30 ∧ gridNames.Nodup := by
  have key : ∃ l, row = n :: rEff :: l ∧ l.length = 28 := by
    unfold simRow at h
    obtain ⟨p, _, h⟩ := bind_eq_ok.1 h
    obtain ⟨ci, _, h⟩ := bind_eq_ok.1 h
    split at h
    · cases h
    obtain ⟨fl, _, h⟩ := bind_eq_ok.1 h
    obtain ⟨rl, _, h⟩ := bind_eq_ok.1 h
    obtain ⟨mt, _, h⟩ := bind_eq_ok.1 h
    obtain ⟨m8, _, h⟩ := bind_eq_ok.1 h
    obtain ⟨rp, _, h⟩ := bind_eq_ok.1 h
    obtain ⟨pl, _, h⟩ := bind_eq_ok.1 h
    obtain ⟨p2, _, h⟩ := bind_eq_ok.1 h
    obtain ⟨p3, _, h⟩ := bind_eq_ok.1 h
    obtain ⟨p4, _, h⟩ := bind_eq_ok.1 h
    obtain ⟨p5, _, h⟩ := bind_eq_ok.1 h
    split at h
    · cases h
    obtain ⟨_, _, h⟩ := bind_eq_ok.1 h
    obtain ⟨_, _, h⟩ := bind_eq_ok.1 h
    obtain ⟨_, _, h⟩ := bind_eq_ok.1 h
    obtain ⟨_, _, h⟩ := bind_eq_ok.1 h
    obtain ⟨_, _, h⟩ := bind_eq_ok.1 h
    obtain ⟨_, _, h⟩ := bind_eq_ok.1 h
    obtain ⟨_, _, h⟩ := bind_eq_ok.1 h
    obtain ⟨_, _, h⟩ := bind_eq_ok.1 h
    obtain ⟨_, _, h⟩ := bind_eq_ok.1 h
    obtain ⟨_, _, h⟩ := bind_eq_ok.1 h
    obtain ⟨_, _, h⟩ := bind_eq_ok.1 h
    obtain ⟨_, _, h⟩ := bind_eq_ok.1 h
    cases h
    exact ⟨_, rfl, rfl⟩
  obtain ⟨l, rfl, hl⟩ := key
  exact ⟨by simp [hl], rfl, rfl, rfl, by decide⟩

/-- Non-vacuity of C32: 2 indices, 3 radii, four workers finishing in a scrambled order. -/
example : generateTable (fun a : F ℚ × F ℚ => .ok [a.2, a.1]) (gridArgs id [fin 1, fin 2, fin 3] [fin 7, fin 8]) (some 4) false
      [(4, fin 2, fin 8), (0, fin 1, fin 7), (5, fin 3, fin 8), (2, fin 3, fin 7), (1, fin 2, fin 7), (3, fin 1, fin 8)] =
    .ok ⟨gridNames, [[fin 7, fin 1], [fin 7, fin 2], [fin 7, fin 3], [fin 8, fin 1], [fin 8, fin 2], [fin 8, fin 3]]⟩ := by
  refine (C32_scheduling _ id _ _ (some 4) _ ?_ (by simp) (by simp) _ true ?_).1
  · decide +kernel
  · rfl

/-! ### C33 -/

theorem mem_pyRange {a b s x : Nat} (hs : 0 < s) : x ∈ pyRange a b s ↔ ∃ i, x = a + s * i ∧ x < b := by
  unfold pyRange
  simp only [List.mem_map, List.mem_range]
  constructor
  · rintro ⟨i, hi, rfl⟩
    refine ⟨i, rfl, ?_⟩
    have : (i + 1) * s ≤ b - a + (s - 1) := (Nat.le_div_iff_mul_le hs).1 hi
    have e : (i + 1) * s = s * i + s := by ring
    omega
  · rintro ⟨i, rfl, hb⟩
    refine ⟨i, ?_, rfl⟩
    refine (Nat.le_div_iff_mul_le hs).2 ?_
    have e : i.succ * s = s * i + s := by rw [Nat.succ_mul, Nat.mul_comm]
    omega

theorem pyRange_pairwise (a b s : Nat) (hs : 0 < s) : (pyRange a b s).Pairwise (· < ·) := by
  unfold pyRange
  rw [List.pairwise_map]
  refine List.pairwise_lt_range.imp ?_
  intro i j hij
  have := Nat.mul_lt_mul_of_pos_left hij hs
  omega

/-- C33: the radii of one simulation start at 1, are strictly increasing, stay below `max_r + 100` and reach `floor(max_r) - 1`. -/
theorem C33_radii {K : Type} [Field K] [LinearOrder K] [IsStrictOrderedRing K] [FloorRing K] (maxR : K) (h0 : 0 ≤ maxR) :
    (simRadii maxR).head? = some 1 ∧ (simRadii maxR).Pairwise (· < ·) ∧ (∀ x ∈ simRadii maxR, (x : K) < maxR + 100) ∧
    ∃ x ∈ simRadii maxR, ⌊maxR⌋ - 1 ≤ (x : ℤ) ∧ (maxR < 200 → ⌊maxR⌋ ≤ (x : ℤ)) := by
  have hf : 0 ≤ ⌊maxR⌋ := Int.floor_nonneg.2 h0
  obtain ⟨m, hm⟩ := Int.eq_ofNat_of_zero_le hf
  have hmK : (m : K) ≤ maxR := by
    have := Int.floor_le maxR
    rw [hm] at this
    exact_mod_cast this
  have hmK' : maxR < m + 1 := by
    have := Int.lt_floor_add_one maxR
    rw [hm] at this
    exact_mod_cast this
  unfold simRadii
  simp only [hm, Int.toNat_natCast]
  by_cases hc : 200 ≤ maxR
  · rw [if_pos hc]
    have h200 : 200 ≤ m := by
      by_contra hlt
      have : (m : K) + 1 ≤ 200 := by
        have : m + 1 ≤ 200 := by omega
        exact_mod_cast this
      linarith
    refine ⟨rfl, ?_, ?_, ?_⟩
    · rw [List.pairwise_append]
      refine ⟨pyRange_pairwise _ _ _ (by norm_num), pyRange_pairwise _ _ _ (by norm_num), ?_⟩
      intro a ha b hb
      obtain ⟨i, rfl, h1⟩ := (mem_pyRange (by norm_num)).1 ha
      obtain ⟨j, rfl, h2⟩ := (mem_pyRange (by norm_num)).1 hb
      omega
    · intro x hx
      rcases List.mem_append.1 hx with hx | hx
      · obtain ⟨i, _, h1⟩ := (mem_pyRange (by norm_num)).1 hx
        have : (x : K) < 201 := by exact_mod_cast h1
        linarith
      · obtain ⟨i, _, h1⟩ := (mem_pyRange (by norm_num)).1 hx
        have : (x : K) < (m : K) + 100 := by exact_mod_cast h1
        linarith
    · by_cases h2 : m = 200
      · refine ⟨199, List.mem_append_left _ ((mem_pyRange (by norm_num)).2 ⟨99, rfl, by norm_num⟩), by omega, fun h => absurd hc (not_le.2 h)⟩
      · refine ⟨300 + 100 * ((m + 99 - 300) / 100), List.mem_append_right _ ((mem_pyRange (by norm_num)).2 ⟨_, rfl, by omega⟩), ?_, fun h => absurd hc (not_le.2 h)⟩
        omega
  · rw [if_neg hc]
    refine ⟨?_, pyRange_pairwise _ _ _ (by norm_num), ?_, ?_⟩
    · unfold pyRange
      have : (m + 2 - 1 + (2 - 1)) / 2 = m / 2 + 1 := by omega
      rw [this, List.range_succ_eq_map]
      simp
    · intro x hx
      obtain ⟨i, _, h1⟩ := (mem_pyRange (by norm_num)).1 hx
      have : (x : K) < (m : K) + 2 := by exact_mod_cast h1
      linarith
    · exact ⟨1 + 2 * (m / 2), (mem_pyRange (by norm_num)).2 ⟨_, rfl, by omega⟩, by omega, fun _ => by omega⟩

/-- C33: the radius `r_99` containing the total flux is inside the radius list whenever it is at least 4. -/
theorem C33_total_radius_inside {K : Type} [Field K] [LinearOrder K] [IsStrictOrderedRing K] [FloorRing K] (rEff n r99 : K) (h4 : 4 ≤ r99) :
    ∃ x ∈ simRadii (simMaxR rEff n r99), r99 ≤ (x : K) := by
  have hM : 13 / 10 * r99 ≤ simMaxR rEff n r99 := by
    unfold simMaxR
    split
    · linarith
    · split <;> linarith
  set M := simMaxR rEff n r99
  have h0 : 0 ≤ M := by linarith
  obtain ⟨_, _, _, x, hx, h1, h2⟩ := C33_radii M h0
  refine ⟨x, hx, ?_⟩
  have hfl := Int.lt_floor_add_one M
  by_cases hc : M < 200
  · have := h2 hc
    have : ((⌊M⌋ : ℤ) : K) ≤ (x : K) := by exact_mod_cast this
    linarith
  · have : ((⌊M⌋ - 1 : ℤ) : K) ≤ (x : K) := by exact_mod_cast h1
    push_cast at this
    rw [not_lt] at hc
    linarith

example : simRadii (simMaxR (5 : ℚ) 1 4) = [1, 3, 5, 7, 9, 11, 13] := by decide +kernel
example : (simRadii (250 : ℚ)).getLast? = some 300 ∧ (simRadii (200 : ℚ)).getLast? = some 199 := by decide +kernel

end Verif.Props

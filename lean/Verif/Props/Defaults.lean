import Verif.Props.GridRun
import Verif.Props.Gaussian

/-!
# C99, C100, C78: default lists, `n_cpu` below zero, and what a Gaussian fit starts from
-/

set_option linter.unusedSectionVars false
set_option linter.unusedVariables false
set_option linter.unusedSimpArgs false

namespace Verif.Props

open F Spec

section
variable {K : Type} [Field K] [LinearOrder K] [IsStrictOrderedRing K]

theorem defaultREff_eq : (defaultREff : List (F K)) = (List.range 19).map fun i : Nat => fin (10 + 5 * (i : K)) := by
  unfold defaultREff
  simp [List.map_flatMap, Function.comp_def, List.flatMap_singleton', List.flatMap, List.range, List.range.loop]

theorem defaultN_eq : (defaultN : List (F K)) = (List.range 9).map fun i : Nat => fin ((1 + (i : K)) / 2) := by
  unfold defaultN
  simp [List.map_flatMap, Function.comp_def, List.flatMap_singleton', List.flatMap, List.range, List.range.loop]

/-- **C99, default lists.** Without lists the grid has the effective radii 10, 15, …, 100 and the Sersic indices 0.5, 1, …, 4.5, in increasing
order. -/
theorem C99_defaults :
    (defaultREff : List (F K)).Pairwise (fun x y => F.lt x y = true) ∧ (defaultN : List (F K)).Pairwise (fun x y => F.lt x y = true) ∧
      (∀ x : F K, x ∈ defaultREff ↔ ∃ z : Int, x = fin (5 * (z : K)) ∧ 10 ≤ 5 * z ∧ 5 * z ≤ 100) ∧
      ∀ x : F K, x ∈ defaultN ↔ ∃ z : Int, x = fin ((z : K) / 2) ∧ 1 ≤ z ∧ z ≤ 9 := by
  refine ⟨?_, ?_, ?_, ?_⟩
  · rw [defaultREff_eq]
    rw [List.pairwise_map]
    refine List.pairwise_lt_range.imp fun {a b} h => ?_
    have : (a : K) < b := by exact_mod_cast h
    simp only [F.lt, decide_eq_true_eq]
    linarith
  · rw [defaultN_eq]
    rw [List.pairwise_map]
    refine List.pairwise_lt_range.imp fun {a b} h => ?_
    have : (a : K) < b := by exact_mod_cast h
    simp only [F.lt, decide_eq_true_eq]
    linarith
  · intro x
    rw [defaultREff_eq]
    simp only [List.mem_map, List.mem_range]
    constructor
    · rintro ⟨i, hi, rfl⟩
      refine ⟨i + 2, ?_, by omega, by omega⟩
      push_cast
      congr 1
      ring
    · rintro ⟨z, rfl, h1, h2⟩
      refine ⟨(z - 2).toNat, by omega, ?_⟩
      have : (((z - 2).toNat : ℕ) : K) = (z : K) - 2 := by
        have h : (((z - 2).toNat : ℕ) : ℤ) = z - 2 := Int.toNat_of_nonneg (by omega)
        have h' := congrArg (Int.cast (R := K)) h
        push_cast at h'
        exact h'
      rw [this]
      congr 1
      ring
  · intro x
    rw [defaultN_eq]
    simp only [List.mem_map, List.mem_range]
    constructor
    · rintro ⟨i, hi, rfl⟩
      refine ⟨i + 1, ?_, by omega, by omega⟩
      push_cast
      congr 1
      ring
    · rintro ⟨z, rfl, h1, h2⟩
      refine ⟨(z - 1).toNat, by omega, ?_⟩
      have : (((z - 1).toNat : ℕ) : K) = (z : K) - 1 := by
        have h : (((z - 1).toNat : ℕ) : ℤ) = z - 1 := Int.toNat_of_nonneg (by omega)
        have h' := congrArg (Int.cast (R := K)) h
        push_cast at h'
        exact h'
      rw [this]
      congr 1
      ring

end

/-! ### `n_cpu` below zero -/

theorem mapM_tagged {A R : Type} (gen : A → Except PyErr R) (args : List A) (k : Nat) :
    ((args.zipIdx k).map Prod.swap).mapM (fun t : Nat × A => (do return (t.1, ← gen t.2) : Except PyErr (Nat × R))) =
      match args.mapM gen with
      | .error e => .error e
      | .ok rs => .ok ((rs.zipIdx k).map Prod.swap) := by
  induction args generalizing k with
  | nil => rfl
  | cons a l ih =>
    simp only [List.zipIdx_cons, List.map_cons, List.mapM_cons, Prod.swap_prod_mk, ih]
    cases gen a with
    | error e => rfl
    | ok r =>
      cases l.mapM gen with
      | error e => rfl
      | ok rs => rfl

theorem mapM_nil_iff {A R : Type} {gen : A → Except PyErr R} {args : List A} {rs : List R} (h : args.mapM gen = .ok rs) : rs = [] ↔ args = [] := by
  cases args with
  | nil => cases h; simp
  | cons a l =>
    rw [List.mapM_cons] at h
    cases hg : gen a with
    | error e => rw [hg] at h; cases h
    | ok r =>
      rw [hg] at h
      cases hl : l.mapM gen with
      | error e => rw [hl] at h; cases h
      | ok t => rw [hl] at h; cases h; simp

/-- **C100, numbers below zero.** A negative `n_cpu` starts no process and gives the rows (or the exception) of the serial loop, except that an empty
list is a ValueError and `plot=True` an AssertionError. -/
theorem C100_negative {A R : Type} (gen : A → Except PyErr R) (args : List A) (z : Int) (hz : z < 0) (done : List (Nat × A)) :
    NCpu.usesPool (.int z) = false ∧ gridRows gen args (.int z) true done = .error .assertionError ∧
      gridRows gen args (.int z) false done = if args = [] then .error .valueError else gridRows gen args .none false done := by
  have h1 : NCpu.isOne (.int z) = false := by simp [NCpu.isOne]; omega
  have h2 : NCpu.truthy (.int z) = true := by simp [NCpu.truthy]; omega
  have h3 : NCpu.atLeastOne (.int z) = false := by simp [NCpu.atLeastOne]; omega
  refine ⟨by simp [NCpu.usesPool, h3], by simp [gridRows, h1], ?_⟩
  have hL : gridRows gen args (.int z) false done = poolRows gen (args.zipIdx.map Prod.swap) := by
    simp [gridRows, h1, h2, h3]
  have hR : gridRows gen args .none false done = args.mapM gen := by simp [gridRows, serialRows]
  rw [hL, hR]
  unfold poolRows
  rw [mapM_tagged gen args 0]
  cases hm : args.mapM gen with
  | error e =>
    have : args ≠ [] := by rintro rfl; cases hm
    rw [if_neg this]
    rfl
  | ok rs =>
    have hiff := mapM_nil_iff hm
    by_cases ha : args = []
    · rw [if_pos ha]
      have := hiff.2 ha
      subst this
      rfl
    · rw [if_neg ha]
      have hne : rs ≠ [] := fun h => ha (hiff.1 h)
      have hemp : ((rs.zipIdx).map Prod.swap).isEmpty = false := by
        cases rs with
        | nil => exact absurd rfl hne
        | cons a l => rfl
      simp only [Bind.bind, Except.bind, hemp, Bool.false_eq_true, if_false]
      have hs : ((rs.zipIdx).map Prod.swap).Pairwise fun a b : Nat × R => decide (a.1 ≤ b.1) = true := by
        rw [List.pairwise_map, List.pairwise_iff_getElem]
        intro i j hi hj hij
        simp only [List.getElem_zipIdx, Prod.swap_prod_mk, decide_eq_true_eq]
        omega
      rw [List.mergeSort_of_pairwise hs, List.map_map]
      have : (Prod.snd ∘ Prod.swap : R × Nat → R) = Prod.fst := rfl
      rw [this, List.zipIdx_map_fst]

/-- Three items with `n_cpu=-1`. -/
example : gridRows (fun a : Nat => .ok (a + 1)) [5, 7, 6] (.int (-1)) false [] = .ok [6, 8, 7] := by
  rw [(C100_negative (fun a : Nat => (.ok (a + 1) : Except PyErr Nat)) [5, 7, 6] (-1) (by norm_num) []).2.2]
  rfl

/-! ### Pairs that fail -/

theorem mapM_error_mem {α β : Type} {f : α → Except PyErr β} {l : List α} {e : PyErr} (h : l.mapM f = .error e) : ∃ a ∈ l, f a = .error e := by
  induction l with
  | nil => cases h
  | cons a l ih =>
    rw [List.mapM_cons] at h
    cases ha : f a with
    | error e' => rw [ha] at h; cases h; exact ⟨a, List.mem_cons_self, ha⟩
    | ok b =>
      rw [ha] at h
      cases hl : l.mapM f with
      | error e' =>
        rw [hl] at h
        cases h
        obtain ⟨c, hc, h'⟩ := ih hl
        exact ⟨c, List.mem_cons_of_mem _ hc, h'⟩
      | ok t => rw [hl] at h; cases h

theorem gen_of_tagged_error {A R : Type} {gen : A → Except PyErr R} {t : Nat × A} {e : PyErr}
    (h : (do return (t.1, ← gen t.2) : Except PyErr (Nat × R)) = .error e) : gen t.2 = .error e := by
  cases hg : gen t.2 with
  | error e' => rw [hg] at h; cases h; rfl
  | ok r => rw [hg] at h; cases h

theorem poolRows_failing {A R : Type} (gen : A → Except PyErr R) (args : List A) (done : List (Nat × A)) (hd : done.Perm (tagged args))
    (hf : ∃ a ∈ args, ∃ e, gen a = .error e) : ∃ e, poolRows gen done = .error e ∧ ∃ a ∈ args, gen a = .error e := by
  have hmem : ∀ a, a ∈ args ↔ ∃ i, (i, a) ∈ done := by
    intro a
    constructor
    · intro ha
      obtain ⟨i, hi, rfl⟩ := List.getElem_of_mem ha
      refine ⟨i, hd.mem_iff.2 ?_⟩
      unfold tagged
      rw [List.mem_map]
      exact ⟨(args[i], i), List.mk_mem_zipIdx_iff_getElem?.2 (by simp [hi]), rfl⟩
    · rintro ⟨i, hi⟩
      have := hd.mem_iff.1 hi
      unfold tagged at this
      rw [List.mem_map] at this
      obtain ⟨⟨b, k⟩, hb, hs⟩ := this
      cases hs
      exact List.mem_of_getElem? (List.mk_mem_zipIdx_iff_getElem?.1 hb)
  obtain ⟨a, ha, e, he⟩ := hf
  obtain ⟨i, hi⟩ := (hmem a).1 ha
  obtain ⟨e', he'⟩ := (mapM_error_iff (f := fun t : Nat × A => (do return (t.1, ← gen t.2) : Except PyErr (Nat × R)))).2
    ⟨(i, a), hi, e, by simp only [he]; rfl⟩
  obtain ⟨t, ht, hg⟩ := mapM_error_mem he'
  refine ⟨e', ?_, t.2, (hmem _).2 ⟨t.1, ht⟩, gen_of_tagged_error hg⟩
  unfold poolRows
  rw [he']
  rfl

theorem poolRows_first {A R : Type} (gen : A → Except PyErr R) (i : Nat) (a : A) (l : List (Nat × A)) (e : PyErr) (h : gen a = .error e) :
    poolRows gen ((i, a) :: l) = .error e := by
  unfold poolRows
  rw [List.mapM_cons]
  simp only [h]
  rfl

/-- **C100, failing pairs.** If the simulation of one pair raises, the call raises for every `n_cpu` and every completion order, always an exception
that one of the pairs raises, and the files stay as they are. -/
theorem C100_failing {K : Type} [Field K] [LinearOrder K] (gen : F K × F K → Except PyErr (List (F K))) (rnd : F K → F K) (W : TableWriter K)
    (fs : Files K) (file : Option String) (rEffs ns : List (F K)) (o : Bool) (nCpu : NCpu) (done : List (Nat × (F K × F K)))
    (hd : done.Perm (tagged (gridArgs rnd rEffs ns))) (r n : F K) (hr : r ∈ rEffs) (hn : n ∈ ns) (hf : ∃ e, gen (r, rnd n) = .error e) :
    ∃ e, generateCorrection gen rnd W fs file (some rEffs) (some ns) o nCpu false done = (.error e, fs) ∧
      ∃ r' ∈ rEffs, ∃ n' ∈ ns, gen (r', rnd n') = .error e := by
  have hmem : ∀ a, a ∈ gridArgs rnd rEffs ns ↔ ∃ r' ∈ rEffs, ∃ n' ∈ ns, a = (r', rnd n') := by
    intro a
    simp only [gridArgs, List.mem_flatMap, List.mem_map]
    constructor
    · rintro ⟨_, ⟨n', hn', rfl⟩, r', hr', rfl⟩; exact ⟨r', hr', n', hn', rfl⟩
    · rintro ⟨r', hr', n', hn', rfl⟩; exact ⟨_, ⟨n', hn', rfl⟩, r', hr', rfl⟩
  obtain ⟨e, he⟩ := hf
  have hex : ∃ a ∈ gridArgs rnd rEffs ns, ∃ e, gen a = .error e := ⟨_, (hmem _).2 ⟨r, hr, n, hn, rfl⟩, e, he⟩
  have hrows : ∃ e, gridRows gen (gridArgs rnd rEffs ns) nCpu false done = .error e ∧ ∃ a ∈ gridArgs rnd rEffs ns, gen a = .error e := by
    have hser : ∃ e, serialRows gen (gridArgs rnd rEffs ns) = .error e ∧ ∃ a ∈ gridArgs rnd rEffs ns, gen a = .error e := by
      obtain ⟨e', he'⟩ := mapM_error_iff.2 hex
      exact ⟨e', he', mapM_error_mem he'⟩
    unfold gridRows
    by_cases h1 : (nCpu = .none || nCpu.isOne) = true
    · rw [if_pos h1]; exact hser
    · rw [if_neg h1]
      simp only [Bool.false_eq_true, if_false]
      by_cases h2 : nCpu.truthy = true
      · rw [if_pos h2]
        by_cases h3 : nCpu.atLeastOne = true
        · rw [if_pos h3]; exact poolRows_failing gen _ _ hd hex
        · rw [if_neg h3]; exact poolRows_failing gen _ _ (List.Perm.refl _) hex
      · rw [if_neg h2]; exact hser
  obtain ⟨e', h1, a, ha, h2⟩ := hrows
  obtain ⟨r', hr', n', hn', rfl⟩ := (hmem a).1 ha
  refine ⟨e', ?_, r', hr', n', hn', h2⟩
  unfold generateCorrection
  simp only [Option.getD_some, h1]

/-- **C100, which exception.** When two pairs raise different exceptions, the one that reaches the caller depends on the completion order. -/
theorem C100_exception_violated {K : Type} [Field K] [LinearOrder K] (gen : F K × F K → Except PyErr (List (F K))) (rnd : F K → F K)
    (W : TableWriter K) (fs : Files K) (file : Option String) (o : Bool) (r r' n : F K) (e e' : PyErr) (h : gen (r, rnd n) = .error e)
    (h' : gen (r', rnd n) = .error e') (z : Int) (hz : 1 < z) :
    ∃ d d' : List (Nat × (F K × F K)), d.Perm (tagged (gridArgs rnd [r, r'] [n])) ∧ d'.Perm (tagged (gridArgs rnd [r, r'] [n])) ∧
      (generateCorrection gen rnd W fs file (some [r, r']) (some [n]) o (.int z) false d).1 = .error e ∧
      (generateCorrection gen rnd W fs file (some [r, r']) (some [n]) o (.int z) false d').1 = .error e' := by
  refine ⟨[(0, r, rnd n), (1, r', rnd n)], [(1, r', rnd n), (0, r, rnd n)], List.Perm.refl _, List.Perm.swap _ _ _, ?_, ?_⟩ <;>
  · have h1 : NCpu.isOne (.int z) = false := by simp [NCpu.isOne]; omega
    have h2 : NCpu.truthy (.int z) = true := by simp [NCpu.truthy]; omega
    have h3 : NCpu.atLeastOne (.int z) = true := by simp [NCpu.atLeastOne]; omega
    have hg : ∀ d, gridRows gen (gridArgs rnd [r, r'] [n]) (.int z) false d = poolRows gen d := by
      intro d
      simp [gridRows, h1, h2, h3]
    simp only [generateCorrection, Option.getD_some, hg, poolRows_first gen 0 _ _ e h, poolRows_first gen 1 _ _ e' h']

/-- Two pairs, one index, one failing pair on four processes. -/
example : ∃ e, generateCorrection (fun a : F ℚ × F ℚ => if a.1 = fin 2 then .error .valueError else .ok [a.1]) id plainWriter (fun _ => none)
      (some "grid.ecsv") (some [fin 1, fin 2]) (some [fin 4]) true (.int 4) false [(1, fin 2, fin 4), (0, fin 1, fin 4)] =
    (.error e, fun _ => none) := by
  obtain ⟨e, he, -⟩ := C100_failing (fun a : F ℚ × F ℚ => if a.1 = fin 2 then .error .valueError else .ok [a.1]) id plainWriter (fun _ => none)
    (some "grid.ecsv") [fin 1, fin 2] [fin 4] true (.int 4) [(1, fin 2, fin 4), (0, fin 1, fin 4)] (List.Perm.swap _ _ _) (fin 2) (fin 4)
    (by simp) (by simp) ⟨_, if_pos rfl⟩
  exact ⟨e, he⟩

/-! ### The Gaussian fit -/

theorem foldl_max (l : List ℝ) (a : ℝ) :
    ∃ M, (l.map fin).foldl (fun m v : F ℝ => if m.isNaN || v.isNaN then .nan else if F.lt m v then v else m) (fin a) = fin M ∧
      (M = a ∨ M ∈ l) ∧ a ≤ M ∧ ∀ x ∈ l, x ≤ M := by
  induction l generalizing a with
  | nil => exact ⟨a, rfl, Or.inl rfl, le_rfl, by simp⟩
  | cons b l ih =>
    simp only [List.map_cons, List.foldl_cons, F.isNaN, Bool.or_self, Bool.false_eq_true, if_false, F.lt, decide_eq_true_eq]
    by_cases h : a < b
    · rw [if_pos h]
      obtain ⟨M, h1, h2, h3, h4⟩ := ih b
      refine ⟨M, h1, Or.inr ?_, h.le.trans h3, ?_⟩
      · rcases h2 with rfl | h2
        · exact List.mem_cons_self
        · exact List.mem_cons_of_mem _ h2
      · intro x hx
        rcases List.mem_cons.1 hx with rfl | hx
        · exact h3
        · exact h4 x hx
    · rw [if_neg h]
      obtain ⟨M, h1, h2, h3, h4⟩ := ih a
      refine ⟨M, h1, ?_, h3, ?_⟩
      · rcases h2 with rfl | h2
        · exact Or.inl rfl
        · exact Or.inr (List.mem_cons_of_mem _ h2)
      · intro x hx
        rcases List.mem_cons.1 hx with rfl | hx
        · exact (not_lt.1 h).trans h3
        · exact h4 x hx

/-- **C78, start.** For an image of numbers the fit starts from the largest pixel value, unit widths and no rotation; the values it is given are those
of the pixels, none masked. -/
theorem C78_start (fitter : Gauss2D (F ℝ) → FitData ℝ → Except PyErr (Gauss2D (F ℝ))) (h w : Nat) (v : Nat → Nat → ℝ) {g : Gauss2D (F ℝ)}
    (hg : fitGaussian2d fitter ⟨h, w, fun i j => fin (v i j)⟩ = .ok g) :
    ∃ s d, fitter s d = .ok g ∧ s.xStddev = fin 1 ∧ s.yStddev = fin 1 ∧ s.theta = fin 0 ∧
      (∃ M, s.amplitude = fin M ∧ (∃ i j, i < h ∧ j < w ∧ v i j = M) ∧ ∀ i j, i < h → j < w → v i j ≤ M) ∧
      d.z = List.zipWith (fun i j => fin (v i j)) d.y d.x ∧ ∀ b ∈ d.zMask, b = false := by
  unfold fitGaussian2d gaussStart fitModel fitData at hg
  simp only [bind_eq_ok] at hg
  obtain ⟨s, ⟨m, hm, hs⟩, d, hd, hg⟩ := hg
  injection hs with hs
  injection hd with hd
  refine ⟨s, d, hg, by rw [← hs], by rw [← hs], by rw [← hs], ?_, by rw [← hd], ?_⟩
  · have ha : s.amplitude = m := by rw [← hs]
    unfold imageMax at hm
    have hl : ((List.range h).flatMap fun i => (List.range w).map fun j => (fin (v i j) : F ℝ)) =
        ((List.range h).flatMap fun i => (List.range w).map fun j => v i j).map fin := by
      simp [List.map_flatMap, Function.comp_def]
    simp only [hl] at hm
    have hmem : ∀ x, x ∈ ((List.range h).flatMap fun i => (List.range w).map fun j => v i j) ↔ ∃ i j, i < h ∧ j < w ∧ v i j = x := by
      intro x
      simp only [List.mem_flatMap, List.mem_range, List.mem_map]
      constructor
      · rintro ⟨i, hi, j, hj, e⟩; exact ⟨i, j, hi, hj, e⟩
      · rintro ⟨i, j, hi, hj, e⟩; exact ⟨i, hi, j, hj, e⟩
    generalize ((List.range h).flatMap fun i => (List.range w).map fun j => v i j) = L at hm hmem
    cases L with
    | nil => cases hm
    | cons a l =>
      obtain ⟨M, h1, h2, h3, h4⟩ := foldl_max l a
      simp only [List.map_cons] at hm
      rw [h1] at hm
      injection hm with hm
      refine ⟨M, by rw [ha, hm], ?_, ?_⟩
      · rw [← hmem]
        rcases h2 with rfl | h2
        · exact List.mem_cons_self
        · exact List.mem_cons_of_mem _ h2
      · intro i j hi hj
        have := (hmem (v i j)).2 ⟨i, j, hi, hj, rfl⟩
        rcases List.mem_cons.1 this with e | hx
        · rw [e]; exact h3
        · exact h4 _ hx
  · intro b hb
    rw [← hd] at hb
    simp only [List.zipWith_map, List.zipWith_self, List.mem_map] at hb
    obtain ⟨_, _, rfl⟩ := hb
    rfl

/-- A fitter that returns its start: the amplitude is the largest of four pixels. -/
example : ∃ M, (∃ i j : Nat, i < 2 ∧ j < 2 ∧ ((i : ℝ) - 2 * j) = M) ∧ ∀ i j : Nat, i < 2 → j < 2 → ((i : ℝ) - 2 * j) ≤ M := by
  obtain ⟨s, d, -, -, -, -, ⟨M, -, h1, h2⟩, -⟩ := C78_start (fun _ _ => .ok (Gauss2D.map .fin ⟨3, 0, 0, 1, 2, 0⟩)) 2 2 (fun i j => (i : ℝ) - 2 * j)
    (g := Gauss2D.map .fin ⟨3, 0, 0, 1, 2, 0⟩) rfl
  exact ⟨M, h1, h2⟩

end Verif.Props

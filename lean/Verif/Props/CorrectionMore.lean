import Verif.Model.CorrectionMore
import Verif.Props.Correction
import Verif.Props.Utils

/-!
# C88-C92: correcting twice, grid queries, grid files, angular radii, the correction plot
-/

set_option linter.unusedSectionVars false
set_option linter.unusedVariables false
set_option linter.unusedSimpArgs false

namespace Verif.Props

open F Spec

/-! ### C88: correcting a corrected profile -/

section
variable {K : Type} [Field K] [LinearOrder K] [IsStrictOrderedRing K] [HasSqrt K] [HasLog10 K]

theorem correct_shape {ip : InterpFam K} {c : Correction K} {p q : Petrosian K} (h : c.correct ip p = .ok q) :
    c.estimateEpsilon ip p = .ok q.epsilon ∧ q = { p with epsilon := q.epsilon } := by
  unfold Correction.correct at h
  obtain ⟨e, h1, h2⟩ := bind_eq_ok.1 h
  cases h2
  exact ⟨h1, rfl⟩

/-- C88, the part that holds: the Petrosian radius the grid is entered with is not changed by the correction, and a corrected profile whose
half-light radius and concentration still lead to the same row is returned unchanged by a second correction.
Missing (and false, `C88_violated`): that the second correction always finds the same row. -/
theorem C88_fixed_partial (ip : InterpFam K) (c : Correction K) (p q : Petrosian K) (h : c.correct ip p = .ok q) :
    (∀ x0 y0 z0 x1 y1 z1, Measured ip p x0 y0 z0 → Measured ip q x1 y1 z1 → x1 = x0) ∧
    (c.correctedRow ip q = c.correctedRow ip p → c.correct ip q = .ok q) ∧
    (∀ x0 y0 z0, Measured ip p x0 y0 z0 → Measured ip q x0 y0 z0 → c.correct ip q = .ok q) := by
  obtain ⟨h1, h2⟩ := correct_shape h
  have key : c.correctedRow ip q = c.correctedRow ip p → c.correct ip q = .ok q := by
    intro hr
    have he : c.estimateEpsilon ip q = .ok q.epsilon := by
      rw [← h1]
      unfold Correction.estimateEpsilon
      rw [hr, h2]
    unfold Correction.correct
    rw [he, Except.bind_ok]
  refine ⟨?_, key, ?_⟩
  · rintro x0 y0 z0 x1 y1 z1 ⟨⟨e, a⟩, _⟩ ⟨⟨e', b⟩, _⟩
    rw [h2] at b
    have b' := a.symm.trans b
    cases b'
    rfl
  · intro x0 y0 z0 ha hb
    apply key
    unfold Correction.correctedRow
    rw [getXYZ_of_measured ha, getXYZ_of_measured hb]

/-- C88 is violated: the grid is entered with the half-light radius and the concentration for the epsilon that is currently set, not for the
default one.  When the corrected epsilon makes `r_epsilon` pass the last radius, so that these two are NaN, correcting the corrected profile
raises AssertionError. -/
theorem C88_violated (ip : InterpFam K) (grid : Table K) (c : Correction K) (hc : Correction.init grid true = .ok c)
    (X Y Z : List K) (hX : grid.col "p02" = .ok (X.map fin)) (hY : grid.col "u_r_50" = .ok (Y.map fin))
    (hZ : grid.col "u_c2080" = .ok (Z.map fin)) (hne : grid.rows ≠ []) (p q : Petrosian K) (h : c.correct ip p = .ok q)
    (rp hi : K) (err : F K) (hr : p.calcPetrosianR ip = .ok (fin rp, err)) (hhi : pyMax p.rList = .ok (fin hi)) (e : K) (he : q.epsilon = fin e)
    (hout : hi < rp * e) : c.correct ip q = .error .assertionError := by
  obtain ⟨h1, h2⟩ := correct_shape h
  have hrq : q.calcPetrosianR ip = .ok (fin rp, err) := by rw [h2]; exact hr
  have hrl : q.rList = p.rList := by rw [h2]
  have hf : ∀ f, q.calcFractionToR ip f = .ok (nan, nan) := by
    intro f
    unfold Petrosian.calcFractionToR Petrosian.rPetrosian Petrosian.rPetrosianErr
    rw [hrq]
    simp only [Except.map, Except.bind_ok]
    unfold fractionToR
    rw [hrl, hhi, he]
    simp only [Except.bind_ok, fin_mul, lt_fin, decide_eq_true_eq, hout, if_true]
  have hcc : q.concentrationIndex ip (fin (1 / 5)) (fin (4 / 5)) = .ok (nan, nan, nan) := by
    have hff := hf
    unfold Petrosian.calcFractionToR Petrosian.rPetrosian Petrosian.rPetrosianErr at hff
    rw [hrq] at hff
    simp only [Except.map, Except.bind_ok] at hff
    unfold Petrosian.concentrationIndex calculateConcentrationIndex Petrosian.rPetrosian Petrosian.rPetrosianErr
    rw [hrq]
    simp only [Except.map, Except.bind_ok, hff]
    rfl
  have hm : ∃ x0, Measured ip q x0 nan nan := by
    have hp := h1
    unfold Correction.estimateEpsilon Correction.correctedRow at hp
    obtain ⟨row, hp, _⟩ := bind_eq_ok.1 hp
    obtain ⟨t, hp, _⟩ := bind_eq_ok.1 hp
    unfold Correction.getXYZ at hp
    obtain ⟨a2, m2, hp⟩ := bind_eq_ok.1 hp
    obtain ⟨a3, m3, hp⟩ := bind_eq_ok.1 hp
    obtain ⟨a4, m4, hp⟩ := bind_eq_ok.1 hp
    obtain ⟨a5, m5, hp⟩ := bind_eq_ok.1 hp
    have hl2 : q.petrosianList = p.petrosianList := by rw [h2]
    refine ⟨a2.1, ⟨a2.2, ?_⟩, ⟨a3, ?_⟩, ⟨a4, ?_⟩, ⟨a5, ?_⟩, ?_, ?_⟩
    · rw [hrl, hl2]; exact m2
    · rw [hrl, hl2]; exact m3
    · rw [hrl, hl2]; exact m4
    · rw [hrl, hl2]; exact m5
    · unfold Petrosian.r50 Petrosian.rHalfLight
      rw [hf]; rfl
    · unfold Petrosian.c2080
      rw [hcc]; rfl
  obtain ⟨x0, hm⟩ := hm
  exact (C29_enforced_partial ip grid c hc X Y Z hX hY hZ hne q x0 nan nan hm (Or.inr (Or.inl rfl))).2.2

end

/-- A grid of two rows with an epsilon column. -/
noncomputable def twiceGrid : Table ℝ where
  names := ["n", "p02", "u_r_50", "u_c2080", "c_r_80"]
  rows := [[fin 5, fin 1, fin 1, fin 0, fin 2], [fin 6, fin 0, fin 3, fin 3, fin 1]]

/-- The hypotheses of C88 are met: this profile is corrected to epsilon 2, and correcting the result raises. -/
example : ∃ c q, Correction.init twiceGrid true = .ok c ∧ c.correct (fun _ => constInterp ℝ) exampleP = .ok q ∧ q.epsilon = fin 2 ∧
    c.correct (fun _ => constInterp ℝ) q = .error .assertionError := by
  have hi : Correction.init twiceGrid true =
      .ok ⟨true, twiceGrid, [1, 0].map fin, [1, 3].map fin, [0, 3].map fin⟩ := rfl
  have hX : twiceGrid.col "p02" = .ok ([1, 0].map fin) := rfl
  have hY : twiceGrid.col "u_r_50" = .ok ([1, 3].map fin) := rfl
  have hZ : twiceGrid.col "u_c2080" = .ok ([0, 3].map fin) := rfl
  obtain ⟨i, hn, h, -, he, -⟩ := C26_nearest_row (fun _ => constInterp ℝ) twiceGrid true _ hi [1, 0] [1, 3] [0, 3] hX hY hZ
    (by norm_num [variance, mean]) (by norm_num [variance, mean]) (by norm_num [variance, mean]) exampleP 0 1 0 exampleP_measured
    (fun _ => ⟨⟨⟨0, by simp, le_rfl⟩, ⟨0, by simp, le_rfl⟩⟩, ⟨⟨1, by simp, le_rfl⟩, ⟨1, by simp, le_rfl⟩⟩,
      ⟨⟨0, by simp, le_rfl⟩, ⟨0, by simp, le_rfl⟩⟩⟩)
  have h0 : i = 0 := by
    have h2 : i < 2 := h
    obtain rfl | rfl : i = 0 ∨ i = 1 := by omega
    · rfl
    · exfalso
      have := hn.2.1 0 (by simp)
      norm_num [stdDist2, variance, mean] at this
  subst h0
  have hq : Correction.correct ⟨true, twiceGrid, [1, 0].map fin, [1, 3].map fin, [0, 3].map fin⟩ (fun _ => constInterp ℝ) exampleP =
      .ok { exampleP with epsilon := fin 2 } := by
    unfold Correction.correct
    rw [he]
    have : Correction.epsilonFromRow twiceGrid.names [fin 5, fin 1, fin 1, fin 0, fin 2] (fin (4 / 5)) (fin (1 / 5)) = .ok (fin (2 : ℝ)) := by
      have k1 : Correction.radiusKey (fin (4 / 5 : ℝ)) = some "c_r_80" := by
        unfold Correction.radiusKey
        norm_num
      have k2 : Correction.etaKey (fin (1 / 5 : ℝ)) = some "p02" := by
        unfold Correction.etaKey
        norm_num
      unfold Correction.epsilonFromRow
      rw [k1, k2]
      show Except.ok (fin 2 / fin 1) = Except.ok (fin (2 : ℝ))
      rw [fin_div_of_ne _ one_ne_zero, div_one]
    have hrow : Correction.epsilonFromRow twiceGrid.names twiceGrid.rows[0] exampleP.epsilonFraction exampleP.eta = .ok (fin (2 : ℝ)) := this
    rw [hrow, Except.bind_ok]
  refine ⟨_, _, hi, hq, rfl, ?_⟩
  exact C88_violated _ twiceGrid _ hi _ _ _ hX hY hZ (by simp [twiceGrid]) exampleP _ hq 2 3 nan (exampleP_rp _)
    (by norm_num [exampleP, pyMax]) 2 rfl (by norm_num)

/-! ### C89: unique_grid_values and filter_grid -/

section
variable {K : Type} [Field K] [LinearOrder K] [IsStrictOrderedRing K]

/-- Increasing, NaN last. -/
def Before (a b : F K) : Prop := F.lt a b = true ∨ (a ≠ nan ∧ b = nan)

theorem before_trans {a b c : F K} (h1 : Before a b) (h2 : Before b c) : Before a c := by
  unfold Before at *
  cases a <;> cases b <;> cases c <;> simp_all [F.lt]
  exact lt_trans h1 h2

theorem eqv_iff {a b : F K} : F.eqv a b = true ↔ a = b ∧ b ≠ nan := by
  cases a <;> cases b <;> simp [F.eqv]

theorem uniqueInsert_mem (v : F K) (i : Nat) (l : List (F K × Nat)) (w : F K) :
    w ∈ (uniqueInsert v i l).map Prod.fst ↔ w = v ∨ w ∈ l.map Prod.fst := by
  induction l with
  | nil => simp [uniqueInsert]
  | cons t l ih =>
    obtain ⟨u, j⟩ := t
    unfold uniqueInsert
    split_ifs with h1 h2
    · simp
    · have : v = u := by
        simp only [Bool.or_eq_true, Bool.and_eq_true] at h2
        rcases h2 with h | ⟨h, h'⟩
        · exact (eqv_iff.1 h).1
        · cases u <;> cases v <;> simp_all [F.isNaN]
      subst this
      simp
    · simp only [List.map_cons, List.mem_cons, ih]
      tauto

theorem uniqueInsert_pairwise (v : F K) (i : Nat) (l : List (F K × Nat)) (h : (l.map Prod.fst).Pairwise Before) :
    ((uniqueInsert v i l).map Prod.fst).Pairwise Before := by
  induction l with
  | nil => simp [uniqueInsert]
  | cons t l ih =>
    obtain ⟨u, j⟩ := t
    simp only [List.map_cons, List.pairwise_cons] at h
    unfold uniqueInsert
    split_ifs with h1 h2
    · have hb : Before v u := by
        unfold Before
        cases u <;> cases v <;> simp_all [F.isNaN, F.lt]
      simp only [List.map_cons, List.pairwise_cons, List.mem_cons]
      refine ⟨?_, h⟩
      rintro a (rfl | ha)
      · exact hb
      · exact before_trans hb (h.1 a ha)
    · have : v = u := by
        simp only [Bool.or_eq_true, Bool.and_eq_true] at h2
        rcases h2 with h | ⟨h, h'⟩
        · exact (eqv_iff.1 h).1
        · cases u <;> cases v <;> simp_all [F.isNaN]
      subst this
      simpa using h
    · have hb : Before u v := by
        unfold Before
        cases u <;> cases v <;> simp_all [F.isNaN, F.lt, F.eqv]
        rename_i a b
        exact lt_of_le_of_ne h1 fun h => h2 h.symm
      simp only [List.map_cons, List.pairwise_cons]
      refine ⟨?_, ih h.2⟩
      intro a ha
      rcases (uniqueInsert_mem v i l a).1 ha with rfl | ha
      · exact hb
      · exact h.1 a ha

/-- `np.unique`: the distinct values, sorted, NaN once and last. -/
theorem uniqueIndex_spec (a : List (F K)) :
    ((uniqueIndex a).map Prod.fst).Pairwise Before ∧ ∀ w, w ∈ (uniqueIndex a).map Prod.fst ↔ w ∈ a := by
  have key : ∀ ps : List (F K × Nat),
      ((ps.foldr (fun t acc => uniqueInsert t.1 t.2 acc) []).map Prod.fst).Pairwise Before ∧
      ∀ w, w ∈ (ps.foldr (fun t acc => uniqueInsert t.1 t.2 acc) []).map Prod.fst ↔ w ∈ ps.map Prod.fst := by
    intro ps
    induction ps with
    | nil => simp
    | cons t ps ih =>
      refine ⟨uniqueInsert_pairwise _ _ _ ih.1, fun w => ?_⟩
      rw [List.foldr_cons, uniqueInsert_mem, ih.2]
      simp
  have := key a.zipIdx
  refine ⟨this.1, fun w => ?_⟩
  rw [uniqueIndex, this.2]
  simp

theorem range_filter_rows {α β : Type} (rows : List α) (l : List β) (hl : l.length = rows.length) (P : β → Bool) (Q : α → Bool) (d : β)
    (hPQ : ∀ i (h : i < rows.length), P (l[i]'(by omega)) = Q rows[i]) :
    ((List.range l.length).filter fun i => P (l.getD i d)).mapM (fun i => getItem rows i) = .ok (rows.filter Q) := by
  cases rows with
  | nil => simp at hl; subst hl; rfl
  | cons r0 rest =>
    set rows := r0 :: rest with hrows
    have hm : rows = (List.range rows.length).map fun i => rows.getD i r0 := by
      apply List.ext_getElem
      · simp
      · intro i h1 h2
        simp [h1]
    rw [mapM_ok_of_forall (g := fun i => rows.getD i r0)]
    · conv_rhs => rw [hm, List.filter_map]
      rw [hl]
      congr 2
      apply List.filter_congr
      intro i hi
      rw [List.mem_range] at hi
      have h1 : i < l.length := by omega
      have e1 : l.getD i d = l[i] := by simp [h1]
      have e2 : rows.getD i r0 = rows[i] := by simp [hi]
      rw [Function.comp_apply, e1, e2]
      exact hPQ i hi
    · intro i hi
      have : i < rows.length := by
        have := (List.mem_filter.1 hi).1
        rw [List.mem_range] at this; omega
      simp [getItem, this]

open Classical in
/-- **C89, filter.** `filter_grid(key, value)` returns, in grid order, exactly the rows whose entry under `key` equals the value (no row for
NaN), with the same columns; an unknown key raises KeyError. -/
theorem C89_filter (c : Correction K) (key : String) (v : F K) :
    (key ∉ c.gridKeys → c.filterGrid key v = .error .keyError ∧ c.uniqueGridValues key = .error .keyError) ∧
    (∀ l, c.grid.col key = .ok l → c.filterGrid key v =
      .ok ⟨c.grid.names, c.grid.rows.filter fun r => decide (v ≠ nan ∧ rowGet c.grid.names r key = .ok v)⟩) := by
  constructor
  · intro hk
    have : c.grid.col key = .error .keyError := by
      unfold Table.col colIndex
      rw [if_neg (show key ∉ c.grid.names from hk)]; rfl
    unfold Correction.filterGrid Correction.uniqueGridValues
    rw [this]
    exact ⟨rfl, rfl⟩
  · intro l hl
    unfold Correction.filterGrid
    rw [hl, Except.bind_ok]
    dsimp only
    rw [range_filter_rows c.grid.rows l (col_length hl) (fun a => F.eqv a v)
      (fun r => decide (v ≠ nan ∧ rowGet c.grid.names r key = .ok v)) nan, Except.bind_ok]
    intro i hi
    rw [col_rowGet hl hi]
    rw [Bool.eq_iff_iff, eqv_iff, decide_eq_true_eq]
    constructor
    · rintro ⟨h, h'⟩; exact ⟨h', by rw [h]⟩
    · rintro ⟨h, h'⟩; cases h'; exact ⟨rfl, h⟩

theorem partition_perm {α β : Type} (rows : List α) (key : α → β) (us : List β) (hn : us.Nodup) [DecidableEq β]
    (hm : ∀ r ∈ rows, key r ∈ us) : (us.flatMap fun u => rows.filter fun r => decide (key r = u)).Perm rows := by
  have gen : ∀ us : List β, us.Nodup →
      (us.flatMap fun u => rows.filter fun r => decide (key r = u)).Perm (rows.filter fun r => decide (key r ∈ us)) := by
    intro us hn
    induction us with
    | nil => simp
    | cons u us ih =>
      rw [List.nodup_cons] at hn
      rw [List.flatMap_cons]
      have h1 := List.filter_append_perm (fun r => decide (key r = u)) (rows.filter fun r => decide (key r ∈ u :: us))
      refine List.Perm.trans ?_ h1
      rw [List.filter_filter, List.filter_filter]
      have e1 : (rows.filter fun r => decide (key r = u) && decide (key r ∈ u :: us)) = rows.filter fun r => decide (key r = u) := by
        apply List.filter_congr
        intro r _
        by_cases h : key r = u <;> simp [h]
      have e2 : (rows.filter fun r => (!decide (key r = u)) && decide (key r ∈ u :: us)) = rows.filter fun r => decide (key r ∈ us) := by
        apply List.filter_congr
        intro r _
        by_cases h : key r = u
        · simp [h, hn.1]
        · simp [h]
      rw [e1, e2]
      exact List.Perm.append_left _ (ih hn.2)
  refine (gen us hn).trans ?_
  rw [List.filter_eq_self.2]
  intro r hr
  simpa using hm r hr

/-- **C89, partition.** For a column without NaN the values of `unique_grid_values` are strictly increasing, they are exactly the values of
the column, and filtering by each of them in turn splits the grid: every part is non-empty and together the parts are the rows of the grid,
each exactly once.  Missing (and false, `C89_violated`): columns with NaN. -/
theorem C89_partition_partial (c : Correction K) (key : String) (l : List (F K)) (hl : c.grid.col key = .ok l) (hn : nan ∉ l) :
    ∃ us ts, c.uniqueGridValues key = .ok us ∧ us.Pairwise (fun a b => F.lt a b = true) ∧ (∀ w, w ∈ us ↔ w ∈ l) ∧
      us.mapM (c.filterGrid key) = .ok ts ∧ (∀ t ∈ ts, t.names = c.grid.names ∧ t.rows ≠ []) ∧
      (ts.flatMap Table.rows).Perm c.grid.rows := by
  classical
  obtain ⟨hs, hmem⟩ := uniqueIndex_spec l
  set us := (uniqueIndex l).map Prod.fst with hus
  have hnu : ∀ w ∈ us, w ≠ nan := fun w hw h => hn (h ▸ (hmem w).1 hw)
  have hlt : us.Pairwise fun a b => F.lt a b = true := by
    refine List.Pairwise.imp_of_mem ?_ hs
    rintro a b ha hb (h | ⟨_, h⟩)
    · exact h
    · exact absurd h (hnu b hb)
  have hnodup : us.Nodup := by
    refine List.Pairwise.imp ?_ hlt
    rintro a b h rfl
    cases a <;> simp [F.lt] at h
  have hcell : ∀ i (h : i < c.grid.rows.length), rowGet c.grid.names c.grid.rows[i] key = .ok (l[i]'(by rw [col_length hl]; exact h)) :=
    fun i h => col_rowGet hl h
  let G : List (F K) → F K := fun r => match rowGet c.grid.names r key with
    | .ok w => w
    | .error _ => nan
  have hG : ∀ r ∈ c.grid.rows, rowGet c.grid.names r key = .ok (G r) ∧ G r ∈ us := by
    intro r hr
    obtain ⟨i, hi, rfl⟩ := List.mem_iff_getElem.1 hr
    have hg : G c.grid.rows[i] = l[i]'(by rw [col_length hl]; exact hi) := by
      show (match rowGet c.grid.names c.grid.rows[i] key with | .ok w => w | .error _ => nan) = _
      rw [hcell i hi]
    refine ⟨by rw [hcell i hi, hg], ?_⟩
    rw [hg, hmem]
    exact List.getElem_mem _
  have hfil : ∀ u ∈ us, c.filterGrid key u = .ok ⟨c.grid.names, c.grid.rows.filter fun r => decide (G r = u)⟩ := by
    intro u hu
    rw [(C89_filter c key u).2 l hl]
    congr 2
    apply List.filter_congr
    intro r hr
    have := (hG r hr).1
    rw [this]
    simp [hnu u hu]
  refine ⟨us, us.map fun u => ⟨c.grid.names, c.grid.rows.filter fun r => decide (G r = u)⟩, ?_, hlt, hmem, mapM_ok_of_forall hfil, ?_, ?_⟩
  · unfold Correction.uniqueGridValues
    rw [hl, Except.bind_ok]
  · intro t ht
    obtain ⟨u, hu, rfl⟩ := List.mem_map.1 ht
    refine ⟨rfl, ?_⟩
    obtain ⟨i, hi, hiu⟩ := List.mem_iff_getElem.1 ((hmem u).1 hu)
    have hi' : i < c.grid.rows.length := by rw [← col_length hl]; exact hi
    have : c.grid.rows[i] ∈ c.grid.rows.filter fun r => decide (G r = u) := by
      rw [List.mem_filter, decide_eq_true_eq]
      refine ⟨List.getElem_mem _, ?_⟩
      show (match rowGet c.grid.names c.grid.rows[i] key with | .ok w => w | .error _ => nan) = _
      rw [hcell i hi']
      exact hiu
    exact List.ne_nil_of_mem this
  · rw [List.flatMap_map]
    exact partition_perm c.grid.rows G us hnodup fun r hr => (hG r hr).2

/-- **C89 is violated** for a column with a NaN entry: `unique_grid_values` lists NaN, but filtering by it finds no row. -/
theorem C89_violated (c : Correction K) (key : String) (l : List (F K)) (hl : c.grid.col key = .ok l) (hn : nan ∈ l) :
    (∃ us, c.uniqueGridValues key = .ok us ∧ nan ∈ us) ∧ c.filterGrid key nan = .ok ⟨c.grid.names, []⟩ := by
  classical
  constructor
  · refine ⟨(uniqueIndex l).map Prod.fst, ?_, ((uniqueIndex_spec l).2 nan).2 hn⟩
    unfold Correction.uniqueGridValues
    rw [hl, Except.bind_ok]
  · rw [(C89_filter c key nan).2 l hl]
    simp

end

/-- A small grid in which two rows share a value. -/
def gridQ : Correction ℚ :=
  ⟨true, ⟨["n", "r"], [[fin 4, fin 10], [fin 1, fin 10], [fin 4, fin 20]]⟩, [], [], []⟩

example : gridQ.grid.col "n" = .ok [fin 4, fin 1, fin 4] ∧ nan ∉ [fin (4 : ℚ), fin 1, fin 4] ∧ "r_eff" ∉ gridQ.gridKeys := by
  refine ⟨rfl, by decide, by decide⟩

example : gridQ.uniqueGridValues "n" = .ok [fin 1, fin 4] ∧
    (gridQ.filterGrid "n" (fin 4)).map Table.rows = .ok [[fin 4, fin 10], [fin 4, fin 20]] := by decide +kernel

/-! ### C90: grid files -/

section
variable {K : Type} [Field K] [LinearOrder K] [IsStrictOrderedRing K] [HasSqrt K] [HasLog10 K]

/-- **C90, files.** `write` creates exactly the one file, never replaces an existing one, and `read` of a missing file raises. -/
theorem C90_files (c : Correction K) (fs : Files K) (file : String) :
    (fs file = none → Correction.read fs file = .error .exception ∧ ∃ fs', c.write fs file = .ok fs' ∧ fs' file = some c.grid ∧
      ∀ name, name ≠ file → fs' name = fs name) ∧
    (∀ t, fs file = some t → c.write fs file = .error .exception) := by
  constructor
  · intro h
    refine ⟨?_, fun name => if name = file then some c.grid else fs name, ?_, by simp, fun name hn => by simp [hn]⟩
    · unfold Correction.read; rw [h]
    · unfold Correction.write; rw [h]
  · intro t h
    unfold Correction.write; rw [h]

/-- **C90, the part that holds.** Reading back a written correction gives the same grid; if the correction enforces the range, it is the same
correction, and otherwise the two agree on every profile inside the range of the grid.
Missing (and false, `C90_violated`): profiles outside the range, when `enforce_range` was switched off. -/
theorem C90_round_trip_partial (grid : Table K) (er : Bool) (c : Correction K) (hc : Correction.init grid er = .ok c) (fs fs' : Files K)
    (file : String) (hw : c.write fs file = .ok fs') :
    ∃ c', Correction.read fs' file = .ok c' ∧ c'.grid = c.grid ∧ (er = true → c' = c) ∧
      (∀ (ip : InterpFam K) (X Y Z : List K), grid.col "p02" = .ok (X.map fin) → grid.col "u_r_50" = .ok (Y.map fin) →
        grid.col "u_c2080" = .ok (Z.map fin) → grid.rows ≠ [] → ∀ (p : Petrosian K) (x0 y0 z0 : F K), Measured ip p x0 y0 z0 →
        InsideCol X x0 → InsideCol Y y0 → InsideCol Z z0 →
        c'.estimateN ip p = c.estimateN ip p ∧ c'.estimateEpsilon ip p = c.estimateEpsilon ip p ∧ c'.correct ip p = c.correct ip p) := by
  obtain ⟨h1, h2, h3, h4, h5⟩ := init_ok hc
  have hf : fs' file = some grid := by
    unfold Correction.write at hw
    split at hw
    · cases hw
    · cases hw; simp [h2]
  have hr : Correction.read fs' file = .ok ⟨true, grid, c.x, c.y, c.z⟩ := by
    unfold Correction.read
    rw [hf]
    show Correction.init grid = _
    unfold Correction.init
    rw [h3, h4, h5]
    rfl
  have hi : Correction.init grid true = .ok ⟨true, grid, c.x, c.y, c.z⟩ := by
    unfold Correction.init
    rw [h3, h4, h5]
    rfl
  refine ⟨_, hr, h2.symm, ?_, ?_⟩
  · rintro rfl
    exact Except.ok.inj (hi.symm.trans hc)
  · intro ip X Y Z hX hY hZ hne p x0 y0 z0 hm a b d
    cases er with
    | true =>
      have : (⟨true, grid, c.x, c.y, c.z⟩ : Correction K) = c := Except.ok.inj (hi.symm.trans hc)
      rw [this]
      exact ⟨rfl, rfl, rfl⟩
    | false =>
      have := (C28_enforce_range ip grid _ c hi hc X Y Z hX hY hZ hne p x0 y0 z0 hm).2 ⟨a, b, d⟩
      exact ⟨this.1, this.2.1, this.2.2.1⟩

/-- **C90 is violated**: `enforce_range=False` does not survive writing and reading.  For every profile outside the range of the grid the
correction read back raises AssertionError, whatever the original one answered. -/
theorem C90_violated (ip : InterpFam K) (grid : Table K) (c : Correction K) (hc : Correction.init grid false = .ok c) (fs fs' : Files K)
    (file : String) (hw : c.write fs file = .ok fs') (X Y Z : List K) (hX : grid.col "p02" = .ok (X.map fin))
    (hY : grid.col "u_r_50" = .ok (Y.map fin)) (hZ : grid.col "u_c2080" = .ok (Z.map fin)) (hne : grid.rows ≠ []) (p : Petrosian K)
    (x0 y0 z0 : F K) (hm : Measured ip p x0 y0 z0) (hout : ¬ (InsideCol X x0 ∧ InsideCol Y y0 ∧ InsideCol Z z0)) :
    ∃ c', Correction.read fs' file = .ok c' ∧ c'.estimateN ip p = .error .assertionError ∧ c'.correct ip p = .error .assertionError := by
  obtain ⟨h1, h2, h3, h4, h5⟩ := init_ok hc
  have hi : Correction.init grid true = .ok ⟨true, grid, c.x, c.y, c.z⟩ := by
    unfold Correction.init
    rw [h3, h4, h5]
    rfl
  have hf : fs' file = some grid := by
    unfold Correction.write at hw
    split at hw
    · cases hw
    · cases hw; simp [h2]
  refine ⟨⟨true, grid, c.x, c.y, c.z⟩, ?_, ?_⟩
  · unfold Correction.read
    rw [hf]
    exact hi
  · have := (C28_enforce_range ip grid _ c hi hc X Y Z hX hY hZ hne p x0 y0 z0 hm).1 hout
    exact ⟨this.1, this.2.2⟩

/-! ### C91: angular radii -/

/-- What an angular radius should be: NaN for an unmeasurable radius whatever the WCS, and otherwise the radius times the pixel scale in
arcsec. -/
def ArcsecOf (s c : K) (r a : F K) : Prop := (r = nan ∧ a = nan) ∨ ∃ x, r = fin x ∧ a = fin (x * s * c)

/-- **C91.** For every profile whose radius in pixels is NaN or a number, and every WCS with square pixels of `s` units of `c` arcsec, the
radius in arcsec is the radius in pixels times `s * c`, NaN exactly when the radius in pixels is NaN; converting it back with
`angular_to_pixel` gives the radius in pixels. -/
theorem C91_arcsec (ip : InterpFam K) (p : Petrosian K) {s cu : K} (hs : 0 < s) (hc : 0 < cu) :
    (∀ r, p.rHalfLight ip = .ok r → r.isFin = true ∨ r = nan → ∃ a, p.rHalfLightArcsec ip ⟨fin s, fin s, cu⟩ = .ok a ∧ ArcsecOf s cu r a ∧
      (r ≠ nan → angularToPixel ⟨a, 1⟩ ⟨fin s, fin s, cu⟩ = .ok r)) ∧
    (∀ r, p.rTotalFlux ip = .ok r → r.isFin = true ∨ r = nan → ∃ a, p.rTotalFluxArcsec ip ⟨fin s, fin s, cu⟩ = .ok a ∧ ArcsecOf s cu r a ∧
      (r ≠ nan → angularToPixel ⟨a, 1⟩ ⟨fin s, fin s, cu⟩ = .ok r)) := by
  have hclose : npAllclose (fin s) (fin s) = true := by
    have : (0 : K) ≤ 1 / 10 ^ 8 + 1 / 10 ^ 5 * |s| := by positivity
    simp only [npAllclose, F.isFin, Bool.and_self, if_true, fin_sub, sub_self, abs_fin, abs_zero, fin_mul, fin_add, le_fin,
      decide_eq_true_eq]
    exact this
  have h1 : s * (cu / 1) ≠ 0 := mul_ne_zero hs.ne' (div_ne_zero hc.ne' one_ne_zero)
  constructor
  · intro r hr hf
    unfold Petrosian.rHalfLightArcsec
    rw [hr, Except.bind_ok]
    cases r with
    | nan => exact ⟨nan, rfl, Or.inl ⟨rfl, rfl⟩, fun h => absurd rfl h⟩
    | ninf => simp [F.isFin] at hf
    | pinf => simp [F.isFin] at hf
    | fin x =>
      refine ⟨fin (x * (s * (cu / 1))), ?_, Or.inr ⟨x, rfl, by rw [div_one, mul_assoc]⟩, fun _ => ?_⟩
      · simp only [isNaN_fin, Bool.not_false, if_true, pixelToAngular, hclose, Except.bind_ok, fin_mul]
      · simp only [angularToPixel, hclose, if_true, fin_mul, fin_div_of_ne _ h1]
        rw [mul_div_cancel_right₀ _ h1]
  · intro r hr hf
    unfold Petrosian.rTotalFluxArcsec
    rw [hr, Except.bind_ok]
    cases r with
    | nan => exact ⟨nan, rfl, Or.inl ⟨rfl, rfl⟩, fun h => absurd rfl h⟩
    | ninf => simp [F.isFin] at hf
    | pinf => simp [F.isFin] at hf
    | fin x =>
      refine ⟨fin (x * (s * (cu / 1))), ?_, Or.inr ⟨x, rfl, by rw [div_one, mul_assoc]⟩, fun _ => ?_⟩
      · simp only [isNaN_fin, Bool.not_false, if_true, pixelToAngular, hclose, Except.bind_ok, fin_mul]
      · simp only [angularToPixel, hclose, if_true, fin_mul, fin_div_of_ne _ h1]
        rw [mul_div_cancel_right₀ _ h1]

/-- **C91, unusable WCS.** A WCS with clearly different scales is rejected when there is a radius to convert, and ignored when there is
none. -/
theorem C91_rejects (ip : InterpFam K) (p : Petrosian K) (s s' cu : K) (h : 1 / 10 ^ 8 + 1 / 10 ^ 5 * |s'| < |s - s'|) :
    (p.rHalfLight ip = .ok nan → p.rHalfLightArcsec ip ⟨fin s, fin s', cu⟩ = .ok nan) ∧
    (p.rTotalFlux ip = .ok nan → p.rTotalFluxArcsec ip ⟨fin s, fin s', cu⟩ = .ok nan) ∧
    (∀ r, p.rHalfLight ip = .ok r → r ≠ nan → p.rHalfLightArcsec ip ⟨fin s, fin s', cu⟩ = .error .assertionError) ∧
    (∀ r, p.rTotalFlux ip = .ok r → r ≠ nan → p.rTotalFluxArcsec ip ⟨fin s, fin s', cu⟩ = .error .assertionError) := by
  have hp := ((C38_rejects s s' cu).1 h).2
  refine ⟨?_, ?_, ?_, ?_⟩
  · intro hr; unfold Petrosian.rHalfLightArcsec; rw [hr]; rfl
  · intro hr; unfold Petrosian.rTotalFluxArcsec; rw [hr]; rfl
  · intro r hr hn
    unfold Petrosian.rHalfLightArcsec
    rw [hr, Except.bind_ok]
    have : r.isNaN = false := by cases r <;> simp_all [F.isNaN]
    rw [this, hp]
    rfl
  · intro r hr hn
    unfold Petrosian.rTotalFluxArcsec
    rw [hr, Except.bind_ok]
    have : r.isNaN = false := by cases r <;> simp_all [F.isNaN]
    rw [this, hp]
    rfl

/-! ### C92: the plot of a correction -/

/-- **C92.** `plot_correction` links the measured point to the grid point of the row that `estimate_n`, `estimate_epsilon` and `correct` use:
whenever a row is used, the three links go from the measured triple to the `p02`, `u_r_50` and `u_c2080` of that same row, on the same axes
as the scattered grid points. -/
theorem C92_same_row (ip : InterpFam K) (grid : Table K) (er : Bool) (c : Correction K) (hc : Correction.init grid er = .ok c)
    (p : Petrosian K) (x0 y0 z0 : F K) (hm : Measured ip p x0 y0 z0) (row : List (F K)) (hrow : c.correctedRow ip p = .ok row)
    (sim : List (F K)) (hsim : grid.col "n" = .ok sim) :
    ∃ cx cy cz pl, rowGet grid.names row "p02" = .ok cx ∧ rowGet grid.names row "u_r_50" = .ok cy ∧ rowGet grid.names row "u_c2080" = .ok cz ∧
      c.plotCorrection ip p = .ok pl ∧ pl.targets = [(x0, y0), (x0, z0), (y0, z0)] ∧
      pl.links = [((x0, y0), (cx, cy)), ((x0, z0), (cx, cz)), ((y0, z0), (cy, cz))] ∧
      pl.points = [c.x.zip c.y, c.x.zip c.z, c.y.zip c.z] ∧ pl.colours = sim := by
  obtain ⟨h1, h2, h3, h4, h5⟩ := init_ok hc
  unfold Correction.correctedRow at hrow
  rw [getXYZ_of_measured hm, Except.bind_ok] at hrow
  unfold Correction.closestRow at hrow
  have hrow' : ∃ i, npArgmin (c.dr x0 y0 z0) = .ok i ∧ getItem c.grid.rows i = .ok row := by
    cases he : c.enforceRange with
    | true =>
      simp only [he, if_true] at hrow
      obtain ⟨_, _, hrow⟩ := bind_eq_ok.1 hrow
      exact bind_eq_ok.1 hrow
    | false =>
      simp only [he, Bool.false_eq_true, if_false] at hrow
      exact bind_eq_ok.1 hrow
  obtain ⟨i, hi, hg⟩ := hrow'
  rw [h2] at hg
  obtain ⟨hil, hrw⟩ : ∃ h : i < grid.rows.length, grid.rows[i] = row := by
    unfold getItem at hg
    split at hg
    · rename_i v hv
      cases hg
      exact List.getElem?_eq_some_iff.1 hv
    · cases hg
  have gx := col_rowGet h3 hil
  have gy := col_rowGet h4 hil
  have gz := col_rowGet h5 hil
  have hx : getItem c.x i = .ok (c.x[i]'(by rw [col_length h3]; exact hil)) := by
    simp [getItem, col_length h3, hil]
  have hy : getItem c.y i = .ok (c.y[i]'(by rw [col_length h4]; exact hil)) := by
    simp [getItem, col_length h4, hil]
  have hz : getItem c.z i = .ok (c.z[i]'(by rw [col_length h5]; exact hil)) := by
    simp [getItem, col_length h5, hil]
  obtain ⟨top, htop⟩ : ∃ top, pyMax sim = .ok top := by
    cases sim with
    | nil =>
      have := col_length hsim
      simp only [List.length_nil] at this
      omega
    | cons a l => exact ⟨_, rfl⟩
  rw [hrw] at gx gy gz
  refine ⟨_, _, _, ⟨[c.x.zip c.y, c.x.zip c.z, c.y.zip c.z], sim, top + fin 1, [(x0, y0), (x0, z0), (y0, z0)], _⟩, gx, gy, gz, ?_, rfl,
    rfl, rfl, rfl⟩
  unfold Correction.plotCorrection Correction.plotGrid
  rw [getXYZ_of_measured hm, Except.bind_ok, h2, hsim, Except.bind_ok, htop, Except.bind_ok, hi, Except.bind_ok, hx, Except.bind_ok, hy,
    Except.bind_ok, hz, Except.bind_ok]

end

/-- C90: a correction without range check; its profile is outside the grid (NaN), so after writing and reading it is rejected. -/
example : ∃ c fs', Correction.init exampleGrid false = .ok c ∧ c.write (fun _ => none) "grid.ecsv" = .ok fs' ∧
    c.estimateN (fun _ => constInterp ℝ) exampleNaN = .ok (fin 5) ∧
    ∃ c', Correction.read fs' "grid.ecsv" = .ok c' ∧ c'.estimateN (fun _ => constInterp ℝ) exampleNaN = .error .assertionError := by
  have hi : Correction.init exampleGrid false =
      .ok ⟨false, exampleGrid, [1, 2, 0].map fin, [2, 2, 1].map fin, [3, 1, 0].map fin⟩ := rfl
  have hw : Correction.write ⟨false, exampleGrid, [1, 2, 0].map fin, [2, 2, 1].map fin, [3, 1, 0].map fin⟩ (fun _ => none) "grid.ecsv" =
      .ok _ := rfl
  refine ⟨_, _, hi, hw, ?_, ?_⟩
  · rw [(C29_violated _ _ _ hi _ _ rfl _ _ _ _ exampleNaN_measured (Or.inr (Or.inl rfl))).1]
    rfl
  · obtain ⟨c', h1, h2, -⟩ := C90_violated (fun _ => constInterp ℝ) exampleGrid _ hi _ _ _ hw _ _ _ exampleGrid_cols.1
      exampleGrid_cols.2.1 exampleGrid_cols.2.2 (by simp [exampleGrid]) exampleNaN _ _ _ exampleNaN_measured (by
        rintro ⟨-, ⟨q, hq, -⟩, -⟩
        cases hq)
    exact ⟨c', h1, h2⟩

/-- C91: a half-light radius of one pixel of 0.5 arcsec. -/
example : exampleP.rHalfLight (fun _ => constInterp ℝ) = .ok (fin 1) ∧
    exampleP.rHalfLightArcsec (fun _ => constInterp ℝ) ⟨fin (1 / 7200), fin (1 / 7200), 3600⟩ = .ok (fin (1 / 2)) := by
  have h : exampleP.rHalfLight (fun _ => constInterp ℝ) = .ok (fin 1) := exampleP_measured.half
  refine ⟨h, ?_⟩
  obtain ⟨a, h1, h2, -⟩ := (C91_arcsec (fun _ => constInterp ℝ) exampleP (s := 1 / 7200) (cu := 3600) (by norm_num) (by norm_num)).1 _ h
    (Or.inl rfl)
  rw [h1]
  rcases h2 with ⟨h2, -⟩ | ⟨x, hx, rfl⟩
  · cases h2
  · cases hx
    norm_num

/-- C92: the profile of C26 on its grid. -/
example : ∃ c row, Correction.init exampleGrid true = .ok c ∧ Measured (fun _ => constInterp ℝ) exampleP (fin 0) (fin 1) (fin 0) ∧
    c.correctedRow (fun _ => constInterp ℝ) exampleP = .ok row ∧ exampleGrid.col "n" = .ok [fin 5, fin 6, fin 7] := by
  have hi : Correction.init exampleGrid true =
      .ok ⟨true, exampleGrid, [1, 2, 0].map fin, [2, 2, 1].map fin, [3, 1, 0].map fin⟩ := rfl
  obtain ⟨i, -, hi', hr⟩ := correctedRow_nearest (fun _ => constInterp ℝ) exampleGrid true _ hi [1, 2, 0] [2, 2, 1] [3, 1, 0]
    exampleGrid_cols.1 exampleGrid_cols.2.1 exampleGrid_cols.2.2 (by norm_num [variance, mean]) (by norm_num [variance, mean])
    (by norm_num [variance, mean]) exampleP 0 1 0 exampleP_measured
    (fun _ => ⟨⟨⟨0, by simp, le_rfl⟩, ⟨0, by simp, le_rfl⟩⟩, ⟨⟨1, by simp, le_rfl⟩, ⟨1, by simp, le_rfl⟩⟩,
      ⟨⟨0, by simp, le_rfl⟩, ⟨0, by simp, le_rfl⟩⟩⟩)
  exact ⟨_, _, hi, exampleP_measured, hr, rfl⟩

end Verif.Props

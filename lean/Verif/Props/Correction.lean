import Verif.Lemmas.Correction
import Verif.Lemmas.Linear

/-!
# C26-C30: the correction grid lookup
-/

set_option linter.unusedSectionVars false
set_option linter.unusedVariables false
set_option linter.unusedSimpArgs false

namespace Verif.Props

open F Spec

/-- What the correction measures on a profile: `r_petrosian` at eta = 0.2 with the default interpolation settings, `r_50` and `C2080`.
The radii at eta = 0.3, 0.4 and 0.5, which are computed and thrown away, must not raise. -/
structure Measured {K : Type} [Field K] [LinearOrder K] [HasLog10 K] (ip : InterpFam K) (p : Petrosian K) (x0 y0 z0 : F K) : Prop where
  p02 : ∃ e, calculatePetrosianR ip p.rList p.petrosianList none (fin (1 / 5)) = .ok (x0, e)
  p03 : ∃ r, calculatePetrosianR ip p.rList p.petrosianList none (fin (3 / 10)) = .ok r
  p04 : ∃ r, calculatePetrosianR ip p.rList p.petrosianList none (fin (2 / 5)) = .ok r
  p05 : ∃ r, calculatePetrosianR ip p.rList p.petrosianList none (fin (1 / 2)) = .ok r
  half : p.r50 ip = .ok y0
  conc : p.c2080 ip = .ok z0

section
variable {K : Type} [Field K] [LinearOrder K] [IsStrictOrderedRing K] [HasLog10 K]

theorem getXYZ_of_measured {ip : InterpFam K} {p : Petrosian K} {x0 y0 z0 : F K} (h : Measured ip p x0 y0 z0) :
    Correction.getXYZ ip p = .ok (x0, y0, z0) := by
  obtain ⟨⟨e, h1⟩, ⟨r3, h3⟩, ⟨r4, h4⟩, ⟨r5, h5⟩, h6, h7⟩ := h
  unfold Correction.getXYZ
  simp only [h1, h3, h4, h5, h6, h7, Except.bind_ok]

theorem init_ok {grid : Table K} {er : Bool} {c : Correction K} (h : Correction.init grid er = .ok c) :
    c.enforceRange = er ∧ c.grid = grid ∧ grid.col "p02" = .ok c.x ∧ grid.col "u_r_50" = .ok c.y ∧ grid.col "u_c2080" = .ok c.z := by
  unfold Correction.init at h
  obtain ⟨x, h1, h⟩ := bind_eq_ok.1 h
  obtain ⟨y, h2, h⟩ := bind_eq_ok.1 h
  obtain ⟨z, h3, h⟩ := bind_eq_ok.1 h
  cases h
  exact ⟨rfl, rfl, h1, h2, h3⟩

omit [HasLog10 K] in
theorem col_length {t : Table K} {key : String} {l : List (F K)} (h : t.col key = .ok l) : l.length = t.rows.length := by
  unfold Table.col at h
  obtain ⟨j, h1, h⟩ := bind_eq_ok.1 h
  exact mapM_length h

omit [HasLog10 K] in
theorem col_rowGet {t : Table K} {key : String} {l : List (F K)} (h : t.col key = .ok l) {i : Nat} (hi : i < t.rows.length) :
    rowGet t.names t.rows[i] key = .ok (l[i]'(by rw [col_length h]; exact hi)) := by
  unfold Table.col at h
  obtain ⟨j, h1, h⟩ := bind_eq_ok.1 h
  unfold rowGet
  rw [h1, Except.bind_ok]
  exact (mapM_getElem h i hi).2

end

theorem variance_nil : variance [] = 0 := by simp [variance]

/-- The shared core of C26 and C27: the row used. -/
theorem correctedRow_nearest (ip : InterpFam ℝ) (grid : Table ℝ) (er : Bool) (c : Correction ℝ) (hc : Correction.init grid er = .ok c)
    (X Y Z : List ℝ) (hX : grid.col "p02" = .ok (X.map fin)) (hY : grid.col "u_r_50" = .ok (Y.map fin))
    (hZ : grid.col "u_c2080" = .ok (Z.map fin)) (vx : 0 < variance X) (vy : 0 < variance Y) (vz : 0 < variance Z)
    (p : Petrosian ℝ) (x0 y0 z0 : ℝ) (hm : Measured ip p (fin x0) (fin y0) (fin z0))
    (hb : er = true → InRange X x0 ∧ InRange Y y0 ∧ InRange Z z0) :
    ∃ i, Nearest X Y Z x0 y0 z0 i ∧ ∃ h : i < grid.rows.length, c.correctedRow ip p = .ok grid.rows[i] := by
  obtain ⟨h1, h2, h3, h4, h5⟩ := init_ok hc
  rw [hX] at h3; rw [hY] at h4; rw [hZ] at h5
  have ex : c.x = X.map fin := (Except.ok.inj h3).symm
  have ey : c.y = Y.map fin := (Except.ok.inj h4).symm
  have ez : c.z = Z.map fin := (Except.ok.inj h5).symm
  have lx := col_length hX
  have ly := col_length hY
  have lz := col_length hZ
  simp only [List.length_map] at lx ly lz
  have hne : ∀ {l : List ℝ}, 0 < variance l → l ≠ [] := by
    rintro l h rfl; rw [variance_nil] at h; exact lt_irrefl _ h
  obtain ⟨i, hi, hn⟩ := nearest_argmin c X Y Z ex ey ez (by omega) (by omega) (hne vx) vx vy vz x0 y0 z0
  have hil : i < grid.rows.length := by rw [← lx]; exact hn.1
  refine ⟨i, hn, hil, ?_⟩
  unfold Correction.correctedRow
  rw [getXYZ_of_measured hm, Except.bind_ok]
  unfold Correction.closestRow
  have hval : c.enforceRange = true → c.validateInput (fin x0) (fin y0) (fin z0) = .ok () := by
    intro he
    rw [h1] at he
    obtain ⟨b1, b2, b3⟩ := hb he
    unfold Correction.validateInput
    rw [ex, ey, ez, assertIn_fin (hne vx), assertIn_fin (hne vy), assertIn_fin (hne vz), if_pos ⟨x0, rfl, b1⟩, if_pos ⟨y0, rfl, b2⟩,
      if_pos ⟨z0, rfl, b3⟩]
    rfl
  have hg : getItem grid.rows i = .ok grid.rows[i] := by simp [getItem, hil]
  by_cases he : c.enforceRange = true
  · simp only [he, if_true, hval he, hi, Except.bind_ok, h2, hg]
  · simp only [he, if_false, hi, Except.bind_ok, h2, hg]
    rfl

/-- C26: `estimate_n`, `estimate_epsilon` and `correct` use the first row of the grid whose standardized distance to the measured triple is
minimal among all rows. -/
theorem C26_nearest_row (ip : InterpFam ℝ) (grid : Table ℝ) (er : Bool) (c : Correction ℝ) (hc : Correction.init grid er = .ok c)
    (X Y Z : List ℝ) (hX : grid.col "p02" = .ok (X.map fin)) (hY : grid.col "u_r_50" = .ok (Y.map fin))
    (hZ : grid.col "u_c2080" = .ok (Z.map fin)) (vx : 0 < variance X) (vy : 0 < variance Y) (vz : 0 < variance Z)
    (p : Petrosian ℝ) (x0 y0 z0 : ℝ) (hm : Measured ip p (fin x0) (fin y0) (fin z0))
    (hb : er = true → InRange X x0 ∧ InRange Y y0 ∧ InRange Z z0) :
    ∃ i, Nearest X Y Z x0 y0 z0 i ∧ ∃ h : i < grid.rows.length,
      c.estimateN ip p = rowGet grid.names grid.rows[i] "n" ∧
      c.estimateEpsilon ip p = Correction.epsilonFromRow grid.names grid.rows[i] p.epsilonFraction p.eta ∧
      ∀ q, c.correct ip p = .ok q → Correction.epsilonFromRow grid.names grid.rows[i] p.epsilonFraction p.eta = .ok q.epsilon := by
  obtain ⟨i, hn, hi, hr⟩ := correctedRow_nearest ip grid er c hc X Y Z hX hY hZ vx vy vz p x0 y0 z0 hm hb
  have hg := (init_ok hc).2.1
  have he : c.estimateEpsilon ip p = Correction.epsilonFromRow grid.names grid.rows[i] p.epsilonFraction p.eta := by
    unfold Correction.estimateEpsilon; rw [hr, Except.bind_ok, hg]
  refine ⟨i, hn, hi, ?_, he, ?_⟩
  · unfold Correction.estimateN; rw [hr, Except.bind_ok, hg]
  · intro q hq
    unfold Correction.correct at hq
    rw [he] at hq
    obtain ⟨e, h1, h2⟩ := bind_eq_ok.1 hq
    cases h2
    exact h1

/-- C27: if the measured triple is the triple of some grid row, the row used has exactly that triple, whatever `enforce_range` is. -/
theorem C27_on_grid (ip : InterpFam ℝ) (grid : Table ℝ) (er : Bool) (c : Correction ℝ) (hc : Correction.init grid er = .ok c)
    (X Y Z : List ℝ) (hX : grid.col "p02" = .ok (X.map fin)) (hY : grid.col "u_r_50" = .ok (Y.map fin))
    (hZ : grid.col "u_c2080" = .ok (Z.map fin)) (vx : 0 < variance X) (vy : 0 < variance Y) (vz : 0 < variance Z)
    (p : Petrosian ℝ) (x0 y0 z0 : ℝ) (hm : Measured ip p (fin x0) (fin y0) (fin z0)) (j : Nat) (hj : j < grid.rows.length)
    (hx : rowGet grid.names grid.rows[j] "p02" = .ok (fin x0)) (hy : rowGet grid.names grid.rows[j] "u_r_50" = .ok (fin y0))
    (hz : rowGet grid.names grid.rows[j] "u_c2080" = .ok (fin z0)) :
    ∃ row, c.correctedRow ip p = .ok row ∧ rowGet grid.names row "p02" = .ok (fin x0) ∧
      rowGet grid.names row "u_r_50" = .ok (fin y0) ∧ rowGet grid.names row "u_c2080" = .ok (fin z0) := by
  have lx := col_length hX
  have ly := col_length hY
  have lz := col_length hZ
  simp only [List.length_map] at lx ly lz
  have val : ∀ {key : String} {L : List ℝ} (h : grid.col key = .ok (L.map fin)) {k : Nat} (hk : k < grid.rows.length) (v : ℝ),
      rowGet grid.names grid.rows[k] key = .ok (fin v) ↔ L.getD k 0 = v := by
    intro key L h k hk v
    have ll := col_length h
    simp only [List.length_map] at ll
    rw [col_rowGet h hk, List.getElem_map]
    have : L.getD k 0 = L[k]'(by omega) := by simp [List.getD, List.getElem?_eq_getElem (show k < L.length by omega)]
    rw [this]
    constructor
    · intro h; injection h with h; injection h
    · rintro rfl; rfl
  have mem : ∀ {key : String} {L : List ℝ} (h : grid.col key = .ok (L.map fin)) (v : ℝ), L.getD j 0 = v → InRange L v := by
    rintro key L h v rfl
    have ll := col_length h
    simp only [List.length_map] at ll
    have : L.getD j 0 ∈ L := by
      have : L.getD j 0 = L[j]'(by omega) := by simp [List.getD, List.getElem?_eq_getElem (show j < L.length by omega)]
      rw [this]; exact List.getElem_mem _
    exact ⟨⟨_, this, le_rfl⟩, ⟨_, this, le_rfl⟩⟩
  have jx := (val hX hj x0).1 hx
  have jy := (val hY hj y0).1 hy
  have jz := (val hZ hj z0).1 hz
  obtain ⟨i, hn, hi, hr⟩ := correctedRow_nearest ip grid er c hc X Y Z hX hY hZ vx vy vz p x0 y0 z0 hm
    (fun _ => ⟨mem hX x0 jx, mem hY y0 jy, mem hZ z0 jz⟩)
  have h0 : stdDist2 X Y Z x0 y0 z0 j = 0 := by unfold stdDist2; rw [jx, jy, jz]; simp
  have hle := hn.2.1 j (by omega)
  rw [h0] at hle
  have e1 : 0 ≤ (X.getD i 0 - x0) ^ 2 / variance X := by positivity
  have e2 : 0 ≤ (Y.getD i 0 - y0) ^ 2 / variance Y := by positivity
  have e3 : 0 ≤ (Z.getD i 0 - z0) ^ 2 / variance Z := by positivity
  unfold stdDist2 at hle
  have z : ∀ {a v : ℝ}, 0 < v → a ^ 2 / v = 0 → a = 0 := by
    intro a v hv h
    rcases div_eq_zero_iff.1 h with h | h
    · exact pow_eq_zero_iff (by norm_num) |>.1 h
    · exact absurd h hv.ne'
  have r1 := z vx (show (X.getD i 0 - x0) ^ 2 / variance X = 0 by linarith)
  have r2 := z vy (show (Y.getD i 0 - y0) ^ 2 / variance Y = 0 by linarith)
  have r3 := z vz (show (Z.getD i 0 - z0) ^ 2 / variance Z = 0 by linarith)
  exact ⟨_, hr, (val hX hi x0).2 (by linarith), (val hY hi y0).2 (by linarith), (val hZ hi z0).2 (by linarith)⟩

section
variable {K : Type} [Field K] [LinearOrder K] [IsStrictOrderedRing K] [HasSqrt K] [HasLog10 K]

/-- C28: under `enforce_range=True` a measured triple outside the bounding box of the grid, or with NaN or an infinity, is an
AssertionError of all three methods; a triple inside behaves exactly as with `enforce_range=False`. -/
theorem C28_enforce_range (ip : InterpFam K) (grid : Table K) (c c' : Correction K) (hc : Correction.init grid true = .ok c)
    (hc' : Correction.init grid false = .ok c') (X Y Z : List K) (hX : grid.col "p02" = .ok (X.map fin))
    (hY : grid.col "u_r_50" = .ok (Y.map fin)) (hZ : grid.col "u_c2080" = .ok (Z.map fin)) (hne : grid.rows ≠ [])
    (p : Petrosian K) (x0 y0 z0 : F K) (hm : Measured ip p x0 y0 z0) :
    (¬ (InsideCol X x0 ∧ InsideCol Y y0 ∧ InsideCol Z z0) →
      c.estimateN ip p = .error .assertionError ∧ c.estimateEpsilon ip p = .error .assertionError ∧
      c.correct ip p = .error .assertionError) ∧
    (InsideCol X x0 ∧ InsideCol Y y0 ∧ InsideCol Z z0 →
      c.estimateN ip p = c'.estimateN ip p ∧ c.estimateEpsilon ip p = c'.estimateEpsilon ip p ∧
      c.correct ip p = c'.correct ip p ∧ ∃ row ∈ grid.rows, c.correctedRow ip p = .ok row) := by
  classical
  obtain ⟨h1, h2, h3, h4, h5⟩ := init_ok hc
  obtain ⟨h1', h2', h3', h4', h5'⟩ := init_ok hc'
  have q1 : c'.x = c.x := Except.ok.inj (h3'.symm.trans h3)
  have q2 : c'.y = c.y := Except.ok.inj (h4'.symm.trans h4)
  have q3 : c'.z = c.z := Except.ok.inj (h5'.symm.trans h5)
  rw [hX] at h3; rw [hY] at h4; rw [hZ] at h5
  have ex : c.x = X.map fin := (Except.ok.inj h3).symm
  have ey : c.y = Y.map fin := (Except.ok.inj h4).symm
  have ez : c.z = Z.map fin := (Except.ok.inj h5).symm
  have lx := col_length hX
  have ly := col_length hY
  have lz := col_length hZ
  simp only [List.length_map] at lx ly lz
  have hp : 0 < grid.rows.length := List.length_pos_iff.2 hne
  have nx : X ≠ [] := by rintro rfl; simp at lx; omega
  have ny : Y ≠ [] := by rintro rfl; simp at ly; omega
  have nz : Z ≠ [] := by rintro rfl; simp at lz; omega
  have hval : c.validateInput x0 y0 z0 =
      if InsideCol X x0 ∧ InsideCol Y y0 ∧ InsideCol Z z0 then .ok () else .error .assertionError := by
    unfold Correction.validateInput
    rw [ex, ey, ez, assertIn_fin nx, assertIn_fin ny, assertIn_fin nz]
    by_cases a : InsideCol X x0 <;> by_cases b : InsideCol Y y0 <;> by_cases d : InsideCol Z z0 <;> simp [a, b, d, Except.bind_ok] <;> rfl
  constructor
  · intro ho
    have hr : c.correctedRow ip p = .error .assertionError := by
      unfold Correction.correctedRow Correction.closestRow
      rw [getXYZ_of_measured hm, Except.bind_ok]
      simp only [h1, if_true, hval, if_neg ho]
      rfl
    have he : c.estimateEpsilon ip p = .error .assertionError := by
      unfold Correction.estimateEpsilon; rw [hr]; rfl
    refine ⟨?_, he, ?_⟩
    · unfold Correction.estimateN; rw [hr]; rfl
    · unfold Correction.correct; rw [he]; rfl
  · intro hi
    have hdr : c'.dr = c.dr := by
      funext a b d; unfold Correction.dr; rw [q1, q2, q3]
    have hlen : (c.dr x0 y0 z0).length = grid.rows.length := by
      unfold Correction.dr
      simp [ex, ey, ez, lx, ly, lz]
    obtain ⟨i, ha, hb, _⟩ := npArgmin_spec (K := K) (L := c.dr x0 y0 z0) (by intro h; rw [h] at hlen; simp at hlen; omega)
    have hr : c.correctedRow ip p = .ok (grid.rows[i]'(by omega)) := by
      unfold Correction.correctedRow Correction.closestRow
      rw [getXYZ_of_measured hm, Except.bind_ok]
      simp only [h1, if_true, hval, if_pos hi, Except.bind_ok, ha, h2]
      simp [getItem, show i < grid.rows.length by omega]
    have hr' : c'.correctedRow ip p = .ok (grid.rows[i]'(by omega)) := by
      unfold Correction.correctedRow Correction.closestRow
      rw [getXYZ_of_measured hm, Except.bind_ok]
      simp only [h1', hdr, ha, h2', Except.bind_ok]
      simp [getItem, show i < grid.rows.length by omega, Except.bind_ok, pure, Except.pure]
    have he : c.estimateEpsilon ip p = c'.estimateEpsilon ip p := by
      unfold Correction.estimateEpsilon; rw [hr, hr', h2, h2']
    refine ⟨?_, he, ?_, _, List.getElem_mem _, hr⟩
    · unfold Correction.estimateN; rw [hr, hr', h2, h2']
    · unfold Correction.correct; rw [he]

/-- The distances to a triple containing NaN are all NaN. -/
theorem dr_nan (c : Correction K) (x0 y0 z0 : F K) (hn : x0 = nan ∨ y0 = nan ∨ z0 = nan) :
    ∀ d ∈ c.dr x0 y0 z0, d = nan := by
  unfold Correction.dr
  intro d hd
  rw [List.mem_iff_getElem] at hd
  obtain ⟨i, hi, rfl⟩ := hd
  simp only [List.getElem_zipWith, List.getElem_map, List.getElem_zip]
  rcases hn with rfl | rfl | rfl <;> simp [F.sq] <;> rfl

/-- C29 is violated: with `enforce_range=False` a profile with a NaN measurement always gets the correction of the first row of the grid,
whatever that row is. -/
theorem C29_violated (ip : InterpFam K) (grid : Table K) (c : Correction K) (hc : Correction.init grid false = .ok c)
    (row : List (F K)) (rest : List (List (F K))) (hg : grid.rows = row :: rest) (p : Petrosian K) (x0 y0 z0 : F K)
    (hm : Measured ip p x0 y0 z0) (hn : x0 = nan ∨ y0 = nan ∨ z0 = nan) :
    c.estimateN ip p = rowGet grid.names row "n" ∧
    c.estimateEpsilon ip p = Correction.epsilonFromRow grid.names row p.epsilonFraction p.eta := by
  obtain ⟨h1, h2, h3, h4, h5⟩ := init_ok hc
  have l1 := col_length h3
  have l2 := col_length h4
  have l3 := col_length h5
  have hlen : (c.dr x0 y0 z0).length = grid.rows.length := by
    unfold Correction.dr
    simp [l1, l2, l3]
  have hd := dr_nan c x0 y0 z0 hn
  have ha : npArgmin (c.dr x0 y0 z0) = .ok 0 := by
    cases hL : c.dr x0 y0 z0 with
    | nil => rw [hL, hg] at hlen; simp at hlen
    | cons a l =>
      rw [hL] at hd
      rw [hd a (by simp)]
      exact npArgmin_nan l
  have hr : c.correctedRow ip p = .ok row := by
    unfold Correction.correctedRow Correction.closestRow
    rw [getXYZ_of_measured hm, Except.bind_ok]
    simp only [h1, ha, h2, hg, Except.bind_ok]
    simp [getItem, Except.bind_ok, pure, Except.pure]
  constructor
  · unfold Correction.estimateN; rw [hr, Except.bind_ok, h2]
  · unfold Correction.estimateEpsilon; rw [hr, Except.bind_ok, h2]

/-- C29, the part that holds: with `enforce_range=True` no correction is returned for a profile with a NaN measurement.
Missing (and false, `C29_violated`): the same with `enforce_range=False`. -/
theorem C29_enforced_partial (ip : InterpFam K) (grid : Table K) (c : Correction K) (hc : Correction.init grid true = .ok c)
    (X Y Z : List K) (hX : grid.col "p02" = .ok (X.map fin)) (hY : grid.col "u_r_50" = .ok (Y.map fin))
    (hZ : grid.col "u_c2080" = .ok (Z.map fin)) (hne : grid.rows ≠ []) (p : Petrosian K) (x0 y0 z0 : F K)
    (hm : Measured ip p x0 y0 z0) (hn : x0 = nan ∨ y0 = nan ∨ z0 = nan) :
    c.estimateN ip p = .error .assertionError ∧ c.estimateEpsilon ip p = .error .assertionError ∧
      c.correct ip p = .error .assertionError := by
  obtain ⟨c', hc'⟩ : ∃ c', Correction.init grid false = .ok c' := by
    unfold Correction.init
    rw [hX, hY, hZ]
    exact ⟨_, rfl⟩
  refine (C28_enforce_range ip grid c c' hc hc' X Y Z hX hY hZ hne p x0 y0 z0 hm).1 ?_
  rintro ⟨⟨q1, e1, _⟩, ⟨q2, e2, _⟩, ⟨q3, e3, _⟩⟩
  rcases hn with rfl | rfl | rfl
  · cases e1
  · cases e2
  · cases e3

/-- The value a row has in a named column. -/
def cell (row : List (F K)) (key : String) : Option (F K) := (gridNames.zip row).lookup key

theorem rowGet_cell {row : List (F K)} (hl : row.length = 30) (key : String) :
    rowGet gridNames row key = match cell row key with | some v => .ok v | none => .error .keyError := by
  have gen : ∀ (names : List String) (row : List (F K)), names.length = row.length →
      rowGet names row key = match (names.zip row).lookup key with | some v => .ok v | none => .error .keyError := by
    intro names
    induction names with
    | nil => intro row _; simp [rowGet, colIndex]; rfl
    | cons a names ih =>
      intro row hl
      cases row with
      | nil => simp at hl
      | cons v row =>
        simp only [List.length_cons, Nat.add_right_cancel_iff] at hl
        have := ih row hl
        by_cases ha : key = a
        · subst ha
          simp [rowGet, colIndex, Except.bind_ok, getItem]
        · have ha' : ¬ a = key := fun h => ha h.symm
          have hb : (key == a) = false := by simpa using ha
          simp only [List.zip_cons_cons, List.lookup_cons, hb]
          rw [← this]
          unfold rowGet colIndex
          by_cases hm : key ∈ names
          · rw [if_pos (List.mem_cons_of_mem _ hm), if_pos hm]
            simp only [Except.bind_ok, List.idxOf_cons]
            rw [show (a == key) = false by simpa using ha']
            simp [getItem]
          · rw [if_neg hm, if_neg (by simp [ha, hm])]
            rfl
  exact gen gridNames row (by rw [hl]; rfl)

/-- C30, the part that holds: on a row of a generated grid `estimate_epsilon` is `c_r_80 / r_petrosian(eta)` for `epsilon_fraction` 0.8 and
`c_r_99 / r_petrosian(eta)` for 0.99, for eta in 0.2, 0.3, 0.4, 0.5, and any other eta or `epsilon_fraction` is a ValueError.
Missing (and false, `C30_half_violated`): `epsilon_fraction` 0.5. -/
theorem C30_settings_partial (ip : InterpFam K) (c : Correction K) (hg : c.grid.names = gridNames) (p : Petrosian K)
    (row : List (F K)) (hl : row.length = 30) (hr : c.correctedRow ip p = .ok row) :
    (∀ (ef : K) (kr : String), (ef, kr) ∈ [((4 / 5 : K), "c_r_80"), (99 / 100, "c_r_99")] → p.epsilonFraction = fin ef →
      (∀ (eta : K) (ke : String), (eta, ke) ∈ [((1 / 5 : K), "p02"), (3 / 10, "p03"), (2 / 5, "p04"), (1 / 2, "p05")] → p.eta = fin eta →
        ∃ a b, cell row kr = some a ∧ cell row ke = some b ∧ c.estimateEpsilon ip p = .ok (a / b)) ∧
      (p.eta ≠ fin (1 / 5) → p.eta ≠ fin (3 / 10) → p.eta ≠ fin (2 / 5) → p.eta ≠ fin (1 / 2) →
        c.estimateEpsilon ip p = .error .valueError)) ∧
    (p.epsilonFraction ≠ fin (1 / 2) → p.epsilonFraction ≠ fin (4 / 5) → p.epsilonFraction ≠ fin (99 / 100) →
      c.estimateEpsilon ip p = .error .valueError) := by
  have hE : c.estimateEpsilon ip p = Correction.epsilonFromRow gridNames row p.epsilonFraction p.eta := by
    unfold Correction.estimateEpsilon; rw [hr, Except.bind_ok, hg]
  have hne : ∀ (v : F K) (q : K), v ≠ fin q → F.eqv v (fin q) = false := by
    intro v q h
    cases v <;> simp_all [F.eqv]
  have n1 : ¬ (4 / 5 : K) = 1 / 2 := by norm_num
  have n2 : ¬ (99 / 100 : K) = 1 / 2 := by norm_num
  have n3 : ¬ (99 / 100 : K) = 4 / 5 := by norm_num
  have m1 : ¬ (3 / 10 : K) = 1 / 5 := by norm_num
  have m2 : ¬ (2 / 5 : K) = 1 / 5 := by norm_num
  have m3 : ¬ (2 / 5 : K) = 3 / 10 := by norm_num
  have m4 : ¬ (1 / 2 : K) = 1 / 5 := by norm_num
  have m5 : ¬ (1 / 2 : K) = 3 / 10 := by norm_num
  have m6 : ¬ (1 / 2 : K) = 2 / 5 := by norm_num
  have hcell : ∀ key ∈ gridNames, ∃ v, cell row key = some v := by
    intro key hk
    cases hv : cell row key with
    | some v => exact ⟨v, rfl⟩
    | none =>
      exfalso
      unfold cell at hv
      rw [List.lookup_eq_none_iff] at hv
      obtain ⟨i, hi, rfl⟩ := List.mem_iff_getElem.1 hk
      have h30 : gridNames.length = 30 := rfl
      have := hv (gridNames[i], row[i]'(by omega)) (by
        rw [List.mem_iff_getElem]
        exact ⟨i, by simp; omega, by simp⟩)
      simp at this
  refine ⟨?_, ?_⟩
  · intro ef kr hef hpe
    have hkr : Correction.radiusKey p.epsilonFraction = some kr ∧ kr ∈ gridNames := by
      rw [hpe]
      simp only [List.mem_cons, Prod.mk.injEq, List.not_mem_nil, or_false] at hef
      rcases hef with ⟨rfl, rfl⟩ | ⟨rfl, rfl⟩
      · exact ⟨by simp only [Correction.radiusKey, eqv_fin, n1, decide_false, decide_true, if_true, Bool.false_eq_true, if_false], by decide⟩
      · exact ⟨by simp only [Correction.radiusKey, eqv_fin, n2, n3, decide_false, decide_true, if_true, Bool.false_eq_true, if_false], by decide⟩
    obtain ⟨a, ha⟩ := hcell kr hkr.2
    constructor
    · intro eta ke heta hpeta
      have hke : Correction.etaKey p.eta = some ke ∧ ke ∈ gridNames := by
        rw [hpeta]
        simp only [List.mem_cons, Prod.mk.injEq, List.not_mem_nil, or_false] at heta
        rcases heta with ⟨rfl, rfl⟩ | ⟨rfl, rfl⟩ | ⟨rfl, rfl⟩ | ⟨rfl, rfl⟩ <;>
          exact ⟨by simp only [Correction.etaKey, eqv_fin, m1, m2, m3, m4, m5, m6, decide_false, decide_true, if_true, Bool.false_eq_true, if_false], by decide⟩
      obtain ⟨b, hb⟩ := hcell ke hke.2
      refine ⟨a, b, ha, hb, ?_⟩
      rw [hE]
      unfold Correction.epsilonFromRow
      simp only [hkr.1, hke.1, rowGet_cell hl, ha, hb, Except.bind_ok]
    · intro e1 e2 e3 e4
      rw [hE]
      unfold Correction.epsilonFromRow
      simp only [hkr.1, rowGet_cell hl, ha, Except.bind_ok, Correction.etaKey, hne _ _ e1, hne _ _ e2, hne _ _ e3, hne _ _ e4,
        Bool.false_eq_true, if_false]
  · intro e1 e2 e3
    rw [hE]
    unfold Correction.epsilonFromRow Correction.radiusKey
    simp only [hne _ _ e1, hne _ _ e2, hne _ _ e3, Bool.false_eq_true, if_false]

/-- C30 is violated for `epsilon_fraction=0.5`: the code reads a column `c_r_eff` that generated grids do not have, so it always raises
KeyError. -/
theorem C30_half_violated (ip : InterpFam K) (c : Correction K) (hg : c.grid.names = gridNames) (p : Petrosian K)
    (row : List (F K)) (hr : c.correctedRow ip p = .ok row) (he : p.epsilonFraction = fin (1 / 2)) :
    c.estimateEpsilon ip p = .error .keyError := by
  unfold Correction.estimateEpsilon
  rw [hr, Except.bind_ok, hg]
  unfold Correction.epsilonFromRow
  rw [he]
  simp only [Correction.radiusKey, eqv_fin, decide_true, if_true]
  have : colIndex gridNames "c_r_eff" = .error .keyError := by decide
  unfold rowGet
  rw [this]
  rfl

end

/-! ### Non-vacuity -/

section examples

/-- An interpolator that is constantly 1/5. -/
def constInterp (K : Type) [Field K] : Interp K := fun _ _ _ => .ok (fin (1 / 5))

theorem constInterp_radius {K : Type} [Field K] [LinearOrder K] [IsStrictOrderedRing K] (a b c : K) (ha : 0 ≤ a) (hb : 0 ≤ b) (p0 : F K) (ps : List (F K))
    (eta : K) (he : 1 / 5 ≤ eta) :
    calculatePetrosianR (fun _ => constInterp K) [fin c, fin a, fin b] (p0 :: ps) none (fin eta) = .ok (fin 0, nan) := by
  have hmin : pyMin [fin 0, fin a, fin b] = .ok (fin 0) := by
    simp only [pyMin, List.foldl, lt_fin, decide_eq_true_eq, not_lt.2 ha, not_lt.2 hb, if_false]
  obtain ⟨hi, _, hmax, _⟩ := pyMax_fin (xs := [0, a, b]) (by simp)
  simp only [List.map_cons, List.map_nil] at hmax
  have hl : ∃ l, npLinspace (fin 0) (fin hi) 5000 = fin 0 :: l ∧ l.length = 4999 := by
    have h := npLinspace_fin (0 : K) hi 5000 (by norm_num)
    rw [h]
    rw [show (5000 : Nat) = 4999 + 1 from rfl, List.range_succ_eq_map]
    exact ⟨_, by rw [List.map_cons, gridPt_zero], by simp⟩
  obtain ⟨l, hl, _⟩ := hl
  have hm : (npLinspace (fin 0) (fin hi) 5000).mapM (constInterp K [fin 0, fin a, fin b] (fin 1 :: ps)) =
      .ok (fin (1 / 5) :: l.map fun _ => fin (1 / 5)) := by
    rw [mapM_ok_of_forall (f := constInterp K [fin 0, fin a, fin b] (fin 1 :: ps)) (g := fun _ => fin (1 / 5)) (fun _ _ => rfl), hl]; rfl
  unfold calculatePetrosianR
  simp only [setItem0, Except.bind_ok, getInterpolatedValues, hmin, hmax]
  rw [if_neg (by simp), hm]
  simp only [Except.bind_ok, radiusAt, closestValueIndex, firstWhere, Bool.false_eq_true, if_false, le_fin, decide_eq_true_eq, he, if_true]
  simp only [zero_add, List.take_succ_cons, List.take_zero, List.map_cons, List.map_nil, npArgmin, argminAux, Except.bind_ok, hl]
  rfl

/-- A profile. -/
noncomputable def exampleP : Petrosian ℝ where
  rList := [fin 1, fin 2, fin 3]
  areaList := [fin 1, fin 2, fin 3]
  fluxList := [fin 1, fin 1, fin 1]
  areaErr := none
  fluxErr := none
  eta := fin (1 / 5)
  epsilon := fin 1
  epsilonFraction := fin (4 / 5)
  totalFluxFraction := fin 1
  interpKind := none
  interpNum := 10
  petrosianList := [nan, fin (1 / 10), fin (1 / 20)]
  petrosianErr := none

theorem exampleP_rp (ip : InterpFam ℝ) : exampleP.calcPetrosianR ip = .ok (fin 2, nan) := by
  unfold Petrosian.calcPetrosianR exampleP calculatePetrosianR
  simp only [setItem0, Except.bind_ok, getInterpolatedValues, radiusAt, closestValueIndex, firstWhere, le_fin, Bool.false_eq_true, if_false]
  norm_num [npArgmin, argminAux, Except.bind_ok, getItem, abs_of_pos]

theorem exampleP_frac (f : ℝ) (h : f ≤ 4) :
    fractionToR (fun _ => constInterp ℝ) (fin f) exampleP.rList exampleP.fluxList (fin 2) exampleP.fluxErr (some nan) exampleP.epsilon
      exampleP.epsilonFraction exampleP.interpKind exampleP.interpNum = .ok (fin 1, nan) := by
  have hmax : pyMax [fin (1 : ℝ), fin 2, fin 3] = .ok (fin 3) := by norm_num [pyMax]
  have hd : pyDiv (fin f) (fin (4 / 5 : ℝ)) = .ok (fin (f / (4 / 5))) := by
    unfold pyDiv
    rw [if_neg (by norm_num), fin_div_of_ne _ (by norm_num)]
  have h1 : F.lt (fin 3) (fin 2 * fin (1 : ℝ)) = false := by norm_num
  have h2 : F.le (fin (1 / 5) * fin (f / (4 / 5))) (fin (1 : ℝ)) = true := by
    rw [fin_mul, le_fin, decide_eq_true_eq]; linarith
  show fractionToR _ (fin f) [fin 1, fin 2, fin 3] [fin 1, fin 1, fin 1] (fin 2) none (some nan) (fin 1) (fin (4 / 5)) none 10 = _
  unfold fractionToR
  simp only [hmax, Except.bind_ok, h1, Bool.false_eq_true, if_false, constInterp, hd, getInterpolatedValues, radiusAt, closestValueIndex,
    firstWhere, h2, if_true]
  rfl

/-- The measured triple of the example profile is (0, 1, 0). -/
theorem exampleP_measured : Measured (fun _ => constInterp ℝ) exampleP (fin 0) (fin 1) (fin 0) := by
  have hr : exampleP.rPetrosian (fun _ => constInterp ℝ) = .ok (fin 2) := by
    unfold Petrosian.rPetrosian; rw [exampleP_rp]; rfl
  have hre : exampleP.rPetrosianErr (fun _ => constInterp ℝ) = .ok nan := by
    unfold Petrosian.rPetrosianErr; rw [exampleP_rp]; rfl
  refine ⟨⟨nan, ?_⟩, ⟨(fin 0, nan), ?_⟩, ⟨(fin 0, nan), ?_⟩, ⟨(fin 0, nan), ?_⟩, ?_, ?_⟩
  · exact constInterp_radius 2 3 1 (by norm_num) (by norm_num) _ _ _ (by norm_num)
  · exact constInterp_radius 2 3 1 (by norm_num) (by norm_num) _ _ _ (by norm_num)
  · exact constInterp_radius 2 3 1 (by norm_num) (by norm_num) _ _ _ (by norm_num)
  · exact constInterp_radius 2 3 1 (by norm_num) (by norm_num) _ _ _ (by norm_num)
  · unfold Petrosian.r50 Petrosian.rHalfLight Petrosian.calcFractionToR
    rw [hr, hre, Except.bind_ok, Except.bind_ok, exampleP_frac _ (by norm_num)]
    rfl
  · unfold Petrosian.c2080 Petrosian.concentrationIndex calculateConcentrationIndex
    rw [hr, hre, Except.bind_ok, Except.bind_ok, exampleP_frac _ (by norm_num), exampleP_frac _ (by norm_num)]
    simp only [Except.bind_ok, isNaN_fin, Bool.or_self, Bool.false_eq_true, if_false]
    rw [fin_div_of_ne _ one_ne_zero]
    norm_num [F.log10, HasLog10.log10, Except.map]

/-- A grid of three rows; the last row has the triple of the example profile. -/
noncomputable def exampleGrid : Table ℝ where
  names := ["n", "p02", "u_r_50", "u_c2080"]
  rows := [[fin 5, fin 1, fin 2, fin 3], [fin 6, fin 2, fin 2, fin 1], [fin 7, fin 0, fin 1, fin 0]]

theorem exampleGrid_cols : exampleGrid.col "p02" = .ok ([1, 2, 0].map fin) ∧ exampleGrid.col "u_r_50" = .ok ([2, 2, 1].map fin) ∧
    exampleGrid.col "u_c2080" = .ok ([3, 1, 0].map fin) := by
  refine ⟨rfl, rfl, rfl⟩

/-- The hypotheses of C26, C27 and C28 are met; the estimated index is that of the third row. -/
example : ∃ c, Correction.init exampleGrid true = .ok c ∧ 0 < variance [1, 2, 0] ∧ 0 < variance [2, 2, 1] ∧ 0 < variance [3, 1, 0] ∧
    Measured (fun _ => constInterp ℝ) exampleP (fin 0) (fin 1) (fin 0) ∧
    rowGet exampleGrid.names [fin (7 : ℝ), fin 0, fin 1, fin 0] "p02" = .ok (fin 0) ∧
    InRange [(1 : ℝ), 2, 0] 0 ∧ InRange [(2 : ℝ), 2, 1] 1 ∧ InRange [(3 : ℝ), 1, 0] 0 := by
  refine ⟨⟨true, exampleGrid, [1, 2, 0].map fin, [2, 2, 1].map fin, [3, 1, 0].map fin⟩, rfl, ?_, ?_, ?_, exampleP_measured, rfl, ?_, ?_, ?_⟩
  · norm_num [variance, mean]
  · norm_num [variance, mean]
  · norm_num [variance, mean]
  · exact ⟨⟨0, by simp, le_rfl⟩, ⟨0, by simp, le_rfl⟩⟩
  · exact ⟨⟨1, by simp, le_rfl⟩, ⟨1, by simp, le_rfl⟩⟩
  · exact ⟨⟨0, by simp, le_rfl⟩, ⟨0, by simp, le_rfl⟩⟩

/-- A profile whose radii end before `r_epsilon`: the same with epsilon 2, so `r_50` and `C2080` are NaN and C29 applies. -/
noncomputable def exampleNaN : Petrosian ℝ := { exampleP with epsilon := fin 2 }

theorem exampleNaN_measured : Measured (fun _ => constInterp ℝ) exampleNaN (fin 0) nan nan := by
  have hr : exampleNaN.rPetrosian (fun _ => constInterp ℝ) = .ok (fin 2) := by
    have := exampleP_rp (fun _ => constInterp ℝ)
    unfold Petrosian.rPetrosian
    show (exampleP.calcPetrosianR _).map _ = _
    rw [this]; rfl
  have hre : exampleNaN.rPetrosianErr (fun _ => constInterp ℝ) = .ok nan := by
    have := exampleP_rp (fun _ => constInterp ℝ)
    unfold Petrosian.rPetrosianErr
    show (exampleP.calcPetrosianR _).map _ = _
    rw [this]; rfl
  have hf : ∀ f, fractionToR (fun _ => constInterp ℝ) f exampleNaN.rList exampleNaN.fluxList (fin 2) exampleNaN.fluxErr (some nan)
      exampleNaN.epsilon exampleNaN.epsilonFraction exampleNaN.interpKind exampleNaN.interpNum = .ok (nan, nan) := by
    intro f
    have hmax : pyMax [fin (1 : ℝ), fin 2, fin 3] = .ok (fin 3) := by norm_num [pyMax]
    have h1 : F.lt (fin 3) (fin 2 * fin (2 : ℝ)) = true := by norm_num
    show fractionToR _ f [fin 1, fin 2, fin 3] [fin 1, fin 1, fin 1] (fin 2) none (some nan) (fin 2) (fin (4 / 5)) none 10 = _
    unfold fractionToR
    simp only [hmax, Except.bind_ok, h1, if_true]
  refine ⟨⟨nan, ?_⟩, ⟨(fin 0, nan), ?_⟩, ⟨(fin 0, nan), ?_⟩, ⟨(fin 0, nan), ?_⟩, ?_, ?_⟩
  · exact constInterp_radius 2 3 1 (by norm_num) (by norm_num) _ _ _ (by norm_num)
  · exact constInterp_radius 2 3 1 (by norm_num) (by norm_num) _ _ _ (by norm_num)
  · exact constInterp_radius 2 3 1 (by norm_num) (by norm_num) _ _ _ (by norm_num)
  · exact constInterp_radius 2 3 1 (by norm_num) (by norm_num) _ _ _ (by norm_num)
  · unfold Petrosian.r50 Petrosian.rHalfLight Petrosian.calcFractionToR
    rw [hr, hre, Except.bind_ok, Except.bind_ok, hf]
    rfl
  · unfold Petrosian.c2080 Petrosian.concentrationIndex calculateConcentrationIndex
    rw [hr, hre, Except.bind_ok, Except.bind_ok, hf, hf]
    rfl

/-- C29 fails concretely: the Sersic index of this unmeasurable profile is reported as 5. -/
example : ∃ c, Correction.init exampleGrid false = .ok c ∧ c.estimateN (fun _ => constInterp ℝ) exampleNaN = .ok (fin 5) := by
  have hi : Correction.init exampleGrid false =
      .ok ⟨false, exampleGrid, [1, 2, 0].map fin, [2, 2, 1].map fin, [3, 1, 0].map fin⟩ := rfl
  refine ⟨_, hi, ?_⟩
  rw [(C29_violated _ _ _ hi _ _ rfl _ _ _ _ exampleNaN_measured (Or.inr (Or.inl rfl))).1]
  rfl

/-- C30: a row of length 30 and a supported setting. -/
example : cell ((List.range 30).map fun i => fin (i : ℚ)) "c_r_80" = some (fin 27) ∧
    Correction.epsilonFromRow gridNames ((List.range 30).map fun i => fin (i : ℚ)) (fin (4 / 5)) (fin (3 / 10)) = .ok (fin (27 / 7)) := by
  decide +kernel

end examples

end Verif.Props

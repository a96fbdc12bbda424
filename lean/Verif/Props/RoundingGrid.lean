import Verif.Model.RoundingGrid
import Verif.Props.Correction
import Verif.Props.RoundingProfile

/-!
# C124: the grid lookup in floating point
-/

set_option linter.unusedSectionVars false

namespace Verif.Spec

/-- The squared distance of row `i` from the measured triple, with column scales `sx`, `sy`, `sz`. -/
noncomputable def scaledDist2 (X Y Z : List ℝ) (sx sy sz x0 y0 z0 : ℝ) (i : Nat) : ℝ :=
  ((X.getD i 0 - x0) / sx) ^ 2 + ((Y.getD i 0 - y0) / sy) ^ 2 + ((Z.getD i 0 - z0) / sz) ^ 2

end Verif.Spec

namespace Verif.Props

open F Spec

/-- `x` is `y` up to `k` relative errors of size `u`. -/
def Within (u : ℝ) (k : Nat) (x y : ℝ) : Prop := 0 ≤ y ∧ (1 - u) ^ k * y ≤ x ∧ x ≤ (1 + u) ^ k * y

section
variable {u : ℝ} {fl : ℝ → ℝ} (hu : RelErr u fl) (hu0 : 0 ≤ u) (hu1 : u < 1)
include hu0 hu1

theorem Within.nonneg {k : Nat} {x y : ℝ} (h : Within u k x y) : 0 ≤ x :=
  le_trans (mul_nonneg (pow_nonneg (by linarith) k) h.1) h.2.1

theorem Within.mono {k k' : Nat} {x y : ℝ} (hk : k ≤ k') (h : Within u k x y) : Within u k' x y := by
  obtain ⟨h0, h1, h2⟩ := h
  refine ⟨h0, le_trans (mul_le_mul_of_nonneg_right ?_ h0) h1, le_trans h2 (mul_le_mul_of_nonneg_right ?_ h0)⟩
  · exact pow_le_pow_of_le_one (by linarith) (by linarith) hk
  · exact pow_le_pow_right₀ (by linarith) hk

theorem Within.add {k : Nat} {x y x' y' : ℝ} (h : Within u k x y) (h' : Within u k x' y') : Within u k (x + x') (y + y') :=
  ⟨add_nonneg h.1 h'.1, by have := h.2.1; have := h'.2.1; linarith, by have := h.2.2; have := h'.2.2; linarith⟩

theorem Within.mul {k l : Nat} {x y x' y' : ℝ} (h : Within u k x y) (h' : Within u l x' y') : Within u (k + l) (x * x') (y * y') := by
  have n1 := Within.nonneg hu0 hu1 h
  have n2 := Within.nonneg hu0 hu1 h'
  refine ⟨mul_nonneg h.1 h'.1, ?_, ?_⟩
  · calc (1 - u) ^ (k + l) * (y * y') = ((1 - u) ^ k * y) * ((1 - u) ^ l * y') := by rw [pow_add]; ring
      _ ≤ x * x' := mul_le_mul h.2.1 h'.2.1 (mul_nonneg (pow_nonneg (by linarith) _) h'.1) n1
  · calc x * x' ≤ ((1 + u) ^ k * y) * ((1 + u) ^ l * y') :=
          mul_le_mul h.2.2 h'.2.2 n2 (mul_nonneg (pow_nonneg (by linarith) _) h.1)
      _ = (1 + u) ^ (k + l) * (y * y') := by rw [pow_add]; ring

theorem Within.scale {k : Nat} {x y : ℝ} (h : Within u k x y) {c : ℝ} (hc : 0 ≤ c) : Within u k (c * x) (c * y) :=
  ⟨mul_nonneg hc h.1, by have := mul_le_mul_of_nonneg_left h.2.1 hc; linarith, by have := mul_le_mul_of_nonneg_left h.2.2 hc; linarith⟩

include hu

/-- One more rounding. -/
theorem Within.round {k : Nat} {x y : ℝ} (h : Within u k x y) : Within u (k + 1) (fl x) y := by
  have n := Within.nonneg hu0 hu1 h
  obtain ⟨b1, b2⟩ := relErr_le hu n
  refine ⟨h.1, ?_, ?_⟩
  · calc (1 - u) ^ (k + 1) * y = (1 - u) * ((1 - u) ^ k * y) := by rw [pow_succ]; ring
      _ ≤ (1 - u) * x := mul_le_mul_of_nonneg_left h.2.1 (by linarith)
      _ ≤ fl x := b2
  · calc fl x ≤ (1 + u) * x := b1
      _ ≤ (1 + u) * ((1 + u) ^ k * y) := mul_le_mul_of_nonneg_left h.2.2 (by linarith)
      _ = (1 + u) ^ (k + 1) * y := by rw [pow_succ]; ring

/-- One more rounding of a signed number. -/
theorem Within.flAbs {k : Nat} {x y : ℝ} (h : Within u k |x| y) : Within u (k + 1) |fl x| y := by
  have n := Within.nonneg hu0 hu1 h
  obtain ⟨b1, b2⟩ := relErr_abs hu x
  refine ⟨h.1, ?_, ?_⟩
  · calc (1 - u) ^ (k + 1) * y = (1 - u) * ((1 - u) ^ k * y) := by rw [pow_succ]; ring
      _ ≤ (1 - u) * |x| := mul_le_mul_of_nonneg_left h.2.1 (by linarith)
      _ ≤ |fl x| := b2
  · calc |fl x| ≤ (1 + u) * |x| := b1
      _ ≤ (1 + u) * ((1 + u) ^ k * y) := mul_le_mul_of_nonneg_left h.2.2 (by linarith)
      _ = (1 + u) ^ (k + 1) * y := by rw [pow_succ]; ring

/-- One term of the distance. -/
theorem termR_within {s : ℝ} (hs : 0 < s) (v x : ℝ) :
    ∃ t, Correction.termR fl (fin s) (fin v) (fin x) = fin t ∧ Within u 7 t (100 ^ 2 * ((x - v) / s) ^ 2) := by
  have w0 : Within u 0 |x - v| |x - v| := ⟨abs_nonneg _, by simp, by simp⟩
  have w1 := Within.flAbs hu hu0 hu1 w0
  have w2 : Within u 1 |100 * fl (x - v)| (100 * |x - v|) := by
    rw [abs_mul, abs_of_pos (by norm_num : (0 : ℝ) < 100)]
    exact Within.scale hu0 hu1 w1 (by norm_num)
  have w3 := Within.flAbs hu hu0 hu1 w2
  have w4 : Within u 2 |fl (100 * fl (x - v)) / s| (s⁻¹ * (100 * |x - v|)) := by
    rw [abs_div, abs_of_pos hs, div_eq_inv_mul]
    exact Within.scale hu0 hu1 w3 (by positivity)
  have w5 := Within.flAbs hu hu0 hu1 w4
  have w6 := Within.mul hu0 hu1 w5 w5
  have w7 := Within.round hu hu0 hu1 w6
  refine ⟨fl (fl (fl (100 * fl (x - v)) / s) * fl (fl (100 * fl (x - v)) / s)), ?_, ?_⟩
  · unfold Correction.termR
    rw [fin_sub, rnd_fin, fin_mul, rnd_fin, fin_div_of_ne _ hs.ne', rnd_fin]
    show F.rnd fl (fin _ * fin _) = _
    rw [fin_mul, rnd_fin]
  · rw [abs_mul_abs_self] at w7
    have e : s⁻¹ * (100 * |x - v|) * (s⁻¹ * (100 * |x - v|)) = 100 ^ 2 * ((x - v) / s) ^ 2 := by
      rw [← sq_abs ((x - v) / s), abs_div, abs_of_pos hs]; ring
    rw [e] at w7
    exact w7

/-- The distances. -/
theorem drR_within (c : Correction ℝ) (X Y Z : List ℝ) (hx : c.x = X.map fin) (hy : c.y = Y.map fin) (hz : c.z = Z.map fin)
    (hxy : Y.length = X.length) (hxz : Z.length = X.length) {sx sy sz : ℝ} (px : 0 < sx) (py : 0 < sy) (pz : 0 < sz) (x0 y0 z0 : ℝ) :
    ∃ D : Nat → ℝ, c.drR fl (fin sx, fin sy, fin sz) (fin x0) (fin y0) (fin z0) = (List.range X.length).map (fun i => fin (fl (Real.sqrt (D i)))) ∧
      ∀ i, i < X.length → Within u 9 (D i) (100 ^ 2 * scaledDist2 X Y Z sx sy sz x0 y0 z0 i) := by
  choose tx htx wtx using fun x => termR_within hu hu0 hu1 px x0 x
  choose ty hty wty using fun x => termR_within hu hu0 hu1 py y0 x
  choose tz htz wtz using fun x => termR_within hu hu0 hu1 pz z0 x
  have key : ∀ i, Within u 9 (fl (fl (tx (X.getD i 0) + ty (Y.getD i 0)) + tz (Z.getD i 0)))
      (100 ^ 2 * scaledDist2 X Y Z sx sy sz x0 y0 z0 i) := by
    intro i
    have a := Within.round hu hu0 hu1 (Within.add hu0 hu1 (wtx (X.getD i 0)) (wty (Y.getD i 0)))
    have b := Within.round hu hu0 hu1 (Within.add hu0 hu1 a (Within.mono hu0 hu1 (by norm_num : 7 ≤ 7 + 1) (wtz (Z.getD i 0))))
    have e : (100 : ℝ) ^ 2 * ((X.getD i 0 - x0) / sx) ^ 2 + 100 ^ 2 * ((Y.getD i 0 - y0) / sy) ^ 2 + 100 ^ 2 * ((Z.getD i 0 - z0) / sz) ^ 2 =
        100 ^ 2 * scaledDist2 X Y Z sx sy sz x0 y0 z0 i := by unfold scaledDist2; ring
    rw [e] at b
    exact b
  refine ⟨_, ?_, fun i _ => key i⟩
  unfold Correction.drR
  simp only [hx, hy, hz]
  apply List.ext_getElem
  · simp [hxy, hxz]
  · intro i h1 h2
    simp only [List.length_map, List.length_range] at h2
    have e : ∀ (l : List ℝ) (h : i < l.length), l.getD i 0 = l[i] := by
      intro l h; simp [List.getD, List.getElem?_eq_getElem h]
    have hk := Within.nonneg hu0 hu1 (key i)
    rw [e X h2, e Y (by omega), e Z (by omega)] at hk
    simp only [List.getElem_zipWith, List.getElem_map, List.getElem_zip, List.getElem_range, htx, hty, htz, fin_add, rnd_fin,
      e X h2, e Y (by omega), e Z (by omega)]
    show F.rnd fl (if _ < _ then _ else _) = _
    rw [if_neg (not_lt.2 hk)]
    rfl

/-- **C124, the row used.** In rounded arithmetic the lookup returns a row whose squared standardised distance is, up to the factor
`((1 + u) / (1 - u)) ^ 11`, not larger than that of any other row. -/
theorem C124_nearest_row (grid : Table ℝ) (er : Bool) (c : Correction ℝ) (hc : Correction.init grid er = .ok c)
    (X Y Z : List ℝ) (hX : grid.col "p02" = .ok (X.map fin)) (hY : grid.col "u_r_50" = .ok (Y.map fin))
    (hZ : grid.col "u_c2080" = .ok (Z.map fin)) (sx sy sz : ℝ) (px : 0 < sx) (py : 0 < sy) (pz : 0 < sz) (x0 y0 z0 : ℝ) (row : List (F ℝ))
    (h : c.closestRowR fl (fin sx, fin sy, fin sz) (fin x0) (fin y0) (fin z0) = .ok row) :
    ∃ i, ∃ hi : i < grid.rows.length, row = grid.rows[i] ∧ ∀ j, j < grid.rows.length →
      (1 - u) ^ 11 * scaledDist2 X Y Z sx sy sz x0 y0 z0 i ≤ (1 + u) ^ 11 * scaledDist2 X Y Z sx sy sz x0 y0 z0 j := by
  obtain ⟨h1, h2, h3, h4, h5⟩ := init_ok hc
  rw [hX] at h3; rw [hY] at h4; rw [hZ] at h5
  have ex : c.x = X.map fin := (Except.ok.inj h3).symm
  have ey : c.y = Y.map fin := (Except.ok.inj h4).symm
  have ez : c.z = Z.map fin := (Except.ok.inj h5).symm
  have lx := col_length hX
  have ly := col_length hY
  have lz := col_length hZ
  simp only [List.length_map] at lx ly lz
  obtain ⟨D, hD, hW⟩ := drR_within hu hu0 hu1 c X Y Z ex ey ez (by omega) (by omega) px py pz x0 y0 z0
  have h' : ∃ i, npArgmin (c.drR fl (fin sx, fin sy, fin sz) (fin x0) (fin y0) (fin z0)) = .ok i ∧ getItem c.grid.rows i = .ok row := by
    unfold Correction.closestRowR at h
    by_cases he : c.enforceRange = true
    · simp only [he, if_true] at h
      obtain ⟨_, -, h⟩ := bind_eq_ok.1 h
      exact bind_eq_ok.1 h
    · simp only [he] at h
      exact bind_eq_ok.1 h
  obtain ⟨i, hi, hrow⟩ := h'
  rw [hD] at hi
  have hne : (List.range X.length).map (fun i => fin (fl (Real.sqrt (D i)))) ≠ ([] : List (F ℝ)) := by
    intro e; rw [e] at hi; cases hi
  obtain ⟨r, g1, g2, g3, -⟩ := npArgmin_spec hne
  rw [g1] at hi
  injection hi with hi
  subst hi
  have hil : r < X.length := by simpa using g2
  have hil' : r < grid.rows.length := by omega
  refine ⟨r, hil', ?_, ?_⟩
  · rw [h2] at hrow
    simp only [getItem, List.getElem?_eq_getElem hil'] at hrow
    injection hrow with hrow
    exact hrow.symm
  · intro j hj
    have hjl : j < X.length := by omega
    have := g3 j (by simpa using hjl)
    simp only [List.getElem_map, List.getElem_range, nle_fin] at this
    have wi := hW r hil
    have wj := hW j hjl
    have ni := Within.nonneg hu0 hu1 wi
    have nj := Within.nonneg hu0 hu1 wj
    have a := (relErr_le hu (Real.sqrt_nonneg (D r))).2
    have b := (relErr_le hu (Real.sqrt_nonneg (D j))).1
    have cc : (1 - u) * Real.sqrt (D r) ≤ (1 + u) * Real.sqrt (D j) := by linarith
    have dd : ((1 - u) * Real.sqrt (D r)) ^ 2 ≤ ((1 + u) * Real.sqrt (D j)) ^ 2 :=
      pow_le_pow_left₀ (mul_nonneg (by linarith) (Real.sqrt_nonneg _)) cc 2
    rw [mul_pow, mul_pow, Real.sq_sqrt ni, Real.sq_sqrt nj] at dd
    have e1 := mul_le_mul_of_nonneg_left wi.2.1 (sq_nonneg (1 - u))
    have e2 := mul_le_mul_of_nonneg_left wj.2.2 (sq_nonneg (1 + u))
    have e3 : (100 : ℝ) ^ 2 * ((1 - u) ^ 11 * scaledDist2 X Y Z sx sy sz x0 y0 z0 r) ≤
        100 ^ 2 * ((1 + u) ^ 11 * scaledDist2 X Y Z sx sy sz x0 y0 z0 j) := by
      have f1 : (100 : ℝ) ^ 2 * ((1 - u) ^ 11 * scaledDist2 X Y Z sx sy sz x0 y0 z0 r) =
          (1 - u) ^ 2 * ((1 - u) ^ 9 * (100 ^ 2 * scaledDist2 X Y Z sx sy sz x0 y0 z0 r)) := by ring
      have f2 : (100 : ℝ) ^ 2 * ((1 + u) ^ 11 * scaledDist2 X Y Z sx sy sz x0 y0 z0 j) =
          (1 + u) ^ 2 * ((1 + u) ^ 9 * (100 ^ 2 * scaledDist2 X Y Z sx sy sz x0 y0 z0 j)) := by ring
      rw [f1, f2]
      linarith
    exact le_of_mul_le_mul_left e3 (by norm_num)

/-- **C124, on the grid.** A profile whose measured triple is exactly that of some row gets a row with the same triple, in spite of
rounding. -/
theorem C124_on_grid (grid : Table ℝ) (er : Bool) (c : Correction ℝ) (hc : Correction.init grid er = .ok c)
    (X Y Z : List ℝ) (hX : grid.col "p02" = .ok (X.map fin)) (hY : grid.col "u_r_50" = .ok (Y.map fin))
    (hZ : grid.col "u_c2080" = .ok (Z.map fin)) (sx sy sz : ℝ) (px : 0 < sx) (py : 0 < sy) (pz : 0 < sz) (x0 y0 z0 : ℝ) (row : List (F ℝ))
    (h : c.closestRowR fl (fin sx, fin sy, fin sz) (fin x0) (fin y0) (fin z0) = .ok row) (j : Nat) (hj : j < grid.rows.length)
    (gx : rowGet grid.names grid.rows[j] "p02" = .ok (fin x0)) (gy : rowGet grid.names grid.rows[j] "u_r_50" = .ok (fin y0))
    (gz : rowGet grid.names grid.rows[j] "u_c2080" = .ok (fin z0)) :
    rowGet grid.names row "p02" = .ok (fin x0) ∧ rowGet grid.names row "u_r_50" = .ok (fin y0) ∧
      rowGet grid.names row "u_c2080" = .ok (fin z0) := by
  obtain ⟨i, hi, hrow, hmin⟩ := C124_nearest_row hu hu0 hu1 grid er c hc X Y Z hX hY hZ sx sy sz px py pz x0 y0 z0 row h
  have lx := col_length hX
  have ly := col_length hY
  have lz := col_length hZ
  simp only [List.length_map] at lx ly lz
  have val : ∀ {key : String} {L : List ℝ} (h : grid.col key = .ok (L.map fin)) {k : Nat} (hk : k < grid.rows.length) (v : ℝ),
      rowGet grid.names grid.rows[k] key = .ok (fin v) ↔ L.getD k 0 = v := by
    intro key L h k hk v
    have hl : k < L.length := by have := col_length h; simp at this; omega
    rw [col_rowGet h hk]
    simp [List.getD, List.getElem?_eq_getElem hl]
  have hj0 : scaledDist2 X Y Z sx sy sz x0 y0 z0 j = 0 := by
    unfold scaledDist2
    rw [(val hX hj x0).1 gx, (val hY hj y0).1 gy, (val hZ hj z0).1 gz]
    simp
  have := hmin j hj
  rw [hj0, mul_zero] at this
  have hpos : (0 : ℝ) < (1 - u) ^ 11 := pow_pos (by linarith) _
  have hi0 : scaledDist2 X Y Z sx sy sz x0 y0 z0 i ≤ 0 := by
    by_contra hcon
    exact absurd this (not_le.2 (mul_pos hpos (not_le.1 hcon)))
  unfold scaledDist2 at hi0
  have s1 := sq_nonneg ((X.getD i 0 - x0) / sx)
  have s2 := sq_nonneg ((Y.getD i 0 - y0) / sy)
  have s3 := sq_nonneg ((Z.getD i 0 - z0) / sz)
  have z : ∀ a s : ℝ, 0 < s → (a / s) ^ 2 = 0 → a = 0 := by
    intro a s hs h
    have := pow_eq_zero_iff (two_ne_zero) |>.1 h
    rcases div_eq_zero_iff.1 this with h | h
    · exact h
    · exact absurd h hs.ne'
  rw [hrow]
  refine ⟨(val hX hi x0).2 ?_, (val hY hi y0).2 ?_, (val hZ hi z0).2 ?_⟩
  · have := z _ _ px (by linarith : ((X.getD i 0 - x0) / sx) ^ 2 = 0); linarith
  · have := z _ _ py (by linarith : ((Y.getD i 0 - y0) / sy) ^ 2 = 0); linarith
  · have := z _ _ pz (by linarith : ((Z.getD i 0 - z0) / sz) ^ 2 = 0); linarith

/-- The lookup succeeds for every measured triple when the range is not enforced and the grid has a row. -/
theorem C124_total (grid : Table ℝ) (c : Correction ℝ) (hc : Correction.init grid false = .ok c)
    (X Y Z : List ℝ) (hX : grid.col "p02" = .ok (X.map fin)) (hY : grid.col "u_r_50" = .ok (Y.map fin))
    (hZ : grid.col "u_c2080" = .ok (Z.map fin)) (sx sy sz : ℝ) (px : 0 < sx) (py : 0 < sy) (pz : 0 < sz) (x0 y0 z0 : ℝ)
    (hne : grid.rows ≠ []) : ∃ row, c.closestRowR fl (fin sx, fin sy, fin sz) (fin x0) (fin y0) (fin z0) = .ok row := by
  obtain ⟨h1, h2, h3, h4, h5⟩ := init_ok hc
  rw [hX] at h3; rw [hY] at h4; rw [hZ] at h5
  have ex : c.x = X.map fin := (Except.ok.inj h3).symm
  have ey : c.y = Y.map fin := (Except.ok.inj h4).symm
  have ez : c.z = Z.map fin := (Except.ok.inj h5).symm
  have lx := col_length hX
  have ly := col_length hY
  have lz := col_length hZ
  simp only [List.length_map] at lx ly lz
  obtain ⟨D, hD, -⟩ := drR_within hu hu0 hu1 c X Y Z ex ey ez (by omega) (by omega) px py pz x0 y0 z0
  have hp : 0 < grid.rows.length := List.length_pos_iff.2 hne
  obtain ⟨r, g1, g2, -, -⟩ := npArgmin_spec (L := (List.range X.length).map (fun i => fin (fl (Real.sqrt (D i)))))
    (by intro e; have := congrArg List.length e; rw [List.length_map, List.length_range, List.length_nil] at this; omega)
  have hr : r < grid.rows.length := by
    have : r < X.length := by simpa using g2
    omega
  refine ⟨grid.rows[r], ?_⟩
  unfold Correction.closestRowR
  rw [hD, h1, h2]
  simp only [Bool.false_eq_true, if_false, g1, getItem, List.getElem?_eq_getElem hr, Except.bind_ok]

end

/-- Three rows, the last two with the same triple as the measured one: a row with that triple is found in doubles. -/
example : ∃ c : Correction ℝ, ∃ row,
    Correction.init ⟨["p02", "u_r_50", "u_c2080", "n"], [[fin 1, fin 2, fin 3, fin 1], [fin 3, fin 5, fin 4, fin 2], [fin 3, fin 5, fin 4, fin 7]]⟩
      false = .ok c ∧
    c.closestRowR fl53 (fin 1, fin 1, fin 1) (fin 3) (fin 5) (fin 4) = .ok row ∧
    rowGet ["p02", "u_r_50", "u_c2080", "n"] row "p02" = .ok (fin 3) := by
  have hu : RelErr ((2 : ℝ) ^ (-((53 : Nat) : ℤ))) (fl53 : ℝ → ℝ) := flBits_relErr 53 (by decide)
  have e : (2 : ℝ) ^ (-((53 : Nat) : ℤ)) = 1 / 2 ^ 53 := by rw [zpow_neg, zpow_natCast, one_div]
  rw [e] at hu
  let g : Table ℝ :=
    ⟨["p02", "u_r_50", "u_c2080", "n"], [[fin 1, fin 2, fin 3, fin 1], [fin 3, fin 5, fin 4, fin 2], [fin 3, fin 5, fin 4, fin 7]]⟩
  have hX : g.col "p02" = .ok ([1, 3, 3].map fin) := rfl
  have hY : g.col "u_r_50" = .ok ([2, 5, 5].map fin) := rfl
  have hZ : g.col "u_c2080" = .ok ([3, 4, 4].map fin) := rfl
  have hc : Correction.init g false = .ok _ := rfl
  obtain ⟨row, hr⟩ := C124_total hu (by norm_num) (by norm_num) g _ hc _ _ _ hX hY hZ 1 1 1 one_pos one_pos one_pos 3 5 4 (by simp [g])
  refine ⟨_, row, hc, hr, ?_⟩
  exact (C124_on_grid hu (by norm_num) (by norm_num) g false _ hc _ _ _ hX hY hZ 1 1 1 one_pos one_pos one_pos 3 5 4 row hr 1 (by decide)
    rfl rfl rfl).1

/-- **C124 for doubles**: the factor is below `1 + 10⁻¹⁴`. -/
theorem C124_double (grid : Table ℝ) (er : Bool) (c : Correction ℝ) (hc : Correction.init grid er = .ok c)
    (X Y Z : List ℝ) (hX : grid.col "p02" = .ok (X.map fin)) (hY : grid.col "u_r_50" = .ok (Y.map fin))
    (hZ : grid.col "u_c2080" = .ok (Z.map fin)) (sx sy sz : ℝ) (px : 0 < sx) (py : 0 < sy) (pz : 0 < sz) (x0 y0 z0 : ℝ) (row : List (F ℝ))
    (h : c.closestRowR fl53 (fin sx, fin sy, fin sz) (fin x0) (fin y0) (fin z0) = .ok row) :
    ∃ i, ∃ hi : i < grid.rows.length, row = grid.rows[i] ∧ ∀ j, j < grid.rows.length →
      scaledDist2 X Y Z sx sy sz x0 y0 z0 i ≤ (1 + 1 / 10 ^ 14) * scaledDist2 X Y Z sx sy sz x0 y0 z0 j := by
  have hu : RelErr ((2 : ℝ) ^ (-((53 : Nat) : ℤ))) (fl53 : ℝ → ℝ) := flBits_relErr 53 (by decide)
  have e : (2 : ℝ) ^ (-((53 : Nat) : ℤ)) = 1 / 2 ^ 53 := by rw [zpow_neg, zpow_natCast, one_div]
  rw [e] at hu
  obtain ⟨i, hi, hrow, hmin⟩ := C124_nearest_row hu (by norm_num) (by norm_num) grid er c hc X Y Z hX hY hZ sx sy sz px py pz x0 y0 z0 row h
  refine ⟨i, hi, hrow, fun j hj => ?_⟩
  have h1 := hmin j hj
  have h2 : 0 ≤ scaledDist2 X Y Z sx sy sz x0 y0 z0 j := by unfold scaledDist2; positivity
  have h3 : ((1 : ℝ) + 1 / 2 ^ 53) ^ 11 ≤ (1 - 1 / 2 ^ 53) ^ 11 * (1 + 1 / 10 ^ 14) := by norm_num
  have h4 : (1 - 1 / 2 ^ 53) ^ 11 * scaledDist2 X Y Z sx sy sz x0 y0 z0 i ≤
      (1 - 1 / 2 ^ 53) ^ 11 * ((1 + 1 / 10 ^ 14) * scaledDist2 X Y Z sx sy sz x0 y0 z0 j) :=
    h1.trans (by rw [← mul_assoc]; exact mul_le_mul_of_nonneg_right h3 h2)
  exact le_of_mul_le_mul_left h4 (by norm_num)

end Verif.Props

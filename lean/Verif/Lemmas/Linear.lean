import Verif.Lemmas.Interp

/-!
# `interp1d(kind='linear')` meets the interpolation contract
-/

set_option linter.unusedSectionVars false

namespace Verif

open F Spec

variable {K : Type} [Field K] [LinearOrder K] [IsStrictOrderedRing K]

/-- Piecewise-linear interpolation on finite data, for proofs. -/
def linK : List (K × K) → K → K
  | (x0, y0) :: (x1, y1) :: rest, q =>
    if q ≤ x1 then (y1 - y0) / (x1 - x0) * (q - x0) + y0 else linK ((x1, y1) :: rest) q
  | [(_, y0)], _ => y0
  | [], _ => 0

theorem linSeg_fin (xs ys : List K) (hl : xs.length = ys.length) (hx : Incr xs) (hne : xs ≠ []) (q : K) :
    linSeg ((xs.map fin).zip (ys.map fin)) (fin q) = fin (linK (xs.zip ys) q) := by
  induction xs generalizing ys with
  | nil => exact absurd rfl hne
  | cons x0 xs ih =>
    cases ys with
    | nil => simp at hl
    | cons y0 ys =>
      cases xs with
      | nil =>
        cases ys with
        | nil => rfl
        | cons y1 ys => simp at hl
      | cons x1 xs =>
        cases ys with
        | nil => simp at hl
        | cons y1 ys =>
          have hlt : x0 < x1 := (List.pairwise_cons.1 hx).1 x1 (by simp)
          have := ih (y1 :: ys) (by simpa using hl) (List.pairwise_cons.1 hx).2 (by simp)
          simp only [List.map_cons, List.zip_cons_cons, linSeg, linK, le_fin, decide_eq_true_eq] at this ⊢
          rw [this]
          split
          · rw [fin_sub, fin_sub, fin_sub, fin_div_of_ne _ (sub_ne_zero.2 hlt.ne'), fin_mul, fin_add]
          · rfl

theorem incr_head_le {x0 : K} {xs : List K} (h : Incr (x0 :: xs)) : ∀ x ∈ x0 :: xs, x0 ≤ x := by
  intro x hx
  rcases List.mem_cons.1 hx with hx | hx
  · rw [hx]
  · exact ((List.pairwise_cons.1 h).1 x hx).le

theorem incr_le_last {xs : List K} (h : Incr xs) {b : K} (hb : xs.getLast? = some b) : ∀ x ∈ xs, x ≤ b := by
  induction xs with
  | nil => simp
  | cons x0 xs ih =>
    cases xs with
    | nil => simp at hb; subst hb; simp
    | cons x1 xs =>
      rw [List.getLast?_cons_cons] at hb
      have ih' := ih (List.pairwise_cons.1 h).2 hb
      intro x hx
      rcases List.mem_cons.1 hx with hx | hx
      · rw [hx]; exact ((List.pairwise_cons.1 h).1 x1 (by simp)).le.trans (ih' x1 (by simp))
      · exact ih' x hx

theorem linearInterp_eq (xs ys : List K) (hl : xs.length = ys.length) (hx : Incr xs) (hne : xs ≠ []) (q : K) :
    (InRange xs q → linearInterp (xs.map fin) (ys.map fin) (fin q) = .ok (fin (linK (xs.zip ys) q))) ∧
    (OutRange xs q → linearInterp (xs.map fin) (ys.map fin) (fin q) = .error .valueError) := by
  obtain ⟨a, ha⟩ : ∃ a, xs.head? = some a := by cases xs with
    | nil => exact absurd rfl hne
    | cons a l => exact ⟨a, rfl⟩
  obtain ⟨b, hb⟩ : ∃ b, xs.getLast? = some b := by
    rw [List.getLast?_eq_some_getLast hne]; exact ⟨_, rfl⟩
  have ha' : ∀ x ∈ xs, a ≤ x := by
    cases xs with
    | nil => simp
    | cons c l => simp at ha; subst ha; exact incr_head_le hx
  have hb' := incr_le_last hx hb
  have ham : a ∈ xs := List.mem_of_head? ha
  have hbm : b ∈ xs := List.mem_of_getLast? hb
  have hdef : linearInterp (xs.map fin) (ys.map fin) (fin q) =
      if q < a ∨ b < q then .error .valueError else .ok (fin (linK (xs.zip ys) q)) := by
    unfold linearInterp
    simp only [List.length_map, hl, ne_eq, not_true_eq_false, if_false, List.head?_map, ha, Option.map_some,
      List.getLast?_map, hb, lt_fin, Bool.or_eq_true, decide_eq_true_eq, isNaN_fin, Bool.false_eq_true,
      linSeg_fin xs ys hl hx hne]
  rw [hdef]
  constructor
  · rintro ⟨⟨x, hx1, hx2⟩, ⟨y, hy1, hy2⟩⟩
    rw [if_neg]
    rintro (h | h)
    · exact absurd (ha' x hx1) (by linarith [ha' x hx1] : ¬ a ≤ x)
    · have := hb' y hy1; linarith
  · rintro ⟨_, h | h⟩
    · rw [if_pos (Or.inl (h a ham))]
    · rw [if_pos (Or.inr (h b hbm))]

theorem linK_node (xs ys : List K) (hl : xs.length = ys.length) (hx : Incr xs) (i : Nat) (h : i < xs.length) :
    linK (xs.zip ys) xs[i] = ys[i] := by
  induction xs generalizing ys i with
  | nil => simp at h
  | cons x0 xs ih =>
    cases ys with
    | nil => simp at hl
    | cons y0 ys =>
      cases xs with
      | nil =>
        cases ys with
        | nil =>
          have : i = 0 := by simp at h; omega
          subst this; rfl
        | cons y1 ys => simp at hl
      | cons x1 xs =>
        cases ys with
        | nil => simp at hl
        | cons y1 ys =>
          have hlt : x0 < x1 := (List.pairwise_cons.1 hx).1 x1 (by simp)
          have hx' := (List.pairwise_cons.1 hx).2
          simp only [List.zip_cons_cons, linK]
          cases i with
          | zero =>
            simp only [List.getElem_cons_zero]
            rw [if_pos hlt.le]; simp
          | succ i =>
            simp only [List.getElem_cons_succ]
            have ih' := ih (y1 :: ys) (by simpa using hl) hx' i (by simpa using h)
            cases i with
            | zero =>
              simp only [List.getElem_cons_zero]
              rw [if_pos le_rfl]
              have := sub_ne_zero.2 hlt.ne'
              field_simp
              ring
            | succ i =>
              simp only [List.getElem_cons_succ] at ih' ⊢
              rw [if_neg (not_le.2 ((List.pairwise_cons.1 hx').1 _ (List.getElem_mem _)))]
              exact ih'

theorem linK_smul (xs ys : List K) (hl : xs.length = ys.length) (c q : K) :
    linK (xs.zip (ys.map (c * ·))) q = c * linK (xs.zip ys) q := by
  induction xs generalizing ys with
  | nil => simp [linK]
  | cons x0 xs ih =>
    cases ys with
    | nil => simp at hl
    | cons y0 ys =>
      cases xs with
      | nil =>
        cases ys with
        | nil => rfl
        | cons y1 ys => simp at hl
      | cons x1 xs =>
        cases ys with
        | nil => simp at hl
        | cons y1 ys =>
          have := ih (y1 :: ys) (by simpa using hl)
          simp only [List.map_cons, List.zip_cons_cons, linK] at this ⊢
          rw [this]
          split
          · ring
          · rfl

theorem linK_xscale (xs ys : List K) (hl : xs.length = ys.length) (c q : K) (hc : 0 < c) (hx : Incr xs) :
    linK ((xs.map (c * ·)).zip ys) (c * q) = linK (xs.zip ys) q := by
  induction xs generalizing ys with
  | nil => simp [linK]
  | cons x0 xs ih =>
    cases ys with
    | nil => simp at hl
    | cons y0 ys =>
      cases xs with
      | nil =>
        cases ys with
        | nil => rfl
        | cons y1 ys => simp at hl
      | cons x1 xs =>
        cases ys with
        | nil => simp at hl
        | cons y1 ys =>
          have hlt : x0 < x1 := (List.pairwise_cons.1 hx).1 x1 (by simp)
          have := ih (y1 :: ys) (by simpa using hl) (List.pairwise_cons.1 hx).2
          simp only [List.map_cons, List.zip_cons_cons, linK, mul_le_mul_iff_right₀ hc] at this ⊢
          rw [this]
          split
          · have := sub_ne_zero.2 hlt.ne'
            rw [← mul_sub, ← mul_sub]
            field_simp
          · rfl

theorem incr_map_mul {xs : List K} (h : Incr xs) {c : K} (hc : 0 < c) : Incr (xs.map (c * ·)) := by
  unfold Incr at *
  rw [List.pairwise_map]
  exact h.imp fun hab => mul_lt_mul_of_pos_left hab hc

theorem inRange_map_mul {xs : List K} {q c : K} (hc : 0 < c) (h : InRange xs q) : InRange (xs.map (c * ·)) (c * q) := by
  obtain ⟨⟨x, hx, h1⟩, ⟨y, hy, h2⟩⟩ := h
  exact ⟨⟨c * x, List.mem_map_of_mem hx, mul_le_mul_of_nonneg_left h1 hc.le⟩,
    ⟨c * y, List.mem_map_of_mem hy, mul_le_mul_of_nonneg_left h2 hc.le⟩⟩

theorem inRange_or_out {xs : List K} (h : xs ≠ []) (q : K) : InRange xs q ∨ OutRange xs q := by
  by_cases h1 : ∃ x ∈ xs, x ≤ q
  · by_cases h2 : ∃ x ∈ xs, q ≤ x
    · exact Or.inl ⟨h1, h2⟩
    · refine Or.inr ⟨h, Or.inr ?_⟩
      intro x hx
      by_contra hc
      exact h2 ⟨x, hx, not_lt.1 hc⟩
  · refine Or.inr ⟨h, Or.inl ?_⟩
    intro x hx
    by_contra hc
    exact h1 ⟨x, hx, not_lt.1 hc⟩

/-- The linear interpolator meets the contract with one point as the minimum. -/
theorem linear_lawful : Lawful (linearInterp : Interp K) 1 where
  pos := by omega
  few := by
    intro x y q h
    have : x = [] := by cases x with
      | nil => rfl
      | cons a l => simp at h
    subst this
    unfold linearInterp
    split
    · rfl
    · rfl
  mismatch := by
    intro x y q h
    unfold linearInterp
    rw [if_pos h]
  total := by
    intro xs ys hl hm hx q hq
    exact ⟨_, (linearInterp_eq xs ys hl hx (by rintro rfl; simp at hm) q).1 hq⟩
  outside := by
    intro xs ys hl hm hx q hq
    exact (linearInterp_eq xs ys hl hx (by rintro rfl; simp at hm) q).2 hq
  atNaN := by
    intro xs ys hl hm hx
    unfold linearInterp
    rw [if_neg (by simpa using hl)]
    have hne : xs ≠ [] := by rintro rfl; simp at hm
    cases xs with
    | nil => exact absurd rfl hne
    | cons a l =>
      simp only [List.map_cons, List.head?_cons, List.getLast?_cons]
      simp
  node := by
    intro xs ys hl hm hx i h
    have hne : xs ≠ [] := by rintro rfl; simp at h
    rw [(linearInterp_eq xs ys hl hx hne _).1 ⟨⟨_, List.getElem_mem h, le_rfl⟩, ⟨_, List.getElem_mem h, le_rfl⟩⟩,
      linK_node xs ys hl hx i h]
  smul := by
    intro xs ys hl hm hx q v c h
    have hne : xs ≠ [] := by rintro rfl; simp at hm
    rcases inRange_or_out hne q with hq | hq
    · rw [(linearInterp_eq xs ys hl hx hne _).1 hq] at h
      injection h with h
      injection h with h
      rw [(linearInterp_eq xs (ys.map (c * ·)) (by simpa using hl) hx hne _).1 hq, linK_smul xs ys hl, h]
    · rw [(linearInterp_eq xs ys hl hx hne _).2 hq] at h; cases h
  xscale := by
    intro xs ys hl hm hx q v c hc h
    have hne : xs ≠ [] := by rintro rfl; simp at hm
    rcases inRange_or_out hne q with hq | hq
    · rw [(linearInterp_eq xs ys hl hx hne _).1 hq] at h
      injection h with h
      injection h with h
      rw [(linearInterp_eq (xs.map (c * ·)) ys (by simpa using hl) (incr_map_mul hx hc) (by simpa using hne) _).1
        (inRange_map_mul hc hq), linK_xscale xs ys hl c q hc hx, h]
    · rw [(linearInterp_eq xs ys hl hx hne _).2 hq] at h; cases h

end Verif

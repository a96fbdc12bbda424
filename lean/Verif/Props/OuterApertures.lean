import Verif.Props.Refinement
import Verif.Lemmas.SampledNear
import Verif.Lemmas.Linear
import Mathlib.Analysis.Convex.SpecificFunctions.Pow

/-!
# C187: how far apertures outside move a Petrosian radius found with linear interpolation
-/

set_option linter.unusedSectionVars false
set_option linter.unusedVariables false

namespace Verif.Props

open Verif F Spec

section
variable {K : Type} [Field K] [LinearOrder K] [IsStrictOrderedRing K]

/-- Linear interpolation of falling values falls. -/
theorem linK_strictAnti (l : List (K × K)) (hx : (l.map Prod.fst).Pairwise (· < ·)) (hy : (l.map Prod.snd).Pairwise (· > ·)) (q q' : K) (hq : q < q')
    (h0 : ∀ p ∈ l.head?, p.1 ≤ q) (h1 : ∀ p ∈ l.getLast?, q' ≤ p.1) (hne : l ≠ []) : linK l q' < linK l q := by
  induction l generalizing q with
  | nil => exact absurd rfl hne
  | cons a l ih =>
    obtain ⟨x0, y0⟩ := a
    cases l with
    | nil =>
      simp only [List.head?_cons, Option.mem_def, Option.some.injEq, forall_eq', List.getLast?_singleton] at h0 h1
      exact absurd hq (not_lt.2 (h1.trans h0))
    | cons b l =>
      obtain ⟨x1, y1⟩ := b
      simp only [List.map_cons] at hx hy
      have hx01 : x0 < x1 := (List.pairwise_cons.1 hx).1 x1 (by simp)
      have hy01 : y1 < y0 := (List.pairwise_cons.1 hy).1 y1 (by simp)
      have hxt := (List.pairwise_cons.1 hx).2
      have hyt := (List.pairwise_cons.1 hy).2
      rw [List.getLast?_cons_cons] at h1
      have hs : (y1 - y0) / (x1 - x0) < 0 := div_neg_of_neg_of_pos (by linarith) (by linarith)
      have hend : (y1 - y0) / (x1 - x0) * (x1 - x0) = y1 - y0 := div_mul_cancel₀ _ (by linarith : x1 - x0 ≠ 0)
      have hnode : linK ((x1, y1) :: l) x1 = y1 := by
        cases l with
        | nil => rfl
        | cons c l =>
          obtain ⟨x2, y2⟩ := c
          have : x1 ≤ x2 := ((List.pairwise_cons.1 hxt).1 x2 (by simp)).le
          simp [linK, this]
      have hseg : ∀ t, t ≤ x1 → linK ((x0, y0) :: (x1, y1) :: l) t = (y1 - y0) / (x1 - x0) * (t - x0) + y0 := fun t ht => by
        rw [linK, if_pos ht]
      have htail : ∀ t, x1 < t → linK ((x0, y0) :: (x1, y1) :: l) t = linK ((x1, y1) :: l) t := fun t ht => by
        rw [linK, if_neg (not_le.2 ht)]
      rcases le_or_gt q' x1 with h | h
      · rw [hseg _ h, hseg _ (hq.le.trans h)]
        nlinarith
      · rw [htail _ h]
        rcases le_or_gt q x1 with h' | h'
        · rw [hseg _ h']
          have := ih hxt hyt x1 h (by simp) h1 (by simp)
          rw [hnode] at this
          nlinarith
        · rw [htail _ h']
          exact ih hxt hyt q hq (by simpa using h'.le) h1 (by simp)

/-- Linear interpolation looks at the neighbouring nodes only. -/
theorem linK_append (l m : List (K × K)) (q : K) (h0 : ∀ p ∈ l.head?, p.1 ≤ q) (h1 : ∀ p ∈ l.getLast?, q ≤ p.1) (hne : l ≠ [])
    (hx : ((l ++ m).map Prod.fst).Pairwise (· < ·)) : linK (l ++ m) q = linK l q := by
  induction l with
  | nil => exact absurd rfl hne
  | cons a l ih =>
    obtain ⟨x0, y0⟩ := a
    cases l with
    | nil =>
      simp only [List.head?_cons, Option.mem_def, Option.some.injEq, forall_eq', List.getLast?_singleton] at h0 h1
      have : q = x0 := le_antisymm h1 h0
      subst this
      cases m with
      | nil => rfl
      | cons b m =>
        obtain ⟨x1, y1⟩ := b
        have : q ≤ x1 := ((List.pairwise_cons.1 hx).1 x1 (by simp)).le
        simp [linK, this]
    | cons b l =>
      obtain ⟨x1, y1⟩ := b
      simp only [List.cons_append, linK]
      by_cases h : q ≤ x1
      · rw [if_pos h, if_pos h]
      · rw [if_neg h, if_neg h]
        rw [List.getLast?_cons_cons] at h1
        exact ih (by simpa using (not_le.1 h).le) h1 (by simp) (List.pairwise_cons.1 hx).2

/-- The radius found in a falling profile is next to the crossing of the interpolated profile. -/
theorem radius_brackets (r0 : K) (R P : List K) (v : F K) (hl : R.length = P.length) (hR0 : R ≠ []) (hR : (0 :: R).Pairwise (· < ·))
    (hP : (1 :: P).Pairwise (· > ·)) (X Y eta : K) (hX : (0 :: R).getLast? = some X) (hY : (1 :: P).getLast? = some Y) (h1 : Y ≤ eta)
    (h2 : eta < 1) (num : Nat) :
    ∃ r x x', calculatePetrosianR (fun _ => linearInterp) ((r0 :: R).map fin) (v :: P.map fin) none (fin eta) (some "linear") num =
        .ok (fin r, nan) ∧ (r = x ∨ r = x') ∧ 0 ≤ x ∧ x' - x = X / (((max num (R.length + 1) : ℕ) : K) - 1) ∧ x' ≤ X ∧ x ≤ X ∧
      linK ((0 :: R).zip (1 :: P)) x' ≤ eta ∧ eta < linK ((0 :: R).zip (1 :: P)) x := by
  set n := max num (R.length + 1) with hn
  have hRl : 1 ≤ R.length := by cases R with | nil => exact absurd rfl hR0 | cons => simp
  have hn2 : 2 ≤ n := by omega
  set φ := linK ((0 :: R).zip (1 :: P)) with hφ
  have hzx : ((0 :: R).zip (1 :: P)).map Prod.fst = 0 :: R := List.map_fst_zip (by simp [hl])
  have hzy : ((0 :: R).zip (1 :: P)).map Prod.snd = 1 :: P := List.map_snd_zip (by simp [hl])
  have hXmem : X ∈ 0 :: R := List.mem_of_getLast? hX
  have hXle : ∀ x ∈ 0 :: R, x ≤ X := incr_le_last hR hX
  have hX0 : 0 < X := by
    cases R with
    | nil => exact absurd rfl hR0
    | cons a R => exact ((List.pairwise_cons.1 hR).1 a (by simp)).trans_le (hXle a (by simp))
  have h0le : ∀ x ∈ 0 :: R, 0 ≤ x := by
    intro x hx
    rcases List.mem_cons.1 hx with rfl | hx
    · exact le_rfl
    · exact ((List.pairwise_cons.1 hR).1 x hx).le
  have hlast : ((0 :: R).zip (1 :: P)).getLast? = some (X, Y) := by
    rw [List.getLast?_eq_getElem?] at hX hY ⊢
    rw [List.getElem?_zip_eq_some]
    simp only [List.length_zip, List.length_cons, hl, min_self] at hX hY ⊢
    exact ⟨hX, hY⟩
  have hanti : ∀ q q', 0 ≤ q → q < q' → q' ≤ X → φ q' < φ q := by
    intro q q' hq hqq hq'
    refine linK_strictAnti _ (by rw [hzx]; exact hR) (by rw [hzy]; exact hP) q q' hqq ?_ ?_ (by simp)
    · simpa using hq
    · rw [hlast]; simpa using hq'
  have hφ0 : φ 0 = 1 := by
    have := linK_node (0 :: R) (1 :: P) (by simp [hl]) hR 0 (by simp)
    simpa [hφ] using this
  have hφX : φ X = Y := by
    have h := linK_node (0 :: R) (1 :: P) (by simp [hl]) hR R.length (by simp)
    rw [List.getLast?_eq_getElem?] at hX hY
    simp only [List.length_cons, Nat.add_sub_cancel] at hX hY
    rw [← hl] at hY
    obtain ⟨_, e1⟩ := List.getElem?_eq_some_iff.1 hX
    obtain ⟨_, e2⟩ := List.getElem?_eq_some_iff.1 hY
    rw [e1, e2] at h
    exact h
  set g : Nat → K := gridPt 0 X n with hg
  have hgm : ∀ i, i < n → 0 ≤ g i ∧ g i ≤ X := fun i hi => gridPt_mem hX0.le n hn2 hi
  set xs := (List.range n).map g with hxs
  set ys := xs.map φ with hys
  have hxl : xs.length = n := by simp [hxs]
  have hyl : ys.length = n := by simp [hys, hxl]
  have hxg : ∀ i (h : i < xs.length), xs[i] = g i := by intro i h; simp [hxs]
  have hyg : ∀ i (h : i < ys.length), ys[i] = φ (g i) := by intro i h; simp [hys, hxs]
  have hS : Sampled (fun _ => linearInterp) (some "linear") num (0 :: R) ((1 :: P).map fin) xs (ys.map fin) := by
    refine ⟨0, X, ⟨by simp, h0le⟩, ⟨hXmem, hXle⟩, by simp [hxs, hg, hn], ?_⟩
    rw [hys, List.map_map, List.forall₂_map_right_iff, List.forall₂_same]
    intro x hx
    obtain ⟨i, hi, rfl⟩ := List.mem_map.1 hx
    have hi' := hgm i (List.mem_range.1 hi)
    exact (linearInterp_eq (0 :: R) (1 :: P) (by simp [hl]) hR (by simp) (g i)).1 ⟨⟨0, by simp, hi'.1⟩, ⟨X, hXmem, hi'.2⟩⟩
  have hex : ∃ k, k < n ∧ φ (g k) ≤ eta := ⟨n - 1, by omega, by rw [hg, gridPt_last 0 X n hn2, hφX]; exact h1⟩
  classical
  obtain ⟨hkn, hk⟩ := Nat.find_spec hex
  have hmin : ∀ j, j < Nat.find hex → eta < φ (g j) := fun j hj => by
    have := Nat.find_min hex hj
    push Not at this
    exact this (by omega)
  set k := Nat.find hex with hkd
  have hk0 : 0 < k := by
    rcases Nat.eq_zero_or_pos k with h | h
    · rw [h, hg, gridPt_zero, hφ0] at hk
      exact absurd h2 (not_lt.2 hk)
    · exact h
  obtain ⟨r, hr⟩ : ∃ r, radiusAt (fin eta) (xs.map fin, ys.map fin) false = .ok r := by
    unfold radiusAt
    obtain ⟨o, ho⟩ := closestValueIndex_total (fin eta) (ys.map fin) false
    simp only [ho]
    cases o with
    | none => exact ⟨nan, rfl⟩
    | some i =>
      have hi := closestValueIndex_lt ho
      simp only [List.length_map] at hi
      refine ⟨fin (xs[i]'(by omega)), ?_⟩
      change getItem (xs.map fin) i = _
      simp [getItem, show i < xs.length by omega]
  have hres := petrosianR_of_sampled (ip := fun _ => linearInterp) (R := r0 :: R) (P := v :: P.map fin) (by simp) (kind := some "linear") (num := num)
    (by simp; omega) (xs := xs) (ys := ys.map fin) (by simpa using hS) hr
  have hres' : calculatePetrosianR (fun _ => linearInterp) ((r0 :: R).map fin) ((1 :: P).map fin) none (fin eta) (some "linear") num = .ok (r, nan) :=
    hres
  have hb := C10_brackets_crossing (fun _ => linearInterp) (r0 :: R) (1 :: P) none eta (some "linear") num (by simp; omega) hres' (xs := xs) (ys := ys)
    hS k (by omega) (by omega) (by rw [hyg]; exact hk)
    (fun i j hij hjk => by
      rw [hyg, hyg]
      exact hanti _ _ (hgm i (by omega)).1 (gridPt_strictMono hX0 n hn2 hij) (hgm j (by omega)).2)
    (fun j hj => by rw [hyg]; exact hmin j hj)
  have hstep : g k - g (k - 1) = X / ((n : K) - 1) := by
    have : ((k - 1 : ℕ) : K) = (k : K) - 1 := by rw [Nat.cast_sub hk0]; simp
    simp only [hg, gridPt, this, sub_zero, zero_add]
    ring
  rcases hb with hb | ⟨-, hb⟩
  · rw [hxg] at hb
    subst hb
    exact ⟨_, g (k - 1), g k, hres, Or.inr rfl, (hgm _ (by omega)).1, hstep, (hgm _ hkn).2, (hgm _ (by omega)).2, hk, hmin _ (by omega)⟩
  · rw [hxg] at hb
    subst hb
    exact ⟨_, g (k - 1), g k, hres, Or.inl rfl, (hgm _ (by omega)).1, hstep, (hgm _ hkn).2, (hgm _ (by omega)).2, hk, hmin _ (by omega)⟩

/-- **C187, resampled radius.** With linear interpolation of a falling profile, further apertures move the Petrosian radius by at most the sum of the
two sampling steps. -/
theorem C187_radius_partial (r0 : K) (R P R' P' : List K) (v : F K) (hl : R.length = P.length) (hl' : R'.length = P'.length) (hR0 : R ≠ [])
    (hR : (0 :: (R ++ R')).Pairwise (· < ·)) (hP : (1 :: (P ++ P')).Pairwise (· > ·)) (X Y X' eta : K) (hX : R.getLast? = some X)
    (hY : P.getLast? = some Y) (hX' : (R ++ R').getLast? = some X') (h1 : Y ≤ eta) (h2 : eta < 1) (num : Nat) :
    ∃ r r', calculatePetrosianR (fun _ => linearInterp) ((r0 :: R).map fin) (v :: P.map fin) none (fin eta) (some "linear") num =
        .ok (fin r, nan) ∧
      calculatePetrosianR (fun _ => linearInterp) ((r0 :: (R ++ R')).map fin) (v :: (P ++ P').map fin) none (fin eta) (some "linear") num =
        .ok (fin r', nan) ∧
      |r' - r| ≤ X / (((max num (R.length + 1) : ℕ) : K) - 1) + X' / (((max num (R.length + R'.length + 1) : ℕ) : K) - 1) := by
  have hne : ∀ (a : K) (l : List K) (b : K), l.getLast? = some b → (a :: l).getLast? = some b := by
    intro a l b h
    cases l with
    | nil => simp at h
    | cons c l => rw [List.getLast?_cons_cons]; exact h
  have hPne : P ++ P' ≠ [] := by
    intro h
    rw [(List.append_eq_nil_iff.1 h).1] at hY
    simp at hY
  obtain ⟨Y', hY'⟩ : ∃ Y', (P ++ P').getLast? = some Y' := ⟨_, List.getLast?_eq_some_getLast hPne⟩
  have hYY : Y' ≤ eta := by
    refine le_trans ?_ h1
    have hmem : Y ∈ P := List.mem_of_getLast? hY
    rw [List.getLast?_append] at hY'
    cases hP' : P'.getLast? with
    | none => rw [hP', hY] at hY'; simp at hY'; exact hY'.ge
    | some z =>
      rw [hP'] at hY'
      simp at hY'
      subst hY'
      exact ((List.pairwise_append.1 (List.pairwise_cons.1 hP).2).2.2 Y hmem z (List.mem_of_getLast? hP')).le
  obtain ⟨r, x, y, e1, e2, e3, e4, e5, e6, e7, e8⟩ := radius_brackets r0 R P v hl hR0
    (hR.sublist (List.Sublist.cons_cons _ (List.sublist_append_left _ _))) (hP.sublist (List.Sublist.cons_cons _ (List.sublist_append_left _ _)))
    X Y eta (hne _ _ _ hX) (hne _ _ _ hY) h1 h2 num
  obtain ⟨r', x', y', f1, f2, f3, f4, f5, f6, f7, f8⟩ := radius_brackets r0 (R ++ R') (P ++ P') v (by simp [hl, hl']) (by simp [hR0]) hR hP
    X' Y' eta (hne _ _ _ hX') (hne _ _ _ hY') hYY h2 num
  refine ⟨r, r', e1, f1, ?_⟩
  have hz : (0 :: (R ++ R')).zip (1 :: (P ++ P')) = (0 :: R).zip (1 :: P) ++ R'.zip P' := by
    rw [← List.cons_append, ← List.cons_append, List.zip_append (by simp [hl])]
  have hlast : ((0 :: R).zip (1 :: P)).getLast? = some (X, Y) := by
    have a := hne 0 _ _ hX
    have b := hne 1 _ _ hY
    rw [List.getLast?_eq_getElem?] at a b ⊢
    rw [List.getElem?_zip_eq_some]
    simp only [List.length_zip, List.length_cons, hl, min_self] at a b ⊢
    exact ⟨a, b⟩
  have hzx : ((0 :: (R ++ R')).zip (1 :: (P ++ P'))).map Prod.fst = 0 :: (R ++ R') := List.map_fst_zip (by simp [hl, hl'])
  have hzy : ((0 :: (R ++ R')).zip (1 :: (P ++ P'))).map Prod.snd = 1 :: (P ++ P') := List.map_snd_zip (by simp [hl, hl'])
  have hloc : ∀ q, 0 ≤ q → q ≤ X → linK ((0 :: (R ++ R')).zip (1 :: (P ++ P'))) q = linK ((0 :: R).zip (1 :: P)) q := by
    intro q h0 hq
    rw [hz]
    refine linK_append _ _ q (by simpa using h0) (by rw [hlast]; simpa using hq) (by simp) ?_
    rw [← hz, hzx]
    exact hR
  have hlast' : ((0 :: (R ++ R')).zip (1 :: (P ++ P'))).getLast? = some (X', Y') := by
    have a := hne 0 _ _ hX'
    have b := hne 1 _ _ hY'
    rw [List.getLast?_eq_getElem?] at a b ⊢
    rw [List.getElem?_zip_eq_some]
    simp only [List.length_zip, List.length_cons, List.length_append, hl, hl', min_self] at a b ⊢
    exact ⟨a, b⟩
  have hanti : ∀ q q', 0 ≤ q → q < q' → q' ≤ X' → linK ((0 :: (R ++ R')).zip (1 :: (P ++ P'))) q' < linK ((0 :: (R ++ R')).zip (1 :: (P ++ P'))) q := by
    intro q q' hq hqq hq'
    refine linK_strictAnti _ (by rw [hzx]; exact hR) (by rw [hzy]; exact hP) q q' hqq ?_ ?_ (by simp)
    · simpa using hq
    · rw [hlast']; simpa using hq'
  have hXX : X ≤ X' := by
    have hmem : X ∈ R ++ R' := List.mem_append_left _ (List.mem_of_getLast? hX)
    exact incr_le_last (List.pairwise_cons.1 hR).2 hX' X hmem
  have hpos : ∀ (Z : K) (m : Nat), 0 ≤ Z → 1 ≤ m → 0 ≤ Z / ((m : K) - 1) := by
    intro Z m hZ hm
    have : (1 : K) ≤ m := by exact_mod_cast hm
    exact div_nonneg hZ (by linarith)
  have hX0 : 0 ≤ X := e3.trans e6
  have hs : 0 ≤ y - x := by rw [e4]; exact hpos _ _ hX0 (by omega)
  have hs' : 0 ≤ y' - x' := by rw [f4]; exact hpos _ _ (hX0.trans hXX) (by omega)
  have hyX' : y ≤ X' := e5.trans hXX
  rw [← hloc y (by linarith) e5] at e7
  rw [← hloc x e3 e6] at e8
  -- the two brackets overlap
  have k1 : x < y' := by
    by_contra h
    push Not at h
    rcases h.lt_or_eq with h | h
    · have := hanti _ _ (by linarith) h (e6.trans hXX)
      linarith
    · rw [h] at f7; linarith
  have k2 : x' < y := by
    by_contra h
    push Not at h
    rcases h.lt_or_eq with h | h
    · have := hanti _ _ (by linarith) h f6
      linarith
    · rw [h] at e7; linarith
  have f4' : y' - x' = X' / (((max num (R.length + R'.length + 1) : ℕ) : K) - 1) := by rw [f4]; simp [List.length_append]
  rw [← e4, ← f4', abs_le]
  rcases e2 with rfl | rfl <;> rcases f2 with rfl | rfl <;> constructor <;> linarith

end

/-! ### Finer radii -/

/-- **C187, finer radii.** If the surface brightness falls outwards (the flux is a concave function of the area), more apertures never raise the entry of
an aperture that is in both lists. -/
theorem C187_finer (G : ℝ → ℝ) (hG : ConcaveOn ℝ (Set.Ici 0) G) (A A' : List ℝ) (hsub : A.Sublist A') (hA : A'.Pairwise (· < ·))
    (h0 : ∀ a ∈ A', 0 < a) (hpos : ∀ a ∈ A', 0 < G a) (h3 : 3 ≤ A.length) :
    ∃ p p', calculatePetrosian (A.map fin) ((A.map G).map fin) = .ok (p, none) ∧ calculatePetrosian (A'.map fin) ((A'.map G).map fin) = .ok (p', none) ∧
      ∀ i j (hi : i + 1 < A.length) (hj : j + 1 < A'.length), A[i + 1] = A'[j + 1] →
        ∃ v v', p[i + 1]? = some (fin v) ∧ p'[j + 1]? = some (fin v') ∧ v' ≤ v := by
  obtain ⟨p, h1, -, -, h2⟩ := profile_entries A (A.map G) (by simp) h3 (hA.sublist hsub)
  obtain ⟨p', h1', -, -, h2'⟩ := profile_entries A' (A'.map G) (by simp) (h3.trans hsub.length_le) hA
  refine ⟨p, p', h1, h1', ?_⟩
  intro i j hi hj hij
  have g : ∀ (L : List ℝ) (k : ℕ) (hk : k < L.length), (L.map G)[k]? = some (G L[k]) := by
    intro L k hk
    rw [List.getElem?_map, List.getElem?_eq_getElem hk]
    rfl
  have e := h2 i A[i] (G A[i]) A[i + 1] (G A[i + 1]) (List.getElem?_eq_getElem _) (g A i _) (List.getElem?_eq_getElem _) (g A (i + 1) hi)
  have e' := h2' j A'[j] (G A'[j]) A'[j + 1] (G A'[j + 1]) (List.getElem?_eq_getElem _) (g A' j _) (List.getElem?_eq_getElem _)
    (g A' (j + 1) hj)
  have hx := hsub.subset (List.getElem_mem (show i < A.length by omega))
  have hxlt : A[i] < A[i + 1] := List.pairwise_iff_getElem.1 (hA.sublist hsub) i (i + 1) (by omega) hi (by omega)
  have hylt : A'[j] < A'[j + 1] := List.pairwise_iff_getElem.1 hA j (j + 1) (by omega) hj (by omega)
  have hxy : A[i] ≤ A'[j] := by
    obtain ⟨m, hm, hmx⟩ := List.getElem_of_mem hx
    have hmj : m ≤ j := by
      by_contra hc
      have : A'[j + 1] ≤ A'[m] := Incr.le_getElem hA (by omega) hm
      rw [hmx, ← hij] at this
      exact absurd hxlt (not_lt.2 this)
    rw [← hmx]
    exact Incr.le_getElem hA hmj (by omega)
  have hz0 := h0 _ (List.getElem_mem hj)
  have hzG := hpos _ (List.getElem_mem hj)
  have hx0 := h0 _ hx
  rw [hij] at e hxlt
  generalize A'[j + 1] = z at *
  generalize A'[j] = y at *
  generalize A[i] = x at *
  have hr : ∀ x, x < z → ratio x (G x) z (G z) = fin ((G z - G x) / (z - x) / (G z / z)) := by
    intro x hx
    have n1 : z ≠ 0 := hz0.ne'
    have n2 : G z / z ≠ 0 := (div_pos hzG hz0).ne'
    have n3 : z - x ≠ 0 := (sub_pos.2 hx).ne'
    simp [ratio, n1, n2, n3]
  rw [hr x hxlt] at e
  rw [hr y hylt] at e'
  refine ⟨_, _, e, e', div_le_div_of_nonneg_right ?_ (div_pos hzG hz0).le⟩
  rw [div_le_div_iff₀ (sub_pos.2 hylt) (sub_pos.2 hxlt)]
  have hzx : 0 < z - x := sub_pos.2 hxlt
  have ha : 0 ≤ (z - y) / (z - x) := div_nonneg (by linarith) hzx.le
  have hb : 0 ≤ (y - x) / (z - x) := div_nonneg (by linarith) hzx.le
  have hc := hG.2 (Set.mem_Ici.2 hx0.le) (Set.mem_Ici.2 hz0.le) ha hb (by rw [← add_div]; exact (div_eq_one_iff_eq hzx.ne').2 (by ring))
  have hcomb : ((z - y) / (z - x)) • x + ((y - x) / (z - x)) • z = y := by
    simp only [smul_eq_mul]
    field_simp
    ring
  rw [hcomb] at hc
  simp only [smul_eq_mul] at hc
  rw [div_mul_eq_mul_div, div_mul_eq_mul_div, ← add_div, div_le_iff₀ hzx] at hc
  nlinarith

/-- A source with flux `√a` in the area `a`: areas 1, 2, 4 and 1, 2, 3, 4. -/
example : ∃ p p', calculatePetrosian (([1, 2, 4] : List ℝ).map fin) ((([1, 2, 4] : List ℝ).map Real.sqrt).map fin) = .ok (p, none) ∧
    calculatePetrosian (([1, 2, 3, 4] : List ℝ).map fin) ((([1, 2, 3, 4] : List ℝ).map Real.sqrt).map fin) = .ok (p', none) ∧
    ∃ v v', p[2]? = some (fin v) ∧ p'[3]? = some (fin v') ∧ v' ≤ v := by
  obtain ⟨p, p', h1, h2, h⟩ := C187_finer Real.sqrt Real.strictConcaveOn_sqrt.concaveOn [1, 2, 4] [1, 2, 3, 4]
    (List.Sublist.cons_cons _ (List.Sublist.cons_cons _ (List.sublist_cons_self _ _))) (by norm_num) (by norm_num)
    (by intro a ha; exact Real.sqrt_pos.2 (by simp at ha; rcases ha with rfl | rfl | rfl | rfl <;> norm_num)) (by simp)
  exact ⟨p, p', h1, h2, h 1 2 (by simp) (by simp) rfl⟩

/-- Three and four apertures, default number of samples. -/
example : ∃ r r', calculatePetrosianR (fun _ => linearInterp) (([1, 2, 3] : List ℚ).map fin) (nan :: ([1 / 2, 0] : List ℚ).map fin) none (fin (1 / 5))
      (some "linear") 5000 = .ok (fin r, nan) ∧
    calculatePetrosianR (fun _ => linearInterp) (([1, 2, 3, 4] : List ℚ).map fin) (nan :: ([1 / 2, 0, -1 / 10] : List ℚ).map fin) none (fin (1 / 5))
      (some "linear") 5000 = .ok (fin r', nan) ∧ |r' - r| ≤ 7 / 4999 := by
  obtain ⟨r, r', h1, h2, h3⟩ := C187_radius_partial (1 : ℚ) [2, 3] [1 / 2, 0] [4] [-1 / 10] nan rfl rfl (by simp) (by norm_num) (by norm_num) 3 0 4 (1 / 5)
    rfl rfl rfl (by norm_num) (by norm_num) 5000
  refine ⟨r, r', h1, h2, h3.trans ?_⟩
  norm_num

end Verif.Props

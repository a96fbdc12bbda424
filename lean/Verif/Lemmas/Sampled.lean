import Verif.Lemmas.Linear
import Verif.Lemmas.Argmin
import Verif.Model.Petrosian

/-!
# `get_interpolated_values` returns the specified samples; the radius search
-/

set_option linter.unusedSectionVars false

namespace Verif

open F Spec

variable {K : Type} [Field K] [LinearOrder K] [IsStrictOrderedRing K]

theorem getInterpolatedValues_sampled (ip : InterpFam K) (kind : Option String) (num : Nat) (R : List K) (P : List (F K))
    (h2 : 2 ≤ R.length) (r : List (F K) × List (F K)) :
    getInterpolatedValues ip (R.map fin) P num kind = .ok r ↔
      ∃ xs ys, r = (xs.map fin, ys) ∧ Sampled ip kind num R P xs ys := by
  cases kind with
  | none =>
    simp only [getInterpolatedValues, Sampled]
    constructor
    · intro h; injection h with h; exact ⟨R, P, h.symm, rfl, rfl⟩
    · rintro ⟨xs, ys, h, rfl, rfl⟩; rw [h]
  | some k =>
    have hne : R ≠ [] := by rintro rfl; simp at h2
    obtain ⟨lo, h1, hmin, h1'⟩ := pyMin_fin hne
    obtain ⟨hi, h3, hmax, h3'⟩ := pyMax_fin hne
    have hn : (if (R.map (fin : K → F K)).length > num then (R.map (fin : K → F K)).length else num) = max num R.length := by
      simp only [List.length_map]; split <;> omega
    have hn2 : 2 ≤ max num R.length := by omega
    have hgrid : ((List.range (max num R.length)).map fun i => (fin (gridPt lo hi (max num R.length) i) : F K)) =
        ((List.range (max num R.length)).map (gridPt lo hi (max num R.length))).map fin := by
      rw [List.map_map]; rfl
    simp only [getInterpolatedValues, hmin, hmax, Except.bind_ok, hn, npLinspace_fin lo hi _ hn2, bind_eq_ok, Sampled]
    constructor
    · rintro ⟨ys, hys, h⟩
      injection h with h
      refine ⟨_, ys, ?_, lo, hi, ⟨h1, h1'⟩, ⟨h3, h3'⟩, rfl, ?_⟩
      · rw [← h, hgrid]
      · rw [hgrid, mapM_eq_ok, List.forall₂_map_left_iff] at hys
        exact hys
    · rintro ⟨xs, ys, h, lo', hi', ⟨g1, g1'⟩, ⟨g3, g3'⟩, hxs, hys⟩
      have e1 : lo' = lo := le_antisymm (g1' _ h1) (h1' _ g1)
      have e2 : hi' = hi := le_antisymm (h3' _ g3) (g3' _ h3)
      subst e1 e2
      refine ⟨ys, ?_, ?_⟩
      · rw [hgrid, mapM_eq_ok, List.forall₂_map_left_iff, ← hxs]; exact hys
      · rw [h, hgrid, ← hxs]

theorem Sampled.mem_range {ip : InterpFam K} {kind : Option String} {num : Nat} {R : List K} {P : List (F K)}
    {xs : List K} {ys : List (F K)} (h : Sampled ip kind num R P xs ys) (h2 : 2 ≤ R.length) {x : K} (hx : x ∈ xs) :
    InRange R x := by
  cases kind with
  | none => obtain ⟨rfl, rfl⟩ := h; exact ⟨⟨x, hx, le_rfl⟩, ⟨x, hx, le_rfl⟩⟩
  | some k =>
    obtain ⟨lo, hi, ⟨h1, h1'⟩, ⟨h3, h3'⟩, hxs, _⟩ := h
    subst hxs
    obtain ⟨i, hi', rfl⟩ := List.mem_map.1 hx
    obtain ⟨g1, g2⟩ := gridPt_mem (h1' _ h3) (max num R.length) (by omega) (List.mem_range.1 hi')
    exact ⟨⟨lo, h1, g1⟩, ⟨hi, h3, g2⟩⟩

/-- Sampled abscissae are sorted. -/
theorem Sampled.sorted {ip : InterpFam K} {kind : Option String} {num : Nat} {R : List K} {P : List (F K)}
    {xs : List K} {ys : List (F K)} (h : Sampled ip kind num R P xs ys) (h2 : 2 ≤ R.length) (hR : Incr R) :
    Incr xs := by
  cases kind with
  | none => obtain ⟨rfl, rfl⟩ := h; exact hR
  | some k =>
    obtain ⟨lo, hi, ⟨h1, h1'⟩, ⟨h3, h3'⟩, hxs, _⟩ := h
    subst hxs
    have hlt : lo < hi := by
      have h01 : R[0] < R[1] := List.pairwise_iff_getElem.1 hR 0 1 (by omega) (by omega) (by omega)
      exact (h1' _ (List.getElem_mem _)).trans_lt (h01.trans_le (h3' _ (List.getElem_mem _)))
    unfold Incr
    rw [List.pairwise_map]
    exact (List.pairwise_lt_range).imp fun hab => gridPt_strictMono hlt _ (by omega) hab

theorem Incr.le_getElem {xs : List K} (h : Incr xs) {i j : Nat} (hij : i ≤ j) (hj : j < xs.length) :
    xs[i] ≤ xs[j] := by
  rcases Nat.lt_or_ge i j with hlt | hge
  · exact (List.pairwise_iff_getElem.1 h i j (by omega) hj hlt).le
  · have : i = j := by omega
    subst this; exact le_rfl

/-- The radius search on samples. -/
theorem radiusAt_cases {v : F K} {xs : List K} {ys : List (F K)} {g : Bool} {r : F K}
    (h : radiusAt v (xs.map fin, ys) g = .ok r) :
    (r = nan ∧ closestValueIndex v ys g = .ok none) ∨
      ∃ i, closestValueIndex v ys g = .ok (some i) ∧ ∃ h : i < xs.length, r = fin xs[i] := by
  unfold radiusAt at h
  obtain ⟨o, ho⟩ := closestValueIndex_total v ys g
  simp only [ho, Except.bind_ok] at h
  cases o with
  | none => injection h with h; exact Or.inl ⟨h.symm, ho⟩
  | some i =>
    right
    refine ⟨i, ho, ?_⟩
    simp only [getItem, List.getElem?_map] at h
    by_cases hi : i < xs.length
    · rw [List.getElem?_eq_getElem hi] at h
      injection h with h
      exact ⟨hi, h.symm⟩
    · rw [List.getElem?_eq_none (by omega)] at h
      cases h

theorem radiusAt_some {v : F K} {xs : List K} {ys : List (F K)} {g : Bool} {i : Nat}
    (h : closestValueIndex v ys g = .ok (some i)) (hi : i < xs.length) :
    radiusAt v (xs.map fin, ys) g = .ok (fin xs[i]) := by
  unfold radiusAt
  simp only [h, Except.bind_ok, getItem, List.getElem?_map, List.getElem?_eq_getElem hi, Option.map_some]

theorem radiusAt_none {v : F K} {xs ys : List (F K)} {g : Bool}
    (h : closestValueIndex v ys g = .ok none) : radiusAt v (xs, ys) g = .ok nan := by
  unfold radiusAt
  simp only [h, Except.bind_ok]

/-- First component of `calculate_petrosian_r`. -/
theorem calculatePetrosianR_fst {ip : InterpFam K} {R : List K} {P : List (F K)} {err : Option (List (F K))}
    {eta : F K} {kind : Option String} {num : Nat} {r e : F K} (h2 : 2 ≤ R.length)
    (h : calculatePetrosianR ip (R.map fin) P err eta kind num = .ok (r, e)) :
    P ≠ [] ∧ ∃ xs ys, Sampled ip kind num (0 :: R.tail) (fin 1 :: P.tail) xs ys ∧
      radiusAt eta (xs.map fin, ys) false = .ok r := by
  cases R with
  | nil => simp at h2
  | cons r0 R =>
    cases P with
    | nil => simp [calculatePetrosianR, setItem0, Except.bind_ok, Except.bind_err] at h
    | cons p0 P =>
      refine ⟨by simp, ?_⟩
      unfold calculatePetrosianR at h
      simp only [List.map_cons, setItem0, Except.bind_ok, bind_eq_ok] at h
      obtain ⟨s, hs, rp, hrp, h⟩ := h
      have : (fin 0 :: R.map fin : List (F K)) = (0 :: R).map fin := by simp
      rw [this, getInterpolatedValues_sampled ip kind num (0 :: R) _ (by simpa using h2)] at hs
      obtain ⟨xs, ys, rfl, hS⟩ := hs
      refine ⟨xs, ys, hS, ?_⟩
      have : rp = r := by
        cases err with
        | none => simp only at h; injection h with h; injection h
        | some err =>
          simp only at h
          by_cases hn : rp.isNaN = true
          · rw [if_pos hn] at h; injection h with h; injection h
          · rw [if_neg hn] at h
            simp only [bind_eq_ok] at h
            obtain ⟨_, _, _, _, _, _, _, _, _, _, _, _, _, _, h⟩ := h
            injection h with h; injection h
      rw [← this]; exact hrp

end Verif

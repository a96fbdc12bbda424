import Verif.Model.Correction
import Verif.Spec.Grid
import Verif.Base.Sqrt
import Verif.Lemmas.PetrosianObj

/-!
# Lemmas on the correction grid
-/

set_option linter.unusedSectionVars false
set_option linter.unusedVariables false
set_option linter.unusedSimpArgs false

namespace Verif

open F Spec

section
variable {K : Type} [Field K] [LinearOrder K] [IsStrictOrderedRing K]

theorem npSum_fin (l : List K) : npSum (l.map fin) = fin l.sum := by
  induction l with
  | nil => rfl
  | cons a l ih =>
    show fin a + npSum (l.map fin) = _
    rw [ih, fin_add, List.sum_cons]

theorem npMean_fin (l : List K) (h : l ≠ []) : npMean (l.map fin) = fin (l.sum / l.length) := by
  unfold npMean
  rw [npSum_fin, List.length_map, fin_div_of_ne]
  have := List.length_pos_iff.2 h
  positivity

theorem npMin_fin {l : List K} (h : l ≠ []) : ∃ lo ∈ l, npMin (l.map fin) = .ok (fin lo) ∧ ∀ x ∈ l, lo ≤ x := by
  obtain ⟨lo, h1, h2, h3⟩ := pyMin_fin h
  refine ⟨lo, h1, ?_, h3⟩
  unfold npMin
  rw [if_neg (by simp), h2]

theorem npMax_fin {l : List K} (h : l ≠ []) : ∃ hi ∈ l, npMax (l.map fin) = .ok (fin hi) ∧ ∀ x ∈ l, x ≤ hi := by
  obtain ⟨hi, h1, h2, h3⟩ := pyMax_fin h
  refine ⟨hi, h1, ?_, h3⟩
  unfold npMax
  rw [if_neg (by simp), h2]

open Classical in
theorem assertIn_fin {l : List K} (h : l ≠ []) (v : F K) :
    Correction.assertIn (l.map fin) v = if InsideCol l v then .ok () else .error .assertionError := by
  obtain ⟨lo, l1, l2, l3⟩ := npMin_fin h
  obtain ⟨hi, h1, h2, h3⟩ := npMax_fin h
  unfold Correction.assertIn
  simp only [l2, h2, Except.bind_ok]
  cases v with
  | nan =>
    rw [if_neg (by simp), if_neg]
    rintro ⟨q, hq, _⟩; cases hq
  | ninf =>
    rw [if_neg (by simp [F.le]), if_neg]
    rintro ⟨q, hq, _⟩; cases hq
  | pinf =>
    rw [if_pos (by simp [F.le]), if_neg (by simp [F.le]), if_neg]
    rintro ⟨q, hq, _⟩; cases hq
  | fin q =>
    by_cases hc : lo ≤ q
    · rw [if_pos (by simpa using hc)]
      by_cases hc' : q ≤ hi
      · rw [if_pos (by simpa using hc'), if_pos ⟨q, rfl, ⟨lo, l1, hc⟩, ⟨hi, h1, hc'⟩⟩]
      · rw [if_neg (by simpa using hc'), if_neg]
        rintro ⟨q', hq, _, ⟨b, hb, hb'⟩⟩
        injection hq with hq; subst hq
        exact hc' (hb'.trans (h3 b hb))
    · rw [if_neg (by simpa using hc), if_neg]
      rintro ⟨q', hq, ⟨b, hb, hb'⟩, _⟩
      injection hq with hq; subst hq
      exact hc ((l3 b hb).trans hb')

/-- numpy's argmin of an array that starts with NaN. -/
theorem npArgmin_nan (l : List (F K)) : npArgmin (nan :: l) = .ok 0 := by
  cases l with
  | nil => rfl
  | cons a l => simp [npArgmin, argminAux]

end

/-- Real standard deviation. -/
theorem npStd_fin (l : List ℝ) (h : l ≠ []) : npStd (l.map fin) = fin (Real.sqrt (variance l)) := by
  unfold npStd
  simp only [npMean_fin l h, List.map_map]
  have : (l.map ((fun x => F.sq (x - fin (l.sum / l.length))) ∘ fin)) = (l.map fun x => (x - mean l) ^ 2).map fin := by
    rw [List.map_map]
    apply List.map_congr_left
    intro x _
    simp only [Function.comp, F.sq, fin_sub, fin_mul, mean, pow_two]
  rw [this, npMean_fin _ (by simpa using h)]
  show (if _ < _ then _ else _) = _
  have hv : (l.map fun x => (x - mean l) ^ 2).sum / ((l.map fun x => (x - mean l) ^ 2).length : ℝ) = variance l := by
    rw [List.length_map]; rfl
  rw [hv]
  have : 0 ≤ variance l := by
    unfold variance
    apply div_nonneg
    · apply List.sum_nonneg
      intro x hx
      obtain ⟨y, _, rfl⟩ := List.mem_map.1 hx
      positivity
    · positivity
  rw [if_neg (not_lt.2 this)]
  rfl

theorem dr_fin (c : Correction ℝ) (X Y Z : List ℝ) (hx : c.x = X.map fin) (hy : c.y = Y.map fin) (hz : c.z = Z.map fin)
    (hxy : Y.length = X.length) (hxz : Z.length = X.length) (hne : X ≠ []) (vx : 0 < variance X) (vy : 0 < variance Y)
    (vz : 0 < variance Z) (x0 y0 z0 : ℝ) :
    c.dr (fin x0) (fin y0) (fin z0) =
      (List.range X.length).map fun i => fin (100 * Real.sqrt (stdDist2 X Y Z x0 y0 z0 i)) := by
  have hp : 0 < X.length := List.length_pos_iff.2 hne
  have hneY : Y ≠ [] := by rintro rfl; simp at hxy; omega
  have hneZ : Z ≠ [] := by rintro rfl; simp at hxz; omega
  unfold Correction.dr
  simp only [hx, hy, hz, npStd_fin _ hne, npStd_fin _ hneY, npStd_fin _ hneZ]
  apply List.ext_getElem
  · simp [hxy, hxz]
  · intro i h1 h2
    simp only [List.length_map, List.length_range] at h2
    have hsx := Real.sqrt_pos.2 vx
    have hsy := Real.sqrt_pos.2 vy
    have hsz := Real.sqrt_pos.2 vz
    simp only [List.getElem_zipWith, List.getElem_map, List.getElem_zip, List.getElem_range, fin_sub, fin_mul,
      fin_div_of_ne _ hsx.ne', fin_div_of_ne _ hsy.ne', fin_div_of_ne _ hsz.ne', F.sq, fin_add]
    have key : 100 * (X[i] - x0) / √(variance X) * (100 * (X[i] - x0) / √(variance X)) +
          100 * (Y[i] - y0) / √(variance Y) * (100 * (Y[i] - y0) / √(variance Y)) +
        100 * (Z[i] - z0) / √(variance Z) * (100 * (Z[i] - z0) / √(variance Z)) =
        100 ^ 2 * stdDist2 X Y Z x0 y0 z0 i := by
      unfold stdDist2
      have e : ∀ (l : List ℝ) (h : i < l.length), l.getD i 0 = l[i] := by
        intro l h; simp [List.getD, List.getElem?_eq_getElem h]
      rw [e X h2, e Y (by omega), e Z (by omega)]
      have t : ∀ a v : ℝ, 0 < v → 100 * a / √v * (100 * a / √v) = 100 ^ 2 * (a ^ 2 / v) := by
        intro a v hv
        rw [div_mul_div_comm, Real.mul_self_sqrt hv.le]; ring
      rw [t _ _ vx, t _ _ vy, t _ _ vz]; ring
    rw [key]
    have hnn : 0 ≤ stdDist2 X Y Z x0 y0 z0 i := by
      unfold stdDist2
      positivity
    show (if _ < _ then _ else _) = _
    rw [if_neg (not_lt.2 (by positivity))]
    show fin (Real.sqrt _) = _
    rw [Real.sqrt_mul (by positivity), Real.sqrt_sq (by norm_num)]

theorem nearest_argmin (c : Correction ℝ) (X Y Z : List ℝ) (hx : c.x = X.map fin) (hy : c.y = Y.map fin) (hz : c.z = Z.map fin)
    (hxy : Y.length = X.length) (hxz : Z.length = X.length) (hne : X ≠ []) (vx : 0 < variance X) (vy : 0 < variance Y)
    (vz : 0 < variance Z) (x0 y0 z0 : ℝ) :
    ∃ i, npArgmin (c.dr (fin x0) (fin y0) (fin z0)) = .ok i ∧ Nearest X Y Z x0 y0 z0 i := by
  have hp : 0 < X.length := List.length_pos_iff.2 hne
  rw [dr_fin c X Y Z hx hy hz hxy hxz hne vx vy vz]
  obtain ⟨i, h1, h2, h3, h4⟩ := npArgmin_spec (K := ℝ)
    (L := (List.range X.length).map fun i => fin (100 * Real.sqrt (stdDist2 X Y Z x0 y0 z0 i))) (by simpa using hne)
  refine ⟨i, h1, by simpa using h2, ?_, ?_⟩
  · intro j hj
    have := h3 j (by simpa using hj)
    simp only [List.getElem_map, List.getElem_range, nle_fin] at this
    have := le_of_mul_le_mul_left this (by norm_num)
    refine (Real.sqrt_le_sqrt_iff ?_).1 this
    unfold stdDist2; positivity
  · intro j hj
    have := h4 j hj
    simp only [List.getElem_map, List.getElem_range, nle_fin, not_le] at this
    have := lt_of_mul_lt_mul_left this (by norm_num)
    exact (Real.sqrt_lt_sqrt_iff (by unfold stdDist2; positivity)).1 this

end Verif

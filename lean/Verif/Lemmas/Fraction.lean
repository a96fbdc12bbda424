import Verif.Lemmas.Sampled

/-!
# `fraction_to_r` unfolded
-/

set_option linter.unusedSectionVars false
set_option linter.unusedVariables false
set_option linter.unusedSimpArgs false

namespace Verif

open F Spec

variable {K : Type} [Field K] [LinearOrder K] [IsStrictOrderedRing K]

/-- What a returning call of `fraction_to_r` did up to the radius. -/
theorem fractionToR_cases {ip : InterpFam K} {frac : F K} {R : List K} {flux : List (F K)} {rp : F K}
    {fe : Option (List (F K))} {rpe : Option (F K)} {eps epsf : F K} {kind : Option String} {num : Nat} {r e : F K}
    (h2 : 2 ≤ R.length) (h : fractionToR ip frac (R.map fin) flux rp fe rpe eps epsf kind num = .ok (r, e)) :
    ∃ hi ∈ R, (∀ x ∈ R, x ≤ hi) ∧
      ((F.lt (fin hi) (rp * eps) = true ∧ r = nan ∧ e = nan) ∨
       (F.lt (fin hi) (rp * eps) = false ∧ ∃ ef q xs ys, ip (kind.getD "cubic") (R.map fin) flux (rp * eps) = .ok ef ∧
          pyDiv frac epsf = .ok q ∧ Sampled ip kind num R flux xs ys ∧ radiusAt (ef * q) (xs.map fin, ys) true = .ok r)) := by
  have hne : R ≠ [] := by rintro rfl; simp at h2
  obtain ⟨hi, h3, hmax, h3'⟩ := pyMax_fin hne
  refine ⟨hi, h3, h3', ?_⟩
  unfold fractionToR at h
  simp only [hmax, Except.bind_ok] at h
  by_cases hlt : F.lt (fin hi) (rp * eps) = true
  · rw [if_pos hlt] at h
    injection h with h; injection h with h1 h2
    exact Or.inl ⟨hlt, h1.symm, h2.symm⟩
  · rw [if_neg hlt] at h
    refine Or.inr ⟨by simpa using hlt, ?_⟩
    simp only [bind_eq_ok] at h
    obtain ⟨ef, hef, q, hq, s, hs, rf, hrf, h⟩ := h
    rw [getInterpolatedValues_sampled ip kind num R _ h2] at hs
    obtain ⟨xs, ys, rfl, hS⟩ := hs
    refine ⟨ef, q, xs, ys, hef, hq, hS, ?_⟩
    have : rf = r := by
      cases fe with
      | none => simp only at h; injection h with h; injection h
      | some fe =>
        simp only at h
        by_cases hn : rf.isNaN = true
        · rw [if_pos hn] at h; injection h with h; injection h
        · rw [if_neg hn] at h
          simp only [bind_eq_ok] at h
          obtain ⟨_, _, _, _, _, _, _, _, _, _, _, _, _, _, _, _, h⟩ := h
          injection h with h; injection h
    rw [← this]; exact hrf

/-- Conversely, without flux errors. -/
theorem fractionToR_none_ok {ip : InterpFam K} {frac : F K} {R : List K} {flux : List (F K)} {rp : F K}
    {rpe : Option (F K)} {eps epsf : F K} {kind : Option String} {num : Nat} {r : F K}
    (h2 : 2 ≤ R.length) {hi : K} (h3 : hi ∈ R) (h3' : ∀ x ∈ R, x ≤ hi) (hlt : F.lt (fin hi) (rp * eps) = false)
    {ef q : F K} {xs : List K} {ys : List (F K)} (hef : ip (kind.getD "cubic") (R.map fin) flux (rp * eps) = .ok ef)
    (hq : pyDiv frac epsf = .ok q) (hS : Sampled ip kind num R flux xs ys)
    (hr : radiusAt (ef * q) (xs.map fin, ys) true = .ok r) :
    fractionToR ip frac (R.map fin) flux rp none rpe eps epsf kind num = .ok (r, nan) := by
  have hne : R ≠ [] := by rintro rfl; simp at h2
  obtain ⟨hi', g3, hmax, g3'⟩ := pyMax_fin hne
  have : hi' = hi := le_antisymm (h3' _ g3) (g3' _ h3)
  subst this
  unfold fractionToR
  simp only [hmax, Except.bind_ok]
  rw [if_neg (by simp [hlt])]
  simp only [hef, hq, Except.bind_ok, (getInterpolatedValues_sampled ip kind num R flux h2 _).2 ⟨xs, ys, rfl, hS⟩, hr]

/-- The samples are unique. -/
theorem Sampled.unique {ip : InterpFam K} {kind : Option String} {num : Nat} {R : List K} {P : List (F K)}
    {xs xs' : List K} {ys ys' : List (F K)} (h2 : 2 ≤ R.length) (h : Sampled ip kind num R P xs ys)
    (h' : Sampled ip kind num R P xs' ys') : xs = xs' ∧ ys = ys' := by
  have a1 := (getInterpolatedValues_sampled ip kind num R P h2 _).2 ⟨xs, ys, rfl, h⟩
  have a2 := (getInterpolatedValues_sampled ip kind num R P h2 _).2 ⟨xs', ys', rfl, h'⟩
  rw [a1] at a2
  injection a2 with a2
  injection a2 with a2 a3
  refine ⟨?_, a3⟩
  exact List.map_injective_iff.2 (fun a b h => by injection h) a2

/-- Lawful interpolators can be sampled. -/
theorem Sampled.exists {ip : InterpFam K} {kind : Option String} {num : Nat} {R Y : List K} {m : Nat}
    (hip : ∀ k, kind = some k → Lawful (ip k) m) (hm : m ≤ R.length) (h2 : 2 ≤ R.length) (hl : R.length = Y.length)
    (hR : Incr R) : ∃ xs ys : List K, Sampled ip kind num R (Y.map fin) xs (ys.map fin) ∧ xs.length = ys.length := by
  cases kind with
  | none => exact ⟨R, Y, ⟨rfl, rfl⟩, hl⟩
  | some k =>
    have hL := hip k rfl
    have hne : R ≠ [] := by rintro rfl; simp at h2
    obtain ⟨lo, h1, hmin, h1'⟩ := pyMin_fin hne
    obtain ⟨hi, h3, hmax, h3'⟩ := pyMax_fin hne
    have hex : ∀ i, ∃ v, i < max num R.length →
        ip k (R.map fin) (Y.map fin) (fin (gridPt lo hi (max num R.length) i)) = .ok (fin v) := by
      intro i
      by_cases hi' : i < max num R.length
      · obtain ⟨g1, g2⟩ := gridPt_mem (h1' _ h3) (max num R.length) (by omega) hi'
        obtain ⟨v, hv⟩ := hL.total R Y hl hm hR _ ⟨⟨lo, h1, g1⟩, ⟨hi, h3, g2⟩⟩
        exact ⟨v, fun _ => hv⟩
      · exact ⟨0, fun h => absurd h hi'⟩
    choose v hv using hex
    refine ⟨_, (List.range (max num R.length)).map v, ⟨lo, hi, ⟨h1, h1'⟩, ⟨h3, h3'⟩, rfl, ?_⟩, by simp⟩
    rw [List.map_map, List.forall₂_map_left_iff, List.forall₂_map_right_iff]
    exact List.forall₂_same.2 fun i hi' => hv i (List.mem_range.1 hi')

theorem Sampled.length_eq {ip : InterpFam K} {kind : Option String} {num : Nat} {R : List K} {P : List (F K)}
    {xs : List K} {ys : List (F K)} (h : Sampled ip kind num R P xs ys) (hl : R.length = P.length) :
    xs.length = ys.length := by
  cases kind with
  | none => obtain ⟨rfl, rfl⟩ := h; exact hl
  | some k => obtain ⟨lo, hi, _, _, _, hys⟩ := h; exact hys.length_eq

theorem closestValueIndex_nan (l : List (F K)) (g : Bool) : closestValueIndex nan l g = .ok none := by
  rw [closestValueIndex_none_iff]
  intro a _
  unfold crossing
  cases g <;> simp

/-- `pyDiv` only fails on a zero denominator. -/
theorem pyDiv_ok {a b : F K} (hb : b ≠ fin 0) : pyDiv a b = .ok (a / b) := by
  unfold pyDiv
  rw [if_neg]
  cases b with
  | fin x => simp; intro h; exact hb (by rw [h])
  | _ => simp [F.eqv]

end Verif

import Verif.Lemmas.Sampled
import Verif.Base.Sqrt

/-!
# C07–C11: `closest_value_index` and `calculate_petrosian_r`
-/

set_option linter.unusedSectionVars false
set_option linter.unusedVariables false
set_option linter.unusedSimpArgs false

namespace Verif.Props

open F Spec

section
variable {K : Type} [Field K] [LinearOrder K] [IsStrictOrderedRing K]

theorem crossing_fin (g : Bool) (v x : K) : crossing g (fin v) (fin x) = true ↔ Reaches g v x := by
  unfold crossing Reaches
  cases g <;> simp

theorem crossing_fin' (g : Bool) (v x : K) : crossing g (fin v) (fin x) = false ↔ ¬ Reaches g v x := by
  rw [← crossing_fin, Bool.not_eq_true]

/-- C07: the exact input/output relation of `closest_value_index` on finite arrays. -/
theorem C07_closest_value_index (v : K) (a : List K) (g : Bool) :
    (closestValueIndex (fin v) (a.map fin) g = .ok none ↔ ∀ x ∈ a, ¬ Reaches g v x) ∧
    (∀ i, closestValueIndex (fin v) (a.map fin) g = .ok (some i) ↔
      ∃ k, ∃ hk : k < a.length, ∃ hi : i ≤ k, Reaches g v a[k] ∧ (∀ j (hj : j < k), ¬ Reaches g v a[j]) ∧
        (∀ j (hj : j ≤ k), |a[i] - v| ≤ |a[j] - v|) ∧ ∀ j (hj : j < i), |a[i] - v| < |a[j] - v|) ∧
    (∀ err, closestValueIndex (fin v) (a.map fin) g ≠ .error err) := by
  have hnone := closestValueIndex_none_iff (fin v) (a.map fin) g
  refine ⟨?_, ?_, ?_⟩
  · rw [hnone]
    constructor
    · intro h x hx
      exact (crossing_fin' g v x).1 (h _ (List.mem_map_of_mem hx))
    · intro h x hx
      obtain ⟨y, hy, rfl⟩ := List.mem_map.1 hx
      exact (crossing_fin' g v y).2 (h y hy)
  · intro i
    constructor
    · intro h
      rcases closestValueIndex_spec (fin v) (a.map fin) g with ⟨h1, _⟩ | ⟨k, i', ⟨hk, hc, hf⟩, h2, hi, _, hm, hs⟩
      · rw [h1] at h; cases h
      · rw [h2] at h
        injection h with h
        injection h with h
        subst h
        have hk' : k < a.length := by simpa using hk
        refine ⟨k, hk', hi, ?_, ?_, ?_, ?_⟩
        · simpa [crossing_fin] using hc
        · intro j hj
          have := hf j hj
          rw [List.getElem_map] at this
          exact (crossing_fin' g v _).1 this
        · intro j hj
          have := hm j hj
          simpa [absSub_fin] using this
        · intro j hj
          have := hs j hj
          simpa [absSub_fin] using this
    · rintro ⟨k, hk, hi, hc, hf, hm, hs⟩
      rcases closestValueIndex_spec (fin v) (a.map fin) g with ⟨h1, h1'⟩ | ⟨k', i', ⟨hk', hc', hf'⟩, h2, hi', _, hm', hs'⟩
      · have := h1' (fin a[k]) (List.mem_map_of_mem (List.getElem_mem hk))
        exact absurd hc ((crossing_fin' g v _).1 this)
      · rw [h2]
        simp only [List.getElem_map, crossing_fin] at hc'
        have hf'' : ∀ j (hj : j < k'), ¬ Reaches g v (a[j]'(by simp at hk'; omega)) := by
          intro j hj
          have := hf' j hj
          rw [List.getElem_map] at this
          exact (crossing_fin' g v _).1 this
        have hkk : k = k' := by
          rcases lt_trichotomy k k' with h | h | h
          · exact absurd hc (hf'' k h)
          · exact h
          · exact absurd hc' (hf k' h)
        subst hkk
        simp only [List.getElem_map, absSub_fin, nle_fin, not_le] at hm' hs'
        rcases lt_trichotomy i i' with h | h | h
        · exact absurd (hm i' hi') (not_le.2 (hs' i h))
        · rw [h]
        · exact absurd (hm' i hi) (not_le.2 (hs i' h))
  · intro err h
    obtain ⟨o, ho⟩ := closestValueIndex_total (fin v) (a.map fin) g
    rw [ho] at h; cases h

/-- Non-vacuity: a non-monotonic array, a value that is reached, one that is not. -/
example : closestValueIndex (fin (1 / 2)) ([1, 3 / 5, 2, 0, 1 / 2].map fin : List (F ℚ)) = .ok (some 1) ∧
    closestValueIndex (fin (-1)) ([1, 3 / 5, 2, 0, 1 / 2].map fin : List (F ℚ)) = .ok none ∧
    closestValueIndex (fin (3 / 2)) ([1, 3 / 5, 2, 0, 1 / 2].map fin : List (F ℚ)) true = .ok (some 0) := by
  decide +kernel

/-- C08: whenever `calculate_petrosian_r` returns, with or without profile errors, its radius is NaN exactly when no sample of the
profile is at or below eta, and otherwise it is a sampled radius between 0 and the largest radius.  `P` may contain NaN and
infinities. -/
theorem C08_radius_in_range (ip : InterpFam K) (R : List K) (P : List (F K)) (err : Option (List (F K))) (eta : F K)
    (kind : Option String) (num : Nat) (h2 : 2 ≤ R.length) (hR : Incr (0 :: R.tail)) {r e : F K}
    (h : calculatePetrosianR ip (R.map fin) P err eta kind num = .ok (r, e)) :
    ∃ xs ys, Sampled ip kind num (0 :: R.tail) (fin 1 :: P.tail) xs ys ∧
      (r = nan ↔ ∀ y ∈ ys, F.le y eta = false) ∧
      (r ≠ nan → ∃ x ∈ xs, r = fin x ∧ 0 ≤ x ∧ ∃ rmax ∈ R, x ≤ rmax) := by
  obtain ⟨hP, xs, ys, hS, hr⟩ := calculatePetrosianR_fst h2 h
  refine ⟨xs, ys, hS, ?_, ?_⟩
  · have hn := closestValueIndex_none_iff eta ys false
    simp only [crossing, Bool.false_eq_true, if_false] at hn
    rw [← hn]
    rcases radiusAt_cases hr with ⟨h1, h2⟩ | ⟨i, h1, hi, h2⟩
    · exact ⟨fun _ => h2, fun _ => h1⟩
    · rw [h2, h1]; simp
  · intro hne
    rcases radiusAt_cases hr with ⟨h1, _⟩ | ⟨i, h1, hi, hri⟩
    · exact absurd h1 hne
    · refine ⟨xs[i], List.getElem_mem hi, hri, ?_⟩
      have hlen : (0 :: R.tail).length = R.length := by
        simp; omega
      obtain ⟨⟨x, hx, hx'⟩, ⟨y, hy, hy'⟩⟩ := Sampled.mem_range hS (by omega) (List.getElem_mem hi)
      refine ⟨(incr_head_le hR x hx).trans hx', ?_⟩
      rcases List.mem_cons.1 hy with hy | hy
      · subst hy
        obtain ⟨z, hz⟩ : ∃ z, z ∈ R.tail := by
          cases hRt : R.tail with
          | nil => rw [hRt] at hlen; simp at hlen; omega
          | cons z l => exact ⟨z, by simp⟩
        exact ⟨z, List.mem_of_mem_tail hz, hy'.trans (incr_head_le hR z (by simp [hz]))⟩
      · exact ⟨y, List.mem_of_mem_tail hy, hy'⟩

/-- Non-vacuity: linear sampling of a falling profile that starts with the NaN that `calculate_petrosian` always produces. -/
example : calculatePetrosianR (fun _ => linearInterp) ([1, 2, 4].map fin : List (F ℚ)) [nan, fin (4 / 5), fin 0] none
      (fin (1 / 5)) (some "linear") 9 = .ok (fin (7 / 2), nan) ∧
    calculatePetrosianR (fun _ => linearInterp) ([1, 2, 4].map fin : List (F ℚ)) [nan, fin (4 / 5), fin (1 / 2)] none
      (fin (1 / 5)) (some "linear") 9 = .ok (nan, nan) := by decide +kernel
example : Incr (0 :: ([1, 2, 4] : List ℚ).tail) := by unfold Incr; decide +kernel

/-- C09: raising eta never increases the radius and never turns it into NaN, for every profile (monotone or not, NaN and infinities
allowed), every interpolator and `interp_kind=None`. -/
theorem C09_antitone_in_eta (ip : InterpFam K) (R : List K) (P : List (F K)) (kind : Option String) (num : Nat)
    (h2 : 2 ≤ R.length) (hR : Incr (0 :: R.tail)) {eta1 eta2 : K} (hle : eta1 ≤ eta2)
    {err1 err2 : Option (List (F K))} {r1 e1 : F K}
    (h1 : calculatePetrosianR ip (R.map fin) P err1 (fin eta1) kind num = .ok (r1, e1)) (hr1 : r1 ≠ nan) :
    -- without error arrays the call with eta2 succeeds
    (∃ r2, calculatePetrosianR ip (R.map fin) P none (fin eta2) kind num = .ok (r2, nan)) ∧
    -- and whenever it succeeds its radius is a number not larger than r1
    ∀ r2 e2, calculatePetrosianR ip (R.map fin) P err2 (fin eta2) kind num = .ok (r2, e2) →
      r2 ≠ nan ∧ F.le r2 r1 = true := by
  obtain ⟨hP, xs, ys, hS, hr⟩ := calculatePetrosianR_fst h2 h1
  have hlen : (0 :: R.tail).length = R.length := by simp; omega
  rcases radiusAt_cases hr with ⟨h, _⟩ | ⟨i1, hc1, hi1, hri1⟩
  · exact absurd h hr1
  obtain ⟨i2, hc2, hi2⟩ := closestValueIndex_antitone hle hc1
  have hrad : radiusAt (fin eta2) (xs.map fin, ys) false = .ok (fin (xs[i2]'(by omega))) :=
    radiusAt_some hc2 (by omega)
  constructor
  · refine ⟨fin (xs[i2]'(by omega)), ?_⟩
    cases R with
    | nil => simp at h2
    | cons r0 R =>
      cases P with
      | nil => exact absurd rfl hP
      | cons p0 P =>
        unfold calculatePetrosianR
        simp only [List.map_cons, setItem0, Except.bind_ok]
        have e0 : (fin 0 :: R.map fin : List (F K)) = (0 :: R).map fin := by simp
        rw [e0, (getInterpolatedValues_sampled ip kind num (0 :: R) (fin 1 :: P) (by simpa using h2) _).2 ⟨xs, ys, rfl, hS⟩]
        simp only [Except.bind_ok, hrad]
  · intro r2 e2 h
    obtain ⟨_, xs', ys', hS', hr'⟩ := calculatePetrosianR_fst h2 h
    have hsame : (xs'.map (fin : K → F K), ys') = (xs.map fin, ys) := by
      have a1 := (getInterpolatedValues_sampled ip kind num (0 :: R.tail) (fin 1 :: P.tail) (by omega) _).2
        ⟨xs, ys, rfl, hS⟩
      have a2 := (getInterpolatedValues_sampled ip kind num (0 :: R.tail) (fin 1 :: P.tail) (by omega) _).2
        ⟨xs', ys', rfl, hS'⟩
      rw [a1] at a2; injection a2 with a2; exact a2.symm
    rw [hsame, hrad] at hr'
    injection hr' with hr'
    subst hr'
    refine ⟨by simp, ?_⟩
    rw [hri1, le_fin, decide_eq_true_eq]
    exact Incr.le_getElem (Sampled.sorted hS (by omega) hR) hi2 hi1

/-- Non-vacuity: a profile that rises again, eta 0.25 and 0.7. -/
example : calculatePetrosianR (fun _ => linearInterp) ([1, 2, 3, 4].map fin : List (F ℚ))
      [nan, fin (3 / 5), fin (9 / 10), fin 0] none (fin (1 / 4)) none 5000 = .ok (fin 4, nan) ∧
    calculatePetrosianR (fun _ => linearInterp) ([1, 2, 3, 4].map fin : List (F ℚ))
      [nan, fin (3 / 5), fin (9 / 10), fin 0] none (fin (7 / 10)) none 5000 = .ok (fin 2, nan) := by decide +kernel

/-- C10: when the samples strictly decrease up to the first sample at or below eta, the radius is that sample or the previous one. -/
theorem C10_brackets_crossing (ip : InterpFam K) (R P : List K) (err : Option (List (F K))) (eta : K)
    (kind : Option String) (num : Nat) (h2 : 2 ≤ R.length) {r e : F K}
    (h : calculatePetrosianR ip (R.map fin) (P.map fin) err (fin eta) kind num = .ok (r, e))
    {xs ys : List K} (hS : Sampled ip kind num (0 :: R.tail) ((1 :: P.tail).map fin) xs (ys.map fin))
    (k : Nat) (hk : k < ys.length) (hk' : k < xs.length) (hcross : ys[k] ≤ eta)
    (hdec : ∀ i j (hi : i < j) (hj : j ≤ k), ys[j] < ys[i]) (hfirst : ∀ j (hj : j < k), eta < ys[j]) :
    r = fin xs[k] ∨ (0 < k ∧ r = fin (xs[k - 1]'(by omega))) := by
  have hlen : (0 :: R.tail).length = R.length := by simp; omega
  obtain ⟨_, xs', ys', hS', hr'⟩ := calculatePetrosianR_fst h2 h
  have hsame : (xs'.map (fin : K → F K), ys') = (xs.map fin, ys.map fin) := by
    have a1 := (getInterpolatedValues_sampled ip kind num (0 :: R.tail) ((1 :: P.tail).map fin) (by omega) _).2
      ⟨xs, ys.map fin, rfl, hS⟩
    have a2 := (getInterpolatedValues_sampled ip kind num (0 :: R.tail) (fin 1 :: (P.map fin).tail) (by omega) _).2
      ⟨xs', ys', rfl, hS'⟩
    have e1 : (fin 1 :: (P.map (fin : K → F K)).tail) = (1 :: P.tail).map fin := by simp
    rw [e1] at a2
    rw [a1] at a2; injection a2 with a2; exact a2.symm
  rw [hsame] at hr'
  have hne : ¬ closestValueIndex (fin eta) (ys.map fin) false = .ok none := by
    rw [(C07_closest_value_index eta ys false).1]
    intro hh
    exact hh _ (List.getElem_mem hk) (by simpa [Reaches] using hcross)
  rcases radiusAt_cases hr' with ⟨_, h0⟩ | ⟨i, hc, hi, hri⟩
  · exact absurd h0 hne
  obtain ⟨k', hkl, hik, hreach, hf, hm, hs⟩ := ((C07_closest_value_index eta ys false).2.1 i).1 hc
  simp only [Reaches, Bool.false_eq_true, if_false, not_le] at hreach hf
  have hkk : k' = k := by
    rcases lt_trichotomy k' k with h | h | h
    · exact absurd hreach (not_le.2 (hfirst k' h))
    · exact h
    · exact absurd hcross (not_le.2 (hf k h))
  subst hkk
  by_cases hik' : i = k'
  · left; subst hik'; exact hri
  · right
    refine ⟨by omega, ?_⟩
    have hik2 : i = k' - 1 := by
      by_contra hcon
      have hlt : i < k' - 1 := by omega
      have a1 := hm (k' - 1) (by omega)
      have a2 := hdec i (k' - 1) hlt (by omega)
      have a3 := hfirst (k' - 1) (by omega)
      rw [abs_of_pos (by linarith), abs_of_pos (by linarith)] at a1
      linarith
    subst hik2; exact hri

/-- Non-vacuity: the hypotheses hold for a strictly falling profile sampled discretely; the result is the earlier sample. -/
example : calculatePetrosianR (fun _ => linearInterp) ([1, 2, 4].map fin : List (F ℚ)) ([1, 2 / 5, 0].map fin) none
      (fin (1 / 4)) none 5000 = .ok (fin 2, nan) ∧
    Sampled (fun _ => linearInterp) none 5000 (0 :: ([1, 2, 4] : List ℚ).tail) ((1 :: ([1, 2 / 5, 0] : List ℚ).tail).map fin)
      [0, 2, 4] (([1, 2 / 5, 0] : List ℚ).map fin) := ⟨by decide +kernel, rfl, rfl⟩

/-! ### C11 -/

/-- C11, first part: no errors supplied or no radius gives NaN. -/
theorem C11_nan_cases (ip : InterpFam K) (R P : List (F K)) (err : Option (List (F K))) (eta : F K)
    (kind : Option String) (num : Nat) {r e : F K}
    (h : calculatePetrosianR ip R P err eta kind num = .ok (r, e)) (hc : err = none ∨ r = nan) : e = nan := by
  unfold calculatePetrosianR at h
  simp only [bind_eq_ok] at h
  obtain ⟨r', _, p', _, s, hs, rp, hrp, h⟩ := h
  cases err with
  | none => simp only at h; injection h with h; injection h with _ h; exact h.symm
  | some err =>
    simp only at h
    by_cases hn : rp.isNaN = true
    · rw [if_pos hn] at h; injection h with h; injection h with _ h; exact h.symm
    · rw [if_neg hn] at h
      simp only [bind_eq_ok] at h
      obtain ⟨_, _, _, _, _, _, _, _, _, _, _, _, _, _, h⟩ := h
      injection h with h; injection h with h1 _
      rcases hc with hc | hc
      · cases hc
      · rw [h1, hc] at hn; simp at hn

/-- `p ± 0 = p` for float arrays. -/
theorem zipOp_zero_add (p : List (F K)) : zipOp (· + ·) p (p.map fun _ => fin 0) = .ok p := by
  unfold zipOp
  rw [if_pos (by simp)]
  congr 1
  induction p with
  | nil => rfl
  | cons a p ih =>
    simp only [List.map_cons, List.zipWith_cons_cons, ih]
    congr 1
    cases a with
    | fin x => simp
    | _ => rfl

theorem zipOp_zero_sub (p : List (F K)) : zipOp (· - ·) p (p.map fun _ => fin 0) = .ok p := by
  unfold zipOp
  rw [if_pos (by simp)]
  congr 1
  induction p with
  | nil => rfl
  | cons a p ih =>
    simp only [List.map_cons, List.zipWith_cons_cons, ih]
    congr 1
    cases a with
    | fin x => simp
    | _ => rfl

/-- C11, second part: all-zero profile errors give a zero radius error (for any non-NaN radius; radii are finite). -/
theorem C11_zero_errors (ip : InterpFam K) (R : List K) (P : List (F K)) (eta : F K)
    (kind : Option String) (num : Nat) (h2 : 2 ≤ R.length) {r e : F K}
    (h : calculatePetrosianR ip (R.map fin) P (some (P.map fun _ => fin 0)) eta kind num = .ok (r, e)) (hr : r ≠ nan) :
    e = fin 0 := by
  obtain ⟨hP, xs, ys, hS, hrad⟩ := calculatePetrosianR_fst h2 h
  cases R with
  | nil => simp at h2
  | cons r0 R =>
    cases P with
    | nil => exact absurd rfl hP
    | cons p0 P =>
      unfold calculatePetrosianR at h
      have e0 : (fin 0 :: R.map fin : List (F K)) = (0 :: R).map fin := by simp
      have e1 : (fin 0 :: P.map (fun _ => (fin 0 : F K))) = (fin 1 :: P).map (fun _ => fin 0) := by simp
      simp only [List.map_cons, setItem0, Except.bind_ok] at h
      rw [e0, e1] at h
      have hg := (getInterpolatedValues_sampled ip kind num (0 :: R) (fin 1 :: P) (by simpa using h2) _).2
        ⟨xs, ys, rfl, hS⟩
      simp only [zipOp_zero_add, zipOp_zero_sub, Except.bind_ok, hg, hrad] at h
      rw [if_neg (by rw [F.isNaN_iff]; exact hr)] at h
      injection h with h
      injection h with _ h
      rcases radiusAt_cases hrad with ⟨h1, _⟩ | ⟨i, _, hi, h1⟩
      · exact absurd h1 hr
      · rw [← h, h1, fin_sub, sub_self, fin_div_of_ne _ (by norm_num)]; simp

/-- Non-vacuity: zero errors on a falling profile. -/
example : calculatePetrosianR (fun _ => linearInterp) ([1, 2, 4].map fin : List (F ℚ)) [nan, fin (4 / 5), fin 0]
      (some [fin 0, fin 0, fin 0]) (fin (1 / 5)) (some "linear") 9 = .ok (fin (7 / 2), fin 0) := by decide +kernel

/-- With `interp_kind=None` the interpolator is never called. -/
theorem petrosianR_none_congr (ip ip' : InterpFam K) (R P : List (F K)) (err : Option (List (F K))) (eta : F K) (num : Nat) :
    calculatePetrosianR ip R P err eta none num = calculatePetrosianR ip' R P err eta none num := rfl

/-- C11, third part ("never negative") is false of the code: non-negative profile errors can give a negative radius error when the
profile is not monotone. -/
theorem C11_counterexample (ip : InterpFam ℚ) :
    ∃ (R P E : List (F ℚ)) (eta r e : ℚ), (∀ x ∈ E, F.le (fin 0) x = true) ∧ e < 0 ∧
      calculatePetrosianR ip R P (some E) (fin eta) none 5000 = .ok (fin r, fin e) :=
  ⟨[0, 1, 2, 3].map fin, [1, 7 / 10, 51 / 40, 1 / 5].map fin, [0, 0, 29 / 40, 0].map fin, 1 / 2, 1, -(1 / 2),
    by decide +kernel, by decide +kernel, by
      rw [petrosianR_none_congr ip fun _ => linearInterp]
      decide +kernel⟩

/-- The index chosen on an upper profile is not before the one chosen on a lower profile if the upper one falls strictly up to its
first crossing. -/
theorem closest_upper_ge_lower (u l : List K) (eta : K) (hlen : u.length = l.length)
    (hle : ∀ i (h : i < u.length), l[i] ≤ u[i]) {iu il : Nat}
    (hu : closestValueIndex (fin eta) (u.map fin) false = .ok (some iu))
    (hl : closestValueIndex (fin eta) (l.map fin) false = .ok (some il))
    (hdec : ∀ k (hk : k < u.length), (∀ j (hj : j < k), eta < u[j]) → ∀ i j (hi : i < j) (hj : j ≤ k), u[j] < u[i]) :
    il ≤ iu := by
  obtain ⟨ku, hku, hiu, ru, fu, mu, su⟩ := ((C07_closest_value_index eta u false).2.1 iu).1 hu
  obtain ⟨kl, hkl, hil, rl, fl, ml, sl⟩ := ((C07_closest_value_index eta l false).2.1 il).1 hl
  simp only [Reaches, Bool.false_eq_true, if_false, not_le] at ru fu rl fl
  have hk : kl ≤ ku := by
    by_contra hc
    have := fl ku (by omega)
    have := hle ku hku
    linarith
  have hd := hdec ku hku fu
  by_contra hcon
  have hlt : iu < il := by omega
  -- iu ≥ ku - 1
  have hiu2 : ku - 1 ≤ iu := by
    by_contra hc
    have a1 := mu (ku - 1) (by omega)
    have a2 := hd iu (ku - 1) (by omega) (by omega)
    have a3 := fu (ku - 1) (by omega)
    rw [abs_of_pos (by linarith), abs_of_pos (by linarith)] at a1
    linarith
  -- hence iu = k-1, il = k
  have h1 : iu = ku - 1 := by omega
  have h2 : il = ku := by omega
  have h3 : kl = ku := by omega
  subst h3
  subst h2
  have b1 := mu il le_rfl
  have b2 := sl iu hlt
  have b3 := fu iu hlt
  have b4 := fl iu hlt
  have b5 := hle iu (by omega)
  have b6 := hle il hku
  rw [abs_of_pos (a := u[iu] - eta) (by linarith), abs_of_nonpos (a := u[il] - eta) (by linarith)] at b1
  rw [abs_of_pos (a := l[iu] - eta) (by linarith), abs_of_nonpos (a := l[il] - eta) (by linarith)] at b2
  linarith

/-- C11, the part of "never negative" that holds: with `interp_kind=None`, finite profile and non-negative errors, the error is NaN
or non-negative provided the upper profile (profile plus error) falls strictly up to its first sample at or below eta.  Missing from
the full claim: profiles that are not strictly falling (see `C11_counterexample`) and interpolated sampling. -/
theorem C11_nonneg_partial (ip : InterpFam K) (R P E : List K) (eta : K) (num : Nat) (h2 : 2 ≤ R.length)
    (hlen : P.length = R.length) (hR : Incr (0 :: R.tail)) (hE : ∀ x ∈ E, 0 ≤ x) {r e : F K}
    (h : calculatePetrosianR ip (R.map fin) (P.map fin) (some (E.map fin)) (fin eta) none num = .ok (r, e))
    (hdec : ∀ u : List K, u = List.zipWith (· + ·) (1 :: P.tail) (0 :: E.tail) → ∀ k (hk : k < u.length),
      (∀ j (hj : j < k), eta < u[j]) → ∀ i j (hi : i < j) (hj : j ≤ k), u[j] < u[i]) :
    e = nan ∨ ∃ x, e = fin x ∧ 0 ≤ x := by
  cases R with
  | nil => simp at h2
  | cons r0 R =>
    cases P with
    | nil => simp at hlen
    | cons p0 P =>
      unfold calculatePetrosianR at h
      simp only [List.map_cons, setItem0, Except.bind_ok, getInterpolatedValues, bind_eq_ok] at h
      obtain ⟨rp, hrp, h⟩ := h
      by_cases hn : rp.isNaN = true
      · rw [if_pos hn] at h; injection h with h; injection h with _ h; exact Or.inl h.symm
      rw [if_neg hn] at h
      simp only [bind_eq_ok] at h
      obtain ⟨e0, he0, up, hup, ru, hru, lo, hlo, rl, hrl, h⟩ := h
      injection h with h
      injection h with _ h
      cases E with
      | nil => simp at he0
      | cons x0 E =>
        simp only [List.map_cons] at he0
        injection he0 with he0
        subst he0
        have hl' : (fin 1 :: P.map (fin : K → F K)).length = (fin 0 :: E.map (fin : K → F K)).length := by
          unfold zipOp at hup
          by_contra hc
          rw [if_neg hc] at hup; cases hup
        have hPE : P.length = E.length := by simpa using hl'
        have hzip : ∀ (f : F K → F K → F K) (g : K → K → K), (∀ a b, f (fin a) (fin b) = fin (g a b)) →
            ∀ a b : List K, List.zipWith f (a.map fin) (b.map fin) = (List.zipWith g a b).map fin := by
          intro f g hfg a b
          rw [List.zipWith_map, List.map_zipWith]
          simp only [hfg]
        have hup' : up = (List.zipWith (· + ·) (1 :: P) (0 :: E)).map fin := by
          unfold zipOp at hup
          rw [if_pos hl'] at hup
          injection hup with hup
          rw [← hup]
          exact hzip _ _ (fun a b => by simp) (1 :: P) (0 :: E)
        have hlo' : lo = (List.zipWith (· - ·) (1 :: P) (0 :: E)).map fin := by
          unfold zipOp at hlo
          rw [if_pos hl'] at hlo
          injection hlo with hlo
          rw [← hlo]
          exact hzip _ _ (fun a b => by simp) (1 :: P) (0 :: E)
        have er : (fin 0 :: R.map fin : List (F K)) = (0 :: R).map fin := by simp
        rw [er] at hru hrl
        rw [← h]
        rcases radiusAt_cases hru with ⟨g1, _⟩ | ⟨iu, hcu, hiu, g1⟩
        · left; rw [g1]; simp
        rcases radiusAt_cases hrl with ⟨g2, _⟩ | ⟨il, hcl, hil, g2⟩
        · left; rw [g2]; simp
        right
        rw [hup'] at hcu
        rw [hlo'] at hcl
        have hii := closest_upper_ge_lower _ _ eta (by simp) (by
          intro i hi
          simp only [List.getElem_zipWith]
          have : 0 ≤ (0 :: E)[i]'(by simp at hi ⊢; omega) := by
            cases i with
            | zero => simp
            | succ i => exact hE _ (by simp)
          linarith) hcu hcl (hdec _ rfl)
        refine ⟨((0 :: R)[iu] - (0 :: R)[il]) / 2, ?_, ?_⟩
        · rw [g1, g2, fin_sub, fin_div_of_ne _ (by norm_num)]
        · have := Incr.le_getElem hR hii (by simpa using hiu)
          apply div_nonneg _ (by norm_num)
          simp only [List.tail_cons] at this
          linarith

/-- Non-vacuity: a strictly falling profile with errors; the radius error is 1/2. -/
example (ip : InterpFam ℚ) : calculatePetrosianR ip ([0, 1, 2, 3].map fin : List (F ℚ))
      ([1, 7 / 10, 4 / 10, 1 / 10].map fin) (some ([0, 1 / 10, 1 / 10, 0].map fin)) (fin (11 / 20)) none 5000 =
    .ok (fin 1, fin (1 / 2)) := by
  rw [petrosianR_none_congr ip fun _ => linearInterp]
  decide +kernel

end

end Verif.Props

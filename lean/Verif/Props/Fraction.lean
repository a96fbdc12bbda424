import Verif.Lemmas.Fraction
import Verif.Base.Sqrt

/-!
# C12–C14: `fraction_to_r` and `calculate_concentration_index`
-/

set_option linter.unusedSectionVars false
set_option linter.unusedVariables false
set_option linter.unusedSimpArgs false

namespace Verif.Props

open F Spec

section
variable {K : Type} [Field K] [LinearOrder K] [IsStrictOrderedRing K]

/-- C12: a returned radius is NaN or one of the sampled radii, inside the range of the radii (any interpolator, any fluxes, with or
without errors). -/
theorem C12_fraction_in_range (ip : InterpFam K) (frac : F K) (R : List K) (flux : List (F K)) (rp : F K)
    (fe : Option (List (F K))) (rpe : Option (F K)) (eps epsf : F K) (kind : Option String) (num : Nat) {r e : F K}
    (h2 : 2 ≤ R.length) (h : fractionToR ip frac (R.map fin) flux rp fe rpe eps epsf kind num = .ok (r, e)) :
    r = nan ∨ ∃ xs ys x, Sampled ip kind num R flux xs ys ∧ x ∈ xs ∧ r = fin x ∧ InRange R x := by
  obtain ⟨hi, _, _, ⟨_, h1, _⟩ | ⟨_, ef, q, xs, ys, _, _, hS, hr⟩⟩ := fractionToR_cases h2 h
  · exact Or.inl h1
  · rcases radiusAt_cases hr with ⟨h1, _⟩ | ⟨i, _, hi', h1⟩
    · exact Or.inl h1
    · exact Or.inr ⟨xs, ys, xs[i], hS, List.getElem_mem hi', h1, Sampled.mem_range hS h2 (List.getElem_mem hi')⟩

/-- C12: `r_epsilon` beyond the largest radius gives NaN, whatever the other arguments. -/
theorem C12_beyond_range (ip : InterpFam K) (frac : F K) (R : List K) (flux : List (F K)) (rp : F K)
    (fe : Option (List (F K))) (rpe : Option (F K)) (eps epsf : F K) (kind : Option String) (num : Nat)
    (hne : R ≠ []) (h : ∀ x ∈ R, F.lt (fin x) (rp * eps) = true) :
    fractionToR ip frac (R.map fin) flux rp fe rpe eps epsf kind num = .ok (nan, nan) := by
  obtain ⟨hi, h3, hmax, h3'⟩ := pyMax_fin hne
  unfold fractionToR
  simp only [hmax, Except.bind_ok]
  rw [if_pos (h hi h3)]

/-- C12: a NaN Petrosian radius gives NaN. -/
theorem C12_nan_radius (ip : InterpFam K) (frac : F K) (R Y : List K)
    (fe : Option (List (F K))) (rpe : Option (F K)) (eps epsf : F K) (kind : Option String) (num : Nat) {m : Nat}
    (hip : Lawful (ip (kind.getD "cubic")) m) (hm : m ≤ R.length) (h2 : 2 ≤ R.length) (hl : R.length = Y.length) (hR : Incr R)
    (hepsf : epsf ≠ fin 0) :
    fractionToR ip frac (R.map fin) (Y.map fin) nan fe rpe eps epsf kind num = .ok (nan, nan) := by
  have hne : R ≠ [] := by rintro rfl; simp at h2
  obtain ⟨hi, h3, hmax, h3'⟩ := pyMax_fin hne
  obtain ⟨xs, ys, hS, _⟩ := Sampled.exists (ip := ip) (kind := kind) (num := num)
    (by rintro k rfl; exact hip) hm h2 hl hR
  unfold fractionToR
  simp only [hmax, Except.bind_ok, nan_mul, lt_nan, Bool.false_eq_true, if_false, hip.atNaN R Y hl hm hR, pyDiv_ok hepsf,
    (getInterpolatedValues_sampled ip kind num R (Y.map fin) h2 _).2 ⟨xs, ys.map fin, rfl, hS⟩,
    radiusAt_none (closestValueIndex_nan _ _), isNaN_nan, if_true]
  cases fe <;> rfl

/-- Non-vacuity: a finite result, and the two NaN cases. -/
example : fractionToR (fun _ => linearInterp) (fin (1 / 2)) ([1, 2, 4].map fin : List (F ℚ)) ([2, 5, 8].map fin) (fin 2) none none
      (fin 2) (fin (99 / 100)) (some "linear") 7 = .ok (fin (3 / 2), nan) ∧
    fractionToR (fun _ => linearInterp) (fin (1 / 2)) ([1, 2, 4].map fin : List (F ℚ)) ([2, 5, 8].map fin) (fin 3) none none
      (fin 2) (fin (99 / 100)) (some "linear") 7 = .ok (nan, nan) ∧
    fractionToR (fun _ => linearInterp) (fin (1 / 2)) ([1, 2, 4].map fin : List (F ℚ)) ([2, 5, 8].map fin) nan none none
      (fin 2) (fin (99 / 100)) (some "linear") 7 = .ok (nan, nan) := by decide +kernel
example : Lawful (K := ℚ) linearInterp 1 ∧ Incr ([1, 2, 4] : List ℚ) := ⟨linear_lawful, by unfold Incr; decide +kernel⟩

/-- C13: a larger fraction never gives a smaller radius, and a NaN for the smaller fraction implies a NaN for the larger one.
The samples may be any profile (monotone or not, NaN and infinities allowed). -/
theorem C13_monotone_in_fraction (ip : InterpFam K) (R : List K) (flux : List (F K)) (rp : F K)
    (fe1 fe2 : Option (List (F K))) (rpe1 rpe2 : Option (F K)) (eps : F K) (epsf f1 f2 : K) (kind : Option String) (num : Nat)
    (h2 : 2 ≤ R.length) (hR : Incr R) (hepsf : 0 < epsf) (hf : f1 ≤ f2) {E : K} (hE : 0 ≤ E)
    (hflux : ip (kind.getD "cubic") (R.map fin) flux (rp * eps) = .ok (fin E)) {r2 e2 : F K}
    (hr2 : fractionToR ip (fin f2) (R.map fin) flux rp fe2 rpe2 eps (fin epsf) kind num = .ok (r2, e2)) (hn : r2 ≠ nan) :
    -- without errors the call with f1 succeeds
    (∃ r1, fractionToR ip (fin f1) (R.map fin) flux rp none rpe1 eps (fin epsf) kind num = .ok (r1, nan)) ∧
    -- and whenever it succeeds its radius is a number not larger than r2
    ∀ r1 e1, fractionToR ip (fin f1) (R.map fin) flux rp fe1 rpe1 eps (fin epsf) kind num = .ok (r1, e1) →
      r1 ≠ nan ∧ F.le r1 r2 = true := by
  obtain ⟨hi, h3, h3', ⟨_, h1, _⟩ | ⟨hlt, ef, q, xs, ys, hef, hq, hS, hr⟩⟩ := fractionToR_cases h2 hr2
  · exact absurd h1 hn
  have hq' : ∀ f, pyDiv (fin f) (fin epsf) = .ok (fin (f / epsf)) := by
    intro f
    rw [pyDiv_ok (by intro h; injection h with h; exact hepsf.ne' h), fin_div_of_ne _ hepsf.ne']
  rw [hq'] at hq
  injection hq with hq
  subst hq
  rw [hflux] at hef
  injection hef with hef
  subst hef
  rcases radiusAt_cases hr with ⟨h, _⟩ | ⟨i2, hc2, hi2, hri2⟩
  · exact absurd h hn
  have hle : E * (f1 / epsf) ≤ E * (f2 / epsf) := by gcongr
  rw [fin_mul] at hc2
  obtain ⟨i1, hc1, hi1⟩ := closestValueIndex_monotone hle hc2
  have hrad : radiusAt (fin E * fin (f1 / epsf)) (xs.map fin, ys) true = .ok (fin (xs[i1]'(by omega))) :=
    radiusAt_some (by rw [fin_mul]; exact hc1) (by omega)
  constructor
  · exact ⟨_, fractionToR_none_ok h2 h3 h3' hlt hflux (hq' f1) hS hrad⟩
  · intro r1 e1 h
    obtain ⟨hi', g3, g3', ⟨g0, _, _⟩ | ⟨_, ef', q', xs', ys', hef', hq1, hS', hr'⟩⟩ := fractionToR_cases h2 h
    · have : hi' = hi := le_antisymm (h3' _ g3) (g3' _ h3)
      subst this; rw [hlt] at g0; cases g0
    · obtain ⟨rfl, rfl⟩ := Sampled.unique h2 hS hS'
      rw [hflux] at hef'; injection hef' with hef'; subst hef'
      rw [hq'] at hq1; injection hq1 with hq1; subst hq1
      rw [hrad] at hr'; injection hr' with hr'; subst hr'
      refine ⟨by simp, ?_⟩
      rw [hri2, le_fin, decide_eq_true_eq]
      exact Incr.le_getElem (Sampled.sorted hS h2 hR) hi1 hi2

/-- Non-vacuity: a curve of growth that dips, fractions 0.2 and 0.8. -/
example : fractionToR (fun _ => linearInterp) (fin (1 / 5)) ([1, 2, 3, 4].map fin : List (F ℚ)) ([1, 6, 5, 10].map fin) (fin 2) none none
      (fin 2) (fin 1) none 7 = .ok (fin 1, nan) ∧
    fractionToR (fun _ => linearInterp) (fin (4 / 5)) ([1, 2, 3, 4].map fin : List (F ℚ)) ([1, 6, 5, 10].map fin) (fin 2) none none
      (fin 2) (fin 1) none 7 = .ok (fin 2, nan) ∧
    linearInterp ([1, 2, 3, 4].map fin : List (F ℚ)) ([1, 6, 5, 10].map fin) (fin 2 * fin 2) = .ok (fin 10) := by decide +kernel

/-- C14: the result is three NaNs, or the two radii `fraction_to_r` gives for the fractions and 5*log10 of their ratio. -/
theorem C14_concentration_consistent [HasLog10 K] (ip : InterpFam K) (f1 f2 : F K) (R flux : List (F K)) (rp : F K)
    (fe : Option (List (F K))) (rpe : Option (F K)) (eps epsf : F K) (kind : Option String) (num : Nat) {a b c : F K}
    (h : calculateConcentrationIndex ip f1 f2 R flux rp fe rpe eps epsf kind num = .ok (a, b, c)) :
    ∃ r1 e1 r2 e2, fractionToR ip f1 R flux rp fe rpe eps epsf kind num = .ok (r1, e1) ∧
      fractionToR ip f2 R flux rp fe rpe eps epsf kind num = .ok (r2, e2) ∧
      ((a = nan ∧ b = nan ∧ c = nan ∧ (r1 = nan ∨ r2 = nan)) ∨
       (a = r1 ∧ b = r2 ∧ r1 ≠ nan ∧ r2 ≠ nan ∧ c = fin 5 * F.log10 (r2 / r1))) := by
  unfold calculateConcentrationIndex at h
  simp only [bind_eq_ok] at h
  obtain ⟨⟨r1, e1⟩, h1, ⟨r2, e2⟩, h2, h⟩ := h
  refine ⟨r1, e1, r2, e2, h1, h2, ?_⟩
  by_cases hn : (r1.isNaN || r2.isNaN) = true
  · rw [if_pos hn] at h
    injection h with h; injection h with h3 h; injection h with h4 h5
    refine Or.inl ⟨h3.symm, h4.symm, h5.symm, ?_⟩
    simpa [F.isNaN_iff] using hn
  · rw [if_neg hn] at h
    injection h with h; injection h with h3 h; injection h with h4 h5
    refine Or.inr ⟨h3.symm, h4.symm, ?_, ?_, h5.symm⟩
    · intro h; simp [h] at hn
    · intro h; simp [h] at hn

end

/-- log10 of a ratio of positive numbers. -/
theorem log10_ratio {x y : ℝ} (hx : 0 < x) (hy : 0 < y) :
    F.log10 (fin y / fin x : F ℝ) = fin (Real.logb 10 (y / x)) := by
  rw [fin_div_of_ne _ hx.ne']
  have h : 0 < y / x := div_pos hy hx
  simp [F.log10, h.ne', not_lt.2 h.le, HasLog10.log10]

/-- C14: for positive radii, fractions in order, and non-negative flux inside `r_epsilon` the index is NaN or non-negative; swapping the
fractions swaps the radii and negates the index. -/
theorem C14_concentration_sign (ip : InterpFam ℝ) (R : List ℝ) (flux : List (F ℝ)) (rp : F ℝ)
    (fe : Option (List (F ℝ))) (rpe : Option (F ℝ)) (eps : F ℝ) (epsf f1 f2 : ℝ) (kind : Option String) (num : Nat)
    (h2 : 2 ≤ R.length) (hR : Incr R) (hpos : ∀ x ∈ R, 0 < x) (hepsf : 0 < epsf) (hf : f1 ≤ f2) {E : ℝ} (hE : 0 ≤ E)
    (hflux : ip (kind.getD "cubic") (R.map fin) flux (rp * eps) = .ok (fin E)) {a b c : F ℝ}
    (h : calculateConcentrationIndex ip (fin f1) (fin f2) (R.map fin) flux rp fe rpe eps (fin epsf) kind num = .ok (a, b, c)) :
    (c = nan ∨ ∃ C, c = fin C ∧ 0 ≤ C) ∧
    calculateConcentrationIndex ip (fin f2) (fin f1) (R.map fin) flux rp fe rpe eps (fin epsf) kind num = .ok (b, a, -c) := by
  obtain ⟨r1, e1, r2, e2, g1, g2, hcase⟩ := C14_concentration_consistent ip _ _ _ _ _ _ _ _ _ _ _ h
  rcases hcase with ⟨rfl, rfl, rfl, hn⟩ | ⟨rfl, rfl, hn1, hn2, hc⟩
  · refine ⟨Or.inl rfl, ?_⟩
    unfold calculateConcentrationIndex
    simp only [g1, g2, Except.bind_ok]
    rw [if_pos]
    · rfl
    · rcases hn with h | h <;> simp [h]
  · obtain ⟨_, hmono⟩ := C13_monotone_in_fraction ip R flux rp fe fe rpe rpe eps epsf f1 f2 kind num h2 hR hepsf hf hE hflux g2 hn2
    obtain ⟨_, hle⟩ := hmono _ _ g1
    have hp : ∀ f r e, r ≠ nan → fractionToR ip (fin f) (R.map fin) flux rp fe rpe eps (fin epsf) kind num = .ok (r, e) →
        ∃ x, r = fin x ∧ 0 < x := by
      intro f r e hr hh
      rcases C12_fraction_in_range ip _ R flux rp fe rpe eps _ kind num h2 hh with h | ⟨_, _, x, _, _, hx, ⟨⟨y, hy, hyx⟩, _⟩⟩
      · exact absurd h hr
      · exact ⟨x, hx, (hpos y hy).trans_le hyx⟩
    obtain ⟨x, rfl, hx⟩ := hp f1 _ _ hn1 g1
    obtain ⟨y, rfl, hy⟩ := hp f2 _ _ hn2 g2
    rw [le_fin, decide_eq_true_eq] at hle
    rw [log10_ratio hx hy, fin_mul] at hc
    constructor
    · refine Or.inr ⟨_, hc, ?_⟩
      have : 1 ≤ y / x := by rw [le_div_iff₀ hx]; linarith
      have := Real.logb_nonneg (b := 10) (by norm_num) this
      positivity
    · unfold calculateConcentrationIndex
      simp only [g1, g2, Except.bind_ok]
      rw [if_neg (by simp), log10_ratio hy hx, hc]
      have : Real.logb 10 (x / y) = - Real.logb 10 (y / x) := by
        rw [← Real.logb_inv, inv_div]
      rw [this, fin_mul, neg_fin, mul_neg]

/-- Non-vacuity of the hypotheses: linear interpolation of a growing curve over ℝ. -/
example : ∃ E : ℝ, 0 ≤ E ∧
    (fun _ => linearInterp : InterpFam ℝ) ((some "linear").getD "cubic") ([1, 2].map fin) ([1, 3].map fin) (fin 1 * fin 2) = .ok (fin E) := by
  refine ⟨3, by norm_num, ?_⟩
  have := (linear_lawful (K := ℝ)).node [1, 2] [1, 3] rfl (by simp) (by simp [Incr]) 1 (by simp)
  simpa using this

end Verif.Props

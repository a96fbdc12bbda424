import Verif.Props.RoundingProfile
import Verif.Props.Utils

/-!
# C123: utilities in floating point
-/

set_option linter.unusedSectionVars false

namespace Verif.Props

open F Spec

section
variable {K : Type} [Field K] [LinearOrder K] [IsStrictOrderedRing K]

/-- Without rounding, the exact list. -/
theorem radius_list_exact (m : F K) (n : Nat) : makeRadiusListR id m n = makeRadiusList m n := by
  unfold makeRadiusListR makeRadiusList
  simp only [rnd_id]

/-- **C123.** In rounded arithmetic with unit roundoff `u` and `4 n u ≤ 1`, `make_radius_list` gives `n` numbers that increase strictly and
are positive, entry `i` being `(i + 1) max_pix / n` up to a relative error of `2 u + u²`. -/
theorem C123_radius_list {fl : K → K} {u : K} (hu : RelErr u fl) (hu0 : 0 ≤ u) {m : K} (hm : 0 < m) (n : Nat) (hn : 4 * n * u ≤ 1) :
    ∃ l : List K, makeRadiusListR fl (fin m) n = l.map fin ∧ l.length = n ∧ Incr l ∧ (∀ x ∈ l, 0 < x) ∧
      ∀ i (h : i < l.length), |l[i] - (i + 1) * m / n| ≤ (2 * u + u ^ 2) * ((i + 1) * m / n) := by
  let g : Nat → K := fun i => fl (fl (((i + 1 : Nat) : K) * m) / n)
  refine ⟨(List.range n).map g, ?_, by simp, ?_⟩
  · unfold makeRadiusListR
    rw [List.map_map]
    apply List.map_congr_left
    intro i hi
    have hn0 : (n : K) ≠ 0 := by
      have : 0 < n := by have := List.mem_range.1 hi; omega
      exact_mod_cast this.ne'
    rw [fin_mul, rnd_fin, fin_div_of_ne _ hn0, rnd_fin]
    rfl
  rcases Nat.eq_zero_or_pos n with rfl | hpos
  · simp [Incr]
  have hnK : (0 : K) < n := by exact_mod_cast hpos
  have hu1 : 4 * u ≤ 1 := by
    have : (1 : K) ≤ n := by exact_mod_cast hpos
    nlinarith
  have bnd : ∀ i : Nat, (1 - u) ^ 2 * (((i : K) + 1) * m / n) ≤ g i ∧ g i ≤ (1 + u) ^ 2 * (((i : K) + 1) * m / n) := by
    intro i
    have h0 : (0 : K) ≤ ((i + 1 : Nat) : K) * m := by positivity
    obtain ⟨a1, a2⟩ := relErr_le hu h0
    have h1 : 0 ≤ fl (((i + 1 : Nat) : K) * m) := le_trans (mul_nonneg (by linarith) h0) a2
    obtain ⟨b1, b2⟩ := relErr_le hu (div_nonneg h1 hnK.le)
    have c1 : fl (((i + 1 : Nat) : K) * m) / n ≤ (1 + u) * (((i + 1 : Nat) : K) * m) / n := div_le_div_of_nonneg_right a1 hnK.le
    have c2 : (1 - u) * (((i + 1 : Nat) : K) * m) / n ≤ fl (((i + 1 : Nat) : K) * m) / n := div_le_div_of_nonneg_right a2 hnK.le
    constructor
    · refine le_trans (le_of_eq ?_) (le_trans (mul_le_mul_of_nonneg_left c2 (by linarith : 0 ≤ 1 - u)) b2)
      push_cast; ring
    · refine le_trans b1 (le_trans (mul_le_mul_of_nonneg_left c1 (by linarith : 0 ≤ 1 + u)) (le_of_eq ?_))
      push_cast; ring
  have hpos' : ∀ i : Nat, 0 < ((i : K) + 1) * m / n := fun i => by positivity
  have step : ∀ i, i + 1 < n → g i < g (i + 1) := by
    intro i hi
    have h1 := (bnd i).2
    have h2 := (bnd (i + 1)).1
    refine lt_of_le_of_lt h1 (lt_of_lt_of_le ?_ h2)
    have e1 : (1 + u) ^ 2 * (((i : K) + 1) * m / n) = ((1 + u) ^ 2 * ((i : K) + 1)) * (m / n) := by ring
    have e2 : (1 - u) ^ 2 * ((((i + 1 : Nat) : K) + 1) * m / n) = ((1 - u) ^ 2 * ((i : K) + 2)) * (m / n) := by push_cast; ring
    rw [e1, e2]
    apply mul_lt_mul_of_pos_right _ (by positivity)
    have hi' : (i : K) + 2 ≤ n := by exact_mod_cast (by omega : i + 2 ≤ n)
    have key : 4 * ((i : K) + 2) * u ≤ 1 := le_trans (by nlinarith) hn
    nlinarith
  have lt : ∀ i j, i < j → j < n → g i < g j := by
    intro i j hij hj
    induction j with
    | zero => omega
    | succ j ih =>
      rcases Nat.lt_or_ge i j with h | h
      · exact (ih h (by omega)).trans (step j hj)
      · have : i = j := by omega
        subst this
        exact step i hj
  refine ⟨?_, ?_, ?_⟩
  · unfold Incr
    rw [List.pairwise_iff_getElem]
    intro i j hi hj hij
    simp only [List.getElem_map, List.getElem_range]
    exact lt i j hij (by simpa using hj)
  · intro x hx
    obtain ⟨i, -, rfl⟩ := List.mem_map.1 hx
    exact lt_of_lt_of_le (mul_pos (pow_pos (by linarith) 2) (hpos' i)) (bnd i).1
  · intro i hi
    simp only [List.getElem_map, List.getElem_range]
    obtain ⟨b1, b2⟩ := bnd i
    have hp := hpos' i
    rw [abs_le]
    constructor
    · nlinarith [mul_nonneg (sq_nonneg u) hp.le]
    · nlinarith

/-- **C123 for doubles.** Up to 2⁵¹ radii. -/
theorem C123_double [FloorRing K] {m : K} (hm : 0 < m) (n : Nat) (hn : n ≤ 2 ^ 51) :
    ∃ l : List K, makeRadiusListR fl53 (fin m) n = l.map fin ∧ l.length = n ∧ Incr l ∧ (∀ x ∈ l, 0 < x) ∧
      ∀ i (h : i < l.length), |l[i] - (i + 1) * m / n| ≤ 3 / 2 ^ 53 * ((i + 1) * m / n) := by
  have hu : RelErr ((2 : K) ^ (-((53 : Nat) : ℤ))) (fl53 : K → K) := flBits_relErr 53 (by decide)
  have e : (2 : K) ^ (-((53 : Nat) : ℤ)) = 1 / 2 ^ 53 := by rw [zpow_neg, zpow_natCast, one_div]
  rw [e] at hu
  have hn' : (n : K) ≤ 2 ^ 51 := by exact_mod_cast hn
  obtain ⟨l, h1, h2, h3, h4, h5⟩ := C123_radius_list hu (by positivity) hm n (by
    have : 4 * (n : K) * (1 / 2 ^ 53) ≤ 4 * 2 ^ 51 * (1 / 2 ^ 53) := mul_le_mul_of_nonneg_right (by linarith) (by positivity)
    refine this.trans (by norm_num))
  refine ⟨l, h1, h2, h3, h4, fun i h => (h5 i h).trans ?_⟩
  apply mul_le_mul_of_nonneg_right (by norm_num)
  positivity

end

/-- **C123, the last radius, violated.** In double precision the list of three radii up to 10.7 does not end at 10.7 but one unit in the
last place below. -/
theorem C123_last_violated : let m : ℚ := 3011782250804019 / 281474976710656
    fl53 m = m ∧ (makeRadiusListR fl53 (fin m) 3)[2]? = some (fin (m - 1 / 562949953421312)) := by
  decide +kernel

/-- Non-vacuity: three radii up to 10.7 in double precision. -/
example : ∃ l : List ℚ, makeRadiusListR fl53 (fin (3011782250804019 / 281474976710656)) 3 = l.map fin ∧ l.length = 3 ∧ Incr l := by
  obtain ⟨l, h1, h2, h3, -⟩ := C123_double (K := ℚ) (m := 3011782250804019 / 281474976710656) (by norm_num) 3 (by norm_num)
  exact ⟨l, h1, h2, h3⟩

end Verif.Props

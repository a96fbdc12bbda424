import Verif.Model.Approx
import Mathlib.Analysis.Calculus.Deriv.MeanValue
import Mathlib.Analysis.SpecialFunctions.ExpDeriv
import Mathlib.Analysis.SpecialFunctions.Exponential
import Mathlib.Tactic

/-!
# Properties of the approximations of `PetroApprox`

The derivatives are bounded below by polynomials; these are positive because all their coefficients are, after moving the origin to the
left end of the interval or in the Bernstein basis of the interval.
-/

set_option linter.unusedSectionVars false
set_option linter.style.longLine false

namespace Verif.Props

/-! ### Positive polynomials -/

theorem u2080_deriv_pos {x : ℝ} (hx : (4 / 5) ≤ x) :
    0 < (-(361130833 / 100000000)) * x ^ 0 + (19109879 / 2500000) * x ^ 1 + (-(2462199 / 500000)) * x ^ 2 + (38059409 / 25000000) * x ^ 3 + (-(28149 / 125000)) * x ^ 4 + (332883 / 25000000) * x ^ 5 := by
  rcases le_or_gt x (24 / 5) with h | h
  · obtain ⟨u, hu, rfl⟩ : ∃ u : ℝ, 0 ≤ u ∧ x = (4 / 5) + u := ⟨x - (4 / 5), by linarith, by ring⟩
    obtain ⟨v, hv, hv'⟩ : ∃ v : ℝ, 0 ≤ v ∧ u + v = 4 := ⟨4 - u, by linarith, by ring⟩
    have e : v = 4 - u := by linarith
    have key : (-(361130833 / 100000000)) * ((4 / 5) + u) ^ 0 + (19109879 / 2500000) * ((4 / 5) + u) ^ 1 + (-(2462199 / 500000)) * ((4 / 5) + u) ^ 2 + (38059409 / 25000000) * ((4 / 5) + u) ^ 3 + (-(28149 / 125000)) * ((4 / 5) + u) ^ 4 + (332883 / 25000000) * ((4 / 5) + u) ^ 5 =
        (13693577243 / 320000000000000) * (u ^ 0 * v ^ 5) + (577182069883 / 64000000000000) * (u ^ 1 * v ^ 4) + (107041773723 / 32000000000000) * (u ^ 2 * v ^ 3) + (377232704763 / 32000000000000) * (u ^ 3 * v ^ 2) + (410823359003 / 64000000000000) * (u ^ 4 * v ^ 1) + (740893112443 / 320000000000000) * (u ^ 5 * v ^ 0) := by
      rw [e]; ring
    rw [key]
    rcases hu.eq_or_lt with h0 | h0
    · rw [← h0] at hv' ⊢
      have : v = 4 := by linarith
      rw [this]; norm_num
    · positivity
  obtain ⟨u, hu, rfl⟩ : ∃ u : ℝ, 0 ≤ u ∧ x = (24 / 5) + u := ⟨x - (24 / 5), by linarith, by ring⟩
  have key : (-(361130833 / 100000000)) * ((24 / 5) + u) ^ 0 + (19109879 / 2500000) * ((24 / 5) + u) ^ 1 + (-(2462199 / 500000)) * ((24 / 5) + u) ^ 2 + (38059409 / 25000000) * ((24 / 5) + u) ^ 3 + (-(28149 / 125000)) * ((24 / 5) + u) ^ 4 + (332883 / 25000000) * ((24 / 5) + u) ^ 5 = (740893112443 / 312500000000) * u ^ 0 + (2062935959 / 1562500000) * u ^ 1 + (185299437 / 312500000) * u ^ 2 + (33317461 / 125000000) * u ^ 3 + (73731 / 781250) * u ^ 4 + (332883 / 25000000) * u ^ 5 := by ring
  rw [key]; positivity

theorem c2080_deriv_pos {x : ℝ} (hx : 0 ≤ x) :
    0 < (20487513 / 100000000) * x ^ 0 + (8626531 / 50000000) * x ^ 1 + (320121 / 10000000) * x ^ 2 + (-(82523 / 25000000)) * x ^ 3 + (1243 / 10000000) * x ^ 4 := by
  rcases le_or_gt x 16 with h | h
  · obtain ⟨u, hu, rfl⟩ : ∃ u : ℝ, 0 ≤ u ∧ x = 0 + u := ⟨x - 0, by linarith, by ring⟩
    obtain ⟨v, hv, hv'⟩ : ∃ v : ℝ, 0 ≤ v ∧ u + v = 16 := ⟨16 - u, by linarith, by ring⟩
    have e : v = 16 - u := by linarith
    have key : (20487513 / 100000000) * (0 + u) ^ 0 + (8626531 / 50000000) * (0 + u) ^ 1 + (320121 / 10000000) * (0 + u) ^ 2 + (-(82523 / 25000000)) * (0 + u) ^ 3 + (1243 / 10000000) * (0 + u) ^ 4 =
        (20487513 / 6553600000000) * (u ^ 0 * v ^ 4) + (89499761 / 1638400000000) * (u ^ 1 * v ^ 3) + (885290907 / 3276800000000) * (u ^ 2 * v ^ 2) + (299264929 / 1638400000000) * (u ^ 3 * v ^ 1) + (578601913 / 6553600000000) * (u ^ 4 * v ^ 0) := by
      rw [e]; ring
    rw [key]
    rcases hu.eq_or_lt with h0 | h0
    · rw [← h0] at hv' ⊢
      have : v = 16 := by linarith
      rw [this]; norm_num
    · positivity
  obtain ⟨u, hu, rfl⟩ : ∃ u : ℝ, 0 ≤ u ∧ x = 16 + u := ⟨x - 16, by linarith, by ring⟩
  have key : (20487513 / 100000000) * (16 + u) ^ 0 + (8626531 / 50000000) * (16 + u) ^ 1 + (320121 / 10000000) * (16 + u) ^ 2 + (-(82523 / 25000000)) * (16 + u) ^ 3 + (1243 / 10000000) * (16 + u) ^ 4 = (578601913 / 100000000) * u ^ 0 + (34917123 / 50000000) * u ^ 1 + (3224637 / 50000000) * u ^ 2 + (116357 / 25000000) * u ^ 3 + (1243 / 10000000) * u ^ 4 := by ring
  rw [key]; positivity

theorem p0502_deriv_pos {x : ℝ} (hx : (1 / 5) ≤ x) :
    0 < (-(106169421962221 / 834621100000000)) * x ^ 0 + (50361697 / 50000000) * x ^ 1 + (-(3647427 / 10000000)) * x ^ 2 + (506759 / 5000000) * x ^ 3 + (-(196243 / 20000000)) * x ^ 4 + (27243 / 50000000) * x ^ 5 := by
  rcases le_or_gt x (41 / 5) with h | h
  · obtain ⟨u, hu, rfl⟩ : ∃ u : ℝ, 0 ≤ u ∧ x = (1 / 5) + u := ⟨x - (1 / 5), by linarith, by ring⟩
    obtain ⟨v, hv, hv'⟩ : ∃ v : ℝ, 0 ≤ v ∧ u + v = 8 := ⟨8 - u, by linarith, by ring⟩
    have e : v = 8 - u := by linarith
    have key : (-(106169421962221 / 834621100000000)) * ((1 / 5) + u) ^ 0 + (50361697 / 50000000) * ((1 / 5) + u) ^ 1 + (-(3647427 / 10000000)) * ((1 / 5) + u) ^ 2 + (506759 / 5000000) * ((1 / 5) + u) ^ 3 + (-(196243 / 20000000)) * ((1 / 5) + u) ^ 4 + (27243 / 50000000) * ((1 / 5) + u) ^ 5 =
        (19706720677045887 / 10683150080000000000000) * (u ^ 0 * v ^ 5) + (475195680674346067 / 2136630016000000000000) * (u ^ 1 * v ^ 4) + (291692577023381447 / 1068315008000000000000) * (u ^ 2 * v ^ 3) + (1033611600182280027 / 1068315008000000000000) * (u ^ 3 * v ^ 2) + (1790270692987089807 / 2136630016000000000000) * (u ^ 4 * v ^ 1) + (4996712703240578787 / 10683150080000000000000) * (u ^ 5 * v ^ 0) := by
      rw [e]; ring
    rw [key]
    rcases hu.eq_or_lt with h0 | h0
    · rw [← h0] at hv' ⊢
      have : v = 8 := by linarith
      rw [this]; norm_num
    · positivity
  obtain ⟨u, hu, rfl⟩ : ∃ u : ℝ, 0 ≤ u ∧ x = (41 / 5) + u := ⟨x - (41 / 5), by linarith, by ring⟩
  have key : (-(106169421962221 / 834621100000000)) * ((41 / 5) + u) ^ 0 + (50361697 / 50000000) * ((41 / 5) + u) ^ 1 + (-(3647427 / 10000000)) * ((41 / 5) + u) ^ 2 + (506759 / 5000000) * ((41 / 5) + u) ^ 3 + (-(196243 / 20000000)) * ((41 / 5) + u) ^ 4 + (27243 / 50000000) * ((41 / 5) + u) ^ 5 = (4996712703240578787 / 326023867187500000) * u ^ 0 + (19208968059 / 3125000000) * u ^ 1 + (366900459 / 312500000) * u ^ 2 + (18234643 / 125000000) * u ^ 3 + (1252711 / 100000000) * u ^ 4 + (27243 / 50000000) * u ^ 5 := by ring
  rw [key]; positivity

theorem eps_deriv_pos {x : ℝ} (hx : 0 ≤ x) :
    0 < (113894893085709 / 179173700000000) * x ^ 0 + (73318325382158906713 / 160516073858450000000) * x ^ 1 + (7535996569755585386389853 / 107850970735094110368750000) * x ^ 2 + (153364011328491419804483470413961 / 6956660691071471377071828675000000) * x ^ 3 + (6639274537164371908782370329287425163 / 5982963051186395957155462605436068000000) * x ^ 4 + (1331177408000000000000000000000000000 / 8039922201332669649814392826707153127587) * x ^ 5 := by
  obtain ⟨u, hu, rfl⟩ : ∃ u : ℝ, 0 ≤ u ∧ x = 0 + u := ⟨x - 0, by linarith, by ring⟩
  have key : (113894893085709 / 179173700000000) * (0 + u) ^ 0 + (73318325382158906713 / 160516073858450000000) * (0 + u) ^ 1 + (7535996569755585386389853 / 107850970735094110368750000) * (0 + u) ^ 2 + (153364011328491419804483470413961 / 6956660691071471377071828675000000) * (0 + u) ^ 3 + (6639274537164371908782370329287425163 / 5982963051186395957155462605436068000000) * (0 + u) ^ 4 + (1331177408000000000000000000000000000 / 8039922201332669649814392826707153127587) * (0 + u) ^ 5 = (113894893085709 / 179173700000000) * u ^ 0 + (73318325382158906713 / 160516073858450000000) * u ^ 1 + (7535996569755585386389853 / 107850970735094110368750000) * u ^ 2 + (153364011328491419804483470413961 / 6956660691071471377071828675000000) * u ^ 3 + (6639274537164371908782370329287425163 / 5982963051186395957155462605436068000000) * u ^ 4 + (1331177408000000000000000000000000000 / 8039922201332669649814392826707153127587) * u ^ 5 := by ring
  rw [key]; positivity

theorem exp_taylor_five {y : ℝ} (hy : 0 ≤ y) : 1 + y + y ^ 2 / 2 + y ^ 3 / 6 + y ^ 4 / 24 + y ^ 5 / 120 ≤ Real.exp y := by
  have h := Real.sum_le_exp_of_nonneg hy 6
  simp only [Finset.sum_range_succ, Finset.sum_range_zero, Nat.factorial] at h
  norm_num at h
  linarith

/-! ### C79 -/

theorem increasing_of_hasDeriv {f f' : ℝ → ℝ} (hf : ∀ x, HasDerivAt f (f' x) x) (a : ℝ) (hpos : ∀ x, a ≤ x → 0 < f' x) {x y : ℝ}
    (hx : a ≤ x) (hxy : x < y) : f x < f y := by
  have : StrictMonoOn f (Set.Ici a) := by
    apply strictMonoOn_of_deriv_pos (convex_Ici a)
    · exact fun z _ => (hf z).continuousAt.continuousWithinAt
    · intro z hz
      rw [interior_Ici] at hz
      rw [(hf z).deriv]
      exact hpos z (le_of_lt hz)
  exact this hx (le_trans hx hxy.le) hxy

/-- The derivative of a polynomial, by Horner's rule. -/
noncomputable def polyDeriv : List ℝ → ℝ → ℝ
  | [], _ => 0
  | _ :: c, x => polynomial1D c x + x * polyDeriv c x

theorem polynomial1D_hasDeriv (c : List ℝ) (x : ℝ) : HasDerivAt (polynomial1D c) (polyDeriv c x) x := by
  induction c with
  | nil => exact hasDerivAt_const x 0
  | cons a c ih =>
    have := ((hasDerivAt_id x).mul ih).const_add a
    refine this.congr_deriv ?_
    simp [polyDeriv]

theorem exponential1D_hasDeriv (a t x : ℝ) : HasDerivAt (exponential1D a t) (a / t * Real.exp (x / t)) x := by
  have h := (((hasDerivAt_id x).div_const t).exp).const_mul a
  refine h.congr_deriv ?_
  simp only [id]; ring

/-- **C79, Sérsic index.** The estimated Sérsic index increases strictly with the concentration. -/
theorem C79_index_increasing {x y : ℝ} (hx : 0 ≤ x) (hxy : x < y) : c2080ToN x < c2080ToN y := by
  refine increasing_of_hasDeriv (f := c2080ToN) (fun z => polynomial1D_hasDeriv _ z) 0 (fun z hz => ?_) hx hxy
  refine lt_of_lt_of_eq (c2080_deriv_pos hz) ?_
  simp only [polyDeriv, polynomial1D, List.foldr]; norm_num; ring

/-- **C79, corrected concentration.** From 0.8 on the corrected concentration increases strictly with the uncorrected one. -/
theorem C79_concentration_increasing_partial {x y : ℝ} (hx : 4 / 5 ≤ x) (hxy : x < y) : u2080ToC2080 x < u2080ToC2080 y := by
  refine increasing_of_hasDeriv (f := u2080ToC2080) (fun z => polynomial1D_hasDeriv _ z) _ (fun z hz => ?_) hx hxy
  refine lt_of_lt_of_eq (u2080_deriv_pos hz) ?_
  simp only [polyDeriv, polynomial1D, List.foldr]; norm_num; ring

/-- **C79, epsilon from the Sérsic index.** It increases strictly. -/
theorem C79_epsilon_increasing {x y : ℝ} (hx : 0 ≤ x) (hxy : x < y) : nToEpsilon x < nToEpsilon y := by
  refine increasing_of_hasDeriv (f := nToEpsilon)
    (fun z => (polynomial1D_hasDeriv _ z).add (exponential1D_hasDeriv _ _ z)) 0 (fun z hz => ?_) hx hxy
  refine lt_of_lt_of_le (eps_deriv_pos hz) ?_
  have h := mul_le_mul_of_nonneg_left (exp_taylor_five (y := z / 2.6876055) (by positivity)) (a := 7.48787292 / 2.6876055) (by norm_num)
  refine le_trans (le_of_eq ?_) (add_le_add_right h _)
  simp only [polyDeriv, polynomial1D, List.foldr]; norm_num; ring

/-- **C79, epsilon from P0502.** From 0.2 on it increases strictly. -/
theorem C79_p0502_increasing_partial {x y : ℝ} (hx : 1 / 5 ≤ x) (hxy : x < y) : p0502ToEpsilon x < p0502ToEpsilon y := by
  refine increasing_of_hasDeriv (f := p0502ToEpsilon)
    (fun z => (polynomial1D_hasDeriv _ z).add (exponential1D_hasDeriv _ _ z)) _ (fun z hz => ?_) hx hxy
  refine lt_of_lt_of_le (p0502_deriv_pos hz) ?_
  have h := mul_le_mul_of_nonneg_left (Real.one_le_exp (x := z / 1.83616642) (by
    have : (0 : ℝ) ≤ z := by linarith
    positivity)) (a := 0.03312881 / 1.83616642) (by norm_num)
  refine le_trans (le_of_eq ?_) (add_le_add_right h _)
  simp only [polyDeriv, polynomial1D, List.foldr]; norm_num; ring

/-- **C79, the chain.** Of two measured concentrations of at least 1.5, the larger one gets the larger Sérsic index and the larger
epsilon, and both estimates are positive. -/
theorem C79_chain {x y : ℝ} (hx : 3 / 2 ≤ x) (hxy : x < y) :
    0 < c2080ToN (u2080ToC2080 x) ∧ c2080ToN (u2080ToC2080 x) < c2080ToN (u2080ToC2080 y) ∧
      9 / 10 < nToEpsilon (c2080ToN (u2080ToC2080 x)) ∧
      nToEpsilon (c2080ToN (u2080ToC2080 x)) < nToEpsilon (c2080ToN (u2080ToC2080 y)) := by
  have hu : 7 / 5 < u2080ToC2080 x := by
    have h0 : (7 : ℝ) / 5 < u2080ToC2080 (3 / 2) := by
      simp only [u2080ToC2080, polynomial1D, List.foldr]; norm_num
    rcases hx.eq_or_lt with h | h
    · rwa [← h]
    · exact h0.trans (C79_concentration_increasing_partial (by norm_num) h)
  have hn : 0 < c2080ToN (u2080ToC2080 x) := by
    have h0 : (0 : ℝ) < c2080ToN (7 / 5) := by simp only [c2080ToN, polynomial1D, List.foldr]; norm_num
    exact h0.trans (C79_index_increasing (by norm_num) hu)
  have hc := C79_concentration_increasing_partial (by linarith) hxy
  have hnn := C79_index_increasing (by linarith) hc
  refine ⟨hn, hnn, ?_, C79_epsilon_increasing hn.le hnn⟩
  have h0 : (9 : ℝ) / 10 < nToEpsilon 0 := by
    simp only [nToEpsilon, polynomial1D, exponential1D, List.foldr]; norm_num
  exact h0.trans (C79_epsilon_increasing le_rfl hn)

example : 0 < c2080ToN (u2080ToC2080 2) := (C79_chain (x := 2) (y := 3) (by norm_num) (by norm_num)).1

/-- **C79, violated.** Between 0 and 0.7 the corrected concentration decreases, between 0 and 0.05 epsilon decreases with P0502, and a
concentration of 1 gets a negative Sérsic index. -/
theorem C79_violated : u2080ToC2080 (7 / 10) < u2080ToC2080 0 ∧ p0502ToEpsilon (1 / 20) < p0502ToEpsilon 0 ∧ c2080ToN 1 < 0 := by
  refine ⟨?_, ?_, ?_⟩
  · simp only [u2080ToC2080, polynomial1D, List.foldr]; norm_num
  · simp only [p0502ToEpsilon, polynomial1D, exponential1D, List.foldr]
    have hb : Real.exp (1 / 20 / 1.83616642) ≤ 1.03 := by
      have h1 := Real.abs_exp_sub_one_sub_id_le (x := 1 / 20 / 1.83616642) (by norm_num [abs_le])
      have h2 := (abs_le.1 h1).2
      norm_num at h2 ⊢
      linarith
    norm_num at hb ⊢
    linarith
  · simp only [c2080ToN, polynomial1D, List.foldr]; norm_num

end Verif.Props

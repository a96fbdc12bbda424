import Verif.Lemmas.SersicFit
import Mathlib.Analysis.SpecialFunctions.Complex.Analytic
import Mathlib.Analysis.SpecialFunctions.ExpDeriv
import Mathlib.Analysis.SpecialFunctions.Pow.Asymptotics
import Mathlib.Algebra.Polynomial.BigOperators
import Mathlib.Algebra.Polynomial.Eval.Degree
import Mathlib.Algebra.BigOperators.Ring.Finset

/-!
# The cusps of Sersic profiles determine them

A Sersic profile with index above 1/2 is not smooth at its centre. So it can be told from what is smooth there. Several profiles may share their centre (a bulge and a disk). The terms `exp (-c t^p)`, for distinct `c > 0` and `p < 2`, are independent modulo what is smooth:
the smallest power `p` has infinitely many multiples that are neither even nor multiples of the other powers.
-/

set_option linter.unusedSectionVars false

namespace Verif.Lemmas

open Verif Filter Topology Asymptotics

/-- Near zero, higher powers are smaller. -/
theorem rpow_isBigO {a b : ℝ} (h : a ≤ b) : (fun x : ℝ => x ^ b) =O[𝓝[>] 0] fun x => x ^ a := by
  refine IsBigO.of_bound 1 ?_
  have h1 : ∀ᶠ x : ℝ in 𝓝[>] 0, x < 1 := eventually_nhdsWithin_of_eventually_nhds (eventually_lt_nhds one_pos)
  filter_upwards [h1, self_mem_nhdsWithin] with x hx h0
  have h0' : (0 : ℝ) < x := h0
  rw [one_mul, Real.norm_of_nonneg (Real.rpow_nonneg h0'.le _), Real.norm_of_nonneg (Real.rpow_nonneg h0'.le _)]
  exact Real.rpow_le_rpow_of_exponent_ge h0' hx.le h

/-- A power that is as small as a higher one has the factor zero. -/
theorem rpow_coeff_zero {k a b : ℝ} (hab : a < b) (h : (fun x : ℝ => k * x ^ a) =O[𝓝[>] 0] fun x => x ^ b) : k = 0 := by
  have h1 : (fun x : ℝ => x ^ (-a) * (k * x ^ a)) =O[𝓝[>] 0] fun x => x ^ (-a) * x ^ b := (isBigO_refl _ _).mul h
  have h2 : Tendsto (fun x : ℝ => x ^ (-a) * x ^ b) (𝓝[>] 0) (𝓝 0) := by
    have h3 : Tendsto (fun x : ℝ => x ^ (b - a)) (𝓝[>] 0) (𝓝 0) := by
      have h4 : Tendsto (fun x : ℝ => x ^ (b - a)) (𝓝 0) (𝓝 (0 ^ (b - a))) := (Real.continuous_rpow_const (by linarith)).tendsto 0
      rw [Real.zero_rpow (by linarith)] at h4
      exact h4.mono_left nhdsWithin_le_nhds
    refine h3.congr' ?_
    filter_upwards [self_mem_nhdsWithin] with x hx
    rw [← Real.rpow_add hx]
    congr 1
    ring
  have h3 := h1.trans_tendsto h2
  have h4 : Tendsto (fun _ : ℝ => k) (𝓝[>] 0) (𝓝 0) := by
    refine h3.congr' ?_
    filter_upwards [self_mem_nhdsWithin] with x hx
    have h0' : (0 : ℝ) < x := hx
    rw [mul_left_comm, ← Real.rpow_add h0', neg_add_cancel, Real.rpow_zero, mul_one]
  exact tendsto_nhds_unique tendsto_const_nhds h4

theorem rpow_tendsto_right {p : ℝ} (hp : 0 < p) : Tendsto (fun t : ℝ => t ^ p) (𝓝[>] 0) (𝓝[>] 0) := by
  refine tendsto_nhdsWithin_iff.2 ⟨?_, ?_⟩
  · have h4 : Tendsto (fun x : ℝ => x ^ p) (𝓝 0) (𝓝 (0 ^ p)) := (Real.continuous_rpow_const hp.le).tendsto 0
    rw [Real.zero_rpow hp.ne'] at h4
    exact h4.mono_left nhdsWithin_le_nhds
  · filter_upwards [self_mem_nhdsWithin] with x hx
    exact Real.rpow_pos_of_pos hx p

/-- Powers in a sum that is as small as a higher power have the factor zero. -/
theorem rpow_sum_zero {E : Finset ℝ} {β : ℝ → ℝ} {Q : ℝ} (h : (fun t : ℝ => ∑ q ∈ E, β q * t ^ q) =O[𝓝[>] 0] fun t => t ^ Q) : ∀ q ∈ E, q < Q → β q = 0 := by
  by_contra hcon
  push Not at hcon
  obtain ⟨q₀, hq₀, hlt₀, hne₀⟩ := hcon
  have hB : (E.filter fun q => q < Q ∧ β q ≠ 0).Nonempty := ⟨q₀, Finset.mem_filter.2 ⟨hq₀, hlt₀, hne₀⟩⟩
  obtain ⟨m, hm, hmin⟩ := Finset.exists_min_image _ (fun q : ℝ => q) hB
  obtain ⟨hmE, hmQ, hmne⟩ := Finset.mem_filter.1 hm
  obtain ⟨b, hmb, hbQ, hbE⟩ : ∃ b, m < b ∧ b ≤ Q ∧ ∀ q ∈ E, m < q → b ≤ q := by
    have hne : (insert Q (E.filter fun q => m < q)).Nonempty := Finset.insert_nonempty _ _
    obtain ⟨b, hb, hbmin⟩ := Finset.exists_min_image _ (fun q : ℝ => q) hne
    refine ⟨b, ?_, hbmin Q (Finset.mem_insert_self _ _), fun q hq hmq => hbmin q (Finset.mem_insert_of_mem (Finset.mem_filter.2 ⟨hq, hmq⟩))⟩
    rcases Finset.mem_insert.1 hb with rfl | hb
    · exact hmQ
    · exact (Finset.mem_filter.1 hb).2
  refine hmne (rpow_coeff_zero hmb ?_)
  have h1 : (fun t : ℝ => ∑ q ∈ E.erase m, β q * t ^ q) =O[𝓝[>] 0] fun t => t ^ b := by
    refine IsBigO.fun_sum fun q hq => ?_
    obtain ⟨hqm, hqE⟩ := Finset.mem_erase.1 hq
    by_cases hz : β q = 0
    · simp only [hz, zero_mul]
      exact isBigO_zero _ _
    · refine ((isBigO_refl _ _).const_mul_left _).trans (rpow_isBigO ?_)
      rcases lt_or_gt_of_ne hqm with hlt | hgt
      · exact absurd (hmin q (Finset.mem_filter.2 ⟨hqE, hlt.trans hmQ, hz⟩)) (not_le.2 hlt)
      · exact hbE q hqE hgt
  refine ((h.trans (rpow_isBigO hbQ)).sub h1).congr_left fun t => ?_
  rw [← Finset.add_sum_erase _ _ hmE]
  ring

/-- The same if powers occur repeatedly. -/
theorem rpow_family_zero {ι : Type} {T : Finset ι} {α e : ι → ℝ} {Q : ℝ} (h : (fun t : ℝ => ∑ i ∈ T, α i * t ^ e i) =O[𝓝[>] 0] fun t => t ^ Q) {q : ℝ} (hq : q < Q) :
    (∑ i ∈ T, if e i = q then α i else 0) = 0 := by
  have h1 : (fun t : ℝ => ∑ r ∈ T.image e, (∑ i ∈ T, if e i = r then α i else 0) * t ^ r) =O[𝓝[>] 0] fun t => t ^ Q := by
    refine h.congr_left fun t => ?_
    simp only [Finset.sum_mul]
    rw [Finset.sum_comm]
    refine Finset.sum_congr rfl fun i hi => ?_
    rw [Finset.sum_eq_single (e i)]
    · rw [if_pos rfl]
    · intro r _ hr
      rw [if_neg (Ne.symm hr), zero_mul]
    · intro hn
      exact absurd (Finset.mem_image_of_mem e hi) hn
  by_cases hmem : q ∈ T.image e
  · exact rpow_sum_zero h1 q hmem hq
  · refine Finset.sum_eq_zero fun i hi => if_neg fun he => hmem ?_
    rw [← he]
    exact Finset.mem_image_of_mem e hi

/-- Multiples of a number that are not multiples of larger ones. -/
theorem multiples_apart {p : ℝ} (hp : 0 < p) (R : Finset ℝ) (hR : ∀ r ∈ R, p < r) :
    ∃ D : ℕ, 0 < D ∧ ∀ l : ℕ, ∀ r ∈ R, ∀ j : ℕ, ((1 + D * l : ℕ) : ℝ) * p ≠ j * r := by
  classical
  induction R using Finset.induction_on with
  | empty => exact ⟨1, one_pos, fun l r hr => absurd hr (Finset.notMem_empty r)⟩
  | insert r R _ ih =>
    obtain ⟨D, hD, h⟩ := ih fun s hs => hR s (Finset.mem_insert_of_mem hs)
    have hr := hR r (Finset.mem_insert_self _ _)
    obtain ⟨d, hd, h'⟩ : ∃ d : ℕ, 0 < d ∧ ∀ l : ℕ, ∀ j : ℕ, ((1 + d * l : ℕ) : ℝ) * p ≠ j * r := by
      by_cases hex : ∃ d : ℕ, 0 < d ∧ ∃ j₀ : ℕ, (d : ℝ) * p = j₀ * r
      · obtain ⟨d, hd, j₀, hj₀⟩ := hex
        refine ⟨d, hd, fun l j hj => ?_⟩
        have h1 : p = ((j : ℤ) - l * j₀ : ℤ) * r := by
          push_cast at hj ⊢
          linear_combination hj - l * hj₀
        have hr0 : 0 < r := hp.trans hr
        have h2 : (0 : ℝ) < ((j : ℤ) - l * j₀ : ℤ) := by
          by_contra hn
          rw [not_lt] at hn
          have := mul_nonneg_of_nonpos_of_nonpos hn (neg_nonpos.2 hr0.le)
          linarith
        have h3 : (1 : ℝ) ≤ ((j : ℤ) - l * j₀ : ℤ) := by exact_mod_cast (show (1 : ℤ) ≤ (j : ℤ) - l * j₀ from by exact_mod_cast h2)
        have := mul_le_mul_of_nonneg_right h3 hr0.le
        linarith
      · push Not at hex
        exact ⟨1, one_pos, fun l j => hex _ (by omega) j⟩
    refine ⟨D * d, Nat.mul_pos hD hd, fun l s hs j => ?_⟩
    rcases Finset.mem_insert.1 hs with rfl | hs
    · have := h' (D * l) j
      rwa [show d * (D * l) = D * d * l by ring] at this
    · have := h (d * l) s hs j
      rwa [← mul_assoc] at this

/-- Sums of powers of distinct numbers that all vanish have the factors zero. -/
theorem power_sums_zero {ι : Type} {S : Finset ι} {γ x : ι → ℝ} (hx : Set.InjOn x S) (h : ∀ l : ℕ, ∑ i ∈ S, γ i * x i ^ l = 0) : ∀ i ∈ S, γ i = 0 := by
  classical
  intro i hi
  set P : Polynomial ℝ := ∏ j ∈ S.erase i, (Polynomial.X - Polynomial.C (x j)) with hP
  have h1 : ∑ j ∈ S, γ j * P.eval (x j) = 0 := by
    simp only [Polynomial.eval_eq_sum_range, Finset.mul_sum]
    rw [Finset.sum_comm]
    refine Finset.sum_eq_zero fun l _ => ?_
    have := h l
    calc ∑ j ∈ S, γ j * (P.coeff l * x j ^ l) = P.coeff l * ∑ j ∈ S, γ j * x j ^ l := by
          rw [Finset.mul_sum]
          exact Finset.sum_congr rfl fun j _ => by ring
      _ = 0 := by rw [this, mul_zero]
  rw [Finset.sum_eq_single i] at h1
  · refine (mul_eq_zero.1 h1).resolve_right ?_
    rw [hP, Polynomial.eval_prod]
    refine Finset.prod_ne_zero_iff.2 fun j hj => ?_
    rw [Polynomial.eval_sub, Polynomial.eval_X, Polynomial.eval_C, sub_ne_zero]
    exact fun he => (Finset.mem_erase.1 hj).1 (hx (Finset.mem_of_mem_erase hj) hi he.symm)
  · intro j hj hji
    have : P.eval (x j) = 0 := by
      rw [hP, Polynomial.eval_prod]
      exact Finset.prod_eq_zero (Finset.mem_erase.2 ⟨hji, hj⟩) (by simp)
    rw [this, mul_zero]
  · exact fun hn => absurd hi hn

/-- The terms of `exp (-c t^p)`. -/
theorem exp_power_terms (A c : ℝ) {p : ℝ} (hp : 0 < p) (J : ℕ) :
    (fun t : ℝ => A * Real.exp (-(c * t ^ p)) - ∑ j ∈ Finset.range J, A * (-c) ^ j / j.factorial * t ^ (j * p)) =O[𝓝[>] 0] fun t => t ^ (J * p) := by
  have ht : Tendsto (fun t : ℝ => -(c * t ^ p)) (𝓝[>] 0) (𝓝 0) := by
    have h2 : Tendsto (fun x : ℝ => -(c * x)) (𝓝[>] 0) (𝓝 0) := by
      have : Continuous fun x : ℝ => -(c * x) := by fun_prop
      have h2 := this.tendsto 0
      simp only [mul_zero, neg_zero] at h2
      exact h2.mono_left nhdsWithin_le_nhds
    exact h2.comp (rpow_tendsto_right hp)
  have h2 := ((Real.exp_sub_sum_range_isBigO_pow J).comp_tendsto ht).const_mul_left A
  have hpw : ∀ t : ℝ, 0 < t → ∀ j : ℕ, t ^ (j * p) = (t ^ p) ^ j := fun t ht' j => by
    rw [mul_comm, Real.rpow_mul ht'.le, Real.rpow_natCast]
  have h3 : (fun t : ℝ => (-(c * t ^ p)) ^ J) =O[𝓝[>] 0] fun t => t ^ (J * p) := by
    have h4 : (fun t : ℝ => (-c) ^ J * t ^ (J * p)) =O[𝓝[>] 0] fun t => t ^ (J * p) := (isBigO_refl _ _).const_mul_left _
    refine h4.congr' ?_ (EventuallyEq.refl _ _)
    filter_upwards [self_mem_nhdsWithin] with t h0
    rw [hpw t h0, ← mul_pow, neg_mul]
  refine (h2.trans h3).congr' ?_ (EventuallyEq.refl _ _)
  filter_upwards [self_mem_nhdsWithin] with t h0
  simp only [Function.comp]
  rw [mul_sub, Finset.mul_sum]
  congr 1
  refine Finset.sum_congr rfl fun j _ => ?_
  rw [hpw t h0, ← neg_mul, mul_pow]
  ring

/-- The terms of the even part of an analytic function. -/
theorem even_part_terms {h : ℝ → ℝ} (hh : AnalyticAt ℝ h 0) (J : ℕ) :
    ∃ a : ℕ → ℝ, (∀ j, ¬ Even j → a j = 0) ∧
      (fun t : ℝ => (h t + h (-t)) / 2 - ∑ j ∈ Finset.range J, a j * t ^ (j : ℝ)) =O[𝓝[>] 0] fun t => t ^ (J : ℝ) := by
  obtain ⟨p, hp⟩ := hh
  refine ⟨fun j => p.coeff j * (1 + (-1) ^ j) / 2, fun j hj => ?_, ?_⟩
  · rw [Nat.not_even_iff_odd] at hj
    simp [hj.neg_one_pow]
  have h1 : (fun t : ℝ => h t - ∑ j ∈ Finset.range J, p.coeff j * t ^ j) =O[𝓝 0] fun t => t ^ J := by
    have h1 := hp.isBigO_sub_partialSum_pow J
    have h2 : (fun y : ℝ => h (0 + y) - p.partialSum J y) = fun t => h t - ∑ j ∈ Finset.range J, p.coeff j * t ^ j := by
      funext t
      rw [zero_add, FormalMultilinearSeries.partialSum]
      simp only [FormalMultilinearSeries.apply_eq_pow_smul_coeff, smul_eq_mul]
      congr 1
      exact Finset.sum_congr rfl fun j _ => mul_comm _ _
    rw [h2] at h1
    refine h1.trans (isBigO_of_le _ fun t => ?_)
    rw [norm_pow, norm_norm, norm_pow]
  have hneg : Tendsto (fun t : ℝ => -t) (𝓝 0) (𝓝 0) := by simpa using (continuous_neg (G := ℝ)).tendsto 0
  have h2 : (fun t : ℝ => h (-t) - ∑ j ∈ Finset.range J, p.coeff j * (-t) ^ j) =O[𝓝 0] fun t => t ^ J := by
    refine (h1.comp_tendsto hneg).trans (isBigO_of_le _ fun t => ?_)
    simp only [Function.comp, norm_pow, norm_neg, le_refl]
  have h3 := (((h1.add h2).const_mul_left (1 / 2)).mono (nhdsWithin_le_nhds (s := Set.Ioi 0)))
  refine h3.congr (fun t => ?_) fun t => by rw [Real.rpow_natCast]
  have h4 : ∑ j ∈ Finset.range J, p.coeff j * (1 + (-1) ^ j) / 2 * t ^ (j : ℝ) =
      1 / 2 * (∑ j ∈ Finset.range J, p.coeff j * t ^ j + ∑ j ∈ Finset.range J, p.coeff j * (-t) ^ j) := by
    rw [← Finset.sum_add_distrib, Finset.mul_sum]
    refine Finset.sum_congr rfl fun j _ => ?_
    rw [Real.rpow_natCast, neg_pow]
    ring
  rw [h4]
  ring

/-- Cusps are independent modulo what is smooth. -/
theorem cusps_independent {E : Finset (ℝ × ℝ)} {β : ℝ × ℝ → ℝ} (hE : ∀ z ∈ E, 0 < z.1 ∧ 0 < z.2 ∧ z.2 < 2) {h : ℝ → ℝ} (hh : AnalyticAt ℝ h 0)
    (he : ∀ᶠ t in 𝓝 0, ∑ z ∈ E, β z * Real.exp (-(z.1 * |t| ^ z.2)) = h t) : ∀ z ∈ E, β z = 0 := by
  classical
  by_contra hcon
  push Not at hcon
  obtain ⟨z₀, hz₀, hne₀⟩ := hcon
  set E' := E.filter fun z => β z ≠ 0 with hE'
  have hsub : ∀ z ∈ E', 0 < z.1 ∧ 0 < z.2 ∧ z.2 < 2 := fun z hz => hE z (Finset.mem_filter.1 hz).1
  obtain ⟨z₁, hz₁, hmin⟩ := Finset.exists_min_image E' (fun z : ℝ × ℝ => z.2) ⟨z₀, Finset.mem_filter.2 ⟨hz₀, hne₀⟩⟩
  obtain ⟨p, hp⟩ : ∃ p, z₁.2 = p := ⟨_, rfl⟩
  rw [hp] at hmin
  have hp0 : 0 < p := hp ▸ (hsub z₁ hz₁).2.1
  have hp2 : p < 2 := hp ▸ (hsub z₁ hz₁).2.2
  obtain ⟨D, hD, happ⟩ := multiples_apart hp0 (insert 2 ((E'.image fun z => z.2).filter fun r => p < r)) (by
    intro r hr
    rcases Finset.mem_insert.1 hr with rfl | hr
    · exact hp2
    · exact (Finset.mem_filter.1 hr).2)
  have hcoef : ∀ l : ℕ, ∑ z ∈ E'.filter (fun z => z.2 = p), β z * (-z.1) ^ (1 + D * l) = 0 := by
    intro l
    set m := 1 + D * l with hm
    obtain ⟨J', hJ'⟩ := exists_nat_ge ((m + 1 : ℕ) * p)
    obtain ⟨a, ha, hat⟩ := even_part_terms hh J'
    have hQ : (m : ℝ) * p < ((m + 1 : ℕ) : ℝ) * p := by
      push_cast
      linarith
    have h1 : (fun t : ℝ => ∑ z ∈ E', (β z * Real.exp (-(z.1 * t ^ z.2)) - ∑ j ∈ Finset.range (m + 1), β z * (-z.1) ^ j / j.factorial * t ^ (j * z.2)))
        =O[𝓝[>] 0] fun t => t ^ (((m + 1 : ℕ) : ℝ) * p) := by
      refine IsBigO.fun_sum fun z hz => ?_
      exact (exp_power_terms (β z) z.1 (hsub z hz).2.1 (m + 1)).trans (rpow_isBigO (mul_le_mul_of_nonneg_left (hmin z hz) (by positivity)))
    have h2 := (hat.trans (rpow_isBigO hJ')).sub h1
    have hneg : Tendsto (fun t : ℝ => -t) (𝓝 0) (𝓝 0) := by simpa using (continuous_neg (G := ℝ)).tendsto 0
    have h3 : (fun t : ℝ => ∑ i ∈ (E' ×ˢ Finset.range (m + 1)).disjSum (Finset.range J'),
        (Sum.elim (fun zj : (ℝ × ℝ) × ℕ => β zj.1 * (-zj.1.1) ^ zj.2 / zj.2.factorial) (fun j => -a j) i) *
          t ^ (Sum.elim (fun zj : (ℝ × ℝ) × ℕ => (zj.2 : ℝ) * zj.1.2) (fun j : ℕ => (j : ℝ)) i)) =O[𝓝[>] 0] fun t => t ^ (((m + 1 : ℕ) : ℝ) * p) := by
      refine h2.congr' ?_ (EventuallyEq.refl _ _)
      filter_upwards [eventually_nhdsWithin_of_eventually_nhds he, eventually_nhdsWithin_of_eventually_nhds (hneg.eventually he), self_mem_nhdsWithin] with t e1 e2 h0
      have h0' : (0 : ℝ) < t := h0
      rw [← e1, ← e2, abs_neg, abs_of_pos h0', Finset.sum_disjSum, Finset.sum_product]
      simp only [Sum.elim_inl, Sum.elim_inr, Finset.sum_sub_distrib, neg_mul, Finset.sum_neg_distrib]
      have e3 : ∑ z ∈ E', β z * Real.exp (-(z.1 * t ^ z.2)) = ∑ z ∈ E, β z * Real.exp (-(z.1 * t ^ z.2)) := by
        refine Finset.sum_subset (Finset.filter_subset _ _) fun z hz hz' => ?_
        rw [hE', Finset.mem_filter, not_and, not_not] at hz'
        rw [hz' hz, zero_mul]
      rw [e3]
      ring
    have h4 := rpow_family_zero h3 hQ
    rw [Finset.sum_disjSum, Finset.sum_product] at h4
    replace h4 : (∑ z ∈ E', ∑ j ∈ Finset.range (m + 1), if (j : ℝ) * z.2 = (m : ℝ) * p then β z * (-z.1) ^ j / j.factorial else 0) +
        (∑ j ∈ Finset.range J', if (j : ℝ) = (m : ℝ) * p then -a j else 0) = 0 := h4
    have h5 : (∑ j ∈ Finset.range J', if (j : ℝ) = (m : ℝ) * p then -a j else 0) = 0 := by
      refine Finset.sum_eq_zero fun j _ => ?_
      split
      · rename_i hj
        rw [ha j, neg_zero]
        rintro ⟨i, rfl⟩
        refine happ l 2 (Finset.mem_insert_self _ _) i ?_
        rw [← hj]
        push_cast
        ring
      · rfl
    rw [h5, add_zero] at h4
    have h6 : ∀ z ∈ E', (∑ j ∈ Finset.range (m + 1), if (j : ℝ) * z.2 = (m : ℝ) * p then β z * (-z.1) ^ j / j.factorial else 0) =
        if z.2 = p then β z * (-z.1) ^ m / m.factorial else 0 := by
      intro z hz
      by_cases hzp : z.2 = p
      · rw [if_pos hzp, Finset.sum_eq_single m]
        · rw [hzp, if_pos rfl]
        · intro j _ hj
          refine if_neg fun he' => hj ?_
          rw [hzp] at he'
          exact_mod_cast mul_right_cancel₀ hp0.ne' he'
        · intro hn
          exact absurd (Finset.mem_range.2 (Nat.lt_succ_self m)) hn
      · rw [if_neg hzp]
        refine Finset.sum_eq_zero fun j _ => if_neg fun he' => ?_
        refine happ l z.2 (Finset.mem_insert_of_mem (Finset.mem_filter.2 ⟨Finset.mem_image_of_mem _ hz, lt_of_le_of_ne (hmin z hz) (Ne.symm hzp)⟩)) j he'.symm
    rw [Finset.sum_congr rfl h6, ← Finset.sum_filter] at h4
    have hfac : (m.factorial : ℝ) ≠ 0 := by exact_mod_cast m.factorial_ne_zero
    rw [← Finset.sum_div, div_eq_zero_iff, or_iff_left hfac] at h4
    exact h4
  have hpw : ∀ l : ℕ, ∑ z ∈ E'.filter (fun z => z.2 = p), (β z * (-z.1)) * ((-z.1) ^ D) ^ l = 0 := by
    intro l
    rw [← hcoef l]
    refine Finset.sum_congr rfl fun z _ => ?_
    rw [pow_add, pow_one, pow_mul]
    ring
  have hinj : Set.InjOn (fun z : ℝ × ℝ => (-z.1) ^ D) (E'.filter fun z => z.2 = p) := by
    intro z hz w hw hzw
    simp only [Finset.coe_filter, Set.mem_ofPred_eq] at hz hw
    simp only [neg_pow z.1, neg_pow w.1] at hzw
    have h1 : z.1 ^ D = w.1 ^ D := mul_left_cancel₀ (pow_ne_zero D (by norm_num)) hzw
    refine Prod.ext ?_ (hz.2.trans hw.2.symm)
    exact (pow_left_inj₀ (hsub z hz.1).1.le (hsub w hw.1).1.le hD.ne').1 h1
  have hfin := power_sums_zero hinj hpw z₁ (Finset.mem_filter.2 ⟨hz₁, hp⟩)
  rcases mul_eq_zero.1 hfin with h1 | h1
  · exact (Finset.mem_filter.1 hz₁).2 h1
  · linarith [(hsub z₁ hz₁).1]

/-- Cusps in a family: those with the same scale and power cancel. -/
theorem cusps_cancel {ι : Type} {S : Finset ι} {A c p : ι → ℝ} (hS : ∀ i ∈ S, 0 < c i ∧ 0 < p i ∧ p i < 2) {h : ℝ → ℝ} (hh : AnalyticAt ℝ h 0)
    (he : ∀ᶠ t in 𝓝 0, ∑ i ∈ S, A i * Real.exp (-(c i * |t| ^ p i)) = h t) (c₀ p₀ : ℝ) : (∑ i ∈ S, if c i = c₀ ∧ p i = p₀ then A i else 0) = 0 := by
  classical
  have h1 : ∀ᶠ t in 𝓝 0, ∑ z ∈ S.image (fun i => (c i, p i)), (∑ i ∈ S, if (c i, p i) = z then A i else 0) * Real.exp (-(z.1 * |t| ^ z.2)) = h t := by
    filter_upwards [he] with t ht
    rw [← ht]
    simp only [Finset.sum_mul]
    rw [Finset.sum_comm]
    refine Finset.sum_congr rfl fun i hi => ?_
    rw [Finset.sum_eq_single (c i, p i)]
    · rw [if_pos rfl]
    · intro r _ hr
      rw [if_neg (Ne.symm hr), zero_mul]
    · intro hn
      exact absurd (Finset.mem_image_of_mem (fun i => (c i, p i)) hi) hn
  by_cases hmem : (c₀, p₀) ∈ S.image fun i => (c i, p i)
  · have := cusps_independent (fun z hz => by
      obtain ⟨i, hi, rfl⟩ := Finset.mem_image.1 hz
      exact hS i hi) hh h1 _ hmem
    simpa only [Prod.mk.injEq] using this
  · refine Finset.sum_eq_zero fun i hi => if_neg fun he => hmem ?_
    rw [← he.1, ← he.2]
    exact Finset.mem_image_of_mem (fun i => (c i, p i)) hi

end Verif.Lemmas

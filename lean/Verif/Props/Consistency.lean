import Verif.Lemmas.Galaxy
import Verif.Lemmas.SampledNear
import Verif.Props.PetrosianProfile
import Verif.Props.Profiles
import Verif.Props.PetrosianQueries
import Verif.Props.Fraction

/-!
# C82–C84: the measured radii converge to the true ones

A galaxy with a known profile is measured exactly in apertures that are closely spaced.  The Petrosian profile of the code
brackets the true one, and the radii found by the code tend to the true radii as the spacing goes to zero.
-/

set_option linter.unusedSectionVars false
set_option linter.unusedVariables false

namespace Verif.Props

open F Spec Lemmas Real

variable {I : ℝ → ℝ} {q : ℝ}

theorem _root_.Verif.Spec.Fine.incr {δ : ℝ} {R : List ℝ} (h : Fine δ R) : Incr R := by
  unfold Incr
  rw [← List.isChain_iff_pairwise, List.isChain_iff_getElem]
  exact fun i hi => (h.step i hi).1

theorem _root_.Verif.Spec.Fine.pos {δ : ℝ} {R : List ℝ} (h : Fine δ R) {i : Nat} (hi : i < R.length) : 0 < R[i] := by
  have h0 := (h.first (by omega)).1
  exact lt_of_lt_of_le h0 (Incr.le_getElem h.incr (Nat.zero_le _) hi)

/-- The radii after `r_list[0] = 0`. -/
theorem _root_.Verif.Spec.Fine.zeroed {δ : ℝ} {R : List ℝ} (h : Fine δ R) :
    Incr (0 :: R.tail) ∧ (0 :: R.tail).length = R.length ∧
      (∀ i (h : i + 1 < (0 :: R.tail).length), (0 :: R.tail)[i + 1] - (0 :: R.tail)[i] ≤ 2 * δ) ∧
      ∀ i (h : i + 1 < (0 :: R.tail).length) (h' : i + 1 < R.length), (0 :: R.tail)[i + 1] = R[i + 1] := by
  have h3 := h.three
  cases R with
  | nil => simp at h3
  | cons r0 R =>
    have hpos := h.incr
    have hf := h.first (by simp)
    simp only [List.getElem_cons_zero] at hf
    refine ⟨?_, by simp, ?_, ?_⟩
    · refine List.pairwise_cons.2 ⟨fun x hx => ?_, (List.pairwise_cons.1 hpos).2⟩
      exact hf.1.trans ((List.pairwise_cons.1 hpos).1 x hx)
    · intro i hi
      have hs := h.step i hi
      cases i with
      | zero =>
        have hs2 : R[0]'(by simpa using hi) - r0 ≤ δ := hs.2
        simp only [List.tail_cons, List.getElem_cons_succ, List.getElem_cons_zero]
        linarith
      | succ i =>
        have hlt : i + 1 < R.length := by simpa using hi
        have hs2 : R[i + 1] - R[i] ≤ δ := hs.2
        simp only [List.tail_cons, List.getElem_cons_succ]
        linarith
    · intro i hi hi'
      simp

/-- **C82** On an exactly measured galaxy the profile computed by `calculate_petrosian` exists and each entry after the first is a
number between the true Petrosian ratio at its own radius and the ratio of the intensity at the previous radius to the mean
intensity inside its own radius; it is never above 1. -/
theorem C82_bracket (G : Galaxy I) (hq : 0 < q) {δ : ℝ} {R : List ℝ} (hR : Fine δ R) :
    ∃ p, calculatePetrosian (areas q R) (fluxes I q R) none none = .ok (p, none) ∧ p.length = R.length ∧
      ∀ i (h : i + 1 < R.length), ∃ v, p[i + 1]? = some (fin v) ∧ petroRatio I R[i + 1] ≤ v ∧ v ≤ 1 ∧
        v ≤ I R[i] / (enclosed I 1 R[i + 1] / (π * R[i + 1] ^ 2)) := by
  have hp := Real.pi_pos
  have eA : areas q R = (R.map fun r => π * q * r ^ 2).map fin := by simp [areas]
  have eF : fluxes I q R = (R.map (enclosed I q)).map fin := by simp [fluxes]
  have hA : ∀ i (h : i + 1 < (R.map fun r => π * q * r ^ 2).length),
      (R.map fun r => π * q * r ^ 2)[i] < (R.map fun r => π * q * r ^ 2)[i + 1] := by
    intro i h
    simp only [List.length_map] at h
    simp only [List.getElem_map]
    have h0 := hR.pos (i := i) (by omega)
    exact mul_lt_mul_of_pos_left (pow_lt_pow_left₀ (hR.step i h).1 h0.le (by norm_num)) (mul_pos hp hq)
  obtain ⟨p, e, h1, h2, h3, h4⟩ := C01_profile_formula (R.map fun r => π * q * r ^ 2) (R.map (enclosed I q)) (by simp)
    (by simpa using hR.three) hA none none (by simp) (by simp)
  rw [← eA, ← eF] at h1
  have he : e = none := by
    obtain ⟨p', e', hr', -, raw, -, -, hc⟩ := calculatePetrosian_ok _ _ none none (accepted_of_ok h1)
    rw [h1] at hr'
    injection hr' with hr'
    injection hr' with _ hr'
    subst hr'
    rcases hc with ⟨_, _, h⟩ | ⟨h, _⟩
    · exact h
    · simp at h
  subst he
  refine ⟨p, h1, by simpa using h2, fun i h => ?_⟩
  have hr := h4 i (by simpa using h)
  simp only [List.getElem_map] at hr
  obtain ⟨v, hv, v1, v2, v3⟩ := gal_ratio G hq (hR.pos (i := i) (by omega)).le (hR.step i h).1
  exact ⟨v, by rw [hr, hv], v1, v3, v2⟩

/-- The profile after `petrosian_list[0] = 1`, as real numbers. -/
theorem consistency_profile (G : Galaxy I) (hq : 0 < q) {δ : ℝ} {R : List ℝ} (hR : Fine δ R) :
    ∃ p, calculatePetrosian (areas q R) (fluxes I q R) none none = .ok (p, none) ∧ p ≠ [] ∧
      ∃ Y : List ℝ, fin 1 :: p.tail = Y.map fin ∧ ∃ hl : R.length = Y.length, (∀ h : 0 < Y.length, Y[0] = 1) ∧
        ∀ i (h : i + 1 < R.length), petroRatio I R[i + 1] ≤ Y[i + 1] ∧ Y[i + 1] ≤ mixRatio I R[i] R[i + 1] := by
  obtain ⟨p, h1, h2, h3⟩ := C82_bracket G hq hR
  have h30 := hR.three
  have hne : p ≠ [] := by rintro rfl; simp at h2; omega
  refine ⟨p, h1, hne, ?_⟩
  choose v hv a b c using h3
  let Y : List ℝ := List.ofFn fun i : Fin R.length => if h : i.1 = 0 then 1 else v (i.1 - 1) (by omega)
  have hlY : Y.length = R.length := by simp [Y]
  refine ⟨Y, ?_, hlY.symm, ?_, ?_⟩
  · apply List.ext_getElem?
    intro i
    cases p with
    | nil => exact absurd rfl hne
    | cons p0 p =>
      cases i with
      | zero =>
        have h0 : 0 < Y.length := by omega
        rw [List.getElem?_map, List.getElem?_eq_getElem h0]
        simp [Y]
      | succ i =>
        simp only [List.tail_cons, List.getElem?_cons_succ]
        by_cases hi : i + 1 < R.length
        · have := hv i hi
          simp only [List.getElem?_cons_succ] at this
          have h0 : i + 1 < Y.length := by omega
          rw [this, List.getElem?_map, List.getElem?_eq_getElem h0]
          simp [Y]
        · rw [List.getElem?_eq_none (by simp at h2; omega), List.getElem?_eq_none (by simp; omega)]
  · intro h
    simp [Y]
  · intro i h
    have : Y[i + 1] = v i h := by simp [Y]
    rw [this]
    exact ⟨a i h, c i h⟩

/-- **C82** Convergence of `r_petrosian`: for every tolerance there is an aperture spacing below which the radius found by the
code on the exact curve of growth is within the tolerance of the true Petrosian radius — for `interp_kind=None` and for every
interpolation that stays between neighbouring data points, for any `interp_num`, axis ratio and radii that reach far enough. -/
theorem C82_radius_converges (G : Galaxy I) (hq : 0 < q) {eta rP : ℝ} (hrP : 0 < rP) (htrue : petroRatio I rP = eta)
    {ε : ℝ} (hε : 0 < ε) :
    ∃ δ > 0, ∀ R, Fine δ R → Covers R (rP + ε) → ∀ (ip : InterpFam ℝ) (kind : Option String) (num : Nat),
      (∀ k, kind = some k → BetweenNodes (ip k)) →
      ∃ p r, calculatePetrosian (areas q R) (fluxes I q R) none none = .ok (p, none) ∧
        calculatePetrosianR ip (R.map fin) p none (fin eta) kind num = .ok (fin r, nan) ∧ |r - rP| ≤ ε := by
  -- left of the true radius
  set e := min ε (rP / 2) with he
  have he0 : 0 < e := lt_min hε (by linarith)
  have heP : e ≤ rP / 2 := min_le_right _ _
  have heε : e ≤ ε := min_le_left _ _
  have hlo : 0 < rP - e / 2 := by linarith
  have hd : 0 < petroRatio I (rP - e / 2) - eta := by
    rw [← htrue]
    exact sub_pos.2 (G.ratioFalls (Set.mem_Ioi.2 hlo) (Set.mem_Ioi.2 hrP) (by linarith))
  set d := petroRatio I (rP - e / 2) - eta with hdd
  -- right of the true radius
  obtain ⟨ρ1, hρ1, h1⟩ := Metric.continuousAt_iff.1 (petroRatio_continuousAt G hrP) d hd
  set rp := rP + min e (ρ1 / 2) with hrp
  have hm0 : 0 < min e (ρ1 / 2) := lt_min he0 (by linarith)
  have hrp1 : eta - d < petroRatio I rp := by
    have := @h1 rp (by
      rw [Real.dist_eq, hrp, add_sub_cancel_left, abs_of_pos hm0]
      exact lt_of_le_of_lt (min_le_right _ _) (by linarith))
    rw [Real.dist_eq, abs_lt, htrue] at this
    linarith [this.1]
  have hrp2 : rp ≤ rP + e := by rw [hrp]; linarith [min_le_left e (ρ1 / 2)]
  set rs := (rP + rp) / 2 with hrs
  have hrs1 : rP < rs := by rw [hrs]; linarith
  have hrs2 : rs < rp := by rw [hrs]; linarith
  have hrs0 : 0 < rs := hrP.trans hrs1
  have hsl : petroRatio I rs < eta := by
    rw [← htrue]
    exact G.ratioFalls (Set.mem_Ioi.2 hrP) (Set.mem_Ioi.2 hrs0) hrs1
  obtain ⟨ρ, hρ, h2⟩ := mixRatio_near G hrs0 hsl
  -- the spacing
  refine ⟨min (min (e / 8) (ρ / 8)) (min ((rp - rs) / 8) (rs / 8)), ?_, ?_⟩
  · exact lt_min (lt_min (by linarith) (by linarith)) (lt_min (by linarith) (by linarith))
  set δ := min (min (e / 8) (ρ / 8)) (min ((rp - rs) / 8) (rs / 8)) with hδ
  have δ1 : δ ≤ e / 8 := (min_le_left _ _).trans (min_le_left _ _)
  have δ2 : δ ≤ ρ / 8 := (min_le_left _ _).trans (min_le_right _ _)
  have δ3 : δ ≤ (rp - rs) / 8 := (min_le_right _ _).trans (min_le_left _ _)
  have δ4 : δ ≤ rs / 8 := (min_le_right _ _).trans (min_le_right _ _)
  have δ0 : 0 < δ := lt_min (lt_min (by linarith) (by linarith)) (lt_min (by linarith) (by linarith))
  clear_value δ
  intro R hR hcov ip kind num hB
  obtain ⟨p, hp, hpne, Y, hY, hl, hY0, hYi⟩ := consistency_profile G hq hR
  obtain ⟨hN, hNl, hNg, hNe⟩ := Fine.zeroed hR
  have h3 := hR.three
  set N := 0 :: R.tail with hNdef
  have hlN : N.length = Y.length := by omega
  obtain ⟨xs, ys, hS, hxy⟩ := Sampled.exists_between (num := num) hB (by omega : 2 ≤ N.length) hlN hN
  have hxs := Sampled.sorted hS (by omega) hN
  -- values at the nodes
  have hlow : ∀ i (h : i < N.length) t, 0 < t → N[i] ≤ t → petroRatio I t ≤ Y[i] := by
    intro i h t ht hi
    cases i with
    | zero => rw [hY0 (by omega)]; exact (petroRatio_mem G ht).2.le
    | succ i =>
      refine le_trans ?_ (hYi i (by omega)).1
      rw [hNe i h (by omega)] at hi
      exact G.ratioFalls.antitoneOn (Set.mem_Ioi.2 (hR.pos (by omega))) (Set.mem_Ioi.2 ht) hi
  have hN0 : N[0]'(by omega) = 0 := by simp [hNdef]
  have hNlast : rP + ε ≤ N[N.length - 1]'(by omega) := by
    obtain ⟨x, hx, hx'⟩ := hcov
    obtain ⟨i, hi, rfl⟩ := List.getElem_of_mem hx
    have : R[i] ≤ R[R.length - 1]'(by omega) := Incr.le_getElem hR.incr (by omega) (by omega)
    have e2 : N[N.length - 1]'(by omega) = R[R.length - 1]'(by omega) := by
      have := hNe (R.length - 2) (by omega) (by omega)
      have ee : R.length - 2 + 1 = R.length - 1 := by omega
      simp only [ee] at this
      simp only [hNl]
      exact this
    rw [e2]; linarith
  have hloc := locate false xs ys hxy hxs eta (rP - e) (rs + 2 * δ) d
    (by
      intro k hk hx
      obtain ⟨i, j, hi, hj, a1, a2, b1, b2⟩ := Sampled.near hS hlN (by omega) hN hB hNg k hk (by omega)
      have : N[i] ≤ rP - e / 2 := by
        have := (abs_le.1 a1).2
        linarith
      have := hlow i hi _ hlo this
      have hy : petroRatio I (rP - e / 2) ≤ ys[k] := this.trans b1
      rw [abs_of_nonneg (by linarith)]
      linarith)
    (by
      intro k hk hx hr
      simp only [Reaches, Bool.false_eq_true, if_false] at hr
      obtain ⟨i, j, hi, hj, a1, a2, b1, b2⟩ := Sampled.near hS hlN (by omega) hN hB hNg k hk (by omega)
      have : N[i] ≤ rp := by
        have := (abs_le.1 a1).2
        linarith
      have := hlow i hi _ (by linarith) this
      rw [abs_of_nonpos (by linarith)]
      linarith)
    (by
      obtain ⟨m, hm, hmx⟩ := Sampled.dense hS (by omega) hN hNg (t := rs) (by rw [hN0]; linarith) (by linarith)
      have := abs_le.1 hmx
      refine ⟨m, hm, by linarith [this.2], ?_⟩
      simp only [Reaches, Bool.false_eq_true, if_false]
      obtain ⟨i, j, hi, hj, a1, a2, b1, b2⟩ := Sampled.near hS hlN (by omega) hN hB hNg m hm (by omega)
      have a3 := abs_le.1 a2
      refine b2.trans ?_
      cases j with
      | zero => exfalso; rw [hN0] at a3; linarith [this.1, a3.1]
      | succ j =>
        have hjR : j + 1 < R.length := by omega
        have e2 := hNe j hj hjR
        rw [e2] at a3
        refine (hYi j hjR).2.trans (h2 _ _ ?_ ?_).le
        · have s := hR.step j hjR
          rw [abs_le]
          constructor <;> linarith [this.1, this.2, a3.1, a3.2]
        · rw [abs_le]
          constructor <;> linarith [this.1, this.2, a3.1, a3.2])
  obtain ⟨i, hi, hc, l1, l2⟩ := hloc
  refine ⟨p, xs[i], hp, ?_, ?_⟩
  · refine petrosianR_of_sampled hpne (by omega) (xs := xs) (ys := ys.map fin) ?_ (radiusAt_some hc hi)
    rw [hY]; exact hS
  · rw [abs_le]
    constructor <;> linarith

set_option maxHeartbeats 1000000 in
/-- **C83** Convergence of `fraction_to_r`: on the exact curve of growth, given a Petrosian radius close to the true one, the
radius found for a fraction is within the tolerance of the true radius, for every interpolation that stays between neighbouring
data points. -/
theorem C83_fraction_converges (G : Galaxy I) (hq : 0 < q) {frac eps epsf rP rF : ℝ} (heps : 0 < eps) (hepsf : epsf ≠ 0)
    (hrP : 0 < rP) (hrF : 0 < rF) (htrue : enclosed I q rF = frac / epsf * enclosed I q (eps * rP)) {ε : ℝ} (hε : 0 < ε) :
    ∃ δ > 0, ∀ R, Fine δ R → Covers R (rF + ε) → Covers R (eps * rP + ε) → ∀ rp, |rp - rP| ≤ δ →
      ∀ (ip : InterpFam ℝ) (kind : Option String) (num : Nat) (rpe : Option (F ℝ)), BetweenNodes (ip (kind.getD "cubic")) →
      ∃ r, fractionToR ip (fin frac) (R.map fin) (fluxes I q R) (fin rp) none rpe (fin eps) (fin epsf) kind num =
          .ok (fin r, nan) ∧ |r - rF| ≤ ε ∧ 0 < r := by
  have hmono := gal_strictMono G hq
  have hcontAt : ∀ x, 0 < x → ContinuousAt (enclosed I q) x := fun x hx =>
    (gal_cont G q).continuousAt (Ici_mem_nhds hx)
  -- left of the true radius
  set e := min ε (rF / 2) with he
  have he0 : 0 < e := lt_min hε (by linarith)
  have heP : e ≤ rF / 2 := min_le_right _ _
  have heε : e ≤ ε := min_le_left _ _
  have hlo : 0 < rF - e / 2 := by linarith
  set T := enclosed I q rF with hT
  set d1 := T - enclosed I q (rF - e / 2) with hd1
  have hd1p : 0 < d1 := sub_pos.2 (hmono (Set.mem_Ici.2 hlo.le) (Set.mem_Ici.2 hrF.le) (by linarith))
  -- right of the true radius
  obtain ⟨ρ1, hρ1, h1⟩ := Metric.continuousAt_iff.1 (hcontAt rF hrF) (d1 / 2) (by linarith)
  set rq := rF + min e (ρ1 / 2) with hrq
  have hm0 : 0 < min e (ρ1 / 2) := lt_min he0 (by linarith)
  have hrq1 : enclosed I q rq < T + d1 / 2 := by
    have := @h1 rq (by
      rw [Real.dist_eq, hrq, add_sub_cancel_left, abs_of_pos hm0]
      exact lt_of_le_of_lt (min_le_right _ _) (by linarith))
    rw [Real.dist_eq, abs_lt] at this
    linarith [this.2]
  have hrq2 : rq ≤ rF + e := by rw [hrq]; linarith [min_le_left e (ρ1 / 2)]
  set rs := (rF + rq) / 2 with hrs
  have hrs1 : rF < rs := by rw [hrs]; linarith
  have hrs2 : rs < rq := by rw [hrs]; linarith
  set rt := (rF + rs) / 2 with hrt
  have hrt1 : rF < rt := by rw [hrt]; linarith
  have hrt2 : rt < rs := by rw [hrt]; linarith
  set d2 := enclosed I q rt - T with hd2
  have hd2p : 0 < d2 := sub_pos.2 (hmono (Set.mem_Ici.2 hrF.le) (Set.mem_Ici.2 (by linarith)) hrt1)
  -- the flux at epsilon times the Petrosian radius
  set τ := min (d1 / 4) d2 with hτ
  have hτ0 : 0 < τ := lt_min (by linarith) hd2p
  have hτ1 : τ ≤ d1 / 4 := min_le_left _ _
  have hτ2 : τ ≤ d2 := min_le_right _ _
  set c := |frac / epsf| with hcdef
  have hc0 : 0 ≤ c := abs_nonneg _
  have hre : 0 < eps * rP := mul_pos heps hrP
  obtain ⟨ρ2, hρ2, h2⟩ := Metric.continuousAt_iff.1 (hcontAt (eps * rP) hre) (τ / (c + 1)) (by positivity)
  -- the spacing
  set δ := min (min (min (e / 8) (ρ2 / (4 * (eps + 1)))) (min ((rq - rs) / 8) ((rs - rt) / 8)))
    (min (min (ε / (2 * (eps + 1))) (eps * rP / (2 * (eps + 1)))) (ρ2 / 4)) with hδ
  have hep1 : 0 < eps + 1 := by linarith
  have δ0 : 0 < δ := by
    rw [hδ]
    refine lt_min (lt_min (lt_min ?_ ?_) (lt_min ?_ ?_)) (lt_min (lt_min ?_ ?_) ?_)
    · linarith
    · positivity
    · linarith
    · linarith
    · positivity
    · positivity
    · linarith
  have δ1 : δ ≤ e / 8 := ((min_le_left _ _).trans (min_le_left _ _)).trans (min_le_left _ _)
  have δ2' : δ ≤ ρ2 / (4 * (eps + 1)) := ((min_le_left _ _).trans (min_le_left _ _)).trans (min_le_right _ _)
  have δ3 : δ ≤ (rq - rs) / 8 := ((min_le_left _ _).trans (min_le_right _ _)).trans (min_le_left _ _)
  have δ4 : δ ≤ (rs - rt) / 8 := ((min_le_left _ _).trans (min_le_right _ _)).trans (min_le_right _ _)
  have δ5' : δ ≤ ε / (2 * (eps + 1)) := ((min_le_right _ _).trans (min_le_left _ _)).trans (min_le_left _ _)
  have δ6' : δ ≤ eps * rP / (2 * (eps + 1)) := ((min_le_right _ _).trans (min_le_left _ _)).trans (min_le_right _ _)
  have δ7 : δ ≤ ρ2 / 4 := (min_le_right _ _).trans (min_le_right _ _)
  rw [le_div_iff₀ (by positivity)] at δ2' δ5' δ6'
  have hδe : 0 < δ * eps := mul_pos δ0 heps
  have k2 : 4 * (δ * eps) + 4 * δ ≤ ρ2 := by linarith
  have k5 : 2 * (δ * eps) + 2 * δ ≤ ε := by linarith
  have k6 : 2 * (δ * eps) + 2 * δ ≤ eps * rP := by linarith
  clear_value δ
  refine ⟨δ, δ0, ?_⟩
  intro R hR hcF hcE rp hrp ip kind num rpe hB
  have h3 := hR.three
  have hRi := hR.incr
  set Y := R.map (enclosed I q) with hYdef
  have eF : fluxes I q R = Y.map fin := by simp [fluxes, hYdef]
  have hl : R.length = Y.length := by simp [hYdef]
  have hYv : ∀ i (h : i < R.length), Y[i]'(by omega) = enclosed I q R[i] := by intro i h; simp [hYdef]
  have hg : ∀ i (h : i + 1 < R.length), R[i + 1] - R[i] ≤ δ := fun i h => (hR.step i h).2
  have hB' : ∀ k, kind = some k → BetweenNodes (ip k) := by rintro k rfl; exact hB
  have hlast : ∀ t, Covers R t → t ≤ R[R.length - 1]'(by omega) := by
    rintro t ⟨x, hx, hx'⟩
    obtain ⟨i, hi, rfl⟩ := List.getElem_of_mem hx
    exact hx'.trans (Incr.le_getElem hRi (by omega) (by omega))
  -- r_epsilon
  have hrp' := abs_le.1 hrp
  have hree : |rp * eps - eps * rP| ≤ δ * eps := by
    have : rp * eps - eps * rP = (rp - rP) * eps := by ring
    rw [this, abs_mul, abs_of_pos heps]
    exact mul_le_mul_of_nonneg_right hrp heps.le
  have hree' := abs_le.1 hree
  have hin0 : R[0]'(by omega) ≤ rp * eps := by
    have := (hR.first (by omega)).2
    linarith [hree'.1]
  have hin1 : rp * eps ≤ R[R.length - 1]'(by omega) := by
    refine le_trans ?_ (hlast _ hcE)
    linarith [hree'.2]
  obtain ⟨j, hj, s1, s2⟩ := segment_exists R (rp * eps) (R.length - 1) (by omega) (by omega) hin0 hin1
  obtain ⟨ef, hef, ef1, ef2⟩ := hB R Y hl (by omega) hRi j hj _ s1 s2
  have hgj := hg j hj
  have hYlt : Y[j]'(by omega) ≤ Y[j + 1]'(by omega) := by
    rw [hYv j (by omega), hYv (j + 1) hj]
    exact hmono.monotoneOn (Set.mem_Ici.2 (hR.pos (by omega)).le) (Set.mem_Ici.2 (hR.pos hj).le) (hR.step j hj).1.le
  rw [min_eq_left hYlt, hYv j (by omega)] at ef1
  rw [max_eq_right hYlt, hYv (j + 1) hj] at ef2
  have n1 : |enclosed I q R[j] - enclosed I q (eps * rP)| < τ / (c + 1) := by
    have := @h2 R[j] (by rw [Real.dist_eq, abs_lt]; constructor <;> linarith [hree'.1, hree'.2])
    rwa [Real.dist_eq] at this
  have n2 : |enclosed I q R[j + 1] - enclosed I q (eps * rP)| < τ / (c + 1) := by
    have := @h2 R[j + 1] (by rw [Real.dist_eq, abs_lt]; constructor <;> linarith [hree'.1, hree'.2])
    rwa [Real.dist_eq] at this
  have n3 : |ef - enclosed I q (eps * rP)| < τ / (c + 1) := by
    rw [abs_lt] at n1 n2 ⊢
    constructor <;> linarith [n1.1, n2.2]
  set v := ef * (frac / epsf) with hv
  have hvT : |v - T| ≤ τ := by
    have : v - T = (frac / epsf) * (ef - enclosed I q (eps * rP)) := by rw [hv, htrue]; ring
    rw [this, abs_mul, ← hcdef]
    have h5 : c * |ef - enclosed I q (eps * rP)| ≤ c * (τ / (c + 1)) := mul_le_mul_of_nonneg_left n3.le hc0
    have h6 : c * (τ / (c + 1)) ≤ τ := by
      rw [mul_div_assoc', div_le_iff₀ (by linarith)]
      nlinarith
    exact h5.trans h6
  have hvT' := abs_le.1 hvT
  -- the samples
  obtain ⟨xs, ys, hS, hxy⟩ := Sampled.exists_between (num := num) hB' (by omega : 2 ≤ R.length) hl hRi
  have hxs := Sampled.sorted hS (by omega) hRi
  have hup : ∀ i (h : i < R.length) t, R[i] ≤ t → Y[i]'(by omega) ≤ enclosed I q t := by
    intro i h t hi
    rw [hYv i h]
    have := (hR.pos h).le
    exact hmono.monotoneOn (Set.mem_Ici.2 this) (Set.mem_Ici.2 (this.trans hi)) hi
  have hdn : ∀ i (h : i < R.length) t, 0 ≤ t → t ≤ R[i] → enclosed I q t ≤ Y[i]'(by omega) := by
    intro i h t ht hi
    rw [hYv i h]
    exact hmono.monotoneOn (Set.mem_Ici.2 ht) (Set.mem_Ici.2 (ht.trans hi)) hi
  have hloc := locate true xs ys hxy hxs v (rF - e) (rs + δ) (3 / 4 * d1)
    (by
      intro k hk hx
      obtain ⟨i, j, hi, hj, a1, a2, b1, b2⟩ := Sampled.near hS hl (by omega) hRi hB' hg k hk (by omega)
      have : R[j] ≤ rF - e / 2 := by
        have := (abs_le.1 a2).2
        linarith
      have := hup j hj _ this
      rw [abs_of_nonpos (by linarith [hvT'.1])]
      linarith [hvT'.1])
    (by
      intro k hk hx hr
      simp only [Reaches, if_true] at hr
      obtain ⟨i, j, hi, hj, a1, a2, b1, b2⟩ := Sampled.near hS hl (by omega) hRi hB' hg k hk (by omega)
      have : R[j] ≤ rq := by
        have := (abs_le.1 a2).2
        linarith
      have := hup j hj _ this
      rw [abs_of_nonneg (by linarith)]
      linarith [hvT'.1])
    (by
      obtain ⟨m, hm, hmx⟩ := Sampled.dense hS (by omega) hRi hg (t := rs)
        (by have := (hR.first (by omega)).2; linarith) (by have := hlast _ hcF; linarith)
      have := abs_le.1 hmx
      refine ⟨m, hm, by linarith [this.2], ?_⟩
      simp only [Reaches, if_true]
      obtain ⟨i, j, hi, hj, a1, a2, b1, b2⟩ := Sampled.near hS hl (by omega) hRi hB' hg m hm (by omega)
      have a3 := abs_le.1 a1
      have : rt ≤ R[i] := by linarith [this.1, a3.1]
      have := hdn i hi _ (by linarith) this
      linarith [hvT'.2])
  obtain ⟨i, hi, hc, l1, l2⟩ := hloc
  refine ⟨xs[i], ?_, ?_, by linarith⟩
  · rw [eF]
    refine fractionToR_none_ok (by omega) (List.getElem_mem (by omega : R.length - 1 < R.length)) ?_ ?_ (ef := fin ef)
      (q := fin (frac / epsf)) (xs := xs) (ys := ys.map fin) ?_ ?_ hS ?_
    · intro x hx
      exact hlast x ⟨x, hx, le_rfl⟩
    · rw [fin_mul, lt_fin, decide_eq_false_iff_not, not_lt]
      exact hin1
    · rw [fin_mul]; exact hef
    · rw [pyDiv_ok (by simpa using hepsf), fin_div_of_ne _ hepsf]
    · rw [fin_mul]; exact radiusAt_some hc hi
  · rw [abs_le]
    constructor <;> linarith

/-! ### C84: the whole object, and the Sersic model -/

theorem _root_.Verif.Spec.Fine.mono {δ δ' : ℝ} {R : List ℝ} (h : Fine δ R) (hd : δ ≤ δ') : Fine δ' R :=
  ⟨h.three, fun h0 => ⟨(h.first h0).1, (h.first h0).2.trans hd⟩, fun i hi => ⟨(h.step i hi).1, (h.step i hi).2.trans hd⟩⟩

/-- **C84** The `Petrosian` object built from the exact curve of growth: `r_petrosian` and the radius of any fraction of the flux
(`fraction_flux_to_r`, so also `r_half_light`, `r_total_flux`) are within the tolerance of the true radii. -/
theorem C84_object_radii (G : Galaxy I) (hq : 0 < q) {eta eps epsf frac rP rF : ℝ} (heps : 0 < eps) (hepsf : epsf ≠ 0)
    (hrP : 0 < rP) (hrF : 0 < rF) (htP : petroRatio I rP = eta)
    (htF : enclosed I q rF = frac / epsf * enclosed I q (eps * rP)) {ε : ℝ} (hε : 0 < ε) :
    ∃ δ > 0, ∀ R, Fine δ R → Covers R (rP + ε) → Covers R (eps * rP + ε) → Covers R (rF + ε) →
      ∀ (ip : InterpFam ℝ) (kind : Option String) (num : Nat) (tff : F ℝ), BetweenNodes (ip (kind.getD "cubic")) →
      ∃ p, Petrosian.init (R.map fin) (areas q R) (fluxes I q R) none none (fin eta) (fin eps) (fin epsf) tff kind num = .ok p ∧
        ∃ rp rf, p.rPetrosian ip = .ok (fin rp) ∧ |rp - rP| ≤ ε ∧
          p.fractionFluxToR ip (fin frac) = .ok (fin rf) ∧ |rf - rF| ≤ ε ∧ 0 < rf := by
  obtain ⟨δ1, hδ1, h1⟩ := C83_fraction_converges G hq heps hepsf hrP hrF htF hε
  obtain ⟨δ2, hδ2, h2⟩ := C82_radius_converges G hq hrP htP (lt_min hε hδ1)
  refine ⟨min δ1 δ2, lt_min hδ1 hδ2, ?_⟩
  intro R hR c1 c2 c3 ip kind num tff hB
  have c1' : Covers R (rP + min ε δ1) := by
    obtain ⟨x, hx, h⟩ := c1
    exact ⟨x, hx, le_trans (by linarith [min_le_left ε δ1]) h⟩
  obtain ⟨pl, rp, g1, g2, g3⟩ := h2 R (hR.mono (min_le_right _ _)) c1' ip kind num (by rintro k rfl; exact hB)
  obtain ⟨rf, f1, f2, f3⟩ := h1 R (hR.mono (min_le_left _ _)) c3 c2 rp (g3.trans (min_le_right _ _)) ip kind num
    (some nan) hB
  have h3 := hR.three
  refine ⟨_, Petrosian.init_ok_iff.2 ⟨by simp; omega, by simp [fluxes], by simp, by simp, pl, none, g1, rfl⟩, rp, rf, ?_,
    g3.trans (min_le_left _ _), ?_, f2, f3⟩
  · simp only [Petrosian.rPetrosian, Petrosian.calcPetrosianR, g2, Except.map]
  · simp only [Petrosian.fractionFluxToR, Petrosian.calcFractionToR, Petrosian.rPetrosian, Petrosian.rPetrosianErr,
      Petrosian.calcPetrosianR, g2, Except.map, Except.bind_ok, f1]

theorem except_map_ok {α β : Type} {x : Except PyErr α} {f : α → β} {b : β} (h : x.map f = .ok b) : ∃ a, x = .ok a ∧ f a = b := by
  cases x with
  | error e => cases h
  | ok a => exact ⟨a, rfl, by injection h⟩

/-- **C84** `total_flux`: the flux inside the measured `r_total_flux` is within the tolerance of the true total. -/
theorem C84_object_flux (G : Galaxy I) (hq : 0 < q) {eta eps epsf tff rP rT : ℝ} (heps : 0 < eps) (hepsf : epsf ≠ 0)
    (hrP : 0 < rP) (hrT : 0 < rT) (htP : petroRatio I rP = eta)
    (htT : enclosed I q rT = tff / epsf * enclosed I q (eps * rP)) {ε : ℝ} (hε : 0 < ε) :
    ∃ δ > 0, ∀ R, Fine δ R → Covers R (rP + ε) → Covers R (eps * rP + ε) → Covers R (rT + ε) →
      ∀ (ip : InterpFam ℝ) (k : String) (num : Nat), BetweenNodes (ip k) →
      ∃ p, Petrosian.init (R.map fin) (areas q R) (fluxes I q R) none none (fin eta) (fin eps) (fin epsf) (fin tff) (some k) num =
          .ok p ∧
        ∃ v, p.totalFlux ip = .ok (fin v) ∧ |v - tff / epsf * enclosed I q (eps * rP)| ≤ ε := by
  have hcont : ContinuousAt (enclosed I q) rT := (gal_cont G q).continuousAt (Ici_mem_nhds hrT)
  obtain ⟨ρ, hρ, hρ'⟩ := Metric.continuousAt_iff.1 hcont ε hε
  have he : 0 < min ε (ρ / 4) := lt_min hε (by linarith)
  obtain ⟨δ1, hδ1, h1⟩ := C84_object_radii G hq heps hepsf hrP hrT htP htT he
  refine ⟨min δ1 (ρ / 4), lt_min hδ1 (by linarith), ?_⟩
  intro R hR c1 c2 c3 ip k num hB
  have cv : ∀ t, Covers R (t + ε) → Covers R (t + min ε (ρ / 4)) := by
    rintro t ⟨x, hx, h⟩
    exact ⟨x, hx, le_trans (by linarith [min_le_left ε (ρ / 4)]) h⟩
  obtain ⟨p, hp, rp, rt, a1, a2, a3, a4, a5⟩ := h1 R (hR.mono (min_le_left _ _)) (cv _ c1) (cv _ c2) (cv _ c3) ip (some k) num
    (fin tff) hB
  refine ⟨p, hp, ?_⟩
  obtain ⟨q1, q2, q3, q4, pl, pe, q5, rfl⟩ := Petrosian.init_ok_iff.1 hp
  have h3 := hR.three
  have hne : R ≠ [] := by rintro rfl; simp at h3
  -- the measured radius is one of the sampled radii, so it is inside the range
  have hrange : R[0]'(by omega) ≤ rt ∧ rt ≤ R[R.length - 1]'(by omega) := by
    have hRF : ∃ e, fractionToR ip (fin tff) (R.map fin) (fluxes I q R) (fin rp) none (some nan) (fin eps) (fin epsf) (some k) num =
        .ok (fin rt, e) := by
      simp only [Petrosian.rPetrosian] at a1
      obtain ⟨t, ht, ht'⟩ := except_map_ok a1
      obtain ⟨t1, t2⟩ := t
      simp only at ht'
      subst ht'
      have e2 : t2 = nan := by
        refine C11_nan_cases ip _ _ _ _ _ _ ht (Or.inl ?_)
        obtain ⟨p', e', hr', -, raw, -, -, hc⟩ := calculatePetrosian_ok _ _ none none (accepted_of_ok q5)
        rw [q5] at hr'
        injection hr' with hr'
        injection hr' with _ hr'
        subst hr'
        rcases hc with ⟨_, _, h⟩ | ⟨h, _⟩
        · exact h
        · simp at h
      subst e2
      simp only [Petrosian.fractionFluxToR, Petrosian.calcFractionToR, Petrosian.rPetrosian, Petrosian.rPetrosianErr, ht,
        Except.map, Except.bind_ok] at a3
      obtain ⟨t, ht2, ht3⟩ := except_map_ok a3
      exact ⟨t.2, by rw [ht2, ← ht3]⟩
    obtain ⟨e, hRF⟩ := hRF
    obtain ⟨hi, m1, m2, hcase⟩ := fractionToR_cases (by omega) hRF
    rcases hcase with ⟨_, h, _⟩ | ⟨_, ef, qq, xs, ys, _, _, hS, hrad⟩
    · cases h
    · rcases radiusAt_cases hrad with ⟨h, _⟩ | ⟨i, _, hi, hri⟩
      · cases h
      · injection hri with hri
        obtain ⟨⟨a, ha, ha'⟩, ⟨b, hb, hb'⟩⟩ := Sampled.mem_range hS (by omega) (List.getElem_mem hi)
        rw [← hri] at ha' hb'
        constructor
        · obtain ⟨j, hj, rfl⟩ := List.getElem_of_mem ha
          exact (Incr.le_getElem hR.incr (Nat.zero_le _) hj).trans ha'
        · obtain ⟨j, hj, rfl⟩ := List.getElem_of_mem hb
          exact hb'.trans (Incr.le_getElem hR.incr (by omega) (by omega))
  obtain ⟨j, hj, s1, s2⟩ := segment_exists R rt (R.length - 1) (by omega) (by omega) hrange.1 hrange.2
  have eF : fluxes I q R = (R.map (enclosed I q)).map fin := by simp [fluxes]
  obtain ⟨v, hv, v1, v2⟩ := hB R (R.map (enclosed I q)) (by simp) (by omega) hR.incr j hj rt s1 s2
  simp only [List.getElem_map] at v1 v2
  refine ⟨v, ?_, ?_⟩
  · obtain ⟨lo, m1, hlo, m1'⟩ := pyMin_fin hne
    obtain ⟨hi, m3, hhi, m3'⟩ := pyMax_fin hne
    have hle : (F.le (fin lo) (fin rt) && F.le (fin rt) (fin hi)) = true := by
      rw [Bool.and_eq_true, le_fin, le_fin, decide_eq_true_eq, decide_eq_true_eq]
      exact ⟨(m1' _ (List.getElem_mem _)).trans hrange.1, hrange.2.trans (m3' _ (List.getElem_mem _))⟩
    have ht : Petrosian.rTotalFlux ip ⟨R.map fin, areas q R, fluxes I q R, none, none, fin eta, fin eps, fin epsf, fin tff, some k,
        num, pl, pe⟩ = .ok (fin rt) := a3
    simp only [Petrosian.totalFlux, ht, Except.bind_ok, Petrosian.fluxAt, hlo, hhi, hle, if_true, interp1d]
    rw [eF]; exact hv
  · rw [← htT]
    have hgj := (hR.step j hj).2
    have a4' := abs_le.1 (a4.trans (min_le_right _ _))
    have hδ' : min δ1 (ρ / 4) ≤ ρ / 4 := min_le_right _ _
    have n1 := @hρ' R[j] (by rw [Real.dist_eq, abs_lt]; constructor <;> linarith [a4'.1, a4'.2])
    have n2 := @hρ' R[j + 1] (by rw [Real.dist_eq, abs_lt]; constructor <;> linarith [a4'.1, a4'.2])
    rw [Real.dist_eq, abs_lt] at n1 n2
    have hmn : enclosed I q R[j] ≤ enclosed I q R[j + 1] :=
      (gal_strictMono G hq).monotoneOn (Set.mem_Ici.2 (hR.pos (by omega)).le) (Set.mem_Ici.2 (hR.pos hj).le) (hR.step j hj).1.le
    rw [min_eq_left hmn] at v1
    rw [max_eq_right hmn] at v2
    rw [abs_le]
    constructor <;> linarith [n1.1, n2.2]

/-- **C84** the concentration index `5 log10(r_2 / r_1)` of the code converges to that of the true radii. -/
theorem C84_concentration (G : Galaxy I) (hq : 0 < q) {eta eps epsf f1 f2 rP r1 r2 : ℝ} (heps : 0 < eps) (hepsf : epsf ≠ 0)
    (hrP : 0 < rP) (hr1 : 0 < r1) (hr2 : 0 < r2) (htP : petroRatio I rP = eta)
    (ht1 : enclosed I q r1 = f1 / epsf * enclosed I q (eps * rP))
    (ht2 : enclosed I q r2 = f2 / epsf * enclosed I q (eps * rP)) {ε : ℝ} (hε : 0 < ε) :
    ∃ δ > 0, ∀ R, Fine δ R → Covers R (rP + ε) → Covers R (eps * rP + ε) → Covers R (r1 + ε) → Covers R (r2 + ε) →
      ∀ (ip : InterpFam ℝ) (kind : Option String) (num : Nat) (tff : F ℝ), BetweenNodes (ip (kind.getD "cubic")) →
      ∃ p, Petrosian.init (R.map fin) (areas q R) (fluxes I q R) none none (fin eta) (fin eps) (fin epsf) tff kind num = .ok p ∧
        ∃ a b c, p.concentrationIndex ip (fin f1) (fin f2) = .ok (fin a, fin b, fin c) ∧ |a - r1| ≤ ε ∧ |b - r2| ≤ ε ∧
          |c - 5 * Real.logb 10 (r2 / r1)| ≤ ε := by
  -- continuity of the index
  have hc : ContinuousAt (fun p : ℝ × ℝ => 5 * Real.logb 10 (p.2 / p.1)) (r1, r2) := by
    refine continuousAt_const.mul ?_
    unfold Real.logb
    refine ContinuousAt.div_const ?_ _
    exact (continuousAt_snd.div continuousAt_fst hr1.ne').log (div_pos hr2 hr1).ne'
  obtain ⟨ρ, hρ, hρ'⟩ := Metric.continuousAt_iff.1 hc ε hε
  have he : 0 < min ε (ρ / 2) := lt_min hε (by linarith)
  obtain ⟨δ1, hδ1, h1⟩ := C83_fraction_converges G hq heps hepsf hrP hr1 ht1 he
  obtain ⟨δ2, hδ2, h2⟩ := C83_fraction_converges G hq heps hepsf hrP hr2 ht2 he
  obtain ⟨δ3, hδ3, h3⟩ := C82_radius_converges G hq hrP htP (lt_min hε (lt_min hδ1 hδ2))
  refine ⟨min δ3 (min δ1 δ2), lt_min hδ3 (lt_min hδ1 hδ2), ?_⟩
  intro R hR c0 c1 c2 c3 ip kind num tff hB
  have cv : ∀ t e, e ≤ ε → Covers R (t + ε) → Covers R (t + e) := by
    rintro t e he ⟨x, hx, h⟩
    exact ⟨x, hx, le_trans (by linarith) h⟩
  have l1 : min δ3 (min δ1 δ2) ≤ δ1 := (min_le_right _ _).trans (min_le_left _ _)
  have l2 : min δ3 (min δ1 δ2) ≤ δ2 := (min_le_right _ _).trans (min_le_right _ _)
  obtain ⟨pl, rp, g1, g2, g3⟩ := h3 R (hR.mono (min_le_left _ _)) (cv _ _ (min_le_left _ _) c0) ip kind num
    (by rintro k rfl; exact hB)
  obtain ⟨a, a1, a2, a3⟩ := h1 R (hR.mono l1) (cv _ _ (min_le_left _ _) c2) (cv _ _ (min_le_left _ _) c1) rp
    (g3.trans ((min_le_right _ _).trans (min_le_left _ _))) ip kind num (some nan) hB
  obtain ⟨b, b1, b2, b3⟩ := h2 R (hR.mono l2) (cv _ _ (min_le_left _ _) c3) (cv _ _ (min_le_left _ _) c1) rp
    (g3.trans ((min_le_right _ _).trans (min_le_right _ _))) ip kind num (some nan) hB
  have h30 := hR.three
  refine ⟨_, Petrosian.init_ok_iff.2 ⟨by simp; omega, by simp [fluxes], by simp, by simp, pl, none, g1, rfl⟩, a, b,
    5 * Real.logb 10 (b / a), ?_, a2.trans (min_le_left _ _), b2.trans (min_le_left _ _), ?_⟩
  · simp only [Petrosian.concentrationIndex, Petrosian.rPetrosian, Petrosian.rPetrosianErr, Petrosian.calcPetrosianR, g2,
      Except.map, Except.bind_ok, calculateConcentrationIndex, a1, b1, isNaN_fin, Bool.or_self, Bool.false_eq_true, if_false,
      log10_ratio a3 b3, fin_mul]
  · have := @hρ' (a, b) (by
      rw [Prod.dist_eq, Real.dist_eq, Real.dist_eq]
      exact max_lt (lt_of_le_of_lt (a2.trans (min_le_right _ _)) (by linarith))
        (lt_of_le_of_lt (b2.trans (min_le_right _ _)) (by linarith)))
    rw [Real.dist_eq] at this
    exact this.le

/-- The Sersic model is such a galaxy. -/
theorem sersic_galaxy {amplitude rEff n : ℝ} (ha : 0 < amplitude) (hn : 0 < n) (hre : 0 < rEff) :
    Galaxy (sersic (bn n) amplitude rEff n) where
  cont := by
    have : Continuous fun t : ℝ => Spec.sersic (bn n) amplitude rEff n t := by
      unfold Spec.sersic
      exact continuous_const.mul (Real.continuous_exp.comp (continuous_const.mul
        (((Real.continuous_rpow_const (one_div_pos.2 hn).le).comp
          (continuous_id.div_const rEff)).sub continuous_const)).neg)
    exact this.continuousOn
  pos := fun r hr => mul_pos ha (Real.exp_pos _)
  falls := by
    intro x hx y hy hxy
    unfold Spec.sersic
    refine mul_lt_mul_of_pos_left (Real.exp_lt_exp.2 ?_) ha
    have h1 := Real.rpow_lt_rpow (div_nonneg hx hre.le) (div_lt_div_of_pos_right hxy hre) (one_div_pos.2 hn)
    have := mul_lt_mul_of_pos_left h1 (bn_pos hn)
    linarith
  ratioFalls := by
    intro x hx y hy hxy
    rw [← C67_ratio ha.ne' hn hre (Set.mem_Ioi.1 hx), ← C67_ratio ha.ne' hn hre (Set.mem_Ioi.1 hy)]
    exact C67_decreasing hn hre hx hy hxy

/-- **C84** For a Sersic galaxy: the Petrosian radius of the code converges to the radius where the code's own analytic
`petrosian_profile` equals eta, and the half light radius of the code (with `epsilon_fraction` the fraction of the total flux
that is really inside `epsilon * r_petrosian`) converges to `r_eff`. -/
theorem C84_sersic {amplitude rEff n ellip eta eps rP : ℝ} (ha : 0 < amplitude) (hn : 0 < n) (hre : 0 < rEff)
    (hell : ellip < 1) (heps : 0 < eps) (hrP : 0 < rP) (htP : petrosianProfile rP rEff n = eta) {ε : ℝ} (hε : 0 < ε) :
    ∃ δ > 0, ∀ R, Fine δ R → Covers R (rP + ε) → Covers R (eps * rP + ε) → Covers R (rEff + ε) →
      ∀ (ip : InterpFam ℝ) (kind : Option String) (num : Nat) (tff : F ℝ), BetweenNodes (ip (kind.getD "cubic")) →
      ∃ p, Petrosian.init (R.map fin) (R.map fun r => fin (π * (1 - ellip) * r ^ 2))
          (R.map fun r => fin (sersicEnclosed r amplitude rEff n ellip)) none none (fin eta) (fin eps)
          (fin (sersicEnclosed (eps * rP) amplitude rEff n ellip / (2 * sersicEnclosed rEff amplitude rEff n ellip)))
          tff kind num = .ok p ∧
        ∃ rp rh, p.rPetrosian ip = .ok (fin rp) ∧ |rp - rP| ≤ ε ∧ p.rHalfLight ip = .ok (fin rh) ∧ |rh - rEff| ≤ ε := by
  have G := sersic_galaxy (amplitude := amplitude) ha hn hre
  have hq : 0 < 1 - ellip := by linarith
  have hF : ∀ r, 0 ≤ r → enclosed (sersic (bn n) amplitude rEff n) (1 - ellip) r = sersicEnclosed r amplitude rEff n ellip :=
    fun r hr => (C64_integral hn hre hr).symm
  have p1 : 0 < sersicEnclosed (eps * rP) amplitude rEff n ellip := by
    rw [← hF _ (mul_pos heps hrP).le]; exact gal_pos G hq (mul_pos heps hrP)
  have p2 : 0 < sersicEnclosed rEff amplitude rEff n ellip := by
    rw [← hF _ hre.le]; exact gal_pos G hq hre
  obtain ⟨δ, hδ, h⟩ := C84_object_radii G hq (eta := eta) (eps := eps)
    (epsf := sersicEnclosed (eps * rP) amplitude rEff n ellip / (2 * sersicEnclosed rEff amplitude rEff n ellip))
    (frac := 1 / 2) (rP := rP) (rF := rEff) heps (by positivity) hrP hre
    (by rw [← C67_ratio ha.ne' hn hre hrP]; exact htP)
    (by
      rw [hF _ hre.le, hF _ (mul_pos heps hrP).le]
      field_simp) hε
  refine ⟨δ, hδ, fun R hR c1 c2 c3 ip kind num tff hB => ?_⟩
  obtain ⟨p, hp, rp, rf, a1, a2, a3, a4, _⟩ := h R hR c1 c2 c3 ip kind num tff hB
  refine ⟨p, ?_, rp, rf, a1, a2, a3, a4⟩
  rw [← hp]
  congr 1
  apply List.map_congr_left
  intro r hr
  obtain ⟨i, hi, rfl⟩ := List.getElem_of_mem hr
  rw [hF _ (hR.pos hi).le]

/-- The hypotheses can be met: for every spacing and every radius there are fine apertures that cover it, and every `eta`
between 0 and 1 is the Petrosian ratio of some radius (C67). -/
theorem fine_exists {δ : ℝ} (hδ : 0 < δ) (r : ℝ) : ∃ R, Fine δ R ∧ Covers R r := by
  obtain ⟨n, hn⟩ := exists_nat_gt (r / δ)
  refine ⟨(List.range (n + 3)).map fun i : Nat => ((i : ℝ) + 1) * δ, ⟨by simp, ?_, ?_⟩, ?_⟩
  · intro h
    simp [hδ]
  · intro i h
    simp only [List.getElem_map, List.getElem_range]
    push_cast
    constructor
    · nlinarith
    · ring_nf
      exact le_rfl
  · refine ⟨((n : ℝ) + 1) * δ, List.mem_map.2 ⟨n, by simp, rfl⟩, ?_⟩
    rw [div_lt_iff₀ hδ] at hn
    linarith

/-- A de Vaucouleurs galaxy with `eta = 0.2`, `epsilon = 2`, linear interpolation: the radii exist and are within 0.01. -/
example : ∃ (rP : ℝ) (R : List ℝ) (p : Petrosian ℝ) (epsf rp rh : ℝ),
    Petrosian.init (R.map fin) (R.map fun r => fin (π * (1 - 1 / 4) * r ^ 2))
      (R.map fun r => fin (sersicEnclosed r 100 15 4 (1 / 4))) none none (fin (1 / 5)) (fin 2) (fin epsf) (fin (99 / 100))
      (some "linear") 5000 = .ok p ∧ petrosianProfile rP 15 4 = 1 / 5 ∧
      p.rPetrosian (fun _ => linearInterp) = .ok (fin rp) ∧ |rp - rP| ≤ 1 / 100 ∧
      p.rHalfLight (fun _ => linearInterp) = .ok (fin rh) ∧ |rh - 15| ≤ 1 / 100 := by
  obtain ⟨rP, ⟨h0, h1⟩, -⟩ := C67_unique_radius (rEff := 15) (n := 4) (eta := 1 / 5) (by norm_num) (by norm_num) (by norm_num)
    (by norm_num)
  obtain ⟨δ, hδ, h⟩ := C84_sersic (amplitude := 100) (rEff := 15) (n := 4) (ellip := 1 / 4) (eta := 1 / 5) (eps := 2)
    (by norm_num) (by norm_num) (by norm_num) (by norm_num) (by norm_num) h0 h1 (ε := 1 / 100) (by norm_num)
  obtain ⟨R, hR, x, hx, hc⟩ := fine_exists hδ (2 * rP + 16)
  obtain ⟨p, hp, rp, rh, a, b, c, d⟩ := h R hR ⟨x, hx, by linarith⟩ ⟨x, hx, by linarith⟩ ⟨x, hx, by linarith⟩
    (fun _ => linearInterp) (some "linear") 5000 (fin (99 / 100)) linear_between
  exact ⟨rP, R, p, _, rp, rh, hp, h1, a, b, c, d⟩

end Verif.Props

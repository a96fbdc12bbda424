import Verif.Lemmas.RoundingCrossing
import Verif.Props.RoundingProfile
import Verif.Spec.RoundedInterp

/-!
# C148: radii found in floating point arithmetic from a profile and a curve of growth known to some accuracy
-/

set_option linter.unusedSectionVars false
set_option linter.unusedVariables false

namespace Verif.Props

open Verif F Spec Lemmas Real

theorem gentleR_calm {K : Type} [Field K] [LinearOrder K] [IsStrictOrderedRing K] {I : Interp K} {ρ C e : K} (hI : GentleR ρ C e I) {N Y : List K}
    (hl : N.length = Y.length) (hm : 4 ≤ N.length) {g : K} (hg : 0 < g)
    (hgap : ∀ i (h : i + 1 < N.length), g ≤ N[i + 1] - N[i] ∧ N[i + 1] - N[i] ≤ ρ * g) {δ B d : K}
    (hd : ∀ i (h : i + 1 < Y.length), |Y[i + 1] - Y[i]| ≤ δ) (hB : ∀ y ∈ Y, |y| ≤ B) (hC : C * δ + e * B ≤ d) (T : K) : Calm d T I N Y := by
  intro j h h' q h1 h2
  obtain ⟨v, hv, v1, v2⟩ := hI N Y hl hm g hg hgap δ B hd hB j h q h1 h2
  exact ⟨v, hv, fun _ => ⟨by linarith, by linarith⟩⟩

variable {I : ℝ → ℝ}

theorem fullRatio_cont (G : Galaxy I) : ContinuousOn (fullRatio I) (Set.Ici 0) := by
  intro x hx
  rw [Metric.continuousWithinAt_iff]
  intro ε hε
  obtain ⟨ν, hν, h⟩ := fullRatio_modulus G (x + 1) (half_pos hε)
  refine ⟨min ν 1, lt_min hν one_pos, fun {y} hy hd => ?_⟩
  rw [Real.dist_eq] at hd ⊢
  have h1 := (hd.le.trans (min_le_right _ _))
  have := h y x hy (by linarith [(abs_le.1 h1).2]) hx (by linarith) (hd.le.trans (min_le_left _ _))
  linarith

theorem fullRatio_mem (G : Galaxy I) {x : ℝ} : 0 < fullRatio I x ∧ fullRatio I x ≤ 1 := by
  unfold fullRatio
  split
  · exact ⟨one_pos, le_rfl⟩
  · rename_i h
    have := petroRatio_mem G (not_le.1 h)
    exact ⟨this.1, this.2.le⟩

theorem fullRatio_anti (G : Galaxy I) : StrictAntiOn (fullRatio I) (Set.Ici 0) := by
  intro x hx y hy hxy
  have hy0 : 0 < y := lt_of_le_of_lt hx hxy
  rw [fullRatio_pos hy0]
  rcases (Set.mem_Ici.1 hx).eq_or_lt with h | h
  · rw [← h, fullRatio_zero]
    have h1 := G.ratioFalls (Set.mem_Ioi.2 (half_pos hy0)) (Set.mem_Ioi.2 hy0) (half_lt_self hy0)
    exact h1.trans (petroRatio_mem G (half_pos hy0)).2
  · rw [fullRatio_pos h]
    exact G.ratioFalls (Set.mem_Ioi.2 h) (Set.mem_Ioi.2 hy0) hxy

/-- The gaps of the radii after `r_list[0] = 0`, in pixels. -/
theorem even_zeroed {ρ s : ℝ} (hs : 0 < s) {δ : ℝ} {R : List ℝ} (hR : Fine δ R) (hev : EvenRadii ρ R) :
    ∃ g > 0, ∀ i (h : i + 1 < ((0 :: R.tail).map fun x => s * x).length), g ≤ ((0 :: R.tail).map fun x => s * x)[i + 1] -
      ((0 :: R.tail).map fun x => s * x)[i] ∧ ((0 :: R.tail).map fun x => s * x)[i + 1] - ((0 :: R.tail).map fun x => s * x)[i] ≤ ρ * g := by
  obtain ⟨g, hg, hgap, hg1⟩ := hev
  have h3 := hR.three
  have hNl : ((0 :: R.tail).map fun x => s * x).length = R.length := by simp; omega
  have hN0 : ∀ i (hi : i + 1 < R.length), ((0 :: R.tail).map fun x => s * x)[i + 1]'(by omega) = s * R[i + 1] := by
    intro i hi; simp
  refine ⟨s * g, mul_pos hs hg, fun i hi => ?_⟩
  rw [hNl] at hi
  rw [hN0 i hi]
  have e : ρ * (s * g) = s * (ρ * g) := by ring
  rw [e]
  cases i with
  | zero =>
    have hz : ((0 :: R.tail).map fun x => s * x)[0]'(by rw [hNl]; omega) = 0 := by simp
    rw [hz, sub_zero]
    have := hgap 0 hi
    have := hR.pos (i := 0) (by omega)
    have := hg1 hi
    constructor
    · exact mul_le_mul_of_nonneg_left (by simp only [zero_add] at *; linarith) hs.le
    · exact mul_le_mul_of_nonneg_left (by simp only [zero_add] at *; linarith) hs.le
  | succ i =>
    rw [hN0 i (by omega), ← mul_sub]
    have := hgap (i + 1) hi
    exact ⟨mul_le_mul_of_nonneg_left this.1 hs.le, mul_le_mul_of_nonneg_left this.2 hs.le⟩

set_option maxHeartbeats 1000000 in
/-- **C148, the Petrosian radius.** For every tolerance `ε` there are a spacing `δ` of the radii, an accuracy `σ` of the profile and a unit
roundoff `c0` such that `calculate_petrosian_r`, with every operation rounded, finds the Petrosian radius up to `ε`: for every galaxy, unit
of length, rounding, interpolation (with rounding errors of its own) and list of radii up to `T`. -/
theorem C148_radius (G : Galaxy I) {eta rP : ℝ} (hrP : 0 < rP) (htrue : petroRatio I rP = eta) {ε T : ℝ} (hε : 0 < ε) (hT : rP + ε ≤ T)
    (ρ C : ℝ) :
    ∃ δ > 0, ∃ σ > 0, ∃ c0 > 0, ∀ s > 0, ∀ (fl : ℝ → ℝ) (u : ℝ), Rounding fl → RelErr u fl → 0 ≤ u → u ≤ c0 →
      ∀ R, Fine δ R → EvenRadii ρ R → (∀ r ∈ R, r ≤ T ∧ fl (s * r) = s * r) → Covers R (rP + ε) →
      ∀ p : List (F ℝ), p.length = R.length →
      (∀ i (h : i + 1 < R.length), ∃ v, p[i + 1]? = some (fin v) ∧ |v - petroRatio I R[i + 1]| ≤ σ) →
      ∀ (ip : InterpFam ℝ) (kind : Option String) (num : Nat) (e : ℝ), 4 * u * (max num R.length : Nat) ≤ 1 → 0 ≤ e → e ≤ c0 →
      (∀ k, kind = some k → GentleR ρ C e (ip k)) →
      ∃ r, calculatePetrosianRR fl ip (R.map fun x => fin (s * x)) p (fin eta) kind num = .ok (fin (s * r)) ∧ |r - rP| ≤ ε ∧ 0 < r := by
  have hT0 : 0 < T := by linarith
  obtain ⟨δ1, hδ1, σ1, hσ1, c1, hc1, hcr⟩ := crossingR (g := fullRatio I) false (by simpa using fullRatio_anti G) (fullRatio_cont G) hrP hε hT
  set C' := max C 1 with hC'
  have hC1 : 1 ≤ C' := le_max_right _ _
  have hCC : C ≤ C' := le_max_left _ _
  have hC0 : 0 < C' := by linarith
  set τ := σ1 / (8 * C') with hτ
  have hτ0 : 0 < τ := by positivity
  have hτC : C' * (8 * τ) = σ1 := by rw [hτ]; field_simp
  have hτσ : 8 * τ ≤ σ1 := by nlinarith
  obtain ⟨ν, hν, hfull⟩ := fullRatio_modulus G T hτ0
  set δ := min (δ1 / 2) (min (ν / 2) (rP / 4)) with hδ
  have d1 : δ ≤ δ1 / 2 := min_le_left _ _
  have d2 : δ ≤ ν / 2 := (min_le_right _ _).trans (min_le_left _ _)
  have d4 : δ ≤ rP / 4 := (min_le_right _ _).trans (min_le_right _ _)
  have hδ0 : 0 < δ := lt_min (by linarith) (lt_min (by linarith) (by linarith))
  set c0 := min c1 (σ1 / (2 * (1 + σ1))) with hc0
  have hc00 : 0 < c0 := lt_min hc1 (by positivity)
  have c01 : c0 ≤ c1 := min_le_left _ _
  have c02 : c0 * (2 * (1 + σ1)) ≤ σ1 := by
    rw [← le_div_iff₀ (by positivity)]; exact min_le_right _ _
  clear_value δ c0 τ
  refine ⟨δ, hδ0, τ, hτ0, c0, hc00, ?_⟩
  intro s hs fl u hfl hu hu0 huc R hR hev hRT hcov p hpl hpv ip kind num e hnum he0 hec hB
  have h3 := hR.three
  have h4 : 4 ≤ R.length := fine_four (T := rP + ε) (by linarith) (by linarith) hR hcov
  obtain ⟨Y, hY, hlY, hY0, hYi⟩ := profile_numbers hpl (by omega)
    (Q := fun i v => ∀ h : i + 1 < R.length, |v - petroRatio I R[i + 1]| ≤ τ)
    (fun i h => by
      obtain ⟨v, hv, hb⟩ := hpv i h
      exact ⟨v, hv, fun _ => hb⟩)
  obtain ⟨hN, hNl, hNg, hNe⟩ := Fine.zeroed hR
  obtain ⟨g, hg, hgap⟩ := even_zeroed hs hR hev
  set M := (0 :: R.tail).map fun x => s * x with hMdef
  have hMl : M.length = R.length := by simp [hMdef]; omega
  have hM0 : M[0]'(by omega) = 0 := by simp [hMdef]
  have hMi : ∀ i (h : i + 1 < R.length), M[i + 1]'(by omega) = s * R[i + 1] := by intro i h; simp [hMdef]
  have hM : Incr M := by
    unfold Incr
    rw [hMdef, List.pairwise_map]
    exact hN.imp fun h => mul_lt_mul_of_pos_left h hs
  have hfl0 : fl 0 = 0 := Rounding.zero hfl
  have hmem : ∀ x ∈ M, 0 ≤ x ∧ x ≤ s * T ∧ fl x = x := by
    intro x hx
    obtain ⟨i, hi, rfl⟩ := List.getElem_of_mem hx
    cases i with
    | zero => rw [hM0]; exact ⟨le_rfl, by positivity, hfl0⟩
    | succ i =>
      have hi' : i + 1 < R.length := by omega
      rw [hMi i hi']
      have := hRT _ (List.getElem_mem hi')
      exact ⟨mul_nonneg hs.le (hR.pos hi').le, mul_le_mul_of_nonneg_left this.1 hs.le, this.2⟩
  -- the data
  have hYv : ∀ i (h : i < M.length), |Y[i]'(by omega) - 1 * fullRatio I (M[i] / s)| ≤ 1 * τ := by
    intro i hi
    rw [one_mul, one_mul]
    cases i with
    | zero => rw [hY0 (by omega), hM0, zero_div, fullRatio_zero]; simpa using hτ0.le
    | succ i =>
      have hi' : i + 1 < R.length := by omega
      rw [hMi i hi', mul_div_cancel_left₀ _ hs.ne', fullRatio_pos (hR.pos hi')]
      exact hYi i hi' hi'
  have hMg : ∀ i (h : i + 1 < M.length), M[i + 1] - M[i] ≤ s * (2 * δ) := by
    intro i h
    simp only [hMdef, List.getElem_map]
    rw [← mul_sub]
    exact mul_le_mul_of_nonneg_left (hNg i (by simpa [hMdef] using h)) hs.le
  have hcalm : ∀ k, kind = some k → Calm (1 * σ1) (s * T) (ip k) M Y := by
    intro k hk
    refine gentleR_calm (N := M) (hB k hk) (by omega) (by omega) hg hgap (δ := 3 * τ) (B := 1 + σ1) ?_ ?_ ?_ _
    · intro i hi
      have y1 := abs_le.1 (hYv i (by omega))
      have y2 := abs_le.1 (hYv (i + 1) (by omega))
      have hi1 : i + 1 < M.length := by omega
      have y3 := abs_le.1 (hfull (M[i] / s) (M[i + 1] / s) (div_nonneg (hmem _ (List.getElem_mem _)).1 hs.le)
        (by rw [div_le_iff₀ hs]; linarith [(hmem _ (List.getElem_mem (by omega : i < M.length))).2.1])
        (div_nonneg (hmem _ (List.getElem_mem _)).1 hs.le)
        (by rw [div_le_iff₀ hs]; linarith [(hmem _ (List.getElem_mem hi1)).2.1])
        (by
          have h1 := hMg i hi1
          have h2 := Incr.le_getElem hM (Nat.le_succ i) hi1
          rw [← sub_div, abs_div, abs_of_pos hs, div_le_iff₀ hs, abs_of_nonpos (by linarith)]
          have : s * (2 * δ) ≤ s * ν := mul_le_mul_of_nonneg_left (by linarith) hs.le
          linarith))
      rw [abs_le]
      constructor <;> linarith [y1.1, y1.2, y2.1, y2.2, y3.1, y3.2]
    · intro y hy
      obtain ⟨i, hi, rfl⟩ := List.getElem_of_mem hy
      have y1 := abs_le.1 (hYv i (by omega))
      have hi1 : i < M.length := by omega
      have m := fullRatio_mem G (x := M[i] / s)
      rw [abs_le]
      constructor <;> linarith [y1.1, y1.2, m.1, m.2]
    · have a1 : C * (3 * τ) ≤ C' * (3 * τ) := mul_le_mul_of_nonneg_right hCC (by linarith)
      have a2 : e * (1 + σ1) ≤ c0 * (1 + σ1) := mul_le_mul_of_nonneg_right hec (by linarith)
      linarith
  have hlastR : ∀ h : R.length - 1 < R.length, s * (rP + ε) ≤ s * R[R.length - 1] := by
    intro h
    obtain ⟨x, hx, hx'⟩ := hcov
    obtain ⟨i, hi, rfl⟩ := List.getElem_of_mem hx
    have : R[i] ≤ R[R.length - 1] := Incr.le_getElem hR.incr (by omega) h
    exact mul_le_mul_of_nonneg_left (by linarith) hs.le
  obtain ⟨xy, r, hgi, hr1, hr2, hr3⟩ := hcr s hs 1 one_pos fl u hfl hu hu0 (huc.trans c01) M Y (by omega) (by omega) hM
    (by rw [hM0]) (by rw [hM0]; positivity) (fun x hx => (hmem x hx).2.1)
    (fun i h => (hMg i h).trans (mul_le_mul_of_nonneg_left (by linarith) hs.le))
    (by
      have e1 := hMi (R.length - 2) (by omega)
      have ee : R.length - 2 + 1 = R.length - 1 := by omega
      simp only [ee] at e1
      simp only [hMl, e1]
      exact hlastR (by omega))
    (fun x hx => (hmem x hx).2.2)
    (fun i hi => (hYv i hi).trans (mul_le_mul_of_nonneg_left (by linarith) zero_le_one))
    ip kind num (by rw [hMl]; exact hnum) hcalm eta
    (by rw [one_mul, fullRatio_pos hrP, htrue, sub_self, abs_zero]; linarith)
  refine ⟨r, ?_, hr2, hr3⟩
  cases R with
  | nil => simp at h3
  | cons r0 R =>
    cases p with
    | nil => simp at hpl
    | cons p0 p =>
      unfold calculatePetrosianRR
      have e1 : setItem0 ((r0 :: R).map fun x => fin (s * x)) (fin 0) = .ok (M.map fin) := by
        simp [hMdef, setItem0, Function.comp_def]
      have e2 : setItem0 (p0 :: p) (fin 1) = .ok (Y.map fin) := by
        rw [← hY]; simp [setItem0]
      rw [e1, e2]
      simp only [Except.bind_ok, hgi]
      exact hr1

/-- Rounding of the target flux. -/
theorem target_near {fl : ℝ → ℝ} {u : ℝ} (hu : RelErr u fl) (hu0 : 0 ≤ u) (hu1 : u ≤ 1) {U g0 E c a : ℝ} (hU : 0 < U) (hg0 : 0 ≤ g0)
    (ha : a ≤ 1) (hE : |E - U * g0| ≤ U * a) : |fl (E * fl c) - U * (c * g0)| ≤ U * (|c| * (2 * a + 5 * u * (g0 + 1))) := by
  have h1 := hu c
  have h2 := hu (E * fl c)
  have hc : |fl c| ≤ 2 * |c| := by
    have := (relErr_abs hu c).1
    have h := mul_le_mul_of_nonneg_right hu1 (abs_nonneg c)
    linarith
  have hE1 : |E| ≤ U * (g0 + 1) := by
    have e : E = (E - U * g0) + U * g0 := by ring
    rw [e]
    refine (abs_add_le _ _).trans ?_
    rw [abs_of_nonneg (mul_nonneg hU.le hg0)]
    have := mul_le_mul_of_nonneg_left ha hU.le
    linarith
  have hUg : 0 ≤ U * g0 := mul_nonneg hU.le hg0
  have h3 : |E * fl c| ≤ U * (g0 + 1) * (2 * |c|) := by
    rw [abs_mul]
    exact mul_le_mul hE1 hc (abs_nonneg _) (by positivity)
  have h4 : |E * fl c - U * (c * g0)| ≤ U * a * (2 * |c|) + U * g0 * (u * |c|) := by
    have e : E * fl c - U * (c * g0) = (E - U * g0) * fl c + U * g0 * (fl c - c) := by ring
    rw [e]
    refine (abs_add_le _ _).trans (add_le_add ?_ ?_)
    · rw [abs_mul]
      exact mul_le_mul hE hc (abs_nonneg _) ((abs_nonneg _).trans hE)
    · rw [abs_mul, abs_of_nonneg hUg]
      exact mul_le_mul_of_nonneg_left h1 hUg
  have h5 : |fl (E * fl c) - E * fl c| ≤ u * (U * (g0 + 1) * (2 * |c|)) := h2.trans (mul_le_mul_of_nonneg_left h3 hu0)
  have e : fl (E * fl c) - U * (c * g0) = (fl (E * fl c) - E * fl c) + (E * fl c - U * (c * g0)) := by ring
  rw [e]
  refine (abs_add_le _ _).trans ?_
  have p1 : 0 ≤ U * |c| * u := by positivity
  have p2 : 0 ≤ U * |c| * u * g0 := by positivity
  have e2 : U * (|c| * (2 * a + 5 * u * (g0 + 1))) = u * (U * (g0 + 1) * (2 * |c|)) + (U * a * (2 * |c|) + U * g0 * (u * |c|)) +
      (3 * (U * |c| * u) + 2 * (U * |c| * u * g0)) := by ring
  rw [e2]
  linarith

set_option maxHeartbeats 1000000 in
/-- **C148, the radius of a flux fraction.** For every tolerance `ε` there are a spacing `δ`, an accuracy `σ` of the curve of growth and a unit
roundoff `c0` such that `fraction_to_r`, with every operation rounded, finds the radius of the fraction up to `ε` from a Petrosian radius
known to `δ`. The units of length (`s`) and of flux (`U`) are free. -/
theorem C148_fraction (G : Galaxy I) {q : ℝ} (hq : 0 < q) {frac eps epsf rP rF : ℝ} (heps : 0 < eps) (hepsf : epsf ≠ 0)
    (hrP : 0 < rP) (hrF : 0 < rF) (htrue : enclosed I q rF = frac / epsf * enclosed I q (eps * rP)) {ε T : ℝ} (hε : 0 < ε)
    (hTF : rF + ε ≤ T) (hTE : eps * rP + ε ≤ T) (ρ C : ℝ) :
    ∃ δ > 0, ∃ σ > 0, ∃ c0 > 0, ∀ s > 0, ∀ U > 0, ∀ (fl : ℝ → ℝ) (u : ℝ), Rounding fl → RelErr u fl → 0 ≤ u → u ≤ c0 →
      ∀ R, Fine δ R → EvenRadii ρ R → (∀ r ∈ R, r ≤ T ∧ fl (s * r) = s * r) → Covers R (rF + ε) → Covers R (eps * rP + ε) →
      ∀ (Y : List ℝ) (hl : R.length = Y.length), (∀ i (h : i < R.length), |Y[i] - U * enclosed I q R[i]| ≤ U * σ) →
      ∀ rp, |rp - rP| ≤ δ →
      ∀ (ip : InterpFam ℝ) (k : String) (num : Nat) (e : ℝ), 4 * u * (max num R.length : Nat) ≤ 1 → 0 ≤ e → e ≤ c0 → GentleR ρ C e (ip k) →
      ∃ r, fractionToRR fl ip (fin frac) (R.map fun x => fin (s * x)) (Y.map fin) (fin (s * rp)) (fin eps) (fin epsf) (some k) num =
        .ok (fin (s * r)) ∧ |r - rF| ≤ ε ∧ 0 < r := by
  have hT0 : 0 < T := by linarith
  have hmono := gal_strictMono G hq
  set gE := enclosed I q (eps * rP) with hgE
  have hEP : 0 < eps * rP := mul_pos heps hrP
  have hgE0 : 0 < gE := gal_pos G hq hEP
  set c := frac / epsf with hc
  obtain ⟨δ1, hδ1, σ1, hσ1, c1, hc1, hcr⟩ := crossingR (g := enclosed I q) true (by simpa using hmono) (gal_cont G q) hrF hε hTF
  set C' := max C 1 with hC'
  have hC1 : 1 ≤ C' := le_max_right _ _
  have hCC : C ≤ C' := le_max_left _ _
  have hC0 : 0 < C' := by linarith
  -- accuracy of the flux at `eps * rP`
  set a := min 1 (σ1 / (4 * (|c| + 1))) with ha
  have ha0 : 0 < a := lt_min one_pos (by positivity)
  have ha1 : a ≤ 1 := min_le_left _ _
  have hac : |c| * (2 * a) ≤ σ1 / 2 := by
    have h1 : a ≤ σ1 / (4 * (|c| + 1)) := min_le_right _ _
    rw [le_div_iff₀ (by positivity)] at h1
    have : |c| * a ≤ (|c| + 1) * a := mul_le_mul_of_nonneg_right (by linarith) ha0.le
    linarith
  -- accuracy of the interpolation
  set d := min (a / 4) σ1 with hd
  have hd0 : 0 < d := lt_min (by linarith) hσ1
  have hda : d ≤ a / 4 := min_le_left _ _
  have hdσ : d ≤ σ1 := min_le_right _ _
  set τ := d / (6 * C') with hτ
  have hτ0 : 0 < τ := by positivity
  have hτC : C' * (6 * τ) = d := by rw [hτ]; field_simp
  have hτd : 6 * τ ≤ d := by nlinarith
  obtain ⟨ν, hν, hmod⟩ := curve_modulus (gal_cont G q) T hτ0
  set gT := enclosed I q T with hgT
  have hgT0 : 0 < gT := gal_pos G hq hT0
  set δ := min (min δ1 (min ν (rP / 4))) (min (min (rF / 4) (eps * rP / 4)) (min (ν / (4 * eps)) (ε / (4 * eps)))) with hδ
  have d1 : δ ≤ δ1 := (min_le_left _ _).trans (min_le_left _ _)
  have d2 : δ ≤ ν := (min_le_left _ _).trans ((min_le_right _ _).trans (min_le_left _ _))
  have d7 : δ ≤ rP / 4 := (min_le_left _ _).trans ((min_le_right _ _).trans (min_le_right _ _))
  have d3 : δ ≤ rF / 4 := (min_le_right _ _).trans ((min_le_left _ _).trans (min_le_left _ _))
  have d4 : δ ≤ eps * rP / 4 := (min_le_right _ _).trans ((min_le_left _ _).trans (min_le_right _ _))
  have d5 : eps * δ ≤ ν / 4 := by
    have : δ ≤ ν / (4 * eps) := (min_le_right _ _).trans ((min_le_right _ _).trans (min_le_left _ _))
    rw [le_div_iff₀ (by positivity)] at this
    linarith
  have d6 : eps * δ ≤ ε / 4 := by
    have : δ ≤ ε / (4 * eps) := (min_le_right _ _).trans ((min_le_right _ _).trans (min_le_right _ _))
    rw [le_div_iff₀ (by positivity)] at this
    linarith
  have hδ0 : 0 < δ := lt_min (lt_min hδ1 (lt_min hν (by linarith))) (lt_min (lt_min (by linarith) (by linarith)) (lt_min (by positivity) (by positivity)))
  have dE : eps * δ ≤ eps * rP / 4 := by
    have := mul_le_mul_of_nonneg_left d7 heps.le
    linarith
  -- the roundoff
  set X := eps * rP + ε with hX
  have hX0 : 0 < X := by positivity
  set m := min (min ν ε) (eps * rP) with hm
  have hm0 : 0 < m := lt_min (lt_min hν hε) hEP
  set c0 := min (min c1 1) (min (min (d / (2 * (gT + 1))) (m / (4 * X))) (σ1 / (10 * (gE + 1) * (|c| + 1)))) with hc0
  have hc00 : 0 < c0 := lt_min (lt_min hc1 one_pos) (lt_min (lt_min (by positivity) (by positivity)) (by positivity))
  have c01 : c0 ≤ c1 := (min_le_left _ _).trans (min_le_left _ _)
  have c02 : c0 ≤ 1 := (min_le_left _ _).trans (min_le_right _ _)
  have c03 : c0 * (2 * (gT + 1)) ≤ d := by
    rw [← le_div_iff₀ (by positivity)]
    exact (min_le_right _ _).trans ((min_le_left _ _).trans (min_le_left _ _))
  have c04 : c0 * (4 * X) ≤ m := by
    rw [← le_div_iff₀ (by positivity)]
    exact (min_le_right _ _).trans ((min_le_left _ _).trans (min_le_right _ _))
  have c05 : c0 * (10 * (gE + 1) * (|c| + 1)) ≤ σ1 := by
    rw [← le_div_iff₀ (by positivity)]
    exact (min_le_right _ _).trans (min_le_right _ _)
  have m1 : m ≤ ν := (min_le_left _ _).trans (min_le_left _ _)
  have m2 : m ≤ ε := (min_le_left _ _).trans (min_le_right _ _)
  have m3 : m ≤ eps * rP := min_le_right _ _
  clear_value δ c0 τ d a m
  refine ⟨δ, hδ0, τ, hτ0, c0, hc00, ?_⟩
  intro s hs U hU fl u hfl hu hu0 huc R hR hev hRT hcF hcE Y hl hYv rp hrp ip k num e hnum he0 hec hB
  have h3 := hR.three
  have h4 : 4 ≤ R.length := fine_four (T := rF + ε) (by linarith) (by linarith) hR hcF
  set M := R.map fun x => s * x with hMdef
  have hMl : M.length = R.length := by simp [hMdef]
  have hMi : ∀ i (h : i < R.length), M[i]'(by omega) = s * R[i] := by intro i h; simp [hMdef]
  have hM : Incr M := by
    unfold Incr
    rw [hMdef, List.pairwise_map]
    exact hR.incr.imp fun h => mul_lt_mul_of_pos_left h hs
  have hmem : ∀ x ∈ M, 0 ≤ x ∧ x ≤ s * T ∧ fl x = x := by
    intro x hx
    obtain ⟨i, hi, rfl⟩ := List.getElem_of_mem hx
    rw [hMi i (by omega)]
    have hi' : i < R.length := by omega
    have := hRT _ (List.getElem_mem hi')
    exact ⟨mul_nonneg hs.le (hR.pos hi').le, mul_le_mul_of_nonneg_left this.1 hs.le, this.2⟩
  have hMv : ∀ i (h : i < M.length), |Y[i]'(by omega) - U * enclosed I q (M[i] / s)| ≤ U * τ := by
    intro i hi
    have hi' : i < R.length := by omega
    rw [hMi i hi', mul_div_cancel_left₀ _ hs.ne']
    exact hYv i hi'
  have hMg : ∀ i (h : i + 1 < M.length), M[i + 1] - M[i] ≤ s * δ := by
    intro i h
    have hi' : i + 1 < R.length := by omega
    rw [hMi _ hi', hMi i (by omega), ← mul_sub]
    exact mul_le_mul_of_nonneg_left (hR.step i hi').2 hs.le
  have hM0 : M[0]'(by omega) ≤ s * δ := by
    rw [hMi 0 (by omega)]
    exact mul_le_mul_of_nonneg_left (hR.first (by omega)).2 hs.le
  have hlast : ∀ t, Covers R t → s * t ≤ M[M.length - 1]'(by omega) := by
    intro t ht
    obtain ⟨x, hx, hx'⟩ := ht
    have hxm : s * x ∈ M := List.mem_map.2 ⟨x, hx, rfl⟩
    obtain ⟨i, hi, e1⟩ := List.getElem_of_mem hxm
    have h1 : M[i] ≤ M[M.length - 1]'(by omega) := Incr.le_getElem hM (by omega) (by omega)
    rw [e1] at h1
    exact (mul_le_mul_of_nonneg_left hx' hs.le).trans h1
  obtain ⟨g, hg, hgap, -⟩ := hev
  have hcalm : Calm (U * d) (s * T) (ip k) M Y := by
    refine gentleR_calm (N := M) hB (by omega) (by omega) (g := s * g) (mul_pos hs hg) ?_ (δ := 3 * (U * τ)) (B := U * (gT + 1)) ?_ ?_ ?_ _
    · intro i hi
      have hi' : i + 1 < R.length := by omega
      rw [hMi _ hi', hMi i (by omega), ← mul_sub]
      have e1 : ρ * (s * g) = s * (ρ * g) := by ring
      rw [e1]
      have := hgap i hi'
      exact ⟨mul_le_mul_of_nonneg_left this.1 hs.le, mul_le_mul_of_nonneg_left this.2 hs.le⟩
    · intro i hi
      have hi' : i + 1 < R.length := by omega
      have y1 := abs_le.1 (hYv i (by omega))
      have y2 := abs_le.1 (hYv (i + 1) hi')
      have st := hR.step i hi'
      have y3 := abs_le.1 (hmod R[i] R[i + 1] (hR.pos _).le (hRT _ (List.getElem_mem _)).1 (hR.pos _).le (hRT _ (List.getElem_mem _)).1
        (by rw [abs_le]; constructor <;> linarith))
      have y5 := mul_le_mul_of_nonneg_left y3.1 hU.le
      have y6 := mul_le_mul_of_nonneg_left y3.2 hU.le
      rw [abs_le]
      constructor <;> linarith [y1.1, y1.2, y2.1, y2.2]
    · intro y hy
      obtain ⟨i, hi, rfl⟩ := List.getElem_of_mem hy
      have hi' : i < R.length := by omega
      have y1 := abs_le.1 (hYv i hi')
      have h1 : enclosed I q R[i] ≤ gT := hmono.monotoneOn (Set.mem_Ici.2 (hR.pos hi').le) (Set.mem_Ici.2 hT0.le) (hRT _ (List.getElem_mem hi')).1
      have h2 := gal_pos G hq (hR.pos hi')
      have h5 := mul_le_mul_of_nonneg_left h1 hU.le
      have h6 := mul_pos hU h2
      have h7 : U * τ ≤ U * 1 := mul_le_mul_of_nonneg_left (by linarith) hU.le
      have h8 := mul_pos hU hgT0
      rw [abs_le]
      constructor <;> linarith [y1.1, y1.2]
    · have a1 : C * (3 * (U * τ)) ≤ C' * (3 * (U * τ)) := mul_le_mul_of_nonneg_right hCC (by positivity)
      have a2 : e * (U * (gT + 1)) ≤ c0 * (U * (gT + 1)) := mul_le_mul_of_nonneg_right hec (by positivity)
      have e1 : C' * (3 * (U * τ)) = U * (C' * (6 * τ)) / 2 := by ring
      have e2 : c0 * (U * (gT + 1)) = U * (c0 * (2 * (gT + 1))) / 2 := by ring
      rw [e1, hτC] at a1
      rw [e2] at a2
      have := mul_le_mul_of_nonneg_left c03 hU.le
      linarith
  -- the flux at the rounded `r_petro * epsilon`
  set x := fl (s * rp * eps) with hx
  have hu4 : u * (4 * X) ≤ m := (mul_le_mul_of_nonneg_right huc (by positivity)).trans c04
  have hrp' := abs_le.1 hrp
  have hdrp : |rp * eps - eps * rP| ≤ eps * δ := by
    rw [show rp * eps - eps * rP = eps * (rp - rP) by ring, abs_mul, abs_of_pos heps]
    exact mul_le_mul_of_nonneg_left hrp heps.le
  have hdrp' := abs_le.1 hdrp
  have hrp0 : |rp * eps| ≤ X := by
    rw [abs_le]
    constructor <;> linarith
  have hxs : |x / s - rp * eps| ≤ u * X := by
    have h1 := hu (s * rp * eps)
    rw [← hx] at h1
    have e1 : x / s - rp * eps = (x - s * rp * eps) / s := by field_simp
    rw [e1, abs_div, abs_of_pos hs, div_le_iff₀ hs]
    refine h1.trans ?_
    have e2 : |s * rp * eps| = s * |rp * eps| := by rw [mul_assoc, abs_mul, abs_of_pos hs]
    rw [e2]
    have := mul_le_mul_of_nonneg_left (mul_le_mul_of_nonneg_left hrp0 hs.le) hu0
    linarith
  have hxs' := abs_le.1 hxs
  have hxt : |x / s - eps * rP| ≤ eps * δ + m / 4 := by
    rw [abs_le]
    constructor <;> linarith
  have hxt' := abs_le.1 hxt
  have hxlo : δ ≤ x / s := by linarith
  have hxhi : x / s ≤ eps * rP + ε := by linarith
  have hx1 : M[0]'(by omega) ≤ x := by
    rw [le_div_iff₀ hs] at hxlo
    linarith
  have hx2 : x ≤ M[M.length - 1]'(by omega) := by
    rw [div_le_iff₀ hs] at hxhi
    have := hlast _ hcE
    linarith
  obtain ⟨j, hj, s1, s2⟩ := segment_exists M x (M.length - 1) (by omega) (by omega) hx1 hx2
  obtain ⟨E, hE, hE'⟩ := hcalm j hj (by omega) x s1 s2
  obtain ⟨E1, E2⟩ := hE' (hx2.trans (hmem _ (List.getElem_mem _)).2.1)
  have hEn := near_of_between hmod hs hU (hmem _ (List.getElem_mem _)).1 s1 s2 (hmem _ (List.getElem_mem _)).2.1
    ((hMg j hj).trans (mul_le_mul_of_nonneg_left d2 hs.le)) (hMv j (by omega)) (hMv (j + 1) hj) E1 E2
  have hEm := hmod (x / s) (eps * rP) (by linarith) (by linarith) hEP.le (by linarith) (hxt.trans (by linarith))
  have hEa : |E - U * gE| ≤ U * a := by
    have e1 : E - U * gE = (E - U * enclosed I q (x / s)) + U * (enclosed I q (x / s) - gE) := by ring
    rw [e1]
    refine (abs_add_le _ _).trans ?_
    rw [abs_mul, abs_of_pos hU]
    have := mul_le_mul_of_nonneg_left hEm hU.le
    have h1 := mul_le_mul_of_nonneg_left hda hU.le
    have h2 := mul_le_mul_of_nonneg_left hτd hU.le
    have h3 := mul_pos hU hτ0
    have h4 := mul_pos hU hd0
    have h5 := mul_pos hU ha0
    linarith
  have htgt := target_near hu hu0 (huc.trans c02) (c := c) hU hgE0.le ha1 hEa
  have hv : |fl (E * fl c) - U * enclosed I q rF| ≤ U * σ1 := by
    rw [htrue]
    refine htgt.trans (mul_le_mul_of_nonneg_left ?_ hU.le)
    have h1 : |c| * (5 * u * (gE + 1)) ≤ c0 * (10 * (gE + 1) * (|c| + 1)) / 2 := by
      have e1 : c0 * (10 * (gE + 1) * (|c| + 1)) / 2 = (|c| + 1) * (5 * c0 * (gE + 1)) := by ring
      rw [e1]
      apply mul_le_mul (by linarith) _ (by positivity) (by positivity)
      exact mul_le_mul_of_nonneg_right (by linarith) (by linarith)
    rw [mul_add]
    linarith
  obtain ⟨xy, r, hgi, hr1, hr2, hr3⟩ := hcr s hs U hU fl u hfl hu hu0 (huc.trans c01) M Y (by omega) (by omega) hM
    (hmem _ (List.getElem_mem _)).1 (hM0.trans (mul_le_mul_of_nonneg_left d1 hs.le)) (fun x hx => (hmem x hx).2.1)
    (fun i h => (hMg i h).trans (mul_le_mul_of_nonneg_left d1 hs.le)) (hlast _ hcF) (fun x hx => (hmem x hx).2.2)
    (fun i hi => (hMv i hi).trans (mul_le_mul_of_nonneg_left (by linarith) hU.le))
    ip (some k) num (by rw [hMl]; exact hnum)
    (by
      rintro k' hk'
      obtain rfl : k = k' := by simpa using hk'
      intro j h h' z z1 z2
      obtain ⟨v, hv, hb⟩ := hcalm j h h' z z1 z2
      refine ⟨v, hv, fun hz => ?_⟩
      have := mul_le_mul_of_nonneg_left hdσ hU.le
      obtain ⟨b1, b2⟩ := hb hz
      exact ⟨by linarith, by linarith⟩)
    _ hv
  refine ⟨r, ?_, hr2, hr3⟩
  have hne : M ≠ [] := by rintro h; rw [h] at hMl; simp at hMl; omega
  obtain ⟨hi, l3, hmax, l3'⟩ := pyMax_fin hne
  have hlt : F.lt (fin hi) (fin x) = false := by
    rw [lt_fin, decide_eq_false_iff_not, not_lt]
    exact hx2.trans (l3' _ (List.getElem_mem _))
  have hdv : pyDiv (fin frac) (fin epsf) = .ok (fin c) := by
    unfold pyDiv
    rw [if_neg (by simpa using hepsf), fin_div_of_ne _ hepsf]
  have e1 : (R.map fun x => fin (s * x)) = M.map fin := by simp [hMdef, Function.comp_def]
  unfold fractionToRR
  simp only [e1, fin_mul, rnd_fin, hmax, Except.bind_ok, ← hx, hlt, Bool.false_eq_true, if_false, Option.getD_some, hE, hdv, hgi]
  exact hr1

end Verif.Props

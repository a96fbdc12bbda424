import Verif.Props.NoisyPSF

/-!
# C163: total flux and concentration on noisy images

`Petrosian.r_total_flux`, `total_flux` and `concentration_index` (petrofit/petrosian/core.py) of the documented recipe on noisy images seen
through a PSF.
-/

set_option linter.unusedSectionVars false
set_option linter.unusedVariables false

namespace Verif.Props

open Verif F Spec Lemmas MeasureTheory ProbabilityTheory Real

variable {I : ℝ → ℝ}

/-- The documented recipe on the `h × w` image `f` returns an `r_total_flux` within `ε` of `rT` (in units of `s` pixels) and a `total_flux`
within `ε` of `L` (in units of `s²` pixels). -/
def TotalWithin (ε s T cx cy ellip theta eta eps epsf tf rT L : ℝ) (n h w : Nat) (f : Nat → Nat → ℝ) : Prop :=
  ∃ rs : List ℝ, makeRadiusList (fin (s * T)) n = rs.map fin ∧
    ∃ fl ar er, radialPhotometry exactOverlap ⟨h, w, fun i j => fin (f i j)⟩ cx cy rs none none (1 / (1 - ellip)) theta = .ok (fl, ar, er) ∧
      ∀ (ip : InterpFam ℝ) (num : Nat), ip "cubic" = cubicInterp →
        ∃ p, Petrosian.init (rs.map fin) ar fl none none (fin eta) (fin eps) (fin epsf) (fin tf) (some "cubic") num = .ok p ∧
          ∃ rt ft, p.rTotalFlux ip = .ok (fin rt) ∧ |rt / s - rT| ≤ ε ∧ p.totalFlux ip = .ok (fin ft) ∧ |ft / s ^ 2 - L| ≤ ε

/-- The documented recipe on the `h × w` image `f` returns a concentration index of the fractions `f1`, `f2` within `ε` of `5 log10(r2 / r1)`. -/
def ConcentrationWithin (ε s T cx cy ellip theta eta eps epsf f1 f2 r1 r2 : ℝ) (n h w : Nat) (f : Nat → Nat → ℝ) : Prop :=
  ∃ rs : List ℝ, makeRadiusList (fin (s * T)) n = rs.map fin ∧
    ∃ fl ar er, radialPhotometry exactOverlap ⟨h, w, fun i j => fin (f i j)⟩ cx cy rs none none (1 / (1 - ellip)) theta = .ok (fl, ar, er) ∧
      ∀ (ip : InterpFam ℝ) (num : Nat) (tff : F ℝ), ip "cubic" = cubicInterp →
        ∃ p, Petrosian.init (rs.map fin) ar fl none none (fin eta) (fin eps) (fin epsf) tff (some "cubic") num = .ok p ∧
          ∃ a b c, p.concentrationIndex ip (fin f1) (fin f2) = .ok (fin a, fin b, fin c) ∧ |a / s - r1| ≤ ε ∧ |b / s - r2| ≤ ε ∧
            |c - 5 * Real.logb 10 (r2 / r1)| ≤ ε

set_option maxHeartbeats 1000000 in
/-- **C163, without probability.** Images whose aperture sums are close to those of the sampled galaxy have nearly its total flux. -/
theorem C163_total_sums (G : Galaxy I) {ellip : ℝ} (he0 : 0 ≤ ellip) (he1 : ellip < 1) {eta eps epsf tf rP rT : ℝ} (heps : 0 < eps)
    (hepsf : epsf ≠ 0) (hrP : 0 < rP) (hrT : 0 < rT) (htP : petroRatio I rP = eta)
    (htT : enclosed I 1 rT = tf / epsf * enclosed I 1 (eps * rP)) {T : ℝ} (hT1 : rP < T) (hT2 : eps * rP < T) (hT3 : rT < T) {ε : ℝ}
    (hε : 0 < ε) :
    HoldsNear I ellip T fun s n h w cx cy theta f =>
      TotalWithin ε s T cx cy ellip theta eta eps epsf tf rT ((1 - ellip) * enclosed I 1 rT) n h w f := by
  have hq : 0 < 1 - ellip := by linarith
  have hp := Real.pi_pos
  have hT0 : 0 < T := hrP.trans hT1
  obtain ⟨ν, hν, hcont⟩ := Metric.continuousAt_iff.1 ((gal_cont G (1 - ellip)).continuousAt (Ici_mem_nhds hrT)) (ε / 2) (by linarith)
  set ε' := min (min ε (ν / 2)) (min (T - rT) (rT / 2)) with hε'
  have hε0 : 0 < ε' := lt_min (lt_min hε (by linarith)) (lt_min (by linarith) (by linarith))
  have hε1 : ε' ≤ ε := (min_le_left _ _).trans (min_le_left _ _)
  have hε2 : ε' ≤ ν / 2 := (min_le_left _ _).trans (min_le_right _ _)
  have hε3 : ε' ≤ T - rT := (min_le_right _ _).trans (min_le_left _ _)
  have hε4 : ε' ≤ rT / 2 := (min_le_right _ _).trans (min_le_right _ _)
  clear_value ε'
  obtain ⟨n1, hn1, s1, hs1, c1, hc1, H1⟩ := C151_sums G he0 he1 heps hepsf hrP hrT htP htT hT1 hT2 hT3 hε0
  obtain ⟨δ2, hδ2, τ, hτ, H2⟩ := gentle_curve G hq (half_pos hε) T 2 (2 * tameFactor 2 2)
  obtain ⟨δ3, hδ3, s3, hs3, c3, hc3, H3⟩ := noisy_image G he0 he1 hT0 hτ
  set δ := min (min δ2 δ3) (min (rT / 2) (T / 4)) with hδ
  have d2 : δ ≤ δ2 := (min_le_left _ _).trans (min_le_left _ _)
  have d3 : δ ≤ δ3 := (min_le_left _ _).trans (min_le_right _ _)
  have d4 : δ ≤ rT / 2 := (min_le_right _ _).trans (min_le_left _ _)
  have d5 : δ ≤ T / 4 := (min_le_right _ _).trans (min_le_right _ _)
  have hδ0 : 0 < δ := lt_min (lt_min hδ2 hδ3) (lt_min (by linarith) (by linarith))
  clear_value δ
  obtain ⟨n0, hn0⟩ := exists_nat_gt (T / δ)
  refine ⟨max n0 n1, hn1.trans (le_max_right _ _), max s1 s3, lt_max_of_lt_left hs1, min c1 c3, lt_min hc1 hc3, ?_⟩
  intro n hn s hs h w cx cy theta hf f D hD0 hD hroom
  have hsp : 0 < s := lt_of_lt_of_le (lt_max_of_lt_left hs1) hs
  have hnn : n0 ≤ n := (le_max_left _ _).trans hn
  have hn3 : 3 ≤ n := hn1.trans ((le_max_right _ _).trans hn)
  have hnp : (0 : ℝ) < n := by exact_mod_cast (by omega : 0 < n)
  have hring0 : 0 ≤ π * (1 - ellip) * (3 * (s * T / n) ^ 2) := by positivity
  obtain ⟨rs, a1, fl, ar, er, a2, a3⟩ := H1 n ((le_max_right _ _).trans hn) s ((le_max_left _ _).trans hs) h w cx cy theta hf f D hD0 hD
    (hroom.trans (mul_le_mul_of_nonneg_right (min_le_left _ _) hring0))
  obtain ⟨R, r1, r2, r3, r4, r5, r6⟩ := recipe_radii hsp hT0 hn3
  have hδn : T / n ≤ δ := by
    rw [div_lt_iff₀ hδ0] at hn0
    rw [div_le_iff₀ hnp]
    have : (n0 : ℝ) ≤ n := by exact_mod_cast hnn
    nlinarith
  have hRk : ∀ r ∈ R, ∃ k : Nat, k < n ∧ r = T / n * (k + 1) := by
    intro r hr
    have h1 : fin (s * r) ∈ makeRadiusList (fin (s * T)) n := by rw [r1]; exact List.mem_map.2 ⟨r, hr, rfl⟩
    unfold makeRadiusList at h1
    obtain ⟨k, hk, hk'⟩ := List.mem_map.1 h1
    refine ⟨k, List.mem_range.1 hk, ?_⟩
    simp [hnp.ne'] at hk'
    have h2 : s * r = s * (T / n * (k + 1)) := by rw [← hk']; ring
    exact mul_left_cancel₀ hsp.ne' h2
  have emap : (R.map fun r => s * r).map fin = R.map fun r => fin (s * r) := by rw [List.map_map]; rfl
  obtain rfl : rs = R.map fun r => s * r := by
    rw [a1, ← emap] at r1
    exact List.map_injective_iff.2 (fun x y hxy => by injection hxy) r1
  obtain ⟨V, A, E, pl, hl, hph, -, -, -, hV⟩ := H3 s ((le_max_right _ _).trans hs) R (r2.mono (hδn.trans d3))
    (fun r hr => (r4 r hr).2) h w cx cy theta
    (by
      intro r hr p hpe
      obtain ⟨a, b⟩ := r4 r hr
      exact hf p (ellipse_nested (mul_pos hsp a) (mul_le_mul_of_nonneg_left b hsp.le) hq hpe))
    f D hD0
    (by
      intro r hr
      obtain ⟨k, hk, rfl⟩ := hRk r hr
      exact hD k hk)
    (by
      intro i hi
      refine (hroom.trans (mul_le_mul_of_nonneg_right (min_le_right c1 c3) hring0)).trans (mul_le_mul_of_nonneg_left ?_ hc3.le)
      have a := mul_le_mul_of_nonneg_left (r6 i hi) (show 0 ≤ π * (1 - ellip) * s ^ 2 by positivity)
      have e1 : π * (1 - ellip) * (3 * (s * T / n) ^ 2) = π * (1 - ellip) * s ^ 2 * (3 * (T / n) ^ 2) := by ring
      rw [e1]
      linarith)
  rw [a2] at hph
  injection hph with hph
  injection hph with hfl hph
  have h4 : 4 ≤ R.length := fine_four hT0 d5 (r2.mono hδn) ⟨T, r5, le_rfl⟩
  refine ⟨R.map fun r => s * r, a1, fl, ar, er, a2, fun ip num hip => ?_⟩
  obtain ⟨p, g1, rp, rf, g2, g3, g4, g5⟩ := a3 ip num (fin tf) hip
  obtain ⟨x, rfl⟩ : ∃ x, rf = s * x := ⟨rf / s, by field_simp⟩
  rw [mul_div_cancel_left₀ _ hsp.ne'] at g5
  have g5' := abs_le.1 g5
  have hin : R[0]'(by omega) ≤ x := by have := (r2.first (by omega)).2; linarith
  have hcv : Covers R x := ⟨T, r5, by linarith⟩
  have hmem : R[0]'(by omega) ∈ R := List.getElem_mem _
  obtain ⟨v, v1, v2⟩ := H2 s hsp R (r2.mono (hδn.trans d2)) h4 r3 (fun r hr => (r4 r hr).2) V hl.symm hV (ip "cubic")
    (by rw [hip]; exact cubic_gentle (by norm_num)) x ⟨_, hmem, hin⟩ hcv
  obtain ⟨q1, q2, q3, q4, pl, pe, q5, hp'⟩ := Petrosian.init_ok_iff.1 g1
  have t1 : p.rTotalFlux ip = .ok (fin (s * x)) := by
    rw [← g4, hp']
    rfl
  refine ⟨p, g1, s * x, v, t1, ?_, ?_, ?_⟩
  · rw [mul_div_cancel_left₀ _ hsp.ne']; exact g5.trans hε1
  · rw [Petrosian.totalFlux, t1]
    simp only [Except.bind_ok]
    rw [fluxAt_inside (k := "cubic") (by rw [hp']) hsp (R := R) (by rw [hp']; exact emap) hmem hin hcv, ← v1, hp', ← hfl, ← emap]
  · have c := @hcont x (by rw [Real.dist_eq]; linarith)
    rw [Real.dist_eq] at c
    have c' := abs_le.1 c.le
    have v' := abs_le.1 v2
    have a := gal_axis (I := I) (1 - ellip) rT
    rw [a] at c'
    rw [abs_le]
    constructor <;> linarith

/-- **C163, without probability.** Images whose aperture sums are close to those of the sampled galaxy have nearly its concentration index. -/
theorem C163_concentration_sums (G : Galaxy I) {ellip : ℝ} (he0 : 0 ≤ ellip) (he1 : ellip < 1) {eta eps epsf f1 f2 rP rF1 rF2 : ℝ}
    (heps : 0 < eps) (hepsf : epsf ≠ 0) (hrP : 0 < rP) (hrF1 : 0 < rF1) (hrF2 : 0 < rF2) (htP : petroRatio I rP = eta)
    (htF1 : enclosed I 1 rF1 = f1 / epsf * enclosed I 1 (eps * rP)) (htF2 : enclosed I 1 rF2 = f2 / epsf * enclosed I 1 (eps * rP))
    {T : ℝ} (hT1 : rP < T) (hT2 : eps * rP < T) (hT3 : rF1 < T) (hT4 : rF2 < T) {ε : ℝ} (hε : 0 < ε) :
    HoldsNear I ellip T fun s n h w cx cy theta f =>
      ConcentrationWithin ε s T cx cy ellip theta eta eps epsf f1 f2 rF1 rF2 n h w f := by
  have hq : 0 < 1 - ellip := by linarith
  have hp := Real.pi_pos
  have hc : ContinuousAt (fun x : ℝ × ℝ => 5 * Real.logb 10 (x.2 / x.1)) (rF1, rF2) := by
    have hdiv : ContinuousAt (fun x : ℝ × ℝ => x.2 / x.1) (rF1, rF2) := continuousAt_snd.div continuousAt_fst hrF1.ne'
    have hlog : ContinuousAt (fun x : ℝ => Real.logb 10 x) (rF2 / rF1) := by
      unfold Real.logb
      exact (Real.continuousAt_log (div_pos hrF2 hrF1).ne').div_const _
    have hcomp := ContinuousAt.comp (f := fun x : ℝ × ℝ => x.2 / x.1) (g := fun x : ℝ => Real.logb 10 x) hlog hdiv
    exact continuousAt_const.mul hcomp
  obtain ⟨ν, hν, hcont⟩ := Metric.continuousAt_iff.1 hc ε hε
  set κ := min ε (ν / 2) with hκ
  have hκ0 : 0 < κ := lt_min hε (by linarith)
  have hκ1 : κ ≤ ε := min_le_left _ _
  have hκ2 : κ ≤ ν / 2 := min_le_right _ _
  clear_value κ
  have hT0 : 0 < T := hrP.trans hT1
  obtain ⟨n1, hn1, s1, hs1, c1, hc1, H1⟩ := C151_sums G he0 he1 heps hepsf hrP hrF1 htP htF1 hT1 hT2 hT3 (lt_min hκ0 (half_pos hrF1))
  obtain ⟨n2, hn2, s2, hs2, c2, hc2, H2⟩ := C151_sums G he0 he1 heps hepsf hrP hrF2 htP htF2 hT1 hT2 hT4 (lt_min hκ0 (half_pos hrF2))
  refine ⟨max n1 n2, hn1.trans (le_max_left _ _), max s1 s2, lt_max_of_lt_left hs1, min c1 c2, lt_min hc1 hc2, ?_⟩
  intro n hn s hs h w cx cy theta hf f D hD0 hD hroom
  have hsp : 0 < s := lt_of_lt_of_le (lt_max_of_lt_left hs1) hs
  have hring0 : 0 ≤ π * (1 - ellip) * (3 * (s * T / n) ^ 2) := by positivity
  obtain ⟨rs, a1, fl, ar, er, a2, a3⟩ := H1 n ((le_max_left _ _).trans hn) s ((le_max_left _ _).trans hs) h w cx cy theta hf f D hD0 hD
    (hroom.trans (mul_le_mul_of_nonneg_right (min_le_left _ _) hring0))
  obtain ⟨rs', b1, fl', ar', er', b2, b3⟩ := H2 n ((le_max_right _ _).trans hn) s ((le_max_right _ _).trans hs) h w cx cy theta hf f D hD0 hD
    (hroom.trans (mul_le_mul_of_nonneg_right (min_le_right _ _) hring0))
  have hrs : rs = rs' := by
    rw [a1] at b1
    exact List.map_injective_iff.2 (fun x y hxy => by injection hxy) b1
  subst hrs
  rw [a2] at b2
  injection b2 with b2
  injection b2 with b2 b2'
  injection b2' with b2' b2''
  subst b2 b2' b2''
  refine ⟨rs, a1, fl, ar, er, a2, fun ip num tff hip => ?_⟩
  obtain ⟨p, g1, -, r1, -, -, g2, g3⟩ := a3 ip num tff hip
  obtain ⟨p', k1, -, r2, -, -, k2, k3⟩ := b3 ip num tff hip
  rw [g1] at k1
  injection k1 with k1
  subst k1
  have x1 := abs_le.1 (g3.trans (min_le_right _ _))
  have x2 := abs_le.1 (k3.trans (min_le_right _ _))
  have y1 : |r1 / s - rF1| ≤ κ := g3.trans (min_le_left _ _)
  have y2 : |r2 / s - rF2| ≤ κ := k3.trans (min_le_left _ _)
  have z1 : 0 < r1 / s := by linarith
  have z2 : 0 < r2 / s := by linarith
  have p1 : 0 < r1 := by have := mul_pos z1 hsp; rwa [div_mul_cancel₀ _ hsp.ne'] at this
  have p2 : 0 < r2 := by have := mul_pos z2 hsp; rwa [div_mul_cancel₀ _ hsp.ne'] at this
  refine ⟨p, g1, r1, r2, _, concentration_of_radii g2 k2 p1 p2, y1.trans hκ1, y2.trans hκ1, ?_⟩
  have := @hcont (r1 / s, r2 / s) (by
    rw [Prod.dist_eq, Real.dist_eq, Real.dist_eq]
    exact max_lt (by linarith) (by linarith))
  rw [Real.dist_eq] at this
  have e : r2 / s / (r1 / s) = r2 / r1 := by field_simp
  simp only [e] at this
  exact this.le

/-- What holds near the sampled galaxy is likely on noisy images seen through a PSF. -/
theorem smeared_event (G : Galaxy I) {ellip : ℝ} (he0 : 0 ≤ ellip) (he1 : ellip < 1) {reach : ℝ} (hreach : 0 ≤ reach) {T : ℝ} (hT0 : 0 < T)
    {P : ℝ → Nat → Nat → Nat → ℝ → ℝ → ℝ → (Nat → Nat → ℝ) → Prop} (hP : HoldsNear I ellip T P) :
    ∃ n0 : Nat, ∀ n ≥ n0, ∃ s0 > 0, ∃ K > 0, ∀ s ≥ s0,
      ∀ (h w : Nat) (cx cy theta : ℝ), OnFrame (⟨cx, cy, s * T, s * T * (1 - ellip), theta⟩ : Ellipse ℝ).set h w →
      ∀ (Ω : Type) [MeasurableSpace Ω] (μ : Measure Ω) [IsProbabilityMeasure μ] (X : Nat → Nat → Ω → ℝ) (m : Nat → Nat → ℝ) (v : ℝ),
      CorrelatedNoise μ h w X m v → Smeared I s reach cx cy ellip theta h w m →
      μ {ω | ¬ P s n h w cx cy theta fun i j => X i j ω} ≤ ENNReal.ofReal (v * K / s ^ 2) := by
  obtain ⟨n0, H⟩ := noise_event he1 hT0 hP
  refine ⟨n0, fun n hn => ?_⟩
  obtain ⟨s0, hs0, c, hc, K, hK, H⟩ := H n hn
  obtain ⟨s1, hs1, H1⟩ := Smeared.near G he0 he1 hreach hc
  exact ⟨max s0 s1, lt_max_of_lt_left hs0, K, hK, fun s hs h w cx cy theta hf Ω _ μ _ X m v hX hm =>
    H s ((le_max_left _ _).trans hs) h w cx cy theta hf Ω μ X m v hX (H1 s ((le_max_right _ _).trans hs) cx cy theta h w m hm)⟩

/-- **C163, total flux.** On images seen through a PSF, with correlated noise, the probability that the recipe raises, or returns an
`r_total_flux` or a `total_flux` that misses the one of the galaxy by more than the tolerance, is at most `v K / s²`. -/
theorem C163_total (G : Galaxy I) {ellip : ℝ} (he0 : 0 ≤ ellip) (he1 : ellip < 1) {reach : ℝ} (hreach : 0 ≤ reach)
    {eta eps epsf tf rP rT : ℝ} (heps : 0 < eps) (hepsf : epsf ≠ 0) (hrP : 0 < rP) (hrT : 0 < rT) (htP : petroRatio I rP = eta)
    (htT : enclosed I 1 rT = tf / epsf * enclosed I 1 (eps * rP)) {T : ℝ} (hT1 : rP < T) (hT2 : eps * rP < T) (hT3 : rT < T) {ε : ℝ}
    (hε : 0 < ε) :
    ∃ n0 : Nat, ∀ n ≥ n0, ∃ s0 > 0, ∃ K > 0, ∀ s ≥ s0,
      ∀ (h w : Nat) (cx cy theta : ℝ), OnFrame (⟨cx, cy, s * T, s * T * (1 - ellip), theta⟩ : Ellipse ℝ).set h w →
      ∀ (Ω : Type) [MeasurableSpace Ω] (μ : Measure Ω) [IsProbabilityMeasure μ] (X : Nat → Nat → Ω → ℝ) (m : Nat → Nat → ℝ) (v : ℝ),
      CorrelatedNoise μ h w X m v → Smeared I s reach cx cy ellip theta h w m →
      μ {ω | ¬ TotalWithin ε s T cx cy ellip theta eta eps epsf tf rT ((1 - ellip) * enclosed I 1 rT) n h w fun i j => X i j ω} ≤
        ENNReal.ofReal (v * K / s ^ 2) :=
  smeared_event G he0 he1 hreach (hrP.trans hT1) (C163_total_sums G he0 he1 heps hepsf hrP hrT htP htT hT1 hT2 hT3 hε)

/-- **C163, concentration.** The same for the concentration index of two flux fractions. -/
theorem C163_concentration (G : Galaxy I) {ellip : ℝ} (he0 : 0 ≤ ellip) (he1 : ellip < 1) {reach : ℝ} (hreach : 0 ≤ reach)
    {eta eps epsf f1 f2 rP rF1 rF2 : ℝ}
    (heps : 0 < eps) (hepsf : epsf ≠ 0) (hrP : 0 < rP) (hrF1 : 0 < rF1) (hrF2 : 0 < rF2) (htP : petroRatio I rP = eta)
    (htF1 : enclosed I 1 rF1 = f1 / epsf * enclosed I 1 (eps * rP)) (htF2 : enclosed I 1 rF2 = f2 / epsf * enclosed I 1 (eps * rP))
    {T : ℝ} (hT1 : rP < T) (hT2 : eps * rP < T) (hT3 : rF1 < T) (hT4 : rF2 < T) {ε : ℝ} (hε : 0 < ε) :
    ∃ n0 : Nat, ∀ n ≥ n0, ∃ s0 > 0, ∃ K > 0, ∀ s ≥ s0,
      ∀ (h w : Nat) (cx cy theta : ℝ), OnFrame (⟨cx, cy, s * T, s * T * (1 - ellip), theta⟩ : Ellipse ℝ).set h w →
      ∀ (Ω : Type) [MeasurableSpace Ω] (μ : Measure Ω) [IsProbabilityMeasure μ] (X : Nat → Nat → Ω → ℝ) (m : Nat → Nat → ℝ) (v : ℝ),
      CorrelatedNoise μ h w X m v → Smeared I s reach cx cy ellip theta h w m →
      μ {ω | ¬ ConcentrationWithin ε s T cx cy ellip theta eta eps epsf f1 f2 rF1 rF2 n h w fun i j => X i j ω} ≤ ENNReal.ofReal (v * K / s ^ 2) :=
  smeared_event G he0 he1 hreach (hrP.trans hT1) (C163_concentration_sums G he0 he1 heps hepsf hrP hrF1 hrF2 htP htF1 htF2 hT1 hT2 hT3 hT4 hε)

/-- Gaussian noise of standard deviation 100 on the detector pixels of a Sersic galaxy: with a big enough image the recipe finds the light inside
two Petrosian radii to any tolerance, with a probability of at least 99%. -/
example {n rP ε : ℝ} (hn : 0 < n) (hrP : 0 < rP) (hε : 0 < ε) (htP : petroRatio (sersic (bn n) 1 1 n) rP = 1 / 5) :
    ∃ (k N : Nat) (s : ℝ), 0 < s ∧
      gaussField (2 * N + 1) (2 * N + 1) {ω | ¬ TotalWithin ε s (3 * rP) N N 0 0 (1 / 5) 2 1 1 (2 * rP)
        ((1 - 0) * enclosed (sersic (bn n) 1 1 n) 1 (2 * rP)) k (2 * N + 1) (2 * N + 1)
        fun i j => gaussImage (2 * N + 1) (2 * N + 1) (fun i j => ∫ p in pixelSquare i j, sersic (bn n) 1 1 n (ellRadius p.1 p.2 N N 0 0 / s))
          (fun _ _ => 100) i j ω} ≤ ENNReal.ofReal (1 / 100) := by
  obtain ⟨n0, hm⟩ := C163_total (sersic_galaxy (amplitude := 1) (rEff := 1) one_pos hn one_pos)
    (ellip := 0) (eps := 2) (epsf := 1) (tf := 1) (rT := 2 * rP) le_rfl one_pos zero_le_one two_pos one_ne_zero hrP (by linarith) htP (by simp)
    (T := 3 * rP) (by linarith) (by linarith) (by linarith) hε
  obtain ⟨s0, hs0, K, hK, hm⟩ := hm n0 le_rfl
  set s := max s0 (max 1 (1000000 * K)) with hs
  have hs1 : 1 ≤ s := (le_max_left _ _).trans (le_max_right _ _)
  have hs2 : 1000000 * K ≤ s := (le_max_right _ _).trans (le_max_right _ _)
  have hsp : 0 < s := by linarith
  obtain ⟨N, hN⟩ := exists_nat_gt (s * (3 * rP))
  have ha : 0 < s * (3 * rP) := by positivity
  have hx : Ellipse.xExtent ⟨(N : ℝ), (N : ℝ), s * (3 * rP), s * (3 * rP) * (1 - 0), 0⟩ ≤ s * (3 * rP) := by
    simp [Ellipse.xExtent, Real.sqrt_sq ha.le]
  have hy : Ellipse.yExtent ⟨(N : ℝ), (N : ℝ), s * (3 * rP), s * (3 * rP) * (1 - 0), 0⟩ ≤ s * (3 * rP) := by
    simp [Ellipse.yExtent, Real.sqrt_sq ha.le]
  have hfr : OnFrame (⟨(N : ℝ), (N : ℝ), s * (3 * rP), s * (3 * rP) * (1 - 0), 0⟩ : Ellipse ℝ).set (2 * N + 1) (2 * N + 1) := by
    apply onFrame_of_box _ ha (by simpa using ha)
    · exact le_trans (by linarith) (sub_le_sub_left hx (N : ℝ))
    · refine (add_le_add_right hx (N : ℝ)).trans ?_
      push_cast; linarith
    · exact le_trans (by linarith) (sub_le_sub_left hy (N : ℝ))
    · refine (add_le_add_right hy (N : ℝ)).trans ?_
      push_cast; linarith
  refine ⟨n0, N, s, hsp, (hm s (le_max_left _ _) _ _ N N 0 hfr _ _ _ _ 10000 ((gaussian_noise _ _ _ _).correlated fun _ _ _ _ => by norm_num)
    (C161_light _ s N N 0 0 _ _)).trans (ENNReal.ofReal_le_ofReal ?_)⟩
  rw [div_le_iff₀ (by positivity)]
  nlinarith

end Verif.Props

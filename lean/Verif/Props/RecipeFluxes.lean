import Verif.Props.Recipe

/-!
# C144: total fluxes and concentration indices of the documented recipe
-/

set_option linter.unusedSectionVars false
set_option linter.unusedVariables false

namespace Verif.Props

open Verif F Spec Lemmas MeasureTheory Real

variable {I : ℝ → ℝ}

/-! ### The radii of the recipe -/

/-- With enough apertures, a fine sampling and enough pixels between apertures, the radii of `make_radius_list` meet the hypotheses of C137. -/
theorem recipe_setup {ellip : ℝ} (he1 : ellip < 1) {T δ s0 ω0 : ℝ} (hT : 0 < T) (hδ : 0 < δ) :
    ∃ n0 : Nat, ∃ w0 > 0, ∀ n ≥ n0, ∀ s > 0, w0 ≤ s * T / n →
      ∀ (h w : Nat) (cx cy theta : ℝ), OnFrame (⟨cx, cy, s * T, s * T * (1 - ellip), theta⟩ : Ellipse ℝ).set h w →
      ∃ R : List ℝ, makeRadiusList (fin (s * T)) n = (R.map fun r => s * r).map fin ∧ Fine δ R ∧ EvenRadii 2 R ∧ (∀ r ∈ R, r ≤ T) ∧
        Covers R T ∧ (∀ i (h : i + 1 < R.length), ω0 ≤ π * (1 - ellip) * ((s * R[i + 1]) ^ 2 - (s * R[i]) ^ 2)) ∧
        ∀ r ∈ R, OnFrame (⟨cx, cy, s * r, s * r * (1 - ellip), theta⟩ : Ellipse ℝ).set h w := by
  have hq : 0 < 1 - ellip := by linarith
  have hp := Real.pi_pos
  obtain ⟨n0, hn0⟩ := exists_nat_gt (T / δ)
  set W := max 1 (ω0 / (π * (1 - ellip))) with hW
  have hW1 : 1 ≤ W := le_max_left _ _
  have hW2 : ω0 / (π * (1 - ellip)) ≤ W := le_max_right _ _
  refine ⟨max n0 3, W, by linarith, ?_⟩
  intro n hn s hsp hw h w cx cy theta hf
  have hn3 : 3 ≤ n := (le_max_right _ _).trans hn
  have hnn : n0 ≤ n := (le_max_left _ _).trans hn
  have hnp : (0 : ℝ) < n := by exact_mod_cast (by omega : 0 < n)
  obtain ⟨R, r1, r2, r3, r4, r5, r6⟩ := recipe_radii hsp hT hn3
  have hδn : T / n ≤ δ := by
    rw [div_lt_iff₀ hδ] at hn0
    rw [div_le_iff₀ hnp]
    have : (n0 : ℝ) ≤ n := by exact_mod_cast hnn
    nlinarith
  refine ⟨R, by rw [r1, List.map_map]; rfl, r2.mono hδn, r3, fun r hr => (r4 r hr).2, ⟨T, r5, le_rfl⟩, ?_, ?_⟩
  · intro i hi
    have a := r6 i hi
    rw [div_le_iff₀ (by positivity)] at hW2
    have b : s ^ 2 * (3 * (T / n) ^ 2) ≤ s ^ 2 * (R[i + 1] ^ 2 - R[i] ^ 2) := mul_le_mul_of_nonneg_left a (by positivity)
    have c : s ^ 2 * (3 * (T / n) ^ 2) = 3 * (s * T / n) ^ 2 := by ring
    have d : W ≤ 3 * (s * T / n) ^ 2 := by nlinarith
    have e : π * (1 - ellip) * ((s * R[i + 1]) ^ 2 - (s * R[i]) ^ 2) = (s ^ 2 * (R[i + 1] ^ 2 - R[i] ^ 2)) * (π * (1 - ellip)) := by ring
    rw [e]
    exact hW2.trans (mul_le_mul_of_nonneg_right (by linarith) (by positivity))
  · intro r hr p hpe
    obtain ⟨a, b⟩ := r4 r hr
    exact hf p (ellipse_nested (mul_pos hsp a) (mul_le_mul_of_nonneg_left b hsp.le) hq hpe)

/-- Images with the demands of the recipe exist. -/
theorem recipe_attainable {ellip : ℝ} (he0 : 0 ≤ ellip) (he1 : ellip < 1) {T : ℝ} (hT : 0 < T) (n0 : Nat) {s0 w0 : ℝ} (hs0 : 0 < s0)
    (theta : ℝ) : ∃ n ≥ n0, 0 < n ∧ ∃ s ≥ s0, w0 ≤ s * T / n ∧ ∃ N : Nat,
      OnFrame (⟨(N : ℝ), (N : ℝ), s * T, s * T * (1 - ellip), theta⟩ : Ellipse ℝ).set (2 * N + 1) (2 * N + 1) := by
  set m := n0 + 1 with hmm
  have hm0 : (0 : ℝ) < m := by rw [hmm]; positivity
  set s := max s0 (w0 * m / T) with hs
  have hsw : w0 * m / T ≤ s := le_max_right _ _
  have hsp : 0 < s := lt_of_lt_of_le hs0 (le_max_left _ _)
  obtain ⟨N, hN⟩ := exists_nat_gt (s * T)
  have ha : 0 < s * T := by positivity
  have hb : 0 < s * T * (1 - ellip) := mul_pos ha (by linarith)
  have hb' : s * T * (1 - ellip) ≤ s * T := mul_le_of_le_one_right ha.le (by linarith)
  have hcs := Real.cos_sq_add_sin_sq theta
  have key : ∀ c d : ℝ, c ^ 2 + d ^ 2 = 1 → √((s * T * c) ^ 2 + (s * T * (1 - ellip) * d) ^ 2) ≤ s * T := by
    intro c d hcd
    rw [Real.sqrt_le_left ha.le]
    have h1 : (s * T * (1 - ellip)) ^ 2 ≤ (s * T) ^ 2 := pow_le_pow_left₀ hb.le hb' 2
    have h2 := mul_le_mul_of_nonneg_right h1 (sq_nonneg d)
    have h3 : (s * T * c) ^ 2 + (s * T) ^ 2 * d ^ 2 = (s * T) ^ 2 := by
      rw [mul_pow, ← mul_add, hcd, mul_one]
    rw [mul_pow _ d 2]
    linarith
  have hx : Ellipse.xExtent ⟨(N : ℝ), (N : ℝ), s * T, s * T * (1 - ellip), theta⟩ ≤ s * T := key _ _ hcs
  have hy : Ellipse.yExtent ⟨(N : ℝ), (N : ℝ), s * T, s * T * (1 - ellip), theta⟩ ≤ s * T := key _ _ (by linarith)
  refine ⟨m, by omega, by omega, s, le_max_left _ _, ?_, N, ?_⟩
  · rw [div_le_iff₀ hT] at hsw; rw [le_div_iff₀ hm0]; exact hsw
  · apply onFrame_of_box _ ha hb
    · simp only; linarith
    · simp only; push_cast; linarith
    · simp only; linarith
    · simp only; push_cast; linarith

/-! ### The interpolated curve of growth -/

/-- A query between the first and the last node lies in a segment. -/
theorem in_segment {N : List ℝ} (h2 : 2 ≤ N.length) {q : ℝ} (hlo : N[0]'(by omega) ≤ q) (hhi : q ≤ N[N.length - 1]'(by omega)) :
    ∃ j, ∃ h : j + 1 < N.length, N[j] ≤ q ∧ q ≤ N[j + 1] := by
  have key : ∀ k (hk : k + 1 < N.length), q ≤ N[k + 1] → ∃ j, ∃ h : j + 1 < N.length, N[j] ≤ q ∧ q ≤ N[j + 1] := by
    intro k
    induction k with
    | zero => intro hk h; exact ⟨0, hk, hlo, h⟩
    | succ k ih =>
      intro hk h
      by_cases hc : N[k + 1] ≤ q
      · exact ⟨k + 1, hk, hc, h⟩
      · exact ih (by omega) (not_le.1 hc).le
  refine key (N.length - 2) (by omega) ?_
  have e : N.length - 2 + 1 = N.length - 1 := by omega
  simpa only [e] using hhi

/-- A gentle interpolation of samples close to the curve of growth is close to the curve of growth. -/
theorem gentle_curve (G : Galaxy I) {q : ℝ} (hq : 0 < q) {ε : ℝ} (hε : 0 < ε) (Tmax ρ C : ℝ) :
    ∃ δ > 0, ∃ τ > 0, ∀ s > 0, ∀ R, Fine δ R → 4 ≤ R.length → EvenRadii ρ R → (∀ r ∈ R, r ≤ Tmax) →
      ∀ (Y : List ℝ) (hYl : Y.length = R.length), (∀ i (hi : i < R.length), |Y[i] - s ^ 2 * enclosed I q R[i]| ≤ s ^ 2 * τ) →
        ∀ (J : Interp ℝ), Gentle ρ C J → ∀ r, (∃ x ∈ R, x ≤ r) → Covers R r →
          ∃ v, J (R.map fun r => fin (s * r)) (Y.map fin) (fin (s * r)) = .ok (fin v) ∧ |v / s ^ 2 - enclosed I q r| ≤ ε := by
  set C' := max C 1 with hC'
  have hC1 : 1 ≤ C' := le_max_right _ _
  have hCC : C ≤ C' := le_max_left _ _
  have hC0 : 0 < C' := by linarith
  set τ := ε / (5 * C') with hτ
  have hτ0 : 0 < τ := by positivity
  have hτC : C' * (5 * τ) = ε := by rw [hτ]; field_simp
  have hτε : 5 * τ ≤ ε := by nlinarith
  set T := max Tmax 0 with hT
  have huc : UniformContinuousOn (enclosed I q) (Set.Icc 0 T) :=
    isCompact_Icc.uniformContinuousOn_of_continuous ((gal_cont G q).mono fun x hx => Set.mem_Ici.2 hx.1)
  obtain ⟨ν, hν, hmod⟩ := Metric.uniformContinuousOn_iff.1 huc τ hτ0
  refine ⟨ν / 2, by linarith, τ, hτ0, ?_⟩
  intro s hsp R hR h4 hev hmax Y hYl hYv J hJ r hr1 hr2
  have hs2' : 0 < s ^ 2 := by positivity
  have hRT : ∀ i (hi : i < R.length), R[i] ≤ T := fun i hi => (hmax _ (List.getElem_mem hi)).trans (le_max_left _ _)
  have hclose : ∀ i (hi : i < R.length) x, 0 ≤ x → x ≤ T → |R[i] - x| ≤ ν / 2 →
      |Y[i]'(by omega) - s ^ 2 * enclosed I q x| ≤ s ^ 2 * (2 * τ) := by
    intro i hi x hx0 hxT hx
    have y1 := abs_le.1 (hYv i hi)
    have y3 := hmod R[i] ⟨(hR.pos hi).le, hRT _ hi⟩ x ⟨hx0, hxT⟩ (by rw [Real.dist_eq]; linarith)
    rw [Real.dist_eq] at y3
    have y4 := abs_le.1 y3.le
    have y5 := mul_le_mul_of_nonneg_left y4.1 hs2'.le
    have y6 := mul_le_mul_of_nonneg_left y4.2 hs2'.le
    rw [abs_le]
    constructor <;> linarith
  have hlast : r ≤ R[R.length - 1]'(by omega) := by
    obtain ⟨x, hx, hx'⟩ := hr2
    obtain ⟨i, hi, rfl⟩ := List.getElem_of_mem hx
    exact hx'.trans (Incr.le_getElem hR.incr (by omega) (by omega))
  have hfirst : R[0]'(by omega) ≤ r := by
    obtain ⟨x, hx, hx'⟩ := hr1
    obtain ⟨i, hi, rfl⟩ := List.getElem_of_mem hx
    exact (Incr.le_getElem hR.incr (by omega) (by omega)).trans hx'
  have hr0 : 0 ≤ r := (hR.pos (by omega)).le.trans hfirst
  have hrT : r ≤ T := hlast.trans (hRT _ _)
  obtain ⟨j, hj, j1, j2⟩ := in_segment (by omega : 2 ≤ R.length) hfirst hlast
  have hst := hR.step j hj
  obtain ⟨g, hg, hgap, -⟩ := hev
  obtain ⟨v, hv, v1, v2⟩ := hJ (R.map fun r => s * r) Y (by simp [hYl]) (by simpa using h4) (s * g) (mul_pos hsp hg)
    (by
      intro i hi
      simp only [List.length_map] at hi
      simp only [List.getElem_map]
      have e : ρ * (s * g) = s * (ρ * g) := by ring
      rw [e, ← mul_sub]
      have := hgap i hi
      exact ⟨mul_le_mul_of_nonneg_left this.1 hsp.le, mul_le_mul_of_nonneg_left this.2 hsp.le⟩)
    (3 * (s ^ 2 * τ))
    (by
      intro i hi
      rw [hYl] at hi
      have q := hR.step i hi
      have y1 := abs_le.1 (hYv i (by omega))
      have y2 := abs_le.1 (hclose (i + 1) hi R[i] (hR.pos (by omega)).le (hRT _ _) (by rw [abs_of_pos (by linarith)]; linarith))
      rw [abs_le]
      constructor <;> linarith)
    j (by simpa using hj) (s * r) (by simpa using mul_le_mul_of_nonneg_left j1 hsp.le)
    (by simpa using mul_le_mul_of_nonneg_left j2 hsp.le)
  refine ⟨v, ?_, ?_⟩
  · have e : (R.map fun r => fin (s * r)) = (R.map fun r => s * r).map fin := by simp
    rw [← hv, e]
  · have a1 := abs_le.1 (hclose j (by omega) r hr0 hrT (by rw [abs_le]; constructor <;> linarith))
    have a2 := abs_le.1 (hclose (j + 1) hj r hr0 hrT (by rw [abs_le]; constructor <;> linarith))
    have b1 : s ^ 2 * enclosed I q r - s ^ 2 * (2 * τ) ≤ min (Y[j]'(by omega)) (Y[j + 1]'(by omega)) :=
      le_min (by linarith) (by linarith)
    have b2 : max (Y[j]'(by omega)) (Y[j + 1]'(by omega)) ≤ s ^ 2 * enclosed I q r + s ^ 2 * (2 * τ) :=
      max_le (by linarith) (by linarith)
    have b3 : C * (3 * (s ^ 2 * τ)) ≤ s ^ 2 * (C' * (3 * τ)) := by
      have : C * (3 * (s ^ 2 * τ)) ≤ C' * (3 * (s ^ 2 * τ)) := mul_le_mul_of_nonneg_right hCC (by positivity)
      linarith
    have b4 : s ^ 2 * (2 * τ) + s ^ 2 * (C' * (3 * τ)) ≤ s ^ 2 * ε := by
      rw [← mul_add]
      refine mul_le_mul_of_nonneg_left ?_ hs2'.le
      have : 2 * τ ≤ C' * (2 * τ) := le_mul_of_one_le_left (by linarith) hC1
      linarith
    have e : v / s ^ 2 - enclosed I q r = (v - s ^ 2 * enclosed I q r) / s ^ 2 := by field_simp
    rw [e, abs_div, abs_of_pos hs2', div_le_iff₀ hs2', abs_le]
    constructor <;> linarith

/-- On blurred images the interpolated curve of growth is uniformly close to the true one. -/
theorem blurred_curve (G : Galaxy I) {ellip : ℝ} (he0 : 0 ≤ ellip) (he1 : ellip < 1) {B : ℝ} (hB : 0 ≤ B) {ε : ℝ} (hε : 0 < ε) (Tmax ρ C : ℝ) :
    ∃ δ > 0, ∃ s0 > 0, ∀ s ≥ s0, ∀ R, Fine δ R → 4 ≤ R.length → EvenRadii ρ R → (∀ r ∈ R, r ≤ Tmax) →
      (∀ i (h : i + 1 < R.length), 1 ≤ π * (1 - ellip) * ((s * R[i + 1]) ^ 2 - (s * R[i]) ^ 2)) →
      ∀ (h w : Nat) (cx cy theta D : ℝ) (f : Nat → Nat → ℝ), Blurred I s B cx cy ellip theta h w D f → s * Tmax + 1 / (1 - ellip) + B ≤ D →
      (∀ r ∈ R, OnFrame (⟨cx, cy, s * r, s * r * (1 - ellip), theta⟩ : Ellipse ℝ).set h w) →
      ∀ fl ar er, radialPhotometry exactOverlap ⟨h, w, fun i j => fin (f i j)⟩ cx cy
          (R.map fun r => s * r) none none (1 / (1 - ellip)) theta = .ok (fl, ar, er) →
        ∀ (J : Interp ℝ), Gentle ρ C J → ∀ r, (∃ x ∈ R, x ≤ r) → Covers R r →
          ∃ v, J (R.map fun r => fin (s * r)) fl (fin (s * r)) = .ok (fin v) ∧ |v / s ^ 2 - enclosed I (1 - ellip) r| ≤ ε := by
  have hq : 0 < 1 - ellip := by linarith
  obtain ⟨δ, hδ, τ, hτ, H⟩ := gentle_curve G hq hε Tmax ρ C
  set T := max Tmax 0 with hT
  obtain ⟨s3, hs3, h3⟩ := blurred_flux G he0 he1 hB T hτ
  refine ⟨δ, hδ, s3, hs3, ?_⟩
  intro s hs R hR h4 hev hmax hring h w cx cy theta D f hBl hD hf fl ar er hph
  have hsp : 0 < s := lt_of_lt_of_le hs3 hs
  have room : ∀ r ∈ R, s * r + 1 / (1 - ellip) + B ≤ D := fun r hr => by
    have := mul_le_mul_of_nonneg_left (hmax r hr) hsp.le
    linarith
  have hRT : ∀ i (hi : i < R.length), R[i] ≤ T := fun i hi => (hmax _ (List.getElem_mem hi)).trans (le_max_left _ _)
  obtain ⟨er', pl', hph', -⟩ := image_lists f he1 hsp hR hring hf
  rw [hph] at hph'
  injection hph' with hph'
  injection hph' with hfl hph'
  rw [hfl]
  refine H s hsp R hR h4 hev hmax _ (by simp) (fun i hi => ?_)
  have := h3 s hs R[i] (hR.pos hi) (hRT i hi) h w cx cy theta D f hBl (room _ (List.getElem_mem hi)) (hf _ (List.getElem_mem hi))
  simpa using this

/-- **C144, the curve of growth.** On sampled images the interpolated curve of growth is uniformly close to the true one, up to the largest
aperture, for every interpolation that overshoots by at most a multiple of the largest difference of neighbouring values. -/
theorem C144_curve (G : Galaxy I) {ellip : ℝ} (he0 : 0 ≤ ellip) (he1 : ellip < 1) {ε : ℝ} (hε : 0 < ε) (Tmax ρ C : ℝ) :
    ∃ δ > 0, ∃ s0 > 0, ∀ s ≥ s0, ∀ R, Fine δ R → 4 ≤ R.length → EvenRadii ρ R → (∀ r ∈ R, r ≤ Tmax) →
      (∀ i (h : i + 1 < R.length), 1 ≤ π * (1 - ellip) * ((s * R[i + 1]) ^ 2 - (s * R[i]) ^ 2)) →
      ∀ (h w : Nat) (cx cy theta : ℝ), (∀ r ∈ R, OnFrame (⟨cx, cy, s * r, s * r * (1 - ellip), theta⟩ : Ellipse ℝ).set h w) →
      ∀ fl ar er, radialPhotometry exactOverlap ⟨h, w, fun i j => fin (I (ellRadius j i cx cy ellip theta / s))⟩ cx cy
          (R.map fun r => s * r) none none (1 / (1 - ellip)) theta = .ok (fl, ar, er) →
        ∀ (J : Interp ℝ), Gentle ρ C J → ∀ r, (∃ x ∈ R, x ≤ r) → Covers R r →
          ∃ v, J (R.map fun r => fin (s * r)) fl (fin (s * r)) = .ok (fin v) ∧ |v / s ^ 2 - enclosed I (1 - ellip) r| ≤ ε := by
  obtain ⟨δ, hδ, s0, hs0, H⟩ := blurred_curve G he0 he1 le_rfl hε Tmax ρ C
  exact ⟨δ, hδ, s0, hs0, fun s hs R hR h4 hev hmax hring h w cx cy theta hf => H s hs R hR h4 hev hmax hring h w cx cy theta _ _
    (Blurred.sampled G (lt_of_lt_of_le hs0 hs) cx cy ellip theta h w _) le_rfl hf⟩

/-- `total_flux` and `half_flux` read the interpolated curve of growth when the radius is inside the radii. -/
theorem fluxAt_inside {ip : InterpFam ℝ} {p : Petrosian ℝ} {k : String} (hk : p.interpKind = some k) {R : List ℝ} {s : ℝ} (hs : 0 < s)
    (hR : p.rList = R.map fun r => fin (s * r)) {lo r : ℝ} (hlo : lo ∈ R) (h1 : lo ≤ r) (h2 : Covers R r) :
    p.fluxAt ip (fin (s * r)) = ip k p.rList p.fluxList (fin (s * r)) := by
  have e : (R.map fun r => fin (s * r)) = (R.map fun r => s * r).map fin := by simp
  have hne : (R.map fun r => s * r) ≠ [] := by
    have := List.ne_nil_of_mem hlo
    simpa using this
  obtain ⟨a, -, ha, ha'⟩ := pyMin_fin hne
  obtain ⟨b, -, hb, hb'⟩ := pyMax_fin hne
  have l1 : a ≤ s * r := (ha' _ (List.mem_map_of_mem hlo)).trans (mul_le_mul_of_nonneg_left h1 hs.le)
  have l2 : s * r ≤ b := by
    obtain ⟨x, hx, hx'⟩ := h2
    exact (mul_le_mul_of_nonneg_left hx' hs.le).trans (hb' _ (List.mem_map_of_mem hx))
  unfold Petrosian.fluxAt
  rw [hR, e, ha, hb]
  simp only [Except.bind_ok, le_fin, l1, l2, decide_true, Bool.and_self, if_true, hk, interp1d]

/-- The total flux of a blurred image. -/
theorem blurred_total (G : Galaxy I) {ellip : ℝ} (he0 : 0 ≤ ellip) (he1 : ellip < 1) {B : ℝ} (hB : 0 ≤ B) {eta eps epsf tf rP rT : ℝ} (heps : 0 < eps)
    (hepsf : epsf ≠ 0) (hrP : 0 < rP) (hrT : 0 < rT) (htP : petroRatio I rP = eta)
    (htT : enclosed I 1 rT = tf / epsf * enclosed I 1 (eps * rP)) {T : ℝ} (hT1 : rP < T) (hT2 : eps * rP < T) (hT3 : rT < T) {ε : ℝ}
    (hε : 0 < ε) :
    ∃ n0 : Nat, ∃ s0 > 0, ∃ w0 > 0, ∀ n ≥ n0, ∀ s ≥ s0, w0 ≤ s * T / n →
      ∀ (h w : Nat) (cx cy theta D : ℝ) (f : Nat → Nat → ℝ), Blurred I s B cx cy ellip theta h w D f → s * T + 1 / (1 - ellip) + B ≤ D →
      OnFrame (⟨cx, cy, s * T, s * T * (1 - ellip), theta⟩ : Ellipse ℝ).set h w →
      ∃ rs : List ℝ, makeRadiusList (fin (s * T)) n = rs.map fin ∧
      ∃ fl ar er, radialPhotometry exactOverlap ⟨h, w, fun i j => fin (f i j)⟩ cx cy
          rs none none (1 / (1 - ellip)) theta = .ok (fl, ar, er) ∧
        ∀ (ip : InterpFam ℝ) (num : Nat), ip "cubic" = cubicInterp →
        ∃ p, Petrosian.init (rs.map fin) ar fl none none (fin eta) (fin eps) (fin epsf) (fin tf) (some "cubic") num = .ok p ∧
          ∃ rt ft, p.rTotalFlux ip = .ok (fin rt) ∧ |rt / s - rT| ≤ ε ∧
            p.totalFlux ip = .ok (fin ft) ∧ |ft / s ^ 2 - (1 - ellip) * enclosed I 1 rT| ≤ ε := by
  have hq : 0 < 1 - ellip := by linarith
  have hT0 : 0 < T := hrP.trans hT1
  set M := max rP (max (eps * rP) rT) with hM
  have m1 : rP ≤ M := le_max_left _ _
  have m2 : eps * rP ≤ M := (le_max_left _ _).trans (le_max_right _ _)
  have m3 : rT ≤ M := (le_max_right _ _).trans (le_max_right _ _)
  have hMT : M < T := max_lt hT1 (max_lt hT2 hT3)
  obtain ⟨ν, hν, hcont⟩ := Metric.continuousAt_iff.1 ((gal_cont G (1 - ellip)).continuousAt (Ici_mem_nhds hrT)) (ε / 2) (by linarith)
  set ε' := min (min ε (ν / 2)) (min (T - M) (rT / 2)) with hε'
  have hε0 : 0 < ε' := lt_min (lt_min hε (by linarith)) (lt_min (by linarith) (by linarith))
  have hε1 : ε' ≤ ε := (min_le_left _ _).trans (min_le_left _ _)
  have hε2 : ε' ≤ ν / 2 := (min_le_left _ _).trans (min_le_right _ _)
  have hε3 : ε' ≤ T - M := (min_le_right _ _).trans (min_le_left _ _)
  have hε4 : ε' ≤ rT / 2 := (min_le_right _ _).trans (min_le_right _ _)
  clear_value ε' M
  obtain ⟨δ1, hδ1, s1, hs1, ω1, hω1, hm1⟩ := blurred_cubic G he0 he1 hB heps hepsf hrP hrT htP htT hε0 T (ρ := 2) (by norm_num)
  obtain ⟨δ2, hδ2, s2, hs2, hm2⟩ := blurred_curve G he0 he1 hB (half_pos hε) T 2 (2 * tameFactor 2 2)
  set δ := min (min δ1 δ2) (min (rT / 2) (T / 4)) with hδ
  have d1 : δ ≤ δ1 := (min_le_left _ _).trans (min_le_left _ _)
  have d2 : δ ≤ δ2 := (min_le_left _ _).trans (min_le_right _ _)
  have d3 : δ ≤ rT / 2 := (min_le_right _ _).trans (min_le_left _ _)
  have d4 : δ ≤ T / 4 := (min_le_right _ _).trans (min_le_right _ _)
  have hδ0 : 0 < δ := lt_min (lt_min hδ1 hδ2) (lt_min (by linarith) (by linarith))
  clear_value δ
  obtain ⟨n0, w0, hw0, hset⟩ := recipe_setup (s0 := 1) (ω0 := max ω1 1) he1 hT0 hδ0
  refine ⟨n0, max s1 s2, lt_max_of_lt_left hs1, w0, hw0, ?_⟩
  intro n hn s hs hw h w cx cy theta D f hBl hD hf
  have hsp : 0 < s := lt_of_lt_of_le (lt_max_of_lt_left hs1) hs
  obtain ⟨R, r1, r2, r3, r4, r5, r6, r7⟩ := hset n hn s hsp hw h w cx cy theta hf
  have hcov : ∀ x, x ≤ M → Covers R (x + ε') := fun x hx => by
    obtain ⟨y, hy, hy'⟩ := r5
    exact ⟨y, hy, by linarith⟩
  have h4 : 4 ≤ R.length := fine_four hT0 d4 r2 r5
  obtain ⟨fl, ar, er, h1, h2⟩ := hm1 s ((le_max_left _ _).trans hs) R (r2.mono d1) r3 r4 (hcov _ m1) (hcov _ m2) (hcov _ m3)
    (fun i hi => (le_max_left _ _).trans (r6 i hi)) h w cx cy theta D f hBl hD r7
  have hcurve := hm2 s ((le_max_right _ _).trans hs) R (r2.mono d2) h4 r3 r4 (fun i hi => (le_max_right _ _).trans (r6 i hi)) h w cx cy
    theta D f hBl hD r7 fl ar er h1
  have e : (R.map fun r => fin (s * r)) = (R.map fun r => s * r).map fin := by simp
  refine ⟨R.map fun r => s * r, r1, fl, ar, er, h1, fun ip num hip => ?_⟩
  obtain ⟨p, g1, rp, rf, g2, g3, g4, g5, g6⟩ := h2 ip num (fin tf) hip
  have g5' := abs_le.1 g5
  have hin : R[0]'(by omega) ≤ rf := by have := (r2.first (by omega)).2; linarith
  have hcv : Covers R rf := by
    obtain ⟨y, hy, hy'⟩ := hcov _ m3
    exact ⟨y, hy, by linarith⟩
  have hmem : R[0]'(by omega) ∈ R := List.getElem_mem _
  obtain ⟨v, v1, v2⟩ := hcurve (ip "cubic") (by rw [hip]; exact cubic_gentle (by norm_num)) rf ⟨_, hmem, hin⟩ hcv
  obtain ⟨q1, q2, q3, q4, pl, pe, q5, hp⟩ := Petrosian.init_ok_iff.1 g1
  have t1 : p.rTotalFlux ip = .ok (fin (s * rf)) := by
    rw [← g4, hp]
    rfl
  refine ⟨p, by rw [← e]; exact g1, s * rf, v, t1, ?_, ?_, ?_⟩
  · rw [mul_div_cancel_left₀ _ hsp.ne']; exact g5.trans hε1
  · rw [Petrosian.totalFlux, t1]
    simp only [Except.bind_ok]
    rw [fluxAt_inside (k := "cubic") (by rw [hp]) hsp (R := R) (by rw [hp]) hmem hin hcv, ← v1, hp]
  · have c := @hcont rf (by rw [Real.dist_eq]; linarith)
    rw [Real.dist_eq] at c
    have c' := abs_le.1 c.le
    have v' := abs_le.1 v2
    have a := gal_axis (I := I) (1 - ellip) rT
    rw [a] at c'
    rw [abs_le]
    constructor <;> linarith

/-- **C144, fluxes.** The total flux measured with the documented recipe converges: `total_flux` in units of the flux of one square unit of
length (`s²` pixels) is within any tolerance of the light of the galaxy inside the radius `rT` that holds `total_flux_fraction /
epsilon_fraction` of the light inside `epsilon` Petrosian radii, and `r_total_flux` is within the tolerance of `rT`. -/
theorem C144_total (G : Galaxy I) {ellip : ℝ} (he0 : 0 ≤ ellip) (he1 : ellip < 1) {eta eps epsf tf rP rT : ℝ} (heps : 0 < eps)
    (hepsf : epsf ≠ 0) (hrP : 0 < rP) (hrT : 0 < rT) (htP : petroRatio I rP = eta)
    (htT : enclosed I 1 rT = tf / epsf * enclosed I 1 (eps * rP)) {T : ℝ} (hT1 : rP < T) (hT2 : eps * rP < T) (hT3 : rT < T) {ε : ℝ}
    (hε : 0 < ε) :
    ∃ n0 : Nat, ∃ s0 > 0, ∃ w0 > 0, ∀ n ≥ n0, ∀ s ≥ s0, w0 ≤ s * T / n →
      ∀ (h w : Nat) (cx cy theta : ℝ), OnFrame (⟨cx, cy, s * T, s * T * (1 - ellip), theta⟩ : Ellipse ℝ).set h w →
      ∃ rs : List ℝ, makeRadiusList (fin (s * T)) n = rs.map fin ∧
      ∃ fl ar er, radialPhotometry exactOverlap ⟨h, w, fun i j => fin (I (ellRadius j i cx cy ellip theta / s))⟩ cx cy
          rs none none (1 / (1 - ellip)) theta = .ok (fl, ar, er) ∧
        ∀ (ip : InterpFam ℝ) (num : Nat), ip "cubic" = cubicInterp →
        ∃ p, Petrosian.init (rs.map fin) ar fl none none (fin eta) (fin eps) (fin epsf) (fin tf) (some "cubic") num = .ok p ∧
          ∃ rt ft, p.rTotalFlux ip = .ok (fin rt) ∧ |rt / s - rT| ≤ ε ∧
            p.totalFlux ip = .ok (fin ft) ∧ |ft / s ^ 2 - (1 - ellip) * enclosed I 1 rT| ≤ ε := by
  obtain ⟨n0, s0, hs0, w0, hw0, H⟩ := blurred_total G he0 he1 le_rfl heps hepsf hrP hrT htP htT hT1 hT2 hT3 hε
  exact ⟨n0, s0, hs0, w0, hw0, fun n hn s hs hw h w cx cy theta hf => H n hn s hs hw h w cx cy theta _ _
    (Blurred.sampled G (lt_of_lt_of_le hs0 hs) cx cy ellip theta h w _) le_rfl hf⟩

/-- The concentration index of a `Petrosian` object, from the two radii. -/
theorem concentration_of_radii {ip : InterpFam ℝ} {p : Petrosian ℝ} {f1 f2 r1 r2 : ℝ} (h1 : p.fractionFluxToR ip (fin f1) = .ok (fin r1))
    (h2 : p.fractionFluxToR ip (fin f2) = .ok (fin r2)) (hr1 : 0 < r1) (hr2 : 0 < r2) :
    p.concentrationIndex ip (fin f1) (fin f2) = .ok (fin r1, fin r2, fin (5 * Real.logb 10 (r2 / r1))) := by
  obtain ⟨⟨x1, y1⟩, a1, b1⟩ := except_map_ok h1
  obtain ⟨⟨x2, y2⟩, a2, b2⟩ := except_map_ok h2
  simp only at b1 b2
  subst b1 b2
  unfold Petrosian.calcFractionToR at a1 a2
  simp only [bind_eq_ok] at a1 a2
  obtain ⟨rp, c1, rpe, c2, c3⟩ := a1
  obtain ⟨rp', d1, rpe', d2, d3⟩ := a2
  rw [c1] at d1
  rw [c2] at d2
  injection d1 with d1
  injection d2 with d2
  subst d1 d2
  simp only [Petrosian.concentrationIndex, c1, c2, Except.bind_ok, calculateConcentrationIndex, c3, d3, F.isNaN, Bool.or_self,
    Bool.false_eq_true, if_false]
  rw [F.fin_div_of_ne _ hr1.ne']
  have hpos : 0 < r2 / r1 := div_pos hr2 hr1
  have hl : F.log10 (fin (r2 / r1)) = fin (Real.logb 10 (r2 / r1)) := by
    simp only [F.log10, if_neg hpos.ne', if_neg (not_lt.2 hpos.le)]
    rfl
  rw [hl, F.fin_mul]

/-- The concentration index of a blurred image. -/
theorem blurred_concentration (G : Galaxy I) {ellip : ℝ} (he0 : 0 ≤ ellip) (he1 : ellip < 1) {B : ℝ} (hB : 0 ≤ B) {eta eps epsf f1 f2 rP rF1 rF2 : ℝ}
    (heps : 0 < eps) (hepsf : epsf ≠ 0) (hrP : 0 < rP) (hrF1 : 0 < rF1) (hrF2 : 0 < rF2) (htP : petroRatio I rP = eta)
    (htF1 : enclosed I 1 rF1 = f1 / epsf * enclosed I 1 (eps * rP)) (htF2 : enclosed I 1 rF2 = f2 / epsf * enclosed I 1 (eps * rP))
    {T : ℝ} (hT1 : rP < T) (hT2 : eps * rP < T) (hT3 : rF1 < T) (hT4 : rF2 < T) {ε : ℝ} (hε : 0 < ε) :
    ∃ n0 : Nat, ∃ s0 > 0, ∃ w0 > 0, ∀ n ≥ n0, ∀ s ≥ s0, w0 ≤ s * T / n →
      ∀ (h w : Nat) (cx cy theta D : ℝ) (f : Nat → Nat → ℝ), Blurred I s B cx cy ellip theta h w D f → s * T + 1 / (1 - ellip) + B ≤ D →
      OnFrame (⟨cx, cy, s * T, s * T * (1 - ellip), theta⟩ : Ellipse ℝ).set h w →
      ∃ rs : List ℝ, makeRadiusList (fin (s * T)) n = rs.map fin ∧
      ∃ fl ar er, radialPhotometry exactOverlap ⟨h, w, fun i j => fin (f i j)⟩ cx cy
          rs none none (1 / (1 - ellip)) theta = .ok (fl, ar, er) ∧
        ∀ (ip : InterpFam ℝ) (num : Nat) (tff : F ℝ), ip "cubic" = cubicInterp →
        ∃ p, Petrosian.init (rs.map fin) ar fl none none (fin eta) (fin eps) (fin epsf) tff (some "cubic") num = .ok p ∧
          ∃ r1 r2 c, p.concentrationIndex ip (fin f1) (fin f2) = .ok (fin r1, fin r2, fin c) ∧
            |r1 / s - rF1| ≤ ε ∧ |r2 / s - rF2| ≤ ε ∧ |c - 5 * Real.logb 10 (rF2 / rF1)| ≤ ε := by
  have hc : ContinuousAt (fun x : ℝ × ℝ => 5 * Real.logb 10 (x.2 / x.1)) (rF1, rF2) := by
    have hdiv : ContinuousAt (fun x : ℝ × ℝ => x.2 / x.1) (rF1, rF2) := continuousAt_snd.div continuousAt_fst hrF1.ne'
    have hlog : ContinuousAt (fun x : ℝ => Real.logb 10 x) (rF2 / rF1) := by
      unfold Real.logb
      exact (Real.continuousAt_log (div_pos hrF2 hrF1).ne').div_const _
    have hcomp := ContinuousAt.comp (f := fun x : ℝ × ℝ => x.2 / x.1) (g := fun x : ℝ => Real.logb 10 x) hlog hdiv
    exact continuousAt_const.mul hcomp
  obtain ⟨ν, hν, hcont⟩ := Metric.continuousAt_iff.1 hc ε hε
  set κ := min ε (ν / 2) with hκ
  have hκ0 : 0 < κ := lt_min hε (by linarith)
  have hκ1 : κ ≤ ε := min_le_left _ _
  have hκ2 : κ ≤ ν / 2 := min_le_right _ _
  clear_value κ
  have hT0 : 0 < T := hrP.trans hT1
  obtain ⟨n1, s1, hs1, w1, hw1, H1⟩ := blurred_recipe G he0 he1 hB heps hepsf hrP hrF1 htP htF1 hT1 hT2 hT3 (lt_min hκ0 (half_pos hrF1))
  obtain ⟨n2, s2, hs2, w2, hw2, H2⟩ := blurred_recipe G he0 he1 hB heps hepsf hrP hrF2 htP htF2 hT1 hT2 hT4 (lt_min hκ0 (half_pos hrF2))
  refine ⟨max n1 n2, max s1 s2, lt_max_of_lt_left hs1, max w1 w2, lt_max_of_lt_left hw1, ?_⟩
  intro n hn s hs hw h w cx cy theta D f hBl hD hf
  have hsp : 0 < s := lt_of_lt_of_le (lt_max_of_lt_left hs1) hs
  obtain ⟨rs, a1, fl, ar, er, a2, a3⟩ := H1 n ((le_max_left _ _).trans hn) s ((le_max_left _ _).trans hs) ((le_max_left _ _).trans hw)
    h w cx cy theta D f hBl hD hf
  obtain ⟨rs', b1, fl', ar', er', b2, b3⟩ := H2 n ((le_max_right _ _).trans hn) s ((le_max_right _ _).trans hs)
    ((le_max_right _ _).trans hw) h w cx cy theta D f hBl hD hf
  have hrs : rs = rs' := by
    rw [a1] at b1
    exact List.map_injective_iff.2 (fun x y hxy => by injection hxy) b1
  subst hrs
  rw [a2] at b2
  injection b2 with b2
  injection b2 with b2 b2'
  injection b2' with b2' b2''
  subst b2 b2' b2''
  refine ⟨rs, a1, fl, ar, er, a2, fun ip num tff hip => ?_⟩
  obtain ⟨p, g1, -, r1, -, -, g2, g3⟩ := a3 ip num tff hip
  obtain ⟨p', k1, -, r2, -, -, k2, k3⟩ := b3 ip num tff hip
  rw [g1] at k1
  injection k1 with k1
  subst k1
  have x1 := abs_le.1 (g3.trans (min_le_right _ _))
  have x2 := abs_le.1 (k3.trans (min_le_right _ _))
  have y1 : |r1 / s - rF1| ≤ κ := g3.trans (min_le_left _ _)
  have y2 : |r2 / s - rF2| ≤ κ := k3.trans (min_le_left _ _)
  have z1 : 0 < r1 / s := by linarith
  have z2 : 0 < r2 / s := by linarith
  have p1 : 0 < r1 := by have := mul_pos z1 hsp; rwa [div_mul_cancel₀ _ hsp.ne'] at this
  have p2 : 0 < r2 := by have := mul_pos z2 hsp; rwa [div_mul_cancel₀ _ hsp.ne'] at this
  refine ⟨p, g1, r1, r2, _, concentration_of_radii g2 k2 p1 p2, y1.trans hκ1, y2.trans hκ1, ?_⟩
  have := @hcont (r1 / s, r2 / s) (by
    rw [Prod.dist_eq, Real.dist_eq, Real.dist_eq]
    exact max_lt (by linarith) (by linarith))
  rw [Real.dist_eq] at this
  have e : r2 / s / (r1 / s) = r2 / r1 := by field_simp
  simp only [e] at this
  exact this.le

/-- **C144, concentration.** The concentration index `5 log10(r2/r1)` of any two flux fractions, measured with the documented recipe, converges
to the one of the galaxy: `c2080` and `c5090` do not depend on the pixel scale, the frame, or the position angle in the limit. -/
theorem C144_concentration (G : Galaxy I) {ellip : ℝ} (he0 : 0 ≤ ellip) (he1 : ellip < 1) {eta eps epsf f1 f2 rP rF1 rF2 : ℝ}
    (heps : 0 < eps) (hepsf : epsf ≠ 0) (hrP : 0 < rP) (hrF1 : 0 < rF1) (hrF2 : 0 < rF2) (htP : petroRatio I rP = eta)
    (htF1 : enclosed I 1 rF1 = f1 / epsf * enclosed I 1 (eps * rP)) (htF2 : enclosed I 1 rF2 = f2 / epsf * enclosed I 1 (eps * rP))
    {T : ℝ} (hT1 : rP < T) (hT2 : eps * rP < T) (hT3 : rF1 < T) (hT4 : rF2 < T) {ε : ℝ} (hε : 0 < ε) :
    ∃ n0 : Nat, ∃ s0 > 0, ∃ w0 > 0, ∀ n ≥ n0, ∀ s ≥ s0, w0 ≤ s * T / n →
      ∀ (h w : Nat) (cx cy theta : ℝ), OnFrame (⟨cx, cy, s * T, s * T * (1 - ellip), theta⟩ : Ellipse ℝ).set h w →
      ∃ rs : List ℝ, makeRadiusList (fin (s * T)) n = rs.map fin ∧
      ∃ fl ar er, radialPhotometry exactOverlap ⟨h, w, fun i j => fin (I (ellRadius j i cx cy ellip theta / s))⟩ cx cy
          rs none none (1 / (1 - ellip)) theta = .ok (fl, ar, er) ∧
        ∀ (ip : InterpFam ℝ) (num : Nat) (tff : F ℝ), ip "cubic" = cubicInterp →
        ∃ p, Petrosian.init (rs.map fin) ar fl none none (fin eta) (fin eps) (fin epsf) tff (some "cubic") num = .ok p ∧
          ∃ r1 r2 c, p.concentrationIndex ip (fin f1) (fin f2) = .ok (fin r1, fin r2, fin c) ∧
            |r1 / s - rF1| ≤ ε ∧ |r2 / s - rF2| ≤ ε ∧ |c - 5 * Real.logb 10 (rF2 / rF1)| ≤ ε := by
  obtain ⟨n0, s0, hs0, w0, hw0, H⟩ := blurred_concentration G he0 he1 le_rfl heps hepsf hrP hrF1 hrF2 htP htF1 htF2 hT1 hT2 hT3 hT4 hε
  exact ⟨n0, s0, hs0, w0, hw0, fun n hn s hs hw h w cx cy theta hf => H n hn s hs hw h w cx cy theta _ _
    (Blurred.sampled G (lt_of_lt_of_le hs0 hs) cx cy ellip theta h w _) le_rfl hf⟩

/-- The total flux of an exponential disc of ellipticity 0.3 (the default options): whatever the tolerance, there are an image and radii with which
`total_flux` is that close to the light inside two Petrosian radii. -/
example {rP eta ε : ℝ} (hrP : 0 < rP) (hε : 0 < ε) (htP : petroRatio (sersic (bn 1) 1 1 1) rP = eta) :
    ∃ (h w m : Nat) (cx cy s maxPix : ℝ), 0 < s ∧ ∃ rs : List ℝ, makeRadiusList (fin maxPix) m = rs.map fin ∧
      ∃ fl ar er, radialPhotometry exactOverlap
          ⟨h, w, fun i j => fin (sersic (bn 1) 1 1 1 (ellRadius j i cx cy (3 / 10) (1 / 2) / s))⟩ cx cy
          rs none none (1 / (1 - 3 / 10)) (1 / 2) = .ok (fl, ar, er) ∧
        ∃ p, Petrosian.init (rs.map fin) ar fl none none (fin eta) (fin 2) (fin 1) (fin 1) (some "cubic") 5000 = .ok p ∧
          ∃ f, p.totalFlux (fun _ => cubicInterp) = .ok (fin f) ∧
            |f / s ^ 2 - (1 - 3 / 10) * enclosed (sersic (bn 1) 1 1 1) 1 (2 * rP)| ≤ ε := by
  obtain ⟨n0, s0, hs0, w0, hw0, hm⟩ := C144_total (sersic_galaxy (amplitude := 1) (rEff := 1) (n := 1) one_pos one_pos one_pos)
    (ellip := 3 / 10) (eps := 2) (epsf := 1) (tf := 1) (rT := 2 * rP) (by norm_num) (by norm_num) (by norm_num) one_ne_zero hrP
    (by linarith) htP (by norm_num) (T := 3 * rP) (by linarith) (by linarith) (by linarith) hε
  obtain ⟨n, hn, -, s, hs, hw, N, hN⟩ := recipe_attainable (ellip := 3 / 10) (by norm_num) (by norm_num) (T := 3 * rP) (by linarith) n0
    (w0 := w0) hs0 (1 / 2)
  obtain ⟨rs, a1, fl, ar, er, a2, a3⟩ := hm n hn s hs hw _ _ _ _ _ hN
  obtain ⟨p, g1, _, f, _, _, g2, g3⟩ := a3 (fun _ => cubicInterp) 5000 rfl
  exact ⟨_, _, n, _, _, s, _, lt_of_lt_of_le hs0 hs, rs, a1, fl, ar, er, a2, p, g1, f, g2, g3⟩

end Verif.Props

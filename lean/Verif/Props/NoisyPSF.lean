import Verif.Props.NoisyImage
import Verif.Props.BlurredRecipe

/-!
# C162: PSF and noise together

`make_radius_list`, `radial_photometry` and `Petrosian` (petrofit/utils.py, petrofit/photometry.py:108-227, petrofit/petrosian/core.py) on images
that show the galaxy through a PSF, with noise that may be correlated between pixels, and in floating point arithmetic.
-/

set_option linter.unusedSectionVars false
set_option linter.unusedVariables false

namespace Verif.Props

open Verif F Spec Lemmas MeasureTheory ProbabilityTheory Real

variable {I : ℝ → ℝ}

/-- The brightness of a galaxy is uniformly continuous. -/
theorem gal_uniform (G : Galaxy I) {κ : ℝ} (hκ : 0 < κ) : ∃ ν > 0, ∀ x y, 0 ≤ x → 0 ≤ y → |x - y| ≤ ν → |I x - I y| ≤ κ := by
  have anti : ∀ x y, 0 ≤ x → x ≤ y → I y ≤ I x := fun x y hx hxy =>
    G.falls.antitoneOn (Set.mem_Ici.2 hx) (Set.mem_Ici.2 (hx.trans hxy)) hxy
  set m := sInf (I '' Set.Ici 0) with hm
  have hbdd : BddBelow (I '' Set.Ici 0) := ⟨0, by rintro _ ⟨x, hx, rfl⟩; exact (G.pos x hx).le⟩
  obtain ⟨_, ⟨T, hT, rfl⟩, hTm⟩ := exists_lt_of_csInf_lt ((Set.nonempty_Ici (a := (0 : ℝ))).image I) (show m < m + κ by linarith)
  have hT : 0 ≤ T := hT
  have hlow : ∀ x, 0 ≤ x → m ≤ I x := fun x hx => csInf_le hbdd ⟨x, hx, rfl⟩
  obtain ⟨ν, hν, H⟩ := gal_modulus G (T + 1) hκ
  refine ⟨min ν 1, lt_min hν one_pos, fun x y hx hy hxy => ?_⟩
  have h1 := abs_le.1 (hxy.trans (min_le_right ν 1))
  by_cases hc : x ≤ T ∨ y ≤ T
  · refine H x y hx ?_ hy ?_ (hxy.trans (min_le_left _ _))
    · rcases hc with h | h <;> linarith [h1.2]
    · rcases hc with h | h <;> linarith [h1.1]
  · push Not at hc
    have a1 := anti T x hT hc.1.le
    have a2 := anti T y hT hc.2.le
    have b1 := hlow x hx
    have b2 := hlow y hy
    rw [abs_le]
    constructor <;> linarith

/-- A large galaxy seen through a PSF looks like the galaxy, on every pixel. -/
theorem Smeared.near (G : Galaxy I) {ellip : ℝ} (he0 : 0 ≤ ellip) (he1 : ellip < 1) {reach : ℝ} (hreach : 0 ≤ reach) {c : ℝ} (hc : 0 < c) :
    ∃ s0 > 0, ∀ s ≥ s0, ∀ (cx cy theta : ℝ) (h w : Nat) (f : Nat → Nat → ℝ), Smeared I s reach cx cy ellip theta h w f →
      ∀ i j, i < h → j < w → |f i j - I (ellRadius j i cx cy ellip theta / s)| ≤ c := by
  have hq : 0 < 1 - ellip := by linarith
  obtain ⟨ν, hν, H⟩ := gal_uniform G hc
  refine ⟨(reach / (1 - ellip) + 1) / ν, by positivity, fun s hs cx cy theta h w f hf i j hi hj => ?_⟩
  have hs0 : 0 < s := lt_of_lt_of_le (by positivity) hs
  have hsν : reach / (1 - ellip) / s ≤ ν := by
    have h1 : (reach / (1 - ellip) + 1) / ν ≤ s := hs
    rw [div_le_iff₀ hν] at h1
    rw [div_le_iff₀ hs0]
    linarith
  have hnn : ∀ x y : ℝ, 0 ≤ ellRadius x y cx cy ellip theta / s := fun x y => div_nonneg (ellRadius_nonneg _ _ _ _ _ _) hs0.le
  set g : ℝ × ℝ → ℝ := fun p => I (ellRadius p.1 p.2 cx cy ellip theta / s) with hg
  have hgc : Continuous g := G.cont.comp_continuous ((ellRadius_continuous cx cy ellip theta).div_const s) fun p => Set.mem_Ici.2 (hnn _ _)
  obtain ⟨μ, hμ, hr, e⟩ := hf i j hi hj
  have hint : Integrable g μ := Integrable.of_bound hgc.aestronglyMeasurable (I 0) (Filter.Eventually.of_forall fun p => by
    rw [Real.norm_eq_abs, abs_of_pos (G.pos _ (hnn _ _))]
    exact G.falls.antitoneOn (Set.mem_Ici.2 le_rfl) (Set.mem_Ici.2 (hnn _ _)) (hnn _ _))
  have key : ∀ᵐ p ∂μ, ‖g p - I (ellRadius j i cx cy ellip theta / s)‖ ≤ c := by
    filter_upwards [hr] with p hp
    refine H _ _ (hnn _ _) (hnn _ _) ?_
    rw [← sub_div, abs_div, abs_of_pos hs0]
    refine le_trans (div_le_div_of_nonneg_right ?_ hs0.le) hsν
    have l1 := ellRadius_lip (x0 := cx) (y0 := cy) (theta := theta) he0 he1 p ((j : ℝ), (i : ℝ))
    have l2 := ellRadius_lip (x0 := cx) (y0 := cy) (theta := theta) he0 he1 ((j : ℝ), (i : ℝ)) p
    simp only at l1 l2
    have e : distTo (j : ℝ) i p.1 p.2 = distTo p.1 p.2 j i := by unfold distTo; congr 1; ring
    rw [e] at l2
    have := div_le_div_of_nonneg_right hp hq.le
    rw [abs_le]
    constructor <;> linarith
  have h2 := norm_integral_le_of_norm_le_const key
  rw [integral_sub hint (integrable_const _), integral_const] at h2
  simpa [e] using h2

/-- **C162, noise.** The documented recipe is consistent on images seen through a PSF, with correlated noise.  The pixels of the image show on
average an average of the light of the galaxy within `reach` pixels; around that they scatter by any law, and may be correlated as long as for
each pixel the covariances with all pixels add up to at most `v` in size.  With enough apertures the probability that the recipe raises or
returns a radius that misses the radius of the galaxy by more than the tolerance is at most `v K / s²`. -/
theorem C162_recipe (G : Galaxy I) {ellip : ℝ} (he0 : 0 ≤ ellip) (he1 : ellip < 1) {reach : ℝ} (hreach : 0 ≤ reach)
    {eta eps epsf frac rP rF : ℝ} (heps : 0 < eps) (hepsf : epsf ≠ 0) (hrP : 0 < rP) (hrF : 0 < rF) (htP : petroRatio I rP = eta)
    (htF : enclosed I 1 rF = frac / epsf * enclosed I 1 (eps * rP)) {T : ℝ} (hT1 : rP < T) (hT2 : eps * rP < T) (hT3 : rF < T) {ε : ℝ}
    (hε : 0 < ε) :
    ∃ n0 : Nat, ∀ n ≥ n0, ∃ s0 > 0, ∃ K > 0, ∀ s ≥ s0,
      ∀ (h w : Nat) (cx cy theta : ℝ), OnFrame (⟨cx, cy, s * T, s * T * (1 - ellip), theta⟩ : Ellipse ℝ).set h w →
      ∀ (Ω : Type) [MeasurableSpace Ω] (μ : Measure Ω) [IsProbabilityMeasure μ] (X : Nat → Nat → Ω → ℝ) (m : Nat → Nat → ℝ) (v : ℝ),
      CorrelatedNoise μ h w X m v → Smeared I s reach cx cy ellip theta h w m →
      μ {ω | ¬ RecipeWithin ε s T cx cy ellip theta eta eps epsf frac rP rF n h w fun i j => X i j ω} ≤ ENNReal.ofReal (v * K / s ^ 2) := by
  obtain ⟨n0, H⟩ := noise_recipe G he0 he1 heps hepsf hrP hrF htP htF hT1 hT2 hT3 hε
  refine ⟨n0, fun n hn => ?_⟩
  obtain ⟨s0, hs0, c, hc, K, hK, H⟩ := H n hn
  obtain ⟨s1, hs1, H1⟩ := Smeared.near G he0 he1 hreach hc
  exact ⟨max s0 s1, lt_max_of_lt_left hs0, K, hK, fun s hs h w cx cy theta hf Ω _ μ _ X m v hX hm =>
    H s ((le_max_left _ _).trans hs) h w cx cy theta hf Ω μ X m v hX (H1 s ((le_max_right _ _).trans hs) cx cy theta h w m hm)⟩

/-- Averages of averages: smoothing, shifting or matching the PSF of a smeared image by a kernel without negative weights gives a smeared image. -/
theorem Smeared.resample (G : Galaxy I) {s reach cx cy ellip theta : ℝ} {h w h' w' : Nat} {f : Nat → Nat → ℝ} (hs : 0 < s)
    (hf : Smeared I s reach cx cy ellip theta h w f) {k : Nat → Nat → Nat → Nat → ℝ} {d : ℝ} (hk0 : ∀ i j a b, 0 ≤ k i j a b)
    (hk1 : ∀ i j, i < h' → j < w' → weightedSum (k i j) h w (fun _ _ => true) (fun _ _ => 1) = 1)
    (hkd : ∀ i j a b : Nat, k i j a b ≠ 0 → distTo (b : ℝ) a j i ≤ d) :
    Smeared I s (reach + d) cx cy ellip theta h' w' fun i j => weightedSum (k i j) h w (fun _ _ => true) f := by
  intro i j hi hj
  have hnn : ∀ x y : ℝ, 0 ≤ ellRadius x y cx cy ellip theta / s := fun x y => div_nonneg (ellRadius_nonneg _ _ _ _ _ _) hs.le
  set g : ℝ × ℝ → ℝ := fun p => I (ellRadius p.1 p.2 cx cy ellip theta / s) with hg
  have hgc : Continuous g := G.cont.comp_continuous ((ellRadius_continuous cx cy ellip theta).div_const s) fun p => Set.mem_Ici.2 (hnn _ _)
  set S := Finset.range h ×ˢ Finset.range w with hS
  have hmemS : ∀ p ∈ S, p.1 < h ∧ p.2 < w := fun p hp => by
    rwa [hS, Finset.mem_product, Finset.mem_range, Finset.mem_range] at hp
  choose! M hM hMr hMe using hf
  have hint : ∀ p ∈ S, Integrable g (M p.1 p.2) := by
    intro p hp
    have := hM p.1 p.2 (hmemS p hp).1 (hmemS p hp).2
    exact Integrable.of_bound hgc.aestronglyMeasurable (I 0) (Filter.Eventually.of_forall fun p => by
      rw [Real.norm_eq_abs, abs_of_pos (G.pos _ (hnn _ _))]
      exact G.falls.antitoneOn (Set.mem_Ici.2 le_rfl) (Set.mem_Ici.2 (hnn _ _)) (hnn _ _))
  have hk1' : ∑ p ∈ S, k i j p.1 p.2 = 1 := by
    have := hk1 i j hi hj
    rw [weightedSum_product] at this
    simpa using this
  refine ⟨∑ p ∈ S, ENNReal.ofReal (k i j p.1 p.2) • M p.1 p.2, ⟨?_⟩, ?_, ?_⟩
  · rw [Measure.finsetSum_apply]
    have : ∀ p ∈ S, (ENNReal.ofReal (k i j p.1 p.2) • M p.1 p.2) Set.univ = ENNReal.ofReal (k i j p.1 p.2) := by
      intro p hp
      have := hM p.1 p.2 (hmemS p hp).1 (hmemS p hp).2
      rw [Measure.smul_apply, measure_univ, smul_eq_mul, mul_one]
    rw [Finset.sum_congr rfl this, ← ENNReal.ofReal_sum_of_nonneg (fun p _ => hk0 i j p.1 p.2), hk1', ENNReal.ofReal_one]
  · rw [ae_finsetSum_measure_iff]
    intro p hp
    by_cases hz : k i j p.1 p.2 = 0
    · rw [hz, ENNReal.ofReal_zero, zero_smul]
      simp
    · have h1 := hMr p.1 p.2 (hmemS p hp).1 (hmemS p hp).2
      refine Measure.ae_smul_measure ?_ _
      filter_upwards [h1] with x hx
      have h2 := hkd i j p.1 p.2 hz
      have h3 := distTo_triangle x ((p.2 : ℝ), (p.1 : ℝ)) ((j : ℝ), (i : ℝ))
      simp only at h3
      linarith
  · show weightedSum (k i j) h w (fun _ _ => true) f = _
    rw [integral_finsetSum_measure (fun p hp => (hint p hp).smul_measure ENNReal.ofReal_ne_top), weightedSum_product]
    refine Finset.sum_congr rfl fun p hp => ?_
    rw [integral_smul_measure, ENNReal.toReal_ofReal (hk0 _ _ _ _), hMe p.1 p.2 (hmemS p hp).1 (hmemS p hp).2]
    simp only [if_true, smul_eq_mul]
    rfl

/-- **C162, processed images.** Take an exposure with uncorrelated noise of variance at most `v` that shows the galaxy through a PSF, and process
it before the measurement: smooth it, shift it by a fraction of a pixel, match its PSF to another. Each pixel of the processed image is a weighted
mean, with weights `k` that are not negative, add up to 1 for each pixel of the result, to at most `B` for each pixel of the exposure, and reach
no further than `d` pixels. The noise is now correlated and the recipe is consistent all the same. -/
theorem C162_processed (G : Galaxy I) {ellip : ℝ} (he0 : 0 ≤ ellip) (he1 : ellip < 1) {reach d : ℝ} (hreach : 0 ≤ reach) (hd : 0 ≤ d)
    {eta eps epsf frac rP rF : ℝ} (heps : 0 < eps) (hepsf : epsf ≠ 0) (hrP : 0 < rP) (hrF : 0 < rF) (htP : petroRatio I rP = eta)
    (htF : enclosed I 1 rF = frac / epsf * enclosed I 1 (eps * rP)) {T : ℝ} (hT1 : rP < T) (hT2 : eps * rP < T) (hT3 : rF < T) {ε : ℝ}
    (hε : 0 < ε) :
    ∃ n0 : Nat, ∀ n ≥ n0, ∃ s0 > 0, ∃ K > 0, ∀ s ≥ s0,
      ∀ (h w : Nat) (cx cy theta : ℝ), OnFrame (⟨cx, cy, s * T, s * T * (1 - ellip), theta⟩ : Ellipse ℝ).set h w →
      ∀ (Ω : Type) [MeasurableSpace Ω] (μ : Measure Ω) [IsProbabilityMeasure μ] (h' w' : Nat) (X : Nat → Nat → Ω → ℝ) (m σ : Nat → Nat → ℝ) (v : ℝ),
      PixelNoise μ h' w' X m σ → 0 ≤ v → (∀ i j, i < h' → j < w' → σ i j ^ 2 ≤ v) → Smeared I s reach cx cy ellip theta h' w' m →
      ∀ (k : Nat → Nat → Nat → Nat → ℝ) (B : ℝ), (∀ i j a b, 0 ≤ k i j a b) →
      (∀ i j, i < h → j < w → weightedSum (k i j) h' w' (fun _ _ => true) (fun _ _ => 1) = 1) →
      (∀ a b, a < h' → b < w' → weightedSum (fun i j => k i j a b) h w (fun _ _ => true) (fun _ _ => 1) ≤ B) → 0 ≤ B →
      (∀ i j a b : Nat, k i j a b ≠ 0 → distTo (b : ℝ) a j i ≤ d) →
      μ {ω | ¬ RecipeWithin ε s T cx cy ellip theta eta eps epsf frac rP rF n h w
        fun i j => weightedSum (k i j) h' w' (fun _ _ => true) fun a b => X a b ω} ≤ ENNReal.ofReal (v * B * K / s ^ 2) := by
  obtain ⟨n0, H⟩ := C162_recipe G he0 he1 (add_nonneg hreach hd) heps hepsf hrP hrF htP htF hT1 hT2 hT3 hε
  refine ⟨n0, fun n hn => ?_⟩
  obtain ⟨s0, hs0, K, hK, H⟩ := H n hn
  refine ⟨s0, hs0, K, hK, fun s hs h w cx cy theta hf Ω _ μ _ h' w' X m σ v hX hv0 hv hm k B hk0 hk1 hkB hB0 hkd => ?_⟩
  have hc := resampled_noise (h' := h) (w' := w) hX hv hv0 hB0 k (A := 1)
    (by
      intro i j hi hj
      have := hk1 i j hi hj
      rw [weightedSum_product] at this
      simp only [if_true, mul_one] at this
      rw [← this]
      exact Finset.sum_le_sum fun p _ => (abs_of_nonneg (hk0 _ _ _ _)).le)
    (by
      intro a b ha hb
      have := hkB a b ha hb
      rw [weightedSum_product] at this
      simp only [if_true, mul_one] at this
      exact (Finset.sum_le_sum fun p _ => (abs_of_nonneg (hk0 _ _ _ _)).le).trans this)
  rw [one_mul] at hc
  exact H s hs h w cx cy theta hf Ω μ _ _ _ hc (hm.resample G (lt_of_lt_of_le hs0 hs) hk0 hk1 hkd)

/-- The probability of a miss tends to zero as the image gets finer, the noise and the PSF in pixels staying the same. -/
theorem C162_consistent (G : Galaxy I) {ellip : ℝ} (he0 : 0 ≤ ellip) (he1 : ellip < 1) {reach : ℝ} (hreach : 0 ≤ reach)
    {eta eps epsf frac rP rF : ℝ} (heps : 0 < eps) (hepsf : epsf ≠ 0) (hrP : 0 < rP) (hrF : 0 < rF) (htP : petroRatio I rP = eta)
    (htF : enclosed I 1 rF = frac / epsf * enclosed I 1 (eps * rP)) {T : ℝ} (hT1 : rP < T) (hT2 : eps * rP < T) (hT3 : rF < T) {ε α v : ℝ}
    (hε : 0 < ε) (hα : 0 < α) :
    ∃ n0 : Nat, ∀ n ≥ n0, ∃ s0 > 0, ∀ s ≥ s0,
      ∀ (h w : Nat) (cx cy theta : ℝ), OnFrame (⟨cx, cy, s * T, s * T * (1 - ellip), theta⟩ : Ellipse ℝ).set h w →
      ∀ (Ω : Type) [MeasurableSpace Ω] (μ : Measure Ω) [IsProbabilityMeasure μ] (X : Nat → Nat → Ω → ℝ) (m : Nat → Nat → ℝ),
      CorrelatedNoise μ h w X m v → Smeared I s reach cx cy ellip theta h w m →
      μ {ω | ¬ RecipeWithin ε s T cx cy ellip theta eta eps epsf frac rP rF n h w fun i j => X i j ω} ≤ ENNReal.ofReal α := by
  obtain ⟨n0, hn⟩ := C162_recipe G he0 he1 hreach heps hepsf hrP hrF htP htF hT1 hT2 hT3 hε
  refine ⟨n0, fun n hnn => ?_⟩
  obtain ⟨s0, hs0, K, hK, hm⟩ := hn n hnn
  refine ⟨max s0 (max 1 (v * K / α)), lt_max_of_lt_left hs0, ?_⟩
  intro s hs h w cx cy theta hf Ω _ μ _ X m hX hv
  have hs2 : 1 ≤ s := (le_max_left _ _).trans ((le_max_right _ _).trans hs)
  have hs3 : v * K / α ≤ s := (le_max_right _ _).trans ((le_max_right _ _).trans hs)
  refine (hm s ((le_max_left _ _).trans hs) h w cx cy theta hf Ω μ X m v hX hv).trans (ENNReal.ofReal_le_ofReal ?_)
  rw [div_le_iff₀ hα] at hs3
  rw [div_le_iff₀ (by positivity)]
  have h1 : s * α ≤ s ^ 2 * α := mul_le_mul_of_nonneg_right (by nlinarith) hα.le
  linarith

/-- **C162, floating point.** The recipe on images seen through a PSF, in floating point arithmetic: C148 with pixels that show averages of the
light within `reach` pixels, themselves stored with an error of at most `c0`. -/
theorem C162_floats (G : Galaxy I) {ellip : ℝ} (he0 : 0 ≤ ellip) (he1 : ellip < 1) {reach : ℝ} (hreach : 0 ≤ reach)
    {eta frac eps epsf rP rF : ℝ} (heps : 0 < eps) (hepsf : epsf ≠ 0) (hrP : 0 < rP) (hrF : 0 < rF) (hP : petroRatio I rP = eta)
    (hF : enclosed I (1 - ellip) rF = frac / epsf * enclosed I (1 - ellip) (eps * rP)) {ε T : ℝ} (hε : 0 < ε)
    (hTP : rP + ε ≤ T) (hTF : rF + ε ≤ T) (hTE : eps * rP + ε ≤ T) (ρ C : ℝ) :
    ∃ δ > 0, ∃ s0 > 0, ∃ c0 > 0, ∀ s ≥ s0, ∀ (fl : ℝ → ℝ) (u : ℝ), Rounding fl → RelErr u fl → 0 ≤ u → u ≤ c0 →
      ∀ R, Fine δ R → EvenRadii ρ R → (∀ r ∈ R, r ≤ T ∧ fl (s * r) = s * r) →
        Covers R (rP + ε) → Covers R (rF + ε) → Covers R (eps * rP + ε) →
      ∀ (h w : Nat) (cx cy theta : ℝ) (f g : Nat → Nat → ℝ), Smeared I s reach cx cy ellip theta h w g →
      (∀ i j, i < h → j < w → |f i j - g i j| ≤ c0) →
      ∀ (ov : Overlap ℝ) (cx' cy' elong theta' τ : ℝ), GoodApertures fl ov s cx cy ellip theta cx' cy' elong theta' τ h w R →
      Roomy c0 u (1 - ellip) s τ h w R →
      ∀ (ip : InterpFam ℝ) (k : String) (num : Nat) (e : ℝ), 4 * u * (max num R.length : Nat) ≤ 1 → 0 ≤ e → e ≤ c0 → GentleR ρ C e (ip k) →
      ∃ flux area err p rp rf,
        radialPhotometryR fl ov ⟨h, w, fun i j => fin (f i j)⟩ cx' cy' (R.map fun r => s * r) none none elong theta' = .ok (flux, area, err) ∧
        calculatePetrosianFl fl area flux = .ok p ∧
        calculatePetrosianRR fl ip (R.map fun x => fin (s * x)) p (fin eta) (some k) num = .ok (fin (s * rp)) ∧ |rp - rP| ≤ ε ∧
        fractionToRR fl ip (fin frac) (R.map fun x => fin (s * x)) flux (fin (s * rp)) (fin eps) (fin epsf) (some k) num =
          .ok (fin (s * rf)) ∧ |rf - rF| ≤ ε := by
  have hq : 0 < 1 - ellip := by linarith
  obtain ⟨δ, hδ, s0, hs0, c0, hc0, H⟩ := C148_image G he0 he1 heps hepsf hrP hrF hP hF hε hTP hTF hTE ρ C
  obtain ⟨s1, hs1, H1⟩ := Smeared.near G he0 he1 hreach (half_pos hc0)
  refine ⟨δ, hδ, max s0 s1, lt_max_of_lt_left hs0, c0 / 2, half_pos hc0, ?_⟩
  intro s hs fl u hfl hu hu0 huc R hR hE hRT hc1 hc2 hc3 h w cx cy theta f g hg hfg ov cx' cy' elong theta' τ hap hroom ip k num e hnum he hec hip
  have hsp : 0 < s := lt_of_lt_of_le (lt_max_of_lt_left hs0) hs
  have hp := Real.pi_pos
  refine H s ((le_max_left _ _).trans hs) fl u hfl hu hu0 (by linarith) R hR hE hRT hc1 hc2 hc3 h w cx cy theta f (fun i j hi hj => ?_) ov cx' cy' elong
    theta' τ hap ⟨fun h0 => (hroom.1 h0).trans (mul_le_mul_of_nonneg_right (by linarith) (by positivity)), fun i hi =>
      (hroom.2 i hi).trans (mul_le_mul_of_nonneg_right (by linarith) ?_)⟩ ip k num e hnum he (by linarith) hip
  · have a := H1 s ((le_max_right _ _).trans hs) cx cy theta h w g hg i j hi hj
    have b := hfg i j hi hj
    have e : f i j - I (ellRadius j i cx cy ellip theta / s) = (f i j - g i j) + (g i j - I (ellRadius j i cx cy ellip theta / s)) := by ring
    rw [e]
    exact (abs_add_le _ _).trans (by linarith)
  · have h1 := hR.pos (i := i) (by omega)
    have h2 : (s * R[i]) ^ 2 ≤ (s * R[i + 1]) ^ 2 := pow_le_pow_left₀ (by positivity) (mul_le_mul_of_nonneg_left (hR.step i hi).1.le hsp.le) 2
    have := mul_le_mul_of_nonneg_left h2 (mul_pos hp hq).le
    linarith

/-- Two exposures of the same field, shifted by a pixel and averaged: each pixel of the result is the mean of two neighbours. -/
noncomputable def pairMean (i j a b : Nat) : ℝ := (if (i, j) = (a, b) then 1 / 2 else 0) + if (i, j + 1) = (a, b) then 1 / 2 else 0

/-- Gaussian noise of standard deviation 100 on the detector pixels of a Sersic galaxy, averaged over neighbours: the recipe finds the Petrosian
radius to 1% with a probability of at least 99%, if the image is big enough. -/
example {n rP rF : ℝ} (hn : 0 < n) (hrP : 0 < rP) (hrF : 0 < rF) (hFP : rF < 2 * rP)
    (htP : petroRatio (sersic (bn n) 1 1 n) rP = 1 / 5)
    (htF : enclosed (sersic (bn n) 1 1 n) 1 rF = 1 / 2 / 1 * enclosed (sersic (bn n) 1 1 n) 1 (2 * rP)) :
    ∃ (k N : Nat) (s : ℝ), 0 < s ∧
      gaussField (2 * N + 1) (2 * N + 2) {ω | ¬ RecipeWithin (rP / 100) s (3 * rP) N N 0 0 (1 / 5) 2 1 (1 / 2) rP rF k (2 * N + 1) (2 * N + 1)
        fun i j => weightedSum (pairMean i j) (2 * N + 1) (2 * N + 2) (fun _ _ => true) fun a b =>
          gaussImage (2 * N + 1) (2 * N + 2) (fun i j => ∫ p in pixelSquare i j, sersic (bn n) 1 1 n (ellRadius p.1 p.2 N N 0 0 / s))
            (fun _ _ => 100) a b ω} ≤ ENNReal.ofReal (1 / 100) := by
  obtain ⟨n0, hm⟩ := C162_processed (sersic_galaxy (amplitude := 1) (rEff := 1) one_pos hn one_pos)
    (ellip := 0) (eps := 2) le_rfl one_pos zero_le_one zero_le_one two_pos one_ne_zero hrP hrF htP htF (T := 3 * rP) (by linarith) (by linarith)
    (by linarith) (show 0 < rP / 100 by positivity)
  obtain ⟨s0, hs0, K, hK, hm⟩ := hm n0 le_rfl
  set s := max s0 (max 1 (1000000 * K)) with hs
  have hs1 : 1 ≤ s := (le_max_left _ _).trans (le_max_right _ _)
  have hs2 : 1000000 * K ≤ s := (le_max_right _ _).trans (le_max_right _ _)
  have hsp : 0 < s := by linarith
  obtain ⟨N, hN⟩ := exists_nat_gt (s * (3 * rP))
  have ha : 0 < s * (3 * rP) := by positivity
  have hx : Ellipse.xExtent ⟨(N : ℝ), (N : ℝ), s * (3 * rP), s * (3 * rP) * (1 - 0), 0⟩ ≤ s * (3 * rP) := by
    simp [Ellipse.xExtent, Real.sqrt_sq ha.le]
  have hy : Ellipse.yExtent ⟨(N : ℝ), (N : ℝ), s * (3 * rP), s * (3 * rP) * (1 - 0), 0⟩ ≤ s * (3 * rP) := by
    simp [Ellipse.yExtent, Real.sqrt_sq ha.le]
  have hfr : OnFrame (⟨(N : ℝ), (N : ℝ), s * (3 * rP), s * (3 * rP) * (1 - 0), 0⟩ : Ellipse ℝ).set (2 * N + 1) (2 * N + 1) := by
    apply onFrame_of_box _ ha (by simpa using ha)
    · exact le_trans (by linarith) (sub_le_sub_left hx (N : ℝ))
    · refine (add_le_add_right hx (N : ℝ)).trans ?_
      push_cast; linarith
    · exact le_trans (by linarith) (sub_le_sub_left hy (N : ℝ))
    · refine (add_le_add_right hy (N : ℝ)).trans ?_
      push_cast; linarith
  refine ⟨n0, N, s, hsp, (hm s (le_max_left _ _) _ _ N N 0 hfr _ _ (2 * N + 1) (2 * N + 2) _ _ _ 10000 (gaussian_noise _ _ _ _) (by norm_num)
    (fun _ _ _ _ => by norm_num) (C161_light _ s N N 0 0 _ _) pairMean 1 ?_ ?_ ?_ zero_le_one ?_).trans (ENNReal.ofReal_le_ofReal ?_)⟩
  · intro i j a b
    unfold pairMean
    split_ifs <;> norm_num
  · intro i j hi hj
    rw [weightedSum_product]
    simp only [if_true, mul_one, pairMean, Prod.mk.eta]
    rw [Finset.sum_add_distrib, Finset.sum_ite_eq, Finset.sum_ite_eq, if_pos (by simp; omega), if_pos (by simp; omega)]
    norm_num
  · intro a b ha hb
    rw [weightedSum_product]
    simp only [if_true, mul_one, pairMean, Prod.mk.eta]
    rw [Finset.sum_add_distrib, Finset.sum_ite_eq']
    have e : ∀ p ∈ Finset.range (2 * N + 1) ×ˢ Finset.range (2 * N + 1), (if (p.1, p.2 + 1) = (a, b) then (1 / 2 : ℝ) else 0) ≤
        if p = (a, b - 1) then 1 / 2 else 0 := by
      intro p _
      split_ifs with h1 h2 h2
      · exact le_rfl
      · refine absurd ?_ h2
        rw [Prod.mk.injEq] at h1
        exact Prod.ext h1.1 (by simp; omega)
      · norm_num
      · exact le_rfl
    have h3 := Finset.sum_le_sum e
    rw [Finset.sum_ite_eq'] at h3
    have h4 : (if (a, b - 1) ∈ Finset.range (2 * N + 1) ×ˢ Finset.range (2 * N + 1) then (1 / 2 : ℝ) else 0) ≤ 1 / 2 := by split_ifs <;> norm_num
    have h5 : (if (a, b) ∈ Finset.range (2 * N + 1) ×ˢ Finset.range (2 * N + 1) then (1 / 2 : ℝ) else 0) ≤ 1 / 2 := by split_ifs <;> norm_num
    linarith
  · intro i j a b hne
    have hab : (i, j) = (a, b) ∨ (i, j + 1) = (a, b) := by
      by_contra hcon
      push Not at hcon
      exact hne (by rw [pairMean, if_neg hcon.1, if_neg hcon.2, add_zero])
    rcases hab with h1 | h1 <;> (cases h1; simp [distTo])
  · rw [div_le_iff₀ (by positivity)]
    nlinarith

end Verif.Props

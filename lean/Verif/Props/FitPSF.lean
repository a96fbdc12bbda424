import Verif.Props.FitResolution
import Verif.Props.PSFBlur

/-!
# C167: fits with a PSF and oversampling
-/

set_option linter.unusedSectionVars false
set_option linter.unusedVariables false

namespace Verif.Spec

open Verif

/-- The coordinates a fitter evaluates the model at. -/
def dataCoords (d : FitData ℝ) : List (ℝ × ℝ) := List.zipWith (fun (x y : Nat) => ((x : ℝ), (y : ℝ))) d.x d.y

/-- What a least-squares fitter of astropy minimises, from the list of the values of the model. -/
noncomputable def valuesChi2 (vals : List ℝ) (d : FitData ℝ) : ℝ :=
  ((List.range d.z.length).map fun k => if d.zMask.getD k true then 0 else
    ((match d.w with | none => 1 | some w => numberOf (w.getD k .nan)) * (vals.getD k 0 - numberOf (d.z.getD k .nan))) ^ 2).sum

/-- `p` is a best fit to the data among the parameters that are allowed, for a model whose values are computed for all coordinates at once. -/
def BestValuesFit {P : Type} (ev : P → List (ℝ × ℝ) → Except PyErr (List ℝ)) (allowed : P → Prop) (d : FitData ℝ) (p : P) : Prop :=
  allowed p ∧ ∃ vals, ev p (dataCoords d) = .ok vals ∧ ∀ q vals', allowed q → ev q (dataCoords d) = .ok vals' → valuesChi2 vals d ≤ valuesChi2 vals' d

/-- What is assumed of a fitter: what it returns is a best fit. -/
def BestValuesFitter {P : Type} (ev : P → List (ℝ × ℝ) → Except PyErr (List ℝ)) (allowed : P → Prop) (fitter : P → FitData ℝ → Except PyErr P) : Prop :=
  ∀ m d p, fitter m d = .ok p → BestValuesFit ev allowed d p

/-- `p` is allowed, and no allowed parameters have a sum of squares that is smaller by more than `τ`. -/
def NearValuesFit {P : Type} (ev : P → List (ℝ × ℝ) → Except PyErr (List ℝ)) (allowed : P → Prop) (τ : ℝ) (d : FitData ℝ) (p : P) : Prop :=
  allowed p ∧ ∃ vals, ev p (dataCoords d) = .ok vals ∧ ∀ q vals', allowed q → ev q (dataCoords d) = .ok vals' → valuesChi2 vals d ≤ valuesChi2 vals' d + τ

/-- The same for a fitter that stops before the best fit: the sum of squares of what it returns exceeds the smallest one by at most `τ`. -/
def NearValuesFitter {P : Type} (ev : P → List (ℝ × ℝ) → Except PyErr (List ℝ)) (allowed : P → Prop) (τ : ℝ) (fitter : P → FitData ℝ → Except PyErr P) : Prop :=
  ∀ m d p, fitter m d = .ok p → NearValuesFit ev allowed τ d p

/-- Weights for `fit_model`: none, or an array of the shape of the image, finite and at most `b` in size where the image is fitted. -/
structure WeightsUpTo (h w : Nat) (use mask : Nat → Nat → Bool) (wt : Option (Img (F ℝ))) (b : ℝ) : Prop where
  finite : ∀ im, wt = some im → (im.h = h ∧ im.w = w) ∧ ∀ i j, i < h → j < w → use i j = true → ∃ x, im.px i j = .fin x
  le : ∀ i j, i < h → j < w → use i j = true → mask i j = false → |weightAt wt i j| ≤ b

open Classical in
/-- The used pixels with a weight of at least `a`. -/
noncomputable def heavy (use : Nat → Nat → Bool) (wt : Option (Img (F ℝ))) (a : ℝ) (i j : Nat) : Bool := use i j && decide (a ≤ |weightAt wt i j|)

/-- The coordinates of pixels `(row, column)`. -/
def pixelCoords (idx : List (Nat × Nat)) : List (ℝ × ℝ) := idx.map fun p => ((p.2 : ℝ), (p.1 : ℝ))

end Verif.Spec

namespace Verif.Props

open Verif F Spec Lemmas Filter Topology MeasureTheory PSFModel

theorem BestValuesFitter.near {P : Type} {ev : P → List (ℝ × ℝ) → Except PyErr (List ℝ)} {allowed : P → Prop} {fitter : P → FitData ℝ → Except PyErr P}
    (law : BestValuesFitter ev allowed fitter) : NearValuesFitter ev allowed 0 fitter := fun m d p hp =>
  ⟨(law m d p hp).1, (law m d p hp).2.imp fun vals h => ⟨h.1, fun q vals' hq hv => by rw [add_zero]; exact h.2 q vals' hq hv⟩⟩

theorem fitDist_young (h w : Nat) (use mask : Nat → Nat → Bool) (wt : Option (Img (F ℝ))) (f g k : Nat → Nat → ℝ) {t : ℝ} (ht : 0 < t) :
    fitDist h w use mask wt f k ≤ (1 + t) * fitDist h w use mask wt f g + (1 + 1 / t) * fitDist h w use mask wt g k := by
  unfold fitDist
  rw [Finset.mul_sum, Finset.mul_sum, ← Finset.sum_add_distrib]
  refine Finset.sum_le_sum fun p _ => ?_
  split
  · set a := weightAt wt p.1 p.2 * (f p.1 p.2 - g p.1 p.2) with ha
    set b := weightAt wt p.1 p.2 * (g p.1 p.2 - k p.1 p.2) with hb
    have e : weightAt wt p.1 p.2 * (f p.1 p.2 - k p.1 p.2) = a + b := by rw [ha, hb]; ring
    rw [e]
    have h1 : 0 ≤ (t * a - b) ^ 2 / t := by positivity
    have h2 : (t * a - b) ^ 2 / t = t * a ^ 2 - 2 * a * b + 1 / t * b ^ 2 := by field_simp; ring
    nlinarith
  · simp

open Classical in
/-- The noise in the direction of the difference of two models, with weights. -/
noncomputable def weightCross (h w : Nat) (use mask : Nat → Nat → Bool) (wt : Option (Img (F ℝ))) (f m X : Nat → Nat → ℝ) : ℝ :=
  ∑ p ∈ Finset.range h ×ˢ Finset.range w, if use p.1 p.2 = true ∧ mask p.1 p.2 = false then
    weightAt wt p.1 p.2 ^ 2 * (f p.1 p.2 - m p.1 p.2) * (X p.1 p.2 - m p.1 p.2) else 0

theorem fitDist_weightCross (h w : Nat) (use mask : Nat → Nat → Bool) (wt : Option (Img (F ℝ))) (f m X : Nat → Nat → ℝ) :
    fitDist h w use mask wt f X = fitDist h w use mask wt m X + fitDist h w use mask wt f m - 2 * weightCross h w use mask wt f m X := by
  unfold fitDist weightCross
  rw [Finset.mul_sum, ← Finset.sum_add_distrib, ← Finset.sum_sub_distrib]
  refine Finset.sum_congr rfl fun p _ => ?_
  split <;> ring

theorem weightCross_shift (h w : Nat) (use mask : Nat → Nat → Bool) (wt : Option (Img (F ℝ))) (A B m X : Nat → Nat → ℝ) :
    2 * weightCross h w use mask wt A B X ≤ 2 * weightCross h w use mask wt A B (fun i j => X i j - m i j + B i j) +
      1 / 4 * fitDist h w use mask wt A B + 4 * fitDist h w use mask wt m B := by
  unfold fitDist weightCross
  rw [Finset.mul_sum, Finset.mul_sum, Finset.mul_sum, Finset.mul_sum, ← Finset.sum_add_distrib, ← Finset.sum_add_distrib]
  refine Finset.sum_le_sum fun p _ => ?_
  split
  · nlinarith [sq_nonneg (weightAt wt p.1 p.2 * (A p.1 p.2 - B p.1 p.2) - 4 * (weightAt wt p.1 p.2 * (m p.1 p.2 - B p.1 p.2)))]
  · simp

open Classical in
/-- The squares of the weights, zero where nothing is fitted. -/
noncomputable def weightSq (use mask : Nat → Nat → Bool) (wt : Option (Img (F ℝ))) (i j : Nat) : ℝ :=
  if use i j = true ∧ mask i j = false then weightAt wt i j ^ 2 else 0

theorem weightCross_eq (h w : Nat) (use mask : Nat → Nat → Bool) (wt : Option (Img (F ℝ))) (A B m X : Nat → Nat → ℝ) :
    weightCross h w use mask wt A B (fun i j => X i j - m i j + B i j) =
      fitCross h w use mask A B fun i j => weightSq use mask wt i j * (X i j - m i j) + B i j := by
  unfold weightCross fitCross weightSq
  refine Finset.sum_congr rfl fun p _ => ?_
  by_cases hu : use p.1 p.2 = true ∧ mask p.1 p.2 = false
  · simp only [if_pos hu]
    ring
  · simp only [if_neg hu]
    ring

theorem fitDist_le_weight {h w : Nat} {use mask : Nat → Nat → Bool} {wt : Option (Img (F ℝ))} {b : ℝ} (hw : WeightsUpTo h w use mask wt b) (f g : Nat → Nat → ℝ) :
    fitDist h w use mask wt f g ≤ b ^ 2 * fitDist h w use mask none f g := by
  unfold fitDist
  rw [Finset.mul_sum]
  refine Finset.sum_le_sum fun p hp => ?_
  rw [Finset.mem_product, Finset.mem_range, Finset.mem_range] at hp
  split
  · rename_i hu
    have h1 := hw.le p.1 p.2 hp.1 hp.2 hu.1 hu.2
    rw [mul_pow, mul_pow, show weightAt none p.1 p.2 = 1 from rfl, one_pow, one_mul]
    refine mul_le_mul_of_nonneg_right ?_ (sq_nonneg _)
    rw [← sq_abs (weightAt wt p.1 p.2)]
    exact pow_le_pow_left₀ (abs_nonneg _) h1 2
  · simp

theorem fitDist_ge_weight (h w : Nat) (use mask : Nat → Nat → Bool) (wt : Option (Img (F ℝ))) {a : ℝ} (ha : 0 ≤ a) (f g : Nat → Nat → ℝ) :
    a ^ 2 * fitDist h w (heavy use wt a) mask none f g ≤ fitDist h w use mask wt f g := by
  unfold fitDist
  rw [Finset.mul_sum]
  refine Finset.sum_le_sum fun p hp => ?_
  unfold heavy
  simp only [Bool.and_eq_true, decide_eq_true_eq]
  by_cases hu : use p.1 p.2 = true ∧ mask p.1 p.2 = false
  · rw [if_pos hu]
    split
    · rename_i hh
      rw [mul_pow, mul_pow, show weightAt none p.1 p.2 = 1 from rfl, one_pow, one_mul]
      refine mul_le_mul_of_nonneg_right ?_ (sq_nonneg _)
      rw [← sq_abs (weightAt wt p.1 p.2)]
      exact pow_le_pow_left₀ ha hh.1.2 2
    · rw [mul_zero]
      positivity
  · rw [if_neg hu, if_neg fun hh => hu ⟨hh.1.1, hh.2⟩, mul_zero]

theorem heavy_none (use : Nat → Nat → Bool) : heavy use none 1 = use := by
  funext i j
  simp [heavy, weightAt]

theorem weights_none (h w : Nat) (use mask : Nat → Nat → Bool) : WeightsUpTo h w use mask none 1 :=
  ⟨fun im him => by simp at him, fun i j _ _ _ _ => by simp [weightAt]⟩

theorem scaled_noise {Ω : Type} [MeasurableSpace Ω] {μ : Measure Ω} [IsProbabilityMeasure μ] {h w : Nat} {X : Nat → Nat → Ω → ℝ} {m : Nat → Nat → ℝ}
    {v : ℝ} (hX : CorrelatedNoise μ h w X m v) (B : Nat → Nat → ℝ) {c : Nat → Nat → ℝ} {k : ℝ} (hk : 0 ≤ k) (hc : ∀ i j, i < h → j < w → |c i j| ≤ k) :
    CorrelatedNoise μ h w (fun i j ω => c i j * (X i j ω - m i j) + B i j) B (k ^ 2 * v) := by
  have e : ∀ i j, (fun ω => c i j * (X i j ω - m i j) + B i j) = fun ω => c i j * X i j ω + (B i j - c i j * m i j) := fun i j => by funext ω; ring
  refine ⟨fun i j hi hj => ?_, fun i j hi hj => ?_, fun i j hi hj => ?_⟩
  · rw [e]
    exact ((hX.memLp i j hi hj).const_mul _).add (memLp_const _)
  · simp only [e]
    rw [integral_add (((hX.memLp i j hi hj).integrable one_le_two).const_mul _) (integrable_const _), integral_const_mul, hX.mean i j hi hj, integral_const]
    simp
  · refine le_trans (Finset.sum_le_sum fun p hp => ?_) (show ∑ p ∈ Finset.range h ×ˢ Finset.range w, k ^ 2 * |ProbabilityTheory.covariance (X i j) (X p.1 p.2) μ| ≤ _ by
      rw [← Finset.mul_sum]
      exact mul_le_mul_of_nonneg_left (hX.cov i j hi hj) (sq_nonneg _))
    rw [Finset.mem_product, Finset.mem_range, Finset.mem_range] at hp
    simp only [e]
    rw [ProbabilityTheory.covariance_add_const_left (((hX.memLp i j hi hj).integrable one_le_two).const_mul _),
      ProbabilityTheory.covariance_add_const_right (((hX.memLp p.1 p.2 hp.1 hp.2).integrable one_le_two).const_mul _),
      ProbabilityTheory.covariance_const_mul_left, ProbabilityTheory.covariance_const_mul_right, abs_mul, abs_mul, ← mul_assoc, pow_two]
    exact mul_le_mul_of_nonneg_right (mul_le_mul (hc i j hi hj) (hc p.1 p.2 hp.1 hp.2) (abs_nonneg _) hk) (abs_nonneg _)

variable {E : Type} [TopologicalSpace E] {S : Set E} {g : E → ℝ → ℝ → ℝ} {W H : Nat} {θ : E} {use mask : ℕ → Nat → Nat → Bool}
  {Ω : ℕ → Type} [∀ N, MeasurableSpace (Ω N)] {μ : ∀ N, Measure (Ω N)} [∀ N, IsProbabilityMeasure (μ N)] {X : ∀ N, Nat → Nat → Ω N → ℝ} {v : ℝ}
  {P : Type} {fam : ℕ → P → Nat → Nat → ℝ} {allowed : ℕ → P → Prop} {dec : ℕ → P → E} {truth : ℕ → P} {m : ℕ → Nat → Nat → ℝ}
  {τ : ℕ → ℝ} {wt : ℕ → Option (Img (F ℝ))} {a b : ℝ}

/-- Models and data that only approximate the scene, in the mean square over the fitted pixels, with fits that are only almost best, and with weights: if all these
deviations are small enough, the fit is near the truth with as large a probability as wanted. -/
theorem approximate_robust (ha : 0 < a) (hb : 0 ≤ b) (hwt : ∀ N, WeightsUpTo (H * N) (W * N) (use N) (mask N) (wt N) b) (hS : IsCompact S)
    (hg : ContinuousOn (fun z : E × ℝ × ℝ => g z.1 z.2.1 z.2.2) (S ×ˢ (Set.Icc (0 : ℝ) W ×ˢ Set.Icc (0 : ℝ) H))) (hθ : θ ∈ S) {U : Set E}
    (hU : IsOpen U) (hne : ∀ x ∈ S, x ∉ U → ∃ u v : ℝ, (0 ≤ u ∧ u < W) ∧ (0 ≤ v ∧ v < H) ∧ g x u v ≠ g θ u v) (hv : 0 ≤ v)
    (hun : Tendsto (fun N : ℕ => (unfitted (H * N) (W * N) (heavy (use N) (wt N) a) (mask N) : ℝ) / (N : ℝ) ^ 2) atTop (𝓝 0)) {ρ : ENNReal} (hρ : 0 < ρ) :
    ∃ σ : ℝ, 0 < σ ∧ ∀ (Ω : ℕ → Type) [∀ N, MeasurableSpace (Ω N)] (μ : ∀ N, Measure (Ω N)) [∀ N, IsProbabilityMeasure (μ N)] (X : ∀ N, Nat → Nat → Ω N → ℝ)
      (m : ℕ → Nat → Nat → ℝ) (P : Type) (fam : ℕ → P → Nat → Nat → ℝ) (allowed : ℕ → P → Prop) (dec : ℕ → P → E) (truth : ℕ → P) (τ : ℕ → ℝ),
      (∀ N q, 0 < N → allowed N q → dec N q ∈ S) →
      (∀ᶠ N : ℕ in atTop, ∀ q, allowed N q → fitDist (H * N) (W * N) (use N) (mask N) none (fam N q) (pixelsOf (zoomed N (g (dec N q)))) ≤ σ * (N : ℝ) ^ 2) →
      (∀ N, 0 < N → allowed N (truth N) ∧ dec N (truth N) = θ) → (∀ N, CorrelatedNoise (μ N) (H * N) (W * N) (X N) (m N) v) →
      (∀ᶠ N : ℕ in atTop, fitDist (H * N) (W * N) (use N) (mask N) none (m N) (pixelsOf (zoomed N (g θ))) ≤ σ * (N : ℝ) ^ 2) →
      (∀ᶠ N : ℕ in atTop, τ N ≤ σ * (N : ℝ) ^ 2) →
      ∀ᶠ N : ℕ in atTop, μ N {ω | ∃ fit, allowed N fit ∧ fitDist (H * N) (W * N) (use N) (mask N) (wt N) (fam N fit) (fun i j => X N i j ω) ≤
        fitDist (H * N) (W * N) (use N) (mask N) (wt N) (fam N (truth N)) (fun i j => X N i j ω) + τ N ∧ dec N fit ∉ U} ≤ ρ := by
  obtain ⟨κ₀, hκ₀, hsep⟩ := scene_separated (use := fun N => heavy (use N) (wt N) a) (mask := mask) hg hθ (hS.diff hU) Set.sdiff_subset (fun x hx => hne x hx.1 hx.2) hun
  set κ := a ^ 2 * κ₀ with hκd
  have hκ : 0 < κ := by positivity
  have hc : ∀ N i j, i < H * N → j < W * N → |weightSq (use N) (mask N) (wt N) i j| ≤ b ^ 2 := by
    intro N i j hi hj
    unfold weightSq
    split
    · rename_i hu
      rw [abs_pow]
      exact pow_le_pow_left₀ (abs_nonneg _) ((hwt N).le i j hi hj hu.1 hu.2) 2
    · rw [abs_zero]
      positivity
  obtain ⟨M, hM, hMρ⟩ : ∃ M : ℝ, 0 < M ∧ ENNReal.ofReal (H * W * v / M) ≤ ρ / 2 := by
    have h1 : Tendsto (fun M : ℝ => ENNReal.ofReal (H * W * v / M)) atTop (𝓝 0) := by
      rw [← ENNReal.ofReal_zero]
      exact ENNReal.tendsto_ofReal (tendsto_const_nhds.div_atTop tendsto_id)
    obtain ⟨M, hM1, hM2⟩ := ((eventually_gt_atTop 0).and ((ENNReal.tendsto_nhds_zero.1 h1) (ρ / 2) (ENNReal.half_pos hρ.ne'))).exists
    exact ⟨M, hM1, hM2⟩
  obtain ⟨t, ht, htκ⟩ : ∃ t : ℝ, 0 < t ∧ (2 * t + t ^ 2) * (2 * (b ^ 2 * M)) < κ / 8 := by
    have h1 : Tendsto (fun t : ℝ => (2 * t + t ^ 2) * (2 * (b ^ 2 * M))) (𝓝[>] 0) (𝓝 ((2 * 0 + 0 ^ 2) * (2 * (b ^ 2 * M)))) :=
      tendsto_nhdsWithin_of_tendsto_nhds (Continuous.tendsto (by fun_prop) 0)
    rw [show (2 * 0 + 0 ^ 2) * (2 * (b ^ 2 * M)) = (0 : ℝ) by ring] at h1
    obtain ⟨t, h2, h3⟩ := ((h1.eventually_lt_const (show (0 : ℝ) < κ / 8 by positivity)).and self_mem_nhdsWithin).exists
    exact ⟨t, h3, h2⟩
  obtain ⟨σ, hσ, h3⟩ : ∃ σ : ℝ, 0 < σ ∧ 4 * σ + (2 * t + t ^ 2) * (2 * σ) + ((2 + t) * (1 + 1 / t) + (1 + t)) * σ < κ / 8 := by
    have h1 : Tendsto (fun σ : ℝ => 4 * σ + (2 * t + t ^ 2) * (2 * σ) + ((2 + t) * (1 + 1 / t) + (1 + t)) * σ) (𝓝[>] 0)
        (𝓝 (4 * 0 + (2 * t + t ^ 2) * (2 * 0) + ((2 + t) * (1 + 1 / t) + (1 + t)) * 0)) :=
      tendsto_nhdsWithin_of_tendsto_nhds (Continuous.tendsto (by fun_prop) 0)
    rw [show 4 * 0 + (2 * t + t ^ 2) * (2 * 0) + ((2 + t) * (1 + 1 / t) + (1 + t)) * 0 = (0 : ℝ) by ring] at h1
    obtain ⟨σ, h2, h3⟩ := ((h1.eventually_lt_const (show (0 : ℝ) < κ / 8 by positivity)).and self_mem_nhdsWithin).exists
    exact ⟨σ, h3, h2⟩
  have hσ' : 0 < σ / (b ^ 2 + 1) := by positivity
  have hbσ : b ^ 2 * (σ / (b ^ 2 + 1)) ≤ σ := by
    rw [mul_div_assoc', div_le_iff₀ (by positivity)]
    nlinarith
  have hσle : σ / (b ^ 2 + 1) ≤ σ := div_le_self hσ.le (by nlinarith [sq_nonneg b])
  refine ⟨σ / (b ^ 2 + 1), hσ', ?_⟩
  intro Ω _ μ _ X m P fam allowed dec truth τ hdec hfam htr hX hm hτ
  have hX' : ∀ N, CorrelatedNoise (μ N) (H * N) (W * N) (fun i j ω => weightSq (use N) (mask N) (wt N) i j * (X N i j ω - m N i j) + pixelsOf (zoomed N (g θ)) i j)
      (pixelsOf (zoomed N (g θ))) ((b ^ 2) ^ 2 * v) := fun N => scaled_noise (hX N) _ (sq_nonneg b) (hc N)
  have huni := fitCross_uniform (use := use) (mask := mask) hS hg hθ hX' (by positivity) (show 0 < (b ^ 2) ^ 2 * M + 1 by positivity) (show 0 < κ / 8 by positivity)
  filter_upwards [hsep, (ENNReal.tendsto_nhds_zero.1 huni) (ρ / 2) (ENNReal.half_pos hρ.ne'), eventually_gt_atTop 0, hfam, hm, hτ] with N h1 h2 hN hfam' hm' hτ'
  have hN' : (0 : ℝ) < N := Nat.cast_pos.2 hN
  have hτN : τ N ≤ σ * (N : ℝ) ^ 2 := hτ'.trans (mul_le_mul_of_nonneg_right hσle (sq_nonneg _))
  have hlift : ∀ f k, fitDist (H * N) (W * N) (use N) (mask N) none f k ≤ σ / (b ^ 2 + 1) * (N : ℝ) ^ 2 →
      fitDist (H * N) (W * N) (use N) (mask N) (wt N) f k ≤ σ * (N : ℝ) ^ 2 := by
    intro f k hfk
    refine (fitDist_le_weight (hwt N) f k).trans ((mul_le_mul_of_nonneg_left hfk (sq_nonneg b)).trans ?_)
    rw [← mul_assoc]
    exact mul_le_mul_of_nonneg_right hbσ (sq_nonneg _)
  have h4 := noise_extreme (hX N) (c := M * (N : ℝ) ^ 2) (by positivity)
  have h5 : ((H * N * (W * N) : Nat) : ℝ) * v / (M * (N : ℝ) ^ 2) = H * W * v / M := by
    push_cast
    field_simp
  rw [h5] at h4
  refine le_trans (measure_mono ?_) ((measure_union_le _ _).trans ((add_le_add h2 (h4.trans hMρ)).trans (ENNReal.add_halves ρ).le))
  rintro ω ⟨fit, hfit, hbest, hnot⟩
  set B := pixelsOf (zoomed N (g θ)) with hB
  set A := pixelsOf (zoomed N (g (dec N fit))) with hA
  by_cases hbig : M * (N : ℝ) ^ 2 ≤ ∑ p ∈ Finset.range (H * N) ×ˢ Finset.range (W * N), (X N p.1 p.2 ω - m N p.1 p.2) ^ 2
  · exact Or.inr hbig
  · have hsmall := (not_le.1 hbig).le
    refine Or.inl ⟨?_, dec N fit, ?_⟩
    · have e : ∑ p ∈ Finset.range (H * N) ×ˢ Finset.range (W * N), (weightSq (use N) (mask N) (wt N) p.1 p.2 * (X N p.1 p.2 ω - m N p.1 p.2) + B p.1 p.2 - B p.1 p.2) ^ 2 ≤
          (b ^ 2) ^ 2 * ∑ p ∈ Finset.range (H * N) ×ˢ Finset.range (W * N), (X N p.1 p.2 ω - m N p.1 p.2) ^ 2 := by
        rw [Finset.mul_sum]
        refine Finset.sum_le_sum fun p hp => ?_
        rw [Finset.mem_product, Finset.mem_range, Finset.mem_range] at hp
        rw [add_sub_cancel_right, mul_pow]
        refine mul_le_mul_of_nonneg_right ?_ (sq_nonneg _)
        rw [← sq_abs (weightSq _ _ _ _ _)]
        exact pow_le_pow_left₀ (abs_nonneg _) (hc N p.1 p.2 hp.1 hp.2) 2
      refine e.trans ((mul_le_mul_of_nonneg_left hsmall (by positivity)).trans ?_)
      nlinarith [sq_nonneg (N : ℝ)]
    have hin := hdec N fit hN hfit
    have hfam := hlift _ _ (hfam' fit hfit)
    have hfamt := hfam' _ (htr N hN).1
    rw [(htr N hN).2, ← hB] at hfamt
    replace hfamt := hlift _ _ hfamt
    rw [← hA] at hfam
    have hmN := hlift _ _ hm'
    refine ⟨hin, ?_⟩
    have h6 : κ * (N : ℝ) ^ 2 ≤ fitDist (H * N) (W * N) (use N) (mask N) (wt N) A B := by
      have h7 := mul_le_mul_of_nonneg_left (h1 (dec N fit) ⟨hin, hnot⟩) (sq_nonneg a)
      rw [← mul_assoc] at h7
      exact h7.trans (fitDist_ge_weight _ _ _ _ _ ha.le _ _)
    set x : Nat → Nat → ℝ := fun i j => X N i j ω with hx
    set D := fitDist (H * N) (W * N) (use N) (mask N) (wt N) with hD
    have hcomm : ∀ f k, D f k = D k f := fun f k => fitDist_comm _ _ _ _ _ f k
    have c1 : D A x = D B x + D A B - 2 * weightCross (H * N) (W * N) (use N) (mask N) (wt N) A B x := fitDist_weightCross _ _ _ _ _ A B x
    have c2 := weightCross_shift (H * N) (W * N) (use N) (mask N) (wt N) A B (m N) x
    rw [weightCross_eq] at c2
    have c3 : D A x ≤ (1 + 1 / t) * D A (fam N fit) + (1 + t) * D (fam N fit) x := by
      have d := fitDist_young (H * N) (W * N) (use N) (mask N) (wt N) x (fam N fit) A ht
      rw [← hD, hcomm x A, hcomm x (fam N fit), hcomm (fam N fit) A] at d
      linarith
    have c4 : D (fam N (truth N)) x ≤ (1 + 1 / t) * D (fam N (truth N)) B + (1 + t) * D B x := by
      have d := fitDist_young (H * N) (W * N) (use N) (mask N) (wt N) x B (fam N (truth N)) ht
      rw [← hD, hcomm x (fam N (truth N)), hcomm x B, hcomm B (fam N (truth N))] at d
      linarith
    have c5 : D B x ≤ 2 * (b ^ 2 * M * (N : ℝ) ^ 2) + 2 * D (m N) B := by
      have d1 := fitDist_triangle (H * N) (W * N) (use N) (mask N) (wt N) B (m N) x
      have d2 : D (m N) x ≤ b ^ 2 * M * (N : ℝ) ^ 2 := by
        refine (fitDist_le_weight (hwt N) _ _).trans ?_
        rw [mul_assoc]
        refine mul_le_mul_of_nonneg_left (le_trans ?_ hsmall) (sq_nonneg b)
        unfold fitDist
        refine Finset.sum_le_sum fun p _ => ?_
        simp only [weightAt, one_mul, hx]
        split
        · exact le_of_eq (by ring)
        · positivity
      rw [← hD, hcomm B (m N)] at d1
      linarith
    have c6 : D A (fam N fit) ≤ σ * (N : ℝ) ^ 2 := by
      rw [hcomm]
      exact hfam
    have hDB : 0 ≤ D B x := fitDist_nonneg _ _ _ _ _ _ _
    have t1 : 0 < 1 / t := by positivity
    have e1 : D A x - D B x ≤ (2 * t + t ^ 2) * D B x + ((2 + t) * (1 + 1 / t) + (1 + t)) * (σ * (N : ℝ) ^ 2) := by
      have f1 : (1 + 1 / t) * D A (fam N fit) ≤ (1 + 1 / t) * (σ * (N : ℝ) ^ 2) := mul_le_mul_of_nonneg_left c6 (by positivity)
      have f2 : (1 + t) * D (fam N fit) x ≤ (1 + t) * ((1 + 1 / t) * (σ * (N : ℝ) ^ 2) + (1 + t) * D B x + σ * (N : ℝ) ^ 2) := by
        refine mul_le_mul_of_nonneg_left (hbest.trans ?_) (by positivity)
        have : (1 + 1 / t) * D (fam N (truth N)) B ≤ (1 + 1 / t) * (σ * (N : ℝ) ^ 2) := mul_le_mul_of_nonneg_left hfamt (by positivity)
        linarith
      have f3 : (1 + t) * ((1 + 1 / t) * (σ * (N : ℝ) ^ 2) + (1 + t) * D B x + σ * (N : ℝ) ^ 2) + (1 + 1 / t) * (σ * (N : ℝ) ^ 2) - D B x =
          (2 * t + t ^ 2) * D B x + ((2 + t) * (1 + 1 / t) + (1 + t)) * (σ * (N : ℝ) ^ 2) := by ring
      linarith
    have e2 : (2 * t + t ^ 2) * D B x ≤ (2 * t + t ^ 2) * (2 * (b ^ 2 * M * (N : ℝ) ^ 2) + 2 * (σ * (N : ℝ) ^ 2)) :=
      mul_le_mul_of_nonneg_left (by linarith) (by positivity)
    have e3 : (4 * σ + (2 * t + t ^ 2) * (2 * σ) + ((2 + t) * (1 + 1 / t) + (1 + t)) * σ + (2 * t + t ^ 2) * (2 * (b ^ 2 * M))) * (N : ℝ) ^ 2 ≤ κ / 4 * (N : ℝ) ^ 2 :=
      mul_le_mul_of_nonneg_right (by linarith) (sq_nonneg _)
    have e4 : D A B ≤ 2 * fitCross (H * N) (W * N) (use N) (mask N) A B (fun i j => weightSq (use N) (mask N) (wt N) i j * (x i j - m N i j) + B i j) + 1 / 4 * D A B + 4 * (σ * (N : ℝ) ^ 2) +
        ((2 * t + t ^ 2) * (2 * (b ^ 2 * M * (N : ℝ) ^ 2) + 2 * (σ * (N : ℝ) ^ 2)) + ((2 + t) * (1 + 1 / t) + (1 + t)) * (σ * (N : ℝ) ^ 2)) := by linarith
    have e5 : κ / 8 * (N : ℝ) ^ 2 ≤ fitCross (H * N) (W * N) (use N) (mask N) A B (fun i j => weightSq (use N) (mask N) (wt N) i j * (x i j - m N i j) + B i j) := by
      have e6 : 0 ≤ κ * (N : ℝ) ^ 2 := by positivity
      clear_value D
      linear_combination (1 / 2) * e4 + (3 / 8) * h6 + (1 / 2) * e3 + (1 / 8) * e6
    exact e5

/-- If the deviations vanish in the limit, the fit converges in probability. -/
theorem approximate_family (ha : 0 < a) (hb : 0 ≤ b) (hwt : ∀ N, WeightsUpTo (H * N) (W * N) (use N) (mask N) (wt N) b) (hS : IsCompact S)
    (hg : ContinuousOn (fun z : E × ℝ × ℝ => g z.1 z.2.1 z.2.2) (S ×ˢ (Set.Icc (0 : ℝ) W ×ˢ Set.Icc (0 : ℝ) H))) (hθ : θ ∈ S) {U : Set E}
    (hU : IsOpen U) (hne : ∀ x ∈ S, x ∉ U → ∃ u v : ℝ, (0 ≤ u ∧ u < W) ∧ (0 ≤ v ∧ v < H) ∧ g x u v ≠ g θ u v)
    (hdec : ∀ N q, 0 < N → allowed N q → dec N q ∈ S)
    (hfam : ∀ σ > 0, ∀ᶠ N : ℕ in atTop, ∀ q, allowed N q →
      fitDist (H * N) (W * N) (use N) (mask N) none (fam N q) (pixelsOf (zoomed N (g (dec N q)))) ≤ σ * (N : ℝ) ^ 2)
    (htr : ∀ N, 0 < N → allowed N (truth N) ∧ dec N (truth N) = θ) (hX : ∀ N, CorrelatedNoise (μ N) (H * N) (W * N) (X N) (m N) v) (hv : 0 ≤ v)
    (hm : ∀ σ > 0, ∀ᶠ N : ℕ in atTop, fitDist (H * N) (W * N) (use N) (mask N) none (m N) (pixelsOf (zoomed N (g θ))) ≤ σ * (N : ℝ) ^ 2)
    (hun : Tendsto (fun N : ℕ => (unfitted (H * N) (W * N) (heavy (use N) (wt N) a) (mask N) : ℝ) / (N : ℝ) ^ 2) atTop (𝓝 0))
    (hτ : Tendsto (fun N : ℕ => τ N / (N : ℝ) ^ 2) atTop (𝓝 0)) :
    Tendsto (fun N : ℕ => μ N {ω | ∃ fit, allowed N fit ∧ fitDist (H * N) (W * N) (use N) (mask N) (wt N) (fam N fit) (fun i j => X N i j ω) ≤
      fitDist (H * N) (W * N) (use N) (mask N) (wt N) (fam N (truth N)) (fun i j => X N i j ω) + τ N ∧ dec N fit ∉ U}) atTop (𝓝 0) := by
  rw [ENNReal.tendsto_nhds_zero]
  intro ρ hρ
  obtain ⟨σ, hσ, h⟩ := approximate_robust ha hb hwt hS hg hθ hU hne hv hun hρ
  refine h Ω μ X m P fam allowed dec truth τ hdec (hfam σ hσ) htr hX (hm σ hσ) ?_
  filter_upwards [hτ.eventually_lt_const hσ, eventually_gt_atTop 0] with N h1 hN
  have hN' : (0 : ℝ) < N := Nat.cast_pos.2 hN
  rw [div_lt_iff₀ (by positivity)] at h1
  exact h1.le

/-! ### The values of a model with a PSF -/

/-- Settings of a `PSFConvolvedModel2D` as its constructor leaves them, without a window; its PSF, rotated by any of the angles in `pas`, is
not negative, has the total one and at most `R` pixels along each axis. -/
structure PSFSetting (R : Nat) (M : PSFModel ℝ) (rot : Img ℝ → ℝ → Img ℝ) (pas : Set ℝ) : Prop where
  cache : CacheOk M
  compatible : Compatible M
  noWindow : ∀ x y s f, M.oversample ≠ .window x y s f
  kernel : ∀ psf, M.psf = some psf → ∀ pa ∈ pas, Kernel R (if pa ≠ 0 then rot psf pa else psf)

theorem indexOf_pixel (a b : Nat) : indexOf ((a : Nat) : ℝ) ((b : Nat) : ℝ) = a - b := by
  unfold indexOf
  have : (a : ℝ) - b = ((a - b : Int) : ℝ) := by push_cast; rfl
  rw [this, Int.floor_intCast]
  omega

theorem cast_min {l : List Nat} {x : ℝ} (h : (l.map fun a : Nat => (a : ℝ)).min? = some x) : ∃ a ∈ l, x = a ∧ ∀ b ∈ l, a ≤ b := by
  obtain ⟨h1, h2⟩ := List.min?_eq_some_iff.1 h
  obtain ⟨a, ha, rfl⟩ := List.mem_map.1 h1
  exact ⟨a, ha, rfl, fun b hb => by exact_mod_cast h2 b (List.mem_map_of_mem hb)⟩

theorem cast_max {l : List Nat} {x : ℝ} (h : (l.map fun a : Nat => (a : ℝ)).max? = some x) : ∃ a ∈ l, x = a ∧ ∀ b ∈ l, b ≤ a := by
  obtain ⟨h1, h2⟩ := List.max?_eq_some_iff.1 h
  obtain ⟨a, ha, rfl⟩ := List.mem_map.1 h1
  exact ⟨a, ha, rfl, fun b hb => by exact_mod_cast h2 b (List.mem_map_of_mem hb)⟩

variable {R : Nat} {M : PSFModel ℝ} {rot : Img ℝ → ℝ → Img ℝ} {pas : Set ℝ} {idx : List (Nat × Nat)} {h w : Nat} {pa : ℝ}

/-- The values at the pixels of the list lie between those of `f` at most `R + 2` pixels away, but for `R` pixels at the borders of some
square; there they are bounded as `f` is. -/
def PixelBlur (R : Nat) (ev : List (ℝ × ℝ) → Except PyErr (List ℝ)) (f : ℝ → ℝ → ℝ) (idx : List (Nat × Nat)) (h w : Nat) : Prop :=
  ∃ (V : Nat → Nat → ℝ) (x0 y0 n : Nat), ev (pixelCoords idx) = .ok (idx.map fun p => V p.1 p.2) ∧
    (∀ p ∈ idx, (y0 ≤ p.1 ∧ p.1 < y0 + n) ∧ x0 ≤ p.2 ∧ p.2 < x0 + n) ∧
    (∀ p ∈ idx, y0 + R ≤ p.1 → p.1 + R < y0 + n → x0 + R ≤ p.2 → p.2 + R < x0 + n → ∀ c ε : ℝ,
      (∀ x y : ℝ, |x - p.2| ≤ R + 2 → |y - p.1| ≤ R + 2 → |f x y - c| ≤ ε) → |V p.1 p.2 - c| ≤ ε) ∧
    (∀ p ∈ idx, ∀ G : ℝ, 0 ≤ G → (∀ x y : ℝ, -1 ≤ x → x ≤ 2 * (h + w) → -1 ≤ y → y ≤ 2 * (h + w) → |f x y| ≤ G) → |V p.1 p.2| ≤ G)

theorem psf_values (hs : PSFSetting R M rot pas) (hne : idx ≠ []) (hin : ∀ p ∈ idx, p.1 < h ∧ p.2 < w) (params : List ℝ) (hpa : pa ∈ pas) :
    PixelBlur R (fun c => (M.evaluate rot c params pa).1) (M.sub.eval params) idx h w := by
  have e1 : (pixelCoords idx).map (·.1) = (idx.map (·.2)).map fun a : Nat => (a : ℝ) := by simp [pixelCoords]
  have e2 : (pixelCoords idx).map (·.2) = (idx.map (·.1)).map fun a : Nat => (a : ℝ) := by simp [pixelCoords]
  have hne1 : (idx.map (·.2)).map (fun a : Nat => (a : ℝ)) ≠ [] := by simpa using hne
  have hne2 : (idx.map (·.1)).map (fun a : Nat => (a : ℝ)) ≠ [] := by simpa using hne
  obtain ⟨x0, gx⟩ := min?_some hne1
  obtain ⟨y0, gy⟩ := min?_some hne2
  obtain ⟨xm, gxm⟩ := max?_some hne1
  obtain ⟨ym, gym⟩ := max?_some hne2
  obtain ⟨x0, hx0, rfl, hx0'⟩ := cast_min gx
  obtain ⟨y0, hy0, rfl, hy0'⟩ := cast_min gy
  obtain ⟨xm, hxm, rfl, hxm'⟩ := cast_max gxm
  obtain ⟨ym, hym, rfl, hym'⟩ := cast_max gym
  have hx0w : x0 < w := by
    obtain ⟨p, hp, rfl⟩ := List.mem_map.1 hx0
    exact (hin p hp).2
  have hy0h : y0 < h := by
    obtain ⟨p, hp, rfl⟩ := List.mem_map.1 hy0
    exact (hin p hp).1
  have hxmw : xm < w := by
    obtain ⟨p, hp, rfl⟩ := List.mem_map.1 hxm
    exact (hin p hp).2
  have hymh : ym < h := by
    obtain ⟨p, hp, rfl⟩ := List.mem_map.1 hym
    exact (hin p hp).1
  have hle : ∀ p ∈ idx, (y0 ≤ p.1 ∧ p.1 ≤ ym) ∧ x0 ≤ p.2 ∧ p.2 ≤ xm := fun p hp =>
    ⟨⟨hy0' _ (List.mem_map_of_mem hp), hym' _ (List.mem_map_of_mem hp)⟩, hx0' _ (List.mem_map_of_mem hp), hxm' _ (List.mem_map_of_mem hp)⟩
  rw [← e1] at gx gxm
  rw [← e2] at gy gym
  obtain ⟨hf, hp0, q, hq⟩ := hs.compatible
  cases hpsf : M.psf with
  | none =>
    refine ⟨fun i j => pixelMean (M.sub.eval params) j i M.oversampleFactor, 0, 0, h + w, ?_, ?_, ?_, ?_⟩
    · show (M.evaluate rot (pixelCoords idx) params pa).1 = _
      rw [(C77_whole_partial M hs.cache hs.compatible hpsf hs.noWindow rot _ _ _ gx gy ?_ params pa).1]
      · simp [pixelCoords]
      · intro c hc
        obtain ⟨p, hp, rfl⟩ := List.mem_map.1 hc
        exact ⟨(p.2 : Int) - x0, (p.1 : Int) - y0, by simp⟩
    · intro p hp
      have := hin p hp
      omega
    · intro p hp _ _ _ _ c ε hc
      refine pixelMean_near hf fun x y hx hy => hc x y (hx.trans ?_) (hy.trans ?_) <;> linarith [show (0 : ℝ) ≤ R by positivity]
    · intro p hp G hG hb
      simp only
      rw [← sub_zero (pixelMean _ _ _ _)]
      refine pixelMean_near hf fun x y hx hy => ?_
      rw [sub_zero]
      have a1 : (p.1 : ℝ) + 1 ≤ h := by exact_mod_cast (hin p hp).1
      have a2 : (p.2 : ℝ) + 1 ≤ w := by exact_mod_cast (hin p hp).2
      have a3 : (0 : ℝ) ≤ p.1 := by positivity
      have a4 : (0 : ℝ) ≤ p.2 := by positivity
      rw [abs_le] at hx hy
      refine hb x y ?_ ?_ ?_ ?_ <;> linarith
  | some psf =>
    have hk : 0 < M.oversampleFactor / M.psfFactor := Nat.div_pos (Nat.le_of_dvd hf ⟨q, hq⟩) hp0
    have hker := hs.kernel psf hpsf pa hpa
    refine ⟨fun i j => cellsOfPixel (convAt (if pa ≠ 0 then rot psf pa else psf) (psfCells (M.sub.eval params) x0 y0 (max (xm - x0) (ym - y0) + 1) M.psfFactor
      fun _ _ => M.oversampleFactor / M.psfFactor)) M.psfFactor (i - y0) (j - x0), x0, y0, max (xm - x0) (ym - y0) + 1, ?_, ?_, ?_, ?_⟩
    · show (M.evaluate rot (pixelCoords idx) params pa).1 = _
      rw [C119_evaluate M hs.cache hs.compatible psf hpsf hs.noWindow rot _ _ _ _ _ gx gxm gy gym params pa]
      simp only [pixelCoords, List.map_map, indexOf_pixel]
      congr 1
      exact List.map_congr_left fun p _ => by simp only [Function.comp, indexOf_pixel]
    · intro p hp
      have := hle p hp
      omega
    · intro p hp h1 h2 h3 h4 c ε hc
      have := hle p hp
      refine blur_close hp0 (fun _ _ => hk) hker (by omega) (by omega) (by omega) (by omega) fun x y hx hy => hc x y ?_ ?_
      · rwa [Nat.cast_sub this.2.1, add_sub_cancel] at hx
      · rwa [Nat.cast_sub this.1.1, add_sub_cancel] at hy
    · intro p hp G hG hb
      refine blur_bound hp0 (fun _ _ => hk) hker _ _ hG fun x y hx hx' hy hy' => ?_
      have a1 : (0 : ℝ) ≤ x0 := by positivity
      have a2 : (0 : ℝ) ≤ y0 := by positivity
      have a3 : ((x0 + (max (xm - x0) (ym - y0) + 1) : Nat) : ℝ) ≤ ((2 * (h + w) : Nat) : ℝ) := by
        exact_mod_cast (show x0 + (max (xm - x0) (ym - y0) + 1) ≤ 2 * (h + w) by omega)
      have a4 : ((y0 + (max (xm - x0) (ym - y0) + 1) : Nat) : ℝ) ≤ ((2 * (h + w) : Nat) : ℝ) := by
        exact_mod_cast (show y0 + (max (xm - x0) (ym - y0) + 1) ≤ 2 * (h + w) by omega)
      rw [Nat.cast_add] at a3 a4
      push_cast at a3 a4 hx' hy'
      refine hb x y ?_ ?_ ?_ ?_ <;> linarith

section
variable {E : Type} [PseudoMetricSpace E] {S : Set E} {g : E → ℝ → ℝ → ℝ} {W H : Nat}

/-- Over the pixels of an image with many pixels, what the PSF and the oversampling change is small in the mean square, at the same
rate for all parameters. -/
theorem psf_close (hS : IsCompact S) (hg : ContinuousOn (fun z : E × ℝ × ℝ => g z.1 z.2.1 z.2.2) (S ×ˢ Set.univ)) (W H R : Nat) {σ : ℝ} (hσ : 0 < σ) :
    ∀ᶠ N : ℕ in atTop, ∀ x ∈ S, ∀ (ev : List (ℝ × ℝ) → Except PyErr (List ℝ)) (idx : List (Nat × Nat)) (V : Nat → Nat → ℝ),
      (∀ p ∈ idx, p.1 < H * N ∧ p.2 < W * N) → (idx ≠ [] → PixelBlur R ev (zoomed N (g x)) idx (H * N) (W * N)) →
      ev (pixelCoords idx) = .ok (idx.map fun p => V p.1 p.2) →
      ∑ p ∈ idx.toFinset, (V p.1 p.2 - pixelsOf (zoomed N (g x)) p.1 p.2) ^ 2 ≤ σ * (N : ℝ) ^ 2 := by
  set I : Set ℝ := Set.Icc (-1) (2 * (H + W)) with hI
  have hcomp : IsCompact (S ×ˢ (I ×ˢ I)) := hS.prod (isCompact_Icc.prod isCompact_Icc)
  have hg' : ContinuousOn (fun z : E × ℝ × ℝ => g z.1 z.2.1 z.2.2) (S ×ˢ (I ×ˢ I)) := hg.mono (Set.prod_mono_right (Set.subset_univ _))
  obtain ⟨G, hG0, hG⟩ : ∃ G : ℝ, 0 ≤ G ∧ ∀ x ∈ S, ∀ a ∈ I, ∀ b ∈ I, |g x a b| ≤ G := by
    obtain ⟨G, hG⟩ := hcomp.exists_bound_of_continuousOn hg'
    exact ⟨max G 0, le_max_right _ _, fun x hx a ha b hb => (hG (x, a, b) ⟨hx, ha, hb⟩).trans (le_max_left _ _)⟩
  obtain ⟨ε, hε, hεσ⟩ : ∃ ε : ℝ, 0 < ε ∧ H * W * ε ^ 2 < σ / 2 := by
    have h1 : Tendsto (fun ε : ℝ => H * W * ε ^ 2) (𝓝[>] 0) (𝓝 (H * W * 0 ^ 2)) := tendsto_nhdsWithin_of_tendsto_nhds (Continuous.tendsto (by fun_prop) 0)
    rw [show (H : ℝ) * W * 0 ^ 2 = 0 by ring] at h1
    obtain ⟨ε, h2, h3⟩ := ((h1.eventually_lt_const (show (0 : ℝ) < σ / 2 by positivity)).and self_mem_nhdsWithin).exists
    exact ⟨ε, h3, h2⟩
  obtain ⟨δ, hδ, hmod⟩ := Metric.uniformContinuousOn_iff.1 (hcomp.uniformContinuousOn_of_continuous hg') ε hε
  have l1 : ∀ᶠ N : ℕ in atTop, ((R : ℝ) + 2) / N < min δ 1 :=
    (tendsto_const_nhds.div_atTop tendsto_natCast_atTop_atTop).eventually_lt_const (lt_min hδ one_pos)
  have l2 : ∀ᶠ N : ℕ in atTop, (2 * R * W + 2 * R * H) * (2 * G) ^ 2 / (N : ℝ) < σ / 2 :=
    (tendsto_const_nhds.div_atTop tendsto_natCast_atTop_atTop).eventually_lt_const (half_pos hσ)
  filter_upwards [l1, l2, eventually_gt_atTop 0] with N h1 h2 hN x hx ev idx V hin hblur hV
  have hN' : (0 : ℝ) < N := Nat.cast_pos.2 hN
  have hN1 : (1 : ℝ) ≤ N := by exact_mod_cast hN
  rcases eq_or_ne idx [] with rfl | hne
  · simp only [List.toFinset_nil, Finset.sum_empty]
    positivity
  obtain ⟨V', x0, y0, n, hV', hrange, hclose, hbound⟩ := hblur hne
  have hVV : ∀ p ∈ idx, V p.1 p.2 = V' p.1 p.2 := by
    rw [hV'] at hV
    exact fun p hp => (List.map_inj_left.1 (Except.ok.inj hV) p hp).symm
  set B : Finset (Nat × Nat) := ((Finset.Ico y0 (y0 + R) ∪ Finset.Ico (y0 + n - R) (y0 + n)) ×ˢ Finset.range (W * N)) ∪
    (Finset.range (H * N) ×ˢ (Finset.Ico x0 (x0 + R) ∪ Finset.Ico (x0 + n - R) (x0 + n))) with hB
  have hcard : (B.card : ℝ) ≤ (2 * R * W + 2 * R * H) * N := by
    have c1 : ∀ z : Nat, (Finset.Ico z (z + R) ∪ Finset.Ico (z + n - R) (z + n)).card ≤ 2 * R := by
      intro z
      refine (Finset.card_union_le _ _).trans ?_
      rw [Nat.card_Ico, Nat.card_Ico]
      omega
    have c2 : B.card ≤ 2 * R * (W * N) + H * N * (2 * R) := by
      refine (Finset.card_union_le _ _).trans ?_
      rw [Finset.card_product, Finset.card_product, Finset.card_range, Finset.card_range]
      exact Nat.add_le_add (Nat.mul_le_mul_right _ (c1 y0)) (Nat.mul_le_mul_left _ (c1 x0))
    have c3 : (B.card : ℝ) ≤ ((2 * R * (W * N) + H * N * (2 * R) : Nat) : ℝ) := by exact_mod_cast c2
    push_cast at c3
    linarith
  have hpix : ∀ p ∈ idx, (0 ≤ (p.1 : ℝ) / N ∧ (p.1 : ℝ) / N ≤ H) ∧ (0 ≤ (p.2 : ℝ) / N ∧ (p.2 : ℝ) / N ≤ W) ∧ (1 : ℝ) ≤ H ∧ (1 : ℝ) ≤ W := by
    intro p hp
    obtain ⟨a1, a2⟩ := hin p hp
    have b1 : (p.1 : ℝ) ≤ H * N := by exact_mod_cast a1.le
    have b2 : (p.2 : ℝ) ≤ W * N := by exact_mod_cast a2.le
    have b3 : 0 < H := Nat.pos_of_mul_pos_right (by omega : 0 < H * N)
    have b4 : 0 < W := Nat.pos_of_mul_pos_right (by omega : 0 < W * N)
    exact ⟨⟨by positivity, (div_le_iff₀ hN').2 b1⟩, ⟨by positivity, (div_le_iff₀ hN').2 b2⟩, by exact_mod_cast b3, by exact_mod_cast b4⟩
  have hterm : ∀ p ∈ idx.toFinset, (V p.1 p.2 - pixelsOf (zoomed N (g x)) p.1 p.2) ^ 2 ≤ ε ^ 2 + if p ∈ B then (2 * G) ^ 2 else 0 := by
    intro p hp
    rw [List.mem_toFinset] at hp
    obtain ⟨⟨u1, u2⟩, ⟨u3, u4⟩, u5, u6⟩ := hpix p hp
    rw [hVV p hp]
    have hself : (p.2 : ℝ) / N ∈ I ∧ (p.1 : ℝ) / N ∈ I := by
      rw [hI]
      refine ⟨⟨?_, ?_⟩, ?_, ?_⟩ <;> linarith
    by_cases hpB : p ∈ B
    · rw [if_pos hpB]
      have k1 : |V' p.1 p.2| ≤ G := by
        refine hbound p hp G hG0 fun a b ha ha' hb hb' => ?_
        have k : ∀ t : ℝ, -1 ≤ t → t ≤ 2 * ((H * N : Nat) + (W * N : Nat)) → t / N ∈ I := by
          intro t ht ht'
          push_cast at ht'
          refine ⟨?_, ?_⟩
          · rw [le_div_iff₀ hN']
            linarith
          · rw [div_le_iff₀ hN']
            linarith
        exact hG x hx _ (k a ha ha') _ (k b hb hb')
      have k2 : |pixelsOf (zoomed N (g x)) p.1 p.2| ≤ G := hG x hx _ hself.1 _ hself.2
      have k3 : |V' p.1 p.2 - pixelsOf (zoomed N (g x)) p.1 p.2| ≤ 2 * G := by
        refine (abs_sub _ _).trans ?_
        linarith
      have k4 := sq_le_sq' (abs_le.1 k3).1 (abs_le.1 k3).2
      have : 0 ≤ ε ^ 2 := sq_nonneg _
      linarith
    · rw [if_neg hpB, add_zero]
      rw [hB, Finset.mem_union, Finset.mem_product, Finset.mem_product, Finset.mem_union, Finset.mem_union, Finset.mem_Ico, Finset.mem_Ico, Finset.mem_Ico,
        Finset.mem_Ico, Finset.mem_range, Finset.mem_range] at hpB
      have hr := hrange p hp
      have hi := hin p hp
      have k1 : |V' p.1 p.2 - pixelsOf (zoomed N (g x)) p.1 p.2| ≤ ε := by
        refine hclose p hp (by omega) (by omega) (by omega) (by omega) _ _ fun a b ha hb => ?_
        have k : ∀ {t : ℝ} {c : Nat}, |t - c| ≤ R + 2 → |t / N - c / N| < min δ 1 := by
          intro t c ht
          rw [← sub_div, abs_div, abs_of_pos hN']
          exact (div_le_div_of_nonneg_right ht hN'.le).trans_lt h1
        have ka := k ha
        have kb := k hb
        rw [lt_min_iff] at ka kb
        have ka' := abs_lt.1 ka.2
        have kb' := abs_lt.1 kb.2
        have hm := hmod (x, a / N, b / N) ⟨hx, ⟨by linarith, by linarith⟩, ⟨by linarith, by linarith⟩⟩ (x, p.2 / N, p.1 / N) ⟨hx, hself.1, hself.2⟩ (by
          rw [Prod.dist_eq, Prod.dist_eq, dist_self, Real.dist_eq, Real.dist_eq]
          exact max_lt hδ (max_lt ka.1 kb.1))
        rw [Real.dist_eq] at hm
        exact hm.le
      exact sq_le_sq' (abs_le.1 k1).1 (abs_le.1 k1).2
  have hsub : idx.toFinset ⊆ Finset.range (H * N) ×ˢ Finset.range (W * N) := by
    intro p hp
    rw [Finset.mem_product, Finset.mem_range, Finset.mem_range]
    exact hin p (List.mem_toFinset.1 hp)
  have hc2 : (idx.toFinset.card : ℝ) ≤ H * W * (N : ℝ) ^ 2 := by
    have := Finset.card_le_card hsub
    rw [Finset.card_product, Finset.card_range, Finset.card_range] at this
    have : (idx.toFinset.card : ℝ) ≤ ((H * N * (W * N) : Nat) : ℝ) := by exact_mod_cast this
    push_cast at this
    linarith
  have hsumB : ∑ p ∈ idx.toFinset, (if p ∈ B then (2 * G) ^ 2 else 0) ≤ B.card * (2 * G) ^ 2 := by
    rw [← Finset.sum_filter, Finset.sum_const, nsmul_eq_mul]
    refine mul_le_mul_of_nonneg_right ?_ (sq_nonneg _)
    exact_mod_cast Finset.card_le_card fun p hp => (Finset.mem_filter.1 hp).2
  refine (Finset.sum_le_sum hterm).trans ?_
  rw [Finset.sum_add_distrib, Finset.sum_const, nsmul_eq_mul]
  have f1 : (idx.toFinset.card : ℝ) * ε ^ 2 ≤ σ / 2 * (N : ℝ) ^ 2 := by
    have a1 := mul_le_mul_of_nonneg_right hc2 (sq_nonneg ε)
    have a2 := mul_le_mul_of_nonneg_right hεσ.le (sq_nonneg (N : ℝ))
    linarith
  have f2 : (B.card : ℝ) * (2 * G) ^ 2 ≤ σ / 2 * (N : ℝ) ^ 2 := by
    rw [div_lt_iff₀ hN'] at h2
    have a1 := mul_le_mul_of_nonneg_right hcard (sq_nonneg (2 * G))
    have a2 := mul_le_mul_of_nonneg_right h2.le hN'.le
    nlinarith
  linarith

end

end Verif.Props

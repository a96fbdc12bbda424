import Verif.Props.SersicFit
import Verif.Props.PlaneNoise
import Verif.Lemmas.BnContinuous

/-!
# C165: what noise does to a fit
-/

set_option linter.unusedSectionVars false
set_option linter.unusedVariables false

namespace Verif.Spec

open Verif

/-- The weight of a pixel (one if there are no weights). -/
noncomputable def weightAt (weights : Option (Img (F ℝ))) (i j : Nat) : ℝ :=
  match weights with
  | none => 1
  | some wt => numberOf (wt.px i j)

open Classical in
/-- The squared distance of two images, over the fitted pixels and with their weights. -/
noncomputable def fitDist (h w : Nat) (use mask : Nat → Nat → Bool) (weights : Option (Img (F ℝ))) (f g : Nat → Nat → ℝ) : ℝ :=
  ∑ p ∈ Finset.range h ×ˢ Finset.range w, if use p.1 p.2 = true ∧ mask p.1 p.2 = false then (weightAt weights p.1 p.2 * (f p.1 p.2 - g p.1 p.2)) ^ 2 else 0

/-- The pixel values of a model: `image[i, j]` is the value at `x = j`, `y = i`. -/
def pixelsOf (f : ℝ → ℝ → ℝ) (i j : Nat) : ℝ := f j i

end Verif.Spec

namespace Verif.Props

open Verif F Spec Lemmas Filter Topology MeasureTheory

variable {M : Type} {fam : M → ℝ → ℝ → ℝ} {allowed : M → Prop} {fitter : M → FitData ℝ → Except PyErr M}
  {h w : Nat} {use mask : Nat → Nat → Bool} {weights : Option (Img (F ℝ))} {m p truth : M} {f : Nat → Nat → ℝ}

theorem fitDist_nonneg (h w : Nat) (use mask : Nat → Nat → Bool) (weights : Option (Img (F ℝ))) (f g : Nat → Nat → ℝ) :
    0 ≤ fitDist h w use mask weights f g :=
  Finset.sum_nonneg fun p _ => by split <;> positivity

theorem fitDist_comm (h w : Nat) (use mask : Nat → Nat → Bool) (weights : Option (Img (F ℝ))) (f g : Nat → Nat → ℝ) :
    fitDist h w use mask weights f g = fitDist h w use mask weights g f :=
  Finset.sum_congr rfl fun p _ => by split <;> ring

theorem fitDist_triangle (h w : Nat) (use mask : Nat → Nat → Bool) (weights : Option (Img (F ℝ))) (f g k : Nat → Nat → ℝ) :
    fitDist h w use mask weights f k ≤ 2 * fitDist h w use mask weights f g + 2 * fitDist h w use mask weights g k := by
  unfold fitDist
  rw [Finset.mul_sum, Finset.mul_sum, ← Finset.sum_add_distrib]
  refine Finset.sum_le_sum fun p _ => ?_
  split
  · nlinarith [sq_nonneg (weightAt weights p.1 p.2 * (f p.1 p.2 - g p.1 p.2) - weightAt weights p.1 p.2 * (g p.1 p.2 - k p.1 p.2))]
  · simp

/-- The objective of the fitter is the distance of the model from the image. -/
theorem wChi2_image (hw : ∀ wt, weights = some wt → wt.h = h ∧ wt.w = w) :
    ∃ d, fitData (nanImage h w use f) mask weights = .ok d ∧ ∀ g, wChi2 g d = fitDist h w use mask weights (pixelsOf g) f := by
  obtain ⟨d, hd, idx, hmem, hnd, hsort, hy, hx, hz, hm, hwd⟩ := C62_fitted (nanImage h w use f) mask weights hw
  refine ⟨d, hd, fun g => ?_⟩
  have hlen : d.z.length = idx.length := by rw [hz, List.length_map]
  have h1 : wChi2 g d = (idx.map fun p => if mask p.1 p.2 then 0 else (weightAt weights p.1 p.2 * (g p.2 p.1 - numberOf ((nanImage h w use f).px p.1 p.2))) ^ 2).sum := by
    unfold wChi2
    rw [hlen]
    congr 1
    refine List.ext_getElem (by simp) fun k h1 h2 => ?_
    have hk : k < idx.length := by simpa using h2
    have ex : d.x.getD k 0 = idx[k].2 := by simp [hx, hk]
    have ey : d.y.getD k 0 = idx[k].1 := by simp [hy, hk]
    have ez : d.z.getD k .nan = (nanImage h w use f).px idx[k].1 idx[k].2 := by simp [hz, hk]
    have em : d.zMask.getD k true = mask idx[k].1 idx[k].2 := by simp [hm, hk]
    rw [List.getElem_map, List.getElem_map, List.getElem_range, ex, ey, ez, em]
    congr 4
    cases weights with
    | none => rw [hwd]; rfl
    | some wt => rw [hwd]; simp [hk, weightAt]
  have h2 : idx.toFinset = (Finset.range h ×ˢ Finset.range w).filter fun p => use p.1 p.2 = true := by
    ext ⟨i, j⟩
    rw [List.mem_toFinset, hmem, Finset.mem_filter, Finset.mem_product, Finset.mem_range, Finset.mem_range]
    unfold nanImage
    simp only
    cases use i j <;> simp
  rw [h1, ← List.sum_toFinset _ hnd, h2, Finset.sum_filter]
  unfold fitDist pixelsOf nanImage
  refine Finset.sum_congr rfl fun p _ => ?_
  cases hu : use p.1 p.2 <;> cases hmk : mask p.1 p.2 <;> simp [hu, numberOf]

theorem fit_weights (hfit : fitModel fitter (nanImage h w use f) mask m weights = .ok p) (wt : Img (F ℝ)) (hwt : weights = some wt) : wt.h = h ∧ wt.w = w := by
  by_contra hn
  rw [hwt, C62_shape (nanImage h w use f) mask wt hn] at hfit
  exact absurd hfit (by simp)

/-- What `fit_model` returns is the closest of the allowed models. -/
theorem fit_closest (law : BestFitter fam allowed fitter) (hfit : fitModel fitter (nanImage h w use f) mask m weights = .ok p) (ht : allowed truth) :
    fitDist h w use mask weights (pixelsOf (fam p)) f ≤ fitDist h w use mask weights (pixelsOf (fam truth)) f := by
  obtain ⟨d, hd, hchi⟩ := wChi2_image (use := use) (mask := mask) (f := f) (fit_weights hfit)
  have hfd : fitter m d = .ok p := by
    unfold fitModel at hfit
    rw [hd] at hfit
    exact hfit
  have := (law m d p hfd).2 truth ht
  rwa [hchi, hchi] at this

/-- **C165, the image of the fit.** Whatever the family of models, the best fitter and the noise: on the fitted pixels, the image of the
fitted model is at most twice as far from the image of the true model as the data are (in the weighted root mean square). -/
theorem C165_image (law : BestFitter fam allowed fitter) (hfit : fitModel fitter (nanImage h w use f) mask m weights = .ok p)
    (ht : allowed truth) :
    fitDist h w use mask weights (pixelsOf (fam p)) (pixelsOf (fam truth)) ≤ 4 * fitDist h w use mask weights f (pixelsOf (fam truth)) := by
  have h1 := fit_closest law hfit ht
  have h2 := fitDist_triangle h w use mask weights (pixelsOf (fam p)) f (pixelsOf (fam truth))
  rw [fitDist_comm h w use mask weights (pixelsOf (fam truth))] at h1
  linarith

/-- A fitted pixel with a weight other than zero. -/
def CountsIn (h w : Nat) (use mask : Nat → Nat → Bool) (weights : Option (Img (F ℝ))) (i j : Nat) : Prop :=
  i < h ∧ j < w ∧ use i j = true ∧ mask i j = false ∧ weightAt weights i j ≠ 0

theorem fitDist_pixel (f g : Nat → Nat → ℝ) {i j : Nat} (hc : CountsIn h w use mask weights i j) :
    (weightAt weights i j) ^ 2 * (f i j - g i j) ^ 2 ≤ fitDist h w use mask weights f g := by
  obtain ⟨hi, hj, hu, hm, -⟩ := hc
  have := Finset.single_le_sum (f := fun p : Nat × Nat => if use p.1 p.2 = true ∧ mask p.1 p.2 = false then
      (weightAt weights p.1 p.2 * (f p.1 p.2 - g p.1 p.2)) ^ 2 else 0) (s := Finset.range h ×ˢ Finset.range w)
      (fun p _ => by split <;> positivity) (Finset.mem_product.2 ⟨Finset.mem_range.2 hi, Finset.mem_range.2 hj⟩ : (i, j) ∈ _)
  simp only [hu, hm, and_self, if_true, mul_pow] at this
  unfold fitDist
  simpa only [mul_pow] using this

theorem fitDist_zero {f g : Nat → Nat → ℝ} (h0 : fitDist h w use mask weights f g = 0) {i j : Nat} (hc : CountsIn h w use mask weights i j) : f i j = g i j := by
  have h1 := fitDist_pixel f g hc
  rw [h0] at h1
  have h2 : (f i j - g i j) ^ 2 ≤ 0 := by
    have := pow_pos (abs_pos.2 hc.2.2.2.2) 2
    rw [sq_abs] at this
    by_contra hn
    have := mul_pos this (not_le.1 hn)
    linarith
  nlinarith [sq_nonneg (f i j - g i j)]

/-- Stability from compactness: if near-perfect parameters lie in a compact set, on which the model is continuous in its parameters and only
parameters inside `U` give the true image, then parameters with almost the true image are inside `U`. -/
theorem stable_of_compact {E : Type} [TopologicalSpace E] {e : E → M} {S : Set E} (hS : IsCompact S) {η₀ : ℝ} (hη₀ : 0 < η₀)
    (hin : ∀ q, allowed q → fitDist h w use mask weights (pixelsOf (fam q)) (pixelsOf (fam truth)) ≤ η₀ → ∃ x ∈ S, e x = q)
    (hc : ∀ i j : Nat, i < h → j < w → ContinuousOn (fun x => fam (e x) j i) S) (U : Set M)
    (hU : ∀ x ∈ S, (∀ i j, CountsIn h w use mask weights i j → fam (e x) j i = fam truth j i) → ∀ᶠ y in 𝓝[S] x, e y ∈ U) :
    ∃ η > 0, ∀ q, allowed q → fitDist h w use mask weights (pixelsOf (fam q)) (pixelsOf (fam truth)) < η → q ∈ U := by
  have hd : ContinuousOn (fun x => fitDist h w use mask weights (pixelsOf (fam (e x))) (pixelsOf (fam truth))) S := by
    unfold fitDist
    refine continuousOn_finsetSum _ fun p hp => ?_
    rw [Finset.mem_product, Finset.mem_range, Finset.mem_range] at hp
    split
    · exact ((continuousOn_const.mul ((hc p.1 p.2 hp.1 hp.2).sub continuousOn_const))).pow 2
    · exact continuousOn_const
  by_contra hno
  push Not at hno
  have hseq : ∀ k : ℕ, ∃ x ∈ S, fitDist h w use mask weights (pixelsOf (fam (e x))) (pixelsOf (fam truth)) < min η₀ (1 / (k + 1)) ∧ e x ∉ U := by
    intro k
    obtain ⟨q, hq, hlt, hqU⟩ := hno (min η₀ (1 / (k + 1))) (lt_min hη₀ (by positivity))
    obtain ⟨x, hx, rfl⟩ := hin q hq (hlt.le.trans (min_le_left _ _))
    exact ⟨x, hx, hlt, hqU⟩
  choose x hxS hxd hxU using hseq
  obtain ⟨a, haS, ha⟩ := hS.exists_clusterPt (f := Filter.map x atTop) (by
    rw [le_principal_iff, mem_map]
    exact Filter.univ_mem' hxS)
  have hle : Filter.map x atTop ≤ 𝓟 S := by
    rw [le_principal_iff, mem_map]
    exact Filter.univ_mem' hxS
  have hne : (𝓝[S] a ⊓ Filter.map x atTop).NeBot := by
    rw [nhdsWithin, inf_assoc, inf_eq_right.2 hle]
    exact ha
  have h0 : fitDist h w use mask weights (pixelsOf (fam (e a))) (pixelsOf (fam truth)) = 0 := by
    have t1 : Tendsto (fun x => fitDist h w use mask weights (pixelsOf (fam (e x))) (pixelsOf (fam truth))) (𝓝[S] a ⊓ Filter.map x atTop)
        (𝓝 (fitDist h w use mask weights (pixelsOf (fam (e a))) (pixelsOf (fam truth)))) := (hd a haS).mono_left inf_le_left
    have t2 : Tendsto (fun x => fitDist h w use mask weights (pixelsOf (fam (e x))) (pixelsOf (fam truth))) (𝓝[S] a ⊓ Filter.map x atTop)
        (𝓝 0) := by
      refine Tendsto.mono_left ?_ inf_le_right
      rw [tendsto_map'_iff]
      refine squeeze_zero (fun k => fitDist_nonneg _ _ _ _ _ _ _) (fun k => (hxd k).le.trans (min_le_right _ _)) tendsto_one_div_add_atTop_nhds_zero_nat
    exact tendsto_nhds_unique t1 t2
  have h1 := hU a haS fun i j hij => fitDist_zero h0 hij
  have h2 : ∀ᶠ y in 𝓝[S] a ⊓ Filter.map x atTop, e y ∈ U := h1.filter_mono inf_le_left
  have h3 : ∀ᶠ y in 𝓝[S] a ⊓ Filter.map x atTop, e y ∉ U := by
    refine Eventually.filter_mono inf_le_right ?_
    rw [eventually_map]
    exact Eventually.of_forall hxU
  obtain ⟨y, hy1, hy2⟩ := (h2.and h3).exists
  exact hy2 hy1

/-- A best fit exists if the data are close to the true image and all allowed parameters with a close image are in a compact set. -/
theorem best_of_compact {E : Type} [TopologicalSpace E] {e : E → M} {S : Set E} (hS : IsCompact S) {η₀ : ℝ}
    (hin : ∀ q, allowed q → fitDist h w use mask weights (pixelsOf (fam q)) (pixelsOf (fam truth)) ≤ η₀ → ∃ x ∈ S, e x = q)
    (hall : ∀ x ∈ S, allowed (e x)) (ht : allowed truth)
    (hc : ∀ i j : Nat, i < h → j < w → ContinuousOn (fun x => fam (e x) j i) S) (hw : ∀ wt, weights = some wt → wt.h = h ∧ wt.w = w)
    (hf : 4 * fitDist h w use mask weights f (pixelsOf (fam truth)) ≤ η₀) (m : M) :
    ∃ p, fitModel (chosenFitter fam allowed) (nanImage h w use f) mask m weights = .ok p := by
  have hd : ContinuousOn (fun x => fitDist h w use mask weights (pixelsOf (fam (e x))) f) S := by
    unfold fitDist
    refine continuousOn_finsetSum _ fun p hp => ?_
    rw [Finset.mem_product, Finset.mem_range, Finset.mem_range] at hp
    split
    · exact ((continuousOn_const.mul ((hc p.1 p.2 hp.1 hp.2).sub continuousOn_const))).pow 2
    · exact continuousOn_const
  have h0 : fitDist h w use mask weights (pixelsOf (fam truth)) (pixelsOf (fam truth)) ≤ η₀ := by
    refine le_trans (le_of_eq ?_) ((mul_nonneg (by norm_num) (fitDist_nonneg h w use mask weights f (pixelsOf (fam truth)))).trans hf)
    unfold fitDist
    simp
  obtain ⟨x₀, hx₀, hx₀t⟩ := hin truth ht h0
  obtain ⟨x, hxS, hmin⟩ := hS.exists_isMinOn ⟨x₀, hx₀⟩ hd
  obtain ⟨d, hdd, hchi⟩ := wChi2_image (use := use) (mask := mask) (f := f) hw
  have hbest : ∃ p, BestFit fam allowed d p := by
    refine ⟨e x, hall x hxS, fun q hq => ?_⟩
    rw [hchi, hchi]
    have hxt : fitDist h w use mask weights (pixelsOf (fam (e x))) f ≤ fitDist h w use mask weights (pixelsOf (fam truth)) f := hx₀t ▸ hmin hx₀
    by_cases hqd : fitDist h w use mask weights (pixelsOf (fam q)) (pixelsOf (fam truth)) ≤ η₀
    · obtain ⟨y, hy, rfl⟩ := hin q hq hqd
      exact hmin hy
    · have h1 := fitDist_triangle h w use mask weights (pixelsOf (fam q)) f (pixelsOf (fam truth))
      rw [fitDist_comm h w use mask weights (pixelsOf (fam truth))] at hxt
      linarith
  refine ⟨hbest.choose, ?_⟩
  unfold fitModel
  rw [hdd]
  simp only [Bind.bind, Except.bind, chosenFitter]
  rw [dif_pos hbest]

/-- **C165, noise.** If parameters whose image is within `η` of the true image are in `U`, then with any noise the fit is outside `U` with a
probability of at most four times the weighted noise power over `η`: for every best fitter, and whether or not the noise is correlated. -/
theorem C165_noise {Ω : Type} [MeasurableSpace Ω] {μ : Measure Ω} [IsProbabilityMeasure μ] {X : Nat → Nat → Ω → ℝ} {σ : Nat → Nat → ℝ}
    (hL : ∀ i j, i < h → j < w → MemLp (X i j) 2 μ) (hσ : ∀ i j, i < h → j < w → ∫ ω, (X i j ω - fam truth j i) ^ 2 ∂μ ≤ σ i j ^ 2)
    (law : BestFitter fam allowed fitter) (ht : allowed truth) {η : ℝ} (hη : 0 < η) {U : Set M}
    (hU : ∀ q, allowed q → fitDist h w use mask weights (pixelsOf (fam q)) (pixelsOf (fam truth)) < η → q ∈ U) :
    μ {ω | ∃ m p, fitModel fitter (nanImage h w use fun i j => X i j ω) mask m weights = .ok p ∧ p ∉ U} ≤
      ENNReal.ofReal (4 * fitDist h w use mask weights σ (fun _ _ => 0) / η) := by
  set D : Ω → ℝ := fun ω => fitDist h w use mask weights (fun i j => X i j ω) (pixelsOf (fam truth)) with hD
  have hint : ∀ i j, i < h → j < w → Integrable (fun ω => (X i j ω - fam truth j i) ^ 2) μ := fun i j hi hj =>
    ((hL i j hi hj).sub (memLp_const _)).integrable_sq
  have hI : ∀ p ∈ Finset.range h ×ˢ Finset.range w, Integrable (fun ω => if use p.1 p.2 = true ∧ mask p.1 p.2 = false then
      (weightAt weights p.1 p.2 * (X p.1 p.2 ω - pixelsOf (fam truth) p.1 p.2)) ^ 2 else 0) μ := by
    intro p hp
    rw [Finset.mem_product, Finset.mem_range, Finset.mem_range] at hp
    split
    · simp only [mul_pow]
      exact (hint p.1 p.2 hp.1 hp.2).const_mul _
    · exact integrable_zero _ _ _
  have hDI : Integrable D μ := integrable_finsetSum _ hI
  have hDle : ∫ ω, D ω ∂μ ≤ fitDist h w use mask weights σ (fun _ _ => 0) := by
    rw [hD]
    unfold fitDist
    rw [integral_finsetSum _ hI]
    refine Finset.sum_le_sum fun p hp => ?_
    rw [Finset.mem_product, Finset.mem_range, Finset.mem_range] at hp
    split
    · simp only [mul_pow, sub_zero]
      rw [integral_const_mul]
      exact mul_le_mul_of_nonneg_left (hσ p.1 p.2 hp.1 hp.2) (sq_nonneg _)
    · simp
  have hsub : {ω | ∃ m p, fitModel fitter (nanImage h w use fun i j => X i j ω) mask m weights = .ok p ∧ p ∉ U} ⊆ {ω | η / 4 ≤ D ω} := by
    rintro ω ⟨m, p, hfit, hp⟩
    by_contra hlt
    rw [Set.mem_ofPred_eq, not_le] at hlt
    refine hp (hU p (fit_allowed law hfit) ((C165_image law hfit ht).trans_lt ?_))
    have : D ω = fitDist h w use mask weights (fun i j => X i j ω) (pixelsOf (fam truth)) := rfl
    linarith
  have hmk := mul_meas_ge_le_integral_of_nonneg (Eventually.of_forall fun ω => fitDist_nonneg h w use mask weights (fun i j => X i j ω) (pixelsOf (fam truth))) hDI (η / 4)
  refine (measure_mono hsub).trans ?_
  rw [← ENNReal.ofReal_toReal (measure_ne_top μ {ω | η / 4 ≤ D ω})]
  refine ENNReal.ofReal_le_ofReal ?_
  rw [le_div_iff₀ hη]
  have h2 : η / 4 * (μ {ω | η / 4 ≤ D ω}).toReal ≤ fitDist h w use mask weights σ (fun _ _ => 0) := hmk.trans hDle
  linarith

/-! ### Sersic models -/

/-- The parameters as a point of space. -/
def sersicAt (x : ℝ × ℝ × ℝ × ℝ × ℝ × ℝ × ℝ) : SersicP := ⟨x.1, x.2.1, x.2.2.1, x.2.2.2.1, x.2.2.2.2.1, x.2.2.2.2.2.1, x.2.2.2.2.2.2⟩

end Verif.Props

namespace Verif.Spec

/-- Centre, ellipticity and angle are between those of `lo` and `hi`. -/
def SersicP.GeometryIn (lo hi q : SersicP) : Prop :=
  (lo.x0 ≤ q.x0 ∧ q.x0 ≤ hi.x0) ∧ (lo.y0 ≤ q.y0 ∧ q.y0 ≤ hi.y0) ∧ (lo.ellip ≤ q.ellip ∧ q.ellip ≤ hi.ellip) ∧ (lo.theta ≤ q.theta ∧ q.theta ≤ hi.theta)

/-- All parameters of `q` are within `ε` of those of `p`. -/
def SersicP.Near (ε : ℝ) (p q : SersicP) : Prop :=
  |q.amplitude - p.amplitude| < ε ∧ |q.rEff - p.rEff| < ε ∧ |q.n - p.n| < ε ∧ |q.x0 - p.x0| < ε ∧ |q.y0 - p.y0| < ε ∧
    |q.ellip - p.ellip| < ε ∧ |q.theta - p.theta| < ε

/-- The fit has the true centre, and amplitude, effective radius, index and ellipticity within `ε` of the true ones; the angle is within `ε`
of the true one up to half turns, unless the galaxy is round. -/
def SersicP.Recovers (ε : ℝ) (truth fit : SersicP) : Prop :=
  fit.x0 = truth.x0 ∧ fit.y0 = truth.y0 ∧ |fit.amplitude - truth.amplitude| < ε ∧ |fit.rEff - truth.rEff| < ε ∧ |fit.n - truth.n| < ε ∧
    |fit.ellip - truth.ellip| < ε ∧ (truth.ellip ≠ 0 → ∃ k : ℤ, |fit.theta - (truth.theta + k * Real.pi)| < ε)

end Verif.Spec

namespace Verif.Props

open Verif F Spec Lemmas Filter Topology MeasureTheory

theorem scaledSq_le {r q t dx dy : ℝ} (hr : 0 < r) (hq : 1 / 100 ≤ q) (hq1 : q ≤ 1) : scaledSq r q t dx dy ≤ (100 * (|dx| + |dy|) / r) ^ 2 := by
  unfold scaledSq
  have hq0 : 0 < q := by linarith
  set u := dx * Real.cos t + dy * Real.sin t
  set v := -dx * Real.sin t + dy * Real.cos t
  have huv : u ^ 2 + v ^ 2 = dx ^ 2 + dy ^ 2 := by
    have := Real.sin_sq_add_cos_sq t
    linear_combination (dx ^ 2 + dy ^ 2) * this
  have h1 : dx ^ 2 + dy ^ 2 ≤ (|dx| + |dy|) ^ 2 := by
    nlinarith [sq_abs dx, sq_abs dy, abs_nonneg dx, abs_nonneg dy, mul_nonneg (abs_nonneg dx) (abs_nonneg dy)]
  rw [div_pow, div_pow, div_pow, mul_pow, mul_pow, ← div_div, ← add_div]
  refine div_le_div_of_nonneg_right ?_ (sq_nonneg r)
  have h2 : v ^ 2 / q ^ 2 ≤ 100 ^ 2 * v ^ 2 := by
    rw [div_le_iff₀ (by positivity)]
    have : 1 ≤ 100 ^ 2 * q ^ 2 := by nlinarith
    nlinarith [mul_nonneg (sq_nonneg v) (by linarith : (0 : ℝ) ≤ 100 ^ 2 * q ^ 2 - 1)]
  nlinarith [sq_nonneg u]

theorem bn_bounded : ∃ B : ℝ, 0 < B ∧ ∀ n : ℝ, 1 / 10 ≤ n → n ≤ 10 → bn n ≤ B := by
  have hc : ContinuousOn bn (Set.Icc (1 / 10) 10) := fun n hn => (bn_continuousAt (by linarith [hn.1])).continuousWithinAt
  obtain ⟨B, hB⟩ := isCompact_Icc.exists_bound_of_continuousOn hc
  refine ⟨max B 1, by positivity, fun n h1 h2 => ?_⟩
  have := hB n ⟨h1, h2⟩
  rw [Real.norm_of_nonneg (bn_pos (by linarith)).le] at this
  exact this.trans (le_max_left _ _)

theorem sersic_continuousOn (i j : Nat) : ContinuousOn (fun x => (sersicAt x).at_ j i) {x | (sersicAt x).InBounds} := by
  intro x hx
  obtain ⟨hr, hn, he, he1⟩ := inBounds_pos hx
  unfold SersicP.at_
  simp only [sersic2D_scaled]
  simp only [sersicAt] at hr hn he he1 ⊢
  refine ContinuousAt.continuousWithinAt ?_
  have cb : ContinuousAt (fun x : ℝ × ℝ × ℝ × ℝ × ℝ × ℝ × ℝ => bn x.2.2.1) x :=
    ContinuousAt.comp (f := fun x : ℝ × ℝ × ℝ × ℝ × ℝ × ℝ × ℝ => x.2.2.1) (g := bn) (bn_continuousAt hn) (by fun_prop)
  have cs : ContinuousAt (fun x : ℝ × ℝ × ℝ × ℝ × ℝ × ℝ × ℝ =>
      Real.sqrt (scaledSq x.2.1 (1 - x.2.2.2.2.2.1) x.2.2.2.2.2.2 ((j : ℝ) - x.2.2.2.1) ((i : ℝ) - x.2.2.2.2.1))) x := by
    unfold scaledSq
    have h1 : x.2.1 ≠ 0 := hr.ne'
    have h2 : (1 - x.2.2.2.2.2.1) * x.2.1 ≠ 0 := mul_ne_zero (by linarith) hr.ne'
    refine ContinuousAt.comp (g := Real.sqrt) Real.continuous_sqrt.continuousAt ?_
    fun_prop (disch := assumption)
  have cn : ContinuousAt (fun x : ℝ × ℝ × ℝ × ℝ × ℝ × ℝ × ℝ => 1 / x.2.2.1) x := ContinuousAt.div (by fun_prop) (by fun_prop) hn.ne'
  exact ContinuousAt.mul (by fun_prop) (Real.continuous_exp.continuousAt.comp (cb.neg.mul ((cs.rpow cn (Or.inr (one_div_pos.2 hn))).sub continuousAt_const)))

/-- Parameters with almost the true image have bounded amplitude and effective radius, although the default bounds have no upper limit: a
large amplitude is too bright at one pixel, a large radius makes two pixels too similar. -/
theorem sersic_box {lo hi tr : SersicP} {i₁ j₁ i₂ j₂ : Nat} (k1 : CountsIn h w use mask weights i₁ j₁) (k2 : CountsIn h w use mask weights i₂ j₂)
    (hne : tr.at_ j₁ i₁ ≠ tr.at_ j₂ i₂) :
    ∃ η₀ > 0, ∃ A R : ℝ, ∀ q : SersicP, q.InBounds → SersicP.GeometryIn lo hi q →
      fitDist h w use mask weights (pixelsOf q.at_) (pixelsOf tr.at_) ≤ η₀ → q.amplitude ≤ A ∧ q.rEff ≤ R := by
  obtain ⟨B, hB0, hB⟩ := bn_bounded
  obtain ⟨L, hL1, hL⟩ : ∃ L : ℝ, 1 ≤ L ∧ ∀ q : SersicP, SersicP.GeometryIn lo hi q →
      100 * (|(j₁ : ℝ) - q.x0| + |(i₁ : ℝ) - q.y0|) ≤ L ∧ 100 * (|(j₂ : ℝ) - q.x0| + |(i₂ : ℝ) - q.y0|) ≤ L := by
    refine ⟨1 + 100 * (j₁ + i₁ + j₂ + i₂ + |lo.x0| + |hi.x0| + |lo.y0| + |hi.y0|), ?_, ?_⟩
    · have : (0 : ℝ) ≤ j₁ + i₁ + j₂ + i₂ + |lo.x0| + |hi.x0| + |lo.y0| + |hi.y0| := by positivity
      linarith
    · rintro q ⟨⟨a1, a2⟩, ⟨a3, a4⟩, -, -⟩
      have c1 : |q.x0| ≤ |lo.x0| + |hi.x0| := by
        rw [abs_le]
        exact ⟨by linarith [neg_abs_le lo.x0, abs_nonneg hi.x0], by linarith [le_abs_self hi.x0, abs_nonneg lo.x0]⟩
      have c2 : |q.y0| ≤ |lo.y0| + |hi.y0| := by
        rw [abs_le]
        exact ⟨by linarith [neg_abs_le lo.y0, abs_nonneg hi.y0], by linarith [le_abs_self hi.y0, abs_nonneg lo.y0]⟩
      have d : ∀ (k : Nat) (y : ℝ), |(k : ℝ) - y| ≤ k + |y| := fun k y => by
        have := abs_sub (k : ℝ) y
        rwa [Nat.abs_cast] at this
      have d1 := d j₁ q.x0
      have d2 := d i₁ q.y0
      have d3 := d j₂ q.x0
      have d4 := d i₂ q.y0
      have e1 : (0 : ℝ) ≤ j₁ := Nat.cast_nonneg _
      have e2 : (0 : ℝ) ≤ i₁ := Nat.cast_nonneg _
      have e3 : (0 : ℝ) ≤ j₂ := Nat.cast_nonneg _
      have e4 : (0 : ℝ) ≤ i₂ := Nat.cast_nonneg _
      constructor <;> linarith
  set δ : ℝ := |tr.at_ j₁ i₁ - tr.at_ j₂ i₂| / 4 with hδ
  have hδ0 : 0 < δ := div_pos (abs_pos.2 (sub_ne_zero.2 hne)) (by norm_num)
  set A : ℝ := (|tr.at_ j₁ i₁| + δ) * Real.exp (B * (1000 * L) ^ (10 : ℝ)) with hA
  have hA0 : 0 ≤ A := by positivity
  obtain ⟨R, hRL, hR⟩ : ∃ R, L ≤ R ∧ ∀ r, R ≤ r → A * Real.exp B * (B * (L / r) ^ (1 / 10 : ℝ)) < 2 * δ := by
    have t1 : Tendsto (fun r : ℝ => L / r) atTop (𝓝 0) := tendsto_const_nhds.div_atTop tendsto_id
    have t2 : Tendsto (fun r : ℝ => (L / r) ^ (1 / 10 : ℝ)) atTop (𝓝 0) := by
      have := t1.rpow_const (p := (1 / 10 : ℝ)) (Or.inr (by norm_num))
      rwa [Real.zero_rpow (by norm_num)] at this
    have t3 : Tendsto (fun r : ℝ => A * Real.exp B * (B * (L / r) ^ (1 / 10 : ℝ))) atTop (𝓝 0) := by
      have := (t2.const_mul B).const_mul (A * Real.exp B)
      rwa [mul_zero, mul_zero] at this
    obtain ⟨R, hR⟩ := eventually_atTop.1 (t3.eventually_lt_const (by linarith : (0 : ℝ) < 2 * δ))
    exact ⟨max R L, le_max_right _ _, fun r hr => hR r ((le_max_left _ _).trans hr)⟩
  have w1 : 0 < weightAt weights i₁ j₁ ^ 2 := by have := k1.2.2.2.2; positivity
  have w2 : 0 < weightAt weights i₂ j₂ ^ 2 := by have := k2.2.2.2.2; positivity
  refine ⟨min (weightAt weights i₁ j₁ ^ 2) (weightAt weights i₂ j₂ ^ 2) * δ ^ 2, by positivity, A, R, fun q hq hg hd => ?_⟩
  obtain ⟨hr, hn, he, he1⟩ := inBounds_pos hq
  obtain ⟨b1, b2, ⟨b3, b4⟩, ⟨b5, b6⟩, -⟩ := hq
  have hb := bn_pos hn
  have hbB := hB q.n b3 b4
  have hp := one_div_pos.2 hn
  have hp1 : 1 / 10 ≤ 1 / q.n := one_div_le_one_div_of_le hn b4
  have hp2 : 1 / q.n ≤ 10 := by
    rw [div_le_iff₀ hn]
    linarith
  have close : ∀ {i j : Nat}, CountsIn h w use mask weights i j → min (weightAt weights i₁ j₁ ^ 2) (weightAt weights i₂ j₂ ^ 2) ≤ weightAt weights i j ^ 2 →
      |q.at_ j i - tr.at_ j i| ≤ δ := by
    intro i j hc hmin
    have h1 := (fitDist_pixel (pixelsOf q.at_) (pixelsOf tr.at_) hc).trans (hd.trans (mul_le_mul_of_nonneg_right hmin (sq_nonneg δ)))
    have hw0 : 0 < weightAt weights i j ^ 2 := by have := hc.2.2.2.2; positivity
    exact abs_le_of_sq_le_sq (le_of_mul_le_mul_left h1 hw0) hδ0.le
  have v1 := close k1 (min_le_left _ _)
  have v2 := close k2 (min_le_right _ _)
  have rad : ∀ {i j : Nat}, 100 * (|(j : ℝ) - q.x0| + |(i : ℝ) - q.y0|) ≤ L →
      ∃ s, 0 ≤ s ∧ s ≤ L / q.rEff ∧ q.at_ j i = q.amplitude * Real.exp (-bn q.n * (s ^ (1 / q.n) - 1)) := by
    intro i j hij
    refine ⟨_, Real.sqrt_nonneg _, ?_, sersic2D_scaled _ _ _ _ _ _ _ _ _⟩
    have h1 := Real.sqrt_le_sqrt (scaledSq_le (r := q.rEff) (q := 1 - q.ellip) (t := q.theta) (dx := (j : ℝ) - q.x0) (dy := (i : ℝ) - q.y0) hr (by linarith) (by linarith))
    rw [Real.sqrt_sq (by positivity)] at h1
    exact h1.trans (div_le_div_of_nonneg_right hij hr.le)
  obtain ⟨s1, hs1, hs1L, e1⟩ := rad (hL q hg).1
  obtain ⟨s2, hs2, hs2L, e2⟩ := rad (hL q hg).2
  have hAq : q.amplitude ≤ A := by
    have h1 : s1 ^ (1 / q.n) ≤ (1000 * L) ^ (10 : ℝ) := by
      have h2 : s1 ≤ 1000 * L := by
        refine hs1L.trans ?_
        rw [div_le_iff₀ hr]
        nlinarith
      exact (Real.rpow_le_rpow hs1 h2 hp.le).trans (Real.rpow_le_rpow_of_exponent_le (by linarith) hp2)
    have h3 : -(B * (1000 * L) ^ (10 : ℝ)) ≤ -bn q.n * (s1 ^ (1 / q.n) - 1) := by
      have h4 : bn q.n * s1 ^ (1 / q.n) ≤ B * (1000 * L) ^ (10 : ℝ) := mul_le_mul hbB h1 (Real.rpow_nonneg hs1 _) hB0.le
      linarith
    have h5 := Real.exp_le_exp.2 h3
    have h6 : q.amplitude * Real.exp (-(B * (1000 * L) ^ (10 : ℝ))) ≤ |tr.at_ j₁ i₁| + δ := by
      refine (mul_le_mul_of_nonneg_left h5 b1).trans ?_
      rw [← e1]
      have := abs_le.1 v1
      linarith [le_abs_self (tr.at_ j₁ i₁)]
    rw [Real.exp_neg, ← div_eq_mul_inv, div_le_iff₀ (Real.exp_pos _)] at h6
    exact h6
  refine ⟨hAq, ?_⟩
  by_contra hRq
  rw [not_le] at hRq
  have hsmall := hR q.rEff hRq.le
  set κ : ℝ := (L / q.rEff) ^ (1 / 10 : ℝ) with hκ
  have hκ0 : 0 ≤ κ := by positivity
  have hLr : L / q.rEff ≤ 1 := by
    rw [div_le_one hr]
    exact hRL.trans hRq.le
  have pow_le : ∀ s, 0 ≤ s → s ≤ L / q.rEff → 0 ≤ s ^ (1 / q.n) ∧ s ^ (1 / q.n) ≤ κ := fun s h1 h2 =>
    ⟨Real.rpow_nonneg h1 _, (Real.rpow_le_rpow h1 h2 hp.le).trans (Real.rpow_le_rpow_of_exponent_ge (by positivity) hLr hp1)⟩
  have val : ∀ s, 0 ≤ s → s ≤ L / q.rEff → q.amplitude * Real.exp (-bn q.n * (s ^ (1 / q.n) - 1)) ≤ q.amplitude * Real.exp (bn q.n) ∧
      q.amplitude * Real.exp (bn q.n) - A * Real.exp B * (B * κ) ≤ q.amplitude * Real.exp (-bn q.n * (s ^ (1 / q.n) - 1)) := by
    intro s h1 h2
    obtain ⟨h3, h4⟩ := pow_le s h1 h2
    have h5 : bn q.n * s ^ (1 / q.n) ≤ B * κ := mul_le_mul hbB h4 h3 hB0.le
    have h6 : 0 ≤ bn q.n * s ^ (1 / q.n) := mul_nonneg hb.le h3
    rw [show -bn q.n * (s ^ (1 / q.n) - 1) = bn q.n + -(bn q.n * s ^ (1 / q.n)) by ring, Real.exp_add]
    have h7 : Real.exp (-(bn q.n * s ^ (1 / q.n))) ≤ 1 := Real.exp_le_one_iff.2 (by linarith)
    have h8 := Real.add_one_le_exp (-(bn q.n * s ^ (1 / q.n)))
    have h9 : q.amplitude * Real.exp (bn q.n) ≤ A * Real.exp B := mul_le_mul hAq (Real.exp_le_exp.2 hbB) (Real.exp_pos _).le hA0
    have h10 : 0 ≤ q.amplitude * Real.exp (bn q.n) := mul_nonneg b1 (Real.exp_pos _).le
    rw [← mul_assoc]
    constructor
    · exact mul_le_of_le_one_right h10 h7
    · have h11 : q.amplitude * Real.exp (bn q.n) * (bn q.n * s ^ (1 / q.n)) ≤ A * Real.exp B * (B * κ) := mul_le_mul h9 h5 h6 (by positivity)
      have h12 := mul_le_mul_of_nonneg_left h8 h10
      linarith
  obtain ⟨u1, l1⟩ := val s1 hs1 hs1L
  obtain ⟨u2, l2⟩ := val s2 hs2 hs2L
  rw [← e1] at u1 l1
  rw [← e2] at u2 l2
  have hdiff : |tr.at_ j₁ i₁ - tr.at_ j₂ i₂| < 4 * δ := by
    rw [abs_lt]
    obtain ⟨g1, g2⟩ := abs_le.1 v1
    obtain ⟨g3, g4⟩ := abs_le.1 v2
    constructor <;> linarith
  rw [hδ] at hdiff
  linarith

theorem sersic_compact (lo hi : SersicP) (A R : ℝ) :
    IsCompact {x | (sersicAt x).InBounds ∧ SersicP.GeometryIn lo hi (sersicAt x) ∧ (sersicAt x).amplitude ≤ A ∧ (sersicAt x).rEff ≤ R} := by
  refine IsCompact.of_isClosed_subset (isCompact_Icc (a := ((0, 1 / 1000, 1 / 10, lo.x0, lo.y0, 0, -2 * Real.pi) : ℝ × ℝ × ℝ × ℝ × ℝ × ℝ × ℝ))
    (b := (A, R, 10, hi.x0, hi.y0, 99 / 100, 2 * Real.pi))) ?_ ?_
  · unfold SersicP.InBounds SersicP.GeometryIn sersicAt
    simp only [Set.ofPred_and]
    repeat' apply IsClosed.inter
    all_goals exact isClosed_le (by fun_prop) (by fun_prop)
  · rintro x ⟨⟨b1, b2, ⟨b3, b4⟩, ⟨b5, b6⟩, b7, b8⟩, ⟨⟨c1, c2⟩, ⟨c3, c4⟩, -, -⟩, d1, d2⟩
    exact ⟨⟨b1, b2, b3, c1, c3, b5, b7⟩, ⟨d1, d2, b4, c2, c4, b6, b8⟩⟩

theorem sersicAt_surj (q : SersicP) : sersicAt (q.amplitude, q.rEff, q.n, q.x0, q.y0, q.ellip, q.theta) = q := rfl

theorem near_eventually (x : ℝ × ℝ × ℝ × ℝ × ℝ × ℝ × ℝ) {ε : ℝ} (hε : 0 < ε) : ∀ᶠ y in 𝓝 x, SersicP.Near ε (sersicAt x) (sersicAt y) := by
  unfold SersicP.Near sersicAt
  have key : ∀ g : ℝ × ℝ × ℝ × ℝ × ℝ × ℝ × ℝ → ℝ, Continuous g → ∀ᶠ y in 𝓝 x, |g y - g x| < ε := fun g hg => by
    have h1 : Continuous fun y => |g y - g x| := (hg.sub continuous_const).abs
    have h2 := h1.tendsto x
    simp only [sub_self, abs_zero] at h2
    exact h2.eventually_lt_const hε
  exact (key (fun y => y.1) (by fun_prop)).and ((key (fun y => y.2.1) (by fun_prop)).and ((key (fun y => y.2.2.1) (by fun_prop)).and
    ((key (fun y => y.2.2.2.1) (by fun_prop)).and ((key (fun y => y.2.2.2.2.1) (by fun_prop)).and ((key (fun y => y.2.2.2.2.2.1) (by fun_prop)).and
      (key (fun y => y.2.2.2.2.2.2) (by fun_prop)))))))

variable {lo hi tr : SersicP} {i₁ j₁ i₂ j₂ : Nat} {ok : SersicP → Prop}

/-- **C165, Sersic models, what decides.** Inside the default bounds (which do not limit amplitude and effective radius from above) and a
range of geometries: if the parameters that reproduce the true image exactly are well inside `U`, so are those that almost reproduce it. -/
theorem C165_sersic (k1 : CountsIn h w use mask weights i₁ j₁) (k2 : CountsIn h w use mask weights i₂ j₂) (hne : tr.at_ j₁ i₁ ≠ tr.at_ j₂ i₂)
    (U : Set SersicP) (hU : ∀ q : SersicP, q.InBounds → SersicP.GeometryIn lo hi q →
      (∀ i j : Nat, CountsIn h w use mask weights i j → q.at_ j i = tr.at_ j i) → ∃ ε > 0, ∀ q', SersicP.Near ε q q' → q' ∈ U) :
    ∃ η > 0, ∀ q : SersicP, q.InBounds ∧ SersicP.GeometryIn lo hi q →
      fitDist h w use mask weights (pixelsOf q.at_) (pixelsOf tr.at_) < η → q ∈ U := by
  obtain ⟨η₀, hη₀, A, R, hbox⟩ := sersic_box (lo := lo) (hi := hi) k1 k2 hne
  refine stable_of_compact (fam := SersicP.at_) (allowed := fun q => q.InBounds ∧ SersicP.GeometryIn lo hi q) (e := sersicAt)
    (sersic_compact lo hi A R) hη₀ (fun q hq hd => ?_) (fun i j _ _ => (sersic_continuousOn i j).mono fun x hx => hx.1) U fun x hx hsame => ?_
  · obtain ⟨g1, g2⟩ := hbox q hq.1 hq.2 hd
    exact ⟨(q.amplitude, q.rEff, q.n, q.x0, q.y0, q.ellip, q.theta), ⟨hq.1, hq.2, g1, g2⟩, sersicAt_surj q⟩
  · obtain ⟨ε, hε, hnear⟩ := hU _ hx.1 hx.2.1 hsame
    exact ((near_eventually x hε).mono fun y hy => hnear _ hy).filter_mono nhdsWithin_le_nhds

/-- **C165, a best fit exists.** If the data are close enough to the image of a Sersic model, the sum of squares has a minimum inside the
default bounds, so that a best fitter that returns one whenever there is one does return. -/
theorem C165_exists (k1 : CountsIn h w use mask weights i₁ j₁) (k2 : CountsIn h w use mask weights i₂ j₂) (hne : tr.at_ j₁ i₁ ≠ tr.at_ j₂ i₂)
    (ht : tr.InBounds ∧ SersicP.GeometryIn lo hi tr) (hw : ∀ wt, weights = some wt → wt.h = h ∧ wt.w = w) :
    ∃ η > 0, ∀ f m0, fitDist h w use mask weights f (pixelsOf tr.at_) < η →
      ∃ fit, fitModel (chosenFitter SersicP.at_ fun q => q.InBounds ∧ SersicP.GeometryIn lo hi q) (nanImage h w use f) mask m0 weights = .ok fit := by
  obtain ⟨η₀, hη₀, A, R, hbox⟩ := sersic_box (lo := lo) (hi := hi) k1 k2 hne
  refine ⟨η₀ / 4, by linarith, fun f m0 hf => ?_⟩
  refine best_of_compact (fam := SersicP.at_) (truth := tr) (e := sersicAt) (sersic_compact lo hi A R) (fun q hq hd => ?_) (fun x hx => ⟨hx.1, hx.2.1⟩) ht
    (fun i j _ _ => (sersic_continuousOn i j).mono fun x hx => hx.1) hw (η₀ := η₀) (by linarith) m0
  obtain ⟨g1, g2⟩ := hbox q hq.1 hq.2 hd
  exact ⟨(q.amplitude, q.rEff, q.n, q.x0, q.y0, q.ellip, q.theta), ⟨hq.1, hq.2, g1, g2⟩, sersicAt_surj q⟩

theorem recovers_near {q q' : SersicP} {ε : ℝ} (hx : q'.x0 = tr.x0) (hy : q'.y0 = tr.y0) (h1 : q.amplitude = tr.amplitude) (h2 : q.rEff = tr.rEff)
    (h3 : q.n = tr.n) (h4 : q.ellip = tr.ellip) (h5 : tr.ellip ≠ 0 → ∃ k : ℤ, q.theta = tr.theta + k * Real.pi) (hn : SersicP.Near ε q q') :
    SersicP.Recovers ε tr q' := by
  obtain ⟨n1, n2, n3, -, -, n6, n7⟩ := hn
  rw [h1] at n1
  rw [h2] at n2
  rw [h3] at n3
  rw [h4] at n6
  refine ⟨hx, hy, n1, n2, n3, n6, fun h0 => ?_⟩
  obtain ⟨k, hk⟩ := h5 h0
  exact ⟨k, hk ▸ n7⟩

/-- From stable parameters to stable fits, and to noise. -/
theorem recovers_of_stable {P : SersicP → Prop} {η ε : ℝ} (hη : 0 < η) (hP : ∀ q, ok q → P q) (ht : ok tr)
    (hst : ∀ q, P q → fitDist h w use mask weights (pixelsOf q.at_) (pixelsOf tr.at_) < η → SersicP.Recovers ε tr q) :
    ∃ η' > 0, (∀ fitter f m0 fit, BestFitter SersicP.at_ ok fitter → fitModel fitter (nanImage h w use f) mask m0 weights = .ok fit →
        fitDist h w use mask weights f (pixelsOf tr.at_) < η' → SersicP.Recovers ε tr fit) ∧
      ∀ (Ω : Type) [MeasurableSpace Ω] (μ : Measure Ω) [IsProbabilityMeasure μ] (X : Nat → Nat → Ω → ℝ) (σ : Nat → Nat → ℝ),
        (∀ i j, i < h → j < w → MemLp (X i j) 2 μ) → (∀ i j, i < h → j < w → ∫ ω, (X i j ω - tr.at_ j i) ^ 2 ∂μ ≤ σ i j ^ 2) →
        ∀ fitter, BestFitter SersicP.at_ ok fitter →
          μ {ω | ∃ m0 fit, fitModel fitter (nanImage h w use fun i j => X i j ω) mask m0 weights = .ok fit ∧ ¬ SersicP.Recovers ε tr fit} ≤
            ENNReal.ofReal (fitDist h w use mask weights σ (fun _ _ => 0) / η') := by
  refine ⟨η / 4, by linarith, fun fitter f m0 fit law hfit hf => ?_, fun Ω _ μ _ X σ hL hσ fitter law => ?_⟩
  · exact hst fit (hP fit (fit_allowed law hfit)) ((C165_image law hfit ht).trans_lt (by linarith))
  · have h1 := C165_noise (use := use) (mask := mask) (weights := weights) (fam := SersicP.at_) (truth := tr) hL hσ law ht hη
      (U := {q | SersicP.Recovers ε tr q}) fun q hq hd => hst q (hP q hq) hd
    refine h1.trans (le_of_eq ?_)
    congr 1
    field_simp

theorem sersic_radii_ne {A b p s t : ℝ} (hA : 0 < A) (hb : 0 < b) (hp : 0 < p) (hs : 0 ≤ s) (hst : s < t) :
    A * Real.exp (-b * (s ^ p - 1)) ≠ A * Real.exp (-b * (t ^ p - 1)) := by
  have h1 := Real.rpow_lt_rpow hs hst hp
  refine (mul_lt_mul_of_pos_left (Real.exp_lt_exp.2 ?_) hA).ne'
  nlinarith

/-- **C165, known geometry.** Fit a Sersic model with the geometry held fixed and the other parameters inside the default bounds. If three of
the fitted pixels have different elliptical radii: for every `ε` there is an `η` such that data within `η` of the true image (in the weighted
sum of squares) give a fit within `ε` of the truth, and with random noise the fit is off by more with a probability of at most the noise
power over `η`. -/
theorem C165_radial (hok : ∀ q, ok q → q.InBounds ∧ q.x0 = tr.x0 ∧ q.y0 = tr.y0 ∧ q.ellip = tr.ellip ∧ q.theta = tr.theta) (ht : ok tr)
    (hA : 0 < tr.amplitude) {i₃ j₃ : Nat} (k1 : CountsIn h w use mask weights i₁ j₁)
    (k2 : CountsIn h w use mask weights i₂ j₂) (k3 : CountsIn h w use mask weights i₃ j₃)
    (h12 : ellRadius j₁ i₁ tr.x0 tr.y0 tr.ellip tr.theta < ellRadius j₂ i₂ tr.x0 tr.y0 tr.ellip tr.theta)
    (h23 : ellRadius j₂ i₂ tr.x0 tr.y0 tr.ellip tr.theta < ellRadius j₃ i₃ tr.x0 tr.y0 tr.ellip tr.theta) {ε : ℝ} (hε : 0 < ε) :
    ∃ η > 0, (∀ fitter f m0 fit, BestFitter SersicP.at_ ok fitter → fitModel fitter (nanImage h w use f) mask m0 weights = .ok fit →
        fitDist h w use mask weights f (pixelsOf tr.at_) < η → SersicP.Recovers ε tr fit) ∧
      ∀ (Ω : Type) [MeasurableSpace Ω] (μ : Measure Ω) [IsProbabilityMeasure μ] (X : Nat → Nat → Ω → ℝ) (σ : Nat → Nat → ℝ),
        (∀ i j, i < h → j < w → MemLp (X i j) 2 μ) → (∀ i j, i < h → j < w → ∫ ω, (X i j ω - tr.at_ j i) ^ 2 ∂μ ≤ σ i j ^ 2) →
        ∀ fitter, BestFitter SersicP.at_ ok fitter →
          μ {ω | ∃ m0 fit, fitModel fitter (nanImage h w use fun i j => X i j ω) mask m0 weights = .ok fit ∧ ¬ SersicP.Recovers ε tr fit} ≤
            ENNReal.ofReal (fitDist h w use mask weights σ (fun _ _ => 0) / η) := by
  obtain ⟨hr', hn', -, -⟩ := inBounds_pos (hok tr ht).1
  have hne : tr.at_ j₁ i₁ ≠ tr.at_ j₂ i₂ := by
    unfold SersicP.at_
    rw [sersic2D_radius hr', sersic2D_radius hr']
    exact sersic_radii_ne hA (bn_pos hn') (one_div_pos.2 hn') (div_nonneg (Real.sqrt_nonneg _) hr'.le) (div_lt_div_of_pos_right h12 hr')
  obtain ⟨η, hη, hst⟩ := C165_sersic (lo := tr) (hi := tr) k1 k2 hne {q | q.x0 = tr.x0 → q.y0 = tr.y0 → SersicP.Recovers ε tr q} fun q hb hg hsame => by
    obtain ⟨⟨a1, a2⟩, ⟨a3, a4⟩, ⟨a5, a6⟩, a7, a8⟩ := hg
    have hx0 := le_antisymm a2 a1
    have hy0 := le_antisymm a4 a3
    have he := le_antisymm a6 a5
    have hth := le_antisymm a8 a7
    obtain ⟨hr, hn, -, -⟩ := inBounds_pos hb
    have e : ∀ i j : Nat, CountsIn h w use mask weights i j →
        q.amplitude * Real.exp (-bn q.n * ((ellRadius j i tr.x0 tr.y0 tr.ellip tr.theta / q.rEff) ^ (1 / q.n) - 1)) =
        tr.amplitude * Real.exp (-bn tr.n * ((ellRadius j i tr.x0 tr.y0 tr.ellip tr.theta / tr.rEff) ^ (1 / tr.n) - 1)) := by
      intro i j hc
      have h1 := hsame i j hc
      unfold SersicP.at_ at h1
      rw [hx0, hy0, he, hth] at h1
      rwa [sersic2D_radius hr, sersic2D_radius hr'] at h1
    obtain ⟨g1, g2, g3⟩ := sersic_params_unique hA hr' hr hn' hn (Real.sqrt_nonneg _) h12 h23 fun z hz => by
      rcases hz with rfl | rfl | rfl
      · exact e _ _ k1
      · exact e _ _ k2
      · exact e _ _ k3
    exact ⟨ε, hε, fun q' hq' h1 h2 => recovers_near h1 h2 g1 g2 g3 he (fun _ => ⟨0, by simp [hth]⟩) hq'⟩
  refine recovers_of_stable (P := fun q => q.InBounds ∧ q.x0 = tr.x0 ∧ q.y0 = tr.y0 ∧ q.ellip = tr.ellip ∧ q.theta = tr.theta) hη hok ht fun q hq hd => ?_
  obtain ⟨hb, hx, hy, he, hth⟩ := hq
  exact hst q ⟨hb, ⟨hx.ge, hx.le⟩, ⟨hy.ge, hy.le⟩, ⟨he.ge, he.le⟩, hth.ge, hth.le⟩ hd hx hy

/-- **C165, known centre.** With only the centre held fixed, at a pixel, and that pixel, the next two to the right, the one above and the one
above and to the right fitted: for every `ε` there is an `η` such that data within `η` of the true image give a fit within `ε` of the truth
(amplitude, effective radius, index, ellipticity, and angle up to half turns unless the galaxy is round), and with random noise the fit is
off by more with a probability of at most the noise power over `η`. -/
theorem C165_centre {ci cj : Nat} (hok : ∀ q, ok q → q.InBounds ∧ q.x0 = cj ∧ q.y0 = ci) (ht : ok tr) (hA : 0 < tr.amplitude)
    (k00 : CountsIn h w use mask weights ci cj) (k01 : CountsIn h w use mask weights ci (cj + 1))
    (k02 : CountsIn h w use mask weights ci (cj + 2)) (k10 : CountsIn h w use mask weights (ci + 1) cj)
    (k11 : CountsIn h w use mask weights (ci + 1) (cj + 1)) {ε : ℝ} (hε : 0 < ε) :
    ∃ η > 0, (∀ fitter f m0 fit, BestFitter SersicP.at_ ok fitter → fitModel fitter (nanImage h w use f) mask m0 weights = .ok fit →
        fitDist h w use mask weights f (pixelsOf tr.at_) < η → SersicP.Recovers ε tr fit) ∧
      ∀ (Ω : Type) [MeasurableSpace Ω] (μ : Measure Ω) [IsProbabilityMeasure μ] (X : Nat → Nat → Ω → ℝ) (σ : Nat → Nat → ℝ),
        (∀ i j, i < h → j < w → MemLp (X i j) 2 μ) → (∀ i j, i < h → j < w → ∫ ω, (X i j ω - tr.at_ j i) ^ 2 ∂μ ≤ σ i j ^ 2) →
        ∀ fitter, BestFitter SersicP.at_ ok fitter →
          μ {ω | ∃ m0 fit, fitModel fitter (nanImage h w use fun i j => X i j ω) mask m0 weights = .ok fit ∧ ¬ SersicP.Recovers ε tr fit} ≤
            ENNReal.ofReal (fitDist h w use mask weights σ (fun _ _ => 0) / η) := by
  obtain ⟨hb', hx0', hy0'⟩ := hok tr ht
  obtain ⟨hr', hn', he', he1'⟩ := inBounds_pos hb'
  have hne : tr.at_ (cj : Nat) (ci : Nat) ≠ tr.at_ ((cj + 1 : Nat) : ℝ) (ci : Nat) := by
    unfold SersicP.at_
    rw [sersic2D_scaled, sersic2D_scaled, hx0', hy0']
    refine sersic_radii_ne hA (bn_pos hn') (one_div_pos.2 hn') (Real.sqrt_nonneg _) (Real.sqrt_lt_sqrt (scaledSq_nonneg _ _ _ _ _) ?_)
    have h1 := scaledSq_pos hr' (by linarith : 0 < 1 - tr.ellip) tr.theta (dx := ((cj + 1 : Nat) : ℝ) - cj) (dy := (ci : ℝ) - ci) (Or.inl (by push_cast; simp))
    have h2 : scaledSq tr.rEff (1 - tr.ellip) tr.theta ((cj : ℝ) - cj) ((ci : ℝ) - ci) = 0 := by simp [scaledSq]
    rw [h2]
    exact h1
  obtain ⟨η, hη, hst⟩ := C165_sersic (lo := ⟨0, 0, 0, cj, ci, 0, -2 * Real.pi⟩) (hi := ⟨0, 0, 0, cj, ci, 99 / 100, 2 * Real.pi⟩) k00 k01 hne
      {q | q.x0 = tr.x0 → q.y0 = tr.y0 → SersicP.Recovers ε tr q} fun q hb hg hsame => by
    obtain ⟨⟨a1, a2⟩, ⟨a3, a4⟩, -, -⟩ := hg
    have hx0 : q.x0 = cj := le_antisymm a2 a1
    have hy0 : q.y0 = ci := le_antisymm a4 a3
    obtain ⟨hr, hn, he, he1⟩ := inBounds_pos hb
    obtain ⟨g1, g2, g3, g4, g5⟩ := sersic_centre_unique (x0 := (cj : ℝ)) (y0 := (ci : ℝ)) (t := tr.theta) (t' := q.theta) hA hr' hr hn' hn he' he1' he he1 fun d hd => by
      have h1 : ∀ i j : Nat, CountsIn h w use mask weights i j →
          sersic2D j i q.amplitude q.rEff q.n cj ci q.ellip q.theta = sersic2D j i tr.amplitude tr.rEff tr.n cj ci tr.ellip tr.theta := by
        intro i j hc
        have h2 := hsame i j hc
        unfold SersicP.at_ at h2
        rwa [hx0, hy0, hx0', hy0'] at h2
      have a00 := h1 _ _ k00
      have a01 := h1 _ _ k01
      have a02 := h1 _ _ k02
      have a10 := h1 _ _ k10
      have a11 := h1 _ _ k11
      push_cast at a01 a02 a10 a11
      rcases hd with rfl | rfl | rfl | rfl | rfl
      · simpa using a00
      · simpa using a01
      · simpa using a02
      · simpa using a10
      · simpa using a11
    exact ⟨ε, hε, fun q' hq' h1 h2 => recovers_near h1 h2 g1 g2 g3 g4 g5 hq'⟩
  refine recovers_of_stable (P := fun q => q.InBounds ∧ q.x0 = cj ∧ q.y0 = ci) hη hok ht fun q hq hd => ?_
  obtain ⟨hb, hx, hy⟩ := hq
  exact hst q ⟨hb, ⟨hx.ge, hx.le⟩, ⟨hy.ge, hy.le⟩, hb.2.2.2.1, hb.2.2.2.2⟩ hd (hx.trans hx0'.symm) (hy.trans hy0'.symm)

/-- **C165, consistency.** As the noise of the images goes to zero (for instance in ever deeper stacks), the fitted parameters converge to the
true ones in probability, whatever the law of the noise. -/
theorem C165_consistent {ci cj : Nat} (hok : ∀ q, ok q → q.InBounds ∧ q.x0 = cj ∧ q.y0 = ci) (ht : ok tr) (hA : 0 < tr.amplitude)
    (k00 : CountsIn h w use mask weights ci cj) (k01 : CountsIn h w use mask weights ci (cj + 1))
    (k02 : CountsIn h w use mask weights ci (cj + 2)) (k10 : CountsIn h w use mask weights (ci + 1) cj)
    (k11 : CountsIn h w use mask weights (ci + 1) (cj + 1)) {Ω : Type} [MeasurableSpace Ω] {μ : Measure Ω} [IsProbabilityMeasure μ]
    {X : ℕ → Nat → Nat → Ω → ℝ} {σ : ℕ → Nat → Nat → ℝ} (hX : ∀ k, PixelNoise μ h w (X k) (pixelsOf tr.at_) (σ k))
    (hσ : ∀ i j, Tendsto (fun k => σ k i j) atTop (𝓝 0)) {fitter : SersicP → FitData ℝ → Except PyErr SersicP}
    (law : BestFitter SersicP.at_ ok fitter) {ε : ℝ} (hε : 0 < ε) :
    Tendsto (fun k => μ {ω | ∃ m0 fit, fitModel fitter (nanImage h w use fun i j => X k i j ω) mask m0 weights = .ok fit ∧
      ¬ SersicP.Recovers ε tr fit}) atTop (𝓝 0) := by
  obtain ⟨η, hη, -, hp⟩ := C165_centre hok ht hA k00 k01 k02 k10 k11 hε
  have hb : ∀ k, μ {ω | ∃ m0 fit, fitModel fitter (nanImage h w use fun i j => X k i j ω) mask m0 weights = .ok fit ∧
      ¬ SersicP.Recovers ε tr fit} ≤ ENNReal.ofReal (fitDist h w use mask weights (σ k) (fun _ _ => 0) / η) := by
    intro k
    refine hp Ω μ (X k) (σ k) (hX k).memLp (fun i j hi hj => ?_) fitter law
    have h1 := (hX k).var i j hi hj
    rw [ProbabilityTheory.variance_eq_integral ((hX k).memLp i j hi hj).aemeasurable, (hX k).mean i j hi hj] at h1
    exact h1.le
  refine tendsto_of_tendsto_of_tendsto_of_le_of_le tendsto_const_nhds ?_ (fun k => zero_le) hb
  rw [← ENNReal.ofReal_zero]
  refine ENNReal.tendsto_ofReal ?_
  have h1 : Tendsto (fun k => fitDist h w use mask weights (σ k) (fun _ _ => 0)) atTop (𝓝 0) := by
    have h2 : Tendsto (fun k => fitDist h w use mask weights (σ k) (fun _ _ => 0)) atTop (𝓝 (fitDist h w use mask weights (fun _ _ => 0) (fun _ _ => 0))) := by
      unfold fitDist
      refine tendsto_finsetSum _ fun p _ => ?_
      split
      · exact (((hσ p.1 p.2).sub tendsto_const_nhds).const_mul _).pow 2
      · exact tendsto_const_nhds
    have h3 : fitDist h w use mask weights (fun _ _ => 0) (fun _ _ => 0) = 0 := by simp [fitDist]
    rwa [h3] at h2
  have := h1.div_const η
  rwa [zero_div] at this

/-- A 3 × 3 image of a galaxy with index 4 and ellipticity 1/2, centred on the first pixel, with a small error in every pixel: a fit with the
centre held fixed exists, and its index is within 1/10 of 4. -/
example : ∃ δ > 0, ∀ f : Nat → Nat → ℝ, (∀ i j, |f i j - SersicP.at_ ⟨10, 2, 4, 0, 0, 1 / 2, 1⟩ j i| < δ) → ∀ m0,
    ∃ fit, fitModel (chosenFitter SersicP.at_ fun q => q.InBounds ∧ SersicP.GeometryIn ⟨0, 0, 0, 0, 0, 0, -2 * Real.pi⟩ ⟨0, 0, 0, 0, 0, 99 / 100, 2 * Real.pi⟩ q)
      (nanImage 3 3 (fun _ _ => true) f) (fun _ _ => false) m0 none = .ok fit ∧ |fit.n - 4| < 1 / 10 := by
  have hpi := Real.pi_gt_three
  have hb : (⟨10, 2, 4, 0, 0, 1 / 2, 1⟩ : SersicP).InBounds := by
    refine ⟨by norm_num, by norm_num, ⟨by norm_num, by norm_num⟩, ⟨by norm_num, by norm_num⟩, ⟨?_, ?_⟩⟩ <;> simp only <;> linarith
  have ht : (⟨10, 2, 4, 0, 0, 1 / 2, 1⟩ : SersicP).InBounds ∧
      SersicP.GeometryIn ⟨0, 0, 0, 0, 0, 0, -2 * Real.pi⟩ ⟨0, 0, 0, 0, 0, 99 / 100, 2 * Real.pi⟩ ⟨10, 2, 4, 0, 0, 1 / 2, 1⟩ :=
    ⟨hb, ⟨le_rfl, le_rfl⟩, ⟨le_rfl, le_rfl⟩, hb.2.2.2.1, hb.2.2.2.2⟩
  have hc : ∀ i j, i < 3 → j < 3 → CountsIn 3 3 (fun _ _ => true) (fun _ _ => false) none i j := fun i j hi hj =>
    ⟨hi, hj, rfl, rfl, one_ne_zero⟩
  obtain ⟨hr', hn', he', he1'⟩ := inBounds_pos hb
  have hne : SersicP.at_ ⟨10, 2, 4, 0, 0, 1 / 2, 1⟩ (0 : Nat) (0 : Nat) ≠ SersicP.at_ ⟨10, 2, 4, 0, 0, 1 / 2, 1⟩ (1 : Nat) (0 : Nat) := by
    unfold SersicP.at_
    rw [sersic2D_scaled, sersic2D_scaled]
    refine sersic_radii_ne (by norm_num) (bn_pos hn') (one_div_pos.2 hn') (Real.sqrt_nonneg _) (Real.sqrt_lt_sqrt (scaledSq_nonneg _ _ _ _ _) ?_)
    have h1 := scaledSq_pos (r := 2) (q := 1 - 1 / 2) (by norm_num) (by norm_num) 1 (dx := ((1 : Nat) : ℝ) - 0) (dy := ((0 : Nat) : ℝ) - 0) (Or.inl (by norm_num))
    have h2 : scaledSq 2 (1 - 1 / 2) 1 (((0 : Nat) : ℝ) - 0) (((0 : Nat) : ℝ) - 0) = 0 := by simp [scaledSq]
    simp only
    rw [h2]
    exact h1
  obtain ⟨η₁, hη₁, hex⟩ := C165_exists (hc 0 0 (by norm_num) (by norm_num)) (hc 0 1 (by norm_num) (by norm_num)) hne ht (by simp)
  obtain ⟨η₂, hη₂, hst, -⟩ := C165_centre (ci := 0) (cj := 0) (ok := fun q => q.InBounds ∧
      SersicP.GeometryIn ⟨0, 0, 0, 0, 0, 0, -2 * Real.pi⟩ ⟨0, 0, 0, 0, 0, 99 / 100, 2 * Real.pi⟩ q)
    (fun q hq => ⟨hq.1, by simpa using le_antisymm hq.2.1.2 hq.2.1.1, by simpa using le_antisymm hq.2.2.1.2 hq.2.2.1.1⟩) ht (by norm_num)
    (hc 0 0 (by norm_num) (by norm_num)) (hc 0 1 (by norm_num) (by norm_num)) (hc 0 2 (by norm_num) (by norm_num))
    (hc 1 0 (by norm_num) (by norm_num)) (hc 1 1 (by norm_num) (by norm_num)) (ε := 1 / 10) (by norm_num)
  have hpos : 0 < min 1 (min η₁ η₂ / 10) := by positivity
  refine ⟨min 1 (min η₁ η₂ / 10), hpos, fun f hf m0 => ?_⟩
  have hd : fitDist 3 3 (fun _ _ => true) (fun _ _ => false) none f (pixelsOf (SersicP.at_ ⟨10, 2, 4, 0, 0, 1 / 2, 1⟩)) < min η₁ η₂ := by
    have h1 : fitDist 3 3 (fun _ _ => true) (fun _ _ => false) none f (pixelsOf (SersicP.at_ ⟨10, 2, 4, 0, 0, 1 / 2, 1⟩)) ≤
        ∑ p ∈ Finset.range 3 ×ˢ Finset.range 3, min η₁ η₂ / 10 := by
      unfold fitDist
      refine Finset.sum_le_sum fun p _ => ?_
      simp only [and_self, if_true, weightAt, one_mul, pixelsOf]
      have h2 := hf p.1 p.2
      have h3 := h2.trans_le (min_le_left _ _)
      have h4 := h2.trans_le (min_le_right _ _)
      rw [← sq_abs]
      nlinarith [abs_nonneg (f p.1 p.2 - SersicP.at_ ⟨10, 2, 4, 0, 0, 1 / 2, 1⟩ p.2 p.1)]
    have h5 : 0 < min η₁ η₂ := lt_min hη₁ hη₂
    rw [Finset.sum_const, Finset.card_product, Finset.card_range, nsmul_eq_mul] at h1
    push_cast at h1
    linarith
  obtain ⟨fit, hfit⟩ := hex f m0 (hd.trans_le (min_le_left _ _))
  exact ⟨fit, hfit, (hst _ f m0 fit (chosenFitter_law _ _) hfit (hd.trans_le (min_le_right _ _))).2.2.2.2.1⟩

end Verif.Props

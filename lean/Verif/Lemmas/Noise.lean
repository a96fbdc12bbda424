import Verif.Spec.Noise
import Verif.Spec.Photometry
import Mathlib.Probability.Distributions.Gaussian.Real
import Mathlib.Probability.Independence.Basic

/-!
# Sums over the pixels of a noisy image
-/

set_option linter.unusedSectionVars false

namespace Verif.Lemmas

open Verif Spec MeasureTheory ProbabilityTheory

theorem weightedSum_product {K : Type} [Field K] (a : Nat → Nat → K) (h w : Nat) (use : Nat → Nat → Bool) (f : Nat → Nat → K) :
    weightedSum a h w use f =
      ∑ p ∈ Finset.range h ×ˢ Finset.range w, (if use p.1 p.2 then a p.1 p.2 else 0) * f p.1 p.2 := by
  unfold weightedSum
  rw [Finset.sum_product]
  refine Finset.sum_congr rfl fun i _ => Finset.sum_congr rfl fun j _ => ?_
  split <;> ring

variable {Ω : Type} [MeasurableSpace Ω] {μ : Measure Ω} [IsProbabilityMeasure μ] {h w : Nat} {X : Nat → Nat → Ω → ℝ}
  {m σ : Nat → Nat → ℝ}

theorem noise_memLp (hX : PixelNoise μ h w X m σ) (a : Nat → Nat → ℝ) (use : Nat → Nat → Bool) :
    MemLp (fun ω => weightedSum a h w use fun i j => X i j ω) 2 μ := by
  simp only [weightedSum_product]
  refine memLp_finsetSum _ fun p hp => ?_
  rw [Finset.mem_product, Finset.mem_range, Finset.mem_range] at hp
  exact (hX.memLp p.1 p.2 hp.1 hp.2).const_mul _

/-- The expected weighted sum is the weighted sum of the means. -/
theorem noise_mean (hX : PixelNoise μ h w X m σ) (a : Nat → Nat → ℝ) (use : Nat → Nat → Bool) :
    ∫ ω, weightedSum a h w use (fun i j => X i j ω) ∂μ = weightedSum a h w use m := by
  simp only [weightedSum_product]
  rw [integral_finsetSum]
  · refine Finset.sum_congr rfl fun p hp => ?_
    rw [Finset.mem_product, Finset.mem_range, Finset.mem_range] at hp
    rw [integral_const_mul, hX.mean p.1 p.2 hp.1 hp.2]
  · intro p hp
    rw [Finset.mem_product, Finset.mem_range, Finset.mem_range] at hp
    exact ((hX.memLp p.1 p.2 hp.1 hp.2).integrable (by norm_num)).const_mul _

/-- The covariance of two weighted sums over the same image. -/
theorem noise_cov (hX : PixelNoise μ h w X m σ) (a b : Nat → Nat → ℝ) (use : Nat → Nat → Bool) :
    cov[fun ω => weightedSum a h w use fun i j => X i j ω, fun ω => weightedSum b h w use fun i j => X i j ω; μ] =
      weightedSum (fun i j => a i j * b i j) h w use (fun i j => σ i j ^ 2) := by
  simp only [weightedSum_product]
  rw [covariance_fun_sum_fun_sum']
  rotate_left
  · intro p hp
    rw [Finset.mem_product, Finset.mem_range, Finset.mem_range] at hp
    exact (hX.memLp p.1 p.2 hp.1 hp.2).const_mul _
  · intro p hp
    rw [Finset.mem_product, Finset.mem_range, Finset.mem_range] at hp
    exact (hX.memLp p.1 p.2 hp.1 hp.2).const_mul _
  refine Finset.sum_congr rfl fun p hp => ?_
  rw [Finset.sum_eq_single p]
  · rw [covariance_const_mul_left, covariance_const_mul_right]
    rw [Finset.mem_product, Finset.mem_range, Finset.mem_range] at hp
    have h1 := hX.memLp p.1 p.2 hp.1 hp.2
    rw [covariance_self h1.aestronglyMeasurable.aemeasurable, hX.var p.1 p.2 hp.1 hp.2]
    split <;> ring
  · intro p' hp' hne
    rw [Finset.mem_product, Finset.mem_range, Finset.mem_range] at hp hp'
    rw [covariance_const_mul_left, covariance_const_mul_right,
      hX.uncorrelated p.1 p.2 p'.1 p'.2 hp.1 hp.2 hp'.1 hp'.2 (by simpa [Prod.ext_iff, eq_comm] using hne)]
    ring
  · intro hp'
    exact absurd hp hp'

/-- The variance of a weighted sum. -/
theorem noise_var (hX : PixelNoise μ h w X m σ) (a : Nat → Nat → ℝ) (use : Nat → Nat → Bool) :
    Var[fun ω => weightedSum a h w use fun i j => X i j ω; μ] =
      weightedSum (fun i j => a i j ^ 2) h w use (fun i j => σ i j ^ 2) := by
  rw [← covariance_self (noise_memLp hX a use).aestronglyMeasurable.aemeasurable, noise_cov hX]
  simp only [sq]

/-- Uncorrelated noise is a case of correlated noise. -/
theorem _root_.Verif.Spec.PixelNoise.correlated (hX : PixelNoise μ h w X m σ) {v : ℝ} (hv : ∀ i j, i < h → j < w → σ i j ^ 2 ≤ v) :
    CorrelatedNoise μ h w X m v := by
  refine ⟨hX.memLp, hX.mean, fun i j hi hj => ?_⟩
  rw [Finset.sum_eq_single (i, j)]
  · rw [covariance_self (hX.memLp i j hi hj).aestronglyMeasurable.aemeasurable, hX.var i j hi hj, abs_of_nonneg (sq_nonneg _)]
    exact hv i j hi hj
  · intro p hp hne
    rw [Finset.mem_product, Finset.mem_range, Finset.mem_range] at hp
    rw [hX.uncorrelated i j p.1 p.2 hi hj hp.1 hp.2 (by simpa [Prod.ext_iff, eq_comm] using hne), abs_zero]
  · intro hp
    exact absurd (Finset.mem_product.2 ⟨Finset.mem_range.2 hi, Finset.mem_range.2 hj⟩) hp

theorem corr_memLp {v : ℝ} (hX : CorrelatedNoise μ h w X m v) (a : Nat → Nat → ℝ) (use : Nat → Nat → Bool) :
    MemLp (fun ω => weightedSum a h w use fun i j => X i j ω) 2 μ := by
  simp only [weightedSum_product]
  refine memLp_finsetSum _ fun p hp => ?_
  rw [Finset.mem_product, Finset.mem_range, Finset.mem_range] at hp
  exact (hX.memLp p.1 p.2 hp.1 hp.2).const_mul _

theorem corr_mean {v : ℝ} (hX : CorrelatedNoise μ h w X m v) (a : Nat → Nat → ℝ) (use : Nat → Nat → Bool) :
    ∫ ω, weightedSum a h w use (fun i j => X i j ω) ∂μ = weightedSum a h w use m := by
  simp only [weightedSum_product]
  rw [integral_finsetSum]
  · refine Finset.sum_congr rfl fun p hp => ?_
    rw [Finset.mem_product, Finset.mem_range, Finset.mem_range] at hp
    rw [integral_const_mul, hX.mean p.1 p.2 hp.1 hp.2]
  · intro p hp
    rw [Finset.mem_product, Finset.mem_range, Finset.mem_range] at hp
    exact ((hX.memLp p.1 p.2 hp.1 hp.2).integrable (by norm_num)).const_mul _

/-- The variance of a sum with weights between 0 and 1 over correlated pixels. -/
theorem corr_var {v : ℝ} (hX : CorrelatedNoise μ h w X m v) {a : Nat → Nat → ℝ} (use : Nat → Nat → Bool) (h0 : ∀ i j, 0 ≤ a i j)
    (h1 : ∀ i j, a i j ≤ 1) :
    Var[fun ω => weightedSum a h w use fun i j => X i j ω; μ] ≤ weightedSum a h w use fun _ _ => v := by
  rw [← covariance_self (corr_memLp hX a use).aestronglyMeasurable.aemeasurable]
  simp only [weightedSum_product]
  have hmem : ∀ p ∈ Finset.range h ×ˢ Finset.range w, MemLp (fun ω => (if use p.1 p.2 then a p.1 p.2 else 0) * X p.1 p.2 ω) 2 μ := by
    intro p hp
    rw [Finset.mem_product, Finset.mem_range, Finset.mem_range] at hp
    exact (hX.memLp p.1 p.2 hp.1 hp.2).const_mul _
  rw [covariance_fun_sum_fun_sum' hmem hmem]
  refine Finset.sum_le_sum fun p hp => ?_
  set c : Nat × Nat → ℝ := fun p => if use p.1 p.2 then a p.1 p.2 else 0 with hc
  have c0 : ∀ p, 0 ≤ c p := fun p => by simp only [hc]; split <;> [exact h0 _ _; exact le_rfl]
  have c1 : ∀ p, c p ≤ 1 := fun p => by simp only [hc]; split <;> [exact h1 _ _; exact zero_le_one]
  have hp' := hp
  rw [Finset.mem_product, Finset.mem_range, Finset.mem_range] at hp'
  refine le_trans ?_ (mul_le_mul_of_nonneg_left (hX.cov p.1 p.2 hp'.1 hp'.2) (c0 p))
  rw [Finset.mul_sum]
  refine Finset.sum_le_sum fun q _ => ?_
  rw [covariance_const_mul_left, covariance_const_mul_right]
  change c p * (c q * _) ≤ _
  refine mul_le_mul_of_nonneg_left ?_ (c0 p)
  refine (le_abs_self _).trans ?_
  rw [abs_mul, abs_of_nonneg (c0 q)]
  exact mul_le_of_le_one_left (abs_nonneg _) (c1 q)

/-- An image made from the pixels of another by sums, as resampling, drizzling, smoothing and matching of PSFs do. -/
theorem resampled_noise {h' w' : Nat} (hX : PixelNoise μ h w X m σ) {v A B : ℝ} (hv : ∀ i j, i < h → j < w → σ i j ^ 2 ≤ v) (hv0 : 0 ≤ v)
    (hB0 : 0 ≤ B) (k : Nat → Nat → Nat → Nat → ℝ)
    (hA : ∀ i j, i < h' → j < w' → ∑ p ∈ Finset.range h ×ˢ Finset.range w, |k i j p.1 p.2| ≤ A)
    (hB : ∀ i j, i < h → j < w → ∑ p ∈ Finset.range h' ×ˢ Finset.range w', |k p.1 p.2 i j| ≤ B) :
    CorrelatedNoise μ h' w' (fun i j ω => weightedSum (k i j) h w (fun _ _ => true) fun a b => X a b ω)
      (fun i j => weightedSum (k i j) h w (fun _ _ => true) m) (A * (v * B)) := by
  refine ⟨fun i j _ _ => noise_memLp hX _ _, fun i j _ _ => noise_mean hX _ _, fun i j hi hj => ?_⟩
  have e : ∀ p : Nat × Nat, |cov[fun ω => weightedSum (k i j) h w (fun _ _ => true) fun a b => X a b ω,
      fun ω => weightedSum (k p.1 p.2) h w (fun _ _ => true) fun a b => X a b ω; μ]| ≤
      ∑ q ∈ Finset.range h ×ˢ Finset.range w, |k i j q.1 q.2| * (v * |k p.1 p.2 q.1 q.2|) := by
    intro p
    rw [noise_cov hX, weightedSum_product]
    refine (Finset.abs_sum_le_sum_abs _ _).trans (Finset.sum_le_sum fun q hq => ?_)
    rw [Finset.mem_product, Finset.mem_range, Finset.mem_range] at hq
    simp only [if_true]
    rw [abs_mul, abs_mul, abs_of_nonneg (sq_nonneg (σ q.1 q.2))]
    have := mul_le_mul_of_nonneg_left (hv q.1 q.2 hq.1 hq.2) (mul_nonneg (abs_nonneg (k i j q.1 q.2)) (abs_nonneg (k p.1 p.2 q.1 q.2)))
    linarith
  refine (Finset.sum_le_sum fun p _ => e p).trans ?_
  rw [Finset.sum_comm]
  have e2 : ∀ q ∈ Finset.range h ×ˢ Finset.range w, ∑ p ∈ Finset.range h' ×ˢ Finset.range w', |k i j q.1 q.2| * (v * |k p.1 p.2 q.1 q.2|) ≤
      |k i j q.1 q.2| * (v * B) := by
    intro q hq
    rw [Finset.mem_product, Finset.mem_range, Finset.mem_range] at hq
    rw [← Finset.mul_sum, ← Finset.mul_sum]
    exact mul_le_mul_of_nonneg_left (mul_le_mul_of_nonneg_left (hB q.1 q.2 hq.1 hq.2) hv0) (abs_nonneg _)
  refine (Finset.sum_le_sum e2).trans ?_
  rw [← Finset.sum_mul]
  exact mul_le_mul_of_nonneg_right (hA i j hi hj) (mul_nonneg hv0 hB0)

theorem weightedSum_wt_sub {K : Type} [Field K] (a b : Nat → Nat → K) (h w : Nat) (use : Nat → Nat → Bool) (f : Nat → Nat → K) :
    weightedSum (fun i j => a i j - b i j) h w use f = weightedSum a h w use f - weightedSum b h w use f := by
  simp only [weightedSum_product, ← Finset.sum_sub_distrib]
  refine Finset.sum_congr rfl fun p _ => ?_
  split <;> ring

theorem weightedSum_wt_comb {K : Type} [Field K] (c d : K) (a b : Nat → Nat → K) (h w : Nat) (use : Nat → Nat → Bool)
    (f : Nat → Nat → K) :
    weightedSum (fun i j => c * a i j + d * b i j) h w use f = c * weightedSum a h w use f + d * weightedSum b h w use f := by
  simp only [weightedSum_product, Finset.mul_sum, ← Finset.sum_add_distrib]
  refine Finset.sum_congr rfl fun p _ => ?_
  split <;> ring

/-- One Gaussian pixel. -/
def gaussPixel (m σ x : ℝ) : ℝ := m + σ * x

/-- An image of independent Gaussian pixels. -/
def gaussImage (h w : Nat) (m σ : Nat → Nat → ℝ) (i j : Nat) (ω : Fin h × Fin w → ℝ) : ℝ :=
  if hij : i < h ∧ j < w then gaussPixel (m i j) (σ i j) (ω (⟨i, hij.1⟩, ⟨j, hij.2⟩)) else 0

/-- The law of the standard Gaussian field. -/
noncomputable def gaussField (h w : Nat) : Measure (Fin h × Fin w → ℝ) := Measure.pi fun _ => gaussianReal 0 1

instance (h w : Nat) : IsProbabilityMeasure (gaussField h w) := by unfold gaussField; infer_instance

theorem gaussImage_eq (m σ : Nat → Nat → ℝ) (i j : Nat) (hi : i < h) (hj : j < w) :
    gaussImage h w m σ i j = fun ω => gaussPixel (m i j) (σ i j) (ω (⟨i, hi⟩, ⟨j, hj⟩)) := by
  funext ω
  simp only [gaussImage, hi, hj, and_self, dif_pos]

theorem memLp_gauss : MemLp (fun x : ℝ => x) 2 (gaussianReal 0 1) := memLp_id_gaussianReal 2

theorem memLp_gaussPixel (m σ : ℝ) : MemLp (gaussPixel m σ) 2 (gaussianReal 0 1) := by
  have h1 : MemLp (fun _ : ℝ => m) 2 (gaussianReal 0 1) := memLp_const m
  have h2 : MemLp (fun x : ℝ => σ * x) 2 (gaussianReal 0 1) := memLp_gauss.const_mul σ
  have h3 := h1.add h2
  have h4 : gaussPixel m σ = (fun _ : ℝ => m) + fun x : ℝ => σ * x := by
    funext x
    simp [gaussPixel]
  rw [h4]
  exact h3

theorem gauss_eval (p : Fin h × Fin w) : MeasurePreserving (fun ω : Fin h × Fin w → ℝ => ω p) (gaussField h w) (gaussianReal 0 1) :=
  measurePreserving_eval (fun _ : Fin h × Fin w => gaussianReal 0 1) p

/-- For all means and standard deviations there is such an image: independent Gaussian pixels. -/
theorem gaussian_noise (h w : Nat) (m σ : Nat → Nat → ℝ) :
    PixelNoise (gaussField h w) h w (gaussImage h w m σ) m σ := by
  have hmem : ∀ i j, i < h → j < w → MemLp (gaussImage h w m σ i j) 2 (gaussField h w) := by
    intro i j hi hj
    rw [gaussImage_eq m σ i j hi hj]
    exact (memLp_gaussPixel _ _).comp_measurePreserving (gauss_eval _)
  refine ⟨hmem, ?_, ?_, ?_⟩
  · intro i j hi hj
    rw [gaussImage_eq m σ i j hi hj]
    have h1 := integral_map (μ := gaussField h w) (φ := fun ω => ω (⟨i, hi⟩, ⟨j, hj⟩)) (f := gaussPixel (m i j) (σ i j))
      (gauss_eval _).measurable.aemeasurable (by rw [(gauss_eval _).map_eq]; exact (memLp_gaussPixel _ _).aestronglyMeasurable)
    rw [(gauss_eval _).map_eq] at h1
    rw [← h1]
    simp only [gaussPixel]
    rw [integral_add (integrable_const _) ((memLp_gauss.integrable (by norm_num)).const_mul _), integral_const_mul,
      integral_id_gaussianReal]
    simp
  · intro i j hi hj
    rw [gaussImage_eq m σ i j hi hj,
      (gauss_eval (⟨i, hi⟩, ⟨j, hj⟩)).variance_fun_comp (memLp_gaussPixel _ _).aestronglyMeasurable.aemeasurable]
    unfold gaussPixel
    rw [variance_const_add (memLp_gauss.const_mul _).aestronglyMeasurable, variance_const_mul,
      show (fun x : ℝ => x) = id from rfl, variance_id_gaussianReal]
    simp
  · intro i j i' j' hi hj hi' hj' hne
    have hind := iIndepFun_pi (μ := fun _ : Fin h × Fin w => gaussianReal 0 1)
      (X := fun p => gaussPixel (m p.1 p.2) (σ p.1 p.2)) (fun p => (memLp_gaussPixel _ _).aestronglyMeasurable.aemeasurable)
    have h1 : (⟨⟨i, hi⟩, ⟨j, hj⟩⟩ : Fin h × Fin w) ≠ ⟨⟨i', hi'⟩, ⟨j', hj'⟩⟩ := by
      intro hh
      apply hne
      simpa [Prod.ext_iff, Fin.ext_iff] using hh
    have m1 := hmem i j hi hj
    have m2 := hmem i' j' hi' hj'
    rw [gaussImage_eq m σ i j hi hj] at m1 ⊢
    rw [gaussImage_eq m σ i' j' hi' hj'] at m2 ⊢
    exact (hind.indepFun h1).covariance_eq_zero m1 m2

end Verif.Lemmas

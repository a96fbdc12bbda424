import Verif.Lemmas.PlaneNoise
import Verif.Props.Fitting
import Verif.Props.Noise

/-!
# C152: background planes fitted to noisy images
-/

set_option linter.unusedSectionVars false
set_option linter.unusedVariables false

namespace Verif.Spec

/-- An `h × w` image with the values `f`; pixels that are not to be used are NaN (as `masked_segm_image` and `segm_mask` leave them). -/
def nanImage {K : Type} (h w : Nat) (use : Nat → Nat → Bool) (f : Nat → Nat → K) : Img (F K) :=
  ⟨h, w, fun i j => if use i j then .fin (f i j) else .nan⟩

/-- Three of the pixels to be used are not on a line. -/
def UsedSpread (h w : Nat) (use : Nat → Nat → Bool) : Prop :=
  ∃ i₁ j₁ i₂ j₂ i₃ j₃ : Nat, (i₁ < h ∧ j₁ < w ∧ use i₁ j₁ = true) ∧ (i₂ < h ∧ j₂ < w ∧ use i₂ j₂ = true) ∧
    (i₃ < h ∧ j₃ < w ∧ use i₃ j₃ = true) ∧ ((j₂ : Int) - j₁) * ((i₃ : Int) - i₁) - ((j₃ : Int) - j₁) * ((i₂ : Int) - i₁) ≠ 0

/-- The sum over the pixels to be used. -/
def usedSum (h w : Nat) (use : Nat → Nat → Bool) (f : Nat → Nat → ℝ) : ℝ := ∑ i ∈ Finset.range h, ∑ j ∈ Finset.range w, if use i j then f i j else 0

end Verif.Spec

namespace Verif.Props

open Verif F Spec Lemmas MeasureTheory ProbabilityTheory

variable {h w : Nat} {use : Nat → Nat → Bool}

/-- The pixels to be used, as a set. -/
def usedSet (h w : Nat) (use : Nat → Nat → Bool) : Finset (Nat × Nat) := (Finset.range h ×ˢ Finset.range w).filter fun s => use s.1 s.2

theorem usedSum_set (f : Nat → Nat → ℝ) : usedSum h w use f = ∑ s ∈ usedSet h w use, f s.1 s.2 := by
  unfold usedSum usedSet
  rw [Finset.sum_filter, Finset.sum_product]

theorem weightedSum_used (a f : Nat → Nat → ℝ) : weightedSum a h w use f = usedSum h w use fun i j => f i j * a i j := rfl

theorem npWhere_sum (c : Nat → Nat → Bool) (g : Nat × Nat → ℝ) : ((npWhere h w c).map g).sum = ∑ s ∈ usedSet h w c, g s := by
  have hn : (npWhere h w c).Nodup := (npWhere_sorted h w c).imp fun {a b} hab he => by
    subst he
    rcases hab with h | h <;> omega
  rw [← List.sum_toFinset _ hn]
  refine Finset.sum_congr ?_ fun _ _ => rfl
  ext s
  simp only [usedSet, List.mem_toFinset, npWhere_mem, Finset.mem_filter, Finset.mem_product, Finset.mem_range, and_assoc]

theorem keptPixels_nanImage (f : Nat → Nat → ℝ) : keptPixels (nanImage h w use f) (fun _ _ => false) = npWhere h w use := by
  unfold keptPixels nanImage
  congr 1
  funext i j
  cases hu : use i j <;> simp [F.isNaN, hu]

/-- The fitted plane is, at every point, the same weighted sum of the pixels. -/
theorem fit_kernel (hs : UsedSpread h w use) :
    ∃ H : ℝ → ℝ → Plane ℝ, (∀ (P : Plane ℝ) x y, weightedSum (fun i j => (H x y).at_ j i) h w use (fun i j => P.at_ j i) = P.at_ x y) ∧
      (usedSum h w use fun i j => (H j i).at_ j i) = 3 ∧
      ∀ {fitter : Plane ℝ → FitData ℝ → Except PyErr (Plane ℝ)}, LinearFitter fitter → ∀ clip m f,
        ∃ p, fitBackground clip fitter (nanImage h w use f) m none = .ok p ∧
          ∀ x y, p.at_ x y = weightedSum (fun i j => (H x y).at_ j i) h w use f := by
  obtain ⟨i₁, j₁, i₂, j₂, i₃, j₃, k1, k2, k3, hd⟩ := hs
  have hmem : ∀ i j, i < h ∧ j < w ∧ use i j = true → (i, j) ∈ usedSet h w use := fun i j hk => by
    simp [usedSet, hk.1, hk.2.1, hk.2.2]
  have hS : SpreadSet (usedSet h w use) := by
    refine ⟨(i₁, j₁), hmem _ _ k1, (i₂, j₂), hmem _ _ k2, (i₃, j₃), hmem _ _ k3, fun h0 => hd ?_⟩
    have : ((((j₂ : Int) - j₁) * ((i₃ : Int) - i₁) - ((j₃ : Int) - j₁) * ((i₂ : Int) - i₁) : Int) : ℝ) = 0 := by
      push_cast; exact h0
    exact_mod_cast this
  obtain ⟨H, h1, h2⟩ := plane_kernel hS
  have hrep : ∀ (P : Plane ℝ) x y, weightedSum (fun i j => (H x y).at_ j i) h w use (fun i j => P.at_ j i) = P.at_ x y := by
    intro P x y
    rw [weightedSum_used, usedSum_set, ← h1 P x y]
    exact Finset.sum_congr rfl fun s _ => mul_comm _ _
  refine ⟨H, hrep, by rw [usedSum_set]; exact h2, ?_⟩
  intro fitter law clip m f
  have hk : ∀ i j, i < h ∧ j < w ∧ use i j = true → Kept (nanImage h w use f) (fun _ _ => false) i j := fun i j hk =>
    ⟨hk.1, hk.2.1, by simp [nanImage, hk.2.2], rfl⟩
  obtain ⟨p, hp1, hp2⟩ := fitBackground_lsq law clip (nanImage h w use f) none m f
    (fun i j hk => by
      obtain ⟨-, -, h3, -⟩ := hk
      simp only [nanImage] at h3 ⊢
      split at h3
      · rename_i hu; rw [if_pos hu]
      · exact absurd rfl h3)
    ⟨i₁, j₁, i₂, j₂, i₃, j₃, hk _ _ k1, hk _ _ k2, hk _ _ k3, hd⟩
  refine ⟨p, hp1, fun x y => ?_⟩
  have hb : bgMask clip (nanImage h w use f) none = fun _ _ => false := rfl
  rw [hb, keptPixels_nanImage] at hp2
  have hn := lsq_normal hp2 (H x y)
  rw [List.map_map, npWhere_sum] at hn
  simp only [Function.comp_apply, mul_sub, Finset.sum_sub_distrib] at hn
  rw [h1 p x y, sub_eq_zero] at hn
  rw [hn, weightedSum_used, usedSum_set]
  exact Finset.sum_congr rfl fun s _ => mul_comm _ _

theorem usedSpread_nonempty (hs : UsedSpread h w use) : 0 < usedSum h w use fun _ _ => 1 := by
  obtain ⟨i, j, -, -, -, -, k, -⟩ := hs
  rw [usedSum_set, Finset.sum_const, nsmul_eq_mul, mul_one]
  have : 0 < (usedSet h w use).card := Finset.card_pos.2 ⟨(i, j), by simp [usedSet, k.1, k.2.1, k.2.2]⟩
  exact_mod_cast this

variable {Ω : Type} [MeasurableSpace Ω] {μ : Measure Ω} [IsProbabilityMeasure μ] {X : Nat → Nat → Ω → ℝ} {σ : Nat → Nat → ℝ}
  {fitter : Plane ℝ → FitData ℝ → Except PyErr (Plane ℝ)} {clip : Img (F ℝ) → ℝ → Nat → Nat → Bool} {m P : Plane ℝ} {p : Ω → Plane ℝ}

/-- **C152, unbiased.** Fit a plane with `fit_background(image, sigma=None)` to an image that is a plane plus uncorrelated noise of any law.
The fit returns for every realisation, and at every point the expected value of the fitted plane is the value of the true plane. -/
theorem C152_unbiased (law : LinearFitter fitter) (hs : UsedSpread h w use) (clip : Img (F ℝ) → ℝ → Nat → Nat → Bool) (m : Plane ℝ)
    (hX : PixelNoise μ h w X (fun i j => P.at_ j i) σ) :
    ∃ p : Ω → Plane ℝ, (∀ ω, fitBackground clip fitter (nanImage h w use fun i j => X i j ω) m none = .ok (p ω)) ∧
      ∀ x y, MemLp (fun ω => (p ω).at_ x y) 2 μ ∧ ∫ ω, (p ω).at_ x y ∂μ = P.at_ x y := by
  obtain ⟨H, h1, h2, h3⟩ := fit_kernel hs
  choose p hp hv using fun ω => h3 law clip m fun i j => X i j ω
  refine ⟨p, hp, fun x y => ?_⟩
  simp only [hv]
  exact ⟨noise_memLp hX _ _, by rw [noise_mean hX, h1]⟩

theorem fit_value (law : LinearFitter fitter) (hs : UsedSpread h w use)
    (hp : ∀ ω, fitBackground clip fitter (nanImage h w use fun i j => X i j ω) m none = .ok (p ω)) :
    ∃ H : ℝ → ℝ → Plane ℝ, (∀ (P : Plane ℝ) x y, weightedSum (fun i j => (H x y).at_ j i) h w use (fun i j => P.at_ j i) = P.at_ x y) ∧
      (usedSum h w use fun i j => (H j i).at_ j i) = 3 ∧
      ∀ x y ω, (p ω).at_ x y = weightedSum (fun i j => (H x y).at_ j i) h w use fun i j => X i j ω := by
  obtain ⟨H, h1, h2, h3⟩ := fit_kernel hs
  refine ⟨H, h1, h2, fun x y ω => ?_⟩
  obtain ⟨q, hq, hv⟩ := h3 law clip m fun i j => X i j ω
  rw [hp ω] at hq
  injection hq with hq
  rw [hq, hv]

theorem kernel_var (hX : PixelNoise μ h w X (fun i j => P.at_ j i) fun _ _ => s) {H : ℝ → ℝ → Plane ℝ}
    (h1 : ∀ (P : Plane ℝ) x y, weightedSum (fun i j => (H x y).at_ j i) h w use (fun i j => P.at_ j i) = P.at_ x y) (x y : ℝ) :
    Var[fun ω => weightedSum (fun i j => (H x y).at_ j i) h w use fun i j => X i j ω; μ] = (H x y).at_ x y * s ^ 2 := by
  rw [noise_var hX, ← h1 (H x y) x y, weightedSum_used, weightedSum_used, usedSum_set, usedSum_set, Finset.sum_mul]
  refine Finset.sum_congr rfl fun t _ => ?_
  ring

/-- **C152, the error of the fit.** With noise of one size, the variances of the fitted plane at the fitted pixels add up to exactly three
times the variance of a pixel, however many pixels there are: the mean variance is `3 σ² / N`. -/
theorem C152_variance (law : LinearFitter fitter) (hs : UsedSpread h w use) {s : ℝ}
    (hX : PixelNoise μ h w X (fun i j => P.at_ j i) fun _ _ => s)
    (hp : ∀ ω, fitBackground clip fitter (nanImage h w use fun i j => X i j ω) m none = .ok (p ω)) :
    (usedSum h w use fun i j => Var[fun ω => (p ω).at_ j i; μ]) = 3 * s ^ 2 := by
  obtain ⟨H, h1, h2, h3⟩ := fit_value law hs hp
  simp only [h3, kernel_var hX h1]
  rw [← h2, usedSum_set, usedSum_set, Finset.sum_mul]

/-- **C152, no better way.** Gauss and Markov: at every point the fitted plane has the smallest variance of all weighted sums of the pixels
that give the right value for every plane. -/
theorem C152_best (law : LinearFitter fitter) (hs : UsedSpread h w use) {s : ℝ}
    (hX : PixelNoise μ h w X (fun i j => P.at_ j i) fun _ _ => s)
    (hp : ∀ ω, fitBackground clip fitter (nanImage h w use fun i j => X i j ω) m none = .ok (p ω)) (x y : ℝ) (b : Nat → Nat → ℝ)
    (hb : ∀ Q : Plane ℝ, weightedSum b h w use (fun i j => Q.at_ j i) = Q.at_ x y) :
    Var[fun ω => (p ω).at_ x y; μ] ≤ Var[fun ω => weightedSum b h w use fun i j => X i j ω; μ] := by
  obtain ⟨H, h1, h2, h3⟩ := fit_value law hs hp
  simp only [h3, kernel_var hX h1]
  rw [noise_var hX, weightedSum_used, usedSum_set]
  have e1 := hb (H x y)
  have e2 := h1 (H x y) x y
  rw [weightedSum_used, usedSum_set] at e1 e2
  have e3 : ∑ t ∈ usedSet h w use, (b t.1 t.2 - (H x y).at_ t.2 t.1) ^ 2 =
      (∑ t ∈ usedSet h w use, b t.1 t.2 ^ 2) - (H x y).at_ x y := by
    have : ∀ t : Nat × Nat, (b t.1 t.2 - (H x y).at_ t.2 t.1) ^ 2 = b t.1 t.2 ^ 2 - 2 * ((H x y).at_ t.2 t.1 * b t.1 t.2) +
        (H x y).at_ t.2 t.1 * (H x y).at_ t.2 t.1 := fun t => by ring
    simp only [this, Finset.sum_add_distrib, Finset.sum_sub_distrib, ← Finset.mul_sum, e1, e2]
    ring
  have e4 : 0 ≤ ∑ t ∈ usedSet h w use, (b t.1 t.2 - (H x y).at_ t.2 t.1) ^ 2 := Finset.sum_nonneg fun t _ => sq_nonneg _
  rw [← Finset.mul_sum, mul_comm]
  exact mul_le_mul_of_nonneg_left (by linarith) (sq_nonneg s)

/-- The mean square of a random value with a finite variance that has mean zero. -/
theorem integral_sq_centered {Y : Ω → ℝ} (hY : MemLp Y 2 μ) (h0 : ∫ ω, Y ω ∂μ = 0) : ∫ ω, Y ω ^ 2 ∂μ = Var[Y; μ] := by
  rw [variance_eq_sub hY, h0]
  simp

theorem usedSum_integral {Y : Nat → Nat → Ω → ℝ} (hY : ∀ i j, i < h → j < w → Integrable (Y i j) μ) :
    ∫ ω, (usedSum h w use fun i j => Y i j ω) ∂μ = usedSum h w use fun i j => ∫ ω, Y i j ω ∂μ := by
  simp only [usedSum_set]
  refine integral_finsetSum _ fun t ht => ?_
  simp only [usedSet, Finset.mem_filter, Finset.mem_product, Finset.mem_range] at ht
  exact hY _ _ ht.1.1 ht.1.2

/-- **C152, what is left over.** The expected sum of the squared residuals is `(N - 3) σ²`: the residuals of the fit, divided by the number of
pixels minus three, estimate the pixel variance without bias (and divided by the number of pixels they are too small). -/
theorem C152_residual (law : LinearFitter fitter) (hs : UsedSpread h w use) {s : ℝ}
    (hX : PixelNoise μ h w X (fun i j => P.at_ j i) fun _ _ => s)
    (hp : ∀ ω, fitBackground clip fitter (nanImage h w use fun i j => X i j ω) m none = .ok (p ω)) :
    ∫ ω, (usedSum h w use fun i j => (X i j ω - (p ω).at_ j i) ^ 2) ∂μ = ((usedSum h w use fun _ _ => 1) - 3) * s ^ 2 := by
  obtain ⟨H, h1, h2, h3⟩ := fit_value law hs hp
  simp only [h3]
  have hY : ∀ i j, i < h → j < w →
      MemLp (fun ω => X i j ω - weightedSum (fun k l => (H j i).at_ l k) h w use fun k l => X k l ω) 2 μ := fun i j hi hj =>
    (hX.memLp i j hi hj).sub (noise_memLp hX _ _)
  have hval : ∀ i j, i < h → j < w → use i j = true →
      ∫ ω, (X i j ω - weightedSum (fun k l => (H j i).at_ l k) h w use fun k l => X k l ω) ^ 2 ∂μ = (1 - (H j i).at_ j i) * s ^ 2 := by
    intro i j hi hj hu
    have hmem : (i, j) ∈ usedSet h w use := by simp [usedSet, hi, hj, hu]
    have hd : ∀ g : Nat → Nat → ℝ, weightedSum (fun k l => if (k, l) = (i, j) then 1 else 0) h w use g = g i j := fun g => by
      rw [weightedSum_used, usedSum_set]
      simp only [mul_ite, mul_one, mul_zero]
      rw [Finset.sum_ite_eq' (usedSet h w use) (i, j) fun t => g t.1 t.2, if_pos hmem]
    have he : ∀ ω, X i j ω - weightedSum (fun k l => (H j i).at_ l k) h w use (fun k l => X k l ω) =
        weightedSum (fun k l => (if (k, l) = (i, j) then 1 else 0) - (H j i).at_ l k) h w use fun k l => X k l ω := fun ω => by
      rw [weightedSum_wt_sub, hd]
    rw [integral_sq_centered (hY i j hi hj)]
    · simp only [he]
      rw [noise_var hX]
      have e1 : ∀ k l, ((if (k, l) = (i, j) then (1 : ℝ) else 0) - (H j i).at_ l k) ^ 2 =
          (if (k, l) = (i, j) then 1 else 0) - ((if (k, l) = (i, j) then 1 else 0) * (2 * (H j i).at_ l k) - (H j i).at_ l k * (H j i).at_ l k) :=
        fun k l => by split <;> ring
      have e2 := hd fun k l => 2 * (H j i).at_ l k
      have e3 := h1 (H j i) j i
      have e4 := hd fun _ _ => 1
      rw [weightedSum_used, usedSum_set] at e2 e3 e4 ⊢
      simp only [e1]
      have e5 : ∀ t : Nat × Nat, s ^ 2 * ((if (t.1, t.2) = (i, j) then 1 else 0) -
          ((if (t.1, t.2) = (i, j) then 1 else 0) * (2 * (H j i).at_ t.2 t.1) - (H j i).at_ t.2 t.1 * (H j i).at_ t.2 t.1)) =
          s ^ 2 * (1 * (if (t.1, t.2) = (i, j) then 1 else 0) - (2 * (H j i).at_ t.2 t.1 * (if (t.1, t.2) = (i, j) then 1 else 0) -
            (H j i).at_ t.2 t.1 * (H j i).at_ t.2 t.1)) := fun t => by ring
      simp only [e5, ← Finset.mul_sum, Finset.sum_sub_distrib, e2, e3, e4]
      ring
    · rw [integral_sub ((hX.memLp i j hi hj).integrable (by norm_num)) ((noise_memLp hX _ _).integrable (by norm_num)), hX.mean i j hi hj,
        noise_mean hX, h1, sub_self]
  rw [usedSum_integral fun i j hi hj => (hY i j hi hj).integrable_sq]
  have : (usedSum h w use fun i j => ∫ ω, (X i j ω - weightedSum (fun k l => (H j i).at_ l k) h w use fun k l => X k l ω) ^ 2 ∂μ) =
      usedSum h w use fun i j => (1 - (H j i).at_ j i) * s ^ 2 := by
    rw [usedSum_set, usedSum_set]
    refine Finset.sum_congr rfl fun t ht => ?_
    simp only [usedSet, Finset.mem_filter, Finset.mem_product, Finset.mem_range] at ht
    exact hval _ _ ht.1.1 ht.1.2 ht.2
  rw [this, ← h2]
  simp only [usedSum_set]
  rw [← Finset.sum_sub_distrib, Finset.sum_mul]

/-- **C152, consistent.** The probability that the mean square error of the fitted plane over the `N` used pixels is at least `t²` is at most
`3 σ² / (N t²)`: with more pixels the fit converges to the true plane. -/
theorem C152_consistent (law : LinearFitter fitter) (hs : UsedSpread h w use) {s t : ℝ} (ht : 0 < t)
    (hX : PixelNoise μ h w X (fun i j => P.at_ j i) fun _ _ => s)
    (hp : ∀ ω, fitBackground clip fitter (nanImage h w use fun i j => X i j ω) m none = .ok (p ω)) :
    μ {ω | t ^ 2 ≤ (usedSum h w use fun i j => ((p ω).at_ j i - P.at_ j i) ^ 2) / usedSum h w use fun _ _ => 1} ≤
      ENNReal.ofReal (3 * s ^ 2 / ((usedSum h w use fun _ _ => 1) * t ^ 2)) := by
  have hN := usedSpread_nonempty hs
  have hv := C152_variance law hs hX hp
  obtain ⟨H, h1, h2, h3⟩ := fit_value law hs hp
  have hY : ∀ x y, MemLp (fun ω => (p ω).at_ x y - P.at_ x y) 2 μ := fun x y => by
    simp only [h3]
    exact (noise_memLp hX _ _).sub (memLp_const _)
  have h0 : ∀ x y, ∫ ω, ((p ω).at_ x y - P.at_ x y) ∂μ = 0 := fun x y => by
    simp only [h3]
    rw [integral_sub ((noise_memLp hX _ _).integrable (by norm_num)) (integrable_const _), noise_mean hX, h1]
    simp
  have hvar : ∀ x y, ∫ ω, ((p ω).at_ x y - P.at_ x y) ^ 2 ∂μ = Var[fun ω => (p ω).at_ x y; μ] := fun x y => by
    rw [integral_sq_centered (hY x y) (h0 x y)]
    refine variance_sub_const ?_ _
    simp only [h3]
    exact (noise_memLp hX _ _).aestronglyMeasurable
  have hint : Integrable (fun ω => usedSum h w use fun i j => ((p ω).at_ j i - P.at_ j i) ^ 2) μ := by
    simp only [usedSum_set]
    exact integrable_finsetSum _ fun t _ => (hY _ _).integrable_sq
  have hI : ∫ ω, (usedSum h w use fun i j => ((p ω).at_ j i - P.at_ j i) ^ 2) ∂μ = 3 * s ^ 2 := by
    rw [usedSum_integral fun i j _ _ => (hY _ _).integrable_sq, ← hv]
    simp only [hvar]
  have hnn : 0 ≤ᵐ[μ] fun ω => usedSum h w use fun i j => ((p ω).at_ j i - P.at_ j i) ^ 2 := by
    refine Filter.Eventually.of_forall fun ω => ?_
    simp only [Pi.zero_apply, usedSum_set]
    exact Finset.sum_nonneg fun t _ => sq_nonneg _
  have hm := mul_meas_ge_le_integral_of_nonneg hnn hint ((usedSum h w use fun _ _ => 1) * t ^ 2)
  rw [hI] at hm
  have hset : {ω | t ^ 2 ≤ (usedSum h w use fun i j => ((p ω).at_ j i - P.at_ j i) ^ 2) / usedSum h w use fun _ _ => 1} =
      {ω | (usedSum h w use fun _ _ => 1) * t ^ 2 ≤ usedSum h w use fun i j => ((p ω).at_ j i - P.at_ j i) ^ 2} := by
    ext ω
    simp only [Set.mem_ofPred_eq]
    rw [le_div_iff₀ hN, mul_comm]
  rw [hset, ← ENNReal.ofReal_toReal (measure_ne_top μ _)]
  apply ENNReal.ofReal_le_ofReal
  rw [le_div_iff₀ (by positivity), mul_comm]
  exact hm

/-- A 100 × 100 image of a tilted background with gaussian noise of size 2: the chance that the fitted plane is off by 1/4 or more (root mean
square) is below 2 %. -/
example (P : Plane ℝ) : ∃ p : (Fin 100 × Fin 100 → ℝ) → Plane ℝ, (∀ ω, fitBackground sigmaClipMask normalFitter
      (nanImage 100 100 (fun _ _ => true) fun i j => gaussImage 100 100 (fun i j => P.at_ j i) (fun _ _ => 2) i j ω) P none = .ok (p ω)) ∧
    gaussField 100 100 {ω | (1 / 4) ^ 2 ≤ (usedSum 100 100 (fun _ _ => true) fun i j => ((p ω).at_ j i - P.at_ j i) ^ 2) /
      usedSum 100 100 (fun _ _ => true) fun _ _ => 1} ≤ ENNReal.ofReal (2 / 100) := by
  have hs : UsedSpread 100 100 fun _ _ => true := ⟨0, 0, 0, 1, 1, 0, by decide, by decide, by decide, by decide⟩
  have hX := gaussian_noise 100 100 (fun i j => P.at_ j i) fun _ _ => 2
  obtain ⟨p, hp, -⟩ := C152_unbiased normalFitter_law hs sigmaClipMask P hX
  refine ⟨p, hp, (C152_consistent normalFitter_law hs (t := 1 / 4) (by norm_num) hX hp).trans (ENNReal.ofReal_le_ofReal ?_)⟩
  simp only [usedSum, if_true, Finset.sum_const, Finset.card_range]
  norm_num

/-- The plane `100 x` on a 4×4 image, with `v` added to the corner pixel. -/
def cornerImage (v : ℚ) : Img (F ℚ) := nanImage 4 4 (fun _ _ => true) fun i j => (⟨100, 0, 0⟩ : Plane ℚ).at_ j i + if i = 0 ∧ j = 0 then v else 0

theorem corner_mask0 : ∀ i < 4, ∀ j < 4, sigmaClipMask (cornerImage (-1000)) 3 i j = decide (i = 0 ∧ j = 0) := by decide +kernel

theorem corner_mask1 : ∀ i < 4, ∀ j < 4, sigmaClipMask (cornerImage 1) 3 i j = false := by decide +kernel

theorem corner_fit : fitBackground sigmaClipMask normalFitter (cornerImage 1) ⟨0, 0, 0⟩ (some 3) = .ok ⟨3997 / 40, -3 / 40, 23 / 80⟩ := by
  decide +kernel

/-- **C152, violated with clipping.** With the default sigma clipping (`sigma=3`) the fit is biased. The background is the plane `100 x`; the
corner pixel alone has noise, `1` with probability `1000/1001` and `-1000` with probability `1/1001`, so its mean is zero. The fit returns a
plane in both cases, and the expected value of the fitted plane in the corner is `23000 / 80080`, not `0`, for every least-squares fitter. -/
theorem C152_clipped_violated {fitter : Plane ℚ → FitData ℚ → Except PyErr (Plane ℚ)} (law : LinearFitter fitter) (m : Plane ℚ) :
    ∃ p q, fitBackground sigmaClipMask fitter (cornerImage 1) m (some 3) = .ok p ∧
      fitBackground sigmaClipMask fitter (cornerImage (-1000)) m (some 3) = .ok q ∧
      (1000 / 1001 : ℚ) * 1 + 1 / 1001 * (-1000) = 0 ∧
      1000 / 1001 * p.at_ 0 0 + 1 / 1001 * q.at_ 0 0 = 23000 / 80080 := by
  have hmask0 := corner_mask0
  have hmask1 := corner_mask1
  have hq : fitBackground sigmaClipMask fitter (cornerImage (-1000)) m (some 3) = .ok ⟨100, 0, 0⟩ := by
    apply C63_recovers law
    · rintro i j ⟨hi, hj, _, hk⟩
      have hi' : i < 4 := hi
      have hj' : j < 4 := hj
      have hk' : sigmaClipMask (cornerImage (-1000)) 3 i j = false := hk
      rw [hmask0 i hi' j hj'] at hk'
      have h : ¬ (i = 0 ∧ j = 0) := by simpa using hk'
      simp only [cornerImage, nanImage, if_true]
      rw [if_neg h, add_zero]
    · refine ⟨1, 0, 0, 1, 1, 1, ?_, ?_, ?_, by decide⟩
      · exact ⟨by decide, by decide, by simp [cornerImage, nanImage], hmask0 1 (by decide) 0 (by decide)⟩
      · exact ⟨by decide, by decide, by simp [cornerImage, nanImage], hmask0 0 (by decide) 1 (by decide)⟩
      · exact ⟨by decide, by decide, by simp [cornerImage, nanImage], hmask0 1 (by decide) 1 (by decide)⟩
  have hks : KeptSpread (cornerImage 1) (bgMask sigmaClipMask (cornerImage 1) (some 3)) := by
    refine ⟨1, 0, 0, 1, 1, 1, ?_, ?_, ?_, by decide⟩
    · exact ⟨by decide, by decide, by simp [cornerImage, nanImage], hmask1 1 (by decide) 0 (by decide)⟩
    · exact ⟨by decide, by decide, by simp [cornerImage, nanImage], hmask1 0 (by decide) 1 (by decide)⟩
    · exact ⟨by decide, by decide, by simp [cornerImage, nanImage], hmask1 1 (by decide) 1 (by decide)⟩
  obtain ⟨val, hval⟩ : ∃ val : Nat → Nat → ℚ, ∀ i j, Kept (cornerImage 1) (bgMask sigmaClipMask (cornerImage 1) (some 3)) i j →
      (cornerImage 1).px i j = .fin (val i j) :=
    ⟨fun i j => (⟨100, 0, 0⟩ : Plane ℚ).at_ j i + if i = 0 ∧ j = 0 then 1 else 0, fun i j _ => by simp only [cornerImage, nanImage, if_true]⟩
  obtain ⟨p, hp1, hp2⟩ := fitBackground_lsq law sigmaClipMask (cornerImage 1) (some 3) m val hval hks
  obtain ⟨p', hp1', hp2'⟩ := fitBackground_lsq normalFitter_law sigmaClipMask (cornerImage 1) (some 3) ⟨0, 0, 0⟩ val hval hks
  have hpp : p = p' := lsq_unique (spread_of_kept hks val) hp2 hp2'
  have hcomp := corner_fit
  have e : (⟨3997 / 40, -3 / 40, 23 / 80⟩ : Plane ℚ) = p' := Except.ok.inj (hcomp.symm.trans hp1')
  have e0 : p.at_ 0 0 = 23 / 80 := by
    rw [hpp, ← e]
    simp only [Plane.at_]
    norm_num
  have e1 : (⟨100, 0, 0⟩ : Plane ℚ).at_ 0 0 = 0 := by simp [Plane.at_]
  refine ⟨p, ⟨100, 0, 0⟩, hp1, hq, by norm_num, ?_⟩
  rw [e0, e1]
  norm_num

end Verif.Props

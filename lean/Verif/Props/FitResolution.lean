import Verif.Props.FitNoise
import Verif.Props.NoisySky
import Mathlib.Topology.UniformSpace.HeineCantor

/-!
# C166: fits of well resolved galaxies
-/

set_option linter.unusedSectionVars false
set_option linter.unusedVariables false

namespace Verif.Spec

open Verif

/-- The same scene with `N` times as many pixels along each axis. -/
noncomputable def zoomed (N : Nat) (f : ℝ → ℝ → ℝ) : ℝ → ℝ → ℝ := fun x y => f (x / N) (y / N)

/-- The number of pixels that are not fitted. -/
def unfitted (h w : Nat) (use mask : Nat → Nat → Bool) : Nat :=
  ((Finset.range h ×ˢ Finset.range w).filter fun p => ¬ (use p.1 p.2 = true ∧ mask p.1 p.2 = false)).card

end Verif.Spec

namespace Verif.Props

open Verif F Spec Lemmas Filter Topology MeasureTheory

/-- The product of model difference and noise, over the fitted pixels. -/
noncomputable def fitCross (h w : Nat) (use mask : Nat → Nat → Bool) (f m X : Nat → Nat → ℝ) : ℝ :=
  ∑ p ∈ Finset.range h ×ˢ Finset.range w, (if use p.1 p.2 = true ∧ mask p.1 p.2 = false then f p.1 p.2 - m p.1 p.2 else 0) * (X p.1 p.2 - m p.1 p.2)

theorem fitDist_cross (h w : Nat) (use mask : Nat → Nat → Bool) (f m X : Nat → Nat → ℝ) :
    fitDist h w use mask none f X = fitDist h w use mask none m X + fitDist h w use mask none f m - 2 * fitCross h w use mask f m X := by
  unfold fitDist fitCross
  rw [Finset.mul_sum, ← Finset.sum_add_distrib, ← Finset.sum_sub_distrib]
  refine Finset.sum_congr rfl fun p _ => ?_
  simp only [weightAt, one_mul]
  split <;> ring

/-- Pixels in a square of the scene. -/
theorem grid_interval {W N : Nat} {u r : ℝ} (hu : 0 ≤ u) (hr : 0 < r) (hur : u + r ≤ W) (hN : 2 ≤ r * N) :
    ∃ a K : Nat, r * N / 2 ≤ K ∧ ∀ j ∈ Finset.Ico a (a + K), j < W * N ∧ u ≤ (j : ℝ) / N ∧ (j : ℝ) / N ≤ u + r := by
  have hN0 : (0 : ℝ) < N := by
    by_contra hn
    have : (N : ℝ) ≤ 0 := not_lt.1 hn
    nlinarith
  refine ⟨⌈u * N⌉₊, ⌈r * N / 2⌉₊, Nat.le_ceil _, fun j hj => ?_⟩
  rw [Finset.mem_Ico] at hj
  have h1 : u * N ≤ j := Nat.ceil_le.1 hj.1
  have h2 : (⌈u * N⌉₊ : ℝ) < u * N + 1 := Nat.ceil_lt_add_one (by positivity)
  have h3 : (j : ℝ) < u * N + 1 + r * N / 2 := by
    obtain ⟨k, hk⟩ := Nat.exists_eq_add_of_le hj.1
    have h4 : k < ⌈r * N / 2⌉₊ := by omega
    have h5 : (k : ℝ) < r * N / 2 := Nat.lt_ceil.1 h4
    rw [hk]
    push_cast
    linarith
  have h6 : (j : ℝ) < (u + r) * N := by nlinarith
  refine ⟨?_, (le_div_iff₀ hN0).2 h1, (div_le_iff₀ hN0).2 h6.le⟩
  have h7 : (j : ℝ) < (W * N : Nat) := by
    push_cast
    exact h6.trans_le (mul_le_mul_of_nonneg_right hur hN0.le)
  exact_mod_cast h7

variable {E : Type} [TopologicalSpace E] {S T : Set E} {g : E → ℝ → ℝ → ℝ} {W H : Nat} {θ : E} {use mask : ℕ → Nat → Nat → Bool}

/-- A different scene differs from the true one by an amount in proportion to the number of pixels. -/
theorem scene_separated (hg : ContinuousOn (fun z : E × ℝ × ℝ => g z.1 z.2.1 z.2.2) (S ×ˢ (Set.Icc (0 : ℝ) W ×ˢ Set.Icc (0 : ℝ) H))) (hθ : θ ∈ S)
    (hT : IsCompact T) (hTS : T ⊆ S) (hne : ∀ x ∈ T, ∃ u v : ℝ, (0 ≤ u ∧ u < W) ∧ (0 ≤ v ∧ v < H) ∧ g x u v ≠ g θ u v)
    (hun : Tendsto (fun N : ℕ => (unfitted (H * N) (W * N) (use N) (mask N) : ℝ) / (N : ℝ) ^ 2) atTop (𝓝 0)) :
    ∃ κ > 0, ∀ᶠ N : ℕ in atTop, ∀ y ∈ T,
      κ * (N : ℝ) ^ 2 ≤ fitDist (H * N) (W * N) (use N) (mask N) none (pixelsOf (zoomed N (g y))) (pixelsOf (zoomed N (g θ))) := by
  refine hT.induction_on (p := fun T => ∃ κ > 0, ∀ᶠ N : ℕ in atTop, ∀ y ∈ T,
      κ * (N : ℝ) ^ 2 ≤ fitDist (H * N) (W * N) (use N) (mask N) none (pixelsOf (zoomed N (g y))) (pixelsOf (zoomed N (g θ)))) ?_ ?_ ?_ ?_
  · exact ⟨1, one_pos, Eventually.of_forall fun N y hy => absurd hy (by simp)⟩
  · rintro s t hst ⟨κ, hκ, ht⟩
    exact ⟨κ, hκ, ht.mono fun N hN y hy => hN y (hst hy)⟩
  · rintro s t ⟨κ, hκ, hs⟩ ⟨κ', hκ', ht⟩
    refine ⟨min κ κ', lt_min hκ hκ', (hs.and ht).mono fun N hN y hy => ?_⟩
    rcases hy with hy | hy
    · exact (mul_le_mul_of_nonneg_right (min_le_left _ _) (sq_nonneg _)).trans (hN.1 y hy)
    · exact (mul_le_mul_of_nonneg_right (min_le_right _ _) (sq_nonneg _)).trans (hN.2 y hy)
  · intro x hx
    obtain ⟨u, v, ⟨hu0, huW⟩, ⟨hv0, hvH⟩, hneq⟩ := hne x hx
    have hF : ContinuousOn (fun z : E × ℝ × ℝ => |g z.1 z.2.1 z.2.2 - g θ z.2.1 z.2.2|) (S ×ˢ (Set.Icc (0 : ℝ) W ×ˢ Set.Icc (0 : ℝ) H)) := by
      refine (hg.sub (hg.comp (g := fun z : E × ℝ × ℝ => g z.1 z.2.1 z.2.2) (f := fun z : E × ℝ × ℝ => (θ, z.2)) (by fun_prop) ?_)).abs
      exact fun z hz => ⟨hθ, hz.2⟩
    set c : ℝ := |g x u v - g θ u v| / 2 with hc
    have hc0 : 0 < c := half_pos (abs_pos.2 (sub_ne_zero.2 hneq))
    have hev := (hF (x, u, v) ⟨hTS hx, ⟨hu0, huW.le⟩, hv0, hvH.le⟩).eventually_const_lt (show c < |g x u v - g θ u v| by rw [hc]; linarith)
    rw [nhdsWithin_prod_eq, eventually_prod_iff] at hev
    obtain ⟨pa, ha, pb, hb, hab⟩ := hev
    obtain ⟨r₀, hr₀, hball⟩ := Metric.mem_nhdsWithin_iff.1 hb
    set r : ℝ := min (r₀ / 2) (min (W - u) (H - v)) with hr
    have hr0 : 0 < r := lt_min (by linarith) (lt_min (by linarith) (by linarith))
    have hr1 : r < r₀ := (min_le_left _ _).trans_lt (by linarith)
    have hr2 : u + r ≤ W := by linarith [(min_le_right (r₀ / 2) (min (W - u) (H - v))).trans (min_le_left _ _)]
    have hr3 : v + r ≤ H := by linarith [(min_le_right (r₀ / 2) (min (W - u) (H - v))).trans (min_le_right _ _)]
    refine ⟨{y | pa y}, nhdsWithin_mono x hTS ha, c ^ 2 * (r ^ 2 / 8), by positivity, ?_⟩
    filter_upwards [hun.eventually_lt_const (show (0 : ℝ) < r ^ 2 / 8 by positivity), tendsto_natCast_atTop_atTop.eventually_ge_atTop (2 / r)]
      with N hN1 hN2 y hy
    have hN3 : 2 ≤ r * N := by
      rw [div_le_iff₀ hr0] at hN2
      linarith
    have hN0 : (0 : ℝ) < N := by
      by_contra hn
      have : (N : ℝ) ≤ 0 := not_lt.1 hn
      nlinarith
    obtain ⟨a, K, hK, hcol⟩ := grid_interval hu0 hr0 hr2 hN3
    obtain ⟨a', K', hK', hrow⟩ := grid_interval hv0 hr0 hr3 hN3
    set B := Finset.Ico a' (a' + K') ×ˢ Finset.Ico a (a + K) with hB
    have hBsub : B ⊆ Finset.range (H * N) ×ˢ Finset.range (W * N) := fun p hp => by
      rw [hB, Finset.mem_product] at hp
      rw [Finset.mem_product, Finset.mem_range, Finset.mem_range]
      exact ⟨(hrow _ hp.1).1, (hcol _ hp.2).1⟩
    have hlow : ∀ p ∈ B, c ≤ |g y (p.2 / N) (p.1 / N) - g θ (p.2 / N) (p.1 / N)| := by
      intro p hp
      rw [hB, Finset.mem_product] at hp
      obtain ⟨-, h1, h2⟩ := hrow _ hp.1
      obtain ⟨-, h3, h4⟩ := hcol _ hp.2
      have hmem : ((p.2 : ℝ) / N, (p.1 : ℝ) / N) ∈ {z | pb z} := by
        refine hball ⟨?_, ⟨hu0.trans h3, h4.trans hr2⟩, hv0.trans h1, h2.trans hr3⟩
        rw [Metric.mem_ball, Prod.dist_eq, Real.dist_eq, Real.dist_eq]
        refine max_lt ?_ ?_ <;> rw [abs_lt] <;> constructor <;> simp only <;> linarith
      exact (hab hy hmem).le
    unfold fitDist
    refine le_trans ?_ (Finset.sum_le_sum_of_subset_of_nonneg hBsub fun p _ _ => by split <;> positivity)
    have h1 : ∑ p ∈ B, (if use N p.1 p.2 = true ∧ mask N p.1 p.2 = false then c ^ 2 else 0) ≤
        ∑ p ∈ B, (if use N p.1 p.2 = true ∧ mask N p.1 p.2 = false then
          (weightAt none p.1 p.2 * (pixelsOf (zoomed N (g y)) p.1 p.2 - pixelsOf (zoomed N (g θ)) p.1 p.2)) ^ 2 else 0) := by
      refine Finset.sum_le_sum fun p hp => ?_
      split
      · simp only [weightAt, one_mul, pixelsOf, zoomed]
        rw [← sq_abs (g y _ _ - _)]
        exact pow_le_pow_left₀ hc0.le (hlow p hp) 2
      · exact le_rfl
    refine le_trans ?_ h1
    rw [← Finset.sum_filter, Finset.sum_const, nsmul_eq_mul]
    have h2 := Finset.card_filter_add_card_filter_not (s := B) fun p : Nat × Nat => use N p.1 p.2 = true ∧ mask N p.1 p.2 = false
    have h3 : (B.filter fun p => ¬ (use N p.1 p.2 = true ∧ mask N p.1 p.2 = false)).card ≤ unfitted (H * N) (W * N) (use N) (mask N) :=
      Finset.card_le_card (Finset.filter_subset_filter _ hBsub)
    have h4 : B.card = K' * K := by rw [hB, Finset.card_product, Nat.card_Ico, Nat.card_Ico, Nat.add_sub_cancel_left, Nat.add_sub_cancel_left]
    have h5 : (r * N / 2) * (r * N / 2) ≤ (K' : ℝ) * K := mul_le_mul hK' hK (by positivity) (by positivity)
    rw [div_lt_iff₀ (by positivity)] at hN1
    have h6 : ((B.filter fun p => use N p.1 p.2 = true ∧ mask N p.1 p.2 = false).card : ℝ) +
        ((B.filter fun p => ¬ (use N p.1 p.2 = true ∧ mask N p.1 p.2 = false)).card : ℝ) = K' * K := by
      rw [← Nat.cast_add, h2, h4, Nat.cast_mul]
    have h7 : ((B.filter fun p => ¬ (use N p.1 p.2 = true ∧ mask N p.1 p.2 = false)).card : ℝ) ≤ unfitted (H * N) (W * N) (use N) (mask N) :=
      Nat.cast_le.2 h3
    have h8 : r ^ 2 / 8 * (N : ℝ) ^ 2 ≤ ((B.filter fun p => use N p.1 p.2 = true ∧ mask N p.1 p.2 = false).card : ℝ) := by nlinarith
    nlinarith [mul_le_mul_of_nonneg_left h8 (sq_nonneg c)]

section

variable {Ω : Type} [MeasurableSpace Ω] {μ : Measure Ω} [IsProbabilityMeasure μ] {v : ℝ}

theorem fitCross_sub {h w : Nat} (use mask : Nat → Nat → Bool) (f f' m X : Nat → Nat → ℝ) {δ : ℝ}
    (hd : ∀ i j, i < h → j < w → |f i j - f' i j| ≤ δ) :
    fitCross h w use mask f m X ≤ fitCross h w use mask f' m X +
      δ * ((h * w : Nat) + ∑ p ∈ Finset.range h ×ˢ Finset.range w, (X p.1 p.2 - m p.1 p.2) ^ 2) := by
  have hcard : ((h * w : Nat) : ℝ) = ∑ p ∈ Finset.range h ×ˢ Finset.range w, 1 := by simp
  unfold fitCross
  rw [hcard, ← Finset.sum_add_distrib, Finset.mul_sum, ← Finset.sum_add_distrib]
  refine Finset.sum_le_sum fun p hp => ?_
  rw [Finset.mem_product, Finset.mem_range, Finset.mem_range] at hp
  have h1 := hd p.1 p.2 hp.1 hp.2
  have h0 : 0 ≤ δ := (abs_nonneg _).trans h1
  split
  · have h2 : (f p.1 p.2 - f' p.1 p.2) * (X p.1 p.2 - m p.1 p.2) ≤ δ * |X p.1 p.2 - m p.1 p.2| :=
      (le_abs_self _).trans (by rw [abs_mul]; exact mul_le_mul_of_nonneg_right h1 (abs_nonneg _))
    have h3 : |X p.1 p.2 - m p.1 p.2| ≤ 1 + (X p.1 p.2 - m p.1 p.2) ^ 2 := by
      rw [← sq_abs (X p.1 p.2 - m p.1 p.2)]
      nlinarith [sq_nonneg (|X p.1 p.2 - m p.1 p.2| - 1), sq_nonneg (|X p.1 p.2 - m p.1 p.2|)]
    nlinarith [mul_le_mul_of_nonneg_left h3 h0]
  · rw [zero_mul, zero_add]
    positivity

/-- The product with one difference is small with high probability. -/
theorem fitCross_tail {h w : Nat} {X : Nat → Nat → Ω → ℝ} {m : Nat → Nat → ℝ} (hX : CorrelatedNoise μ h w X m v) (hv : 0 ≤ v)
    (use mask : Nat → Nat → Bool) (f : Nat → Nat → ℝ) {G : ℝ} (hG : ∀ i j, i < h → j < w → |f i j - m i j| ≤ G) (hG0 : 0 ≤ G) {c : ℝ} (hc : 0 < c) :
    μ {ω | c ≤ fitCross h w use mask f m fun i j => X i j ω} ≤ ENNReal.ofReal ((h * w : Nat) * G * (v * G) / c ^ 2) := by
  set a : Nat → Nat → ℝ := fun i j => if use i j = true ∧ mask i j = false then f i j - m i j else 0 with ha
  have hcard : ((h * w : Nat) : ℝ) * G = ∑ p ∈ Finset.range h ×ˢ Finset.range w, G := by simp
  have haG : ∀ i j, i < h → j < w → |a i j| ≤ G := fun i j hi hj => by
    rw [ha]
    simp only
    split
    · exact hG i j hi hj
    · rwa [abs_zero]
  have hY := processed_noise (h' := 1) (w' := 1) hX hv hG0 (fun _ _ => a) (A := (h * w : Nat) * G)
    (fun i j _ _ => by
      rw [hcard]
      exact Finset.sum_le_sum fun p hp => by
        rw [Finset.mem_product, Finset.mem_range, Finset.mem_range] at hp
        exact haG _ _ hp.1 hp.2)
    (fun i j hi hj => by simpa using haG i j hi hj)
  set Y : Ω → ℝ := fun ω => weightedSum a h w (fun _ _ => true) fun i j => X i j ω with hYd
  have hYL : MemLp Y 2 μ := hY.memLp 0 0 one_pos one_pos
  have hYm : ∫ ω, Y ω ∂μ = weightedSum a h w (fun _ _ => true) m := hY.mean 0 0 one_pos one_pos
  have hvar : ProbabilityTheory.variance Y μ ≤ (h * w : Nat) * G * (v * G) := by
    have h1 := hY.cov 0 0 one_pos one_pos
    simp only [Finset.range_one, Finset.singleton_product_singleton, Finset.sum_singleton] at h1
    rw [← ProbabilityTheory.covariance_self hYL.aestronglyMeasurable.aemeasurable]
    exact (le_abs_self _).trans h1
  have hsub : {ω | c ≤ fitCross h w use mask f m fun i j => X i j ω} ⊆ {ω | c ≤ |Y ω - ∫ ω, Y ω ∂μ|} := by
    intro ω hω
    have hω : c ≤ fitCross h w use mask f m fun i j => X i j ω := hω
    refine le_trans hω (le_trans (le_of_eq ?_) (le_abs_self _))
    rw [hYm, hYd]
    simp only [weightedSum_product, if_true]
    unfold fitCross
    rw [← Finset.sum_sub_distrib]
    exact Finset.sum_congr rfl fun p _ => by rw [ha]; ring
  refine (measure_mono hsub).trans ((ProbabilityTheory.meas_ge_le_variance_div_sq hYL hc).trans (ENNReal.ofReal_le_ofReal ?_))
  exact div_le_div_of_nonneg_right hvar (sq_nonneg c)

/-- Extreme noise is rare. -/
theorem noise_extreme {h w : Nat} {X : Nat → Nat → Ω → ℝ} {m : Nat → Nat → ℝ} (hX : CorrelatedNoise μ h w X m v) {c : ℝ} (hc : 0 < c) :
    μ {ω | c ≤ ∑ p ∈ Finset.range h ×ˢ Finset.range w, (X p.1 p.2 ω - m p.1 p.2) ^ 2} ≤ ENNReal.ofReal ((h * w : Nat) * v / c) := by
  have hI : ∀ p ∈ Finset.range h ×ˢ Finset.range w, Integrable (fun ω => (X p.1 p.2 ω - m p.1 p.2) ^ 2) μ := by
    intro p hp
    rw [Finset.mem_product, Finset.mem_range, Finset.mem_range] at hp
    exact ((hX.memLp p.1 p.2 hp.1 hp.2).sub (memLp_const _)).integrable_sq
  have hmk := mul_meas_ge_le_integral_of_nonneg (μ := μ) (f := fun ω => ∑ p ∈ Finset.range h ×ˢ Finset.range w, (X p.1 p.2 ω - m p.1 p.2) ^ 2)
    (Eventually.of_forall fun ω => Finset.sum_nonneg fun p _ => sq_nonneg _) (integrable_finsetSum _ hI) c
  rw [integral_finsetSum _ hI] at hmk
  have hle : ∑ p ∈ Finset.range h ×ˢ Finset.range w, ∫ ω, (X p.1 p.2 ω - m p.1 p.2) ^ 2 ∂μ ≤ (h * w : Nat) * v := by
    have hcard : ((h * w : Nat) : ℝ) * v = ∑ p ∈ Finset.range h ×ˢ Finset.range w, v := by simp
    rw [hcard]
    refine Finset.sum_le_sum fun p hp => ?_
    have hp' := hp
    rw [Finset.mem_product, Finset.mem_range, Finset.mem_range] at hp
    have h1 := Finset.single_le_sum (f := fun q : Nat × Nat => |ProbabilityTheory.covariance (X p.1 p.2) (X q.1 q.2) μ|) (fun q _ => abs_nonneg _) hp'
    have h2 := (le_abs_self _).trans (h1.trans (hX.cov p.1 p.2 hp.1 hp.2))
    rw [ProbabilityTheory.covariance_self (hX.memLp p.1 p.2 hp.1 hp.2).aestronglyMeasurable.aemeasurable,
      ProbabilityTheory.variance_eq_integral (hX.memLp p.1 p.2 hp.1 hp.2).aestronglyMeasurable.aemeasurable, hX.mean p.1 p.2 hp.1 hp.2] at h2
    exact h2
  rw [← ENNReal.ofReal_toReal (measure_ne_top μ {ω | c ≤ ∑ p ∈ Finset.range h ×ˢ Finset.range w, (X p.1 p.2 ω - m p.1 p.2) ^ 2})]
  refine ENNReal.ofReal_le_ofReal ?_
  rw [le_div_iff₀ hc, mul_comm]
  exact hmk.trans hle

end

section

variable {Ω : ℕ → Type} [∀ N, MeasurableSpace (Ω N)] {μ : ∀ N, Measure (Ω N)} [∀ N, IsProbabilityMeasure (μ N)] {X : ∀ N, Nat → Nat → Ω N → ℝ} {v : ℝ}

/-- Uniformly over the parameters, on images whose noise is not extreme, the product is small with high probability. -/
theorem fitCross_uniform (hS : IsCompact S)
    (hg : ContinuousOn (fun z : E × ℝ × ℝ => g z.1 z.2.1 z.2.2) (S ×ˢ (Set.Icc (0 : ℝ) W ×ˢ Set.Icc (0 : ℝ) H))) (hθ : θ ∈ S)
    (hX : ∀ N, CorrelatedNoise (μ N) (H * N) (W * N) (X N) (pixelsOf (zoomed N (g θ))) v) (hv : 0 ≤ v) {M t : ℝ} (hM : 0 < M) (ht : 0 < t) :
    Tendsto (fun N : ℕ => μ N {ω | ∑ p ∈ Finset.range (H * N) ×ˢ Finset.range (W * N), (X N p.1 p.2 ω - pixelsOf (zoomed N (g θ)) p.1 p.2) ^ 2 ≤ M * (N : ℝ) ^ 2 ∧
      ∃ y ∈ S, t * (N : ℝ) ^ 2 ≤ fitCross (H * N) (W * N) (use N) (mask N) (pixelsOf (zoomed N (g y))) (pixelsOf (zoomed N (g θ))) fun i j => X N i j ω})
      atTop (𝓝 0) := by
  have hK : IsCompact (Set.Icc (0 : ℝ) W ×ˢ Set.Icc (0 : ℝ) H) := isCompact_Icc.prod isCompact_Icc
  have hpix : ∀ N i j : Nat, i < H * N → j < W * N → ((j : ℝ) / N, (i : ℝ) / N) ∈ Set.Icc (0 : ℝ) W ×ˢ Set.Icc (0 : ℝ) H := by
    intro N i j hi hj
    have hN : 0 < N := by
      rcases Nat.eq_zero_or_pos N with rfl | h
      · simp at hi
      · exact h
    have hN' : (0 : ℝ) < N := Nat.cast_pos.2 hN
    refine ⟨⟨by positivity, ?_⟩, by positivity, ?_⟩
    · rw [div_le_iff₀ hN']
      exact_mod_cast hj.le
    · rw [div_le_iff₀ hN']
      exact_mod_cast hi.le
  refine hS.induction_on (p := fun T => Tendsto (fun N : ℕ => μ N {ω | ∑ p ∈ Finset.range (H * N) ×ˢ Finset.range (W * N),
      (X N p.1 p.2 ω - pixelsOf (zoomed N (g θ)) p.1 p.2) ^ 2 ≤ M * (N : ℝ) ^ 2 ∧
      ∃ y ∈ T, t * (N : ℝ) ^ 2 ≤ fitCross (H * N) (W * N) (use N) (mask N) (pixelsOf (zoomed N (g y))) (pixelsOf (zoomed N (g θ))) fun i j => X N i j ω})
      atTop (𝓝 0)) ?_ ?_ ?_ ?_
  · simp
  · intro s t' hst ht'
    refine tendsto_of_tendsto_of_tendsto_of_le_of_le tendsto_const_nhds ht' (fun N => zero_le) fun N => measure_mono ?_
    rintro ω ⟨h1, y, hy, h2⟩
    exact ⟨h1, y, hst hy, h2⟩
  · intro s t' hs ht'
    have h0 := hs.add ht'
    rw [add_zero] at h0
    refine tendsto_of_tendsto_of_tendsto_of_le_of_le tendsto_const_nhds h0 (fun N => zero_le) fun N => (measure_mono ?_).trans (measure_union_le _ _)
    rintro ω ⟨h1, y, hy, h2⟩
    rcases hy with hy | hy
    · exact Or.inl ⟨h1, y, hy, h2⟩
    · exact Or.inr ⟨h1, y, hy, h2⟩
  · intro x hx
    set δ : ℝ := t / (2 * (H * W + M)) with hδ
    have hHW : (0 : ℝ) < H * W + M := by positivity
    have hδ0 : 0 < δ := by positivity
    obtain ⟨V, hV, hVd⟩ := hK.mem_uniformity_of_prod (f := fun y (p : ℝ × ℝ) => g y p.1 p.2) hg hx (Metric.dist_mem_uniformity hδ0)
    refine ⟨V, hV, ?_⟩
    have hgx : ∀ y ∈ S, ContinuousOn (fun p : ℝ × ℝ => g y p.1 p.2) (Set.Icc (0 : ℝ) W ×ˢ Set.Icc (0 : ℝ) H) := fun y hy =>
      hg.comp (g := fun z : E × ℝ × ℝ => g z.1 z.2.1 z.2.2) (f := fun p : ℝ × ℝ => (y, p)) (by fun_prop) fun p hp => ⟨hy, hp⟩
    obtain ⟨G, hG⟩ := hK.exists_bound_of_continuousOn ((hgx x hx).sub (hgx θ hθ))
    set G' := max G 0 with hG'
    have hb : ∀ N : ℕ, 0 < N → μ N {ω | ∑ p ∈ Finset.range (H * N) ×ˢ Finset.range (W * N),
        (X N p.1 p.2 ω - pixelsOf (zoomed N (g θ)) p.1 p.2) ^ 2 ≤ M * (N : ℝ) ^ 2 ∧
        ∃ y ∈ V, t * (N : ℝ) ^ 2 ≤ fitCross (H * N) (W * N) (use N) (mask N) (pixelsOf (zoomed N (g y))) (pixelsOf (zoomed N (g θ))) fun i j => X N i j ω} ≤
        ENNReal.ofReal (4 * (H * W) * G' * (v * G') / t ^ 2 / (N : ℝ) ^ 2) := by
      intro N hN
      have hN' : (0 : ℝ) < N := Nat.cast_pos.2 hN
      have h1 := fitCross_tail (hX N) hv (use N) (mask N) (pixelsOf (zoomed N (g x))) (G := G')
        (fun i j hi hj => (hG _ (hpix N i j hi hj)).trans (le_max_left _ _)) (le_max_right _ _) (c := t / 2 * (N : ℝ) ^ 2) (by positivity)
      refine le_trans (measure_mono ?_) (h1.trans (ENNReal.ofReal_le_ofReal (le_of_eq ?_)))
      · rintro ω ⟨h2, y, hy, h3⟩
        have h4 := fitCross_sub (h := H * N) (w := W * N) (use N) (mask N) (pixelsOf (zoomed N (g y))) (pixelsOf (zoomed N (g x)))
          (pixelsOf (zoomed N (g θ))) (fun i j => X N i j ω) (δ := δ) fun i j hi hj => by
            have := hVd y hy _ (hpix N i j hi hj)
            exact le_of_lt this
        have h5 : δ * ((H * N * (W * N) : Nat) + ∑ p ∈ Finset.range (H * N) ×ˢ Finset.range (W * N),
            (X N p.1 p.2 ω - pixelsOf (zoomed N (g θ)) p.1 p.2) ^ 2) ≤ t / 2 * (N : ℝ) ^ 2 := by
          have h6 : ((H * N * (W * N) : Nat) : ℝ) = H * W * (N : ℝ) ^ 2 := by push_cast; ring
          rw [h6]
          calc _ ≤ δ * (H * W * (N : ℝ) ^ 2 + M * (N : ℝ) ^ 2) := mul_le_mul_of_nonneg_left (by linarith) hδ0.le
            _ = t / 2 * (N : ℝ) ^ 2 := by rw [hδ]; field_simp
        rw [Set.mem_ofPred_eq]
        linarith
      · push_cast
        field_simp
        norm_num
    refine tendsto_of_tendsto_of_tendsto_of_le_of_le' tendsto_const_nhds ?_ (Eventually.of_forall fun N => zero_le)
      ((eventually_gt_atTop 0).mono hb)
    rw [← ENNReal.ofReal_zero]
    refine ENNReal.tendsto_ofReal ?_
    exact tendsto_const_nhds.div_atTop ((tendsto_pow_atTop two_ne_zero).comp tendsto_natCast_atTop_atTop)

variable {P : Type} {fam : P → ℝ → ℝ → ℝ} {allowed : ℕ → P → Prop} {fitter : ℕ → P → FitData ℝ → Except PyErr P} {dec : ℕ → P → E} {truth : ℕ → P}

/-- **C166, any family of models.** Images of a scene with more and more pixels and a noise per pixel that stays as large as it is. If the
parameters are from a compact set, the model is continuous in parameters and position, and only parameters in `U` give the true scene, then the
probability that `fit_model` returns parameters outside `U` goes to zero: for every best fitter, every law of the noise with bounded sums
of covariances, and whatever pixels are left out, as long as their fraction goes to zero. -/
theorem C166_family (hS : IsCompact S)
    (hg : ContinuousOn (fun z : E × ℝ × ℝ => g z.1 z.2.1 z.2.2) (S ×ˢ (Set.Icc (0 : ℝ) W ×ˢ Set.Icc (0 : ℝ) H))) (hθ : θ ∈ S) {U : Set E}
    (hU : IsOpen U) (hne : ∀ x ∈ S, x ∉ U → ∃ u v : ℝ, (0 ≤ u ∧ u < W) ∧ (0 ≤ v ∧ v < H) ∧ g x u v ≠ g θ u v)
    (hdec : ∀ N q, 0 < N → allowed N q → dec N q ∈ S ∧ fam q = zoomed N (g (dec N q)))
    (htr : ∀ N, 0 < N → allowed N (truth N) ∧ dec N (truth N) = θ) (law : ∀ N, BestFitter fam (allowed N) (fitter N))
    (hX : ∀ N, CorrelatedNoise (μ N) (H * N) (W * N) (X N) (pixelsOf (zoomed N (g θ))) v) (hv : 0 ≤ v)
    (hun : Tendsto (fun N : ℕ => (unfitted (H * N) (W * N) (use N) (mask N) : ℝ) / (N : ℝ) ^ 2) atTop (𝓝 0)) :
    Tendsto (fun N : ℕ => μ N {ω | ∃ m fit, fitModel (fitter N) (nanImage (H * N) (W * N) (use N) fun i j => X N i j ω) (mask N) m none = .ok fit ∧
      dec N fit ∉ U}) atTop (𝓝 0) := by
  obtain ⟨κ, hκ, hsep⟩ := scene_separated (use := use) (mask := mask) hg hθ (hS.diff hU) Set.sdiff_subset (fun x hx => hne x hx.1 hx.2) hun
  rw [ENNReal.tendsto_nhds_zero]
  intro ρ hρ
  obtain ⟨M, hM, hMρ⟩ : ∃ M : ℝ, 0 < M ∧ ENNReal.ofReal (H * W * v / M) ≤ ρ / 2 := by
    have h1 : Tendsto (fun M : ℝ => ENNReal.ofReal (H * W * v / M)) atTop (𝓝 0) := by
      rw [← ENNReal.ofReal_zero]
      exact ENNReal.tendsto_ofReal (tendsto_const_nhds.div_atTop tendsto_id)
    obtain ⟨M, hM1, hM2⟩ := ((eventually_gt_atTop 0).and ((ENNReal.tendsto_nhds_zero.1 h1) (ρ / 2) (ENNReal.half_pos hρ.ne'))).exists
    exact ⟨M, hM1, hM2⟩
  have huni := fitCross_uniform (use := use) (mask := mask) hS hg hθ hX hv hM (half_pos hκ)
  filter_upwards [hsep, (ENNReal.tendsto_nhds_zero.1 huni) (ρ / 2) (ENNReal.half_pos hρ.ne'), eventually_gt_atTop 0] with N h1 h2 hN
  have hN' : (0 : ℝ) < N := Nat.cast_pos.2 hN
  have h3 := noise_extreme (hX N) (c := M * (N : ℝ) ^ 2) (by positivity)
  have h4 : ((H * N * (W * N) : Nat) : ℝ) * v / (M * (N : ℝ) ^ 2) = H * W * v / M := by
    push_cast
    field_simp
  rw [h4] at h3
  refine le_trans (measure_mono ?_) ((measure_union_le _ _).trans ((add_le_add h2 (h3.trans hMρ)).trans (ENNReal.add_halves ρ).le))
  rintro ω ⟨m, fit, hfit, hnot⟩
  by_cases hbig : M * (N : ℝ) ^ 2 ≤ ∑ p ∈ Finset.range (H * N) ×ˢ Finset.range (W * N), (X N p.1 p.2 ω - pixelsOf (zoomed N (g θ)) p.1 p.2) ^ 2
  · exact Or.inr hbig
  · refine Or.inl ⟨(not_le.1 hbig).le, dec N fit, ?_⟩
    obtain ⟨hin, hfam⟩ := hdec N fit hN (fit_allowed (law N) hfit)
    refine ⟨hin, ?_⟩
    have h5 := fit_closest (law N) hfit (htr N hN).1
    rw [(hdec N _ hN (htr N hN).1).2, (htr N hN).2, hfam,
      fitDist_cross _ _ _ _ (pixelsOf (zoomed N (g (dec N fit)))) (pixelsOf (zoomed N (g θ)))] at h5
    have h6 := h1 (dec N fit) ⟨hin, hnot⟩
    linarith

/-- **C166, a best fit exists** for every image, if the parameters are from a compact set. -/
theorem C166_exists (hS : IsCompact S) (hg : ∀ u v, ContinuousOn (fun x => g x u v) S) {e : E → P} {allowed : P → Prop} (hall : ∀ q, allowed q ↔ ∃ x ∈ S, e x = q)
    (hfam : ∀ x, fam (e x) = g x) (hne : S.Nonempty) {h w : Nat} (use mask : Nat → Nat → Bool) {weights : Option (Img (F ℝ))}
    (hw : ∀ wt, weights = some wt → wt.h = h ∧ wt.w = w) (f : Nat → Nat → ℝ) (m : P) :
    ∃ p, fitModel (chosenFitter fam allowed) (nanImage h w use f) mask m weights = .ok p := by
  obtain ⟨x, hx⟩ := hne
  exact best_of_compact (truth := e x) hS (fun q hq _ => (hall q).1 hq) (fun x hx => (hall _).2 ⟨x, hx, rfl⟩) ((hall _).2 ⟨x, hx, rfl⟩)
    (fun i j _ _ => by simpa only [hfam] using hg j i) hw le_rfl m

end

/-! ### Sersic models -/

end Verif.Props

namespace Verif.Spec

/-- The galaxy on a grid of pixels that are `N` times as fine. -/
noncomputable def SersicP.zoomIn (N : Nat) (q : SersicP) : SersicP := ⟨q.amplitude, N * q.rEff, q.n, N * q.x0, N * q.y0, q.ellip, q.theta⟩

/-- Sizes and positions in units of the scene instead of pixels. -/
noncomputable def SersicP.zoomOut (N : Nat) (q : SersicP) : SersicP := ⟨q.amplitude, q.rEff / N, q.n, q.x0 / N, q.y0 / N, q.ellip, q.theta⟩

/-- Every parameter is between that of `lo` and that of `hi`. -/
def SersicP.Between (lo hi q : SersicP) : Prop :=
  (lo.amplitude ≤ q.amplitude ∧ q.amplitude ≤ hi.amplitude) ∧ (lo.rEff ≤ q.rEff ∧ q.rEff ≤ hi.rEff) ∧ (lo.n ≤ q.n ∧ q.n ≤ hi.n) ∧
    (lo.x0 ≤ q.x0 ∧ q.x0 ≤ hi.x0) ∧ (lo.y0 ≤ q.y0 ∧ q.y0 ≤ hi.y0) ∧ (lo.ellip ≤ q.ellip ∧ q.ellip ≤ hi.ellip) ∧
    (lo.theta ≤ q.theta ∧ q.theta ≤ hi.theta)

/-- Bounds that keep the galaxy on a `W × H` scene, with positive size and index and ellipticity below one. -/
def SersicP.SceneBounds (W H : Nat) (lo hi : SersicP) : Prop :=
  0 ≤ lo.amplitude ∧ 0 < lo.rEff ∧ 0 < lo.n ∧ (0 ≤ lo.x0 ∧ hi.x0 < W) ∧ (0 ≤ lo.y0 ∧ hi.y0 < H) ∧ (0 ≤ lo.ellip ∧ hi.ellip < 1)

/-- All parameters of the fit are within `ε` of the true ones: the angle up to half turns, and only if the galaxy is not round. -/
def SersicP.RecoversAll (ε : ℝ) (truth fit : SersicP) : Prop :=
  |fit.amplitude - truth.amplitude| < ε ∧ |fit.rEff - truth.rEff| < ε ∧ |fit.n - truth.n| < ε ∧ |fit.x0 - truth.x0| < ε ∧
    |fit.y0 - truth.y0| < ε ∧ |fit.ellip - truth.ellip| < ε ∧ (truth.ellip ≠ 0 → ∃ k : ℤ, |fit.theta - (truth.theta + k * Real.pi)| < ε)

end Verif.Spec

namespace Verif.Props

open Verif F Spec Lemmas Filter Topology MeasureTheory

theorem zoomIn_at {N : Nat} (hN : 0 < N) (q : SersicP) : (q.zoomIn N).at_ = zoomed N q.at_ := by
  have hN' : (N : ℝ) ≠ 0 := (Nat.cast_pos.2 hN).ne'
  funext x y
  unfold SersicP.at_ zoomed SersicP.zoomIn
  simp only [sersic2D_scaled]
  congr 5
  unfold scaledSq
  have e1 : x / (N : ℝ) - q.x0 = (x - N * q.x0) / N := by field_simp
  have e2 : y / (N : ℝ) - q.y0 = (y - N * q.y0) / N := by field_simp
  rw [e1, e2]
  congr 2
  · rw [div_mul_eq_mul_div, div_mul_eq_mul_div, ← add_div, div_div]
  · rw [← neg_div, div_mul_eq_mul_div, div_mul_eq_mul_div, ← add_div, div_div]
    congr 1
    ring

theorem zoomOut_zoomIn {N : Nat} (hN : 0 < N) (q : SersicP) : (q.zoomIn N).zoomOut N = q := by
  have hN' : (N : ℝ) ≠ 0 := (Nat.cast_pos.2 hN).ne'
  cases q
  simp [SersicP.zoomIn, SersicP.zoomOut, hN']

theorem zoomIn_zoomOut {N : Nat} (hN : 0 < N) (q : SersicP) : (q.zoomOut N).zoomIn N = q := by
  have hN' : (N : ℝ) ≠ 0 := (Nat.cast_pos.2 hN).ne'
  cases q
  simp [SersicP.zoomIn, SersicP.zoomOut, mul_div_cancel₀, hN']

theorem sersic_peak {s : SersicP} (hr : 0 < s.rEff) (hn : 0 < s.n) (he1 : s.ellip < 1) (hA : 0 < s.amplitude) (x y : ℝ) (hxy : ¬ (x = s.x0 ∧ y = s.y0)) :
    s.at_ x y < s.at_ s.x0 s.y0 := by
  unfold SersicP.at_
  rw [sersic2D_scaled, sersic2D_scaled]
  refine mul_lt_mul_of_pos_left (Real.exp_lt_exp.2 ?_) hA
  have hp := one_div_pos.2 hn
  have h1 : scaledSq s.rEff (1 - s.ellip) s.theta (s.x0 - s.x0) (s.y0 - s.y0) = 0 := by simp [scaledSq]
  rw [h1, Real.sqrt_zero, Real.zero_rpow hp.ne']
  have h2 : 0 < scaledSq s.rEff (1 - s.ellip) s.theta (x - s.x0) (y - s.y0) := by
    refine scaledSq_pos hr (by linarith) _ ?_
    by_contra hn
    rw [not_or, not_not, not_not, sub_eq_zero, sub_eq_zero] at hn
    exact hxy hn
  have h3 := Real.rpow_pos_of_pos (Real.sqrt_pos.2 h2) (1 / s.n)
  have h4 := mul_pos (bn_pos hn) h3
  linarith

/-- Two Sersic models with their centres on the scene that agree on the scene have the same parameters. -/
theorem sersic_scene_unique {W H : Nat} {p q : SersicP} (hr : 0 < p.rEff) (hn : 0 < p.n) (he : 0 ≤ p.ellip) (he1 : p.ellip < 1)
    (hr' : 0 < q.rEff) (hn' : 0 < q.n) (he' : 0 ≤ q.ellip) (he1' : q.ellip < 1) (hA : 0 < q.amplitude)
    (hpx : 0 ≤ p.x0 ∧ p.x0 < W) (hpy : 0 ≤ p.y0 ∧ p.y0 < H) (hqx : 0 ≤ q.x0 ∧ q.x0 < W) (hqy : 0 ≤ q.y0 ∧ q.y0 < H)
    (h : ∀ u v : ℝ, 0 ≤ u ∧ u < W → 0 ≤ v ∧ v < H → p.at_ u v = q.at_ u v) :
    p.amplitude = q.amplitude ∧ p.rEff = q.rEff ∧ p.n = q.n ∧ p.x0 = q.x0 ∧ p.y0 = q.y0 ∧ p.ellip = q.ellip ∧
      (q.ellip ≠ 0 → ∃ k : ℤ, p.theta = q.theta + k * Real.pi) := by
  have hAp : 0 < p.amplitude := by
    have h1 := h q.x0 q.y0 hqx hqy
    have h2 : 0 < q.at_ q.x0 q.y0 := mul_pos hA (Real.exp_pos _)
    rw [← h1] at h2
    exact pos_of_mul_pos_left h2 (Real.exp_pos _).le
  have hc : q.x0 = p.x0 ∧ q.y0 = p.y0 := by
    by_contra hne
    have h1 := sersic_peak hr hn he1 hAp q.x0 q.y0 hne
    have h2 := sersic_peak hr' hn' he1' hA p.x0 p.y0 fun hc => hne ⟨hc.1.symm, hc.2.symm⟩
    rw [h _ _ hqx hqy, h _ _ hpx hpy] at h1
    linarith
  obtain ⟨N, hN1, hN2, hN3⟩ : ∃ N : ℕ, 0 < N ∧ p.x0 + 2 / N < W ∧ p.y0 + 2 / N < H := by
    have t : ∀ a b : ℝ, a < b → ∀ᶠ N : ℕ in atTop, a + 2 / (N : ℝ) < b := fun a b hab => by
      have h1 : Tendsto (fun N : ℕ => a + 2 / (N : ℝ)) atTop (𝓝 (a + 0)) :=
        tendsto_const_nhds.add (tendsto_const_nhds.div_atTop tendsto_natCast_atTop_atTop)
      rw [add_zero] at h1
      exact h1.eventually_lt_const hab
    exact ((eventually_gt_atTop 0).and ((t _ _ hpx.2).and (t _ _ hpy.2))).exists
  have hN' : (0 : ℝ) < N := Nat.cast_pos.2 hN1
  obtain ⟨g1, g2, g3, g4, g5⟩ := sersic_centre_unique (x0 := N * p.x0) (y0 := N * p.y0) (r := N * q.rEff) (r' := N * p.rEff) (t := q.theta) (t' := p.theta)
      hA (mul_pos hN' hr') (mul_pos hN' hr) hn' hn he' he1' he he1 fun d hd => by
    have hd' : (0 ≤ d.1 ∧ d.1 ≤ 2) ∧ (0 ≤ d.2 ∧ d.2 ≤ 2) := by
      rcases hd with rfl | rfl | rfl | rfl | rfl <;> norm_num
    have h1 := h ((N * p.x0 + d.1) / N) ((N * p.y0 + d.2) / N)
    have e1 : (N * p.x0 + d.1) / N = p.x0 + d.1 / N := by field_simp
    have e2 : (N * p.y0 + d.2) / N = p.y0 + d.2 / N := by field_simp
    have d1 : d.1 / (N : ℝ) ≤ 2 / N := div_le_div_of_nonneg_right hd'.1.2 hN'.le
    have d2 : d.2 / (N : ℝ) ≤ 2 / N := div_le_div_of_nonneg_right hd'.2.2 hN'.le
    have d3 : 0 ≤ d.1 / (N : ℝ) := div_nonneg hd'.1.1 hN'.le
    have d4 : 0 ≤ d.2 / (N : ℝ) := div_nonneg hd'.2.1 hN'.le
    have h2 := h1 (by rw [e1]; exact ⟨by linarith [hpx.1], by linarith⟩) (by rw [e2]; exact ⟨by linarith [hpy.1], by linarith⟩)
    have z1 := congrFun (congrFun (zoomIn_at hN1 p) (N * p.x0 + d.1)) (N * p.y0 + d.2)
    have z2 := congrFun (congrFun (zoomIn_at hN1 q) (N * p.x0 + d.1)) (N * p.y0 + d.2)
    unfold zoomed at z1 z2
    rw [← z1, ← z2] at h2
    unfold SersicP.at_ SersicP.zoomIn at h2
    simpa only [hc.1, hc.2] using h2
  exact ⟨g1, mul_left_cancel₀ hN'.ne' g2, g3, hc.1.symm, hc.2.symm, g4, g5⟩

theorem sersic_jointly {D : Set (ℝ × ℝ)} : ContinuousOn (fun z : (ℝ × ℝ × ℝ × ℝ × ℝ × ℝ × ℝ) × ℝ × ℝ => (sersicAt z.1).at_ z.2.1 z.2.2)
    ({x | 0 < (sersicAt x).rEff ∧ 0 < (sersicAt x).n ∧ (sersicAt x).ellip < 1} ×ˢ D) := by
  rintro z ⟨⟨hr, hn, he1⟩, -⟩
  unfold SersicP.at_
  simp only [sersic2D_scaled]
  simp only [sersicAt] at hr hn he1 ⊢
  refine ContinuousAt.continuousWithinAt ?_
  have cb : ContinuousAt (fun z : (ℝ × ℝ × ℝ × ℝ × ℝ × ℝ × ℝ) × ℝ × ℝ => bn z.1.2.2.1) z :=
    ContinuousAt.comp (f := fun z : (ℝ × ℝ × ℝ × ℝ × ℝ × ℝ × ℝ) × ℝ × ℝ => z.1.2.2.1) (g := bn) (bn_continuousAt hn) (by fun_prop)
  have cs : ContinuousAt (fun z : (ℝ × ℝ × ℝ × ℝ × ℝ × ℝ × ℝ) × ℝ × ℝ =>
      Real.sqrt (scaledSq z.1.2.1 (1 - z.1.2.2.2.2.2.1) z.1.2.2.2.2.2.2 (z.2.1 - z.1.2.2.2.1) (z.2.2 - z.1.2.2.2.2.1))) z := by
    unfold scaledSq
    have h1 : z.1.2.1 ≠ 0 := hr.ne'
    have h2 : (1 - z.1.2.2.2.2.2.1) * z.1.2.1 ≠ 0 := mul_ne_zero (by linarith) hr.ne'
    refine ContinuousAt.comp (g := Real.sqrt) Real.continuous_sqrt.continuousAt ?_
    fun_prop (disch := assumption)
  have cn : ContinuousAt (fun z : (ℝ × ℝ × ℝ × ℝ × ℝ × ℝ × ℝ) × ℝ × ℝ => 1 / z.1.2.2.1) z := ContinuousAt.div (by fun_prop) (by fun_prop) hn.ne'
  exact ContinuousAt.mul (by fun_prop) (Real.continuous_exp.continuousAt.comp (cb.neg.mul ((cs.rpow cn (Or.inr (one_div_pos.2 hn))).sub continuousAt_const)))

theorem between_compact (lo hi : SersicP) : IsCompact {x | SersicP.Between lo hi (sersicAt x)} := by
  refine IsCompact.of_isClosed_subset (isCompact_Icc (a := ((lo.amplitude, lo.rEff, lo.n, lo.x0, lo.y0, lo.ellip, lo.theta) : ℝ × ℝ × ℝ × ℝ × ℝ × ℝ × ℝ))
    (b := (hi.amplitude, hi.rEff, hi.n, hi.x0, hi.y0, hi.ellip, hi.theta))) ?_ ?_
  · unfold SersicP.Between sersicAt
    simp only [Set.ofPred_and]
    repeat' apply IsClosed.inter
    all_goals exact isClosed_le (by fun_prop) (by fun_prop)
  · rintro x ⟨⟨b1, b2⟩, ⟨b3, b4⟩, ⟨b5, b6⟩, ⟨b7, b8⟩, ⟨b9, b10⟩, ⟨b11, b12⟩, b13, b14⟩
    exact ⟨⟨b1, b3, b5, b7, b9, b11, b13⟩, ⟨b2, b4, b6, b8, b10, b12, b14⟩⟩

theorem recoversAll_open (tr : SersicP) (ε : ℝ) : IsOpen {x | SersicP.RecoversAll ε tr (sersicAt x)} := by
  unfold SersicP.RecoversAll sersicAt
  simp only [Set.ofPred_and]
  have key : ∀ (g : ℝ × ℝ × ℝ × ℝ × ℝ × ℝ × ℝ → ℝ) (c : ℝ), Continuous g → IsOpen {x | |g x - c| < ε} := fun g c hg =>
    isOpen_lt (hg.sub continuous_const).abs continuous_const
  refine (key _ _ (by fun_prop)).inter ((key _ _ (by fun_prop)).inter ((key _ _ (by fun_prop)).inter ((key _ _ (by fun_prop)).inter
    ((key _ _ (by fun_prop)).inter ((key _ _ (by fun_prop)).inter ?_)))))
  by_cases h0 : tr.ellip = 0
  · simp [h0]
  · have : {x : ℝ × ℝ × ℝ × ℝ × ℝ × ℝ × ℝ | tr.ellip ≠ 0 → ∃ k : ℤ, |x.2.2.2.2.2.2 - (tr.theta + k * Real.pi)| < ε} =
        ⋃ k : ℤ, {x : ℝ × ℝ × ℝ × ℝ × ℝ × ℝ × ℝ | |x.2.2.2.2.2.2 - (tr.theta + k * Real.pi)| < ε} := by
      ext x
      simp [h0]
    rw [this]
    exact isOpen_iUnion fun k => key _ _ (by fun_prop)

theorem between_pos {W H : Nat} {lo hi : SersicP} (hb : SersicP.SceneBounds W H lo hi) (q : SersicP) (hq : SersicP.Between lo hi q) :
    0 < q.rEff ∧ 0 < q.n ∧ 0 ≤ q.ellip ∧ q.ellip < 1 ∧ (0 ≤ q.x0 ∧ q.x0 < W) ∧ (0 ≤ q.y0 ∧ q.y0 < H) := by
  obtain ⟨-, hr, hn, ⟨hx0, hx1⟩, ⟨hy0, hy1⟩, he, he1⟩ := hb
  obtain ⟨-, ⟨a1, -⟩, ⟨a2, -⟩, ⟨a3, a4⟩, ⟨a5, a6⟩, ⟨a7, a8⟩, -⟩ := hq
  exact ⟨by linarith, by linarith, by linarith, by linarith, ⟨by linarith, by linarith⟩, by linarith, by linarith⟩

/-- Parameters that do not recover the galaxy give another scene. -/
theorem sersic_identified {W H : Nat} {lo hi tr : SersicP} (hb : SersicP.SceneBounds W H lo hi) (htr : SersicP.Between lo hi tr) (hA : 0 < tr.amplitude)
    {ε : ℝ} (hε : 0 < ε) (q : SersicP) (hq : SersicP.Between lo hi q) (hnot : ¬ SersicP.RecoversAll ε tr q) :
    ∃ u v : ℝ, (0 ≤ u ∧ u < W) ∧ (0 ≤ v ∧ v < H) ∧ q.at_ u v ≠ tr.at_ u v := by
  obtain ⟨t1, t2, t3, t4, t5, t6⟩ := between_pos hb tr htr
  by_contra hno
  push Not at hno
  obtain ⟨s1, s2, s3, s4, s5, s6⟩ := between_pos hb q hq
  obtain ⟨g1, g2, g3, g4, g5, g6, g7⟩ := sersic_scene_unique s1 s2 s3 s4 t1 t2 t3 t4 hA s5 s6 t5 t6 fun u v hu hv => hno u v hu hv
  refine hnot ⟨?_, ?_, ?_, ?_, ?_, ?_, fun h0 => ?_⟩
  · rwa [g1, sub_self, abs_zero]
  · rwa [g2, sub_self, abs_zero]
  · rwa [g3, sub_self, abs_zero]
  · rwa [g4, sub_self, abs_zero]
  · rwa [g5, sub_self, abs_zero]
  · rwa [g6, sub_self, abs_zero]
  · obtain ⟨k, hk⟩ := g7 h0
    exact ⟨k, by rwa [hk, sub_self, abs_zero]⟩

variable {Ω : ℕ → Type} [∀ N, MeasurableSpace (Ω N)] {μ : ∀ N, Measure (Ω N)} [∀ N, IsProbabilityMeasure (μ N)] {X : ∀ N, Nat → Nat → Ω N → ℝ} {v : ℝ}
  {W H : Nat} {lo hi tr : SersicP} {use mask : ℕ → Nat → Nat → Bool} {ok : ℕ → SersicP → Prop} {fitter : ℕ → SersicP → FitData ℝ → Except PyErr SersicP}

/-- **C166, Sersic models.** All seven parameters are fitted, inside bounds that keep the galaxy on the scene, to images of a Sersic galaxy with
more and more pixels and a noise per pixel that does not get smaller. Then the fitted amplitude, index, ellipticity and angle (up to half turns,
if the galaxy is not round), and effective radius and centre in units of the scene, converge to the true ones in probability. -/
theorem C166_sersic (hb : SersicP.SceneBounds W H lo hi) (hok : ∀ N q, 0 < N → ok N q → SersicP.Between lo hi (q.zoomOut N))
    (ht : ∀ N, 0 < N → ok N (tr.zoomIn N)) (hA : 0 < tr.amplitude) (law : ∀ N, BestFitter SersicP.at_ (ok N) (fitter N))
    (hX : ∀ N, CorrelatedNoise (μ N) (H * N) (W * N) (X N) (pixelsOf (zoomed N tr.at_)) v) (hv : 0 ≤ v)
    (hun : Tendsto (fun N : ℕ => (unfitted (H * N) (W * N) (use N) (mask N) : ℝ) / (N : ℝ) ^ 2) atTop (𝓝 0)) {ε : ℝ} (hε : 0 < ε) :
    Tendsto (fun N : ℕ => μ N {ω | ∃ m fit, fitModel (fitter N) (nanImage (H * N) (W * N) (use N) fun i j => X N i j ω) (mask N) m none = .ok fit ∧
      ¬ SersicP.RecoversAll ε tr (fit.zoomOut N)}) atTop (𝓝 0) := by
  have htr : SersicP.Between lo hi tr := by
    have := hok 1 _ one_pos (ht 1 one_pos)
    rwa [zoomOut_zoomIn one_pos] at this
  have hpos := between_pos hb
  set g : (ℝ × ℝ × ℝ × ℝ × ℝ × ℝ × ℝ) → ℝ → ℝ → ℝ := fun x => (sersicAt x).at_ with hgd
  obtain ⟨θ, hθ⟩ : ∃ θ, sersicAt θ = tr := ⟨_, sersicAt_surj tr⟩
  have hgθ : g θ = tr.at_ := by rw [hgd]; simp only [hθ]
  obtain ⟨dec, hdec⟩ : ∃ dec : ℕ → SersicP → ℝ × ℝ × ℝ × ℝ × ℝ × ℝ × ℝ, ∀ N q, sersicAt (dec N q) = q.zoomOut N :=
    ⟨fun N q => _, fun N q => sersicAt_surj (q.zoomOut N)⟩
  have hinj : ∀ x y, sersicAt x = sersicAt y → x = y := by
    rintro ⟨a1, a2, a3, a4, a5, a6, a7⟩ ⟨b1, b2, b3, b4, b5, b6, b7⟩ hxy
    simp only [sersicAt, SersicP.mk.injEq] at hxy
    simp [hxy]
  have hident : ∀ x ∈ {x | SersicP.Between lo hi (sersicAt x)}, x ∉ {x | SersicP.RecoversAll ε tr (sersicAt x)} →
      ∃ u v : ℝ, (0 ≤ u ∧ u < W) ∧ (0 ≤ v ∧ v < H) ∧ g x u v ≠ g θ u v := by
    intro x hx hnot
    rw [hgθ]
    exact sersic_identified hb htr hA hε _ hx hnot
  have hcont : ContinuousOn (fun z : (ℝ × ℝ × ℝ × ℝ × ℝ × ℝ × ℝ) × ℝ × ℝ => g z.1 z.2.1 z.2.2)
      ({x | SersicP.Between lo hi (sersicAt x)} ×ˢ (Set.Icc (0 : ℝ) W ×ˢ Set.Icc (0 : ℝ) H)) :=
    sersic_jointly.mono fun z hz => ⟨⟨(hpos _ hz.1).1, (hpos _ hz.1).2.1, (hpos _ hz.1).2.2.2.1⟩, hz.2⟩
  have hX' : ∀ N, CorrelatedNoise (μ N) (H * N) (W * N) (X N) (pixelsOf (zoomed N (g θ))) v := by
    rw [hgθ]
    exact hX
  have hd1 : ∀ N q, 0 < N → ok N q → dec N q ∈ {x | SersicP.Between lo hi (sersicAt x)} ∧ SersicP.at_ q = zoomed N (g (dec N q)) := by
    intro N q hN hq
    refine ⟨?_, ?_⟩
    · rw [Set.mem_ofPred_eq, hdec]
      exact hok N q hN hq
    · rw [hgd]
      simp only
      rw [hdec, ← zoomIn_at hN, zoomIn_zoomOut hN]
  have hd2 : ∀ N, 0 < N → ok N (tr.zoomIn N) ∧ dec N (tr.zoomIn N) = θ := fun N hN =>
    ⟨ht N hN, hinj _ _ (by rw [hdec, zoomOut_zoomIn hN, hθ])⟩
  have hmem : θ ∈ {x | SersicP.Between lo hi (sersicAt x)} := by
    rw [Set.mem_ofPred_eq, hθ]
    exact htr
  have hfin := C166_family (between_compact lo hi) hcont hmem (recoversAll_open tr ε) hident hd1 hd2 law hX' hv hun
  simpa only [Set.mem_ofPred_eq, hdec] using hfin

/-- With such bounds, every image has a best fit. -/
theorem C166_sersic_exists (hb : SersicP.SceneBounds W H lo hi) {tr : SersicP} (htr : SersicP.Between lo hi tr) {N : Nat} (hN : 0 < N) {h w : Nat}
    (use mask : Nat → Nat → Bool) {weights : Option (Img (F ℝ))} (hw : ∀ wt, weights = some wt → wt.h = h ∧ wt.w = w) (f : Nat → Nat → ℝ) (m : SersicP) :
    ∃ fit, fitModel (chosenFitter SersicP.at_ fun q => SersicP.Between lo hi (q.zoomOut N)) (nanImage h w use f) mask m weights = .ok fit := by
  refine C166_exists (g := fun x => zoomed N (sersicAt x).at_) (e := fun x => (sersicAt x).zoomIn N) (between_compact lo hi) (fun u v => ?_) (fun q => ?_)
    (fun x => zoomIn_at hN _) ⟨_, (sersicAt_surj tr).symm ▸ htr⟩ use mask hw f m
  · obtain ⟨-, hr, hn, -, -, -, he1⟩ := hb
    refine (sersic_jointly (D := Set.univ)).comp (f := fun x => (x, u / N, v / N)) (by fun_prop) fun x hx => ⟨?_, Set.mem_univ _⟩
    obtain ⟨-, ⟨a1, -⟩, ⟨a2, -⟩, -, -, ⟨-, a8⟩, -⟩ := hx
    exact ⟨by linarith, by linarith, by linarith⟩
  · constructor
    · intro hq
      refine ⟨_, ?_, (congrArg (SersicP.zoomIn N) (sersicAt_surj (q.zoomOut N))).trans (zoomIn_zoomOut hN q)⟩
      exact (sersicAt_surj (q.zoomOut N)).symm ▸ hq
    · rintro ⟨x, hx, rfl⟩
      rw [zoomOut_zoomIn hN]
      exact hx

/-- A galaxy with index 4 and ellipticity 1/2 in the middle of the scene, with Gaussian noise ten times its amplitude in every pixel: the index that
`fit_model` returns with all parameters free is within 1/10 of 4 with a probability that goes to one as the image gets more pixels, and `fit_model`
does return. -/
example (m : SersicP) : ∃ (lo hi : SersicP) (fit : ∀ N, (Fin (1 * N) × Fin (1 * N) → ℝ) → SersicP), (∀ N, 0 < N → ∀ ω,
      fitModel (chosenFitter SersicP.at_ fun q => SersicP.Between lo hi (q.zoomOut N)) (nanImage (1 * N) (1 * N) (fun _ _ => true) fun i j =>
        gaussImage (1 * N) (1 * N) (pixelsOf (zoomed N (SersicP.at_ ⟨10, 1 / 5, 4, 1 / 2, 1 / 2, 1 / 2, 1⟩))) (fun _ _ => 100) i j ω) (fun _ _ => false) m none =
        .ok (fit N ω)) ∧
    Tendsto (fun N => gaussField (1 * N) (1 * N) {ω | ¬ |(fit N ω).n - 4| < 1 / 10}) atTop (𝓝 0) := by
  set lo : SersicP := ⟨0, 1 / 10, 1 / 10, 1 / 4, 1 / 4, 0, 0⟩ with hlo
  set hi : SersicP := ⟨100, 1, 10, 3 / 4, 3 / 4, 99 / 100, 3⟩ with hhi
  set tr : SersicP := ⟨10, 1 / 5, 4, 1 / 2, 1 / 2, 1 / 2, 1⟩ with htr
  have hb : SersicP.SceneBounds 1 1 lo hi := by
    rw [hlo, hhi]
    refine ⟨?_, ?_, ?_, ⟨?_, ?_⟩, ⟨?_, ?_⟩, ?_, ?_⟩ <;> norm_num
  have ht : SersicP.Between lo hi tr := by
    rw [hlo, hhi, htr]
    refine ⟨⟨?_, ?_⟩, ⟨?_, ?_⟩, ⟨?_, ?_⟩, ⟨?_, ?_⟩, ⟨?_, ?_⟩, ⟨?_, ?_⟩, ?_, ?_⟩ <;> norm_num
  have hex := fun N (hN : 0 < N) (ω : Fin (1 * N) × Fin (1 * N) → ℝ) => C166_sersic_exists hb ht hN (h := 1 * N) (w := 1 * N) (fun _ _ => true)
    (fun _ _ => false) (weights := none) (by simp) (fun i j => gaussImage (1 * N) (1 * N) (pixelsOf (zoomed N tr.at_)) (fun _ _ => 100) i j ω) m
  have hfit : ∀ N, ∃ fit : (Fin (1 * N) × Fin (1 * N) → ℝ) → SersicP, 0 < N → ∀ ω,
      fitModel (chosenFitter SersicP.at_ fun q => SersicP.Between lo hi (q.zoomOut N)) (nanImage (1 * N) (1 * N) (fun _ _ => true) fun i j =>
        gaussImage (1 * N) (1 * N) (pixelsOf (zoomed N tr.at_)) (fun _ _ => 100) i j ω) (fun _ _ => false) m none = .ok (fit ω) := by
    intro N
    rcases Nat.eq_zero_or_pos N with h0 | hN
    · exact ⟨fun _ => m, fun h => absurd h (by omega)⟩
    · choose fit hfit using hex N hN
      exact ⟨fit, fun _ => hfit⟩
  choose fit hfit using hfit
  refine ⟨lo, hi, fit, hfit, ?_⟩
  have hlim := C166_sersic (W := 1) (H := 1) (use := fun _ _ _ => true) (mask := fun _ _ _ => false) (ok := fun N q => SersicP.Between lo hi (q.zoomOut N))
    (fitter := fun N => chosenFitter SersicP.at_ fun q => SersicP.Between lo hi (q.zoomOut N)) hb (fun N q _ hq => hq)
    (fun N hN => by rw [zoomOut_zoomIn hN]; exact ht) (by rw [htr]; norm_num) (fun N => chosenFitter_law _ _)
    (fun N => (gaussian_noise (1 * N) (1 * N) (pixelsOf (zoomed N tr.at_)) fun _ _ => 100).correlated (v := 10000) fun _ _ _ _ => by norm_num) (by norm_num)
    (by simp [unfitted]) (show (0 : ℝ) < 1 / 10 by norm_num)
  refine tendsto_of_tendsto_of_tendsto_of_le_of_le' tendsto_const_nhds hlim (Eventually.of_forall fun N => zero_le)
    ((eventually_gt_atTop 0).mono fun N hN => measure_mono ?_)
  intro ω hω
  exact ⟨m, fit N ω, hfit N hN ω, fun hr => hω hr.2.2.1⟩

end Verif.Props

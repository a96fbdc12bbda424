import Verif.Props.NoisyFluxes
import Verif.Props.PlaneNoise

/-!
# C164: images with a sky that is fitted and subtracted

`fit_background` (petrofit/modeling/fitting.py) on the sky pixels, `model_to_image` of the fitted plane, subtraction, and then the documented recipe
(petrofit/utils.py, petrofit/photometry.py:108-227, petrofit/petrosian/core.py).
-/

set_option linter.unusedSectionVars false
set_option linter.unusedVariables false

namespace Verif.Spec

/-- The pixels to be used are spread over the `h × w` frame: three of them are not on a line, they are at least `1 / L` of the frame, and a plane is
nowhere on the frame larger than `√L` times its root mean square on the used pixels. -/
structure WellSpread (h w : Nat) (use : Nat → Nat → Bool) (L : ℝ) : Prop where
  spread : UsedSpread h w use
  many : (h : ℝ) * w ≤ L * usedSum h w use fun _ _ => 1
  planes : ∀ (Q : Plane ℝ) (i j : Nat), i < h → j < w →
    Q.at_ j i ^ 2 * (usedSum h w use fun _ _ => 1) ≤ L * usedSum h w use fun i j => Q.at_ j i ^ 2

end Verif.Spec

namespace Verif.Props

open Verif F Spec Lemmas MeasureTheory ProbabilityTheory Real

section noise

variable {Ω : Type} [MeasurableSpace Ω] {μ : Measure Ω} [IsProbabilityMeasure μ] {h w h' w' : Nat} {X Y : Nat → Nat → Ω → ℝ}
  {m m' : Nat → Nat → ℝ} {v : ℝ}

/-- Only the pixels of the frame matter. -/
theorem _root_.Verif.Spec.CorrelatedNoise.congr (hX : CorrelatedNoise μ h w X m v) (hY : ∀ i j, i < h → j < w → Y i j = X i j)
    (hm : ∀ i j, i < h → j < w → m' i j = m i j) : CorrelatedNoise μ h w Y m' v := by
  refine ⟨fun i j hi hj => by rw [hY i j hi hj]; exact hX.memLp i j hi hj, fun i j hi hj => ?_, fun i j hi hj => ?_⟩
  · rw [hY i j hi hj, hm i j hi hj]
    exact hX.mean i j hi hj
  · refine le_of_eq_of_le (Finset.sum_congr rfl fun p hp => ?_) (hX.cov i j hi hj)
    rw [Finset.mem_product, Finset.mem_range, Finset.mem_range] at hp
    rw [hY i j hi hj, hY p.1 p.2 hp.1 hp.2]

/-- An image made from the pixels of an image with correlated noise by sums. -/
theorem processed_noise (hX : CorrelatedNoise μ h w X m v) (hv0 : 0 ≤ v) {A B : ℝ} (hB0 : 0 ≤ B) (k : Nat → Nat → Nat → Nat → ℝ)
    (hA : ∀ i j, i < h' → j < w' → ∑ p ∈ Finset.range h ×ˢ Finset.range w, |k i j p.1 p.2| ≤ A)
    (hB : ∀ i j, i < h → j < w → ∑ p ∈ Finset.range h' ×ˢ Finset.range w', |k p.1 p.2 i j| ≤ B) :
    CorrelatedNoise μ h' w' (fun i j ω => weightedSum (k i j) h w (fun _ _ => true) fun a b => X a b ω)
      (fun i j => weightedSum (k i j) h w (fun _ _ => true) m) (A * (v * B)) := by
  refine ⟨fun i j _ _ => corr_memLp hX _ _, fun i j _ _ => corr_mean hX _ _, fun i j hi hj => ?_⟩
  set S := Finset.range h ×ˢ Finset.range w with hS
  have hmS : ∀ q ∈ S, q.1 < h ∧ q.2 < w := fun q hq => by
    rwa [hS, Finset.mem_product, Finset.mem_range, Finset.mem_range] at hq
  have hmem : ∀ (a : Nat → Nat → ℝ), ∀ q ∈ S, MemLp (fun ω => a q.1 q.2 * X q.1 q.2 ω) 2 μ := fun a q hq =>
    (hX.memLp q.1 q.2 (hmS q hq).1 (hmS q hq).2).const_mul _
  have e : ∀ p : Nat × Nat, |cov[fun ω => weightedSum (k i j) h w (fun _ _ => true) fun a b => X a b ω,
      fun ω => weightedSum (k p.1 p.2) h w (fun _ _ => true) fun a b => X a b ω; μ]| ≤
      ∑ q ∈ S, ∑ r ∈ S, |k i j q.1 q.2| * (|cov[X q.1 q.2, X r.1 r.2; μ]| * |k p.1 p.2 r.1 r.2|) := by
    intro p
    simp only [weightedSum_product, if_true]
    rw [covariance_fun_sum_fun_sum' (hmem (k i j)) (hmem (k p.1 p.2))]
    refine (Finset.abs_sum_le_sum_abs _ _).trans (Finset.sum_le_sum fun q hq => ?_)
    refine (Finset.abs_sum_le_sum_abs _ _).trans (Finset.sum_le_sum fun r hr => ?_)
    rw [covariance_const_mul_left, covariance_const_mul_right, abs_mul, abs_mul]
    exact le_of_eq (by ring)
  refine (Finset.sum_le_sum fun p _ => e p).trans ?_
  rw [Finset.sum_comm]
  have e2 : ∀ q ∈ S, ∑ p ∈ Finset.range h' ×ˢ Finset.range w', ∑ r ∈ S, |k i j q.1 q.2| * (|cov[X q.1 q.2, X r.1 r.2; μ]| * |k p.1 p.2 r.1 r.2|) ≤
      |k i j q.1 q.2| * (v * B) := by
    intro q hq
    rw [Finset.sum_comm]
    have e3 : ∀ r ∈ S, ∑ p ∈ Finset.range h' ×ˢ Finset.range w', |k i j q.1 q.2| * (|cov[X q.1 q.2, X r.1 r.2; μ]| * |k p.1 p.2 r.1 r.2|) ≤
        |k i j q.1 q.2| * (|cov[X q.1 q.2, X r.1 r.2; μ]| * B) := by
      intro r hr
      rw [← Finset.mul_sum, ← Finset.mul_sum]
      exact mul_le_mul_of_nonneg_left (mul_le_mul_of_nonneg_left (hB r.1 r.2 (hmS r hr).1 (hmS r hr).2) (abs_nonneg _)) (abs_nonneg _)
    refine (Finset.sum_le_sum e3).trans ?_
    rw [← Finset.mul_sum, ← Finset.sum_mul]
    exact mul_le_mul_of_nonneg_left (mul_le_mul_of_nonneg_right (hX.cov q.1 q.2 (hmS q hq).1 (hmS q hq).2) hB0) (abs_nonneg _)
  refine (Finset.sum_le_sum e2).trans ?_
  rw [← Finset.sum_mul]
  exact mul_le_mul_of_nonneg_right (hA i j hi hj) (mul_nonneg hv0 hB0)

end noise

section plane

variable {h w : Nat} {use : Nat → Nat → Bool} {L : ℝ}

/-- The influence of a used pixel on the fitted plane. -/
theorem kernel_small (hs : WellSpread h w use L) (hL : 0 ≤ L) {H : ℝ → ℝ → Plane ℝ}
    (h1 : ∀ (P : Plane ℝ) x y, weightedSum (fun i j => (H x y).at_ j i) h w use (fun i j => P.at_ j i) = P.at_ x y) {i j a b : Nat}
    (hi : i < h) (hj : j < w) (ha : a < h) (hb : b < w) : |(H j i).at_ b a| * (usedSum h w use fun _ _ => 1) ≤ L := by
  have hN := usedSpread_nonempty hs.spread
  set N := usedSum h w use fun _ _ => 1 with hNd
  set Q := H j i with hQ
  have hq : (usedSum h w use fun i j => Q.at_ j i ^ 2) = Q.at_ j i := by
    have := h1 Q j i
    rw [weightedSum_used] at this
    rw [← this]
    simp only [pow_two, ← hQ]
  have p1 := hs.planes Q i j hi hj
  have p2 := hs.planes Q a b ha hb
  rw [hq] at p1 p2
  have hq0 : 0 ≤ Q.at_ j i := by
    rw [← hq, usedSum_set]
    exact Finset.sum_nonneg fun _ _ => sq_nonneg _
  have p3 : Q.at_ j i * N ≤ L := by
    rcases hq0.eq_or_lt with h0 | h0
    · rw [← h0, zero_mul]; exact hL
    · by_contra hc
      push Not at hc
      have := mul_lt_mul_of_pos_right hc h0
      nlinarith
  refine abs_le_of_sq_le_sq' ?_ hL |>.2
  rw [mul_pow, sq_abs]
  have p4 := mul_le_mul_of_nonneg_right p2 hN.le
  have p5 := mul_le_mul_of_nonneg_left p3 hL
  nlinarith

/-- A plane fitted to the used pixels. -/
noncomputable def skyKernel (use : Nat → Nat → Bool) (H : ℝ → ℝ → Plane ℝ) (i j a b : Nat) : ℝ :=
  (if (a, b) = (i, j) then 1 else 0) - if use a b then (H j i).at_ b a else 0

theorem skyKernel_sum (H : ℝ → ℝ → Plane ℝ) (f : Nat → Nat → ℝ) {i j : Nat} (hi : i < h) (hj : j < w) :
    weightedSum (skyKernel use H i j) h w (fun _ _ => true) f = f i j - weightedSum (fun a b => (H j i).at_ b a) h w use f := by
  simp only [weightedSum_product, skyKernel, if_true, sub_mul, Finset.sum_sub_distrib, ite_mul, one_mul, zero_mul, Prod.mk.eta]
  rw [Finset.sum_ite_eq' _ (i, j) fun p : Nat × Nat => f p.1 p.2, if_pos (by simp [hi, hj])]

theorem used_le (f : Nat → Nat → ℝ) (hf : ∀ i j, 0 ≤ f i j) {c : ℝ} (hc : ∀ i j, i < h → j < w → use i j = true → f i j ≤ c) :
    usedSum h w use f ≤ c * usedSum h w use fun _ _ => 1 := by
  rw [usedSum_set, usedSum_set, Finset.mul_sum]
  refine Finset.sum_le_sum fun p hp => ?_
  rw [usedSet, Finset.mem_filter, Finset.mem_product, Finset.mem_range, Finset.mem_range] at hp
  rw [mul_one]
  exact hc p.1 p.2 hp.1.1 hp.1.2 hp.2

theorem skyKernel_rows (hs : WellSpread h w use L) (hL : 0 ≤ L) {H : ℝ → ℝ → Plane ℝ}
    (h1 : ∀ (P : Plane ℝ) x y, weightedSum (fun i j => (H x y).at_ j i) h w use (fun i j => P.at_ j i) = P.at_ x y) {i j : Nat}
    (hi : i < h) (hj : j < w) : (usedSum h w use fun a b => |(H j i).at_ b a|) ≤ L := by
  have hN := usedSpread_nonempty hs.spread
  refine (used_le _ (fun _ _ => abs_nonneg _) (c := L / usedSum h w use fun _ _ => 1) fun a b ha hb _ => ?_).trans ?_
  · rw [le_div_iff₀ hN]
    exact kernel_small hs hL h1 hi hj ha hb
  · rw [div_mul_cancel₀ _ hN.ne']

theorem skyKernel_A (hs : WellSpread h w use L) (hL : 0 ≤ L) {H : ℝ → ℝ → Plane ℝ}
    (h1 : ∀ (P : Plane ℝ) x y, weightedSum (fun i j => (H x y).at_ j i) h w use (fun i j => P.at_ j i) = P.at_ x y) {i j : Nat}
    (hi : i < h) (hj : j < w) : ∑ p ∈ Finset.range h ×ˢ Finset.range w, |skyKernel use H i j p.1 p.2| ≤ 1 + L := by
  have e : ∀ p ∈ Finset.range h ×ˢ Finset.range w, |skyKernel use H i j p.1 p.2| ≤
      (if p = (i, j) then 1 else 0) + if use p.1 p.2 then |(H j i).at_ p.2 p.1| else 0 := by
    intro p _
    unfold skyKernel
    refine (abs_sub _ _).trans (add_le_add (le_of_eq ?_) (le_of_eq ?_))
    · rw [Prod.mk.eta]; split_ifs <;> simp
    · split_ifs <;> simp
  refine (Finset.sum_le_sum e).trans ?_
  rw [Finset.sum_add_distrib, Finset.sum_ite_eq', if_pos (by simp [hi, hj])]
  refine add_le_add le_rfl ?_
  have := skyKernel_rows hs hL h1 hi hj
  rwa [usedSum_set, usedSet, Finset.sum_filter] at this

theorem skyKernel_B (hs : WellSpread h w use L) (hL : 0 ≤ L) {H : ℝ → ℝ → Plane ℝ}
    (h1 : ∀ (P : Plane ℝ) x y, weightedSum (fun i j => (H x y).at_ j i) h w use (fun i j => P.at_ j i) = P.at_ x y) {a b : Nat}
    (ha : a < h) (hb : b < w) : ∑ p ∈ Finset.range h ×ˢ Finset.range w, |skyKernel use H p.1 p.2 a b| ≤ 1 + L ^ 2 := by
  have hN := usedSpread_nonempty hs.spread
  have e : ∀ p ∈ Finset.range h ×ˢ Finset.range w, |skyKernel use H p.1 p.2 a b| ≤
      (if p = (a, b) then 1 else 0) + L / usedSum h w use fun _ _ => 1 := by
    intro p hp
    rw [Finset.mem_product, Finset.mem_range, Finset.mem_range] at hp
    unfold skyKernel
    refine (abs_sub _ _).trans (add_le_add (le_of_eq ?_) ?_)
    · rw [Prod.mk.eta]
      by_cases hpab : p = (a, b)
      · simp [hpab]
      · rw [if_neg (fun h => hpab h.symm), if_neg hpab, abs_zero]
    · split_ifs
      · rw [le_div_iff₀ hN]
        exact kernel_small hs hL h1 hp.1 hp.2 ha hb
      · rw [abs_zero]; positivity
  refine (Finset.sum_le_sum e).trans ?_
  rw [Finset.sum_add_distrib, Finset.sum_ite_eq', if_pos (by simp [ha, hb]), Finset.sum_const, Finset.card_product, Finset.card_range, Finset.card_range,
    nsmul_eq_mul]
  refine add_le_add le_rfl ?_
  have := mul_le_mul_of_nonneg_right hs.many (div_nonneg hL hN.le)
  push_cast
  refine this.trans (le_of_eq ?_)
  field_simp

end plane

variable {I : ℝ → ℝ}

/-- What holds near the sampled galaxy is likely on images with a sky, from which the plane fitted to sky pixels is subtracted. -/
theorem sky_event (G : Galaxy I) {ellip : ℝ} (he0 : 0 ≤ ellip) (he1 : ellip < 1) {reach : ℝ} (hreach : 0 ≤ reach) {T : ℝ} (hT0 : 0 < T)
    {P : ℝ → Nat → Nat → Nat → ℝ → ℝ → ℝ → (Nat → Nat → ℝ) → Prop} (hP : HoldsNear I ellip T P) {L : ℝ} (hL : 0 < L) :
    ∃ n0 : Nat, ∀ n ≥ n0, ∃ s0 > 0, ∃ b > 0, ∃ K > 0, ∀ s ≥ s0,
      ∀ (h w : Nat) (cx cy theta : ℝ), OnFrame (⟨cx, cy, s * T, s * T * (1 - ellip), theta⟩ : Ellipse ℝ).set h w →
      ∀ (Ω : Type) [MeasurableSpace Ω] (μ : Measure Ω) [IsProbabilityMeasure μ] (X : Nat → Nat → Ω → ℝ) (m : Nat → Nat → ℝ) (sky : Plane ℝ)
        (v : ℝ) (use : Nat → Nat → Bool), 0 ≤ v → CorrelatedNoise μ h w X (fun i j => m i j + sky.at_ j i) v →
      Smeared I s reach cx cy ellip theta h w m → WellSpread h w use L → (∀ i j, i < h → j < w → use i j = true → |m i j| ≤ b) →
      ∀ {fitter : Plane ℝ → FitData ℝ → Except PyErr (Plane ℝ)}, LinearFitter fitter → ∀ (clip : Img (F ℝ) → ℝ → Nat → Nat → Bool) (m0 : Plane ℝ)
        (integ : GridModel ℝ → ℝ × ℝ → ℝ × ℝ → Except PyErr (Img ℝ)),
      ∃ (p : Ω → Plane ℝ) (bg : Ω → Img ℝ),
        (∀ ω, fitBackground clip fitter (nanImage h w use fun i j => X i j ω) m0 none = .ok (p ω) ∧
          modelToImage integ (pointwise (p ω).at_) (.seq [.num (.fin (w : ℝ)), .num (.fin (h : ℝ))]) .center 1 none = .ok (bg ω) ∧
          (bg ω).h = h ∧ (bg ω).w = w) ∧
        μ {ω | ¬ P s n h w cx cy theta fun i j => X i j ω - (bg ω).px i j} ≤ ENNReal.ofReal (v * K / s ^ 2) := by
  obtain ⟨n0, Hn⟩ := noise_event he1 hT0 hP
  refine ⟨n0, fun n hn => ?_⟩
  obtain ⟨s0, hs0, c, hc, K, hK, Hn⟩ := Hn n hn
  obtain ⟨s1, hs1, H1⟩ := Smeared.near G he0 he1 hreach (half_pos hc)
  refine ⟨max s0 s1, lt_max_of_lt_left hs0, c / 2 / L, by positivity, (1 + L) * (1 + L ^ 2) * K, by positivity, ?_⟩
  intro s hs h w cx cy theta hf Ω _ μ _ X m sky v use hv hX hm hsp hb fitter law clip m0 integ
  obtain ⟨H, h1, -, h3⟩ := fit_kernel hsp.spread
  choose p hp hval using fun ω => h3 law clip m0 fun i j => X i j ω
  choose bg g1 g2 g3 g4 using fun ω => C60_center (size := .seq [.num (.fin (w : ℝ)), .num (.fin (h : ℝ))]) (center := none)
    (nx := w) (ny := h) (ox := 0) (oy := 0) ⟨Or.inr rfl, Or.inl ⟨rfl, rfl, rfl⟩⟩ integ (p ω).at_ 1
  refine ⟨p, bg, fun ω => ⟨hp ω, by simpa using g1 ω, g2 ω, g3 ω⟩, ?_⟩
  have hY := (processed_noise (h' := h) (w' := w) hX hv (A := 1 + L) (B := 1 + L ^ 2) (by positivity) (skyKernel use H)
    (fun i j hi hj => skyKernel_A hsp hL.le h1 hi hj) (fun i j hi hj => skyKernel_B hsp hL.le h1 hi hj)).congr
    (Y := fun i j ω => X i j ω - (bg ω).px i j) (m' := fun i j => m i j - weightedSum (fun a b => (H j i).at_ b a) h w use m)
    (fun i j hi hj => by
      funext ω
      rw [skyKernel_sum H _ hi hj, g4 ω i j hi hj, zero_add, zero_add, hval ω])
    (fun i j hi hj => by
      rw [skyKernel_sum H _ hi hj]
      have e : weightedSum (fun a b => (H j i).at_ b a) h w use (fun a b => m a b + sky.at_ b a) =
          weightedSum (fun a b => (H j i).at_ b a) h w use m + sky.at_ j i := by
        rw [← h1 sky j i]
        simp only [weightedSum_product, ← Finset.sum_add_distrib, ← mul_add]
      rw [e]
      ring)
  refine (Hn s ((le_max_left _ _).trans hs) h w cx cy theta hf Ω μ _ _ _ hY fun i j hi hj => ?_).trans (le_of_eq (by ring_nf))
  have a1 := H1 s ((le_max_right _ _).trans hs) cx cy theta h w m hm i j hi hj
  have a2 : |weightedSum (fun a b => (H j i).at_ b a) h w use m| ≤ c / 2 := by
    have r := skyKernel_rows hsp hL.le h1 hi hj
    rw [weightedSum_used, usedSum_set]
    rw [usedSum_set] at r
    refine (Finset.abs_sum_le_sum_abs _ _).trans ?_
    have e : ∀ t ∈ usedSet h w use, |m t.1 t.2 * (H j i).at_ t.2 t.1| ≤ c / 2 / L * |(H j i).at_ t.2 t.1| := by
      intro t ht
      rw [usedSet, Finset.mem_filter, Finset.mem_product, Finset.mem_range, Finset.mem_range] at ht
      rw [abs_mul]
      exact mul_le_mul_of_nonneg_right (hb t.1 t.2 ht.1.1 ht.1.2 ht.2) (abs_nonneg _)
    refine (Finset.sum_le_sum e).trans ?_
    rw [← Finset.mul_sum]
    refine (mul_le_mul_of_nonneg_left r (by positivity)).trans (le_of_eq ?_)
    field_simp
  have e : m i j - weightedSum (fun a b => (H j i).at_ b a) h w use m - I (ellRadius j i cx cy ellip theta / s) =
      (m i j - I (ellRadius j i cx cy ellip theta / s)) - weightedSum (fun a b => (H j i).at_ b a) h w use m := by ring
  rw [e]
  refine (abs_sub _ _).trans ?_
  linarith

/-- **C164, radii.** An image shows a galaxy through a PSF on a sloping sky, with correlated noise. `fit_background(image, sigma=None)` is given the
sky pixels (all others NaN), which are spread over the frame and have little light of the galaxy. The fitted plane is made into an image by
`model_to_image` and subtracted. The probability that the recipe on the result raises or misses a radius of the galaxy by more than the tolerance is at
most `v K / s²`; `K` depends neither on the sky nor on the image. -/
theorem C164_recipe (G : Galaxy I) {ellip : ℝ} (he0 : 0 ≤ ellip) (he1 : ellip < 1) {reach : ℝ} (hreach : 0 ≤ reach)
    {eta eps epsf frac rP rF : ℝ} (heps : 0 < eps) (hepsf : epsf ≠ 0) (hrP : 0 < rP) (hrF : 0 < rF) (htP : petroRatio I rP = eta)
    (htF : enclosed I 1 rF = frac / epsf * enclosed I 1 (eps * rP)) {T : ℝ} (hT1 : rP < T) (hT2 : eps * rP < T) (hT3 : rF < T) {ε : ℝ}
    (hε : 0 < ε) {L : ℝ} (hL : 0 < L) :
    ∃ n0 : Nat, ∀ n ≥ n0, ∃ s0 > 0, ∃ b > 0, ∃ K > 0, ∀ s ≥ s0,
      ∀ (h w : Nat) (cx cy theta : ℝ), OnFrame (⟨cx, cy, s * T, s * T * (1 - ellip), theta⟩ : Ellipse ℝ).set h w →
      ∀ (Ω : Type) [MeasurableSpace Ω] (μ : Measure Ω) [IsProbabilityMeasure μ] (X : Nat → Nat → Ω → ℝ) (m : Nat → Nat → ℝ) (sky : Plane ℝ)
        (v : ℝ) (use : Nat → Nat → Bool), 0 ≤ v → CorrelatedNoise μ h w X (fun i j => m i j + sky.at_ j i) v →
      Smeared I s reach cx cy ellip theta h w m → WellSpread h w use L → (∀ i j, i < h → j < w → use i j = true → |m i j| ≤ b) →
      ∀ {fitter : Plane ℝ → FitData ℝ → Except PyErr (Plane ℝ)}, LinearFitter fitter → ∀ (clip : Img (F ℝ) → ℝ → Nat → Nat → Bool) (m0 : Plane ℝ)
        (integ : GridModel ℝ → ℝ × ℝ → ℝ × ℝ → Except PyErr (Img ℝ)),
      ∃ (p : Ω → Plane ℝ) (bg : Ω → Img ℝ),
        (∀ ω, fitBackground clip fitter (nanImage h w use fun i j => X i j ω) m0 none = .ok (p ω) ∧
          modelToImage integ (pointwise (p ω).at_) (.seq [.num (.fin (w : ℝ)), .num (.fin (h : ℝ))]) .center 1 none = .ok (bg ω) ∧
          (bg ω).h = h ∧ (bg ω).w = w) ∧
        μ {ω | ¬ RecipeWithin ε s T cx cy ellip theta eta eps epsf frac rP rF n h w fun i j => X i j ω - (bg ω).px i j} ≤
          ENNReal.ofReal (v * K / s ^ 2) :=
  sky_event G he0 he1 hreach (hrP.trans hT1) (C151_sums G he0 he1 heps hepsf hrP hrF htP htF hT1 hT2 hT3 hε) hL

/-- **C164, total flux.** The same for `r_total_flux` and `total_flux`: the light of the galaxy without the sky. -/
theorem C164_total (G : Galaxy I) {ellip : ℝ} (he0 : 0 ≤ ellip) (he1 : ellip < 1) {reach : ℝ} (hreach : 0 ≤ reach)
    {eta eps epsf tf rP rT : ℝ} (heps : 0 < eps) (hepsf : epsf ≠ 0) (hrP : 0 < rP) (hrT : 0 < rT) (htP : petroRatio I rP = eta)
    (htT : enclosed I 1 rT = tf / epsf * enclosed I 1 (eps * rP)) {T : ℝ} (hT1 : rP < T) (hT2 : eps * rP < T) (hT3 : rT < T) {ε : ℝ}
    (hε : 0 < ε) {L : ℝ} (hL : 0 < L) :
    ∃ n0 : Nat, ∀ n ≥ n0, ∃ s0 > 0, ∃ b > 0, ∃ K > 0, ∀ s ≥ s0,
      ∀ (h w : Nat) (cx cy theta : ℝ), OnFrame (⟨cx, cy, s * T, s * T * (1 - ellip), theta⟩ : Ellipse ℝ).set h w →
      ∀ (Ω : Type) [MeasurableSpace Ω] (μ : Measure Ω) [IsProbabilityMeasure μ] (X : Nat → Nat → Ω → ℝ) (m : Nat → Nat → ℝ) (sky : Plane ℝ)
        (v : ℝ) (use : Nat → Nat → Bool), 0 ≤ v → CorrelatedNoise μ h w X (fun i j => m i j + sky.at_ j i) v →
      Smeared I s reach cx cy ellip theta h w m → WellSpread h w use L → (∀ i j, i < h → j < w → use i j = true → |m i j| ≤ b) →
      ∀ {fitter : Plane ℝ → FitData ℝ → Except PyErr (Plane ℝ)}, LinearFitter fitter → ∀ (clip : Img (F ℝ) → ℝ → Nat → Nat → Bool) (m0 : Plane ℝ)
        (integ : GridModel ℝ → ℝ × ℝ → ℝ × ℝ → Except PyErr (Img ℝ)),
      ∃ (p : Ω → Plane ℝ) (bg : Ω → Img ℝ),
        (∀ ω, fitBackground clip fitter (nanImage h w use fun i j => X i j ω) m0 none = .ok (p ω) ∧
          modelToImage integ (pointwise (p ω).at_) (.seq [.num (.fin (w : ℝ)), .num (.fin (h : ℝ))]) .center 1 none = .ok (bg ω) ∧
          (bg ω).h = h ∧ (bg ω).w = w) ∧
        μ {ω | ¬ TotalWithin ε s T cx cy ellip theta eta eps epsf tf rT ((1 - ellip) * enclosed I 1 rT) n h w fun i j => X i j ω - (bg ω).px i j} ≤
          ENNReal.ofReal (v * K / s ^ 2) :=
  sky_event G he0 he1 hreach (hrP.trans hT1) (C163_total_sums G he0 he1 heps hepsf hrP hrT htP htT hT1 hT2 hT3 hε) hL

/-- **C164, concentration.** The same for the concentration index. -/
theorem C164_concentration (G : Galaxy I) {ellip : ℝ} (he0 : 0 ≤ ellip) (he1 : ellip < 1) {reach : ℝ} (hreach : 0 ≤ reach)
    {eta eps epsf f1 f2 rP rF1 rF2 : ℝ}
    (heps : 0 < eps) (hepsf : epsf ≠ 0) (hrP : 0 < rP) (hrF1 : 0 < rF1) (hrF2 : 0 < rF2) (htP : petroRatio I rP = eta)
    (htF1 : enclosed I 1 rF1 = f1 / epsf * enclosed I 1 (eps * rP)) (htF2 : enclosed I 1 rF2 = f2 / epsf * enclosed I 1 (eps * rP))
    {T : ℝ} (hT1 : rP < T) (hT2 : eps * rP < T) (hT3 : rF1 < T) (hT4 : rF2 < T) {ε : ℝ} (hε : 0 < ε) {L : ℝ} (hL : 0 < L) :
    ∃ n0 : Nat, ∀ n ≥ n0, ∃ s0 > 0, ∃ b > 0, ∃ K > 0, ∀ s ≥ s0,
      ∀ (h w : Nat) (cx cy theta : ℝ), OnFrame (⟨cx, cy, s * T, s * T * (1 - ellip), theta⟩ : Ellipse ℝ).set h w →
      ∀ (Ω : Type) [MeasurableSpace Ω] (μ : Measure Ω) [IsProbabilityMeasure μ] (X : Nat → Nat → Ω → ℝ) (m : Nat → Nat → ℝ) (sky : Plane ℝ)
        (v : ℝ) (use : Nat → Nat → Bool), 0 ≤ v → CorrelatedNoise μ h w X (fun i j => m i j + sky.at_ j i) v →
      Smeared I s reach cx cy ellip theta h w m → WellSpread h w use L → (∀ i j, i < h → j < w → use i j = true → |m i j| ≤ b) →
      ∀ {fitter : Plane ℝ → FitData ℝ → Except PyErr (Plane ℝ)}, LinearFitter fitter → ∀ (clip : Img (F ℝ) → ℝ → Nat → Nat → Bool) (m0 : Plane ℝ)
        (integ : GridModel ℝ → ℝ × ℝ → ℝ × ℝ → Except PyErr (Img ℝ)),
      ∃ (p : Ω → Plane ℝ) (bg : Ω → Img ℝ),
        (∀ ω, fitBackground clip fitter (nanImage h w use fun i j => X i j ω) m0 none = .ok (p ω) ∧
          modelToImage integ (pointwise (p ω).at_) (.seq [.num (.fin (w : ℝ)), .num (.fin (h : ℝ))]) .center 1 none = .ok (bg ω) ∧
          (bg ω).h = h ∧ (bg ω).w = w) ∧
        μ {ω | ¬ ConcentrationWithin ε s T cx cy ellip theta eta eps epsf f1 f2 rF1 rF2 n h w fun i j => X i j ω - (bg ω).px i j} ≤
          ENNReal.ofReal (v * K / s ^ 2) :=
  sky_event G he0 he1 hreach (hrP.trans hT1) (C163_concentration_sums G he0 he1 heps hepsf hrP hrF1 hrF2 htP htF1 htF2 hT1 hT2 hT3 hT4 hε) hL

/-! ### Which pixels are spread well enough -/

theorem usedSum_odd_j {h w : Nat} {use : Nat → Nat → Bool} (hj : ∀ i j, i < h → j < w → use i (w - 1 - j) = use i j) {f : Nat → Nat → ℝ}
    (hf : ∀ i j, i < h → j < w → f i (w - 1 - j) = -f i j) : usedSum h w use f = 0 := by
  have e : usedSum h w use f = -usedSum h w use f := by
    unfold usedSum
    rw [← Finset.sum_neg_distrib]
    refine Finset.sum_congr rfl fun i hi => ?_
    rw [← Finset.sum_neg_distrib]
    conv_lhs => rw [← Finset.sum_range_reflect]
    refine Finset.sum_congr rfl fun j hjj => ?_
    rw [Finset.mem_range] at hi hjj
    rw [hj i j hi hjj, hf i j hi hjj]
    split_ifs <;> simp
  linarith

theorem usedSum_odd_i {h w : Nat} {use : Nat → Nat → Bool} (hi : ∀ i j, i < h → j < w → use (h - 1 - i) j = use i j) {f : Nat → Nat → ℝ}
    (hf : ∀ i j, i < h → j < w → f (h - 1 - i) j = -f i j) : usedSum h w use f = 0 := by
  have e : usedSum h w use f = -usedSum h w use f := by
    unfold usedSum
    rw [← Finset.sum_neg_distrib]
    conv_lhs => rw [← Finset.sum_range_reflect]
    refine Finset.sum_congr rfl fun i hii => ?_
    rw [← Finset.sum_neg_distrib]
    refine Finset.sum_congr rfl fun j hjj => ?_
    rw [Finset.mem_range] at hii hjj
    rw [hi i j hii hjj, hf i j hii hjj]
    split_ifs <;> simp
  linarith

/-- **C164, where the sky is fitted.** Sky pixels placed symmetrically about the middle of the frame, and not too close to its middle lines on average,
are spread well enough. -/
theorem C164_spread {h w : Nat} {use : Nat → Nat → Bool} {κ : ℝ} (hκ : 1 ≤ κ) (hs : UsedSpread h w use)
    (hi : ∀ i j, i < h → j < w → use (h - 1 - i) j = use i j) (hj : ∀ i j, i < h → j < w → use i (w - 1 - j) = use i j)
    (hm : (h : ℝ) * w ≤ 3 * κ * usedSum h w use fun _ _ => 1)
    (hx : ((w : ℝ) - 1) ^ 2 * (usedSum h w use fun _ _ => 1) ≤ κ * usedSum h w use fun i j => (2 * j - ((w : ℝ) - 1)) ^ 2)
    (hy : ((h : ℝ) - 1) ^ 2 * (usedSum h w use fun _ _ => 1) ≤ κ * usedSum h w use fun i j => (2 * i - ((h : ℝ) - 1)) ^ 2) :
    WellSpread h w use (3 * κ) := by
  refine ⟨hs, hm, fun Q i j hii hjj => ?_⟩
  have hN := usedSpread_nonempty hs
  have cast : ∀ {n k : Nat}, k < n → ((n - 1 - k : Nat) : ℝ) = (n : ℝ) - 1 - k := fun {n k} hk => by
    rw [Nat.cast_sub (by omega), Nat.cast_sub (by omega)]; simp
  have z1 : (usedSum h w use fun i j => (2 * (j : ℝ) - ((w : ℝ) - 1))) = 0 := usedSum_odd_j hj fun i j hi' hj' => by rw [cast hj']; ring
  have z2 : (usedSum h w use fun i j => (2 * (i : ℝ) - ((h : ℝ) - 1))) = 0 := usedSum_odd_i hi fun i j hi' hj' => by rw [cast hi']; ring
  have z3 : (usedSum h w use fun i j => (2 * (j : ℝ) - ((w : ℝ) - 1)) * (2 * (i : ℝ) - ((h : ℝ) - 1))) = 0 :=
    usedSum_odd_j hj fun i j hi' hj' => by rw [cast hj']; ring
  set N := usedSum h w use fun _ _ => 1 with hNd
  set U := usedSum h w use fun i j => (2 * (j : ℝ) - ((w : ℝ) - 1)) ^ 2 with hU
  set V := usedSum h w use fun i j => (2 * (i : ℝ) - ((h : ℝ) - 1)) ^ 2 with hV
  set q := Q.a * (((w : ℝ) - 1) / 2) + Q.b * (((h : ℝ) - 1) / 2) + Q.c with hq
  have eQ : ∀ i j : Nat, Q.at_ j i = q + Q.a / 2 * (2 * (j : ℝ) - ((w : ℝ) - 1)) + Q.b / 2 * (2 * (i : ℝ) - ((h : ℝ) - 1)) := by
    intro i j
    rw [Plane.at_, hq]
    ring
  have eS : (usedSum h w use fun i j => Q.at_ j i ^ 2) = q ^ 2 * N + (Q.a / 2) ^ 2 * U + (Q.b / 2) ^ 2 * V := by
    have e : ∀ t : Nat × Nat, Q.at_ t.2 t.1 ^ 2 = q ^ 2 * 1 + (Q.a / 2) ^ 2 * (2 * (t.2 : ℝ) - ((w : ℝ) - 1)) ^ 2 +
        (Q.b / 2) ^ 2 * (2 * (t.1 : ℝ) - ((h : ℝ) - 1)) ^ 2 + 2 * q * (Q.a / 2) * (2 * (t.2 : ℝ) - ((w : ℝ) - 1)) +
        2 * q * (Q.b / 2) * (2 * (t.1 : ℝ) - ((h : ℝ) - 1)) +
        2 * (Q.a / 2) * (Q.b / 2) * ((2 * (t.2 : ℝ) - ((w : ℝ) - 1)) * (2 * (t.1 : ℝ) - ((h : ℝ) - 1))) := by
      intro t
      rw [eQ]
      ring
    rw [usedSum_set] at z1 z2 z3 hU hV hNd ⊢
    rw [Finset.sum_congr rfl fun t _ => e t]
    simp only [Finset.sum_add_distrib, ← Finset.mul_sum]
    rw [z1, z2, z3, ← hU, ← hV, ← hNd]
    ring
  rw [eS, eQ i j]
  have hU0 : 0 ≤ U := by rw [hU, usedSum_set]; exact Finset.sum_nonneg fun _ _ => sq_nonneg _
  have hV0 : 0 ≤ V := by rw [hV, usedSum_set]; exact Finset.sum_nonneg fun _ _ => sq_nonneg _
  have hj1 : ((j : ℝ)) ≤ (w : ℝ) - 1 := by
    have : j + 1 ≤ w := hjj
    have : ((j : ℝ)) + 1 ≤ w := by exact_mod_cast this
    linarith
  have hi1 : ((i : ℝ)) ≤ (h : ℝ) - 1 := by
    have : i + 1 ≤ h := hii
    have : ((i : ℝ)) + 1 ≤ h := by exact_mod_cast this
    linarith
  have hj0 : (0 : ℝ) ≤ j := Nat.cast_nonneg _
  have hi0 : (0 : ℝ) ≤ i := Nat.cast_nonneg _
  have b1 : (2 * (j : ℝ) - ((w : ℝ) - 1)) ^ 2 ≤ ((w : ℝ) - 1) ^ 2 := by nlinarith
  have b2 : (2 * (i : ℝ) - ((h : ℝ) - 1)) ^ 2 ≤ ((h : ℝ) - 1) ^ 2 := by nlinarith
  have t1 : ∀ x y z : ℝ, (x + y + z) ^ 2 ≤ 3 * (x ^ 2 + y ^ 2 + z ^ 2) := fun x y z => by
    nlinarith [sq_nonneg (x - y), sq_nonneg (y - z), sq_nonneg (x - z)]
  refine (mul_le_mul_of_nonneg_right (t1 _ _ _) hN.le).trans ?_
  have c1 : (Q.a / 2 * (2 * (j : ℝ) - ((w : ℝ) - 1))) ^ 2 * N ≤ κ * ((Q.a / 2) ^ 2 * U) := by
    rw [mul_pow]
    have := mul_le_mul_of_nonneg_left ((mul_le_mul_of_nonneg_right b1 hN.le).trans hx) (sq_nonneg (Q.a / 2))
    linarith
  have c2 : (Q.b / 2 * (2 * (i : ℝ) - ((h : ℝ) - 1))) ^ 2 * N ≤ κ * ((Q.b / 2) ^ 2 * V) := by
    rw [mul_pow]
    have := mul_le_mul_of_nonneg_left ((mul_le_mul_of_nonneg_right b2 hN.le).trans hy) (sq_nonneg (Q.b / 2))
    linarith
  have c3 : q ^ 2 * N ≤ κ * (q ^ 2 * N) := le_mul_of_one_le_left (by positivity) hκ
  linarith

/-- The four corners of a frame of `2N+1` pixels, each a quarter of the width. -/
def corners (N i j : Nat) : Bool := decide ((2 * i ≤ N ∨ 3 * N ≤ 2 * i) ∧ (2 * j ≤ N ∨ 3 * N ≤ 2 * j))

theorem corners_count (N : Nat) : ((2 * N + 1 : Nat) : ℝ) * (2 * N + 1 : Nat) ≤ 4 * usedSum (2 * N + 1) (2 * N + 1) (corners N) fun _ _ => 1 := by
  set c : Nat → ℝ := fun i => if 2 * i ≤ N ∨ 3 * N ≤ 2 * i then 1 else 0 with hc
  have e : (usedSum (2 * N + 1) (2 * N + 1) (corners N) fun _ _ => 1) = (∑ i ∈ Finset.range (2 * N + 1), c i) * ∑ i ∈ Finset.range (2 * N + 1), c i := by
    unfold usedSum
    rw [Finset.sum_mul_sum]
    refine Finset.sum_congr rfl fun i _ => Finset.sum_congr rfl fun j _ => ?_
    simp only [hc, corners, decide_eq_true_eq]
    by_cases h1 : 2 * i ≤ N ∨ 3 * N ≤ 2 * i <;> by_cases h2 : 2 * j ≤ N ∨ 3 * N ≤ 2 * j <;> simp [h1, h2]
  have e2 : ((N : ℝ) + 1) ≤ ∑ i ∈ Finset.range (2 * N + 1), c i := by
    have s1 : Finset.range (N / 2 + 1) ∪ Finset.Ico (2 * N - N / 2) (2 * N + 1) ⊆ Finset.range (2 * N + 1) := by
      intro i hi
      simp only [Finset.mem_union, Finset.mem_range, Finset.mem_Ico] at hi ⊢
      omega
    have h0 : ∀ i, 0 ≤ c i := fun i => by simp only [hc]; split_ifs <;> norm_num
    rcases Nat.eq_zero_or_pos N with hN | hN
    · subst hN; simp [hc]
    have hd : Disjoint (Finset.range (N / 2 + 1)) (Finset.Ico (2 * N - N / 2) (2 * N + 1)) := by
      rw [Finset.disjoint_left]
      intro i hi hi'
      simp only [Finset.mem_range, Finset.mem_Ico] at hi hi'
      omega
    refine le_trans ?_ (Finset.sum_le_sum_of_subset_of_nonneg s1 fun i _ _ => h0 i)
    have e3 : ∀ i ∈ Finset.range (N / 2 + 1) ∪ Finset.Ico (2 * N - N / 2) (2 * N + 1), c i = 1 := by
      intro i hi
      simp only [Finset.mem_union, Finset.mem_range, Finset.mem_Ico] at hi
      simp only [hc]
      rw [if_pos (by omega)]
    rw [Finset.sum_congr rfl e3, Finset.sum_const, Finset.card_union_of_disjoint hd, Finset.card_range, Nat.card_Ico, nsmul_eq_mul, mul_one]
    have : N + 1 ≤ N / 2 + 1 + (2 * N + 1 - (2 * N - N / 2)) := by omega
    exact_mod_cast this
  rw [e]
  have hN0 : (0 : ℝ) ≤ N := Nat.cast_nonneg _
  push_cast
  nlinarith

/-- **C164, the corners.** The corners of the frame are a good place for the sky. -/
theorem C164_corners {N : Nat} (hN : 0 < N) : WellSpread (2 * N + 1) (2 * N + 1) (corners N) 12 := by
  have hs : UsedSpread (2 * N + 1) (2 * N + 1) (corners N) := by
    refine ⟨0, 0, 0, 2 * N, 2 * N, 0, ⟨by omega, by omega, by simp [corners]⟩, ⟨by omega, by omega, ?_⟩, ⟨by omega, by omega, ?_⟩, ?_⟩
    · simp only [corners, decide_eq_true_eq]; omega
    · simp only [corners, decide_eq_true_eq]; omega
    · push_cast
      have : (0 : Int) < N := by exact_mod_cast hN
      ring_nf
      positivity
  have hcnt := corners_count N
  have hN1 := usedSpread_nonempty hs
  have far : ∀ k : Nat, (2 * k ≤ N ∨ 3 * N ≤ 2 * k) → ((N : ℝ)) ^ 2 ≤ (2 * (k : ℝ) - (((2 * N + 1 : Nat) : ℝ) - 1)) ^ 2 := by
    intro k hk
    have hN0 : (0 : ℝ) ≤ N := Nat.cast_nonneg _
    push_cast
    rcases hk with hk | hk
    · have : 2 * (k : ℝ) ≤ N := by exact_mod_cast hk
      nlinarith
    · have : 3 * (N : ℝ) ≤ 2 * k := by exact_mod_cast hk
      nlinarith
  have low : ∀ f : Nat → Nat → ℝ, (∀ i j, corners N i j = true → ((N : ℝ)) ^ 2 ≤ f i j) →
      (((2 * N + 1 : Nat) : ℝ) - 1) ^ 2 * (usedSum (2 * N + 1) (2 * N + 1) (corners N) fun _ _ => 1) ≤
        4 * usedSum (2 * N + 1) (2 * N + 1) (corners N) f := by
    intro f hf
    rw [usedSum_set, usedSum_set, Finset.mul_sum, Finset.mul_sum]
    refine Finset.sum_le_sum fun t ht => ?_
    rw [usedSet, Finset.mem_filter] at ht
    have := hf t.1 t.2 ht.2
    push_cast
    nlinarith
  have := C164_spread (κ := 4) (by norm_num) hs (fun i j hi hj => by simp only [corners]; congr 1; simp only [eq_iff_iff]; omega)
    (fun i j hi hj => by simp only [corners]; congr 1; simp only [eq_iff_iff]; omega) (by linarith)
    (low _ fun i j hc => far j (by simp only [corners, decide_eq_true_eq] at hc; exact hc.2))
    (low _ fun i j hc => far i (by simp only [corners, decide_eq_true_eq] at hc; exact hc.1))
  norm_num at this
  exact this

/-- A sampled galaxy is a smeared one. -/
theorem smeared_sampled (I : ℝ → ℝ) (s cx cy ellip theta : ℝ) (h w : Nat) :
    Smeared I s 0 cx cy ellip theta h w fun i j => I (ellRadius j i cx cy ellip theta / s) := by
  intro i j _ _
  refine ⟨Measure.dirac ((j : ℝ), (i : ℝ)), inferInstance, ?_, ?_⟩
  · rw [ae_dirac_eq]
    show distTo (j : ℝ) i j i ≤ 0
    simp [distTo]
  · rw [integral_dirac]

theorem sersic_faint {n b : ℝ} (hn : 0 < n) (hb : 0 < b) : ∃ R, ∀ t ≥ R, |sersic (bn n) 1 1 n t| ≤ b := by
  have h1 : Filter.Tendsto (fun t : ℝ => Real.exp (-(bn n * (t ^ (1 / n) - 1)))) Filter.atTop (nhds 0) := by
    refine Real.tendsto_exp_neg_atTop_nhds_zero.comp (Filter.Tendsto.const_mul_atTop (bn_pos hn) ?_)
    exact Filter.tendsto_atTop_add_const_right _ (-1) (tendsto_rpow_atTop (by positivity))
  obtain ⟨R, hR⟩ := Filter.eventually_atTop.1 (h1.eventually (ge_mem_nhds hb))
  refine ⟨R, fun t ht => ?_⟩
  have := hR t ht
  rw [sersic, div_one, one_mul, abs_of_pos (Real.exp_pos _)]
  exact this

/-- A Sersic galaxy in the middle of a frame with a sky plane of any brightness and slope and Gaussian noise of standard deviation 100. The sky is
fitted in the corners and subtracted. With a big enough image the recipe finds the radii to 1% with a probability of at least 99%. -/
example {n rP rF : ℝ} (hn : 0 < n) (hrP : 0 < rP) (hrF : 0 < rF) (hFP : rF < 2 * rP)
    (htP : petroRatio (sersic (bn n) 1 1 n) rP = 1 / 5)
    (htF : enclosed (sersic (bn n) 1 1 n) 1 rF = 1 / 2 / 1 * enclosed (sersic (bn n) 1 1 n) 1 (2 * rP))
    {fitter : Plane ℝ → FitData ℝ → Except PyErr (Plane ℝ)} (law : LinearFitter fitter) (m0 : Plane ℝ) :
    ∃ (k N : Nat) (s : ℝ), 0 < s ∧ ∀ sky : Plane ℝ, ∃ (p : (Fin (2 * N + 1) × Fin (2 * N + 1) → ℝ) → Plane ℝ),
      (∀ ω, fitBackground (fun _ _ _ _ => false) fitter (nanImage (2 * N + 1) (2 * N + 1) (corners N) fun i j =>
        gaussImage (2 * N + 1) (2 * N + 1) (fun i j => sersic (bn n) 1 1 n (ellRadius j i N N 0 0 / s) + sky.at_ j i) (fun _ _ => 100) i j ω) m0 none =
          .ok (p ω)) ∧
      gaussField (2 * N + 1) (2 * N + 1) {ω | ¬ ∃ bg : Img ℝ, (∀ i j, i < 2 * N + 1 → j < 2 * N + 1 → bg.px i j = (p ω).at_ j i) ∧
        RecipeWithin (rP / 100) s (3 * rP) N N 0 0 (1 / 5) 2 1 (1 / 2) rP rF k (2 * N + 1) (2 * N + 1)
        fun i j => gaussImage (2 * N + 1) (2 * N + 1) (fun i j => sersic (bn n) 1 1 n (ellRadius j i N N 0 0 / s) + sky.at_ j i) (fun _ _ => 100) i j ω -
          bg.px i j} ≤ ENNReal.ofReal (1 / 100) := by
  obtain ⟨n0, hm⟩ := C164_recipe (sersic_galaxy (amplitude := 1) (rEff := 1) one_pos hn one_pos)
    (ellip := 0) (eps := 2) le_rfl one_pos le_rfl two_pos one_ne_zero hrP hrF htP htF (T := 3 * rP) (by linarith) (by linarith)
    (by linarith) (show 0 < rP / 100 by positivity) (show (0 : ℝ) < 12 by norm_num)
  obtain ⟨s0, hs0, b, hb, K, hK, hm⟩ := hm n0 le_rfl
  obtain ⟨R, hR⟩ := sersic_faint hn hb
  set s := max s0 (max 1 (1000000 * K)) with hs
  have hs1 : 1 ≤ s := (le_max_left _ _).trans (le_max_right _ _)
  have hs2 : 1000000 * K ≤ s := (le_max_right _ _).trans (le_max_right _ _)
  have hsp : 0 < s := by linarith
  obtain ⟨N, hN⟩ := exists_nat_gt (max (s * (3 * rP)) (2 * (R * s)))
  have hN1 := (le_max_left _ _).trans_lt hN
  have hN2 := (le_max_right _ _).trans_lt hN
  have ha : 0 < s * (3 * rP) := by positivity
  have hNp : 0 < N := by exact_mod_cast ha.trans hN1
  have hx : Ellipse.xExtent ⟨(N : ℝ), (N : ℝ), s * (3 * rP), s * (3 * rP) * (1 - 0), 0⟩ ≤ s * (3 * rP) := by
    simp [Ellipse.xExtent, Real.sqrt_sq ha.le]
  have hy : Ellipse.yExtent ⟨(N : ℝ), (N : ℝ), s * (3 * rP), s * (3 * rP) * (1 - 0), 0⟩ ≤ s * (3 * rP) := by
    simp [Ellipse.yExtent, Real.sqrt_sq ha.le]
  have hfr : OnFrame (⟨(N : ℝ), (N : ℝ), s * (3 * rP), s * (3 * rP) * (1 - 0), 0⟩ : Ellipse ℝ).set (2 * N + 1) (2 * N + 1) := by
    apply onFrame_of_box _ ha (by simpa using ha)
    · exact le_trans (by linarith) (sub_le_sub_left hx (N : ℝ))
    · refine (add_le_add_right hx (N : ℝ)).trans ?_
      push_cast; linarith
    · exact le_trans (by linarith) (sub_le_sub_left hy (N : ℝ))
    · refine (add_le_add_right hy (N : ℝ)).trans ?_
      push_cast; linarith
  refine ⟨n0, N, s, hsp, fun sky => ?_⟩
  obtain ⟨p, bg, h1, h2⟩ := hm s (le_max_left _ _) _ _ N N 0 hfr _ _ _ _ sky 10000 (corners N) (by norm_num)
    ((gaussian_noise _ _ (fun i j => sersic (bn n) 1 1 n (ellRadius j i N N 0 0 / s) + sky.at_ j i) fun _ _ => 100).correlated
      fun _ _ _ _ => by norm_num)
    (smeared_sampled _ s N N 0 0 _ _) (C164_corners hNp)
    (fun i j _ _ hc => by
      apply hR
      rw [ge_iff_le, le_div_iff₀ hsp]
      refine le_trans (show R * s ≤ |(j : ℝ) - N| from ?_) ?_
      · simp only [corners, decide_eq_true_eq] at hc
        rcases hc.2 with h | h
        · have : 2 * (j : ℝ) ≤ N := by exact_mod_cast h
          exact le_trans (by linarith) (neg_le_abs _)
        · have : 3 * (N : ℝ) ≤ 2 * j := by exact_mod_cast h
          exact le_trans (by linarith) (le_abs_self _)
      · rw [ellRadius_circle, distTo, ← Real.sqrt_sq_eq_abs]
        exact Real.sqrt_le_sqrt (by nlinarith [sq_nonneg ((i : ℝ) - N)])) law (fun _ _ _ _ => false) m0 fun _ _ _ => .error .exception
  refine ⟨p, fun ω => (h1 ω).1, (measure_mono ?_).trans (h2.trans (ENNReal.ofReal_le_ofReal ?_))⟩
  · intro ω hω hP
    refine hω ⟨bg ω, fun i j hi hj => ?_, hP⟩
    obtain ⟨im, g1, -, -, g4⟩ := C60_center (size := .seq [.num (.fin ((2 * N + 1 : Nat) : ℝ)), .num (.fin ((2 * N + 1 : Nat) : ℝ))]) (center := none)
      (nx := 2 * N + 1) (ny := 2 * N + 1) (ox := 0) (oy := 0) ⟨Or.inr rfl, Or.inl ⟨rfl, rfl, rfl⟩⟩ (fun _ _ _ => .error .exception) (p ω).at_ 1
    have g := (h1 ω).2.1
    rw [show ((1 : Int) : ℝ) = 1 from Int.cast_one] at g1
    rw [g1] at g
    injection g with g
    rw [← g, g4 i j hi hj, zero_add, zero_add]
  · rw [div_le_iff₀ (by positivity)]
    nlinarith

end Verif.Props

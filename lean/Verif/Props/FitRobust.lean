import Verif.Props.FitMultiWindow

/-!
# C172: small errors of the model and of the data

C169 says that fits converge if the data is the image of such galaxies and `evaluate` returns exact numbers. Here the data may have other light in it as well, and the
values of the model may be computed with errors (rounding, tables for the special functions). As long as both are small enough, the fit is near the truth.
-/

set_option linter.unusedSectionVars false
set_option linter.unusedVariables false

namespace Verif.Spec

open Verif

/-- Two calls raise the same exception or return values of which the first differ from the second by at most `δ`. -/
def CallsUpTo (δ : ℝ) (a b : Except PyErr (List ℝ)) : Prop :=
  (∀ e, b = .error e → a = .error e) ∧ ∀ vals, b = .ok vals → ∃ vals', a = .ok vals' ∧ List.Forall₂ (fun x y => |x - y| ≤ δ) vals' vals

/-- For the allowed parameters and at the pixels of an `h × w` image, `ev` computes the values of `ev₀` with errors of at most `δ`, and raises the same exceptions. -/
def ComputedUpTo {P : Type} (δ : ℝ) (h w : Nat) (allowed : P → Prop) (ev ev₀ : P → List (ℝ × ℝ) → Except PyErr (List ℝ)) : Prop :=
  ∀ q, allowed q → ∀ idx : List (Nat × Nat), (∀ p ∈ idx, p.1 < h ∧ p.2 < w) → CallsUpTo δ (ev q (pixelCoords idx)) (ev₀ q (pixelCoords idx))

end Verif.Spec

namespace Verif.Props

open Verif F Spec Lemmas Filter Topology MeasureTheory PSFModel

/-- Computed values at distinct pixels as a function of the pixel. -/
theorem computed_values {δ : ℝ} : ∀ {idx : List (Nat × Nat)} {V : Nat → Nat → ℝ} {vals : List ℝ}, idx.Nodup →
    List.Forall₂ (fun a b => |a - b| ≤ δ) vals (idx.map fun p => V p.1 p.2) →
    ∃ V' : Nat → Nat → ℝ, vals = idx.map (fun p => V' p.1 p.2) ∧ ∀ p ∈ idx, |V' p.1 p.2 - V p.1 p.2| ≤ δ
  | [], V, vals, _, h => by
    rw [List.map_nil, List.forall₂_nil_right_iff] at h
    exact ⟨V, by simp [h], by simp⟩
  | p :: idx, V, vals, hnd, h => by
    rw [List.map_cons] at h
    obtain ⟨x, xs, hx, hxs, rfl⟩ := List.forall₂_cons_right_iff.1 h
    rw [List.nodup_cons] at hnd
    obtain ⟨V', rfl, hV'⟩ := computed_values hnd.2 hxs
    refine ⟨fun i j => if (i, j) = p then x else V' i j, ?_, ?_⟩
    · simp only [List.map_cons, Prod.mk.eta, if_true]
      congr 1
      refine List.map_congr_left fun q hq => ?_
      rw [if_neg]
      rintro rfl
      exact hnd.1 hq
    · intro q hq
      simp only [Prod.mk.eta]
      by_cases hqp : q = p
      · subst hqp
        rw [if_pos rfl]
        exact hx
      · rw [if_neg hqp]
        exact hV' q ((List.mem_cons.1 hq).resolve_left hqp)

/-- Values that differ by at most `δ` in every pixel. -/
theorem fitDist_le_sup {h w : Nat} {use mask : Nat → Nat → Bool} {f k : Nat → Nat → ℝ} {δ : ℝ}
    (hfk : ∀ i j, i < h → j < w → use i j = true → |f i j - k i j| ≤ δ) : fitDist h w use mask none f k ≤ h * w * δ ^ 2 := by
  unfold fitDist
  have e : ((h : ℝ) * w) * δ ^ 2 = ∑ p ∈ Finset.range h ×ˢ Finset.range w, δ ^ 2 := by
    rw [Finset.sum_const, Finset.card_product, Finset.card_range, Finset.card_range, nsmul_eq_mul]
    push_cast
    ring
  rw [e]
  refine Finset.sum_le_sum fun p hp => ?_
  rw [Finset.mem_product, Finset.mem_range, Finset.mem_range] at hp
  split
  · next hu =>
    simp only [weightAt, one_mul]
    rw [← sq_abs (f p.1 p.2 - k p.1 p.2)]
    exact pow_le_pow_left₀ (abs_nonneg _) (hfk p.1 p.2 hp.1 hp.2 hu.1) 2
  · exact sq_nonneg δ

/-- **C172, any model.** Fits of models whose computed values lie near those of the scene, to data near it: if the errors are small enough, the fit is near the truth with
as large a probability as wanted, in all images that are large enough. -/
theorem C172_family {E : Type} [PseudoMetricSpace E] {S : Set E} {g : E → ℝ → ℝ → ℝ} {W H : Nat} {θ : E} {use mask : ℕ → Nat → Nat → Bool}
    {wt : ℕ → Option (Img (F ℝ))} {wa wb v : ℝ} (hS : IsCompact S)
    (hg : ContinuousOn (fun z : E × ℝ × ℝ => g z.1 z.2.1 z.2.2) (S ×ˢ Set.univ)) (hθ : θ ∈ S) {U : Set E}
    (hU : IsOpen U) (hne : ∀ x ∈ S, x ∉ U → ∃ u v : ℝ, (0 ≤ u ∧ u < W) ∧ (0 ≤ v ∧ v < H) ∧ g x u v ≠ g θ u v) (hv : 0 ≤ v)
    (hwa : 0 < wa) (hwb : 0 ≤ wb) (hwt : ∀ N, WeightsUpTo (H * N) (W * N) (use N) (mask N) (wt N) wb)
    (hun : Tendsto (fun N : ℕ => (unfitted (H * N) (W * N) (heavy (use N) (wt N) wa) (mask N) : ℝ) / (N : ℝ) ^ 2) atTop (𝓝 0)) {ρ : ENNReal} (hρ : 0 < ρ) :
    ∃ δ : ℝ, 0 < δ ∧ ∀ (Ω : ℕ → Type) [∀ N, MeasurableSpace (Ω N)] (μ : ∀ N, Measure (Ω N)) [∀ N, IsProbabilityMeasure (μ N)] (X : ∀ N, Nat → Nat → Ω N → ℝ)
      (m : ℕ → Nat → Nat → ℝ) (P : Type) (R : Nat) (ev ev₀ : ℕ → P → List (ℝ × ℝ) → Except PyErr (List ℝ)) (allowed : ℕ → P → Prop) (dec : ℕ → P → E) (truth : ℕ → P)
      (τ : ℕ → ℝ) (fitter : ℕ → P → FitData ℝ → Except PyErr P), (∀ N q vals, ev₀ N q [] ≠ .ok vals) → (∀ N q, 0 < N → allowed N q → dec N q ∈ S) →
      (∀ᶠ N : ℕ in atTop, ∀ q, allowed N q → ∀ idx : List (Nat × Nat), idx ≠ [] → (∀ p, p ∈ idx ↔ p.1 < H * N ∧ p.2 < W * N ∧ use N p.1 p.2 = true) →
        PixelBlur R (ev₀ N q) (zoomed N (g (dec N q))) idx (H * N) (W * N)) →
      (∀ N, ComputedUpTo δ (H * N) (W * N) (allowed N) (ev N) (ev₀ N)) →
      (∀ N, 0 < N → allowed N (truth N) ∧ dec N (truth N) = θ) → (∀ N, NearValuesFitter (ev N) (allowed N) (τ N) (fitter N)) →
      (∀ᶠ N : ℕ in atTop, τ N ≤ δ * (N : ℝ) ^ 2) → (∀ N, CorrelatedNoise (μ N) (H * N) (W * N) (X N) (m N) v) →
      (∀ᶠ N : ℕ in atTop, fitDist (H * N) (W * N) (use N) (mask N) none (m N) (pixelsOf (zoomed N (g θ))) ≤ δ * (N : ℝ) ^ 2) →
      ∀ᶠ N : ℕ in atTop, μ N {ω | ∃ m₀ fit, fitModel (fitter N) (nanImage (H * N) (W * N) (use N) fun i j => X N i j ω) (mask N) m₀ (wt N) = .ok fit ∧
        dec N fit ∉ U} ≤ ρ := by
  have hcont : ContinuousOn (fun z : E × ℝ × ℝ => g z.1 z.2.1 z.2.2) (S ×ˢ (Set.Icc (0 : ℝ) W ×ˢ Set.Icc (0 : ℝ) H)) :=
    hg.mono (Set.prod_mono_right (Set.subset_univ _))
  obtain ⟨σ, hσ, hrob⟩ := approximate_robust hwa hwb hwt hS hcont hθ hU hne hv hun hρ
  have hpos : (0 : ℝ) < 4 * (H * W + 1) := by positivity
  set δ : ℝ := min 1 (σ / (4 * (H * W + 1))) with hδd
  have hδ : 0 < δ := lt_min one_pos (by positivity)
  have hδ1 : δ ≤ 1 := min_le_left _ _
  have hδ2 : δ * (4 * (H * W + 1)) ≤ σ := by
    rw [← le_div_iff₀ hpos]
    exact min_le_right _ _
  have hHW : (0 : ℝ) ≤ H * W := by positivity
  have hδσ : δ ≤ σ := by nlinarith
  have hδ3 : 2 * (H * W * δ ^ 2) ≤ σ / 2 := by
    have : δ ^ 2 ≤ δ := by nlinarith
    nlinarith
  refine ⟨δ, hδ, ?_⟩
  intro Ω _ μ _ X m P R ev ev₀ allowed dec truth τ fitter hempty hdec hblur hcomp htr law hτ hX hm
  choose idx hidx' hdata using fun N => fit_values (H * N) (W * N) (use N) (mask N) (wt N) fun im him => ((hwt N).finite im him).1
  have hidx := fun N => (hidx' N).1
  have hin : ∀ N, ∀ p ∈ idx N, p.1 < H * N ∧ p.2 < W * N := fun N p hp => ⟨((hidx N p).1 hp).1, ((hidx N p).1 hp).2.1⟩
  have hfam : ∀ N q, ∃ V V' : Nat → Nat → ℝ, allowed N q → ∀ V₁ : Nat → Nat → ℝ, ev₀ N q (pixelCoords (idx N)) = .ok ((idx N).map fun p => V₁ p.1 p.2) →
      ev₀ N q (pixelCoords (idx N)) = .ok ((idx N).map fun p => V p.1 p.2) ∧ ev N q (pixelCoords (idx N)) = .ok ((idx N).map fun p => V' p.1 p.2) ∧
        ∀ p ∈ idx N, |V' p.1 p.2 - V p.1 p.2| ≤ δ := by
    intro N q
    by_cases hc : allowed N q ∧ ∃ V : Nat → Nat → ℝ, ev₀ N q (pixelCoords (idx N)) = .ok ((idx N).map fun p => V p.1 p.2)
    · obtain ⟨hq, V, hV⟩ := hc
      obtain ⟨vals, hvals, hf⟩ := (hcomp N q hq (idx N) (hin N)).2 _ hV
      obtain ⟨V', rfl, hV'⟩ := computed_values (hidx' N).2 hf
      exact ⟨V, V', fun _ _ _ => ⟨hV, hvals, hV'⟩⟩
    · exact ⟨fun _ _ => 0, fun _ _ => 0, fun hq V₁ hV₁ => absurd ⟨hq, V₁, hV₁⟩ hc⟩
  choose fam₀ fam hfam using hfam
  have hok : ∀ᶠ N : ℕ in atTop, ∀ q, allowed N q → idx N ≠ [] → PixelBlur R (ev₀ N q) (zoomed N (g (dec N q))) (idx N) (H * N) (W * N) ∧
      ev₀ N q (pixelCoords (idx N)) = .ok ((idx N).map fun p => fam₀ N q p.1 p.2) ∧ ev N q (pixelCoords (idx N)) = .ok ((idx N).map fun p => fam N q p.1 p.2) ∧
        ∀ p ∈ idx N, |fam N q p.1 p.2 - fam₀ N q p.1 p.2| ≤ δ := by
    filter_upwards [hblur] with N h1 q hq he
    have hb := h1 q hq (idx N) he (hidx N)
    refine ⟨hb, ?_⟩
    obtain ⟨V, -, -, -, hV, -⟩ := hb
    exact hfam N q hq V hV
  have hclose : ∀ᶠ N : ℕ in atTop, ∀ q, allowed N q →
      fitDist (H * N) (W * N) (use N) (mask N) none (fam N q) (pixelsOf (zoomed N (g (dec N q)))) ≤ σ * (N : ℝ) ^ 2 := by
    filter_upwards [psf_close hS hg W H R (show 0 < σ / 4 by positivity), eventually_gt_atTop 0, hok] with N h1 hN h2 q hq
    rcases eq_or_ne (idx N) [] with he | he
    · refine (fitDist_le_list (idx := idx N) (fun i j hi hj hu => (hidx N (i, j)).2 ⟨hi, hj, hu⟩) _ _).trans ?_
      rw [he]
      simp only [List.toFinset_nil, Finset.sum_empty]
      positivity
    · obtain ⟨b1, b2, b3, b4⟩ := h2 q hq he
      have h3 := (fitDist_le_list (mask := mask N) (idx := idx N) (fun i j hi hj hu => (hidx N (i, j)).2 ⟨hi, hj, hu⟩) (fam₀ N q) (pixelsOf (zoomed N (g (dec N q))))).trans
        (h1 _ (hdec N q hN hq) (ev₀ N q) (idx N) (fam₀ N q) (hin N) (fun _ => b1) b2)
      have h4 := fitDist_le_sup (mask := mask N) (f := fam N q) (k := fam₀ N q) fun i j hi hj hu => b4 (i, j) ((hidx N (i, j)).2 ⟨hi, hj, hu⟩)
      have h5 := fitDist_triangle (H * N) (W * N) (use N) (mask N) none (fam N q) (fam₀ N q) (pixelsOf (zoomed N (g (dec N q))))
      push_cast at h4
      have h6 : 2 * ((H : ℝ) * N * (W * N) * δ ^ 2) ≤ σ / 2 * (N : ℝ) ^ 2 := by
        have := mul_le_mul_of_nonneg_right hδ3 (sq_nonneg (N : ℝ))
        linarith
      linarith
  have hσN : ∀ {x : ℝ} {N : ℕ}, x ≤ δ * (N : ℝ) ^ 2 → x ≤ σ * (N : ℝ) ^ 2 := fun h => h.trans (mul_le_mul_of_nonneg_right hδσ (sq_nonneg _))
  have hlim := hrob Ω μ X m P fam allowed dec truth τ hdec hclose htr hX (hm.mono fun N h => hσN h) (hτ.mono fun N h => hσN h)
  filter_upwards [hlim, eventually_gt_atTop 0, hok] with N hlimN hN hok'
  refine le_trans (measure_mono ?_) hlimN
  rintro ω ⟨m₀, fit, hfit, hnot⟩
  obtain ⟨d, hd, hdc, hchi⟩ := hdata N fun i j => X N i j ω
  have hfd : fitter N m₀ d = .ok fit := by
    unfold fitModel at hfit
    rw [hd] at hfit
    exact hfit
  obtain ⟨hal, vals, hvals, hbest⟩ := law N m₀ d fit hfd
  rw [hdc] at hvals hbest
  have hne' : idx N ≠ [] := by
    intro he
    rw [he] at hvals
    cases h0 : ev₀ N fit [] with
    | ok vals => exact hempty N fit vals h0
    | error e =>
      have h1 : ev N fit [] = .error e := (hcomp N fit hal [] (by simp)).1 e h0
      have h2 : ev N fit [] = .ok vals := hvals
      rw [h1] at h2
      cases h2
  refine ⟨fit, hal, ?_, hnot⟩
  have h1 := hbest (truth N) _ (htr N hN).1 (hok' _ (htr N hN).1 hne').2.2.1
  rw [(hok' _ hal hne').2.2.1] at hvals
  rw [← Except.ok.inj hvals, hchi, hchi] at h1
  exact h1

/-- Fits of galaxies, for values that are averages of the light of the galaxies over the surroundings of the pixels: the fit has a property that all parameters near those with the same light have. -/
theorem robust_recovered {k W H : Nat} {lo hi tr : Fin k → SersicP} {use mask : ℕ → Nat → Nat → Bool} {sky slo shi v : ℝ}
    {wt : ℕ → Option (Img (F ℝ))} {wa wb : ℝ} {good : (Fin k → SersicP) → ℝ → Prop} (hb : GalaxyRange W H lo hi)
    (hopen : IsOpen {x : (Fin k → ℝ × ℝ × ℝ × ℝ × ℝ × ℝ × ℝ) × ℝ | good (fun i => sersicAt (x.1 i)) x.2})
    (hgood : ∀ (q : Fin k → SersicP) (sky' : ℝ), (∀ i, SersicP.Between (lo i) (hi i) (q i)) →
      (∀ u v : ℝ, 0 ≤ u ∧ u < W → 0 ≤ v ∧ v < H → galaxiesAt q sky' u v = galaxiesAt tr sky u v) → good q sky')
    (htr : ∀ i, SersicP.Between (lo i) (hi i) (tr i)) (hsky : slo ≤ sky ∧ sky ≤ shi) (hv : 0 ≤ v)
    (hwa : 0 < wa) (hwb : 0 ≤ wb) (hwt : ∀ N, WeightsUpTo (H * N) (W * N) (use N) (mask N) (wt N) wb)
    (hun : Tendsto (fun N : ℕ => (unfitted (H * N) (W * N) (heavy (use N) (wt N) wa) (mask N) : ℝ) / (N : ℝ) ^ 2) atTop (𝓝 0)) {ρ : ENNReal} (hρ : 0 < ρ) :
    ∃ δ : ℝ, 0 < δ ∧ ∀ (Ω : ℕ → Type) [∀ N, MeasurableSpace (Ω N)] (μ : ∀ N, Measure (Ω N)) [∀ N, IsProbabilityMeasure (μ N)] (X : ∀ N, Nat → Nat → Ω N → ℝ)
      (m m' : ℕ → Nat → Nat → ℝ) (M' : ℕ → PSFModel ℝ) (rot' : Img ℝ → ℝ → Img ℝ) (pas' : Set ℝ) (hasSky : Bool) (R R' : Nat) (pa₀ pa' : ℕ → ℝ)
      (ok : ℕ → (Fin k → SersicP) × ℝ × ℝ → Prop) (τ : ℕ → ℝ) (ev ev₀ : ℕ → (Fin k → SersicP) × ℝ × ℝ → List (ℝ × ℝ) → Except PyErr (List ℝ))
      (fitter : ℕ → (Fin k → SersicP) × ℝ × ℝ → FitData ℝ → Except PyErr ((Fin k → SersicP) × ℝ × ℝ)) (idx : ℕ → List (Nat × Nat)),
      (hasSky = false → sky = 0) → (∀ N q vals, ev₀ N q [] ≠ .ok vals) →
      (∀ N q, 0 < N → ok N q → (∀ i, SersicP.Between (lo i) (hi i) ((q.1 i).zoomOut N)) ∧ (slo ≤ q.2.1 ∧ q.2.1 ≤ shi)) →
      (∀ᶠ N : ℕ in atTop, ∀ q, ok N q → ∀ idx : List (Nat × Nat), idx ≠ [] → (∀ p, p ∈ idx ↔ p.1 < H * N ∧ p.2 < W * N ∧ use N p.1 p.2 = true) →
        PixelBlur R (ev₀ N q) (galaxiesAt q.1 q.2.1) idx (H * N) (W * N)) →
      (∀ N, 0 < N → ok N (fun i => (tr i).zoomIn N, sky, pa₀ N)) → (∀ N, ComputedUpTo δ (H * N) (W * N) (ok N) (ev N) (ev₀ N)) →
      (∀ N, NearValuesFitter (ev N) (ok N) (τ N) (fitter N)) → (∀ᶠ N : ℕ in atTop, τ N ≤ δ * (N : ℝ) ^ 2) →
      (∀ N, (M' N).sub = galaxiesSub k hasSky) → (∀ N, PSFSetting R' (M' N) rot' pas') → (∀ N, pa' N ∈ pas') →
      (∀ N i j, (i, j) ∈ idx N ↔ i < H * N ∧ j < W * N) →
      (∀ N, 0 < N → ((M' N).evaluate rot' (pixelCoords (idx N)) (galaxiesParams (fun i => (tr i).zoomIn N) hasSky sky) (pa' N)).1 =
        .ok ((idx N).map fun p => m' N p.1 p.2)) →
      (∀ᶠ N : ℕ in atTop, ∑ p ∈ Finset.range (H * N) ×ˢ Finset.range (W * N), (m N p.1 p.2 - m' N p.1 p.2) ^ 2 ≤ δ * (N : ℝ) ^ 2) →
      (∀ N, CorrelatedNoise (μ N) (H * N) (W * N) (X N) (m N) v) →
      ∀ᶠ N : ℕ in atTop, μ N {ω | ∃ m₀ fit, fitModel (fitter N) (nanImage (H * N) (W * N) (use N) fun i j => X N i j ω) (mask N) m₀ (wt N) = .ok fit ∧
        ¬ good (fun i => (fit.1 i).zoomOut N) fit.2.1} ≤ ρ := by
  choose θ hθ using fun i => (⟨_, sersicAt_surj (tr i)⟩ : ∃ θ, sersicAt θ = tr i)
  obtain ⟨dec, hdec⟩ : ∃ dec : ℕ → (Fin k → SersicP) × ℝ × ℝ → (Fin k → ℝ × ℝ × ℝ × ℝ × ℝ × ℝ × ℝ) × ℝ,
      ∀ N q, (∀ i, sersicAt ((dec N q).1 i) = (q.1 i).zoomOut N) ∧ (dec N q).2 = q.2.1 :=
    ⟨fun N q => (fun i => _, q.2.1), fun N q => ⟨fun i => sersicAt_surj ((q.1 i).zoomOut N), rfl⟩⟩
  have hmem : (θ, sky) ∈ galaxyBox lo hi slo shi := by
    rw [mem_galaxyBox]
    exact ⟨fun i => by rw [hθ]; exact htr i, hsky⟩
  obtain ⟨δ, hδ, hfin⟩ := C172_family (use := use) (mask := mask) (wt := wt)
    (g := fun x : (Fin k → ℝ × ℝ × ℝ × ℝ × ℝ × ℝ × ℝ) × ℝ => galaxiesAt (fun i => sersicAt (x.1 i)) x.2)
    (U := {x : (Fin k → ℝ × ℝ × ℝ × ℝ × ℝ × ℝ × ℝ) × ℝ | good (fun i => sersicAt (x.1 i)) x.2})
    (galaxyBox_compact lo hi slo shi) (galaxies_scene hb) hmem hopen
    (by
      intro x hx hnot
      simp only [hθ]
      by_contra hno
      push Not at hno
      rw [mem_galaxyBox] at hx
      exact hnot (hgood _ _ hx.1 fun u v hu hv => hno u v hu hv)) hv hwa hwb hwt hun hρ
  refine ⟨δ / 4, by positivity, ?_⟩
  intro Ω _ μ _ X m m' M' rot' pas' hasSky R R' pa₀ pa' ok τ ev ev₀ fitter idx hsky0 hempty hok hblur ht hcomp law hτ hsub' hset' hpa' hidx hm hdev hX
  have hle : ∀ N : ℕ, δ / 4 * (N : ℝ) ^ 2 ≤ δ * (N : ℝ) ^ 2 := fun N => mul_le_mul_of_nonneg_right (by linarith) (sq_nonneg _)
  have h := hfin Ω μ X m _ R ev ev₀ ok dec (fun N => (fun i => (tr i).zoomIn N, sky, pa₀ N)) τ fitter hempty
    (by
      intro N q hN hq
      obtain ⟨h2, h3⟩ := hok N q hN hq
      rw [mem_galaxyBox, (hdec N q).2]
      exact ⟨fun i => by rw [(hdec N q).1]; exact h2 i, h3⟩)
    (by
      filter_upwards [eventually_gt_atTop 0, hblur] with N hN hbl q hq idx hne hidx
      have e : zoomed N (galaxiesAt (fun i => sersicAt ((dec N q).1 i)) (dec N q).2) = galaxiesAt q.1 q.2.1 := by
        simp only [(hdec N q).1, (hdec N q).2]
        rw [← galaxies_zoomed hN]
        simp only [zoomIn_zoomOut hN]
      rw [e]
      exact hbl q hq idx hne hidx)
    (fun N q hq c hc => ⟨(hcomp N q hq c hc).1, fun vals hvals => by
      obtain ⟨vals', h1, h2⟩ := (hcomp N q hq c hc).2 vals hvals
      exact ⟨vals', h1, h2.imp fun a b hab => hab.trans (by linarith)⟩⟩)
    (fun N hN => ⟨ht N hN, Prod.ext (funext fun i => sersicAt_injective _ _ (by rw [(hdec N _).1, hθ]; exact zoomOut_zoomIn hN _)) (hdec N _).2⟩) law
    (hτ.mono fun N h => h.trans (hle N)) hX
    (by
      simp only [hθ]
      filter_upwards [hdev, galaxies_data (use := use) (mask := mask) hb htr hsky0 hsub' hset' hpa' hidx hm (δ / 4) (by positivity)] with N h1 h2
      have h3 := fitDist_triangle (H * N) (W * N) (use N) (mask N) none (m N) (m' N) (pixelsOf (zoomed N (galaxiesAt tr sky)))
      have h4 : fitDist (H * N) (W * N) (use N) (mask N) none (m N) (m' N) ≤ δ / 4 * (N : ℝ) ^ 2 := by
        refine le_trans ?_ h1
        unfold fitDist
        refine Finset.sum_le_sum fun p _ => ?_
        simp only [weightAt, one_mul]
        split
        · exact le_rfl
        · exact sq_nonneg _
      linarith)
  simpa only [Set.mem_ofPred_eq, (hdec _ _).1, (hdec _ _).2] using h

/-- The same for the recovery of all parameters. -/
theorem robust_galaxies {k W H : Nat} {lo hi tr : Fin k → SersicP} {use mask : ℕ → Nat → Nat → Bool} {sky slo shi v : ℝ}
    {wt : ℕ → Option (Img (F ℝ))} {wa wb : ℝ} (hb : GalaxyBounds W H lo hi) (hW : 0 < W) (hH : 0 < H)
    (htr : ∀ i, SersicP.Between (lo i) (hi i) (tr i)) (hsky : slo ≤ sky ∧ sky ≤ shi) (hA : ∀ i, 0 < (tr i).amplitude) (hv : 0 ≤ v)
    (hwa : 0 < wa) (hwb : 0 ≤ wb) (hwt : ∀ N, WeightsUpTo (H * N) (W * N) (use N) (mask N) (wt N) wb)
    (hun : Tendsto (fun N : ℕ => (unfitted (H * N) (W * N) (heavy (use N) (wt N) wa) (mask N) : ℝ) / (N : ℝ) ^ 2) atTop (𝓝 0)) {ε : ℝ} (hε : 0 < ε)
    {ρ : ENNReal} (hρ : 0 < ρ) :
    ∃ δ : ℝ, 0 < δ ∧ ∀ (Ω : ℕ → Type) [∀ N, MeasurableSpace (Ω N)] (μ : ∀ N, Measure (Ω N)) [∀ N, IsProbabilityMeasure (μ N)] (X : ∀ N, Nat → Nat → Ω N → ℝ)
      (m m' : ℕ → Nat → Nat → ℝ) (M' : ℕ → PSFModel ℝ) (rot' : Img ℝ → ℝ → Img ℝ) (pas' : Set ℝ) (hasSky : Bool) (R R' : Nat) (pa₀ pa' : ℕ → ℝ)
      (ok : ℕ → (Fin k → SersicP) × ℝ × ℝ → Prop) (τ : ℕ → ℝ) (ev ev₀ : ℕ → (Fin k → SersicP) × ℝ × ℝ → List (ℝ × ℝ) → Except PyErr (List ℝ))
      (fitter : ℕ → (Fin k → SersicP) × ℝ × ℝ → FitData ℝ → Except PyErr ((Fin k → SersicP) × ℝ × ℝ)) (idx : ℕ → List (Nat × Nat)),
      (hasSky = false → sky = 0) → (∀ N q vals, ev₀ N q [] ≠ .ok vals) →
      (∀ N q, 0 < N → ok N q → (∀ i, SersicP.Between (lo i) (hi i) ((q.1 i).zoomOut N)) ∧ (slo ≤ q.2.1 ∧ q.2.1 ≤ shi)) →
      (∀ᶠ N : ℕ in atTop, ∀ q, ok N q → ∀ idx : List (Nat × Nat), idx ≠ [] → (∀ p, p ∈ idx ↔ p.1 < H * N ∧ p.2 < W * N ∧ use N p.1 p.2 = true) →
        PixelBlur R (ev₀ N q) (galaxiesAt q.1 q.2.1) idx (H * N) (W * N)) →
      (∀ N, 0 < N → ok N (fun i => (tr i).zoomIn N, sky, pa₀ N)) → (∀ N, ComputedUpTo δ (H * N) (W * N) (ok N) (ev N) (ev₀ N)) →
      (∀ N, NearValuesFitter (ev N) (ok N) (τ N) (fitter N)) → (∀ᶠ N : ℕ in atTop, τ N ≤ δ * (N : ℝ) ^ 2) →
      (∀ N, (M' N).sub = galaxiesSub k hasSky) → (∀ N, PSFSetting R' (M' N) rot' pas') → (∀ N, pa' N ∈ pas') →
      (∀ N i j, (i, j) ∈ idx N ↔ i < H * N ∧ j < W * N) →
      (∀ N, 0 < N → ((M' N).evaluate rot' (pixelCoords (idx N)) (galaxiesParams (fun i => (tr i).zoomIn N) hasSky sky) (pa' N)).1 =
        .ok ((idx N).map fun p => m' N p.1 p.2)) →
      (∀ᶠ N : ℕ in atTop, ∑ p ∈ Finset.range (H * N) ×ˢ Finset.range (W * N), (m N p.1 p.2 - m' N p.1 p.2) ^ 2 ≤ δ * (N : ℝ) ^ 2) →
      (∀ N, CorrelatedNoise (μ N) (H * N) (W * N) (X N) (m N) v) →
      ∀ᶠ N : ℕ in atTop, μ N {ω | ∃ m₀ fit, fitModel (fitter N) (nanImage (H * N) (W * N) (use N) fun i j => X N i j ω) (mask N) m₀ (wt N) = .ok fit ∧
        ¬ ((∀ i, SersicP.RecoversAll ε (tr i) ((fit.1 i).zoomOut N)) ∧ |fit.2.1 - sky| < ε)} ≤ ρ :=
  robust_recovered (good := fun q sky' => (∀ i, SersicP.RecoversAll ε (tr i) (q i)) ∧ |sky' - sky| < ε) hb.toGalaxyRange (galaxies_open tr sky ε)
    (fun q sky' hq he => by
      obtain ⟨h2, h3⟩ := C169_identified hb htr hA hε hq hW hH he
      exact ⟨h2, by rw [h3, sub_self, abs_zero]; exact hε⟩) htr hsky hv hwa hwb hwt hun hρ

/-- **C172, galaxies.** Fits of several galaxies as in C169, but `evaluate` computes the values of the model only up to errors of at most `δ` in every pixel, the mean of the
data differs from the image of the galaxies by at most `δ` in the mean square over the pixels (other galaxies, cosmic rays, a sky that is not flat), and the fitter may stop
when the sum of squares per pixel is within `δ` of the smallest. For every `ε` and `ρ` there is such a `δ` for which all parameters are recovered within `ε` with a
probability of at least `1 - ρ`, in all images that are large enough. -/
theorem C172_galaxies {k W H : Nat} {lo hi tr : Fin k → SersicP} {use mask : ℕ → Nat → Nat → Bool} {hasSky : Bool} {sky slo shi v : ℝ}
    {wt : ℕ → Option (Img (F ℝ))} {wa wb : ℝ} (hb : GalaxyBounds W H lo hi) (hW : 0 < W) (hH : 0 < H) (hnosky : hasSky = false → slo = 0 ∧ shi = 0)
    (htr : ∀ i, SersicP.Between (lo i) (hi i) (tr i)) (hsky : slo ≤ sky ∧ sky ≤ shi) (hA : ∀ i, 0 < (tr i).amplitude) (hv : 0 ≤ v)
    (hwa : 0 < wa) (hwb : 0 ≤ wb) (hwt : ∀ N, WeightsUpTo (H * N) (W * N) (use N) (mask N) (wt N) wb)
    (hun : Tendsto (fun N : ℕ => (unfitted (H * N) (W * N) (heavy (use N) (wt N) wa) (mask N) : ℝ) / (N : ℝ) ^ 2) atTop (𝓝 0)) {ε : ℝ} (hε : 0 < ε)
    {ρ : ENNReal} (hρ : 0 < ρ) :
    ∃ δ : ℝ, 0 < δ ∧ ∀ (Ω : ℕ → Type) [∀ N, MeasurableSpace (Ω N)] (μ : ∀ N, Measure (Ω N)) [∀ N, IsProbabilityMeasure (μ N)] (X : ∀ N, Nat → Nat → Ω N → ℝ)
      (m m' : ℕ → Nat → Nat → ℝ) (M M' : ℕ → PSFModel ℝ) (rot rot' : Img ℝ → ℝ → Img ℝ) (pas pas' : Set ℝ) (R R' : Nat) (pa₀ pa' : ℕ → ℝ)
      (ok : ℕ → (Fin k → SersicP) × ℝ × ℝ → Prop) (τ : ℕ → ℝ) (ev : ℕ → (Fin k → SersicP) × ℝ × ℝ → List (ℝ × ℝ) → Except PyErr (List ℝ))
      (fitter : ℕ → (Fin k → SersicP) × ℝ × ℝ → FitData ℝ → Except PyErr ((Fin k → SersicP) × ℝ × ℝ)) (idx : ℕ → List (Nat × Nat)),
      (∀ N, (M N).sub = galaxiesSub k hasSky) → (∀ N, PSFSetting R (M N) rot pas) →
      (∀ N q, 0 < N → ok N q → (∀ i, SersicP.Between (lo i) (hi i) ((q.1 i).zoomOut N)) ∧ (slo ≤ q.2.1 ∧ q.2.1 ≤ shi) ∧ q.2.2 ∈ pas) →
      (∀ N, 0 < N → ok N (fun i => (tr i).zoomIn N, sky, pa₀ N)) →
      (∀ N, ComputedUpTo δ (H * N) (W * N) (ok N) (ev N) fun q c => ((M N).evaluate rot c (galaxiesParams q.1 hasSky q.2.1) q.2.2).1) →
      (∀ N, NearValuesFitter (ev N) (ok N) (τ N) (fitter N)) → (∀ᶠ N : ℕ in atTop, τ N ≤ δ * (N : ℝ) ^ 2) →
      (∀ N, (M' N).sub = galaxiesSub k hasSky) → (∀ N, PSFSetting R' (M' N) rot' pas') → (∀ N, pa' N ∈ pas') →
      (∀ N i j, (i, j) ∈ idx N ↔ i < H * N ∧ j < W * N) →
      (∀ N, 0 < N → ((M' N).evaluate rot' (pixelCoords (idx N)) (galaxiesParams (fun i => (tr i).zoomIn N) hasSky sky) (pa' N)).1 =
        .ok ((idx N).map fun p => m' N p.1 p.2)) →
      (∀ᶠ N : ℕ in atTop, ∑ p ∈ Finset.range (H * N) ×ˢ Finset.range (W * N), (m N p.1 p.2 - m' N p.1 p.2) ^ 2 ≤ δ * (N : ℝ) ^ 2) →
      (∀ N, CorrelatedNoise (μ N) (H * N) (W * N) (X N) (m N) v) →
      ∀ᶠ N : ℕ in atTop, μ N {ω | ∃ m₀ fit, fitModel (fitter N) (nanImage (H * N) (W * N) (use N) fun i j => X N i j ω) (mask N) m₀ (wt N) = .ok fit ∧
        ¬ ((∀ i, SersicP.RecoversAll ε (tr i) ((fit.1 i).zoomOut N)) ∧ |fit.2.1 - sky| < ε)} ≤ ρ := by
  obtain ⟨δ, hδ, hrob⟩ := robust_galaxies (use := use) (mask := mask) hb hW hH htr hsky hA hv hwa hwb hwt hun hε hρ
  refine ⟨δ, hδ, ?_⟩
  intro Ω _ μ _ X m m' M M' rot rot' pas pas' R R' pa₀ pa' ok τ ev fitter idx hsub hset hok ht hcomp law hτ hsub' hset' hpa' hidx hm hdev hX
  refine hrob Ω μ X m m' M' rot' pas' hasSky R R' pa₀ pa' ok τ ev (fun N q c => ((M N).evaluate rot c (galaxiesParams q.1 hasSky q.2.1) q.2.2).1) fitter idx
    (fun h => by
      have := sky_value hnosky hsky.1 hsky.2
      rw [h] at this
      simpa using this.symm) (fun N q vals => evaluate_nil _ _ _ _ vals) (fun N q hN hq => ⟨(hok N q hN hq).1, (hok N q hN hq).2.1⟩) ?_ ht hcomp law hτ hsub' hset' hpa' hidx
    hm hdev hX
  filter_upwards [eventually_gt_atTop 0] with N hN q hq idx hne hidx
  obtain ⟨-, hs, hpa⟩ := hok N q hN hq
  have := psf_values (hset N) hne (h := H * N) (w := W * N) (fun p hp => ⟨((hidx p).1 hp).1, ((hidx p).1 hp).2.1⟩) (galaxiesParams q.1 hasSky q.2.1) hpa
  rwa [hsub, C169_sum, sky_value hnosky hs.1 hs.2] at this

/-- **C172, window.** The same for a model with `oversample=('x_0_i', 'y_0_i', size, factor)`, as in C171: `evaluate` computes the values of the model only up to errors of at most `δ` in every pixel, the mean of the
data differs from the image of the galaxies by at most `δ` in the mean square over the pixels (other galaxies, cosmic rays, a sky that is not flat), and the fitter may stop
when the sum of squares per pixel is within `δ` of the smallest. For every `ε` and `ρ` there is such a `δ` for which all parameters are recovered within `ε` with a
probability of at least `1 - ρ`, in all images that are large enough. -/
theorem C172_window {k W H : Nat} {lo hi tr : Fin k → SersicP} {use mask : ℕ → Nat → Nat → Bool} {hasSky : Bool} {sky slo shi v : ℝ}
    {wt : ℕ → Option (Img (F ℝ))} {wa wb : ℝ} (i : Fin k) (hb : GalaxyBounds W H lo hi) (hW : 0 < W) (hH : 0 < H) (hnosky : hasSky = false → slo = 0 ∧ shi = 0)
    (htr : ∀ i, SersicP.Between (lo i) (hi i) (tr i)) (hsky : slo ≤ sky ∧ sky ≤ shi) (hA : ∀ i, 0 < (tr i).amplitude) (hv : 0 ≤ v)
    (hwa : 0 < wa) (hwb : 0 ≤ wb) (hwt : ∀ N, WeightsUpTo (H * N) (W * N) (use N) (mask N) (wt N) wb)
    (hframe : ∀ᶠ N : ℕ in atTop, FrameUsed (H * N) (W * N) (use N))
    (hun : Tendsto (fun N : ℕ => (unfitted (H * N) (W * N) (heavy (use N) (wt N) wa) (mask N) : ℝ) / (N : ℝ) ^ 2) atTop (𝓝 0)) {ε : ℝ} (hε : 0 < ε)
    {ρ : ENNReal} (hρ : 0 < ρ) :
    ∃ δ : ℝ, 0 < δ ∧ ∀ (Ω : ℕ → Type) [∀ N, MeasurableSpace (Ω N)] (μ : ∀ N, Measure (Ω N)) [∀ N, IsProbabilityMeasure (μ N)] (X : ∀ N, Nat → Nat → Ω N → ℝ)
      (m m' : ℕ → Nat → Nat → ℝ) (M M' : ℕ → PSFModel ℝ) (rot rot' : Img ℝ → ℝ → Img ℝ) (pas pas' : Set ℝ) (R R' size f : Nat) (pa₀ pa' : ℕ → ℝ)
      (ok : ℕ → (Fin k → SersicP) × ℝ × ℝ → Prop) (τ : ℕ → ℝ) (ev : ℕ → (Fin k → SersicP) × ℝ × ℝ → List (ℝ × ℝ) → Except PyErr (List ℝ))
      (fitter : ℕ → (Fin k → SersicP) × ℝ × ℝ → FitData ℝ → Except PyErr ((Fin k → SersicP) × ℝ × ℝ)) (idx : ℕ → List (Nat × Nat)),
      (∀ N, (M N).sub = galaxiesSub k hasSky) → (∀ N, WindowSetting s!"x_0_{i.val}" s!"y_0_{i.val}" R size f (M N) rot pas) →
      (∀ N q, 0 < N → ok N q → (∀ i, SersicP.Between (lo i) (hi i) ((q.1 i).zoomOut N)) ∧ (slo ≤ q.2.1 ∧ q.2.1 ≤ shi) ∧ q.2.2 ∈ pas) →
      (∀ N, 0 < N → ok N (fun i => (tr i).zoomIn N, sky, pa₀ N)) →
      (∀ N, ComputedUpTo δ (H * N) (W * N) (ok N) (ev N) fun q c => ((M N).evaluate rot c (galaxiesParams q.1 hasSky q.2.1) q.2.2).1) →
      (∀ N, NearValuesFitter (ev N) (ok N) (τ N) (fitter N)) → (∀ᶠ N : ℕ in atTop, τ N ≤ δ * (N : ℝ) ^ 2) →
      (∀ N, (M' N).sub = galaxiesSub k hasSky) → (∀ N, PSFSetting R' (M' N) rot' pas') → (∀ N, pa' N ∈ pas') →
      (∀ N i j, (i, j) ∈ idx N ↔ i < H * N ∧ j < W * N) →
      (∀ N, 0 < N → ((M' N).evaluate rot' (pixelCoords (idx N)) (galaxiesParams (fun i => (tr i).zoomIn N) hasSky sky) (pa' N)).1 =
        .ok ((idx N).map fun p => m' N p.1 p.2)) →
      (∀ᶠ N : ℕ in atTop, ∑ p ∈ Finset.range (H * N) ×ˢ Finset.range (W * N), (m N p.1 p.2 - m' N p.1 p.2) ^ 2 ≤ δ * (N : ℝ) ^ 2) →
      (∀ N, CorrelatedNoise (μ N) (H * N) (W * N) (X N) (m N) v) →
      ∀ᶠ N : ℕ in atTop, μ N {ω | ∃ m₀ fit, fitModel (fitter N) (nanImage (H * N) (W * N) (use N) fun i j => X N i j ω) (mask N) m₀ (wt N) = .ok fit ∧
        ¬ ((∀ i, SersicP.RecoversAll ε (tr i) ((fit.1 i).zoomOut N)) ∧ |fit.2.1 - sky| < ε)} ≤ ρ := by
  obtain ⟨δ, hδ, hrob⟩ := robust_galaxies (use := use) (mask := mask) hb hW hH htr hsky hA hv hwa hwb hwt hun hε hρ
  refine ⟨δ, hδ, ?_⟩
  intro Ω _ μ _ X m m' M M' rot rot' pas pas' R R' size f pa₀ pa' ok τ ev fitter idx hsub hset hok ht hcomp law hτ hsub' hset' hpa' hidx hm hdev hX
  refine hrob Ω μ X m m' M' rot' pas' hasSky R R' pa₀ pa' ok τ ev (fun N q c => ((M N).evaluate rot c (galaxiesParams q.1 hasSky q.2.1) q.2.2).1) fitter idx
    (fun h => by
      have := sky_value hnosky hsky.1 hsky.2
      rw [h] at this
      simpa using this.symm) (fun N q vals => evaluate_nil _ _ _ _ vals) (fun N q hN hq => ⟨(hok N q hN hq).1, (hok N q hN hq).2.1⟩) ?_ ht hcomp law hτ hsub' hset' hpa' hidx
    hm hdev hX
  filter_upwards [C171_values hb.toGalaxyRange hnosky hsub hset hframe, eventually_gt_atTop 0] with N h2 hN q hq idx _ hidx
  obtain ⟨h3, h4⟩ := hok N q hN hq
  exact h2 q ⟨h3 i, h4⟩ idx hidx

/-! ### Examples -/

/-- Values rounded to multiples of `δ`. -/
noncomputable def roundedTo {P : Type} (δ : ℝ) (ev : P → List (ℝ × ℝ) → Except PyErr (List ℝ)) : P → List (ℝ × ℝ) → Except PyErr (List ℝ) :=
  fun q c => match ev q c with
    | .ok vals => .ok (vals.map fun x => δ * (round (x / δ) : ℝ))
    | .error e => .error e

theorem roundedTo_computed {P : Type} {δ : ℝ} (hδ : 0 < δ) (ev : P → List (ℝ × ℝ) → Except PyErr (List ℝ)) (q : P) (c : List (ℝ × ℝ)) :
    CallsUpTo δ (roundedTo δ ev q c) (ev q c) := by
  refine ⟨fun e he => by simp [roundedTo, he], fun vals hv => ⟨_, by simp only [roundedTo, hv]; rfl, ?_⟩⟩
  rw [List.forall₂_map_left_iff]
  refine List.forall₂_same.2 fun x _ => ?_
  have h1 : δ * (round (x / δ) : ℝ) - x = δ * ((round (x / δ) : ℝ) - x / δ) := by
    field_simp
  rw [h1, abs_mul, abs_of_pos hδ, abs_sub_comm]
  have h2 := abs_sub_round (x / δ)
  nlinarith

/-- The light of a Sersic galaxy is largest at its centre. -/
theorem sersic_below_peak (p : SersicP) (hp : 0 ≤ p.amplitude) (hn : 0 < p.n) (x y : ℝ) : |p.at_ x y| ≤ p.amplitude * Real.exp (bn p.n) := by
  unfold SersicP.at_ sersic2D
  simp only
  rw [abs_mul, abs_of_nonneg hp, abs_of_pos (Real.exp_pos _)]
  refine mul_le_mul_of_nonneg_left (Real.exp_le_exp.2 ?_) hp
  have h1 := (bn_pos hn).le
  have h2 : (0 : ℝ) ≤ Real.sqrt ((((x - p.x0) * Real.cos p.theta + (y - p.y0) * Real.sin p.theta) / p.rEff) ^ 2 +
      ((-(x - p.x0) * Real.sin p.theta + (y - p.y0) * Real.cos p.theta) / ((1 - p.ellip) * p.rEff)) ^ 2) ^ (1 / p.n) := Real.rpow_nonneg (Real.sqrt_nonneg _) _
  nlinarith

/-- The two galaxies and the sky of C169, with Gaussian noise of 100 in every pixel. A third galaxy of index 2 that nobody fits lies between them, and the values of the
model are rounded. If the third galaxy is faint enough and the rounding fine enough, the index of the second galaxy is within 1/10 of 1 in 99 of 100 images
that are large enough. -/
example (rot : Img ℝ → ℝ → Img ℝ) (m₀ : (Fin 2 → SersicP) × ℝ × ℝ) : ∃ δ A : ℝ, 0 < δ ∧ 0 < A ∧
    ∃ (m : ℕ → Nat → Nat → ℝ) (fitter : ℕ → (Fin 2 → SersicP) × ℝ × ℝ → FitData ℝ → Except PyErr ((Fin 2 → SersicP) × ℝ × ℝ))
      (fit : ∀ N, (Fin (1 * N) × Fin (1 * N) → ℝ) → (Fin 2 → SersicP) × ℝ × ℝ),
    (∀ N, 0 < N → ({ smearModel with sub := galaxiesSub 2 true }.evaluate rot (pixelCoords (npWhere (1 * N) (1 * N) fun _ _ => true))
      (galaxiesParams (fun i => (pairTruth i).zoomIn N) true 7) 0).1 = .ok ((npWhere (1 * N) (1 * N) fun _ _ => true).map fun p => m N p.1 p.2)) ∧
    (∀ N, NearValuesFitter (roundedTo δ fun q c => ({ crossModel with sub := galaxiesSub 2 true }.evaluate rot c (galaxiesParams q.1 true q.2.1) q.2.2).1)
      (fun q => (∀ i, SersicP.Between (pairLo i) (pairHi i) ((q.1 i).zoomOut N)) ∧ (0 ≤ q.2.1 ∧ q.2.1 ≤ 1000) ∧ q.2.2 ∈ ({0} : Set ℝ)) 1 (fitter N)) ∧
    (∀ N, 0 < N → ∀ ω, fitModel (fitter N)
      (nanImage (1 * N) (1 * N) (fun _ _ => true) fun i j => gaussImage (1 * N) (1 * N)
        (fun i j => m N i j + pixelsOf (SersicP.mk A (N / 10) 2 (N / 2) (N / 2) 0 0).at_ i j) (fun _ _ => 100) i j ω) (fun _ _ => false) m₀ none = .ok (fit N ω)) ∧
    ∀ᶠ N in atTop, gaussField (1 * N) (1 * N) {ω | ¬ |((fit N ω).1 1).n - 1| < 1 / 10} ≤ 1 / 100 := by
  set ok : ℕ → (Fin 2 → SersicP) × ℝ × ℝ → Prop := fun N q =>
    (∀ i, SersicP.Between (pairLo i) (pairHi i) ((q.1 i).zoomOut N)) ∧ (0 ≤ q.2.1 ∧ q.2.1 ≤ 1000) ∧ q.2.2 ∈ ({0} : Set ℝ) with hokd
  set ev₀ : (Fin 2 → SersicP) × ℝ × ℝ → List (ℝ × ℝ) → Except PyErr (List ℝ) := fun q c =>
    ({ crossModel with sub := galaxiesSub 2 true }.evaluate rot c (galaxiesParams q.1 true q.2.1) q.2.2).1 with hev
  have hset := setting_sub (cross_setting rot) (galaxiesSub 2 true)
  have hset' := setting_sub (smear_setting rot) (galaxiesSub 2 true)
  have ht : ∀ N, 0 < N → ok N (fun i => (pairTruth i).zoomIn N, 7, 0) := fun N hN =>
    ⟨fun i => by rw [zoomOut_zoomIn hN]; exact pair_between i, by norm_num, rfl⟩
  have hidx : ∀ N i j, (i, j) ∈ npWhere (1 * N) (1 * N) (fun _ _ => true) ↔ i < 1 * N ∧ j < 1 * N := fun N i j => by rw [npWhere_mem]; simp
  have hm : ∀ N, ∃ m : Nat → Nat → ℝ, 0 < N → ({ smearModel with sub := galaxiesSub 2 true }.evaluate rot (pixelCoords (npWhere (1 * N) (1 * N) fun _ _ => true))
      (galaxiesParams (fun i => (pairTruth i).zoomIn N) true 7) 0).1 = .ok ((npWhere (1 * N) (1 * N) fun _ _ => true).map fun p => m p.1 p.2) := by
    intro N
    rcases Nat.eq_zero_or_pos N with h0 | hN
    · exact ⟨fun _ _ => 0, fun h => absurd h (by omega)⟩
    · obtain ⟨V, -, -, -, hV, -⟩ := psf_values hset' (h := 1 * N) (w := 1 * N) (List.ne_nil_of_mem ((hidx N 0 0).2 ⟨by omega, by omega⟩))
        (fun p hp => (hidx N p.1 p.2).1 hp) (galaxiesParams (fun i => (pairTruth i).zoomIn N) true 7) (Set.mem_singleton (0 : ℝ))
      exact ⟨V, fun _ => hV⟩
  choose m hm using hm
  obtain ⟨δ, hδ, hrob⟩ := C172_galaxies (W := 1) (H := 1) (use := fun _ _ _ => true) (mask := fun _ _ _ => false) (wt := fun _ => none) (tr := pairTruth) (sky := 7)
    (slo := 0) (shi := 1000) (hasSky := true) (v := 10000) pair_bounds one_pos one_pos (by simp) pair_between (by norm_num)
    (fun i => by fin_cases i <;> simp [pairTruth]) (by norm_num) one_pos zero_le_one (fun N => weights_none _ _ _ _) (by simp [unfitted, heavy_none])
    (show (0 : ℝ) < 1 / 10 by norm_num) (show (0 : ENNReal) < 1 / 100 by simp)
  set A : ℝ := min 1 δ / Real.exp (bn 2) with hAd
  have hmin : 0 < min 1 δ := lt_min one_pos hδ
  have hA : 0 < A := div_pos hmin (Real.exp_pos _)
  set m' : ℕ → Nat → Nat → ℝ := fun N i j => m N i j + pixelsOf (SersicP.mk A (N / 10) 2 (N / 2) (N / 2) 0 0).at_ i j with hm'
  have hex : ∀ N, 0 < N → ∀ ω, ∃ r, fitModel (chosenNearFitter (roundedTo δ ev₀) (ok N) 1)
      (nanImage (1 * N) (1 * N) (fun _ _ => true) fun i j => gaussImage (1 * N) (1 * N) (m' N) (fun _ _ => 100) i j ω) (fun _ _ => false) m₀ none = .ok r := by
    intro N hN ω
    refine C168_exists one_pos _ _ (ht N hN) (fun idx hi => ?_) _ m₀ (by simp)
    obtain ⟨V, -, -, -, hV, -⟩ := psf_values hset (h := 1 * N) (w := 1 * N) (List.ne_nil_of_mem ((hi (0, 0)).2 ⟨by simpa using hN, by simpa using hN, rfl⟩))
      (fun p hp => ⟨((hi p).1 hp).1, ((hi p).1 hp).2.1⟩) (galaxiesParams (fun i => (pairTruth i).zoomIn N) true 7) (Set.mem_singleton (0 : ℝ))
    obtain ⟨vals, hvals, -⟩ := (roundedTo_computed hδ ev₀ (fun i => (pairTruth i).zoomIn N, 7, 0) (pixelCoords idx)).2 _ hV
    exact ⟨_, hvals⟩
  choose fit hfit using fun N => ok_choice m₀ fun ω => fitModel (chosenNearFitter (roundedTo δ ev₀) (ok N) 1)
      (nanImage (1 * N) (1 * N) (fun _ _ => true) fun i j => gaussImage (1 * N) (1 * N) (m' N) (fun _ _ => 100) i j ω) (fun _ _ => false) m₀ none
  refine ⟨δ, A, hδ, hA, m, fun N => chosenNearFitter (roundedTo δ ev₀) (ok N) 1, fit, hm, fun N => chosenNearFitter_law _ _ _, fun N hN ω => hfit N ω (hex N hN ω), ?_⟩
  have hlim := hrob _ (fun N => gaussField (1 * N) (1 * N)) (fun N i j ω => gaussImage (1 * N) (1 * N) (m' N) (fun _ _ => 100) i j ω) m' m
    (fun _ => { crossModel with sub := galaxiesSub 2 true }) (fun _ => { smearModel with sub := galaxiesSub 2 true }) rot rot {0} {0} _ _ (fun _ => 0) (fun _ => 0) ok
    (fun _ => 1) (fun _ => roundedTo δ ev₀) (fun N => chosenNearFitter (roundedTo δ ev₀) (ok N) 1) (fun N => npWhere (1 * N) (1 * N) fun _ _ => true)
    (fun _ => rfl) (fun _ => hset) (fun N q _ hq => hq) ht (fun N q _ idx _ => roundedTo_computed hδ ev₀ q _) (fun N => chosenNearFitter_law _ _ _)
    ((((tendsto_pow_atTop two_ne_zero).comp tendsto_natCast_atTop_atTop).const_mul_atTop hδ).eventually_ge_atTop 1)
    (fun _ => rfl) (fun _ => hset') (fun _ => rfl) hidx hm
    (by
      refine Eventually.of_forall fun N => ?_
      have h1 : ∀ p ∈ Finset.range (1 * N) ×ˢ Finset.range (1 * N), (m' N p.1 p.2 - m N p.1 p.2) ^ 2 ≤ δ := by
        intro p _
        simp only [hm', add_sub_cancel_left]
        have h2 := sersic_below_peak (SersicP.mk A (N / 10) 2 (N / 2) (N / 2) 0 0) hA.le two_pos (p.2 : ℝ) (p.1 : ℝ)
        have h3 : A * Real.exp (bn 2) = min 1 δ := div_mul_cancel₀ _ (Real.exp_pos _).ne'
        rw [h3] at h2
        have h4 : min 1 δ ^ 2 ≤ δ := by nlinarith [min_le_left 1 δ, min_le_right 1 δ]
        rw [← sq_abs]
        exact (pow_le_pow_left₀ (abs_nonneg _) h2 2).trans h4
      refine (Finset.sum_le_sum h1).trans (le_of_eq ?_)
      rw [Finset.sum_const, Finset.card_product, Finset.card_range, nsmul_eq_mul]
      push_cast
      ring)
    (fun N => (gaussian_noise (1 * N) (1 * N) (m' N) fun _ _ => 100).correlated (v := 10000) fun _ _ _ _ => by norm_num)
  filter_upwards [hlim, eventually_gt_atTop 0] with N hN1 hN
  refine le_trans (measure_mono ?_) hN1
  intro ω hω
  refine ⟨m₀, fit N ω, hfit N ω (hex N hN ω), fun hr => hω ?_⟩
  have := (hr.1 1).2.2.1
  simpa [pairTruth, SersicP.zoomOut] using this

/-- The same two galaxies with rounded values and a window of 20 x 20 pixels around the second one, oversampled 50 times. -/
example (rot : Img ℝ → ℝ → Img ℝ) : ∃ δ : ℝ, 0 < δ ∧
    ∃ (m : ℕ → Nat → Nat → ℝ) (fitter : ℕ → (Fin 2 → SersicP) × ℝ × ℝ → FitData ℝ → Except PyErr ((Fin 2 → SersicP) × ℝ × ℝ)),
    (∀ N, 0 < N → ({ smearModel with sub := galaxiesSub 2 true }.evaluate rot (pixelCoords (npWhere (1 * N) (1 * N) fun _ _ => true))
      (galaxiesParams (fun i => (pairTruth i).zoomIn N) true 7) 0).1 = .ok ((npWhere (1 * N) (1 * N) fun _ _ => true).map fun p => m N p.1 p.2)) ∧
    (∀ N, NearValuesFitter (roundedTo δ fun q c => (pairWindow.evaluate rot c (galaxiesParams q.1 true q.2.1) q.2.2).1)
      (fun q => (∀ i, SersicP.Between (pairLo i) (pairHi i) ((q.1 i).zoomOut N)) ∧ (0 ≤ q.2.1 ∧ q.2.1 ≤ 1000) ∧ q.2.2 ∈ ({0} : Set ℝ)) 1 (fitter N)) ∧
    (∀ᶠ N in atTop, ∀ ω m₀, ∃ fit, fitModel (fitter N)
      (nanImage (1 * N) (1 * N) (fun _ _ => true) fun i j => gaussImage (1 * N) (1 * N) (m N) (fun _ _ => 100) i j ω) (fun _ _ => false) m₀ none = .ok fit) ∧
    ∀ᶠ N in atTop, gaussField (1 * N) (1 * N) {ω | ∃ m₀ fit, fitModel (fitter N)
      (nanImage (1 * N) (1 * N) (fun _ _ => true) fun i j => gaussImage (1 * N) (1 * N) (m N) (fun _ _ => 100) i j ω) (fun _ _ => false) m₀ none = .ok fit ∧
      ¬ |(fit.1 1).n - 1| < 1 / 10} ≤ 1 / 100 := by
  set ok : ℕ → (Fin 2 → SersicP) × ℝ × ℝ → Prop := fun N q =>
    (∀ i, SersicP.Between (pairLo i) (pairHi i) ((q.1 i).zoomOut N)) ∧ (0 ≤ q.2.1 ∧ q.2.1 ≤ 1000) ∧ q.2.2 ∈ ({0} : Set ℝ) with hokd
  set ev₀ : (Fin 2 → SersicP) × ℝ × ℝ → List (ℝ × ℝ) → Except PyErr (List ℝ) := fun q c =>
    (pairWindow.evaluate rot c (galaxiesParams q.1 true q.2.1) q.2.2).1 with hev
  have hset' := setting_sub (smear_setting rot) (galaxiesSub 2 true)
  have ht : ∀ N, 0 < N → ok N (fun i => (pairTruth i).zoomIn N, 7, 0) := fun N hN =>
    ⟨fun i => by rw [zoomOut_zoomIn hN]; exact pair_between i, by norm_num, rfl⟩
  have hidx : ∀ N i j, (i, j) ∈ npWhere (1 * N) (1 * N) (fun _ _ => true) ↔ i < 1 * N ∧ j < 1 * N := fun N i j => by rw [npWhere_mem]; simp
  have hframe : ∀ᶠ N : ℕ in atTop, FrameUsed (1 * N) (1 * N) fun _ _ => true := by
    filter_upwards [eventually_gt_atTop 0] with N hN
    exact ⟨⟨0, by omega, rfl⟩, ⟨0, by omega, rfl⟩, ⟨0, by omega, rfl⟩, 0, by omega, rfl⟩
  have hm : ∀ N, ∃ m : Nat → Nat → ℝ, 0 < N → ({ smearModel with sub := galaxiesSub 2 true }.evaluate rot (pixelCoords (npWhere (1 * N) (1 * N) fun _ _ => true))
      (galaxiesParams (fun i => (pairTruth i).zoomIn N) true 7) 0).1 = .ok ((npWhere (1 * N) (1 * N) fun _ _ => true).map fun p => m p.1 p.2) := by
    intro N
    rcases Nat.eq_zero_or_pos N with h0 | hN
    · exact ⟨fun _ _ => 0, fun h => absurd h (by omega)⟩
    · obtain ⟨V, -, -, -, hV, -⟩ := psf_values hset' (h := 1 * N) (w := 1 * N) (List.ne_nil_of_mem ((hidx N 0 0).2 ⟨by omega, by omega⟩))
        (fun p hp => (hidx N p.1 p.2).1 hp) (galaxiesParams (fun i => (pairTruth i).zoomIn N) true 7) (Set.mem_singleton (0 : ℝ))
      exact ⟨V, fun _ => hV⟩
  choose m hm using hm
  obtain ⟨δ, hδ, hrob⟩ := C172_window (W := 1) (H := 1) (use := fun _ _ _ => true) (mask := fun _ _ _ => false) (wt := fun _ => none) (tr := pairTruth) (sky := 7)
    (slo := 0) (shi := 1000) (hasSky := true) (v := 10000) 1 pair_bounds one_pos one_pos (by simp) pair_between (by norm_num)
    (fun i => by fin_cases i <;> simp [pairTruth]) (by norm_num) one_pos zero_le_one (fun N => weights_none _ _ _ _) hframe (by simp [unfitted, heavy_none])
    (show (0 : ℝ) < 1 / 10 by norm_num) (show (0 : ENNReal) < 1 / 100 by simp)
  refine ⟨δ, hδ, m, fun N => chosenNearFitter (roundedTo δ ev₀) (ok N) 1, hm, fun N => chosenNearFitter_law _ _ _, ?_, ?_⟩
  · filter_upwards [C171_values (i := 1) (M := fun _ => pairWindow) (hasSky := true) (slo := 0) (shi := 1000) pair_bounds.toGalaxyRange (by simp) (fun _ => rfl) (fun _ => pairWindow_setting rot) hframe,
      eventually_gt_atTop 0] with N h1 hN ω m₀
    refine C168_exists one_pos _ _ (ht N hN) (fun idx hi => ?_) _ m₀ (by simp)
    obtain ⟨V, -, -, -, hV, -⟩ := h1 _ ⟨(ht N hN).1 1, (ht N hN).2⟩ idx hi
    obtain ⟨vals, hvals, -⟩ := (roundedTo_computed hδ ev₀ (fun i => (pairTruth i).zoomIn N, 7, 0) (pixelCoords idx)).2 _ hV
    exact ⟨_, hvals⟩
  have hlim := hrob _ (fun N => gaussField (1 * N) (1 * N)) (fun N i j ω => gaussImage (1 * N) (1 * N) (m N) (fun _ _ => 100) i j ω) m m
    (fun _ => pairWindow) (fun _ => { smearModel with sub := galaxiesSub 2 true }) rot rot {0} {0} _ _ _ _ (fun _ => 0) (fun _ => 0) ok
    (fun _ => 1) (fun _ => roundedTo δ ev₀) (fun N => chosenNearFitter (roundedTo δ ev₀) (ok N) 1) (fun N => npWhere (1 * N) (1 * N) fun _ _ => true)
    (fun _ => rfl) (fun _ => pairWindow_setting rot) (fun N q _ hq => hq) ht (fun N q _ idx _ => roundedTo_computed hδ ev₀ q _) (fun N => chosenNearFitter_law _ _ _)
    ((((tendsto_pow_atTop two_ne_zero).comp tendsto_natCast_atTop_atTop).const_mul_atTop hδ).eventually_ge_atTop 1)
    (fun _ => rfl) (fun _ => hset') (fun _ => rfl) hidx hm
    (Eventually.of_forall fun N => by
      simp only [sub_self, ne_eq, OfNat.ofNat_ne_zero, not_false_eq_true, zero_pow, Finset.sum_const_zero]
      positivity)
    (fun N => (gaussian_noise (1 * N) (1 * N) (m N) fun _ _ => 100).correlated (v := 10000) fun _ _ _ _ => by norm_num)
  filter_upwards [hlim] with N hN1
  refine le_trans (measure_mono ?_) hN1
  rintro ω ⟨m₀, fit, hfit, hnot⟩
  refine ⟨m₀, fit, hfit, fun hr => hnot ?_⟩
  have := (hr.1 1).2.2.1
  simpa [pairTruth, SersicP.zoomOut] using this

end Verif.Props

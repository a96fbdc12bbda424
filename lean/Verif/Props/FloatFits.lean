import Verif.Props.FloatImages

/-!
# C180: fits with models that are evaluated in floating point

C172 for the values that `evaluate` computes in floats: fits recover the galaxies if all steps of the computation are accurate enough.
-/

set_option linter.unusedSectionVars false
set_option linter.unusedVariables false

namespace Verif.Props

open Verif F Verif.Spec Lemmas Filter Topology MeasureTheory PSFModel

theorem FloatRun.mono {t t' : ℝ} {h w : Nat} {ops : FloatOps ℝ} {rot : Img ℝ → ℝ → Img ℝ} {pa : ℝ} {M' M : PSFModel ℝ} {params : List ℝ}
    (hr : FloatRun t h w ops rot pa M' M params) (ht : t ≤ t') : FloatRun t' h w ops rot pa M' M params := by
  obtain ⟨L, u, γ, κ, ζ, η, hu, hγ, hκ, hζ, hη, h⟩ := hr
  exact ⟨L, u, γ, κ, ζ, η, ⟨hu.1, hu.2.trans ht⟩, ⟨hγ.1, hγ.2.trans ht⟩, ⟨hκ.1, hκ.2.trans ht⟩, ⟨hζ.1, hζ.2.trans ht⟩, ⟨hη.1, hη.2.trans ht⟩, h⟩

/-- **C180, fits.** The fit of C172 with a model evaluated in floating point: `ops N` is the arithmetic for the `N`-th image and `Mf N` the model with its float PSF and wrapped model.
If every step is accurate up to `t`, and the data and the fitter are as in C172 with `t` for `δ`, all parameters are recovered within `ε` with a probability of at least `1 - ρ`. -/
theorem C180_galaxies {k W H : Nat} {lo hi tr : Fin k → SersicP} {use mask : ℕ → Nat → Nat → Bool} {hasSky : Bool} {sky slo shi v : ℝ}
    {wt : ℕ → Option (Img (F ℝ))} {wa wb : ℝ} (hb : GalaxyBounds W H lo hi) (hW : 0 < W) (hH : 0 < H) (hnosky : hasSky = false → slo = 0 ∧ shi = 0)
    (htr : ∀ i, SersicP.Between (lo i) (hi i) (tr i)) (hsky : slo ≤ sky ∧ sky ≤ shi) (hA : ∀ i, 0 < (tr i).amplitude) (hv : 0 ≤ v)
    (hwa : 0 < wa) (hwb : 0 ≤ wb) (hwt : ∀ N, WeightsUpTo (H * N) (W * N) (use N) (mask N) (wt N) wb)
    (hun : Tendsto (fun N : ℕ => (unfitted (H * N) (W * N) (heavy (use N) (wt N) wa) (mask N) : ℝ) / (N : ℝ) ^ 2) atTop (𝓝 0)) {ε : ℝ} (hε : 0 < ε)
    {ρ : ENNReal} (hρ : 0 < ρ) :
    ∃ t : ℝ, 0 < t ∧ ∀ (Ω : ℕ → Type) [∀ N, MeasurableSpace (Ω N)] (μ : ∀ N, Measure (Ω N)) [∀ N, IsProbabilityMeasure (μ N)] (X : ∀ N, Nat → Nat → Ω N → ℝ)
      (m m' : ℕ → Nat → Nat → ℝ) (M M' Mf : ℕ → PSFModel ℝ) (ops : ℕ → FloatOps ℝ) (rot rot' : Img ℝ → ℝ → Img ℝ) (pas pas' : Set ℝ) (R R' : Nat) (pa₀ pa' : ℕ → ℝ)
      (ok : ℕ → (Fin k → SersicP) × ℝ × ℝ → Prop) (τ : ℕ → ℝ)
      (fitter : ℕ → (Fin k → SersicP) × ℝ × ℝ → FitData ℝ → Except PyErr ((Fin k → SersicP) × ℝ × ℝ)) (idx : ℕ → List (Nat × Nat)),
      (∀ N, (M N).sub = galaxiesSub k hasSky) → (∀ N, PSFSetting R (M N) rot pas) →
      (∀ N q, 0 < N → ok N q → (∀ i, SersicP.Between (lo i) (hi i) ((q.1 i).zoomOut N)) ∧ (slo ≤ q.2.1 ∧ q.2.1 ≤ shi) ∧ q.2.2 ∈ pas) →
      (∀ N, 0 < N → ok N (fun i => (tr i).zoomIn N, sky, pa₀ N)) →
      (∀ N q, 0 < N → ok N q → FloatRun t (H * N) (W * N) (ops N) rot q.2.2 (Mf N) (M N) (galaxiesParams q.1 hasSky q.2.1)) →
      (∀ N, NearValuesFitter (fun q c => (Mf N).evaluateFl (ops N) c (galaxiesParams q.1 hasSky q.2.1) q.2.2) (ok N) (τ N) (fitter N)) → (∀ᶠ N : ℕ in atTop, τ N ≤ t * (N : ℝ) ^ 2) →
      (∀ N, (M' N).sub = galaxiesSub k hasSky) → (∀ N, PSFSetting R' (M' N) rot' pas') → (∀ N, pa' N ∈ pas') →
      (∀ N i j, (i, j) ∈ idx N ↔ i < H * N ∧ j < W * N) →
      (∀ N, 0 < N → ((M' N).evaluate rot' (pixelCoords (idx N)) (galaxiesParams (fun i => (tr i).zoomIn N) hasSky sky) (pa' N)).1 =
        .ok ((idx N).map fun p => m' N p.1 p.2)) →
      (∀ᶠ N : ℕ in atTop, ∑ p ∈ Finset.range (H * N) ×ˢ Finset.range (W * N), (m N p.1 p.2 - m' N p.1 p.2) ^ 2 ≤ t * (N : ℝ) ^ 2) →
      (∀ N, CorrelatedNoise (μ N) (H * N) (W * N) (X N) (m N) v) →
      ∀ᶠ N : ℕ in atTop, μ N {ω | ∃ m₀ fit, fitModel (fitter N) (nanImage (H * N) (W * N) (use N) fun i j => X N i j ω) (mask N) m₀ (wt N) = .ok fit ∧
        ¬ ((∀ i, SersicP.RecoversAll ε (tr i) ((fit.1 i).zoomOut N)) ∧ |fit.2.1 - sky| < ε)} ≤ ρ := by
  obtain ⟨δ, hδ, hrob⟩ := C172_galaxies (use := use) (mask := mask) hb hW hH hnosky htr hsky hA hv hwa hwb hwt hun hε hρ
  obtain ⟨t, ht, hun'⟩ := C180_uniform hb.toGalaxyRange slo shi hnosky hδ
  refine ⟨min t δ, lt_min ht hδ, ?_⟩
  intro Ω _ μ _ X m m' M M' Mf ops rot rot' pas pas' R R' pa₀ pa' ok τ fitter idx hsub hset hok htr' hrun law hτ hsub' hset' hpa' hidx hm hdev hX
  have hle : ∀ N : ℕ, min t δ * (N : ℝ) ^ 2 ≤ δ * (N : ℝ) ^ 2 := fun N => mul_le_mul_of_nonneg_right (min_le_right _ _) (sq_nonneg _)
  refine hrob Ω μ X m m' M M' rot rot' pas pas' R R' pa₀ pa' ok τ (fun N q c => (Mf N).evaluateFl (ops N) c (galaxiesParams q.1 hasSky q.2.1) q.2.2) fitter idx hsub hset hok htr' ?_ law
    (hτ.mono fun N h => h.trans (hle N)) hsub' hset' hpa' hidx hm (hdev.mono fun N h => h.trans (hle N)) hX
  intro N q hq idx' hin
  rcases Nat.eq_zero_or_pos N with rfl | hN
  · have : idx' = [] := List.eq_nil_iff_forall_not_mem.2 fun p hp => by
      have := (hin p hp).1
      omega
    subst this
    refine ⟨fun e he => ?_, fun vals hv => ?_⟩
    · cases he
      rfl
    · cases hv
  · obtain ⟨h1, h2, h3⟩ := hok N q hN hq
    exact hun' N q.1 q.2.1 q.2.2 (ops N) rot (Mf N) (M N) (H * N) (W * N) idx' h1 h2 (hsub N) (hset N).cache ⟨(hset N).compatible.1, (hset N).compatible.2.1⟩
      ((hrun N q hN hq).mono (min_le_left _ _)) hin

/-- **C180, window.** The same for a model with an oversampled window around one of the galaxies. -/
theorem C180_window {k W H : Nat} {lo hi tr : Fin k → SersicP} {use mask : ℕ → Nat → Nat → Bool} {hasSky : Bool} {sky slo shi v : ℝ}
    {wt : ℕ → Option (Img (F ℝ))} {wa wb : ℝ} (i : Fin k) (hb : GalaxyBounds W H lo hi) (hW : 0 < W) (hH : 0 < H) (hnosky : hasSky = false → slo = 0 ∧ shi = 0)
    (htr : ∀ i, SersicP.Between (lo i) (hi i) (tr i)) (hsky : slo ≤ sky ∧ sky ≤ shi) (hA : ∀ i, 0 < (tr i).amplitude) (hv : 0 ≤ v)
    (hwa : 0 < wa) (hwb : 0 ≤ wb) (hwt : ∀ N, WeightsUpTo (H * N) (W * N) (use N) (mask N) (wt N) wb)
    (hframe : ∀ᶠ N : ℕ in atTop, FrameUsed (H * N) (W * N) (use N))
    (hun : Tendsto (fun N : ℕ => (unfitted (H * N) (W * N) (heavy (use N) (wt N) wa) (mask N) : ℝ) / (N : ℝ) ^ 2) atTop (𝓝 0)) {ε : ℝ} (hε : 0 < ε)
    {ρ : ENNReal} (hρ : 0 < ρ) :
    ∃ t : ℝ, 0 < t ∧ ∀ (Ω : ℕ → Type) [∀ N, MeasurableSpace (Ω N)] (μ : ∀ N, Measure (Ω N)) [∀ N, IsProbabilityMeasure (μ N)] (X : ∀ N, Nat → Nat → Ω N → ℝ)
      (m m' : ℕ → Nat → Nat → ℝ) (M M' Mf : ℕ → PSFModel ℝ) (ops : ℕ → FloatOps ℝ) (rot rot' : Img ℝ → ℝ → Img ℝ) (pas pas' : Set ℝ) (R R' size f : Nat) (pa₀ pa' : ℕ → ℝ)
      (ok : ℕ → (Fin k → SersicP) × ℝ × ℝ → Prop) (τ : ℕ → ℝ)
      (fitter : ℕ → (Fin k → SersicP) × ℝ × ℝ → FitData ℝ → Except PyErr ((Fin k → SersicP) × ℝ × ℝ)) (idx : ℕ → List (Nat × Nat)),
      (∀ N, (M N).sub = galaxiesSub k hasSky) → (∀ N, WindowSetting s!"x_0_{i.val}" s!"y_0_{i.val}" R size f (M N) rot pas) →
      (∀ N q, 0 < N → ok N q → (∀ i, SersicP.Between (lo i) (hi i) ((q.1 i).zoomOut N)) ∧ (slo ≤ q.2.1 ∧ q.2.1 ≤ shi) ∧ q.2.2 ∈ pas) →
      (∀ N, 0 < N → ok N (fun i => (tr i).zoomIn N, sky, pa₀ N)) →
      (∀ N q, 0 < N → ok N q → FloatRun t (H * N) (W * N) (ops N) rot q.2.2 (Mf N) (M N) (galaxiesParams q.1 hasSky q.2.1)) →
      (∀ N, NearValuesFitter (fun q c => (Mf N).evaluateFl (ops N) c (galaxiesParams q.1 hasSky q.2.1) q.2.2) (ok N) (τ N) (fitter N)) → (∀ᶠ N : ℕ in atTop, τ N ≤ t * (N : ℝ) ^ 2) →
      (∀ N, (M' N).sub = galaxiesSub k hasSky) → (∀ N, PSFSetting R' (M' N) rot' pas') → (∀ N, pa' N ∈ pas') →
      (∀ N i j, (i, j) ∈ idx N ↔ i < H * N ∧ j < W * N) →
      (∀ N, 0 < N → ((M' N).evaluate rot' (pixelCoords (idx N)) (galaxiesParams (fun i => (tr i).zoomIn N) hasSky sky) (pa' N)).1 =
        .ok ((idx N).map fun p => m' N p.1 p.2)) →
      (∀ᶠ N : ℕ in atTop, ∑ p ∈ Finset.range (H * N) ×ˢ Finset.range (W * N), (m N p.1 p.2 - m' N p.1 p.2) ^ 2 ≤ t * (N : ℝ) ^ 2) →
      (∀ N, CorrelatedNoise (μ N) (H * N) (W * N) (X N) (m N) v) →
      ∀ᶠ N : ℕ in atTop, μ N {ω | ∃ m₀ fit, fitModel (fitter N) (nanImage (H * N) (W * N) (use N) fun i j => X N i j ω) (mask N) m₀ (wt N) = .ok fit ∧
        ¬ ((∀ i, SersicP.RecoversAll ε (tr i) ((fit.1 i).zoomOut N)) ∧ |fit.2.1 - sky| < ε)} ≤ ρ := by
  obtain ⟨δ, hδ, hrob⟩ := C172_window (use := use) (mask := mask) i hb hW hH hnosky htr hsky hA hv hwa hwb hwt hframe hun hε hρ
  obtain ⟨t, ht, hun'⟩ := C180_uniform hb.toGalaxyRange slo shi hnosky hδ
  refine ⟨min t δ, lt_min ht hδ, ?_⟩
  intro Ω _ μ _ X m m' M M' Mf ops rot rot' pas pas' R R' size f pa₀ pa' ok τ fitter idx hsub hset hok htr' hrun law hτ hsub' hset' hpa' hidx hm hdev hX
  have hle : ∀ N : ℕ, min t δ * (N : ℝ) ^ 2 ≤ δ * (N : ℝ) ^ 2 := fun N => mul_le_mul_of_nonneg_right (min_le_right _ _) (sq_nonneg _)
  refine hrob Ω μ X m m' M M' rot rot' pas pas' R R' size f pa₀ pa' ok τ (fun N q c => (Mf N).evaluateFl (ops N) c (galaxiesParams q.1 hasSky q.2.1) q.2.2) fitter idx hsub hset hok htr' ?_ law
    (hτ.mono fun N h => h.trans (hle N)) hsub' hset' hpa' hidx hm (hdev.mono fun N h => h.trans (hle N)) hX
  intro N q hq idx' hin
  rcases Nat.eq_zero_or_pos N with rfl | hN
  · have : idx' = [] := List.eq_nil_iff_forall_not_mem.2 fun p hp => by
      have := (hin p hp).1
      omega
    subst this
    refine ⟨fun e he => ?_, fun vals hv => ?_⟩
    · cases he
      rfl
    · cases hv
  · obtain ⟨h1, h2, h3⟩ := hok N q hN hq
    exact hun' N q.1 q.2.1 q.2.2 (ops N) rot (Mf N) (M N) (H * N) (W * N) idx' h1 h2 (hsub N) (hset N).cache ⟨(hset N).compatible.1, (hset N).compatible.2.1⟩
      ((hrun N q hN hq).mono (min_le_left _ _)) hin

end Verif.Props

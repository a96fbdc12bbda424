import Verif.Props.FitPSF

/-!
# C167: fits with a PSF and oversampling, continued
-/

set_option linter.unusedSectionVars false
set_option linter.unusedVariables false

namespace Verif.Spec

open Verif

/-- The parameters of `Sersic2D` in astropy's order. -/
def SersicP.params (q : SersicP) : List ℝ := [q.amplitude, q.rEff, q.n, q.x0, q.y0, q.ellip, q.theta]

end Verif.Spec

namespace Verif.Props

open Verif F Spec Lemmas Filter Topology MeasureTheory PSFModel

theorem fitData_weights (im : Img (F ℝ)) (mask : Nat → Nat → Bool) (wt : Option (Img (F ℝ))) (hwt : ∀ w, wt = some w → w.h = im.h ∧ w.w = im.w) :
    fitData im mask wt = .ok (
      let idx := npWhere im.h im.w fun i j => !(im.px i j).isNaN
      ⟨idx.map (·.2), idx.map (·.1), idx.map fun p => im.px p.1 p.2, idx.map fun p => mask p.1 p.2, wt.map fun w => idx.map fun p => w.px p.1 p.2⟩) := by
  cases wt with
  | none => exact fitData_none im mask
  | some w =>
    unfold fitData
    simp only [if_pos (hwt w rfl), List.zipWith_map, List.zipWith_self]
    rfl

/-- The objective of the fitter, from the values at the fitted pixels. -/
theorem fit_values (h w : Nat) (use mask : Nat → Nat → Bool) (wt : Option (Img (F ℝ))) (hwt : ∀ im, wt = some im → im.h = h ∧ im.w = w) : ∃ idx : List (Nat × Nat), ((∀ p, p ∈ idx ↔ p.1 < h ∧ p.2 < w ∧ use p.1 p.2 = true) ∧ idx.Nodup) ∧
    ∀ f : Nat → Nat → ℝ, ∃ d, fitData (nanImage h w use f) mask wt = .ok d ∧ dataCoords d = pixelCoords idx ∧
      ∀ V : Nat → Nat → ℝ, valuesChi2 (idx.map fun p => V p.1 p.2) d = fitDist h w use mask wt V f := by
  have hnd : (npWhere h w use).Nodup := (npWhere_sorted h w use).imp fun {a b} hab hne => by
    subst hne
    unfold scanLt at hab
    omega
  refine ⟨npWhere h w use, ⟨fun p => npWhere_mem, hnd⟩, fun f => ⟨_, fitData_weights _ _ _ hwt, ?_, fun V => ?_⟩⟩
  · have e : (fun i j => !((nanImage h w use f).px i j).isNaN) = use := by
      funext i j
      unfold nanImage
      simp only
      cases use i j <;> simp [F.isNaN]
    simp only [dataCoords, pixelCoords, e]
    rw [List.zipWith_map, List.zipWith_self]
    rfl
  · have e : (fun i j => !((nanImage h w use f).px i j).isNaN) = use := by
      funext i j
      unfold nanImage
      simp only
      cases use i j <;> simp [F.isNaN]
    simp only [e]
    have hh : (nanImage h w use f).h = h := rfl
    have hw : (nanImage h w use f).w = w := rfl
    rw [hh, hw]
    generalize hidx : npWhere h w use = idx at hnd
    have h1 : valuesChi2 (idx.map fun p => V p.1 p.2) ⟨idx.map (·.2), idx.map (·.1), idx.map fun p => (nanImage h w use f).px p.1 p.2, idx.map fun p => mask p.1 p.2,
        wt.map fun im => idx.map fun p => im.px p.1 p.2⟩ =
        (idx.map fun p => if mask p.1 p.2 then 0 else (weightAt wt p.1 p.2 * (V p.1 p.2 - numberOf ((nanImage h w use f).px p.1 p.2))) ^ 2).sum := by
      unfold valuesChi2
      simp only [List.length_map]
      congr 1
      refine List.ext_getElem (by simp) fun k h1 h2 => ?_
      have hk : k < idx.length := by simpa using h2
      cases wt <;> simp [hk, weightAt]
    have h2 : idx.toFinset = (Finset.range h ×ˢ Finset.range w).filter fun p => use p.1 p.2 = true := by
      ext ⟨i, j⟩
      rw [← hidx, List.mem_toFinset, npWhere_mem, Finset.mem_filter, Finset.mem_product, Finset.mem_range, Finset.mem_range, and_assoc]
    rw [h1, ← List.sum_toFinset _ hnd, h2, Finset.sum_filter]
    unfold fitDist nanImage
    refine Finset.sum_congr rfl fun p _ => ?_
    cases hu : use p.1 p.2 <;> cases hmk : mask p.1 p.2 <;> simp [hu, numberOf, weightAt]

/-- The fitted pixels are some of those of the list. -/
theorem fitDist_le_list {h w : Nat} {use mask : Nat → Nat → Bool} {idx : List (Nat × Nat)} (hidx : ∀ i j, i < h → j < w → use i j = true → (i, j) ∈ idx)
    (f k : Nat → Nat → ℝ) : fitDist h w use mask none f k ≤ ∑ p ∈ idx.toFinset, (f p.1 p.2 - k p.1 p.2) ^ 2 := by
  unfold fitDist
  rw [← Finset.sum_filter]
  simp only [weightAt, one_mul]
  refine Finset.sum_le_sum_of_subset_of_nonneg (fun p hp => ?_) fun p _ _ => sq_nonneg _
  rw [Finset.mem_filter, Finset.mem_product, Finset.mem_range, Finset.mem_range] at hp
  rw [List.mem_toFinset]
  exact hidx p.1 p.2 hp.1.1 hp.1.2 hp.2.1

section
variable {E : Type} [PseudoMetricSpace E] {S : Set E} {g : E → ℝ → ℝ → ℝ} {W H : Nat} {θ : E} {use mask : ℕ → Nat → Nat → Bool}
  {Ω : ℕ → Type} [∀ N, MeasurableSpace (Ω N)] {μ : ∀ N, Measure (Ω N)} [∀ N, IsProbabilityMeasure (μ N)] {X : ∀ N, Nat → Nat → Ω N → ℝ} {v : ℝ}
  {P : Type} {enc : P → List ℝ × ℝ} {allowed : ℕ → P → Prop} {dec : ℕ → P → E} {truth : ℕ → P} {m : ℕ → Nat → Nat → ℝ}
  {fitter : ℕ → P → FitData ℝ → Except PyErr P} {R : Nat} {M : ℕ → PSFModel ℝ} {rot : Img ℝ → ℝ → Img ℝ} {pas : Set ℝ}

/-- **C167, data.** The image of a scene through a PSF and with oversampling is close to the scene itself in the mean square, if it has many pixels. -/
theorem C167_data (hS : IsCompact S) (hg : ContinuousOn (fun z : E × ℝ × ℝ => g z.1 z.2.1 z.2.2) (S ×ˢ Set.univ)) (hθ : θ ∈ S)
    (hset : ∀ N, PSFSetting R (M N) rot pas) {params : ℕ → List ℝ} {pa : ℕ → ℝ} (hpa : ∀ N, pa N ∈ pas)
    (hev : ∀ N, 0 < N → (M N).sub.eval (params N) = zoomed N (g θ)) {idx : ℕ → List (Nat × Nat)}
    (hidx : ∀ N i j, (i, j) ∈ idx N ↔ i < H * N ∧ j < W * N)
    (hm : ∀ N, 0 < N → ((M N).evaluate rot (pixelCoords (idx N)) (params N) (pa N)).1 = .ok ((idx N).map fun p => m N p.1 p.2)) {σ : ℝ} (hσ : 0 < σ) :
    ∀ᶠ N : ℕ in atTop, fitDist (H * N) (W * N) (use N) (mask N) none (m N) (pixelsOf (zoomed N (g θ))) ≤ σ * (N : ℝ) ^ 2 := by
  filter_upwards [psf_close hS hg W H R hσ, eventually_gt_atTop 0] with N h1 hN
  exact (fitDist_le_list (idx := idx N) (fun i j hi hj _ => (hidx N i j).2 ⟨hi, hj⟩) _ _).trans
    (h1 θ hθ (fun c => ((M N).evaluate rot c (params N) (pa N)).1) (idx N) (m N) (fun p hp => (hidx N p.1 p.2).1 hp)
      (fun hne => hev N hN ▸ psf_values (hset N) hne (fun p hp => (hidx N p.1 p.2).1 hp) (params N) (hpa N)) (hm N hN))

/-- Fits of models whose values lie near those of the scene. -/
theorem blurred_family {wt : ℕ → Option (Img (F ℝ))} {wa wb : ℝ} {τ : ℕ → ℝ} {ev : ℕ → P → List (ℝ × ℝ) → Except PyErr (List ℝ)} (hS : IsCompact S)
    (hg : ContinuousOn (fun z : E × ℝ × ℝ => g z.1 z.2.1 z.2.2) (S ×ˢ Set.univ)) (hθ : θ ∈ S) {U : Set E}
    (hU : IsOpen U) (hne : ∀ x ∈ S, x ∉ U → ∃ u v : ℝ, (0 ≤ u ∧ u < W) ∧ (0 ≤ v ∧ v < H) ∧ g x u v ≠ g θ u v) (hempty : ∀ N q vals, ev N q [] ≠ .ok vals)
    (hdec : ∀ N q, 0 < N → allowed N q → dec N q ∈ S)
    (hblur : ∀ᶠ N : ℕ in atTop, ∀ q, allowed N q → ∀ idx : List (Nat × Nat), idx ≠ [] → (∀ p, p ∈ idx ↔ p.1 < H * N ∧ p.2 < W * N ∧ use N p.1 p.2 = true) →
      PixelBlur R (ev N q) (zoomed N (g (dec N q))) idx (H * N) (W * N))
    (htr : ∀ N, 0 < N → allowed N (truth N) ∧ dec N (truth N) = θ) (law : ∀ N, NearValuesFitter (ev N) (allowed N) (τ N) (fitter N))
    (hτ : Tendsto (fun N : ℕ => τ N / (N : ℝ) ^ 2) atTop (𝓝 0))
    (hX : ∀ N, CorrelatedNoise (μ N) (H * N) (W * N) (X N) (m N) v) (hv : 0 ≤ v)
    (hm : ∀ σ > 0, ∀ᶠ N : ℕ in atTop, fitDist (H * N) (W * N) (use N) (mask N) none (m N) (pixelsOf (zoomed N (g θ))) ≤ σ * (N : ℝ) ^ 2)
    (hwa : 0 < wa) (hwb : 0 ≤ wb) (hwt : ∀ N, WeightsUpTo (H * N) (W * N) (use N) (mask N) (wt N) wb)
    (hun : Tendsto (fun N : ℕ => (unfitted (H * N) (W * N) (heavy (use N) (wt N) wa) (mask N) : ℝ) / (N : ℝ) ^ 2) atTop (𝓝 0)) :
    Tendsto (fun N : ℕ => μ N {ω | ∃ m₀ fit, fitModel (fitter N) (nanImage (H * N) (W * N) (use N) fun i j => X N i j ω) (mask N) m₀ (wt N) = .ok fit ∧
      dec N fit ∉ U}) atTop (𝓝 0) := by
  choose idx hidx' hdata using fun N => fit_values (H * N) (W * N) (use N) (mask N) (wt N) fun im him => ((hwt N).finite im him).1
  have hidx := fun N => (hidx' N).1
  have hin : ∀ N, ∀ p ∈ idx N, p.1 < H * N ∧ p.2 < W * N := fun N p hp => ⟨((hidx N p).1 hp).1, ((hidx N p).1 hp).2.1⟩
  have hfam : ∀ N q, ∃ V : Nat → Nat → ℝ, ∀ V' : Nat → Nat → ℝ, ev N q (pixelCoords (idx N)) = .ok ((idx N).map fun p => V' p.1 p.2) →
      ev N q (pixelCoords (idx N)) = .ok ((idx N).map fun p => V p.1 p.2) := by
    intro N q
    by_cases hc : ∃ V : Nat → Nat → ℝ, ev N q (pixelCoords (idx N)) = .ok ((idx N).map fun p => V p.1 p.2)
    · obtain ⟨V, hV⟩ := hc
      exact ⟨V, fun _ _ => hV⟩
    · exact ⟨fun _ _ => 0, fun V' hV' => absurd ⟨V', hV'⟩ hc⟩
  choose fam hfam using hfam
  have hok : ∀ᶠ N : ℕ in atTop, ∀ q, allowed N q → idx N ≠ [] → PixelBlur R (ev N q) (zoomed N (g (dec N q))) (idx N) (H * N) (W * N) ∧
      ev N q (pixelCoords (idx N)) = .ok ((idx N).map fun p => fam N q p.1 p.2) := by
    filter_upwards [hblur] with N h1 q hq he
    have hb := h1 q hq (idx N) he (hidx N)
    refine ⟨hb, ?_⟩
    obtain ⟨V, -, -, -, hV, -⟩ := hb
    exact hfam N q V hV
  have hcont : ContinuousOn (fun z : E × ℝ × ℝ => g z.1 z.2.1 z.2.2) (S ×ˢ (Set.Icc (0 : ℝ) W ×ˢ Set.Icc (0 : ℝ) H)) :=
    hg.mono (Set.prod_mono_right (Set.subset_univ _))
  have hclose : ∀ σ > 0, ∀ᶠ N : ℕ in atTop, ∀ q, allowed N q →
      fitDist (H * N) (W * N) (use N) (mask N) none (fam N q) (pixelsOf (zoomed N (g (dec N q)))) ≤ σ * (N : ℝ) ^ 2 := by
    intro σ hσ
    filter_upwards [psf_close hS hg W H R hσ, eventually_gt_atTop 0, hok] with N h1 hN h2 q hq
    refine (fitDist_le_list (idx := idx N) (fun i j hi hj hu => (hidx N (i, j)).2 ⟨hi, hj, hu⟩) _ _).trans ?_
    rcases eq_or_ne (idx N) [] with he | he
    · rw [he]
      simp only [List.toFinset_nil, Finset.sum_empty]
      positivity
    · exact h1 _ (hdec N q hN hq) (ev N q) (idx N) (fam N q) (hin N) (fun _ => (h2 q hq he).1) (h2 q hq he).2
  have hlim := approximate_family (fam := fam) (dec := dec) (truth := truth) hwa hwb hwt hS hcont hθ hU hne hdec hclose htr hX hv hm hun hτ
  refine tendsto_of_tendsto_of_tendsto_of_le_of_le' tendsto_const_nhds hlim (Eventually.of_forall fun N => zero_le) ?_
  filter_upwards [eventually_gt_atTop 0, hok] with N hN hok'
  refine measure_mono ?_
  rintro ω ⟨m₀, fit, hfit, hnot⟩
  obtain ⟨d, hd, hdc, hchi⟩ := hdata N fun i j => X N i j ω
  have hfd : fitter N m₀ d = .ok fit := by
    unfold fitModel at hfit
    rw [hd] at hfit
    exact hfit
  obtain ⟨hal, vals, hvals, hbest⟩ := law N m₀ d fit hfd
  rw [hdc] at hvals hbest
  have hne' : idx N ≠ [] := by
    intro he
    rw [he] at hvals
    exact hempty N fit vals hvals
  refine ⟨fit, hal, ?_, hnot⟩
  have h1 := hbest (truth N) _ (htr N hN).1 (hok' _ (htr N hN).1 hne').2
  rw [(hok' _ hal hne').2] at hvals
  rw [← Except.ok.inj hvals, hchi, hchi] at h1
  exact h1

theorem evaluate_nil (M : PSFModel ℝ) (rot : Img ℝ → ℝ → Img ℝ) (params : List ℝ) (pa : ℝ) (vals : List ℝ) : (M.evaluate rot [] params pa).1 ≠ .ok vals := by
  simp [PSFModel.evaluate]

/-- **C167, any model with a PSF.** `fit_model` fits a `PSFConvolvedModel2D` with a PSF of bounded size (or none) and any oversampling to images
of a scene with more and more pixels, whose mean is close to the scene in the mean square. If the parameters are from a compact set and only
those in `U` give the true scene, then the probability that `fit_model` returns parameters outside `U` goes to zero. -/
theorem C167_family {wt : ℕ → Option (Img (F ℝ))} {wa wb : ℝ} {τ : ℕ → ℝ} (hS : IsCompact S) (hg : ContinuousOn (fun z : E × ℝ × ℝ => g z.1 z.2.1 z.2.2) (S ×ˢ Set.univ)) (hθ : θ ∈ S) {U : Set E}
    (hU : IsOpen U) (hne : ∀ x ∈ S, x ∉ U → ∃ u v : ℝ, (0 ≤ u ∧ u < W) ∧ (0 ≤ v ∧ v < H) ∧ g x u v ≠ g θ u v)
    (hset : ∀ N, PSFSetting R (M N) rot pas)
    (hdec : ∀ N q, 0 < N → allowed N q → dec N q ∈ S ∧ (M N).sub.eval (enc q).1 = zoomed N (g (dec N q)) ∧ (enc q).2 ∈ pas)
    (htr : ∀ N, 0 < N → allowed N (truth N) ∧ dec N (truth N) = θ)
    (law : ∀ N, NearValuesFitter (fun q c => ((M N).evaluate rot c (enc q).1 (enc q).2).1) (allowed N) (τ N) (fitter N))
    (hτ : Tendsto (fun N : ℕ => τ N / (N : ℝ) ^ 2) atTop (𝓝 0))
    (hX : ∀ N, CorrelatedNoise (μ N) (H * N) (W * N) (X N) (m N) v) (hv : 0 ≤ v)
    (hm : ∀ σ > 0, ∀ᶠ N : ℕ in atTop, fitDist (H * N) (W * N) (use N) (mask N) none (m N) (pixelsOf (zoomed N (g θ))) ≤ σ * (N : ℝ) ^ 2)
    (hwa : 0 < wa) (hwb : 0 ≤ wb) (hwt : ∀ N, WeightsUpTo (H * N) (W * N) (use N) (mask N) (wt N) wb)
    (hun : Tendsto (fun N : ℕ => (unfitted (H * N) (W * N) (heavy (use N) (wt N) wa) (mask N) : ℝ) / (N : ℝ) ^ 2) atTop (𝓝 0)) :
    Tendsto (fun N : ℕ => μ N {ω | ∃ m₀ fit, fitModel (fitter N) (nanImage (H * N) (W * N) (use N) fun i j => X N i j ω) (mask N) m₀ (wt N) = .ok fit ∧
      dec N fit ∉ U}) atTop (𝓝 0) := by
  exact blurred_family hS hg hθ hU hne (fun N q vals => evaluate_nil _ _ _ _ vals) (fun N q hN hq => (hdec N q hN hq).1)
    ((eventually_gt_atTop 0).mono fun N hN q hq idx hne hidx => (hdec N q hN hq).2.1 ▸
      psf_values (hset N) hne (fun p hp => ⟨((hidx p).1 hp).1, ((hidx p).1 hp).2.1⟩) (enc q).1 (hdec N q hN hq).2.2) htr law hτ hX hv hm hwa hwb hwt hun

end

/-! ### Sersic models -/

section
variable {W H : Nat} {lo hi tr : SersicP} {use mask : ℕ → Nat → Nat → Bool} {Ω : ℕ → Type} [∀ N, MeasurableSpace (Ω N)] {μ : ∀ N, Measure (Ω N)}
  [∀ N, IsProbabilityMeasure (μ N)] {X : ∀ N, Nat → Nat → Ω N → ℝ} {v : ℝ} {m : ℕ → Nat → Nat → ℝ} {ok : ℕ → SersicP × ℝ → Prop}
  {fitter : ℕ → SersicP × ℝ → FitData ℝ → Except PyErr (SersicP × ℝ)} {R R' : Nat} {M M' : ℕ → PSFModel ℝ} {rot rot' : Img ℝ → ℝ → Img ℝ} {pas pas' : Set ℝ}
  {τ : ℕ → ℝ}

theorem sersicSub_params (q : SersicP) : sersicSub.eval q.params = q.at_ := rfl

theorem sersicAt_injective : ∀ x y, sersicAt x = sersicAt y → x = y := by
  rintro ⟨a1, a2, a3, a4, a5, a6, a7⟩ ⟨b1, b2, b3, b4, b5, b6, b7⟩ hxy
  simp only [sersicAt, SersicP.mk.injEq] at hxy
  simp [hxy]

theorem sersic_scene (hb : SersicP.SceneBounds W H lo hi) :
    ContinuousOn (fun z : (ℝ × ℝ × ℝ × ℝ × ℝ × ℝ × ℝ) × ℝ × ℝ => (sersicAt z.1).at_ z.2.1 z.2.2) ({x | SersicP.Between lo hi (sersicAt x)} ×ˢ Set.univ) :=
  have hpos := between_pos hb
  sersic_jointly.mono fun z hz => ⟨⟨(hpos _ hz.1).1, (hpos _ hz.1).2.1, (hpos _ hz.1).2.2.2.1⟩, hz.2⟩

/-- Images of a Sersic galaxy through a PSF are close to the galaxy in the mean square. -/
theorem sersic_data (hb : SersicP.SceneBounds W H lo hi) (htr : SersicP.Between lo hi tr)
    (hsub' : ∀ N, (M' N).sub = sersicSub) (hset' : ∀ N, PSFSetting R' (M' N) rot' pas') {pa' : ℕ → ℝ} (hpa' : ∀ N, pa' N ∈ pas')
    {idx : ℕ → List (Nat × Nat)} (hidx : ∀ N i j, (i, j) ∈ idx N ↔ i < H * N ∧ j < W * N)
    (hm : ∀ N, 0 < N → ((M' N).evaluate rot' (pixelCoords (idx N)) (tr.zoomIn N).params (pa' N)).1 = .ok ((idx N).map fun p => m N p.1 p.2)) :
    ∀ σ > 0, ∀ᶠ N : ℕ in atTop, fitDist (H * N) (W * N) (use N) (mask N) none (m N) (pixelsOf (zoomed N tr.at_)) ≤ σ * (N : ℝ) ^ 2 := by
  obtain ⟨θ, hθ⟩ : ∃ θ, sersicAt θ = tr := ⟨_, sersicAt_surj tr⟩
  have hmem : θ ∈ {x | SersicP.Between lo hi (sersicAt x)} := by
    rw [Set.mem_ofPred_eq, hθ]
    exact htr
  intro σ hσ
  have := C167_data (use := use) (mask := mask) (g := fun x => (sersicAt x).at_) (between_compact lo hi) (sersic_scene hb) hmem hset' hpa'
    (fun N hN => by rw [hsub', sersicSub_params, hθ, zoomIn_at hN]) hidx hm hσ
  rwa [hθ] at this

/-- Sersic models whose values are close to those of the Sersic profile, fitted to data that is close to one. -/
theorem blurred_sersic {wt : ℕ → Option (Img (F ℝ))} {wa wb : ℝ} {ev : ℕ → SersicP × ℝ → List (ℝ × ℝ) → Except PyErr (List ℝ)} (hb : SersicP.SceneBounds W H lo hi)
    (hempty : ∀ N q vals, ev N q [] ≠ .ok vals)
    (hok : ∀ N q, 0 < N → ok N q → SersicP.Between lo hi (q.1.zoomOut N))
    (hblur : ∀ᶠ N : ℕ in atTop, ∀ q, ok N q → ∀ idx : List (Nat × Nat), idx ≠ [] → (∀ p, p ∈ idx ↔ p.1 < H * N ∧ p.2 < W * N ∧ use N p.1 p.2 = true) →
      PixelBlur R (ev N q) q.1.at_ idx (H * N) (W * N))
    {pa₀ : ℕ → ℝ} (ht : ∀ N, 0 < N → ok N (tr.zoomIn N, pa₀ N)) (hA : 0 < tr.amplitude) (law : ∀ N, NearValuesFitter (ev N) (ok N) (τ N) (fitter N))
    (hτ : Tendsto (fun N : ℕ => τ N / (N : ℝ) ^ 2) atTop (𝓝 0))
    (hm : ∀ σ > 0, ∀ᶠ N : ℕ in atTop, fitDist (H * N) (W * N) (use N) (mask N) none (m N) (pixelsOf (zoomed N tr.at_)) ≤ σ * (N : ℝ) ^ 2)
    (hX : ∀ N, CorrelatedNoise (μ N) (H * N) (W * N) (X N) (m N) v) (hv : 0 ≤ v)
    (hwa : 0 < wa) (hwb : 0 ≤ wb) (hwt : ∀ N, WeightsUpTo (H * N) (W * N) (use N) (mask N) (wt N) wb)
    (hun : Tendsto (fun N : ℕ => (unfitted (H * N) (W * N) (heavy (use N) (wt N) wa) (mask N) : ℝ) / (N : ℝ) ^ 2) atTop (𝓝 0)) {ε : ℝ} (hε : 0 < ε) :
    Tendsto (fun N : ℕ => μ N {ω | ∃ m₀ fit, fitModel (fitter N) (nanImage (H * N) (W * N) (use N) fun i j => X N i j ω) (mask N) m₀ (wt N) = .ok fit ∧
      ¬ SersicP.RecoversAll ε tr (fit.1.zoomOut N)}) atTop (𝓝 0) := by
  have htr : SersicP.Between lo hi tr := by
    have := hok 1 _ one_pos (ht 1 one_pos)
    rwa [zoomOut_zoomIn one_pos] at this
  obtain ⟨θ, hθ⟩ : ∃ θ, sersicAt θ = tr := ⟨_, sersicAt_surj tr⟩
  obtain ⟨dec, hdec⟩ : ∃ dec : ℕ → SersicP × ℝ → ℝ × ℝ × ℝ × ℝ × ℝ × ℝ × ℝ, ∀ N q, sersicAt (dec N q) = q.1.zoomOut N :=
    ⟨fun N q => _, fun N q => sersicAt_surj (q.1.zoomOut N)⟩
  have hmem : θ ∈ {x | SersicP.Between lo hi (sersicAt x)} := by
    rw [Set.mem_ofPred_eq, hθ]
    exact htr
  have hfin := blurred_family (R := R) (g := fun x => (sersicAt x).at_) (dec := dec) (truth := fun N => (tr.zoomIn N, pa₀ N)) (U := {x | SersicP.RecoversAll ε tr (sersicAt x)})
    (between_compact lo hi) (sersic_scene hb) hmem (recoversAll_open tr ε)
    (by
      intro x hx hnot
      rw [hθ]
      exact sersic_identified hb htr hA hε _ hx hnot)
    hempty
    (by
      intro N q hN hq
      rw [Set.mem_ofPred_eq, hdec]
      exact hok N q hN hq)
    (by
      filter_upwards [hblur, eventually_gt_atTop 0] with N h1 hN q hq idx hne hidx
      rw [hdec, ← zoomIn_at hN, zoomIn_zoomOut hN]
      exact h1 q hq idx hne hidx)
    (fun N hN => ⟨ht N hN, sersicAt_injective _ _ (by rw [hdec, zoomOut_zoomIn hN, hθ])⟩) law hτ hX hv (by rw [hθ]; exact hm) hwa hwb hwt hun
  simpa only [Set.mem_ofPred_eq, hdec] using hfin

/-- **C167, Sersic models.** All seven parameters of a Sersic model inside a `PSFConvolvedModel2D`, and the angle of its PSF, are fitted to images of a
Sersic galaxy with more and more pixels. The mean of the data is the galaxy through the telescope's PSF, with its own sampling; the model's PSF and
oversampling may be other ones, as long as both PSFs have a bounded size. The noise per pixel does not get smaller. The fitter may stop before
the best fit, if what it leaves is small compared with the number of pixels. Weights may be given; they need not be those of the noise, but
be bounded and, but for a vanishing fraction of the pixels, bounded away from zero. Then the fitted
amplitude, index, ellipticity and angle, and effective radius and centre in units of the scene, converge to the true ones in probability. -/
theorem C167_sersic {wt : ℕ → Option (Img (F ℝ))} {wa wb : ℝ} (hb : SersicP.SceneBounds W H lo hi) (hsub : ∀ N, (M N).sub = sersicSub) (hset : ∀ N, PSFSetting R (M N) rot pas)
    (hok : ∀ N q, 0 < N → ok N q → SersicP.Between lo hi (q.1.zoomOut N) ∧ q.2 ∈ pas) {pa₀ : ℕ → ℝ} (ht : ∀ N, 0 < N → ok N (tr.zoomIn N, pa₀ N))
    (hA : 0 < tr.amplitude)
    (law : ∀ N, NearValuesFitter (fun q c => ((M N).evaluate rot c q.1.params q.2).1) (ok N) (τ N) (fitter N))
    (hτ : Tendsto (fun N : ℕ => τ N / (N : ℝ) ^ 2) atTop (𝓝 0))
    (hsub' : ∀ N, (M' N).sub = sersicSub) (hset' : ∀ N, PSFSetting R' (M' N) rot' pas') {pa' : ℕ → ℝ} (hpa' : ∀ N, pa' N ∈ pas')
    {idx : ℕ → List (Nat × Nat)} (hidx : ∀ N i j, (i, j) ∈ idx N ↔ i < H * N ∧ j < W * N)
    (hm : ∀ N, 0 < N → ((M' N).evaluate rot' (pixelCoords (idx N)) (tr.zoomIn N).params (pa' N)).1 = .ok ((idx N).map fun p => m N p.1 p.2))
    (hX : ∀ N, CorrelatedNoise (μ N) (H * N) (W * N) (X N) (m N) v) (hv : 0 ≤ v)
    (hwa : 0 < wa) (hwb : 0 ≤ wb) (hwt : ∀ N, WeightsUpTo (H * N) (W * N) (use N) (mask N) (wt N) wb)
    (hun : Tendsto (fun N : ℕ => (unfitted (H * N) (W * N) (heavy (use N) (wt N) wa) (mask N) : ℝ) / (N : ℝ) ^ 2) atTop (𝓝 0)) {ε : ℝ} (hε : 0 < ε) :
    Tendsto (fun N : ℕ => μ N {ω | ∃ m₀ fit, fitModel (fitter N) (nanImage (H * N) (W * N) (use N) fun i j => X N i j ω) (mask N) m₀ (wt N) = .ok fit ∧
      ¬ SersicP.RecoversAll ε tr (fit.1.zoomOut N)}) atTop (𝓝 0) := by
  have htr : SersicP.Between lo hi tr := by
    have := (hok 1 _ one_pos (ht 1 one_pos)).1
    rwa [zoomOut_zoomIn one_pos] at this
  refine blurred_sersic (R := R) hb (fun N q vals => evaluate_nil _ _ _ _ vals) (fun N q hN hq => (hok N q hN hq).1) ?_ ht hA law hτ
    (sersic_data hb htr hsub' hset' hpa' hidx hm) hX hv hwa hwb hwt hun hε
  refine (eventually_gt_atTop 0).mono fun N hN q hq idx hne hidx => ?_
  have := psf_values (hset N) hne (h := H * N) (w := W * N) (fun p hp => ⟨((hidx p).1 hp).1, ((hidx p).1 hp).2.1⟩) q.1.params (hok N q hN hq).2
  rwa [hsub, sersicSub_params] at this

/-! ### A best fit exists -/

/-- A fitter that meets the assumption: it returns a best fit if there is one. -/
noncomputable def chosenValuesFitter {P : Type} (ev : P → List (ℝ × ℝ) → Except PyErr (List ℝ)) (allowed : P → Prop) : P → FitData ℝ → Except PyErr P :=
  fun _ d => open Classical in if h : ∃ p, BestValuesFit ev allowed d p then .ok h.choose else .error .exception

theorem chosenValuesFitter_law {P : Type} (ev : P → List (ℝ × ℝ) → Except PyErr (List ℝ)) (allowed : P → Prop) :
    BestValuesFitter ev allowed (chosenValuesFitter ev allowed) := by
  intro m d p hp
  unfold chosenValuesFitter at hp
  split at hp
  · rename_i h
    injection hp with hp
    exact hp ▸ h.choose_spec
  · exact absurd hp (by simp)

theorem psfCells_continuous {E : Type} [TopologicalSpace E] {S : Set E} {f : E → ℝ → ℝ → ℝ} (hc : ∀ u v, ContinuousOn (fun x => f x u v) S) (x0 y0 : ℝ) (n p : Nat)
    (k : Int → Int → Nat) (r c : Int) : ContinuousOn (fun x => psfCells (f x) x0 y0 n p k r c) S := by
  unfold psfCells
  split
  · unfold cellMean
    exact (continuousOn_finsetSum _ fun a _ => continuousOn_finsetSum _ fun b _ => hc _ _).div_const _
  · exact continuousOn_const

/-- The values depend continuously on what the model depends on. -/
theorem psf_values_continuous {M : PSFModel ℝ} (hs : PSFSetting R M rot pas) {idx : List (Nat × Nat)} (hne : idx ≠ []) {pa : ℝ} {E : Type} [TopologicalSpace E] {S : Set E}
    {par : E → List ℝ} (hc : ∀ u v, ContinuousOn (fun x => M.sub.eval (par x) u v) S) :
    ∃ V : E → Nat → Nat → ℝ, (∀ x, (M.evaluate rot (pixelCoords idx) (par x) pa).1 = .ok (idx.map fun p => V x p.1 p.2)) ∧
      ∀ i j, ContinuousOn (fun x => V x i j) S := by
  have e1 : (pixelCoords idx).map (·.1) = (idx.map (·.2)).map fun a : Nat => (a : ℝ) := by simp [pixelCoords]
  have e2 : (pixelCoords idx).map (·.2) = (idx.map (·.1)).map fun a : Nat => (a : ℝ) := by simp [pixelCoords]
  have hne1 : (idx.map (·.2)).map (fun a : Nat => (a : ℝ)) ≠ [] := by simpa using hne
  have hne2 : (idx.map (·.1)).map (fun a : Nat => (a : ℝ)) ≠ [] := by simpa using hne
  obtain ⟨x0, gx⟩ := min?_some hne1
  obtain ⟨y0, gy⟩ := min?_some hne2
  obtain ⟨xm, gxm⟩ := max?_some hne1
  obtain ⟨ym, gym⟩ := max?_some hne2
  obtain ⟨x0, hx0, rfl, hx0'⟩ := cast_min gx
  obtain ⟨y0, hy0, rfl, hy0'⟩ := cast_min gy
  rw [← e1] at gx gxm
  rw [← e2] at gy gym
  cases hpsf : M.psf with
  | none =>
    refine ⟨fun x i j => pixelMean (M.sub.eval (par x)) j i M.oversampleFactor, fun x => ?_, fun i j => ?_⟩
    · rw [(C77_whole_partial M hs.cache hs.compatible hpsf hs.noWindow rot _ _ _ gx gy ?_ (par x) pa).1]
      · simp [pixelCoords]
      · intro c hc
        obtain ⟨p, hp, rfl⟩ := List.mem_map.1 hc
        exact ⟨(p.2 : Int) - x0, (p.1 : Int) - y0, by simp⟩
    · unfold pixelMean
      exact (continuousOn_finsetSum _ fun a _ => continuousOn_finsetSum _ fun b _ => hc _ _).div_const _
  | some psf =>
    refine ⟨fun x i j => cellsOfPixel (convAt (if pa ≠ 0 then rot psf pa else psf) (psfCells (M.sub.eval (par x)) x0 y0
      (max (indexOf xm x0) (indexOf ym y0) + 1) M.psfFactor fun _ _ => M.oversampleFactor / M.psfFactor)) M.psfFactor (indexOf (i : ℝ) y0) (indexOf (j : ℝ) x0),
      fun x => ?_, fun i j => ?_⟩
    · rw [C119_evaluate M hs.cache hs.compatible psf hpsf hs.noWindow rot _ _ _ _ _ gx gxm gy gym (par x) pa]
      simp only [pixelCoords, List.map_map]
      rfl
    · unfold cellsOfPixel convAt
      refine (continuousOn_finsetSum _ fun a _ => continuousOn_finsetSum _ fun b _ => continuousOn_finsetSum _ fun u _ => continuousOn_finsetSum _ fun v _ =>
        continuousOn_const.mul ?_).div_const _
      exact psfCells_continuous hc _ _ _ _ _ _ _

/-- **C167, a best fit exists** for every image with a pixel that is not NaN, if the angle of the PSF is held fixed. -/
theorem C167_exists (hb : SersicP.SceneBounds W H lo hi) (htr : SersicP.Between lo hi tr) {M : PSFModel ℝ} (hsub : M.sub = sersicSub) (hset : PSFSetting R M rot pas)
    {pa : ℝ} {N : Nat} (hN : 0 < N) {h w : Nat} (use mask : Nat → Nat → Bool) {i j : Nat} (hi' : i < h) (hj : j < w) (hu : use i j = true)
    (f : Nat → Nat → ℝ) (m₀ : SersicP × ℝ)
    {wt : Option (Img (F ℝ))} (hwt : ∀ im, wt = some im → im.h = h ∧ im.w = w) :
    ∃ fit, fitModel (chosenValuesFitter (fun q c => (M.evaluate rot c q.1.params q.2).1) fun q => SersicP.Between lo hi (q.1.zoomOut N) ∧ q.2 = pa)
      (nanImage h w use f) mask m₀ wt = .ok fit := by
  obtain ⟨idx, ⟨hidx, -⟩, hdata⟩ := fit_values h w use mask wt hwt
  obtain ⟨d, hd, hdc, hchi⟩ := hdata f
  have hne : idx ≠ [] := List.ne_nil_of_mem ((hidx (i, j)).2 ⟨hi', hj, hu⟩)
  have hpos := between_pos hb
  obtain ⟨V, hV, hVc⟩ := psf_values_continuous (E := ℝ × ℝ × ℝ × ℝ × ℝ × ℝ × ℝ) (S := {x | SersicP.Between lo hi (sersicAt x)})
    (par := fun x => ((sersicAt x).zoomIn N).params) (pa := pa) hset hne (by
      intro u v
      rw [hsub]
      simp only [sersicSub_params, zoomIn_at hN]
      refine (sersic_jointly (D := Set.univ)).comp (f := fun x => (x, u / N, v / N)) (by fun_prop) fun x hx => ⟨?_, Set.mem_univ _⟩
      exact ⟨(hpos _ hx).1, (hpos _ hx).2.1, (hpos _ hx).2.2.2.1⟩)
  have hcont : ContinuousOn (fun x => fitDist h w use mask wt (V x) f) {x | SersicP.Between lo hi (sersicAt x)} := by
    unfold fitDist
    refine continuousOn_finsetSum _ fun p _ => ?_
    split
    · exact (continuousOn_const.mul ((hVc _ _).sub continuousOn_const)).pow 2
    · exact continuousOn_const
  obtain ⟨x, hx, hmin⟩ := (between_compact lo hi).exists_isMinOn ⟨_, (sersicAt_surj tr).symm ▸ htr⟩ hcont
  have hex : ∃ p, BestValuesFit (fun (q : SersicP × ℝ) c => (M.evaluate rot c q.1.params q.2).1) (fun q => SersicP.Between lo hi (q.1.zoomOut N) ∧ q.2 = pa) d p := by
    refine ⟨((sersicAt x).zoomIn N, pa), ⟨by rw [zoomOut_zoomIn hN]; exact hx, rfl⟩, idx.map fun p => V x p.1 p.2, ?_, ?_⟩
    · rw [hdc]
      exact hV x
    · rintro ⟨q, qa⟩ vals ⟨hq, hqa⟩ hvals
      simp only at hq hqa hvals
      obtain ⟨y, hy⟩ : ∃ y, sersicAt y = q.zoomOut N := ⟨_, sersicAt_surj (q.zoomOut N)⟩
      have h1 := hV y
      rw [hy, zoomIn_zoomOut hN, ← hqa, ← hdc, hvals] at h1
      rw [Except.ok.inj h1, hchi, hchi]
      exact hmin (show SersicP.Between lo hi (sersicAt y) from hy ▸ hq)
  refine ⟨hex.choose, ?_⟩
  unfold fitModel
  rw [hd]
  simp only [Bind.bind, Except.bind, chosenValuesFitter]
  rw [dif_pos hex]

end

/-- A cross-shaped PSF that is applied at half a pixel, with a model that is oversampled four times. -/
noncomputable def crossModel : PSFModel ℝ :=
  ⟨sersicSub, some ⟨3, 3, fun u v => if u = 1 ∧ v = 1 then 1 / 2 else if u = 1 ∨ v = 1 then 1 / 8 else 0⟩, .int 4, some 2, true, 0, 0, none, none⟩

/-- A telescope that smears the light along the rows, over three pixels. -/
noncomputable def smearModel : PSFModel ℝ := ⟨sersicSub, some ⟨1, 3, fun _ _ => 1 / 3⟩, .none, none, true, 0, 0, none, none⟩

theorem cross_setting (rot : Img ℝ → ℝ → Img ℝ) : PSFSetting 3 crossModel rot {0} := by
  refine ⟨fun r hr => by simp [crossModel] at hr, ⟨by simp [crossModel, oversampleFactor], by simp [crossModel, psfFactor], ⟨2, by simp [crossModel, oversampleFactor, psfFactor]⟩⟩,
    fun x y s f => by simp [crossModel], ?_⟩
  rintro psf hpsf pa rfl
  simp only [crossModel, Option.some.injEq] at hpsf
  subst hpsf
  simp only [ne_eq, not_true_eq_false, if_false]
  refine ⟨le_refl _, le_refl _, fun u _ v _ => ?_, ?_⟩
  · simp only
    split_ifs <;> norm_num
  · simp only [Finset.sum_range_succ, Finset.sum_range_zero]
    norm_num

theorem smear_setting (rot : Img ℝ → ℝ → Img ℝ) : PSFSetting 3 smearModel rot {0} := by
  refine ⟨fun r hr => by simp [smearModel] at hr, ⟨by simp [smearModel, oversampleFactor], by simp [smearModel, psfFactor], by simp [smearModel, oversampleFactor, psfFactor]⟩,
    fun x y s f => by simp [smearModel], ?_⟩
  rintro psf hpsf pa rfl
  simp only [smearModel, Option.some.injEq] at hpsf
  subst hpsf
  simp only [ne_eq, not_true_eq_false, if_false]
  refine ⟨by norm_num, le_refl _, fun u _ v _ => by norm_num, ?_⟩
  simp only [Finset.sum_range_succ, Finset.sum_range_zero]
  norm_num

/-- A galaxy with index 4 seen through a telescope that smears it along the rows, with Gaussian noise ten times its amplitude in every pixel, fitted with
the wrong PSF (a cross): `fit_model` returns, and the index is within 1/10 of 4 with a probability that goes to one. -/
example (rot : Img ℝ → ℝ → Img ℝ) (m₀ : SersicP × ℝ) : ∃ (lo hi : SersicP) (m : ℕ → Nat → Nat → ℝ) (fit : ∀ N, (Fin (1 * N) × Fin (1 * N) → ℝ) → SersicP × ℝ),
    (∀ N, 0 < N → (smearModel.evaluate rot (pixelCoords (npWhere (1 * N) (1 * N) fun _ _ => true)) (SersicP.zoomIn N ⟨10, 1 / 5, 4, 1 / 2, 1 / 2, 1 / 2, 1⟩).params 0).1 =
      .ok ((npWhere (1 * N) (1 * N) fun _ _ => true).map fun p => m N p.1 p.2)) ∧
    (∀ N, 0 < N → ∀ ω, fitModel (chosenValuesFitter (fun q c => (crossModel.evaluate rot c q.1.params q.2).1) fun q => SersicP.Between lo hi (q.1.zoomOut N) ∧ q.2 = 0)
      (nanImage (1 * N) (1 * N) (fun _ _ => true) fun i j => gaussImage (1 * N) (1 * N) (m N) (fun _ _ => 100) i j ω) (fun _ _ => false) m₀ none = .ok (fit N ω)) ∧
    Tendsto (fun N => gaussField (1 * N) (1 * N) {ω | ¬ |(fit N ω).1.n - 4| < 1 / 10}) atTop (𝓝 0) := by
  set lo : SersicP := ⟨0, 1 / 10, 1 / 10, 1 / 4, 1 / 4, 0, 0⟩ with hlo
  set hi : SersicP := ⟨100, 1, 10, 3 / 4, 3 / 4, 99 / 100, 3⟩ with hhi
  set tr : SersicP := ⟨10, 1 / 5, 4, 1 / 2, 1 / 2, 1 / 2, 1⟩ with htr
  have hb : SersicP.SceneBounds 1 1 lo hi := by
    rw [hlo, hhi]
    refine ⟨?_, ?_, ?_, ⟨?_, ?_⟩, ⟨?_, ?_⟩, ?_, ?_⟩ <;> norm_num
  have ht : SersicP.Between lo hi tr := by
    rw [hlo, hhi, htr]
    refine ⟨⟨?_, ?_⟩, ⟨?_, ?_⟩, ⟨?_, ?_⟩, ⟨?_, ?_⟩, ⟨?_, ?_⟩, ⟨?_, ?_⟩, ?_, ?_⟩ <;> norm_num
  have hidx : ∀ N i j, (i, j) ∈ npWhere (1 * N) (1 * N) (fun _ _ => true) ↔ i < 1 * N ∧ j < 1 * N := fun N i j => by rw [npWhere_mem]; simp
  have hm : ∀ N, ∃ m : Nat → Nat → ℝ, 0 < N → (smearModel.evaluate rot (pixelCoords (npWhere (1 * N) (1 * N) fun _ _ => true)) (tr.zoomIn N).params 0).1 =
      .ok ((npWhere (1 * N) (1 * N) fun _ _ => true).map fun p => m p.1 p.2) := by
    intro N
    rcases Nat.eq_zero_or_pos N with h0 | hN
    · exact ⟨fun _ _ => 0, fun h => absurd h (by omega)⟩
    · obtain ⟨V, -, -, -, hV, -⟩ := psf_values (smear_setting rot) (h := 1 * N) (w := 1 * N) (List.ne_nil_of_mem ((hidx N 0 0).2 ⟨by omega, by omega⟩))
        (fun p hp => (hidx N p.1 p.2).1 hp) (tr.zoomIn N).params (Set.mem_singleton (0 : ℝ))
      exact ⟨V, fun _ => hV⟩
  choose m hm using hm
  have hfit : ∀ N, ∃ fit : (Fin (1 * N) × Fin (1 * N) → ℝ) → SersicP × ℝ, 0 < N → ∀ ω,
      fitModel (chosenValuesFitter (fun q c => (crossModel.evaluate rot c q.1.params q.2).1) fun q => SersicP.Between lo hi (q.1.zoomOut N) ∧ q.2 = 0)
        (nanImage (1 * N) (1 * N) (fun _ _ => true) fun i j => gaussImage (1 * N) (1 * N) (m N) (fun _ _ => 100) i j ω) (fun _ _ => false) m₀ none = .ok (fit ω) := by
    intro N
    rcases Nat.eq_zero_or_pos N with h0 | hN
    · exact ⟨fun _ => m₀, fun h => absurd h (by omega)⟩
    · choose fit hfit using fun ω : Fin (1 * N) × Fin (1 * N) → ℝ => C167_exists hb ht (M := crossModel) rfl (cross_setting rot) (pa := 0) hN (h := 1 * N) (w := 1 * N)
        (fun _ _ => true) (fun _ _ => false) (i := 0) (j := 0) (by omega) (by omega) rfl
        (fun i j => gaussImage (1 * N) (1 * N) (m N) (fun _ _ => 100) i j ω) m₀ (wt := none) (by simp)
      exact ⟨fit, fun _ => hfit⟩
  choose fit hfit using hfit
  refine ⟨lo, hi, m, fit, hm, hfit, ?_⟩
  have hlim := C167_sersic (W := 1) (H := 1) (use := fun _ _ _ => true) (mask := fun _ _ _ => false) (M := fun _ => crossModel) (M' := fun _ => smearModel)
    (ok := fun N q => SersicP.Between lo hi (q.1.zoomOut N) ∧ q.2 = 0) (pa₀ := fun _ => 0) (pa' := fun _ => 0) (rot := rot) (rot' := rot)
    (fitter := fun N => chosenValuesFitter (fun q c => (crossModel.evaluate rot c q.1.params q.2).1) fun q => SersicP.Between lo hi (q.1.zoomOut N) ∧ q.2 = 0)
    hb (fun _ => rfl) (fun _ => cross_setting rot) (fun N q _ hq => hq) (fun N hN => ⟨by rw [zoomOut_zoomIn hN]; exact ht, rfl⟩) (by rw [htr]; norm_num)
    (τ := fun _ => 0) (fun N => BestValuesFitter.near (chosenValuesFitter_law _ _)) (by simp) (fun _ => rfl) (fun _ => smear_setting rot) (fun _ => rfl) hidx hm
    (fun N => (gaussian_noise (1 * N) (1 * N) (m N) fun _ _ => 100).correlated (v := 10000) fun _ _ _ _ => by norm_num) (by norm_num)
    one_pos zero_le_one (fun N => weights_none _ _ _ _) (by simp [unfitted, heavy_none]) (show (0 : ℝ) < 1 / 10 by norm_num)
  refine tendsto_of_tendsto_of_tendsto_of_le_of_le' tendsto_const_nhds hlim (Eventually.of_forall fun N => zero_le)
    ((eventually_gt_atTop 0).mono fun N hN => measure_mono ?_)
  intro ω hω
  exact ⟨m₀, fit N ω, hfit N hN ω, fun hr => hω hr.2.2.1⟩

end Verif.Props

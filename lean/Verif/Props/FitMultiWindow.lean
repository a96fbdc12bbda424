import Verif.Props.FitMulti
import Verif.Props.CompoundNames

/-!
# C171: fits of several galaxies with an oversampling window that follows one of them
-/

set_option linter.unusedSectionVars false
set_option linter.unusedVariables false

namespace Verif.Props

open Verif F Spec Lemmas Filter Topology MeasureTheory PSFModel

section
variable {W H k : Nat} {lo hi tr : Fin k → SersicP} {slo shi sky : ℝ} {hasSky : Bool} {use mask : ℕ → Nat → Nat → Bool} {Ω : ℕ → Type}
  [∀ N, MeasurableSpace (Ω N)] {μ : ∀ N, Measure (Ω N)} [∀ N, IsProbabilityMeasure (μ N)] {X : ∀ N, Nat → Nat → Ω N → ℝ} {v : ℝ} {m : ℕ → Nat → Nat → ℝ}
  {ok : ℕ → (Fin k → SersicP) × ℝ × ℝ → Prop} {fitter : ℕ → (Fin k → SersicP) × ℝ × ℝ → FitData ℝ → Except PyErr ((Fin k → SersicP) × ℝ × ℝ)}
  {R R' size f : Nat} {M M' : ℕ → PSFModel ℝ} {rot rot' : Img ℝ → ℝ → Img ℝ} {pas pas' : Set ℝ} {τ : ℕ → ℝ}

/-- **C171, the centre of the window**: `x_0_i` is the centre of galaxy `i`. -/
theorem C171_center (s : Fin k → SersicP) (hasSky : Bool) (sky : ℝ) (i : Fin k) :
    centerValue (galaxiesSub k hasSky) (galaxiesParams s hasSky sky) (.name s!"x_0_{i.val}") = .ok (s i).x0 ∧
    centerValue (galaxiesSub k hasSky) (galaxiesParams s hasSky sky) (.name s!"y_0_{i.val}") = .ok (s i).y0 := by
  have hlen : ∀ l : List SersicP, List.Forall₂ (fun (m : SubModel ℝ) v => v.length = m.paramNames.length) (List.replicate l.length sersicSub) (l.map SersicP.params) := by
    intro l
    induction l with
    | nil => exact .nil
    | cons a l ih => exact .cons rfl ih
  have hv : ValuesOf (List.replicate k sersicSub ++ if hasSky then [constSub] else []) ((List.ofFn s).map SersicP.params ++ if hasSky then [[sky]] else []) := by
    have h1 := hlen (List.ofFn s)
    rw [List.length_ofFn] at h1
    refine List.rel_append h1 ?_
    cases hasSky
    · exact .nil
    · exact .cons rfl .nil
  have hflat : galaxiesParams s hasSky sky = ((List.ofFn s).map SersicP.params ++ if hasSky then [[sky]] else []).flatten := by
    unfold galaxiesParams
    cases hasSky <;> simp
  have hp : (List.replicate k sersicSub ++ if hasSky then [constSub] else [])[i.val]? = some sersicSub := by
    rw [List.getElem?_append_left (by simp)]
    simp
  have hq : ((List.ofFn s).map SersicP.params ++ if hasSky then [[sky]] else [])[i.val]? = some (s i).params := by
    rw [List.getElem?_append_left (by simp)]
    simp
  rw [hflat]
  exact ⟨(C170_center hv hp hq (name := "x_0") (by simp [sersicSub])).trans (sersic_center_x _),
    (C170_center hv hp hq (name := "y_0") (by simp [sersicSub])).trans (sersic_center_y _)⟩

/-- On an image with many pixels the values of the model are defined and close to the light of the galaxies, for all parameters within the bounds. -/
theorem C171_values {i : Fin k} (hb : GalaxyRange W H lo hi) (hnosky : hasSky = false → slo = 0 ∧ shi = 0) (hsub : ∀ N, (M N).sub = galaxiesSub k hasSky)
    (hset : ∀ N, WindowSetting s!"x_0_{i.val}" s!"y_0_{i.val}" R size f (M N) rot pas) (hframe : ∀ᶠ N : ℕ in atTop, FrameUsed (H * N) (W * N) (use N)) :
    ∀ᶠ N : ℕ in atTop, ∀ q : (Fin k → SersicP) × ℝ × ℝ, SersicP.Between (lo i) (hi i) ((q.1 i).zoomOut N) ∧ (slo ≤ q.2.1 ∧ q.2.1 ≤ shi) ∧ q.2.2 ∈ pas →
      ∀ idx : List (Nat × Nat), (∀ p, p ∈ idx ↔ p.1 < H * N ∧ p.2 < W * N ∧ use N p.1 p.2 = true) →
      PixelBlur R (fun c => ((M N).evaluate rot c (galaxiesParams q.1 hasSky q.2.1) q.2.2).1) (galaxiesAt q.1 q.2.1) idx (H * N) (W * N) := by
  obtain ⟨-, -, -, ⟨-, hx1⟩, ⟨-, hy1⟩, -⟩ := hb.scene i
  filter_upwards [window_inside size (hb.inside i).1 hx1, window_inside size (hb.inside i).2 hy1, hframe] with N h1 h2 hfr q hq idx hidx
  obtain ⟨hbt, hs, hpa⟩ := hq
  obtain ⟨-, -, -, ⟨bx, bx'⟩, ⟨by_, by'⟩, -⟩ := hbt
  obtain ⟨c1, c2⟩ := h1 (q.1 i).x0 bx bx'
  obtain ⟨c3, c4⟩ := h2 (q.1 i).y0 by_ by'
  obtain ⟨ex, ey⟩ := C171_center q.1 hasSky q.2.1 i
  have := window_values (hset N) hidx hfr (galaxiesParams q.1 hasSky q.2.1) hpa (by rw [hsub]; exact ex) (by rw [hsub]; exact ey) c1 c3 c2 c4
  rwa [hsub, C169_sum, sky_value hnosky hs.1 hs.2] at this

/-- **C171.** As C169, for a model with `oversample=('x_0_i', 'y_0_i', size, factor)`: the pixels around the centre of galaxy `i` are oversampled, and the
window moves with this galaxy in steps of a pixel. If the first and the last row and column of the image have a pixel that is not NaN, the
parameters of all the galaxies and the sky still converge to the true ones in probability. -/
theorem C171_window {wt : ℕ → Option (Img (F ℝ))} {wa wb : ℝ} {i : Fin k} (hb : GalaxyBounds W H lo hi) (hW : 0 < W) (hH : 0 < H)
    (hnosky : hasSky = false → slo = 0 ∧ shi = 0)
    (hsub : ∀ N, (M N).sub = galaxiesSub k hasSky) (hset : ∀ N, WindowSetting s!"x_0_{i.val}" s!"y_0_{i.val}" R size f (M N) rot pas)
    (hframe : ∀ᶠ N : ℕ in atTop, FrameUsed (H * N) (W * N) (use N))
    (hok : ∀ N q, 0 < N → ok N q → (∀ i, SersicP.Between (lo i) (hi i) ((q.1 i).zoomOut N)) ∧ (slo ≤ q.2.1 ∧ q.2.1 ≤ shi) ∧ q.2.2 ∈ pas)
    {pa₀ : ℕ → ℝ} (ht : ∀ N, 0 < N → ok N (fun i => (tr i).zoomIn N, sky, pa₀ N)) (hA : ∀ i, 0 < (tr i).amplitude)
    (law : ∀ N, NearValuesFitter (fun q c => ((M N).evaluate rot c (galaxiesParams q.1 hasSky q.2.1) q.2.2).1) (ok N) (τ N) (fitter N))
    (hτ : Tendsto (fun N : ℕ => τ N / (N : ℝ) ^ 2) atTop (𝓝 0))
    (hsub' : ∀ N, (M' N).sub = galaxiesSub k hasSky) (hset' : ∀ N, PSFSetting R' (M' N) rot' pas') {pa' : ℕ → ℝ} (hpa' : ∀ N, pa' N ∈ pas')
    {idx : ℕ → List (Nat × Nat)} (hidx : ∀ N i j, (i, j) ∈ idx N ↔ i < H * N ∧ j < W * N)
    (hm : ∀ N, 0 < N → ((M' N).evaluate rot' (pixelCoords (idx N)) (galaxiesParams (fun i => (tr i).zoomIn N) hasSky sky) (pa' N)).1 =
      .ok ((idx N).map fun p => m N p.1 p.2))
    (hX : ∀ N, CorrelatedNoise (μ N) (H * N) (W * N) (X N) (m N) v) (hv : 0 ≤ v)
    (hwa : 0 < wa) (hwb : 0 ≤ wb) (hwt : ∀ N, WeightsUpTo (H * N) (W * N) (use N) (mask N) (wt N) wb)
    (hun : Tendsto (fun N : ℕ => (unfitted (H * N) (W * N) (heavy (use N) (wt N) wa) (mask N) : ℝ) / (N : ℝ) ^ 2) atTop (𝓝 0)) {ε : ℝ} (hε : 0 < ε) :
    Tendsto (fun N : ℕ => μ N {ω | ∃ m₀ fit, fitModel (fitter N) (nanImage (H * N) (W * N) (use N) fun i j => X N i j ω) (mask N) m₀ (wt N) = .ok fit ∧
      ¬ ((∀ i, SersicP.RecoversAll ε (tr i) ((fit.1 i).zoomOut N)) ∧ |fit.2.1 - sky| < ε)}) atTop (𝓝 0) := by
  obtain ⟨h1, hsky, -⟩ := hok 1 _ one_pos (ht 1 one_pos)
  have htr : ∀ i, SersicP.Between (lo i) (hi i) (tr i) := fun i => by
    have := h1 i
    rwa [zoomOut_zoomIn one_pos] at this
  have hsky0 : hasSky = false → sky = 0 := fun h => by
    have := sky_value hnosky hsky.1 hsky.2
    rw [h] at this
    simpa using this.symm
  refine blurred_galaxies (R := R) hb hW hH (fun N q vals => evaluate_nil _ _ _ _ vals) (fun N q hN hq => ⟨(hok N q hN hq).1, (hok N q hN hq).2.1⟩) ?_ ht hA law hτ
    (galaxies_data hb.toGalaxyRange htr hsky0 hsub' hset' hpa' hidx hm) hX hv hwa hwb hwt hun hε
  filter_upwards [C171_values hb.toGalaxyRange hnosky hsub hset hframe, eventually_gt_atTop 0] with N h2 hN q hq idx _ hidx
  obtain ⟨h3, h4⟩ := hok N q hN hq
  exact h2 q ⟨h3 i, h4⟩ idx hidx

end

/-! ### Example -/

/-- The window of `windowModel` around the second of two galaxies. -/
noncomputable def pairWindow : PSFModel ℝ := { windowModel with sub := galaxiesSub 2 true, oversample := .window (.name "x_0_1") (.name "y_0_1") 20 50 }

theorem pairWindow_setting (rot : Img ℝ → ℝ → Img ℝ) : WindowSetting s!"x_0_{(1 : Fin 2).val}" s!"y_0_{(1 : Fin 2).val}" 3 20 50 pairWindow rot {0} := by
  obtain ⟨-, ⟨c1, c2, c3⟩, -, c4, -⟩ := window_setting rot
  exact ⟨fun r hr => by simp [pairWindow, windowModel] at hr, ⟨c1, c2, c3⟩, rfl, c4, fun h => by simp [pairWindow, windowModel] at h⟩

/-- Two galaxies and a sky of 7, smeared along the rows, with Gaussian noise of 100 in every pixel, fitted with a window around the second galaxy. -/
example (rot : Img ℝ → ℝ → Img ℝ) (m₀ : (Fin 2 → SersicP) × ℝ × ℝ) : ∃ (m : ℕ → Nat → Nat → ℝ) (fitter : ℕ → (Fin 2 → SersicP) × ℝ × ℝ → FitData ℝ → Except PyErr ((Fin 2 → SersicP) × ℝ × ℝ))
    (fit : ∀ N, (Fin (1 * N) × Fin (1 * N) → ℝ) → (Fin 2 → SersicP) × ℝ × ℝ),
    (∀ N, 0 < N → ({ smearModel with sub := galaxiesSub 2 true }.evaluate rot (pixelCoords (npWhere (1 * N) (1 * N) fun _ _ => true))
      (galaxiesParams (fun i => (pairTruth i).zoomIn N) true 7) 0).1 = .ok ((npWhere (1 * N) (1 * N) fun _ _ => true).map fun p => m N p.1 p.2)) ∧
    (∀ᶠ N in atTop, ∀ ω, fitModel (fitter N)
      (nanImage (1 * N) (1 * N) (fun _ _ => true) fun i j => gaussImage (1 * N) (1 * N) (m N) (fun _ _ => 100) i j ω) (fun _ _ => false) m₀ none = .ok (fit N ω)) ∧
    Tendsto (fun N => gaussField (1 * N) (1 * N) {ω | ¬ (|((fit N ω).1 1).n - 1| < 1 / 10 ∧ |(fit N ω).2.1 - 7| < 1 / 10)}) atTop (𝓝 0) := by
  set ok : ℕ → (Fin 2 → SersicP) × ℝ × ℝ → Prop := fun N q =>
    (∀ i, SersicP.Between (pairLo i) (pairHi i) ((q.1 i).zoomOut N)) ∧ (0 ≤ q.2.1 ∧ q.2.1 ≤ 1000) ∧ q.2.2 ∈ ({0} : Set ℝ) with hokd
  set ev : (Fin 2 → SersicP) × ℝ × ℝ → List (ℝ × ℝ) → Except PyErr (List ℝ) := fun q c =>
    (pairWindow.evaluate rot c (galaxiesParams q.1 true q.2.1) q.2.2).1 with hev
  have hset' := setting_sub (smear_setting rot) (galaxiesSub 2 true)
  have ht : ∀ N, 0 < N → ok N (fun i => (pairTruth i).zoomIn N, 7, 0) := fun N hN =>
    ⟨fun i => by rw [zoomOut_zoomIn hN]; exact pair_between i, by norm_num, rfl⟩
  have hidx : ∀ N i j, (i, j) ∈ npWhere (1 * N) (1 * N) (fun _ _ => true) ↔ i < 1 * N ∧ j < 1 * N := fun N i j => by rw [npWhere_mem]; simp
  have hframe : ∀ᶠ N : ℕ in atTop, FrameUsed (1 * N) (1 * N) fun _ _ => true := by
    filter_upwards [eventually_gt_atTop 0] with N hN
    exact ⟨⟨0, by omega, rfl⟩, ⟨0, by omega, rfl⟩, ⟨0, by omega, rfl⟩, 0, by omega, rfl⟩
  have hm : ∀ N, ∃ m : Nat → Nat → ℝ, 0 < N → ({ smearModel with sub := galaxiesSub 2 true }.evaluate rot (pixelCoords (npWhere (1 * N) (1 * N) fun _ _ => true))
      (galaxiesParams (fun i => (pairTruth i).zoomIn N) true 7) 0).1 = .ok ((npWhere (1 * N) (1 * N) fun _ _ => true).map fun p => m p.1 p.2) := by
    intro N
    rcases Nat.eq_zero_or_pos N with h0 | hN
    · exact ⟨fun _ _ => 0, fun h => absurd h (by omega)⟩
    · obtain ⟨V, -, -, -, hV, -⟩ := psf_values hset' (h := 1 * N) (w := 1 * N) (List.ne_nil_of_mem ((hidx N 0 0).2 ⟨by omega, by omega⟩))
        (fun p hp => (hidx N p.1 p.2).1 hp) (galaxiesParams (fun i => (pairTruth i).zoomIn N) true 7) (Set.mem_singleton (0 : ℝ))
      exact ⟨V, fun _ => hV⟩
  choose m hm using hm
  choose fit hfit using fun N => ok_choice m₀ fun ω => fitModel (chosenNearFitter ev (ok N) 1)
      (nanImage (1 * N) (1 * N) (fun _ _ => true) fun i j => gaussImage (1 * N) (1 * N) (m N) (fun _ _ => 100) i j ω) (fun _ _ => false) m₀ none
  have hret : ∀ᶠ N in atTop, ∀ ω, fitModel (chosenNearFitter ev (ok N) 1)
      (nanImage (1 * N) (1 * N) (fun _ _ => true) fun i j => gaussImage (1 * N) (1 * N) (m N) (fun _ _ => 100) i j ω) (fun _ _ => false) m₀ none = .ok (fit N ω) := by
    filter_upwards [C171_values (i := 1) (M := fun _ => pairWindow) (hasSky := true) (slo := 0) (shi := 1000) pair_bounds.toGalaxyRange (by simp) (fun _ => rfl) (fun _ => pairWindow_setting rot) hframe,
      eventually_gt_atTop 0] with N h1 hN ω
    refine hfit N ω (C168_exists one_pos _ _ (ht N hN) (fun idx hi => ?_) _ m₀ (by simp))
    obtain ⟨V, -, -, -, hV, -⟩ := h1 _ ⟨(ht N hN).1 1, (ht N hN).2⟩ idx hi
    exact ⟨_, hV⟩
  refine ⟨m, fun N => chosenNearFitter ev (ok N) 1, fit, hm, hret, ?_⟩
  have hlim := C171_window (W := 1) (H := 1) (use := fun _ _ _ => true) (mask := fun _ _ _ => false) (M := fun _ => pairWindow) (i := 1)
    (M' := fun _ => { smearModel with sub := galaxiesSub 2 true }) (ok := ok) (pa₀ := fun _ => 0) (pa' := fun _ => 0) (rot := rot) (rot' := rot) (tr := pairTruth) (sky := 7)
    (slo := 0) (shi := 1000) (hasSky := true) (fitter := fun N => chosenNearFitter ev (ok N) 1)
    pair_bounds one_pos one_pos (by simp) (fun _ => rfl) (fun _ => pairWindow_setting rot) hframe (fun N q _ hq => hq) ht
    (fun i => by fin_cases i <;> simp [pairTruth]) (τ := fun _ => 1) (fun N => chosenNearFitter_law _ _ _)
    (tendsto_const_nhds.div_atTop ((tendsto_pow_atTop two_ne_zero).comp tendsto_natCast_atTop_atTop)) (fun _ => rfl) (fun _ => hset') (fun _ => rfl) hidx hm
    (fun N => (gaussian_noise (1 * N) (1 * N) (m N) fun _ _ => 100).correlated (v := 10000) fun _ _ _ _ => by norm_num) (by norm_num)
    one_pos zero_le_one (fun N => weights_none _ _ _ _) (by simp [unfitted, heavy_none]) (show (0 : ℝ) < 1 / 10 by norm_num)
  refine tendsto_of_tendsto_of_tendsto_of_le_of_le' tendsto_const_nhds hlim (Eventually.of_forall fun N => zero_le)
    ((hret.and (eventually_gt_atTop 0)).mono fun N hN => measure_mono ?_)
  intro ω hω
  refine ⟨m₀, fit N ω, hN.1 ω, fun hr => hω ⟨?_, hr.2⟩⟩
  have := (hr.1 1).2.2.1
  simpa [pairTruth, SersicP.zoomOut] using this

end Verif.Props

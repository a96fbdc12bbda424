import Verif.Props.FitUnordered

/-!
# C175: fits with more galaxies than there are
-/

set_option linter.unusedSectionVars false
set_option linter.unusedVariables false

namespace Verif.Spec

open Verif

/-- Every fitted galaxy has an amplitude below `ε` or is, except for the amplitude, within `ε` of one of the true galaxies; the amplitudes of those that belong to the same
true galaxy add up to its amplitude within `ε`. -/
def RecoveredWithExtras {k l : Nat} (ε : ℝ) (tr : Fin l → SersicP) (fit : Fin k → SersicP) : Prop :=
  ∃ f : Fin k → Option (Fin l), (∀ j i, f j = some i → SersicP.RecoversAll ε (tr i) { fit j with amplitude := (tr i).amplitude }) ∧
    (∀ i, |(∑ j, if f j = some i then (fit j).amplitude else 0) - (tr i).amplitude| < ε) ∧ ∀ j, f j = none → |(fit j).amplitude| < ε

end Verif.Spec

namespace Verif.Props

open Verif F Spec Lemmas Filter Topology MeasureTheory PSFModel

section
variable {W H k l : Nat} {lo hi : Fin k → SersicP} {tr : Fin l → SersicP} {sky : ℝ}

/-- **C175, identification.** Any number of galaxies with amplitudes that are not negative, and a sky, that give the same scene as the true galaxies and the true
sky: each has the shape of a true galaxy or no light, the amplitudes add up to the true ones, and the sky is the true one. -/
theorem C175_identified (hb : GalaxyRange W H lo hi) (htr : ∀ i, SersicP.OnScene W H (tr i)) (hA : ∀ i, 0 < (tr i).amplitude) (hd : AllDifferent tr)
    {ε : ℝ} (hε : 0 < ε) {q : Fin k → SersicP} (hq : ∀ i, SersicP.Between (lo i) (hi i) (q i)) {sky' : ℝ} (hW : 0 < W) (hH : 0 < H)
    (he : ∀ u v : ℝ, 0 ≤ u ∧ u < W → 0 ≤ v ∧ v < H → galaxiesAt q sky' u v = galaxiesAt tr sky u v) :
    RecoveredWithExtras ε tr q ∧ sky' = sky := by
  classical
  have hqs := range_onScene hb hq
  have hsum : ∀ i, (∑ j, if SersicP.SameShape (q j) (tr i) then (q j).amplitude else 0) = (tr i).amplitude := by
    intro i
    rw [shapes_determined hqs htr he (htr i), Finset.sum_eq_single i (fun j _ hj => if_neg (hd j i hj)) (fun h => absurd (Finset.mem_univ i) h),
      if_pos (show SersicP.SameShape (tr i) (tr i) from rfl)]
  have hzero : ∀ j, (∀ i, ¬ SersicP.SameShape (q j) (tr i)) → (q j).amplitude = 0 := by
    intro j hj
    have h1 := shapes_determined hqs htr he (hqs j)
    rw [Finset.sum_eq_zero fun i _ => if_neg fun h => hj i (SameShape.symm h)] at h1
    have h2 := (Finset.sum_eq_zero_iff_of_nonneg fun j' _ => by
      split
      · exact range_amplitude hb hq j'
      · exact le_rfl).1 h1 j (Finset.mem_univ j)
    rwa [if_pos (show SersicP.SameShape (q j) (q j) from rfl)] at h2
  have hone : ∀ j i i', SersicP.SameShape (q j) (tr i) → SersicP.SameShape (q j) (tr i') → i = i' := fun j i i' h h' => by
    by_contra hne
    exact hd i i' hne (SameShape.trans (SameShape.symm h) h')
  obtain ⟨f, hf⟩ : ∃ f : Fin k → Option (Fin l), ∀ j i, f j = some i ↔ SersicP.SameShape (q j) (tr i) := by
    refine ⟨fun j => if h : ∃ i, SersicP.SameShape (q j) (tr i) then some h.choose else none, fun j i => ?_⟩
    constructor
    · intro h
      beta_reduce at h
      split at h
      · next h' =>
        rw [Option.some.injEq] at h
        exact h ▸ h'.choose_spec
      · exact absurd h (by simp)
    · intro h
      have h' : ∃ i, SersicP.SameShape (q j) (tr i) := ⟨i, h⟩
      beta_reduce
      rw [dif_pos h', hone j _ i h'.choose_spec h]
  refine ⟨⟨f, fun j i hji => ?_, fun i => ?_, fun j hj => ?_⟩, ?_⟩
  · exact sameShape_recovers (hqs j) (htr i) ((hf j i).1 hji) hε (by rw [sub_self, abs_zero]; exact hε)
  · simp only [hf]
    rw [hsum, sub_self, abs_zero]
    exact hε
  · rw [hzero j fun i h => by simp [(hf j i).2 h] at hj, abs_zero]
    exact hε
  · have h1 := he 0 0 ⟨le_rfl, Nat.cast_pos.2 hW⟩ ⟨le_rfl, Nat.cast_pos.2 hH⟩
    unfold galaxiesAt at h1
    have h2 : ∑ i, (tr i).at_ 0 0 = ∑ j, (q j).at_ 0 0 := by
      have h3 : ∀ i, (tr i).at_ 0 0 = ∑ j, if SersicP.SameShape (q j) (tr i) then (q j).at_ 0 0 else 0 := fun i => by
        rw [at_unit, ← hsum i, Finset.sum_mul]
        refine Finset.sum_congr rfl fun j _ => ?_
        split
        · next h =>
          rw [at_unit (q j), show ({ q j with amplitude := 1 } : SersicP).at_ = ({ tr i with amplitude := 1 } : SersicP).at_ from h]
        · rw [zero_mul]
      rw [Finset.sum_congr rfl fun i _ => h3 i, Finset.sum_comm]
      refine Finset.sum_congr rfl fun j _ => ?_
      by_cases hj : ∃ i, SersicP.SameShape (q j) (tr i)
      · obtain ⟨i, hi⟩ := hj
        rw [Finset.sum_eq_single i (fun i' _ hne => if_neg fun h => hne (hone j i' i h hi)) (fun h => absurd (Finset.mem_univ i) h), if_pos hi]
      · push Not at hj
        rw [Finset.sum_eq_zero fun i _ => if_neg (hj i), at_unit, hzero j hj, zero_mul]
    linarith

theorem open_imp {E : Type} [TopologicalSpace E] {p : Prop} {P : E → Prop} (h : IsOpen {x | P x}) : IsOpen {x | p → P x} := by
  by_cases hp : p
  · simpa only [hp, true_imp_iff] using h
  · simp only [hp, false_imp_iff]
    exact isOpen_univ

theorem open_and {E : Type} [TopologicalSpace E] {P Q : E → Prop} (h : IsOpen {x | P x}) (h' : IsOpen {x | Q x}) : IsOpen {x | P x ∧ Q x} := h.inter h'

theorem open_all {E ι : Type} [TopologicalSpace E] [Finite ι] {P : ι → E → Prop} (h : ∀ i, IsOpen {x | P i x}) : IsOpen {x | ∀ i, P i x} := by
  have := isOpen_iInter_of_finite h
  rwa [← Set.ofPred_forall] at this

theorem open_ex {E ι : Type} [TopologicalSpace E] {P : ι → E → Prop} (h : ∀ i, IsOpen {x | P i x}) : IsOpen {x | ∃ i, P i x} := by
  have := isOpen_iUnion h
  rwa [← Set.ofPred_exists] at this

theorem extras_open (tr : Fin l → SersicP) (sky ε : ℝ) :
    IsOpen {x : (Fin k → ℝ × ℝ × ℝ × ℝ × ℝ × ℝ × ℝ) × ℝ | RecoveredWithExtras ε tr (fun i => sersicAt (x.1 i)) ∧ |x.2 - sky| < ε} := by
  have hamp : ∀ j, Continuous fun x : (Fin k → ℝ × ℝ × ℝ × ℝ × ℝ × ℝ × ℝ) × ℝ => (sersicAt (x.1 j)).amplitude := fun j =>
    continuous_fst.comp ((continuous_apply j).comp continuous_fst)
  refine open_and ?_ (isOpen_lt (continuous_snd.sub continuous_const).abs continuous_const)
  refine open_ex fun f => open_and (open_all fun j => open_all fun i => open_imp ?_) (open_and (open_all fun i => ?_) (open_all fun j => open_imp ?_))
  · exact (recoversAll_open (tr i) ε).preimage (f := fun x : (Fin k → ℝ × ℝ × ℝ × ℝ × ℝ × ℝ × ℝ) × ℝ => ((tr i).amplitude, (x.1 j).2)) (by fun_prop)
  · refine isOpen_lt (Continuous.abs (Continuous.sub (continuous_finsetSum _ fun j _ => ?_) continuous_const)) continuous_const
    split
    · exact hamp j
    · exact continuous_const
  · exact isOpen_lt (hamp j).abs continuous_const

end

section
variable {W H k l : Nat} {lo hi pad : Fin k → SersicP} {tr : Fin l → SersicP} {slo shi sky : ℝ} {hasSky hasSky' : Bool} {use mask : ℕ → Nat → Nat → Bool} {Ω : ℕ → Type}
  [∀ N, MeasurableSpace (Ω N)] {μ : ∀ N, Measure (Ω N)} [∀ N, IsProbabilityMeasure (μ N)] {X : ∀ N, Nat → Nat → Ω N → ℝ} {v : ℝ} {m : ℕ → Nat → Nat → ℝ}
  {ok : ℕ → (Fin k → SersicP) × ℝ × ℝ → Prop} {fitter : ℕ → (Fin k → SersicP) × ℝ × ℝ → FitData ℝ → Except PyErr ((Fin k → SersicP) × ℝ × ℝ)}
  {R R' size f : Nat} {M M' : ℕ → PSFModel ℝ} {rot rot' : Img ℝ → ℝ → Img ℝ} {pas pas' : Set ℝ} {τ : ℕ → ℝ}

/-- **C175.** `k` galaxies and, if it is part of the model, a sky are fitted to images of `l` galaxies, no two of which differ in the amplitude alone. Otherwise as
C169 and C174: the bounds may overlap, and they have to contain some parameters `pad` with the right light, for example those of the true galaxies and zero amplitudes for the
others. Then, with a probability that goes to one, every fitted galaxy has an amplitude below `ε` or is near a true one, and the amplitudes that belong to the same
true galaxy add up to its amplitude within `ε`. -/
theorem C175_extras {wt : ℕ → Option (Img (F ℝ))} {wa wb : ℝ} (hb : GalaxyRange W H lo hi) (hb' : GalaxyRange W H tr tr) (hW : 0 < W) (hH : 0 < H)
    (hnosky : hasSky = false → slo = 0 ∧ shi = 0) (hnosky' : hasSky' = false → sky = 0)
    (hsub : ∀ N, (M N).sub = galaxiesSub k hasSky) (hset : ∀ N, PSFSetting R (M N) rot pas)
    (hok : ∀ N q, 0 < N → ok N q → (∀ i, SersicP.Between (lo i) (hi i) ((q.1 i).zoomOut N)) ∧ (slo ≤ q.2.1 ∧ q.2.1 ≤ shi) ∧ q.2.2 ∈ pas)
    {pa₀ : ℕ → ℝ} (ht : ∀ N, 0 < N → ok N (fun i => (pad i).zoomIn N, sky, pa₀ N)) (hpad : galaxiesAt pad sky = galaxiesAt tr sky)
    (hA : ∀ i, 0 < (tr i).amplitude) (hd : AllDifferent tr)
    (law : ∀ N, NearValuesFitter (fun q c => ((M N).evaluate rot c (galaxiesParams q.1 hasSky q.2.1) q.2.2).1) (ok N) (τ N) (fitter N))
    (hτ : Tendsto (fun N : ℕ => τ N / (N : ℝ) ^ 2) atTop (𝓝 0))
    (hsub' : ∀ N, (M' N).sub = galaxiesSub l hasSky') (hset' : ∀ N, PSFSetting R' (M' N) rot' pas') {pa' : ℕ → ℝ} (hpa' : ∀ N, pa' N ∈ pas')
    {idx : ℕ → List (Nat × Nat)} (hidx : ∀ N i j, (i, j) ∈ idx N ↔ i < H * N ∧ j < W * N)
    (hm : ∀ N, 0 < N → ((M' N).evaluate rot' (pixelCoords (idx N)) (galaxiesParams (fun i => (tr i).zoomIn N) hasSky' sky) (pa' N)).1 =
      .ok ((idx N).map fun p => m N p.1 p.2))
    (hX : ∀ N, CorrelatedNoise (μ N) (H * N) (W * N) (X N) (m N) v) (hv : 0 ≤ v)
    (hwa : 0 < wa) (hwb : 0 ≤ wb) (hwt : ∀ N, WeightsUpTo (H * N) (W * N) (use N) (mask N) (wt N) wb)
    (hun : Tendsto (fun N : ℕ => (unfitted (H * N) (W * N) (heavy (use N) (wt N) wa) (mask N) : ℝ) / (N : ℝ) ^ 2) atTop (𝓝 0)) {ε : ℝ} (hε : 0 < ε) :
    Tendsto (fun N : ℕ => μ N {ω | ∃ m₀ fit, fitModel (fitter N) (nanImage (H * N) (W * N) (use N) fun i j => X N i j ω) (mask N) m₀ (wt N) = .ok fit ∧
      ¬ (RecoveredWithExtras ε tr (fun i => (fit.1 i).zoomOut N) ∧ |fit.2.1 - sky| < ε)}) atTop (𝓝 0) := by
  have hself : ∀ i, SersicP.Between (tr i) (tr i) (tr i) := fun i => ⟨⟨le_rfl, le_rfl⟩, ⟨le_rfl, le_rfl⟩, ⟨le_rfl, le_rfl⟩, ⟨le_rfl, le_rfl⟩, ⟨le_rfl, le_rfl⟩, ⟨le_rfl, le_rfl⟩, le_rfl, le_rfl⟩
  have hts := range_onScene hb' hself
  refine blurred_recovered (R := R) (tr := pad) (good := fun q sky' => RecoveredWithExtras ε tr q ∧ |sky' - sky| < ε) hb (extras_open tr sky ε)
    (fun q sky' hq he => ?_) (fun N q vals => evaluate_nil _ _ _ _ vals) (fun N q hN hq => ⟨(hok N q hN hq).1, (hok N q hN hq).2.1⟩) ?_ ht law hτ
    (by
      rw [hpad]
      exact galaxies_data hb' hself hnosky' hsub' hset' hpa' hidx hm) hX hv hwa hwb hwt hun
  · rw [hpad] at he
    obtain ⟨h2, h3⟩ := C175_identified hb hts hA hd hε hq hW hH he
    exact ⟨h2, by rw [h3, sub_self, abs_zero]; exact hε⟩
  · refine (eventually_gt_atTop 0).mono fun N hN q hq idx hne hidx => ?_
    obtain ⟨-, hs, hpa⟩ := hok N q hN hq
    have := psf_values (hset N) hne (h := H * N) (w := W * N) (fun p hp => ⟨((hidx p).1 hp).1, ((hidx p).1 hp).2.1⟩) (galaxiesParams q.1 hasSky q.2.1) hpa
    rwa [hsub, C169_sum, sky_value hnosky hs.1 hs.2] at this

/-- **C175, window.** The same with a window of oversampled pixels that follows model `i`. -/
theorem C175_window {wt : ℕ → Option (Img (F ℝ))} {wa wb : ℝ} {i : Fin k} (hb : GalaxyRange W H lo hi) (hb' : GalaxyRange W H tr tr) (hW : 0 < W) (hH : 0 < H)
    (hnosky : hasSky = false → slo = 0 ∧ shi = 0) (hnosky' : hasSky' = false → sky = 0)
    (hsub : ∀ N, (M N).sub = galaxiesSub k hasSky) (hset : ∀ N, WindowSetting s!"x_0_{i.val}" s!"y_0_{i.val}" R size f (M N) rot pas)
    (hframe : ∀ᶠ N : ℕ in atTop, FrameUsed (H * N) (W * N) (use N))
    (hok : ∀ N q, 0 < N → ok N q → (∀ i, SersicP.Between (lo i) (hi i) ((q.1 i).zoomOut N)) ∧ (slo ≤ q.2.1 ∧ q.2.1 ≤ shi) ∧ q.2.2 ∈ pas)
    {pa₀ : ℕ → ℝ} (ht : ∀ N, 0 < N → ok N (fun i => (pad i).zoomIn N, sky, pa₀ N)) (hpad : galaxiesAt pad sky = galaxiesAt tr sky)
    (hA : ∀ i, 0 < (tr i).amplitude) (hd : AllDifferent tr)
    (law : ∀ N, NearValuesFitter (fun q c => ((M N).evaluate rot c (galaxiesParams q.1 hasSky q.2.1) q.2.2).1) (ok N) (τ N) (fitter N))
    (hτ : Tendsto (fun N : ℕ => τ N / (N : ℝ) ^ 2) atTop (𝓝 0))
    (hsub' : ∀ N, (M' N).sub = galaxiesSub l hasSky') (hset' : ∀ N, PSFSetting R' (M' N) rot' pas') {pa' : ℕ → ℝ} (hpa' : ∀ N, pa' N ∈ pas')
    {idx : ℕ → List (Nat × Nat)} (hidx : ∀ N i j, (i, j) ∈ idx N ↔ i < H * N ∧ j < W * N)
    (hm : ∀ N, 0 < N → ((M' N).evaluate rot' (pixelCoords (idx N)) (galaxiesParams (fun i => (tr i).zoomIn N) hasSky' sky) (pa' N)).1 =
      .ok ((idx N).map fun p => m N p.1 p.2))
    (hX : ∀ N, CorrelatedNoise (μ N) (H * N) (W * N) (X N) (m N) v) (hv : 0 ≤ v)
    (hwa : 0 < wa) (hwb : 0 ≤ wb) (hwt : ∀ N, WeightsUpTo (H * N) (W * N) (use N) (mask N) (wt N) wb)
    (hun : Tendsto (fun N : ℕ => (unfitted (H * N) (W * N) (heavy (use N) (wt N) wa) (mask N) : ℝ) / (N : ℝ) ^ 2) atTop (𝓝 0)) {ε : ℝ} (hε : 0 < ε) :
    Tendsto (fun N : ℕ => μ N {ω | ∃ m₀ fit, fitModel (fitter N) (nanImage (H * N) (W * N) (use N) fun i j => X N i j ω) (mask N) m₀ (wt N) = .ok fit ∧
      ¬ (RecoveredWithExtras ε tr (fun i => (fit.1 i).zoomOut N) ∧ |fit.2.1 - sky| < ε)}) atTop (𝓝 0) := by
  have hself : ∀ i, SersicP.Between (tr i) (tr i) (tr i) := fun i => ⟨⟨le_rfl, le_rfl⟩, ⟨le_rfl, le_rfl⟩, ⟨le_rfl, le_rfl⟩, ⟨le_rfl, le_rfl⟩, ⟨le_rfl, le_rfl⟩, ⟨le_rfl, le_rfl⟩, le_rfl, le_rfl⟩
  have hts := range_onScene hb' hself
  refine blurred_recovered (R := R) (tr := pad) (good := fun q sky' => RecoveredWithExtras ε tr q ∧ |sky' - sky| < ε) hb (extras_open tr sky ε)
    (fun q sky' hq he => ?_) (fun N q vals => evaluate_nil _ _ _ _ vals) (fun N q hN hq => ⟨(hok N q hN hq).1, (hok N q hN hq).2.1⟩) ?_ ht law hτ
    (by
      rw [hpad]
      exact galaxies_data hb' hself hnosky' hsub' hset' hpa' hidx hm) hX hv hwa hwb hwt hun
  · rw [hpad] at he
    obtain ⟨h2, h3⟩ := C175_identified hb hts hA hd hε hq hW hH he
    exact ⟨h2, by rw [h3, sub_self, abs_zero]; exact hε⟩
  · filter_upwards [C171_values hb hnosky hsub hset hframe, eventually_gt_atTop 0] with N h2 hN q hq idx _ hidx
    obtain ⟨h3, h4⟩ := hok N q hN hq
    exact h2 q ⟨h3 i, h4⟩ idx hidx

end

/-! ### An example -/

/-- One galaxy, fitted with two: the second galaxy of C169 alone. -/
noncomputable def loneTruth : Fin 1 → SersicP := fun _ => pairTruth 1

/-- The parameters of a fit with two galaxies, the first of which has no light. -/
noncomputable def lonePad : Fin 2 → SersicP := ![{ pairTruth 0 with amplitude := 0 }, pairTruth 1]

theorem lone_between : ∀ i, SersicP.Between (anyLo i) (anyHi i) (lonePad i) := by
  intro i
  fin_cases i <;> simp only [anyLo, anyHi, lonePad, pairTruth, Fin.zero_eta, Fin.mk_one, Matrix.cons_val_zero, Matrix.cons_val_one] <;>
    refine ⟨⟨?_, ?_⟩, ⟨?_, ?_⟩, ⟨?_, ?_⟩, ⟨?_, ?_⟩, ⟨?_, ?_⟩, ⟨?_, ?_⟩, ?_, ?_⟩ <;> norm_num

theorem lone_range : GalaxyRange 1 1 loneTruth loneTruth := by
  refine ⟨fun i => ?_, fun i => ?_, fun i => ?_⟩
  · simp only [loneTruth, pairTruth, Matrix.cons_val_one, Matrix.cons_val_fin_one]
    refine ⟨?_, ?_, ?_, ⟨?_, ?_⟩, ⟨?_, ?_⟩, ?_, ?_⟩ <;> norm_num
  · norm_num [loneTruth, pairTruth]
  · norm_num [loneTruth, pairTruth]

theorem lone_light (sky : ℝ) : galaxiesAt lonePad sky = galaxiesAt loneTruth sky := by
  funext x y
  unfold galaxiesAt
  rw [Fin.sum_univ_two, Fin.sum_univ_one, show lonePad 1 = loneTruth 0 from rfl, at_unit (lonePad 0), show (lonePad 0).amplitude = 0 from rfl, zero_mul, zero_add]

/-- One galaxy of index 1 and a sky of 7, with Gaussian noise of 100 in every pixel, fitted with two galaxies that have the same bounds: every fitted galaxy with an
amplitude of at least 1/10 has an index within 1/10 of 1, with a probability that goes to one. -/
example (rot : Img ℝ → ℝ → Img ℝ) :
    ∃ (m : ℕ → Nat → Nat → ℝ) (fitter : ℕ → (Fin 2 → SersicP) × ℝ × ℝ → FitData ℝ → Except PyErr ((Fin 2 → SersicP) × ℝ × ℝ)),
    (∀ N, 0 < N → ({ smearModel with sub := galaxiesSub 1 true }.evaluate rot (pixelCoords (npWhere (1 * N) (1 * N) fun _ _ => true))
      (galaxiesParams (fun i => (loneTruth i).zoomIn N) true 7) 0).1 = .ok ((npWhere (1 * N) (1 * N) fun _ _ => true).map fun p => m N p.1 p.2)) ∧
    (∀ N, 0 < N → ∀ ω m₀, ∃ fit, fitModel (fitter N)
      (nanImage (1 * N) (1 * N) (fun _ _ => true) fun i j => gaussImage (1 * N) (1 * N) (m N) (fun _ _ => 100) i j ω) (fun _ _ => false) m₀ none = .ok fit) ∧
    Tendsto (fun N => gaussField (1 * N) (1 * N) {ω | ∃ m₀ fit, fitModel (fitter N)
      (nanImage (1 * N) (1 * N) (fun _ _ => true) fun i j => gaussImage (1 * N) (1 * N) (m N) (fun _ _ => 100) i j ω) (fun _ _ => false) m₀ none = .ok fit ∧
      ¬ ∀ j, 1 / 10 ≤ (fit.1 j).amplitude → |(fit.1 j).n - 1| < 1 / 10}) atTop (𝓝 0) := by
  set ok : ℕ → (Fin 2 → SersicP) × ℝ × ℝ → Prop := fun N q =>
    (∀ i, SersicP.Between (anyLo i) (anyHi i) ((q.1 i).zoomOut N)) ∧ (0 ≤ q.2.1 ∧ q.2.1 ≤ 1000) ∧ q.2.2 ∈ ({0} : Set ℝ) with hokd
  set ev : (Fin 2 → SersicP) × ℝ × ℝ → List (ℝ × ℝ) → Except PyErr (List ℝ) := fun q c =>
    ({ crossModel with sub := galaxiesSub 2 true }.evaluate rot c (galaxiesParams q.1 true q.2.1) q.2.2).1 with hev
  have hset := setting_sub (cross_setting rot) (galaxiesSub 2 true)
  have hset' := setting_sub (smear_setting rot) (galaxiesSub 1 true)
  have ht : ∀ N, 0 < N → ok N (fun i => (lonePad i).zoomIn N, 7, 0) := fun N hN =>
    ⟨fun i => by rw [zoomOut_zoomIn hN]; exact lone_between i, by norm_num, rfl⟩
  have hidx : ∀ N i j, (i, j) ∈ npWhere (1 * N) (1 * N) (fun _ _ => true) ↔ i < 1 * N ∧ j < 1 * N := fun N i j => by rw [npWhere_mem]; simp
  have hm : ∀ N, ∃ m : Nat → Nat → ℝ, 0 < N → ({ smearModel with sub := galaxiesSub 1 true }.evaluate rot (pixelCoords (npWhere (1 * N) (1 * N) fun _ _ => true))
      (galaxiesParams (fun i => (loneTruth i).zoomIn N) true 7) 0).1 = .ok ((npWhere (1 * N) (1 * N) fun _ _ => true).map fun p => m p.1 p.2) := by
    intro N
    rcases Nat.eq_zero_or_pos N with h0 | hN
    · exact ⟨fun _ _ => 0, fun h => absurd h (by omega)⟩
    · obtain ⟨V, -, -, -, hV, -⟩ := psf_values hset' (h := 1 * N) (w := 1 * N) (List.ne_nil_of_mem ((hidx N 0 0).2 ⟨by omega, by omega⟩))
        (fun p hp => (hidx N p.1 p.2).1 hp) (galaxiesParams (fun i => (loneTruth i).zoomIn N) true 7) (Set.mem_singleton (0 : ℝ))
      exact ⟨V, fun _ => hV⟩
  choose m hm using hm
  refine ⟨m, fun N => chosenNearFitter ev (ok N) 1, hm, ?_, ?_⟩
  · intro N hN ω m₀
    refine C168_exists one_pos _ _ (ht N hN) (fun idx hi => ?_) _ m₀ (by simp)
    obtain ⟨V, -, -, -, hV, -⟩ := psf_values hset (h := 1 * N) (w := 1 * N) (List.ne_nil_of_mem ((hi (0, 0)).2 ⟨by simpa using hN, by simpa using hN, rfl⟩))
      (fun p hp => ⟨((hi p).1 hp).1, ((hi p).1 hp).2.1⟩) (galaxiesParams (fun i => (lonePad i).zoomIn N) true 7) (Set.mem_singleton (0 : ℝ))
    exact ⟨_, hV⟩
  have hlim := C175_extras (W := 1) (H := 1) (use := fun _ _ _ => true) (mask := fun _ _ _ => false) (M := fun _ => { crossModel with sub := galaxiesSub 2 true })
    (M' := fun _ => { smearModel with sub := galaxiesSub 1 true }) (ok := ok) (pa₀ := fun _ => 0) (pa' := fun _ => 0) (rot := rot) (rot' := rot) (tr := loneTruth) (sky := 7)
    (slo := 0) (shi := 1000) (hasSky := true) (hasSky' := true) (fitter := fun N => chosenNearFitter ev (ok N) 1)
    any_range lone_range one_pos one_pos (by simp) (by simp) (fun _ => rfl) (fun _ => hset) (fun N q _ hq => hq) ht (lone_light 7)
    (fun i => by simp [loneTruth, pairTruth]) (fun i j hij => absurd (Subsingleton.elim i j) hij) (τ := fun _ => 1) (fun N => chosenNearFitter_law _ _ _)
    (tendsto_const_nhds.div_atTop ((tendsto_pow_atTop two_ne_zero).comp tendsto_natCast_atTop_atTop)) (fun _ => rfl) (fun _ => hset') (fun _ => rfl) hidx hm
    (fun N => (gaussian_noise (1 * N) (1 * N) (m N) fun _ _ => 100).correlated (v := 10000) fun _ _ _ _ => by norm_num) (by norm_num)
    one_pos zero_le_one (fun N => weights_none _ _ _ _) (by simp [unfitted, heavy_none]) (show (0 : ℝ) < 1 / 10 by norm_num)
  refine tendsto_of_tendsto_of_tendsto_of_le_of_le tendsto_const_nhds hlim (fun N => zero_le) fun N => measure_mono ?_
  rintro ω ⟨m₀, fit, hfit, hnot⟩
  refine ⟨m₀, fit, hfit, fun hr => hnot fun j hj => ?_⟩
  obtain ⟨⟨f, h1, -, h3⟩, -⟩ := hr
  cases hfj : f j with
  | none =>
    have h4 := lt_of_le_of_lt (le_abs_self _) (h3 j hfj)
    simp only [SersicP.zoomOut] at h4
    linarith
  | some i =>
    have h4 := (h1 j i hfj).2.2.1
    simpa [loneTruth, pairTruth, SersicP.zoomOut] using h4

end Verif.Props

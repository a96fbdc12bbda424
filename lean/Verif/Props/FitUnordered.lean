import Verif.Props.FitShapes

/-!
# C174: fits of several galaxies whose bounds overlap

C169 needs bounds that tell the galaxies apart. If all galaxies may be anywhere, the fit can return them in another order, and that is all that can go wrong.
-/

set_option linter.unusedSectionVars false
set_option linter.unusedVariables false

namespace Verif.Spec

open Verif

/-- The fitted galaxies are the true ones within `ε`, in some order. -/
def RecoveredInSomeOrder {k : Nat} (ε : ℝ) (tr fit : Fin k → SersicP) : Prop := ∃ σ : Equiv.Perm (Fin k), ∀ i, SersicP.RecoversAll ε (tr i) (fit (σ i))

/-- No two galaxies differ in the amplitude alone. -/
def AllDifferent {k : Nat} (s : Fin k → SersicP) : Prop := ∀ i j, i ≠ j → ¬ SersicP.SameShape (s i) (s j)

end Verif.Spec

namespace Verif.Props

open Verif F Spec Lemmas Filter Topology MeasureTheory PSFModel

section
variable {W H k : Nat} {lo hi tr : Fin k → SersicP} {sky : ℝ}

/-- **C174, identification.** As many galaxies as the true ones, and a sky, that give the same scene are the true galaxies in some order, and the true sky. -/
theorem C174_identified (hb : GalaxyRange W H lo hi) (htr : ∀ i, SersicP.Between (lo i) (hi i) (tr i)) (hA : ∀ i, 0 < (tr i).amplitude) (hd : AllDifferent tr)
    {ε : ℝ} (hε : 0 < ε) {q : Fin k → SersicP} (hq : ∀ i, SersicP.Between (lo i) (hi i) (q i)) {sky' : ℝ} (hW : 0 < W) (hH : 0 < H)
    (he : ∀ u v : ℝ, 0 ≤ u ∧ u < W → 0 ≤ v ∧ v < H → galaxiesAt q sky' u v = galaxiesAt tr sky u v) :
    RecoveredInSomeOrder ε tr q ∧ sky' = sky := by
  classical
  have hqs := range_onScene hb hq
  have hts := range_onScene hb htr
  have hsum : ∀ i, (∑ j, if SersicP.SameShape (q j) (tr i) then (q j).amplitude else 0) = (tr i).amplitude := by
    intro i
    rw [shapes_determined hqs hts he (hts i), Finset.sum_eq_single i (fun j _ hj => if_neg (hd j i hj)) (fun h => absurd (Finset.mem_univ i) h),
      if_pos (show SersicP.SameShape (tr i) (tr i) from rfl)]
  -- every true galaxy has a fitted one of its shape
  have hmatch : ∀ i, ∃ j, SersicP.SameShape (q j) (tr i) := by
    intro i
    by_contra hno
    push Not at hno
    have h1 := hsum i
    rw [Finset.sum_eq_zero fun j _ => if_neg (hno j)] at h1
    exact (hA i).ne h1
  choose f hf using hmatch
  have hinj : Function.Injective f := by
    intro i j hij
    by_contra hne
    refine hd i j hne (SameShape.trans (SameShape.symm (hf i)) ?_)
    rw [hij]
    exact hf j
  set σ : Equiv.Perm (Fin k) := Equiv.ofBijective f (Finite.injective_iff_bijective.1 hinj) with hσ
  have hσf : ∀ i, SersicP.SameShape (q (σ i)) (tr i) := hf
  have hamp : ∀ i, (q (σ i)).amplitude = (tr i).amplitude := by
    intro i
    rw [← hsum i, ← Equiv.sum_comp σ, Finset.sum_eq_single i (fun j _ hj => if_neg fun h => hd j i hj (SameShape.trans (SameShape.symm (hσf j)) h))
      (fun h => absurd (Finset.mem_univ i) h), if_pos (hσf i)]
  refine ⟨⟨σ, fun i => ?_⟩, ?_⟩
  · have := sameShape_recovers (hqs (σ i)) (hts i) (hσf i) hε (a := (q (σ i)).amplitude) (by rw [hamp, sub_self, abs_zero]; exact hε)
    exact this
  · have h1 := he 0 0 ⟨le_rfl, Nat.cast_pos.2 hW⟩ ⟨le_rfl, Nat.cast_pos.2 hH⟩
    unfold galaxiesAt at h1
    rw [← Equiv.sum_comp σ fun j => (q j).at_ 0 0] at h1
    have h2 : ∀ i, (q (σ i)).at_ 0 0 = (tr i).at_ 0 0 := fun i => by
      rw [at_unit (q (σ i)), at_unit (tr i), hamp, show ({ q (σ i) with amplitude := 1 } : SersicP).at_ = ({ tr i with amplitude := 1 } : SersicP).at_ from hσf i]
    simp only [h2] at h1
    linarith

theorem unordered_open (tr : Fin k → SersicP) (sky ε : ℝ) :
    IsOpen {x : (Fin k → ℝ × ℝ × ℝ × ℝ × ℝ × ℝ × ℝ) × ℝ | RecoveredInSomeOrder ε tr (fun i => sersicAt (x.1 i)) ∧ |x.2 - sky| < ε} := by
  have h1 : {x : (Fin k → ℝ × ℝ × ℝ × ℝ × ℝ × ℝ × ℝ) × ℝ | RecoveredInSomeOrder ε tr (fun i => sersicAt (x.1 i)) ∧ |x.2 - sky| < ε} =
      (⋃ σ : Equiv.Perm (Fin k), ⋂ i, (fun x : (Fin k → ℝ × ℝ × ℝ × ℝ × ℝ × ℝ × ℝ) × ℝ => x.1 (σ i)) ⁻¹' {x | SersicP.RecoversAll ε (tr i) (sersicAt x)}) ∩
        {x : (Fin k → ℝ × ℝ × ℝ × ℝ × ℝ × ℝ × ℝ) × ℝ | |x.2 - sky| < ε} := by
    ext x
    simp [RecoveredInSomeOrder]
  rw [h1]
  refine (isOpen_iUnion fun σ => isOpen_iInter_of_finite fun i => (recoversAll_open (tr i) ε).preimage (by fun_prop)).inter ?_
  exact isOpen_lt (by fun_prop) continuous_const

theorem unordered_good (hb : GalaxyRange W H lo hi) (htr : ∀ i, SersicP.Between (lo i) (hi i) (tr i)) (hA : ∀ i, 0 < (tr i).amplitude) (hd : AllDifferent tr)
    {ε : ℝ} (hε : 0 < ε) (hW : 0 < W) (hH : 0 < H) (q : Fin k → SersicP) (sky' : ℝ) (hq : ∀ i, SersicP.Between (lo i) (hi i) (q i))
    (he : ∀ u v : ℝ, 0 ≤ u ∧ u < W → 0 ≤ v ∧ v < H → galaxiesAt q sky' u v = galaxiesAt tr sky u v) : RecoveredInSomeOrder ε tr q ∧ |sky' - sky| < ε := by
  obtain ⟨h2, h3⟩ := C174_identified hb htr hA hd hε hq hW hH he
  exact ⟨h2, by rw [h3, sub_self, abs_zero]; exact hε⟩

end

section
variable {W H k : Nat} {lo hi tr : Fin k → SersicP} {slo shi sky : ℝ} {hasSky : Bool} {use mask : ℕ → Nat → Nat → Bool} {Ω : ℕ → Type}
  [∀ N, MeasurableSpace (Ω N)] {μ : ∀ N, Measure (Ω N)} [∀ N, IsProbabilityMeasure (μ N)] {X : ∀ N, Nat → Nat → Ω N → ℝ} {v : ℝ} {m : ℕ → Nat → Nat → ℝ}
  {ok : ℕ → (Fin k → SersicP) × ℝ × ℝ → Prop} {fitter : ℕ → (Fin k → SersicP) × ℝ × ℝ → FitData ℝ → Except PyErr ((Fin k → SersicP) × ℝ × ℝ)}
  {R R' size f : Nat} {M M' : ℕ → PSFModel ℝ} {rot rot' : Img ℝ → ℝ → Img ℝ} {pas pas' : Set ℝ} {τ : ℕ → ℝ}

/-- **C174, several galaxies.** As C169, but the bounds of the galaxies may overlap; they may be the same for all of them. If no two true galaxies differ in the
amplitude alone, the fitted galaxies converge to the true ones in some order, and the sky to the true sky, in probability. -/
theorem C174_galaxies {wt : ℕ → Option (Img (F ℝ))} {wa wb : ℝ} (hb : GalaxyRange W H lo hi) (hW : 0 < W) (hH : 0 < H)
    (hnosky : hasSky = false → slo = 0 ∧ shi = 0)
    (hsub : ∀ N, (M N).sub = galaxiesSub k hasSky) (hset : ∀ N, PSFSetting R (M N) rot pas)
    (hok : ∀ N q, 0 < N → ok N q → (∀ i, SersicP.Between (lo i) (hi i) ((q.1 i).zoomOut N)) ∧ (slo ≤ q.2.1 ∧ q.2.1 ≤ shi) ∧ q.2.2 ∈ pas)
    {pa₀ : ℕ → ℝ} (ht : ∀ N, 0 < N → ok N (fun i => (tr i).zoomIn N, sky, pa₀ N)) (hA : ∀ i, 0 < (tr i).amplitude) (hd : AllDifferent tr)
    (law : ∀ N, NearValuesFitter (fun q c => ((M N).evaluate rot c (galaxiesParams q.1 hasSky q.2.1) q.2.2).1) (ok N) (τ N) (fitter N))
    (hτ : Tendsto (fun N : ℕ => τ N / (N : ℝ) ^ 2) atTop (𝓝 0))
    (hsub' : ∀ N, (M' N).sub = galaxiesSub k hasSky) (hset' : ∀ N, PSFSetting R' (M' N) rot' pas') {pa' : ℕ → ℝ} (hpa' : ∀ N, pa' N ∈ pas')
    {idx : ℕ → List (Nat × Nat)} (hidx : ∀ N i j, (i, j) ∈ idx N ↔ i < H * N ∧ j < W * N)
    (hm : ∀ N, 0 < N → ((M' N).evaluate rot' (pixelCoords (idx N)) (galaxiesParams (fun i => (tr i).zoomIn N) hasSky sky) (pa' N)).1 =
      .ok ((idx N).map fun p => m N p.1 p.2))
    (hX : ∀ N, CorrelatedNoise (μ N) (H * N) (W * N) (X N) (m N) v) (hv : 0 ≤ v)
    (hwa : 0 < wa) (hwb : 0 ≤ wb) (hwt : ∀ N, WeightsUpTo (H * N) (W * N) (use N) (mask N) (wt N) wb)
    (hun : Tendsto (fun N : ℕ => (unfitted (H * N) (W * N) (heavy (use N) (wt N) wa) (mask N) : ℝ) / (N : ℝ) ^ 2) atTop (𝓝 0)) {ε : ℝ} (hε : 0 < ε) :
    Tendsto (fun N : ℕ => μ N {ω | ∃ m₀ fit, fitModel (fitter N) (nanImage (H * N) (W * N) (use N) fun i j => X N i j ω) (mask N) m₀ (wt N) = .ok fit ∧
      ¬ (RecoveredInSomeOrder ε tr (fun i => (fit.1 i).zoomOut N) ∧ |fit.2.1 - sky| < ε)}) atTop (𝓝 0) := by
  obtain ⟨h1, hsky, -⟩ := hok 1 _ one_pos (ht 1 one_pos)
  have htr : ∀ i, SersicP.Between (lo i) (hi i) (tr i) := fun i => by
    have := h1 i
    rwa [zoomOut_zoomIn one_pos] at this
  have hsky0 : hasSky = false → sky = 0 := fun h => by
    have := sky_value hnosky hsky.1 hsky.2
    rw [h] at this
    simpa using this.symm
  refine blurred_recovered (R := R) (good := fun q sky' => RecoveredInSomeOrder ε tr q ∧ |sky' - sky| < ε) hb (unordered_open tr sky ε)
    (unordered_good hb htr hA hd hε hW hH) (fun N q vals => evaluate_nil _ _ _ _ vals) (fun N q hN hq => ⟨(hok N q hN hq).1, (hok N q hN hq).2.1⟩) ?_ ht law hτ
    (galaxies_data hb htr hsky0 hsub' hset' hpa' hidx hm) hX hv hwa hwb hwt hun
  refine (eventually_gt_atTop 0).mono fun N hN q hq idx hne hidx => ?_
  obtain ⟨-, hs, hpa⟩ := hok N q hN hq
  have := psf_values (hset N) hne (h := H * N) (w := W * N) (fun p hp => ⟨((hidx p).1 hp).1, ((hidx p).1 hp).2.1⟩) (galaxiesParams q.1 hasSky q.2.1) hpa
  rwa [hsub, C169_sum, sky_value hnosky hs.1 hs.2] at this

/-- **C174, window.** The same with a window of oversampled pixels that follows model `i`, whichever galaxy that may be. -/
theorem C174_window {wt : ℕ → Option (Img (F ℝ))} {wa wb : ℝ} {i : Fin k} (hb : GalaxyRange W H lo hi) (hW : 0 < W) (hH : 0 < H)
    (hnosky : hasSky = false → slo = 0 ∧ shi = 0)
    (hsub : ∀ N, (M N).sub = galaxiesSub k hasSky) (hset : ∀ N, WindowSetting s!"x_0_{i.val}" s!"y_0_{i.val}" R size f (M N) rot pas)
    (hframe : ∀ᶠ N : ℕ in atTop, FrameUsed (H * N) (W * N) (use N))
    (hok : ∀ N q, 0 < N → ok N q → (∀ i, SersicP.Between (lo i) (hi i) ((q.1 i).zoomOut N)) ∧ (slo ≤ q.2.1 ∧ q.2.1 ≤ shi) ∧ q.2.2 ∈ pas)
    {pa₀ : ℕ → ℝ} (ht : ∀ N, 0 < N → ok N (fun i => (tr i).zoomIn N, sky, pa₀ N)) (hA : ∀ i, 0 < (tr i).amplitude) (hd : AllDifferent tr)
    (law : ∀ N, NearValuesFitter (fun q c => ((M N).evaluate rot c (galaxiesParams q.1 hasSky q.2.1) q.2.2).1) (ok N) (τ N) (fitter N))
    (hτ : Tendsto (fun N : ℕ => τ N / (N : ℝ) ^ 2) atTop (𝓝 0))
    (hsub' : ∀ N, (M' N).sub = galaxiesSub k hasSky) (hset' : ∀ N, PSFSetting R' (M' N) rot' pas') {pa' : ℕ → ℝ} (hpa' : ∀ N, pa' N ∈ pas')
    {idx : ℕ → List (Nat × Nat)} (hidx : ∀ N i j, (i, j) ∈ idx N ↔ i < H * N ∧ j < W * N)
    (hm : ∀ N, 0 < N → ((M' N).evaluate rot' (pixelCoords (idx N)) (galaxiesParams (fun i => (tr i).zoomIn N) hasSky sky) (pa' N)).1 =
      .ok ((idx N).map fun p => m N p.1 p.2))
    (hX : ∀ N, CorrelatedNoise (μ N) (H * N) (W * N) (X N) (m N) v) (hv : 0 ≤ v)
    (hwa : 0 < wa) (hwb : 0 ≤ wb) (hwt : ∀ N, WeightsUpTo (H * N) (W * N) (use N) (mask N) (wt N) wb)
    (hun : Tendsto (fun N : ℕ => (unfitted (H * N) (W * N) (heavy (use N) (wt N) wa) (mask N) : ℝ) / (N : ℝ) ^ 2) atTop (𝓝 0)) {ε : ℝ} (hε : 0 < ε) :
    Tendsto (fun N : ℕ => μ N {ω | ∃ m₀ fit, fitModel (fitter N) (nanImage (H * N) (W * N) (use N) fun i j => X N i j ω) (mask N) m₀ (wt N) = .ok fit ∧
      ¬ (RecoveredInSomeOrder ε tr (fun i => (fit.1 i).zoomOut N) ∧ |fit.2.1 - sky| < ε)}) atTop (𝓝 0) := by
  obtain ⟨h1, hsky, -⟩ := hok 1 _ one_pos (ht 1 one_pos)
  have htr : ∀ i, SersicP.Between (lo i) (hi i) (tr i) := fun i => by
    have := h1 i
    rwa [zoomOut_zoomIn one_pos] at this
  have hsky0 : hasSky = false → sky = 0 := fun h => by
    have := sky_value hnosky hsky.1 hsky.2
    rw [h] at this
    simpa using this.symm
  refine blurred_recovered (R := R) (good := fun q sky' => RecoveredInSomeOrder ε tr q ∧ |sky' - sky| < ε) hb (unordered_open tr sky ε)
    (unordered_good hb htr hA hd hε hW hH) (fun N q vals => evaluate_nil _ _ _ _ vals) (fun N q hN hq => ⟨(hok N q hN hq).1, (hok N q hN hq).2.1⟩) ?_ ht law hτ
    (galaxies_data hb htr hsky0 hsub' hset' hpa' hidx hm) hX hv hwa hwb hwt hun
  filter_upwards [C171_values hb hnosky hsub hset hframe, eventually_gt_atTop 0] with N h2 hN q hq idx _ hidx
  obtain ⟨h3, h4⟩ := hok N q hN hq
  exact h2 q ⟨h3 i, h4⟩ idx hidx

end

/-! ### Why the galaxies have to be different -/

/-- **C174, galaxies that coincide.** If two galaxies differ in the amplitude at most, light can be moved from one to the other: the values of the model stay the same. So
no fitter recovers the galaxies in both cases, in whatever order, if there is no galaxy with the new amplitude. -/
theorem C174_coincident_violated {k : Nat} {s : Fin k → SersicP} {i j : Fin k} (hij : i ≠ j) {ε d : ℝ} (hd : ∀ l, 2 * ε ≤ |(s i).amplitude + d - (s l).amplitude|)
    (hs : s j = { s i with amplitude := (s j).amplitude }) (hasSky : Bool) (sky : ℝ) {M : PSFModel ℝ}
    (hsub : M.sub = galaxiesSub k hasSky) (hno : ∀ x y s f, M.oversample ≠ .window x y s f) (rot : Img ℝ → ℝ → Img ℝ) (c : List (ℝ × ℝ)) (pa : ℝ)
    (s' : Fin k → SersicP) (hs' : s' = fun l => if l = i then { s i with amplitude := (s i).amplitude + d } else
      if l = j then { s j with amplitude := (s j).amplitude - d } else s l) :
    M.evaluate rot c (galaxiesParams s' hasSky sky) pa = M.evaluate rot c (galaxiesParams s hasSky sky) pa ∧
      ∀ fit : Fin k → SersicP, ¬ (RecoveredInSomeOrder ε s fit ∧ RecoveredInSomeOrder ε s' fit) := by
  have hi : s' i = { s i with amplitude := (s i).amplitude + d } := by simp [hs']
  constructor
  · have hl : galaxiesAt s' (if hasSky then sky else 0) = galaxiesAt s (if hasSky then sky else 0) := by
      funext x y
      unfold galaxiesAt
      congr 1
      have h1 : ∀ t : Fin k → SersicP, ∑ l, (t l).at_ x y = (t i).at_ x y + (t j).at_ x y + ∑ l ∈ (Finset.univ.erase i).erase j, (t l).at_ x y := fun t => by
        rw [← Finset.add_sum_erase Finset.univ _ (Finset.mem_univ i), ← Finset.add_sum_erase (Finset.univ.erase i) _ (Finset.mem_erase.2 ⟨hij.symm, Finset.mem_univ j⟩),
          add_assoc]
      rw [h1, h1]
      have h2 : ∑ l ∈ (Finset.univ.erase i).erase j, (s' l).at_ x y = ∑ l ∈ (Finset.univ.erase i).erase j, (s l).at_ x y := by
        refine Finset.sum_congr rfl fun l hl => ?_
        rw [Finset.mem_erase, Finset.mem_erase] at hl
        simp [hs', hl.1, hl.2.1]
      have hj : s' j = { s i with amplitude := (s j).amplitude - d } := by
        simp only [hs', hij.symm, if_false, if_true]
        rw [hs]
      rw [h2, hi, hj]
      congr 1
      conv_rhs => rw [hs]
      unfold SersicP.at_ sersic2D
      simp only
      ring
    have he : M.sub.eval (galaxiesParams s' hasSky sky) = M.sub.eval (galaxiesParams s hasSky sky) := by
      rw [hsub, C169_sum, C169_sum, hl]
    have hv : ∀ idx iMax jMax grid, M.valuesOn rot idx (galaxiesParams s' hasSky sky) pa iMax jMax grid =
        M.valuesOn rot idx (galaxiesParams s hasSky sky) pa iMax jMax grid := by
      intro idx iMax jMax grid
      unfold valuesOn oversampled sample
      simp only [he]
    unfold evaluate
    simp only [hv]
  · rintro fit ⟨⟨σ, h1⟩, σ', h2⟩
    have a1 := (h1 (σ.symm (σ' i))).1
    rw [Equiv.apply_symm_apply] at a1
    have a2 := (h2 i).1
    rw [hi] at a2
    simp only at a2
    have h3 := hd (σ.symm (σ' i))
    have h4 := abs_sub ((fit (σ' i)).amplitude - (s (σ.symm (σ' i))).amplitude) ((fit (σ' i)).amplitude - ((s i).amplitude + d))
    rw [show (fit (σ' i)).amplitude - (s (σ.symm (σ' i))).amplitude - ((fit (σ' i)).amplitude - ((s i).amplitude + d)) =
      (s i).amplitude + d - (s (σ.symm (σ' i))).amplitude by ring] at h4
    linarith

/-! ### Examples -/

/-- The same bounds for two galaxies: anywhere near the middle of the scene. -/
noncomputable def anyLo : Fin 2 → SersicP := fun _ => ⟨0, 1 / 100, 6 / 10, 1 / 8, 1 / 8, 0, 0⟩

noncomputable def anyHi : Fin 2 → SersicP := fun _ => ⟨100, 1, 10, 7 / 8, 7 / 8, 99 / 100, 3⟩

theorem any_range : GalaxyRange 1 1 anyLo anyHi := by
  refine ⟨fun i => ?_, fun i => ?_, fun i => ?_⟩
  · simp only [anyLo, anyHi]
    refine ⟨?_, ?_, ?_, ⟨?_, ?_⟩, ⟨?_, ?_⟩, ?_, ?_⟩ <;> norm_num
  · simp [anyLo]
  · simp only [anyLo]
    norm_num

theorem any_between : ∀ i, SersicP.Between (anyLo i) (anyHi i) (pairTruth i) := by
  intro i
  fin_cases i <;> simp only [anyLo, anyHi, pairTruth, Fin.zero_eta, Fin.mk_one, Matrix.cons_val_zero, Matrix.cons_val_one] <;>
    refine ⟨⟨?_, ?_⟩, ⟨?_, ?_⟩, ⟨?_, ?_⟩, ⟨?_, ?_⟩, ⟨?_, ?_⟩, ⟨?_, ?_⟩, ?_, ?_⟩ <;> norm_num

theorem pair_different : AllDifferent pairTruth := by
  intro i j hij h
  have h1 := (sameShape_params (range_onScene any_range any_between i) (range_onScene any_range any_between j) h).2.1
  fin_cases i <;> fin_cases j <;> first | exact hij rfl | norm_num [pairTruth] at h1

/-- The two galaxies and the sky of C169, with Gaussian noise of 100 in every pixel, and the same bounds for both: one of the fitted galaxies has an index within 1/10
of 1, with a probability that goes to one. -/
example (rot : Img ℝ → ℝ → Img ℝ) :
    ∃ (m : ℕ → Nat → Nat → ℝ) (fitter : ℕ → (Fin 2 → SersicP) × ℝ × ℝ → FitData ℝ → Except PyErr ((Fin 2 → SersicP) × ℝ × ℝ)),
    (∀ N, 0 < N → ({ smearModel with sub := galaxiesSub 2 true }.evaluate rot (pixelCoords (npWhere (1 * N) (1 * N) fun _ _ => true))
      (galaxiesParams (fun i => (pairTruth i).zoomIn N) true 7) 0).1 = .ok ((npWhere (1 * N) (1 * N) fun _ _ => true).map fun p => m N p.1 p.2)) ∧
    (∀ N, 0 < N → ∀ ω m₀, ∃ fit, fitModel (fitter N)
      (nanImage (1 * N) (1 * N) (fun _ _ => true) fun i j => gaussImage (1 * N) (1 * N) (m N) (fun _ _ => 100) i j ω) (fun _ _ => false) m₀ none = .ok fit) ∧
    Tendsto (fun N => gaussField (1 * N) (1 * N) {ω | ∃ m₀ fit, fitModel (fitter N)
      (nanImage (1 * N) (1 * N) (fun _ _ => true) fun i j => gaussImage (1 * N) (1 * N) (m N) (fun _ _ => 100) i j ω) (fun _ _ => false) m₀ none = .ok fit ∧
      ¬ (|(fit.1 0).n - 1| < 1 / 10 ∨ |(fit.1 1).n - 1| < 1 / 10)}) atTop (𝓝 0) := by
  set ok : ℕ → (Fin 2 → SersicP) × ℝ × ℝ → Prop := fun N q =>
    (∀ i, SersicP.Between (anyLo i) (anyHi i) ((q.1 i).zoomOut N)) ∧ (0 ≤ q.2.1 ∧ q.2.1 ≤ 1000) ∧ q.2.2 ∈ ({0} : Set ℝ) with hokd
  set ev : (Fin 2 → SersicP) × ℝ × ℝ → List (ℝ × ℝ) → Except PyErr (List ℝ) := fun q c =>
    ({ crossModel with sub := galaxiesSub 2 true }.evaluate rot c (galaxiesParams q.1 true q.2.1) q.2.2).1 with hev
  have hset := setting_sub (cross_setting rot) (galaxiesSub 2 true)
  have hset' := setting_sub (smear_setting rot) (galaxiesSub 2 true)
  have ht : ∀ N, 0 < N → ok N (fun i => (pairTruth i).zoomIn N, 7, 0) := fun N hN =>
    ⟨fun i => by rw [zoomOut_zoomIn hN]; exact any_between i, by norm_num, rfl⟩
  have hidx : ∀ N i j, (i, j) ∈ npWhere (1 * N) (1 * N) (fun _ _ => true) ↔ i < 1 * N ∧ j < 1 * N := fun N i j => by rw [npWhere_mem]; simp
  have hm : ∀ N, ∃ m : Nat → Nat → ℝ, 0 < N → ({ smearModel with sub := galaxiesSub 2 true }.evaluate rot (pixelCoords (npWhere (1 * N) (1 * N) fun _ _ => true))
      (galaxiesParams (fun i => (pairTruth i).zoomIn N) true 7) 0).1 = .ok ((npWhere (1 * N) (1 * N) fun _ _ => true).map fun p => m p.1 p.2) := by
    intro N
    rcases Nat.eq_zero_or_pos N with h0 | hN
    · exact ⟨fun _ _ => 0, fun h => absurd h (by omega)⟩
    · obtain ⟨V, -, -, -, hV, -⟩ := psf_values hset' (h := 1 * N) (w := 1 * N) (List.ne_nil_of_mem ((hidx N 0 0).2 ⟨by omega, by omega⟩))
        (fun p hp => (hidx N p.1 p.2).1 hp) (galaxiesParams (fun i => (pairTruth i).zoomIn N) true 7) (Set.mem_singleton (0 : ℝ))
      exact ⟨V, fun _ => hV⟩
  choose m hm using hm
  refine ⟨m, fun N => chosenNearFitter ev (ok N) 1, hm, ?_, ?_⟩
  · intro N hN ω m₀
    refine C168_exists one_pos _ _ (ht N hN) (fun idx hi => ?_) _ m₀ (by simp)
    obtain ⟨V, -, -, -, hV, -⟩ := psf_values hset (h := 1 * N) (w := 1 * N) (List.ne_nil_of_mem ((hi (0, 0)).2 ⟨by simpa using hN, by simpa using hN, rfl⟩))
      (fun p hp => ⟨((hi p).1 hp).1, ((hi p).1 hp).2.1⟩) (galaxiesParams (fun i => (pairTruth i).zoomIn N) true 7) (Set.mem_singleton (0 : ℝ))
    exact ⟨_, hV⟩
  have hlim := C174_galaxies (W := 1) (H := 1) (use := fun _ _ _ => true) (mask := fun _ _ _ => false) (M := fun _ => { crossModel with sub := galaxiesSub 2 true })
    (M' := fun _ => { smearModel with sub := galaxiesSub 2 true }) (ok := ok) (pa₀ := fun _ => 0) (pa' := fun _ => 0) (rot := rot) (rot' := rot) (tr := pairTruth) (sky := 7)
    (slo := 0) (shi := 1000) (hasSky := true) (fitter := fun N => chosenNearFitter ev (ok N) 1)
    any_range one_pos one_pos (by simp) (fun _ => rfl) (fun _ => hset) (fun N q _ hq => hq) ht
    (fun i => by fin_cases i <;> simp [pairTruth]) pair_different (τ := fun _ => 1) (fun N => chosenNearFitter_law _ _ _)
    (tendsto_const_nhds.div_atTop ((tendsto_pow_atTop two_ne_zero).comp tendsto_natCast_atTop_atTop)) (fun _ => rfl) (fun _ => hset') (fun _ => rfl) hidx hm
    (fun N => (gaussian_noise (1 * N) (1 * N) (m N) fun _ _ => 100).correlated (v := 10000) fun _ _ _ _ => by norm_num) (by norm_num)
    one_pos zero_le_one (fun N => weights_none _ _ _ _) (by simp [unfitted, heavy_none]) (show (0 : ℝ) < 1 / 10 by norm_num)
  refine tendsto_of_tendsto_of_tendsto_of_le_of_le tendsto_const_nhds hlim (fun N => zero_le) fun N => measure_mono ?_
  rintro ω ⟨m₀, fit, hfit, hnot⟩
  refine ⟨m₀, fit, hfit, fun hr => hnot ?_⟩
  obtain ⟨⟨σ, h1⟩, -⟩ := hr
  have h2 := (h1 1).2.2.1
  rcases Fin.exists_fin_two.1 ⟨σ 1, rfl⟩ with h3 | h3
  · left
    rw [h3] at h2
    simpa [pairTruth, SersicP.zoomOut] using h2
  · right
    rw [h3] at h2
    simpa [pairTruth, SersicP.zoomOut] using h2

/-- Two galaxies of amplitude 1 in the same place look like galaxies of amplitude 3/2 and 1/2. -/
example (M : PSFModel ℝ) (hsub : M.sub = galaxiesSub 2 false) (hno : ∀ x y s f, M.oversample ≠ .window x y s f) (rot : Img ℝ → ℝ → Img ℝ) (c : List (ℝ × ℝ)) :
    M.evaluate rot c (galaxiesParams ![⟨3 / 2, 2, 4, 10, 10, 0, 0⟩, ⟨1 / 2, 2, 4, 10, 10, 0, 0⟩] false 0) 0 =
      M.evaluate rot c (galaxiesParams ![⟨1, 2, 4, 10, 10, 0, 0⟩, ⟨1, 2, 4, 10, 10, 0, 0⟩] false 0) 0 := by
  refine (C174_coincident_violated (s := ![⟨1, 2, 4, 10, 10, 0, 0⟩, ⟨1, 2, 4, 10, 10, 0, 0⟩]) (i := 0) (j := 1) (by simp) (ε := 1 / 4) (d := 1 / 2) (fun l => ?_) ?_ false 0 hsub hno
    rot c 0 _ ?_).1
  · fin_cases l <;> norm_num
  · simp
  · funext l
    fin_cases l <;> norm_num

end Verif.Props

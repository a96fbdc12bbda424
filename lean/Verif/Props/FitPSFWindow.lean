import Verif.Props.FitPSFSersic

/-!
# C168: fits with an oversampling window that follows the fitted centre
-/

set_option linter.unusedSectionVars false
set_option linter.unusedVariables false

namespace Verif.Spec

/-- The first and the last row and column of the image have a pixel that is used. -/
def FrameUsed (h w : Nat) (use : Nat → Nat → Bool) : Prop :=
  (∃ i < h, use i 0 = true) ∧ (∃ i < h, use i (w - 1) = true) ∧ (∃ j < w, use 0 j = true) ∧ (∃ j < w, use (h - 1) j = true)

end Verif.Spec

namespace Verif.Props

open Verif F Spec Lemmas Filter Topology MeasureTheory PSFModel

/-- Settings of a `PSFConvolvedModel2D` with `oversample=(nx, ny, size, factor)`, where `nx` and `ny` are names of parameters; with a PSF, this is not negative, has the total one and
at most `R` pixels along each axis, rotated by any of the angles in `pas`. -/
structure WindowSetting (nx ny : String) (R size f : Nat) (M : PSFModel ℝ) (rot : Img ℝ → ℝ → Img ℝ) (pas : Set ℝ) : Prop where
  cache : CacheOk M
  compatible : Compatible M
  window : M.oversample = .window (.name nx) (.name ny) (size : Int) f
  kernel : ∀ psf, M.psf = some psf → ∀ pa ∈ pas, Kernel R (if pa ≠ 0 then rot psf pa else psf)
  plain : M.psf = none → M.psfOversample = none ∧ 1 < f

variable {nx ny : String} {R size f : Nat} {M : PSFModel ℝ} {rot : Img ℝ → ℝ → Img ℝ} {pas : Set ℝ} {idx : List (Nat × Nat)} {h w : Nat} {pa : ℝ} {use : Nat → Nat → Bool}

theorem frame_grid (hidx : ∀ p, p ∈ idx ↔ p.1 < h ∧ p.2 < w ∧ use p.1 p.2 = true) (hu : FrameUsed h w use) : OnGrid (pixelCoords idx) 0 0 (w - 1) (h - 1) := by
  obtain ⟨⟨i1, hi1, u1⟩, ⟨i2, hi2, u2⟩, ⟨j1, hj1, u3⟩, j2, hj2, u4⟩ := hu
  have hw : 0 < w := by omega
  have hh : 0 < h := by omega
  have hc : ∀ c ∈ pixelCoords idx, (0 ≤ c.1 ∧ c.1 ≤ 0 + ((w - 1 : Nat) : ℝ)) ∧ 0 ≤ c.2 ∧ c.2 ≤ 0 + ((h - 1 : Nat) : ℝ) := by
    intro c hc
    obtain ⟨p, hp, rfl⟩ := List.mem_map.1 hc
    have := (hidx p).1 hp
    rw [zero_add, zero_add]
    exact ⟨⟨Nat.cast_nonneg _, Nat.cast_le.2 (by omega)⟩, Nat.cast_nonneg _, Nat.cast_le.2 (by omega)⟩
  have hm : ∀ i j, i < h → j < w → use i j = true → ((j : ℝ), (i : ℝ)) ∈ pixelCoords idx := fun i j hi hj hu =>
    List.mem_map.2 ⟨(i, j), (hidx (i, j)).2 ⟨hi, hj, hu⟩, rfl⟩
  refine ⟨?_, ?_, ?_, ?_⟩
  · refine List.min?_eq_some_iff.2 ⟨List.mem_map.2 ⟨_, hm i1 0 hi1 hw u1, by simp⟩, ?_⟩
    simp only [List.mem_map]
    rintro _ ⟨c, hc', rfl⟩
    exact (hc c hc').1.1
  · refine List.min?_eq_some_iff.2 ⟨List.mem_map.2 ⟨_, hm 0 j1 hh hj1 u3, by simp⟩, ?_⟩
    simp only [List.mem_map]
    rintro _ ⟨c, hc', rfl⟩
    exact (hc c hc').2.1
  · refine List.max?_eq_some_iff.2 ⟨List.mem_map.2 ⟨_, hm i2 (w - 1) hi2 (by omega) u2, by simp⟩, ?_⟩
    simp only [List.mem_map]
    rintro _ ⟨c, hc', rfl⟩
    exact (hc c hc').1.2
  · refine List.max?_eq_some_iff.2 ⟨List.mem_map.2 ⟨_, hm (h - 1) j2 (by omega) hj2 u4, by simp⟩, ?_⟩
    simp only [List.mem_map]
    rintro _ ⟨c, hc', rfl⟩
    exact (hc c hc').2.2

/-- The values with a window inside the image. -/
theorem window_values (hs : WindowSetting nx ny R size f M rot pas) (hidx : ∀ p, p ∈ idx ↔ p.1 < h ∧ p.2 < w ∧ use p.1 p.2 = true) (hu : FrameUsed h w use)
    (params : List ℝ) (hpa : pa ∈ pas) {vx vy : ℝ} (hx : centerValue M.sub params (.name nx) = .ok vx) (hy : centerValue M.sub params (.name ny) = .ok vy)
    (hx0 : 0 ≤ corner vx size) (hy0 : 0 ≤ corner vy size) (hx1 : corner vx size + size ≤ w) (hy1 : corner vy size + size ≤ h) :
    PixelBlur R (fun c => (M.evaluate rot c params pa).1) (M.sub.eval params) idx h w := by
  have hg := frame_grid hidx hu
  obtain ⟨⟨i1, hi1, -⟩, -, ⟨j1, hj1, -⟩, -⟩ := hu
  have hw : ((w - 1 : Nat) : Int) + 1 = w := by omega
  have hh : ((h - 1 : Nat) : Int) + 1 = h := by omega
  have hin : ∀ p ∈ idx, p.1 < h ∧ p.2 < w := fun p hp => ⟨((hidx p).1 hp).1, ((hidx p).1 hp).2.1⟩
  obtain ⟨hf, hp0, q, hq⟩ := hs.compatible
  have hfo : M.oversampleFactor = f := by unfold oversampleFactor; rw [hs.window]
  rw [hfo] at hf hq
  have hbd : ∀ p ∈ idx, ∀ x y : ℝ, |x - p.2| ≤ 1 → |y - p.1| ≤ 1 → -1 ≤ x ∧ x ≤ 2 * (h + w) ∧ -1 ≤ y ∧ y ≤ 2 * (h + w) := by
    intro p hp x y hx hy
    have a1 : (p.1 : ℝ) + 1 ≤ h := by exact_mod_cast (hin p hp).1
    have a2 : (p.2 : ℝ) + 1 ≤ w := by exact_mod_cast (hin p hp).2
    have a3 : (0 : ℝ) ≤ p.1 := by positivity
    have a4 : (0 : ℝ) ≤ p.2 := by positivity
    rw [abs_le] at hx hy
    refine ⟨?_, ?_, ?_, ?_⟩ <;> linarith
  cases hpsf : M.psf with
  | none =>
    obtain ⟨hpo, hf1⟩ := hs.plain hpsf
    refine ⟨fun i j => if (corner vx size : ℝ) ≤ (j : ℝ) ∧ (j : ℝ) < (corner vx size : ℝ) + size ∧ (corner vy size : ℝ) ≤ (i : ℝ) ∧ (i : ℝ) < (corner vy size : ℝ) + size then
        pixelMean (M.sub.eval params) j i f else M.sub.eval params j i, 0, 0, h + w, ?_, ?_, ?_, ?_⟩
    · show (M.evaluate rot (pixelCoords idx) params pa).1 = _
      rw [C57_window_partial M hs.cache hpsf hpo _ _ size f hs.window hf1 rot _ _ _ hg ?_ params pa vx vy hx hy hx0 hy0 (by rw [hw]; exact hx1) (by rw [hh]; exact hy1)]
      · simp [pixelCoords]
      · intro c hc
        obtain ⟨p, hp, rfl⟩ := List.mem_map.1 hc
        exact ⟨p.2, p.1, rfl⟩
    · intro p hp
      have := hin p hp
      omega
    · intro p hp _ _ _ _ c ε hc
      have hR : (0 : ℝ) ≤ R := by positivity
      simp only
      split
      · refine pixelMean_near hf fun x y hx hy => hc x y (hx.trans ?_) (hy.trans ?_) <;> linarith
      · refine hc _ _ ?_ ?_ <;> rw [sub_self, abs_zero] <;> linarith
    · intro p hp G hG hb
      simp only
      split
      · rw [← sub_zero (pixelMean _ _ _ _)]
        refine pixelMean_near hf fun x y hx hy => ?_
        rw [sub_zero]
        obtain ⟨b1, b2, b3, b4⟩ := hbd p hp x y hx hy
        exact hb x y b1 b2 b3 b4
      · obtain ⟨b1, b2, b3, b4⟩ := hbd p hp p.2 p.1 (by simp) (by simp)
        exact hb _ _ b1 b2 b3 b4
  | some psf =>
    have hk : 0 < f / M.psfFactor := Nat.div_pos (Nat.le_of_dvd hf ⟨q, hq⟩) hp0
    have hker := hs.kernel psf hpsf pa hpa
    set k : Int → Int → Nat := fun r c => if corner vx size * M.psfFactor ≤ c ∧ c < (corner vx size + size) * M.psfFactor ∧
            corner vy size * M.psfFactor ≤ r ∧ r < (corner vy size + size) * M.psfFactor then f / M.psfFactor else 1 with hkd
    have hkpos : ∀ r c, 0 < k r c := by
      intro r c
      rw [hkd]
      simp only
      split
      · exact hk
      · exact one_pos
    refine ⟨fun i j => cellsOfPixel (convAt (if pa ≠ 0 then rot psf pa else psf) (psfCells (M.sub.eval params) 0 0 (max (w - 1) (h - 1) + 1) M.psfFactor k)) M.psfFactor i j,
      0, 0, max (w - 1) (h - 1) + 1, ?_, ?_, ?_, ?_⟩
    · show (M.evaluate rot (pixelCoords idx) params pa).1 = _
      rw [C119_window_partial M hs.cache hs.compatible psf hpsf _ _ size f hs.window rot _ _ _ hg params pa vx vy hx hy hx0 hy0 (by rw [hw]; exact hx1) (by rw [hh]; exact hy1)]
      simp only [pixelCoords, List.map_map]
      congr 1
      refine List.map_congr_left fun p _ => ?_
      have e : ∀ n : Nat, indexOf (n : ℝ) 0 = n := fun n => by simpa using indexOf_pixel n 0
      simp only [Function.comp, e]
      rfl
    · intro p hp
      have := hin p hp
      omega
    · intro p hp h1 h2 h3 h4 c ε hc
      refine blur_close hp0 hkpos hker (by omega) (by omega) (by omega) (by omega) fun x y hx hy => hc x y ?_ ?_
      · rwa [zero_add] at hx
      · rwa [zero_add] at hy
    · intro p hp G hG hb
      refine blur_bound hp0 hkpos hker _ _ hG fun x y hx hx' hy hy' => ?_
      have a3 : ((max (w - 1) (h - 1) + 1 : Nat) : ℝ) ≤ ((2 * (h + w) : Nat) : ℝ) := by
        exact_mod_cast (show max (w - 1) (h - 1) + 1 ≤ 2 * (h + w) by omega)
      push_cast at a3 hx' hy'
      refine hb x y ?_ ?_ ?_ ?_ <;> linarith

theorem sersic_center_x (q : SersicP) : centerValue sersicSub q.params (.name "x_0") = .ok q.x0 := by
  simp [centerValue, sersicSub, SersicP.params, List.idxOf, List.findIdx, List.findIdx.go]

theorem sersic_center_y (q : SersicP) : centerValue sersicSub q.params (.name "y_0") = .ok q.y0 := by
  simp [centerValue, sersicSub, SersicP.params, List.idxOf, List.findIdx, List.findIdx.go]

/-- On an image with many pixels the window lies inside, for all centres within the bounds. -/
theorem window_inside {a b : ℝ} {W : Nat} (size : Nat) (ha : 0 < a) (hb : b < W) :
    ∀ᶠ N : ℕ in atTop, ∀ x : ℝ, a ≤ x / N → x / N ≤ b → 0 ≤ corner x size ∧ corner x size + size ≤ ((W * N : Nat) : Int) := by
  have h1 : ∀ᶠ N : ℕ in atTop, (1 / 2 + size) / a ≤ (N : ℝ) := tendsto_natCast_atTop_atTop.eventually_ge_atTop _
  have h2 : ∀ᶠ N : ℕ in atTop, (1 / 2 + size) / (W - b) ≤ (N : ℝ) := tendsto_natCast_atTop_atTop.eventually_ge_atTop _
  filter_upwards [h1, h2, eventually_gt_atTop 0] with N h1 h2 hN x hx hx'
  have hN' : (0 : ℝ) < N := Nat.cast_pos.2 hN
  rw [div_le_iff₀ ha] at h1
  rw [div_le_iff₀ (by linarith)] at h2
  rw [le_div_iff₀ hN'] at hx
  rw [div_le_iff₀ hN'] at hx'
  have h3 := abs_le.1 (rint_near x)
  have h4 : ((size / 2 : Nat) : ℝ) ≤ size := by exact_mod_cast Nat.div_le_self _ _
  have h5 : (0 : ℝ) ≤ ((size / 2 : Nat) : ℝ) := by positivity
  unfold corner
  constructor
  · have : (0 : ℝ) ≤ ((rint x - ((size / 2 : Nat) : Int) : Int) : ℝ) := by
      rw [Int.cast_sub, Int.cast_natCast]
      linarith
    exact_mod_cast this
  · have : ((rint x - ((size / 2 : Nat) : Int) + size : Int) : ℝ) ≤ (((W * N : Nat) : Int) : ℝ) := by
      rw [Int.cast_add, Int.cast_sub, Int.cast_natCast, Int.cast_natCast, Int.cast_natCast]
      rw [Nat.cast_mul]
      linarith
    exact_mod_cast this

section
variable {W H : Nat} {lo hi tr : SersicP} {use mask : ℕ → Nat → Nat → Bool} {Ω : ℕ → Type} [∀ N, MeasurableSpace (Ω N)] {μ : ∀ N, Measure (Ω N)}
  [∀ N, IsProbabilityMeasure (μ N)] {X : ∀ N, Nat → Nat → Ω N → ℝ} {v : ℝ} {m : ℕ → Nat → Nat → ℝ} {ok : ℕ → SersicP × ℝ → Prop}
  {fitter : ℕ → SersicP × ℝ → FitData ℝ → Except PyErr (SersicP × ℝ)} {R R' : Nat} {M M' : ℕ → PSFModel ℝ} {rot rot' : Img ℝ → ℝ → Img ℝ} {pas pas' : Set ℝ}
  {τ : ℕ → ℝ}

/-- On an image with many pixels the values of the model are defined and close to the Sersic profile, for all parameters within the bounds. -/
theorem C168_values (hb : SersicP.SceneBounds W H lo hi) (hx : 0 < lo.x0) (hy : 0 < lo.y0) (hsub : ∀ N, (M N).sub = sersicSub)
    (hset : ∀ N, WindowSetting "x_0" "y_0" R size f (M N) rot pas) (hframe : ∀ᶠ N : ℕ in atTop, FrameUsed (H * N) (W * N) (use N)) :
    ∀ᶠ N : ℕ in atTop, ∀ q : SersicP × ℝ, SersicP.Between lo hi (q.1.zoomOut N) ∧ q.2 ∈ pas → ∀ idx : List (Nat × Nat),
      (∀ p, p ∈ idx ↔ p.1 < H * N ∧ p.2 < W * N ∧ use N p.1 p.2 = true) →
      PixelBlur R (fun c => ((M N).evaluate rot c q.1.params q.2).1) q.1.at_ idx (H * N) (W * N) := by
  obtain ⟨-, -, -, ⟨-, hx1⟩, ⟨-, hy1⟩, -⟩ := hb
  filter_upwards [window_inside size hx hx1, window_inside size hy hy1, hframe] with N h1 h2 hfr q hq idx hidx
  obtain ⟨-, -, -, ⟨bx, bx'⟩, ⟨by_, by'⟩, -⟩ := hq.1
  obtain ⟨c1, c2⟩ := h1 q.1.x0 bx bx'
  obtain ⟨c3, c4⟩ := h2 q.1.y0 by_ by'
  have := window_values (hset N) hidx hfr q.1.params hq.2 (by rw [hsub]; exact sersic_center_x q.1) (by rw [hsub]; exact sersic_center_y q.1) c1 c3 c2 c4
  rwa [hsub, sersicSub_params] at this

/-- **C168.** As C167, for a model with `oversample=('x_0', 'y_0', size, factor)`: the pixels around the centre are oversampled, and the window moves in
steps of a pixel as the fitter moves the centre, so the values of the model jump. If the bounds keep the centre away from the borders of the image and
the first and the last row and column have a pixel that is not NaN, the fitted parameters still converge to the true ones in probability. -/
theorem C168_window {wt : ℕ → Option (Img (F ℝ))} {wa wb : ℝ} (hb : SersicP.SceneBounds W H lo hi) (hx : 0 < lo.x0) (hy : 0 < lo.y0) (hsub : ∀ N, (M N).sub = sersicSub)
    (hset : ∀ N, WindowSetting "x_0" "y_0" R size f (M N) rot pas) (hframe : ∀ᶠ N : ℕ in atTop, FrameUsed (H * N) (W * N) (use N))
    (hok : ∀ N q, 0 < N → ok N q → SersicP.Between lo hi (q.1.zoomOut N) ∧ q.2 ∈ pas) {pa₀ : ℕ → ℝ} (ht : ∀ N, 0 < N → ok N (tr.zoomIn N, pa₀ N))
    (hA : 0 < tr.amplitude)
    (law : ∀ N, NearValuesFitter (fun q c => ((M N).evaluate rot c q.1.params q.2).1) (ok N) (τ N) (fitter N))
    (hτ : Tendsto (fun N : ℕ => τ N / (N : ℝ) ^ 2) atTop (𝓝 0))
    (hsub' : ∀ N, (M' N).sub = sersicSub) (hset' : ∀ N, PSFSetting R' (M' N) rot' pas') {pa' : ℕ → ℝ} (hpa' : ∀ N, pa' N ∈ pas')
    {idx : ℕ → List (Nat × Nat)} (hidx : ∀ N i j, (i, j) ∈ idx N ↔ i < H * N ∧ j < W * N)
    (hm : ∀ N, 0 < N → ((M' N).evaluate rot' (pixelCoords (idx N)) (tr.zoomIn N).params (pa' N)).1 = .ok ((idx N).map fun p => m N p.1 p.2))
    (hX : ∀ N, CorrelatedNoise (μ N) (H * N) (W * N) (X N) (m N) v) (hv : 0 ≤ v)
    (hwa : 0 < wa) (hwb : 0 ≤ wb) (hwt : ∀ N, WeightsUpTo (H * N) (W * N) (use N) (mask N) (wt N) wb)
    (hun : Tendsto (fun N : ℕ => (unfitted (H * N) (W * N) (heavy (use N) (wt N) wa) (mask N) : ℝ) / (N : ℝ) ^ 2) atTop (𝓝 0)) {ε : ℝ} (hε : 0 < ε) :
    Tendsto (fun N : ℕ => μ N {ω | ∃ m₀ fit, fitModel (fitter N) (nanImage (H * N) (W * N) (use N) fun i j => X N i j ω) (mask N) m₀ (wt N) = .ok fit ∧
      ¬ SersicP.RecoversAll ε tr (fit.1.zoomOut N)}) atTop (𝓝 0) := by
  have htr : SersicP.Between lo hi tr := by
    have := (hok 1 _ one_pos (ht 1 one_pos)).1
    rwa [zoomOut_zoomIn one_pos] at this
  refine blurred_sersic (R := R) hb (fun N q vals => evaluate_nil _ _ _ _ vals) (fun N q hN hq => (hok N q hN hq).1) ?_ ht hA law hτ
    (sersic_data hb htr hsub' hset' hpa' hidx hm) hX hv hwa hwb hwt hun hε
  filter_upwards [C168_values hb hx hy hsub hset hframe, eventually_gt_atTop 0] with N h1 hN q hq idx _ hidx
  exact h1 q (hok N q hN hq) idx hidx

end

/-! ### Almost best fits exist -/

/-- A fitter that meets the assumption: it returns an almost best fit if there is one. -/
noncomputable def chosenNearFitter {P : Type} (ev : P → List (ℝ × ℝ) → Except PyErr (List ℝ)) (allowed : P → Prop) (τ : ℝ) : P → FitData ℝ → Except PyErr P :=
  fun _ d => open Classical in if h : ∃ p, NearValuesFit ev allowed τ d p then .ok h.choose else .error .exception

theorem chosenNearFitter_law {P : Type} (ev : P → List (ℝ × ℝ) → Except PyErr (List ℝ)) (allowed : P → Prop) (τ : ℝ) :
    NearValuesFitter ev allowed τ (chosenNearFitter ev allowed τ) := by
  intro m d p hp
  unfold chosenNearFitter at hp
  split at hp
  · rename_i h
    injection hp with hp
    exact hp ▸ h.choose_spec
  · exact absurd hp (by simp)

/-- **C168, almost best fits exist**: for any image, tolerance and model (its values may jump), as soon as the model has values for some allowed
parameters. -/
theorem C168_exists {P : Type} {ev : P → List (ℝ × ℝ) → Except PyErr (List ℝ)} {allowed : P → Prop} {τ : ℝ} (hτ : 0 < τ) {h w : Nat} (use mask : Nat → Nat → Bool)
    {p : P} (hp : allowed p) (hev : ∀ idx : List (Nat × Nat), (∀ p, p ∈ idx ↔ p.1 < h ∧ p.2 < w ∧ use p.1 p.2 = true) → ∃ vals, ev p (pixelCoords idx) = .ok vals)
    (g : Nat → Nat → ℝ) (m₀ : P) {wt : Option (Img (F ℝ))} (hwt : ∀ im, wt = some im → im.h = h ∧ im.w = w) :
     ∃ fit, fitModel (chosenNearFitter ev allowed τ) (nanImage h w use g) mask m₀ wt = .ok fit := by
  obtain ⟨idx, ⟨hidx, -⟩, hdata⟩ := fit_values h w use mask wt hwt
  obtain ⟨d, hd, hdc, -⟩ := hdata g
  obtain ⟨vals, hvals⟩ := hev idx hidx
  set A : Set ℝ := {c | ∃ q vals, allowed q ∧ ev q (dataCoords d) = .ok vals ∧ valuesChi2 vals d = c} with hA
  have hne : A.Nonempty := ⟨_, p, vals, hp, by rw [hdc]; exact hvals, rfl⟩
  have hbdd : BddBelow A := by
    refine ⟨0, ?_⟩
    rintro _ ⟨q, vals, -, -, rfl⟩
    unfold valuesChi2
    refine List.sum_nonneg fun x hx => ?_
    obtain ⟨k, -, rfl⟩ := List.mem_map.1 hx
    split
    · exact le_refl _
    · exact sq_nonneg _
  obtain ⟨_, ⟨q, vals', hq, hv', rfl⟩, hlt⟩ := exists_lt_of_csInf_lt hne (show sInf A < sInf A + τ by linarith)
  have hex : ∃ p, NearValuesFit ev allowed τ d p := by
    refine ⟨q, hq, vals', hv', fun r vals'' hr hr' => ?_⟩
    have := csInf_le hbdd (show valuesChi2 vals'' d ∈ A from ⟨r, vals'', hr, hr', rfl⟩)
    linarith
  refine ⟨hex.choose, ?_⟩
  unfold fitModel
  rw [hd]
  simp only [Bind.bind, Except.bind, chosenNearFitter]
  rw [dif_pos hex]

theorem ok_choice {α β ε : Type} (b : β) (F : α → Except ε β) : ∃ fit : α → β, ∀ a, (∃ r, F a = .ok r) → F a = .ok (fit a) := by
  classical
  exact ⟨fun a => if h : ∃ r, F a = .ok r then h.choose else b, fun a h => by simp only [dif_pos h]; exact h.choose_spec⟩

/-- A cross-shaped PSF, and a window of 20 pixels around the fitted centre with 50 samples across each pixel. -/
noncomputable def windowModel : PSFModel ℝ :=
  ⟨sersicSub, some ⟨3, 3, fun u v => if u = 1 ∧ v = 1 then 1 / 2 else if u = 1 ∨ v = 1 then 1 / 8 else 0⟩, .window (.name "x_0") (.name "y_0") 20 50, none, true, 0, 0, none, none⟩

theorem window_setting (rot : Img ℝ → ℝ → Img ℝ) : WindowSetting "x_0" "y_0" 3 20 50 windowModel rot {0} := by
  refine ⟨fun r hr => by simp [windowModel] at hr, ⟨by simp [windowModel, oversampleFactor], by simp [windowModel, psfFactor],
    by simp [windowModel, oversampleFactor, psfFactor]⟩, rfl, ?_, fun h => by simp [windowModel] at h⟩
  rintro psf hpsf pa rfl
  simp only [windowModel, Option.some.injEq] at hpsf
  subst hpsf
  simp only [ne_eq, not_true_eq_false, if_false]
  refine ⟨le_refl _, le_refl _, fun u _ v _ => ?_, ?_⟩
  · simp only
    split_ifs <;> norm_num
  · simp only [Finset.sum_range_succ, Finset.sum_range_zero]
    norm_num

/-- Weights of 1/100, with a bad pixel in the corner that has the weight zero. -/
noncomputable def badPixelWeights (N : Nat) : Option (Img (F ℝ)) := some ⟨1 * N, 1 * N, fun i j => .fin (if i = 0 ∧ j = 0 then 0 else 1 / 100)⟩

theorem badPixel_good (N : Nat) : WeightsUpTo (1 * N) (1 * N) (fun _ _ => true) (fun _ _ => false) (badPixelWeights N) (1 / 100) := by
  refine ⟨fun im him => ?_, fun i j _ _ _ _ => ?_⟩
  · simp only [badPixelWeights, Option.some.injEq] at him
    subst him
    exact ⟨⟨rfl, rfl⟩, fun i j _ _ _ => ⟨_, rfl⟩⟩
  · simp only [badPixelWeights, weightAt, numberOf]
    split <;> norm_num

theorem badPixel_few : Tendsto (fun N : ℕ => (unfitted (1 * N) (1 * N) (heavy (fun _ _ => true) (badPixelWeights N) (1 / 100)) (fun _ _ => false) : ℝ) / (N : ℝ) ^ 2) atTop (𝓝 0) := by
  refine squeeze_zero (fun N => by positivity) (fun N => ?_) (tendsto_const_nhds.div_atTop ((tendsto_pow_atTop two_ne_zero).comp tendsto_natCast_atTop_atTop) :
    Tendsto (fun N : ℕ => 1 / (N : ℝ) ^ 2) atTop (𝓝 0))
  refine div_le_div_of_nonneg_right ?_ (sq_nonneg _)
  have : unfitted (1 * N) (1 * N) (heavy (fun _ _ => true) (badPixelWeights N) (1 / 100)) (fun _ _ => false) ≤ ({(0, 0)} : Finset (Nat × Nat)).card := by
    refine Finset.card_le_card fun p hp => ?_
    rw [Finset.mem_filter] at hp
    rw [Finset.mem_singleton]
    by_contra hne
    have : ¬ (p.1 = 0 ∧ p.2 = 0) := fun h => hne (Prod.ext h.1 h.2)
    refine hp.2 ⟨?_, rfl⟩
    simp only [heavy, badPixelWeights, weightAt, numberOf, if_neg this, Bool.true_and, decide_eq_true_eq]
    norm_num
  exact_mod_cast this

/-- A galaxy with index 4, smeared along the rows, with Gaussian noise ten times its amplitude in every pixel, fitted with a window around the fitted centre
and with weights that ignore the first pixel: `fit_model` returns on all large images, and the index is within 1/10 of 4 with a probability that goes to one. -/
example (rot : Img ℝ → ℝ → Img ℝ) (m₀ : SersicP × ℝ) : ∃ (lo hi : SersicP) (m : ℕ → Nat → Nat → ℝ) (fit : ∀ N, (Fin (1 * N) × Fin (1 * N) → ℝ) → SersicP × ℝ),
    (∀ N, 0 < N → (smearModel.evaluate rot (pixelCoords (npWhere (1 * N) (1 * N) fun _ _ => true)) (SersicP.zoomIn N ⟨10, 1 / 5, 4, 1 / 2, 1 / 2, 1 / 2, 1⟩).params 0).1 =
      .ok ((npWhere (1 * N) (1 * N) fun _ _ => true).map fun p => m N p.1 p.2)) ∧
    (∀ᶠ N in atTop, ∀ ω, fitModel (chosenNearFitter (fun q c => (windowModel.evaluate rot c q.1.params q.2).1) (fun q => SersicP.Between lo hi (q.1.zoomOut N) ∧ q.2 = 0) 1)
      (nanImage (1 * N) (1 * N) (fun _ _ => true) fun i j => gaussImage (1 * N) (1 * N) (m N) (fun _ _ => 100) i j ω) (fun _ _ => false) m₀ (badPixelWeights N) = .ok (fit N ω)) ∧
    Tendsto (fun N => gaussField (1 * N) (1 * N) {ω | ¬ |(fit N ω).1.n - 4| < 1 / 10}) atTop (𝓝 0) := by
  set lo : SersicP := ⟨0, 1 / 10, 1 / 10, 1 / 4, 1 / 4, 0, 0⟩ with hlo
  set hi : SersicP := ⟨100, 1, 10, 3 / 4, 3 / 4, 99 / 100, 3⟩ with hhi
  set tr : SersicP := ⟨10, 1 / 5, 4, 1 / 2, 1 / 2, 1 / 2, 1⟩ with htr
  have hb : SersicP.SceneBounds 1 1 lo hi := by
    rw [hlo, hhi]
    refine ⟨?_, ?_, ?_, ⟨?_, ?_⟩, ⟨?_, ?_⟩, ?_, ?_⟩ <;> norm_num
  have ht : SersicP.Between lo hi tr := by
    rw [hlo, hhi, htr]
    refine ⟨⟨?_, ?_⟩, ⟨?_, ?_⟩, ⟨?_, ?_⟩, ⟨?_, ?_⟩, ⟨?_, ?_⟩, ⟨?_, ?_⟩, ?_, ?_⟩ <;> norm_num
  have hx : 0 < lo.x0 := by rw [hlo]; norm_num
  have hy : 0 < lo.y0 := by rw [hlo]; norm_num
  have hframe : ∀ᶠ N : ℕ in atTop, FrameUsed (1 * N) (1 * N) fun _ _ => true := by
    filter_upwards [eventually_gt_atTop 0] with N hN
    exact ⟨⟨0, by omega, rfl⟩, ⟨0, by omega, rfl⟩, ⟨0, by omega, rfl⟩, 0, by omega, rfl⟩
  have hidx : ∀ N i j, (i, j) ∈ npWhere (1 * N) (1 * N) (fun _ _ => true) ↔ i < 1 * N ∧ j < 1 * N := fun N i j => by rw [npWhere_mem]; simp
  have hm : ∀ N, ∃ m : Nat → Nat → ℝ, 0 < N → (smearModel.evaluate rot (pixelCoords (npWhere (1 * N) (1 * N) fun _ _ => true)) (tr.zoomIn N).params 0).1 =
      .ok ((npWhere (1 * N) (1 * N) fun _ _ => true).map fun p => m p.1 p.2) := by
    intro N
    rcases Nat.eq_zero_or_pos N with h0 | hN
    · exact ⟨fun _ _ => 0, fun h => absurd h (by omega)⟩
    · obtain ⟨V, -, -, -, hV, -⟩ := psf_values (smear_setting rot) (h := 1 * N) (w := 1 * N) (List.ne_nil_of_mem ((hidx N 0 0).2 ⟨by omega, by omega⟩))
        (fun p hp => (hidx N p.1 p.2).1 hp) (tr.zoomIn N).params (Set.mem_singleton (0 : ℝ))
      exact ⟨V, fun _ => hV⟩
  choose m hm using hm
  have hfit : ∀ N, ∃ fit : (Fin (1 * N) × Fin (1 * N) → ℝ) → SersicP × ℝ, ∀ ω,
      (∃ r, fitModel (chosenNearFitter (fun q c => (windowModel.evaluate rot c q.1.params q.2).1) (fun q => SersicP.Between lo hi (q.1.zoomOut N) ∧ q.2 = 0) 1)
        (nanImage (1 * N) (1 * N) (fun _ _ => true) fun i j => gaussImage (1 * N) (1 * N) (m N) (fun _ _ => 100) i j ω) (fun _ _ => false) m₀ (badPixelWeights N) = .ok r) →
      fitModel (chosenNearFitter (fun q c => (windowModel.evaluate rot c q.1.params q.2).1) (fun q => SersicP.Between lo hi (q.1.zoomOut N) ∧ q.2 = 0) 1)
        (nanImage (1 * N) (1 * N) (fun _ _ => true) fun i j => gaussImage (1 * N) (1 * N) (m N) (fun _ _ => 100) i j ω) (fun _ _ => false) m₀ (badPixelWeights N) = .ok (fit ω) := by
    intro N
    exact ok_choice m₀ _
  choose fit hfit using hfit
  have hret : ∀ᶠ N : ℕ in atTop, ∀ ω, fitModel (chosenNearFitter (fun q c => (windowModel.evaluate rot c q.1.params q.2).1) (fun q => SersicP.Between lo hi (q.1.zoomOut N) ∧ q.2 = 0) 1)
      (nanImage (1 * N) (1 * N) (fun _ _ => true) fun i j => gaussImage (1 * N) (1 * N) (m N) (fun _ _ => 100) i j ω) (fun _ _ => false) m₀ (badPixelWeights N) = .ok (fit N ω) := by
    filter_upwards [C168_values (M := fun _ => windowModel) hb hx hy (fun _ => rfl) (fun _ => window_setting rot) hframe, eventually_gt_atTop 0] with N h1 hN ω
    refine hfit N ω (C168_exists one_pos _ _ (p := (tr.zoomIn N, 0)) ⟨by rw [zoomOut_zoomIn hN]; exact ht, rfl⟩ (fun idx hidx => ?_) _ m₀ fun im him => ((badPixel_good N).finite im him).1)
    obtain ⟨V, -, -, -, hV, -⟩ := h1 (tr.zoomIn N, 0) ⟨by rw [zoomOut_zoomIn hN]; exact ht, rfl⟩ idx hidx
    exact ⟨_, hV⟩
  refine ⟨lo, hi, m, fit, hm, hret, ?_⟩
  have hlim := C168_window (W := 1) (H := 1) (use := fun _ _ _ => true) (mask := fun _ _ _ => false) (M := fun _ => windowModel) (M' := fun _ => smearModel)
    (ok := fun N q => SersicP.Between lo hi (q.1.zoomOut N) ∧ q.2 = 0) (pa₀ := fun _ => 0) (pa' := fun _ => 0) (rot := rot) (rot' := rot)
    (fitter := fun N => chosenNearFitter (fun q c => (windowModel.evaluate rot c q.1.params q.2).1) (fun q => SersicP.Between lo hi (q.1.zoomOut N) ∧ q.2 = 0) 1)
    hb hx hy (fun _ => rfl) (fun _ => window_setting rot) hframe (fun N q _ hq => hq) (fun N hN => ⟨by rw [zoomOut_zoomIn hN]; exact ht, rfl⟩) (by rw [htr]; norm_num)
    (τ := fun _ => 1) (fun N => chosenNearFitter_law _ _ _)
    (tendsto_const_nhds.div_atTop ((tendsto_pow_atTop two_ne_zero).comp tendsto_natCast_atTop_atTop)) (fun _ => rfl) (fun _ => smear_setting rot) (fun _ => rfl) hidx hm
    (fun N => (gaussian_noise (1 * N) (1 * N) (m N) fun _ _ => 100).correlated (v := 10000) fun _ _ _ _ => by norm_num) (by norm_num)
    (show (0 : ℝ) < 1 / 100 by norm_num) (show (0 : ℝ) ≤ 1 / 100 by norm_num) badPixel_good badPixel_few (show (0 : ℝ) < 1 / 10 by norm_num)
  refine tendsto_of_tendsto_of_tendsto_of_le_of_le' tendsto_const_nhds hlim (Eventually.of_forall fun N => zero_le)
    (hret.mono fun N hN => measure_mono ?_)
  intro ω hω
  exact ⟨m₀, fit N ω, hN ω, fun hr => hω hr.2.2.1⟩

end Verif.Props

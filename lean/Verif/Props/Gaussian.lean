import Verif.Model.Gaussian
import Verif.Props.Fitting

/-!
# Properties of `measure_fwhm` and `plot_fit`
-/

set_option linter.unusedSectionVars false

namespace Verif.Props

open Spec

/-! ### C78 -/

/-- `d` is the full width at half maximum of `f`, a function of the distance to its peak: the values at least half the peak are exactly
those within `d / 2`. -/
def IsFwhm (f : ℝ → ℝ) (d : ℝ) : Prop := ∀ t, f 0 / 2 ≤ f t ↔ |t| ≤ d / 2

theorem isFwhm_gauss {A s : ℝ} (hA : 0 < A) (hs : 0 < s) :
    IsFwhm (fun t => A * Real.exp (-(t ^ 2 / (2 * s ^ 2)))) (s * gaussianSigmaToFwhm) := by
  intro t
  have hl : 0 < Real.log 2 := Real.log_pos (by norm_num)
  have h0 : A * Real.exp (-(0 ^ 2 / (2 * s ^ 2))) / 2 = A * Real.exp (-Real.log 2) := by
    rw [Real.exp_neg (Real.log 2), Real.exp_log (by norm_num)]
    simp; ring
  simp only [h0]
  rw [mul_le_mul_iff_right₀ hA, Real.exp_le_exp, neg_le_neg_iff, div_le_iff₀ (by positivity)]
  have hd : s * gaussianSigmaToFwhm / 2 = s * √(2 * Real.log 2) := by unfold gaussianSigmaToFwhm; ring
  rw [hd, ← sq_le_sq₀ (abs_nonneg t) (by positivity), sq_abs, mul_pow, Real.sq_sqrt (by positivity)]
  constructor <;> intro h <;> linarith

theorem isFwhm_unique {f : ℝ → ℝ} {d e : ℝ} (hd : 0 ≤ d) (he : 0 ≤ e) (h1 : IsFwhm f d) (h2 : IsFwhm f e) : d = e := by
  have k1 := (h2 (d / 2)).1 ((h1 (d / 2)).2 (by rw [abs_of_nonneg (by linarith)]))
  have k2 := (h1 (e / 2)).1 ((h2 (e / 2)).2 (by rw [abs_of_nonneg (by linarith)]))
  rw [abs_of_nonneg (by linarith)] at k1 k2
  linarith

/-- The Gaussian along its first axis. -/
theorem eval_first_axis (g : Gauss2D ℝ) (t : ℝ) :
    g.eval (g.xMean + t * Real.cos g.theta) (g.yMean + t * Real.sin g.theta) = g.amplitude * Real.exp (-(t ^ 2 / (2 * g.xStddev ^ 2))) := by
  unfold Gauss2D.eval
  simp only [add_sub_cancel_left]
  congr 3
  rw [Real.sin_two_mul]
  have hs := Real.sin_sq_add_cos_sq g.theta
  have e : Real.sin g.theta ^ 2 = 1 - Real.cos g.theta ^ 2 := by linarith
  have e4 : Real.sin g.theta ^ 4 = (1 - Real.cos g.theta ^ 2) ^ 2 := by rw [← e]; ring
  norm_num
  ring_nf
  rw [e4, e]
  ring

/-- The Gaussian along its second axis. -/
theorem eval_second_axis (g : Gauss2D ℝ) (t : ℝ) :
    g.eval (g.xMean - t * Real.sin g.theta) (g.yMean + t * Real.cos g.theta) = g.amplitude * Real.exp (-(t ^ 2 / (2 * g.yStddev ^ 2))) := by
  unfold Gauss2D.eval
  have e1 : g.xMean - t * Real.sin g.theta - g.xMean = -(t * Real.sin g.theta) := by ring
  simp only [add_sub_cancel_left, e1]
  congr 3
  rw [Real.sin_two_mul]
  have hs := Real.sin_sq_add_cos_sq g.theta
  have e : Real.sin g.theta ^ 2 = 1 - Real.cos g.theta ^ 2 := by linarith
  have e4 : Real.sin g.theta ^ 4 = (1 - Real.cos g.theta ^ 2) ^ 2 := by rw [← e]; ring
  norm_num
  ring_nf
  rw [e4, e]
  ring

variable (fitter : Gauss2D (F ℝ) → FitData ℝ → Except PyErr (Gauss2D (F ℝ))) (im : Img (F ℝ))

theorem measureFwhm_run {g : Gauss2D ℝ} (h : fitGaussian2d fitter im = .ok (g.map .fin)) (plot : Bool) :
    measureFwhm fitter im plot = if plot then .error .attributeError else
      .ok (.fin (g.xStddev * gaussianSigmaToFwhm), .fin (g.yStddev * gaussianSigmaToFwhm)) := by
  unfold measureFwhm
  rw [h]
  simp only [bind, Except.bind, Gauss2D.map]
  have e1 : (F.fin g.xStddev * F.fin gaussianSigmaToFwhm : F ℝ) = .fin (g.xStddev * gaussianSigmaToFwhm) := rfl
  have e2 : (F.fin g.yStddev * F.fin gaussianSigmaToFwhm : F ℝ) = .fin (g.yStddev * gaussianSigmaToFwhm) := rfl
  rw [e1, e2]
  have e3 : ∀ a b : ℝ, ((F.fin a + F.fin b) / F.fin 2 : F ℝ) = .fin ((a + b) / 2) := by
    intro a b
    have : (F.fin a + F.fin b : F ℝ) = .fin (a + b) := rfl
    rw [this, F.fin_div_of_ne _ (by norm_num)]
  rw [e3]

/-- **C78, axes.** With `plot=False` the two numbers are the full widths at half maximum of the fitted Gaussian along its own two axes,
the directions `theta` and `theta + π/2`. -/
theorem C78_axes {g : Gauss2D ℝ} (h : fitGaussian2d fitter im = .ok (g.map .fin)) (hA : 0 < g.amplitude) (hx : 0 < g.xStddev)
    (hy : 0 < g.yStddev) :
    ∃ a b : ℝ, measureFwhm fitter im false = .ok (.fin a, .fin b) ∧ 0 < a ∧ 0 < b ∧
      IsFwhm (fun t => g.eval (g.xMean + t * Real.cos g.theta) (g.yMean + t * Real.sin g.theta)) a ∧
      IsFwhm (fun t => g.eval (g.xMean - t * Real.sin g.theta) (g.yMean + t * Real.cos g.theta)) b := by
  have hl : 0 < Real.log 2 := Real.log_pos (by norm_num)
  have hk : 0 < gaussianSigmaToFwhm := by unfold gaussianSigmaToFwhm; positivity
  refine ⟨_, _, measureFwhm_run fitter im h false, mul_pos hx hk, mul_pos hy hk, ?_, ?_⟩
  · simp only [eval_first_axis]; exact isFwhm_gauss hA hx
  · simp only [eval_second_axis]; exact isFwhm_gauss hA hy

/-- **C78, x and y.** If the fitted `theta` is zero these are the widths in the x and y directions.  Missing: `theta` is a free parameter
of the fit, see `C78_direction_violated`. -/
theorem C78_directions_partial {g : Gauss2D ℝ} (h : fitGaussian2d fitter im = .ok (g.map .fin)) (hA : 0 < g.amplitude)
    (hx : 0 < g.xStddev) (hy : 0 < g.yStddev) (ht : g.theta = 0) :
    ∃ a b : ℝ, measureFwhm fitter im false = .ok (.fin a, .fin b) ∧
      IsFwhm (fun t => g.eval (g.xMean + t) g.yMean) a ∧ IsFwhm (fun t => g.eval g.xMean (g.yMean + t)) b := by
  obtain ⟨a, b, h1, -, -, h2, h3⟩ := C78_axes fitter im h hA hx hy
  refine ⟨a, b, h1, ?_, ?_⟩
  · simpa [ht] using h2
  · simpa [ht] using h3

/-- **C78, x and y violated.** A fit that ends with `theta = π/2` and two different standard deviations: the numbers are not the widths in
the x and y directions (they are the ones in the y and x directions). -/
theorem C78_direction_violated {g : Gauss2D ℝ} (h : fitGaussian2d fitter im = .ok (g.map .fin)) (hA : 0 < g.amplitude)
    (hx : 0 < g.xStddev) (hy : 0 < g.yStddev) (ht : g.theta = Real.pi / 2) (hne : g.xStddev ≠ g.yStddev) :
    ∃ a b : ℝ, measureFwhm fitter im false = .ok (.fin a, .fin b) ∧
      ¬ IsFwhm (fun t => g.eval (g.xMean + t) g.yMean) a ∧ ¬ IsFwhm (fun t => g.eval g.xMean (g.yMean + t)) b := by
  have hl : 0 < Real.log 2 := Real.log_pos (by norm_num)
  have hk : 0 < gaussianSigmaToFwhm := by unfold gaussianSigmaToFwhm; positivity
  have e1 : ∀ t, g.eval (g.xMean + t) g.yMean = g.amplitude * Real.exp (-(t ^ 2 / (2 * g.yStddev ^ 2))) := by
    intro t
    have := eval_second_axis g (-t)
    simpa [ht] using this
  have e2 : ∀ t, g.eval g.xMean (g.yMean + t) = g.amplitude * Real.exp (-(t ^ 2 / (2 * g.xStddev ^ 2))) := by
    intro t
    have := eval_first_axis g t
    simpa [ht] using this
  refine ⟨_, _, measureFwhm_run fitter im h false, ?_, ?_⟩
  · simp only [e1]
    intro hc
    have := isFwhm_unique (mul_pos hx hk).le (mul_pos hy hk).le hc (isFwhm_gauss hA hy)
    exact hne (mul_right_cancel₀ hk.ne' this)
  · simp only [e2]
    intro hc
    have := isFwhm_unique (mul_pos hy hk).le (mul_pos hx hk).le hc (isFwhm_gauss hA hx)
    exact hne (mul_right_cancel₀ hk.ne' this).symm

/-- **C78, default violated.** With the default `plot=True` no width is ever returned. -/
theorem C78_default_violated : ∃ e, measureFwhm fitter im = .error e := by
  unfold measureFwhm
  cases h : fitGaussian2d fitter im with
  | error e => exact ⟨e, rfl⟩
  | ok g =>
    simp only [bind, Except.bind]
    split
    · exact ⟨_, rfl⟩
    · exact ⟨_, rfl⟩
    · exact ⟨_, rfl⟩

/-- **C78, data.** The fit starts at pixel `(w // 2, h // 2)` and uses exactly the pixels that are not NaN. -/
theorem C78_data {g : Gauss2D (F ℝ)} (h : fitGaussian2d fitter im = .ok g) :
    ∃ s d, fitter s d = .ok g ∧ s.xMean = .fin ((im.w / 2 : Nat) : ℝ) ∧ s.yMean = .fin ((im.h / 2 : Nat) : ℝ) ∧
      d.w = none ∧ ∀ i j, (j, i) ∈ d.x.zip d.y ↔ i < im.h ∧ j < im.w ∧ im.px i j ≠ .nan := by
  unfold fitGaussian2d gaussStart fitModel fitData at h
  simp only [bind_eq_ok] at h
  obtain ⟨s, ⟨m, hm, hs⟩, d, hd, h⟩ := h
  injection hs with hs
  injection hd with hd
  refine ⟨s, d, h, by rw [← hs], by rw [← hs], by rw [← hd], ?_⟩
  intro i j
  rw [← hd]
  simp only [List.zip_map', List.mem_map, Prod.mk.injEq]
  unfold npWhere
  constructor
  · rintro ⟨⟨a, b⟩, hab, rfl, rfl⟩
    simp only [List.mem_flatMap, List.mem_range, List.mem_map, List.mem_filter] at hab
    obtain ⟨i', hi, j', ⟨hj, hn⟩, he⟩ := hab
    obtain ⟨rfl, rfl⟩ := Prod.mk.inj he
    refine ⟨hi, hj, fun e => ?_⟩
    rw [e] at hn; simp [F.isNaN] at hn
  · rintro ⟨hi, hj, hn⟩
    refine ⟨(i, j), ?_, rfl, rfl⟩
    simp only [List.mem_flatMap, List.mem_range, List.mem_map, List.mem_filter]
    refine ⟨i, hi, j, ⟨hj, ?_⟩, rfl⟩
    cases hp : im.px i j <;> simp_all [F.isNaN]

/-- A fitter that returns what it started from; a one-pixel image. -/
example : ∃ a b : ℝ, measureFwhm (fun s _ => .ok s) ⟨1, 1, fun _ _ => .fin 3⟩ false = .ok (.fin a, .fin b) ∧ 0 < a ∧ 0 < b := by
  obtain ⟨a, b, h1, h2, h3, -, -⟩ := C78_axes (fun s _ => .ok s) ⟨1, 1, fun _ _ => .fin 3⟩ (g := ⟨3, 0, 0, 1, 1, 0⟩)
    (by simp [fitGaussian2d, gaussStart, imageMax, fitModel, fitData, bind, Except.bind, Gauss2D.map]) (by norm_num) (by norm_num) (by norm_num)
  exact ⟨a, b, h1, h2, h3⟩

/-- A fitter that ends at `theta = π/2`. -/
example : ∃ a b : ℝ, measureFwhm (fun _ _ => .ok (Gauss2D.map .fin ⟨3, 0, 0, 1, 2, Real.pi / 2⟩)) ⟨1, 1, fun _ _ => .fin 3⟩ false =
    .ok (.fin a, .fin b) ∧ ¬ IsFwhm (fun t => Gauss2D.eval ⟨3, 0, 0, 1, 2, Real.pi / 2⟩ (0 + t) 0) a := by
  obtain ⟨a, b, h1, h2, -⟩ := C78_direction_violated (fun _ _ => .ok (Gauss2D.map .fin ⟨3, 0, 0, 1, 2, Real.pi / 2⟩)) ⟨1, 1, fun _ _ => .fin 3⟩
    (g := ⟨3, 0, 0, 1, 2, Real.pi / 2⟩)
    (by simp [fitGaussian2d, gaussStart, imageMax, fitModel, fitData, bind, Except.bind]) (by norm_num) (by norm_num) (by norm_num) rfl (by norm_num)
  exact ⟨a, b, h1, h2⟩

/-! ### C80 -/

section
variable {K : Type} [Field K] [LinearOrder K] [IsStrictOrderedRing K] [FloorRing K]

/-- The origin `plot_fit` uses for an image of `w × h` pixels. -/
def PlotOrigin (center : Option (CenterArg K)) (w h : Nat) (ox oy : K) : Prop :=
  (center = none ∧ ox = 0 ∧ oy = 0) ∨
    ∃ cx cy, center = some (.seq [cx, cy]) ∧ ox = cx - ((w / 2 : Nat) : K) ∧ oy = cy - ((h / 2 : Nat) : K)

/-- **C80.** The residual image of `plot_fit` has the shape of the image and is, pixel by pixel, the image minus the model at the
coordinates of the pixel; the returned model image has these model values. -/
theorem C80_residual (integ : GridModel K → K × K → K × K → Except PyErr (Img K)) (g : K → K → K) (image : Img (F K))
    {center : Option (CenterArg K)} {ox oy : K} (hc : PlotOrigin center image.w image.h ox oy) :
    ∃ mi res, plotFit integ (pointwise g) image .center center = .ok (mi, res) ∧ mi.h = image.h ∧ mi.w = image.w ∧
      res.h = image.h ∧ res.w = image.w ∧
      (∀ j i, j < image.h → i < image.w → mi.px j i = g (ox + i) (oy + j)) ∧
      ∀ j i, j < image.h → i < image.w → res.px j i = image.px j i - .fin (g (ox + i) (oy + j)) := by
  obtain ⟨mi, h1, h2, h3, h4⟩ := C60_center (size := .seq [.num (.fin (image.w : K)), .num (.fin (image.h : K))]) (center := center)
    (nx := image.w) (ny := image.h) (ox := ox) (oy := oy) ⟨Or.inr rfl, hc⟩ integ g 1
  rw [Int.cast_one] at h1
  refine ⟨mi, ⟨image.h, image.w, fun i j => image.px i j - .fin (mi.px i j)⟩, ?_, h2, h3, rfl, rfl, h4, ?_⟩
  · unfold plotFit
    simp only [h1, bind, Except.bind]
    rw [if_pos ⟨h2.symm, h3.symm⟩]
  · intro j i hj hi
    simp only [h4 j i hj hi]

/-- **C80, pieces.** Model image and residual add up to the image at every finite pixel; the residual is zero exactly where the image
equals the model, and NaN exactly where the image is NaN. -/
theorem C80_pieces (integ : GridModel K → K × K → K × K → Except PyErr (Img K)) (m : GridModel K) (image : Img (F K)) (mode : DiscMode)
    (center : Option (CenterArg K)) {mi : Img K} {res : Img (F K)} (h : plotFit integ m image mode center = .ok (mi, res)) :
    mi.h = image.h ∧ mi.w = image.w ∧ res.h = image.h ∧ res.w = image.w ∧
      (∀ j i v, image.px j i = .fin v → ∃ r, res.px j i = .fin r ∧ mi.px j i + r = v) ∧
      (∀ j i, res.px j i = .fin 0 ↔ image.px j i = .fin (mi.px j i)) ∧
      (∀ j i, res.px j i = .nan ↔ image.px j i = .nan) := by
  unfold plotFit at h
  simp only [bind_eq_ok] at h
  obtain ⟨mi', hm, h⟩ := h
  split at h
  · rename_i hs
    injection h with h
    injection h with e1 e2
    subst e1; subst e2
    refine ⟨hs.1.symm, hs.2.symm, rfl, rfl, ?_, ?_, ?_⟩
    · intro j i v hv
      exact ⟨v - mi'.px j i, by simp only [hv, F.fin_sub], by ring⟩
    · intro j i
      show image.px j i - .fin _ = _ ↔ _
      cases hv : image.px j i with
      | fin v =>
        rw [F.fin_sub, F.fin.injEq, F.fin.injEq]
        exact sub_eq_zero
      | nan => exact ⟨fun h => (nomatch h), fun h => (nomatch h)⟩
      | pinf => exact ⟨fun h => (nomatch h), fun h => (nomatch h)⟩
      | ninf => exact ⟨fun h => (nomatch h), fun h => (nomatch h)⟩
    · intro j i
      show image.px j i - .fin _ = _ ↔ _
      cases hv : image.px j i with
      | fin v => rw [F.fin_sub]; exact ⟨fun h => (nomatch h), fun h => (nomatch h)⟩
      | nan => exact ⟨fun _ => rfl, fun _ => rfl⟩
      | pinf => exact ⟨fun h => (nomatch h), fun h => (nomatch h)⟩
      | ninf => exact ⟨fun h => (nomatch h), fun h => (nomatch h)⟩
  · cases h

/-- **C80, exact fit.** The residual of a model made into an image by `model_to_image` with the same centre is zero everywhere, in every
mode in which `model_to_image` succeeds. -/
theorem C80_exact (integ : GridModel K → K × K → K × K → Except PyErr (Img K)) (m : GridModel K) (mode : DiscMode)
    (center : Option (CenterArg K)) (nx ny : Nat) {mi : Img K}
    (h : modelToImage integ m (.seq [.num (.fin (nx : K)), .num (.fin (ny : K))]) mode 1 center = .ok mi) (hh : mi.h = ny) (hw : mi.w = nx) :
    ∃ res, plotFit integ m (mi.map .fin) mode center = .ok (mi, res) ∧ ∀ j i, res.px j i = .fin 0 := by
  refine ⟨⟨ny, nx, fun i j => .fin (mi.px i j) - .fin (mi.px i j)⟩, ?_, ?_⟩
  · unfold plotFit
    simp only [Img.map, hh, hw, h, bind, Except.bind]
    simp
  · intro j i
    simp [F.fin_sub]

/-- A 2×3 image of `x + 10 y` with one pixel off by one and a NaN pixel. -/
example : (plotFit (fun _ _ _ => .error .exception) (pointwise fun x y : ℚ => x + 10 * y)
    (Img.ofRows .nan [[.fin 0, .fin 2, .fin 2], [.fin 10, .nan, .fin 12]]) .center none).map (fun p => p.2.rows) =
      .ok [[.fin 0, .fin 1, .fin 0], [.fin 0, .nan, .fin 0]] := by decide +kernel

end

end Verif.Props

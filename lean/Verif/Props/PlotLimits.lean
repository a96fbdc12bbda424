import Verif.Lemmas.SigmaClip
import Verif.Model.PlotLimits
import Verif.Props.SigmaClip

/-!
# C145: the colour limits of `plot_fit`
-/

set_option linter.unusedSectionVars false
set_option linter.unusedVariables false

namespace Verif.Props

open Verif F Spec Lemmas

/-- Off scale: below the lower or above the upper limit (NaN pixels are left blank and are not off scale). -/
noncomputable def OffScale (lim : F ℝ × F ℝ) (x : F ℝ) : Bool := F.lt x lim.1 || F.lt lim.2 x

/-- The image of the numbers `f`. -/
def realImg (h w : Nat) (f : Nat → Nat → ℝ) : Img (F ℝ) := ⟨h, w, fun i j => fin (f i j)⟩

/-- The sum over the pixels. -/
noncomputable def pixSum (h w : Nat) (f : Nat → Nat → ℝ) : ℝ := ∑ i ∈ Finset.range h, ∑ j ∈ Finset.range w, f i j

/-- The mean of the pixels. -/
noncomputable def pixMean (h w : Nat) (f : Nat → Nat → ℝ) : ℝ := pixSum h w f / (h * w)

/-- The standard deviation of the pixels. -/
noncomputable def pixStd (h w : Nat) (f : Nat → Nat → ℝ) : ℝ := √(pixSum h w (fun i j => (f i j - pixMean h w f) ^ 2) / (h * w))

theorem range_sum (n : Nat) (g : Nat → ℝ) : ((List.range n).map g).sum = ∑ i ∈ Finset.range n, g i := by
  induction n with
  | zero => simp
  | succ n ih => rw [List.range_succ, List.map_append, List.sum_append, ih, Finset.sum_range_succ]; simp

theorem pixSum_list (h w : Nat) (f : Nat → Nat → ℝ) : ((pixels h w).map fun p => f p.1 p.2).sum = pixSum h w f := by
  unfold pixels pixSum
  induction h with
  | zero => simp
  | succ h ih =>
    rw [List.range_succ, List.flatMap_append, List.map_append, List.sum_append, ih, Finset.sum_range_succ]
    simp only [List.flatMap_cons, List.flatMap_nil, List.append_nil, List.map_map, Function.comp_def]
    rw [range_sum]

theorem pixels_length (h w : Nat) : (pixels h w).length = h * w := by
  unfold pixels
  simp [List.length_flatMap]

/-- The standard deviation that the code computes is the standard deviation. -/
theorem nanStd_real {h w : Nat} (hh : 0 < h) (hw : 0 < w) (f : Nat → Nat → ℝ) : nanStd (realImg h w f) = fin (pixStd h w f) := by
  have e1 : ((List.range h).flatMap fun i => (List.range w).map fun j => (fin (f i j) : F ℝ)) = (pixels h w).map fun p => fin (f p.1 p.2) := by
    unfold pixels
    rw [List.map_flatMap]
    simp [Function.comp_def]
  have e2 : ((pixels h w).map fun p => (fin (f p.1 p.2) : F ℝ)).filter (fun x => !x.isNaN) = (pixels h w).map fun p => fin (f p.1 p.2) := by
    rw [List.filter_eq_self]
    intro x hx
    obtain ⟨p, -, rfl⟩ := List.mem_map.1 hx
    rfl
  have e3 : ∀ φ : F ℝ → Option ℝ, (∀ v, φ (fin v) = some v) →
      ((pixels h w).map fun p => (fin (f p.1 p.2) : F ℝ)).filterMap φ = (pixels h w).map fun p => f p.1 p.2 := by
    intro φ hφ
    rw [List.filterMap_map]
    have : (φ ∘ fun p : Nat × Nat => fin (f p.1 p.2)) = some ∘ fun p : Nat × Nat => f p.1 p.2 := by
      funext p
      exact hφ _
    rw [this, List.filterMap_eq_map]
  have hlen := pixels_length h w
  have hne : (pixels h w) ≠ [] := by
    intro h0
    rw [h0] at hlen
    have := Nat.mul_pos hh hw
    simp at hlen
    omega
  unfold nanStd realImg
  simp only [e1, e2]
  rw [e3 _ fun _ => rfl]
  rw [if_neg (by simp [hne])]
  congr 1
  show Real.sqrt _ = _
  unfold pixStd varK
  have hl : ((((pixels h w).map fun p => f p.1 p.2).length : Nat) : ℝ) = h * w := by rw [List.length_map, hlen]; push_cast; ring
  rw [hl, pixSum_list]
  dsimp only
  rw [List.map_map]
  congr 2
  have := pixSum_list h w fun i j => (f i j - pixMean h w f) ^ 2
  rw [← this]
  rfl

theorem pixStd_nonneg (h w : Nat) (f : Nat → Nat → ℝ) : 0 ≤ pixStd h w f := Real.sqrt_nonneg _

/-- **C145.** Without limits from the caller the colours run from `-vmax` to `vmax`, where `vmax ≥ 0` is three times the larger of the
standard deviations of data and model, and the panels can be drawn. -/
theorem C145_default {h w : Nat} (hh : 0 < h) (hw : 0 < w) (f g : Nat → Nat → ℝ) :
    plotLimits (realImg h w f) (realImg h w g) none none =
      (fin (-(3 * max (pixStd h w f) (pixStd h w g))), fin (3 * max (pixStd h w f) (pixStd h w g))) ∧
    drawPanel (plotLimits (realImg h w f) (realImg h w g) none none) = .ok () := by
  have key : plotLimits (realImg h w f) (realImg h w g) none none =
      (fin (-(3 * max (pixStd h w f) (pixStd h w g))), fin (3 * max (pixStd h w f) (pixStd h w g))) := by
    simp only [plotLimits, nanStd_real hh hw, pyMax2, lt_fin, decide_eq_true_eq]
    have e : (if pixStd h w f < pixStd h w g then (fin (pixStd h w g) : F ℝ) else fin (pixStd h w f)) = fin (max (pixStd h w f) (pixStd h w g)) := by
      by_cases hc : pixStd h w f < pixStd h w g
      · rw [if_pos hc, max_eq_right hc.le]
      · rw [if_neg hc, max_eq_left (not_lt.1 hc)]
    rw [e, F.fin_mul, mul_comm]
    rfl
  refine ⟨key, ?_⟩
  rw [key, drawPanel, if_neg]
  have : 0 ≤ max (pixStd h w f) (pixStd h w g) := le_max_of_le_left (pixStd_nonneg _ _ _)
  simp only [lt_fin, decide_eq_true_eq, not_lt]
  linarith

/-! ### Sums over the pixels -/

theorem pixSum_add (h w : Nat) (f g : Nat → Nat → ℝ) : pixSum h w (fun i j => f i j + g i j) = pixSum h w f + pixSum h w g := by
  simp only [pixSum, Finset.sum_add_distrib]

theorem pixSum_mul (h w : Nat) (a : ℝ) (f : Nat → Nat → ℝ) : pixSum h w (fun i j => a * f i j) = a * pixSum h w f := by
  simp only [pixSum, Finset.mul_sum]

theorem pixSum_const (h w : Nat) (a : ℝ) : pixSum h w (fun _ _ => a) = h * w * a := by
  simp only [pixSum, Finset.sum_const, Finset.card_range, nsmul_eq_mul]
  ring

theorem pixSum_mono {h w : Nat} {f g : Nat → Nat → ℝ} (hfg : ∀ i j, f i j ≤ g i j) : pixSum h w f ≤ pixSum h w g :=
  Finset.sum_le_sum fun i _ => Finset.sum_le_sum fun j _ => hfg i j

theorem le_pixSum {h w : Nat} {f : Nat → Nat → ℝ} (hf : ∀ i j, 0 ≤ f i j) {i j : Nat} (hi : i < h) (hj : j < w) : f i j ≤ pixSum h w f :=
  (Finset.single_le_sum (f := fun j => f i j) (fun j _ => hf i j) (Finset.mem_range.2 hj)).trans
    (Finset.single_le_sum (f := fun i => ∑ j ∈ Finset.range w, f i j) (fun i _ => Finset.sum_nonneg fun j _ => hf i j)
      (Finset.mem_range.2 hi))

theorem frame_pos {h w : Nat} (hh : 0 < h) (hw : 0 < w) : (0 : ℝ) < h * w := by
  have h1 : (0 : ℝ) < h := by exact_mod_cast hh
  have h2 : (0 : ℝ) < w := by exact_mod_cast hw
  positivity

theorem pixMean_affine {h w : Nat} (hh : 0 < h) (hw : 0 < w) (a b : ℝ) (f : Nat → Nat → ℝ) :
    pixMean h w (fun i j => a * f i j + b) = a * pixMean h w f + b := by
  have hN := frame_pos hh hw
  have := pixSum_add h w (fun i j => a * f i j) fun _ _ => b
  unfold pixMean
  rw [this, pixSum_mul, pixSum_const]
  field_simp

theorem pixStd_affine {h w : Nat} (hh : 0 < h) (hw : 0 < w) (a b : ℝ) (f : Nat → Nat → ℝ) :
    pixStd h w (fun i j => a * f i j + b) = |a| * pixStd h w f := by
  unfold pixStd
  rw [pixMean_affine hh hw]
  have e : (fun i j => (a * f i j + b - (a * pixMean h w f + b)) ^ 2) = fun i j => a ^ 2 * (f i j - pixMean h w f) ^ 2 := by
    funext i j; ring
  rw [e, pixSum_mul, mul_div_assoc, Real.sqrt_mul (sq_nonneg a), Real.sqrt_sq_eq_abs]

theorem pixStd_sq {h w : Nat} (hh : 0 < h) (hw : 0 < w) (f : Nat → Nat → ℝ) :
    pixSum h w (fun i j => (f i j - pixMean h w f) ^ 2) = h * w * pixStd h w f ^ 2 := by
  have hN := frame_pos hh hw
  unfold pixStd
  rw [Real.sq_sqrt]
  · field_simp
  · refine div_nonneg ?_ hN.le
    exact Finset.sum_nonneg fun _ _ => Finset.sum_nonneg fun _ _ => sq_nonneg _

/-- **C145, units and zero points.** Data and model in other units (`a`), with other zero points (`b`, `c`): the limits follow the unit and do
not notice the zero points. -/
theorem C145_units {h w : Nat} (hh : 0 < h) (hw : 0 < w) (f g : Nat → Nat → ℝ) (a b c : ℝ) :
    plotLimits (realImg h w fun i j => a * f i j + b) (realImg h w fun i j => a * g i j + c) none none =
      (fin |a| * (plotLimits (realImg h w f) (realImg h w g) none none).1, fin |a| * (plotLimits (realImg h w f) (realImg h w g) none none).2) := by
  rw [(C145_default hh hw _ _).1, (C145_default hh hw f g).1]
  simp only [pixStd_affine hh hw, F.fin_mul]
  rw [← mul_max_of_nonneg _ _ (abs_nonneg a)]
  congr 2 <;> ring

theorem cheb_list {α : Type} (l : List α) (c : α → Bool) (φ : α → ℝ) (b : ℝ) (h0 : ∀ p, 0 ≤ φ p) (h1 : ∀ p, c p = true → b ≤ φ p) :
    ((l.filter c).length : ℝ) * b ≤ (l.map φ).sum := by
  induction l with
  | nil => simp
  | cons p l ih =>
    rw [List.filter_cons, List.map_cons, List.sum_cons]
    by_cases hc : c p = true
    · rw [if_pos hc, List.length_cons]
      push_cast
      have := h1 p hc
      linarith
    · rw [if_neg hc]
      have := h0 p
      linarith

theorem offScale_iff (v m : ℝ) : OffScale (fin (-m), fin m) (fin v) = true ↔ m < |v| := by
  simp only [OffScale, lt_fin, Bool.or_eq_true, decide_eq_true_eq, lt_abs]
  constructor
  · rintro (h | h)
    · right; linarith
    · left; exact h
  · rintro (h | h)
    · right; exact h
    · left; linarith

/-- Chebyshev's inequality for the pixels of an image. -/
theorem cheb_pixels {h w : Nat} (φ : Nat → Nat → ℝ) {M c : ℝ} (hM : 0 ≤ M) (hc : 0 ≤ c)
    (hs : pixSum h w (fun i j => φ i j ^ 2) ≤ c * (h * w) * M ^ 2) :
    9 * (pixelCount (realImg h w φ) (OffScale (fin (-(3 * M)), fin (3 * M))) : ℝ) ≤ c * (h * w) := by
  have hN : (0 : ℝ) ≤ c * (h * w) := by positivity
  rcases hM.eq_or_lt with h0 | h0
  · -- all pixels are zero
    have hz : pixelCount (realImg h w φ) (OffScale (fin (-(3 * M)), fin (3 * M))) = 0 := by
      unfold pixelCount
      rw [List.length_eq_zero_iff, List.filter_eq_nil_iff]
      intro p hp
      obtain ⟨p1, p2⟩ := pixels_mem.1 hp
      have h1 := le_pixSum (h := h) (w := w) (f := fun i j => φ i j ^ 2) (fun _ _ => sq_nonneg _) p1 p2
      rw [← h0] at hs
      have h2 : φ p.1 p.2 = 0 := by
        have : φ p.1 p.2 ^ 2 ≤ 0 := by linarith
        exact pow_eq_zero_iff (two_ne_zero) |>.1 (le_antisymm this (sq_nonneg _))
      show ¬ OffScale _ (fin (φ p.1 p.2)) = true
      rw [offScale_iff, h2, ← h0]
      simp
    rw [hz]
    simpa using hN
  · have h1 := cheb_list (pixels h w) (fun p => OffScale (fin (-(3 * M)), fin (3 * M)) ((realImg h w φ).px p.1 p.2))
      (fun p => φ p.1 p.2 ^ 2) (9 * M ^ 2) (fun _ => sq_nonneg _) (by
        intro p hp
        have := (offScale_iff _ _).1 hp
        have h2 : (3 * M) ^ 2 ≤ |φ p.1 p.2| ^ 2 := pow_le_pow_left₀ (by linarith) this.le 2
        rw [sq_abs] at h2
        linarith)
    rw [pixSum_list h w fun i j => φ i j ^ 2] at h1
    have h2 : (pixelCount (realImg h w φ) (OffScale (fin (-(3 * M)), fin (3 * M))) : ℝ) * (9 * M ^ 2) ≤ c * (h * w) * M ^ 2 := h1.trans hs
    have h3 : 0 < M ^ 2 := by positivity
    have h4 : 9 * (pixelCount (realImg h w φ) (OffScale (fin (-(3 * M)), fin (3 * M))) : ℝ) * M ^ 2 ≤ c * (h * w) * M ^ 2 := by linarith
    exact le_of_mul_le_mul_right h4 h3

/-- **C145, most pixels are on scale when the sky is subtracted.** If the data have mean zero, at most one pixel in nine of the data is off
scale.  Missing from the general claim: the mean must be zero, see `C145_violated`. -/
theorem C145_data_partial {h w : Nat} (hh : 0 < h) (hw : 0 < w) (f g : Nat → Nat → ℝ) (hm : pixMean h w f = 0) :
    9 * (pixelCount (realImg h w f) (OffScale (plotLimits (realImg h w f) (realImg h w g) none none)) : ℝ) ≤ h * w := by
  rw [(C145_default hh hw f g).1]
  have hN := frame_pos hh hw
  have h1 := pixStd_sq hh hw f
  rw [hm] at h1
  simp only [sub_zero] at h1
  have h2 := pixStd_nonneg h w f
  have h3 : pixStd h w f ^ 2 ≤ max (pixStd h w f) (pixStd h w g) ^ 2 := pow_le_pow_left₀ h2 (le_max_left _ _) 2
  have := cheb_pixels f (h := h) (w := w) (M := max (pixStd h w f) (pixStd h w g)) (c := 1) (le_max_of_le_left h2) zero_le_one (by
    rw [h1, one_mul]
    exact mul_le_mul_of_nonneg_left h3 hN.le)
  linarith

/-- **C145, residuals.** Whatever the zero point: when data and model have the same mean, at most four pixels in nine of the residual are off
scale. -/
theorem C145_residual {h w : Nat} (hh : 0 < h) (hw : 0 < w) (f g : Nat → Nat → ℝ) (hm : pixMean h w f = pixMean h w g) :
    9 * (pixelCount (realImg h w fun i j => f i j - g i j) (OffScale (plotLimits (realImg h w f) (realImg h w g) none none)) : ℝ) ≤
      4 * (h * w) := by
  rw [(C145_default hh hw f g).1]
  have hN := frame_pos hh hw
  have h1 := pixStd_sq hh hw f
  have h1' := pixStd_sq hh hw g
  have h2 := pixStd_nonneg h w f
  have h2' := pixStd_nonneg h w g
  have h3 : pixStd h w f ^ 2 ≤ max (pixStd h w f) (pixStd h w g) ^ 2 := pow_le_pow_left₀ h2 (le_max_left _ _) 2
  have h3' : pixStd h w g ^ 2 ≤ max (pixStd h w f) (pixStd h w g) ^ 2 := pow_le_pow_left₀ h2' (le_max_right _ _) 2
  refine cheb_pixels (fun i j => f i j - g i j) (le_max_of_le_left h2) (by norm_num) ?_
  have h4 : pixSum h w (fun i j => (f i j - g i j) ^ 2) ≤
      pixSum h w fun i j => 2 * (f i j - pixMean h w f) ^ 2 + 2 * (g i j - pixMean h w g) ^ 2 := by
    apply pixSum_mono
    intro i j
    rw [← hm]
    nlinarith [sq_nonneg ((f i j - pixMean h w f) + (g i j - pixMean h w f))]
  rw [pixSum_add, pixSum_mul, pixSum_mul, h1, h1'] at h4
  have h5 := mul_le_mul_of_nonneg_left h3 hN.le
  have h5' := mul_le_mul_of_nonneg_left h3' hN.le
  linarith

/-- **C145 is violated with a background.** For any data and any model there is a constant background with which every pixel of the data is off
scale. -/
theorem C145_violated {h w : Nat} (hh : 0 < h) (hw : 0 < w) (f g : Nat → Nat → ℝ) : ∃ b : ℝ,
    pixelCount (realImg h w fun i j => f i j + b) (OffScale (plotLimits (realImg h w fun i j => f i j + b) (realImg h w g) none none)) =
      h * w := by
  set M := 3 * max (pixStd h w f) (pixStd h w g) with hM
  refine ⟨M + pixSum h w (fun i j => |f i j|) + 1, ?_⟩
  set b := M + pixSum h w (fun i j => |f i j|) + 1 with hb
  have e := pixStd_affine hh hw 1 b f
  simp only [one_mul, abs_one] at e
  rw [(C145_default hh hw _ g).1, e, ← hM]
  unfold pixelCount
  rw [List.filter_eq_self.2, pixels_length]
  · rfl
  · intro p hp
    obtain ⟨p1, p2⟩ := pixels_mem.1 hp
    have h1 := le_pixSum (h := h) (w := w) (f := fun i j => |f i j|) (fun _ _ => abs_nonneg _) p1 p2
    have h2 := neg_abs_le (f p.1 p.2)
    show OffScale _ (fin (f p.1 p.2 + b)) = true
    rw [offScale_iff]
    refine lt_of_lt_of_le ?_ (le_abs_self _)
    linarith

/-- **C145, one limit from the caller.** A `vmin` above three standard deviations, and a negative `vmax`, give limits in the wrong order, and the
drawing raises. -/
theorem C145_order_violated {h w : Nat} (hh : 0 < h) (hw : 0 < w) (f g : Nat → Nat → ℝ) :
    (∃ v, drawPanel (plotLimits (realImg h w f) (realImg h w g) (some (fin v)) none) = .error .valueError) ∧
    ∀ v < 0, drawPanel (plotLimits (realImg h w f) (realImg h w g) none (some (fin v))) = .error .valueError := by
  have h0 := (C145_default hh hw f g).1
  simp only [plotLimits, Prod.mk.injEq] at h0
  constructor
  · refine ⟨3 * max (pixStd h w f) (pixStd h w g) + 1, ?_⟩
    simp only [plotLimits, drawPanel, h0.2, lt_fin, decide_eq_true_eq]
    rw [if_pos (by linarith)]
  · intro v hv
    have e : (-(fin v) : F ℝ) = fin (-v) := rfl
    simp only [plotLimits, drawPanel, e, lt_fin, decide_eq_true_eq]
    rw [if_pos (by linarith)]

/-- **C145, blank data.** When every pixel of the data is NaN both limits are NaN, whatever the model, because python's `max` keeps a NaN that comes
first. -/
theorem C145_blank (im model : Img (F ℝ)) (hn : ∀ i j, i < im.h → j < im.w → im.px i j = nan) :
    plotLimits im model none none = (nan, nan) := by
  have e : nanStd im = nan := by
    have : ((List.range im.h).flatMap fun i => (List.range im.w).map fun j => im.px i j).filter (fun x => !x.isNaN) = [] := by
      rw [List.filter_eq_nil_iff]
      intro x hx
      simp only [List.mem_flatMap, List.mem_map, List.mem_range] at hx
      obtain ⟨i, hi, j, hj, rfl⟩ := hx
      rw [hn i j hi hj]
      simp [F.isNaN]
    simp only [nanStd, this]
    rfl
  have hl : ∀ y : F ℝ, F.lt nan y = false := fun y => by cases y <;> rfl
  simp only [plotLimits, e, pyMax2, hl]
  rfl

/-- A checkerboard of `+1` and `-1` on an even frame has mean zero, standard deviation 1 and limits `-3, 3`: no pixel is off scale, and the bound of
`C145_data_partial` holds for it. -/
example : pixMean 2 2 (fun i j => if (i + j) % 2 = 0 then 1 else -1) = 0 := by
  simp [pixMean, pixSum, Finset.sum_range_succ]

/-- The same checkerboard on a sky of 10: every pixel is above `vmax = 3`. -/
example : ∃ b : ℝ, pixelCount (realImg 2 2 fun i j => (if (i + j) % 2 = 0 then 1 else -1) + b)
    (OffScale (plotLimits (realImg 2 2 fun i j => (if (i + j) % 2 = 0 then 1 else -1) + b) (realImg 2 2 fun _ _ => 0) none none)) = 2 * 2 :=
  C145_violated two_pos two_pos _ _

end Verif.Props

import Verif.Props.Discretisation
import Verif.Lemmas.Galaxy

/-!
# Light in rings of a pixel image
-/

set_option linter.unusedSectionVars false
set_option linter.unusedVariables false

namespace Verif.Props

open Verif F Spec Lemmas MeasureTheory Real

/-- A mean from a sum known to `κ α + μ` and an area known to `μ`. -/
theorem mean_close {Fl E A α κ μ B ω0 : ℝ} (hω0 : 0 < ω0) (hα : ω0 ≤ α) (hμ : 0 ≤ μ) (hμω : 2 * μ ≤ ω0) (hκ : 0 ≤ κ) (hE0 : 0 ≤ E / α)
    (hEB : E / α ≤ B) (hF : |Fl - E| ≤ κ * α + μ) (hA : |A - α| ≤ μ) :
    0 < A ∧ |Fl / A - E / α| ≤ 2 * κ + 2 * μ * (1 + B) / ω0 := by
  have hα0 : 0 < α := lt_of_lt_of_le hω0 hα
  have hA' := abs_le.1 hA
  have hA2 : α / 2 ≤ A := by linarith [hA'.1]
  have hA0 : 0 < A := by linarith
  refine ⟨hA0, ?_⟩
  set m := E / α with hm
  have hE : E = m * α := by rw [hm]; field_simp
  have e1 : Fl / A - m = (Fl - m * A) / A := by field_simp
  have h1 : |Fl - m * A| ≤ κ * α + μ + B * μ := by
    have e2 : Fl - m * A = (Fl - E) - m * (A - α) := by rw [hE]; ring
    rw [e2]
    refine (abs_sub _ _).trans ?_
    rw [abs_mul, abs_of_nonneg hE0]
    have := mul_le_mul hEB hA (abs_nonneg _) (hE0.trans hEB)
    linarith
  rw [e1, abs_div, abs_of_pos hA0, div_le_iff₀ hA0]
  have hB : 0 ≤ B := hE0.trans hEB
  have h2 : κ * α + μ + B * μ ≤ (2 * κ + 2 * μ * (1 + B) / ω0) * (α / 2) := by
    have h3 : μ * (1 + B) ≤ μ * (1 + B) / ω0 * α := by
      rw [div_mul_eq_mul_div, le_div_iff₀ hω0]
      exact mul_le_mul_of_nonneg_left hα (by positivity)
    have e3 : (2 * κ + 2 * μ * (1 + B) / ω0) * (α / 2) = κ * α + μ * (1 + B) / ω0 * α := by ring
    rw [e3]; linarith
  have h4 : (2 * κ + 2 * μ * (1 + B) / ω0) * (α / 2) ≤ (2 * κ + 2 * μ * (1 + B) / ω0) * A :=
    mul_le_mul_of_nonneg_left hA2 (by positivity)
  linarith

/-- A ratio of two numbers known to `τ`. -/
theorem ratio_close {m m' M M' M0 τ : ℝ} (hM0 : 0 < M0) (hM : M0 ≤ M) (hm0 : 0 ≤ m) (hmM : m ≤ M) (h1 : |m' - m| ≤ τ) (h2 : |M' - M| ≤ τ)
    (hτ : τ ≤ M0 / 2) : 0 < M' ∧ |m' / M' - m / M| ≤ 4 * τ / M0 := by
  have hMp : 0 < M := lt_of_lt_of_le hM0 hM
  have h2' := abs_le.1 h2
  have hM' : M0 / 2 ≤ M' := by linarith [h2'.1]
  have hMp' : 0 < M' := by linarith
  refine ⟨hMp', ?_⟩
  have hτ0 : 0 ≤ τ := (abs_nonneg _).trans h1
  have e1 : m' / M' - m / M = ((m' - m) * M - m * (M' - M)) / (M * M') := by field_simp; ring
  have h3 : |(m' - m) * M - m * (M' - M)| ≤ 2 * τ * M := by
    refine (abs_sub _ _).trans ?_
    rw [abs_mul, abs_mul, abs_of_pos hMp, abs_of_nonneg hm0]
    have q1 := mul_le_mul_of_nonneg_right h1 hMp.le
    have q2 := mul_le_mul hmM h2 (abs_nonneg _) hMp.le
    linarith
  rw [e1, abs_div, abs_of_pos (mul_pos hMp hMp'), div_le_div_iff₀ (mul_pos hMp hMp') hM0]
  have h4 : 2 * τ * M * M0 ≤ 4 * τ * (M * M') := by
    have : 2 * τ * M * M0 ≤ 2 * τ * M * (2 * M') := mul_le_mul_of_nonneg_left (by linarith) (by positivity)
    linarith
  exact (mul_le_mul_of_nonneg_right h3 hM0.le).trans h4

/-- The elliptical radius changes by at most `1 / (1 - ellip)` per pixel of distance. -/
theorem ellRadius_lip {x0 y0 ellip theta : ℝ} (h0 : 0 ≤ ellip) (h1 : ellip < 1) (p p' : ℝ × ℝ) :
    ellRadius p.1 p.2 x0 y0 ellip theta ≤ ellRadius p'.1 p'.2 x0 y0 ellip theta + distTo p.1 p.2 p'.1 p'.2 / (1 - ellip) := by
  have hq : 0 < 1 - ellip := by linarith
  let T : ℝ × ℝ → ℂ := fun p => ⟨(p.1 - x0) * Real.cos theta + (p.2 - y0) * Real.sin theta,
    (-(p.1 - x0) * Real.sin theta + (p.2 - y0) * Real.cos theta) / (1 - ellip)⟩
  have key : ∀ p, ellRadius p.1 p.2 x0 y0 ellip theta = dist (T p) 0 := by
    intro p
    rw [Complex.dist_eq_re_im]
    simp [T, ellRadius]
  rw [key, key]
  refine (dist_triangle (T p) (T p') 0).trans ?_
  rw [add_comm]
  refine add_le_add le_rfl ?_
  rw [Complex.dist_eq_re_im]
  unfold distTo
  rw [le_div_iff₀ hq]
  have e : ∀ x : ℝ, √x * (1 - ellip) = √(x * (1 - ellip) ^ 2) := fun x => by
    rw [Real.sqrt_mul' _ (by positivity), Real.sqrt_sq hq.le]
  rw [e]
  apply Real.sqrt_le_sqrt
  simp only [T]
  set a := p.1 - p'.1
  set b := p.2 - p'.2
  have hcs := Real.cos_sq_add_sin_sq theta
  have e1 : ((p.1 - x0) * Real.cos theta + (p.2 - y0) * Real.sin theta -
      ((p'.1 - x0) * Real.cos theta + (p'.2 - y0) * Real.sin theta)) = a * Real.cos theta + b * Real.sin theta := by ring
  have e2 : ((-(p.1 - x0) * Real.sin theta + (p.2 - y0) * Real.cos theta) / (1 - ellip) -
      (-(p'.1 - x0) * Real.sin theta + (p'.2 - y0) * Real.cos theta) / (1 - ellip)) =
      (-a * Real.sin theta + b * Real.cos theta) / (1 - ellip) := by ring
  rw [e1, e2]
  have e3 : ((a * Real.cos theta + b * Real.sin theta) ^ 2 + ((-a * Real.sin theta + b * Real.cos theta) / (1 - ellip)) ^ 2) *
      (1 - ellip) ^ 2 = (a * Real.cos theta + b * Real.sin theta) ^ 2 * (1 - ellip) ^ 2 +
        (-a * Real.sin theta + b * Real.cos theta) ^ 2 := by field_simp
  rw [e3]
  have h3 : (1 - ellip) ^ 2 ≤ 1 := by nlinarith
  have h4 : (a * Real.cos theta + b * Real.sin theta) ^ 2 * (1 - ellip) ^ 2 ≤ (a * Real.cos theta + b * Real.sin theta) ^ 2 := by
    nlinarith [sq_nonneg (a * Real.cos theta + b * Real.sin theta)]
  have h5 : (a * Real.cos theta + b * Real.sin theta) ^ 2 + (-a * Real.sin theta + b * Real.cos theta) ^ 2 =
      (a ^ 2 + b ^ 2) * (Real.cos theta ^ 2 + Real.sin theta ^ 2) := by ring
  rw [hcs, mul_one] at h5
  linarith

theorem ellRadius_pixel {x0 y0 ellip theta : ℝ} (h0 : 0 ≤ ellip) (h1 : ellip < 1) {i j : Nat} {p : ℝ × ℝ} (hp : p ∈ pixelSquare i j) :
    |ellRadius j i x0 y0 ellip theta - ellRadius p.1 p.2 x0 y0 ellip theta| ≤ 1 / (1 - ellip) := by
  have hq : 0 < 1 - ellip := by linarith
  have hd : distTo p.1 p.2 j i ≤ 1 := (dist_pixel hp).trans (by
    rw [div_le_one (by positivity)]
    rw [Real.le_sqrt (by norm_num) (by norm_num)]; norm_num)
  have hsym : distTo (j : ℝ) (i : ℝ) p.1 p.2 = distTo p.1 p.2 j i := by
    unfold distTo; congr 1; ring
  have a := ellRadius_lip (x0 := x0) (y0 := y0) (theta := theta) h0 h1 p ((j : ℝ), (i : ℝ))
  have b := ellRadius_lip (x0 := x0) (y0 := y0) (theta := theta) h0 h1 ((j : ℝ), (i : ℝ)) p
  simp only [hsym] at b
  have : distTo p.1 p.2 j i / (1 - ellip) ≤ 1 / (1 - ellip) := div_le_div_of_nonneg_right hd hq.le
  simp only at a b
  rw [abs_le]
  constructor <;> linarith

/-- Inside the isophote of semi major axis `r` the elliptical radius is below `r`. -/
theorem ellRadius_inside {x0 y0 ellip theta r : ℝ} (hr : 0 < r) (h1 : ellip < 1) {p : ℝ × ℝ}
    (hp : p ∈ (⟨x0, y0, r, r * (1 - ellip), theta⟩ : Ellipse ℝ).set) : ellRadius p.1 p.2 x0 y0 ellip theta < r := by
  have hq : 0 < 1 - ellip := by linarith
  unfold ellRadius
  rw [Real.sqrt_lt' hr]
  have hp : (((p.1 - x0) * Real.cos theta + (p.2 - y0) * Real.sin theta) / r) ^ 2 +
      (((p.2 - y0) * Real.cos theta - (p.1 - x0) * Real.sin theta) / (r * (1 - ellip))) ^ 2 < 1 := hp
  have e : ((p.1 - x0) * Real.cos theta + (p.2 - y0) * Real.sin theta) ^ 2 +
      ((-(p.1 - x0) * Real.sin theta + (p.2 - y0) * Real.cos theta) / (1 - ellip)) ^ 2 =
      ((((p.1 - x0) * Real.cos theta + (p.2 - y0) * Real.sin theta) / r) ^ 2 +
      (((p.2 - y0) * Real.cos theta - (p.1 - x0) * Real.sin theta) / (r * (1 - ellip))) ^ 2) * r ^ 2 := by
    field_simp
    ring
  rw [e]
  have := mul_lt_mul_of_pos_right hp (by positivity : 0 < r ^ 2)
  linarith

/-- Apertures of one shape are nested. -/
theorem ellipse_nested {cx cy q t a b : ℝ} (ha : 0 < a) (hab : a ≤ b) (hq : 0 < q) :
    (⟨cx, cy, a, a * q, t⟩ : Ellipse ℝ).set ⊆ (⟨cx, cy, b, b * q, t⟩ : Ellipse ℝ).set := by
  intro p hp
  have hp : (((p.1 - cx) * Real.cos t + (p.2 - cy) * Real.sin t) / a) ^ 2 +
      (((p.2 - cy) * Real.cos t - (p.1 - cx) * Real.sin t) / (a * q)) ^ 2 < 1 := hp
  change (((p.1 - cx) * Real.cos t + (p.2 - cy) * Real.sin t) / b) ^ 2 +
      (((p.2 - cy) * Real.cos t - (p.1 - cx) * Real.sin t) / (b * q)) ^ 2 < 1
  have key : ∀ x c : ℝ, 0 < c → (x / (b * c)) ^ 2 ≤ (x / (a * c)) ^ 2 := by
    intro x c hc
    rw [div_pow, div_pow]
    apply div_le_div_of_nonneg_left (sq_nonneg _) (by positivity)
    have : a * c ≤ b * c := mul_le_mul_of_nonneg_right hab hc.le
    exact pow_le_pow_left₀ (by positivity) this 2
  have h1 := key ((p.1 - cx) * Real.cos t + (p.2 - cy) * Real.sin t) 1 one_pos
  rw [mul_one, mul_one] at h1
  have h2 := key ((p.2 - cy) * Real.cos t - (p.1 - cx) * Real.sin t) q hq
  linarith

theorem integrable_stepImage (h w : Nat) (use : Nat → Nat → Bool) (f : Nat → Nat → ℝ) : Integrable (stepImage h w use f) := by
  have : stepImage h w use f = fun p => ∑ i ∈ Finset.range h, ∑ j ∈ Finset.range w,
      (pixelSquare i j).indicator (fun _ => if use i j then f i j else 0) p := by
    funext p; exact stepImage_eq_sum h w use f p
  rw [this]
  refine integrable_finsetSum _ fun i _ => integrable_finsetSum _ fun j _ => ?_
  refine (integrable_indicator_iff (measurableSet_pixelSquare i j)).2 (integrableOn_const ?_)
  have := volume_pixelSquare_ne_top i j Set.univ
  simpa using this

/-- The light of an image between two apertures, against the light of a distribution that is within `κ` of the pixels. -/
theorem ring_close {cx cy q t a b : ℝ} (ha : 0 < a) (hab : a ≤ b) (hq : 0 < q) (h w : Nat)
    (hf : OnFrame (⟨cx, cy, b, b * q, t⟩ : Ellipse ℝ).set h w) {f : Nat → Nat → ℝ} {g : ℝ × ℝ → ℝ}
    (hg : IntegrableOn g (⟨cx, cy, b, b * q, t⟩ : Ellipse ℝ).set) {κ : ℝ}
    (hκ : ∀ i j, i < h → j < w → ∀ p ∈ pixelSquare i j, p ∈ (⟨cx, cy, b, b * q, t⟩ : Ellipse ℝ).set → |f i j - g p| ≤ κ) :
    |(weightedSum (exactOverlap.weight ⟨cx, cy, b, b * q, t⟩) h w (fun _ _ => true) f -
        weightedSum (exactOverlap.weight ⟨cx, cy, a, a * q, t⟩) h w (fun _ _ => true) f) -
      ((∫ p in (⟨cx, cy, b, b * q, t⟩ : Ellipse ℝ).set, g p) - ∫ p in (⟨cx, cy, a, a * q, t⟩ : Ellipse ℝ).set, g p)| ≤
      κ * (π * q * b ^ 2 - π * q * a ^ 2) := by
  set ea : Ellipse ℝ := ⟨cx, cy, a, a * q, t⟩ with hea
  set eb : Ellipse ℝ := ⟨cx, cy, b, b * q, t⟩ with heb
  have hb : 0 < b := lt_of_lt_of_le ha hab
  have hma := (ellipse_open ea).measurableSet
  have hmb := (ellipse_open eb).measurableSet
  have hsub : ea.set ⊆ eb.set := ellipse_nested ha hab hq
  have hva : volume ea.set = ENNReal.ofReal (π * a * (a * q)) := volume_ellipse ea ha (mul_pos ha hq)
  have hvb : volume eb.set = ENNReal.ofReal (π * b * (b * q)) := volume_ellipse eb hb (mul_pos hb hq)
  have hsi := (integrable_stepImage h w (fun _ _ => true) f).integrableOn (s := eb.set)
  rw [C76_integral, C76_integral, ← integral_diff hma hsi hsub, ← integral_diff hma hg hsub]
  have hsi' := hsi.mono_set (Set.diff_subset (s := eb.set) (t := ea.set))
  have hg' := hg.mono_set (Set.diff_subset (s := eb.set) (t := ea.set))
  rw [← integral_sub hsi' hg']
  have hvol : volume (eb.set \ ea.set) = ENNReal.ofReal (π * q * b ^ 2 - π * q * a ^ 2) := by
    rw [measure_diff hsub hma.nullMeasurableSet (by rw [hva]; exact ENNReal.ofReal_ne_top), hva, hvb,
      ← ENNReal.ofReal_sub _ (by positivity)]
    congr 1; ring
  have := norm_setIntegral_le_of_norm_le_const (μ := volume) (s := eb.set \ ea.set) (C := κ)
    (f := fun p => stepImage h w (fun _ _ => true) f p - g p) (by rw [hvol]; exact ENNReal.ofReal_lt_top)
    (fun p hp => by
      obtain ⟨i, j, hi, hj, hm, hv⟩ := stepImage_pixel (hf p hp.1) f
      rw [Real.norm_eq_abs, hv]
      exact hκ i j hi hj p hm hp.1)
  rw [Real.norm_eq_abs, measureReal_def, hvol, ENNReal.toReal_ofReal] at this
  · exact this
  · have : a ^ 2 ≤ b ^ 2 := pow_le_pow_left₀ ha.le hab 2
    have := mul_le_mul_of_nonneg_left this (by positivity : 0 ≤ π * q)
    linarith

/-- Enclosed light in pixels of size `1 / s`. -/
theorem enclosed_scale (I : ℝ → ℝ) (q : ℝ) {s : ℝ} (hs : 0 < s) (x : ℝ) : enclosed (fun t => I (t / s)) q (s * x) = s ^ 2 * enclosed I q x := by
  unfold enclosed
  have h := intervalIntegral.integral_comp_mul_left (a := (0 : ℝ)) (b := x) (fun t => 2 * π * t * I (t / s) * q) hs.ne'
  rw [mul_zero, smul_eq_mul] at h
  have e : (fun u : ℝ => 2 * π * (s * u) * I (s * u / s) * q) = fun u => s * (2 * π * u * I u * q) := by
    funext u; rw [mul_div_cancel_left₀ _ hs.ne']; ring
  rw [e, intervalIntegral.integral_const_mul] at h
  rw [eq_comm, inv_mul_eq_iff_eq_mul₀ hs.ne'] at h
  change (∫ t in (0 : ℝ)..s * x, 2 * π * t * I (t / s) * q) = _
  rw [h]
  ring

end Verif.Props

import Verif.Lemmas.Homogeneous
import Verif.Props.Profiles
import Verif.Spec.Boxy
import Mathlib.MeasureTheory.Integral.IntegralEqImproper

/-!
# C134: the light of the two dimensional model
-/

set_option linter.unusedSectionVars false

namespace Verif.Props

open Verif Real Set MeasureTheory Filter Topology Lemmas

/-- `C134` at `c_0 = 0`: the flux of the two dimensional model inside the ellipse with semi axes `r` and `r (1 - ellip)`, at any position
and angle, is `sersic_enclosed(r)`. -/
theorem C134_isophote {r amplitude rEff n x0 y0 ellip theta : ℝ} (hn : 0 < n) (hre : 0 < rEff) (hr : 0 < r) (he : ellip < 1) :
    ∫ p in (⟨x0, y0, r, r * (1 - ellip), theta⟩ : Ellipse ℝ).set, genSersic2D p.1 p.2 amplitude rEff n x0 y0 ellip theta 0 =
      sersicEnclosed r amplitude rEff n ellip := by
  rw [C64_integral hn hre hr.le, ← integral_isophote (x0 := x0) (y0 := y0) (theta := theta) _ hr he]
  simp only [C68_sersic hre]

/-! ### Boxy isophotes -/

/-- The generalised distance from the origin. -/
noncomputable def boxNorm (p : ℝ) (u : ℝ × ℝ) : ℝ := (|u.1| ^ p + |u.2| ^ p) ^ (1 / p)

theorem boxNorm_nonneg (p : ℝ) (u : ℝ × ℝ) : 0 ≤ boxNorm p u := by unfold boxNorm; positivity

theorem boxNorm_smul {p : ℝ} (hp : 0 < p) (t : ℝ) (ht : 0 < t) (u : ℝ × ℝ) : boxNorm p (t • u) = t * boxNorm p u := by
  unfold boxNorm
  simp only [Prod.smul_fst, Prod.smul_snd, smul_eq_mul, abs_mul, abs_of_pos ht]
  rw [mul_rpow ht.le (abs_nonneg _), mul_rpow ht.le (abs_nonneg _), ← mul_add, mul_rpow (by positivity) (by positivity), ← rpow_mul ht.le,
    mul_one_div_cancel hp.ne', rpow_one]

theorem boxNorm_continuous {p : ℝ} (hp : 0 < p) : Continuous (boxNorm p) := by
  unfold boxNorm
  have h : ∀ q : ℝ, 0 < q → Continuous fun x : ℝ => x ^ q := fun q hq => Real.continuous_rpow_const hq.le
  exact (h _ (one_div_pos.2 hp)).comp (((h p hp).comp (continuous_abs.comp continuous_fst)).add
    ((h p hp).comp (continuous_abs.comp continuous_snd)))

theorem rpow_below_one {x q : ℝ} (hx : 0 ≤ x) (hq : 0 < q) : x ^ q < 1 ↔ x < 1 := by
  rw [← rpow_lt_rpow_iff hx zero_le_one hq, one_rpow]

theorem boxNorm_lt_one {p : ℝ} (hp : 0 < p) (u : ℝ × ℝ) : boxNorm p u < 1 ↔ |u.1| ^ p + |u.2| ^ p < 1 := by
  unfold boxNorm
  rw [rpow_below_one (by positivity) (one_div_pos.2 hp)]

theorem boxBall_finite {p : ℝ} (hp : 0 < p) : volume {u : ℝ × ℝ | boxNorm p u < 1} ≠ ⊤ := by
  have hsub : {u : ℝ × ℝ | boxNorm p u < 1} ⊆ Ioo (-1) 1 ×ˢ Ioo (-1) 1 := by
    intro u hu
    have hu : |u.1| ^ p + |u.2| ^ p < 1 := (boxNorm_lt_one hp u).1 hu
    have h1 : |u.1| < 1 := by
      have : |u.1| ^ p < 1 := by have := rpow_nonneg (abs_nonneg u.2) p; linarith
      exact (rpow_below_one (abs_nonneg _) hp).1 this
    have h2 : |u.2| < 1 := by
      have : |u.2| ^ p < 1 := by have := rpow_nonneg (abs_nonneg u.1) p; linarith
      exact (rpow_below_one (abs_nonneg _) hp).1 this
    exact ⟨abs_lt.1 h1, abs_lt.1 h2⟩
  refine ne_top_of_le_ne_top ?_ (measure_mono hsub)
  rw [Measure.volume_eq_prod, Measure.prod_prod, Real.volume_Ioo]
  exact ENNReal.mul_ne_top ENNReal.ofReal_ne_top ENNReal.ofReal_ne_top

/-- The integral over the plane of a function of the generalised radius. -/
theorem integral_box {F : ℝ → ℝ} (hF : Measurable F) {x0 y0 ellip theta c0 : ℝ} (he : ellip < 1) (hc : -2 < c0) :
    ∫ p : ℝ × ℝ, F (Spec.boxRadius p.1 p.2 x0 y0 ellip theta c0) =
      (1 - ellip) * Spec.boxArea (c0 + 2) * ∫ s in Ioi (0 : ℝ), 2 * s * F s := by
  have hp : 0 < c0 + 2 := by linarith
  have hq : 0 < 1 - ellip := by linarith
  set e : Ellipse ℝ := ⟨x0, y0, 1, 1 - ellip, theta⟩ with hed
  have h1 : ∀ p : ℝ × ℝ, Spec.boxRadius p.1 p.2 x0 y0 ellip theta c0 = boxNorm (c0 + 2) (toDisc e (p - (e.cx, e.cy))) := by
    intro p
    rw [toDisc_apply]
    unfold Spec.boxRadius boxNorm
    simp only [hed, Prod.fst_sub, Prod.snd_sub, div_one]
    congr 4
    · ring_nf
    · field_simp
  simp only [h1]
  rw [integral_toDisc e one_pos hq (fun u => F (boxNorm (c0 + 2) u)),
    integral_homogeneous (boxNorm_continuous hp).measurable (boxNorm_nonneg _) (boxNorm_smul hp) (boxBall_finite hp) hF]
  have : {u : ℝ × ℝ | boxNorm (c0 + 2) u < 1} = {u : ℝ × ℝ | |u.1| ^ (c0 + 2) + |u.2| ^ (c0 + 2) < 1} := by
    ext u; exact boxNorm_lt_one hp u
  rw [this]
  unfold Spec.boxArea
  simp only [hed]
  ring

theorem boxArea_pos {p : ℝ} (hp : 0 < p) : 0 < Spec.boxArea p := by
  unfold Spec.boxArea
  have hset : {u : ℝ × ℝ | |u.1| ^ p + |u.2| ^ p < 1} = {u : ℝ × ℝ | boxNorm p u < 1} := by
    ext u; exact (boxNorm_lt_one hp u).symm
  rw [hset]
  apply ENNReal.toReal_pos _ (boxBall_finite hp)
  apply (IsOpen.measure_pos volume (isOpen_lt (boxNorm_continuous hp) continuous_const) ⟨0, _⟩).ne'
  show boxNorm p 0 < 1
  rw [boxNorm_lt_one hp]
  simp [zero_rpow hp.ne']

/-- The area for circles. -/
theorem boxArea_two : Spec.boxArea 2 = π := by
  unfold Spec.boxArea
  have : {u : ℝ × ℝ | |u.1| ^ (2 : ℝ) + |u.2| ^ (2 : ℝ) < 1} = disc := by
    ext u; simp [disc, Real.rpow_two]
  rw [this, volume_disc, ENNReal.toReal_ofReal pi_pos.le]

/-- `GenSersic2D` is a function of the generalised radius. -/
theorem genSersic2D_box {x y amplitude rEff n x0 y0 ellip theta c0 : ℝ} (hre : 0 < rEff) (hc : -2 < c0) :
    genSersic2D x y amplitude rEff n x0 y0 ellip theta c0 =
      Spec.sersic (bn n) amplitude rEff n (Spec.boxRadius x y x0 y0 ellip theta c0) := by
  have hp : 0 < c0 + 2 := by linarith
  unfold genSersic2D Spec.sersic Spec.boxRadius
  simp only []
  set u := (x - x0) * Real.cos theta + (y - y0) * Real.sin theta
  set v := -(x - x0) * Real.sin theta + (y - y0) * Real.cos theta
  have hz : (|u / rEff| ^ (c0 + 2) + |v / ((1 - ellip) * rEff)| ^ (c0 + 2)) ^ (1 / (c0 + 2)) =
      (|u| ^ (c0 + 2) + |v / (1 - ellip)| ^ (c0 + 2)) ^ (1 / (c0 + 2)) / rEff := by
    rw [← div_div v, abs_div u, abs_div (v / (1 - ellip)), abs_of_pos hre, div_rpow (abs_nonneg _) hre.le, div_rpow (abs_nonneg _) hre.le,
      ← add_div, div_rpow (by positivity) (by positivity), ← rpow_mul hre.le, mul_one_div_cancel hp.ne', rpow_one]
  rw [hz, neg_mul]

theorem sersic_continuous {amplitude rEff n : ℝ} (hn : 0 < n) : Continuous (Spec.sersic (bn n) amplitude rEff n) := by
  unfold Spec.sersic
  exact continuous_const.mul (Real.continuous_exp.comp (continuous_const.mul
    (((Real.continuous_rpow_const (one_div_pos.2 hn).le).comp (continuous_id.div_const rEff)).sub continuous_const)).neg)

/-- The integral to a radius. -/
theorem radial_below {amplitude rEff n r : ℝ} (hn : 0 < n) (hre : 0 < rEff) (hr : 0 ≤ r) :
    ∫ s in Ioi (0 : ℝ), 2 * s * (Iio r).indicator (Spec.sersic (bn n) amplitude rEff n) s = sersicEnclosed r amplitude rEff n 0 / π := by
  have h1 : ∀ s : ℝ, 2 * s * (Iio r).indicator (Spec.sersic (bn n) amplitude rEff n) s =
      (Iio r).indicator (fun s => 2 * s * Spec.sersic (bn n) amplitude rEff n s) s := by
    intro s
    by_cases h : s ∈ Iio r
    · rw [indicator_of_mem h, indicator_of_mem h]
    · rw [indicator_of_notMem h, indicator_of_notMem h, mul_zero]
  simp only [h1]
  rw [setIntegral_indicator measurableSet_Iio, Ioi_inter_Iio, ← integral_Ioc_eq_integral_Ioo, ← intervalIntegral.integral_of_le hr,
    C64_integral hn hre hr]
  unfold Spec.enclosed
  rw [eq_div_iff pi_pos.ne', ← intervalIntegral.integral_mul_const]
  congr 1; funext t; ring

/-- The integral to infinity. -/
theorem radial_total {amplitude rEff n total : ℝ} (hn : 0 < n) (hre : 0 < rEff)
    (ht : Tendsto (fun r => sersicEnclosed r amplitude rEff n 0) atTop (𝓝 total)) :
    ∫ s in Ioi (0 : ℝ), 2 * s * Spec.sersic (bn n) amplitude rEff n s = total / π := by
  have hcont : ∀ A, Continuous fun s : ℝ => 2 * s * Spec.sersic (bn n) A rEff n s := fun A =>
    (continuous_const.mul continuous_id).mul (sersic_continuous hn)
  have henc : ∀ A r : ℝ, 0 ≤ r → ∫ s in (0 : ℝ)..r, 2 * s * Spec.sersic (bn n) A rEff n s = sersicEnclosed r A rEff n 0 / π := by
    intro A r hr
    rw [C64_integral hn hre hr]
    unfold Spec.enclosed
    rw [eq_div_iff pi_pos.ne', ← intervalIntegral.integral_mul_const]
    congr 1; funext t; ring
  have hone : IntegrableOn (fun s : ℝ => 2 * s * Spec.sersic (bn n) 1 rEff n s) (Ioi 0) := by
    obtain ⟨t1, h1, -⟩ := C65_half (amplitude := 1) (ellip := 0) hn hre
    refine integrableOn_Ioi_of_intervalIntegral_norm_tendsto (t1 / π) 0 (fun r : ℝ => ?_) tendsto_id ?_
    · exact (Continuous.integrableOn_Icc (hcont 1)).mono_set Ioc_subset_Icc_self
    · refine (h1.div_const π).congr' ?_
      filter_upwards [eventually_ge_atTop 0] with r hr
      rw [← henc 1 r hr]
      apply intervalIntegral.integral_congr
      intro s hs
      rw [uIcc_of_le hr] at hs
      have : 0 ≤ 2 * s * Spec.sersic (bn n) 1 rEff n s := by
        unfold Spec.sersic
        have := hs.1
        positivity
      show _ = ‖_‖
      rw [Real.norm_of_nonneg this]
  have hint : IntegrableOn (fun s : ℝ => 2 * s * Spec.sersic (bn n) amplitude rEff n s) (Ioi 0) := by
    have := hone.const_mul amplitude
    refine this.congr (Eventually.of_forall fun s => ?_)
    show amplitude * (2 * s * Spec.sersic (bn n) 1 rEff n s) = _
    unfold Spec.sersic; ring
  have h1 := intervalIntegral_tendsto_integral_Ioi 0 hint tendsto_id
  refine tendsto_nhds_unique h1 ((ht.div_const π).congr' ?_)
  filter_upwards [eventually_ge_atTop 0] with r hr
  exact (henc amplitude r hr).symm

/-- The set inside a generalised ellipse. -/
theorem measurable_boxRadius {x0 y0 ellip theta c0 : ℝ} (hc : -2 < c0) :
    Measurable fun p : ℝ × ℝ => Spec.boxRadius p.1 p.2 x0 y0 ellip theta c0 := by
  have hp : 0 < c0 + 2 := by linarith
  unfold Spec.boxRadius
  fun_prop

/-- **C134, boxy isophotes.** For every `c_0 > -2` the flux of `GenSersic2D` inside the isophote with semi major axis `r` is
`sersic_enclosed(r)` times the ratio of the areas of `|X|^(c_0 + 2) + |Y|^(c_0 + 2) < 1` and of the unit disc. -/
theorem C134_boxy {r amplitude rEff n x0 y0 ellip theta c0 : ℝ} (hn : 0 < n) (hre : 0 < rEff) (hr : 0 ≤ r) (he : ellip < 1) (hc : -2 < c0) :
    ∫ p in {p : ℝ × ℝ | Spec.boxRadius p.1 p.2 x0 y0 ellip theta c0 < r}, genSersic2D p.1 p.2 amplitude rEff n x0 y0 ellip theta c0 =
      sersicEnclosed r amplitude rEff n ellip * (Spec.boxArea (c0 + 2) / π) := by
  have hms : MeasurableSet {p : ℝ × ℝ | Spec.boxRadius p.1 p.2 x0 y0 ellip theta c0 < r} :=
    measurableSet_lt (measurable_boxRadius hc) measurable_const
  rw [← integral_indicator hms]
  have h1 : ∀ p : ℝ × ℝ, {p : ℝ × ℝ | Spec.boxRadius p.1 p.2 x0 y0 ellip theta c0 < r}.indicator
      (fun p => genSersic2D p.1 p.2 amplitude rEff n x0 y0 ellip theta c0) p =
      (Iio r).indicator (Spec.sersic (bn n) amplitude rEff n) (Spec.boxRadius p.1 p.2 x0 y0 ellip theta c0) := by
    intro p
    by_cases h : Spec.boxRadius p.1 p.2 x0 y0 ellip theta c0 < r
    · have hm : p ∈ {p : ℝ × ℝ | Spec.boxRadius p.1 p.2 x0 y0 ellip theta c0 < r} := h
      rw [indicator_of_mem hm, indicator_of_mem (show _ ∈ Iio r from h), genSersic2D_box hre hc]
    · have hm : p ∉ {p : ℝ × ℝ | Spec.boxRadius p.1 p.2 x0 y0 ellip theta c0 < r} := h
      rw [indicator_of_notMem hm, indicator_of_notMem (show _ ∉ Iio r from h)]
  simp only [h1]
  rw [integral_box ((sersic_continuous hn).measurable.indicator measurableSet_Iio) he hc, radial_below hn hre hr]
  unfold sersicEnclosed
  ring

/-- **C134, the whole model.** The light of `GenSersic2D` over the plane is the limit of `sersic_enclosed`, times the same ratio. -/
theorem C134_total {amplitude rEff n x0 y0 ellip theta c0 total : ℝ} (hn : 0 < n) (hre : 0 < rEff) (he : ellip < 1) (hc : -2 < c0)
    (ht : Tendsto (fun r => sersicEnclosed r amplitude rEff n ellip) atTop (𝓝 total)) :
    ∫ p : ℝ × ℝ, genSersic2D p.1 p.2 amplitude rEff n x0 y0 ellip theta c0 = total * (Spec.boxArea (c0 + 2) / π) := by
  have hq : 0 < 1 - ellip := by linarith
  have ht0 : Tendsto (fun r => sersicEnclosed r amplitude rEff n 0) atTop (𝓝 (total / (1 - ellip))) := by
    refine (ht.div_const (1 - ellip)).congr fun r => ?_
    unfold sersicEnclosed
    rw [sub_zero, mul_one, mul_div_assoc, div_self hq.ne', mul_one]
  simp only [genSersic2D_box hre hc]
  rw [integral_box (sersic_continuous hn).measurable he hc, radial_total hn hre ht0]
  field_simp

/-- **C134, half of the light.** Whatever the boxiness, the light of the model is finite, and half of it lies inside the isophote with semi
major axis `r_eff`. -/
theorem C134_half {amplitude rEff n x0 y0 ellip theta c0 : ℝ} (hn : 0 < n) (hre : 0 < rEff) (he : ellip < 1) (hc : -2 < c0) :
    Integrable (fun p : ℝ × ℝ => genSersic2D p.1 p.2 amplitude rEff n x0 y0 ellip theta c0) ∧
    2 * ∫ p in {p : ℝ × ℝ | Spec.boxRadius p.1 p.2 x0 y0 ellip theta c0 < rEff}, genSersic2D p.1 p.2 amplitude rEff n x0 y0 ellip theta c0 =
      ∫ p : ℝ × ℝ, genSersic2D p.1 p.2 amplitude rEff n x0 y0 ellip theta c0 := by
  constructor
  · obtain ⟨t, h1, h2, -⟩ := C65_half (amplitude := 1) (ellip := ellip) hn hre
    have hpos : 0 < sersicEnclosed rEff 1 rEff n ellip := by
      have := C64_increasing (ellip := ellip) one_pos hn hre he (Set.mem_Ici.2 le_rfl) (Set.mem_Ici.2 hre.le) hre
      simpa only [C64_zero hn] using this
    have hone : Integrable (fun p : ℝ × ℝ => genSersic2D p.1 p.2 1 rEff n x0 y0 ellip theta c0) := by
      by_contra hno
      have h3 := integral_undef hno
      rw [C134_total hn hre he hc h1] at h3
      have := boxArea_pos (show 0 < c0 + 2 by linarith)
      have ht0 : 0 < t := by linarith
      have : 0 < t * (Spec.boxArea (c0 + 2) / π) := by positivity
      linarith
    refine (hone.const_mul amplitude).congr (Eventually.of_forall fun p => ?_)
    show amplitude * genSersic2D p.1 p.2 1 rEff n x0 y0 ellip theta c0 = _
    unfold genSersic2D; ring
  · obtain ⟨t, h1, h2, -⟩ := C65_half (amplitude := amplitude) (ellip := ellip) hn hre
    rw [C134_total hn hre he hc h1, C134_boxy hn hre hre.le he hc, h2]
    ring

/-- A boxy elliptical galaxy meeting the hypotheses. -/
example : 2 * ∫ p in {p : ℝ × ℝ | Spec.boxRadius p.1 p.2 30 40 (1 / 4) 1 (1 / 2) < 12}, genSersic2D p.1 p.2 3 12 4 30 40 (1 / 4) 1 (1 / 2) =
    ∫ p : ℝ × ℝ, genSersic2D p.1 p.2 3 12 4 30 40 (1 / 4) 1 (1 / 2) :=
  (C134_half (by norm_num) (by norm_num) (by norm_num) (by norm_num)).2

example : ∫ p in (⟨30, 40, 20, 20 * (1 - 1 / 4), 1⟩ : Ellipse ℝ).set, genSersic2D p.1 p.2 3 12 4 30 40 (1 / 4) 1 0 =
    sersicEnclosed 20 3 12 4 (1 / 4) :=
  C134_isophote (by norm_num) (by norm_num) (by norm_num) (by norm_num)

end Verif.Props

import Verif.Spec.Profiles
import Verif.Lemmas.IncGamma

/-!
# C64-C71: the analytic profiles
-/

set_option linter.unusedSectionVars false
set_option linter.unusedVariables false
set_option linter.unusedSimpArgs false

namespace Verif.Props

open Real Set Filter Topology Verif.Lemmas

/-! ### C64: `sersic_enclosed` is an integral -/

/-- The factor in front of the incomplete gamma function. -/
noncomputable def fluxScale (amplitude rEff n ellip : ℝ) : ℝ :=
  amplitude * rEff ^ 2 * 2 * π * n * (Real.exp (bn n) / bn n ^ (2 * n)) * (1 - ellip)

theorem sersicEnclosed_eq (r amplitude rEff n ellip : ℝ) (hn : 0 < n) :
    sersicEnclosed r amplitude rEff n ellip =
      fluxScale amplitude rEff n ellip *
        lowerGamma (2 * n) (bn n * (r / rEff) ^ (1 / n)) := by
  unfold sersicEnclosed fluxScale
  simp only []
  rw [gamma_mul_gammainc _ _ (by linarith)]
  ring

theorem fluxScale_pos {amplitude rEff n ellip : ℝ} (ha : 0 < amplitude) (hr : 0 < rEff)
    (hn : 0 < n) (he : ellip < 1) : 0 < fluxScale amplitude rEff n ellip := by
  have hb := bn_pos hn
  have : 0 < 1 - ellip := by linarith
  have := Real.pi_pos
  have := Real.rpow_pos_of_pos hb (2 * n)
  have := Real.exp_pos (bn n)
  unfold fluxScale
  positivity

theorem fluxScale_ne {amplitude rEff n ellip : ℝ} (ha : amplitude ≠ 0) (hr : 0 < rEff)
    (hn : 0 < n) (he : ellip ≠ 1) : fluxScale amplitude rEff n ellip ≠ 0 := by
  have hb := bn_pos hn
  have h1 : 1 - ellip ≠ 0 := sub_ne_zero.2 he.symm
  have h2 := Real.pi_pos.ne'
  have h3 := (Real.rpow_pos_of_pos hb (2 * n)).ne'
  have h4 := (Real.exp_pos (bn n)).ne'
  unfold fluxScale
  have h5 := hr.ne'
  have h6 := hn.ne'
  simp only [ne_eq, mul_eq_zero, div_eq_zero_iff, not_or]
  refine ⟨⟨⟨⟨⟨⟨ha, ?_⟩, by norm_num⟩, h2⟩, h6⟩, h4, h3⟩, h1⟩
  exact pow_ne_zero 2 h5

/-- `x^{2n-1} x'` for `x = b u^{1/n}`. -/
theorem rpow_chain {b u n : ℝ} (hb : 0 < b) (hu : 0 < u) (hn : 0 < n) :
    (b * u ^ (1 / n)) ^ (2 * n - 1) * (b * ((1 / n) * u ^ (1 / n - 1))) =
      b ^ (2 * n) * u / n := by
  have hu' : 0 ≤ u ^ (1 / n) := (Real.rpow_pos_of_pos hu _).le
  rw [Real.mul_rpow hb.le hu', ← Real.rpow_mul hu.le]
  have e1 : b ^ (2 * n) = b ^ (2 * n - 1) * b := by
    rw [Real.rpow_sub_one hb.ne']
    field_simp
  have e2 : u ^ (1 / n * (2 * n - 1)) * u ^ (1 / n - 1) = u := by
    rw [← Real.rpow_add hu]
    have : 1 / n * (2 * n - 1) + (1 / n - 1) = 1 := by
      field_simp
      ring
    rw [this, Real.rpow_one]
  rw [e1]
  calc b ^ (2 * n - 1) * u ^ (1 / n * (2 * n - 1)) * (b * (1 / n * u ^ (1 / n - 1)))
      = b ^ (2 * n - 1) * b * (1 / n) * (u ^ (1 / n * (2 * n - 1)) * u ^ (1 / n - 1)) := by
        ring
    _ = b ^ (2 * n - 1) * b * u / n := by
        rw [e2]
        ring

theorem sersicX_continuous {rEff n : ℝ} (hn : 0 < n) :
    Continuous fun t : ℝ => bn n * (t / rEff) ^ (1 / n) :=
  continuous_const.mul ((Real.continuous_rpow_const (one_div_pos.2 hn).le).comp
    (continuous_id.div_const rEff))

/-- **C64** `sersic_enclosed(r)` is the flux of the Sersic profile with intensity `amplitude`
at `r_eff` inside the ellipse of semi major axis `r`. -/
theorem C64_integral {r amplitude rEff n ellip : ℝ} (hn : 0 < n) (hre : 0 < rEff)
    (hr : 0 ≤ r) :
    sersicEnclosed r amplitude rEff n ellip =
      Spec.enclosed (Spec.sersic (bn n) amplitude rEff n) (1 - ellip) r := by
  have hb := bn_pos hn
  have hs : (0 : ℝ) < 2 * n := by linarith
  have hxc := sersicX_continuous (rEff := rEff) hn
  have hd : ∀ t ∈ Ioo 0 r, HasDerivAt (fun t => sersicEnclosed t amplitude rEff n ellip)
      (2 * π * t * Spec.sersic (bn n) amplitude rEff n t * (1 - ellip)) t := by
    intro t ht
    have hu : 0 < t / rEff := div_pos ht.1 hre
    have hx : 0 < bn n * (t / rEff) ^ (1 / n) := mul_pos hb (Real.rpow_pos_of_pos hu _)
    have h1 : HasDerivAt (fun t : ℝ => t / rEff) (1 / rEff) t := (hasDerivAt_id t).div_const _
    have h2 := (h1.rpow_const (p := 1 / n) (Or.inl hu.ne')).const_mul (bn n)
    have h3 := ((lowerGamma_hasDerivAt (2 * n) hs hx).comp t h2).const_mul
      (fluxScale amplitude rEff n ellip)
    have h4 : (fun t => sersicEnclosed t amplitude rEff n ellip) = fun t =>
        fluxScale amplitude rEff n ellip *
          (lowerGamma (2 * n) ∘ fun t => bn n * (t / rEff) ^ (1 / n)) t := by
      funext t
      rw [sersicEnclosed_eq _ _ _ _ _ hn]
      rfl
    rw [h4]
    refine h3.congr_deriv ?_
    have h5 := rpow_chain hb hu hn
    have h6 : (bn n * (t / rEff) ^ (1 / n)) ^ (2 * n - 1) *
        (bn n * (1 / rEff * (1 / n) * (t / rEff) ^ (1 / n - 1))) =
        bn n ^ (2 * n) * (t / rEff) / n / rEff := by
      rw [← h5]
      ring
    have h7 : Real.exp (-(bn n * ((t / rEff) ^ (1 / n) - 1))) =
        Real.exp (bn n) * Real.exp (-(bn n * (t / rEff) ^ (1 / n))) := by
      rw [← Real.exp_add]
      congr 1
      ring
    rw [mul_assoc (Real.exp _), h6]
    unfold fluxScale Spec.sersic
    rw [h7]
    have h8 := (Real.rpow_pos_of_pos hb (2 * n)).ne'
    field_simp
  have hc : ContinuousOn (fun t => sersicEnclosed t amplitude rEff n ellip) (Icc 0 r) := by
    have : ∀ t, sersicEnclosed t amplitude rEff n ellip =
        fluxScale amplitude rEff n ellip *
          (lowerGamma (2 * n) ((fun t => bn n * (t / rEff) ^ (1 / n)) t)) :=
      fun t => sersicEnclosed_eq _ _ _ _ _ hn
    simp only [this]
    refine continuousOn_const.mul
      ((lowerGamma_continuousOn (2 * n) hs).comp hxc.continuousOn ?_)
    intro t ht
    exact mul_nonneg hb.le (Real.rpow_nonneg (div_nonneg ht.1 hre.le) _)
  have hi : IntervalIntegrable
      (fun t => 2 * π * t * Spec.sersic (bn n) amplitude rEff n t * (1 - ellip))
      MeasureTheory.volume 0 r := by
    refine Continuous.intervalIntegrable ?_ _ _
    have : Continuous fun t : ℝ => Spec.sersic (bn n) amplitude rEff n t := by
      unfold Spec.sersic
      exact continuous_const.mul (Real.continuous_exp.comp (continuous_const.mul
        (((Real.continuous_rpow_const (one_div_pos.2 hn).le).comp
          (continuous_id.div_const rEff)).sub continuous_const)).neg)
    exact ((continuous_const.mul continuous_id).mul this).mul continuous_const
  have := intervalIntegral.integral_eq_sub_of_hasDerivAt_of_le hr hc hd hi
  unfold Spec.enclosed
  rw [this, sersicEnclosed_eq 0 _ _ _ _ hn, zero_div,
    Real.zero_rpow (one_div_pos.2 hn).ne', mul_zero, lowerGamma_zero, mul_zero, sub_zero]

/-- **C64** no flux at radius 0. -/
theorem C64_zero {amplitude rEff n ellip : ℝ} (hn : 0 < n) :
    sersicEnclosed 0 amplitude rEff n ellip = 0 := by
  rw [sersicEnclosed_eq _ _ _ _ _ hn, zero_div, Real.zero_rpow (one_div_pos.2 hn).ne',
    mul_zero, lowerGamma_zero, mul_zero]

theorem sersicX_strictMono {rEff n : ℝ} (hn : 0 < n) (hre : 0 < rEff) :
    StrictMonoOn (fun t : ℝ => bn n * (t / rEff) ^ (1 / n)) (Ici 0) := by
  intro x hx y hy hxy
  exact mul_lt_mul_of_pos_left (Real.rpow_lt_rpow (div_nonneg hx hre.le)
    (div_lt_div_of_pos_right hxy hre) (one_div_pos.2 hn)) (bn_pos hn)

theorem sersicX_nonneg {rEff n t : ℝ} (hn : 0 < n) (hre : 0 < rEff) (ht : 0 ≤ t) :
    0 ≤ bn n * (t / rEff) ^ (1 / n) :=
  mul_nonneg (bn_pos hn).le (Real.rpow_nonneg (div_nonneg ht hre.le) _)

theorem sersicX_pos {rEff n t : ℝ} (hn : 0 < n) (hre : 0 < rEff) (ht : 0 < t) :
    0 < bn n * (t / rEff) ^ (1 / n) :=
  mul_pos (bn_pos hn) (Real.rpow_pos_of_pos (div_pos ht hre) _)

/-- **C64** the enclosed flux of a positive profile is strictly increasing. -/
theorem C64_increasing {amplitude rEff n ellip : ℝ} (ha : 0 < amplitude) (hn : 0 < n)
    (hre : 0 < rEff) (he : ellip < 1) :
    StrictMonoOn (fun r => sersicEnclosed r amplitude rEff n ellip) (Ici 0) := by
  intro x hx y hy hxy
  simp only [sersicEnclosed_eq _ _ _ _ _ hn]
  refine mul_lt_mul_of_pos_left ?_ (fluxScale_pos ha hre hn he)
  exact lowerGamma_strictMono (2 * n) (by linarith) (sersicX_nonneg hn hre hx)
    (sersicX_nonneg hn hre hy) (sersicX_strictMono hn hre hx hy hxy)

/-- **C64** the enclosed flux is linear in the amplitude. -/
theorem C64_linear (r c a₁ a₂ rEff n ellip : ℝ) :
    sersicEnclosed r (c * a₁ + a₂) rEff n ellip =
      c * sersicEnclosed r a₁ rEff n ellip + sersicEnclosed r a₂ rEff n ellip := by
  unfold sersicEnclosed
  ring

/-- Inputs meeting the hypotheses of C64. -/
example : sersicEnclosed 3 10 2 4 (1 / 4) =
    Spec.enclosed (Spec.sersic (bn 4) 10 2 4) (1 - 1 / 4) 3 :=
  C64_integral (by norm_num) (by norm_num) (by norm_num)

/-! ### C65: the half light radius -/

/-- **C65** the coefficient computed by the code is the one for which `r_eff` is the half
light radius, and the only one. -/
theorem C65_coefficient {n : ℝ} (hn : 0 < n) (b : ℝ) : Spec.HalfLight b n ↔ b = bn n := by
  have hs : (0 : ℝ) < 2 * n := by linarith
  have hg := Real.Gamma_pos_of_pos hs
  have key : ∀ b, (∫ t in (0 : ℝ)..b, Real.exp (-t) * t ^ (2 * n - 1) =
      (∫ t in Set.Ioi (0 : ℝ), Real.exp (-t) * t ^ (2 * n - 1)) / 2) ↔
      gammainc (2 * n) b = 1 / 2 := by
    intro b
    rw [← Real.Gamma_eq_integral hs]
    unfold gammainc lowerGamma
    rw [div_eq_div_iff hg.ne' (by norm_num), eq_div_iff (by norm_num), one_mul]
  unfold Spec.HalfLight
  rw [key]
  constructor
  · rintro ⟨h0, h⟩
    exact (gammaincinv_unique (2 * n) hs h0.le h).symm
  · rintro rfl
    exact ⟨bn_pos hn, bn_half hn⟩

/-- **C65** the enclosed flux tends to a total, and the flux inside `r_eff` is exactly half
of it. -/
theorem C65_half {amplitude rEff n ellip : ℝ} (hn : 0 < n) (hre : 0 < rEff) :
    ∃ total, Tendsto (fun r => sersicEnclosed r amplitude rEff n ellip) atTop (𝓝 total) ∧
      sersicEnclosed rEff amplitude rEff n ellip = total / 2 ∧
      total = 2 * π * n * amplitude * rEff ^ 2 * (1 - ellip) * Real.exp (bn n) *
        Real.Gamma (2 * n) / bn n ^ (2 * n) := by
  have hs : (0 : ℝ) < 2 * n := by linarith
  have hx : Tendsto (fun t : ℝ => bn n * (t / rEff) ^ (1 / n)) atTop atTop :=
    ((tendsto_rpow_atTop (one_div_pos.2 hn)).comp
      (tendsto_id.atTop_div_const hre)).const_mul_atTop (bn_pos hn)
  refine ⟨fluxScale amplitude rEff n ellip * Real.Gamma (2 * n), ?_, ?_, ?_⟩
  · simp only [sersicEnclosed_eq _ _ _ _ _ hn]
    exact ((lowerGamma_tendsto (2 * n) hs).comp hx).const_mul _
  · rw [sersicEnclosed_eq _ _ _ _ _ hn, div_self hre.ne', Real.one_rpow, mul_one,
      ← gamma_mul_gammainc _ _ hs, bn_half hn]
    ring
  · unfold fluxScale
    ring

/-- The limit of the enclosed flux. -/
theorem total_unique {amplitude rEff n ellip total : ℝ} (hn : 0 < n) (hre : 0 < rEff)
    (ht : Tendsto (fun r => sersicEnclosed r amplitude rEff n ellip) atTop (𝓝 total)) :
    total = fluxScale amplitude rEff n ellip * Real.Gamma (2 * n) := by
  obtain ⟨t, h1, -, h3⟩ := C65_half (amplitude := amplitude) (ellip := ellip) hn hre
  rw [tendsto_nhds_unique ht h1, h3]
  unfold fluxScale
  ring

/-- **C65** for whatever value the enclosed flux tends to, half of it is inside `r_eff`. -/
theorem C65_half_limit {amplitude rEff n ellip total : ℝ} (hn : 0 < n) (hre : 0 < rEff)
    (ht : Tendsto (fun r => sersicEnclosed r amplitude rEff n ellip) atTop (𝓝 total)) :
    2 * sersicEnclosed rEff amplitude rEff n ellip = total := by
  obtain ⟨t, h1, h2, -⟩ := C65_half (amplitude := amplitude) (ellip := ellip) hn hre
  rw [tendsto_nhds_unique ht h1, h2]
  ring

example : ∃ total, Tendsto (fun r => sersicEnclosed r 3 5 (1 / 2) 0) atTop (𝓝 total) ∧
    2 * sersicEnclosed 5 3 5 (1 / 2) 0 = total := by
  obtain ⟨t, h, -, -⟩ := C65_half (amplitude := 3) (rEff := 5) (n := 1 / 2) (ellip := 0)
    (by norm_num) (by norm_num)
  exact ⟨t, h, C65_half_limit (by norm_num) (by norm_num) h⟩

/-! ### C66: the inverse -/

/-- **C66** `sersic_enclosed_inv` recovers the radius from the enclosed flux. -/
theorem C66_radius {r amplitude rEff n ellip : ℝ} (ha : amplitude ≠ 0) (hn : 0 < n)
    (hre : 0 < rEff) (he : ellip ≠ 1) (hr : 0 ≤ r) :
    sersicEnclosedInv (sersicEnclosed r amplitude rEff n ellip) amplitude rEff n ellip = r := by
  have hs : (0 : ℝ) < 2 * n := by linarith
  have hb := bn_pos hn
  have hx := sersicX_nonneg hn hre hr
  unfold sersicEnclosedInv
  simp only []
  have h1 : sersicEnclosed r amplitude rEff n ellip /
      (amplitude * rEff ^ 2 * 2 * π * n * (Real.exp (bn n) / bn n ^ (2 * n)) * (1 - ellip)) /
      Real.Gamma (2 * n) = gammainc (2 * n) (bn n * (r / rEff) ^ (1 / n)) := by
    rw [sersicEnclosed_eq _ _ _ _ _ hn]
    have := fluxScale_ne ha hre hn he
    change fluxScale amplitude rEff n ellip * _ / fluxScale amplitude rEff n ellip / _ = _
    rw [mul_div_cancel_left₀ _ this]
    rfl
  rw [h1, gammaincinv_unique (2 * n) hs hx rfl, mul_div_cancel_left₀ _ hb.ne',
    ← Real.rpow_mul (div_nonneg hr hre.le), one_div_mul_cancel hn.ne', Real.rpow_one,
    div_mul_cancel₀ _ hre.ne']

/-- **C66** `sersic_enclosed_inv(f)` encloses the flux `f`, for every flux below the total. -/
theorem C66_flux {f amplitude rEff n ellip total : ℝ} (ha : 0 < amplitude) (hn : 0 < n)
    (hre : 0 < rEff) (he : ellip < 1)
    (ht : Tendsto (fun r => sersicEnclosed r amplitude rEff n ellip) atTop (𝓝 total))
    (hf0 : 0 ≤ f) (hf : f < total) :
    sersicEnclosed (sersicEnclosedInv f amplitude rEff n ellip) amplitude rEff n ellip = f ∧
      0 ≤ sersicEnclosedInv f amplitude rEff n ellip := by
  have hs : (0 : ℝ) < 2 * n := by linarith
  have hg := Real.Gamma_pos_of_pos hs
  have hb := bn_pos hn
  have hS := fluxScale_pos ha hre hn he
  rw [total_unique hn hre ht] at hf
  have h0 : 0 ≤ f / fluxScale amplitude rEff n ellip / Real.Gamma (2 * n) := by positivity
  have h1 : f / fluxScale amplitude rEff n ellip / Real.Gamma (2 * n) < 1 := by
    rw [div_div, div_lt_one (by positivity)]
    exact hf
  obtain ⟨g0, g1⟩ := gammaincinv_spec (2 * n) hs h0 h1
  have e : sersicEnclosedInv f amplitude rEff n ellip =
      (gammaincinv (2 * n) (f / fluxScale amplitude rEff n ellip / Real.Gamma (2 * n)) /
        bn n) ^ n * rEff := rfl
  constructor
  · rw [sersicEnclosed_eq _ _ _ _ _ hn, e, mul_div_cancel_right₀ _ hre.ne',
      ← Real.rpow_mul (div_nonneg g0 hb.le), mul_one_div_cancel hn.ne', Real.rpow_one,
      mul_div_cancel₀ _ hb.ne', ← gamma_mul_gammainc _ _ hs, g1]
    field_simp
  · rw [e]
    exact mul_nonneg (Real.rpow_nonneg (div_nonneg g0 hb.le) _) hre.le

/-- The hypotheses of C66 can be met: half of the total is a flux below the total. -/
example : sersicEnclosedInv (sersicEnclosed 7 2 3 4 (1 / 2)) 2 3 4 (1 / 2) = 7 :=
  C66_radius (by norm_num) (by norm_num) (by norm_num) (by norm_num) (by norm_num)

example : ∃ f, 0 < f ∧
    sersicEnclosed (sersicEnclosedInv f 2 3 4 (1 / 2)) 2 3 4 (1 / 2) = f := by
  obtain ⟨t, h1, h2, -⟩ := C65_half (amplitude := 2) (rEff := 3) (n := 4) (ellip := 1 / 2)
    (by norm_num) (by norm_num)
  have hpos : 0 < sersicEnclosed 3 2 3 4 (1 / 2) := by
    have := C64_increasing (amplitude := 2) (rEff := 3) (n := 4) (ellip := 1 / 2) (by norm_num)
      (by norm_num) (by norm_num) (by norm_num) (mem_Ici.2 (le_refl (0 : ℝ)))
      (mem_Ici.2 (by norm_num : (0 : ℝ) ≤ 3)) (by norm_num)
    simp only [C64_zero (by norm_num : (0 : ℝ) < 4)] at this
    exact this
  exact ⟨_, hpos, (C66_flux (by norm_num) (by norm_num) (by norm_num) (by norm_num) h1 hpos.le
    (by linarith)).1⟩

/-! ### C67: the Petrosian profile -/

theorem petrosianProfile_eq (r rEff n : ℝ) (hn : 0 < n) :
    petrosianProfile r rEff n = etaOf (2 * n) (bn n * (r / rEff) ^ (1 / n)) := by
  unfold petrosianProfile etaOf
  simp only []
  rw [gamma_mul_gammainc _ _ (by linarith)]

/-- **C67** `petrosian_profile(r)` is the local intensity over the mean intensity inside `r`
of the Sersic profile, whatever its amplitude. -/
theorem C67_ratio {r amplitude rEff n : ℝ} (ha : amplitude ≠ 0) (hn : 0 < n) (hre : 0 < rEff)
    (hr : 0 < r) :
    petrosianProfile r rEff n = Spec.petroRatio (Spec.sersic (bn n) amplitude rEff n) r := by
  have hb := bn_pos hn
  have hs : (0 : ℝ) < 2 * n := by linarith
  have hu : 0 < r / rEff := div_pos hr hre
  have hg := lowerGamma_pos (2 * n) hs (sersicX_pos hn hre hr)
  unfold Spec.petroRatio
  have h1 := C64_integral (amplitude := amplitude) (ellip := 0) hn hre hr.le
  rw [sub_zero] at h1
  rw [← h1, sersicEnclosed_eq _ _ _ _ _ hn, petrosianProfile_eq _ _ _ hn]
  unfold etaOf fluxScale Spec.sersic
  have h7 : Real.exp (-(bn n * ((r / rEff) ^ (1 / n) - 1))) =
      Real.exp (bn n) * Real.exp (-(bn n * (r / rEff) ^ (1 / n))) := by
    rw [← Real.exp_add]
    congr 1
    ring
  have h8 : (bn n * (r / rEff) ^ (1 / n)) ^ (2 * n) = bn n ^ (2 * n) * (r / rEff) ^ 2 := by
    rw [Real.mul_rpow hb.le (Real.rpow_pos_of_pos hu _).le, ← Real.rpow_mul hu.le]
    have : 1 / n * (2 * n) = 2 := by field_simp
    rw [this, ← Real.rpow_natCast]
    norm_num
  have h9 := (Real.rpow_pos_of_pos hb (2 * n)).ne'
  have h10 := (Real.exp_pos (bn n)).ne'
  have h11 := Real.pi_pos.ne'
  rw [h7, h8]
  generalize lowerGamma (2 * n) (bn n * (r / rEff) ^ (1 / n)) = G at hg
  generalize Real.exp (-(bn n * (r / rEff) ^ (1 / n))) = E
  generalize bn n ^ (2 * n) = B at h9
  generalize Real.exp (bn n) = E' at h10
  have := hg.ne'
  have := hr.ne'
  field_simp
  ring

/-- **C67** the profile is between 0 and 1. -/
theorem C67_range {r rEff n : ℝ} (hn : 0 < n) (hre : 0 < rEff) (hr : 0 < r) :
    0 < petrosianProfile r rEff n ∧ petrosianProfile r rEff n < 1 := by
  rw [petrosianProfile_eq _ _ _ hn]
  exact ⟨etaOf_pos _ (by linarith) (sersicX_pos hn hre hr),
    etaOf_lt_one _ (by linarith) (sersicX_pos hn hre hr)⟩

/-- **C67** the profile is strictly decreasing. -/
theorem C67_decreasing {rEff n : ℝ} (hn : 0 < n) (hre : 0 < rEff) :
    StrictAntiOn (fun r => petrosianProfile r rEff n) (Ioi 0) := by
  intro x hx y hy hxy
  simp only [petrosianProfile_eq _ _ _ hn]
  exact etaOf_strictAnti (2 * n) (by linarith) (sersicX_pos hn hre hx) (sersicX_pos hn hre hy)
    (sersicX_strictMono hn hre (mem_Ici.2 (le_of_lt hx)) (mem_Ici.2 (le_of_lt hy)) hxy)

/-- **C67** the profile tends to 1 at the centre. -/
theorem C67_centre {rEff n : ℝ} (hn : 0 < n) (hre : 0 < rEff) :
    Tendsto (fun r => petrosianProfile r rEff n) (𝓝[>] 0) (𝓝 1) := by
  simp only [petrosianProfile_eq _ _ _ hn]
  refine (etaOf_tendsto_zero (2 * n) (by linarith)).comp ?_
  rw [tendsto_nhdsWithin_iff]
  constructor
  · have := (sersicX_continuous (rEff := rEff) hn).tendsto 0
    rw [zero_div, Real.zero_rpow (one_div_pos.2 hn).ne', mul_zero] at this
    exact this.mono_left nhdsWithin_le_nhds
  · filter_upwards [self_mem_nhdsWithin] with x hx using sersicX_pos hn hre hx

/-- **C67** the profile tends to 0 at infinity. -/
theorem C67_infinity {rEff n : ℝ} (hn : 0 < n) (hre : 0 < rEff) :
    Tendsto (fun r => petrosianProfile r rEff n) atTop (𝓝 0) := by
  simp only [petrosianProfile_eq _ _ _ hn]
  exact (etaOf_tendsto_top (2 * n) (by linarith)).comp
    (((tendsto_rpow_atTop (one_div_pos.2 hn)).comp
      (tendsto_id.atTop_div_const hre)).const_mul_atTop (bn_pos hn))

/-- **C67** every eta between 0 and 1 is the Petrosian ratio at exactly one radius. -/
theorem C67_unique_radius {rEff n eta : ℝ} (hn : 0 < n) (hre : 0 < rEff) (h0 : 0 < eta)
    (h1 : eta < 1) : ∃! r, 0 < r ∧ petrosianProfile r rEff n = eta := by
  have hb := bn_pos hn
  obtain ⟨x, hx, hxe⟩ := etaOf_surj (2 * n) (by linarith) h0 h1
  have hr : 0 < (x / bn n) ^ n * rEff :=
    mul_pos (Real.rpow_pos_of_pos (div_pos hx hb) _) hre
  have he : petrosianProfile ((x / bn n) ^ n * rEff) rEff n = eta := by
    rw [petrosianProfile_eq _ _ _ hn, mul_div_cancel_right₀ _ hre.ne',
      ← Real.rpow_mul (div_pos hx hb).le, mul_one_div_cancel hn.ne', Real.rpow_one,
      mul_div_cancel₀ _ hb.ne', hxe]
  refine ⟨_, ⟨hr, he⟩, ?_⟩
  rintro r' ⟨hr', he'⟩
  exact (C67_decreasing hn hre).injOn hr' hr (he'.trans he.symm)

/-- The usual `eta = 0.2` and a de Vaucouleurs profile meet the hypotheses of C67. -/
example : ∃! r, 0 < r ∧ petrosianProfile r 10 4 = 0.2 :=
  C67_unique_radius (by norm_num) (by norm_num) (by norm_num) (by norm_num)

/-! ### C68: `GenSersic2D` -/

/-- **C68** with `c_0 = 0` the value is the Sersic intensity at the elliptical radius. -/
theorem C68_sersic {x y amplitude rEff n x0 y0 ellip theta : ℝ} (hre : 0 < rEff) :
    genSersic2D x y amplitude rEff n x0 y0 ellip theta 0 =
      Spec.sersic (bn n) amplitude rEff n (Spec.ellRadius x y x0 y0 ellip theta) := by
  unfold genSersic2D Spec.sersic Spec.ellRadius
  simp only []
  set u := (x - x0) * Real.cos theta + (y - y0) * Real.sin theta
  set v := -(x - x0) * Real.sin theta + (y - y0) * Real.cos theta
  have hz : (|u / rEff| ^ ((0 : ℝ) + 2) + |v / ((1 - ellip) * rEff)| ^ ((0 : ℝ) + 2)) ^
      (1 / ((0 : ℝ) + 2)) = √(u ^ 2 + (v / (1 - ellip)) ^ 2) / rEff := by
    rw [zero_add, Real.rpow_two, Real.rpow_two, sq_abs, sq_abs, ← Real.sqrt_eq_rpow]
    have : (u / rEff) ^ 2 + (v / ((1 - ellip) * rEff)) ^ 2 =
        (u ^ 2 + (v / (1 - ellip)) ^ 2) / rEff ^ 2 := by
      rw [← div_div, div_pow, div_pow (v / (1 - ellip))]
      ring
    rw [this, Real.sqrt_div' _ (by positivity), Real.sqrt_sq hre.le]
  rw [hz, neg_mul]

/-- **C68** the value at distance `r_eff` along the major axis is `amplitude`, for every
boxiness. -/
theorem C68_effective {amplitude rEff n x0 y0 ellip theta c0 : ℝ} (hre : 0 < rEff)
    (hc : -2 < c0) :
    genSersic2D (x0 + rEff * Real.cos theta) (y0 + rEff * Real.sin theta) amplitude rEff n x0 y0
      ellip theta c0 = amplitude := by
  have hp : 0 < c0 + 2 := by linarith
  unfold genSersic2D
  simp only [add_sub_cancel_left]
  have h1 : rEff * Real.cos theta * Real.cos theta + rEff * Real.sin theta * Real.sin theta =
      rEff := by
    have := Real.sin_sq_add_cos_sq theta
    linear_combination rEff * this
  have h2 : -(rEff * Real.cos theta) * Real.sin theta + rEff * Real.sin theta * Real.cos theta =
      0 := by ring
  rw [h1, h2, div_self hre.ne', zero_div, abs_one, abs_zero, Real.one_rpow,
    Real.zero_rpow hp.ne', add_zero, Real.one_rpow, Real.one_rpow]
  simp

/-- **C68** the value at distance `(1 - ellip) r_eff` along the minor axis is `amplitude`
too. -/
theorem C68_effective_minor {amplitude rEff n x0 y0 ellip theta c0 : ℝ} (hre : 0 < rEff)
    (he : ellip < 1) (hc : -2 < c0) :
    genSersic2D (x0 - (1 - ellip) * rEff * Real.sin theta)
      (y0 + (1 - ellip) * rEff * Real.cos theta) amplitude rEff n x0 y0
      ellip theta c0 = amplitude := by
  have hp : 0 < c0 + 2 := by linarith
  have hb : (1 - ellip) * rEff ≠ 0 := (mul_pos (by linarith) hre).ne'
  unfold genSersic2D
  simp only [add_sub_cancel_left, sub_sub_cancel_left]
  set b := (1 - ellip) * rEff
  have h1 : -(b * Real.sin theta) * Real.cos theta + b * Real.cos theta * Real.sin theta =
      0 := by ring
  have h2 : - -(b * Real.sin theta) * Real.sin theta + b * Real.cos theta * Real.cos theta =
      b := by
    have := Real.sin_sq_add_cos_sq theta
    linear_combination b * this
  rw [h1, h2, div_self hb, zero_div, abs_one, abs_zero, Real.one_rpow,
    Real.zero_rpow hp.ne', zero_add, Real.one_rpow, Real.one_rpow]
  simp

/-- **C68** the value at the centre is `amplitude * exp(b_n)`, which is what `Ie_to_I0`
returns. -/
theorem C68_centre {amplitude rEff n x0 y0 ellip theta c0 : ℝ} (hn : 0 < n) (hc : -2 < c0) :
    genSersic2D x0 y0 amplitude rEff n x0 y0 ellip theta c0 = amplitude * Real.exp (bn n) ∧
      genSersic2D x0 y0 amplitude rEff n x0 y0 ellip theta c0 = ieToI0 amplitude n := by
  have hp : 0 < c0 + 2 := by linarith
  have : genSersic2D x0 y0 amplitude rEff n x0 y0 ellip theta c0 =
      amplitude * Real.exp (bn n) := by
    unfold genSersic2D
    simp only [sub_self, neg_zero, zero_mul, add_zero, zero_div, abs_zero]
    rw [Real.zero_rpow hp.ne', add_zero, Real.zero_rpow (one_div_pos.2 hp).ne',
      Real.zero_rpow (one_div_pos.2 hn).ne']
    simp
  exact ⟨this, this⟩

/-- **C68** the profile is point symmetric about its centre. -/
theorem C68_symmetric (dx dy amplitude rEff n x0 y0 ellip theta c0 : ℝ) :
    genSersic2D (x0 - dx) (y0 - dy) amplitude rEff n x0 y0 ellip theta c0 =
      genSersic2D (x0 + dx) (y0 + dy) amplitude rEff n x0 y0 ellip theta c0 := by
  unfold genSersic2D
  simp only [add_sub_cancel_left, sub_sub_cancel_left]
  have h1 : -dx * Real.cos theta + -dy * Real.sin theta =
      -(dx * Real.cos theta + dy * Real.sin theta) := by ring
  have h2 : - -dx * Real.sin theta + -dy * Real.cos theta =
      -(-dx * Real.sin theta + dy * Real.cos theta) := by ring
  rw [h1, h2, neg_div, neg_div, abs_neg, abs_neg]

/-- **C68** turning the ellipse by a half turn changes nothing. -/
theorem C68_half_turn (x y amplitude rEff n x0 y0 ellip theta c0 : ℝ) :
    genSersic2D x y amplitude rEff n x0 y0 ellip (theta + π) c0 =
      genSersic2D x y amplitude rEff n x0 y0 ellip theta c0 := by
  unfold genSersic2D
  simp only [Real.cos_add_pi, Real.sin_add_pi]
  have h1 : (x - x0) * -Real.cos theta + (y - y0) * -Real.sin theta =
      -((x - x0) * Real.cos theta + (y - y0) * Real.sin theta) := by ring
  have h2 : -(x - x0) * -Real.sin theta + (y - y0) * -Real.cos theta =
      -(-(x - x0) * Real.sin theta + (y - y0) * Real.cos theta) := by ring
  rw [h1, h2, neg_div, neg_div, abs_neg, abs_neg]

/-- **C68** the profile turns with `theta`: turning the point and the ellipse by the same
angle changes nothing. -/
theorem C68_turn (dx dy amplitude rEff n x0 y0 ellip theta phi c0 : ℝ) :
    genSersic2D (x0 + (dx * Real.cos phi - dy * Real.sin phi))
      (y0 + (dx * Real.sin phi + dy * Real.cos phi)) amplitude rEff n x0 y0 ellip
      (theta + phi) c0 =
    genSersic2D (x0 + dx) (y0 + dy) amplitude rEff n x0 y0 ellip theta c0 := by
  unfold genSersic2D
  simp only [add_sub_cancel_left, Real.cos_add, Real.sin_add]
  have hp := Real.sin_sq_add_cos_sq phi
  have h1 : (dx * Real.cos phi - dy * Real.sin phi) *
      (Real.cos theta * Real.cos phi - Real.sin theta * Real.sin phi) +
      (dx * Real.sin phi + dy * Real.cos phi) *
      (Real.sin theta * Real.cos phi + Real.cos theta * Real.sin phi) =
      dx * Real.cos theta + dy * Real.sin theta := by
    linear_combination (dx * Real.cos theta + dy * Real.sin theta) * hp
  have h2 : -(dx * Real.cos phi - dy * Real.sin phi) *
      (Real.sin theta * Real.cos phi + Real.cos theta * Real.sin phi) +
      (dx * Real.sin phi + dy * Real.cos phi) *
      (Real.cos theta * Real.cos phi - Real.sin theta * Real.sin phi) =
      -dx * Real.sin theta + dy * Real.cos theta := by
    linear_combination (-dx * Real.sin theta + dy * Real.cos theta) * hp
  rw [h1, h2]

/-- **C68** positive amplitudes give positive values. -/
theorem C68_positive {x y amplitude rEff n x0 y0 ellip theta c0 : ℝ} (ha : 0 < amplitude) :
    0 < genSersic2D x y amplitude rEff n x0 y0 ellip theta c0 :=
  mul_pos ha (Real.exp_pos _)

/-- **C68** the profile decreases strictly along every ray from the centre. -/
theorem C68_decreasing {dx dy amplitude rEff n x0 y0 ellip theta c0 : ℝ}
    (ha : 0 < amplitude) (hre : 0 < rEff) (hn : 0 < n) (he : ellip < 1) (hc : -2 < c0)
    (hd : dx ≠ 0 ∨ dy ≠ 0) :
    StrictAntiOn (fun t => genSersic2D (x0 + t * dx) (y0 + t * dy) amplitude rEff n x0 y0
      ellip theta c0) (Ici 0) := by
  have hp : 0 < c0 + 2 := by linarith
  have hb : 0 < (1 - ellip) * rEff := mul_pos (by linarith) hre
  set u := dx * Real.cos theta + dy * Real.sin theta with hu
  set v := -dx * Real.sin theta + dy * Real.cos theta with hv
  have huv : u ≠ 0 ∨ v ≠ 0 := by
    by_contra h
    push Not at h
    have hs := Real.sin_sq_add_cos_sq theta
    have h1 : dx = u * Real.cos theta - v * Real.sin theta := by
      rw [hu, hv]
      linear_combination (-dx) * hs
    have h2 : dy = u * Real.sin theta + v * Real.cos theta := by
      rw [hu, hv]
      linear_combination (-dy) * hs
    rw [h.1, h.2] at h1 h2
    simp only [zero_mul, sub_zero, add_zero] at h1 h2
    exact hd.elim (fun h => h h1) (fun h => h h2)
  have hw : 0 < |u / rEff| ^ (c0 + 2) + |v / ((1 - ellip) * rEff)| ^ (c0 + 2) := by
    rcases huv with h | h
    · exact add_pos_of_pos_of_nonneg
        (Real.rpow_pos_of_pos (abs_pos.2 (div_ne_zero h hre.ne')) _)
        (Real.rpow_nonneg (abs_nonneg _) _)
    · exact add_pos_of_nonneg_of_pos (Real.rpow_nonneg (abs_nonneg _) _)
        (Real.rpow_pos_of_pos (abs_pos.2 (div_ne_zero h hb.ne')) _)
  set w := |u / rEff| ^ (c0 + 2) + |v / ((1 - ellip) * rEff)| ^ (c0 + 2) with hwd
  have hval : ∀ t : ℝ, 0 ≤ t → genSersic2D (x0 + t * dx) (y0 + t * dy) amplitude rEff n x0 y0
      ellip theta c0 =
      amplitude * Real.exp (-bn n * ((t * w ^ (1 / (c0 + 2))) ^ (1 / n) - 1)) := by
    intro t ht
    unfold genSersic2D
    simp only [add_sub_cancel_left]
    have h1 : t * dx * Real.cos theta + t * dy * Real.sin theta = t * u := by rw [hu]; ring
    have h2 : -(t * dx) * Real.sin theta + t * dy * Real.cos theta = t * v := by rw [hv]; ring
    rw [h1, h2, mul_div_assoc, mul_div_assoc, abs_mul, abs_mul, abs_of_nonneg ht,
      Real.mul_rpow ht (abs_nonneg _), Real.mul_rpow ht (abs_nonneg _), ← mul_add, ← hwd,
      Real.mul_rpow (Real.rpow_nonneg ht _) hw.le, ← Real.rpow_mul ht,
      mul_one_div_cancel hp.ne', Real.rpow_one]
  intro s hs t ht hst
  have hs : 0 ≤ s := hs
  have ht : 0 ≤ t := ht
  simp only [hval s hs, hval t ht]
  refine mul_lt_mul_of_pos_left (Real.exp_lt_exp.2 ?_) ha
  have hz := Real.rpow_pos_of_pos hw (1 / (c0 + 2))
  have := Real.rpow_lt_rpow (mul_nonneg hs hz.le) (mul_lt_mul_of_pos_right hst hz)
    (one_div_pos.2 hn)
  have := mul_lt_mul_of_pos_left this (bn_pos hn)
  linarith

example : genSersic2D (5 + 2 * Real.cos 1) (6 + 2 * Real.sin 1) 3 2 4 5 6 (1 / 2) 1 1 = 3 :=
  C68_effective (by norm_num) (by norm_num)

/-! ### C69: `Nuker2D` -/

/-- Sanity of the specification: the Nuker law has intensity `Ib` at the break radius. -/
theorem nuker_break {ib rb alpha beta gamma : ℝ} (hrb : 0 < rb) :
    Spec.nuker ib rb alpha beta gamma rb = ib := by
  unfold Spec.nuker
  rw [div_self hrb.ne', Real.one_rpow, Real.one_rpow, mul_one, one_add_one_eq_two, mul_assoc,
    ← Real.rpow_add (by norm_num)]
  have : (beta - gamma) / alpha + (gamma - beta) / alpha = 0 := by ring
  rw [this, Real.rpow_zero, mul_one]

theorem nuker_radius (x y x0 y0 : ℝ) :
    √(((x - x0) + (y - y0)) ^ 2 + (-(x - x0) + (y - y0)) ^ 2) =
      √2 * Spec.distTo x y x0 y0 := by
  unfold Spec.distTo
  rw [← Real.sqrt_mul (by norm_num)]
  congr 1
  ring

/-- **C69** what `Nuker2D` computes: the Nuker law at `√2` times the distance from the centre,
and NaN at the centre. -/
theorem C69_value (x y amplitude rBreak x0 y0 alpha betta gamma : ℝ) :
    nuker2D x y amplitude rBreak x0 y0 alpha betta gamma =
      if Spec.distTo x y x0 y0 = 0 then none
      else some (Spec.nuker amplitude rBreak alpha betta gamma
        (√2 * Spec.distTo x y x0 y0)) := by
  unfold nuker2D
  simp only [nuker_radius]
  have h2 : (√2 : ℝ) ≠ 0 := (Real.sqrt_pos.2 (by norm_num)).ne'
  by_cases h : Spec.distTo x y x0 y0 = 0
  · rw [if_pos h, if_pos (by rw [h, mul_zero])]
  · rw [if_neg h, if_neg (mul_ne_zero h2 h)]
    rfl

/-- **C69** `Nuker2D` is circularly symmetric. -/
theorem C69_symmetric {x y x' y' amplitude rBreak x0 y0 alpha betta gamma : ℝ}
    (h : Spec.distTo x y x0 y0 = Spec.distTo x' y' x0 y0) :
    nuker2D x y amplitude rBreak x0 y0 alpha betta gamma =
      nuker2D x' y' amplitude rBreak x0 y0 alpha betta gamma := by
  rw [C69_value, C69_value, h]

/-- **C69**, the part which holds of "value `amplitude` at `r_break`": the value is
`amplitude`, but at the distance `r_break / √2`. -/
theorem C69_break_partial {x y amplitude rBreak x0 y0 alpha betta gamma : ℝ}
    (hrb : 0 < rBreak) (h : Spec.distTo x y x0 y0 = rBreak / √2) :
    nuker2D x y amplitude rBreak x0 y0 alpha betta gamma = some amplitude := by
  have h2 : (0 : ℝ) < √2 := Real.sqrt_pos.2 (by norm_num)
  rw [C69_value, h, if_neg (div_pos hrb h2).ne', mul_div_cancel₀ _ h2.ne', nuker_break hrb]

/-- **C69** is violated: with the default parameters the value at distance `r_break = 1` is
`4/9`, not the amplitude 1. -/
theorem C69_break_violated :
    Spec.distTo 1 0 0 0 = 1 ∧ nuker2D 1 0 1 1 0 0 2 4 0 = some (4 / 9) := by
  have hd : Spec.distTo 1 0 0 0 = 1 := by simp [Spec.distTo]
  refine ⟨hd, ?_⟩
  rw [C69_value, hd, if_neg (by norm_num)]
  unfold Spec.nuker
  have h1 : ((√2 * 1 / 1 : ℝ)) ^ (2 : ℝ) = 2 := by
    rw [Real.rpow_two]
    norm_num
  rw [h1]
  have h3 : ((2 : ℝ)) ^ (((4 : ℝ) - 0) / 2) = 4 := by
    rw [show (((4 : ℝ) - 0) / 2) = ((2 : ℕ) : ℝ) by norm_num, Real.rpow_natCast]
    norm_num
  have h4 : ((1 : ℝ) + 2) ^ (((0 : ℝ) - 4) / 2) = 1 / 9 := by
    rw [show (((0 : ℝ) - 4) / 2) = -((2 : ℕ) : ℝ) by norm_num, Real.rpow_neg (by norm_num),
      Real.rpow_natCast]
    norm_num
  rw [h3, h4, neg_zero, Real.rpow_zero]
  norm_num

/-! ### C70: `CoreSersic2D` -/

/-- Sanity of the specification: the core-Sersic law has intensity `Ib` at the break
radius. -/
theorem coreSersic_break {b ib re rb n alpha gamma : ℝ} (hre : 0 < re) (hrb : 0 < rb)
    (hn : n ≠ 0) (ha : alpha ≠ 0) : Spec.coreSersic b ib re rb n alpha gamma rb = ib := by
  unfold Spec.coreSersic
  have h1 : ((rb ^ alpha + rb ^ alpha) / re ^ alpha) ^ (1 / (alpha * n)) =
      ((2 : ℝ) ^ (1 / alpha) * rb / re) ^ (1 / n) := by
    have e : (rb ^ alpha + rb ^ alpha) / re ^ alpha = 2 * (rb / re) ^ alpha := by
      rw [Real.div_rpow hrb.le hre.le]
      ring
    have hq := (div_pos hrb hre).le
    rw [e, mul_div_assoc, Real.mul_rpow (by norm_num) (Real.rpow_nonneg hq _),
      Real.mul_rpow (Real.rpow_nonneg (by norm_num) _) hq, ← Real.rpow_mul hq,
      ← Real.rpow_mul (by norm_num : (0 : ℝ) ≤ 2)]
    congr 2 <;> field_simp
  rw [h1, div_self hrb.ne', Real.one_rpow, one_add_one_eq_two]
  have h2 : (2 : ℝ) ^ (-(gamma / alpha)) * (2 : ℝ) ^ (gamma / alpha) = 1 := by
    rw [← Real.rpow_add (by norm_num), neg_add_cancel, Real.rpow_zero]
  have h3 : Real.exp (b * ((2 : ℝ) ^ (1 / alpha) * rb / re) ^ (1 / n)) *
      Real.exp (-(b * ((2 : ℝ) ^ (1 / alpha) * rb / re) ^ (1 / n))) = 1 := by
    rw [← Real.exp_add, add_neg_cancel, Real.exp_zero]
  linear_combination (ib * Real.exp (b * ((2 : ℝ) ^ (1 / alpha) * rb / re) ^ (1 / n)) *
      Real.exp (-(b * ((2 : ℝ) ^ (1 / alpha) * rb / re) ^ (1 / n)))) * h2 + ib * h3

/-- **C70** what `CoreSersic2D` computes: the core-Sersic law at the elliptical radius divided
by `r_eff`, although the law itself divides by `r_eff`; NaN at the centre. -/
theorem C70_value {x y amplitude rEff rBreak n x0 y0 alpha gamma ellip theta : ℝ}
    (hre : 0 < rEff) :
    coreSersic2D x y amplitude rEff rBreak n x0 y0 alpha gamma ellip theta =
      if Spec.ellRadius x y x0 y0 ellip theta = 0 then none
      else some (Spec.coreSersic (bn n) amplitude rEff rBreak n alpha gamma
        (Spec.ellRadius x y x0 y0 ellip theta / rEff)) := by
  unfold coreSersic2D
  simp only []
  set u := (x - x0) * Real.cos theta + (y - y0) * Real.sin theta with hu
  set v := -(x - x0) * Real.sin theta + (y - y0) * Real.cos theta with hv
  have hz : √((u / rEff) ^ 2 + (v / ((1 - ellip) * rEff)) ^ 2) =
      Spec.ellRadius x y x0 y0 ellip theta / rEff := by
    have : (u / rEff) ^ 2 + (v / ((1 - ellip) * rEff)) ^ 2 =
        (u ^ 2 + (v / (1 - ellip)) ^ 2) / rEff ^ 2 := by
      rw [← div_div, div_pow, div_pow (v / (1 - ellip))]
      ring
    rw [this, Real.sqrt_div' _ (by positivity), Real.sqrt_sq hre.le]
    rfl
  rw [hz]
  by_cases h : Spec.ellRadius x y x0 y0 ellip theta = 0
  · rw [if_pos h, if_pos (by rw [h, zero_div])]
  · rw [if_neg h, if_neg (div_ne_zero h hre.ne')]
    unfold Spec.coreSersic
    rw [← mul_div_assoc, neg_mul]

theorem ellRadius_circle (x y x0 y0 theta : ℝ) :
    Spec.ellRadius x y x0 y0 0 theta = Spec.distTo x y x0 y0 := by
  unfold Spec.ellRadius Spec.distTo
  congr 1
  have := Real.sin_sq_add_cos_sq theta
  rw [sub_zero, div_one]
  linear_combination ((x - x0) ^ 2 + (y - y0) ^ 2) * this

/-- **C70**, the part which holds: when `r_eff` is 1, the value at distance `r_break` is
`amplitude`; in general the value is `amplitude` at distance `r_break * r_eff`. -/
theorem C70_break_partial {x y amplitude rEff rBreak n x0 y0 alpha gamma theta : ℝ}
    (hre : 0 < rEff) (hrb : 0 < rBreak) (hn : n ≠ 0) (ha : alpha ≠ 0)
    (h : Spec.distTo x y x0 y0 = rBreak * rEff) :
    coreSersic2D x y amplitude rEff rBreak n x0 y0 alpha gamma 0 theta = some amplitude := by
  rw [C70_value hre, ellRadius_circle, h, if_neg (mul_pos hrb hre).ne',
    mul_div_cancel_right₀ _ hre.ne', coreSersic_break hre hrb hn ha]

/-- **C70** is violated: with `r_eff = 2`, `r_break = 1` the value at distance 1 from the centre
is larger than the amplitude. -/
theorem C70_break_violated :
    Spec.distTo 1 0 0 0 = 1 ∧
      ∃ v, coreSersic2D 1 0 1 2 1 1 0 0 1 0 0 0 = some v ∧ 1 < v := by
  have hd : Spec.distTo 1 0 0 0 = 1 := by simp [Spec.distTo]
  refine ⟨hd, _, by rw [C70_value (by norm_num), ellRadius_circle, hd,
    if_neg (by norm_num)], ?_⟩
  unfold Spec.coreSersic
  have hb := bn_pos (n := 1) one_pos
  norm_num
  rw [← Real.exp_add, Real.one_lt_exp_iff]
  linarith

/-! ### C71: intensities -/

/-- **C71** the conversions are inverse to each other. -/
theorem C71_inverse (i n : ℝ) : i0ToIe (ieToI0 i n) n = i ∧ ieToI0 (i0ToIe i n) n = i := by
  have := (Real.exp_pos (gammaincinv (2 * n) (1 / 2))).ne'
  unfold i0ToIe ieToI0
  exact ⟨mul_div_cancel_right₀ _ this, div_mul_cancel₀ _ this⟩

/-- **C71** `Ie_to_I0` is the value at the centre of the Sersic profile with the given
intensity at `r_eff`. -/
theorem C71_centre {ie re n : ℝ} (hn : 0 < n) (hre : 0 < re) :
    Spec.sersic (bn n) ie re n re = ie ∧ Spec.sersic (bn n) ie re n 0 = ieToI0 ie n := by
  unfold Spec.sersic ieToI0
  constructor
  · rw [div_self hre.ne', Real.one_rpow]
    simp
  · rw [zero_div, Real.zero_rpow (one_div_pos.2 hn).ne']
    simp [bn]

/-- **C71** for positive intensities the centre is brighter than the effective radius. -/
theorem C71_brighter {ie n : ℝ} (hi : 0 < ie) (hn : 0 < n) : ie < ieToI0 ie n := by
  unfold ieToI0
  have : 1 < Real.exp (gammaincinv (2 * n) (1 / 2)) := Real.one_lt_exp_iff.2 (bn_pos hn)
  nlinarith

example : i0ToIe (ieToI0 7 4) 4 = 7 := (C71_inverse 7 4).1

end Verif.Props

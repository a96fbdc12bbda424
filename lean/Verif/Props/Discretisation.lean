import Verif.Props.SimulatedRow
import Verif.Props.ModelLight

/-!
# C135: aperture photometry of a sampled profile against the light of the profile
-/

set_option linter.unusedSectionVars false
set_option linter.unusedVariables false

namespace Verif.Props

open Verif F Spec Lemmas MeasureTheory

/-- At a point on the frame the step image has the value of a pixel that contains the point. -/
theorem stepImage_pixel {h w : Nat} {p : ℝ × ℝ} (hp : -1 / 2 < p.1 ∧ p.1 ≤ (w : ℝ) - 1 / 2 ∧ -1 / 2 < p.2 ∧ p.2 ≤ (h : ℝ) - 1 / 2)
    (f : Nat → Nat → ℝ) : ∃ i j, i < h ∧ j < w ∧ p ∈ pixelSquare i j ∧ stepImage h w (fun _ _ => true) f p = f i j := by
  obtain ⟨h1, h2, h3, h4⟩ := hp
  have g1 : (0 : ℤ) ≤ ⌈p.2 - 1 / 2⌉ := by
    have : (-1 : ℤ) < ⌈p.2 - 1 / 2⌉ := by rw [Int.lt_ceil]; push_cast; linarith
    omega
  have g2 : ⌈p.2 - 1 / 2⌉ < (h : ℤ) := by
    have : ⌈p.2 - 1 / 2⌉ ≤ (h : ℤ) - 1 := by rw [Int.ceil_le]; push_cast; linarith
    omega
  have g3 : (0 : ℤ) ≤ ⌈p.1 - 1 / 2⌉ := by
    have : (-1 : ℤ) < ⌈p.1 - 1 / 2⌉ := by rw [Int.lt_ceil]; push_cast; linarith
    omega
  have g4 : ⌈p.1 - 1 / 2⌉ < (w : ℤ) := by
    have : ⌈p.1 - 1 / 2⌉ ≤ (w : ℤ) - 1 := by rw [Int.ceil_le]; push_cast; linarith
    omega
  refine ⟨⌈p.2 - 1 / 2⌉.toNat, ⌈p.1 - 1 / 2⌉.toNat, by omega, by omega, ?_, ?_⟩
  · rw [mem_pixelSquare]
    exact ⟨(Int.toNat_of_nonneg g1).symm, (Int.toNat_of_nonneg g3).symm⟩
  · unfold stepImage
    exact if_pos ⟨g1, g2, g3, g4, rfl⟩

theorem measurable_stepImage (h w : Nat) (use : Nat → Nat → Bool) (f : Nat → Nat → ℝ) : Measurable (stepImage h w use f) := by
  have : stepImage h w use f = fun p => ∑ i ∈ Finset.range h, ∑ j ∈ Finset.range w,
      (pixelSquare i j).indicator (fun _ => if use i j then f i j else 0) p := by
    funext p; exact stepImage_eq_sum h w use f p
  rw [this]
  refine Finset.measurable_fun_sum _ fun i _ => Finset.measurable_fun_sum _ fun j _ => ?_
  exact measurable_const.indicator (measurableSet_pixelSquare i j)

/-- The weighted sum over an image whose pixels are within `δ` of a function is within `δ` times the area of the integral. -/
theorem weightedSum_close (e : Ellipse ℝ) (ha : 0 < e.a) (hb : 0 < e.b) (h w : Nat) (hf : OnFrame e.set h w) {f : Nat → Nat → ℝ}
    {g : ℝ × ℝ → ℝ} (hg : IntegrableOn g e.set) {δ : ℝ}
    (hδ : ∀ i j, i < h → j < w → ∀ p ∈ pixelSquare i j, p ∈ e.set → |f i j - g p| ≤ δ) :
    |weightedSum (exactOverlap.weight e) h w (fun _ _ => true) f - ∫ p in e.set, g p| ≤ δ * (Real.pi * e.a * e.b) := by
  have hms := (ellipse_open e).measurableSet
  have hvol : volume e.set ≠ ⊤ := by rw [volume_ellipse e ha hb]; exact ENNReal.ofReal_ne_top
  have hpt : ∀ p ∈ e.set, |stepImage h w (fun _ _ => true) f p - g p| ≤ δ := by
    intro p hp
    obtain ⟨i, j, hi, hj, hm, hv⟩ := stepImage_pixel (hf p hp) f
    rw [hv]
    exact hδ i j hi hj p hm hp
  have hdint : IntegrableOn (fun p => stepImage h w (fun _ _ => true) f p - g p) e.set := by
    refine Integrable.mono' (integrableOn_const (C := δ) hvol) ?_ ?_
    · exact (measurable_stepImage h w _ f).aestronglyMeasurable.sub hg.aestronglyMeasurable
    · filter_upwards [ae_restrict_mem hms] with p hp
      rw [Real.norm_eq_abs]; exact hpt p hp
  have hsint : IntegrableOn (stepImage h w (fun _ _ => true) f) e.set := by
    refine (hdint.add hg).congr (Filter.Eventually.of_forall fun p => ?_)
    simp
  rw [C76_integral, ← integral_sub hsint hg]
  have := norm_setIntegral_le_of_norm_le_const (μ := volume) (s := e.set) (C := δ)
    (f := fun p => stepImage h w (fun _ _ => true) f p - g p) (lt_top_iff_ne_top.2 hvol) (fun p hp => by rw [Real.norm_eq_abs]; exact hpt p hp)
  rw [Real.norm_eq_abs, measureReal_def, volume_ellipse e ha hb, ENNReal.toReal_ofReal (by positivity)] at this
  exact this

/-- **C135.** If every pixel of an image is within `δ` of a light distribution `g` everywhere on the pixel, and the apertures lie on the image,
every flux of `radial_photometry` (exact method, no mask) is within `δ π r² / q + 5e-7` of the light of `g` inside the aperture. -/
theorem C135_photometry (h w : Nat) (f : Nat → Nat → ℝ) (cx cy : ℝ) (rs : List ℝ) (error : Option (Img (F ℝ))) (q t : ℝ)
    (fl ar er : List (F ℝ))
    (hres : radialPhotometry exactOverlap ⟨h, w, fun i j => fin (f i j)⟩ cx cy rs error none q t = .ok (fl, ar, er))
    (hf : ∀ r ∈ rs, OnFrame (⟨cx, cy, r, r / q, t⟩ : Ellipse ℝ).set h w) {g : ℝ × ℝ → ℝ} (hg : LocallyIntegrable g) {δ : ℝ}
    (hδ : ∀ i j, i < h → j < w → ∀ p ∈ pixelSquare i j, |f i j - g p| ≤ δ) :
    List.Forall₂ (fun r v => ∃ x, v = fin x ∧
      |x - ∫ p in (⟨cx, cy, r, r / q, t⟩ : Ellipse ℝ).set, g p| ≤ δ * (Real.pi * r ^ 2 / q) + 1 / 2 / 10 ^ 6) rs fl := by
  have h1 := (C45_rounded exactOverlap_law h w f cx cy rs error none q t fl ar er hres).1
  obtain ⟨l, hl, -, -, -⟩ := radialPhotometry_ok.1 hres
  rw [List.forall₂_iff_get] at h1 ⊢
  refine ⟨h1.1, fun k hk1 hk2 => ?_⟩
  obtain ⟨x, hx, hle⟩ := h1.2 k hk1 hk2
  refine ⟨x, hx, ?_⟩
  have hph := (List.forall₂_iff_get.1 hl).2 k hk1 (by rw [← hl.length_eq]; exact hk1)
  rcases hlk : l.get ⟨k, by rw [← hl.length_eq]; exact hk1⟩ with ⟨v, a, e'⟩
  rw [hlk] at hph
  obtain ⟨hr0, hq0, -⟩ := (photometryAt_ok exactOverlap_law).1 hph
  set r := rs.get ⟨k, hk1⟩ with hr
  set e : Ellipse ℝ := ⟨cx, cy, r, r / q, t⟩ with he
  have hb : 0 < e.b := div_pos hr0 hq0
  have hfr : OnFrame e.set h w := hf r (List.get_mem _ _)
  have hbd : e.set ⊆ Set.Icc (-1 / 2) ((w : ℝ) - 1 / 2) ×ˢ Set.Icc (-1 / 2) ((h : ℝ) - 1 / 2) := by
    intro p hp
    obtain ⟨p1, p2, p3, p4⟩ := hfr p hp
    exact ⟨⟨p1.le, p2⟩, p3.le, p4⟩
  have hgi : IntegrableOn g e.set :=
    (hg.integrableOn_isCompact (isCompact_Icc.prod isCompact_Icc)).mono_set hbd
  have hcl := weightedSum_close e hr0 hb h w hfr (f := f) hgi (fun i j hi hj p hp _ => hδ i j hi hj p hp)
  have hu : Used none = fun _ _ => true := rfl
  rw [hu] at hle
  have harea : Real.pi * e.a * e.b = Real.pi * r ^ 2 / q := by simp only [he]; ring
  rw [harea] at hcl
  have habs := abs_sub_le x (weightedSum (exactOverlap.weight e) h w (fun _ _ => true) f) (∫ p in e.set, g p)
  linarith

/-- A pixel centre is within `1 / √2` of every point of the pixel. -/
theorem dist_pixel {i j : Nat} {p : ℝ × ℝ} (hp : p ∈ pixelSquare i j) : Spec.distTo p.1 p.2 j i ≤ 1 / Real.sqrt 2 := by
  obtain ⟨⟨h1, h2⟩, h3, h4⟩ := hp
  unfold Spec.distTo
  rw [show (1 : ℝ) / Real.sqrt 2 = Real.sqrt (1 / 2) by rw [Real.sqrt_div' _ (by norm_num), Real.sqrt_one]]
  apply Real.sqrt_le_sqrt
  nlinarith

/-- **C135, sampled profiles.** For an image that samples `g` at the pixel centres, where `g` changes by at most `L` per pixel of distance,
the fluxes are within `L π r² / (√2 q) + 5e-7` of the light of `g` inside the apertures. -/
theorem C135_lipschitz (h w : Nat) (cx cy : ℝ) (rs : List ℝ) (error : Option (Img (F ℝ))) (q t : ℝ) (fl ar er : List (F ℝ))
    {g : ℝ × ℝ → ℝ} {L : ℝ} (hg : ∀ p p' : ℝ × ℝ, |g p - g p'| ≤ L * Spec.distTo p.1 p.2 p'.1 p'.2)
    (hres : radialPhotometry exactOverlap ⟨h, w, fun i j => fin (g ((j : ℝ), (i : ℝ)))⟩ cx cy rs error none q t = .ok (fl, ar, er))
    (hf : ∀ r ∈ rs, OnFrame (⟨cx, cy, r, r / q, t⟩ : Ellipse ℝ).set h w) :
    List.Forall₂ (fun r v => ∃ x, v = fin x ∧
      |x - ∫ p in (⟨cx, cy, r, r / q, t⟩ : Ellipse ℝ).set, g p| ≤ L / Real.sqrt 2 * (Real.pi * r ^ 2 / q) + 1 / 2 / 10 ^ 6) rs fl := by
  have hL : 0 ≤ L := by
    have := (abs_nonneg _).trans (hg (0, 0) (1, 0))
    simpa [Spec.distTo] using this
  have hcont : Continuous g := by
    rw [Metric.continuous_iff]
    intro p ε hε
    refine ⟨ε / (2 * L + 1), by positivity, fun p' hp' => ?_⟩
    rw [Real.dist_eq]
    refine lt_of_le_of_lt (hg p' p) ?_
    rw [Prod.dist_eq, max_lt_iff, Real.dist_eq, Real.dist_eq] at hp'
    have hd : Spec.distTo p'.1 p'.2 p.1 p.2 ≤ |p'.1 - p.1| + |p'.2 - p.2| := by
      unfold Spec.distTo
      rw [Real.sqrt_le_left (by positivity)]
      have h1 := sq_abs (p'.1 - p.1)
      have h2 := sq_abs (p'.2 - p.2)
      nlinarith [mul_nonneg (abs_nonneg (p'.1 - p.1)) (abs_nonneg (p'.2 - p.2))]
    have h2 : Spec.distTo p'.1 p'.2 p.1 p.2 ≤ 2 * (ε / (2 * L + 1)) := by linarith [hp'.1, hp'.2]
    calc L * Spec.distTo p'.1 p'.2 p.1 p.2 ≤ L * (2 * (ε / (2 * L + 1))) := mul_le_mul_of_nonneg_left h2 hL
      _ = ε * (2 * L / (2 * L + 1)) := by ring
      _ < ε * 1 := by
        apply mul_lt_mul_of_pos_left _ hε
        rw [div_lt_one (by positivity)]; linarith
      _ = ε := mul_one ε
  refine C135_photometry h w (fun i j => g ((j : ℝ), (i : ℝ))) cx cy rs error q t fl ar er hres hf hcont.locallyIntegrable ?_
  intro i j _ _ p hp
  have h1 := hg ((j : ℝ), (i : ℝ)) p
  have h2 := dist_pixel hp
  have hsym : Spec.distTo (j : ℝ) (i : ℝ) p.1 p.2 = Spec.distTo p.1 p.2 j i := by
    unfold Spec.distTo; congr 1; ring
  rw [hsym] at h1
  calc _ ≤ L * Spec.distTo p.1 p.2 j i := h1
    _ ≤ L * (1 / Real.sqrt 2) := mul_le_mul_of_nonneg_left h2 hL
    _ = L / Real.sqrt 2 := by ring

/-! ### Simulated galaxies -/

/-- For `n ≤ 1` the Sersic profile has no cusp: it changes by at most `I(0) (b_n + 1) / (n r_eff)` per unit of radius. -/
theorem sersic_lipschitz {amplitude rEff n : ℝ} (ha : 0 ≤ amplitude) (hn : 0 < n) (hn1 : n ≤ 1) (hre : 0 < rEff) {s t : ℝ} (hs : 0 ≤ s)
    (hst : s ≤ t) : |Spec.sersic (bn n) amplitude rEff n s - Spec.sersic (bn n) amplitude rEff n t| ≤
      amplitude * Real.exp (bn n) * (bn n + 1) / (n * rEff) * (t - s) := by
  rcases hst.eq_or_lt with rfl | hlt
  · simp
  have hb := bn_pos hn
  have hm : 1 ≤ 1 / n := by rw [le_div_iff₀ hn]; linarith
  set m := 1 / n with hmdef
  set b := bn n with hbdef
  have hd : ∀ x ∈ Set.Ioo s t, HasDerivAt (Spec.sersic b amplitude rEff n)
      (amplitude * (Real.exp (-(b * ((x / rEff) ^ m - 1))) * -(b * (1 / rEff * m * (x / rEff) ^ (m - 1))))) x := by
    intro x hx
    have hx0 : 0 < x := lt_of_le_of_lt hs hx.1
    have hu : 0 < x / rEff := div_pos hx0 hre
    have h1 : HasDerivAt (fun t : ℝ => t / rEff) (1 / rEff) x := (hasDerivAt_id x).div_const _
    have h2 := ((((h1.rpow_const (p := m) (Or.inl hu.ne')).sub_const 1).const_mul b).neg.exp).const_mul amplitude
    exact h2
  obtain ⟨x, hx, hslope⟩ := exists_hasDerivAt_eq_slope _ _ hlt ((sersic_continuous hn).continuousOn) hd
  have hx0 : 0 < x := lt_of_le_of_lt hs hx.1
  set y := x / rEff with hy
  have hy0 : 0 < y := div_pos hx0 hre
  have hts : 0 < t - s := by linarith
  -- the size of the derivative
  have hexp : Real.exp (-(b * (y ^ m - 1))) = Real.exp b * Real.exp (-(b * y ^ m)) := by
    rw [← Real.exp_add]; congr 1; ring
  have hkey : b * y ^ (m - 1) * Real.exp (-(b * y ^ m)) ≤ b + 1 := by
    have hy1 : 0 ≤ y ^ (m - 1) := Real.rpow_nonneg hy0.le _
    have hym : 0 ≤ y ^ m := Real.rpow_nonneg hy0.le _
    rcases le_or_gt y 1 with hle | hgt
    · have h1 : y ^ (m - 1) ≤ 1 := Real.rpow_le_one hy0.le hle (by linarith)
      have h2 : Real.exp (-(b * y ^ m)) ≤ 1 := Real.exp_le_one_iff.2 (by have := mul_nonneg hb.le hym; linarith)
      have h3 : b * y ^ (m - 1) * Real.exp (-(b * y ^ m)) ≤ b * 1 * 1 := by gcongr
      linarith
    · have h1 : y ^ (m - 1) ≤ y ^ m := Real.rpow_le_rpow_of_exponent_le hgt.le (by linarith)
      have h2 : b * y ^ m * Real.exp (-(b * y ^ m)) ≤ 1 := by
        rw [Real.exp_neg, mul_inv_le_iff₀ (Real.exp_pos _), one_mul]
        linarith [Real.add_one_le_exp (b * y ^ m)]
      have h3 : b * y ^ (m - 1) * Real.exp (-(b * y ^ m)) ≤ b * y ^ m * Real.exp (-(b * y ^ m)) := by gcongr
      linarith
  have hval : |Spec.sersic b amplitude rEff n s - Spec.sersic b amplitude rEff n t| =
      amplitude * Real.exp b * (b * y ^ (m - 1) * Real.exp (-(b * y ^ m))) * (m / rEff) * (t - s) := by
    rw [eq_div_iff hts.ne'] at hslope
    rw [abs_sub_comm, ← hslope, hexp]
    have hneg : amplitude * (Real.exp b * Real.exp (-(b * y ^ m)) * -(b * (1 / rEff * m * y ^ (m - 1)))) * (t - s) =
        -(amplitude * Real.exp b * (b * y ^ (m - 1) * Real.exp (-(b * y ^ m))) * (m / rEff) * (t - s)) := by ring
    rw [hneg, abs_neg, abs_of_nonneg]
    have hy1 : 0 ≤ y ^ (m - 1) := Real.rpow_nonneg hy0.le _
    have hm0 : 0 ≤ m := by linarith
    positivity
  rw [hval]
  have hm0 : 0 ≤ m / rEff := div_nonneg (by linarith) hre.le
  have hfin : amplitude * Real.exp b * (b * y ^ (m - 1) * Real.exp (-(b * y ^ m))) * (m / rEff) * (t - s) ≤
      amplitude * Real.exp b * (b + 1) * (m / rEff) * (t - s) := by gcongr
  refine hfin.trans (le_of_eq ?_)
  rw [hmdef]
  field_simp

theorem distTo_triangle (p p' c : ℝ × ℝ) : Spec.distTo p.1 p.2 c.1 c.2 ≤ Spec.distTo p.1 p.2 p'.1 p'.2 + Spec.distTo p'.1 p'.2 c.1 c.2 := by
  have key : ∀ u v : ℝ × ℝ, Spec.distTo u.1 u.2 v.1 v.2 = dist (Complex.mk u.1 u.2) (Complex.mk v.1 v.2) := by
    intro u v
    unfold Spec.distTo
    rw [Complex.dist_eq_re_im]
  rw [key, key, key]
  exact dist_triangle _ _ _

/-- A profile that changes by at most `L` per unit of radius, as a function on the plane. -/
theorem radial_lipschitz {I : ℝ → ℝ} {L : ℝ} (hI : ∀ s t, 0 ≤ s → s ≤ t → |I s - I t| ≤ L * (t - s)) (c p p' : ℝ × ℝ) :
    |I (Spec.distTo p.1 p.2 c.1 c.2) - I (Spec.distTo p'.1 p'.2 c.1 c.2)| ≤ L * Spec.distTo p.1 p.2 p'.1 p'.2 := by
  have hL : 0 ≤ L := by
    have := (abs_nonneg _).trans (hI 0 1 le_rfl zero_le_one)
    linarith
  have h0 : ∀ u : ℝ × ℝ, 0 ≤ Spec.distTo u.1 u.2 c.1 c.2 := fun u => Real.sqrt_nonneg _
  have hsym : Spec.distTo p'.1 p'.2 p.1 p.2 = Spec.distTo p.1 p.2 p'.1 p'.2 := by
    unfold Spec.distTo; congr 1; ring
  rcases le_total (Spec.distTo p.1 p.2 c.1 c.2) (Spec.distTo p'.1 p'.2 c.1 c.2) with h | h
  · refine (hI _ _ (h0 p) h).trans (mul_le_mul_of_nonneg_left ?_ hL)
    have := distTo_triangle p' p c
    linarith
  · rw [abs_sub_comm]
    refine (hI _ _ (h0 p') h).trans (mul_le_mul_of_nonneg_left ?_ hL)
    have := distTo_triangle p p' c
    linarith

/-- **C135, simulated galaxies.** For `n ≤ 1` and any `r_eff`, the photometry of a simulation (no PSF, no oversampling) measures the enclosed
light of the Sersic profile: at every radius `r` but the largest, the flux is within `100 (b_n + 1) π r² / (√2 n r_eff) + 5e-7` of
`sersic_enclosed(r)`. The central brightness is 100, so relative to the light the error falls like `1 / r_eff`. -/
theorem C135_simulated {rEff n : ℝ} (hn : 0 < n) (hn1 : n ≤ 1) (hre : 0 < rEff)
    (integ : GridModel ℝ → ℝ × ℝ → ℝ × ℝ → Except PyErr (Img ℝ)) (rot : Img ℝ → ℝ → Img ℝ) :
    ∃ R im fl ar er, R ∈ simRs rEff n ∧ (∀ r ∈ simRs rEff n, r ≤ R) ∧ simImage integ rot none .none .none rEff n = .ok im ∧
      simPhotometry exactOverlap im (simRs rEff n) = .ok (fl, ar, er) ∧
      ∀ (k r : Nat), (simRs rEff n)[k]? = some r → r < R → ∃ x, fl[k]? = some (fin x) ∧
        |x - sersicEnclosed r (simNumbers rEff n).amplitude rEff n 0| ≤
          100 * (bn n + 1) / (n * rEff) / Real.sqrt 2 * (Real.pi * (r : ℝ) ^ 2) + 1 / 2 / 10 ^ 6 := by
  obtain ⟨R, im, hR, hmax, him, hh, hw, hpx, -⟩ := C106_pixels hn hre integ rot
  obtain ⟨R', im', fl, ar, er, -, -, him', hph, -⟩ := C107_every_simulation hn hre integ rot
  obtain rfl : im = im' := by
    rw [him] at him'; exact Except.ok.inj him'
  refine ⟨R, im, fl, ar, er, hR, hmax, him, hph, ?_⟩
  obtain ⟨-, e2⟩ := simPhotometry_lists hR hmax hh hw hpx hph
  have h0 : 0 ≤ simMaxR rEff n (simNumbers rEff n).rTotal := by
    obtain ⟨-, -, -, -, -, h1, h2, h3, -⟩ := C105_truth hn hre
    unfold simMaxR
    split_ifs <;> nlinarith
  obtain ⟨q1, q2, -⟩ := C33_radii _ h0
  change (simRs rEff n).head? = _ at q1
  change (simRs rEff n).Pairwise _ at q2
  intro k r hk hr
  have hr0 : 0 < r := by
    cases hrs : simRs rEff n with
    | nil => rw [hrs] at q1; cases q1
    | cons a l =>
      rw [hrs] at q1 q2 hk
      obtain rfl : a = 1 := by simpa using q1
      rcases List.mem_cons.1 (List.mem_of_getElem? hk) with rfl | hx
      · omega
      · have := List.rel_of_pairwise_cons q2 hx; omega
  have hr0' : (0 : ℝ) < r := by exact_mod_cast hr0
  set A := (simNumbers rEff n).amplitude with hA
  have hAe : A * Real.exp (bn n) = 100 := by
    have := (C105_truth hn hre).1
    unfold Spec.sersic at this
    rw [zero_div, Real.zero_rpow (one_div_pos.2 hn).ne'] at this
    rw [← this]
    congr 2; ring
  have hA0 : 0 ≤ A := by
    by_contra hneg
    have := mul_neg_of_neg_of_pos (not_le.1 hneg) (Real.exp_pos (bn n))
    linarith
  set I := Spec.sersic (bn n) A rEff n with hI
  set L := 100 * (bn n + 1) / (n * rEff) with hL
  have hlip : ∀ s t, 0 ≤ s → s ≤ t → |I s - I t| ≤ L * (t - s) := by
    intro s t hs hst
    have := sersic_lipschitz hA0 hn hn1 hre hs hst
    rwa [hAe] at this
  set e : Ellipse ℝ := ⟨(R : ℝ), (R : ℝ), (r : ℝ), (r : ℝ), 0⟩ with he
  refine ⟨round6 (weightedSum (exactOverlap.weight e) (R * 2) (R * 2) (fun _ _ => true)
    fun i j => I (Real.sqrt (((j : ℝ) - R) ^ 2 + ((i : ℝ) - R) ^ 2))), ?_, ?_⟩
  · rw [e2, List.getElem?_map, hk]; rfl
  · have hfr : OnFrame e.set (R * 2) (R * 2) := by
      have := sim_onFrame R r hr0 hr
      simpa only [div_one] using this
    have hL0 : 0 ≤ L := by
      have := bn_pos hn
      positivity
    have hcont : Continuous fun p : ℝ × ℝ => I (Spec.distTo p.1 p.2 R R) := by
      refine (sersic_continuous hn).comp ?_
      unfold Spec.distTo
      fun_prop
    have hbd : e.set ⊆ Set.Icc (-1 / 2) (((R * 2 : Nat) : ℝ) - 1 / 2) ×ˢ Set.Icc (-1 / 2) (((R * 2 : Nat) : ℝ) - 1 / 2) := by
      intro p hp
      obtain ⟨p1, p2, p3, p4⟩ := hfr p hp
      exact ⟨⟨p1.le, p2⟩, p3.le, p4⟩
    have hgi : IntegrableOn (fun p : ℝ × ℝ => I (Spec.distTo p.1 p.2 R R)) e.set :=
      (hcont.locallyIntegrable.integrableOn_isCompact (isCompact_Icc.prod isCompact_Icc)).mono_set hbd
    have hcl := weightedSum_close e hr0' hr0' (R * 2) (R * 2) hfr
      (f := fun i j => I (Real.sqrt (((j : ℝ) - R) ^ 2 + ((i : ℝ) - R) ^ 2))) hgi (δ := L / Real.sqrt 2) (by
        intro i j _ _ p hp _
        have h1 := radial_lipschitz hlip ((R : ℝ), (R : ℝ)) ((j : ℝ), (i : ℝ)) p
        have h2 := dist_pixel hp
        have hsym : Spec.distTo (j : ℝ) (i : ℝ) p.1 p.2 = Spec.distTo p.1 p.2 j i := by
          unfold Spec.distTo; congr 1; ring
        simp only [hsym] at h1
        calc _ ≤ L * Spec.distTo p.1 p.2 j i := h1
          _ ≤ L * (1 / Real.sqrt 2) := mul_le_mul_of_nonneg_left h2 hL0
          _ = L / Real.sqrt 2 := by ring)
    have hint : ∫ p in e.set, I (Spec.distTo p.1 p.2 R R) = sersicEnclosed r A rEff n 0 := by
      rw [← C134_isophote (x0 := (R : ℝ)) (y0 := (R : ℝ)) (theta := 0) hn hre hr0' (by norm_num)]
      simp only [sub_zero, mul_one, C68_sersic hre, ellRadius_circle]
      rfl
    rw [hint] at hcl
    have harea : Real.pi * e.a * e.b = Real.pi * (r : ℝ) ^ 2 := by simp only [he]; ring
    rw [harea] at hcl
    have hrd := abs_round6_sub (weightedSum (exactOverlap.weight e) (R * 2) (R * 2) (fun _ _ => true)
      fun i j => I (Real.sqrt (((j : ℝ) - R) ^ 2 + ((i : ℝ) - R) ^ 2)))
    have := abs_sub_le (round6 (weightedSum (exactOverlap.weight e) (R * 2) (R * 2) (fun _ _ => true)
      fun i j => I (Real.sqrt (((j : ℝ) - R) ^ 2 + ((i : ℝ) - R) ^ 2))))
      (weightedSum (exactOverlap.weight e) (R * 2) (R * 2) (fun _ _ => true)
        fun i j => I (Real.sqrt (((j : ℝ) - R) ^ 2 + ((i : ℝ) - R) ^ 2))) (sersicEnclosed r A rEff n 0)
    linarith

/-- Exponential discs and Gaussians meet the hypotheses. -/
example (integ : GridModel ℝ → ℝ × ℝ → ℝ × ℝ → Except PyErr (Img ℝ)) (rot : Img ℝ → ℝ → Img ℝ) :=
  And.intro (C135_simulated (rEff := 10) (n := 1) (by norm_num) le_rfl (by norm_num) integ rot)
    (C135_simulated (rEff := 20) (n := 1 / 2) (by norm_num) (by norm_num) (by norm_num) integ rot)

/-- A plane of brightness that rises by 3 per column, in apertures of radius 1 and 2: its light inside is 3 times the column of the centre
times the area, so the fluxes are known to `3 π r² / √2`. -/
example (fl ar er : List (F ℝ))
    (h : radialPhotometry exactOverlap ⟨11, 11, fun i j => fin (3 * (j : ℝ))⟩ 5 5 [1, 2] none none 1 0 = .ok (fl, ar, er)) :=
  C135_lipschitz 11 11 5 5 [1, 2] none 1 0 fl ar er (g := fun p => 3 * p.1) (L := 3) (by
    intro p p'
    have h1 : |p.1 - p'.1| ≤ Spec.distTo p.1 p.2 p'.1 p'.2 := by
      unfold Spec.distTo
      rw [← Real.sqrt_sq_eq_abs]
      exact Real.sqrt_le_sqrt (by nlinarith [sq_nonneg (p.2 - p'.2)])
    have h2 : |3 * p.1 - 3 * p'.1| = 3 * |p.1 - p'.1| := by rw [← mul_sub, abs_mul]; norm_num
    rw [h2]; linarith) h (by
    intro r hr
    simp only [List.mem_cons, List.not_mem_nil, or_false] at hr
    rcases hr with rfl | rfl <;>
    · apply onFrame_of_box _ (by norm_num) (by norm_num) <;>
      · simp [Ellipse.xExtent, Ellipse.yExtent]; norm_num)

end Verif.Props

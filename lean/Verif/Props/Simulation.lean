import Verif.Model.Simulation
import Verif.Props.ApertureArea
import Verif.Props.CorrectionGrid
import Verif.Props.Fitting
import Verif.Props.Profiles

/-!
# C105-C107: the simulated galaxy behind a row of the correction grid
-/

set_option linter.unusedSectionVars false
set_option linter.unusedVariables false

namespace Verif.Props

open F Spec Lemmas MeasureTheory Filter Topology

/-! ### C105: the Sersic numbers -/

theorem sersicTotal_tendsto {A rEff n : ℝ} (hn : 0 < n) (hre : 0 < rEff) :
    Tendsto (fun r => sersicEnclosed r A rEff n 0) atTop (𝓝 (sersicTotal A rEff n 0)) := by
  obtain ⟨t, h1, -, h3⟩ := C65_half (amplitude := A) (ellip := 0) hn hre
  have : sersicTotal A rEff n 0 = t := by
    rw [total_unique hn hre h1]
    unfold sersicTotal fluxScale
    simp only []
    ring
  rw [this]; exact h1

theorem simNumbers_pos {rEff n : ℝ} (hn : 0 < n) (hre : 0 < rEff) :
    0 < (simNumbers rEff n).amplitude ∧ 0 < (simNumbers rEff n).lTotal := by
  have ha : 0 < (simNumbers rEff n).amplitude := div_pos (by norm_num) (Real.exp_pos _)
  refine ⟨ha, ?_⟩
  have h1 := C65_half_limit hn hre (sersicTotal_tendsto (A := (simNumbers rEff n).amplitude) hn hre)
  have h2 := C64_increasing (ellip := 0) ha hn hre (by norm_num) (Set.mem_Ici.2 (le_refl (0 : ℝ))) (Set.mem_Ici.2 hre.le) hre
  simp only [C64_zero hn] at h2
  show 0 < sersicTotal (simNumbers rEff n).amplitude rEff n 0
  linarith

/-- **C105.** For every `n > 0` and `r_eff > 0` the galaxy of a grid simulation has brightness 100 at its centre and half of its light inside
`r_eff`; `L_total` is the limit of its flux within `r`, and the three radii enclose 20%, 80% and 100% of `0.99 L_total`, in this order. -/
theorem C105_truth {rEff n : ℝ} (hn : 0 < n) (hre : 0 < rEff) :
    let s := simNumbers rEff n
    let I := Spec.sersic (bn n) s.amplitude rEff n
    I 0 = 100 ∧ (∀ c, sersic2D c c s.amplitude rEff n c c 0 0 = 100) ∧
    Tendsto (fun r => Spec.enclosed I 1 r) atTop (𝓝 s.lTotal) ∧ Spec.enclosed I 1 rEff = s.lTotal / 2 ∧
    s.totalFlux = 99 / 100 * s.lTotal ∧ 0 < s.r20 ∧ s.r20 < s.r80 ∧ s.r80 < s.rTotal ∧
    Spec.enclosed I 1 s.r20 = 99 / 100 * s.lTotal / 5 ∧ Spec.enclosed I 1 s.r80 = 99 / 100 * s.lTotal * 4 / 5 ∧
    Spec.enclosed I 1 s.rTotal = 99 / 100 * s.lTotal := by
  intro s I
  obtain ⟨ha, hL⟩ := simNumbers_pos hn hre
  have ht : Tendsto (fun r => sersicEnclosed r s.amplitude rEff n 0) atTop (𝓝 s.lTotal) := sersicTotal_tendsto hn hre
  have hI : ∀ r, 0 ≤ r → Spec.enclosed I 1 r = sersicEnclosed r s.amplitude rEff n 0 := by
    intro r hr
    have := C64_integral (amplitude := s.amplitude) (ellip := 0) hn hre hr
    rw [this, sub_zero]
  have hexp : s.amplitude * Real.exp (bn n) = 100 := by
    show 100 / Real.exp (gammaincinv (2 * n) (1 / 2)) * Real.exp (bn n) = 100
    unfold bn
    exact div_mul_cancel₀ _ (Real.exp_pos _).ne'
  have hflux : ∀ φ : ℝ, 0 < φ → φ ≤ 1 →
      sersicEnclosed (sersicEnclosedInv (s.lTotal * (99 / 100) * φ) s.amplitude rEff n 0) s.amplitude rEff n 0 = s.lTotal * (99 / 100) * φ ∧
      0 ≤ sersicEnclosedInv (s.lTotal * (99 / 100) * φ) s.amplitude rEff n 0 := by
    intro φ h0 h1
    have hL' : 0 < s.lTotal := hL
    exact C66_flux ha hn hre (by norm_num) ht (by positivity) (by nlinarith)
  have hmono := C64_increasing (ellip := 0) ha hn hre (by norm_num)
  have h20 := hflux (1 / 5) (by norm_num) (by norm_num)
  have h80 := hflux (4 / 5) (by norm_num) (by norm_num)
  have h99 := hflux 1 (by norm_num) (by norm_num)
  change sersicEnclosed s.r20 _ _ _ _ = _ ∧ 0 ≤ s.r20 at h20
  change sersicEnclosed s.r80 _ _ _ _ = _ ∧ 0 ≤ s.r80 at h80
  change sersicEnclosed s.rTotal _ _ _ _ = _ ∧ 0 ≤ s.rTotal at h99
  have hL' : 0 < s.lTotal := hL
  have lt : ∀ {x y : ℝ}, 0 ≤ x → 0 ≤ y → sersicEnclosed x s.amplitude rEff n 0 < sersicEnclosed y s.amplitude rEff n 0 → x < y :=
    fun hx hy h => (hmono.lt_iff_lt (Set.mem_Ici.2 hx) (Set.mem_Ici.2 hy)).1 h
  refine ⟨?_, ?_, ?_, ?_, ?_, ?_, ?_, ?_, ?_, ?_, ?_⟩
  · show s.amplitude * Real.exp (-(bn n * ((0 / rEff) ^ (1 / n) - 1))) = 100
    rw [zero_div, Real.zero_rpow (one_div_pos.2 hn).ne', ← hexp]
    congr 2; ring
  · intro c
    show s.amplitude * Real.exp (-bn n * (Real.sqrt _ ^ (1 / n) - 1)) = 100
    have : ((c - c) * Real.cos 0 + (c - c) * Real.sin 0) / rEff = 0 := by simp
    rw [this]
    have : (-(c - c) * Real.sin 0 + (c - c) * Real.cos 0) / ((1 - 0) * rEff) = 0 := by simp
    rw [this, ← hexp]
    norm_num
    rw [Real.zero_rpow (inv_pos.2 hn).ne']
    norm_num
  · exact ht.congr' (by filter_upwards [eventually_ge_atTop 0] with r hr using (hI r hr).symm)
  · rw [hI _ hre.le]
    have := C65_half_limit hn hre ht
    linarith
  · show s.lTotal * (99 / 100) = _; ring
  · apply lt le_rfl h20.2
    rw [C64_zero hn, h20.1]; positivity
  · apply lt h20.2 h80.2
    rw [h20.1, h80.1]; nlinarith
  · apply lt h80.2 h99.2
    rw [h80.1, h99.1]; nlinarith
  · rw [hI _ h20.2, h20.1]; ring
  · rw [hI _ h80.2, h80.1]; ring
  · rw [hI _ h99.2, h99.1]; ring

/-- An exponential disc with `r_eff = 10`. -/
example : Spec.enclosed (Spec.sersic (bn 1) (simNumbers 10 1).amplitude 10 1) 1 (simNumbers 10 1).r20 = 99 / 100 * (simNumbers 10 1).lTotal / 5 :=
  (C105_truth (by norm_num) (by norm_num)).2.2.2.2.2.2.2.2.1

/-! ### C106: the image -/

theorem simSize_eq {rs : List Nat} {R : Nat} (hR : R ∈ rs) (hmax : ∀ x ∈ rs, x ≤ R) : simSize rs = R * 2 := by
  have h1 : ∀ (l : List Nat) (a : Nat), a ≤ l.foldl max a ∧ (∀ x ∈ l, x ≤ l.foldl max a) ∧ (l.foldl max a = a ∨ l.foldl max a ∈ l) := by
    intro l
    induction l with
    | nil => intro a; simp
    | cons b l ih =>
      intro a
      obtain ⟨i1, i2, i3⟩ := ih (max a b)
      rw [List.foldl_cons]
      refine ⟨le_trans (le_max_left _ _) i1, ?_, ?_⟩
      · intro x hx
        rcases List.mem_cons.1 hx with rfl | hx
        · exact le_trans (le_max_right _ _) i1
        · exact i2 x hx
      · rcases i3 with h | h
        · rcases le_total a b with hab | hab
          · rw [max_eq_right hab] at h; right; rw [max_eq_right hab, h]; exact List.mem_cons_self
          · rw [max_eq_left hab] at h; left; rw [max_eq_left hab, h]
        · right; exact List.mem_cons_of_mem _ h
  obtain ⟨i1, i2, i3⟩ := h1 rs 0
  have := i2 R hR
  unfold simSize
  congr 1
  rcases i3 with h | h
  · omega
  · have := hmax _ h; omega

theorem simCentre_eq {rs : List Nat} {R : Nat} (hR : R ∈ rs) (hmax : ∀ x ∈ rs, x ≤ R) : simCentre rs = R := by
  unfold simCentre; rw [simSize_eq hR hmax]; omega

/-- The radii have a largest element, which is positive. -/
theorem simRs_max {rEff n : ℝ} (hn : 0 < n) (hre : 0 < rEff) : ∃ R, 0 < R ∧ R ∈ simRs rEff n ∧ ∀ x ∈ simRs rEff n, x ≤ R := by
  have h0 : 0 ≤ simMaxR rEff n (simNumbers rEff n).rTotal := by
    obtain ⟨-, -, -, -, -, h1, h2, h3, -⟩ := C105_truth hn hre
    unfold simMaxR
    split_ifs <;> nlinarith
  obtain ⟨h1, h2, -⟩ := C33_radii _ h0
  change (simRs rEff n).head? = _ at h1
  change (simRs rEff n).Pairwise _ at h2
  cases hrs : simRs rEff n with
  | nil => rw [hrs] at h1; cases h1
  | cons a l =>
    rw [hrs] at h1 h2
    obtain rfl : a = 1 := by simpa using h1
    have hne : (1 :: l) ≠ [] := by simp
    refine ⟨(1 :: l).getLast hne, ?_, List.getLast_mem hne, ?_⟩
    · have : ∀ x ∈ (1 :: l), 0 < x := by
        intro x hx
        rcases List.mem_cons.1 hx with rfl | hx
        · omega
        · have := List.rel_of_pairwise_cons h2 hx; omega
      exact this _ (List.getLast_mem hne)
    · intro x hx
      obtain ⟨k, hk, rfl⟩ := List.getElem_of_mem hx
      rw [List.getLast_eq_getElem]
      rcases Nat.lt_or_ge k ((1 :: l).length - 1) with h | h
      · exact (List.pairwise_iff_getElem.1 h2 k _ hk (by omega) h).le
      · have : k = (1 :: l).length - 1 := by omega
        subst this; exact le_rfl

/-- **C106.** Without a PSF, and with `oversample` None or a positive integer, the image of a simulation is a square of twice the largest
radius `R`, and the pixel in row `i` and column `j` is the Sersic profile averaged over the sub-samples of the pixel at distance
`((j - R)^2 + (i - R)^2)^(1/2)` from the centre pixel `[R, R]`. -/
theorem C106_image {rEff n : ℝ} (hn : 0 < n) (hre : 0 < rEff) (integ : GridModel ℝ → ℝ × ℝ → ℝ × ℝ → Except PyErr (Img ℝ))
    (rot : Img ℝ → ℝ → Img ℝ) (o : OversampleArg ℝ) (f : Nat) (ho : (o = .none ∧ f = 1) ∨ (0 < f ∧ o = .int f)) :
    ∃ R im, R ∈ simRs rEff n ∧ (∀ x ∈ simRs rEff n, x ≤ R) ∧ simImage integ rot none o .none rEff n = .ok im ∧ im.h = R * 2 ∧ im.w = R * 2 ∧
      ∀ i j, i < R * 2 → j < R * 2 → im.px i j =
        pixelMean (fun x y => Spec.sersic (bn n) (simNumbers rEff n).amplitude rEff n (Spec.distTo x y R R)) j i f := by
  obtain ⟨R, hR0, hR, hmax⟩ := simRs_max hn hre
  have hs := simSize_eq hR hmax
  have hc := simCentre_eq hR hmax
  set params : List ℝ := [(simNumbers rEff n).amplitude, rEff, n, (R : ℝ), (R : ℝ), 0, 0] with hp
  have hsub : ∀ x y, sersicSub.eval params x y =
      Spec.sersic (bn n) (simNumbers rEff n).amplitude rEff n (Spec.distTo x y R R) := by
    intro x y
    show sersic2D x y _ rEff n R R 0 0 = _
    unfold sersic2D Spec.sersic Spec.distTo
    simp only [Real.cos_zero, Real.sin_zero, mul_one, mul_zero, add_zero, zero_add, sub_zero, one_mul]
    have : Real.sqrt (((x - R) / rEff) ^ 2 + ((y - R) / rEff) ^ 2) = Real.sqrt ((x - R) ^ 2 + (y - R) ^ 2) / rEff := by
      rw [div_pow, div_pow, ← add_div, Real.sqrt_div' _ (by positivity), Real.sqrt_sq hre.le]
    rw [this]
    congr 2; ring
  have hinit : ∃ M : PSFModel ℝ, PSFModel.init sersicSub none o .none = .ok M ∧ M.sub = sersicSub ∧ M.psf = none ∧
      M.oversampleFactor = f ∧ M.psfFactor = 1 ∧ M.cachedRange = none ∧ ∀ x y s f, M.oversample ≠ .window x y s f := by
    rcases ho with ⟨rfl, rfl⟩ | ⟨hf, rfl⟩
    · exact ⟨_, rfl, rfl, rfl, rfl, rfl, rfl, fun _ _ _ _ h => by cases h⟩
    · have hck : (⟨sersicSub, none, .none, none, true, 0, 0, none, none⟩ : PSFModel ℝ).checkFactor (f : Int) = .ok f := by
        unfold PSFModel.checkFactor PSFModel.psfFactor
        rw [if_neg (by omega)]
        simp
      refine ⟨⟨sersicSub, none, .int f, none, true, 0, 0, none, none⟩, ?_, rfl, rfl, rfl, rfl, rfl, fun _ _ _ _ h => by cases h⟩
      unfold PSFModel.init PSFModel.setOversample
      simp only [hck, Except.bind_ok]
      rfl
  obtain ⟨M, hM, m1, m2, m3, m4, m5, m6⟩ := hinit
  have hpos : 0 < f := by rcases ho with ⟨_, rfl⟩ | ⟨h, _⟩ <;> omega
  have hD : Describes (.num (fin ((R * 2 : Nat) : ℝ))) (some (.seq [(R : ℝ), (R : ℝ)])) (R * 2) (R * 2) (0 : ℝ) 0 := by
    refine ⟨Or.inl ⟨rfl, rfl⟩, Or.inr ⟨R, R, rfl, ?_, ?_⟩⟩ <;>
    · have : R * 2 / 2 = R := by omega
      rw [this, sub_self]
  obtain ⟨im, i1, i2, i3, i4⟩ := C60_wrapped hD (by omega) (by omega) integ M (fun r hr => by rw [m5] at hr; cases hr)
    ⟨by rw [m3]; exact hpos, by rw [m4]; exact Nat.one_pos, by rw [m4]; exact one_dvd _⟩ m2 m6 rot params 0 1
  refine ⟨R, im, hR, hmax, ?_, i2, i3, ?_⟩
  · unfold simImage
    simp only [hs, hc, hM, Except.bind_ok]
    simpa using i1
  · intro i j hi hj
    rw [i4 i j hi hj, m1, m3, zero_add, zero_add]
    congr 1
    funext x y
    exact hsub x y

/-- Without oversampling the pixel value is the profile at the pixel centre; the brightest pixel, at the centre, is 100. -/
theorem C106_pixels {rEff n : ℝ} (hn : 0 < n) (hre : 0 < rEff) (integ : GridModel ℝ → ℝ × ℝ → ℝ × ℝ → Except PyErr (Img ℝ))
    (rot : Img ℝ → ℝ → Img ℝ) :
    ∃ R im, R ∈ simRs rEff n ∧ (∀ x ∈ simRs rEff n, x ≤ R) ∧ simImage integ rot none .none .none rEff n = .ok im ∧ im.h = R * 2 ∧ im.w = R * 2 ∧
      (∀ i j, i < R * 2 → j < R * 2 → im.px i j =
        Spec.sersic (bn n) (simNumbers rEff n).amplitude rEff n (Real.sqrt (((j : ℝ) - R) ^ 2 + ((i : ℝ) - R) ^ 2))) ∧
      im.px R R = 100 := by
  obtain ⟨R, im, h1, h2, h3, h4, h5, h6⟩ := C106_image hn hre integ rot .none 1 (Or.inl ⟨rfl, rfl⟩)
  obtain ⟨R', hR', hm, hx⟩ := simRs_max hn hre
  have hR0 : 0 < R := lt_of_lt_of_le hR' (h2 _ hm)
  have key : ∀ i j, i < R * 2 → j < R * 2 → im.px i j =
        Spec.sersic (bn n) (simNumbers rEff n).amplitude rEff n (Real.sqrt (((j : ℝ) - R) ^ 2 + ((i : ℝ) - R) ^ 2)) := by
    intro i j hi hj
    rw [h6 i j hi hj]
    unfold pixelMean Spec.distTo
    simp
  refine ⟨R, im, h1, h2, h3, h4, h5, key, ?_⟩
  rw [key R R (by omega) (by omega)]
  have := (C105_truth hn hre).1
  simpa using this

/-! ### C107: the apertures -/

theorem circle_xExtent (c r : ℝ) (hr : 0 < r) : (⟨c, c, r, r / 1, 0⟩ : Ellipse ℝ).xExtent = r ∧ (⟨c, c, r, r / 1, 0⟩ : Ellipse ℝ).yExtent = r := by
  unfold Ellipse.xExtent Ellipse.yExtent
  simp [Real.sqrt_sq hr.le]

/-- The apertures of a simulation are on its image, except the largest one. -/
theorem sim_onFrame (R r : Nat) (hr : 0 < r) (h : r < R) : OnFrame (⟨(R : ℝ), (R : ℝ), (r : ℝ), (r : ℝ) / 1, 0⟩ : Ellipse ℝ).set (R * 2) (R * 2) := by
  have hr' : (0 : ℝ) < r := by exact_mod_cast hr
  have hlt : (r : ℝ) + 1 ≤ R := by exact_mod_cast h
  obtain ⟨e1, e2⟩ := circle_xExtent (R : ℝ) r hr'
  apply onFrame_of_box _ hr' (by simpa using hr')
  · rw [e1]; show (-1 : ℝ) / 2 ≤ R - r; linarith
  · rw [e1]; push_cast; show (R : ℝ) + r ≤ _; linarith
  · rw [e2]; show (-1 : ℝ) / 2 ≤ R - r; linarith
  · rw [e2]; push_cast; show (R : ℝ) + r ≤ _; linarith

/-- The part of the largest aperture that is on the image misses at least a quarter of a pixel. -/
theorem sim_area_last (R : Nat) (hR : 0 < R) :
    weightedSum (exactOverlap.weight ⟨(R : ℝ), (R : ℝ), (R : ℝ), (R : ℝ) / 1, 0⟩) (R * 2) (R * 2) (fun _ _ => true) (fun _ _ => 1) ≤
      Real.pi * (R : ℝ) ^ 2 - 1 / 4 := by
  set e : Ellipse ℝ := ⟨(R : ℝ), (R : ℝ), (R : ℝ), (R : ℝ) / 1, 0⟩ with he
  have hR1 : (1 : ℝ) ≤ R := by exact_mod_cast hR
  have hR0 : (0 : ℝ) < R := by linarith
  set B : Set (ℝ × ℝ) := Set.Ioo (2 * (R : ℝ) - 1 / 2) (2 * R - 1 / 4) ×ˢ Set.Ioo ((R : ℝ) - 1 / 2) (R + 1 / 2) with hB
  have hBm : MeasurableSet B := measurableSet_Ioo.prod measurableSet_Ioo
  have hem : MeasurableSet e.set := (ellipse_open e).measurableSet
  have hBe : B ⊆ e.set := by
    rintro ⟨x, y⟩ ⟨⟨h1, h2⟩, h3, h4⟩
    simp only at h1 h2 h3 h4
    have hd : (x - R) ^ 2 + (y - R) ^ 2 < (R : ℝ) ^ 2 := by nlinarith
    simp only [Ellipse.set, he, Set.mem_setOf_eq, Real.cos_zero, Real.sin_zero, mul_one, mul_zero, add_zero, sub_zero, div_one]
    rw [div_pow, div_pow, ← add_div, div_lt_one (by positivity)]
    exact hd
  have hvB : volume B = ENNReal.ofReal (1 / 4) := by
    rw [hB, Measure.volume_eq_prod, Measure.prod_prod, Real.volume_Ioo, Real.volume_Ioo, ← ENNReal.ofReal_mul (by linarith)]
    congr 1; ring
  have hve : volume e.set = ENNReal.ofReal (Real.pi * R ^ 2) := by
    rw [volume_ellipse e hR0 (by simpa [he] using hR0)]
    congr 1; simp [he]; ring
  rw [C76_integral]
  have hle : ∀ p, stepImage (R * 2) (R * 2) (fun _ _ => true) (fun _ _ => 1) p ≤ (Bᶜ).indicator (fun _ => (1 : ℝ)) p := by
    intro p
    by_cases hp : p ∈ B
    · rw [Set.indicator_of_notMem (by simpa using hp)]
      apply le_of_eq
      unfold stepImage
      apply if_neg
      rintro ⟨-, -, -, h⟩
      have h1 := hp.1.1
      have : ⌈p.1 - 1 / 2⌉ ≤ ((R * 2 : Nat) : ℤ) - 1 := by omega
      rw [Int.ceil_le] at this
      push_cast at this
      linarith
    · rw [Set.indicator_of_mem (by simpa using hp)]
      unfold stepImage
      split_ifs <;> simp
  have hfin : volume e.set ≠ ⊤ := by rw [hve]; exact ENNReal.ofReal_ne_top
  calc ∫ p in e.set, stepImage (R * 2) (R * 2) (fun _ _ => true) (fun _ _ => 1) p
      ≤ ∫ p in e.set, (Bᶜ).indicator (fun _ => (1 : ℝ)) p := by
        apply integral_mono_of_nonneg
        · exact Filter.Eventually.of_forall fun p => by
            unfold stepImage; simp only [Pi.zero_apply]; split_ifs <;> norm_num
        · rw [integrable_indicator_iff hBm.compl]
          exact Integrable.integrableOn (integrableOn_const hfin)
        · exact Filter.Eventually.of_forall hle
    _ = Real.pi * R ^ 2 - 1 / 4 := by
        rw [setIntegral_indicator hBm.compl, setIntegral_const, smul_eq_mul, mul_one, measureReal_def,
          ← Set.diff_eq, measure_diff hBe hBm.nullMeasurableSet (by rw [hvB]; exact ENNReal.ofReal_ne_top), hve, hvB,
          ENNReal.toReal_sub_of_le _ ENNReal.ofReal_ne_top, ENNReal.toReal_ofReal (by positivity), ENNReal.toReal_ofReal (by norm_num)]
        rw [← hve, ← hvB]; exact measure_mono hBe

/-- **C107, the part that holds.** Every aperture of a simulation but the largest lies on the image, and its area is `π r²` (rounded to six
decimals).  Missing (and false, `C107_violated`): the same for the largest aperture. -/
theorem C107_inside_partial {rs : List Nat} {R : Nat} (hpos : ∀ x ∈ rs, 0 < x) (hR : R ∈ rs) (hmax : ∀ x ∈ rs, x ≤ R) (im : Img ℝ)
    (h1 : im.h = simSize rs) (h2 : im.w = simSize rs) (fl ar er : List (F ℝ)) (h : simPhotometry exactOverlap im rs = .ok (fl, ar, er)) :
    ∀ (k r : Nat), rs[k]? = some r → r < R → OnFrame (⟨(simCentre rs : ℝ), (simCentre rs : ℝ), (r : ℝ), (r : ℝ) / 1, 0⟩ : Ellipse ℝ).set im.h im.w ∧
      ar[k]? = some (fin (round6 (Real.pi * (r : ℝ) ^ 2))) := by
  intro k r hk hr
  have hr0 : 0 < r := hpos r (List.mem_of_getElem? hk)
  have hf := sim_onFrame R r hr0 hr
  rw [simSize_eq hR hmax] at h1 h2
  rw [simCentre_eq hR hmax, h1, h2]
  refine ⟨hf, ?_⟩
  unfold simPhotometry at h
  obtain ⟨l, hl, rfl, rfl, rfl⟩ := radialPhotometry_ok.1 h
  obtain ⟨hk', hkr⟩ := List.getElem?_eq_some_iff.1 hk
  have hlen : rs.length = l.length := by simpa using hl.length_eq
  have hp := (List.forall₂_iff_get.1 hl).2 k (by simpa using hk') (by omega)
  simp only [List.get_eq_getElem, List.getElem_map, hkr] at hp
  rcases hlk : l[k]'(by omega) with ⟨v, a, e⟩
  rw [hlk] at hp
  obtain ⟨_, _, _, _, _, _, _, ha, _⟩ := (photometryAt_ok exactOverlap_law).1 hp
  rw [List.getElem?_map, List.getElem?_eq_getElem (by omega), hlk]
  simp only [Option.map_some]
  rw [ha, simCentre_eq hR hmax]
  have hr' : (0 : ℝ) < r := by exact_mod_cast hr0
  have hw := weightedSum_onFrame ⟨(R : ℝ), (R : ℝ), (r : ℝ), (r : ℝ) / 1, 0⟩ hr' (by simpa using hr') (R * 2) (R * 2) hf 1
  have hh : (im.map (fin : ℝ → F ℝ)).h = R * 2 := h1
  have hw' : (im.map (fin : ℝ → F ℝ)).w = R * 2 := h2
  rw [hh, hw']
  have hu : Used none = fun _ _ => true := rfl
  rw [hu, hw]
  congr 3; simp only [div_one]; ring

/-- **C107 is violated** by every simulation: the image has twice the largest radius `R` as its size and is centred on pixel `R`, so the
circle of radius `R` reaches half a pixel beyond the right and the upper edge.  Its area in the list is at least a quarter of a pixel too
small. -/
theorem C107_violated {rs : List Nat} {R : Nat} (hpos : ∀ x ∈ rs, 0 < x) (hR : R ∈ rs) (hmax : ∀ x ∈ rs, x ≤ R) (im : Img ℝ)
    (h1 : im.h = simSize rs) (h2 : im.w = simSize rs) (fl ar er : List (F ℝ)) (h : simPhotometry exactOverlap im rs = .ok (fl, ar, er)) :
    ¬ OnFrame (⟨(simCentre rs : ℝ), (simCentre rs : ℝ), (R : ℝ), (R : ℝ) / 1, 0⟩ : Ellipse ℝ).set im.h im.w ∧
    ∀ k : Nat, rs[k]? = some R → ∃ a, ar[k]? = some (fin a) ∧ a < Real.pi * (R : ℝ) ^ 2 - 6 / 25 ∧ a ≠ round6 (Real.pi * (R : ℝ) ^ 2) := by
  have hR0 : 0 < R := hpos R hR
  have hR1 : (1 : ℝ) ≤ R := by exact_mod_cast hR0
  rw [simSize_eq hR hmax] at h1 h2
  constructor
  · rw [simCentre_eq hR hmax, h1, h2]
    intro hf
    have := hf (2 * R - 1 / 4, R) (by
      simp only [Ellipse.set, Set.mem_setOf_eq, Real.cos_zero, Real.sin_zero, mul_one, mul_zero, add_zero, sub_zero, div_one, sub_self,
        zero_div, ne_eq, OfNat.ofNat_ne_zero, not_false_eq_true, zero_pow]
      rw [div_pow, div_lt_one (by positivity)]
      nlinarith)
    have h3 := this.2.1
    push_cast at h3
    linarith
  · intro k hk
    unfold simPhotometry at h
    obtain ⟨l, hl, rfl, rfl, rfl⟩ := radialPhotometry_ok.1 h
    obtain ⟨hk', hkr⟩ := List.getElem?_eq_some_iff.1 hk
    have hlen : rs.length = l.length := by simpa using hl.length_eq
    have hp := (List.forall₂_iff_get.1 hl).2 k (by simpa using hk') (by omega)
    simp only [List.get_eq_getElem, List.getElem_map, hkr] at hp
    rcases hlk : l[k]'(by omega) with ⟨v, a, e⟩
    rw [hlk] at hp
    obtain ⟨_, _, _, _, _, _, _, ha, _⟩ := (photometryAt_ok exactOverlap_law).1 hp
    rw [simCentre_eq hR hmax] at ha
    have hh : (im.map (fin : ℝ → F ℝ)).h = R * 2 := h1
    have hw' : (im.map (fin : ℝ → F ℝ)).w = R * 2 := h2
    rw [hh, hw'] at ha
    have hu : Used none = fun _ _ => true := rfl
    rw [hu] at ha
    have hlast := sim_area_last R hR0
    set W := weightedSum (exactOverlap.weight ⟨(R : ℝ), (R : ℝ), (R : ℝ), (R : ℝ) / 1, 0⟩) (R * 2) (R * 2) (fun _ _ => true) (fun _ _ => 1)
    have r1 := abs_le.1 (abs_round6_sub W)
    have r2 := abs_le.1 (abs_round6_sub (Real.pi * (R : ℝ) ^ 2))
    refine ⟨round6 W, ?_, ?_, ?_⟩
    · rw [List.getElem?_map, List.getElem?_eq_getElem (by omega), hlk]
      simp only [Option.map_some]
      rw [ha]
    · linarith [r1.2]
    · intro heq
      linarith [r1.2, r2.1]

/-- The photometry of a simulation succeeds on every image of the size of the simulation. -/
theorem simPhotometry_ok {rs : List Nat} {R : Nat} (hpos : ∀ x ∈ rs, 0 < x) (hR : R ∈ rs) (hmax : ∀ x ∈ rs, x ≤ R) (im : Img ℝ)
    (h1 : im.h = simSize rs) (h2 : im.w = simSize rs) : ∃ fl ar er, simPhotometry exactOverlap im rs = .ok (fl, ar, er) := by
  have hR0 : 0 < R := hpos R hR
  rw [simSize_eq hR hmax] at h1 h2
  have hone : ∀ r ∈ rs.map fun r : Nat => (r : ℝ), ∃ p, photometryAt exactOverlap (im.map fin) (simCentre rs) (simCentre rs) none (inv none) 1 0 r = .ok p := by
    intro r hr
    obtain ⟨x, hx, rfl⟩ := List.mem_map.1 hr
    have hx0 : (0 : ℝ) < (x : ℝ) := by exact_mod_cast hpos x hx
    have hhit : exactOverlap.hits ⟨(simCentre rs : ℝ), (simCentre rs : ℝ), (x : ℝ), (x : ℝ) / 1, 0⟩ (im.map (fin : ℝ → F ℝ)).h (im.map (fin : ℝ → F ℝ)).w = true := by
      have hh : (im.map (fin : ℝ → F ℝ)).h = R * 2 := h1
      have hw' : (im.map (fin : ℝ → F ℝ)).w = R * 2 := h2
      rw [hh, hw', simCentre_eq hR hmax]
      apply exactOverlap_law.hits_of_pos _ _ _ R R hx0 (by simpa using hx0) (by omega) (by omega)
      set e : Ellipse ℝ := ⟨(R : ℝ), (R : ℝ), (x : ℝ), (x : ℝ) / 1, 0⟩ with he
      show 0 < (volume (pixelSquare R R ∩ e.set)).toReal
      rw [ENNReal.toReal_pos_iff]
      refine ⟨?_, lt_top_iff_ne_top.2 (volume_pixelSquare_ne_top R R e.set)⟩
      have hopen : IsOpen ((Set.Ioo ((R : ℝ) - 1 / 2) (R + 1 / 2) ×ˢ Set.Ioo ((R : ℝ) - 1 / 2) (R + 1 / 2)) ∩ e.set) :=
        (isOpen_Ioo.prod isOpen_Ioo).inter (ellipse_open e)
      refine lt_of_lt_of_le (hopen.measure_pos volume ⟨((R : ℝ), (R : ℝ)), ?_, ?_⟩) (measure_mono (Set.inter_subset_inter_left _ ?_))
      · constructor <;> constructor <;> simp
      · simp [Ellipse.set, he]
      · exact Set.prod_mono Set.Ioo_subset_Ioc_self Set.Ioo_subset_Ioc_self
    refine ⟨_, (photometryAt_ok exactOverlap_law).2 ⟨hx0, one_pos, rfl, rfl, hhit, ?_, rfl, rfl, rfl⟩⟩
    have := (C45_linear exactOverlap_law ⟨(simCentre rs : ℝ), (simCentre rs : ℝ), (x : ℝ), (x : ℝ) / 1, 0⟩ im.h im.w none im.px im.px 0).1
    have hmap : (im.map (fin : ℝ → F ℝ)) = ⟨im.h, im.w, fun i j => fin (im.px i j)⟩ := rfl
    rw [hmap, this]; rfl
  have hall : ∃ l, (rs.map fun r : Nat => (r : ℝ)).mapM (photometryAt exactOverlap (im.map fin) (simCentre rs) (simCentre rs) none (inv none) 1 0) = .ok l := by
    generalize (rs.map fun r : Nat => (r : ℝ)) = L at hone
    induction L with
    | nil => exact ⟨[], rfl⟩
    | cons a L ih =>
      obtain ⟨p, hp⟩ := hone a List.mem_cons_self
      obtain ⟨l, hl⟩ := ih fun r hr => hone r (List.mem_cons_of_mem _ hr)
      refine ⟨p :: l, ?_⟩
      rw [List.mapM_cons, hp, Except.bind_ok, hl, Except.bind_ok]; rfl
  obtain ⟨l, hl⟩ := hall
  refine ⟨l.map (·.1), l.map (·.2.1), l.map (·.2.2), ?_⟩
  unfold simPhotometry radialPhotometry
  change (do let l ← List.mapM (photometryAt exactOverlap (im.map fin) (simCentre rs) (simCentre rs) none (inv none) 1 0) _; _) = _
  rw [hl, Except.bind_ok]

/-- **C107, every simulation.** For all `n > 0` and `r_eff > 0` the image and the photometry succeed (without PSF), the areas are `π r²` at
all radii but the largest, and the area at the largest radius is too small. -/
theorem C107_every_simulation {rEff n : ℝ} (hn : 0 < n) (hre : 0 < rEff) (integ : GridModel ℝ → ℝ × ℝ → ℝ × ℝ → Except PyErr (Img ℝ))
    (rot : Img ℝ → ℝ → Img ℝ) :
    ∃ R im fl ar er, R ∈ simRs rEff n ∧ (∀ x ∈ simRs rEff n, x ≤ R) ∧ simImage integ rot none .none .none rEff n = .ok im ∧
      simPhotometry exactOverlap im (simRs rEff n) = .ok (fl, ar, er) ∧
      (∀ k r : Nat, (simRs rEff n)[k]? = some r → r < R → ar[k]? = some (fin (round6 (Real.pi * (r : ℝ) ^ 2)))) ∧
      ∀ k : Nat, (simRs rEff n)[k]? = some R → ∃ a, ar[k]? = some (fin a) ∧ a < Real.pi * (R : ℝ) ^ 2 - 6 / 25 := by
  obtain ⟨R, im, hR, hmax, him, hh, hw, -⟩ := C106_pixels hn hre integ rot
  have hpos : ∀ x ∈ simRs rEff n, 0 < x := by
    have h0 : 0 ≤ simMaxR rEff n (simNumbers rEff n).rTotal := by
      obtain ⟨-, -, -, -, -, h1, h2, h3, -⟩ := C105_truth hn hre
      unfold simMaxR
      split_ifs <;> nlinarith
    obtain ⟨h1, h2, -⟩ := C33_radii _ h0
    intro x hx
    change (simRs rEff n).head? = _ at h1
    change (simRs rEff n).Pairwise _ at h2
    cases hrs : simRs rEff n with
    | nil => rw [hrs] at hx; cases hx
    | cons a l =>
      rw [hrs] at h1 h2 hx
      obtain rfl : a = 1 := by simpa using h1
      rcases List.mem_cons.1 hx with rfl | hx
      · omega
      · have := List.rel_of_pairwise_cons h2 hx; omega
  rw [← simSize_eq hR hmax] at hh hw
  obtain ⟨fl, ar, er, hph⟩ := simPhotometry_ok hpos hR hmax im hh hw
  refine ⟨R, im, fl, ar, er, hR, hmax, him, hph, ?_, ?_⟩
  · intro k r hk hr
    exact (C107_inside_partial hpos hR hmax im hh hw fl ar er hph k r hk hr).2
  · intro k hk
    obtain ⟨a, h1, h2, -⟩ := (C107_violated hpos hR hmax im hh hw fl ar er hph).2 k hk
    exact ⟨a, h1, h2⟩

/-- A two-radius example: circles of radius 1 and 3 on a 6 × 6 image. -/
example (im : Img ℝ) (h1 : im.h = 6) (h2 : im.w = 6) : ∃ fl ar er, simPhotometry exactOverlap im [1, 3] = .ok (fl, ar, er) ∧
    ar[0]? = some (fin (round6 (Real.pi * ((1 : Nat) : ℝ) ^ 2))) ∧ ∃ a, ar[1]? = some (fin a) ∧ a < Real.pi * ((3 : Nat) : ℝ) ^ 2 - 6 / 25 := by
  have hp : ∀ x ∈ [1, 3], 0 < x := by decide
  have hm : ∀ x ∈ [1, 3], x ≤ 3 := by decide
  obtain ⟨fl, ar, er, h⟩ := simPhotometry_ok (rs := [1, 3]) (R := 3) hp (by decide) hm im (by rw [h1]; rfl) (by rw [h2]; rfl)
  refine ⟨fl, ar, er, h, ?_, ?_⟩
  · exact (C107_inside_partial (R := 3) hp (by decide) hm im (by rw [h1]; rfl) (by rw [h2]; rfl) fl ar er h 0 1 rfl (by decide)).2
  · obtain ⟨a, g1, g2, -⟩ := (C107_violated (R := 3) hp (by decide) hm im (by rw [h1]; rfl) (by rw [h2]; rfl) fl ar er h).2 1 rfl
    exact ⟨a, g1, g2⟩

end Verif.Props

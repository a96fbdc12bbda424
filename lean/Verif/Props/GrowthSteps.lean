import Verif.Props.ApertureArea
import Verif.Lemmas.Noise
import Mathlib.MeasureTheory.Integral.DominatedConvergence

/-!
# C185: the steps of a curve of growth
-/

set_option linter.unusedSectionVars false
set_option linter.unusedVariables false
set_option linter.unusedSimpArgs false

namespace Verif.Spec

/-- The circle around `(cx, cy)` through the centre of the pixel in row `i` and column `j` has this radius. -/
noncomputable def pixelDistance (cx cy : ℝ) (i j : Nat) : ℝ := Real.sqrt ((j - cx) ^ 2 + (i - cy) ^ 2)

end Verif.Spec

namespace Verif.Props

open Verif F Spec Lemmas MeasureTheory

section
variable {K : Type} [Field K] [LinearOrder K] [IsStrictOrderedRing K] [HasSqrt K] [FloorRing K] {ov : Overlap K}

/-- What one radius of the photometry returns on finite pixels. -/
theorem photometry_values (hov : OverlapLaw ov) {image : Img (F K)} {f : Nat → Nat → K} {cx cy : K} {rs : List K}
    {error : Option (Img (F K))} {mask : Option (Img Bool)} {q t : K} {fl ar er : List (F K)}
    (hf : ∀ i j, i < image.h → j < image.w → Used mask i j = true → image.px i j = fin (f i j))
    (h : radialPhotometry ov image cx cy rs error mask q t = .ok (fl, ar, er)) (m : Nat) (hm : m < rs.length) :
    0 < rs[m] ∧ 0 < q ∧
      fl[m]? = some (fin (round6 (weightedSum (ov.weight ⟨cx, cy, rs[m], rs[m] / q, t⟩) image.h image.w (Used mask) f))) ∧
      ar[m]? = some (fin (round6 (weightedSum (ov.weight ⟨cx, cy, rs[m], rs[m] / q, t⟩) image.h image.w (Used mask) fun _ _ => 1))) := by
  obtain ⟨l, hl, rfl, rfl, rfl⟩ := radialPhotometry_ok.1 h
  have hm' : m < l.length := by rw [← hl.length_eq]; exact hm
  have hp := (List.forall₂_iff_get.1 hl).2 m hm hm'
  simp only [List.get_eq_getElem] at hp
  rcases hlp : l[m] with ⟨v, a, e⟩
  rw [hlp] at hp
  obtain ⟨h1, h2, _, _, _, _, hv, ha, _⟩ := (photometryAt_ok hov).1 hp
  rw [rawSum, npSum_good hov _ _ _ mask image.px f (fun i j hi hj _ hu => hf i j hi hj hu), npRound6_fin] at hv
  refine ⟨h1, h2, ?_, ?_⟩
  · rw [List.getElem?_map, List.getElem?_eq_getElem hm', hlp, Option.map_some, hv]
  · rw [List.getElem?_map, List.getElem?_eq_getElem hm', hlp, Option.map_some, ha]

theorem weightedSum_range {wt : Nat → Nat → K} {h w : Nat} {use : Nat → Nat → Bool} {f : Nat → Nat → K} {lo hi : K}
    (hw : ∀ i j, 0 ≤ wt i j) (hf : ∀ i j, i < h → j < w → use i j = true → 0 < wt i j → lo ≤ f i j ∧ f i j ≤ hi) :
    lo * weightedSum wt h w use (fun _ _ => 1) ≤ weightedSum wt h w use f ∧
      weightedSum wt h w use f ≤ hi * weightedSum wt h w use (fun _ _ => 1) := by
  simp only [weightedSum_product, Finset.mul_sum]
  constructor <;> refine Finset.sum_le_sum fun p hp => ?_ <;>
  · rw [Finset.mem_product, Finset.mem_range, Finset.mem_range] at hp
    by_cases hu : use p.1 p.2 = true
    · simp only [hu, if_true, mul_one]
      rcases (hw p.1 p.2).eq_or_lt with h0 | h0
      · simp [← h0]
      · obtain ⟨h1, h2⟩ := hf _ _ hp.1 hp.2 hu h0
        nlinarith
    · simp [hu]

theorem rounded_bounds {lo hi F A x y : K} (h1 : lo * A ≤ F) (h2 : F ≤ hi * A) {d : K} (hx : |x - F| ≤ d) (hy : |y - A| ≤ d) :
    lo * y - (1 + |lo|) * d ≤ x ∧ x ≤ hi * y + (1 + |hi|) * d := by
  have key : ∀ c : K, |c * (y - A)| ≤ |c| * d := fun c => by
    rw [abs_mul]; exact mul_le_mul_of_nonneg_left hy (abs_nonneg c)
  have k1 := abs_le.1 (key lo)
  have k2 := abs_le.1 (key hi)
  rw [abs_le] at hx
  constructor
  · nlinarith [k1.1, k1.2, hx.1]
  · nlinarith [k2.1, k2.2, hx.2]

/-- **C185, apertures.** Every flux lies between the smallest and the largest pixel in the aperture times the area, up to the rounding to six
decimals: for every image, mask, elongation, angle and overlap method. -/
theorem C185_aperture (hov : OverlapLaw ov) (image : Img (F K)) (f : Nat → Nat → K) (cx cy : K) (rs : List K)
    (error : Option (Img (F K))) (mask : Option (Img Bool)) (q t : K) (fl ar er : List (F K))
    (hf : ∀ i j, i < image.h → j < image.w → Used mask i j = true → image.px i j = fin (f i j))
    (h : radialPhotometry ov image cx cy rs error mask q t = .ok (fl, ar, er)) (m : Nat) (hm : m < rs.length) (lo hi : K)
    (hb : ∀ i j, i < image.h → j < image.w → Used mask i j = true → 0 < ov.weight ⟨cx, cy, rs[m], rs[m] / q, t⟩ i j →
      lo ≤ f i j ∧ f i j ≤ hi) :
    ∃ F A, fl[m]? = some (fin F) ∧ ar[m]? = some (fin A) ∧
      lo * A - (1 + |lo|) / 2 / 10 ^ 6 ≤ F ∧ F ≤ hi * A + (1 + |hi|) / 2 / 10 ^ 6 := by
  obtain ⟨_, _, h3, h4⟩ := photometry_values hov hf h m hm
  refine ⟨_, _, h3, h4, ?_⟩
  obtain ⟨b1, b2⟩ := weightedSum_range (hov.nonneg _) hb
  have := rounded_bounds b1 b2 (abs_round6_sub _) (abs_round6_sub _)
  convert this using 2 <;> ring

/-- **C185, annuli.** The flux between two apertures lies between the smallest and the largest pixel of which the larger aperture holds more than
the smaller one, times the area between them, up to the rounding to six decimals: pixels elsewhere have no influence. -/
theorem C185_annulus (hov : OverlapLaw ov) (image : Img (F K)) (f : Nat → Nat → K) (cx cy : K) (rs : List K)
    (error : Option (Img (F K))) (mask : Option (Img Bool)) (q t : K) (fl ar er : List (F K))
    (hf : ∀ i j, i < image.h → j < image.w → Used mask i j = true → image.px i j = fin (f i j))
    (h : radialPhotometry ov image cx cy rs error mask q t = .ok (fl, ar, er)) (m n : Nat) (hm : m < rs.length) (hn : n < rs.length)
    (hmn : rs[m] ≤ rs[n]) (lo hi : K)
    (hb : ∀ i j, i < image.h → j < image.w → Used mask i j = true →
      ov.weight ⟨cx, cy, rs[m], rs[m] / q, t⟩ i j < ov.weight ⟨cx, cy, rs[n], rs[n] / q, t⟩ i j → lo ≤ f i j ∧ f i j ≤ hi) :
    ∃ F A F' A', fl[m]? = some (fin F) ∧ ar[m]? = some (fin A) ∧ fl[n]? = some (fin F') ∧ ar[n]? = some (fin A') ∧
      lo * (A' - A) - (1 + |lo|) / 10 ^ 6 ≤ F' - F ∧ F' - F ≤ hi * (A' - A) + (1 + |hi|) / 10 ^ 6 := by
  obtain ⟨h1, h2, h3, h4⟩ := photometry_values hov hf h m hm
  obtain ⟨_, _, h5, h6⟩ := photometry_values hov hf h n hn
  refine ⟨_, _, _, _, h3, h4, h5, h6, ?_⟩
  set e : Ellipse K := ⟨cx, cy, rs[m], rs[m] / q, t⟩
  set e' : Ellipse K := ⟨cx, cy, rs[n], rs[n] / q, t⟩
  have hnest : ∀ i j, 0 ≤ ov.weight e' i j - ov.weight e i j := fun i j =>
    sub_nonneg.2 (hov.nested cx cy q t _ _ i j h2 h1 hmn)
  obtain ⟨b1, b2⟩ := weightedSum_range (wt := fun i j => ov.weight e' i j - ov.weight e i j) (use := Used mask) (f := f) (lo := lo)
    (hi := hi) hnest (fun i j a b c d => hb i j a b c (sub_pos.1 d))
  simp only [weightedSum_wt_sub] at b1 b2
  have hd : ∀ x y : K, |round6 x - round6 y - (x - y)| ≤ 1 / 10 ^ 6 := by
    intro x y
    have k1 := abs_le.1 (abs_round6_sub x)
    have k2 := abs_le.1 (abs_round6_sub y)
    have : (1 : K) / 10 ^ 6 = 1 / 2 / 10 ^ 6 + 1 / 2 / 10 ^ 6 := by ring
    rw [abs_le, this]
    constructor <;> linarith [k1.1, k1.2, k2.1, k2.2]
  have := rounded_bounds b1 b2 (hd _ _) (hd _ _)
  convert this using 2 <;> ring

end

/-! ### Continuity -/

theorem volume_ellipse_boundary (cx cy r q t : ℝ) (hr : 0 < r) (hq : 0 < q) :
    volume {p : ℝ × ℝ | (((p.1 - cx) * Real.cos t + (p.2 - cy) * Real.sin t) / r) ^ 2 +
       (((p.2 - cy) * Real.cos t - (p.1 - cx) * Real.sin t) / (r / q)) ^ 2 = 1} = 0 := by
  set B := {p : ℝ × ℝ | (((p.1 - cx) * Real.cos t + (p.2 - cy) * Real.sin t) / r) ^ 2 +
       (((p.2 - cy) * Real.cos t - (p.1 - cx) * Real.sin t) / (r / q)) ^ 2 = 1} with hB
  have hE : ∀ s : ℝ, 0 < s → volume (Ellipse.set ⟨cx, cy, s, s / q, t⟩) = ENNReal.ofReal (Real.pi * s * (s / q)) := fun s hs =>
    volume_ellipse _ hs (div_pos hs hq)
  have hle : ∀ s : ℝ, r < s → volume B ≤ ENNReal.ofReal (Real.pi * s * (s / q) - Real.pi * r * (r / q)) := by
    intro s hs
    have hs0 : 0 < s := hr.trans hs
    have hsub : B ⊆ Ellipse.set ⟨cx, cy, s, s / q, t⟩ \ Ellipse.set ⟨cx, cy, r, r / q, t⟩ := by
      intro p hp
      simp only [hB, Set.mem_setOf_eq] at hp
      simp only [Ellipse.set, Set.mem_diff, Set.mem_setOf_eq, not_lt]
      refine ⟨?_, hp.ge⟩
      set u := (p.1 - cx) * Real.cos t + (p.2 - cy) * Real.sin t
      set v := (p.2 - cy) * Real.cos t - (p.1 - cx) * Real.sin t
      have e1 : (u / s) ^ 2 + (v / (s / q)) ^ 2 = (r / s) ^ 2 * ((u / r) ^ 2 + (v / (r / q)) ^ 2) := by
        field_simp
      rw [e1, hp, mul_one]
      have : r / s < 1 := (div_lt_one hs0).2 hs
      have : 0 < r / s := div_pos hr hs0
      nlinarith
    calc volume B ≤ volume (Ellipse.set ⟨cx, cy, s, s / q, t⟩ \ Ellipse.set ⟨cx, cy, r, r / q, t⟩) := measure_mono hsub
      _ = volume (Ellipse.set ⟨cx, cy, s, s / q, t⟩) - volume (Ellipse.set ⟨cx, cy, r, r / q, t⟩) :=
        measure_sdiff (Ellipse.set_nested hq hr hs.le) (ellipse_open _).measurableSet.nullMeasurableSet (by rw [hE r hr]; exact ENNReal.ofReal_ne_top)
      _ = _ := by rw [hE s hs0, hE r hr, ENNReal.ofReal_sub _ (by positivity)]
  have hlim : Filter.Tendsto (fun s : ℝ => ENNReal.ofReal (Real.pi * s * (s / q) - Real.pi * r * (r / q))) (nhdsWithin r (Set.Ioi r)) (nhds 0) := by
    have hc : Continuous fun s : ℝ => ENNReal.ofReal (Real.pi * s * (s / q) - Real.pi * r * (r / q)) :=
      ENNReal.continuous_ofReal.comp (by fun_prop)
    have := (hc.tendsto r).mono_left (nhdsWithin_le_nhds (s := Set.Ioi r))
    simpa using this
  have := ge_of_tendsto hlim (Filter.eventually_of_mem self_mem_nhdsWithin fun s hs => hle s hs)
  exact le_antisymm this bot_le

/-- The exact weight of a pixel is a continuous function of centre, radius, elongation and angle. -/
theorem exact_weight_continuous (i j : Nat) (cx cy r q t : ℝ) (hr : 0 < r) (hq : 0 < q) :
    ContinuousAt (fun a : ℝ × ℝ × ℝ × ℝ × ℝ => exactOverlap.weight ⟨a.1, a.2.1, a.2.2.1, a.2.2.1 / a.2.2.2.1, a.2.2.2.2⟩ i j)
      (cx, cy, r, q, t) := by
  set g : ℝ × ℝ × ℝ × ℝ × ℝ → ℝ × ℝ → ℝ := fun a p =>
    (((p.1 - a.1) * Real.cos a.2.2.2.2 + (p.2 - a.2.1) * Real.sin a.2.2.2.2) / a.2.2.1) ^ 2 +
       (((p.2 - a.2.1) * Real.cos a.2.2.2.2 - (p.1 - a.1) * Real.sin a.2.2.2.2) / (a.2.2.1 / a.2.2.2.1)) ^ 2 with hg
  have hset : ∀ a : ℝ × ℝ × ℝ × ℝ × ℝ, Ellipse.set ⟨a.1, a.2.1, a.2.2.1, a.2.2.1 / a.2.2.2.1, a.2.2.2.2⟩ = {p | g a p < 1} := fun a => rfl
  have hw : (fun a : ℝ × ℝ × ℝ × ℝ × ℝ => exactOverlap.weight ⟨a.1, a.2.1, a.2.2.1, a.2.2.1 / a.2.2.2.1, a.2.2.2.2⟩ i j) =
      fun a => ∫ p in pixelSquare i j, ({p | g a p < 1} : Set (ℝ × ℝ)).indicator (fun _ => (1 : ℝ)) p := by
    funext a
    have hm : MeasurableSet {p : ℝ × ℝ | g a p < 1} := by rw [← hset]; exact (ellipse_open _).measurableSet
    have h1 := integral_indicator_one (μ := volume.restrict (pixelSquare i j)) hm
    have h2 : (∫ p in pixelSquare i j, ({p | g a p < 1} : Set (ℝ × ℝ)).indicator (fun _ => (1 : ℝ)) p) =
        ∫ p in pixelSquare i j, ({p | g a p < 1} : Set (ℝ × ℝ)).indicator (1 : ℝ × ℝ → ℝ) p := rfl
    rw [h2, h1]
    simp only [exactOverlap, measureReal_def]
    rw [Measure.restrict_apply hm, hset, Set.inter_comm]
  rw [hw]
  refine continuousAt_of_dominated (bound := fun _ => 1) ?_ ?_ ?_ ?_
  · refine Filter.Eventually.of_forall fun a => ?_
    have hm : MeasurableSet {p : ℝ × ℝ | g a p < 1} := by rw [← hset]; exact (ellipse_open _).measurableSet
    exact (measurable_const.indicator hm).aestronglyMeasurable
  · refine Filter.Eventually.of_forall fun a => Filter.Eventually.of_forall fun p => ?_
    by_cases hp : g a p < 1 <;> simp [Set.indicator, hp]
  · have : IsFiniteMeasure (volume.restrict (pixelSquare i j)) := ⟨by
      rw [Measure.restrict_apply_univ, volume_pixel]; exact ENNReal.one_lt_top⟩
    exact integrable_const _
  · have hnull : volume {p : ℝ × ℝ | g (cx, cy, r, q, t) p = 1} = 0 := volume_ellipse_boundary cx cy r q t hr hq
    have hae : ∀ᵐ p ∂(volume.restrict (pixelSquare i j)), g (cx, cy, r, q, t) p ≠ 1 := by
      refine ae_restrict_of_ae ?_
      rw [ae_iff]
      simpa using hnull
    filter_upwards [hae] with p hp
    have hgc : ContinuousAt (fun a => g a p) (cx, cy, r, q, t) := by
      have hr' : ((cx, cy, r, q, t) : ℝ × ℝ × ℝ × ℝ × ℝ).2.2.1 ≠ 0 := hr.ne'
      have hq' : ((cx, cy, r, q, t) : ℝ × ℝ × ℝ × ℝ × ℝ).2.2.2.1 ≠ 0 := hq.ne'
      have hrq : ((cx, cy, r, q, t) : ℝ × ℝ × ℝ × ℝ × ℝ).2.2.1 / ((cx, cy, r, q, t) : ℝ × ℝ × ℝ × ℝ × ℝ).2.2.2.1 ≠ 0 := div_ne_zero hr' hq'
      have c1 : ContinuousAt (fun a : ℝ × ℝ × ℝ × ℝ × ℝ => a.2.2.1) (cx, cy, r, q, t) := Continuous.continuousAt (by fun_prop)
      have c2 : ContinuousAt (fun a : ℝ × ℝ × ℝ × ℝ × ℝ => a.2.2.2.1) (cx, cy, r, q, t) := Continuous.continuousAt (by fun_prop)
      have c3 : ContinuousAt (fun a : ℝ × ℝ × ℝ × ℝ × ℝ => a.2.2.1 / a.2.2.2.1) (cx, cy, r, q, t) := c1.div c2 hq'
      have c4 : ContinuousAt (fun a : ℝ × ℝ × ℝ × ℝ × ℝ => (p.1 - a.1) * Real.cos a.2.2.2.2 + (p.2 - a.2.1) * Real.sin a.2.2.2.2) (cx, cy, r, q, t) :=
        Continuous.continuousAt (by fun_prop)
      have c5 : ContinuousAt (fun a : ℝ × ℝ × ℝ × ℝ × ℝ => (p.2 - a.2.1) * Real.cos a.2.2.2.2 - (p.1 - a.1) * Real.sin a.2.2.2.2) (cx, cy, r, q, t) :=
        Continuous.continuousAt (by fun_prop)
      exact ((c4.div c1 hr').pow 2).add ((c5.div c3 hrq).pow 2)
    rcases lt_or_gt_of_ne hp with h | h
    · have hev := hgc.eventually_lt_const h
      refine ContinuousAt.congr (f := fun _ => (1 : ℝ)) continuousAt_const ?_
      filter_upwards [hev] with a ha
      simp [Set.indicator, ha]
    · have hev := hgc.eventually_const_lt h
      refine ContinuousAt.congr (f := fun _ => (0 : ℝ)) continuousAt_const ?_
      filter_upwards [hev] with a ha
      simp [Set.indicator, not_lt.2 ha.le]

/-- **C185, exact method.** Fluxes and areas are, up to the rounding to six decimals, continuous functions of the centre, the radius, the elongation
and the angle of the aperture: for every image and mask. -/
theorem C185_continuous (h w : Nat) (f : Nat → Nat → ℝ) (mask : Option (Img Bool)) :
    ∃ Φ A : ℝ × ℝ × ℝ × ℝ × ℝ → ℝ, ContinuousOn Φ {a | 0 < a.2.2.1 ∧ 0 < a.2.2.2.1} ∧ ContinuousOn A {a | 0 < a.2.2.1 ∧ 0 < a.2.2.2.1} ∧
      ∀ cx cy rs error q t fl ar er,
        radialPhotometry exactOverlap ⟨h, w, fun i j => fin (f i j)⟩ cx cy rs error mask q t = .ok (fl, ar, er) →
        List.Forall₂ (fun r v => ∃ x, v = fin x ∧ |x - Φ (cx, cy, r, q, t)| ≤ 1 / 2 / 10 ^ 6) rs fl ∧
          List.Forall₂ (fun r v => ∃ x, v = fin x ∧ |x - A (cx, cy, r, q, t)| ≤ 1 / 2 / 10 ^ 6) rs ar := by
  have key : ∀ f : Nat → Nat → ℝ, ContinuousOn (fun a : ℝ × ℝ × ℝ × ℝ × ℝ =>
      weightedSum (exactOverlap.weight ⟨a.1, a.2.1, a.2.2.1, a.2.2.1 / a.2.2.2.1, a.2.2.2.2⟩) h w (Used mask) f) {a | 0 < a.2.2.1 ∧ 0 < a.2.2.2.1} := by
    rintro f ⟨cx, cy, r, q, t⟩ ⟨hr, hq⟩
    refine ContinuousAt.continuousWithinAt ?_
    simp only [weightedSum_product]
    refine tendsto_finsetSum _ fun p _ => ?_
    refine Filter.Tendsto.mul_const _ ?_
    by_cases hu : Used mask p.1 p.2 = true
    · simp only [hu, if_true]
      exact exact_weight_continuous _ _ _ _ _ _ _ hr hq
    · simp only [hu]
      exact tendsto_const_nhds
  refine ⟨_, _, key f, key fun _ _ => 1, fun cx cy rs error q t fl ar er hres => ?_⟩
  exact C45_rounded exactOverlap_law h w f cx cy rs error mask q t fl ar er hres

/-! ### The center method -/

theorem center_weight (cx cy r t : ℝ) (hr : 0 < r) (i j : Nat) :
    centerOverlap.weight ⟨cx, cy, r, r / 1, t⟩ i j = if pixelDistance cx cy i j < r then 1 else 0 := by
  have hiff : ((j : ℝ), (i : ℝ)) ∈ Ellipse.set ⟨cx, cy, r, r / 1, t⟩ ↔ pixelDistance cx cy i j < r := by
    simp only [Ellipse.set, Set.mem_setOf_eq, div_one, pixelDistance]
    have hcs := Real.cos_sq_add_sin_sq t
    have e : (((j - cx) * Real.cos t + (i - cy) * Real.sin t) / r) ^ 2 + (((i - cy) * Real.cos t - (j - cx) * Real.sin t) / r) ^ 2 =
        (((j : ℝ) - cx) ^ 2 + (i - cy) ^ 2) / r ^ 2 := by
      field_simp
      linear_combination (((j : ℝ) - cx) ^ 2 + (i - cy) ^ 2) * hcs
    rw [e, div_lt_one (by positivity), Real.sqrt_lt' hr]
  simp only [centerOverlap]
  by_cases hp : pixelDistance cx cy i j < r
  · rw [if_pos (hiff.2 hp), if_pos hp]
  · rw [if_neg (fun h => hp (hiff.1 h)), if_neg hp]

theorem center_hits (cx cy t : ℝ) (h w i j : Nat) (hi : i < h) (hj : j < w) (r : ℝ) (hr : 0 < r) (hd : pixelDistance cx cy i j ≤ r) :
    centerOverlap.hits ⟨cx, cy, r, r / 1, t⟩ h w = true := by
  have hcs := Real.cos_sq_add_sin_sq t
  have hx : Real.sqrt ((r * Real.cos t) ^ 2 + (r * Real.sin t) ^ 2) = r := by
    rw [show (r * Real.cos t) ^ 2 + (r * Real.sin t) ^ 2 = r ^ 2 by linear_combination r ^ 2 * hcs, Real.sqrt_sq hr.le]
  have hy : Real.sqrt ((r * Real.sin t) ^ 2 + (r * Real.cos t) ^ 2) = r := by rw [add_comm, hx]
  have h2 : ((j : ℝ) - cx) ^ 2 + (i - cy) ^ 2 ≤ r ^ 2 := by
    have := Real.sqrt_le_left hr.le |>.1 hd
    exact this
  have ax : |(j : ℝ) - cx| ≤ r := abs_le_of_sq_le_sq (by nlinarith [sq_nonneg ((i : ℝ) - cy)]) hr.le
  have ay : |(i : ℝ) - cy| ≤ r := abs_le_of_sq_le_sq (by nlinarith [sq_nonneg ((j : ℝ) - cx)]) hr.le
  rw [abs_le] at ax ay
  have hj' : (j : ℝ) + 1 ≤ w := by exact_mod_cast hj
  have hi' : (i : ℝ) + 1 ≤ h := by exact_mod_cast hi
  have hj0 : (0 : ℝ) ≤ j := Nat.cast_nonneg j
  have hi0 : (0 : ℝ) ≤ i := Nat.cast_nonneg i
  simp only [centerOverlap, boxHits, Ellipse.xExtent, Ellipse.yExtent, div_one, hx, hy]
  rw [decide_eq_true_eq]
  refine ⟨?_, ?_, ?_, ?_⟩
  · rw [Int.floor_lt]; push_cast; linarith
  · rw [Int.ceil_pos]; linarith
  · rw [Int.floor_lt]; push_cast; linarith
  · rw [Int.ceil_pos]; linarith

/-- **C185, violated by `method="center"`.** For every image without negative pixels, every centre and every pixel that is not at the centre: the
flux at the distance of the pixel and the flux at any larger radius, however close, differ by at least the value of the pixel (up to the rounding). -/
theorem C185_center_violated (h w : Nat) (f : Nat → Nat → ℝ) (hf : ∀ i j, 0 ≤ f i j) (cx cy t : ℝ) (i j : Nat) (hi : i < h) (hj : j < w)
    (hne : 0 < pixelDistance cx cy i j) (r : ℝ) (hr : pixelDistance cx cy i j < r) :
    ∃ x y ar er, radialPhotometry centerOverlap ⟨h, w, fun i j => fin (f i j)⟩ cx cy [pixelDistance cx cy i j, r] none none 1 t =
        .ok ([fin x, fin y], ar, er) ∧ f i j - 1 / 10 ^ 6 ≤ y - x := by
  set d := pixelDistance cx cy i j with hd
  have hr0 : 0 < r := hne.trans hr
  have hs : ∀ s : ℝ, 0 < s → d ≤ s → ∃ a er, photometryAt centerOverlap ⟨h, w, fun i j => fin (f i j)⟩ cx cy none (inv none) 1 t s =
      .ok (fin (round6 (weightedSum (centerOverlap.weight ⟨cx, cy, s, s / 1, t⟩) h w (Used none) f)), a, er) := by
    intro s hs hds
    have hraw := (C45_linear centerOverlap_law ⟨cx, cy, s, s / 1, t⟩ h w none f f 0).1
    refine ⟨_, _, (photometryAt_ok centerOverlap_law).2 ⟨hs, one_pos, rfl, rfl, center_hits cx cy t h w i j hi hj s hs hds, ?_, ?_, rfl, rfl⟩⟩
    · rw [hraw]; rfl
    · rw [hraw, npRound6_fin]
  obtain ⟨a1, e1, k1⟩ := hs d hne le_rfl
  obtain ⟨a2, e2, k2⟩ := hs r hr0 hr.le
  refine ⟨_, _, [a1, a2], [e1, e2], radialPhotometry_ok.2 ⟨[(_, a1, e1), (_, a2, e2)], .cons k1 (.cons k2 .nil), rfl, rfl, rfl⟩, ?_⟩
  have hstep : f i j ≤ weightedSum (centerOverlap.weight ⟨cx, cy, r, r / 1, t⟩) h w (Used none) f -
      weightedSum (centerOverlap.weight ⟨cx, cy, d, d / 1, t⟩) h w (Used none) f := by
    rw [← weightedSum_wt_sub, weightedSum_product]
    have hnn : ∀ p ∈ Finset.range h ×ˢ Finset.range w, 0 ≤ (if Used none p.1 p.2 = true then
        centerOverlap.weight ⟨cx, cy, r, r / 1, t⟩ p.1 p.2 - centerOverlap.weight ⟨cx, cy, d, d / 1, t⟩ p.1 p.2 else 0) * f p.1 p.2 := by
      intro p _
      refine mul_nonneg ?_ (hf _ _)
      split
      · exact sub_nonneg.2 (centerOverlap_law.nested cx cy 1 t _ _ _ _ one_pos hne hr.le)
      · exact le_rfl
    refine le_trans (le_of_eq ?_) (Finset.single_le_sum hnn (a := (i, j)) (Finset.mem_product.2 ⟨Finset.mem_range.2 hi, Finset.mem_range.2 hj⟩))
    simp only [center_weight cx cy r t hr0, center_weight cx cy d t hne, ← hd, hr, lt_irrefl, Used, if_true, if_false, sub_zero, one_mul]
  have k3 := abs_le.1 (abs_round6_sub (weightedSum (centerOverlap.weight ⟨cx, cy, r, r / 1, t⟩) h w (Used none) f))
  have k4 := abs_le.1 (abs_round6_sub (weightedSum (centerOverlap.weight ⟨cx, cy, d, d / 1, t⟩) h w (Used none) f))
  have : (1 : ℝ) / 10 ^ 6 = 1 / 2 / 10 ^ 6 + 1 / 2 / 10 ^ 6 := by ring
  rw [this]
  linarith [k3.1, k3.2, k4.1, k4.2]

/-! ### Concrete cases -/

/-- Pixels in the upper part of a 9 × 9 image are not used. -/
def lowerMask : Img Bool := ⟨9, 9, fun i _ => decide (i < 6)⟩

theorem steps_run : ∃ fl ar er, radialPhotometry exactOverlap ⟨9, 9, fun i j => fin ((i : ℝ) + 2 * j)⟩ 4 4 [1, 2, 7 / 2] none (some lowerMask) 1 0 =
    .ok (fl, ar, er) := by
  have hs : ∀ s : ℝ, 0 < s → ∃ p, photometryAt exactOverlap ⟨9, 9, fun i j => fin ((i : ℝ) + 2 * j)⟩ 4 4 none (inv (some lowerMask)) 1 0 s = .ok p := by
    intro s hs
    have hraw := (C45_linear exactOverlap_law ⟨4, 4, s, s / 1, 0⟩ 9 9 (some lowerMask) (fun i j => (i : ℝ) + 2 * j) (fun i j => (i : ℝ) + 2 * j) 0).1
    have hd : pixelDistance 4 4 4 4 ≤ s := by simp [pixelDistance, hs.le]
    refine ⟨(_, _, _), (photometryAt_ok exactOverlap_law).2 ⟨hs, one_pos, rfl, by simp [shapeOk, lowerMask],
      center_hits 4 4 0 9 9 4 4 (by norm_num) (by norm_num) s hs hd, ?_, rfl, rfl, rfl⟩⟩
    rw [hraw]; rfl
  obtain ⟨p1, h1⟩ := hs 1 (by norm_num)
  obtain ⟨p2, h2⟩ := hs 2 (by norm_num)
  obtain ⟨p3, h3⟩ := hs (7 / 2) (by norm_num)
  exact ⟨_, _, _, radialPhotometry_ok.2 ⟨[p1, p2, p3], .cons h1 (.cons h2 (.cons h3 .nil)), rfl, rfl, rfl⟩⟩

/-- A gradient, partly masked: all values used are at most `5 + 2 · 8`. -/
example : ∃ fl ar er, radialPhotometry exactOverlap ⟨9, 9, fun i j => fin ((i : ℝ) + 2 * j)⟩ 4 4 [1, 2, 7 / 2] none (some lowerMask) 1 0 =
      .ok (fl, ar, er) ∧
    (∃ F A, fl[1]? = some (fin F) ∧ ar[1]? = some (fin A) ∧ 0 * A - (1 + |(0 : ℝ)|) / 2 / 10 ^ 6 ≤ F ∧ F ≤ 21 * A + (1 + |(21 : ℝ)|) / 2 / 10 ^ 6) ∧
    ∃ F A F' A', fl[0]? = some (fin F) ∧ ar[0]? = some (fin A) ∧ fl[2]? = some (fin F') ∧ ar[2]? = some (fin A') ∧
      0 * (A' - A) - (1 + |(0 : ℝ)|) / 10 ^ 6 ≤ F' - F ∧ F' - F ≤ 21 * (A' - A) + (1 + |(21 : ℝ)|) / 10 ^ 6 := by
  obtain ⟨fl, ar, er, h⟩ := steps_run
  have hb : ∀ i j : Nat, i < 9 → j < 9 → Used (some lowerMask) i j = true → (0 : ℝ) ≤ (i : ℝ) + 2 * j ∧ (i : ℝ) + 2 * j ≤ 21 := by
    intro i j _ hj hu
    have hi : i < 6 := by simpa [Used, lowerMask] using hu
    have h1 : (i : ℝ) ≤ 5 := by exact_mod_cast Nat.le_of_lt_succ hi
    have h2 : (j : ℝ) ≤ 8 := by exact_mod_cast Nat.le_of_lt_succ hj
    exact ⟨by positivity, by linarith⟩
  exact ⟨fl, ar, er, h,
    C185_aperture exactOverlap_law _ (fun i j => (i : ℝ) + 2 * j) _ _ _ _ _ _ _ fl ar er (fun _ _ _ _ _ => rfl) h 1 (by simp) 0 21
      (fun i j hi hj hu _ => hb i j hi hj hu),
    C185_annulus exactOverlap_law _ (fun i j => (i : ℝ) + 2 * j) _ _ _ _ _ _ _ fl ar er (fun _ _ _ _ _ => rfl) h 0 2 (by simp) (by simp)
      (by norm_num) 0 21 (fun i j hi hj hu _ => hb i j hi hj hu)⟩

/-- A star of 5 counts next to the centre: the curve of growth jumps by 5 at radius 1. -/
example (r : ℝ) (hr : 1 < r) : ∃ x y ar er, radialPhotometry centerOverlap ⟨3, 3, fun i j => fin (if i = 1 ∧ j = 2 then (5 : ℝ) else 0)⟩ 1 1 [1, r] none
    none 1 0 = .ok ([fin x, fin y], ar, er) ∧ 5 - 1 / 10 ^ 6 ≤ y - x := by
  have hd : pixelDistance 1 1 1 2 = 1 := by norm_num [pixelDistance]
  have := C185_center_violated 3 3 (fun i j => if i = 1 ∧ j = 2 then (5 : ℝ) else 0) (fun i j => by positivity) 1 1 0 1 2 (by norm_num) (by norm_num)
    (by rw [hd]; norm_num) r (by rw [hd]; exact hr)
  simpa [hd] using this

end Verif.Props

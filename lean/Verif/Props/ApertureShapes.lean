import Verif.Props.Photometry
import Verif.Props.PhotometrySymmetry

/-!
# C156: apertures of different shapes

`radial_photometry` takes an elongation and an angle.  Here the results for different shapes are compared: an elliptical aperture lies
between the circular ones of its semi-axes, a rounder aperture contains a more elongated one, the angle does not matter for circles,
and half a turn, or a quarter turn with the axes exchanged, changes nothing.
-/

set_option linter.unusedSectionVars false
set_option linter.unusedVariables false

namespace Verif.Spec

/-- Two measurements are finite, non-negative and in order. -/
def MeasuredLE (x y : F ℝ) : Prop := ∃ u v : ℝ, x = .fin u ∧ y = .fin v ∧ 0 ≤ u ∧ u ≤ v

end Verif.Spec

namespace Verif.Props

open Verif F Spec MeasureTheory

/-! ### Weights depend on the set of points only -/

theorem Method.weight_mono {ov : Overlap ℝ} (hm : Method ov) {e e' : Ellipse ℝ} (h : e.set ⊆ e'.set) (i j : Nat) :
    ov.weight e i j ≤ ov.weight e' i j := by
  classical
  cases hm with
  | exact =>
    apply ENNReal.toReal_mono (ne_top_of_le_ne_top ENNReal.one_ne_top (volume_inter_le i j _))
    exact measure_mono (Set.inter_subset_inter_right _ h)
  | center =>
    simp only [centerOverlap]
    by_cases hp : ((j : ℝ), (i : ℝ)) ∈ e.set
    · rw [if_pos hp, if_pos (h hp)]
    · rw [if_neg hp]; split <;> norm_num
  | subpixel s hs =>
    simp only [subpixelOverlap]
    apply div_le_div_of_nonneg_right _ (by positivity)
    apply Nat.cast_le.2
    apply Finset.card_le_card
    apply Finset.monotone_filter_right
    intro k _ hk
    exact h hk

theorem Method.weight_eq {ov : Overlap ℝ} (hm : Method ov) {e e' : Ellipse ℝ} (h : e.set = e'.set) : ov.weight e = ov.weight e' := by
  funext i j
  exact le_antisymm (hm.weight_mono h.le i j) (hm.weight_mono h.ge i j)

theorem boxHits_of_extent {e e' : Ellipse ℝ} (hcx : e.cx = e'.cx) (hcy : e.cy = e'.cy) (hx : e.xExtent ≤ e'.xExtent)
    (hy : e.yExtent ≤ e'.yExtent) {h w : Nat} (hb : boxHits e h w = true) : boxHits e' h w = true := by
  unfold boxHits at hb ⊢
  rw [decide_eq_true_eq] at hb ⊢
  obtain ⟨h1, h2, h3, h4⟩ := hb
  rw [hcx] at h1 h2
  rw [hcy] at h3 h4
  rw [Int.floor_lt] at h1 h3
  rw [Int.ceil_pos] at h2 h4
  refine ⟨?_, ?_, ?_, ?_⟩
  · rw [Int.floor_lt]; linarith
  · rw [Int.ceil_pos]; linarith
  · rw [Int.floor_lt]; linarith
  · rw [Int.ceil_pos]; linarith

theorem boxHits_eq_of_extent {e e' : Ellipse ℝ} (hcx : e.cx = e'.cx) (hcy : e.cy = e'.cy) (hx : e.xExtent = e'.xExtent)
    (hy : e.yExtent = e'.yExtent) (h w : Nat) : boxHits e h w = boxHits e' h w := by
  unfold boxHits
  rw [hcx, hcy, hx, hy]

/-- One aperture inside another, for points and for bounding boxes. -/
structure Inside (e e' : Ellipse ℝ) : Prop where
  cx : e.cx = e'.cx
  cy : e.cy = e'.cy
  points : e.set ⊆ e'.set
  width : e.xExtent ≤ e'.xExtent
  height : e.yExtent ≤ e'.yExtent

/-- Semi-axes in order, same angle. -/
theorem inside_of_axes {cx cy a b a' b' t : ℝ} (ha : 0 < a) (hb : 0 < b) (hab : a ≤ a') (hbb : b ≤ b') :
    Inside ⟨cx, cy, a, b, t⟩ ⟨cx, cy, a', b', t⟩ := by
  have key : ∀ x y : ℝ, Real.sqrt ((a * x) ^ 2 + (b * y) ^ 2) ≤ Real.sqrt ((a' * x) ^ 2 + (b' * y) ^ 2) := by
    intro x y
    apply Real.sqrt_le_sqrt
    have h1 : a ^ 2 ≤ a' ^ 2 := pow_le_pow_left₀ ha.le hab 2
    have h2 : b ^ 2 ≤ b' ^ 2 := pow_le_pow_left₀ hb.le hbb 2
    rw [mul_pow, mul_pow, mul_pow, mul_pow]
    nlinarith [mul_le_mul_of_nonneg_right h1 (sq_nonneg x), mul_le_mul_of_nonneg_right h2 (sq_nonneg y)]
  refine ⟨rfl, rfl, ?_, key _ _, key _ _⟩
  intro p hp
  simp only [Ellipse.set, Set.mem_ofPred_eq] at hp ⊢
  have h1 := sq_le_of_nested (u := (p.1 - cx) * Real.cos t + (p.2 - cy) * Real.sin t) ha hab
  have h2 := sq_le_of_nested (u := (p.2 - cy) * Real.cos t - (p.1 - cx) * Real.sin t) hb hbb
  linarith

/-- Two apertures are the same region of the plane. -/
structure SameRegion (e e' : Ellipse ℝ) : Prop where
  cx : e.cx = e'.cx
  cy : e.cy = e'.cy
  points : e.set = e'.set
  width : e.xExtent = e'.xExtent
  height : e.yExtent = e'.yExtent

theorem SameRegion.inside {e e' : Ellipse ℝ} (h : SameRegion e e') : Inside e e' :=
  ⟨h.cx, h.cy, h.points.le, h.width.le, h.height.le⟩

theorem Inside.trans {e e' e'' : Ellipse ℝ} (h : Inside e e') (h' : Inside e' e'') : Inside e e'' :=
  ⟨h.cx.trans h'.cx, h.cy.trans h'.cy, h.points.trans h'.points, h.width.trans h'.width, h.height.trans h'.height⟩

/-- A circle at any angle. -/
theorem sameRegion_circle (cx cy a t t' : ℝ) : SameRegion ⟨cx, cy, a, a, t⟩ ⟨cx, cy, a, a, t'⟩ := by
  have h1 := Real.cos_sq_add_sin_sq t
  have h2 := Real.cos_sq_add_sin_sq t'
  refine ⟨rfl, rfl, ?_, ?_, ?_⟩
  · have : ∀ t : ℝ, Real.cos t ^ 2 + Real.sin t ^ 2 = 1 → Ellipse.set ⟨cx, cy, a, a, t⟩ =
        {p | ((p.1 - cx) ^ 2 + (p.2 - cy) ^ 2) / a ^ 2 < 1} := by
      intro t ht
      ext p
      simp only [Ellipse.set, Set.mem_ofPred_eq]
      have : (((p.1 - cx) * Real.cos t + (p.2 - cy) * Real.sin t) / a) ^ 2 + (((p.2 - cy) * Real.cos t - (p.1 - cx) * Real.sin t) / a) ^ 2 =
          ((p.1 - cx) ^ 2 + (p.2 - cy) ^ 2) / a ^ 2 := by
        rw [div_pow, div_pow, ← add_div]
        congr 1
        linear_combination ((p.1 - cx) ^ 2 + (p.2 - cy) ^ 2) * ht
      rw [this]
    rw [this t h1, this t' h2]
  · unfold Ellipse.xExtent
    congr 1
    show (a * Real.cos t) ^ 2 + (a * Real.sin t) ^ 2 = (a * Real.cos t') ^ 2 + (a * Real.sin t') ^ 2
    linear_combination a ^ 2 * h1 - a ^ 2 * h2
  · unfold Ellipse.yExtent
    congr 1
    show (a * Real.sin t) ^ 2 + (a * Real.cos t) ^ 2 = (a * Real.sin t') ^ 2 + (a * Real.cos t') ^ 2
    linear_combination a ^ 2 * h1 - a ^ 2 * h2

/-- Exchanging the axes is a quarter turn. -/
theorem sameRegion_quarter (cx cy a b t : ℝ) : SameRegion ⟨cx, cy, b, a, t + Real.pi / 2⟩ ⟨cx, cy, a, b, t⟩ := by
  refine ⟨rfl, rfl, ?_, ?_, ?_⟩
  · ext p
    simp only [Ellipse.set, Set.mem_ofPred_eq, Real.cos_add_pi_div_two, Real.sin_add_pi_div_two]
    have : (((p.1 - cx) * -Real.sin t + (p.2 - cy) * Real.cos t) / b) ^ 2 + (((p.2 - cy) * -Real.sin t - (p.1 - cx) * Real.cos t) / a) ^ 2 =
        (((p.1 - cx) * Real.cos t + (p.2 - cy) * Real.sin t) / a) ^ 2 + (((p.2 - cy) * Real.cos t - (p.1 - cx) * Real.sin t) / b) ^ 2 := by
      ring
    rw [this]
  · unfold Ellipse.xExtent
    simp only [Real.cos_add_pi_div_two, Real.sin_add_pi_div_two]
    congr 1
    ring
  · unfold Ellipse.yExtent
    simp only [Real.cos_add_pi_div_two, Real.sin_add_pi_div_two]
    congr 1
    ring

/-- Half a turn. -/
theorem sameRegion_half (cx cy a b t : ℝ) : SameRegion ⟨cx, cy, a, b, t + Real.pi⟩ ⟨cx, cy, a, b, t⟩ := by
  have h1 := sameRegion_quarter cx cy b a (t + Real.pi / 2)
  have h2 := sameRegion_quarter cx cy a b t
  rw [show t + Real.pi / 2 + Real.pi / 2 = t + Real.pi by ring] at h1
  exact ⟨rfl, rfl, h1.points.trans h2.points, h1.width.trans h2.width, h1.height.trans h2.height⟩

/-- Whole turns, and half turns, any number of them. -/
theorem sameRegion_turns (cx cy a b t : ℝ) (n : ℕ) : SameRegion ⟨cx, cy, a, b, t + n * Real.pi⟩ ⟨cx, cy, a, b, t⟩ := by
  induction n with
  | zero =>
    rw [show t + ((0 : ℕ) : ℝ) * Real.pi = t by push_cast; ring]
    exact ⟨rfl, rfl, rfl, rfl, rfl⟩
  | succ n ih =>
    have h1 := sameRegion_half cx cy a b (t + n * Real.pi)
    rw [show t + n * Real.pi + Real.pi = t + ((n + 1 : ℕ) : ℝ) * Real.pi by push_cast; ring] at h1
    exact ⟨rfl, rfl, h1.points.trans ih.points, h1.width.trans ih.width, h1.height.trans ih.height⟩

/-! ### Photometry -/

theorem doPhotometry_same {ov : Overlap ℝ} (hm : Method ov) {e e' : Ellipse ℝ} (h : SameRegion e e') (data : Img (F ℝ))
    (error : Option (Img (F ℝ))) (bad : Option (Img Bool)) : doPhotometry ov e data error bad = doPhotometry ov e' data error bad := by
  unfold doPhotometry goodPixels
  rw [hm.hits_eq, hm.hits_eq, boxHits_eq_of_extent h.cx h.cy h.width h.height, hm.weight_eq h.points]

theorem photometryAt_same {ov : Overlap ℝ} (hm : Method ov) {cx cy q q' t t' r r' : ℝ} (hq : q = 0 ↔ q' = 0)
    (hr : r ≤ 0 ∨ r / q ≤ 0 ↔ r' ≤ 0 ∨ r' / q' ≤ 0) (h : SameRegion ⟨cx, cy, r, r / q, t⟩ ⟨cx, cy, r', r' / q', t'⟩)
    (image : Img (F ℝ)) (error : Option (Img (F ℝ))) (bad : Option (Img Bool)) :
    photometryAt ov image cx cy error bad q t r = photometryAt ov image cx cy error bad q' t' r' := by
  unfold photometryAt radialEllipticalAperture ellipticalAperture
  by_cases h0 : q = 0
  · rw [if_pos h0, if_pos (hq.1 h0)]
  · rw [if_neg h0, if_neg fun h => h0 (hq.2 h)]
    by_cases h1 : r ≤ 0 ∨ r / q ≤ 0
    · rw [if_pos h1, if_pos (hr.1 h1)]
    · rw [if_neg h1, if_neg fun h => h1 (hr.2 h)]
      show (doPhotometry ov ⟨cx, cy, r, r / q, t⟩ image error bad >>= fun x =>
          doPhotometry ov ⟨cx, cy, r, r / q, t⟩ (image.map fun _ => fin 1) none bad >>= fun y => _) = _
      rw [doPhotometry_same hm h, doPhotometry_same hm h]
      rfl

/-- Radius lists of the same regions give the same result. -/
theorem radialPhotometry_same {ov : Overlap ℝ} {image : Img (F ℝ)} {cx cy q q' t t' : ℝ} {rs : List ℝ} {error : Option (Img (F ℝ))}
    {mask : Option (Img Bool)} (φ : ℝ → ℝ) (h : ∀ r, photometryAt ov image cx cy error (inv mask) q t (φ r) =
      photometryAt ov image cx cy error (inv mask) q' t' r) :
    radialPhotometry ov image cx cy (rs.map φ) error mask q t = radialPhotometry ov image cx cy rs error mask q' t' := by
  have : ∀ rs : List ℝ, (rs.map φ).mapM (photometryAt ov image cx cy error (inv mask) q t) =
      rs.mapM (photometryAt ov image cx cy error (inv mask) q' t') := by
    intro rs
    induction rs with
    | nil => rfl
    | cons r rs ih => rw [List.map_cons, List.mapM_cons, List.mapM_cons, ih, h]
  unfold radialPhotometry
  show ((rs.map φ).mapM (photometryAt ov image cx cy error (inv mask) q t) >>= _) = (rs.mapM (photometryAt ov image cx cy error (inv mask) q' t') >>= _)
  rw [this]

theorem weightedSum_nonneg {wt : Nat → Nat → ℝ} {h w : Nat} {use : Nat → Nat → Bool} {f : Nat → Nat → ℝ}
    (hw : ∀ i j, 0 ≤ wt i j) (hf : ∀ i j, i < h → j < w → use i j = true → 0 ≤ f i j) : 0 ≤ weightedSum wt h w use f := by
  unfold weightedSum
  apply Finset.sum_nonneg; intro i hi
  apply Finset.sum_nonneg; intro j hj
  rw [Finset.mem_range] at hi hj
  split
  · rename_i hu
    exact mul_nonneg (hf i j hi hj hu) (hw i j)
  · exact le_rfl

theorem measured_weighted {wt wt' : Nat → Nat → ℝ} {h w : Nat} {use : Nat → Nat → Bool} {f : Nat → Nat → ℝ}
    (hw : ∀ i j, 0 ≤ wt i j) (hle : ∀ i j, wt i j ≤ wt' i j) (hf : ∀ i j, i < h → j < w → use i j = true → 0 ≤ f i j) :
    MeasuredLE (fin (round6 (weightedSum wt h w use f))) (fin (round6 (weightedSum wt' h w use f))) := by
  refine ⟨_, _, rfl, rfl, ?_, round6_mono (weightedSum_mono (fun i j _ _ => hle i j) hf)⟩
  rw [← round6_zero]
  exact round6_mono (weightedSum_nonneg hw hf)

theorem rawErr_fin {ov : Overlap ℝ} (hm : Method ov) (e : Ellipse ℝ) (image er : Img (F ℝ)) (mask : Option (Img Bool)) (g : Nat → Nat → ℝ)
    (hg : ∀ i j, i < image.h → j < image.w → Used mask i j = true → er.px i j = fin (g i j)) :
    rawErr ov e image (some er) mask =
      fin (round6 (Real.sqrt (weightedSum (ov.weight e) image.h image.w (Used mask) fun i j => g i j * g i j))) := by
  unfold rawErr
  simp only
  rw [npSum_good hm.law e image.h image.w mask (fun i j => F.sq (er.px i j)) (fun i j => g i j * g i j) (by
    intro i j hi hj _ hu
    show F.sq (er.px i j) = _
    rw [hg i j hi hj hu]; rfl)]
  have h0 : 0 ≤ weightedSum (ov.weight e) image.h image.w (Used mask) fun i j => g i j * g i j :=
    weightedSum_nonneg (fun i j => hm.law.nonneg e i j) fun i j _ _ _ => mul_self_nonneg _
  unfold F.sqrt
  simp only
  rw [if_neg (not_lt.2 h0)]
  rfl

/-- One radius: if the inner aperture can be measured so can the outer one, and it holds at least as much of everything. -/
theorem photometryAt_inside {ov : Overlap ℝ} (hm : Method ov) {image : Img (F ℝ)} {f : Nat → Nat → ℝ} {cx cy q q' t t' r r' : ℝ}
    {error : Option (Img (F ℝ))} {mask : Option (Img Bool)} {v a er : F ℝ} (hr' : 0 < r') (hq' : 0 < q')
    (hin : 0 < r → 0 < q → Inside ⟨cx, cy, r, r / q, t⟩ ⟨cx, cy, r', r' / q', t'⟩)
    (hf : ∀ i j, i < image.h → j < image.w → Used mask i j = true → image.px i j = fin (f i j) ∧ 0 ≤ f i j)
    (h : photometryAt ov image cx cy error (inv mask) q t r = .ok (v, a, er)) :
    ∃ v' a' er', photometryAt ov image cx cy error (inv mask) q' t' r' = .ok (v', a', er') ∧ MeasuredLE v v' ∧ MeasuredLE a a' ∧
      ∀ (e : Img (F ℝ)) (g : Nat → Nat → ℝ), error = some e →
        (∀ i j, i < image.h → j < image.w → Used mask i j = true → e.px i j = fin (g i j)) → MeasuredLE er er' := by
  obtain ⟨h1, h2, h3, h4, h5, h6, rfl, rfl, rfl⟩ := (photometryAt_ok hm.law).1 h
  have hin := hin h1 h2
  have hh : ov.hits ⟨cx, cy, r', r' / q', t'⟩ image.h image.w = true := by
    rw [hm.hits_eq] at h5 ⊢
    exact boxHits_of_extent hin.cx hin.cy hin.width hin.height h5
  have hs : ∀ e : Ellipse ℝ, rawSum ov e image mask = fin (weightedSum (ov.weight e) image.h image.w (Used mask) f) := fun e =>
    npSum_good hm.law e _ _ mask image.px f fun i j hi hj _ hu => (hf i j hi hj hu).1
  refine ⟨_, _, _, (photometryAt_ok hm.law).2 ⟨hr', hq', h3, h4, hh, ?_, rfl, rfl, rfl⟩, ?_, ?_, ?_⟩
  · rw [hs]; rfl
  · rw [hs, hs, npRound6_fin, npRound6_fin]
    exact measured_weighted (fun i j => hm.law.nonneg _ i j) (fun i j => hm.weight_mono hin.points i j) fun i j hi hj hu => (hf i j hi hj hu).2
  · exact measured_weighted (fun i j => hm.law.nonneg _ i j) (fun i j => hm.weight_mono hin.points i j) fun i j hi hj hu => zero_le_one
  · rintro e g rfl hg
    rw [rawErr_fin hm _ image e mask g hg, rawErr_fin hm _ image e mask g hg]
    refine ⟨_, _, rfl, rfl, ?_, ?_⟩
    · rw [← round6_zero]
      exact round6_mono (Real.sqrt_nonneg _)
    · apply round6_mono
      apply Real.sqrt_le_sqrt
      exact weightedSum_mono (fun i j _ _ => hm.weight_mono hin.points i j) fun i j _ _ _ => mul_self_nonneg _

/-- All radii. -/
theorem radialPhotometry_inside {ov : Overlap ℝ} (hm : Method ov) {image : Img (F ℝ)} {f : Nat → Nat → ℝ} {cx cy q q' t t' : ℝ}
    {rs : List ℝ} {error : Option (Img (F ℝ))} {mask : Option (Img Bool)} {fl ar er : List (F ℝ)} (φ φ' : ℝ → ℝ) (hq' : 0 < q')
    (hin : ∀ r, 0 < φ r → 0 < q → 0 < φ' r ∧ Inside ⟨cx, cy, φ r, φ r / q, t⟩ ⟨cx, cy, φ' r, φ' r / q', t'⟩)
    (hf : ∀ i j, i < image.h → j < image.w → Used mask i j = true → image.px i j = fin (f i j) ∧ 0 ≤ f i j)
    (h : radialPhotometry ov image cx cy (rs.map φ) error mask q t = .ok (fl, ar, er)) :
    ∃ fl' ar' er', radialPhotometry ov image cx cy (rs.map φ') error mask q' t' = .ok (fl', ar', er') ∧
      List.Forall₂ MeasuredLE fl fl' ∧ List.Forall₂ MeasuredLE ar ar' ∧
      ∀ (e : Img (F ℝ)) (g : Nat → Nat → ℝ), error = some e →
        (∀ i j, i < image.h → j < image.w → Used mask i j = true → e.px i j = fin (g i j)) → List.Forall₂ MeasuredLE er er' := by
  obtain ⟨l, hl, rfl, rfl, rfl⟩ := radialPhotometry_ok.1 h
  clear h
  have key : ∃ l' : List (F ℝ × F ℝ × F ℝ), List.Forall₂ (fun r p => photometryAt ov image cx cy error (inv mask) q' t' r = .ok p) (rs.map φ') l' ∧
      List.Forall₂ (fun p p' => MeasuredLE p.1 p'.1 ∧ MeasuredLE p.2.1 p'.2.1 ∧
        ∀ (e : Img (F ℝ)) (g : Nat → Nat → ℝ), error = some e →
        (∀ i j, i < image.h → j < image.w → Used mask i j = true → e.px i j = fin (g i j)) → MeasuredLE p.2.2 p'.2.2) l l' := by
    induction rs generalizing l with
    | nil => cases hl; exact ⟨[], .nil, .nil⟩
    | cons r rs ih =>
      rw [List.map_cons] at hl
      obtain ⟨p, l, hp, hl', rfl⟩ := List.forall₂_cons_left_iff.1 hl
      obtain ⟨l', h1, h2⟩ := ih l hl'
      obtain ⟨v, a, er⟩ := p
      have hr := (photometryAt_ok hm.law).1 hp
      obtain ⟨v', a', er', h3, h4⟩ := photometryAt_inside hm (hin r hr.1 hr.2.1).1 hq' (fun h h' => (hin r h h').2) hf hp
      exact ⟨(v', a', er') :: l', .cons h3 h1, .cons h4 h2⟩
  obtain ⟨l', h1, h2⟩ := key
  refine ⟨_, _, _, radialPhotometry_ok.2 ⟨l', h1, rfl, rfl, rfl⟩, ?_, ?_, ?_⟩
  · rw [List.forall₂_map_left_iff, List.forall₂_map_right_iff]
    exact h2.imp fun _ _ h => h.1
  · rw [List.forall₂_map_left_iff, List.forall₂_map_right_iff]
    exact h2.imp fun _ _ h => h.2.1
  · intro e g he hg
    rw [List.forall₂_map_left_iff, List.forall₂_map_right_iff]
    exact h2.imp fun _ _ h => h.2.2 e g he hg

/-! ### C156 -/

/-- **C156, an elliptical aperture lies inside the circle of its semi-major axis.**  Whenever the photometry with elongation `q ≥ 1`
returns, so does the photometry with circular apertures of the same radii, at any angle; flux, area and error are at least as large. -/
theorem C156_inside_circle {ov : Overlap ℝ} (hm : Method ov) (image : Img (F ℝ)) (f : Nat → Nat → ℝ) (cx cy : ℝ) (rs : List ℝ)
    (error : Option (Img (F ℝ))) (mask : Option (Img Bool)) (q t t' : ℝ) (fl ar er : List (F ℝ)) (hq : 1 ≤ q)
    (hf : ∀ i j, i < image.h → j < image.w → Used mask i j = true → image.px i j = fin (f i j) ∧ 0 ≤ f i j)
    (h : radialPhotometry ov image cx cy rs error mask q t = .ok (fl, ar, er)) :
    ∃ fl' ar' er', radialPhotometry ov image cx cy rs error mask 1 t' = .ok (fl', ar', er') ∧
      List.Forall₂ MeasuredLE fl fl' ∧ List.Forall₂ MeasuredLE ar ar' ∧
      ∀ (e : Img (F ℝ)) (g : Nat → Nat → ℝ), error = some e →
        (∀ i j, i < image.h → j < image.w → Used mask i j = true → e.px i j = fin (g i j)) → List.Forall₂ MeasuredLE er er' := by
  have hin := radialPhotometry_inside (rs := rs) (t' := t') hm id id one_pos (fun r hr hq' => ⟨hr, ?_⟩) hf (by rw [List.map_id]; exact h)
  · rw [List.map_id] at hin; exact hin
  · have h1 : 0 < r := hr
    refine (inside_of_axes h1 (div_pos h1 hq') le_rfl (div_le_self h1.le hq)).trans ?_
    simp only [id, div_one]
    exact (sameRegion_circle cx cy r t t').inside

/-- **C156, it contains the circle of its semi-minor axis.**  Whenever the photometry with circular apertures of the semi-minor axes
returns, so does the photometry with the elliptical ones; flux, area and error are at least as large. -/
theorem C156_contains_circle {ov : Overlap ℝ} (hm : Method ov) (image : Img (F ℝ)) (f : Nat → Nat → ℝ) (cx cy : ℝ) (rs : List ℝ)
    (error : Option (Img (F ℝ))) (mask : Option (Img Bool)) (q t t' : ℝ) (fl ar er : List (F ℝ)) (hq : 1 ≤ q)
    (hf : ∀ i j, i < image.h → j < image.w → Used mask i j = true → image.px i j = fin (f i j) ∧ 0 ≤ f i j)
    (h : radialPhotometry ov image cx cy (rs.map (· / q)) error mask 1 t' = .ok (fl, ar, er)) :
    ∃ fl' ar' er', radialPhotometry ov image cx cy rs error mask q t = .ok (fl', ar', er') ∧
      List.Forall₂ MeasuredLE fl fl' ∧ List.Forall₂ MeasuredLE ar ar' ∧
      ∀ (e : Img (F ℝ)) (g : Nat → Nat → ℝ), error = some e →
        (∀ i j, i < image.h → j < image.w → Used mask i j = true → e.px i j = fin (g i j)) → List.Forall₂ MeasuredLE er er' := by
  have h0 : 0 < q := lt_of_lt_of_le one_pos hq
  have hin := radialPhotometry_inside (rs := rs) (q' := q) (t' := t) hm (· / q) id h0 (fun r hr _ => ?_) hf h
  · rw [List.map_id] at hin; exact hin
  · have hr' : 0 < r / q := hr
    have h1 : 0 < r := by
      by_contra hn
      exact absurd (div_nonpos_of_nonpos_of_nonneg (not_lt.1 hn) h0.le) (not_le.2 hr')
    refine ⟨h1, ?_⟩
    simp only [id, div_one]
    exact (sameRegion_circle cx cy (r / q) t' t).inside.trans (inside_of_axes hr' hr' (div_le_self h1.le hq) le_rfl)

/-- **C156, a rounder aperture holds at least as much.** -/
theorem C156_rounder {ov : Overlap ℝ} (hm : Method ov) (image : Img (F ℝ)) (f : Nat → Nat → ℝ) (cx cy : ℝ) (rs : List ℝ)
    (error : Option (Img (F ℝ))) (mask : Option (Img Bool)) (q q' t : ℝ) (fl ar er : List (F ℝ)) (hq : 0 < q) (hqq : q ≤ q')
    (hf : ∀ i j, i < image.h → j < image.w → Used mask i j = true → image.px i j = fin (f i j) ∧ 0 ≤ f i j)
    (h : radialPhotometry ov image cx cy rs error mask q' t = .ok (fl, ar, er)) :
    ∃ fl' ar' er', radialPhotometry ov image cx cy rs error mask q t = .ok (fl', ar', er') ∧
      List.Forall₂ MeasuredLE fl fl' ∧ List.Forall₂ MeasuredLE ar ar' ∧
      ∀ (e : Img (F ℝ)) (g : Nat → Nat → ℝ), error = some e →
        (∀ i j, i < image.h → j < image.w → Used mask i j = true → e.px i j = fin (g i j)) → List.Forall₂ MeasuredLE er er' := by
  have hin := radialPhotometry_inside (rs := rs) (q' := q) (t' := t) hm id id hq (fun r hr hq' => ⟨hr, ?_⟩) hf (by rw [List.map_id]; exact h)
  · rw [List.map_id] at hin; exact hin
  · have h1 : 0 < r := hr
    exact inside_of_axes h1 (div_pos h1 hq') le_rfl (div_le_div_of_nonneg_left h1.le hq hqq)

/-- **C156, the angle of a circle is irrelevant**, for every image, error map and mask. -/
theorem C156_circle_angle {ov : Overlap ℝ} (hm : Method ov) (image : Img (F ℝ)) (cx cy : ℝ) (rs : List ℝ)
    (error : Option (Img (F ℝ))) (mask : Option (Img Bool)) (t t' : ℝ) :
    radialPhotometry ov image cx cy rs error mask 1 t = radialPhotometry ov image cx cy rs error mask 1 t' := by
  have := radialPhotometry_same (ov := ov) (image := image) (cx := cx) (cy := cy) (q := 1) (q' := 1) (t := t) (t' := t') (rs := rs)
    (error := error) (mask := mask) id fun r => photometryAt_same hm Iff.rfl Iff.rfl (by
      simp only [id, div_one]; exact sameRegion_circle cx cy r t t') image error (inv mask)
  rwa [List.map_id] at this

/-- **C156, half turns change nothing.** -/
theorem C156_half_turns {ov : Overlap ℝ} (hm : Method ov) (image : Img (F ℝ)) (cx cy : ℝ) (rs : List ℝ)
    (error : Option (Img (F ℝ))) (mask : Option (Img Bool)) (q t : ℝ) (n : ℤ) :
    radialPhotometry ov image cx cy rs error mask q (t + n * Real.pi) = radialPhotometry ov image cx cy rs error mask q t := by
  have key : ∀ (t : ℝ) (n : ℕ), radialPhotometry ov image cx cy rs error mask q (t + n * Real.pi) = radialPhotometry ov image cx cy rs error mask q t := by
    intro t n
    have := radialPhotometry_same (ov := ov) (image := image) (cx := cx) (cy := cy) (q := q) (q' := q) (t := t + n * Real.pi) (t' := t)
      (rs := rs) (error := error) (mask := mask) id fun r => photometryAt_same hm Iff.rfl Iff.rfl (sameRegion_turns cx cy r (r / q) t n) image error (inv mask)
    rwa [List.map_id] at this
  rcases Int.eq_nat_or_neg n with ⟨m, rfl | rfl⟩
  · exact_mod_cast key t m
  · have := key (t + ((-(m : ℤ) : ℤ) : ℝ) * Real.pi) m
    rw [show t + ((-(m : ℤ) : ℤ) : ℝ) * Real.pi + (m : ℝ) * Real.pi = t by push_cast; ring] at this
    exact this.symm

/-- **C156, an elongation below one is a quarter turn**: elongation `1 / q` at radius `r / q`, a quarter turn further, is elongation `q`
at radius `r`. -/
theorem C156_quarter_turn {ov : Overlap ℝ} (hm : Method ov) (image : Img (F ℝ)) (cx cy : ℝ) (rs : List ℝ)
    (error : Option (Img (F ℝ))) (mask : Option (Img Bool)) (q t : ℝ) (hq : 0 < q) :
    radialPhotometry ov image cx cy (rs.map (· / q)) error mask (1 / q) (t + Real.pi / 2) =
      radialPhotometry ov image cx cy rs error mask q t := by
  have hd : ∀ r : ℝ, r / q / (1 / q) = r := fun r => by field_simp
  refine radialPhotometry_same (· / q) fun r => photometryAt_same hm ?_ ?_ ?_ image error (inv mask)
  · constructor
    · intro h; exact absurd h (one_div_pos.2 hq).ne'
    · intro h; exact absurd h hq.ne'
  · simp only [hd]; exact or_comm
  · simp only [hd]; exact sameRegion_quarter cx cy r (r / q) t

/-- **C156, where a curve of growth reaches a flux.**  If the elliptical aperture of radius `r` holds a flux, so does the circular one;
if the circular one does, so does the elliptical one of radius `q r`: the two radii agree within a factor `q`. -/
theorem C156_radii {ov : Overlap ℝ} (hm : Method ov) (image : Img (F ℝ)) (f : Nat → Nat → ℝ) (cx cy r : ℝ)
    (error : Option (Img (F ℝ))) (mask : Option (Img Bool)) (q t F₀ : ℝ) (hq : 1 ≤ q)
    (hf : ∀ i j, i < image.h → j < image.w → Used mask i j = true → image.px i j = fin (f i j) ∧ 0 ≤ f i j) :
    (∀ v ar er, radialPhotometry ov image cx cy [r] error mask q t = .ok ([fin v], ar, er) → F₀ ≤ v →
      ∃ v' ar' er', radialPhotometry ov image cx cy [r] error mask 1 0 = .ok ([fin v'], ar', er') ∧ F₀ ≤ v') ∧
    (∀ v ar er, radialPhotometry ov image cx cy [r] error mask 1 0 = .ok ([fin v], ar, er) → F₀ ≤ v →
      ∃ v' ar' er', radialPhotometry ov image cx cy [q * r] error mask q t = .ok ([fin v'], ar', er') ∧ F₀ ≤ v') := by
  have hq0 : q ≠ 0 := (lt_of_lt_of_le one_pos hq).ne'
  constructor
  · intro v ar er h hv
    obtain ⟨fl', ar', er', h1, h2, -⟩ := C156_inside_circle hm image f cx cy [r] error mask q t 0 _ _ _ hq hf h
    obtain ⟨b, l, ⟨x, y, hx, hy, -, hle⟩, h3, rfl⟩ := List.forall₂_cons_left_iff.1 h2
    cases h3
    cases hx
    exact ⟨y, ar', er', by rw [h1, hy], hv.trans hle⟩
  · intro v ar er h hv
    have h' : radialPhotometry ov image cx cy ([q * r].map (· / q)) error mask 1 0 = .ok ([fin v], ar, er) := by
      rw [← h]
      simp only [List.map_cons, List.map_nil]
      rw [show q * r / q = r by field_simp]
    obtain ⟨fl', ar', er', h1, h2, -⟩ := C156_contains_circle hm image f cx cy [q * r] error mask q t 0 _ _ _ hq hf h'
    obtain ⟨b, l, ⟨x, y, hx, hy, -, hle⟩, h3, rfl⟩ := List.forall₂_cons_left_iff.1 h2
    cases h3
    cases hx
    exact ⟨y, ar', er', by rw [h1, hy], hv.trans hle⟩

/-- The hypotheses hold: a 3 × 3 image with unequal pixels, elliptical apertures twice as long as wide, every method. -/
example {ov : Overlap ℝ} (hm : Method ov) (hw : 0 < ov.weight ⟨1, 1, 3 / 2, 3 / 2 / 2, 0⟩ 1 1) :
    ∃ fl ar er, radialPhotometry ov ⟨3, 3, fun i j => fin ((i : ℝ) + 2 * j)⟩ 1 1 [3 / 2] none none 2 0 = .ok (fl, ar, er) := by
  refine ⟨_, _, _, radialPhotometry_ok.2 ⟨[(_, _, _)], .cons ((photometryAt_ok hm.law).2 ⟨by norm_num, by norm_num, rfl, rfl, ?_, ?_, rfl, rfl, rfl⟩) .nil,
    rfl, rfl, rfl⟩⟩
  · exact hm.law.hits_of_pos _ 3 3 1 1 (by norm_num) (by norm_num) (by norm_num) (by norm_num) hw
  · unfold rawSum
    rw [npSum_good hm.law _ _ _ none _ (fun i j => (i : ℝ) + 2 * j) fun i j _ _ _ _ => rfl]
    rfl

/-- The weight is positive, for instance for the center method. -/
example : 0 < centerOverlap.weight ⟨1, 1, 3 / 2, 3 / 2 / 2, 0⟩ 1 1 := by
  simp [centerOverlap, Ellipse.set]

end Verif.Props

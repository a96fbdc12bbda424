import Verif.Props.Photometry
import Verif.Lemmas.EllipseArea
import Verif.Spec.StepImage
import Mathlib.MeasureTheory.Integral.Bochner.Set

/-!
# C76: aperture photometry with the exact method is integration
-/

set_option linter.unusedSectionVars false
set_option linter.unusedVariables false
set_option linter.unusedSimpArgs false

namespace Verif.Props

open Verif F Spec Lemmas MeasureTheory

theorem mem_pixelSquare (i j : Nat) (p : ℝ × ℝ) :
    p ∈ pixelSquare i j ↔ ⌈p.2 - 1 / 2⌉ = (i : ℤ) ∧ ⌈p.1 - 1 / 2⌉ = (j : ℤ) := by
  unfold pixelSquare
  rw [Set.mem_prod, Set.mem_Ioc, Set.mem_Ioc, Int.ceil_eq_iff, Int.ceil_eq_iff]
  push_cast
  constructor
  · rintro ⟨⟨h1, h2⟩, h3, h4⟩
    refine ⟨⟨?_, ?_⟩, ?_, ?_⟩ <;> linarith
  · rintro ⟨⟨h1, h2⟩, h3, h4⟩
    refine ⟨⟨?_, ?_⟩, ?_, ?_⟩ <;> linarith

theorem stepImage_eq_sum (h w : Nat) (use : Nat → Nat → Bool) (f : Nat → Nat → ℝ) (p : ℝ × ℝ) :
    stepImage h w use f p = ∑ i ∈ Finset.range h, ∑ j ∈ Finset.range w,
      (pixelSquare i j).indicator (fun _ => if use i j then f i j else 0) p := by
  unfold stepImage
  generalize hI : ⌈p.2 - 1 / 2⌉ = I
  generalize hJ : ⌈p.1 - 1 / 2⌉ = J
  have hm : ∀ i j, p ∈ pixelSquare i j ↔ I = (i : ℤ) ∧ J = (j : ℤ) := by
    intro i j; rw [mem_pixelSquare, hI, hJ]
  by_cases hin : 0 ≤ I ∧ I < h ∧ 0 ≤ J ∧ J < w
  · obtain ⟨h1, h2, h3, h4⟩ := hin
    obtain ⟨i, rfl⟩ := Int.eq_ofNat_of_zero_le h1
    obtain ⟨j, rfl⟩ := Int.eq_ofNat_of_zero_le h3
    rw [Finset.sum_eq_single i, Finset.sum_eq_single j]
    · rw [Set.indicator_of_mem ((hm i j).2 ⟨rfl, rfl⟩)]
      simp only [Int.toNat_natCast]
      by_cases hu : use i j = true <;> simp [hu, h2, h4]
    · intro b _ hb
      rw [Set.indicator_of_notMem]
      rw [hm]; rintro ⟨_, h6⟩; omega
    · intro hj; exact absurd (Finset.mem_range.2 (by omega)) hj
    · intro b _ hb
      apply Finset.sum_eq_zero; intro k _
      rw [Set.indicator_of_notMem]
      rw [hm]; rintro ⟨h5, _⟩; omega
    · intro hi; exact absurd (Finset.mem_range.2 (by omega)) hi
  · rw [if_neg (by tauto)]
    symm
    apply Finset.sum_eq_zero; intro i hi
    apply Finset.sum_eq_zero; intro j hj
    rw [Set.indicator_of_notMem]
    rw [hm]; rintro ⟨h5, h6⟩
    rw [Finset.mem_range] at hi hj
    omega

theorem measurableSet_pixelSquare (i j : Nat) : MeasurableSet (pixelSquare i j) :=
  measurableSet_Ioc.prod measurableSet_Ioc

theorem volume_pixelSquare_ne_top (i j : Nat) (S : Set (ℝ × ℝ)) : volume (pixelSquare i j ∩ S) ≠ ⊤ :=
  ne_top_of_le_ne_top ENNReal.one_ne_top (volume_inter_le i j S)

/-- **C76.** The weighted pixel sum of the exact method is the integral of the image, as a function on the plane, over the ellipse. -/
theorem C76_integral (e : Ellipse ℝ) (h w : Nat) (use : Nat → Nat → Bool) (f : Nat → Nat → ℝ) :
    weightedSum (exactOverlap.weight e) h w use f = ∫ p in e.set, stepImage h w use f p := by
  have hms := (ellipse_open e).measurableSet
  have hfin : ∀ i j, (volume.restrict e.set) (pixelSquare i j) ≠ ⊤ := by
    intro i j
    rw [Measure.restrict_apply (measurableSet_pixelSquare i j)]
    exact volume_pixelSquare_ne_top i j _
  have hint : ∀ i j (c : ℝ), Integrable ((pixelSquare i j).indicator fun _ => c) (volume.restrict e.set) := by
    intro i j c
    rw [integrable_indicator_iff (measurableSet_pixelSquare i j)]
    exact integrableOn_const (hfin i j)
  have h1 : (∫ p in e.set, stepImage h w use f p) = ∫ p in e.set, ∑ i ∈ Finset.range h, ∑ j ∈ Finset.range w,
      (pixelSquare i j).indicator (fun _ => if use i j then f i j else 0) p := by
    congr 1; funext p; exact stepImage_eq_sum h w use f p
  rw [h1, integral_finsetSum _ (fun i _ => integrable_finsetSum _ fun j _ => hint i j _)]
  unfold weightedSum
  apply Finset.sum_congr rfl; intro i _
  rw [integral_finsetSum _ (fun j _ => hint i j _)]
  apply Finset.sum_congr rfl; intro j _
  rw [integral_indicator_const _ (measurableSet_pixelSquare i j), measureReal_def,
    Measure.restrict_apply (measurableSet_pixelSquare i j), smul_eq_mul]
  simp only [exactOverlap]
  split <;> ring

/-- **C76, API.** Every flux returned by `radial_photometry` with the exact method is within `5e-7` of the integral of the image over the
ellipse with semi-axes `r` and `r / q`. -/
theorem C76_flux (h w : Nat) (f : Nat → Nat → ℝ) (cx cy : ℝ) (rs : List ℝ) (error : Option (Img (F ℝ)))
    (mask : Option (Img Bool)) (q t : ℝ) (fl ar er : List (F ℝ))
    (hres : radialPhotometry exactOverlap ⟨h, w, fun i j => fin (f i j)⟩ cx cy rs error mask q t = .ok (fl, ar, er)) :
    List.Forall₂ (fun r v => ∃ x, v = fin x ∧
      |x - ∫ p in (⟨cx, cy, r, r / q, t⟩ : Ellipse ℝ).set, stepImage h w (Used mask) f p| ≤ 1 / 2 / 10 ^ 6) rs fl := by
  have := (C45_rounded exactOverlap_law h w f cx cy rs error mask q t fl ar er hres).1
  simpa only [C76_integral] using this

theorem stepImage_onFrame {h w : Nat} {p : ℝ × ℝ} (hp : -1 / 2 < p.1 ∧ p.1 ≤ (w : ℝ) - 1 / 2 ∧ -1 / 2 < p.2 ∧ p.2 ≤ (h : ℝ) - 1 / 2)
    (c : ℝ) : stepImage h w (fun _ _ => true) (fun _ _ => c) p = c := by
  obtain ⟨h1, h2, h3, h4⟩ := hp
  unfold stepImage
  apply if_pos
  have g1 : (0 : ℤ) ≤ ⌈p.2 - 1 / 2⌉ := by
    have : (-1 : ℤ) < ⌈p.2 - 1 / 2⌉ := by rw [Int.lt_ceil]; push_cast; linarith
    omega
  have g2 : ⌈p.2 - 1 / 2⌉ < (h : ℤ) := by
    have : ⌈p.2 - 1 / 2⌉ ≤ (h : ℤ) - 1 := by rw [Int.ceil_le]; push_cast; linarith
    omega
  have g3 : (0 : ℤ) ≤ ⌈p.1 - 1 / 2⌉ := by
    have : (-1 : ℤ) < ⌈p.1 - 1 / 2⌉ := by rw [Int.lt_ceil]; push_cast; linarith
    omega
  have g4 : ⌈p.1 - 1 / 2⌉ < (w : ℤ) := by
    have : ⌈p.1 - 1 / 2⌉ ≤ (w : ℤ) - 1 := by rw [Int.ceil_le]; push_cast; linarith
    omega
  exact ⟨g1, g2, g3, g4, rfl⟩

/-- The exact weights of an ellipse on the image add up to its area. -/
theorem weightedSum_onFrame (e : Ellipse ℝ) (ha : 0 < e.a) (hb : 0 < e.b) (h w : Nat) (hf : OnFrame e.set h w) (c : ℝ) :
    weightedSum (exactOverlap.weight e) h w (fun _ _ => true) (fun _ _ => c) = c * (Real.pi * e.a * e.b) := by
  rw [C76_integral, setIntegral_congr_fun (ellipse_open e).measurableSet (fun p hp => stepImage_onFrame (hf p hp) c),
    setIntegral_const, measureReal_def, volume_ellipse e ha hb, ENNReal.toReal_ofReal (by positivity), smul_eq_mul]
  ring

/-- A sufficient condition in terms of the centre and the size: the bounding box lies inside the image. -/
theorem onFrame_of_box (e : Ellipse ℝ) (ha : 0 < e.a) (hb : 0 < e.b) (h w : Nat)
    (h1 : -1 / 2 ≤ e.cx - e.xExtent) (h2 : e.cx + e.xExtent ≤ (w : ℝ) - 1 / 2) (h3 : -1 / 2 ≤ e.cy - e.yExtent)
    (h4 : e.cy + e.yExtent ≤ (h : ℝ) - 1 / 2) : OnFrame e.set h w := by
  intro p hp
  obtain ⟨g1, g2⟩ := Ellipse.extent ha hb hp
  rw [abs_lt] at g1 g2
  exact ⟨by linarith [g1.1], by linarith [g1.2], by linarith [g2.1], by linarith [g2.2]⟩

/-- **C76, closed form.** If all the apertures lie on the image and there is no mask, `radial_photometry` of a uniform image of level `c`
with the exact method succeeds; the area at radius `r` is `π r² / q` and the flux is `c` times that, both rounded to six decimals. -/
theorem C76_uniform (h w : Nat) (c cx cy : ℝ) (rs : List ℝ) (q t : ℝ) (hq : 0 < q) (hr : ∀ r ∈ rs, 0 < r)
    (hf : ∀ r ∈ rs, OnFrame (⟨cx, cy, r, r / q, t⟩ : Ellipse ℝ).set h w) :
    ∃ er, radialPhotometry exactOverlap ⟨h, w, fun _ _ => fin c⟩ cx cy rs none none q t =
      .ok (rs.map fun r => fin (round6 (c * (Real.pi * r ^ 2 / q))), rs.map fun r => fin (round6 (Real.pi * r ^ 2 / q)), er) := by
  refine ⟨rs.map fun r => rawErr exactOverlap ⟨cx, cy, r, r / q, t⟩ ⟨h, w, fun _ _ => fin c⟩ none none, ?_⟩
  rw [radialPhotometry_ok]
  refine ⟨rs.map fun r => (fin (round6 (c * (Real.pi * r ^ 2 / q))), fin (round6 (Real.pi * r ^ 2 / q)),
    rawErr exactOverlap ⟨cx, cy, r, r / q, t⟩ ⟨h, w, fun _ _ => fin c⟩ none none), ?_, ?_, ?_, ?_⟩
  · induction rs with
    | nil => exact .nil
    | cons r rs ih =>
      refine .cons ?_ (ih (fun x hx => hr x (List.mem_cons_of_mem _ hx)) (fun x hx => hf x (List.mem_cons_of_mem _ hx)))
      have hr0 := hr r List.mem_cons_self
      have hrq : 0 < r / q := div_pos hr0 hq
      have hws := weightedSum_onFrame ⟨cx, cy, r, r / q, t⟩ hr0 hrq h w (hf r List.mem_cons_self)
      have hu : Used none = fun _ _ => true := rfl
      have hpi : Real.pi * r * (r / q) = Real.pi * r ^ 2 / q := by ring
      simp only [hpi] at hws
      have hpos : 0 < Real.pi * r ^ 2 / q := by positivity
      have hhit : exactOverlap.hits ⟨cx, cy, r, r / q, t⟩ h w = true := by
        by_contra hno
        have h0 : weightedSum (exactOverlap.weight ⟨cx, cy, r, r / q, t⟩) h w (fun _ _ => true) (fun _ _ => (1 : ℝ)) ≤ 0 := by
          unfold weightedSum
          apply Finset.sum_nonpos; intro i hi
          apply Finset.sum_nonpos; intro j hj
          rw [if_pos rfl, one_mul]
          by_contra hlt
          exact hno (exactOverlap_law.hits_of_pos _ h w i j hr0 hrq (Finset.mem_range.1 hi) (Finset.mem_range.1 hj) (not_le.1 hlt))
        rw [hws 1] at h0
        linarith
      have hraw : rawSum exactOverlap ⟨cx, cy, r, r / q, t⟩ ⟨h, w, fun _ _ => fin c⟩ none = fin (c * (Real.pi * r ^ 2 / q)) := by
        rw [(C45_linear exactOverlap_law _ h w none (fun _ _ => c) (fun _ _ => c) 0).1, hu, hws c]
      refine (photometryAt_ok exactOverlap_law).2 ⟨hr0, hq, rfl, rfl, hhit, ?_, ?_, ?_, rfl⟩
      · rw [hraw]; rfl
      · rw [hraw]; rfl
      · rw [hu, hws 1, one_mul]
  · simp
  · simp
  · simp

/-- An instance: circular apertures of radius 1 and 2 at the centre of an `11 × 11` image lie on the image. -/
example : ∃ er, radialPhotometry exactOverlap ⟨11, 11, fun _ _ => fin 3⟩ 5 5 [1, 2] none none 1 0 =
    .ok ([fin (round6 (3 * (Real.pi * 1 ^ 2 / 1))), fin (round6 (3 * (Real.pi * 2 ^ 2 / 1)))],
      [fin (round6 (Real.pi * 1 ^ 2 / 1)), fin (round6 (Real.pi * 2 ^ 2 / 1))], er) := by
  apply C76_uniform 11 11 3 5 5 [1, 2] 1 0 one_pos
  · intro r hr; simp only [List.mem_cons, List.not_mem_nil, or_false] at hr; rcases hr with rfl | rfl <;> norm_num
  · intro r hr
    simp only [List.mem_cons, List.not_mem_nil, or_false] at hr
    rcases hr with rfl | rfl <;>
    · apply onFrame_of_box _ (by norm_num) (by norm_num) <;>
      · simp [Ellipse.xExtent, Ellipse.yExtent]; norm_num

end Verif.Props

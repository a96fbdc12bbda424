import Verif.Props.ApertureShapes
import Verif.Props.PSFImage
import Verif.Props.Fitting

/-!
# C159: what a PSF does to a curve of growth

The light of an image convolved with a PSF is moved by at most the extent of the PSF, so the curves of growth of the two images lie within
that distance of each other.
-/

set_option linter.unusedSectionVars false
set_option linter.unusedVariables false

namespace Verif.Props

open Verif F Spec MeasureTheory

/-! ### Shifted apertures -/

/-- The weight of a shifted pixel in an aperture that contains the shifted points. -/
theorem Method.weight_shift {ov : Overlap ℝ} (hm : Method ov) {e e' : Ellipse ℝ} (dx dy : ℤ)
    (h : ∀ p : ℝ × ℝ, p ∈ e.set → (p.1 + dx, p.2 + dy) ∈ e'.set) {i j i' j' : Nat} (hi : (i' : ℤ) = i + dy) (hj : (j' : ℤ) = j + dx) :
    ov.weight e i j ≤ ov.weight e' i' j' := by
  classical
  have ei : (i' : ℝ) = i + dy := by exact_mod_cast hi
  have ej : (j' : ℝ) = j + dx := by exact_mod_cast hj
  cases hm with
  | exact =>
    apply ENNReal.toReal_mono (ne_top_of_le_ne_top ENNReal.one_ne_top (volume_inter_le i' j' _))
    let eq : ℝ × ℝ ≃ᵐ ℝ × ℝ := (MeasurableEquiv.addRight (dx : ℝ)).prodCongr (MeasurableEquiv.addRight (dy : ℝ))
    have mp : MeasurePreserving eq volume volume := by
      rw [Measure.volume_eq_prod]
      exact (measurePreserving_add_right volume (dx : ℝ)).prod (measurePreserving_add_right volume (dy : ℝ))
    rw [← mp.measure_preimage_equiv (pixelSquare i' j' ∩ e'.set)]
    apply measure_mono
    rintro ⟨x, y⟩ hxy
    have e2 : eq (x, y) = (x + dx, y + dy) := rfl
    simp only [Set.mem_preimage, Set.mem_inter_iff, pixelSquare, Set.mem_prod, Set.mem_Ioc, e2] at hxy ⊢
    obtain ⟨⟨⟨h1, h2⟩, h3, h4⟩, h5⟩ := hxy
    rw [ei, ej]
    exact ⟨⟨⟨by linarith, by linarith⟩, by linarith, by linarith⟩, h (x, y) h5⟩
  | center =>
    simp only [centerOverlap]
    by_cases hp : ((j : ℝ), (i : ℝ)) ∈ e.set
    · have hp' : ((j' : ℝ), (i' : ℝ)) ∈ e'.set := by rw [ei, ej]; exact h ((j : ℝ), (i : ℝ)) hp
      rw [if_pos hp, if_pos hp']
    · rw [if_neg hp]; split <;> norm_num
  | subpixel s hs =>
    simp only [subpixelOverlap]
    apply div_le_div_of_nonneg_right _ (by positivity)
    apply Nat.cast_le.2
    apply Finset.card_le_card
    apply Finset.monotone_filter_right
    intro k _ hk
    have := h ((j : ℝ) - 1 / 2 + (k.1 + 1 / 2) / s, (i : ℝ) - 1 / 2 + (k.2 + 1 / 2) / s) hk
    simp only at this
    rw [ei, ej, show (j : ℝ) + dx - 1 / 2 + (k.1 + 1 / 2) / s = (j : ℝ) - 1 / 2 + (k.1 + 1 / 2) / s + dx by ring,
      show (i : ℝ) + dy - 1 / 2 + (k.2 + 1 / 2) / s = (i : ℝ) - 1 / 2 + (k.2 + 1 / 2) / s + dy by ring]
    exact this

/-- An ellipse shifted by `(x, y)` lies in the one with a semi-major axis larger by `q` times the shift. -/
theorem ellipse_shift {cx cy r q t s x y : ℝ} (hr : 0 < r) (hq : 1 ≤ q) (hs : 0 ≤ s) (hd : q ^ 2 * (x ^ 2 + y ^ 2) ≤ s ^ 2) (p : ℝ × ℝ)
    (hp : p ∈ Ellipse.set ⟨cx, cy, r, r / q, t⟩) : (p.1 + x, p.2 + y) ∈ Ellipse.set ⟨cx, cy, r + s, (r + s) / q, t⟩ := by
  have hq0 : 0 < q := by linarith
  have ht := Real.cos_sq_add_sin_sq t
  simp only [Ellipse.set, Set.mem_ofPred_eq] at hp ⊢
  set c := Real.cos t
  set n := Real.sin t
  set X := (p.1 - cx) * c + (p.2 - cy) * n with hX
  set Y := (p.2 - cy) * c - (p.1 - cx) * n with hY
  set A := x * c + y * n with hA
  set B := y * c - x * n with hB
  have hAB : A ^ 2 + B ^ 2 = x ^ 2 + y ^ 2 := by rw [hA, hB]; linear_combination (x ^ 2 + y ^ 2) * ht
  rw [show (p.1 + x - cx) * c + (p.2 + y - cy) * n = X + A by rw [hX, hA]; ring,
    show (p.2 + y - cy) * c - (p.1 + x - cx) * n = Y + B by rw [hY, hB]; ring]
  have e1 : (X / r) ^ 2 + (Y / (r / q)) ^ 2 = (X ^ 2 + (q * Y) ^ 2) / r ^ 2 := by field_simp
  have e2 : ((X + A) / (r + s)) ^ 2 + ((Y + B) / ((r + s) / q)) ^ 2 = ((X + A) ^ 2 + (q * (Y + B)) ^ 2) / (r + s) ^ 2 := by
    have : r + s ≠ 0 := by linarith
    field_simp
  rw [e1, div_lt_one (by positivity)] at hp
  rw [e2, div_lt_one (by positivity)]
  have h1 : A ^ 2 + (q * B) ^ 2 ≤ s ^ 2 := by
    have h3 : A ^ 2 ≤ q ^ 2 * A ^ 2 := le_mul_of_one_le_left (pow_two_nonneg A) (one_le_pow₀ hq)
    rw [← hAB] at hd
    rw [mul_pow]
    linarith
  have h2 : X * A + q * Y * (q * B) ≤ r * s := by
    have h3 := cauchy2 X (q * Y) A (q * B)
    have h4 : (X ^ 2 + (q * Y) ^ 2) * (A ^ 2 + (q * B) ^ 2) ≤ r ^ 2 * s ^ 2 := mul_le_mul hp.le h1 (by positivity) (by positivity)
    refine le_of_abs_le (abs_le_of_sq_le_sq ?_ (by positivity))
    rw [mul_pow]
    exact h3.trans h4
  have e3 : (X + A) ^ 2 + (q * (Y + B)) ^ 2 = X ^ 2 + (q * Y) ^ 2 + 2 * (X * A + q * Y * (q * B)) + (A ^ 2 + (q * B) ^ 2) := by ring
  have e4 : (r + s) ^ 2 = r ^ 2 + 2 * (r * s) + s ^ 2 := by ring
  rw [e3, e4]
  linarith

/-! ### Sums -/

/-- A sum is at most another one if its terms inject into larger ones. -/
theorem sum_le_of_inj {α : Type} [DecidableEq α] {S : Finset α} {F G : α → ℝ} {P : α → Prop} [DecidablePred P] {φ : α → α}
    (h0 : ∀ p ∈ S, ¬P p → F p = 0) (h1 : ∀ p ∈ S, P p → φ p ∈ S ∧ F p ≤ G (φ p))
    (hinj : ∀ p ∈ S, P p → ∀ p' ∈ S, P p' → φ p = φ p' → p = p') (hG : ∀ p ∈ S, 0 ≤ G p) : ∑ p ∈ S, F p ≤ ∑ p ∈ S, G p := by
  have e : ∑ p ∈ S, F p = ∑ p ∈ S.filter P, F p := by
    rw [Finset.sum_filter]
    apply Finset.sum_congr rfl
    intro p hp
    split
    · rfl
    · exact h0 p hp (by assumption)
  rw [e]
  have h2 : ∑ p ∈ S.filter P, F p ≤ ∑ p ∈ S.filter P, G (φ p) := by
    apply Finset.sum_le_sum
    intro p hp
    rw [Finset.mem_filter] at hp
    exact (h1 p hp.1 hp.2).2
  refine h2.trans ?_
  rw [← Finset.sum_image (f := G) (g := φ) (by
    intro p hp p' hp' he
    rw [Finset.mem_coe, Finset.mem_filter] at hp hp'
    exact hinj p hp.1 hp.2 p' hp'.1 hp'.2 he)]
  apply Finset.sum_le_sum_of_subset_of_nonneg
  · intro p hp
    obtain ⟨p', hp', rfl⟩ := Finset.mem_image.1 hp
    rw [Finset.mem_filter] at hp'
    exact (h1 p' hp'.1 hp'.2).1
  · intro p hp _
    exact hG p hp

/-- One term of the PSF, upper bound. -/
theorem shifted_le {im : Img ℝ} {wt wt' : Nat → Nat → ℝ} (da db : ℤ) (hf : ∀ i j, i < im.h → j < im.w → 0 ≤ im.px i j)
    (hw' : ∀ i j, 0 ≤ wt' i j) (hw : ∀ i j i' j' : Nat, (i' : ℤ) = i + da → (j' : ℤ) = j + db → wt i j ≤ wt' i' j') :
    ∑ p ∈ Finset.range im.h ×ˢ Finset.range im.w, im.zeroPad ((p.1 : ℤ) + da) ((p.2 : ℤ) + db) * wt p.1 p.2 ≤
      ∑ p ∈ Finset.range im.h ×ˢ Finset.range im.w, im.px p.1 p.2 * wt' p.1 p.2 := by
  apply sum_le_of_inj (P := fun p : Nat × Nat => 0 ≤ (p.1 : ℤ) + da ∧ (p.1 : ℤ) + da < im.h ∧ 0 ≤ (p.2 : ℤ) + db ∧ (p.2 : ℤ) + db < im.w)
    (φ := fun p : Nat × Nat => (((p.1 : ℤ) + da).toNat, ((p.2 : ℤ) + db).toNat))
  · intro p _ hp
    unfold Img.zeroPad
    rw [if_neg hp, zero_mul]
  · intro p _ hp
    unfold Img.zeroPad
    rw [if_pos hp]
    refine ⟨?_, ?_⟩
    · rw [Finset.mem_product, Finset.mem_range, Finset.mem_range]
      constructor <;> simp only <;> omega
    · exact mul_le_mul_of_nonneg_left (hw _ _ _ _ (by omega) (by omega)) (hf _ _ (by omega) (by omega))
  · intro p _ hp p' _ hp' he
    simp only [Prod.mk.injEq] at he
    apply Prod.ext <;> omega
  · intro p hp
    rw [Finset.mem_product, Finset.mem_range, Finset.mem_range] at hp
    exact mul_nonneg (hf _ _ hp.1 hp.2) (hw' _ _)

/-- One term of the PSF, lower bound. -/
theorem le_shifted {im : Img ℝ} {wt wt' : Nat → Nat → ℝ} (da db : ℤ) (hf : ∀ i j, i < im.h → j < im.w → 0 ≤ im.px i j)
    (hw' : ∀ i j, 0 ≤ wt' i j) (hw : ∀ i j i' j' : Nat, (i' : ℤ) = i - da → (j' : ℤ) = j - db → wt i j ≤ wt' i' j')
    (hin : ∀ i j, i < im.h → j < im.w → im.px i j ≠ 0 → 0 ≤ (i : ℤ) - da ∧ (i : ℤ) - da < im.h ∧ 0 ≤ (j : ℤ) - db ∧ (j : ℤ) - db < im.w) :
    ∑ p ∈ Finset.range im.h ×ˢ Finset.range im.w, im.px p.1 p.2 * wt p.1 p.2 ≤
      ∑ p ∈ Finset.range im.h ×ˢ Finset.range im.w, im.zeroPad ((p.1 : ℤ) + da) ((p.2 : ℤ) + db) * wt' p.1 p.2 := by
  classical
  apply sum_le_of_inj (P := fun p : Nat × Nat => im.px p.1 p.2 ≠ 0)
    (φ := fun p : Nat × Nat => (((p.1 : ℤ) - da).toNat, ((p.2 : ℤ) - db).toNat))
  · intro p _ hp
    rw [not_not.1 hp, zero_mul]
  · intro p hp hne
    rw [Finset.mem_product, Finset.mem_range, Finset.mem_range] at hp
    have := hin _ _ hp.1 hp.2 hne
    refine ⟨?_, ?_⟩
    · rw [Finset.mem_product, Finset.mem_range, Finset.mem_range]
      constructor <;> simp only <;> omega
    · simp only
      rw [show ((((p.1 : ℤ) - da).toNat : Nat) : ℤ) + da = p.1 by omega, show ((((p.2 : ℤ) - db).toNat : Nat) : ℤ) + db = p.2 by omega, zeroPad_nat,
        if_pos hp]
      exact mul_le_mul_of_nonneg_left (hw _ _ _ _ (by omega) (by omega)) (hf _ _ hp.1 hp.2)
  · intro p hp hne p' hp' hne' he
    rw [Finset.mem_product, Finset.mem_range, Finset.mem_range] at hp hp'
    have h1 := hin _ _ hp.1 hp.2 hne
    have h2 := hin _ _ hp'.1 hp'.2 hne'
    simp only [Prod.mk.injEq] at he
    apply Prod.ext <;> omega
  · intro p _
    refine mul_nonneg ?_ (hw' _ _)
    unfold Img.zeroPad
    split
    · exact hf _ _ (by omega) (by omega)
    · exact le_rfl

/-- The light of the convolved image in an aperture, one PSF pixel after the other. -/
theorem weightedSum_conv (im psf : Img ℝ) (wt : Nat → Nat → ℝ) :
    weightedSum wt im.h im.w (fun _ _ => true) (convolveSame im psf).px =
      ∑ c ∈ Finset.range psf.h ×ˢ Finset.range psf.w, psf.px c.1 c.2 * ∑ p ∈ Finset.range im.h ×ˢ Finset.range im.w,
        im.zeroPad ((p.1 : ℤ) + ((((psf.h - 1) / 2 : Nat) : ℤ) - c.1)) ((p.2 : ℤ) + ((((psf.w - 1) / 2 : Nat) : ℤ) - c.2)) * wt p.1 p.2 := by
  unfold weightedSum
  simp only [if_true, convolveSame_px]
  rw [← Finset.sum_product' (f := fun i j : Nat => (∑ a ∈ Finset.range psf.h, ∑ b ∈ Finset.range psf.w,
      psf.px a b * im.zeroPad ((i : Int) + (((psf.h - 1) / 2 : Nat) : Int) - a) ((j : Int) + (((psf.w - 1) / 2 : Nat) : Int) - b)) * wt i j)]
  simp only [← Finset.sum_product' (s := Finset.range psf.h) (t := Finset.range psf.w)]
  simp only [Finset.sum_mul, Finset.mul_sum]
  rw [Finset.sum_comm]
  apply Finset.sum_congr rfl; intro c _
  apply Finset.sum_congr rfl; intro p _
  rw [add_sub_assoc, add_sub_assoc, mul_assoc]

/-- The PSF reaches at most `s / q` pixels from its centre pixel, `((h - 1) // 2, (w - 1) // 2)`. -/
def Reaches (psf : Img ℝ) (q s : ℝ) : Prop :=
  ∀ a b, a < psf.h → b < psf.w → psf.px a b ≠ 0 →
    q ^ 2 * (((b : ℝ) - ((psf.w - 1) / 2 : Nat)) ^ 2 + ((a : ℝ) - ((psf.h - 1) / 2 : Nat)) ^ 2) ≤ s ^ 2

theorem weightedSum_product (wt : Nat → Nat → ℝ) (h w : Nat) (f : Nat → Nat → ℝ) :
    weightedSum wt h w (fun _ _ => true) f = ∑ p ∈ Finset.range h ×ˢ Finset.range w, f p.1 p.2 * wt p.1 p.2 := by
  unfold weightedSum
  simp only [if_true]
  rw [← Finset.sum_product' (f := fun i j : Nat => f i j * wt i j)]

theorem total_product (im : Img ℝ) : total im = ∑ c ∈ Finset.range im.h ×ˢ Finset.range im.w, im.px c.1 c.2 := by
  unfold total
  rw [← Finset.sum_product' (f := fun i j : Nat => im.px i j)]

section
variable {ov : Overlap ℝ} (hm : Method ov) {im psf : Img ℝ} {cx cy q t r s : ℝ}
  (hf : ∀ i j, i < im.h → j < im.w → 0 ≤ im.px i j) (hpos : ∀ a b, a < psf.h → b < psf.w → 0 ≤ psf.px a b) (hr : 0 < r) (hq : 1 ≤ q)
  (hs : 0 ≤ s) (hreach : Reaches psf q s)
include hm hf hpos hr hq hs hreach

theorem conv_weighted_le (htot : total psf ≤ 1) :
    weightedSum (ov.weight ⟨cx, cy, r, r / q, t⟩) im.h im.w (fun _ _ => true) (convolveSame im psf).px ≤
      weightedSum (ov.weight ⟨cx, cy, r + s, (r + s) / q, t⟩) im.h im.w (fun _ _ => true) im.px := by
  set W := weightedSum (ov.weight ⟨cx, cy, r + s, (r + s) / q, t⟩) im.h im.w (fun _ _ => true) im.px with hW
  have hW0 : 0 ≤ W := weightedSum_nonneg (fun i j => hm.law.nonneg _ i j) fun i j hi hj _ => hf i j hi hj
  rw [weightedSum_conv]
  refine le_trans (b := ∑ c ∈ Finset.range psf.h ×ˢ Finset.range psf.w, psf.px c.1 c.2 * W) ?_ ?_
  · apply Finset.sum_le_sum
    intro c hc
    rw [Finset.mem_product, Finset.mem_range, Finset.mem_range] at hc
    by_cases h0 : psf.px c.1 c.2 = 0
    · rw [h0, zero_mul, zero_mul]
    · apply mul_le_mul_of_nonneg_left _ (hpos _ _ hc.1 hc.2)
      rw [hW, weightedSum_product]
      apply shifted_le _ _ hf fun i j => hm.law.nonneg _ i j
      intro i j i' j' hi hj
      refine hm.weight_shift _ _ (fun p hp => ellipse_shift hr hq hs ?_ p hp) hi hj
      have := hreach _ _ hc.1 hc.2 h0
      generalize (psf.w - 1) / 2 = m at this ⊢
      generalize (psf.h - 1) / 2 = n at this ⊢
      push_cast at this ⊢
      linarith
  · rw [← Finset.sum_mul, ← total_product]
    calc total psf * W ≤ 1 * W := mul_le_mul_of_nonneg_right htot hW0
      _ = W := one_mul W

theorem le_conv_weighted (htot : 1 ≤ total psf)
    (hin : ∀ i j, i < im.h → j < im.w → im.px i j ≠ 0 →
      (psf.h - 1) / 2 ≤ i ∧ i + psf.h / 2 < im.h ∧ (psf.w - 1) / 2 ≤ j ∧ j + psf.w / 2 < im.w) :
    weightedSum (ov.weight ⟨cx, cy, r, r / q, t⟩) im.h im.w (fun _ _ => true) im.px ≤
      weightedSum (ov.weight ⟨cx, cy, r + s, (r + s) / q, t⟩) im.h im.w (fun _ _ => true) (convolveSame im psf).px := by
  set W := weightedSum (ov.weight ⟨cx, cy, r, r / q, t⟩) im.h im.w (fun _ _ => true) im.px with hW
  have hW0 : 0 ≤ W := weightedSum_nonneg (fun i j => hm.law.nonneg _ i j) fun i j hi hj _ => hf i j hi hj
  rw [weightedSum_conv]
  refine le_trans (b := ∑ c ∈ Finset.range psf.h ×ˢ Finset.range psf.w, psf.px c.1 c.2 * W) ?_ ?_
  · rw [← Finset.sum_mul, ← total_product]
    calc W = 1 * W := (one_mul W).symm
      _ ≤ total psf * W := mul_le_mul_of_nonneg_right htot hW0
  · apply Finset.sum_le_sum
    intro c hc
    rw [Finset.mem_product, Finset.mem_range, Finset.mem_range] at hc
    by_cases h0 : psf.px c.1 c.2 = 0
    · rw [h0, zero_mul, zero_mul]
    · apply mul_le_mul_of_nonneg_left _ (hpos _ _ hc.1 hc.2)
      rw [hW, weightedSum_product]
      apply le_shifted _ _ hf fun i j => hm.law.nonneg _ i j
      · intro i j i' j' hi hj
        refine hm.weight_shift (-((((psf.w - 1) / 2 : Nat) : ℤ) - c.2)) (-((((psf.h - 1) / 2 : Nat) : ℤ) - c.1))
          (fun p hp => ellipse_shift hr hq hs ?_ p hp) (by omega) (by omega)
        have := hreach _ _ hc.1 hc.2 h0
        generalize (psf.w - 1) / 2 = m at this ⊢
        generalize (psf.h - 1) / 2 = n at this ⊢
        push_cast at this ⊢
        linarith
      · intro i j hi hj hne
        have := hin i j hi hj hne
        omega

end

/-! ### Photometry -/

/-- One radius, two images. -/
theorem photometryAt_two {ov : Overlap ℝ} (hm : Method ov) {I J : Img ℝ} {cx cy q t r s : ℝ} {v a er : F ℝ} (hh : I.h = J.h) (hw : I.w = J.w)
    (hs : 0 ≤ s) (hI : ∀ i j, i < I.h → j < I.w → 0 ≤ I.px i j)
    (hle : 0 < r → weightedSum (ov.weight ⟨cx, cy, r, r / q, t⟩) I.h I.w (fun _ _ => true) I.px ≤
      weightedSum (ov.weight ⟨cx, cy, r + s, (r + s) / q, t⟩) J.h J.w (fun _ _ => true) J.px)
    (h : photometryAt ov (I.map fin) cx cy none (inv none) q t r = .ok (v, a, er)) :
    ∃ v' a' er', photometryAt ov (J.map fin) cx cy none (inv none) q t (r + s) = .ok (v', a', er') ∧ MeasuredLE v v' ∧ MeasuredLE a a' := by
  obtain ⟨h1, h2, h3, h4, h5, h6, rfl, rfl, rfl⟩ := (photometryAt_ok hm.law).1 h
  have hin : Inside ⟨cx, cy, r, r / q, t⟩ ⟨cx, cy, r + s, (r + s) / q, t⟩ :=
    inside_of_axes h1 (div_pos h1 h2) (by linarith) (div_le_div_of_nonneg_right (by linarith) h2.le)
  have hh' : ov.hits ⟨cx, cy, r + s, (r + s) / q, t⟩ (J.map fin).h (J.map fin).w = true := by
    rw [hm.hits_eq] at h5 ⊢
    show boxHits _ J.h J.w = true
    rw [← hh, ← hw]
    exact boxHits_of_extent hin.cx hin.cy hin.width hin.height h5
  have hsum : ∀ (e : Ellipse ℝ) (im : Img ℝ), rawSum ov e (im.map fin) none = fin (weightedSum (ov.weight e) im.h im.w (fun _ _ => true) im.px) :=
    fun e im => npSum_good hm.law e _ _ none (im.map fin).px im.px fun i j _ _ _ _ => rfl
  refine ⟨_, _, _, (photometryAt_ok hm.law).2 ⟨by linarith, h2, rfl, rfl, hh', ?_, rfl, rfl, rfl⟩, ?_, ?_⟩
  · rw [hsum]; rfl
  · rw [hsum, hsum, npRound6_fin, npRound6_fin]
    refine ⟨_, _, rfl, rfl, ?_, round6_mono (hle h1)⟩
    rw [← round6_zero]
    exact round6_mono (weightedSum_nonneg (fun i j => hm.law.nonneg _ i j) fun i j hi hj _ => hI i j hi hj)
  · have := measured_weighted (h := I.h) (w := I.w) (use := Used none) (f := fun _ _ => 1) (wt := ov.weight ⟨cx, cy, r, r / q, t⟩)
      (wt' := ov.weight ⟨cx, cy, r + s, (r + s) / q, t⟩) (fun i j => hm.law.nonneg _ i j) (fun i j => hm.weight_mono hin.points i j)
      fun i j hi hj hu => zero_le_one
    show MeasuredLE (fin (round6 (weightedSum _ I.h I.w _ _))) (fin (round6 (weightedSum _ J.h J.w _ _)))
    rw [← hh, ← hw]
    exact this

/-- All radii, two images. -/
theorem radialPhotometry_two {ov : Overlap ℝ} (hm : Method ov) {I J : Img ℝ} {cx cy q t s : ℝ} {rs : List ℝ} {fl ar er : List (F ℝ)}
    (hh : I.h = J.h) (hw : I.w = J.w) (hs : 0 ≤ s) (hI : ∀ i j, i < I.h → j < I.w → 0 ≤ I.px i j)
    (hle : ∀ r, 0 < r → weightedSum (ov.weight ⟨cx, cy, r, r / q, t⟩) I.h I.w (fun _ _ => true) I.px ≤
      weightedSum (ov.weight ⟨cx, cy, r + s, (r + s) / q, t⟩) J.h J.w (fun _ _ => true) J.px)
    (h : radialPhotometry ov (I.map fin) cx cy rs none none q t = .ok (fl, ar, er)) :
    ∃ fl' ar' er', radialPhotometry ov (J.map fin) cx cy (rs.map (· + s)) none none q t = .ok (fl', ar', er') ∧
      List.Forall₂ MeasuredLE fl fl' ∧ List.Forall₂ MeasuredLE ar ar' := by
  obtain ⟨l, hl, rfl, rfl, rfl⟩ := radialPhotometry_ok.1 h
  clear h
  have key : ∃ l' : List (F ℝ × F ℝ × F ℝ), List.Forall₂ (fun r p => photometryAt ov (J.map fin) cx cy none (inv none) q t r = .ok p) (rs.map (· + s)) l' ∧
      List.Forall₂ (fun p p' => MeasuredLE p.1 p'.1 ∧ MeasuredLE p.2.1 p'.2.1) l l' := by
    induction rs generalizing l with
    | nil => cases hl; exact ⟨[], .nil, .nil⟩
    | cons r rs ih =>
      obtain ⟨p, l, hp, hl', rfl⟩ := List.forall₂_cons_left_iff.1 hl
      obtain ⟨l', h1, h2⟩ := ih l hl'
      obtain ⟨v, a, er⟩ := p
      obtain ⟨v', a', er', h3, h4⟩ := photometryAt_two hm hh hw hs hI (hle r) hp
      exact ⟨(v', a', er') :: l', .cons h3 h1, .cons h4 h2⟩
  obtain ⟨l', h1, h2⟩ := key
  refine ⟨_, _, _, radialPhotometry_ok.2 ⟨l', h1, rfl, rfl, rfl⟩, ?_, ?_⟩
  · rw [List.forall₂_map_left_iff, List.forall₂_map_right_iff]
    exact h2.imp fun _ _ h => h.1
  · rw [List.forall₂_map_left_iff, List.forall₂_map_right_iff]
    exact h2.imp fun _ _ h => h.2

theorem conv_nonneg {im psf : Img ℝ} (hf : ∀ i j, i < im.h → j < im.w → 0 ≤ im.px i j) (hpos : ∀ a b, a < psf.h → b < psf.w → 0 ≤ psf.px a b)
    (i j : Nat) : 0 ≤ (convolveSame im psf).px i j := by
  rw [convolveSame_px]
  apply Finset.sum_nonneg; intro a ha
  apply Finset.sum_nonneg; intro b hb
  rw [Finset.mem_range] at ha hb
  refine mul_nonneg (hpos a b ha hb) ?_
  unfold Img.zeroPad
  split
  · exact hf _ _ (by omega) (by omega)
  · exact le_rfl

/-- **C159, a PSF cannot pull in light from farther than it reaches.**  The curve of growth of the convolved image is at most that of the
image with radii larger by `s`; apertures of elongation `q` at any angle, all overlap methods. -/
theorem C159_upper {ov : Overlap ℝ} (hm : Method ov) (im psf : Img ℝ) (cx cy q t s : ℝ) (rs : List ℝ) (fl ar er : List (F ℝ))
    (hf : ∀ i j, i < im.h → j < im.w → 0 ≤ im.px i j) (hpos : ∀ a b, a < psf.h → b < psf.w → 0 ≤ psf.px a b) (htot : total psf ≤ 1)
    (hq : 1 ≤ q) (hs : 0 ≤ s) (hreach : Reaches psf q s)
    (h : radialPhotometry ov ((convolveSame im psf).map fin) cx cy rs none none q t = .ok (fl, ar, er)) :
    ∃ fl' ar' er', radialPhotometry ov (im.map fin) cx cy (rs.map (· + s)) none none q t = .ok (fl', ar', er') ∧
      List.Forall₂ MeasuredLE fl fl' ∧ List.Forall₂ MeasuredLE ar ar' := by
  refine radialPhotometry_two hm (I := convolveSame im psf) (J := im) rfl rfl hs (fun i j _ _ => conv_nonneg hf hpos i j) (fun r hr => ?_) h
  have := conv_weighted_le (cx := cx) (cy := cy) (t := t) hm hf hpos hr hq hs hreach htot
  exact this

/-- **C159, a PSF cannot push out light farther than it reaches.**  If the light stays on the image and the PSF does not lose any, the curve
of growth of the image is at most that of the convolved image with radii larger by `s`. -/
theorem C159_lower {ov : Overlap ℝ} (hm : Method ov) (im psf : Img ℝ) (cx cy q t s : ℝ) (rs : List ℝ) (fl ar er : List (F ℝ))
    (hf : ∀ i j, i < im.h → j < im.w → 0 ≤ im.px i j) (hpos : ∀ a b, a < psf.h → b < psf.w → 0 ≤ psf.px a b) (htot : 1 ≤ total psf)
    (hin : ∀ i j, i < im.h → j < im.w → im.px i j ≠ 0 →
      (psf.h - 1) / 2 ≤ i ∧ i + psf.h / 2 < im.h ∧ (psf.w - 1) / 2 ≤ j ∧ j + psf.w / 2 < im.w)
    (hq : 1 ≤ q) (hs : 0 ≤ s) (hreach : Reaches psf q s)
    (h : radialPhotometry ov (im.map fin) cx cy rs none none q t = .ok (fl, ar, er)) :
    ∃ fl' ar' er', radialPhotometry ov ((convolveSame im psf).map fin) cx cy (rs.map (· + s)) none none q t = .ok (fl', ar', er') ∧
      List.Forall₂ MeasuredLE fl fl' ∧ List.Forall₂ MeasuredLE ar ar' :=
  radialPhotometry_two hm (I := im) (J := convolveSame im psf) rfl rfl hs hf (fun r hr => le_conv_weighted hm hf hpos hr hq hs hreach htot hin) h

/-- **C159, radii.**  An aperture of radius `r` on the convolved image that holds a flux is matched by one of radius `r + s` on the image,
and the other way round if no light is lost: the radii at which the curves of growth reach a flux agree within `s`. -/
theorem C159_radii {ov : Overlap ℝ} (hm : Method ov) (im psf : Img ℝ) (cx cy q t s r F₀ : ℝ)
    (hf : ∀ i j, i < im.h → j < im.w → 0 ≤ im.px i j) (hpos : ∀ a b, a < psf.h → b < psf.w → 0 ≤ psf.px a b) (htot : total psf = 1)
    (hin : ∀ i j, i < im.h → j < im.w → im.px i j ≠ 0 →
      (psf.h - 1) / 2 ≤ i ∧ i + psf.h / 2 < im.h ∧ (psf.w - 1) / 2 ≤ j ∧ j + psf.w / 2 < im.w)
    (hq : 1 ≤ q) (hs : 0 ≤ s) (hreach : Reaches psf q s) :
    (∀ v ar er, radialPhotometry ov ((convolveSame im psf).map fin) cx cy [r] none none q t = .ok ([fin v], ar, er) → F₀ ≤ v →
      ∃ v' ar' er', radialPhotometry ov (im.map fin) cx cy [r + s] none none q t = .ok ([fin v'], ar', er') ∧ F₀ ≤ v') ∧
    (∀ v ar er, radialPhotometry ov (im.map fin) cx cy [r] none none q t = .ok ([fin v], ar, er) → F₀ ≤ v →
      ∃ v' ar' er', radialPhotometry ov ((convolveSame im psf).map fin) cx cy [r + s] none none q t = .ok ([fin v'], ar', er') ∧
        F₀ ≤ v') := by
  constructor
  · intro v ar er h hv
    obtain ⟨fl', ar', er', h1, h2, -⟩ := C159_upper hm im psf cx cy q t s [r] _ _ _ hf hpos htot.le hq hs hreach h
    obtain ⟨b, l, ⟨x, y, hx, hy, -, hle⟩, h3, rfl⟩ := List.forall₂_cons_left_iff.1 h2
    cases h3
    cases hx
    exact ⟨y, ar', er', by rw [← hy]; exact h1, hv.trans hle⟩
  · intro v ar er h hv
    obtain ⟨fl', ar', er', h1, h2, -⟩ := C159_lower hm im psf cx cy q t s [r] _ _ _ hf hpos htot.ge hin hq hs hreach h
    obtain ⟨b, l, ⟨x, y, hx, hy, -, hle⟩, h3, rfl⟩ := List.forall₂_cons_left_iff.1 h2
    cases h3
    cases hx
    exact ⟨y, ar', er', by rw [← hy]; exact h1, hv.trans hle⟩

/-! ### Images of wrapped models -/

section model

variable {K : Type} [Field K] [LinearOrder K] [IsStrictOrderedRing K] [FloorRing K]

open PSFModel

theorem sliceAssign_shape {im sub I : Img K} {r0 r1 c0 c1 : Int} (h : sliceAssign im r0 r1 c0 c1 sub = .ok I) : I.h = im.h ∧ I.w = im.w := by
  unfold sliceAssign at h
  simp only at h
  split_ifs at h <;> (cases h; exact ⟨rfl, rfl⟩)

/-- The image before the convolution has one pixel per pixel of the data if the PSF is not oversampled. -/
theorem oversampled_shape {M : PSFModel K} (hp : M.psfFactor = 1) (hf : 0 < M.oversampleFactor) {params : List K} {n iMax jMax : Nat}
    {o : K × K} {I : Img K}
    (h : M.oversampled params M.gridFactor (sample M.sub params (makeGrid (n : Int) o M.gridFactor)) iMax jMax = .ok I) :
    I.h = n ∧ I.w = n := by
  have hS : ∀ f, (sample M.sub params (makeGrid (n : Int) o f)).h = n * f ∧ (sample M.sub params (makeGrid (n : Int) o f)).w = n * f := fun f =>
    ⟨(makeGrid_spec n f o).1, (makeGrid_spec n f o).2.1⟩
  have key : ∀ k : Nat, 0 < k → ∀ I : Img K,
      (if 1 < k / M.psfFactor then (blockReduce (sample M.sub params (makeGrid (n : Int) o k)) (k / M.psfFactor)).divBy
        (((k / M.psfFactor : Nat) : K) ^ 2) else sample M.sub params (makeGrid (n : Int) o k)) = I → I.h = n ∧ I.w = n := by
    intro k hk I hI
    rw [hp, Nat.div_one] at hI
    rw [← hI]
    exact reduce_shape _ n k hk (hS k)
  unfold oversampled gridFactor at h
  cases ho : M.oversample with
  | none => rw [ho] at h; simp only [Except.ok.injEq] at h; exact key _ hf I h
  | int k => rw [ho] at h; simp only [Except.ok.injEq] at h; exact key _ hf I h
  | window x y size factor =>
    rw [ho] at h
    simp only at h
    rw [hp] at h
    have hS1 := hS 1
    rw [Nat.mul_one] at hS1
    unfold pasteWindow at h
    simp only at h
    split_ifs at h
    · cases h; exact hS1
    all_goals
      simp only [bind, Except.bind] at h
      cases h1 : centerValue M.sub params x with
      | error e => rw [h1] at h; cases h
      | ok a =>
        cases h2 : centerValue M.sub params y with
        | error e => rw [h1, h2] at h; cases h
        | ok b =>
          rw [h1, h2] at h
          simp only at h
          have := sliceAssign_shape h
          rw [this.1, this.2]
          exact hS1

/-- `model_to_image` of a wrapped model on a square, step by step. -/
theorem modelToImage_wrapped {size : SizeArg K} {center : Option (CenterArg K)} {n : Nat} {ox oy : K}
    (h : Describes size center n n ox oy) (hn : 0 < n) (integ : GridModel K → K × K → K × K → Except PyErr (Img K))
    (M : PSFModel K) (hM : CacheOk M) (hp : M.psfFactor = 1) (hf : 0 < M.oversampleFactor) (rot : Img K → K → Img K) (params : List K) (pa : K)
    (factor : Int) :
    modelToImage integ (M.onGrid rot params pa) size .center (factor : K) center =
      match M.oversampled params M.gridFactor (sample M.sub params (makeGrid (n : Int) (ox, oy) M.gridFactor)) (n - 1) (n - 1) with
      | .error e => .error e
      | .ok T => .ok ⟨n, n, fun i j => ((List.range n).flatMap fun i => (List.range n).map fun j => (M.convolved rot pa T).px i j).getD
          (i * n + j) 0⟩ := by
  rw [modelToImage_run h, discretize_checks]
  simp only
  unfold discretizeCenter meshgrid PSFModel.onGrid
  simp only
  rw [(npArange_add ox n).1, (npArange_add oy n).1]
  have hcoords : ((List.range n).flatMap fun i => (List.range n).map fun j =>
      ((npArange ox (ox + n)).getD j 0, (npArange oy (oy + n)).getD i 0)) =
      (List.range n).flatMap fun i : Nat => (List.range n).map fun j : Nat => (ox + (j : K), oy + (i : K)) := by
    apply List.flatMap_congr
    intro i hi
    apply List.map_congr_left
    intro j hj
    rw [List.mem_range] at hi hj
    rw [(npArange_add ox n).2 j hj, (npArange_add oy n).2 i hi]
  rw [hcoords]
  set coords := (List.range n).flatMap fun i : Nat => (List.range n).map fun j : Nat => (ox + (j : K), oy + (i : K)) with hco
  have hmem : ∀ c, c ∈ coords ↔ ∃ i, i < n ∧ ∃ j, j < n ∧ (ox + (j : K), oy + (i : K)) = c := by
    intro c
    simp only [hco, List.mem_flatMap, List.mem_map, List.mem_range]
  have hX := min_max_axis n hn ox (coords.map (·.1))
    (by
      intro x hxm
      obtain ⟨c, hcm, rfl⟩ := List.mem_map.1 hxm
      obtain ⟨i, _, j, hj, rfl⟩ := (hmem c).1 hcm
      exact ⟨j, hj, rfl⟩)
    (fun k hk => List.mem_map.2 ⟨(ox + (k : K), oy + ((0 : Nat) : K)), (hmem _).2 ⟨0, hn, k, hk, rfl⟩, rfl⟩)
  have hY := min_max_axis n hn oy (coords.map (·.2))
    (by
      intro x hxm
      obtain ⟨c, hcm, rfl⟩ := List.mem_map.1 hxm
      obtain ⟨i, hi, j, _, rfl⟩ := (hmem c).1 hcm
      exact ⟨i, hi, rfl⟩)
    (fun k hk => List.mem_map.2 ⟨(ox + ((0 : Nat) : K), oy + (k : K)), (hmem _).2 ⟨k, hk, 0, hn, rfl⟩, rfl⟩)
  rw [evaluate_some hX.1 hX.2 hY.1 hY.2]
  simp only
  rw [mainGrid_fst hM, indexOf_add, indexOf_add, max_self, Nat.sub_add_cancel hn]
  simp only
  unfold valuesOn
  cases hT : M.oversampled params M.gridFactor (sample M.sub params (makeGrid (n : Int) (ox, oy) M.gridFactor)) (n - 1) (n - 1) with
  | error e => rfl
  | ok T =>
    have hsh := oversampled_shape hp hf hT
    have hcv : (M.convolved rot pa T).h = n ∧ (M.convolved rot pa T).w = n := by
      unfold convolved
      simp only [hp, lt_irrefl, if_false]
      cases M.psf with
      | none => exact hsh
      | some Q => exact hsh
    simp only [bind, Except.bind]
    rw [mapM_pick _ (fun c : K × K => (indexOf c.2 oy, indexOf c.1 ox)) coords
      (by
        intro c hcm
        obtain ⟨i, hi, j, hj, rfl⟩ := (hmem c).1 hcm
        rw [hcv.1, hcv.2, indexOf_add, indexOf_add]
        exact ⟨hi, hj⟩)]
    simp only [hco, List.map_flatMap, List.map_map, Function.comp_def, indexOf_add]

/-- **C159, model images.**  On a square image the PSF of a `PSFConvolvedModel2D` (not oversampled, not rotated) convolves the image that
`model_to_image` gives without PSF, whatever the oversampling, also in windows. -/
theorem C159_model {size : SizeArg K} {center : Option (CenterArg K)} {n : Nat} {ox oy : K}
    (h : Describes size center n n ox oy) (hn : 0 < n) (integ : GridModel K → K × K → K × K → Except PyErr (Img K))
    (M : PSFModel K) (hM : CacheOk M) (hp : M.psfFactor = 1) (hf : 0 < M.oversampleFactor) (rot : Img K → K → Img K) (params : List K)
    (factor : Int) (psf I : Img K)
    (hI : modelToImage integ ((M.setPsf none).onGrid rot params 0) size .center (factor : K) center = .ok I) :
    I.h = n ∧ I.w = n ∧
    ∃ J, modelToImage integ ((M.setPsf (some psf)).onGrid rot params 0) size .center (factor : K) center = .ok J ∧
      J.h = n ∧ J.w = n ∧ ∀ i j, i < n → j < n → J.px i j = (convolveSame I psf).px i j := by
  have e : ∀ o, modelToImage integ ((M.setPsf o).onGrid rot params 0) size .center (factor : K) center =
      match M.oversampled params M.gridFactor (sample M.sub params (makeGrid (n : Int) (ox, oy) M.gridFactor)) (n - 1) (n - 1) with
      | .error e => .error e
      | .ok T => .ok ⟨n, n, fun i j => ((List.range n).flatMap fun i => (List.range n).map fun j =>
          ((M.setPsf o).convolved rot 0 T).px i j).getD (i * n + j) 0⟩ := fun o =>
    modelToImage_wrapped h hn integ (M.setPsf o) hM hp hf rot params 0 factor
  rw [e] at hI
  rw [e]
  cases hT : M.oversampled params M.gridFactor (sample M.sub params (makeGrid (n : Int) (ox, oy) M.gridFactor)) (n - 1) (n - 1) with
  | error e => rw [hT] at hI; cases hI
  | ok T =>
    rw [hT] at hI
    simp only [Except.ok.injEq] at hI
    have hsh := oversampled_shape hp hf hT
    have hp' : ∀ o, (M.setPsf o).psfFactor = 1 := fun o => hp
    have hc0 : (M.setPsf none).convolved rot 0 T = T := by
      unfold convolved
      rw [hp']
      rfl
    have hc1 : (M.setPsf (some psf)).convolved rot 0 T = convolveSame T psf := by
      unfold convolved
      rw [hp']
      simp [setPsf]
    have hpx : ∀ i j, i < n → j < n → I.px i j = T.px i j := by
      intro i j hi hj
      rw [← hI]
      simp only [hc0]
      exact getD_rows n (fun a b => T.px a b) 0 n i j hi hj
    have hIh : I.h = n := by rw [← hI]
    have hIw : I.w = n := by rw [← hI]
    have hz : ∀ i j, T.zeroPad i j = I.zeroPad i j := by
      intro i j
      unfold Img.zeroPad
      rw [hsh.1, hsh.2, hIh, hIw]
      by_cases hb : 0 ≤ i ∧ i < (n : Int) ∧ 0 ≤ j ∧ j < (n : Int)
      · rw [if_pos hb, if_pos hb, hpx _ _ (by omega) (by omega)]
      · rw [if_neg hb, if_neg hb]
    refine ⟨hIh, hIw, _, rfl, rfl, rfl, ?_⟩
    intro i j hi hj
    simp only [hc1]
    rw [getD_rows n (fun a b => (convolveSame T psf).px a b) 0 n i j hi hj]
    simp only [convolveSame, hz]

end model

/-- **C159, curves of growth of model images.**  With a PSF that reaches at most `s` the curve of growth of a model image is at most that of
the model image without PSF with radii larger by `s`. -/
theorem C159_model_growth {ov : Overlap ℝ} (hm : Method ov) {size : SizeArg ℝ} {center : Option (CenterArg ℝ)} {n : Nat} {ox oy : ℝ}
    (h : Describes size center n n ox oy) (hn : 0 < n) (integ : GridModel ℝ → ℝ × ℝ → ℝ × ℝ → Except PyErr (Img ℝ))
    (M : PSFModel ℝ) (hM : CacheOk M) (hp : M.psfFactor = 1) (hf : 0 < M.oversampleFactor) (rot : Img ℝ → ℝ → Img ℝ) (params : List ℝ)
    (factor : Int) (psf I J : Img ℝ)
    (hI : modelToImage integ ((M.setPsf none).onGrid rot params 0) size .center (factor : ℝ) center = .ok I)
    (hJ : modelToImage integ ((M.setPsf (some psf)).onGrid rot params 0) size .center (factor : ℝ) center = .ok J)
    (cx cy q t s : ℝ) (rs : List ℝ) (fl ar er : List (F ℝ))
    (hpx : ∀ i j, i < n → j < n → 0 ≤ I.px i j) (hpos : ∀ a b, a < psf.h → b < psf.w → 0 ≤ psf.px a b) (htot : total psf ≤ 1)
    (hq : 1 ≤ q) (hs : 0 ≤ s) (hreach : Reaches psf q s)
    (hr : radialPhotometry ov (J.map fin) cx cy rs none none q t = .ok (fl, ar, er)) :
    ∃ fl' ar' er', radialPhotometry ov (I.map fin) cx cy (rs.map (· + s)) none none q t = .ok (fl', ar', er') ∧
      List.Forall₂ MeasuredLE fl fl' ∧ List.Forall₂ MeasuredLE ar ar' := by
  obtain ⟨hIh, hIw, J', hJ', hh, hw, hpj⟩ := C159_model h hn integ M hM hp hf rot params factor psf I hI
  rw [hJ] at hJ'
  cases hJ'
  have hf' : ∀ i j, i < I.h → j < I.w → 0 ≤ I.px i j := by rw [hIh, hIw]; exact hpx
  refine radialPhotometry_two hm (I := J) (J := I) (by rw [hh, hIh]) (by rw [hw, hIw]) hs ?_ (fun r hr => ?_) hr
  · intro i j hi hj
    rw [hh] at hi
    rw [hw] at hj
    rw [hpj i j hi hj]
    exact conv_nonneg hf' hpos i j
  · have := conv_weighted_le (cx := cx) (cy := cy) (t := t) hm hf' hpos hr hq hs hreach htot
    refine le_trans (le_of_eq ?_) this
    rw [hh, hw, hIh, hIw]
    unfold weightedSum
    apply Finset.sum_congr rfl
    intro i hi
    apply Finset.sum_congr rfl
    intro j hj
    rw [Finset.mem_range] at hi hj
    simp only [hpj i j hi hj]

/-- A PSF that spreads half of the light to the four neighbours. -/
def crossPsf (K : Type) [Field K] : Img K :=
  ⟨3, 3, fun a b => if a = 1 ∧ b = 1 then 1 / 2 else if a = 1 ∨ b = 1 then 1 / 8 else 0⟩

/-- The hypotheses on the PSF hold: it reaches one pixel, in an aperture twice as long as wide two. -/
example : (∀ a b, a < (crossPsf ℝ).h → b < (crossPsf ℝ).w → 0 ≤ (crossPsf ℝ).px a b) ∧ total (crossPsf ℝ) = 1 ∧
    Reaches (crossPsf ℝ) 1 1 ∧ Reaches (crossPsf ℝ) 2 2 := by
  have key : ∀ a b : Nat, a < 3 → b < 3 → (crossPsf ℝ).px a b ≠ 0 → ((b : ℝ) - (1 : Nat)) ^ 2 + ((a : ℝ) - (1 : Nat)) ^ 2 ≤ 1 := by
    intro a b ha hb
    interval_cases a <;> interval_cases b <;> norm_num [crossPsf]
  refine ⟨?_, ?_, ?_, ?_⟩
  · intro a b _ _
    simp only [crossPsf]
    split_ifs <;> norm_num
  · simp [total, crossPsf, Finset.sum_range_succ]
    norm_num
  · intro a b ha hb h0
    have := key a b ha hb h0
    simpa [crossPsf] using this
  · intro a b ha hb h0
    have := key a b ha hb h0
    simp only [crossPsf] at this ⊢
    norm_num at this ⊢
    linarith

/-- A model image without and with the PSF: the light of one pixel goes to the neighbours. -/
example :
    let M : PSFModel ℚ := ⟨⟨["x"], fun _ x y => if x = 6 ∧ y = 8 then 8 else 0⟩, none, .none, none, false, 0, 0, none, none⟩
    let run := fun o => (modelToImage (fun _ _ _ => .error .exception) ((M.setPsf o).onGrid (fun im _ => im) [0] 0) (.num (.fin 3)) .center 1
      (some (.seq [6, 8]))).toOption.map Img.rows
    run none = some [[0, 0, 0], [0, 8, 0], [0, 0, 0]] ∧ run (some (crossPsf ℚ)) = some [[0, 1, 0], [1, 4, 1], [0, 1, 0]] := by
  decide +kernel

end Verif.Props

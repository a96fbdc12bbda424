import Verif.Spec.Photometry
import Mathlib.MeasureTheory.Measure.Lebesgue.Basic
import Mathlib.MeasureTheory.Measure.Prod
import Mathlib.Analysis.SpecialFunctions.Trigonometric.Basic

/-!
# The three photutils overlap methods over the reals, and the contract they meet

photutils `EllipticalAperture.to_mask(method)`: `center` tests the pixel centre, `subpixel` the centres of `s × s` subpixels, `exact` is the
area of the intersection of pixel and ellipse.  Pixel `(row i, column j)` is the unit square centred at `(x, y) = (j, i)`.
-/

set_option linter.unusedSectionVars false

namespace Verif

open Spec MeasureTheory

noncomputable section

/-- The open ellipse of an aperture. -/
def Ellipse.set (e : Ellipse ℝ) : Set (ℝ × ℝ) :=
  {p | (((p.1 - e.cx) * Real.cos e.theta + (p.2 - e.cy) * Real.sin e.theta) / e.a) ^ 2 +
       (((p.2 - e.cy) * Real.cos e.theta - (p.1 - e.cx) * Real.sin e.theta) / e.b) ^ 2 < 1}

/-- Half the width of the bounding box. -/
def Ellipse.xExtent (e : Ellipse ℝ) : ℝ := Real.sqrt ((e.a * Real.cos e.theta) ^ 2 + (e.b * Real.sin e.theta) ^ 2)

/-- Half the height of the bounding box. -/
def Ellipse.yExtent (e : Ellipse ℝ) : ℝ := Real.sqrt ((e.a * Real.sin e.theta) ^ 2 + (e.b * Real.cos e.theta) ^ 2)

/-- photutils `BoundingBox.from_float` and the overlap test with the image. -/
def boxHits (e : Ellipse ℝ) (h w : Nat) : Bool :=
  decide (⌊e.cx - e.xExtent + 1 / 2⌋ < (w : Int) ∧ 0 < ⌈e.cx + e.xExtent + 1 / 2⌉ ∧
    ⌊e.cy - e.yExtent + 1 / 2⌋ < (h : Int) ∧ 0 < ⌈e.cy + e.yExtent + 1 / 2⌉)

/-- The unit square of a pixel. -/
def pixelSquare (i j : Nat) : Set (ℝ × ℝ) := Set.Ioc ((j : ℝ) - 1 / 2) (j + 1 / 2) ×ˢ Set.Ioc ((i : ℝ) - 1 / 2) (i + 1 / 2)

/-- `method="exact"`. -/
def exactOverlap : Overlap ℝ := ⟨fun e i j => (volume (pixelSquare i j ∩ e.set)).toReal, boxHits⟩

open Classical in
/-- `method="subpixel"` with `s` subpixels per side. -/
def subpixelOverlap (s : Nat) : Overlap ℝ :=
  ⟨fun e i j => (((Finset.range s ×ˢ Finset.range s).filter fun k =>
      ((j : ℝ) - 1 / 2 + (k.1 + 1 / 2) / s, (i : ℝ) - 1 / 2 + (k.2 + 1 / 2) / s) ∈ e.set).card : ℝ) / (s : ℝ) ^ 2, boxHits⟩

open Classical in
/-- `method="center"`. -/
def centerOverlap : Overlap ℝ := ⟨fun e i j => if ((j : ℝ), (i : ℝ)) ∈ e.set then 1 else 0, boxHits⟩

/-! ### The contract -/

theorem sq_le_of_nested {u r r' : ℝ} (hr : 0 < r) (h : r ≤ r') : (u / r') ^ 2 ≤ (u / r) ^ 2 := by
  rw [div_pow, div_pow]
  apply div_le_div_of_nonneg_left (sq_nonneg u) (by positivity)
  exact pow_le_pow_left₀ hr.le h 2

theorem Ellipse.set_nested {cx cy q t r r' : ℝ} (hq : 0 < q) (hr : 0 < r) (h : r ≤ r') :
    Ellipse.set ⟨cx, cy, r, r / q, t⟩ ⊆ Ellipse.set ⟨cx, cy, r', r' / q, t⟩ := by
  intro p hp
  simp only [Ellipse.set, Set.mem_setOf_eq] at hp ⊢
  have h1 := sq_le_of_nested (u := (p.1 - cx) * Real.cos t + (p.2 - cy) * Real.sin t) hr h
  have h2 := sq_le_of_nested (u := (p.2 - cy) * Real.cos t - (p.1 - cx) * Real.sin t) (div_pos hr hq)
    (div_le_div_of_nonneg_right h hq.le)
  linarith

theorem cauchy2 (x y p q : ℝ) : (x * p + y * q) ^ 2 ≤ (x ^ 2 + y ^ 2) * (p ^ 2 + q ^ 2) := by
  nlinarith [sq_nonneg (x * q - y * p)]

theorem abs_lt_of_ellipse {x y p q : ℝ} (hxy : 0 < x ^ 2 + y ^ 2) (h : p ^ 2 + q ^ 2 < 1) :
    |x * p + y * q| < Real.sqrt (x ^ 2 + y ^ 2) := by
  apply Real.lt_sqrt_of_sq_lt
  rw [sq_abs]
  nlinarith [cauchy2 x y p q]

/-- The ellipse lies strictly inside its bounding box. -/
theorem Ellipse.extent {e : Ellipse ℝ} (ha : 0 < e.a) (hb : 0 < e.b) {p : ℝ × ℝ} (hp : p ∈ e.set) :
    |p.1 - e.cx| < e.xExtent ∧ |p.2 - e.cy| < e.yExtent := by
  have hcs := Real.cos_sq_add_sin_sq e.theta
  set c := Real.cos e.theta with hc
  set s := Real.sin e.theta with hs
  simp only [Ellipse.set, Set.mem_setOf_eq, ← hc, ← hs] at hp
  set u := ((p.1 - e.cx) * c + (p.2 - e.cy) * s) / e.a with hu
  set v := ((p.2 - e.cy) * c - (p.1 - e.cx) * s) / e.b with hv
  have e1 : p.1 - e.cx = (e.a * c) * u + (e.b * s) * (-v) := by
    have h1 : e.a * u = (p.1 - e.cx) * c + (p.2 - e.cy) * s := by rw [hu]; field_simp
    have h2 : e.b * v = (p.2 - e.cy) * c - (p.1 - e.cx) * s := by rw [hv]; field_simp
    have : (e.a * c) * u + (e.b * s) * (-v) = c * (e.a * u) - s * (e.b * v) := by ring
    rw [this, h1, h2]
    linear_combination (-(p.1 - e.cx)) * hcs
  have e2 : p.2 - e.cy = (e.a * s) * u + (e.b * c) * v := by
    have h1 : e.a * u = (p.1 - e.cx) * c + (p.2 - e.cy) * s := by rw [hu]; field_simp
    have h2 : e.b * v = (p.2 - e.cy) * c - (p.1 - e.cx) * s := by rw [hv]; field_simp
    have : (e.a * s) * u + (e.b * c) * v = s * (e.a * u) + c * (e.b * v) := by ring
    rw [this, h1, h2]
    linear_combination (-(p.2 - e.cy)) * hcs
  have hpos : ∀ x y : ℝ, x ^ 2 + y ^ 2 = 1 → 0 < (e.a * x) ^ 2 + (e.b * y) ^ 2 := by
    intro x y hxy
    have h1 : 0 ≤ (e.a * x) ^ 2 := sq_nonneg _
    have h2 : 0 ≤ (e.b * y) ^ 2 := sq_nonneg _
    by_contra hn
    have h3 : (e.a * x) ^ 2 = 0 := by linarith
    have h4 : (e.b * y) ^ 2 = 0 := by linarith
    have hx : x = 0 := by simpa [ha.ne'] using h3
    have hy : y = 0 := by simpa [hb.ne'] using h4
    subst hx hy
    norm_num at hxy
  constructor
  · rw [e1]
    apply abs_lt_of_ellipse (hpos c s hcs)
    nlinarith [hp]
  · rw [e2]
    apply abs_lt_of_ellipse (hpos s c (by linarith))
    exact hp

theorem boxHits_of_mem {e : Ellipse ℝ} (ha : 0 < e.a) (hb : 0 < e.b) {p : ℝ × ℝ} (hp : p ∈ e.set) {h w i j : Nat} (hi : i < h)
    (hj : j < w) (hx : |p.1 - j| ≤ 1 / 2) (hy : |p.2 - i| ≤ 1 / 2) : boxHits e h w = true := by
  obtain ⟨h1, h2⟩ := Ellipse.extent ha hb hp
  rw [abs_lt] at h1 h2
  rw [abs_le] at hx hy
  have hj' : (j : ℝ) + 1 ≤ w := by exact_mod_cast hj
  have hi' : (i : ℝ) + 1 ≤ h := by exact_mod_cast hi
  have hj0 : (0 : ℝ) ≤ j := Nat.cast_nonneg j
  have hi0 : (0 : ℝ) ≤ i := Nat.cast_nonneg i
  unfold boxHits
  rw [decide_eq_true_eq]
  refine ⟨?_, ?_, ?_, ?_⟩
  · rw [Int.floor_lt]; push_cast; linarith
  · rw [Int.ceil_pos]; linarith
  · rw [Int.floor_lt]; push_cast; linarith
  · rw [Int.ceil_pos]; linarith

theorem boxHits_mono {cx cy q t r r' : ℝ} (hq : 0 < q) (hr : 0 < r) (h : r ≤ r') {hh w : Nat}
    (hb : boxHits ⟨cx, cy, r, r / q, t⟩ hh w = true) : boxHits ⟨cx, cy, r', r' / q, t⟩ hh w = true := by
  have key : ∀ x y : ℝ, Real.sqrt ((r * x) ^ 2 + (r / q * y) ^ 2) ≤ Real.sqrt ((r' * x) ^ 2 + (r' / q * y) ^ 2) := by
    intro x y
    apply Real.sqrt_le_sqrt
    have h1 : r ^ 2 ≤ r' ^ 2 := pow_le_pow_left₀ hr.le h 2
    have h2 : (r / q) ^ 2 ≤ (r' / q) ^ 2 := pow_le_pow_left₀ (div_pos hr hq).le (div_le_div_of_nonneg_right h hq.le) 2
    rw [mul_pow, mul_pow, mul_pow, mul_pow]
    nlinarith [mul_le_mul_of_nonneg_right h1 (sq_nonneg x), mul_le_mul_of_nonneg_right h2 (sq_nonneg y)]
  have kx := key (Real.cos t) (Real.sin t)
  have ky := key (Real.sin t) (Real.cos t)
  unfold boxHits at hb ⊢
  rw [decide_eq_true_eq] at hb ⊢
  simp only [Ellipse.xExtent, Ellipse.yExtent] at hb ⊢
  obtain ⟨h1, h2, h3, h4⟩ := hb
  rw [Int.floor_lt] at h1 h3
  rw [Int.ceil_pos] at h2 h4
  refine ⟨?_, ?_, ?_, ?_⟩
  · rw [Int.floor_lt]; linarith
  · rw [Int.ceil_pos]; linarith
  · rw [Int.floor_lt]; linarith
  · rw [Int.ceil_pos]; linarith

theorem volume_pixel (i j : Nat) : volume (pixelSquare i j) = 1 := by
  unfold pixelSquare
  rw [Measure.volume_eq_prod, Measure.prod_prod, Real.volume_Ioc, Real.volume_Ioc]
  have : ∀ x : ℝ, x + 1 / 2 - (x - 1 / 2) = 1 := fun x => by ring
  rw [this, this]
  simp

theorem volume_inter_le (i j : Nat) (s : Set (ℝ × ℝ)) : volume (pixelSquare i j ∩ s) ≤ 1 := by
  rw [← volume_pixel i j]; exact measure_mono Set.inter_subset_left

/-- The exact method meets the contract. -/
theorem exactOverlap_law : OverlapLaw exactOverlap where
  nonneg := fun _ _ _ => ENNReal.toReal_nonneg
  le_one := fun e i j => by
    have := ENNReal.toReal_mono ENNReal.one_ne_top (volume_inter_le i j e.set)
    simpa [exactOverlap] using this
  nested := fun cx cy q t r r' i j hq hr h => by
    apply ENNReal.toReal_mono (ne_top_of_le_ne_top ENNReal.one_ne_top (volume_inter_le i j _))
    exact measure_mono (Set.inter_subset_inter_right _ (Ellipse.set_nested hq hr h))
  hits_of_pos := fun e h w i j ha hb hi hj hw => by
    have hne : (pixelSquare i j ∩ e.set).Nonempty := by
      rw [Set.nonempty_iff_ne_empty]
      intro h0
      simp [exactOverlap, h0] at hw
    obtain ⟨p, hp1, hp2⟩ := hne
    obtain ⟨⟨h1, h2⟩, ⟨h3, h4⟩⟩ := hp1
    apply boxHits_of_mem ha hb hp2 hi hj
    · rw [abs_le]; constructor <;> linarith
    · rw [abs_le]; constructor <;> linarith
  hits_mono := fun cx cy q t r r' h w hq hr hle hb => boxHits_mono hq hr hle hb

/-- The center method meets the contract. -/
theorem centerOverlap_law : OverlapLaw centerOverlap where
  nonneg := fun e i j => by simp only [centerOverlap]; split <;> norm_num
  le_one := fun e i j => by simp only [centerOverlap]; split <;> norm_num
  nested := fun cx cy q t r r' i j hq hr h => by
    simp only [centerOverlap]
    by_cases hp : ((j : ℝ), (i : ℝ)) ∈ Ellipse.set ⟨cx, cy, r, r / q, t⟩
    · rw [if_pos hp, if_pos (Ellipse.set_nested hq hr h hp)]
    · rw [if_neg hp]; split <;> norm_num
  hits_of_pos := fun e h w i j ha hb hi hj hw => by
    have hp : ((j : ℝ), (i : ℝ)) ∈ e.set := by
      by_contra hn
      simp [centerOverlap, hn] at hw
    exact boxHits_of_mem ha hb hp hi hj (by simp) (by simp)
  hits_mono := fun cx cy q t r r' h w hq hr hle hb => boxHits_mono hq hr hle hb

open Classical in
/-- The subpixel method meets the contract. -/
theorem subpixelOverlap_law (s : Nat) (hs : 0 < s) : OverlapLaw (subpixelOverlap s) where
  nonneg := fun e i j => by simp only [subpixelOverlap]; positivity
  le_one := fun e i j => by
    have hs' : (0 : ℝ) < (s : ℝ) ^ 2 := by positivity
    simp only [subpixelOverlap]
    rw [div_le_one hs']
    have := Finset.card_filter_le (Finset.range s ×ˢ Finset.range s) fun k : Nat × Nat =>
      ((j : ℝ) - 1 / 2 + (k.1 + 1 / 2) / s, (i : ℝ) - 1 / 2 + (k.2 + 1 / 2) / s) ∈ e.set
    rw [Finset.card_product, Finset.card_range, ← pow_two] at this
    exact_mod_cast this
  nested := fun cx cy q t r r' i j hq hr h => by
    simp only [subpixelOverlap]
    apply div_le_div_of_nonneg_right _ (by positivity)
    apply Nat.cast_le.2
    apply Finset.card_le_card
    apply Finset.monotone_filter_right
    intro k _ hk
    exact Ellipse.set_nested hq hr h hk
  hits_of_pos := fun e h w i j ha hb hi hj hw => by
    have hs0 : (0 : ℝ) < s := by exact_mod_cast hs
    have hne : ((Finset.range s ×ˢ Finset.range s).filter fun k : Nat × Nat =>
        ((j : ℝ) - 1 / 2 + (k.1 + 1 / 2) / s, (i : ℝ) - 1 / 2 + (k.2 + 1 / 2) / s) ∈ e.set).Nonempty := by
      rw [Finset.nonempty_iff_ne_empty]
      intro h0
      simp only [subpixelOverlap] at hw
      rw [h0] at hw
      simp at hw
    obtain ⟨k, hk⟩ := hne
    rw [Finset.mem_filter, Finset.mem_product, Finset.mem_range, Finset.mem_range] at hk
    obtain ⟨⟨h1, h2⟩, hp⟩ := hk
    have key : ∀ m : Nat, m < s → ∀ x : ℝ, |x - 1 / 2 + ((m : ℝ) + 1 / 2) / s - x| ≤ 1 / 2 := by
      intro m hm x
      have hm1 : (m : ℝ) + 1 ≤ s := by exact_mod_cast hm
      have hm0 : (0 : ℝ) ≤ m := Nat.cast_nonneg m
      have : 0 ≤ ((m : ℝ) + 1 / 2) / s := by positivity
      have : ((m : ℝ) + 1 / 2) / s ≤ 1 := by rw [div_le_one hs0]; linarith
      rw [abs_le]
      constructor <;> linarith
    exact boxHits_of_mem ha hb hp hi hj (key _ h1 _) (key _ h2 _)
  hits_mono := fun cx cy q t r r' h w hq hr hle hb => boxHits_mono hq hr hle hb

end
end Verif

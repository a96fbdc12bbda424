import Verif.Model.Rotate
import Verif.Props.PSFNorm

/-!
# C121: rotation of the PSF by any angle
-/

set_option linter.unusedSectionVars false
set_option linter.unusedSimpArgs false

namespace Verif.Spec

/-- An interpolation that passes through the pixels and keeps constant images; the splines of scipy do. -/
structure Interpolation (interp : Img ℝ → ℝ → ℝ → ℝ) : Prop where
  nodes : ∀ (im : Img ℝ) (i j : Nat), i < im.h → j < im.w → interp im i j = im.px i j
  const : ∀ (im : Img ℝ) (v : ℝ), (∀ i j, i < im.h → j < im.w → im.px i j = v) → ∀ y x : ℝ, 0 ≤ y → y ≤ im.h - 1 → 0 ≤ x → x ≤ im.w - 1 →
    interp im y x = v

/-- An angle in degrees is a multiple of 90. -/
def RightAngle (angle : ℝ) : Prop := ∃ k : ℤ, angle = 90 * k

/-- The normalised PSF of `n × n` equal pixels. -/
noncomputable def flatPsf (n : Nat) : Img ℝ := ⟨n, n, fun _ _ => 1 / (n : ℝ) ^ 2⟩

end Verif.Spec

namespace Verif.Props

open F Spec PSFModel

theorem rightAngle_iff (angle : ℝ) :
    RightAngle angle ↔ Real.cos (angle * Real.pi / 180) * Real.sin (angle * Real.pi / 180) = 0 := by
  have h2 : Real.sin (2 * (angle * Real.pi / 180)) = 2 * (Real.cos (angle * Real.pi / 180) * Real.sin (angle * Real.pi / 180)) := by
    rw [Real.sin_two_mul]; ring
  have h3 : Real.cos (angle * Real.pi / 180) * Real.sin (angle * Real.pi / 180) = 0 ↔ Real.sin (2 * (angle * Real.pi / 180)) = 0 := by
    rw [h2]; simp
  rw [h3, Real.sin_eq_zero_iff]
  have hpi := Real.pi_pos.ne'
  constructor
  · rintro ⟨k, rfl⟩
    exact ⟨k, by field_simp; ring⟩
  · rintro ⟨k, hk⟩
    refine ⟨k, ?_⟩
    have : Real.pi * (angle - 90 * k) = 0 := by linarith
    rcases mul_eq_zero.1 this with h | h
    · exact absurd h hpi
    · linarith

/-- The row and column that output pixel `(i, j)` reads, from the centre. -/
theorem rotateBy_px (interp : Img ℝ → ℝ → ℝ → ℝ) (im : Img ℝ) (angle : ℝ) (i j : Nat) :
    let c := Real.cos (angle * Real.pi / 180)
    let s := Real.sin (angle * Real.pi / 180)
    let v := (i : ℝ) - ((im.h : ℝ) - 1) / 2
    let u := (j : ℝ) - ((im.w : ℝ) - 1) / 2
    (rotateBy interp im angle).px i j =
      if |c * v + s * u| ≤ ((im.h : ℝ) - 1) / 2 ∧ |-s * v + c * u| ≤ ((im.w : ℝ) - 1) / 2 then
        interp im (((im.h : ℝ) - 1) / 2 + (c * v + s * u)) (((im.w : ℝ) - 1) / 2 + (-s * v + c * u)) else 0 := by
  intro c s v u
  have ey : c * i + s * j + (((im.h : ℝ) - 1) / 2 - (c * (((im.h : ℝ) - 1) / 2) + s * (((im.w : ℝ) - 1) / 2))) =
      ((im.h : ℝ) - 1) / 2 + (c * v + s * u) := by simp only [v, u]; ring
  have ex : -s * i + c * j + (((im.w : ℝ) - 1) / 2 - (-s * (((im.h : ℝ) - 1) / 2) + c * (((im.w : ℝ) - 1) / 2))) =
      ((im.w : ℝ) - 1) / 2 + (-s * v + c * u) := by simp only [v, u]; ring
  unfold rotateBy
  simp only
  rw [show Real.cos (angle * Real.pi / 180) = c from rfl, show Real.sin (angle * Real.pi / 180) = s from rfl, ey, ex]
  have hc : ((0 ≤ ((im.h : ℝ) - 1) / 2 + (c * v + s * u) ∧ ((im.h : ℝ) - 1) / 2 + (c * v + s * u) ≤ im.h - 1) ∧
      0 ≤ ((im.w : ℝ) - 1) / 2 + (-s * v + c * u) ∧ ((im.w : ℝ) - 1) / 2 + (-s * v + c * u) ≤ im.w - 1) ↔
      |c * v + s * u| ≤ ((im.h : ℝ) - 1) / 2 ∧ |-s * v + c * u| ≤ ((im.w : ℝ) - 1) / 2 := by
    rw [abs_le, abs_le]
    constructor
    · rintro ⟨⟨h1, h2⟩, h3, h4⟩; exact ⟨⟨by linarith, by linarith⟩, by linarith, by linarith⟩
    · rintro ⟨⟨h1, h2⟩, h3, h4⟩; exact ⟨⟨by linarith, by linarith⟩, by linarith, by linarith⟩
  by_cases h : |c * v + s * u| ≤ ((im.h : ℝ) - 1) / 2 ∧ |-s * v + c * u| ≤ ((im.w : ℝ) - 1) / 2
  · rw [if_pos h, if_pos (hc.2 h)]
  · rw [if_neg h, if_neg fun h' => h (hc.1 h')]

/-- A point on a diagonal of the square leaves the square when it is turned by an angle that is not right. -/
theorem corner_leaves {c s r : ℝ} (hcs : c ^ 2 + s ^ 2 = 1) (hne : c * s ≠ 0) (hr : 0 < r) {v u : ℝ} (hv : |v| = r) (hu : |u| = r) :
    ¬ (|c * v + s * u| ≤ r ∧ |-s * v + c * u| ≤ r) := by
  rintro ⟨h1, h2⟩
  have hv2 : v ^ 2 = r ^ 2 := by rw [← hv, sq_abs]
  have hu2 : u ^ 2 = r ^ 2 := by rw [← hu, sq_abs]
  have hr2 := abs_nonneg (c * v + s * u)
  have q1 : (c * v + s * u) ^ 2 ≤ r ^ 2 := by rw [← sq_abs]; exact pow_le_pow_left₀ (abs_nonneg _) h1 2
  have q2 : (-s * v + c * u) ^ 2 ≤ r ^ 2 := by rw [← sq_abs]; exact pow_le_pow_left₀ (abs_nonneg _) h2 2
  have e1 : (c * v + s * u) ^ 2 = r ^ 2 + 2 * (c * s) * (v * u) := by
    have : (c * v + s * u) ^ 2 = c ^ 2 * v ^ 2 + s ^ 2 * u ^ 2 + 2 * (c * s) * (v * u) := by ring
    rw [this, hv2, hu2, ← add_mul, hcs, one_mul]
  have e2 : (-s * v + c * u) ^ 2 = r ^ 2 - 2 * (c * s) * (v * u) := by
    have : (-s * v + c * u) ^ 2 = (c ^ 2 * u ^ 2 + s ^ 2 * v ^ 2) - 2 * (c * s) * (v * u) := by ring
    rw [this, hv2, hu2, ← add_mul, hcs, one_mul]
  have hz : c * s * (v * u) = 0 := by
    apply le_antisymm <;> linarith
  rcases mul_eq_zero.1 hz with h | h
  · exact hne h
  · have hv0 : v ≠ 0 := fun h0 => by rw [h0, abs_zero] at hv; linarith
    have hu0 : u ≠ 0 := fun h0 => by rw [h0, abs_zero] at hu; linarith
    exact (mul_ne_zero hv0 hu0) h

/-- **C121, corners.** Whatever the PSF and the interpolation, the corner pixels of a square PSF turned by an angle that is not a multiple of 90
degrees are zero. -/
theorem C121_corners (interp : Img ℝ → ℝ → ℝ → ℝ) (im : Img ℝ) (n : Nat) (hn : 2 ≤ n) (hh : im.h = n) (hw : im.w = n) (angle : ℝ)
    (ha : ¬ RightAngle angle) (i j : Nat) (hi : i = 0 ∨ i = n - 1) (hj : j = 0 ∨ j = n - 1) :
    (rotateBy interp im angle).px i j = 0 := by
  rw [rotateBy_px, if_neg]
  have hr : 0 < ((n : ℝ) - 1) / 2 := by
    have : (2 : ℝ) ≤ n := by exact_mod_cast hn
    linarith
  have hc : ∀ k : Nat, (k = 0 ∨ k = n - 1) → |(k : ℝ) - ((n : ℝ) - 1) / 2| = ((n : ℝ) - 1) / 2 := by
    rintro k (rfl | rfl)
    · rw [Nat.cast_zero, zero_sub, abs_neg, abs_of_pos hr]
    · rw [Nat.cast_sub (by omega), Nat.cast_one]
      have : (n : ℝ) - 1 - ((n : ℝ) - 1) / 2 = ((n : ℝ) - 1) / 2 := by ring
      rw [this, abs_of_pos hr]
  rw [hh, hw]
  exact corner_leaves (Real.cos_sq_add_sin_sq _) (fun h => ha ((rightAngle_iff angle).2 h)) hr (hc i hi) (hc j hj)

/-- **C121, right angles.** Every interpolation through the pixels gives `rotate180` for 180 degrees, and `rotate90` for 90 degrees and sizes of
equal parity: the cases of `C121_half_turn` and `C121_square_partial`. -/
theorem C121_right (interp : Img ℝ → ℝ → ℝ → ℝ) (hI : Interpolation interp) (im : Img ℝ) :
    (rotateBy interp im 180).Same (rotate180 im) ∧ (im.h % 2 = im.w % 2 → (rotateBy interp im 90).Same (rotate90 im)) := by
  have h180 : (180 : ℝ) * Real.pi / 180 = Real.pi := by ring
  have h90 : (90 : ℝ) * Real.pi / 180 = Real.pi / 2 := by ring
  constructor
  · refine ⟨rfl, rfl, fun i j hi hj => ?_⟩
    have hi : i < im.h := hi
    have hj : j < im.w := hj
    unfold rotateBy rotate180
    simp only
    rw [h180, Real.cos_pi, Real.sin_pi]
    have ey : (-1 : ℝ) * i + 0 * j + (((im.h : ℝ) - 1) / 2 - (-1 * (((im.h : ℝ) - 1) / 2) + 0 * (((im.w : ℝ) - 1) / 2))) =
        ((im.h - 1 - i : Nat) : ℝ) := by
      rw [Nat.cast_sub (by omega), Nat.cast_sub (by omega), Nat.cast_one]; ring
    have ex : -(0 : ℝ) * i + -1 * j + (((im.w : ℝ) - 1) / 2 - (-0 * (((im.h : ℝ) - 1) / 2) + -1 * (((im.w : ℝ) - 1) / 2))) =
        ((im.w - 1 - j : Nat) : ℝ) := by
      rw [Nat.cast_sub (by omega), Nat.cast_sub (by omega), Nat.cast_one]; ring
    rw [ey, ex, if_pos, hI.nodes _ _ _ (by omega) (by omega)]
    · have e1 : (im.h : Int) - 1 - i = ((im.h - 1 - i : Nat) : Int) := by omega
      have e2 : (im.w : Int) - 1 - j = ((im.w - 1 - j : Nat) : Int) := by omega
      rw [e1, e2, zeroPad_nat, if_pos ⟨by omega, by omega⟩]
    · have b1 : ((im.h - 1 - i : Nat) : ℝ) + 1 ≤ im.h := by exact_mod_cast (by omega : im.h - 1 - i + 1 ≤ im.h)
      have b2 : ((im.w - 1 - j : Nat) : ℝ) + 1 ≤ im.w := by exact_mod_cast (by omega : im.w - 1 - j + 1 ≤ im.w)
      exact ⟨⟨Nat.cast_nonneg _, by linarith⟩, Nat.cast_nonneg _, by linarith⟩
  · intro hpar
    refine ⟨rfl, rfl, fun i j hi hj => ?_⟩
    have hi : i < im.h := hi
    have hj : j < im.w := hj
    unfold rotateBy rotate90
    simp only
    rw [h90, Real.cos_pi_div_two, Real.sin_pi_div_two]
    obtain ⟨a, ha⟩ : ∃ a : Int, (im.h : Int) - im.w = 2 * a := ⟨((im.h : Int) - im.w) / 2, by omega⟩
    have haR : (im.h : ℝ) - im.w = 2 * a := by exact_mod_cast ha
    have ey : (0 : ℝ) * i + 1 * j + (((im.h : ℝ) - 1) / 2 - (0 * (((im.h : ℝ) - 1) / 2) + 1 * (((im.w : ℝ) - 1) / 2))) =
        (((j : Int) + a : Int) : ℝ) := by
      push_cast; linarith
    have ex : -(1 : ℝ) * i + 0 * j + (((im.w : ℝ) - 1) / 2 - (-1 * (((im.h : ℝ) - 1) / 2) + 0 * (((im.w : ℝ) - 1) / 2))) =
        (((im.w : Int) + a - 1 - i : Int) : ℝ) := by
      push_cast; linarith
    have d1 : ((im.h : Int) - im.w) / 2 = a := by omega
    have d2 : ((im.h : Int) + im.w) / 2 = (im.w : Int) + a := by omega
    rw [ey, ex, d1, d2]
    generalize hp : (j : Int) + a = p
    generalize hq : (im.w : Int) + a - 1 - i = q
    unfold Img.zeroPad
    by_cases hin : 0 ≤ p ∧ p < im.h ∧ 0 ≤ q ∧ q < im.w
    · rw [if_pos hin]
      obtain ⟨p', rfl⟩ := Int.eq_ofNat_of_zero_le hin.1
      obtain ⟨q', rfl⟩ := Int.eq_ofNat_of_zero_le hin.2.2.1
      have b1 : (p' : ℝ) + 1 ≤ im.h := by exact_mod_cast (by omega : p' + 1 ≤ im.h)
      have b2 : (q' : ℝ) + 1 ≤ im.w := by exact_mod_cast (by omega : q' + 1 ≤ im.w)
      rw [Int.cast_natCast, Int.cast_natCast, if_pos ⟨⟨Nat.cast_nonneg _, by linarith⟩, Nat.cast_nonneg _, by linarith⟩,
        hI.nodes _ _ _ (by omega) (by omega)]
      rfl
    · rw [if_neg hin, if_neg]
      rintro ⟨⟨k1, k2⟩, k3, k4⟩
      apply hin
      have k1' : (0 : Int) ≤ p := by exact_mod_cast k1
      have k3' : (0 : Int) ≤ q := by exact_mod_cast k3
      have k2' : (p : ℝ) + 1 ≤ ((im.h : Int) : ℝ) := by rw [Int.cast_natCast]; linarith
      have k4' : (q : ℝ) + 1 ≤ ((im.w : Int) : ℝ) := by rw [Int.cast_natCast]; linarith
      have k2'' : p + 1 ≤ (im.h : Int) := by exact_mod_cast k2'
      have k4'' : q + 1 ≤ (im.w : Int) := by exact_mod_cast k4'
      exact ⟨k1', by omega, k3', by omega⟩

theorem flat_total (n : Nat) (hn : 0 < n) : total (flatPsf n) = 1 := by
  have h : (n : ℝ) ≠ 0 := by exact_mod_cast hn.ne'
  simp only [total, flatPsf, Finset.sum_const, Finset.card_range, nsmul_eq_mul]
  field_simp

/-- Every pixel of a rotated flat PSF has its value or is zero. -/
theorem flat_rotated {interp : Img ℝ → ℝ → ℝ → ℝ} (hI : Interpolation interp) (n : Nat) (angle : ℝ) (i j : Nat) :
    (rotateBy interp (flatPsf n) angle).px i j = 1 / (n : ℝ) ^ 2 ∨ (rotateBy interp (flatPsf n) angle).px i j = 0 := by
  unfold rotateBy
  simp only
  split
  · rename_i h
    exact .inl (hI.const _ _ (fun _ _ _ _ => rfl) _ _ h.1.1 h.1.2 h.2.1 h.2.2)
  · exact .inr rfl

/-- **C121, violated by every other angle.** The flat PSF of `n × n` pixels, accepted without a warning, loses at least 4 of its `n²` pixels
when `psf_pa` is not a multiple of 90 degrees. -/
theorem C121_flat_violated (interp : Img ℝ → ℝ → ℝ → ℝ) (hI : Interpolation interp) (n : Nat) (hn : 2 ≤ n) (angle : ℝ)
    (ha : ¬ RightAngle angle) :
    psfWarns (fin (total (flatPsf n))) = false ∧ 0 ≤ total (rotateBy interp (flatPsf n) angle) ∧
      total (rotateBy interp (flatPsf n) angle) ≤ 1 - 4 / (n : ℝ) ^ 2 := by
  have hpos : 0 < (1 : ℝ) / (n : ℝ) ^ 2 := by
    have : (0 : ℝ) < n := by exact_mod_cast (by omega : 0 < n)
    positivity
  refine ⟨?_, ?_, ?_⟩
  · rw [C120_silent_iff]
    exact ⟨1, by rw [flat_total n (by omega)], by norm_num⟩
  · refine Finset.sum_nonneg fun i _ => Finset.sum_nonneg fun j _ => ?_
    rcases flat_rotated hI n angle i j with h | h <;> rw [h]
    exact hpos.le
  · unfold total
    rw [← Finset.sum_product']
    let C : Finset (Nat × Nat) := {(0, 0), (0, n - 1), (n - 1, 0), (n - 1, n - 1)}
    have hC : C.card = 4 := by
      have h1 : (0 : Nat) ≠ n - 1 := by omega
      simp [C, h1, h1.symm, Ne.symm]
    have hsub : C ⊆ Finset.range n ×ˢ Finset.range n := by
      intro p hp
      simp only [C, Finset.mem_insert, Finset.mem_singleton] at hp
      rw [Finset.mem_product, Finset.mem_range, Finset.mem_range]
      rcases hp with rfl | rfl | rfl | rfl <;> exact ⟨by simp only; omega, by simp only; omega⟩
    have hz : ∀ p ∈ C, (rotateBy interp (flatPsf n) angle).px p.1 p.2 = 0 := by
      intro p hp
      simp only [C, Finset.mem_insert, Finset.mem_singleton] at hp
      refine C121_corners interp (flatPsf n) n hn rfl rfl angle ha _ _ ?_ ?_ <;> rcases hp with rfl | rfl | rfl | rfl <;> simp
    change ∑ p ∈ Finset.range n ×ˢ Finset.range n, (rotateBy interp (flatPsf n) angle).px p.1 p.2 ≤ _
    rw [← Finset.sum_sdiff hsub, Finset.sum_eq_zero hz, add_zero]
    have hle : ∑ p ∈ (Finset.range n ×ˢ Finset.range n) \ C, (rotateBy interp (flatPsf n) angle).px p.1 p.2 ≤
        ∑ p ∈ (Finset.range n ×ˢ Finset.range n) \ C, 1 / (n : ℝ) ^ 2 := by
      refine Finset.sum_le_sum fun p _ => ?_
      rcases flat_rotated hI n angle p.1 p.2 with h | h <;> rw [h]
      exact hpos.le
    refine hle.trans (le_of_eq ?_)
    rw [Finset.sum_const, Finset.card_sdiff_of_subset hsub, hC, Finset.card_product, Finset.card_range, nsmul_eq_mul,
      Nat.cast_sub (by nlinarith)]
    have : (n : ℝ) ≠ 0 := by exact_mod_cast (by omega : n ≠ 0)
    push_cast
    field_simp

theorem sq_one {x : ℝ} (h : x ^ 2 = 1) : x = 1 ∨ x = -1 := by
  have : (x - 1) * (x + 1) = 0 := by linear_combination h
  rcases mul_eq_zero.1 this with h | h
  · exact .inl (by linarith)
  · exact .inr (by linarith)

/-- Square PSFs at right angles: whole pixels are read. -/
theorem rotateBy_square {interp : Img ℝ → ℝ → ℝ → ℝ} (hI : Interpolation interp) (im : Img ℝ) (n : Nat) (hh : im.h = n) (hw : im.w = n)
    (angle : ℝ) {i j p q : Nat} (hp : p < n) (hq : q < n)
    (ep : ((n : ℝ) - 1) / 2 + (Real.cos (angle * Real.pi / 180) * ((i : ℝ) - ((n : ℝ) - 1) / 2) +
      Real.sin (angle * Real.pi / 180) * ((j : ℝ) - ((n : ℝ) - 1) / 2)) = p)
    (eq : ((n : ℝ) - 1) / 2 + (-Real.sin (angle * Real.pi / 180) * ((i : ℝ) - ((n : ℝ) - 1) / 2) +
      Real.cos (angle * Real.pi / 180) * ((j : ℝ) - ((n : ℝ) - 1) / 2)) = q) :
    (rotateBy interp im angle).px i j = im.px p q := by
  have b1 : (p : ℝ) + 1 ≤ n := by exact_mod_cast hp
  have b2 : (q : ℝ) + 1 ≤ n := by exact_mod_cast hq
  have b3 : (0 : ℝ) ≤ p := Nat.cast_nonneg _
  have b4 : (0 : ℝ) ≤ q := Nat.cast_nonneg _
  rw [rotateBy_px, hh, hw, if_pos, ep, eq, hI.nodes _ _ _ (by omega) (by omega)]
  constructor <;> rw [abs_le] <;> constructor <;> linarith

/-- **C121, exactly.** Turning by an angle conserves the sums of all PSFs of `n × n` pixels if and only if it is a multiple of 90 degrees, for
every `n ≥ 2`. -/
theorem C121_iff (interp : Img ℝ → ℝ → ℝ → ℝ) (hI : Interpolation interp) (n : Nat) (hn : 2 ≤ n) (angle : ℝ) :
    (∀ psf : Img ℝ, psf.h = n → psf.w = n → total (rotateBy interp psf angle) = total psf) ↔ RightAngle angle := by
  constructor
  · intro h
    by_contra ha
    have h1 := (C121_flat_violated interp hI n hn angle ha).2.2
    rw [h (flatPsf n) rfl rfl, flat_total n (by omega)] at h1
    have : (0 : ℝ) < n := by exact_mod_cast (by omega : 0 < n)
    have : 0 < 4 / (n : ℝ) ^ 2 := by positivity
    linarith
  · intro ha psf hh hw
    have hcs := (rightAngle_iff angle).1 ha
    have hone := Real.cos_sq_add_sin_sq (angle * Real.pi / 180)
    have cast : ∀ k, k < n → ((n - 1 - k : Nat) : ℝ) = (n : ℝ) - 1 - k := by
      intro k hk
      rw [Nat.cast_sub (by omega), Nat.cast_sub (by omega), Nat.cast_one]
    have tot : ∀ f : Nat → Nat → ℝ, (∀ i j, i < n → j < n → (rotateBy interp psf angle).px i j = f i j) →
        total (rotateBy interp psf angle) = ∑ i ∈ Finset.range n, ∑ j ∈ Finset.range n, f i j := by
      intro f hf
      have e1 : (rotateBy interp psf angle).h = n := hh
      have e2 : (rotateBy interp psf angle).w = n := hw
      unfold total
      rw [e1, e2]
      exact Finset.sum_congr rfl fun i hi => Finset.sum_congr rfl fun j hj => hf i j (Finset.mem_range.1 hi) (Finset.mem_range.1 hj)
    have tot0 : total psf = ∑ i ∈ Finset.range n, ∑ j ∈ Finset.range n, psf.px i j := by unfold total; rw [hh, hw]
    rcases mul_eq_zero.1 hcs with h0 | h0
    · rw [h0] at hone
      have hs : Real.sin (angle * Real.pi / 180) = 1 ∨ Real.sin (angle * Real.pi / 180) = -1 :=
        sq_one (by linarith)
      rcases hs with hs | hs
      · rw [tot (fun i j => psf.px j (n - 1 - i)) fun i j hi hj => rotateBy_square hI psf n hh hw angle hj (by omega)
          (by rw [h0, hs]; ring) (by rw [h0, hs, cast i hi]; ring), Finset.sum_comm, tot0]
        exact Finset.sum_congr rfl fun j _ => Finset.sum_range_reflect (fun i => psf.px j i) n
      · rw [tot (fun i j => psf.px (n - 1 - j) i) fun i j hi hj => rotateBy_square hI psf n hh hw angle (by omega) hi
          (by rw [h0, hs, cast j hj]; ring) (by rw [h0, hs]; ring), Finset.sum_comm, tot0]
        exact Finset.sum_range_reflect (fun j => ∑ i ∈ Finset.range n, psf.px j i) n
    · rw [h0] at hone
      have hs : Real.cos (angle * Real.pi / 180) = 1 ∨ Real.cos (angle * Real.pi / 180) = -1 :=
        sq_one (by linarith)
      rcases hs with hs | hs
      · rw [tot (fun i j => psf.px i j) fun i j hi hj => rotateBy_square hI psf n hh hw angle hi hj
          (by rw [h0, hs]; ring) (by rw [h0, hs]; ring), tot0]
      · rw [tot (fun i j => psf.px (n - 1 - i) (n - 1 - j)) fun i j hi hj => rotateBy_square hI psf n hh hw angle (by omega) (by omega)
          (by rw [h0, hs, cast i hi]; ring) (by rw [h0, hs, cast j hj]; ring), tot0,
          ← Finset.sum_range_reflect (fun i => ∑ j ∈ Finset.range n, psf.px i j) n]
        exact Finset.sum_congr rfl fun i _ => Finset.sum_range_reflect (fun j => psf.px (n - 1 - i) j) n

/-- **C121, violated for model images.** Light that is far enough from the border loses at least this fraction `4 / n²` to a flat PSF at any angle
that is not right. -/
theorem C121_flat_image_violated (interp : Img ℝ → ℝ → ℝ → ℝ) (hI : Interpolation interp) (n : Nat) (hn : 2 ≤ n) (angle : ℝ)
    (ha : ¬ RightAngle angle) (im : Img ℝ) (hin : Inside im (flatPsf n)) (hpos : 0 ≤ total im) :
    total (convolveSame im (flatPsf n)) = total im ∧
      total (convolveSame im (rotateBy interp (flatPsf n) angle)) ≤ (1 - 4 / (n : ℝ) ^ 2) * total im := by
  refine ⟨?_, ?_⟩
  · rw [C59_flux im _ hin, flat_total n (by omega), mul_one]
  · rw [C59_flux im (rotateBy interp (flatPsf n) angle) hin, mul_comm]
    exact mul_le_mul_of_nonneg_right (C121_flat_violated interp hI n hn angle ha).2.2 hpos

/-- The values of a model whose turned PSF is zero are zero. -/
theorem evaluate_zero (M : PSFModel ℝ) (psf : Img ℝ) (hp : M.psf = some psf) (rot : Img ℝ → ℝ → Img ℝ) (angle : ℝ) (ha : angle ≠ 0)
    (hz : ∀ i j, i < (rot psf angle).h → j < (rot psf angle).w → (rot psf angle).px i j = 0) (coords : List (ℝ × ℝ)) (params : List ℝ)
    (vs : List ℝ) (h : (M.evaluate rot coords params angle).1 = .ok vs) : ∀ v ∈ vs, v = 0 := by
  by_cases hc : coords = []
  · rw [evaluate_err hc] at h; cases h
  · have hx : coords.map (·.1) ≠ [] := by simpa using hc
    have hy : coords.map (·.2) ≠ [] := by simpa using hc
    obtain ⟨a, ha'⟩ := min?_some hx
    obtain ⟨b, hb⟩ := max?_some hx
    obtain ⟨c, hc'⟩ := min?_some hy
    obtain ⟨d, hd⟩ := max?_some hy
    rw [evaluate_some ha' hb hc' hd] at h
    simp only [valuesOn] at h
    generalize M.oversampled _ _ _ _ _ = r at h
    cases r with
    | error e => cases h
    | ok im =>
      simp only [Bind.bind, Except.bind] at h
      have hq : ∀ i j, (convolveSame im (rot psf angle)).px i j = 0 := by
        intro i j
        rw [convolveSame_px]
        refine Finset.sum_eq_zero fun p hp => Finset.sum_eq_zero fun q hq => ?_
        rw [hz p q (Finset.mem_range.1 hp) (Finset.mem_range.1 hq), zero_mul]
      have hcv : ∀ i j, (M.convolved rot angle im).px i j = 0 := by
        intro i j
        unfold convolved
        rw [hp]
        simp only [ne_eq, ha, not_false_eq_true, if_true]
        by_cases hf : 1 < M.psfFactor
        · rw [if_pos hf]
          simp [blockReduce, Img.divBy, Img.map, hq]
        · rw [if_neg hf, hq]
      generalize (coords.map fun p => (indexOf p.2 c, indexOf p.1 a)) = idx at h
      generalize M.convolved rot angle im = img at h hcv
      induction idx generalizing vs with
      | nil => cases h; intro v hv; cases hv
      | cons p t ih =>
        rw [List.mapM_cons] at h
        have hpk : ∀ v, pick img p = .ok v → v = 0 := by
          intro v hv
          unfold pick at hv
          split at hv
          · cases hv; exact hcv _ _
          · cases hv
        cases h1 : pick img p with
        | error e => rw [h1] at h; cases h
        | ok v =>
          cases h2 : t.mapM (pick img) with
          | error e => rw [h1, h2] at h; cases h
          | ok ws =>
            rw [h1, h2] at h
            cases h
            intro w hw
            rcases List.mem_cons.1 hw with rfl | hw
            · exact hpk _ h1
            · exact ih ws h2 w hw

/-- **C121, violated completely.** A model with the flat PSF of `2 × 2` pixels is zero everywhere as soon as `psf_pa` is not a multiple of 90
degrees: for every model, parameters, coordinates and oversampling. -/
theorem C121_dark_violated (interp : Img ℝ → ℝ → ℝ → ℝ) (M : PSFModel ℝ) (hp : M.psf = some (flatPsf 2)) (angle : ℝ) (ha : ¬ RightAngle angle)
    (coords : List (ℝ × ℝ)) (params : List ℝ) (vs : List ℝ)
    (h : (M.evaluate (rotateBy interp) coords params angle).1 = .ok vs) : ∀ v ∈ vs, v = 0 := by
  refine evaluate_zero M (flatPsf 2) hp (rotateBy interp) angle (fun h0 => ha ⟨0, by rw [h0]; simp⟩) ?_ coords params vs h
  intro i j hi hj
  have hi : i < 2 := hi
  have hj : j < 2 := hj
  exact C121_corners interp (flatPsf 2) 2 (le_refl _) rfl rfl angle ha i j (by omega) (by omega)

/-- The rotation of a PSF that is symmetric under a half turn is symmetric, if the interpolation of a symmetric image is. -/
theorem rotateBy_symmetric (interp : Img ℝ → ℝ → ℝ → ℝ) (psf : Img ℝ)
    (hI : ∀ y x : ℝ, 0 ≤ y → y ≤ psf.h - 1 → 0 ≤ x → x ≤ psf.w - 1 →
      interp psf ((psf.h : ℝ) - 1 - y) ((psf.w : ℝ) - 1 - x) = interp psf y x) (angle : ℝ) (a b : Nat) (ha : a < psf.h)
    (hb : b < psf.w) : (rotateBy interp psf angle).px (psf.h - 1 - a) (psf.w - 1 - b) = (rotateBy interp psf angle).px a b := by
  have ea : ((psf.h - 1 - a : Nat) : ℝ) = (psf.h : ℝ) - 1 - a := by
    rw [Nat.cast_sub (by omega), Nat.cast_sub (by omega), Nat.cast_one]
  have eb : ((psf.w - 1 - b : Nat) : ℝ) = (psf.w : ℝ) - 1 - b := by
    rw [Nat.cast_sub (by omega), Nat.cast_sub (by omega), Nat.cast_one]
  rw [rotateBy_px, rotateBy_px, ea, eb]
  generalize Real.cos (angle * Real.pi / 180) = c
  generalize Real.sin (angle * Real.pi / 180) = s
  have e1 : c * ((psf.h : ℝ) - 1 - a - ((psf.h : ℝ) - 1) / 2) + s * ((psf.w : ℝ) - 1 - b - ((psf.w : ℝ) - 1) / 2) =
      -(c * ((a : ℝ) - ((psf.h : ℝ) - 1) / 2) + s * ((b : ℝ) - ((psf.w : ℝ) - 1) / 2)) := by ring
  have e2 : -s * ((psf.h : ℝ) - 1 - a - ((psf.h : ℝ) - 1) / 2) + c * ((psf.w : ℝ) - 1 - b - ((psf.w : ℝ) - 1) / 2) =
      -(-s * ((a : ℝ) - ((psf.h : ℝ) - 1) / 2) + c * ((b : ℝ) - ((psf.w : ℝ) - 1) / 2)) := by ring
  rw [e1, e2, abs_neg, abs_neg]
  generalize c * ((a : ℝ) - ((psf.h : ℝ) - 1) / 2) + s * ((b : ℝ) - ((psf.w : ℝ) - 1) / 2) = y
  generalize -s * ((a : ℝ) - ((psf.h : ℝ) - 1) / 2) + c * ((b : ℝ) - ((psf.w : ℝ) - 1) / 2) = x
  by_cases h : |y| ≤ ((psf.h : ℝ) - 1) / 2 ∧ |x| ≤ ((psf.w : ℝ) - 1) / 2
  · obtain ⟨h1, h2⟩ := h
    rw [if_pos ⟨h1, h2⟩, if_pos ⟨h1, h2⟩]
    rw [abs_le] at h1 h2
    rw [← hI (((psf.h : ℝ) - 1) / 2 + y) (((psf.w : ℝ) - 1) / 2 + x) (by linarith) (by linarith) (by linarith) (by linarith)]
    congr 1 <;> ring
  · rw [if_neg h, if_neg h]

/-- **C122, any angle.** A PSF of odd height and width that is symmetric under a half turn, turned by any angle: flux and first moments of every
image away from the borders are multiplied by one number, so its centroid stays. -/
theorem C122_rotated (interp : Img ℝ → ℝ → ℝ → ℝ) (im psf : Img ℝ) (hs : Inside im psf) (oh : psf.h % 2 = 1) (ow : psf.w % 2 = 1)
    (hI : ∀ y x : ℝ, 0 ≤ y → y ≤ psf.h - 1 → 0 ≤ x → x ≤ psf.w - 1 →
      interp psf ((psf.h : ℝ) - 1 - y) ((psf.w : ℝ) - 1 - x) = interp psf y x) (angle : ℝ) :
    let t := total (rotateBy interp psf angle)
    total (convolveSame im (rotateBy interp psf angle)) = total im * t ∧
      momentRow (convolveSame im (rotateBy interp psf angle)) = momentRow im * t ∧
      momentCol (convolveSame im (rotateBy interp psf angle)) = momentCol im * t := by
  intro t
  have hin : Inside im (rotateBy interp psf angle) := hs
  obtain ⟨m1, m2⟩ := symmetric_moment (rotateBy interp psf angle) fun a b ha hb => rotateBy_symmetric interp psf hI angle a b ha hb
  obtain ⟨s1, s2⟩ := C122_shift im (rotateBy interp psf angle) hin
  have half : ∀ n : Nat, n % 2 = 1 → 2 * (((n - 1) / 2 : Nat) : ℝ) = (n : ℝ) - 1 := by
    intro n hn
    have : 2 * ((n - 1) / 2) + 1 = n := by omega
    have h' : (2 * (((n - 1) / 2 : Nat) : ℝ)) + 1 = n := by exact_mod_cast this
    linarith
  have a1 := half psf.h oh
  have a2 := half psf.w ow
  have e1 : (rotateBy interp psf angle).h = psf.h := rfl
  have e2 : (rotateBy interp psf angle).w = psf.w := rfl
  rw [e1] at m1 s1
  rw [e2] at m2 s2
  refine ⟨C59_flux im _ hin, ?_, ?_⟩
  · rw [s1]
    have : momentRow (rotateBy interp psf angle) - (((psf.h - 1) / 2 : Nat) : ℝ) * total (rotateBy interp psf angle) = 0 := by
      linear_combination (1 / 2) * m1 - (1 / 2) * total (rotateBy interp psf angle) * a1
    rw [this, mul_zero, add_zero]
  · rw [s2]
    have : momentCol (rotateBy interp psf angle) - (((psf.w - 1) / 2 : Nat) : ℝ) * total (rotateBy interp psf angle) = 0 := by
      linear_combination (1 / 2) * m2 - (1 / 2) * total (rotateBy interp psf angle) * a2
    rw [this, mul_zero, add_zero]

/-- Interpolation by the nearest pixel is one of the interpolations. -/
theorem nearest_interpolation : Interpolation fun im y x => im.px ⌊y + 1 / 2⌋₊ ⌊x + 1 / 2⌋₊ := by
  have key : ∀ k : Nat, ⌊(k : ℝ) + 1 / 2⌋₊ = k := by
    intro k
    rw [Nat.floor_eq_iff (by positivity)]
    constructor <;> linarith
  refine ⟨fun im i j _ _ => by simp only [key], fun im v h y x hy hy' hx hx' => h _ _ ?_ ?_⟩
  · rw [Nat.floor_lt (by linarith)]; linarith
  · rw [Nat.floor_lt (by linarith)]; linarith

/-- 45 degrees is not a right angle. -/
theorem not_rightAngle_45 : ¬ RightAngle 45 := by
  rintro ⟨k, hk⟩
  have : (45 : ℤ) = 90 * k := by exact_mod_cast hk
  omega

example : total (rotateBy (fun im y x => im.px ⌊y + 1 / 2⌋₊ ⌊x + 1 / 2⌋₊) (flatPsf 3) 45) ≤ 5 / 9 := by
  have := (C121_flat_violated _ nearest_interpolation 3 (by norm_num) 45 not_rightAngle_45).2.2
  norm_num at this ⊢
  exact this

/-- A star and the flat PSF of `3 × 3` pixels at 45 degrees meet the hypotheses of `C122_rotated`. -/
example : let im : Img ℝ := ⟨5, 5, fun i j => if i = 2 ∧ j = 2 then 1 else 0⟩
    Inside im (flatPsf 3) ∧ momentRow (convolveSame im (rotateBy (fun im y x => im.px ⌊y + 1 / 2⌋₊ ⌊x + 1 / 2⌋₊) (flatPsf 3) 45)) =
      momentRow im * total (rotateBy (fun im y x => im.px ⌊y + 1 / 2⌋₊ ⌊x + 1 / 2⌋₊) (flatPsf 3) 45) := by
  intro im
  have hin : Inside im (flatPsf 3) := by
    intro i j _ _ h
    have : i = 2 ∧ j = 2 := by
      by_contra hc
      exact h (if_neg hc)
    obtain ⟨rfl, rfl⟩ := this
    change (3 - 1) / 2 ≤ 2 ∧ 2 + 3 / 2 < 5 ∧ (3 - 1) / 2 ≤ 2 ∧ 2 + 3 / 2 < 5
    omega
  exact ⟨hin, (C122_rotated _ im (flatPsf 3) hin rfl rfl (fun y x _ _ _ _ => rfl) 45).2.1⟩

end Verif.Props

import Verif.Lemmas.Linear
import Mathlib.LinearAlgebra.FiniteDimensional.Basic
import Mathlib.LinearAlgebra.Dimension.Constructions
import Mathlib.Algebra.Polynomial.Derivative
import Mathlib.Tactic.LinearCombination
import Mathlib.Tactic.FieldSimp

/-!
# Cubic splines meet the interpolation contract

`interp1d(kind="cubic")`, the default of all Petrosian measurements, is the cubic spline with the not-a-knot end condition.  It is defined
here from its second derivatives at the nodes; existence, uniqueness and the contract `Lawful` are proved, so the contract is not an
assumption about the default kind.
-/

set_option linter.unusedSectionVars false
set_option linter.unusedVariables false

namespace Verif

open F Spec

section
variable {K : Type} [Field K] [LinearOrder K] [IsStrictOrderedRing K]

/-- The second derivatives `M` at the nodes of the not-a-knot cubic spline through the `n` points `(x i, y i)`: the first derivative is
continuous at the inner nodes, and the third derivative at the second and at the last but one node. -/
structure NotAKnot (n : Nat) (x y M : Nat → K) : Prop where
  cont : ∀ i, i + 2 < n → (x (i + 1) - x i) * M i + 2 * (x (i + 2) - x i) * M (i + 1) + (x (i + 2) - x (i + 1)) * M (i + 2) =
    6 * ((y (i + 2) - y (i + 1)) / (x (i + 2) - x (i + 1)) - (y (i + 1) - y i) / (x (i + 1) - x i))
  first : (M 1 - M 0) * (x 2 - x 1) = (M 2 - M 1) * (x 1 - x 0)
  last : ∀ k, n = k + 3 → (M (k + 1) - M k) * (x (k + 2) - x (k + 1)) = (M (k + 2) - M (k + 1)) * (x (k + 1) - x k)

theorem dominant_zero {a b u v : K} (h : |b| < a) (huv : |v| ≤ |u|) (he : a * u + b * v = 0) : u = 0 := by
  by_contra hu
  have hu' : 0 < |u| := abs_pos.2 hu
  have h1 : a * u = -(b * v) := by linarith
  have h2 : |a| * |u| = |b| * |v| := by rw [← abs_mul, ← abs_mul, h1, abs_neg]
  have ha : |a| = a := abs_of_pos (lt_of_le_of_lt (abs_nonneg b) h)
  have h3 : |b| * |v| ≤ |b| * |u| := mul_le_mul_of_nonneg_left huv (abs_nonneg b)
  have h4 : |b| * |u| < a * |u| := mul_lt_mul_of_pos_right h hu'
  rw [ha] at h2
  linarith

theorem exists_max_abs (M : Nat → K) (m : Nat) : ∃ k, k ≤ m ∧ ∀ i, i ≤ m → |M (i + 1)| ≤ |M (k + 1)| := by
  induction m with
  | zero => exact ⟨0, le_rfl, fun i hi => by rw [Nat.le_zero.1 hi]⟩
  | succ m ih =>
    obtain ⟨k, hk, hmax⟩ := ih
    rcases le_total |M (k + 1)| |M (m + 1 + 1)| with h | h
    · refine ⟨m + 1, le_rfl, fun i hi => ?_⟩
      rcases Nat.lt_or_ge i (m + 1) with h' | h'
      · exact (hmax i (by omega)).trans h
      · rw [show i = m + 1 by omega]
    · refine ⟨k, by omega, fun i hi => ?_⟩
      rcases Nat.lt_or_ge i (m + 1) with h' | h'
      · exact hmax i (by omega)
      · rw [show i = m + 1 by omega]; exact h

/-- With zero data the second derivatives vanish. -/
theorem NotAKnot.zero {n : Nat} (hn : 4 ≤ n) {x y M : Nat → K} (hx : ∀ i, i + 1 < n → x i < x (i + 1)) (h : NotAKnot n x y M)
    (hy : ∀ i, i < n → y i = 0) : ∀ i, i < n → M i = 0 := by
  obtain ⟨k, rfl⟩ : ∃ k, n = k + 3 := ⟨n - 3, by omega⟩
  have hc : ∀ i, i ≤ k → (x (i + 1) - x i) * M i + 2 * (x (i + 2) - x i) * M (i + 1) + (x (i + 2) - x (i + 1)) * M (i + 2) = 0 := by
    intro i hi
    rw [h.cont i (by omega), hy i (by omega), hy (i + 1) (by omega), hy (i + 2) (by omega)]
    simp
  have hp : ∀ i, i ≤ k + 1 → 0 < x (i + 1) - x i := fun i hi => sub_pos.2 (hx i (by omega))
  obtain ⟨j, hj, hmax⟩ := exists_max_abs M k
  have hz : M (j + 1) = 0 := by
    rcases Nat.eq_zero_or_pos j with h0 | h0
    · subst h0
      have p0 := hp 0 (by omega)
      have p1 := hp 1 (by omega)
      simp only [zero_add, Nat.reduceAdd] at *
      refine dominant_zero (a := (x 1 - x 0) + 2 * (x 2 - x 1)) (b := (x 2 - x 1) - (x 1 - x 0)) (v := M 2) ?_ (hmax 1 (by omega)) ?_
      · rw [abs_lt]; constructor <;> linarith
      · have e0 := hc 0 (by omega)
        have ef := h.first
        simp only [zero_add] at e0
        have hs : x 2 - x 0 ≠ 0 := by
          have : 0 < x 2 - x 0 := by linarith
          exact this.ne'
        apply mul_left_cancel₀ hs
        rw [mul_zero]
        linear_combination (x 2 - x 1) * e0 + (x 1 - x 0) * ef
    · rcases Nat.lt_or_ge j k with h1 | h1
      · have e := hc j (by omega)
        have pa := hp j (by omega)
        have pb := hp (j + 1) (by omega)
        by_contra hne
        have hu : 0 < |M (j + 1)| := abs_pos.2 hne
        have m1 : |M j| ≤ |M (j + 1)| := by
          have := hmax (j - 1) (by omega)
          rwa [show j - 1 + 1 = j by omega] at this
        have m2 : |M (j + 2)| ≤ |M (j + 1)| := hmax (j + 1) (by omega)
        have e' : 2 * (x (j + 2) - x j) * M (j + 1) = -((x (j + 1) - x j) * M j + (x (j + 2) - x (j + 1)) * M (j + 2)) := by linarith
        have pab : 0 < 2 * (x (j + 2) - x j) := by
          have : 0 < x (j + 1 + 1) - x (j + 1) := pb
          have h2 : x (j + 1 + 1) = x (j + 2) := rfl
          rw [h2] at this
          linarith
        have b1 : 2 * (x (j + 2) - x j) * |M (j + 1)| ≤ (x (j + 1) - x j) * |M j| + (x (j + 2) - x (j + 1)) * |M (j + 2)| := by
          calc 2 * (x (j + 2) - x j) * |M (j + 1)| = |2 * (x (j + 2) - x j) * M (j + 1)| := by
                rw [abs_mul, abs_of_pos pab]
            _ = |(x (j + 1) - x j) * M j + (x (j + 2) - x (j + 1)) * M (j + 2)| := by rw [e', abs_neg]
            _ ≤ |(x (j + 1) - x j) * M j| + |(x (j + 2) - x (j + 1)) * M (j + 2)| := abs_add_le _ _
            _ = _ := by rw [abs_mul, abs_mul, abs_of_pos pa, abs_of_pos pb]
        have b2 : (x (j + 1) - x j) * |M j| ≤ (x (j + 1) - x j) * |M (j + 1)| := mul_le_mul_of_nonneg_left m1 pa.le
        have b3 : (x (j + 2) - x (j + 1)) * |M (j + 2)| ≤ (x (j + 2) - x (j + 1)) * |M (j + 1)| := mul_le_mul_of_nonneg_left m2 pb.le
        have pos : 0 < (x (j + 2) - x j) * |M (j + 1)| := mul_pos (by linarith) hu
        nlinarith
      · have hjk : j = k := by omega
        subst hjk
        have pa := hp j (by omega)
        have pb := hp (j + 1) (by omega)
        have pb' : 0 < x (j + 2) - x (j + 1) := pb
        refine dominant_zero (a := (x (j + 2) - x (j + 1)) + 2 * (x (j + 1) - x j)) (b := (x (j + 1) - x j) - (x (j + 2) - x (j + 1)))
          (v := M j) ?_ ?_ ?_
        · rw [abs_lt]; constructor <;> linarith
        · have := hmax (j - 1) (by omega)
          rwa [show j - 1 + 1 = j by omega] at this
        · have e0 := hc j (by omega)
          have ef := h.last j rfl
          have hs : x (j + 2) - x j ≠ 0 := by
            have : 0 < x (j + 2) - x j := by linarith
            exact this.ne'
          apply mul_left_cancel₀ hs
          rw [mul_zero]
          linear_combination (x (j + 1) - x j) * e0 + (x (j + 2) - x (j + 1)) * ef
  have hin : ∀ i, i ≤ k → M (i + 1) = 0 := by
    intro i hi
    have := hmax i hi
    rw [hz, abs_zero] at this
    exact abs_eq_zero.1 (le_antisymm this (abs_nonneg _))
  intro i hi
  rcases Nat.eq_zero_or_pos i with h0 | h0
  · subst h0
    have e := h.first
    rw [show M 1 = 0 from hin 0 (by omega), show M 2 = 0 from hin 1 (by omega)] at e
    have p1 := hp 1 (by omega)
    have : M 0 * (x 2 - x 1) = 0 := by
      have : x (1 + 1) = x 2 := rfl
      linarith
    rcases mul_eq_zero.1 this with h | h
    · exact h
    · exact absurd h p1.ne'
  · rcases Nat.lt_or_ge i (k + 2) with h1 | h1
    · rw [show i = (i - 1) + 1 by omega]; exact hin _ (by omega)
    · have hi' : i = k + 2 := by omega
      subst hi'
      have e := h.last k rfl
      rw [show M (k + 1) = 0 from hin k le_rfl, show M k = 0 by
        have := hin (k - 1) (by omega)
        rwa [show k - 1 + 1 = k by omega] at this] at e
      have p1 := hp k (by omega)
      have : M (k + 2) * (x (k + 1) - x k) = 0 := by linarith
      rcases mul_eq_zero.1 this with h | h
      · exact h
      · exact absurd h p1.ne'

/-- The second derivatives are unique. -/
theorem NotAKnot.unique {n : Nat} (hn : 4 ≤ n) {x y M M' : Nat → K} (hx : ∀ i, i + 1 < n → x i < x (i + 1)) (h : NotAKnot n x y M)
    (h' : NotAKnot n x y M') : ∀ i, i < n → M i = M' i := by
  have hz : NotAKnot n x (fun _ => 0) (fun i => M i - M' i) := by
    refine ⟨fun i hi => ?_, ?_, fun k hk => ?_⟩
    · have a := h.cont i hi
      have b := h'.cont i hi
      simp only [sub_self, zero_div, mul_zero]
      linear_combination a - b
    · linear_combination h.first - h'.first
    · linear_combination h.last k hk - h'.last k hk
  intro i hi
  have := hz.zero hn hx (fun _ _ => rfl) i hi
  exact sub_eq_zero.1 this

/-- A vector as a sequence. -/
def extendFin {n : Nat} (v : Fin n → K) (i : Nat) : K := if h : i < n then v ⟨i, h⟩ else 0

/-- The second derivatives exist. -/
theorem NotAKnot.exists {n : Nat} (hn : 4 ≤ n) (x y : Nat → K) (hx : ∀ i, i + 1 < n → x i < x (i + 1)) : ∃ M, NotAKnot n x y M := by
  obtain ⟨k, rfl⟩ : ∃ k, n = k + 3 := ⟨n - 3, by omega⟩
  have eadd : ∀ (u v : Fin (k + 3) → K) i, extendFin (u + v) i = extendFin u i + extendFin v i := by
    intro u v i; unfold extendFin; split_ifs <;> simp
  have esmul : ∀ (c : K) (v : Fin (k + 3) → K) i, extendFin (c • v) i = c * extendFin v i := by
    intro c v i; unfold extendFin; split_ifs <;> simp
  let row : (Nat → K) → Nat → K := fun M i =>
    if i = 0 then (M 1 - M 0) * (x 2 - x 1) - (M 2 - M 1) * (x 1 - x 0)
    else if i = k + 2 then (M (k + 1) - M k) * (x (k + 2) - x (k + 1)) - (M (k + 2) - M (k + 1)) * (x (k + 1) - x k)
    else (x i - x (i - 1)) * M (i - 1) + 2 * (x (i + 1) - x (i - 1)) * M i + (x (i + 1) - x i) * M (i + 1)
  let A : (Fin (k + 3) → K) →ₗ[K] (Fin (k + 3) → K) :=
    { toFun := fun v i => row (extendFin v) i
      map_add' := by
        intro u v
        funext i
        simp only [row, Pi.add_apply, eadd]
        split_ifs <;> ring
      map_smul' := by
        intro c v
        funext i
        simp only [row, Pi.smul_apply, esmul, smul_eq_mul, RingHom.id_apply]
        split_ifs <;> ring }
  have hrow0 : ∀ M, row M 0 = (M 1 - M 0) * (x 2 - x 1) - (M 2 - M 1) * (x 1 - x 0) := fun M => by simp [row]
  have hrowl : ∀ M, row M (k + 2) = (M (k + 1) - M k) * (x (k + 2) - x (k + 1)) - (M (k + 2) - M (k + 1)) * (x (k + 1) - x k) :=
    fun M => by simp [row]
  have hrowi : ∀ M i, i ≤ k → row M (i + 1) = (x (i + 1) - x i) * M i + 2 * (x (i + 2) - x i) * M (i + 1) + (x (i + 2) - x (i + 1)) * M (i + 2) := by
    intro M i hi
    have h1 : i + 1 ≠ k + 2 := by omega
    simp [row, show ¬ i = k + 1 by omega]
  have hinj : Function.Injective A := by
    rw [← LinearMap.ker_eq_bot, LinearMap.ker_eq_bot']
    intro v hv
    have hr : ∀ i, i < k + 3 → row (extendFin v) i = 0 := fun i hi => congrFun hv ⟨i, hi⟩
    have hk : NotAKnot (k + 3) x (fun _ => 0) (extendFin v) := by
      refine ⟨fun i hi => ?_, ?_, fun j hj => ?_⟩
      · rw [← hrowi _ i (by omega), hr _ (by omega)]; simp
      · have := hr 0 (by omega)
        rw [hrow0] at this
        exact sub_eq_zero.1 this
      · obtain rfl : j = k := by omega
        have := hr (j + 2) (by omega)
        rw [hrowl] at this
        exact sub_eq_zero.1 this
    funext i
    have := hk.zero hn hx (fun _ _ => rfl) i i.2
    unfold extendFin at this
    rw [dif_pos i.2] at this
    exact this
  have hsurj : Function.Surjective A := LinearMap.injective_iff_surjective.1 hinj
  let b : Fin (k + 3) → K := fun i =>
    if (i : Nat) = 0 then 0 else if (i : Nat) = k + 2 then 0
    else 6 * ((y (i + 1) - y i) / (x (i + 1) - x i) - (y i - y (i - 1)) / (x i - x (i - 1)))
  obtain ⟨v, hv⟩ := hsurj b
  have hr : ∀ i (hi : i < k + 3), row (extendFin v) i = b ⟨i, hi⟩ := fun i hi => congrFun hv ⟨i, hi⟩
  refine ⟨extendFin v, fun i hi => ?_, ?_, fun j hj => ?_⟩
  · rw [← hrowi _ i (by omega), hr (i + 1) (by omega)]
    simp [b, show ¬ i = k + 1 by omega]
  · have := hr 0 (by omega)
    rw [hrow0] at this
    exact sub_eq_zero.1 this
  · obtain rfl : j = k := by omega
    have := hr (j + 2) (by omega)
    rw [hrowl] at this
    simp only [b] at this
    apply sub_eq_zero.1
    rw [this]
    simp

/-- The cubic on the segment from node `i` to node `i + 1`. -/
def segCubic (x y M : Nat → K) (i : Nat) (q : K) : K :=
  let h := x (i + 1) - x i
  M i * (x (i + 1) - q) ^ 3 / (6 * h) + M (i + 1) * (q - x i) ^ 3 / (6 * h) + (y i / h - M i * h / 6) * (x (i + 1) - q) +
    (y (i + 1) / h - M (i + 1) * h / 6) * (q - x i)

theorem segCubic_left (x y M : Nat → K) (i : Nat) (h : x i < x (i + 1)) : segCubic x y M i (x i) = y i := by
  have h0 : x (i + 1) - x i ≠ 0 := (sub_pos.2 h).ne'
  unfold segCubic
  field_simp
  ring

theorem segCubic_right (x y M : Nat → K) (i : Nat) (h : x i < x (i + 1)) : segCubic x y M i (x (i + 1)) = y (i + 1) := by
  have h0 : x (i + 1) - x i ≠ 0 := (sub_pos.2 h).ne'
  unfold segCubic
  field_simp
  ring

/-- First derivative of the cubic on segment `i`. -/
def segD1 (x y M : Nat → K) (i : Nat) (q : K) : K :=
  let h := x (i + 1) - x i
  M (i + 1) * (q - x i) ^ 2 / (2 * h) - M i * (x (i + 1) - q) ^ 2 / (2 * h) + (y (i + 1) - y i) / h - (M (i + 1) - M i) * h / 6

/-- Second derivative of the cubic on segment `i`. -/
def segD2 (x M : Nat → K) (i : Nat) (q : K) : K :=
  (M i * (x (i + 1) - q) + M (i + 1) * (q - x i)) / (x (i + 1) - x i)

/-- Third derivative of the cubic on segment `i`. -/
def segD3 (x M : Nat → K) (i : Nat) : K := (M (i + 1) - M i) / (x (i + 1) - x i)

/-- The cubic is its Taylor polynomial at every point, with the three derivatives above. -/
theorem segCubic_taylor (x y M : Nat → K) (i : Nat) (h : x i < x (i + 1)) (p q : K) :
    segCubic x y M i q = segCubic x y M i p + segD1 x y M i p * (q - p) + segD2 x M i p / 2 * (q - p) ^ 2 + segD3 x M i / 6 * (q - p) ^ 3 := by
  have h0 : x (i + 1) - x i ≠ 0 := (sub_pos.2 h).ne'
  unfold segCubic segD1 segD2 segD3
  field_simp
  ring

/-- Smoothness of the spline: at each inner node the value, slope and curvature of the two adjacent cubics agree. -/
theorem NotAKnot.smooth {n : Nat} {x y M : Nat → K} (hx : ∀ i, i + 1 < n → x i < x (i + 1)) (h : NotAKnot n x y M) (i : Nat)
    (hi : i + 2 < n) :
    segCubic x y M i (x (i + 1)) = segCubic x y M (i + 1) (x (i + 1)) ∧ segD1 x y M i (x (i + 1)) = segD1 x y M (i + 1) (x (i + 1)) ∧
      segD2 x M i (x (i + 1)) = segD2 x M (i + 1) (x (i + 1)) := by
  have h1 : x (i + 1) - x i ≠ 0 := (sub_pos.2 (hx i (by omega))).ne'
  have h2 : x (i + 1 + 1) - x (i + 1) ≠ 0 := (sub_pos.2 (hx (i + 1) (by omega))).ne'
  refine ⟨?_, ?_, ?_⟩
  · rw [segCubic_right _ _ _ _ (hx i (by omega)), segCubic_left _ _ _ _ (hx (i + 1) (by omega))]
  · have e := h.cont i hi
    have e' : (y (i + 1) - y i) / (x (i + 1) - x i) = (y (i + 2) - y (i + 1)) / (x (i + 2) - x (i + 1)) -
      ((x (i + 1) - x i) * M i + 2 * (x (i + 2) - x i) * M (i + 1) + (x (i + 2) - x (i + 1)) * M (i + 2)) / 6 := by
      rw [e]; ring
    unfold segD1
    simp only [sub_self]
    rw [e']
    rw [show x (i + 1 + 1) = x (i + 2) from rfl] at h2 ⊢
    rw [show M (i + 1 + 1) = M (i + 2) from rfl, show y (i + 1 + 1) = y (i + 2) from rfl]
    have a1 : M (i + 1) * (x (i + 1) - x i) ^ 2 / (2 * (x (i + 1) - x i)) = M (i + 1) * (x (i + 1) - x i) / 2 := by
      field_simp
    have a2 : M (i + 1) * (x (i + 2) - x (i + 1)) ^ 2 / (2 * (x (i + 2) - x (i + 1))) = M (i + 1) * (x (i + 2) - x (i + 1)) / 2 := by
      field_simp
    rw [a1, a2]
    ring
  · unfold segD2
    simp only [sub_self, mul_zero, zero_add, add_zero]
    rw [mul_div_assoc, mul_div_assoc, div_self h1, div_self h2]

/-- Not-a-knot: the first two cubics are one cubic, and so are the last two. -/
theorem NotAKnot.ends {n : Nat} (hn : 4 ≤ n) {x y M : Nat → K} (hx : ∀ i, i + 1 < n → x i < x (i + 1)) (h : NotAKnot n x y M) (q : K) :
    segCubic x y M 0 q = segCubic x y M 1 q ∧ segCubic x y M (n - 3) q = segCubic x y M (n - 2) q := by
  have main : ∀ i, i + 2 < n → (M (i + 1) - M i) * (x (i + 2) - x (i + 1)) = (M (i + 2) - M (i + 1)) * (x (i + 1) - x i) →
      segCubic x y M i q = segCubic x y M (i + 1) q := by
    intro i hi he
    obtain ⟨s0, s1, s2⟩ := h.smooth hx i hi
    have h1 : x (i + 1) - x i ≠ 0 := (sub_pos.2 (hx i (by omega))).ne'
    have h2 : x (i + 1 + 1) - x (i + 1) ≠ 0 := (sub_pos.2 (hx (i + 1) (by omega))).ne'
    have s3 : segD3 x M i = segD3 x M (i + 1) := by
      unfold segD3
      rw [div_eq_div_iff h1 h2]
      exact he
    rw [segCubic_taylor x y M i (hx i (by omega)) (x (i + 1)) q, segCubic_taylor x y M (i + 1) (hx (i + 1) (by omega)) (x (i + 1)) q, s0, s1,
      s2, s3]
  obtain ⟨k, rfl⟩ : ∃ k, n = k + 3 := ⟨n - 3, by omega⟩
  exact ⟨main 0 (by omega) h.first, main k (by omega) (h.last k rfl)⟩

/-- The finite values of a list, when all are finite. -/
def finList : List (F K) → Option (List K)
  | [] => some []
  | fin a :: l => (finList l).map (a :: ·)
  | _ :: _ => none

theorem finList_map (l : List K) : finList (l.map fin) = some l := by
  induction l with
  | nil => rfl
  | cons a l ih => simp [finList, ih]

/-- A list as a sequence. -/
def seqOf (l : List K) (i : Nat) : K := l.getD i 0

open Classical in
/-- `scipy.interpolate.interp1d(x, y, kind="cubic")(q)`, called at petrofit/petrosian/core.py:294-296, 787, 815 and petrofit/utils.py:148: at least
four points, equal lengths, `ValueError` outside the range, NaN for a NaN query.  The spline is the not-a-knot cubic spline of
`make_interp_spline(k=3)`.  Simplification: data that are not finite or not increasing, which scipy sorts or rejects, give NaN here. -/
noncomputable def cubicInterp : Interp K := fun x y q =>
  if x.length < 4 ∨ x.length ≠ y.length then .error .valueError
  else match finList x, finList y with
    | some xs, some ys =>
      if h : xs.Pairwise (· < ·) ∧ ∃ M, NotAKnot xs.length (seqOf xs) (seqOf ys) M then
        match q with
        | nan => .ok nan
        | fin q =>
          match (List.range (xs.length - 1)).find? (fun i => decide (seqOf xs i ≤ q ∧ q ≤ seqOf xs (i + 1))) with
          | some i => .ok (fin (segCubic (seqOf xs) (seqOf ys) h.2.choose i q))
          | none => .error .valueError
        | _ => .error .valueError
      else .ok nan
    | _, _ => .ok nan

theorem seqOf_incr {xs : List K} (h : Incr xs) : ∀ i, i + 1 < xs.length → seqOf xs i < seqOf xs (i + 1) := by
  intro i hi
  unfold seqOf
  have e1 : xs.getD i 0 = xs[i] := by simp [show i < xs.length by omega]
  have e2 : xs.getD (i + 1) 0 = xs[i + 1] := by simp [hi]
  rw [e1, e2]
  exact List.pairwise_iff_getElem.1 h i (i + 1) (by omega) hi (by omega)

theorem seqOf_lt {xs : List K} (h : Incr xs) : ∀ i j, i < j → j < xs.length → seqOf xs i < seqOf xs j := by
  intro i j hij hj
  unfold seqOf
  have e1 : xs.getD i 0 = xs[i] := by simp [show i < xs.length by omega]
  have e2 : xs.getD j 0 = xs[j] := by simp [hj]
  rw [e1, e2]
  exact List.pairwise_iff_getElem.1 h i j (by omega) hj hij

theorem seqOf_smul (c : K) (l : List K) (i : Nat) : seqOf (l.map (c * ·)) i = c * seqOf l i := by
  unfold seqOf
  by_cases h : i < l.length
  · simp [h]
  · simp [h]

/-- The value of the spline inside the range does not depend on the chosen segment. -/
theorem cubic_value {xs ys : List K} (hl : xs.length = ys.length) (hm : 4 ≤ xs.length) (hx : Incr xs) {M : Nat → K}
    (hM : NotAKnot xs.length (seqOf xs) (seqOf ys) M) (q : K) :
    cubicInterp (xs.map fin) (ys.map fin) (fin q) =
      match (List.range (xs.length - 1)).find? (fun i => decide (seqOf xs i ≤ q ∧ q ≤ seqOf xs (i + 1))) with
      | some i => .ok (fin (segCubic (seqOf xs) (seqOf ys) M i q))
      | none => .error .valueError := by
  have hex : ∃ M, NotAKnot xs.length (seqOf xs) (seqOf ys) M := ⟨M, hM⟩
  unfold cubicInterp
  rw [if_neg (by simp only [List.length_map]; omega), finList_map, finList_map]
  dsimp only
  rw [dif_pos ⟨hx, hex⟩]
  cases hf : (List.range (xs.length - 1)).find? (fun i => decide (seqOf xs i ≤ q ∧ q ≤ seqOf xs (i + 1))) with
  | none => rfl
  | some i =>
    have hi : i < xs.length - 1 := List.mem_range.1 (List.mem_of_find?_eq_some hf)
    have hu := hex.choose_spec.unique hm (seqOf_incr hx) hM
    dsimp only
    unfold segCubic
    rw [hu i (by omega), hu (i + 1) (by omega)]

theorem find_seg_some {xs : List K} (hm : 4 ≤ xs.length) {q : K} (h : InRange xs q) (hx : Incr xs) :
    ∃ i, (List.range (xs.length - 1)).find? (fun i => decide (seqOf xs i ≤ q ∧ q ≤ seqOf xs (i + 1))) = some i := by
  rw [← Option.isSome_iff_exists, List.find?_isSome]
  obtain ⟨⟨a, ha, haq⟩, b, hb, hqb⟩ := h
  obtain ⟨ia, hia, rfl⟩ := List.getElem_of_mem ha
  obtain ⟨ib, hib, rfl⟩ := List.getElem_of_mem hb
  have ea : seqOf xs ia = xs[ia] := by simp [seqOf, hia]
  have eb : seqOf xs ib = xs[ib] := by simp [seqOf, hib]
  rw [← ea] at haq
  rw [← eb] at hqb
  have h0 : seqOf xs 0 ≤ q := by
    rcases Nat.eq_zero_or_pos ia with h | h
    · rwa [h] at haq
    · exact (seqOf_lt hx 0 ia h hia).le.trans haq
  have hlast : q ≤ seqOf xs (xs.length - 1) := by
    rcases Nat.lt_or_ge ib (xs.length - 1) with h | h
    · exact hqb.trans (seqOf_lt hx ib _ h (by omega)).le
    · rwa [show ib = xs.length - 1 by omega] at hqb
  by_contra hno
  push Not at hno
  have hall : ∀ i, i ≤ xs.length - 1 → seqOf xs i ≤ q := by
    intro i
    induction i with
    | zero => exact fun _ => h0
    | succ i ih =>
      intro hi
      have := hno i (List.mem_range.2 (by omega))
      simp only [ne_eq, decide_eq_true_eq, not_and, not_le] at this
      exact (this (ih (by omega))).le
  have := hno (xs.length - 2) (List.mem_range.2 (by omega))
  simp only [ne_eq, decide_eq_true_eq, not_and, not_le] at this
  have h2 := this (hall _ (by omega))
  rw [show xs.length - 2 + 1 = xs.length - 1 by omega] at h2
  exact absurd hlast (not_le.2 h2)

theorem NotAKnot.smul {n : Nat} {x y M : Nat → K} (c : K) (h : NotAKnot n x y M) : NotAKnot n x (fun i => c * y i) (fun i => c * M i) := by
  refine ⟨fun i hi => ?_, ?_, fun k hk => ?_⟩
  · have e := h.cont i hi
    rw [← mul_sub, ← mul_sub, mul_div_assoc, mul_div_assoc]
    linear_combination c * e
  · linear_combination c * h.first
  · linear_combination c * h.last k hk

theorem NotAKnot.xscale {n : Nat} {x y M : Nat → K} (c : K) (hc : c ≠ 0) (h : NotAKnot n x y M) :
    NotAKnot n (fun i => c * x i) y (fun i => M i / c ^ 2) := by
  refine ⟨fun i hi => ?_, ?_, fun k hk => ?_⟩
  · have e := h.cont i hi
    simp only [← mul_sub]
    rw [div_mul_eq_div_div_swap, div_mul_eq_div_div_swap]
    have : 6 * ((y (i + 2) - y (i + 1)) / (x (i + 2) - x (i + 1)) / c - (y (i + 1) - y i) / (x (i + 1) - x i) / c) =
      (6 * ((y (i + 2) - y (i + 1)) / (x (i + 2) - x (i + 1)) - (y (i + 1) - y i) / (x (i + 1) - x i))) / c := by ring
    rw [this, ← e]
    field_simp
  · have e := h.first
    simp only [← mul_sub, ← sub_div]
    rw [show (M 1 - M 0) / c ^ 2 * (c * (x 2 - x 1)) = (M 1 - M 0) * (x 2 - x 1) * (c / c ^ 2) by ring, e]
    ring
  · have e := h.last k hk
    simp only [← mul_sub, ← sub_div]
    rw [show (M (k + 1) - M k) / c ^ 2 * (c * (x (k + 2) - x (k + 1))) = (M (k + 1) - M k) * (x (k + 2) - x (k + 1)) * (c / c ^ 2) by ring, e]
    ring

/-- The not-a-knot cubic spline meets the contract, with at least four points. -/
theorem cubic_lawful : Lawful (cubicInterp : Interp K) 4 where
  pos := by norm_num
  few := by
    intro x y q h
    unfold cubicInterp
    rw [if_pos (Or.inl h)]
  mismatch := by
    intro x y q h
    unfold cubicInterp
    rw [if_pos (Or.inr h)]
  total := by
    intro xs ys hl hm hx q hq
    obtain ⟨M, hM⟩ := NotAKnot.exists hm (seqOf xs) (seqOf ys) (seqOf_incr hx)
    obtain ⟨i, hi⟩ := find_seg_some hm hq hx
    exact ⟨_, by rw [cubic_value hl hm hx hM, hi]⟩
  outside := by
    intro xs ys hl hm hx q hq
    obtain ⟨M, hM⟩ := NotAKnot.exists hm (seqOf xs) (seqOf ys) (seqOf_incr hx)
    have : (List.range (xs.length - 1)).find? (fun i => decide (seqOf xs i ≤ q ∧ q ≤ seqOf xs (i + 1))) = none := by
      rw [List.find?_eq_none]
      intro i hi
      have hi' := List.mem_range.1 hi
      have e1 : seqOf xs i = xs[i] := by simp [seqOf, show i < xs.length by omega]
      have e2 : seqOf xs (i + 1) = xs[i + 1] := by simp [seqOf, show i + 1 < xs.length by omega]
      simp only [decide_eq_true_eq, not_and, not_le]
      intro h1
      rcases hq.2 with h | h
      · rw [e1] at h1
        exact absurd h1 (not_le.2 (h _ (List.getElem_mem _)))
      · rw [e2]
        exact h _ (List.getElem_mem _)
    rw [cubic_value hl hm hx hM, this]
  atNaN := by
    intro xs ys hl hm hx
    obtain ⟨M, hM⟩ := NotAKnot.exists hm (seqOf xs) (seqOf ys) (seqOf_incr hx)
    unfold cubicInterp
    rw [if_neg (by simp only [List.length_map]; omega), finList_map, finList_map]
    dsimp only
    rw [dif_pos ⟨hx, M, hM⟩]
  node := by
    intro xs ys hl hm hx i hi
    obtain ⟨M, hM⟩ := NotAKnot.exists hm (seqOf xs) (seqOf ys) (seqOf_incr hx)
    have hr : InRange xs xs[i] := ⟨⟨_, List.getElem_mem hi, le_rfl⟩, _, List.getElem_mem hi, le_rfl⟩
    obtain ⟨j, hj⟩ := find_seg_some hm hr hx
    have hj' : j < xs.length - 1 := List.mem_range.1 (List.mem_of_find?_eq_some hj)
    have hp := List.find?_some hj
    simp only [decide_eq_true_eq] at hp
    have ei : seqOf xs i = xs[i] := by simp [seqOf, hi]
    have ey : seqOf ys i = ys[i]'(hl ▸ hi) := by simp [seqOf, show i < ys.length by omega]
    rw [cubic_value hl hm hx hM, hj]
    dsimp only
    rw [← ei] at hp ⊢
    have hji : j = i ∨ j + 1 = i := by
      rcases Nat.lt_trichotomy j i with h | h | h
      · rcases Nat.lt_or_ge (j + 1) i with h' | h'
        · exact absurd hp.2 (not_le.2 (seqOf_lt hx _ _ h' hi))
        · right; omega
      · exact Or.inl h
      · exact absurd hp.1 (not_le.2 (seqOf_lt hx _ _ h (by omega)))
    rcases hji with h | h
    · subst h
      rw [segCubic_left _ _ _ _ (seqOf_incr hx _ (by omega)), ey]
    · subst h
      rw [segCubic_right _ _ _ _ (seqOf_incr hx _ (by omega)), ey]
  smul := by
    intro xs ys hl hm hx q v c hv
    obtain ⟨M, hM⟩ := NotAKnot.exists hm (seqOf xs) (seqOf ys) (seqOf_incr hx)
    have hM' : NotAKnot xs.length (seqOf xs) (seqOf (ys.map (c * ·))) (fun i => c * M i) := by
      have := hM.smul c
      rwa [show (fun i => c * seqOf ys i) = seqOf (ys.map (c * ·)) from funext fun i => (seqOf_smul c ys i).symm] at this
    rw [cubic_value hl hm hx hM] at hv
    rw [cubic_value (by simpa using hl) hm hx hM']
    cases hf : (List.range (xs.length - 1)).find? (fun i => decide (seqOf xs i ≤ q ∧ q ≤ seqOf xs (i + 1))) with
    | none => rw [hf] at hv; cases hv
    | some i =>
      rw [hf] at hv
      dsimp only at hv ⊢
      simp only [Except.ok.injEq, fin.injEq] at hv
      rw [← hv]
      congr 2
      unfold segCubic
      simp only [seqOf_smul]
      ring
  xscale := by
    intro xs ys hl hm hx q v c hc hv
    obtain ⟨M, hM⟩ := NotAKnot.exists hm (seqOf xs) (seqOf ys) (seqOf_incr hx)
    have hx' : Incr (xs.map (c * ·)) := by
      unfold Incr
      rw [List.pairwise_map]
      exact hx.imp fun h => mul_lt_mul_of_pos_left h hc
    have hM' : NotAKnot (xs.map (c * ·)).length (seqOf (xs.map (c * ·))) (seqOf ys) (fun i => M i / c ^ 2) := by
      have := hM.xscale c hc.ne'
      rw [List.length_map]
      rwa [show (fun i => c * seqOf xs i) = seqOf (xs.map (c * ·)) from funext fun i => (seqOf_smul c xs i).symm] at this
    rw [cubic_value hl hm hx hM] at hv
    rw [cubic_value (by simpa using hl) (by simpa using hm) hx' hM']
    have hfe : (List.range ((xs.map (c * ·)).length - 1)).find?
        (fun i => decide (seqOf (xs.map (c * ·)) i ≤ c * q ∧ c * q ≤ seqOf (xs.map (c * ·)) (i + 1))) =
        (List.range (xs.length - 1)).find? (fun i => decide (seqOf xs i ≤ q ∧ q ≤ seqOf xs (i + 1))) := by
      rw [List.length_map]
      congr 1
      funext i
      simp only [seqOf_smul, mul_le_mul_iff_right₀ hc]
    rw [hfe]
    cases hf : (List.range (xs.length - 1)).find? (fun i => decide (seqOf xs i ≤ q ∧ q ≤ seqOf xs (i + 1))) with
    | none => rw [hf] at hv; cases hv
    | some i =>
      have hi : i < xs.length - 1 := List.mem_range.1 (List.mem_of_find?_eq_some hf)
      rw [hf] at hv
      dsimp only at hv ⊢
      simp only [Except.ok.injEq, fin.injEq] at hv
      rw [← hv]
      congr 2
      have h0 : seqOf xs (i + 1) - seqOf xs i ≠ 0 := (sub_pos.2 (seqOf_incr hx i (by omega))).ne'
      have hc0 := hc.ne'
      unfold segCubic
      simp only [seqOf_smul, ← mul_sub]
      field_simp

end
end Verif

import Verif.Lemmas.Spline
import Verif.Lemmas.SampledNear
import Verif.Spec.Tame

/-!
# How far a cubic spline overshoots, and how far away data matter
-/

set_option linter.unusedSectionVars false
set_option linter.unusedVariables false

namespace Verif

open F Spec

variable {K : Type} [Field K] [LinearOrder K] [IsStrictOrderedRing K]

/-- `a (i)` bounded by local terms and a fraction of its neighbours decays away from large terms. -/
theorem decay {a r : Nat → K} {n lo hi : Nat} {θ R b : K} (hθ0 : 0 ≤ θ) (hb : 0 ≤ b) (hθ : θ < 1)
    (hrow : ∀ c W, 1 ≤ c → c + 2 ≤ n → (2 ≤ c → a (c - 1) ≤ W) → (c + 3 ≤ n → a (c + 1) ≤ W) → 0 ≤ W → a c ≤ r c + θ * W)
    (hB : ∀ c, 1 ≤ c → c + 2 ≤ n → a c ≤ b) (hR0 : 0 ≤ R) (hR : ∀ c, 1 ≤ c → c + 2 ≤ n → lo ≤ c → c ≤ hi → r c ≤ R * (1 - θ)) (k : Nat) :
    ∀ c, 1 ≤ c → c + 2 ≤ n → lo ≤ c → c ≤ hi → (lo ≤ 1 ∨ lo + k ≤ c) → (n ≤ hi + 2 ∨ c + k ≤ hi) → a c ≤ R + θ ^ k * b := by
  induction k with
  | zero =>
    intro c h1 h2 _ _ _ _
    have := hB c h1 h2
    rw [pow_zero, one_mul]
    linarith
  | succ k ih =>
    intro c h1 h2 h3 h4 h5 h6
    have := hrow c (R + θ ^ k * b) h1 h2 (fun h => ih _ (by omega) (by omega) (by omega) (by omega) (by omega) (by omega))
      (fun h => ih _ (by omega) (by omega) (by omega) (by omega) (by omega) (by omega)) (by positivity)
    have h7 := hR c h1 h2 h3 h4
    rw [pow_succ]
    linarith

section
variable {n : Nat} {x y M : Nat → K} {g ρ : K}

theorem abs_mul_le_of {a b c W : K} (ha : 0 ≤ a) (h : |b| ≤ W) : |a * b| ≤ a * W := by
  rw [abs_mul, abs_of_nonneg ha]
  exact mul_le_mul_of_nonneg_left h ha

/-- The right hand side of a row of the spline equations. -/
theorem slope_jump {h h' d d' : K} (hg : 0 < g) (h1 : g ≤ h) (h2 : g ≤ h') : |6 * (d' / h' - d / h)| * g ≤ 6 * (|d| + |d'|) := by
  have e : ∀ {h d : K}, g ≤ h → |d / h| * g ≤ |d| := by
    intro h d hh
    have hp : 0 < h := hg.trans_le hh
    rw [abs_div, abs_of_pos hp, div_mul_eq_mul_div, div_le_iff₀ hp]
    exact mul_le_mul_of_nonneg_left hh (abs_nonneg _)
  have e1 := e (d := d) h1
  have e2 := e (d := d') h2
  rw [abs_mul, abs_of_pos (by norm_num : (0 : K) < 6)]
  have := abs_sub (d' / h') (d / h)
  have h3 := mul_le_mul_of_nonneg_right this hg.le
  linarith

/-- One row of the spline equations. -/
theorem row_inner {h h' u v w R W : K} (hg : 0 < g) (h1 : g ≤ h) (h2 : g ≤ h') (e : h * u + 2 * (h + h') * v + h' * w = R)
    (hu : |u| ≤ W) (hw : |w| ≤ W) : |v| * (4 * g) ≤ |R| + 2 * g * W := by
  have hp : 0 < h := hg.trans_le h1
  have hp' : 0 < h' := hg.trans_le h2
  have hW : 0 ≤ W := (abs_nonneg _).trans hu
  have e1 : 2 * (h + h') * v = R - h * u - h' * w := by linarith
  have e2 : 2 * (h + h') * |v| = |R - h * u - h' * w| := by
    rw [← e1, abs_mul, abs_of_pos (show (0 : K) < 2 * (h + h') by linarith)]
  have e3 : |R - h * u - h' * w| ≤ |R| + h * W + h' * W := by
    have a1 := abs_sub (R - h * u) (h' * w)
    have a2 := abs_sub R (h * u)
    have a3 := abs_mul_le_of (c := 0) hp.le hu
    have a4 := abs_mul_le_of (c := 0) hp'.le hw
    linarith
  have e4 : (h + h') * (2 * |v| - W) ≤ |R| := by
    have : (h + h') * (2 * |v| - W) = 2 * (h + h') * |v| - (h * W + h' * W) := by ring
    rw [this, e2]; linarith
  rcases le_total 0 (2 * |v| - W) with hs | hs
  · have : 2 * g * (2 * |v| - W) ≤ (h + h') * (2 * |v| - W) := mul_le_mul_of_nonneg_right (by linarith) hs
    linarith
  · have : 2 * g * (2 * |v| - W) ≤ 0 := mul_nonpos_of_nonneg_of_nonpos (by linarith) hs
    have := abs_nonneg R
    linarith

/-- A row next to an end, after the value at the end is eliminated with the not-a-knot condition. -/
theorem row_edge {p q v w R W : K} (hg : 0 < g) (h1 : g ≤ p) (h2 : g ≤ q) (hρ : 1 ≤ ρ) (hpq : p ≤ ρ * q)
    (e : (p + q) * ((p + 2 * q) * v + (q - p) * w) = q * R) (hw : |w| ≤ W) : |v| ≤ |R| / (4 * g) + ρ / (ρ + 1) * W := by
  have hp : 0 < p := hg.trans_le h1
  have hq : 0 < q := hg.trans_le h2
  have hW : 0 ≤ W := (abs_nonneg _).trans hw
  have hR := abs_nonneg R
  have e1 : (p + q) * (p + 2 * q) * v = q * R - (p + q) * (q - p) * w := by linear_combination e
  have e2 : (p + q) * (p + 2 * q) * |v| = |q * R - (p + q) * (q - p) * w| := by
    rw [← e1, abs_mul, abs_of_pos (by positivity : 0 < (p + q) * (p + 2 * q))]
  have e3 : |q * R - (p + q) * (q - p) * w| ≤ q * |R| + (p + q) * |q - p| * W := by
    have a1 := abs_sub (q * R) ((p + q) * (q - p) * w)
    rw [abs_mul q, abs_of_pos hq, abs_mul ((p + q) * (q - p)), abs_mul (p + q), abs_of_pos (by positivity : 0 < p + q)] at a1
    have a2 : (p + q) * |q - p| * |w| ≤ (p + q) * |q - p| * W := mul_le_mul_of_nonneg_left hw (by positivity)
    linarith
  have e4 : |q - p| ≤ ρ / (ρ + 1) * (p + 2 * q) := by
    rw [div_mul_eq_mul_div, le_div_iff₀ (by linarith)]
    have : 0 ≤ (ρ - 1) * q := mul_nonneg (by linarith) hq.le
    rcases abs_cases (q - p) with ⟨h, _⟩ | ⟨h, _⟩ <;> rw [h] <;> nlinarith
  have e5 : q * |R| ≤ (p + q) * (p + 2 * q) * (|R| / (4 * g)) := by
    rw [← mul_div_assoc, le_div_iff₀ (by linarith)]
    have : q * (4 * g) ≤ (p + q) * (p + 2 * q) := by nlinarith
    nlinarith
  have e6 : (p + q) * |q - p| * W ≤ (p + q) * (p + 2 * q) * (ρ / (ρ + 1) * W) := by
    have := mul_le_mul_of_nonneg_left e4 (by positivity : 0 ≤ (p + q) * W)
    linarith
  have : (p + q) * (p + 2 * q) * |v| ≤ (p + q) * (p + 2 * q) * (|R| / (4 * g) + ρ / (ρ + 1) * W) := by
    rw [mul_add]; linarith
  exact le_of_mul_le_mul_left this (by positivity)

/-- The right hand side of row `c` of the spline equations. -/
def rowTerm (y : Nat → K) (g : K) (c : Nat) : K := 3 / 2 * (|y c - y (c - 1)| + |y (c + 1) - y c|) / g ^ 2

/-- Every inner second derivative is bounded by the data next to it and a fraction of the inner second derivatives beside it. -/
theorem NotAKnot.row (hn : 4 ≤ n) (hg : 0 < g) (hρ : 1 ≤ ρ) (hx : ∀ i, i + 1 < n → g ≤ x (i + 1) - x i)
    (hf0 : x 1 - x 0 ≤ ρ * (x 2 - x 1)) (hl0 : ∀ k, n = k + 3 → x (k + 2) - x (k + 1) ≤ ρ * (x (k + 1) - x k))
    (h : NotAKnot n x y M) (c : Nat) (W : K) (h1 : 1 ≤ c) (h2 : c + 2 ≤ n) (hl : 2 ≤ c → |M (c - 1)| ≤ W) (hr : c + 3 ≤ n → |M (c + 1)| ≤ W)
    (hW : 0 ≤ W) : |M c| ≤ rowTerm y g c + ρ / (ρ + 1) * W := by
  obtain ⟨i, rfl⟩ : ∃ i, c = i + 1 := ⟨c - 1, by omega⟩
  have e := h.cont i (by omega)
  have g0 := hx i (by omega)
  have g1 := hx (i + 1) (by omega)
  simp only [Nat.add_sub_cancel, Nat.add_assoc, Nat.reduceAdd] at *
  have hθ : (1 : K) / 2 ≤ ρ / (ρ + 1) := by rw [div_le_div_iff₀ (by norm_num) (by linarith)]; linarith
  have hR := slope_jump (d := y (i + 1) - y i) (d' := y (i + 2) - y (i + 1)) hg g0 g1
  set R := 6 * ((y (i + 2) - y (i + 1)) / (x (i + 2) - x (i + 1)) - (y (i + 1) - y i) / (x (i + 1) - x i)) with hRd
  have hT : |R| / (4 * g) ≤ rowTerm y g (i + 1) := by
    unfold rowTerm
    simp only [Nat.add_sub_cancel, Nat.add_assoc, Nat.reduceAdd]
    rw [div_le_div_iff₀ (by positivity) (by positivity)]
    nlinarith
  have hp0 : 0 < x (i + 1) - x i := hg.trans_le g0
  have hp1 : 0 < x (i + 2) - x (i + 1) := hg.trans_le g1
  clear_value R
  rcases Nat.eq_zero_or_pos i with hi | hi
  · subst hi
    have hf := h.first
    simp only [Nat.zero_add] at *
    refine (row_edge (p := x 1 - x 0) (q := x 2 - x 1) (w := M 2) (R := R) (W := W) hg g0 g1 hρ hf0 ?_ (hr (by omega))).trans
      (by linarith)
    linear_combination (x 2 - x 1) * e + (x 1 - x 0) * hf
  · rcases Nat.lt_or_ge (i + 3) n with hlt | hge
    · have key := row_inner (h := x (i + 1) - x i) (h' := x (i + 2) - x (i + 1)) (u := M i) (v := M (i + 1)) (w := M (i + 2)) (R := R) (W := W)
        hg g0 g1 (by rw [← e]; ring) (hl (by omega)) (hr (by omega))
      have : |M (i + 1)| ≤ |R| / (4 * g) + 1 / 2 * W := by
        rw [← sub_le_iff_le_add, le_div_iff₀ (by positivity)]
        linarith
      have := mul_le_mul_of_nonneg_right hθ hW
      linarith
    · have hf := h.last i (by omega)
      refine (row_edge (p := x (i + 2) - x (i + 1)) (q := x (i + 1) - x i) (w := M i) (R := R) (W := W) hg g1 g0 hρ (hl0 i (by omega)) ?_
        (hl (by omega))).trans (by linarith)
      linear_combination (x (i + 1) - x i) * e + (x (i + 2) - x (i + 1)) * hf

theorem rowTerm_le {δ : K} (hg : 0 < g) {c : Nat} (h1 : |y c - y (c - 1)| ≤ δ) (h2 : |y (c + 1) - y c| ≤ δ) :
    rowTerm y g c ≤ 3 * δ / g ^ 2 := by
  unfold rowTerm
  apply div_le_div_of_nonneg_right _ (by positivity)
  linarith

theorem one_sub_theta (hρ : 1 ≤ ρ) : (ρ + 1) * (1 - ρ / (ρ + 1)) = 1 := by
  have : ρ + 1 ≠ 0 := by linarith
  field_simp
  ring

/-- All inner second derivatives are bounded by the largest difference of neighbouring data. -/
theorem NotAKnot.global (hn : 4 ≤ n) (hg : 0 < g) (hρ : 1 ≤ ρ) (hx : ∀ i, i + 1 < n → g ≤ x (i + 1) - x i)
    (hf0 : x 1 - x 0 ≤ ρ * (x 2 - x 1)) (hl0 : ∀ k, n = k + 3 → x (k + 2) - x (k + 1) ≤ ρ * (x (k + 1) - x k))
    (h : NotAKnot n x y M) {B : K} (hB : ∀ i, i + 1 < n → |y (i + 1) - y i| ≤ B) (c : Nat) (h1 : 1 ≤ c) (h2 : c + 2 ≤ n) :
    |M c| ≤ (ρ + 1) * (3 * B / g ^ 2) := by
  obtain ⟨j, hj, hmax⟩ := exists_max_abs M (n - 3)
  have hm : ∀ c, 1 ≤ c → c + 2 ≤ n → |M c| ≤ |M (j + 1)| := by
    intro c h1 h2
    have := hmax (c - 1) (by omega)
    rwa [show c - 1 + 1 = c by omega] at this
  have hr := h.row hn hg hρ hx hf0 hl0 (j + 1) |M (j + 1)| (by omega) (by omega) (fun h => hm _ (by omega) (by omega))
    (fun h => hm _ (by omega) (by omega)) (abs_nonneg _)
  have ht : rowTerm y g (j + 1) ≤ 3 * B / g ^ 2 := rowTerm_le hg (by
    have := hB j (by omega)
    simpa using this) (hB (j + 1) (by omega))
  have e := one_sub_theta hρ
  refine (hm c h1 h2).trans ?_
  have h3 : (1 - ρ / (ρ + 1)) * |M (j + 1)| ≤ 3 * B / g ^ 2 := by linarith
  have h4 := mul_le_mul_of_nonneg_left h3 (by linarith : 0 ≤ ρ + 1)
  rw [← mul_assoc, e, one_mul] at h4
  exact h4

/-- Far data matter little for the inner second derivatives. -/
theorem NotAKnot.local (hn : 4 ≤ n) (hg : 0 < g) (hρ : 1 ≤ ρ) (hx : ∀ i, i + 1 < n → g ≤ x (i + 1) - x i)
    (hf0 : x 1 - x 0 ≤ ρ * (x 2 - x 1)) (hl0 : ∀ k, n = k + 3 → x (k + 2) - x (k + 1) ≤ ρ * (x (k + 1) - x k))
    (h : NotAKnot n x y M) {δ B : K} (hB : ∀ i, i + 1 < n → |y (i + 1) - y i| ≤ B) (hδ : 0 ≤ δ) {L H k : Nat}
    (hd : ∀ i, i + 1 < n → L ≤ i → i ≤ H → |y (i + 1) - y i| ≤ δ) (c : Nat) (h1 : 1 ≤ c) (h2 : c + 2 ≤ n) (h3 : L + 1 ≤ c) (h4 : c ≤ H)
    (h5 : L = 0 ∨ L + k + 1 ≤ c) (h6 : n ≤ H + 2 ∨ c + k ≤ H) :
    |M c| ≤ (ρ + 1) * (3 / g ^ 2) * (δ + (ρ / (ρ + 1)) ^ k * B) := by
  have e := one_sub_theta hρ
  have hB0 : 0 ≤ B := (abs_nonneg _).trans (hB 0 (by omega))
  have hρ1 : 0 < ρ + 1 := by linarith
  have := decay (a := fun c => |M c|) (r := rowTerm y g) (n := n) (lo := L + 1) (hi := H) (θ := ρ / (ρ + 1)) (R := (ρ + 1) * (3 * δ / g ^ 2))
    (b := (ρ + 1) * (3 * B / g ^ 2)) (by positivity) (by positivity) (by rw [div_lt_one hρ1]; linarith)
    (fun c W => h.row hn hg hρ hx hf0 hl0 c W) (fun c => h.global hn hg hρ hx hf0 hl0 hB c) (by positivity)
    (fun c a1 a2 a3 a4 => by
      have : (ρ + 1) * (3 * δ / g ^ 2) * (1 - ρ / (ρ + 1)) = 3 * δ / g ^ 2 := by linear_combination (3 * δ / g ^ 2) * e
      rw [this]
      refine rowTerm_le hg ?_ (hd c (by omega) (by omega) (by omega))
      have := hd (c - 1) (by omega) (by omega) (by omega)
      rwa [show c - 1 + 1 = c by omega] at this)
    k c h1 h2 h3 h4 (by omega) (by omega)
  refine this.trans (le_of_eq ?_)
  ring

/-- The value at an end from the two values next to it. -/
theorem edge_value {p q u v w W : K} (hp : 0 < p) (hq : 0 < q) (hpq : p ≤ ρ * q) (e : (v - u) * q = (w - v) * p) (hv : |v| ≤ W) (hw : |w| ≤ W) :
    |u| ≤ (1 + 2 * ρ) * W := by
  have hW : 0 ≤ W := (abs_nonneg _).trans hv
  have e1 : q * u = q * v - p * (w - v) := by linear_combination -e
  have e2 : q * |u| = |q * v - p * (w - v)| := by rw [← e1, abs_mul, abs_of_pos hq]
  have e3 : |q * v - p * (w - v)| ≤ q * W + p * (2 * W) := by
    have a1 := abs_sub (q * v) (p * (w - v))
    have a2 := abs_mul_le_of (c := 0) hq.le hv
    have a3 := abs_mul_le_of (c := 0) (b := w - v) (W := 2 * W) hp.le ((abs_sub w v).trans (by linarith))
    linarith
  have e4 : p * (2 * W) ≤ ρ * q * (2 * W) := mul_le_mul_of_nonneg_right hpq (by linarith)
  have : q * |u| ≤ q * ((1 + 2 * ρ) * W) := by rw [e2]; linarith
  exact le_of_mul_le_mul_left this hq

/-- Far data matter little for the second derivatives at the ends of a segment. -/
theorem NotAKnot.node (hn : 4 ≤ n) (hg : 0 < g) (hρ : 1 ≤ ρ) (hx : ∀ i, i + 1 < n → g ≤ x (i + 1) - x i)
    (hf0 : x 1 - x 0 ≤ ρ * (x 2 - x 1)) (hl0 : ∀ k, n = k + 3 → x (k + 2) - x (k + 1) ≤ ρ * (x (k + 1) - x k))
    (h : NotAKnot n x y M) {δ B : K} (hB : ∀ i, i + 1 < n → |y (i + 1) - y i| ≤ B) (hδ : 0 ≤ δ) {L H k : Nat}
    (hd : ∀ i, i + 1 < n → L ≤ i → i ≤ H → |y (i + 1) - y i| ≤ δ) (j c : Nat) (hj : j + 1 < n) (hc : c = j ∨ c = j + 1) (h3 : L ≤ j)
    (h4 : j ≤ H) (h5 : L = 0 ∨ L + k + 2 ≤ j) (h6 : n ≤ H + 2 ∨ j + k + 2 ≤ H) :
    |M c| ≤ (1 + 2 * ρ) * ((ρ + 1) * (3 / g ^ 2) * (δ + (ρ / (ρ + 1)) ^ k * B)) := by
  have hB0 : 0 ≤ B := (abs_nonneg _).trans (hB 0 (by omega))
  have hρ1 : 0 < ρ + 1 := by linarith
  have loc := h.local hn hg hρ hx hf0 hl0 hB hδ (k := k) hd
  have hW0 : 0 ≤ (ρ + 1) * (3 / g ^ 2) * (δ + (ρ / (ρ + 1)) ^ k * B) := by positivity
  have pos : ∀ i, i + 1 < n → 0 < x (i + 1) - x i := fun i hi => hg.trans_le (hx i hi)
  generalize (ρ + 1) * (3 / g ^ 2) * (δ + (ρ / (ρ + 1)) ^ k * B) = W at *
  rcases Nat.eq_zero_or_pos c with h0 | h0
  · subst h0
    exact edge_value (pos 0 (by omega)) (pos 1 (by omega)) hf0 h.first
      (loc 1 (by omega) (by omega) (by omega) (by omega) (by omega) (by omega)) (loc 2 (by omega) (by omega) (by omega) (by omega) (by omega) (by omega))
  · rcases Nat.lt_or_ge (c + 1) n with h7 | h7
    · have : |M c| ≤ W := by
        rcases Nat.lt_or_ge L c with h8 | h8
        · rcases Nat.lt_or_ge H c with h9 | h9
          · omega
          · exact loc c (by omega) (by omega) (by omega) (by omega) (by omega) (by omega)
        · omega
      nlinarith
    · obtain ⟨k', rfl⟩ : ∃ k', n = k' + 3 := ⟨n - 3, by omega⟩
      obtain rfl : c = k' + 2 := by omega
      have hl := h.last k' rfl
      refine edge_value (p := x (k' + 2) - x (k' + 1)) (q := x (k' + 1) - x k') (v := M (k' + 1)) (w := M k') (pos _ (by omega)) (pos _ (by omega))
        (hl0 k' rfl) (by linear_combination hl) (loc _ (by omega) (by omega) (by omega) (by omega) (by omega) (by omega))
        (loc _ (by omega) (by omega) (by omega) (by omega) (by omega) (by omega))

/-- The cubic on a segment stays near the straight line. -/
theorem segCubic_near {j : Nat} {q W : K} (hp : 0 < x (j + 1) - x j) (hq : x j ≤ q) (hq' : q ≤ x (j + 1)) (h1 : |M j| ≤ W) (h2 : |M (j + 1)| ≤ W) :
    min (y j) (y (j + 1)) - (x (j + 1) - x j) ^ 2 / 3 * W ≤ segCubic x y M j q ∧
      segCubic x y M j q ≤ max (y j) (y (j + 1)) + (x (j + 1) - x j) ^ 2 / 3 * W := by
  have hW : 0 ≤ W := (abs_nonneg _).trans h1
  have hh := hp.ne'
  have e : segCubic x y M j q = ((x (j + 1) - q) * y j + (q - x j) * y (j + 1)) / (x (j + 1) - x j) +
      (M j * ((x (j + 1) - q) ^ 3 - (x (j + 1) - x j) ^ 2 * (x (j + 1) - q)) +
        M (j + 1) * ((q - x j) ^ 3 - (x (j + 1) - x j) ^ 2 * (q - x j))) / (6 * (x (j + 1) - x j)) := by
    unfold segCubic
    field_simp
    ring
  have ep : x (j + 1) - q = (x (j + 1) - x j) - (q - x j) := by ring
  have hqh : q - x j ≤ x (j + 1) - x j := by linarith
  have hq0 : 0 ≤ q - x j := by linarith
  rw [ep] at e
  generalize x (j + 1) - x j = h at *
  generalize q - x j = t at *
  have ht : 0 ≤ h - t := by linarith
  rw [e]
  have lin1 : min (y j) (y (j + 1)) ≤ ((h - t) * y j + t * y (j + 1)) / h := by
    rw [le_div_iff₀ hp]
    nlinarith [min_le_left (y j) (y (j + 1)), min_le_right (y j) (y (j + 1))]
  have lin2 : ((h - t) * y j + t * y (j + 1)) / h ≤ max (y j) (y (j + 1)) := by
    rw [div_le_iff₀ hp]
    nlinarith [le_max_left (y j) (y (j + 1)), le_max_right (y j) (y (j + 1))]
  have cub : ∀ s, 0 ≤ s → s ≤ h → |s ^ 3 - h ^ 2 * s| ≤ h ^ 3 := by
    intro s h0 h1
    have a1 : s ^ 3 ≤ h ^ 2 * s := by nlinarith [mul_nonneg h0 (by nlinarith : 0 ≤ h ^ 2 - s ^ 2)]
    have a2 : h ^ 2 * s ≤ h ^ 3 := by nlinarith [sq_nonneg h]
    rw [abs_le]
    constructor
    · have : 0 ≤ s ^ 3 := by positivity
      linarith
    · have : 0 ≤ h ^ 3 := by positivity
      linarith
  have dev : |(M j * ((h - t) ^ 3 - h ^ 2 * (h - t)) + M (j + 1) * (t ^ 3 - h ^ 2 * t)) / (6 * h)| ≤ h ^ 2 / 3 * W := by
    rw [abs_div, abs_of_pos (by positivity : 0 < 6 * h), div_le_iff₀ (by positivity)]
    have b1 : |M j * ((h - t) ^ 3 - h ^ 2 * (h - t))| ≤ W * h ^ 3 := by
      rw [abs_mul]; exact mul_le_mul h1 (cub _ ht (by linarith)) (abs_nonneg _) hW
    have b2 : |M (j + 1) * (t ^ 3 - h ^ 2 * t)| ≤ W * h ^ 3 := by
      rw [abs_mul]; exact mul_le_mul h2 (cub _ hq0 hqh) (abs_nonneg _) hW
    have := abs_add_le (M j * ((h - t) ^ 3 - h ^ 2 * (h - t))) (M (j + 1) * (t ^ 3 - h ^ 2 * t))
    nlinarith
  have := abs_le.1 dev
  constructor <;> linarith

end

/-- The factor of the overshoot of the cubic spline on nodes whose gaps differ by at most the factor `ρ`, the outermost gaps being at most
`ρe` times the ones next to them. -/
def tameFactor (ρ ρe : K) : K := ρ ^ 2 * (1 + 2 * ρe) * (1 + ρe)

/-- Two segments that contain the query give one value. -/
theorem seg_agree {n : Nat} {x y M : Nat → K} (hx : ∀ i, i + 1 < n → x i < x (i + 1)) (hlt : ∀ i j, i < j → j < n → x i < x j) {i j : Nat} {q : K}
    (hi : i + 1 < n) (hj : j + 1 < n) (h1 : x i ≤ q) (h2 : q ≤ x (i + 1)) (h3 : x j ≤ q) (h4 : q ≤ x (j + 1)) :
    segCubic x y M i q = segCubic x y M j q := by
  have main : ∀ i j, i < j → i + 1 < n → j + 1 < n → q ≤ x (i + 1) → x j ≤ q → segCubic x y M i q = segCubic x y M j q := by
    intro i j hij hi hj h2 h3
    have : i + 1 = j := by
      by_contra hne
      have := hlt (i + 1) j (by omega) (by omega)
      exact absurd (h3.trans h2) (not_le.2 this)
    subst this
    have e : q = x (i + 1) := le_antisymm h2 h3
    rw [e, segCubic_right _ _ _ _ (hx i hi), segCubic_left _ _ _ _ (hx _ hj)]
  rcases Nat.lt_trichotomy i j with h | h | h
  · exact main i j h hi hj h2 h3
  · rw [h]
  · exact (main j i h hj hi h4 h1).symm

/-- The not-a-knot cubic spline overshoots in a controlled way. -/
theorem cubic_tame {ρ ρe : K} (hρ : 1 ≤ ρe) : Tame ρ ρe (tameFactor ρ ρe) (ρe / (ρe + 1)) (cubicInterp : Interp K) := by
  intro xs ys hl hm g hg hgap hf0 hl0 δ B hB L H k hd j hj q hq1 hq2 hLj hjH h5 h6
  have sx : ∀ i (h : i < xs.length), seqOf xs i = xs[i] := fun i h => by unfold seqOf; simp [h]
  have sy : ∀ i (h : i < xs.length), seqOf ys i = ys[i] := fun i h => by unfold seqOf; simp [hl ▸ h]
  have hgap' : ∀ i, i + 1 < xs.length → g ≤ seqOf xs (i + 1) - seqOf xs i ∧ seqOf xs (i + 1) - seqOf xs i ≤ ρ * g := by
    intro i hi
    rw [sx _ hi, sx i (by omega)]
    exact hgap i hi
  have hinc : Incr xs := by
    unfold Incr
    rw [← List.isChain_iff_pairwise, List.isChain_iff_getElem]
    intro i hi
    have := (hgap i hi).1
    linarith
  have hB' : ∀ i, i + 1 < xs.length → |seqOf ys (i + 1) - seqOf ys i| ≤ B := by
    intro i hi
    rw [sy _ hi, sy i (by omega)]
    exact hB i (by omega)
  have hd' : ∀ i, i + 1 < xs.length → L ≤ i → i ≤ H → |seqOf ys (i + 1) - seqOf ys i| ≤ δ := by
    intro i hi
    rw [sy _ hi, sy i (by omega)]
    exact hd i (by omega)
  have hf0' : seqOf xs 1 - seqOf xs 0 ≤ ρe * (seqOf xs 2 - seqOf xs 1) := by
    rw [sx 0 (by omega), sx 1 (by omega), sx 2 (by omega)]
    exact hf0 (by omega)
  have hl0' : ∀ k, xs.length = k + 3 → seqOf xs (k + 2) - seqOf xs (k + 1) ≤ ρe * (seqOf xs (k + 1) - seqOf xs k) := by
    intro k hk
    rw [sx k (by omega), sx (k + 1) (by omega), sx (k + 2) (by omega)]
    exact hl0 k hk
  have hδ : 0 ≤ δ := (abs_nonneg _).trans (hd j (by omega) hLj hjH)
  obtain ⟨M, hM⟩ := NotAKnot.exists hm (seqOf xs) (seqOf ys) (seqOf_incr hinc)
  have hnode := fun c hc => hM.node hm hg hρ (fun i hi => (hgap' i hi).1) hf0' hl0' hB' hδ hd' j c hj hc hLj hjH h5 h6
  have hpos : 0 < seqOf xs (j + 1) - seqOf xs j := hg.trans_le (hgap' j hj).1
  have hq1' : seqOf xs j ≤ q := by rw [sx j (by omega)]; exact hq1
  have hq2' : q ≤ seqOf xs (j + 1) := by rw [sx _ hj]; exact hq2
  have near := segCubic_near (y := seqOf ys) hpos hq1' hq2' (hnode j (Or.inl rfl)) (hnode (j + 1) (Or.inr rfl))
  have val : cubicInterp (xs.map fin) (ys.map fin) (fin q) = .ok (fin (segCubic (seqOf xs) (seqOf ys) M j q)) := by
    obtain ⟨i, hi⟩ := find_seg_some hm ⟨⟨_, List.getElem_mem (by omega), hq1⟩, _, List.getElem_mem hj, hq2⟩ hinc
    have hi' : i < xs.length - 1 := List.mem_range.1 (List.mem_of_find?_eq_some hi)
    have hp := List.find?_some hi
    simp only [decide_eq_true_eq] at hp
    rw [cubic_value hl hm hinc hM, hi]
    dsimp only
    rw [seg_agree (seqOf_incr hinc) (fun a b => seqOf_lt hinc a b) (by omega) hj hp.1 hp.2 hq1' hq2']
  refine ⟨_, val, ?_⟩
  rw [sy j (by omega), sy (j + 1) hj] at near
  have hW : (seqOf xs (j + 1) - seqOf xs j) ^ 2 / 3 * ((1 + 2 * ρe) * ((ρe + 1) * (3 / g ^ 2) * (δ + (ρe / (ρe + 1)) ^ k * B))) ≤
      tameFactor ρ ρe * (δ + (ρe / (ρe + 1)) ^ k * B) := by
    have hB0 : 0 ≤ B := (abs_nonneg _).trans (hB' 0 (by omega))
    have hρ0 : 0 < ρe + 1 := by linarith
    have e : tameFactor ρ ρe * (δ + (ρe / (ρe + 1)) ^ k * B) =
        (ρ * g) ^ 2 / 3 * ((1 + 2 * ρe) * ((ρe + 1) * (3 / g ^ 2) * (δ + (ρe / (ρe + 1)) ^ k * B))) := by
      unfold tameFactor
      have := hg.ne'
      generalize δ + (ρe / (ρe + 1)) ^ k * B = E
      field_simp
      ring
    rw [e]
    apply mul_le_mul_of_nonneg_right
    · apply div_le_div_of_nonneg_right _ (by norm_num)
      exact pow_le_pow_left₀ hpos.le (hgap' j hj).2 2
    · positivity
  exact ⟨by linarith only [near.1, hW], by linarith only [near.2, hW]⟩

/-- The not-a-knot cubic spline overshoots by at most a multiple of the largest difference of neighbouring values. -/
theorem cubic_gentle {ρ : K} (hρ : 1 ≤ ρ) : Gentle ρ (2 * tameFactor ρ ρ) (cubicInterp : Interp K) := by
  intro xs ys hl hm g hg hgap δ hd j hj q h1 h2
  have big : ∀ i i' (h : i + 1 < xs.length) (h' : i' + 1 < xs.length), xs[i + 1] - xs[i] ≤ ρ * (xs[i' + 1] - xs[i']) := fun i i' h h' =>
    (hgap i h).2.trans (mul_le_mul_of_nonneg_left (hgap i' h').1 (zero_le_one.trans hρ))
  obtain ⟨v, hv, v1, v2⟩ := cubic_tame (ρ := ρ) hρ xs ys hl hm g hg hgap (fun _ => big 0 1 (by omega) (by omega))
    (fun k h => big (k + 1) k (by omega) (by omega)) δ δ hd 0 xs.length 0 (fun i h _ _ => hd i h) j hj q h1 h2 (Nat.zero_le _) (by omega)
    (Or.inl rfl) (Or.inl (by omega))
  rw [pow_zero, one_mul] at v1 v2
  exact ⟨v, hv, by linarith, by linarith⟩

/-- Interpolants that stay between nodes do not overshoot. -/
theorem between_gentle {I : Interp K} (hB : BetweenNodes I) (ρ : K) : Gentle ρ 0 I := by
  intro xs ys hl hm g hg hgap δ hd j hj q h1 h2
  have hinc : Incr xs := by
    unfold Incr
    rw [← List.isChain_iff_pairwise, List.isChain_iff_getElem]
    intro i hi
    have := (hgap i hi).1
    linarith
  obtain ⟨v, hv, v1, v2⟩ := hB xs ys hl (by omega) hinc j hj q h1 h2
  exact ⟨v, hv, by linarith, by linarith⟩

/-- Gentle interpolants of data with small differences are calm. -/
theorem Gentle_calm {I : Interp K} {ρ C : K} (hI : Gentle ρ C I) {N Y : List K} (hl : N.length = Y.length) (hm : 4 ≤ N.length) {g : K} (hg : 0 < g)
    (hgap : ∀ i (h : i + 1 < N.length), g ≤ N[i + 1] - N[i] ∧ N[i + 1] - N[i] ≤ ρ * g) {δ d : K}
    (hd : ∀ i (h : i + 1 < Y.length), |Y[i + 1] - Y[i]| ≤ δ) (hC : C * δ ≤ d) (T : K) : Calm d T I N Y := by
  intro j h h' q h1 h2
  obtain ⟨v, hv, v1, v2⟩ := hI N Y hl hm g hg hgap δ hd j h q h1 h2
  exact ⟨v, hv, fun _ => ⟨by linarith, by linarith⟩⟩

end Verif

import Verif.Model.Rounding
import Verif.Spec.Rounding
import Mathlib.Tactic.Linarith
import Mathlib.Tactic.FieldSimp
import Mathlib.Tactic.Positivity
import Mathlib.Tactic.NormNum
import Mathlib.Tactic.Ring

/-!
# `fl53` is a rounding function
-/

set_option linter.unusedSectionVars false

namespace Verif

open F Spec

section
variable {K : Type} [Field K] [LinearOrder K] [IsStrictOrderedRing K] [FloorRing K]

theorem rne_floor (x : K) : ⌊x⌋ ≤ rne x ∧ rne x ≤ ⌊x⌋ + 1 := by
  unfold rne
  split_ifs <;> omega

theorem rne_mono {x y : K} (h : x ≤ y) : rne x ≤ rne y := by
  have hf := Int.floor_mono h
  rcases lt_or_eq_of_le hf with hlt | heq
  · have h1 := (rne_floor x).2
    have h2 := (rne_floor y).1
    omega
  · unfold rne
    rw [heq]
    split_ifs <;> first | omega | (exfalso; linarith)

theorem rne_int (n : ℤ) : rne (n : K) = n := by
  unfold rne
  rw [Int.floor_intCast, sub_self, if_pos (by norm_num)]

theorem rne_near (x : K) : |(rne x : K) - x| ≤ 1 / 2 := by
  have h1 := Int.floor_le x
  have h2 := Int.lt_floor_add_one x
  rw [abs_le]
  unfold rne
  split_ifs <;> push_cast <;> constructor <;> linarith

theorem two_zpow_pos (e : ℤ) : (0 : K) < (2 : K) ^ e := zpow_pos two_pos e

/-- The scaled mantissa of a positive number. -/
theorem mantissa_range (p : Nat) (hp : 1 ≤ p) {x : K} (hx : 0 < x) :
    (((2 : ℤ) ^ (p - 1) : ℤ) : K) ≤ x / (2 : K) ^ (Int.log 2 x - (p : ℤ) + 1) ∧
    x / (2 : K) ^ (Int.log 2 x - (p : ℤ) + 1) < (((2 : ℤ) ^ p : ℤ) : K) := by
  have h1 : (2 : K) ^ Int.log 2 x ≤ x := by
    have := Int.zpow_log_le_self (b := 2) (by norm_num) hx
    exact_mod_cast this
  have h2 : x < (2 : K) ^ (Int.log 2 x + 1) := by
    have := Int.lt_zpow_succ_log_self (b := 2) (by norm_num) x
    exact_mod_cast this
  have hb := two_zpow_pos (K := K) (Int.log 2 x - (p : ℤ) + 1)
  constructor
  · rw [le_div_iff₀ hb]
    refine le_trans (le_of_eq ?_) h1
    push_cast
    rw [← zpow_natCast, ← zpow_add₀ two_ne_zero]
    congr 1
    omega
  · rw [div_lt_iff₀ hb]
    refine lt_of_lt_of_eq h2 ?_
    push_cast
    rw [← zpow_natCast, ← zpow_add₀ two_ne_zero]
    congr 1
    omega

/-- A rounded positive number lies in the closed binade of the number. -/
theorem flPos_binade (p : Nat) (hp : 1 ≤ p) {x : K} (hx : 0 < x) :
    (2 : K) ^ Int.log 2 x ≤ flPos p x ∧ flPos p x ≤ (2 : K) ^ (Int.log 2 x + 1) := by
  obtain ⟨h1, h2⟩ := mantissa_range p hp hx
  have hb := two_zpow_pos (K := K) (Int.log 2 x - (p : ℤ) + 1)
  have g1 := rne_mono h1
  have g2 := rne_mono h2.le
  rw [rne_int] at g1 g2
  unfold flPos
  constructor
  · have : (((2 : ℤ) ^ (p - 1) : ℤ) : K) ≤ rne (x / (2 : K) ^ (Int.log 2 x - (p : ℤ) + 1)) := by exact_mod_cast g1
    refine le_trans (le_of_eq ?_) (mul_le_mul_of_nonneg_right this hb.le)
    push_cast
    rw [← zpow_natCast, ← zpow_add₀ two_ne_zero]
    congr 1
    omega
  · have : (rne (x / (2 : K) ^ (Int.log 2 x - (p : ℤ) + 1)) : K) ≤ (((2 : ℤ) ^ p : ℤ) : K) := by exact_mod_cast g2
    refine le_trans (mul_le_mul_of_nonneg_right this hb.le) (le_of_eq ?_)
    push_cast
    rw [← zpow_natCast, ← zpow_add₀ two_ne_zero]
    congr 1
    omega

theorem flPos_pos (p : Nat) (hp : 1 ≤ p) {x : K} (hx : 0 < x) : 0 < flPos p x :=
  (two_zpow_pos _).trans_le (flPos_binade p hp hx).1

theorem flPos_mono (p : Nat) (hp : 1 ≤ p) {x y : K} (hx : 0 < x) (h : x ≤ y) : flPos p x ≤ flPos p y := by
  have hy := hx.trans_le h
  have hl : Int.log 2 x ≤ Int.log 2 y := Int.log_mono_right hx h
  rcases lt_or_eq_of_le hl with hlt | heq
  · refine (flPos_binade p hp hx).2.trans (le_trans ?_ (flPos_binade p hp hy).1)
    exact zpow_le_zpow_right₀ (by norm_num) (by omega)
  · unfold flPos
    rw [heq]
    apply mul_le_mul_of_nonneg_right _ (two_zpow_pos _).le
    exact_mod_cast rne_mono (div_le_div_of_nonneg_right h (two_zpow_pos _).le)

theorem flPos_err (p : Nat) (hp : 1 ≤ p) {x : K} (hx : 0 < x) : |flPos p x - x| ≤ (2 : K) ^ (-(p : ℤ)) * x := by
  have hb := two_zpow_pos (K := K) (Int.log 2 x - (p : ℤ) + 1)
  have h := rne_near (x / (2 : K) ^ (Int.log 2 x - (p : ℤ) + 1))
  have h1 : (2 : K) ^ Int.log 2 x ≤ x := by
    have := Int.zpow_log_le_self (b := 2) (by norm_num) hx
    exact_mod_cast this
  unfold flPos
  have e : (rne (x / (2 : K) ^ (Int.log 2 x - (p : ℤ) + 1)) : K) * (2 : K) ^ (Int.log 2 x - (p : ℤ) + 1) - x =
      ((rne (x / (2 : K) ^ (Int.log 2 x - (p : ℤ) + 1)) : K) - x / (2 : K) ^ (Int.log 2 x - (p : ℤ) + 1)) *
        (2 : K) ^ (Int.log 2 x - (p : ℤ) + 1) := by
    rw [sub_mul, div_mul_cancel₀ _ hb.ne']
  simp only [e]
  rw [abs_mul, abs_of_pos hb]
  calc _ ≤ 1 / 2 * (2 : K) ^ (Int.log 2 x - (p : ℤ) + 1) := mul_le_mul_of_nonneg_right h hb.le
    _ = (2 : K) ^ (-(p : ℤ)) * (2 : K) ^ Int.log 2 x := by
      rw [← zpow_add₀ two_ne_zero, zpow_add_one₀ two_ne_zero, show -(p : ℤ) + Int.log 2 x = Int.log 2 x - (p : ℤ) by ring]; ring
    _ ≤ _ := mul_le_mul_of_nonneg_left h1 (two_zpow_pos _).le

/-- Numbers with at most `p` significant bits are not changed. -/
theorem flPos_repr (p : Nat) (hp : 1 ≤ p) (k : ℤ) (hk : 0 < k) (hk' : k ≤ 2 ^ p) (j : ℤ) :
    flPos p ((k : K) * (2 : K) ^ j) = (k : K) * (2 : K) ^ j := by
  -- it is enough to treat k < 2^p
  have main : ∀ (k : ℤ) (j : ℤ), 0 < k → k < 2 ^ p → flPos p ((k : K) * (2 : K) ^ j) = (k : K) * (2 : K) ^ j := by
    intro k j hk hlt
    have hkK : (0 : K) < k := by exact_mod_cast hk
    have hx : (0 : K) < (k : K) * (2 : K) ^ j := mul_pos hkK (two_zpow_pos j)
    have h1 : (2 : K) ^ Int.log 2 ((k : K) * (2 : K) ^ j) ≤ (k : K) * (2 : K) ^ j := by
      have := Int.zpow_log_le_self (b := 2) (by norm_num) hx
      exact_mod_cast this
    have h2 : (k : K) * (2 : K) ^ j < (2 : K) ^ ((p : ℤ) + j) := by
      rw [zpow_add₀ two_ne_zero, zpow_natCast]
      apply mul_lt_mul_of_pos_right _ (two_zpow_pos j)
      exact_mod_cast hlt
    have h3 : Int.log 2 ((k : K) * (2 : K) ^ j) < (p : ℤ) + j := by
      have := lt_of_le_of_lt h1 h2
      exact (zpow_lt_zpow_iff_right₀ (by norm_num : (1 : K) < 2)).1 this
    unfold flPos
    generalize Int.log 2 ((k : K) * (2 : K) ^ j) = L at h3
    obtain ⟨d, hd⟩ : ∃ d : Nat, j = (L - (p : ℤ) + 1) + d := ⟨(j - (L - (p : ℤ) + 1)).toNat, by omega⟩
    have he : (k : K) * (2 : K) ^ j / (2 : K) ^ (L - (p : ℤ) + 1) = ((k * 2 ^ d : ℤ) : K) := by
      rw [hd, zpow_add₀ two_ne_zero, zpow_natCast]
      push_cast
      field_simp
    simp only [he, rne_int]
    rw [← he, div_mul_cancel₀ _ (two_zpow_pos _).ne']
  rcases lt_or_eq_of_le hk' with hlt | heq
  · exact main k j hk hlt
  · have e : (k : K) * (2 : K) ^ j = ((2 ^ (p - 1) : ℤ) : K) * (2 : K) ^ (j + 1) := by
      rw [heq]
      push_cast
      rw [zpow_add_one₀ two_ne_zero]
      obtain ⟨q, rfl⟩ : ∃ q, p = q + 1 := ⟨p - 1, by omega⟩
      rw [Nat.add_sub_cancel]; ring
    rw [e]
    exact main _ _ (by positivity) (pow_lt_pow_right₀ (by norm_num) (by omega))

theorem flPos_scale (p : Nat) (j : ℤ) {x : K} (hx : 0 < x) : flPos p ((2 : K) ^ j * x) = (2 : K) ^ j * flPos p x := by
  have hlog : Int.log 2 ((2 : K) ^ j * x) = Int.log 2 x + j := by
    have h1 : (2 : K) ^ Int.log 2 x ≤ x := by
      have := Int.zpow_log_le_self (b := 2) (by norm_num) hx
      exact_mod_cast this
    have h2 : x < (2 : K) ^ (Int.log 2 x + 1) := by
      have := Int.lt_zpow_succ_log_self (b := 2) (by norm_num) x
      exact_mod_cast this
    have hy : 0 < (2 : K) ^ j * x := mul_pos (two_zpow_pos j) hx
    have h3 : (2 : K) ^ Int.log 2 ((2 : K) ^ j * x) ≤ (2 : K) ^ j * x := by
      have := Int.zpow_log_le_self (b := 2) (by norm_num) hy
      exact_mod_cast this
    have h4 : (2 : K) ^ j * x < (2 : K) ^ (Int.log 2 ((2 : K) ^ j * x) + 1) := by
      have := Int.lt_zpow_succ_log_self (b := 2) (by norm_num) ((2 : K) ^ j * x)
      exact_mod_cast this
    have h5 : (2 : K) ^ (Int.log 2 x + j) ≤ (2 : K) ^ j * x := by
      rw [zpow_add₀ two_ne_zero, mul_comm]; exact mul_le_mul_of_nonneg_left h1 (two_zpow_pos j).le
    have h6 : (2 : K) ^ j * x < (2 : K) ^ (Int.log 2 x + j + 1) := by
      rw [show Int.log 2 x + j + 1 = j + (Int.log 2 x + 1) by ring, zpow_add₀ two_ne_zero j]; exact mul_lt_mul_of_pos_left h2 (two_zpow_pos j)
    have a1 := (zpow_lt_zpow_iff_right₀ (by norm_num : (1 : K) < 2)).1 (h5.trans_lt h4)
    have a2 := (zpow_lt_zpow_iff_right₀ (by norm_num : (1 : K) < 2)).1 (h3.trans_lt h6)
    omega
  unfold flPos
  simp only [hlog]
  have e : (2 : K) ^ (Int.log 2 x + j - (p : ℤ) + 1) = (2 : K) ^ j * (2 : K) ^ (Int.log 2 x - (p : ℤ) + 1) := by
    rw [← zpow_add₀ two_ne_zero]; congr 1; ring
  rw [e, mul_div_mul_left _ _ (two_zpow_pos j).ne']
  ring

theorem flBits_pos (p : Nat) {x : K} (hx : 0 < x) : flBits p x = flPos p x := by unfold flBits; rw [if_pos hx]

theorem flBits_zero (p : Nat) : flBits p (0 : K) = 0 := by unfold flBits; simp

theorem flBits_neg (p : Nat) (x : K) : flBits p (-x) = -flBits p x := by
  unfold flBits
  rcases lt_trichotomy x 0 with h | h | h
  · rw [if_pos (by linarith), if_neg (not_lt.2 h.le), if_pos h, neg_neg]
  · subst h; simp
  · rw [if_neg (by linarith), if_pos (by linarith), if_pos h, neg_neg]

theorem flBits_of_neg (p : Nat) {x : K} (hx : x < 0) : flBits p x = -flPos p (-x) := by
  rw [← flBits_pos p (x := -x) (by linarith), flBits_neg, neg_neg]

theorem flBits_repr (p : Nat) (hp : 1 ≤ p) (k : ℤ) (hk : |k| ≤ 2 ^ p) (j : ℤ) :
    flBits p ((k : K) * (2 : K) ^ j) = (k : K) * (2 : K) ^ j := by
  rcases lt_trichotomy k 0 with h | h | h
  · have h' : (0 : K) < ((-k : ℤ) : K) := by exact_mod_cast (by omega : 0 < -k)
    have := flPos_repr (K := K) p hp (-k) (by omega) (by rw [abs_of_neg h] at hk; exact hk) j
    have e : (k : K) * (2 : K) ^ j = -(((-k : ℤ) : K) * (2 : K) ^ j) := by push_cast; ring
    rw [e, flBits_neg, flBits_pos _ (mul_pos h' (two_zpow_pos j)), this]
  · subst h; simp [flBits_zero]
  · have h' : (0 : K) < (k : K) := by exact_mod_cast h
    rw [flBits_pos _ (mul_pos h' (two_zpow_pos j)), flPos_repr p hp k h (by rw [abs_of_pos h] at hk; exact hk) j]

theorem flBits_rounding (p : Nat) (hp : 1 ≤ p) : Rounding (flBits p : K → K) where
  mono := by
    intro x y h
    rcases lt_trichotomy x 0 with hx | hx | hx
    · rcases lt_trichotomy y 0 with hy | hy | hy
      · have := flPos_mono p hp (x := -y) (y := -x) (by linarith) (by linarith)
        rw [flBits_of_neg p hx, flBits_of_neg p hy]
        linarith
      · subst hy
        rw [flBits_zero, ← neg_neg x, flBits_neg, flBits_pos _ (by linarith)]
        have := flPos_pos p hp (x := -x) (by linarith)
        linarith
      · rw [← neg_neg x, flBits_neg, flBits_pos _ (by linarith), flBits_pos _ hy]
        have h1 := flPos_pos p hp (x := -x) (by linarith)
        have h2 := flPos_pos p hp hy
        linarith
    · subst hx
      rw [flBits_zero]
      rcases eq_or_lt_of_le h with hy | hy
      · rw [← hy, flBits_zero]
      · rw [flBits_pos _ hy]; exact (flPos_pos p hp hy).le
    · have hy := hx.trans_le h
      rw [flBits_pos _ hx, flBits_pos _ hy]
      exact flPos_mono p hp hx h
  neg := flBits_neg p
  idem := by
    have hpos : ∀ x : K, 0 < x → flBits p (flPos p x) = flPos p x := by
      intro x hx
      obtain ⟨h1, h2⟩ := mantissa_range p hp hx
      have g1 := rne_mono h1
      have g2 := rne_mono h2.le
      rw [rne_int] at g1 g2
      have h0 : (0 : ℤ) < 2 ^ (p - 1) := by positivity
      unfold flPos
      exact flBits_repr p hp _ (by rw [abs_of_pos (by omega)]; exact g2) _
    intro x
    rcases lt_trichotomy x 0 with h | h | h
    · rw [← neg_neg x, flBits_neg, flBits_neg, flBits_pos _ (x := -x) (by linarith), hpos _ (by linarith)]
    · subst h; simp [flBits_zero]
    · rw [flBits_pos _ h, hpos _ h]
  one := by
    have := flBits_repr (K := K) p hp 1 (by simpa using one_le_pow₀ (by norm_num : (1 : ℤ) ≤ 2)) 0
    simpa using this

theorem flBits_relErr (p : Nat) (hp : 1 ≤ p) : RelErr ((2 : K) ^ (-(p : ℤ))) (flBits p) := by
  intro x
  rcases lt_trichotomy x 0 with h | h | h
  · have := flPos_err p hp (x := -x) (by linarith)
    have e : flBits p x = -flPos p (-x) := by
      rw [← flBits_pos p (x := -x) (by linarith), flBits_neg, neg_neg]
    rw [e, abs_of_neg h, show -flPos p (-x) - x = -(flPos p (-x) - -x) by ring, abs_neg]
    exact this
  · subst h; simp [flBits_zero]
  · rw [flBits_pos _ h, abs_of_pos h]
    exact flPos_err p hp h

theorem flBits_binary (p : Nat) : Binary (flBits p : K → K) := by
  intro j x
  rcases lt_trichotomy x 0 with h | h | h
  · have := flPos_scale p j (x := -x) (by linarith)
    have e : ∀ y : K, y < 0 → flBits p y = -flPos p (-y) := fun y hy => by
      rw [← flBits_pos p (x := -y) (by linarith), flBits_neg, neg_neg]
    rw [e x h, e _ (mul_neg_of_pos_of_neg (two_zpow_pos j) h), ← mul_neg, this, mul_neg]
  · subst h; simp [flBits_zero]
  · rw [flBits_pos _ h, flBits_pos _ (mul_pos (two_zpow_pos j) h), flPos_scale p j h]

end

end Verif

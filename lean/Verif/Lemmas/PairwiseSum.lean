import Verif.Model.RoundingPhotometry
import Verif.Lemmas.Rounding
import Mathlib.Data.List.Forall2
import Mathlib.Data.Nat.Log
import Mathlib.Algebra.BigOperators.Group.List.Basic

/-!
# numpy's pairwise summation
-/

set_option linter.unusedSectionVars false

namespace Verif.Lemmas

open F Spec

section
variable {α β : Type} {add : α → α → α} {zero : α} {add' : β → β → β} {zero' : β} {R : Nat → α → β → Prop}

/-- What additions do to a graded relation. -/
structure Graded (add : α → α → α) (zero : α) (add' : β → β → β) (zero' : β) (R : Nat → α → β → Prop) : Prop where
  zero : R 0 zero zero'
  add : ∀ d x y x' y', R d x y → R d x' y' → R (d + 1) (add x x') (add' y y')
  mono : ∀ d d' x y, d ≤ d' → R d x y → R d' x y

theorem foldl_graded (G : Graded add zero add' zero' R) {l : List α} {m : List β} (h : List.Forall₂ (R 0) l m) :
    ∀ {d x y}, R d x y → R (d + l.length) (l.foldl add x) (m.foldl add' y) := by
  induction h with
  | nil => intro d x y hx; exact hx
  | @cons a b l m hab _ ih =>
    intro d x y hx
    have := ih (G.add d _ _ _ _ hx (G.mono 0 d _ _ (Nat.zero_le _) hab))
    simp only [List.foldl_cons, List.length_cons]
    rwa [show d + (l.length + 1) = d + 1 + l.length by omega]

theorem pwJoin_graded (G : Graded add zero add' zero' R) {d : Nat} {r : List α} {s : List β} (h : List.Forall₂ (R d) r s) :
    R (d + 3) (pwJoin add zero r) (pwJoin add' zero' s) := by
  by_cases h8 : r.length = 8
  · have h8' : s.length = 8 := by rw [← h.length_eq, h8]
    obtain ⟨r0, r1, r2, r3, r4, r5, r6, r7, rfl⟩ : ∃ r0 r1 r2 r3 r4 r5 r6 r7, r = [r0, r1, r2, r3, r4, r5, r6, r7] := by
      match r, h8 with
      | [r0, r1, r2, r3, r4, r5, r6, r7], _ => exact ⟨_, _, _, _, _, _, _, _, rfl⟩
    obtain ⟨s0, s1, s2, s3, s4, s5, s6, s7, rfl⟩ : ∃ s0 s1 s2 s3 s4 s5 s6 s7, s = [s0, s1, s2, s3, s4, s5, s6, s7] := by
      match s, h8' with
      | [s0, s1, s2, s3, s4, s5, s6, s7], _ => exact ⟨_, _, _, _, _, _, _, _, rfl⟩
    simp only [List.forall₂_cons, List.Forall₂.nil, and_true] at h
    obtain ⟨a0, a1, a2, a3, a4, a5, a6, a7⟩ := h
    exact G.add _ _ _ _ _ (G.add _ _ _ _ _ (G.add _ _ _ _ _ a0 a1) (G.add _ _ _ _ _ a2 a3))
      (G.add _ _ _ _ _ (G.add _ _ _ _ _ a4 a5) (G.add _ _ _ _ _ a6 a7))
  · have h1 : pwJoin add zero r = zero := by
      unfold pwJoin
      split
      · simp at h8
      · rfl
    have h2 : pwJoin add' zero' s = zero' := by
      unfold pwJoin
      split
      · rw [h.length_eq] at h8; simp at h8
      · rfl
    rw [h1, h2]
    exact G.mono 0 _ _ _ (Nat.zero_le _) G.zero

theorem zipWith_graded (G : Graded add zero add' zero' R) {d : Nat} {r l : List α} {s m : List β} (h : List.Forall₂ (R d) r s)
    (h' : List.Forall₂ (R 0) l m) : List.Forall₂ (R (d + 1)) (List.zipWith add r l) (List.zipWith add' s m) := by
  induction h generalizing l m with
  | nil => simp
  | @cons a b r s hab _ ih =>
    cases h' with
    | nil => simp
    | @cons a' b' l m hab' hl =>
      simp only [List.zipWith_cons_cons, List.forall₂_cons]
      exact ⟨G.add _ _ _ _ _ hab (G.mono 0 d _ _ (Nat.zero_le _) hab'), ih hl⟩

theorem pwBlock_graded (G : Graded add zero add' zero' R) : ∀ (n d : Nat) (r l : List α) (s m : List β), l.length ≤ n →
    List.Forall₂ (R d) r s → List.Forall₂ (R 0) l m →
    R (d + l.length / 8 + 3 + l.length % 8) (pwBlock add zero r l) (pwBlock add' zero' s m) := by
  intro n
  induction n using Nat.strong_induction_on with
  | _ n ih =>
    intro d r l s m hn hr hl
    rw [pwBlock.eq_def add zero r l, pwBlock.eq_def add' zero' s m]
    have hlm := hl.length_eq
    by_cases h8 : 8 ≤ l.length
    · rw [if_pos h8, if_pos (show 8 ≤ m.length by omega)]
      have := ih (n - 8) (by omega) (d + 1) _ (l.drop 8) _ (m.drop 8) (by simp; omega)
        (zipWith_graded G hr (List.forall₂_take 8 hl)) (List.forall₂_drop 8 hl)
      rw [List.length_drop] at this
      exact G.mono _ _ _ _ (by omega) this
    · rw [if_neg h8, if_neg (show ¬ 8 ≤ m.length by omega)]
      have := foldl_graded G hl (pwJoin_graded G hr)
      exact G.mono _ _ _ _ (by omega) this

/-- The number of roundings that an entry of an array of length `n` can meet in `pairwise_sum`. -/
def pwDepth (n : Nat) : Nat := 25 + Nat.log 2 (n - 15)

theorem pwDepth_mono {n m : Nat} (h : n ≤ m) : pwDepth n ≤ pwDepth m := by
  unfold pwDepth
  have := Nat.log_mono_right (b := 2) (show n - 15 ≤ m - 15 by omega)
  omega

theorem pwDepth_half {n m : Nat} (hn : 128 < n) (hm : m ≤ (n + 15) / 2) : pwDepth m + 1 ≤ pwDepth n := by
  unfold pwDepth
  have h1 : Nat.log 2 (m - 15) ≤ Nat.log 2 ((n - 15) / 2) := Nat.log_mono_right (by omega)
  have h2 : Nat.log 2 ((n - 15) / 2) = Nat.log 2 (n - 15) - 1 := Nat.log_div_base 2 (n - 15)
  have h3 : 1 ≤ Nat.log 2 (n - 15) := by
    rw [Nat.one_le_iff_ne_zero]
    intro h
    rw [Nat.log_eq_zero_iff] at h
    omega
  omega

/-- Two runs of `pairwise_sum` on related arrays give related results. -/
theorem pairwiseSum_graded (G : Graded add zero add' zero' R) : ∀ (n : Nat) (l : List α) (m : List β), l.length ≤ n →
    List.Forall₂ (R 0) l m → R (pwDepth l.length) (pairwiseSum add zero l) (pairwiseSum add' zero' m) := by
  intro n
  induction n using Nat.strong_induction_on with
  | _ n ih =>
    intro l m hn hl
    have hlm := hl.length_eq
    rw [pairwiseSum.eq_def add zero l, pairwiseSum.eq_def add' zero' m]
    by_cases h8 : l.length < 8
    · rw [if_pos h8, if_pos (show m.length < 8 by omega)]
      exact G.mono _ _ _ _ (by unfold pwDepth; omega) (foldl_graded G hl G.zero)
    rw [if_neg h8, if_neg (show ¬ m.length < 8 by omega)]
    by_cases h128 : l.length ≤ 128
    · rw [if_pos h128, if_pos (show m.length ≤ 128 by omega)]
      have := pwBlock_graded G _ 0 _ (l.drop 8) _ (m.drop 8) le_rfl (List.forall₂_take 8 hl) (List.forall₂_drop 8 hl)
      rw [List.length_drop] at this
      exact G.mono _ _ _ _ (by unfold pwDepth; omega) this
    rw [if_neg h128, if_neg (show ¬ m.length ≤ 128 by omega), ← hlm]
    dsimp only
    generalize hk : l.length / 2 - l.length / 2 % 8 = k
    have hk1 : k ≤ l.length / 2 := by omega
    have hk2 : l.length / 2 - 7 ≤ k := by omega
    have i1 := ih (n - 1) (by omega) (l.take k) (m.take k) (by simp; omega) (List.forall₂_take k hl)
    have i2 := ih (n - 1) (by omega) (l.drop k) (m.drop k) (by simp; omega) (List.forall₂_drop k hl)
    rw [List.length_take] at i1
    rw [List.length_drop] at i2
    have d1 : pwDepth (min k l.length) ≤ pwDepth l.length - 1 := by
      have := pwDepth_half (n := l.length) (m := min k l.length) (by omega) (by omega)
      omega
    have d2 : pwDepth (l.length - k) ≤ pwDepth l.length - 1 := by
      have := pwDepth_half (n := l.length) (m := l.length - k) (by omega) (by omega)
      omega
    have := G.add _ _ _ _ _ (G.mono _ _ _ _ d1 i1) (G.mono _ _ _ _ d2 i2)
    rwa [show pwDepth l.length - 1 + 1 = pwDepth l.length by unfold pwDepth; omega] at this

end

/-! ### In exact arithmetic the order does not matter -/

section
variable {M : Type} [AddCommMonoid M]

theorem foldl_add_eq (l : List M) (x : M) : l.foldl (· + ·) x = x + l.sum := by
  induction l generalizing x with
  | nil => simp
  | cons a l ih => rw [List.foldl_cons, ih, List.sum_cons, add_assoc]

theorem pwJoin_eq {r : List M} (h : r.length = 8) : pwJoin (· + ·) 0 r = r.sum := by
  match r, h with
  | [r0, r1, r2, r3, r4, r5, r6, r7], _ =>
    simp only [pwJoin, List.sum_cons, List.sum_nil, add_zero, add_assoc]

theorem zipWith_sum : ∀ (r l : List M), r.length = l.length → (List.zipWith (· + ·) r l).sum = r.sum + l.sum
  | [], [], _ => by simp
  | a :: r, b :: l, h => by
    simp only [List.zipWith_cons_cons, List.sum_cons]
    rw [zipWith_sum r l (by simpa using h)]
    exact add_add_add_comm _ _ _ _

theorem pwBlock_eq : ∀ (n : Nat) (r l : List M), l.length ≤ n → r.length = 8 → pwBlock (· + ·) 0 r l = r.sum + l.sum := by
  intro n
  induction n using Nat.strong_induction_on with
  | _ n ih =>
    intro r l hn hr
    rw [pwBlock]
    by_cases h8 : 8 ≤ l.length
    · rw [if_pos h8, ih (n - 8) (by omega) _ _ (by simp; omega) (by simp; omega), zipWith_sum _ _ (by simp; omega), add_assoc,
        ← List.sum_append, List.take_append_drop]
    · rw [if_neg h8, foldl_add_eq, pwJoin_eq hr]

theorem pairwiseSum_eq : ∀ (n : Nat) (l : List M), l.length ≤ n → pairwiseSum (· + ·) 0 l = l.sum := by
  intro n
  induction n using Nat.strong_induction_on with
  | _ n ih =>
    intro l hn
    rw [pairwiseSum]
    by_cases h8 : l.length < 8
    · rw [if_pos h8, foldl_add_eq, zero_add]
    rw [if_neg h8]
    by_cases h128 : l.length ≤ 128
    · rw [if_pos h128, pwBlock_eq _ _ _ le_rfl (by simp; omega), ← List.sum_append, List.take_append_drop]
    rw [if_neg h128]
    dsimp only
    generalize hk : l.length / 2 - l.length / 2 % 8 = k
    rw [ih (n - 1) (by omega) _ (by simp; omega), ih (n - 1) (by omega) _ (by simp; omega), ← List.sum_append, List.take_append_drop]

end

section
variable {K : Type} [Field K] [LinearOrder K] [IsStrictOrderedRing K] {fl : K → K} {u : K}

/-- Rounded sums of finite numbers are finite. -/
theorem npSumR_fin (l : List K) : npSumR fl (l.map fin) = fin (pairwiseSum (fun a b => fl (a + b)) 0 l) := by
  have G : Graded (fun a b : F K => (a + b).rnd fl) (fin 0) (fun a b => fl (a + b)) 0 (fun _ (x : F K) y => x = fin y) :=
    ⟨rfl, by rintro d _ y _ y' rfl rfl; rfl, fun _ _ _ _ _ h => h⟩
  refine pairwiseSum_graded G _ _ _ le_rfl ?_
  rw [List.forall₂_map_left_iff]
  exact List.forall₂_same.2 fun x _ => rfl

/-- Rounded sums are monotone in the entries. -/
theorem pairwiseSum_mono (hfl : Monotone fl) {l m : List K} (h : List.Forall₂ (· ≤ ·) l m) :
    pairwiseSum (fun a b => fl (a + b)) 0 l ≤ pairwiseSum (fun a b => fl (a + b)) 0 m := by
  have G : Graded (fun a b : K => fl (a + b)) 0 (fun a b => fl (a + b)) 0 (fun _ (x : K) y => x ≤ y) :=
    ⟨le_rfl, fun d x y x' y' h h' => hfl (add_le_add h h'), fun _ _ _ _ _ h => h⟩
  exact pairwiseSum_graded G _ _ _ le_rfl h

/-- The error of a rounded sum. -/
theorem pairwiseSum_err (hu : RelErr u fl) (hu0 : 0 ≤ u) (l : List K) :
    |pairwiseSum (fun a b => fl (a + b)) 0 l - l.sum| ≤ ((1 + u) ^ pwDepth l.length - 1) * (l.map fun x => |x|).sum := by
  have h1u : ∀ d : Nat, 1 ≤ (1 + u) ^ d := fun d => one_le_pow₀ (by linarith)
  have G : Graded (fun a b : K => fl (a + b)) 0 (fun a b : K × K => a + b) 0
      (fun d (x : K) y => |x - y.1| ≤ ((1 + u) ^ d - 1) * y.2 ∧ |y.1| ≤ y.2) := by
    refine ⟨by simp, ?_, ?_⟩
    · rintro d x ⟨s, a⟩ x' ⟨s', a'⟩ ⟨h1, h2⟩ ⟨h3, h4⟩
      simp only [Prod.mk_add_mk] at *
      refine ⟨?_, (abs_add_le _ _).trans (add_le_add h2 h4)⟩
      have e1 := hu (x + x')
      have e2 : |x + x' - (s + s')| ≤ ((1 + u) ^ d - 1) * (a + a') := by
        rw [show x + x' - (s + s') = (x - s) + (x' - s') by ring]
        refine (abs_add_le _ _).trans ?_
        linarith
      have e3 : |x + x'| ≤ (1 + u) ^ d * (a + a') := by
        have : x + x' = (x + x' - (s + s')) + (s + s') := by ring
        rw [this]
        refine (abs_add_le _ _).trans ?_
        have := (abs_add_le s s').trans (add_le_add h2 h4)
        linarith
      rw [show fl (x + x') - (s + s') = (fl (x + x') - (x + x')) + (x + x' - (s + s')) by ring]
      refine (abs_add_le _ _).trans ?_
      have := mul_le_mul_of_nonneg_left e3 hu0
      have e4 : ((1 + u) ^ (d + 1) - 1) * (a + a') = u * ((1 + u) ^ d * (a + a')) + ((1 + u) ^ d - 1) * (a + a') := by ring
      linarith
    · rintro d d' x ⟨s, a⟩ hd ⟨h1, h2⟩
      refine ⟨h1.trans ?_, h2⟩
      have ha : 0 ≤ a := (abs_nonneg _).trans h2
      have := pow_le_pow_right₀ (show (1 : K) ≤ 1 + u by linarith) hd
      exact mul_le_mul_of_nonneg_right (by linarith) ha
  have h := pairwiseSum_graded G _ l (l.map fun x => (x, |x|)) le_rfl (by
    rw [List.forall₂_map_right_iff]
    exact List.forall₂_same.2 fun x _ => by simp)
  rw [pairwiseSum_eq _ _ le_rfl] at h
  have e : (l.map fun x => (x, |x|)).sum = (l.sum, (l.map fun x => |x|).sum) := by
    clear h
    induction l with
    | nil => rfl
    | cons x l ih => simp [ih]
  rw [e] at h
  exact h.1

/-- Rounded sums of whole numbers are exact as long as they are representable. -/
theorem pairwiseSum_whole {N : K} (hfl : ∀ k : ℤ, |(k : K)| ≤ N → fl k = k) (l : List ℤ) (hN : (l.map fun k : ℤ => |(k : K)|).sum ≤ N) :
    pairwiseSum (fun a b => fl (a + b)) 0 (l.map fun k : ℤ => (k : K)) = ((l.sum : ℤ) : K) := by
  have G : Graded (fun a b : K => fl (a + b)) 0 (fun a b : ℤ × K => a + b) 0
      (fun _ (x : K) y => |(y.1 : K)| ≤ y.2 ∧ (y.2 ≤ N → x = y.1)) := by
    refine ⟨by simp, ?_, fun _ _ _ _ _ h => h⟩
    rintro d x ⟨s, a⟩ x' ⟨s', a'⟩ ⟨h1, h2⟩ ⟨h3, h4⟩
    simp only [Prod.mk_add_mk] at *
    have ha : 0 ≤ a := (abs_nonneg _).trans h1
    have ha' : 0 ≤ a' := (abs_nonneg _).trans h3
    have h5 : |((s + s' : ℤ) : K)| ≤ a + a' := by
      push_cast
      exact (abs_add_le _ _).trans (add_le_add h1 h3)
    refine ⟨h5, fun h => ?_⟩
    rw [h2 (by linarith), h4 (by linarith)]
    have := hfl (s + s') (h5.trans h)
    push_cast at this ⊢
    exact this
  have h := pairwiseSum_graded G _ (l.map fun k : ℤ => (k : K)) (l.map fun k : ℤ => (k, |(k : K)|)) le_rfl (by
    rw [List.forall₂_map_right_iff, List.forall₂_map_left_iff]
    exact List.forall₂_same.2 fun x _ => by simp)
  rw [pairwiseSum_eq _ _ le_rfl] at h
  have e : (l.map fun k : ℤ => (k, |(k : K)|)).sum = (l.sum, (l.map fun k : ℤ => |(k : K)|).sum) := by
    clear h hN
    induction l with
    | nil => rfl
    | cons x l ih => simp [ih]
  rw [e] at h
  exact h.2 hN

end
end Verif.Lemmas

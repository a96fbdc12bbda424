import Verif.Model.Utils
import Verif.Lemmas.NumPy

/-!
# `argmin` and `closest_value_index`
-/

set_option linter.unusedSectionVars false

namespace Verif

open F

variable {K : Type} [Field K] [LinearOrder K]

/-- The order numpy's argmin uses: NaN first, then the float order. -/
def nle (a b : F K) : Prop := a = nan ∨ (b ≠ nan ∧ F.le a b = true)

@[simp] theorem nle_fin (a b : K) : nle (fin a) (fin b) ↔ a ≤ b := by simp [nle]
theorem nle_nan_left (b : F K) : nle nan b := Or.inl rfl

theorem F.le_refl' {a : F K} (h : a ≠ nan) : F.le a a = true := by cases a <;> simp_all [F.le]

theorem F.le_total' {a b : F K} (ha : a ≠ nan) (hb : b ≠ nan) : F.le a b = true ∨ F.le b a = true := by
  cases a <;> cases b <;> simp_all [F.le, _root_.le_total]

theorem F.le_trans' {a b c : F K} (h : F.le a b = true) (h' : F.le b c = true) : F.le a c = true := by
  cases a <;> cases b <;> cases c <;> simp_all [F.le]
  exact _root_.le_trans h h'

theorem nle_total (a b : F K) : nle a b ∨ nle b a := by
  by_cases ha : a = nan
  · exact Or.inl (Or.inl ha)
  · by_cases hb : b = nan
    · exact Or.inr (Or.inl hb)
    · rcases F.le_total' ha hb with h | h
      · exact Or.inl (Or.inr ⟨hb, h⟩)
      · exact Or.inr (Or.inr ⟨ha, h⟩)

theorem nle_trans {a b c : F K} (h : nle a b) (h' : nle b c) : nle a c := by
  rcases h with h | ⟨hb, h⟩
  · exact Or.inl h
  · rcases h' with h' | ⟨hc, h'⟩
    · exact absurd h' hb
    · exact Or.inr ⟨hc, F.le_trans' h h'⟩

theorem nle_refl (a : F K) : nle a a := (nle_total a a).elim id id

/-- `r` is the first position of a minimum. -/
def IsFirstMin (L : List (F K)) (r : Nat) : Prop :=
  ∃ h : r < L.length, (∀ j (hj : j < L.length), nle L[r] L[j]) ∧ ∀ j (hj : j < r), ¬ nle (L[j]'(by omega)) L[r]

theorem IsFirstMin.unique {L : List (F K)} {r s : Nat} (hr : IsFirstMin L r) (hs : IsFirstMin L s) : r = s := by
  obtain ⟨h1, h2, h3⟩ := hr
  obtain ⟨g1, g2, g3⟩ := hs
  rcases lt_trichotomy r s with h | h | h
  · exact absurd (h2 s g1) (g3 r h)
  · exact h
  · exact absurd (g2 r h1) (h3 s h)

theorem argminAux_spec (xs pre : List (F K)) (best : F K) (bi : Nat) (hbi : bi < pre.length)
    (hb : pre[bi] = best) (h1 : ∀ j (hj : j < pre.length), nle best pre[j])
    (h2 : ∀ j (hj : j < bi), ¬ nle (pre[j]'(by omega)) best) :
    IsFirstMin (pre ++ xs) (argminAux best bi pre.length xs) := by
  induction xs generalizing pre best bi with
  | nil =>
    simp only [argminAux, List.append_nil]
    exact ⟨hbi, by rw [hb]; exact h1, by rw [hb]; exact h2⟩
  | cons x xs ih =>
    simp only [argminAux]
    by_cases hn : best.isNaN = true
    · rw [if_pos hn]
      rw [F.isNaN_iff] at hn
      refine ⟨by simp; omega, ?_, ?_⟩
      · intro j hj
        rw [List.getElem_append_left hbi, hb, hn]; exact nle_nan_left _
      · intro j hj
        rw [List.getElem_append_left hbi, hb, List.getElem_append_left (by omega)]
        exact h2 j hj
    · rw [if_neg hn]
      rw [F.isNaN_iff] at hn
      have hL : pre ++ x :: xs = (pre ++ [x]) ++ xs := by simp
      rw [hL]
      have hlen : pre.length + 1 = (pre ++ [x]).length := by simp
      by_cases hle : F.le best x = true
      · rw [if_pos hle, hlen]
        refine ih _ _ _ (by simp; omega) ?_ ?_ ?_
        · rw [List.getElem_append_left hbi, hb]
        · intro j hj
          by_cases hj' : j < pre.length
          · rw [List.getElem_append_left hj']; exact h1 j hj'
          · have : j = pre.length := by simp at hj; omega
            subst this
            simp only [List.getElem_concat_length]
            refine Or.inr ⟨?_, hle⟩
            rintro rfl; simp at hle
        · intro j hj
          rw [List.getElem_append_left (by omega)]; exact h2 j hj
      · rw [if_neg hle, hlen]
        have hnx : ¬ nle best x := by
          rintro (h | ⟨_, h⟩)
          · exact hn h
          · exact hle h
        have hxb : nle x best := (nle_total best x).resolve_left hnx
        refine ih _ _ _ (by simp) ?_ ?_ ?_
        · simp
        · intro j hj
          by_cases hj' : j < pre.length
          · rw [List.getElem_append_left hj']; exact nle_trans hxb (h1 j hj')
          · have : j = pre.length := by simp at hj; omega
            subst this
            simp only [List.getElem_concat_length]
            exact nle_refl _
        · intro j hj
          rw [List.getElem_append_left hj]
          exact fun h => hnx (nle_trans (h1 j hj) h)

theorem npArgmin_spec {L : List (F K)} (hL : L ≠ []) : ∃ r, npArgmin L = .ok r ∧ IsFirstMin L r := by
  cases L with
  | nil => exact absurd rfl hL
  | cons x xs =>
    refine ⟨_, rfl, ?_⟩
    have := argminAux_spec xs [x] x 0 (by simp) rfl
      (by intro j hj; have : j = 0 := by simp at hj; omega
          subst this; exact nle_refl _)
      (by intro j hj; omega)
    simpa using this

/-- The crossing condition of `closest_value_index`. -/
def crossing (growing : Bool) (v a : F K) : Bool := if growing then F.le v a else F.le a v

/-- `k` is the first position where the array reaches the value. -/
def FirstCross (growing : Bool) (v : F K) (a : List (F K)) (k : Nat) : Prop :=
  ∃ h : k < a.length, crossing growing v a[k] = true ∧ ∀ j (hj : j < k), crossing growing v (a[j]'(by omega)) = false

theorem FirstCross.unique {g : Bool} {v : F K} {a : List (F K)} {k l : Nat} (h : FirstCross g v a k)
    (h' : FirstCross g v a l) : k = l := by
  obtain ⟨h1, h2, h3⟩ := h
  obtain ⟨g1, g2, g3⟩ := h'
  rcases lt_trichotomy k l with h | h | h
  · rw [g3 k h] at h2; exact absurd h2 (by simp)
  · exact h
  · rw [h3 l h] at g2; exact absurd g2 (by simp)

/-- Full description of `closest_value_index` on arbitrary float arrays. -/
theorem closestValueIndex_spec (v : F K) (a : List (F K)) (g : Bool) :
    (closestValueIndex v a g = .ok none ∧ ∀ x ∈ a, crossing g v x = false) ∨
    ∃ k i, FirstCross g v a k ∧ closestValueIndex v a g = .ok (some i) ∧
      ∃ hi : i ≤ k, ∃ hk : k < a.length,
        (∀ j (hj : j ≤ k), nle (F.abs (a[i] - v)) (F.abs (a[j] - v))) ∧
        ∀ j (hj : j < i), ¬ nle (F.abs (a[j] - v)) (F.abs (a[i] - v)) := by
  have hdef : closestValueIndex v a g = (match firstWhere (crossing g v) a with
      | none => .ok none
      | some idx => npArgmin ((a.take (idx + 1)).map fun x => F.abs (x - v)) >>= fun i => .ok (some i)) := rfl
  rw [hdef]
  cases hw : firstWhere (crossing g v) a with
  | none =>
    left
    exact ⟨rfl, firstWhere_eq_none.1 hw⟩
  | some k =>
    right
    obtain ⟨hk, h2, h3⟩ := firstWhere_eq_some.1 hw
    have hne : ((a.take (k + 1)).map fun x => F.abs (x - v)) ≠ [] := by
      intro h
      have := congrArg List.length h
      simp at this
      subst this; simp at hk
    obtain ⟨r, hr, hr1, hr2, hr3⟩ := npArgmin_spec hne
    have hrk : r ≤ k := by
      simp at hr1; omega
    refine ⟨k, r, ⟨hk, h2, h3⟩, ?_, hrk, hk, ?_, ?_⟩
    · simp only [hr, Except.bind_ok]
    · intro j hj
      have := hr2 j (by simp; omega)
      simpa using this
    · intro j hj
      have := hr3 j hj
      simpa using this

theorem closestValueIndex_none_iff (v : F K) (a : List (F K)) (g : Bool) :
    closestValueIndex v a g = .ok none ↔ ∀ x ∈ a, crossing g v x = false := by
  rcases closestValueIndex_spec v a g with ⟨h1, h2⟩ | ⟨k, i, ⟨hk, hc, _⟩, h2, _⟩
  · exact ⟨fun _ => h2, fun _ => h1⟩
  · rw [h2]
    constructor
    · intro h; cases h
    · intro h
      rw [h _ (List.getElem_mem hk)] at hc
      exact absurd hc (by simp)

theorem closestValueIndex_total (v : F K) (a : List (F K)) (g : Bool) : ∃ o, closestValueIndex v a g = .ok o := by
  rcases closestValueIndex_spec v a g with ⟨h1, _⟩ | ⟨k, i, _, h2, _⟩
  · exact ⟨_, h1⟩
  · exact ⟨_, h2⟩

theorem closestValueIndex_lt {v : F K} {a : List (F K)} {g : Bool} {i : Nat}
    (h : closestValueIndex v a g = .ok (some i)) : i < a.length := by
  rcases closestValueIndex_spec v a g with ⟨h1, _⟩ | ⟨k, i', _, h2, hi, hk, _⟩
  · rw [h1] at h; cases h
  · rw [h2] at h; injection h with h; injection h with h; omega

section mono
variable [IsStrictOrderedRing K]

theorem absSub_fin (x v : K) : F.abs (fin x - fin v) = fin |x - v| := by rw [fin_sub, abs_fin]
theorem absSub_pinf (v : K) : F.abs (pinf - fin v : F K) = pinf := rfl
theorem absSub_ninf (v : K) : F.abs (ninf - fin v : F K) = pinf := rfl

theorem antitone_aux {v1 v2 : K} (hv : v1 ≤ v2) {A B : F K} (x1 : F.le A (fin v2) = false)
    (n1 : ¬ nle (F.abs (A - fin v2)) (F.abs (B - fin v2))) (m1 : nle (F.abs (A - fin v1)) (F.abs (B - fin v1))) :
    False := by
  cases A with
  | nan => exact n1 (Or.inl rfl)
  | ninf => exact absurd x1 (by simp [F.le])
  | pinf =>
    rw [absSub_pinf] at n1 m1
    cases B with
    | nan => simp [nle] at m1
    | ninf => exact n1 (nle_refl _)
    | pinf => exact n1 (nle_refl _)
    | fin y => rw [absSub_fin] at m1; simp [nle, F.le] at m1
  | fin x =>
    rw [absSub_fin] at n1 m1
    cases B with
    | nan => simp [nle] at m1
    | ninf => rw [absSub_ninf] at n1; simp [nle, F.le] at n1
    | pinf => rw [absSub_pinf] at n1; simp [nle, F.le] at n1
    | fin y =>
      rw [absSub_fin, nle_fin] at n1 m1
      simp only [le_fin, decide_eq_false_iff_not, not_le] at x1 n1
      rw [abs_of_pos (a := x - v2) (by linarith)] at n1
      rw [abs_of_pos (a := x - v1) (by linarith)] at m1
      rcases abs_cases (y - v1) with ⟨h, _⟩ | ⟨h, _⟩ <;> rcases abs_cases (y - v2) with ⟨h', _⟩ | ⟨h', _⟩ <;>
        rw [h] at m1 <;> rw [h'] at n1 <;> linarith

/-- Raising the value never moves the chosen index of a falling search to the right.  Holds for every float array. -/
theorem closestValueIndex_antitone {a : List (F K)} {v1 v2 : K} (hv : v1 ≤ v2) {i1 : Nat}
    (h : closestValueIndex (fin v1) a false = .ok (some i1)) :
    ∃ i2, closestValueIndex (fin v2) a false = .ok (some i2) ∧ i2 ≤ i1 := by
  rcases closestValueIndex_spec (fin v1) a false with ⟨h1, _⟩ | ⟨k1, i1', ⟨hk1, hc1, hf1⟩, h2, hi1, _, hm1, hs1⟩
  · rw [h1] at h; cases h
  rw [h2] at h
  injection h with h
  injection h with h
  subst h
  have hcr : crossing false (fin v2) a[k1] = true := by
    simp only [crossing, Bool.false_eq_true, if_false] at hc1 ⊢
    exact F.le_trans' hc1 (by simpa using hv)
  rcases closestValueIndex_spec (fin v2) a false with ⟨_, g1⟩ | ⟨k2, i2, ⟨hk2, hc2, hf2⟩, g2, hi2, _, hm2, hs2⟩
  · rw [g1 _ (List.getElem_mem hk1)] at hcr; exact absurd hcr (by simp)
  refine ⟨i2, g2, ?_⟩
  have hk : k2 ≤ k1 := by
    by_contra hlt
    rw [hf2 k1 (by omega)] at hcr
    exact absurd hcr (by simp)
  by_contra hcon
  have hlt : i1' < i2 := by omega
  have n1 := hs2 i1' hlt
  have m1 := hm1 i2 (by omega)
  have x1 := hf2 i1' (by omega)
  simp only [crossing, Bool.false_eq_true, if_false] at x1
  exact antitone_aux hv x1 n1 m1

theorem F.le_neg (a b : F K) : F.le (-a) (-b) = F.le b a := by
  cases a <;> cases b <;> first | rfl | simp [F.le]

theorem F.neg_neg' (a : F K) : -(-a) = a := by
  cases a with
  | fin x => simp
  | _ => rfl

theorem F.abs_neg_sub (a b : F K) : F.abs (-a - -b) = F.abs (a - b) := by
  cases a <;> cases b <;> try rfl
  rename_i x y
  simp only [neg_fin, fin_sub, abs_fin]
  congr 1
  rw [← abs_neg]; congr 1; ring

theorem closestValueIndex_neg (v : F K) (a : List (F K)) (g : Bool) :
    closestValueIndex (-v) (a.map (fun x => -x)) g = closestValueIndex v a (!g) := by
  have hfw : ∀ (l : List (F K)), firstWhere (fun x => if g = true then F.le (-v) x else F.le x (-v)) (l.map (fun x => -x)) =
      firstWhere (fun x => if (!g) = true then F.le v x else F.le x v) l := by
    intro l
    induction l with
    | nil => rfl
    | cons x l ih =>
      simp only [List.map_cons, firstWhere, ih]
      cases g <;> simp [F.le_neg]
  unfold closestValueIndex
  rw [hfw]
  cases firstWhere (fun x => if (!g) = true then F.le v x else F.le x v) a with
  | none => rfl
  | some k =>
    simp only [← List.map_take, List.map_map, Function.comp_def, F.abs_neg_sub]

/-- Lowering the value never moves the chosen index of a growing search to the right. -/
theorem closestValueIndex_monotone {a : List (F K)} {v1 v2 : K} (hv : v1 ≤ v2) {i2 : Nat}
    (h : closestValueIndex (fin v2) a true = .ok (some i2)) :
    ∃ i1, closestValueIndex (fin v1) a true = .ok (some i1) ∧ i1 ≤ i2 := by
  have e1 := closestValueIndex_neg (fin v2) a false
  have e2 := closestValueIndex_neg (fin v1) a false
  simp only [neg_fin, Bool.not_false] at e1 e2
  rw [← e1] at h
  rw [← e2]
  exact closestValueIndex_antitone (neg_le_neg hv) h

end mono

end Verif

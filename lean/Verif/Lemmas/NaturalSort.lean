import Verif.Model.UtilsMore
import Verif.Spec.NaturalSort
import Verif.Lemmas.NumPy
import Mathlib.Data.List.Sort

/-!
# Lemmas on natural sorting
-/

set_option linter.unusedSectionVars false

namespace Verif

open Spec

/-! ### `re.split` -/

theorem reSplit_ne_nil (s : Str) : ∃ t rest, reSplit s = t :: rest := by
  induction s with
  | nil => exact ⟨[], [], rfl⟩
  | cons c s ih =>
    obtain ⟨t, rest, h⟩ := ih
    simp only [reSplit, h]
    split
    · split <;> exact ⟨_, _, rfl⟩
    · exact ⟨_, _, rfl⟩

theorem reSplit_text (t s : Str) (ht : Text t) {u : Str} {rest : List Str} (h : reSplit s = u :: rest) :
    reSplit (t ++ s) = (t ++ u) :: rest := by
  induction t with
  | nil => simpa using h
  | cons c t ih =>
    have h1 := ih (fun x hx => ht x (by simp [hx]))
    have h2 := ht c (by simp)
    simp [reSplit, h1, h2]

theorem reSplit_digits (d s : Str) (hd : Digits d) {u : Str} {rest : List Str} (h : reSplit s = u :: rest)
    (hu : u = [] → rest = []) : reSplit (d ++ s) = [] :: d :: u :: rest := by
  obtain ⟨hne, hd⟩ := hd
  induction d with
  | nil => exact absurd rfl hne
  | cons c d ih =>
    have h2 := hd c (by simp)
    cases d with
    | nil =>
      simp only [List.singleton_append, reSplit, h, h2, if_true]
      cases u with
      | nil => rw [hu rfl]
      | cons a u => rfl
    | cons c' d =>
      have h1 := ih (by simp) (fun x hx => hd x (by simp only [List.mem_cons] at hx ⊢; tauto))
      rw [List.cons_append, reSplit, h1]
      simp [h2]

/-- Cutting a string that is given in pieces returns the pieces. -/
theorem reSplit_flatten {ps : List Str} (h : Pieces ps) : reSplit ps.flatten = ps := by
  induction h with
  | last ht => simpa using reSplit_text _ [] ht (u := []) (rest := []) rfl
  | @step t d u rest ht hd hu hp ih =>
    have h1 := reSplit_digits d _ hd ih hu
    have h2 := reSplit_text t _ ht h1
    simpa using h2

theorem reSplit_pieces (s : Str) : Pieces (reSplit s) ∧ (reSplit s).flatten = s := by
  induction s with
  | nil => exact ⟨.last (by simp [Text]), rfl⟩
  | cons c s ih =>
    obtain ⟨hp, hf⟩ := ih
    cases hs : reSplit s with
    | nil => rw [hs] at hp; cases hp
    | cons t rest =>
      rw [hs] at hp hf
      by_cases hc : c.isDigit = true
      · cases t with
        | nil =>
          cases rest with
          | nil =>
            have : reSplit (c :: s) = [[], [c], []] := by simp [reSplit, hs, hc]
            rw [this]
            refine ⟨.step (by simp [Text]) ⟨by simp, by simpa using hc⟩ (by simp) hp, by simpa using hf⟩
          | cons d rest' =>
            have : reSplit (c :: s) = [] :: (c :: d) :: rest' := by simp [reSplit, hs, hc]
            rw [this]
            cases hp with
            | step ht hd hu hp =>
              refine ⟨.step ht ⟨by simp, ?_⟩ hu hp, by simpa using hf⟩
              intro x hx
              rcases List.mem_cons.1 hx with hx | hx
              · rw [hx]; exact hc
              · exact hd.2 x hx
        | cons a t =>
          have : reSplit (c :: s) = [] :: [c] :: (a :: t) :: rest := by simp [reSplit, hs, hc]
          rw [this]
          exact ⟨.step (by simp [Text]) ⟨by simp, by simpa using hc⟩ (by simp) hp, by simpa using hf⟩
      · have : reSplit (c :: s) = (c :: t) :: rest := by rw [reSplit, hs]; simp [hc]
        rw [this]
        have hc' : c.isDigit = false := by simpa using hc
        have hT : ∀ t : Str, Text t → Text (c :: t) := by
          intro t ht x hx
          rcases List.mem_cons.1 hx with hx | hx
          · rw [hx]; exact hc'
          · exact ht x hx
        refine ⟨?_, by simpa using hf⟩
        cases hp with
        | last ht => exact .last (hT _ ht)
        | step ht hd hu hp => exact .step (hT _ ht) hd hu hp

theorem pieces_unique {ps : List Str} {s : Str} (h : Pieces ps) (hs : ps.flatten = s) : ps = reSplit s := by
  rw [← hs, reSplit_flatten h]

/-! ### Keys -/

theorem foldl_decVal (t : Str) (a : Nat) :
    t.foldl (fun a c => 10 * a + (c.toNat - '0'.toNat)) a = a * 10 ^ t.length + decVal t := by
  induction t generalizing a with
  | nil => simp [decVal]
  | cons c t ih =>
    simp only [List.foldl_cons, ih, decVal, List.length_cons, pow_succ]
    have : '0'.toNat = 48 := rfl
    rw [this]; ring

/-- The key of a string with no digit run longer than python's limit. -/
def tokOf (p : Str) : Tok :=
  if p ≠ [] ∧ p.all Char.isDigit then .num (decVal p) else .str (p.map Char.toLower)

theorem convert_ok {p : Str} (h : p.all Char.isDigit = true → p.length ≤ 4300) : convert p = .ok (tokOf p) := by
  unfold convert tokOf
  by_cases hp : p ≠ [] ∧ p.all Char.isDigit = true
  · rw [if_pos hp, if_pos hp]
    have := h hp.2
    simp only [pyInt, if_neg (show ¬ 4300 < p.length by omega), foldl_decVal]
    simp [Except.bind_ok]
  · rw [if_neg hp, if_neg hp]

theorem convert_error {p : Str} (h : p.all Char.isDigit = true) (hl : 4300 < p.length) : convert p = .error .valueError := by
  have hp : p ≠ [] := by rintro rfl; simp at hl
  unfold convert
  rw [if_pos ⟨hp, h⟩, pyInt, if_pos hl]; rfl

/-- The code points of a key element. -/
def Tok.code : Tok → List Nat
  | .str s => s.map Char.toNat
  | .num n => [n]

theorem code_tokOf (p : Str) : (tokOf p).code = pieceKey p := by
  unfold tokOf pieceKey
  split
  · rfl
  · simp [Tok.code]

theorem strLt_iff (a b : Str) : strLt a b = true ↔ a.map Char.toNat < b.map Char.toNat := by
  induction a generalizing b with
  | nil => cases b <;> simp [strLt]
  | cons x a ih =>
    cases b with
    | nil => simp [strLt]
    | cons y b =>
      simp only [strLt, List.map_cons, List.cons_lt_cons_iff]
      by_cases h : x = y
      · subst h; simp [ih]
      · have hne : x.toNat ≠ y.toNat := fun e => h (Char.toNat_inj.1 e)
        simp [h, hne]

/-- Two keys whose elements have the same kinds position by position. -/
inductive SameKinds : List Tok → List Tok → Prop
  | nilL (t) : SameKinds [] t
  | nilR (t) : SameKinds t []
  | str {a b s t} : SameKinds s t → SameKinds (.str a :: s) (.str b :: t)
  | num {a b s t} : SameKinds s t → SameKinds (.num a :: s) (.num b :: t)

theorem keyLt_iff {s t : List Tok} (h : SameKinds s t) :
    keyLt s t = .ok (decide (s.map Tok.code < t.map Tok.code)) := by
  induction h with
  | nilL t => cases t <;> simp [keyLt]
  | nilR t => cases t <;> simp [keyLt]
  | @str a b s t _ ih =>
    simp only [keyLt, tokLt, List.map_cons, List.cons_lt_cons_iff, Tok.str.injEq, Tok.code]
    by_cases hab : a = b
    · subst hab; simp [ih]
    · have : a.map Char.toNat ≠ b.map Char.toNat := fun e => hab (List.map_injective_iff.2 (fun _ _ => Char.toNat_inj.1) e)
      rw [if_neg hab]
      simp only [this, false_and, or_false, Except.ok.injEq]
      rw [Bool.eq_iff_iff, strLt_iff]; simp
  | @num a b s t _ ih =>
    simp only [keyLt, tokLt, List.map_cons, List.cons_lt_cons_iff, Tok.num.injEq, Tok.code]
    by_cases hab : a = b
    · subst hab; simp [ih]
    · simp [hab]

theorem tokOf_text {t : Str} (h : Text t) : tokOf t = .str (t.map Char.toLower) := by
  unfold tokOf
  rw [if_neg]
  rintro ⟨h1, h2⟩
  cases t with
  | nil => exact h1 rfl
  | cons c t =>
    have := h c (by simp)
    simp [this] at h2

theorem tokOf_digits {t : Str} (h : Digits t) : tokOf t = .num (decVal t) := by
  unfold tokOf
  rw [if_pos ⟨h.1, by simpa using h.2⟩]

theorem sameKinds_pieces {ps qs : List Str} (hp : Pieces ps) (hq : Pieces qs) : SameKinds (ps.map tokOf) (qs.map tokOf) := by
  induction hp generalizing qs with
  | last ht =>
    cases hq with
    | last hu => simp only [List.map_cons, List.map_nil, tokOf_text ht, tokOf_text hu]; exact .str (.nilL _)
    | step hu hd _ _ => simp only [List.map_cons, List.map_nil, tokOf_text ht, tokOf_text hu]; exact .str (.nilL _)
  | step ht hd hu hp ih =>
    cases hq with
    | last hu' => simp only [List.map_cons, List.map_nil, tokOf_text ht, tokOf_text hu']; exact .str (.nilR _)
    | step ht' hd' hu' hq' =>
      have := ih hq'
      simp only [List.map_cons, tokOf_text ht, tokOf_text ht', tokOf_digits hd, tokOf_digits hd'] at this ⊢
      exact .str (.num this)

/-! ### Sorting -/

/-- When all comparisons between members succeed, the sort is the stable insertion sort. -/
theorem pySorted_eq {α : Type} (lt : α → α → Except PyErr Bool) (f : α → α → Bool) (l : List α)
    (h : ∀ a ∈ l, ∀ b ∈ l, lt a b = .ok (f a b)) :
    pySorted lt l = .ok (l.insertionSort fun a b => f b a = false) := by
  have hins : ∀ (a : α) (l : List α), (∀ b ∈ l, lt b a = .ok (f b a)) →
      insertM lt a l = .ok (l.orderedInsert (fun a b => f b a = false) a) := by
    intro a l hl
    induction l with
    | nil => rfl
    | cons b l ih =>
      simp only [insertM, hl b (by simp), Except.bind_ok, List.orderedInsert_cons]
      cases hb : f b a with
      | false => simp; rfl
      | true => simp [ih (fun c hc => hl c (by simp [hc])), Except.bind_ok]
  induction l with
  | nil => rfl
  | cons a l ih =>
    rw [pySorted, ih (fun x hx y hy => h x (by simp [hx]) y (by simp [hy])), Except.bind_ok, List.insertionSort_cons]
    apply hins
    intro b hb
    rw [List.mem_insertionSort] at hb
    exact h b (by simp [hb]) a (by simp)

end Verif

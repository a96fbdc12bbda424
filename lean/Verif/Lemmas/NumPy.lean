import Verif.Base.NumPy
import Mathlib.Data.List.Forall2

/-!
# Facts about the numpy primitives
-/

set_option linter.unusedSectionVars false

namespace Verif

open F

section generic
variable {α β : Type}

theorem Except.bind_ok {ε α β : Type} (a : α) (f : α → Except ε β) : (Except.ok a >>= f) = f a := rfl
theorem Except.bind_err {ε α β : Type} (e : ε) (f : α → Except ε β) :
    ((Except.error e : Except ε α) >>= f) = Except.error e := rfl

theorem bind_eq_ok {ε α β : Type} {x : Except ε α} {f : α → Except ε β} {b : β} :
    (x >>= f) = .ok b ↔ ∃ a, x = .ok a ∧ f a = .ok b := by
  cases x with
  | error e => simp [Except.bind_err]
  | ok a => simp [Except.bind_ok]

theorem bind_error' {ε : Type} (e : ε) (f : α → Except ε β) : (Except.error e >>= f) = Except.error e := rfl

/-- `mapM` in `Except` succeeds exactly when every call does. -/
theorem mapM_eq_ok {ε : Type} {f : α → Except ε β} {l : List α} {r : List β} :
    l.mapM f = .ok r ↔ List.Forall₂ (fun a b => f a = .ok b) l r := by
  induction l generalizing r with
  | nil =>
    rw [List.mapM_nil]
    constructor
    · intro h
      have : r = [] := by injection h with h; exact h.symm
      subst this; exact .nil
    · intro h; cases h; rfl
  | cons a l ih =>
    rw [List.mapM_cons, bind_eq_ok]
    constructor
    · rintro ⟨b, hb, h⟩
      rw [bind_eq_ok] at h
      obtain ⟨bs, hbs, h⟩ := h
      have : r = b :: bs := by injection h with h; exact h.symm
      subst this
      exact .cons hb (ih.1 hbs)
    · intro h
      cases h with
      | cons h1 h2 =>
        refine ⟨_, h1, ?_⟩
        rw [bind_eq_ok]
        exact ⟨_, ih.2 h2, rfl⟩

theorem mapM_ok_of_forall {ε : Type} {f : α → Except ε β} {g : α → β} {l : List α}
    (h : ∀ a ∈ l, f a = .ok (g a)) : l.mapM f = .ok (l.map g) := by
  rw [mapM_eq_ok]
  induction l with
  | nil => exact .nil
  | cons a l ih => exact .cons (h a (by simp)) (ih fun b hb => h b (by simp [hb]))

theorem mapM_length {ε : Type} {f : α → Except ε β} {l : List α} {r : List β} (h : l.mapM f = .ok r) :
    r.length = l.length := ((mapM_eq_ok.1 h).length_eq).symm

theorem mapM_getElem {ε : Type} {f : α → Except ε β} {l : List α} {r : List β} (h : l.mapM f = .ok r)
    (i : Nat) (hi : i < l.length) : ∃ hi' : i < r.length, f l[i] = .ok r[i] := by
  have hl := mapM_length h
  refine ⟨by omega, ?_⟩
  have := (List.forall₂_iff_get.1 (mapM_eq_ok.1 h)).2 i hi (by omega)
  simpa using this

theorem mapM_congr {ε : Type} {f g : α → Except ε β} {l : List α} (h : ∀ a ∈ l, f a = g a) :
    l.mapM f = l.mapM g := by
  induction l with
  | nil => rfl
  | cons a l ih =>
    rw [List.mapM_cons, List.mapM_cons, h a (by simp), ih fun b hb => h b (by simp [hb])]

theorem fancyIndex_ok {a : List α} {idx : List Nat} (h : ∀ i ∈ idx, i < a.length) :
    ∃ r, fancyIndex a idx = .ok r ∧ r.length = idx.length ∧
      ∀ j (hj : j < idx.length) , r[j]? = a[idx[j]]? := by
  have key : ∃ r, fancyIndex a idx = .ok r := by
    induction idx with
    | nil => exact ⟨[], rfl⟩
    | cons i idx ih =>
      obtain ⟨r, hr⟩ := ih fun j hj => h j (by simp [hj])
      have hi := h i (by simp)
      refine ⟨a[i] :: r, ?_⟩
      unfold fancyIndex at hr ⊢
      rw [List.mapM_cons, hr]
      simp [hi, Except.bind_ok]
  obtain ⟨r, hr⟩ := key
  have hl := mapM_length hr
  refine ⟨r, hr, hl, ?_⟩
  intro j hj
  obtain ⟨hj', hjj⟩ := mapM_getElem hr j hj
  have hi := h idx[j] (List.getElem_mem hj)
  simp only [List.getElem?_eq_getElem hi] at hjj
  injection hjj with hjj
  rw [List.getElem?_eq_getElem hj', List.getElem?_eq_getElem hi, hjj]

theorem fancyIndex_range {a : List α} {n : Nat} (h : a.length = n) : fancyIndex a (List.range n) = .ok a := by
  obtain ⟨r, hr, hl, hg⟩ := fancyIndex_ok (a := a) (idx := List.range n) (by intro i hi; rw [List.mem_range] at hi; omega)
  rw [hr]
  congr 1
  apply List.ext_getElem?
  intro j
  by_cases hj : j < n
  · rw [hg j (by simpa using hj)]; simp
  · rw [List.getElem?_eq_none (by rw [hl]; simpa using hj), List.getElem?_eq_none (by omega)]

theorem firstWhere_eq_none {p : α → Bool} {l : List α} : firstWhere p l = none ↔ ∀ a ∈ l, p a = false := by
  induction l with
  | nil => simp [firstWhere]
  | cons a l ih =>
    by_cases h : p a = true
    · simp [firstWhere, h]
    · simp only [Bool.not_eq_true] at h
      simp [firstWhere, h, ih]

theorem firstWhere_eq_some {p : α → Bool} {l : List α} {k : Nat} :
    firstWhere p l = some k ↔ ∃ h : k < l.length, p l[k] = true ∧ ∀ j (hj : j < k), p (l[j]'(by omega)) = false := by
  induction l generalizing k with
  | nil => simp [firstWhere]
  | cons a l ih =>
    by_cases h : p a = true
    · simp only [firstWhere, h, if_true]
      constructor
      · intro hk; injection hk with hk; subst hk
        exact ⟨by simp, by simpa using h, by intro j hj; omega⟩
      · rintro ⟨hk, _, h2⟩
        cases k with
        | zero => rfl
        | succ k => have := h2 0 (by omega); simp [h] at this
    · simp only [Bool.not_eq_true] at h
      simp only [firstWhere, h, Bool.false_eq_true, if_false, Option.map_eq_some_iff]
      constructor
      · rintro ⟨j, hj, rfl⟩
        obtain ⟨h1, h2, h3⟩ := ih.1 hj
        refine ⟨by simpa using h1, by simpa using h2, ?_⟩
        intro i hi
        cases i with
        | zero => simpa using h
        | succ i => simpa using h3 i (by omega)
      · rintro ⟨h1, h2, h3⟩
        cases k with
        | zero => simp [h] at h2
        | succ k =>
          refine ⟨k, ih.2 ⟨by simpa using h1, by simpa using h2, ?_⟩, rfl⟩
          intro j hj
          simpa using h3 (j + 1) (by omega)

end generic

section
variable {K : Type} [Field K] [LinearOrder K]

@[simp] theorem npDiff_length (l : List (F K)) : (npDiff l).length = l.length - 1 := by
  simp [npDiff]

theorem npDiff_getElem (l : List (F K)) (i : Nat) (h : i + 1 < l.length) :
    (npDiff l)[i]'(by simp; omega) = l[i + 1] - l[i] := by
  simp [npDiff]

theorem uniqueInverseAux_length (n : Nat) (l : List (F K)) : (uniqueInverseAux n l).length = l.length - 1 := by
  induction l generalizing n with
  | nil => simp [uniqueInverseAux]
  | cons a l ih =>
    cases l with
    | nil => simp [uniqueInverseAux]
    | cons b l => simp [uniqueInverseAux, ih]

theorem uniqueInverse_length (l : List (F K)) : (uniqueInverse l).length = l.length := by
  cases l with
  | nil => rfl
  | cons a l => simp [uniqueInverse, uniqueInverseAux_length]

theorem uniqueInverseAux_le (n : Nat) (l : List (F K)) (i : Nat) (h : i < (uniqueInverseAux n l).length) :
    (uniqueInverseAux n l)[i] ≤ n + i + 1 := by
  induction l generalizing n i with
  | nil => simp [uniqueInverseAux] at h
  | cons a l ih =>
    cases l with
    | nil => simp [uniqueInverseAux] at h
    | cons b l =>
      simp only [uniqueInverseAux]
      cases i with
      | zero => simp; split <;> omega
      | succ i =>
        simp only [uniqueInverseAux] at h
        have h' : i < (uniqueInverseAux (if F.eqv a b = true then n else n + 1) (b :: l)).length := by simpa using h
        have := ih (if F.eqv a b = true then n else n + 1) i h'
        simp only [List.getElem_cons_succ]
        have h2 : (if F.eqv a b = true then n else n + 1) ≤ n + 1 := by split <;> omega
        omega

theorem uniqueInverse_lt (l : List (F K)) (i : Nat) (h : i ∈ uniqueInverse l) : i < l.length := by
  cases l with
  | nil => simp [uniqueInverse] at h
  | cons a l =>
    simp only [uniqueInverse, List.mem_cons] at h
    rcases h with h | h
    · simp [h]
    · obtain ⟨j, hj, rfl⟩ := List.getElem_of_mem h
      have := uniqueInverseAux_le 0 (a :: l) j hj
      rw [uniqueInverseAux_length] at hj
      simp at hj
      simp; omega

theorem uniqueInverseAux_prefix (n : Nat) (l : List (F K)) (i : Nat) (h : i + 1 < l.length)
    (hne : ∀ j (hj : j ≤ i), F.eqv l[j] l[j + 1] = false) :
    (uniqueInverseAux n l)[i]? = some (n + i + 1) := by
  induction l generalizing n i with
  | nil => simp at h
  | cons a l ih =>
    cases l with
    | nil => simp at h
    | cons b l =>
      have h0 := hne 0 (by omega)
      simp only [List.getElem_cons_zero, List.getElem_cons_succ] at h0
      simp only [uniqueInverseAux, h0, Bool.false_eq_true, if_false]
      cases i with
      | zero => simp
      | succ i =>
        simp only [List.getElem?_cons_succ]
        rw [ih (n + 1) i (by simpa using h) (fun j hj => hne (j + 1) (by omega))]
        congr 1; omega

/-- The inverse index at a position before which no two neighbours are equal is that position. -/
theorem uniqueInverse_prefix (l : List (F K)) (i : Nat) (h : i < l.length)
    (hne : ∀ j (hj : j < i), F.eqv l[j] l[j + 1] = false) :
    (uniqueInverse l)[i]? = some i := by
  cases l with
  | nil => simp at h
  | cons a l =>
    cases i with
    | zero => rfl
    | succ i =>
      simp only [uniqueInverse, List.getElem?_cons_succ]
      rw [uniqueInverseAux_prefix 0 (a :: l) i (by simpa using h) (fun j hj => hne j (by omega))]
      congr 1; omega

theorem uniqueInverseAux_of_ne (n : Nat) (l : List (F K))
    (h : ∀ i (hi : i + 1 < l.length), F.eqv l[i] l[i + 1] = false) :
    uniqueInverseAux n l = (List.range (l.length - 1)).map (· + (n + 1)) := by
  induction l generalizing n with
  | nil => simp [uniqueInverseAux]
  | cons a l ih =>
    cases l with
    | nil => simp [uniqueInverseAux]
    | cons b l =>
      have h0 := h 0 (by simp)
      simp only [List.getElem_cons_zero, List.getElem_cons_succ] at h0
      have := ih (n + 1) (fun i hi => h (i + 1) (by simpa using hi))
      simp only [uniqueInverseAux, h0, Bool.false_eq_true, if_false, this]
      rw [show (a :: b :: l).length - 1 = ((b :: l).length - 1) + 1 by simp, List.range_succ_eq_map]
      simp [List.map_map, Function.comp_def]
      intro i _; omega

/-- On an array without equal neighbours the inverse of `np.unique` is the identity. -/
theorem uniqueInverse_of_ne (l : List (F K))
    (h : ∀ i (hi : i + 1 < l.length), F.eqv l[i] l[i + 1] = false) :
    uniqueInverse l = List.range l.length := by
  cases l with
  | nil => rfl
  | cons a l =>
    simp only [uniqueInverse, uniqueInverseAux_of_ne 0 (a :: l) h, List.length_cons, Nat.add_sub_cancel]
    rw [List.range_succ_eq_map]

theorem uniqueInverseAux_map (f : K → K) (hf : Function.Injective f) (n : Nat) (l : List K) :
    uniqueInverseAux n ((l.map f).map fin) = uniqueInverseAux n (l.map fin) := by
  induction l generalizing n with
  | nil => rfl
  | cons a l ih =>
    cases l with
    | nil => rfl
    | cons b l =>
      have h : F.eqv (fin (f a)) (fin (f b)) = F.eqv (fin a) (fin b) := by
        rw [eqv_fin, eqv_fin, decide_eq_decide, hf.eq_iff]
      simp only [List.map_cons, uniqueInverseAux] at ih ⊢
      rw [h, ih]

theorem uniqueInverse_map (f : K → K) (hf : Function.Injective f) (l : List K) :
    uniqueInverse ((l.map f).map fin) = uniqueInverse (l.map fin) := by
  cases l with
  | nil => rfl
  | cons a l =>
    have := uniqueInverseAux_map f hf 0 (a :: l)
    simp only [List.map_cons, uniqueInverse] at this ⊢
    rw [this]

end

end Verif

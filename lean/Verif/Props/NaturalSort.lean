import Verif.Lemmas.NaturalSort

/-!
# C36: `natural_sort`
-/

set_option linter.unusedSectionVars false

namespace Verif.Props

open Verif Spec

/-- Every number in the string has at most 4300 digits (python's default limit for `int`). -/
def ShortNumbers (s : Str) : Prop := ∀ ps, Pieces ps → ps.flatten = s → ∀ d ∈ ps, Digits d → d.length ≤ 4300

theorem natLE_iff (s t : Str) : NatLE s t ↔ natKey (reSplit s) ≤ natKey (reSplit t) := by
  constructor
  · intro h
    exact h _ _ (reSplit_pieces s).1 (reSplit_pieces s).2 (reSplit_pieces t).1 (reSplit_pieces t).2
  · intro h ps qs hp hs hq ht
    rwa [pieces_unique hp hs, pieces_unique hq ht]

theorem natEq_iff (s t : Str) : NatEq s t ↔ natKey (reSplit s) = natKey (reSplit t) := by
  constructor
  · intro h
    exact h _ _ (reSplit_pieces s).1 (reSplit_pieces s).2 (reSplit_pieces t).1 (reSplit_pieces t).2
  · intro h ps qs hp hs hq ht
    rwa [pieces_unique hp hs, pieces_unique hq ht]

theorem pieces_mem {ps : List Str} (h : Pieces ps) : ∀ p ∈ ps, Text p ∨ Digits p := by
  induction h with
  | last ht => intro p hp; simp at hp; subst hp; exact Or.inl ht
  | step ht hd _ _ ih =>
    intro p hp
    rw [List.mem_cons, List.mem_cons] at hp
    rcases hp with hp | hp | hp
    · exact hp ▸ Or.inl ht
    · exact hp ▸ Or.inr hd
    · exact ih p hp

theorem text_all {p : Str} (h : Text p) (h' : p.all Char.isDigit = true) : p = [] := by
  cases p with
  | nil => rfl
  | cons c p => have := h c (by simp); simp [this] at h'

theorem alphanumKey_ok {s : Str} (h : ShortNumbers s) : alphanumKey s = .ok ((reSplit s).map tokOf) := by
  apply mapM_ok_of_forall
  intro p hp
  apply convert_ok
  intro hd
  have hP := reSplit_pieces s
  rcases pieces_mem hP.1 p hp with ht | hdg
  · rw [text_all ht hd]; simp
  · exact h _ hP.1 hP.2 p hp hdg

theorem code_key (s : Str) : ((reSplit s).map tokOf).map Tok.code = natKey (reSplit s) := by
  simp only [natKey, List.map_map]
  apply List.map_congr_left
  intro p _
  exact code_tokOf p

/-- The sort result, for lists without over-long numbers. -/
theorem naturalSort_eq (l : List Str) (h : ∀ s ∈ l, ShortNumbers s) :
    naturalSort l = .ok (l.insertionSort fun a b => natKey (reSplit a) ≤ natKey (reSplit b)) := by
  have h1 : l.mapM alphanumKey = .ok (l.map fun s => (reSplit s).map tokOf) :=
    mapM_ok_of_forall fun s hs => alphanumKey_ok (h s hs)
  have hz : (l.map fun s => (reSplit s).map tokOf).zip l = l.map fun s => ((reSplit s).map tokOf, s) := by
    clear h h1
    induction l with
    | nil => rfl
    | cons a l ih => simp [ih]
  have h2 : pySorted (fun a b => keyLt a.1 b.1) (l.map fun s => ((reSplit s).map tokOf, s)) =
      .ok ((l.map fun s => ((reSplit s).map tokOf, s)).insertionSort
        fun a b => decide (b.1.map Tok.code < a.1.map Tok.code) = false) := by
    apply pySorted_eq _ (fun a b : List Tok × Str => decide (a.1.map Tok.code < b.1.map Tok.code))
    intro a ha b hb
    obtain ⟨s, _, rfl⟩ := List.mem_map.1 ha
    obtain ⟨t, _, rfl⟩ := List.mem_map.1 hb
    exact keyLt_iff (sameKinds_pieces (reSplit_pieces s).1 (reSplit_pieces t).1)
  unfold naturalSort
  simp only [h1, Except.bind_ok, hz, h2]
  congr 1
  rw [← List.map_insertionSort (r := fun a b => natKey (reSplit a) ≤ natKey (reSplit b))
    (s := fun a b : List Tok × Str => decide (b.1.map Tok.code < a.1.map Tok.code) = false)
    (fun s => ((reSplit s).map tokOf, s))]
  · rw [List.map_map]; exact List.map_id _
  · intro a _ b _
    simp only [code_key, decide_eq_false_iff_not, not_lt]

/-- **C36.** On strings without numbers of more than 4300 digits `natural_sort` succeeds; the result is a permutation of the input, in
non-decreasing natural order, in which items with equal keys keep their order, and sorting it again changes nothing. -/
theorem C36_natural_sort_partial (l : List Str) (h : ∀ s ∈ l, ShortNumbers s) :
    ∃ out, naturalSort l = .ok out ∧ out.Perm l ∧ out.Pairwise NatLE ∧
      (∀ c : List Str, c.Sublist l → c.Pairwise NatEq → c.Sublist out) ∧ naturalSort out = .ok out := by
  let r : Str → Str → Prop := fun a b => natKey (reSplit a) ≤ natKey (reSplit b)
  haveI : Std.Total r := ⟨fun a b => le_total _ _⟩
  haveI : IsTrans Str r := ⟨fun a b c h1 h2 => le_trans h1 h2⟩
  have hp : (l.insertionSort r).Perm l := List.perm_insertionSort r l
  have hs : (l.insertionSort r).Pairwise r := List.pairwise_insertionSort r l
  refine ⟨_, naturalSort_eq l h, hp, hs.imp (fun {a b} hab => (natLE_iff a b).2 hab), ?_, ?_⟩
  · intro c hc he
    exact List.sublist_insertionSort (r := r) (he.imp (fun {a b} hab => le_of_eq ((natEq_iff a b).1 hab))) hc
  · rw [naturalSort_eq _ (fun s hs => h s (hp.mem_iff.1 hs))]
    congr 1
    exact hs.insertionSort_eq

/-- **C36, over-long numbers.** With python's default limit a string that contains a number of more than 4300 digits makes
`natural_sort` raise ValueError (not TypeError). -/
theorem C36_long_number (l : List Str) (s : Str) (hs : s ∈ l) (h : ¬ ShortNumbers s) :
    naturalSort l = .error .valueError := by
  have hE : ∀ t : Str, alphanumKey t = .ok ((reSplit t).map tokOf) ∨ alphanumKey t = .error .valueError := by
    intro t
    unfold alphanumKey
    induction reSplit t with
    | nil => exact Or.inl rfl
    | cons p ps ih =>
      rw [List.mapM_cons]
      by_cases hp : p.all Char.isDigit = true ∧ 4300 < p.length
      · rw [convert_error hp.1 hp.2]; exact Or.inr rfl
      · rw [convert_ok (fun hd => by by_contra hl; exact hp ⟨hd, by omega⟩)]
        rcases ih with ih | ih <;> rw [ih]
        · exact Or.inl rfl
        · exact Or.inr rfl
  have hbad : alphanumKey s = .error .valueError := by
    rcases hE s with h' | h'
    · exfalso
      apply h
      intro ps hp hf d hd hdig
      rw [pieces_unique hp hf] at hd
      by_contra hl
      obtain ⟨i, hi, rfl⟩ := List.getElem_of_mem hd
      obtain ⟨_, hq⟩ := mapM_getElem h' i hi
      rw [convert_error (by simpa using hdig.2) (by omega)] at hq
      cases hq
    · exact h'
  have : l.mapM alphanumKey = .error .valueError := by
    clear h
    induction l with
    | nil => simp at hs
    | cons t l ih =>
      rw [List.mapM_cons]
      rcases hE t with ht | ht <;> rw [ht]
      · rcases List.mem_cons.1 hs with hs | hs
        · rw [← hs, hbad] at ht; cases ht
        · rw [ih hs]; rfl
      · rfl
  unfold naturalSort
  rw [this]; rfl

theorem long_number (n : Nat) (hn : 4300 < n) : ¬ ShortNumbers (List.replicate n '7') := by
  intro h
  have hd : Digits (List.replicate n '7') := by
    refine ⟨fun h0 => by rw [List.replicate_eq_nil_iff] at h0; omega, ?_⟩
    intro c hc
    rw [(List.mem_replicate.1 hc).2]; rfl
  have := h [[], List.replicate n '7', []]
    (.step (fun _ h => by simp at h) hd (fun _ => rfl) (.last (fun _ h => by simp at h))) (by simp) _ (by simp) hd
  rw [List.length_replicate] at this
  omega

/-- **C36 is violated** as first stated (a result for every list): a one-element list with a string of more than 4300 digits raises. -/
theorem C36_violated (n : Nat) (hn : 4300 < n) : naturalSort [List.replicate n '7'] = .error .valueError :=
  C36_long_number _ _ (List.mem_singleton.2 rfl) (long_number n hn)

/-- The last piece of a string that does not end in a digit is followed seamlessly by more pieces. -/
theorem pieces_append {ps : List Str} (hp : Pieces ps) (hlast : ∀ c ∈ ps.flatten.getLast?, c.isDigit = false)
    {d : Str} (hd : Digits d) {u : Str} {rest : List Str} (hq : Pieces (u :: rest)) (hu : u = [] → rest = []) :
    Pieces (ps ++ d :: u :: rest) := by
  induction hp with
  | last ht => exact .step ht hd hu hq
  | @step t e v w ht he hv hp ih =>
    have hne : (v :: w).flatten ≠ [] := by
      intro h0
      have hv0 : v = [] := by simp at h0; exact h0.1
      have hw0 := hv hv0
      subst hv0 hw0
      have : (([t, e, []] : List Str).flatten).getLast? = e.getLast? := by
        simp [List.getLast?_append, Option.or]
        obtain ⟨x, hx⟩ : ∃ x, e.getLast? = some x := ⟨_, List.getLast?_eq_some_getLast he.1⟩
        rw [hx]
      rw [this] at hlast
      obtain ⟨x, hx⟩ : ∃ x, e.getLast? = some x := ⟨_, List.getLast?_eq_some_getLast he.1⟩
      have h1 := hlast x hx
      rw [he.2 x (List.mem_of_getLast? hx)] at h1
      cases h1
    have hl : ((t :: e :: v :: w).flatten).getLast? = ((v :: w).flatten).getLast? := by
      obtain ⟨x, hx⟩ : ∃ x, ((v :: w).flatten).getLast? = some x := ⟨_, List.getLast?_eq_some_getLast hne⟩
      rw [List.flatten_cons, List.flatten_cons, List.getLast?_append, List.getLast?_append, hx]
      rfl
    have ih' := ih (by rw [← hl]; exact hlast)
    rw [List.cons_append, List.cons_append]
    rw [List.cons_append] at ih'
    refine .step ht he ?_ ih'
    intro h0
    exfalso
    have hw0 := hv h0
    subst h0 hw0
    exact hne rfl

/-- **C36, numbers.** Two names with the same beginning that does not end in a digit, continued by numbers `a < b` (leading zeros
allowed) and then by anything that does not start with a digit: wherever both occur in the result, the smaller number comes first. -/
theorem C36_number_order (l out : List Str) (hout : naturalSort l = .ok out)
    (p a b s t : Str) (hp : ∀ c ∈ p.getLast?, c.isDigit = false) (ha : Digits a) (hb : Digits b) (hab : decVal a < decVal b)
    (hs : ∀ c ∈ s.head?, c.isDigit = false) (ht : ∀ c ∈ t.head?, c.isDigit = false) :
    (¬ NatLE (p ++ b ++ t) (p ++ a ++ s)) ∧
    ∀ i j (hi : i < out.length) (hj : j < out.length), out[i] = p ++ a ++ s → out[j] = p ++ b ++ t → i < j := by
  have hcut : ∀ (d s : Str), Digits d → (∀ c ∈ s.head?, c.isDigit = false) → ∃ u rest,
      reSplit (p ++ d ++ s) = reSplit p ++ d :: u :: rest := by
    intro d s hd hs
    obtain ⟨u, rest, he⟩ := reSplit_ne_nil s
    have hP := reSplit_pieces s
    rw [he] at hP
    have hu : u = [] → rest = [] := by
      rintro rfl
      cases rest with
      | nil => rfl
      | cons d' rest' =>
        exfalso
        cases hP.1 with
        | step _ hd' _ _ =>
          obtain ⟨hne, hdig⟩ := hd'
          cases d' with
          | nil => exact hne rfl
          | cons x d' =>
            have h1 : s.head? = some x := by rw [← hP.2]; simp
            have h2 := hs x h1
            rw [hdig x (by simp)] at h2
            cases h2
    refine ⟨u, rest, ?_⟩
    have hPp := reSplit_pieces p
    have := pieces_append hPp.1 (by rw [hPp.2]; exact hp) hd hP.1 hu
    symm
    apply pieces_unique this
    rw [List.flatten_append, hPp.2, List.flatten_cons, hP.2, List.append_assoc]
  have hlt : natKey (reSplit (p ++ a ++ s)) < natKey (reSplit (p ++ b ++ t)) := by
    obtain ⟨u, rest, h1⟩ := hcut a s ha hs
    obtain ⟨u', rest', h2⟩ := hcut b t hb ht
    rw [h1, h2]
    have ka : pieceKey a = [decVal a] := by unfold pieceKey; rw [if_pos ⟨ha.1, by simpa using ha.2⟩]
    have kb : pieceKey b = [decVal b] := by unfold pieceKey; rw [if_pos ⟨hb.1, by simpa using hb.2⟩]
    simp only [natKey, List.map_append, List.map_cons, ka, kb]
    generalize List.map pieceKey (reSplit p) = q
    induction q with
    | nil =>
      rw [List.nil_append, List.nil_append, List.cons_lt_cons_iff]
      left
      rw [List.cons_lt_cons_iff]
      exact Or.inl hab
    | cons x q ih => rw [List.cons_append, List.cons_append, List.cons_lt_cons_iff]; exact Or.inr ⟨rfl, ih⟩
  refine ⟨fun h => absurd ((natLE_iff _ _).1 h) (not_le.2 hlt), ?_⟩
  intro i j hi hj h1 h2
  by_contra hij
  have hshort : ∀ s ∈ l, ShortNumbers s := by
    intro s hs
    by_contra h
    rw [C36_long_number l s hs h] at hout
    cases hout
  obtain ⟨out', ho, -, hsort, -, -⟩ := C36_natural_sort_partial l hshort
  rw [hout] at ho
  cases ho
  rcases Nat.lt_or_ge j i with h | h
  · have := List.pairwise_iff_getElem.1 hsort j i hj hi h
    rw [h1, h2] at this
    exact absurd ((natLE_iff _ _).1 this) (not_le.2 hlt)
  · have : i = j := by omega
    subst this
    rw [h1] at h2
    rw [h2] at hlt
    exact lt_irrefl _ hlt

/-- Ten before two in plain order, two before ten in natural order; leading zeros and upper case do not matter. -/
example : (naturalSort ["img10.fits".toList, "IMG2.fits".toList, "img002.fits".toList, "7".toList, "a".toList]) =
    .ok ["7".toList, "a".toList, "IMG2.fits".toList, "img002.fits".toList, "img10.fits".toList] := by decide +kernel

example : ¬ NatLE ("f".toList ++ "10".toList ++ ".x".toList) ("f".toList ++ "009".toList ++ ".x".toList) :=
  (C36_number_order [] [] rfl "f".toList "009".toList "10".toList ".x".toList ".x".toList (by decide) (by constructor <;> decide)
    (by constructor <;> decide) (by decide) (by decide) (by decide)).1

end Verif.Props

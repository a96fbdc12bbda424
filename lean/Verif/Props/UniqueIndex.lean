import Verif.Lemmas.FluxRadius

/-!
# C117: the radius of a flux is interpolated from the first radii with each flux
-/

set_option linter.unusedSectionVars false

namespace Verif.Spec

/-- The indices `js` are those of the first occurrences of the values of `a`, by increasing value, NaN last. -/
structure FirstOccurrences {K : Type} [Field K] [LinearOrder K] (a : List (F K)) (js : List Nat) : Prop where
  sorted : js.Pairwise fun i j => ∃ x y, a[i]? = some x ∧ a[j]? = some y ∧ (F.lt x y = true ∨ (x ≠ F.nan ∧ y = F.nan))
  first : ∀ j ∈ js, ∃ x, a[j]? = some x ∧ ∀ i < j, a[i]? ≠ some x
  all : ∀ x ∈ a, ∃ j ∈ js, a[j]? = some x

end Verif.Spec

namespace Verif.Props

open F Spec Lemmas

section
variable {K : Type} [Field K] [LinearOrder K] [IsStrictOrderedRing K]

theorem uniqueInsert_self (v : F K) (i : Nat) (l : List (F K × Nat)) : (v, i) ∈ uniqueInsert v i l := by
  induction l with
  | nil => simp [uniqueInsert]
  | cons u l ih =>
    obtain ⟨u, j⟩ := u
    unfold uniqueInsert
    split_ifs
    · simp
    · simp
    · exact List.mem_cons_of_mem _ ih

theorem before_nodup {l : List (F K)} (h : l.Pairwise Before) : l.Nodup := by
  refine h.imp ?_
  rintro a b h rfl
  rcases h with h | ⟨h1, h2⟩
  · cases a <;> simp [F.lt] at h
  · exact h1 h2

/-- No pair of the list with the same value has a smaller index. -/
theorem uniqueFold_first (ps : List (F K × Nat)) (hps : ps.Pairwise fun p q => p.2 < q.2) :
    ((ps.foldr (fun t acc => uniqueInsert t.1 t.2 acc) []).map Prod.fst).Pairwise Before ∧
      ∀ t ∈ ps.foldr (fun t acc => uniqueInsert t.1 t.2 acc) [], ∀ p ∈ ps, p.1 = t.1 → t.2 ≤ p.2 := by
  induction ps with
  | nil => simp
  | cons q ps ih =>
    rw [List.pairwise_cons] at hps
    obtain ⟨ih1, ih2⟩ := ih hps.2
    have hpw := uniqueInsert_pairwise q.1 q.2 _ ih1
    refine ⟨hpw, fun t ht p hp he => ?_⟩
    have hinj : t.1 = q.1 → t = q := fun h =>
      List.inj_on_of_nodup_map (before_nodup hpw) ht (uniqueInsert_self q.1 q.2 _) h
    by_cases htq : t = q
    · subst htq
      rcases List.mem_cons.1 hp with rfl | hp
      · exact le_rfl
      · exact (hps.1 p hp).le
    · rcases uniqueInsert_entry _ _ _ _ ht with h | h
      · exact absurd h htq
      · rcases List.mem_cons.1 hp with rfl | hp
        · exact absurd (hinj he.symm) htq
        · exact ih2 t h p hp he

/-- **C117, repeated fluxes.** The radii between which the radius of a flux is interpolated are the first ones with each flux of the curve of growth. -/
theorem C117_first (a : List (F K)) : FirstOccurrences a ((uniqueIndex a).map Prod.snd) := by
  have hz : a.zipIdx.Pairwise fun p q => p.2 < q.2 := by
    rw [List.pairwise_iff_getElem]
    intro i j hi hj hij
    simpa using hij
  obtain ⟨h1, h2⟩ := uniqueFold_first a.zipIdx hz
  have hent := uniqueIndex_entry a
  refine ⟨?_, ?_, ?_⟩
  · rw [List.pairwise_map]
    rw [List.pairwise_map] at h1
    refine List.Pairwise.imp_of_mem (fun {t u} ht hu h => ?_) h1
    exact ⟨_, _, hent t ht, hent u hu, h⟩
  · intro j hj
    obtain ⟨t, ht, rfl⟩ := List.mem_map.1 hj
    refine ⟨_, hent t ht, fun i hi h => ?_⟩
    have h3 := h2 t ht (t.1, i) (by simpa [List.mem_zipIdx_iff_getElem?] using h) rfl
    exact absurd h3 (not_le.2 hi)
  · intro x hx
    obtain ⟨t, ht, rfl⟩ := List.mem_map.1 (((uniqueIndex_spec a).2 x).2 hx)
    exact ⟨_, List.mem_map.2 ⟨t, ht, rfl⟩, hent t ht⟩

/-- There is only one such list of indices. -/
theorem firstOccurrences_unique {a : List (F K)} {js ks : List Nat} (hj : FirstOccurrences a js) (hk : FirstOccurrences a ks) : js = ks := by
  have hmem : ∀ {l l' : List Nat}, FirstOccurrences a l → FirstOccurrences a l' → ∀ j ∈ l, j ∈ l' := by
    intro l l' hl hl' j hj
    obtain ⟨x, hx, hfirst⟩ := hl.first j hj
    obtain ⟨i, hi, hix⟩ := hl'.all x (List.mem_of_getElem? hx)
    obtain ⟨y, hy, hfirst'⟩ := hl'.first i hi
    obtain rfl : x = y := Option.some.inj (hix.symm.trans hy)
    rcases lt_trichotomy i j with h | rfl | h
    · exact absurd hix (hfirst i h)
    · exact hi
    · exact absurd hx (hfirst' j h)
  set R : Nat → Nat → Prop := fun i j => ∃ x y, a[i]? = some x ∧ a[j]? = some y ∧ (F.lt x y = true ∨ (x ≠ F.nan ∧ y = F.nan)) with hR
  have hasymm : ∀ i j, R i j → R j i → False := by
    rintro i j ⟨x, y, h1, h2, h3⟩ ⟨y', x', h4, h5, h6⟩
    obtain rfl : x = x' := Option.some.inj (h1.symm.trans h5)
    obtain rfl : y = y' := Option.some.inj (h2.symm.trans h4)
    cases x <;> cases y <;> simp_all [F.lt]
    exact absurd h3 (not_lt.2 h6.le)
  have hnd : ∀ {l : List Nat}, FirstOccurrences a l → l.Nodup := fun hl => hl.sorted.imp fun {i j} h => by
    rintro rfl
    exact hasymm _ _ h h
  have hperm : js.Perm ks := (List.perm_ext_iff_of_nodup (hnd hj) (hnd hk)).2 fun j => ⟨hmem hj hk j, hmem hk hj j⟩
  exact hperm.eq_of_pairwise (fun i j _ _ h h' => (hasymm i j h h').elim) hj.sorted hk.sorted

/-- A curve of growth that is flat between the second and the third radius. -/
example : (uniqueIndex [fin (1 : ℚ), fin 4, fin 4, fin 3, nan]).map Prod.snd = [0, 3, 1, 4] := by decide +kernel

end
end Verif.Props

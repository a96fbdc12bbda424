import Verif.Lemmas.Scale
import Verif.Lemmas.Petrosian

/-!
# Petrosian objects: construction and queries unfolded
-/

set_option linter.unusedSectionVars false
set_option linter.unusedVariables false
set_option linter.unusedSimpArgs false

namespace Verif

open F Spec

variable {K : Type} [Field K] [LinearOrder K] [IsStrictOrderedRing K]

/-- Construction, unfolded. -/
theorem Petrosian.init_ok_iff [HasSqrt K] {R A Y : List (F K)} {aE fE : Option (List (F K))} {eta eps epsf tff : F K}
    {kind : Option String} {num : Nat} {p : Petrosian K} :
    Petrosian.init R A Y aE fE eta eps epsf tff kind num = .ok p ↔
      2 < R.length ∧ R.length = Y.length ∧ (∀ e, fE = some e → e.length = Y.length) ∧ (∀ e, aE = some e → e.length = A.length) ∧
      ∃ pl pe, calculatePetrosian A Y aE fE = .ok (pl, pe) ∧
        p = ⟨R, A, Y, aE, fE, eta, eps, epsf, tff, kind, num, pl, pe⟩ := by
  unfold Petrosian.init
  by_cases h1 : 2 < R.length
  · rw [if_neg (by simpa using h1)]
    by_cases h2 : R.length = Y.length
    · rw [if_neg (by simpa using h2)]
      by_cases h3 : ∀ e, fE = some e → e.length = Y.length
      · have h3' : ¬ (Option.any (fun e => decide (e.length ≠ Y.length)) fE = true) := by
          cases fE with
          | none => simp
          | some e => simp [h3 e rfl]
        rw [if_neg h3']
        by_cases h4 : ∀ e, aE = some e → e.length = A.length
        · have h4' : ¬ (Option.any (fun e => decide (e.length ≠ A.length)) aE = true) := by
            cases aE with
            | none => simp
            | some e => simp [h4 e rfl]
          rw [if_neg h4', bind_eq_ok]
          constructor
          · rintro ⟨⟨pl, pe⟩, h5, h6⟩
            injection h6 with h6
            exact ⟨h1, h2, h3, h4, pl, pe, h5, h6.symm⟩
          · rintro ⟨_, _, _, _, pl, pe, h5, rfl⟩
            exact ⟨(pl, pe), h5, rfl⟩
        · have h4' : Option.any (fun e => decide (e.length ≠ A.length)) aE = true := by
            cases aE with
            | none => simp at h4
            | some e => simpa using h4
          rw [if_pos h4']
          exact ⟨fun h => (by cases h), fun h => absurd h.2.2.2.1 h4⟩
      · have h3' : Option.any (fun e => decide (e.length ≠ Y.length)) fE = true := by
          cases fE with
          | none => simp at h3
          | some e => simpa using h3
        rw [if_pos h3']
        exact ⟨fun h => (by cases h), fun h => absurd h.2.2.1 h3⟩
    · rw [if_pos (by simpa using h2)]
      exact ⟨fun h => (by cases h), fun h => absurd h.2.1 h2⟩
  · rw [if_pos (by simpa using h1)]
    exact ⟨fun h => (by cases h), fun h => absurd h.1 h1⟩

/-- Without error arrays there are no profile errors. -/
theorem calculatePetrosian_none_snd [HasSqrt K] {A Y pl : List (F K)} {pe : Option (List (F K))}
    (h : calculatePetrosian A Y none none = .ok (pl, pe)) : pe = none := by
  unfold calculatePetrosian at h
  simp only [bind_eq_ok, Option.isNone_none, Bool.and_self, if_true] at h
  obtain ⟨_, _, _, _, h⟩ := h
  injection h with h; injection h with _ h; exact h.symm

/-- `fraction_to_r` returns NaN or a finite radius. -/
theorem fractionToR_query {ip : InterpFam K} {frac : F K} {R : List K} {flux : List (F K)} {rp : F K}
    {fe : Option (List (F K))} {rpe : Option (F K)} {eps epsf : F K} {kind : Option String} {num : Nat} {r e : F K}
    (h2 : 2 ≤ R.length) (h : fractionToR ip frac (R.map fin) flux rp fe rpe eps epsf kind num = .ok (r, e)) :
    r = nan ∨ ∃ x, r = fin x ∧ InRange R x := by
  obtain ⟨hi, _, _, ⟨_, h1, _⟩ | ⟨_, ef, q, xs, ys, _, _, hS, hr⟩⟩ := fractionToR_cases h2 h
  · exact Or.inl h1
  · rcases radiusAt_cases hr with ⟨h1, _⟩ | ⟨i, _, hi', h1⟩
    · exact Or.inl h1
    · exact Or.inr ⟨xs[i], h1, Sampled.mem_range hS h2 (List.getElem_mem hi')⟩

end Verif

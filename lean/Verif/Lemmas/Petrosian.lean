import Verif.Model.Petrosian
import Verif.Lemmas.NumPy
import Verif.Spec.Petrosian

/-!
# Helper lemmas about `calculate_petrosian`
-/

set_option linter.unusedSectionVars false

namespace Verif

open F

variable {K : Type} [Field K] [LinearOrder K] [IsStrictOrderedRing K]

theorem le_zero_sub_iff (a b : F K) : F.le (fin 0) (b - a) = true ↔ Spec.InOrder a b := by
  have e : b - a = F.add b (F.neg a) := rfl
  rw [e]
  cases a <;> cases b <;> simp [Spec.InOrder, F.add, F.neg, F.le]

theorem npDiff_all_iff (l : List (F K)) :
    (npDiff l).all (fun d => F.le (fin 0) d) = true ↔
      ∀ i (h : i + 1 < l.length), Spec.InOrder l[i] l[i + 1] := by
  rw [List.all_eq_true]
  constructor
  · intro h i hi
    rw [← le_zero_sub_iff, ← npDiff_getElem l i hi]
    exact h _ (List.getElem_mem _)
  · intro h d hd
    obtain ⟨i, hi, rfl⟩ := List.getElem_of_mem hd
    have hi' : i + 1 < l.length := by simp at hi; omega
    rw [npDiff_getElem l i hi', le_zero_sub_iff]
    exact h i hi'

/-- The raw profile on an accepted curve. -/
theorem petrosianRaw_ok (area flux : List (F K)) (hl : area.length = flux.length) (h3 : 3 ≤ area.length)
    (ho : ∀ i (h : i + 1 < area.length), Spec.InOrder area[i] area[i + 1]) :
    ∃ raw, petrosianRaw area flux = .ok raw ∧ raw.length = area.length ∧ raw[0]? = some nan ∧
      ∀ i (h : i + 1 < area.length), raw[i + 1]? =
        some ((if F.lt (fin 0) (area[i + 1] - area[i]) then
          (flux[i + 1]'(by omega) - flux[i]'(by omega)) / (area[i + 1] - area[i]) else fin 0) /
          (flux[i + 1]'(by omega) / area[i + 1])) := by
  unfold petrosianRaw
  rw [if_neg (by simpa using hl), if_neg (by omega), if_neg (by rw [npDiff_all_iff]; simpa using ho)]
  refine ⟨_, rfl, ?_, rfl, ?_⟩
  · simp; omega
  · intro i h
    have h1 : i < (npDiff flux).length := by simp; omega
    have h2 : i < (npDiff area).length := by simp; omega
    simp only [List.getElem?_cons_succ]
    rw [List.getElem?_eq_getElem (by simp; omega)]
    simp only [List.getElem_zipWith, List.getElem_tail]
    rw [npDiff_getElem area i h, npDiff_getElem flux i (by omega)]

theorem petrosianRaw_err (area flux : List (F K))
    (h : ¬ (area.length = flux.length ∧ 3 ≤ area.length ∧
      ∀ i (h : i + 1 < area.length), Spec.InOrder area[i] area[i + 1])) :
    petrosianRaw area flux = .error .assertionError := by
  unfold petrosianRaw
  split
  · rfl
  · rename_i h1
    split
    · rfl
    · rename_i h2
      split
      · rfl
      · rename_i h3
        exfalso
        apply h
        simp only [Bool.not_eq_true, Bool.not_eq_false] at h3
        exact ⟨not_not.1 h1, by omega, (npDiff_all_iff area).1 h3⟩

/-- Two raw profiles agree if acceptance and every entry agree. -/
theorem petrosianRaw_congr {area flux area' flux' : List (F K)} (hla : area.length = area'.length)
    (hlf : flux.length = flux'.length)
    (ho : (∀ i (h : i + 1 < area.length), Spec.InOrder area[i] area[i + 1]) ↔
      ∀ i (h : i + 1 < area'.length), Spec.InOrder area'[i] area'[i + 1])
    (he : ∀ i (h : i + 1 < area.length) (h' : i + 1 < area'.length) (g : i + 1 < flux.length)
      (g' : i + 1 < flux'.length), Spec.InOrder area[i] area[i + 1] →
      ((if F.lt (fin 0) (area[i + 1] - area[i]) then (flux[i + 1] - flux[i]) / (area[i + 1] - area[i]) else fin 0) /
          (flux[i + 1] / area[i + 1]) : F K) =
        (if F.lt (fin 0) (area'[i + 1] - area'[i]) then (flux'[i + 1] - flux'[i]) / (area'[i + 1] - area'[i])
          else fin 0) / (flux'[i + 1] / area'[i + 1])) :
    petrosianRaw area flux = petrosianRaw area' flux' := by
  by_cases hv : area.length = flux.length ∧ 3 ≤ area.length ∧
      ∀ i (h : i + 1 < area.length), Spec.InOrder area[i] area[i + 1]
  · obtain ⟨h1, h2, h3⟩ := hv
    obtain ⟨raw, hr, hrl, h0, hg⟩ := petrosianRaw_ok area flux h1 h2 h3
    obtain ⟨raw', hr', hrl', h0', hg'⟩ := petrosianRaw_ok area' flux' (by omega) (by omega) (ho.1 h3)
    rw [hr, hr']
    congr 1
    apply List.ext_getElem?
    intro i
    cases i with
    | zero => rw [h0, h0']
    | succ i =>
      by_cases hi : i + 1 < area.length
      · rw [hg i hi, hg' i (by omega), he i hi (by omega) (by omega) (by omega) (h3 i hi)]
      · rw [List.getElem?_eq_none (by omega), List.getElem?_eq_none (by omega)]
  · rw [petrosianRaw_err _ _ hv, petrosianRaw_err]
    rintro ⟨h1, h2, h3⟩
    exact hv ⟨by omega, by omega, ho.2 h3⟩

section sqrt
variable [HasSqrt K]

theorem petrosianErrRaw_length (area flux petro aE fE : List (F K)) (h3 : 3 ≤ area.length)
    (hf : flux.length = area.length) (hp : petro.length = area.length) (ha : aE.length = area.length)
    (he : fE.length = area.length) : (petrosianErrRaw area flux petro aE fE).length = area.length := by
  simp only [petrosianErrRaw, List.length_cons, List.length_zipWith, List.length_zip, List.length_tail,
    List.length_dropLast, npDiff_length]
  omega

/-- `calculate_petrosian` on an accepted curve, in terms of the raw profile. -/
theorem calculatePetrosian_ok (area flux : List (F K)) (aE fE : Option (List (F K)))
    (hA : Spec.Accepted area flux aE fE) :
    ∃ p e, calculatePetrosian area flux aE fE = .ok (p, e) ∧ p.length = area.length ∧
      (∃ raw, petrosianRaw area flux = .ok raw ∧ fancyIndex raw (uniqueInverse area) = .ok p ∧
        ((aE.isNone ∧ fE.isNone ∧ e = none) ∨ ((¬ (aE.isNone ∧ fE.isNone)) ∧ ∃ e', e = some e' ∧
          e'.length = area.length ∧
          fancyIndex (petrosianErrRaw area flux p (aE.getD (area.map fun _ => fin 0))
            (fE.getD (flux.map fun _ => fin 0))) (uniqueInverse area) = .ok e'))) := by
  obtain ⟨hl, h3, ho, ha, hf⟩ := hA
  obtain ⟨raw, hraw, hrl, _, _⟩ := petrosianRaw_ok area flux hl h3 ho
  obtain ⟨p, hp, hpl, _⟩ := fancyIndex_ok (a := raw) (idx := uniqueInverse area)
    (by intro i hi; rw [hrl]; exact uniqueInverse_lt area i hi)
  rw [uniqueInverse_length] at hpl
  have haL : (aE.getD (area.map fun _ => fin 0)).length = area.length := by
    cases aE with
    | none => simp
    | some e => simpa using ha e rfl
  have hfL : (fE.getD (flux.map fun _ => fin 0)).length = flux.length := by
    cases fE with
    | none => simp
    | some e => simpa using hf e rfl
  obtain ⟨e', he', hel, _⟩ := fancyIndex_ok
    (a := petrosianErrRaw area flux p (aE.getD (area.map fun _ => fin 0)) (fE.getD (flux.map fun _ => fin 0)))
    (idx := uniqueInverse area)
    (by
      intro i hi
      rw [petrosianErrRaw_length _ _ _ _ _ h3 (by omega) hpl haL (by omega)]
      exact uniqueInverse_lt area i hi)
  rw [uniqueInverse_length] at hel
  unfold calculatePetrosian
  simp only [hraw, hp, Except.bind_ok]
  by_cases hn : (aE.isNone && fE.isNone) = true
  · rw [if_pos hn]
    rw [Bool.and_eq_true] at hn
    exact ⟨p, none, rfl, hpl, raw, rfl, hp, Or.inl ⟨hn.1, hn.2, rfl⟩⟩
  · rw [if_neg hn, if_neg (by simpa using haL), if_neg (by simpa using hfL)]
    simp only [he', Except.bind_ok]
    refine ⟨p, some e', rfl, hpl, raw, rfl, hp, Or.inr ⟨?_, e', rfl, hel, he'⟩⟩
    simpa using hn

/-- `calculate_petrosian` on a curve that is not accepted. -/
theorem calculatePetrosian_err (area flux : List (F K)) (aE fE : Option (List (F K)))
    (hA : ¬ Spec.Accepted area flux aE fE) :
    calculatePetrosian area flux aE fE = .error .assertionError := by
  by_cases h : area.length = flux.length ∧ 3 ≤ area.length ∧
      ∀ i (h : i + 1 < area.length), Spec.InOrder area[i] area[i + 1]
  · obtain ⟨hl, h3, ho⟩ := h
    obtain ⟨raw, hraw, hrl, _, _⟩ := petrosianRaw_ok area flux hl h3 ho
    obtain ⟨p, hp, hpl, _⟩ := fancyIndex_ok (a := raw) (idx := uniqueInverse area)
      (by intro i hi; rw [hrl]; exact uniqueInverse_lt area i hi)
    have hbad : ¬ ((∀ e, aE = some e → e.length = area.length) ∧ ∀ e, fE = some e → e.length = flux.length) :=
      fun h => hA ⟨hl, h3, ho, h.1, h.2⟩
    unfold calculatePetrosian
    simp only [hraw, hp, Except.bind_ok]
    cases aE with
    | none =>
      cases fE with
      | none => simp at hbad
      | some f =>
        have hb : f.length ≠ flux.length := by simpa using hbad
        simp [hb]
    | some a =>
      by_cases ha : a.length = area.length
      · cases fE with
        | none => simp [ha] at hbad
        | some f =>
          have hb : f.length ≠ flux.length := by simpa [ha] using hbad
          simp [hb, ha]
      · simp [ha]
  · unfold calculatePetrosian
    simp only [petrosianRaw_err area flux h, Except.bind_err]

theorem accepted_of_ok {area flux : List (F K)} {aE fE : Option (List (F K))} {r}
    (h : calculatePetrosian area flux aE fE = .ok r) : Spec.Accepted area flux aE fE := by
  by_contra hc
  rw [calculatePetrosian_err _ _ _ _ hc] at h
  cases h

end sqrt

end Verif

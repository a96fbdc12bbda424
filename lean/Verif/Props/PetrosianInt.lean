import Verif.Model.PetrosianInt
import Verif.Props.PetrosianProfile

/-!
# C74: the Petrosian profile of integer areas
-/

set_option linter.unusedSectionVars false
set_option linter.unusedVariables false

namespace Verif.Spec

/-- `z` is `x` rounded towards zero. -/
def TowardZero {K : Type} [Field K] [LinearOrder K] (x : K) (z : ℤ) : Prop :=
  |(z : K)| ≤ |x| ∧ |x| < |(z : K)| + 1 ∧ 0 ≤ (z : K) * x

end Verif.Spec

namespace Verif.Props

open Verif F Spec

variable {K : Type} [Field K] [LinearOrder K] [IsStrictOrderedRing K] [FloorRing K] [HasSqrt K]

theorem castInt_toward (x : K) : TowardZero x (castInt (fin x)) := by
  unfold TowardZero
  show |(((if 0 ≤ x then ⌊x⌋ else ⌈x⌉ : ℤ)) : K)| ≤ |x| ∧ |x| < |((if 0 ≤ x then ⌊x⌋ else ⌈x⌉ : ℤ) : K)| + 1 ∧
    0 ≤ ((if 0 ≤ x then ⌊x⌋ else ⌈x⌉ : ℤ) : K) * x
  split
  · next h =>
    have h1 : (0 : K) ≤ (⌊x⌋ : K) := by exact_mod_cast Int.floor_nonneg.2 h
    rw [abs_of_nonneg h, abs_of_nonneg h1]
    exact ⟨Int.floor_le x, Int.lt_floor_add_one x, mul_nonneg h1 h⟩
  · next h =>
    rw [not_le] at h
    have h1 : ((⌈x⌉ : ℤ) : K) ≤ 0 := by
      have : ⌈x⌉ ≤ 0 := by rw [Int.ceil_le]; simpa using h.le
      exact_mod_cast this
    rw [abs_of_neg h, abs_of_nonpos h1]
    refine ⟨by linarith [Int.le_ceil x], by linarith [Int.ceil_lt_add_one x], mul_nonneg_of_nonpos_of_nonpos h1 h.le⟩

theorem castInt_int (z : ℤ) : castInt (fin (z : K)) = z := by
  unfold castInt; simp

theorem towardZero_unique {x : K} {z z' : ℤ} (h : TowardZero x z) (h' : TowardZero x z') : z = z' := by
  obtain ⟨a1, a2, a3⟩ := h
  obtain ⟨b1, b2, b3⟩ := h'
  have e1 : |(z : K)| < |(z' : K)| + 1 := lt_of_le_of_lt a1 b2
  have e2 : |(z' : K)| < |(z : K)| + 1 := lt_of_le_of_lt b1 a2
  have f1 : |z| < |z'| + 1 := by exact_mod_cast e1
  have f2 : |z'| < |z| + 1 := by exact_mod_cast e2
  have he : |z| = |z'| := by omega
  rcases abs_eq_abs.1 he with h | h
  · exact h
  · have hx : |(z : K)| ≤ |x| := a1
    subst h
    by_contra hne
    have hz : z' ≠ 0 := by rintro rfl; exact hne (by simp)
    have hzK : (0 : K) < |(z' : K)| := abs_pos.2 (by exact_mod_cast hz)
    have h0 : (z' : K) * x = 0 := by push_cast at a3; linarith
    have : x = 0 := by
      rcases mul_eq_zero.1 h0 with h | h
      · exact absurd (by exact_mod_cast h) hz
      · exact h
    rw [this, abs_zero] at b1
    linarith

/-- The raw integer profile. -/
theorem petrosianRawInt_ok (area : List ℤ) (flux : List (F K)) (hl : area.length = flux.length) (h3 : 3 ≤ area.length)
    (ho : ∀ i (h : i + 1 < area.length), area[i] ≤ area[i + 1]) :
    ∃ raw, petrosianRawInt area flux = .ok raw ∧ raw.length = area.length ∧ raw[0]? = some nan ∧
      ∀ i (h : i + 1 < area.length), raw[i + 1]? =
        some ((if area[i] < area[i + 1] then
          fin ((castInt ((flux[i + 1]'(by omega) - flux[i]'(by omega)) / fin ((area[i + 1] : K) - area[i])) : ℤ) : K) else fin 0) /
          (flux[i + 1]'(by omega) / fin (area[i + 1] : K))) := by
  have ho' : ∀ i (h : i + 1 < (area.map fun z : ℤ => (fin (z : K) : F K)).length),
      InOrder (area.map fun z : ℤ => (fin (z : K) : F K))[i] (area.map fun z : ℤ => (fin (z : K) : F K))[i + 1] := by
    intro i h
    simp only [List.length_map] at h
    simp only [List.getElem_map, InOrder]
    refine ⟨?_, by simp⟩
    rw [F.le_fin]
    simpa using ho i h
  unfold petrosianRawInt
  simp only []
  rw [if_neg (by simpa using hl), if_neg (by omega), if_neg (by rw [npDiff_all_iff]; simpa using ho')]
  refine ⟨_, rfl, ?_, rfl, ?_⟩
  · simp [npDiff]; omega
  · intro i h
    rw [List.getElem?_cons_succ]
    have hlen : i < (List.zipWith (fun x1 x2 : F K => x1 / x2)
        (List.zipWith (fun df da : F K => if F.lt (fin 0) da = true then fin (castInt (df / da) : K) else fin 0) (npDiff flux)
          (npDiff (area.map fun z : ℤ => (fin (z : K) : F K)))) (List.zipWith (fun x1 x2 : F K => x1 / x2) flux.tail
          (area.map fun z : ℤ => (fin (z : K) : F K)).tail)).length := by
      simp [npDiff]; omega
    rw [List.getElem?_eq_getElem hlen]
    simp only [List.getElem_zipWith, npDiff, List.getElem_tail, List.getElem_map, F.fin_sub]
    congr 2
    by_cases hlt : area[i] < area[i + 1]
    · have : F.lt (fin 0) (fin ((area[i + 1] : K) - area[i])) = true := by
        rw [F.lt_fin]; simpa using hlt
      rw [if_pos this, if_pos hlt]
    · have : ¬ F.lt (fin 0) (fin ((area[i + 1] : K) - area[i])) = true := by
        rw [F.lt_fin]; simpa using hlt
      rw [if_neg this, if_neg hlt]

/-- **C74, what integer areas give.** For strictly increasing integer areas the ring brightness is rounded towards zero before it is
divided by the mean. -/
theorem C74_formula (A : List ℤ) (Fl : List K) (hl : A.length = Fl.length) (h3 : 3 ≤ A.length)
    (hA : ∀ i (h : i + 1 < A.length), A[i] < A[i + 1]) :
    ∃ p, calculatePetrosianInt A (Fl.map fin) = .ok (p, none) ∧ p.length = A.length ∧ p[0]? = some nan ∧
      ∀ i (h : i + 1 < A.length), ∃ z : ℤ, TowardZero ((Fl[i + 1] - Fl[i]) / ((A[i + 1] : K) - A[i])) z ∧
        p[i + 1]? = some (fin (z : K) / (fin Fl[i + 1] / fin (A[i + 1] : K))) := by
  obtain ⟨raw, hr, hrl, h0, hg⟩ := petrosianRawInt_ok A (Fl.map fin) (by simpa using hl) h3 (fun i h => (hA i h).le)
  have hu : uniqueInverse (A.map fun z : ℤ => (fin (z : K) : F K)) = List.range A.length := by
    rw [uniqueInverse_of_ne]
    · simp
    · intro i hi
      simp only [List.length_map] at hi
      have := hA i hi
      simp [F.eqv]; exact_mod_cast this.ne
  refine ⟨raw, ?_, hrl, h0, ?_⟩
  · simp only [calculatePetrosianInt, hr, hu]
    show (do let petro ← fancyIndex raw (List.range A.length); _) = _
    rw [fancyIndex_range hrl]
    rfl
  · intro i h
    have hd : (A[i + 1] : K) - A[i] ≠ 0 := by
      have : (A[i] : K) < A[i + 1] := by exact_mod_cast hA i h
      linarith
    refine ⟨castInt (fin ((Fl[i + 1] - Fl[i]) / ((A[i + 1] : K) - A[i]))), castInt_toward _, ?_⟩
    rw [hg i h, if_pos (hA i h)]
    simp only [List.getElem_map, F.fin_sub, F.fin_div_of_ne _ hd]

/-- **C74, violated in general.** Integer areas 1, 2, 4 and the same areas as floats give different profiles for the fluxes 1, 2, 3. -/
theorem C74_violated : calculatePetrosianInt [1, 2, 4] ([1, 2, 3].map fin : List (F ℚ)) = .ok ([nan, fin 1, fin 0], none) ∧
    calculatePetrosian ([1, 2, 4].map fin) ([1, 2, 3].map fin : List (F ℚ)) = .ok ([nan, fin 1, fin (2 / 3)], none) := by
  decide +kernel

/-- **C74, faint sources.** If every ring is fainter than one count per pixel, the whole profile of integer areas is zero. -/
theorem C74_faint (A : List ℤ) (Fl : List K) (hl : A.length = Fl.length) (h3 : 3 ≤ A.length)
    (hA : ∀ i (h : i + 1 < A.length), A[i] < A[i + 1]) (hA0 : ∀ a ∈ A, 0 < a) (hF0 : ∀ f ∈ Fl, 0 < f)
    (hf : ∀ i (h : i + 1 < A.length), |Fl[i + 1] - Fl[i]| < (A[i + 1] : K) - A[i]) :
    ∃ p, calculatePetrosianInt A (Fl.map fin) = .ok (p, none) ∧ p.length = A.length ∧
      ∀ i (h : i + 1 < A.length), p[i + 1]? = some (fin 0) := by
  obtain ⟨p, hp, hpl, _, hz⟩ := C74_formula A Fl hl h3 hA
  refine ⟨p, hp, hpl, ?_⟩
  intro i h
  obtain ⟨z, ⟨h1, h2, _⟩, hv⟩ := hz i h
  have hd : (0 : K) < (A[i + 1] : K) - A[i] := lt_of_le_of_lt (abs_nonneg _) (hf i h)
  have hlt : |(Fl[i + 1] - Fl[i]) / ((A[i + 1] : K) - A[i])| < 1 := by
    rw [abs_div, abs_of_pos hd, div_lt_one hd]; exact hf i h
  have hz0 : z = 0 := by
    have : |(z : K)| < 1 := lt_of_le_of_lt h1 hlt
    have : |z| < 1 := by exact_mod_cast this
    exact Int.abs_lt_one_iff.1 this
  have hFp : 0 < Fl[i + 1] := hF0 _ (List.getElem_mem _)
  have hAp : (0 : K) < (A[i + 1] : K) := by exact_mod_cast hA0 _ (List.getElem_mem _)
  rw [hv, hz0, F.fin_div_of_ne _ hAp.ne', F.fin_div_of_ne _ (div_pos hFp hAp).ne']
  simp

/-- **C74, partial.** If every flux increment is an integer multiple of its area increment (and no errors are given), integer areas give
the same profile as the same areas given as floats. -/
theorem C74_integral_partial (A : List ℤ) (Fl : List K) (hl : A.length = Fl.length) (h3 : 3 ≤ A.length)
    (hA : ∀ i (h : i + 1 < A.length), A[i] ≤ A[i + 1])
    (hz : ∀ i (h : i + 1 < A.length), A[i] < A[i + 1] → ∃ z : ℤ, Fl[i + 1] - Fl[i] = z * ((A[i + 1] : K) - A[i])) :
    calculatePetrosianInt A (Fl.map fin) = calculatePetrosian (A.map fun z : ℤ => (fin (z : K) : F K)) (Fl.map fin) := by
  have hA' : ∀ i (h : i + 1 < (A.map fun z : ℤ => (fin (z : K) : F K)).length),
      InOrder (A.map fun z : ℤ => (fin (z : K) : F K))[i] (A.map fun z : ℤ => (fin (z : K) : F K))[i + 1] := by
    intro i h
    simp only [List.length_map] at h
    simp only [List.getElem_map, InOrder]
    exact ⟨by rw [F.le_fin]; simpa using hA i h, by simp⟩
  obtain ⟨raw, hr, hrl, h0, hg⟩ := petrosianRawInt_ok A (Fl.map fin) (by simpa using hl) h3 hA
  obtain ⟨raw', hr', hrl', h0', hg'⟩ := petrosianRaw_ok (A.map fun z : ℤ => (fin (z : K) : F K)) (Fl.map fin) (by simpa using hl)
    (by simpa using h3) hA'
  have hraw : raw = raw' := by
    apply List.ext_getElem?
    intro i
    rw [List.length_map] at hrl'
    cases i with
    | zero => rw [h0, h0']
    | succ i =>
      by_cases hi : i + 1 < A.length
      · rw [hg i hi, hg' i (by simpa using hi)]
        simp only [List.getElem_map, F.fin_sub]
        by_cases hlt : A[i] < A[i + 1]
        · have hK : (0 : K) < (A[i + 1] : K) - A[i] := by
            have : (A[i] : K) < A[i + 1] := by exact_mod_cast hlt
            linarith
          have : F.lt (fin 0) (fin ((A[i + 1] : K) - A[i])) = true := by rw [F.lt_fin]; simpa using hlt
          rw [if_pos hlt, if_pos this]
          obtain ⟨z, hz⟩ := hz i hi hlt
          rw [F.fin_div_of_ne _ hK.ne', hz, mul_div_assoc, div_self hK.ne', mul_one, castInt_int]
        · have : ¬ F.lt (fin 0) (fin ((A[i + 1] : K) - A[i])) = true := by rw [F.lt_fin]; simpa using hlt
          rw [if_neg hlt, if_neg this]
      · rw [List.getElem?_eq_none (by omega), List.getElem?_eq_none (by omega)]
  unfold calculatePetrosianInt calculatePetrosian
  rw [hr, hr', hraw]
  rfl

/-- Non-vacuity of the partial theorem. -/
example : calculatePetrosianInt [1, 2, 4] ([1, 3, 5].map fin : List (F ℚ)) = .ok ([nan, fin (4 / 3), fin (4 / 5)], none) := by
  decide +kernel

/-- **C74, errors.** With an area or flux error of the right length, integer areas always raise ValueError, while the same areas as
floats are accepted. -/
theorem C74_errors (A : List ℤ) (flux : List (F K)) (hl : A.length = flux.length) (h3 : 3 ≤ A.length)
    (hA : ∀ i (h : i + 1 < A.length), A[i] ≤ A[i + 1]) (aE fE : Option (List (F K))) (hne : aE ≠ none ∨ fE ≠ none)
    (ha : ∀ e, aE = some e → e.length = A.length) (hf : ∀ e, fE = some e → e.length = flux.length) :
    calculatePetrosianInt A flux aE fE = .error .valueError ∧
    ∃ r, calculatePetrosian (A.map fun z : ℤ => (fin (z : K) : F K)) flux aE fE = .ok r := by
  constructor
  · obtain ⟨raw, hr, hrl, _, _⟩ := petrosianRawInt_ok A flux hl h3 hA
    obtain ⟨p, hp, _⟩ := fancyIndex_ok (a := raw) (idx := uniqueInverse (A.map fun z : ℤ => (fin (z : K) : F K)))
      (by intro i hi; rw [hrl]; simpa using uniqueInverse_lt _ i hi)
    unfold calculatePetrosianInt
    rw [hr]
    show (do let petro ← fancyIndex raw _; _) = _
    rw [hp]
    show (if (aE.isNone && fE.isNone) = true then _ else _) = _
    have h1 : ¬ (aE.isNone && fE.isNone) = true := by
      cases aE <;> cases fE <;> simp_all
    rw [if_neg h1]
    have h2 : (aE.getD (A.map fun _ => fin 0)).length = A.length := by
      cases aE with
      | none => simp
      | some e => exact ha e rfl
    have h4 : (fE.getD (flux.map fun _ => fin 0)).length = flux.length := by
      cases fE with
      | none => simp
      | some e => exact hf e rfl
    show (if _ then _ else _) = _
    rw [if_neg (by simpa using h2)]
    rw [if_neg (by simpa using h4)]
  · apply (C02_validation _ _ _ _).2.2
    refine ⟨by simpa using hl, by simpa using h3, ?_, fun e he => by simpa using ha e he, hf⟩
    intro i h
    simp only [List.length_map] at h
    simp only [List.getElem_map, InOrder]
    exact ⟨by rw [F.le_fin]; simpa using hA i h, by simp⟩

end Verif.Props

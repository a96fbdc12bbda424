import Verif.Props.Rounding
import Verif.Props.PetrosianProfile

/-!
# C112, C113: the Petrosian profile in floating point arithmetic
-/

set_option linter.unusedSectionVars false
set_option linter.unusedVariables false

namespace Verif.Props

open F Spec

section
variable {K : Type} [Field K] [LinearOrder K] [IsStrictOrderedRing K] [HasSqrt K]

/-- One entry of the profile in rounded arithmetic. -/
def entryR (fl : K → K) (a0 f0 a1 f1 : K) : F K :=
  ((if 0 < fl (a1 - a0) then (fin (fl (f1 - f0)) / fin (fl (a1 - a0))).rnd fl else fin 0) / (fin f1 / fin a1).rnd fl).rnd fl

theorem petrosianRawR_ok (fl : K → K) (A Fl : List K) (hl : A.length = Fl.length) (h3 : 3 ≤ A.length)
    (ho : ∀ i (h : i + 1 < A.length), 0 ≤ fl (A[i + 1] - A[i])) :
    ∃ raw, petrosianRawR fl (A.map fin) (Fl.map fin) = .ok raw ∧ raw.length = A.length ∧ raw[0]? = some nan ∧
      ∀ i (h : i + 1 < A.length), raw[i + 1]? = some (entryR fl A[i] (Fl[i]'(by omega)) A[i + 1] (Fl[i + 1]'(by omega))) := by
  unfold petrosianRawR
  have hall : (((npDiff (A.map fin)).map (F.rnd fl)).all fun d => F.le (fin 0) d) = true := by
    rw [List.all_eq_true]
    intro d hd
    obtain ⟨i, hi, rfl⟩ := List.getElem_of_mem hd
    have hi' : i + 1 < (A.map (fin : K → F K)).length := by simp at hi ⊢; omega
    rw [List.getElem_map, npDiff_getElem _ i hi']
    simp only [List.getElem_map, fin_sub, rnd_fin, le_fin, decide_eq_true_eq]
    exact ho i (by simpa using hi')
  simp only [hall]
  rw [if_neg (by simpa using hl), if_neg (by simp; omega), if_neg (by simp)]
  refine ⟨_, rfl, ?_, rfl, ?_⟩
  · simp; omega
  · intro i h
    simp only [List.getElem?_cons_succ]
    rw [List.getElem?_eq_getElem (by simp; omega)]
    simp only [List.getElem_zipWith, List.getElem_tail, List.getElem_map]
    rw [npDiff_getElem _ i (by simpa using h), npDiff_getElem _ i (by simp; omega)]
    simp only [List.getElem_map, fin_sub, rnd_fin, lt_fin, decide_eq_true_eq]
    rfl

theorem petrosianRawR_err (fl : K → K) (A Fl : List K)
    (h : ¬ (A.length = Fl.length ∧ 3 ≤ A.length ∧ ∀ i (h : i + 1 < A.length), 0 ≤ fl (A[i + 1] - A[i]))) :
    petrosianRawR fl (A.map fin) (Fl.map fin) = .error .assertionError := by
  unfold petrosianRawR
  dsimp only
  split
  · rfl
  · rename_i h1
    split
    · rfl
    · rename_i h2
      split
      · rfl
      · rename_i h3
        exfalso
        apply h
        simp only [List.length_map] at h1 h2
        refine ⟨not_not.1 h1, by omega, fun i hi => ?_⟩
        simp only [not_not, List.all_eq_true] at h3
        have hlt : i < ((npDiff (A.map fin)).map (F.rnd fl)).length := by simp; omega
        have := h3 _ (List.getElem_mem hlt)
        rw [List.getElem_map, npDiff_getElem _ i (by simpa using hi)] at this
        simpa using this

/-- **C112, acceptance.** Rounding does not change which finite curves of growth `calculate_petrosian` accepts. -/
theorem C112_acceptance {fl : K → K} (hfl : Rounding fl) {u : K} (hu : RelErr u fl) (hu1 : u < 1) (A Fl : List K) :
    ((∃ p, calculatePetrosianFl fl (A.map fin) (Fl.map fin) = .ok p) ↔ ∃ r, calculatePetrosian (A.map fin) (Fl.map fin) = .ok r) ∧
    ∀ e, calculatePetrosianFl fl (A.map fin) (Fl.map fin) = .error e → e = .assertionError := by
  have hsign : ∀ x : K, 0 ≤ fl x ↔ 0 ≤ x := by
    intro x
    constructor
    · intro h
      by_contra hx
      have h1 := (relErr_le hu (x := -x) (by linarith)).2
      rw [hfl.neg] at h1
      have : 0 < (1 - u) * -x := mul_pos (by linarith) (by linarith)
      linarith
    · exact fun h => Rounding.nonneg hfl h
  have hacc : (∃ r, calculatePetrosian (A.map fin) (Fl.map fin) = .ok r) ↔
      A.length = Fl.length ∧ 3 ≤ A.length ∧ ∀ i (h : i + 1 < A.length), 0 ≤ fl (A[i + 1] - A[i]) := by
    rw [(C02_validation (A.map fin) (Fl.map fin) none none).2]
    unfold Accepted
    simp only [List.length_map, List.getElem_map, InOrder, le_fin, decide_eq_true_eq, hsign, sub_nonneg]
    simp
  rw [hacc]
  by_cases h : A.length = Fl.length ∧ 3 ≤ A.length ∧ ∀ i (h : i + 1 < A.length), 0 ≤ fl (A[i + 1] - A[i])
  · obtain ⟨raw, hraw, hrl, -, -⟩ := petrosianRawR_ok fl A Fl h.1 h.2.1 h.2.2
    obtain ⟨p, hp, -⟩ := fancyIndex_ok (a := raw) (idx := uniqueInverse (A.map fin))
      (by intro i hi; rw [hrl]; simpa using uniqueInverse_lt _ i hi)
    have : calculatePetrosianFl fl (A.map fin) (Fl.map fin) = .ok p := by
      unfold calculatePetrosianFl
      rw [hraw, Except.bind_ok, hp]
    exact ⟨⟨fun _ => h, fun _ => ⟨p, this⟩⟩, fun e he => by rw [this] at he; cases he⟩
  · have : calculatePetrosianFl fl (A.map fin) (Fl.map fin) = .error .assertionError := by
      unfold calculatePetrosianFl
      rw [petrosianRawR_err fl A Fl h]; rfl
    refine ⟨⟨?_, fun h' => absurd h' h⟩, fun e he => by rw [this] at he; injection he with he; exact he.symm⟩
    rintro ⟨p, hp⟩
    rw [this] at hp; cases hp

theorem profileFl_entries {fl : K → K} (A Fl : List K) (hl : A.length = Fl.length) (h3 : 3 ≤ A.length)
    (hA : ∀ i (h : i + 1 < A.length), A[i] < A[i + 1]) (hfl : Rounding fl) :
    ∃ p, calculatePetrosianFl fl (A.map fin) (Fl.map fin) = .ok p ∧ p.length = A.length ∧ p[0]? = some nan ∧
      ∀ i (h : i + 1 < A.length), p[i + 1]? = some (entryR fl A[i] (Fl[i]'(by omega)) A[i + 1] (Fl[i + 1]'(by omega))) := by
  obtain ⟨raw, hraw, hrl, h0, hg⟩ := petrosianRawR_ok fl A Fl hl h3 (fun i h => Rounding.nonneg hfl (by linarith [hA i h]))
  obtain ⟨p, hp, hpl, hpg⟩ := fancyIndex_ok (a := raw) (idx := uniqueInverse (A.map fin))
    (by intro i hi; rw [hrl]; simpa using uniqueInverse_lt _ i hi)
  have hpl' : p.length = A.length := by rw [hpl, uniqueInverse_length]; simp
  have hidx : ∀ i, i < A.length → p[i]? = raw[i]? := by
    intro i hi
    have hu : (uniqueInverse (A.map (fin : K → F K)))[i]? = some i := by
      apply uniqueInverse_prefix
      · intro j hj
        simp only [List.getElem_map, eqv_fin, decide_eq_false_iff_not]
        exact (hA j (by omega)).ne
      · simpa using hi
    have hlt : i < (uniqueInverse (A.map (fin : K → F K))).length := by
      rw [uniqueInverse_length]; simpa using hi
    rw [List.getElem?_eq_getElem hlt] at hu
    injection hu with hu
    rw [hpg i hlt, hu]
  refine ⟨p, ?_, hpl', by rw [hidx 0 (by omega), h0], fun i h => by rw [hidx _ h, hg i h]⟩
  unfold calculatePetrosianFl
  rw [hraw, Except.bind_ok, hp]

theorem relErr_abs {u : K} {fl : K → K} (h : RelErr u fl) (x : K) : |fl x| ≤ (1 + u) * |x| ∧ (1 - u) * |x| ≤ |fl x| := by
  have h1 := h x
  have h2 := abs_sub_abs_le_abs_sub (fl x) x
  have h3 := abs_sub_abs_le_abs_sub x (fl x)
  rw [abs_sub_comm] at h3
  constructor <;> linarith

theorem rounding_sign {fl : K → K} (hfl : Rounding fl) (x : K) : 0 ≤ fl x * x := by
  rcases le_total 0 x with h | h
  · exact mul_nonneg (Rounding.nonneg hfl h) h
  · have : 0 ≤ fl (-x) := Rounding.nonneg hfl (by linarith)
    rw [hfl.neg] at this
    exact mul_nonneg_of_nonpos_of_nonpos (by linarith) h

theorem pos_of_relErr {fl : K → K} (hfl : Rounding fl) {u : K} (hu : RelErr u fl) (hu1 : u < 1) {x : K} (hx : 0 < x) : 0 < fl x := by
  have := (relErr_le hu hx.le).2
  have : 0 < (1 - u) * x := mul_pos (by linarith) hx
  linarith

/-- **C112, accuracy.** For positive increasing areas and positive fluxes every entry of the profile is the exact Petrosian ratio up to
five roundings, whatever cancellation happens in the differences; its sign is exact. -/
theorem C112_accuracy {fl : K → K} (hfl : Rounding fl) {u : K} (hu : RelErr u fl) (hu0 : 0 ≤ u) (hu1 : u < 1) (A Fl : List K)
    (hl : A.length = Fl.length) (h3 : 3 ≤ A.length) (hA : ∀ i (h : i + 1 < A.length), A[i] < A[i + 1]) (hpos : ∀ a ∈ A, 0 < a)
    (hF : ∀ f ∈ Fl, 0 < f) :
    ∃ p, calculatePetrosianFl fl (A.map fin) (Fl.map fin) = .ok p ∧ p.length = A.length ∧ p[0]? = some nan ∧
      ∀ i (h : i + 1 < A.length), ∃ v eta, p[i + 1]? = some (fin v) ∧
        ratio A[i] (Fl[i]'(by omega)) A[i + 1] (Fl[i + 1]'(by omega)) = fin eta ∧ 0 ≤ v * eta ∧
        (1 - u) ^ 3 / (1 + u) ^ 2 * |eta| ≤ |v| ∧ |v| ≤ (1 + u) ^ 3 / (1 - u) ^ 2 * |eta| := by
  obtain ⟨p, hp, hpl, hp0, hpe⟩ := profileFl_entries A Fl hl h3 hA hfl
  refine ⟨p, hp, hpl, hp0, fun i h => ?_⟩
  rw [hpe i h]
  have hda : 0 < A[i + 1] - A[i] := sub_pos.2 (hA i h)
  have ha1 : 0 < A[i + 1] := hpos _ (List.getElem_mem _)
  have hf1 : 0 < Fl[i + 1]'(by omega) := hF _ (List.getElem_mem _)
  have hm := pos_of_relErr hfl hu hu1 hda
  have hd := pos_of_relErr hfl hu hu1 (div_pos hf1 ha1)
  set dF := Fl[i + 1]'(by omega) - Fl[i]'(by omega) with hdF
  set da := A[i + 1] - A[i] with hdA
  set m := Fl[i + 1]'(by omega) / A[i + 1] with hmm
  have hmpos : 0 < m := div_pos hf1 ha1
  refine ⟨fl (fl (fl dF / fl da) / fl m), dF / da / m, ?_, ?_, ?_, ?_, ?_⟩
  · unfold entryR
    rw [← hdA, ← hdF, if_pos hm, F.fin_div_of_ne _ hm.ne', F.fin_div_of_ne _ ha1.ne', rnd_fin, rnd_fin, ← hmm, F.fin_div_of_ne _ hd.ne', rnd_fin]
  · unfold ratio
    rw [← hdA, ← hdF, F.fin_div_of_ne _ hda.ne', F.fin_div_of_ne _ ha1.ne', ← hmm, F.fin_div_of_ne _ hmpos.ne']
  · -- the sign is kept by every step
    rcases le_total 0 dF with h0 | h0
    · exact mul_nonneg (Rounding.nonneg hfl (div_nonneg (Rounding.nonneg hfl (div_nonneg (Rounding.nonneg hfl h0) hm.le)) hd.le))
        (div_nonneg (div_nonneg h0 hda.le) hmpos.le)
    · have hnp : ∀ {x : K}, x ≤ 0 → fl x ≤ 0 := by
        intro x hx
        have := Rounding.nonneg hfl (x := -x) (by linarith)
        rw [hfl.neg] at this
        linarith
      exact mul_nonneg_of_nonpos_of_nonpos
        (hnp (div_nonpos_of_nonpos_of_nonneg (hnp (div_nonpos_of_nonpos_of_nonneg (hnp h0) hm.le)) hd.le))
        (div_nonpos_of_nonpos_of_nonneg (div_nonpos_of_nonpos_of_nonneg h0 hda.le) hmpos.le)
  · have e1 := (relErr_abs hu (fl (fl dF / fl da) / fl m)).2
    have e2 := (relErr_abs hu (fl dF / fl da)).2
    have e3 := (relErr_abs hu dF).2
    have e4 := (relErr_le hu hda.le).1
    have e5 := (relErr_le hu hmpos.le).1
    rw [abs_div, abs_of_pos hd] at e1
    rw [abs_div, abs_of_pos hm] at e2
    rw [abs_div, abs_div, abs_of_pos hda, abs_of_pos hmpos]
    have h1u : 0 < 1 - u := by linarith
    have h1p : 0 < 1 + u := by linarith
    calc (1 - u) ^ 3 / (1 + u) ^ 2 * (|dF| / da / m)
        = (1 - u) * (((1 - u) * (((1 - u) * |dF|) / ((1 + u) * da))) / ((1 + u) * m)) := by
          field_simp
      _ ≤ (1 - u) * (((1 - u) * (|fl dF| / fl da)) / fl m) := by gcongr
      _ ≤ (1 - u) * (|fl (fl dF / fl da)| / fl m) := by gcongr
      _ ≤ _ := e1
  · have e1 := (relErr_abs hu (fl (fl dF / fl da) / fl m)).1
    have e2 := (relErr_abs hu (fl dF / fl da)).1
    have e3 := (relErr_abs hu dF).1
    have e4 := (relErr_le hu hda.le).2
    have e5 := (relErr_le hu hmpos.le).2
    rw [abs_div, abs_of_pos hd] at e1
    rw [abs_div, abs_of_pos hm] at e2
    rw [abs_div, abs_div, abs_of_pos hda, abs_of_pos hmpos]
    have h1u : 0 < 1 - u := by linarith
    have h1p : 0 < 1 + u := by linarith
    calc _ ≤ (1 + u) * (|fl (fl dF / fl da)| / fl m) := e1
      _ ≤ (1 + u) * (((1 + u) * (|fl dF| / fl da)) / fl m) := by gcongr
      _ ≤ (1 + u) * (((1 + u) * (((1 + u) * |dF|) / ((1 - u) * da))) / ((1 - u) * m)) := by gcongr
      _ = (1 + u) ^ 3 / (1 - u) ^ 2 * (|dF| / da / m) := by field_simp

/-! ### C113: scaling by powers of two is exact -/

theorem rnd_scale {fl : K → K} (hb : Binary fl) (j : ℤ) (x : K) : (fin ((2 : K) ^ j * x)).rnd fl = fin ((2 : K) ^ j * fl x) := by
  rw [rnd_fin, hb j x]

theorem div_scale_left {fl : K → K} (hb : Binary fl) (j : ℤ) (n d : K) :
    ((fin ((2 : K) ^ j * n) / fin d).rnd fl : F K) = if d = 0 then sgnInf n else fin ((2 : K) ^ j * fl (n / d)) := by
  rw [fin_div]
  split
  · rw [sgnInf_mul_pos _ _ (by positivity)]; unfold sgnInf; split <;> [rfl; split <;> rfl]
  · rw [mul_div_assoc, rnd_scale hb]

theorem rnd_sgnInf (fl : K → K) (x : K) : (sgnInf x : F K).rnd fl = sgnInf x := by
  unfold sgnInf; split <;> [rfl; split <;> rfl]

theorem entryR_flux_scale {fl : K → K} (hb : Binary fl) (j : ℤ) (a0 f0 a1 f1 : K) :
    entryR fl a0 ((2 : K) ^ j * f0) a1 ((2 : K) ^ j * f1) = entryR fl a0 f0 a1 f1 := by
  have hc : (0 : K) < (2 : K) ^ j := by positivity
  unfold entryR
  rw [← mul_sub, hb, div_scale_left hb j f1 a1]
  have hden : (fin f1 / fin a1 : F K).rnd fl = if a1 = 0 then sgnInf f1 else fin (fl (f1 / a1)) := by
    rw [fin_div]; split <;> [exact rnd_sgnInf _ _; rfl]
  rw [hden]
  by_cases h1 : 0 < fl (a1 - a0)
  · simp only [h1, if_true]
    rw [div_scale_left hb, if_neg h1.ne', F.fin_div_of_ne _ h1.ne', rnd_fin]
    by_cases h2 : a1 = 0
    · simp only [h2, if_true]
      by_cases h3 : f1 = 0
      · subst h3; simp [sgnInf]
      · rw [fin_div_sgnInf _ _ _ h3]
    · simp only [h2, if_false]
      rw [F.mul_div_mul_left' _ _ _ hc]
  · simp only [h1, if_false]
    by_cases h2 : a1 = 0
    · simp only [h2, if_true]
    · simp only [h2, if_false]
      rw [← F.mul_div_mul_left' ((2 : K) ^ j) 0 (fl (f1 / a1)) hc, mul_zero]

theorem div_scale_right {fl : K → K} (hb : Binary fl) (j : ℤ) (n d : K) :
    ((fin n / fin ((2 : K) ^ j * d)).rnd fl : F K) = if d = 0 then sgnInf n else fin ((2 : K) ^ (-j) * fl (n / d)) := by
  have hc : (2 : K) ^ j ≠ 0 := by positivity
  rw [fin_div]
  by_cases h : d = 0
  · rw [if_pos (by rw [h, mul_zero]), if_pos h, rnd_sgnInf]
  · rw [if_neg (mul_ne_zero hc h), if_neg h, rnd_fin, ← hb]
    congr 2
    rw [zpow_neg]; field_simp

theorem entryR_area_scale {fl : K → K} (hb : Binary fl) (j : ℤ) (a0 f0 a1 f1 : K) :
    entryR fl ((2 : K) ^ j * a0) f0 ((2 : K) ^ j * a1) f1 = entryR fl a0 f0 a1 f1 := by
  have hc : (0 : K) < (2 : K) ^ j := by positivity
  have hc' : (0 : K) < (2 : K) ^ (-j) := by positivity
  unfold entryR
  rw [← mul_sub, hb, div_scale_right hb, div_scale_right hb]
  have hden : (fin f1 / fin a1 : F K).rnd fl = if a1 = 0 then sgnInf f1 else fin (fl (f1 / a1)) := by
    rw [fin_div]; split <;> [exact rnd_sgnInf _ _; rfl]
  rw [hden]
  simp only [mul_pos_iff_of_pos_left hc]
  by_cases h1 : 0 < fl (a1 - a0)
  · simp only [h1, if_true]
    rw [if_neg h1.ne', F.fin_div_of_ne _ h1.ne', rnd_fin]
    by_cases h2 : a1 = 0
    · simp only [h2, if_true]
      by_cases h3 : f1 = 0
      · subst h3; simp [sgnInf]
      · rw [fin_div_sgnInf _ _ _ h3]
    · simp only [h2, if_false]
      rw [F.mul_div_mul_left' _ _ _ hc']
  · simp only [h1, if_false]
    by_cases h2 : a1 = 0
    · simp only [h2, if_true]
    · simp only [h2, if_false]
      rw [← F.mul_div_mul_left' ((2 : K) ^ (-j)) 0 (fl (f1 / a1)) hc', mul_zero]

/-- The whole profile depends only on its entries, the acceptance test and the repeated areas. -/
theorem calculatePetrosianFl_congr {fl : K → K} (A Fl A' Fl' : List K) (hlA : A'.length = A.length) (hlF : Fl'.length = Fl.length)
    (hu : uniqueInverse (A'.map fin) = uniqueInverse (A.map fin))
    (hs : ∀ i (h : i + 1 < A.length), 0 ≤ fl (A'[i + 1] - A'[i]) ↔ 0 ≤ fl (A[i + 1] - A[i]))
    (he : ∀ i (h : i + 1 < A.length) (h' : i + 1 < Fl.length),
      entryR fl A'[i] Fl'[i] A'[i + 1] Fl'[i + 1] = entryR fl A[i] Fl[i] A[i + 1] Fl[i + 1]) :
    calculatePetrosianFl fl (A'.map fin) (Fl'.map fin) = calculatePetrosianFl fl (A.map fin) (Fl.map fin) := by
  have hraw : petrosianRawR fl (A'.map fin) (Fl'.map fin) = petrosianRawR fl (A.map fin) (Fl.map fin) := by
    by_cases h : A.length = Fl.length ∧ 3 ≤ A.length ∧ ∀ i (h : i + 1 < A.length), 0 ≤ fl (A[i + 1] - A[i])
    · obtain ⟨raw, hraw, hrl, h0, hg⟩ := petrosianRawR_ok fl A Fl h.1 h.2.1 h.2.2
      obtain ⟨raw', hraw', hrl', h0', hg'⟩ := petrosianRawR_ok fl A' Fl' (by omega) (by omega)
        (fun i hi => (hs i (by omega)).2 (h.2.2 i (by omega)))
      rw [hraw, hraw']
      congr 1
      apply List.ext_getElem?
      intro n
      by_cases hn : n < A.length
      · cases n with
        | zero => rw [h0, h0']
        | succ n => rw [hg n hn, hg' n (by omega), he n hn (by omega)]
      · rw [List.getElem?_eq_none (by omega), List.getElem?_eq_none (by omega)]
    · rw [petrosianRawR_err fl A Fl h, petrosianRawR_err fl A' Fl']
      rintro ⟨h1, h2, h3⟩
      exact h ⟨by omega, by omega, fun i hi => (hs i hi).1 (h3 i (by omega))⟩
  unfold calculatePetrosianFl
  rw [hraw, hu]

/-- **C113.** Multiplying all fluxes, or all areas, by a power of two leaves the floating point profile unchanged, bit by bit. -/
theorem C113_power_of_two {fl : K → K} (hb : Binary fl) (j : ℤ) (A Fl : List K) :
    calculatePetrosianFl fl (A.map fin) ((Fl.map ((2 : K) ^ j * ·)).map fin) = calculatePetrosianFl fl (A.map fin) (Fl.map fin) ∧
    calculatePetrosianFl fl ((A.map ((2 : K) ^ j * ·)).map fin) (Fl.map fin) = calculatePetrosianFl fl (A.map fin) (Fl.map fin) := by
  have hc : (0 : K) < (2 : K) ^ j := by positivity
  constructor
  · apply calculatePetrosianFl_congr _ _ _ _ rfl (by simp) rfl (fun _ _ => Iff.rfl)
    intro i h h'
    simp only [List.getElem_map]
    exact entryR_flux_scale hb j _ _ _ _
  · apply calculatePetrosianFl_congr _ _ _ _ (by simp) rfl
    · exact uniqueInverse_map _ (fun x y h => mul_left_cancel₀ hc.ne' h) A
    · intro i h
      simp only [List.getElem_map, ← mul_sub]
      rw [hb, mul_nonneg_iff_of_pos_left hc]
    · intro i h h'
      simp only [List.getElem_map]
      exact entryR_area_scale hb j _ _ _ _

/-- **C113, uniform source.** A source of constant surface brightness `2^j` has the profile `nan, 1, 1, …` exactly. -/
theorem C113_uniform {fl : K → K} (hfl : Rounding fl) (hb : Binary fl) {u : K} (hu : RelErr u fl) (hu1 : u < 1) (j : ℤ) (A : List K)
    (h3 : 3 ≤ A.length) (hA : ∀ i (h : i + 1 < A.length), A[i] < A[i + 1]) (hpos : ∀ a ∈ A, 0 < a) :
    calculatePetrosianFl fl (A.map fin) ((A.map ((2 : K) ^ j * ·)).map fin) = .ok (nan :: List.replicate (A.length - 1) (fin 1)) := by
  rw [(C113_power_of_two hb j A A).1]
  obtain ⟨p, hp, hpl, hp0, hpe⟩ := profileFl_entries A A rfl h3 hA hfl
  rw [hp]
  congr 1
  apply List.ext_getElem?
  intro n
  cases n with
  | zero => rw [hp0]; rfl
  | succ n =>
    by_cases hn : n + 1 < A.length
    · rw [hpe n hn, List.getElem?_cons_succ, List.getElem?_replicate, if_pos (by omega)]
      have hd := pos_of_relErr hfl hu hu1 (sub_pos.2 (hA n hn))
      have ha : 0 < A[n + 1] := hpos _ (List.getElem_mem _)
      unfold entryR
      rw [if_pos hd, F.fin_div_of_ne _ hd.ne', F.fin_div_of_ne _ ha.ne', div_self hd.ne', div_self ha.ne', rnd_fin, hfl.one,
        F.fin_div_of_ne _ one_ne_zero, div_one, rnd_fin, hfl.one]
    · rw [List.getElem?_eq_none (by omega), List.getElem?_eq_none (by simp; omega)]

end

/-- **C113, other factors.** For other factors the profile does change in double precision: the flux (1, 2, 5) over the areas (1, 2, 3)
gives another last entry than three times that flux. -/
theorem C113_other_factors_violated :
    calculatePetrosianFl (flBits 53) ([fin 1, fin 2, fin 3] : List (F ℚ)) [fin 1, fin 2, fin 5] ≠
      calculatePetrosianFl (flBits 53) ([fin 1, fin 2, fin 3] : List (F ℚ)) [fin 3, fin 6, fin 15] := by
  decide +kernel

/-- C112 in double precision for areas 1, 2, 3 and fluxes 1, 2, 5; the exact last entry is 9/5. -/
example : ∃ p, calculatePetrosianFl (flBits 53) (([1, 2, 3] : List ℚ).map fin) (([1, 2, 5] : List ℚ).map fin) = .ok p ∧ p.length = 3 ∧
    p[0]? = some nan ∧ ∃ v, p[2]? = some (fin v) ∧ |v| ≤ (1 + (2 : ℚ) ^ (-((53 : Nat) : ℤ))) ^ 3 / (1 - (2 : ℚ) ^ (-((53 : Nat) : ℤ))) ^ 2 * (9 / 5) := by
  obtain ⟨p, hp, hl, h0, he⟩ := C112_accuracy (K := ℚ) (flBits_rounding 53 (by decide)) (flBits_relErr 53 (by decide)) (by positivity) (by norm_num)
    [1, 2, 3] [1, 2, 5] rfl (by decide) (by
      intro i h
      have : i = 0 ∨ i = 1 := by simp at h; omega
      rcases this with rfl | rfl <;> norm_num) (by decide +kernel) (by decide +kernel)
  obtain ⟨v, eta, hv, heta, -, -, hle⟩ := he 1 (by decide)
  refine ⟨p, hp, hl, h0, v, hv, ?_⟩
  have e : eta = 9 / 5 := by
    have : ratio (2 : ℚ) 2 3 5 = fin (9 / 5) := by decide +kernel
    simp only [List.getElem_cons_succ, List.getElem_cons_zero] at heta
    rw [this] at heta
    injection heta with h
    exact h.symm
  rw [e] at hle
  rwa [abs_of_pos (by norm_num : (0 : ℚ) < 9 / 5)] at hle
/-- Both outcomes of the acceptance test occur. -/
example : calculatePetrosianFl (flBits 53) ([fin 1, fin 2, fin 3] : List (F ℚ)) [fin 1, fin 2, fin 4] = .ok [nan, fin 1, fin (3 / 2)] ∧
    calculatePetrosianFl (flBits 53) ([fin 1, fin 3, fin 2] : List (F ℚ)) [fin 1, fin 2, fin 4] = .error .assertionError := by
  decide +kernel

end Verif.Props

import Verif.Lemmas.Petrosian
import Verif.Base.Sqrt

/-!
# C01–C06: the Petrosian profile (`calculate_petrosian`)
-/

set_option linter.unusedSectionVars false
set_option linter.unusedVariables false
set_option linter.unusedSimpArgs false

namespace Verif.Props

open F Spec

section
variable {K : Type} [Field K] [LinearOrder K] [IsStrictOrderedRing K] [HasSqrt K]

theorem accepted_of_finite (A Fl : List K) (hl : A.length = Fl.length) (h3 : 3 ≤ A.length)
    (hA : ∀ i (h : i + 1 < A.length), A[i] ≤ A[i + 1]) (aE fE : Option (List (F K)))
    (ha : ∀ e, aE = some e → e.length = A.length) (hf : ∀ e, fE = some e → e.length = A.length) :
    Accepted (A.map fin) (Fl.map fin) aE fE := by
  refine ⟨by simpa using hl, by simpa using h3, ?_, by simpa using ha, by simpa [← hl] using hf⟩
  intro i h
  simp only [List.length_map] at h
  simp only [List.getElem_map, InOrder, le_fin, decide_eq_true_eq]
  exact ⟨hA i h, by simp⟩

/-- C04 (prefix form, used for C01): whatever happens later, as long as the areas up to position `i+1` grow, entry `i+1` is the
formula value of its own position. -/
theorem profile_prefix (A Fl : List K) (aE fE : Option (List (F K))) (p : List (F K)) (e : Option (List (F K)))
    (hr : calculatePetrosian (A.map fin) (Fl.map fin) aE fE = .ok (p, e)) (i : Nat) (hi : i + 1 < A.length)
    (hi' : i + 1 < Fl.length)
    (hpre : ∀ j (h : j ≤ i), A[j] < A[j + 1]) :
    p[i + 1]? = some (ratio A[i] Fl[i] A[i + 1] Fl[i + 1]) := by
  have hacc := accepted_of_ok hr
  obtain ⟨p', e', hr', hpl, raw, hraw, hfi, _⟩ := calculatePetrosian_ok _ _ aE fE hacc
  rw [hr] at hr'
  injection hr' with hr'
  injection hr' with h1 h2
  subst h1 h2
  obtain ⟨hl, h3, ho, _, _⟩ := hacc
  obtain ⟨raw', hraw', hrl, _, hg⟩ := petrosianRaw_ok _ _ hl h3 ho
  rw [hraw] at hraw'
  injection hraw' with hraw'
  subst hraw'
  obtain ⟨p', hp', _, hpg⟩ := fancyIndex_ok (a := raw) (idx := uniqueInverse (A.map fin))
    (by intro i hi; rw [hrl]; exact uniqueInverse_lt _ i hi)
  rw [hfi] at hp'
  injection hp' with hp'
  subst hp'
  have hu : (uniqueInverse (A.map (fin : K → F K)))[i + 1]? = some (i + 1) := by
    apply uniqueInverse_prefix
    · intro j hj
      simp only [List.getElem_map, eqv_fin, decide_eq_false_iff_not]
      exact (hpre j (by omega)).ne
    · simpa using hi
  have hlt : i + 1 < (uniqueInverse (A.map (fin : K → F K))).length := by
    rw [uniqueInverse_length]; simpa using hi
  rw [List.getElem?_eq_getElem hlt] at hu
  injection hu with hu
  rw [hpg (i + 1) hlt, hu, hg i (by simpa using hi)]
  have hd : 0 < A[i + 1] - A[i] := sub_pos.2 (hpre i le_rfl)
  simp [ratio, hd]

theorem profile_length (area flux : List (F K)) (aE fE : Option (List (F K))) (p : List (F K)) (e : Option (List (F K)))
    (hr : calculatePetrosian area flux aE fE = .ok (p, e)) : p.length = area.length ∧ p[0]? = some nan := by
  have hacc := accepted_of_ok hr
  obtain ⟨p', e', hr', hpl, raw, hraw, hfi, _⟩ := calculatePetrosian_ok _ _ aE fE hacc
  rw [hr] at hr'
  injection hr' with hr'
  injection hr' with h1 h2
  subst h1 h2
  refine ⟨hpl, ?_⟩
  obtain ⟨hl, h3, ho, _, _⟩ := hacc
  obtain ⟨raw', hraw', hrl, h0, hg⟩ := petrosianRaw_ok _ _ hl h3 ho
  rw [hraw] at hraw'
  injection hraw' with hraw'
  subst hraw'
  obtain ⟨p', hp', _, hpg⟩ := fancyIndex_ok (a := raw) (idx := uniqueInverse area)
    (by intro i hi; rw [hrl]; exact uniqueInverse_lt _ i hi)
  rw [hfi] at hp'
  injection hp' with hp'
  subst hp'
  have hu : (uniqueInverse area)[0]? = some 0 :=
    uniqueInverse_prefix area 0 (by omega) (by intro j hj; omega)
  have hlt : 0 < (uniqueInverse area).length := by rw [uniqueInverse_length]; omega
  rw [List.getElem?_eq_getElem hlt] at hu
  injection hu with hu
  rw [hpg 0 hlt, hu, h0]

/-- C01: on a strictly increasing curve of growth the profile exists, has the input length, starts with NaN and every other entry is
the surface-brightness ratio of its own position (IEEE division, so zero fluxes give inf/NaN).  The claim holds whether or not
(correctly sized) error arrays are passed. -/
theorem C01_profile_formula (A Fl : List K) (hl : A.length = Fl.length) (h3 : 3 ≤ A.length)
    (hA : ∀ i (h : i + 1 < A.length), A[i] < A[i + 1]) (aE fE : Option (List (F K)))
    (ha : ∀ e, aE = some e → e.length = A.length) (hf : ∀ e, fE = some e → e.length = A.length) :
    ∃ p e, calculatePetrosian (A.map fin) (Fl.map fin) aE fE = .ok (p, e) ∧ p.length = A.length ∧
      p[0]? = some nan ∧
      ∀ i (h : i + 1 < A.length), p[i + 1]? = some (ratio A[i] Fl[i] A[i + 1] Fl[i + 1]) := by
  have hacc := accepted_of_finite A Fl hl h3 (fun i h => (hA i h).le) aE fE ha hf
  obtain ⟨p, e, hr, _⟩ := calculatePetrosian_ok _ _ aE fE hacc
  obtain ⟨h1, h2⟩ := profile_length _ _ _ _ _ _ hr
  exact ⟨p, e, hr, by simpa using h1, h2, fun i h =>
    profile_prefix A Fl aE fE p e hr i h (by omega) (fun j hj => hA j (by omega))⟩

/-- Non-vacuity: areas 1,2,4 and fluxes 3,5,6 satisfy the hypotheses; the profile is NaN, 4/5, 1/3. -/
example : calculatePetrosian ([1, 2, 4].map fin : List (F ℚ)) ([3, 5, 6].map fin)
    = .ok ([nan, fin (4 / 5), fin (1 / 3)], none) := by decide +kernel

/-- Non-vacuity with a zero flux: IEEE division produces an infinity. -/
example : calculatePetrosian ([1, 2, 4].map fin : List (F ℚ)) ([-1, 0, 6].map fin)
    = .ok ([nan, pinf, fin 2], none) := by decide +kernel

/-- C02: the call raises exactly on the inputs that are not accepted, always AssertionError, and otherwise returns. -/
theorem C02_validation (area flux : List (F K)) (aE fE : Option (List (F K))) :
    (∀ err, calculatePetrosian area flux aE fE = .error err ↔ err = .assertionError ∧ ¬ Accepted area flux aE fE) ∧
    ((∃ r, calculatePetrosian area flux aE fE = .ok r) ↔ Accepted area flux aE fE) := by
  by_cases h : Accepted area flux aE fE
  · obtain ⟨p, e, hr, _⟩ := calculatePetrosian_ok _ _ aE fE h
    rw [hr]
    exact ⟨fun err => by simp [h], by simp [h]⟩
  · rw [calculatePetrosian_err _ _ _ _ h]
    refine ⟨fun err => ?_, by simp [h]⟩
    simp only [h, not_false_eq_true, and_true]
    constructor
    · intro h; injection h with h; exact h.symm
    · intro h; rw [h]

/-- Non-vacuity: one accepted curve (with a flux error array), one rejected because of a NaN area. -/
example : Accepted ([fin 1, fin 2, pinf] : List (F ℚ)) [fin 1, nan, pinf] none (some [fin 1, fin 1, fin 1]) := by
  refine ⟨rfl, by simp, ?_, by simp, by simp⟩
  intro i h
  have : i = 0 ∨ i = 1 := by simp at h; omega
  rcases this with rfl | rfl <;> simp [InOrder, F.le]
example : calculatePetrosian ([fin 1, nan, fin 3] : List (F ℚ)) [fin 1, fin 2, fin 3] = .error .assertionError := by
  decide +kernel

/-! ### C03 -/

theorem fin_div_sgnInf (a b z : K) (h : z ≠ 0) : (fin a / sgnInf z : F K) = fin b / sgnInf z := by
  unfold sgnInf
  rcases lt_trichotomy z 0 with h1 | h1 | h1
  · rw [if_neg h1.le.not_gt, if_pos h1]; rfl
  · exact absurd h1 h
  · rw [if_pos h1]; rfl

theorem sgnInf_mul_pos (c z : K) (hc : 0 < c) : (sgnInf (c * z) : F K) = sgnInf z := by
  unfold sgnInf
  have : c * z < 0 ↔ z < 0 := by
    constructor
    · intro h; by_contra hz; exact absurd (mul_nonneg hc.le (not_lt.1 hz)) (not_le.2 h)
    · intro h; exact mul_neg_of_pos_of_neg hc h
  simp only [mul_pos_iff_of_pos_left hc, this]

/-- Scaling the numerator and the flux of an average surface brightness by the same constant. -/
theorem div_avg_flux_scale (c x z w : K) (hc : 0 < c ∨ (c ≠ 0 ∧ z ≠ 0)) :
    (fin (c * x) / (fin (c * z) / fin w) : F K) = fin x / (fin z / fin w) := by
  by_cases hw : w = 0
  · subst hw
    simp only [fin_div _ (0 : K), if_true]
    by_cases hz : z = 0
    · subst hz
      simp [sgnInf]
    · rcases hc with hc | ⟨hc, _⟩
      · rw [sgnInf_mul_pos c z hc]; exact fin_div_sgnInf _ _ _ hz
      · unfold sgnInf
        have hcz := mul_ne_zero hc hz
        rcases lt_or_gt_of_ne hz with h1 | h1 <;> rcases lt_or_gt_of_ne hcz with h2 | h2 <;>
          simp only [h1, h2, h1.le.not_gt, h2.le.not_gt, if_true, if_false] <;> rfl
  · rw [fin_div_of_ne _ hw, fin_div_of_ne _ hw]
    rcases hc with hc | ⟨hc, hz⟩
    · rw [mul_div_assoc, mul_div_mul_left' _ _ _ hc]
    · rw [fin_div_of_ne _ (div_ne_zero (mul_ne_zero hc hz) hw), fin_div_of_ne _ (div_ne_zero hz hw)]
      congr 1
      field_simp

theorem div_avg_area_scale (c x z w : K) (hc : 0 < c) :
    (fin (c⁻¹ * x) / (fin z / fin (c * w)) : F K) = fin x / (fin z / fin w) := by
  by_cases hw : w = 0
  · subst hw
    simp only [mul_zero, fin_div _ (0 : K), if_true]
    by_cases hz : z = 0
    · subst hz; simp [sgnInf]
    · exact fin_div_sgnInf _ _ _ hz
  · rw [fin_div_of_ne _ hw, fin_div_of_ne _ (mul_ne_zero hc.ne' hw)]
    have : z / (c * w) = c⁻¹ * (z / w) := by field_simp
    rw [this, mul_div_mul_left' _ _ _ (inv_pos.2 hc)]

/-- C03: rescaling the fluxes by a positive constant (or by a negative one when no flux is zero), or the areas by a positive
constant, does not change the result at all, rejected inputs included.  With a zero flux and a negative factor python's signed zero
decides the sign of the infinity, which the one-zero number model does not represent, hence the side condition. -/
theorem C03_unit_independence (A Fl : List K) (c : K) :
    ((0 < c ∨ (c ≠ 0 ∧ ∀ x ∈ Fl, x ≠ 0)) →
      calculatePetrosian (A.map fin) ((Fl.map (c * ·)).map fin) = calculatePetrosian (A.map fin) (Fl.map fin)) ∧
    (0 < c →
      calculatePetrosian ((A.map (c * ·)).map fin) (Fl.map fin) = calculatePetrosian (A.map fin) (Fl.map fin)) := by
  constructor
  · intro hc
    have : petrosianRaw (A.map fin) ((Fl.map (c * ·)).map fin) = petrosianRaw (A.map fin) (Fl.map fin) := by
      apply petrosianRaw_congr (by simp) (by simp) Iff.rfl
      intro i h _ g g' ho
      simp only [List.getElem_map, fin_sub, lt_fin, InOrder, le_fin, decide_eq_true_eq] at ho ⊢
      simp only [List.length_map] at g'
      have hz : 0 < c ∨ (c ≠ 0 ∧ Fl[i + 1] ≠ 0) := hc.imp id (fun h => ⟨h.1, h.2 _ (List.getElem_mem _)⟩)
      by_cases hd : 0 < A[i + 1]'(by simpa using h) - A[i]'(by simp at h; omega)
      · rw [if_pos hd, if_pos hd, fin_div_of_ne _ hd.ne', fin_div_of_ne _ hd.ne', ← mul_sub, mul_div_assoc]
        exact div_avg_flux_scale c _ _ _ hz
      · rw [if_neg hd, if_neg hd]
        simpa using div_avg_flux_scale c 0 (Fl[i + 1]) (A[i + 1]'(by simpa using h)) hz
    unfold calculatePetrosian
    rw [this]
    rfl
  · intro hc
    have hinj : Function.Injective (fun x : K => c * x) := fun a b h => mul_left_cancel₀ hc.ne' h
    have : petrosianRaw ((A.map (c * ·)).map fin) (Fl.map fin) = petrosianRaw (A.map fin) (Fl.map fin) := by
      apply petrosianRaw_congr (by simp) (by simp)
      · simp only [List.length_map, List.getElem_map, InOrder, le_fin, decide_eq_true_eq, mul_le_mul_iff_right₀ hc]
        simp
      · intro i h h' g g' ho
        simp only [List.getElem_map, fin_sub, lt_fin, decide_eq_true_eq, ← mul_sub,
          mul_pos_iff_of_pos_left hc]
        by_cases hd : 0 < A[i + 1]'(by simpa using h') - A[i]'(by simp at h; omega)
        · rw [if_pos hd, if_pos hd, fin_div_of_ne _ hd.ne', fin_div_of_ne _ (mul_ne_zero hc.ne' hd.ne')]
          refine Eq.trans ?_ (div_avg_area_scale c _ _ _ hc)
          congr 2
          field_simp
        · rw [if_neg hd, if_neg hd]
          simpa using div_avg_area_scale c 0 (Fl[i + 1]'(by simpa using g)) (A[i + 1]'(by simpa using h')) hc
    unfold calculatePetrosian
    rw [this, uniqueInverse_map _ hinj]
    rfl

/-- Non-vacuity: a factor of 10 in flux on an accepted curve with a repeated area and a zero flux. -/
example : calculatePetrosian ([1, 2, 2, 4].map fin : List (F ℚ)) ([0, 30, 30, 60].map fin)
    = calculatePetrosian ([1, 2, 2, 4].map fin : List (F ℚ)) ([0, 3, 3, 6].map fin) ∧
    (calculatePetrosian ([1, 2, 2, 4].map fin : List (F ℚ)) ([0, 3, 3, 6].map fin)).isOk = true := by
  decide +kernel

/-! ### C04 -/

/-- C04 is false of the code: with areas 1,2,2,3 the last aperture grows (2 to 3, flux 6 to 9) but gets 0, the value belonging to the
repeated aperture, instead of its own ratio 1. -/
theorem C04_counterexample :
    ∃ (A Fl : List ℚ) (p : List (F ℚ)), calculatePetrosian (A.map fin) (Fl.map fin) = .ok (p, none) ∧
      ∃ (i : Nat) (h : i + 1 < A.length) (h' : i + 1 < Fl.length), A[i] < A[i + 1] ∧
        p[i + 1]? ≠ some (ratio A[i] Fl[i] A[i + 1] Fl[i + 1]) :=
  ⟨[1, 2, 2, 3], [3, 6, 6, 9], [nan, fin 1, fin 1, fin 0], by decide +kernel, 2, by decide, by decide, by decide +kernel,
    by decide +kernel⟩

/-- C04, the part that holds: an entry is right as long as no area was repeated before it (in particular when the only repeats are
at the end).  Missing from the full claim: entries after a repeat; see `C04_counterexample`. -/
theorem C04_repeated_areas_partial (A Fl : List K) (aE fE : Option (List (F K))) (p : List (F K)) (e : Option (List (F K)))
    (hr : calculatePetrosian (A.map fin) (Fl.map fin) aE fE = .ok (p, e)) (i : Nat) (hi : i + 1 < A.length)
    (hi' : i + 1 < Fl.length) (hpre : ∀ j (h : j ≤ i), A[j] < A[j + 1]) :
    p[i + 1]? = some (ratio A[i] Fl[i] A[i + 1] Fl[i + 1]) :=
  profile_prefix A Fl aE fE p e hr i hi hi' hpre

/-- Non-vacuity: a repeat at the end. -/
example : calculatePetrosian ([1, 2, 4, 4].map fin : List (F ℚ)) ([3, 5, 6, 6].map fin)
    = .ok ([nan, fin (4 / 5), fin (1 / 3), fin (1 / 3)], none) := by decide +kernel

/-! ### C05 -/

/-- C05: bounds of the profile for positive fluxes and positive strictly increasing areas. -/
theorem C05_bounds (A Fl : List K) (hl : A.length = Fl.length) (h3 : 3 ≤ A.length)
    (hA : ∀ i (h : i + 1 < A.length), A[i] < A[i + 1]) (hpos : ∀ a ∈ A, 0 < a) :
    ∃ p, calculatePetrosian (A.map fin) (Fl.map fin) = .ok (p, none) ∧
      -- non-decreasing curve of growth: entries are finite and non-negative
      ((∀ f ∈ Fl, 0 < f) → (∀ i (h : i + 1 < Fl.length), Fl[i] ≤ Fl[i + 1]) →
        ∀ i (h : i + 1 < A.length), ∃ v, p[i + 1]? = some (fin v) ∧ 0 ≤ v) ∧
      -- non-increasing mean surface brightness: entries are at most 1
      ((∀ f ∈ Fl, 0 < f) → (∀ i (h : i + 1 < A.length), Fl[i + 1] / A[i + 1] ≤ Fl[i] / A[i]) →
        ∀ i (h : i + 1 < A.length), ∃ v, p[i + 1]? = some (fin v) ∧ v ≤ 1) ∧
      -- uniform source: entries are exactly 1
      (∀ c, c ≠ 0 → (∀ i (h : i < A.length), Fl[i] = c * A[i]) →
        ∀ i (h : i + 1 < A.length), p[i + 1]? = some (fin 1)) := by
  obtain ⟨p, e, hr, hpl, h0, hg⟩ := C01_profile_formula A Fl hl h3 hA none none (by simp) (by simp)
  have he : e = none := by
    obtain ⟨p', e', hr', _, raw, _, _, h⟩ := calculatePetrosian_ok _ _ none none (accepted_of_ok hr)
    rw [hr] at hr'
    injection hr' with hr'; injection hr' with h1 h2
    rcases h with h | h
    · rw [h2]; exact h.2.2
    · simp at h
  subst he
  have key : ∀ i (h : i + 1 < A.length), Fl[i + 1] ≠ 0 →
      ratio A[i] Fl[i] A[i + 1] Fl[i + 1] =
        fin (((Fl[i + 1] - Fl[i]) * A[i + 1]) / ((A[i + 1] - A[i]) * Fl[i + 1])) := by
    intro i h hf
    have ha : A[i + 1] ≠ 0 := (hpos _ (List.getElem_mem _)).ne'
    have hd : A[i + 1] - A[i] ≠ 0 := sub_ne_zero.2 (hA i h).ne'
    unfold ratio
    rw [fin_div_of_ne _ hd, fin_div_of_ne _ ha, fin_div_of_ne _ (div_ne_zero hf ha)]
    congr 1
    field_simp
  refine ⟨p, hr, ?_, ?_, ?_⟩
  · intro hf hm i h
    have hfp := hf (Fl[i + 1]) (List.getElem_mem _)
    refine ⟨_, by rw [hg i h, key i h hfp.ne'], ?_⟩
    apply div_nonneg
    · exact mul_nonneg (sub_nonneg.2 (hm i (by omega))) (hpos _ (List.getElem_mem _)).le
    · exact mul_nonneg (sub_nonneg.2 (hA i h).le) hfp.le
  · intro hf hm i h
    have hfp := hf (Fl[i + 1]) (List.getElem_mem _)
    have ha1 := hpos (A[i + 1]) (List.getElem_mem _)
    have ha0 := hpos (A[i]) (List.getElem_mem _)
    refine ⟨_, by rw [hg i h, key i h hfp.ne'], ?_⟩
    rw [div_le_one (mul_pos (sub_pos.2 (hA i h)) hfp)]
    have := hm i h
    rw [div_le_div_iff₀ ha1 ha0] at this
    nlinarith
  · intro c hc hu i h
    have ha1 := hpos (A[i + 1]) (List.getElem_mem _)
    have hf : Fl[i + 1] ≠ 0 := by rw [hu (i + 1) h]; exact mul_ne_zero hc ha1.ne'
    rw [hg i h, key i h hf]
    congr 2
    rw [hu (i + 1) h, hu i (by omega)]
    have hd : A[i + 1] - A[i] ≠ 0 := sub_ne_zero.2 (hA i h).ne'
    field_simp

/-- Non-vacuity: a decreasing source, and a uniform source. -/
example : calculatePetrosian ([1, 2, 4].map fin : List (F ℚ)) ([3, 5, 6].map fin)
    = .ok ([nan, fin (4 / 5), fin (1 / 3)], none) ∧
    calculatePetrosian ([1, 2, 4].map fin : List (F ℚ)) ([-3, -6, -12].map fin)
    = .ok ([nan, fin 1, fin 1], none) := by decide +kernel

/-! ### C06 -/

/-- C06, structural half: no error array in, no error array out; otherwise the error array has the input length and starts with NaN;
an absent error array means zeros. -/
theorem C06_errors_shape (area flux : List (F K)) (aE fE : Option (List (F K))) :
    (∀ p e, calculatePetrosian area flux aE fE = .ok (p, e) →
      (e = none ↔ aE = none ∧ fE = none) ∧
      (∀ e', e = some e' → e'.length = area.length ∧ e'[0]? = some nan)) ∧
    (∀ a, calculatePetrosian area flux (some a) none =
      calculatePetrosian area flux (some a) (some (flux.map fun _ => fin 0))) ∧
    (∀ f, calculatePetrosian area flux none (some f) =
      calculatePetrosian area flux (some (area.map fun _ => fin 0)) (some f)) := by
  refine ⟨?_, fun a => rfl, fun f => rfl⟩
  intro p e hr
  have hacc := accepted_of_ok hr
  obtain ⟨p', e', hr', hpl, raw, hraw, hfi, h⟩ := calculatePetrosian_ok _ _ aE fE hacc
  rw [hr] at hr'
  injection hr' with hr'
  injection hr' with h1 h2
  subst h1 h2
  rcases h with ⟨h1, h2, h3⟩ | ⟨h1, e', h2, h3, h4⟩
  · subst h3
    simp only [Option.isNone_iff_eq_none] at h1 h2
    simp [h1, h2]
  · subst h2
    simp only [Option.isNone_iff_eq_none] at h1
    refine ⟨by simp [h1], ?_⟩
    intro e'' he
    injection he with he
    subst he
    refine ⟨h3, ?_⟩
    obtain ⟨hl, hn3, ho, ha, hf⟩ := hacc
    have hu : (uniqueInverse area)[0]? = some 0 :=
      uniqueInverse_prefix area 0 (by omega) (by intro j hj; omega)
    have hlt : 0 < (uniqueInverse area).length := by rw [uniqueInverse_length]; omega
    obtain ⟨_, h5⟩ := mapM_getElem h4 0 hlt
    rw [List.getElem?_eq_getElem hlt] at hu
    injection hu with hu
    simp only [hu] at h5
    rw [List.getElem?_eq_getElem (by omega)]
    have h6 : (petrosianErrRaw area flux p (aE.getD (area.map fun _ => fin 0))
      (fE.getD (flux.map fun _ => fin 0)))[0]? = some nan := rfl
    rw [h6] at h5
    injection h5 with h5
    rw [← h5]

end

section real

theorem fsqrt_real {x : ℝ} (h : 0 ≤ x) : F.sqrt (fin x) = fin (Real.sqrt x) := by
  show (if x < 0 then nan else fin (HasSqrt.sqrt x)) = _
  rw [if_neg (not_lt.2 h)]; rfl

theorem fsq_fin {K : Type} [Field K] [LinearOrder K] (x : K) : F.sq (fin x) = fin (x * x) := rfl

/-- C06, values: entry `i+1` of the error array is the profile value times the quadrature sum of the four relative errors. -/
theorem C06_errors_quadrature (A Fl Ae Fe : List ℝ) (hl : A.length = Fl.length) (h3 : 3 ≤ A.length)
    (hla : Ae.length = A.length) (hlf : Fe.length = A.length)
    (hA : ∀ i (h : i + 1 < A.length), A[i] < A[i + 1])
    (hA0 : ∀ i (h : i + 1 < A.length), A[i + 1] ≠ 0) (hF0 : ∀ i (h : i + 1 < A.length), Fl[i + 1] ≠ 0)
    (hdF : ∀ i (h : i + 1 < A.length), Fl[i + 1] ≠ Fl[i]) :
    ∃ p e, calculatePetrosian (A.map fin) (Fl.map fin) (some (Ae.map fin)) (some (Fe.map fin)) = .ok (p, some e) ∧
      e.length = A.length ∧ e[0]? = some nan ∧
      ∀ i (h : i + 1 < A.length), ∃ v s : ℝ, p[i + 1]? = some (fin v) ∧ e[i + 1]? = some (fin s) ∧ 0 ≤ s ∧
        v = (Fl[i + 1] - Fl[i]) / (A[i + 1] - A[i]) / (Fl[i + 1] / A[i + 1]) ∧
        s = |v| * Real.sqrt ((Fe[i] ^ 2 + Fe[i + 1] ^ 2) / (Fl[i + 1] - Fl[i]) ^ 2
              + (Ae[i] ^ 2 + Ae[i + 1] ^ 2) / (A[i + 1] - A[i]) ^ 2
              + (Fe[i + 1] / Fl[i + 1]) ^ 2 + (Ae[i + 1] / A[i + 1]) ^ 2) := by
  obtain ⟨p, e, hr, hpl, h0, hg⟩ := C01_profile_formula A Fl hl h3 hA (some (Ae.map fin)) (some (Fe.map fin))
    (by simpa using hla) (by simpa using hlf)
  have hacc := accepted_of_ok hr
  obtain ⟨p', e', hr', hpl', raw, hraw, hfi, h⟩ := calculatePetrosian_ok _ _ _ _ hacc
  rw [hr] at hr'
  injection hr' with hr'
  injection hr' with h1 h2
  subst h1 h2
  rcases h with ⟨h1, _⟩ | ⟨h1, e', h2, h3', h4⟩
  · simp at h1
  subst h2
  have hshape := ((C06_errors_shape _ _ _ _).1 p (some e') hr).2 e' rfl
  refine ⟨p, e', hr, by simpa using hshape.1, hshape.2, ?_⟩
  intro i h
  rw [uniqueInverse_of_ne _ (by
    intro j hj
    simp only [List.length_map] at hj
    simp only [List.getElem_map, eqv_fin, decide_eq_false_iff_not]
    exact (hA j hj).ne), List.length_map, fancyIndex_range (by
      rw [petrosianErrRaw_length _ _ _ _ _ (by simpa using h3) (by simp [hl]) (by simpa using hpl) (by simpa using hla)
        (by simpa using hlf), List.length_map])] at h4
  injection h4 with h4
  have hd : 0 < A[i + 1] - A[i] := sub_pos.2 (hA i h)
  have hdf : Fl[i + 1] - Fl[i] ≠ 0 := sub_ne_zero.2 (hdF i h)
  have ha0 := hA0 i h
  have hf0 := hF0 i h
  have hv : ratio A[i] Fl[i] A[i + 1] Fl[i + 1] =
      fin ((Fl[i + 1] - Fl[i]) / (A[i + 1] - A[i]) / (Fl[i + 1] / A[i + 1])) := by
    unfold ratio
    rw [fin_div_of_ne _ hd.ne', fin_div_of_ne _ ha0, fin_div_of_ne _ (div_ne_zero hf0 ha0)]
  have hpv : p[i + 1]? = some (fin ((Fl[i + 1] - Fl[i]) / (A[i + 1] - A[i]) / (Fl[i + 1] / A[i + 1]))) := by
    rw [hg i h, hv]
  have hpi : p[i + 1]'(by omega) = fin ((Fl[i + 1] - Fl[i]) / (A[i + 1] - A[i]) / (Fl[i + 1] / A[i + 1])) := by
    rw [List.getElem?_eq_getElem (by omega)] at hpv
    injection hpv
  refine ⟨_, _, hpv, ?_, ?_, rfl, rfl⟩
  · have h5 := congrArg (fun l : List (F ℝ) => l[i + 1]?) h4
    simp only at h5
    refine Eq.trans h5.symm ?_
    simp only [petrosianErrRaw, List.getElem?_cons_succ, Option.getD_some]
    rw [List.getElem?_eq_getElem (by
      simp only [List.length_zipWith, List.length_zip, List.length_tail, List.length_dropLast, npDiff_length,
        List.length_map]
      omega)]
    simp only [List.getElem_zipWith, List.getElem_zip, List.getElem_tail, List.getElem_dropLast, List.getElem_map]
    rw [npDiff_getElem (A.map fin) i (by simpa using h), npDiff_getElem (Fl.map fin) i (by simp; omega)]
    simp only [List.getElem_map, fin_sub, lt_fin, hd, decide_true, if_true, hpi]
    congr 1
    have n1 : (Fl[i + 1] - Fl[i]) / (A[i + 1] - A[i]) ≠ 0 := div_ne_zero hdf hd.ne'
    have n2 : Fl[i + 1] / A[i + 1] ≠ 0 := div_ne_zero hf0 ha0
    simp only [fin_div_of_ne _ hd.ne', fin_div_of_ne _ ha0, fin_div_of_ne _ hf0, fin_div_of_ne _ hdf, fsq_fin, fin_add,
      fsqrt_real (add_nonneg (mul_self_nonneg _) (mul_self_nonneg _)), abs_fin, fin_mul,
      fin_div_of_ne _ n1, fin_div_of_ne _ n2]
    congr 1
    have hsq : ∀ a b : ℝ, 0 ≤ a → (|b| * Real.sqrt a / b) * (|b| * Real.sqrt a / b) = b * b * a / (b * b) := by
      intro a b ha
      rw [div_mul_div_comm, show |b| * Real.sqrt a * (|b| * Real.sqrt a) = (|b| * |b|) * (Real.sqrt a * Real.sqrt a) by ring,
        abs_mul_abs_self, Real.mul_self_sqrt ha]
    rw [hsq _ _ (add_nonneg (mul_self_nonneg _) (mul_self_nonneg _)),
      hsq _ _ (add_nonneg (mul_self_nonneg _) (mul_self_nonneg _))]
    congr 2
    rw [mul_div_cancel_left₀ _ (mul_ne_zero n1 n1), mul_div_cancel_left₀ _ (mul_ne_zero n2 n2)]
    have hss : ∀ a b c : ℝ, Real.sqrt (a * a + b * b) / c * (Real.sqrt (a * a + b * b) / c) = (a ^ 2 + b ^ 2) / c ^ 2 := by
      intro a b c
      rw [div_mul_div_comm, Real.mul_self_sqrt (add_nonneg (mul_self_nonneg _) (mul_self_nonneg _))]
      ring
    rw [hss, hss]
    ring
  · exact mul_nonneg (abs_nonneg _) (Real.sqrt_nonneg _)

/-- Non-vacuity (run on rationals): areas 1,2,4, fluxes 3,5,6, flux errors 3,4,... give finite errors. -/
example : calculatePetrosian ([1, 2, 4].map fin : List (F ℚ)) ([3, 6, 12].map fin) none (some ([0, 3, 0].map fin))
    = .ok ([nan, fin 1, fin 1], some [nan, fin 0, fin (1 / 2)]) ∧
    calculatePetrosian ([1, 2, 4].map fin : List (F ℚ)) ([3, 6, 12].map fin) (some ([0, 0, 0].map fin))
      (some ([0, 3, 0].map fin)) = .ok ([nan, fin 1, fin 1], some [nan, fin 0, fin (1 / 2)]) := by decide +kernel

example : ∃ A Fl Ae Fe : List ℝ, A.length = Fl.length ∧ 3 ≤ A.length ∧ Ae.length = A.length ∧ Fe.length = A.length ∧
    (∀ i (h : i + 1 < A.length), A[i] < A[i + 1]) := by
  refine ⟨[1, 2, 4], [3, 5, 6], [0, 0, 0], [1, 1, 1], rfl, by simp, rfl, rfl, ?_⟩
  intro i h
  have : i = 0 ∨ i = 1 := by simp at h; omega
  rcases this with rfl | rfl <;> norm_num

end real

end Verif.Props

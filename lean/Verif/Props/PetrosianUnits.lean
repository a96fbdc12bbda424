import Verif.Lemmas.PetrosianObj
import Verif.Props.PetrosianProfile
import Verif.Props.Fraction

/-!
# C15, C16: flux and radius units of `Petrosian` objects
-/

set_option linter.unusedSectionVars false
set_option linter.unusedVariables false
set_option linter.unusedSimpArgs false

namespace Verif.Props

open F Spec

variable {K : Type} [Field K] [LinearOrder K] [IsStrictOrderedRing K] [HasSqrt K] [HasLog10 K]

/-- C15: multiplying the fluxes by `c > 0` leaves all radii and concentrations unchanged and multiplies the fluxes at the radii by
`c`; the statement is about the whole outcome of a query (value or exception). -/
theorem C15_flux_unit (ip : InterpFam K) (R A Y : List K) (eta : F K) (eps : K) (epsf tff : F K) (kind : Option String)
    (num : Nat) {m : Nat} (hip : Lawful (ip (kind.getD "cubic")) m) (hR : Incr R) {c : K} (hc : 0 < c) {p : Petrosian K}
    (hp : Petrosian.init (R.map fin) (A.map fin) (Y.map fin) none none eta (fin eps) epsf tff kind num = .ok p) :
    ∃ p', Petrosian.init (R.map fin) (A.map fin) ((Y.map (c * ·)).map fin) none none eta (fin eps) epsf tff kind num = .ok p' ∧
      p'.rPetrosian ip = p.rPetrosian ip ∧ p'.rEpsilon ip = p.rEpsilon ip ∧ p'.rHalfLight ip = p.rHalfLight ip ∧
      p'.rTotalFlux ip = p.rTotalFlux ip ∧ (∀ f, p'.fractionFluxToR ip f = p.fractionFluxToR ip f) ∧
      (∀ f1 f2, p'.concentrationIndex ip f1 f2 = p.concentrationIndex ip f1 f2) ∧
      p'.totalFlux ip = (p.totalFlux ip).map (fin c * ·) ∧ p'.halfFlux ip = (p.halfFlux ip).map (fin c * ·) := by
  obtain ⟨h2, hl, _, _, pl, pe, hcp, rfl⟩ := Petrosian.init_ok_iff.1 hp
  obtain rfl := calculatePetrosian_none_snd hcp
  simp only [List.length_map] at h2 hl
  refine ⟨_, Petrosian.init_ok_iff.2 ⟨by simpa using h2, by simpa using hl, by simp, by simp, pl, none, ?_, rfl⟩, ?_⟩
  · rw [(C03_unit_independence A Y c).1 (Or.inl hc)]; exact hcp
  have h2' : 2 ≤ R.length := by omega
  have hrp : ∀ Y', Petrosian.rPetrosian ip
      ⟨R.map fin, A.map fin, Y', none, none, eta, fin eps, epsf, tff, kind, num, pl, none⟩ =
      (calculatePetrosianR ip (R.map fin) pl none eta kind num).map Prod.fst := fun _ => rfl
  have hq : ∀ rp e, calculatePetrosianR ip (R.map fin) pl none eta kind num = .ok (rp, e) → Query (rp * fin eps) :=
    fun rp e h => (calculatePetrosianR_query h2' h).mul_fin eps
  have hfrac : ∀ f, Petrosian.calcFractionToR ip
      ⟨R.map fin, A.map fin, (Y.map (c * ·)).map fin, none, none, eta, fin eps, epsf, tff, kind, num, pl, none⟩ f =
      Petrosian.calcFractionToR ip
      ⟨R.map fin, A.map fin, Y.map fin, none, none, eta, fin eps, epsf, tff, kind, num, pl, none⟩ f := by
    intro f
    unfold Petrosian.calcFractionToR Petrosian.rPetrosian Petrosian.rPetrosianErr Petrosian.calcPetrosianR
    simp only
    cases hcase : calculatePetrosianR ip (R.map fin) pl none eta kind num with
    | error e => rfl
    | ok t =>
      obtain ⟨rp, e⟩ := t
      simp only [Except.map, Except.bind_ok]
      exact fractionToR_flux_scale hip h2' hR (hq rp e hcase) hc
  have hci : ∀ f1 f2, Petrosian.concentrationIndex ip
      ⟨R.map fin, A.map fin, (Y.map (c * ·)).map fin, none, none, eta, fin eps, epsf, tff, kind, num, pl, none⟩ f1 f2 =
      Petrosian.concentrationIndex ip
      ⟨R.map fin, A.map fin, Y.map fin, none, none, eta, fin eps, epsf, tff, kind, num, pl, none⟩ f1 f2 := by
    intro f1 f2
    unfold Petrosian.concentrationIndex Petrosian.rPetrosian Petrosian.rPetrosianErr Petrosian.calcPetrosianR
    simp only
    cases hcase : calculatePetrosianR ip (R.map fin) pl none eta kind num with
    | error e => rfl
    | ok t =>
      obtain ⟨rp, e⟩ := t
      simp only [Except.map, Except.bind_ok]
      unfold calculateConcentrationIndex
      rw [fractionToR_flux_scale hip h2' hR (hq rp e hcase) hc, fractionToR_flux_scale hip h2' hR (hq rp e hcase) hc]
  -- a radius query returns NaN or a finite number
  have hrq : ∀ f r e, Petrosian.calcFractionToR ip
      ⟨R.map fin, A.map fin, Y.map fin, none, none, eta, fin eps, epsf, tff, kind, num, pl, none⟩ f = .ok (r, e) → Query r := by
    intro f r e h
    unfold Petrosian.calcFractionToR at h
    simp only [bind_eq_ok] at h
    obtain ⟨rp, _, rpe, _, h⟩ := h
    rcases fractionToR_query h2' h with h | ⟨x, h, _⟩
    · exact Or.inl h
    · exact Or.inr ⟨x, h⟩
  have hflux : ∀ r, Query r → Petrosian.fluxAt ip
      ⟨R.map fin, A.map fin, (Y.map (c * ·)).map fin, none, none, eta, fin eps, epsf, tff, kind, num, pl, none⟩ r =
      (Petrosian.fluxAt ip
      ⟨R.map fin, A.map fin, Y.map fin, none, none, eta, fin eps, epsf, tff, kind, num, pl, none⟩ r).map (fin c * ·) := by
    intro r hr
    have hne : R ≠ [] := by rintro rfl; simp at h2
    obtain ⟨lo, h1, hmin, h1'⟩ := pyMin_fin hne
    obtain ⟨hi, h3, hmax, h3'⟩ := pyMax_fin hne
    unfold Petrosian.fluxAt
    simp only [hmin, hmax, Except.bind_ok]
    by_cases hin : (F.le (fin lo) r && F.le r (fin hi)) = true
    · rw [if_pos hin, if_pos hin]
      cases kind with
      | none => rfl
      | some k => exact lawful_smul_all hip hR hr hc
    · rw [if_neg hin, if_neg hin]; simp [Except.map]
  refine ⟨rfl, rfl, ?_, ?_, ?_, hci, ?_, ?_⟩
  · unfold Petrosian.rHalfLight; rw [hfrac]
  · unfold Petrosian.rTotalFlux; rw [hfrac]
  · intro f; unfold Petrosian.fractionFluxToR; rw [hfrac]
  · unfold Petrosian.totalFlux Petrosian.rTotalFlux
    rw [hfrac]
    cases hcase : Petrosian.calcFractionToR ip
      ⟨R.map fin, A.map fin, Y.map fin, none, none, eta, fin eps, epsf, tff, kind, num, pl, none⟩ tff with
    | error e => rfl
    | ok t => exact hflux _ (hrq _ _ _ hcase)
  · unfold Petrosian.halfFlux Petrosian.rHalfLight
    rw [hfrac]
    cases hcase : Petrosian.calcFractionToR ip
      ⟨R.map fin, A.map fin, Y.map fin, none, none, eta, fin eps, epsf, tff, kind, num, pl, none⟩ (fin (1 / 2)) with
    | error e => rfl
    | ok t => exact hflux _ (hrq _ _ _ hcase)

/-- Non-vacuity: a constructible object with linear interpolation whose total flux is a number. -/
example : ((Petrosian.init ([1, 2, 4, 6].map fin : List (F ℚ)) ([1, 4, 16, 36].map fin) ([2, 5, 8, 9].map fin) none none (fin (4 / 5))
    (fin 2) (fin 1) (fin 1) (some "linear") 16).bind fun p => p.totalFlux fun _ => linearInterp) = .ok (fin 8) := by decide +kernel

/-- C16: multiplying the radii by `c > 0` and the areas by `c²` multiplies all radii by `c` and leaves concentrations and fluxes
unchanged.  The profile must be finite after its first entry (which holds for non-zero fluxes, see C01). -/
theorem C16_radius_unit (ip : InterpFam K) (R A Y : List K) (eta : F K) (eps : K) (epsf tff : F K) (kind : Option String)
    (num : Nat) {m : Nat} (hip : Lawful (ip (kind.getD "cubic")) m) (hR : Incr R) (hR0 : Incr (0 :: R.tail)) {c : K} (hc : 0 < c)
    {p : Petrosian K}
    (hp : Petrosian.init (R.map fin) (A.map fin) (Y.map fin) none none eta (fin eps) epsf tff kind num = .ok p)
    {P : List K} (hfin : p.petrosianList.tail = P.map fin) :
    ∃ p', Petrosian.init ((R.map (c * ·)).map fin) ((A.map (c ^ 2 * ·)).map fin) (Y.map fin) none none eta (fin eps) epsf tff
        kind num = .ok p' ∧
      p'.rPetrosian ip = (p.rPetrosian ip).map (fin c * ·) ∧ p'.rEpsilon ip = (p.rEpsilon ip).map (fin c * ·) ∧
      p'.rHalfLight ip = (p.rHalfLight ip).map (fin c * ·) ∧ p'.rTotalFlux ip = (p.rTotalFlux ip).map (fin c * ·) ∧
      (∀ f, p'.fractionFluxToR ip f = (p.fractionFluxToR ip f).map (fin c * ·)) ∧
      (∀ f1 f2, p'.concentrationIndex ip f1 f2 = (p.concentrationIndex ip f1 f2).map fun t => (fin c * t.1, fin c * t.2.1, t.2.2)) ∧
      p'.totalFlux ip = p.totalFlux ip ∧ p'.halfFlux ip = p.halfFlux ip := by
  obtain ⟨h2, hl, _, _, pl, pe, hcp, rfl⟩ := Petrosian.init_ok_iff.1 hp
  obtain rfl := calculatePetrosian_none_snd hcp
  simp only [List.length_map] at h2 hl
  have hc2 : (0 : K) < c ^ 2 := by positivity
  refine ⟨_, Petrosian.init_ok_iff.2 ⟨by simpa using h2, by simpa using hl, by simp, by simp, pl, none, ?_, rfl⟩, ?_⟩
  · rw [(C03_unit_independence A Y (c ^ 2)).2 hc2]; exact hcp
  have h2' : 2 ≤ R.length := by omega
  obtain ⟨p0, rfl⟩ : ∃ p0, pl = p0 :: P.map fin := by
    cases pl with
    | nil =>
      have := (profile_length _ _ _ _ _ _ hcp).2
      simp at this
    | cons p0 pl => exact ⟨p0, by simpa using hfin⟩
  have hxs := calculatePetrosianR_xscale (ip := ip) (R := R) (P := P) (p0 := p0) (eta := eta) (kind := kind) (num := num)
    hip h2' hR0 hc
  have hq : ∀ rp e, calculatePetrosianR ip (R.map fin) (p0 :: P.map fin) none eta kind num = .ok (rp, e) → Query (rp * fin eps) :=
    fun rp e h => (calculatePetrosianR_query h2' h).mul_fin eps
  have hfrac : ∀ f, Petrosian.calcFractionToR ip
      ⟨(R.map (c * ·)).map fin, (A.map (c ^ 2 * ·)).map fin, Y.map fin, none, none, eta, fin eps, epsf, tff, kind, num,
        p0 :: P.map fin, none⟩ f =
      (Petrosian.calcFractionToR ip
      ⟨R.map fin, A.map fin, Y.map fin, none, none, eta, fin eps, epsf, tff, kind, num, p0 :: P.map fin, none⟩ f).map
        fun t => (fin c * t.1, t.2) := by
    intro f
    unfold Petrosian.calcFractionToR Petrosian.rPetrosian Petrosian.rPetrosianErr Petrosian.calcPetrosianR
    simp only [hxs]
    cases hcase : calculatePetrosianR ip (R.map fin) (p0 :: P.map fin) none eta kind num with
    | error e => rfl
    | ok t =>
      obtain ⟨rp, e⟩ := t
      simp only [Except.map, Except.bind_ok]
      exact fractionToR_xscale hip h2' hR (hq rp e hcase) hc
  have hci : ∀ f1 f2, Petrosian.concentrationIndex ip
      ⟨(R.map (c * ·)).map fin, (A.map (c ^ 2 * ·)).map fin, Y.map fin, none, none, eta, fin eps, epsf, tff, kind, num,
        p0 :: P.map fin, none⟩ f1 f2 =
      (Petrosian.concentrationIndex ip
      ⟨R.map fin, A.map fin, Y.map fin, none, none, eta, fin eps, epsf, tff, kind, num, p0 :: P.map fin, none⟩ f1 f2).map
        fun t => (fin c * t.1, fin c * t.2.1, t.2.2) := by
    intro f1 f2
    unfold Petrosian.concentrationIndex Petrosian.rPetrosian Petrosian.rPetrosianErr Petrosian.calcPetrosianR
    simp only [hxs]
    cases hcase : calculatePetrosianR ip (R.map fin) (p0 :: P.map fin) none eta kind num with
    | error e => rfl
    | ok t =>
      obtain ⟨rp, e⟩ := t
      simp only [Except.map, Except.bind_ok]
      unfold calculateConcentrationIndex
      rw [fractionToR_xscale hip h2' hR (hq rp e hcase) hc (rpe := some e),
        fractionToR_xscale hip h2' hR (hq rp e hcase) hc (rpe := some e)]
      cases hf1 : fractionToR ip f1 (R.map fin) (Y.map fin) rp none (some e) (fin eps) epsf kind num with
      | error e => rfl
      | ok t1 =>
        cases hf2 : fractionToR ip f2 (R.map fin) (Y.map fin) rp none (some e) (fin eps) epsf kind num with
        | error e => rfl
        | ok t2 =>
          obtain ⟨r1, e1⟩ := t1
          obtain ⟨r2, e2⟩ := t2
          simp only [Except.map, Except.bind_ok, F.mul_pos_isNaN hc]
          by_cases hn : (r1.isNaN || r2.isNaN) = true
          · rw [if_pos hn, if_pos hn]; simp
          · rw [if_neg hn, if_neg hn]
            rcases fractionToR_query h2' hf1 with rfl | ⟨x, rfl, _⟩
            · simp at hn
            rcases fractionToR_query h2' hf2 with rfl | ⟨y, rfl, _⟩
            · simp at hn
            simp only [fin_mul, F.mul_div_mul_left' c y x hc]
  have hrq : ∀ f r e, Petrosian.calcFractionToR ip
      ⟨R.map fin, A.map fin, Y.map fin, none, none, eta, fin eps, epsf, tff, kind, num, p0 :: P.map fin, none⟩ f = .ok (r, e) →
      Query r := by
    intro f r e h
    unfold Petrosian.calcFractionToR at h
    simp only [bind_eq_ok] at h
    obtain ⟨rp, _, rpe, _, h⟩ := h
    rcases fractionToR_query h2' h with h | ⟨x, h, _⟩
    · exact Or.inl h
    · exact Or.inr ⟨x, h⟩
  have hflux : ∀ r, Query r → Petrosian.fluxAt ip
      ⟨(R.map (c * ·)).map fin, (A.map (c ^ 2 * ·)).map fin, Y.map fin, none, none, eta, fin eps, epsf, tff, kind, num,
        p0 :: P.map fin, none⟩ (fin c * r) =
      Petrosian.fluxAt ip
      ⟨R.map fin, A.map fin, Y.map fin, none, none, eta, fin eps, epsf, tff, kind, num, p0 :: P.map fin, none⟩ r := by
    intro r hr
    have hne : R ≠ [] := by rintro rfl; simp at h2
    obtain ⟨lo, h1, hmin, h1'⟩ := pyMin_fin hne
    obtain ⟨hi, h3, hmax, h3'⟩ := pyMax_fin hne
    obtain ⟨lo', g1, gmin, g1'⟩ := pyMin_fin (xs := R.map (c * ·)) (by simpa using hne)
    obtain ⟨hi', g3, gmax, g3'⟩ := pyMax_fin (xs := R.map (c * ·)) (by simpa using hne)
    have elo : lo' = c * lo := by
      apply le_antisymm
      · exact g1' _ (List.mem_map_of_mem h1)
      · obtain ⟨y, hy, rfl⟩ := List.mem_map.1 g1
        exact mul_le_mul_of_nonneg_left (h1' y hy) hc.le
    have ehi : hi' = c * hi := by
      apply le_antisymm
      · obtain ⟨y, hy, rfl⟩ := List.mem_map.1 g3
        exact mul_le_mul_of_nonneg_left (h3' y hy) hc.le
      · exact g3' _ (List.mem_map_of_mem h3)
    subst elo ehi
    unfold Petrosian.fluxAt
    simp only [hmin, hmax, gmin, gmax, Except.bind_ok]
    rw [← fin_mul, ← fin_mul, F.mul_pos_le hc, F.mul_pos_le hc]
    by_cases hin : (F.le (fin lo) r && F.le r (fin hi)) = true
    · rw [if_pos hin, if_pos hin]
      cases kind with
      | none => rfl
      | some k => exact lawful_xscale_all hip hR hr hc
    · rw [if_neg hin, if_neg hin]
  have hrp : Petrosian.rPetrosian ip
      ⟨(R.map (c * ·)).map fin, (A.map (c ^ 2 * ·)).map fin, Y.map fin, none, none, eta, fin eps, epsf, tff, kind, num,
        p0 :: P.map fin, none⟩ =
      (Petrosian.rPetrosian ip
      ⟨R.map fin, A.map fin, Y.map fin, none, none, eta, fin eps, epsf, tff, kind, num, p0 :: P.map fin, none⟩).map (fin c * ·) := by
    unfold Petrosian.rPetrosian Petrosian.calcPetrosianR
    simp only [hxs]
    cases calculatePetrosianR ip (R.map fin) (p0 :: P.map fin) none eta kind num <;> rfl
  have hmapfst : ∀ x : Except PyErr (F K × F K), (x.map fun t => (fin c * t.1, t.2)).map Prod.fst =
      (x.map Prod.fst).map (fin c * ·) := by
    intro x; cases x <;> rfl
  refine ⟨hrp, ?_, ?_, ?_, ?_, hci, ?_, ?_⟩
  · unfold Petrosian.rEpsilon
    rw [hrp]
    simp only
    cases Petrosian.rPetrosian ip
      ⟨R.map fin, A.map fin, Y.map fin, none, none, eta, fin eps, epsf, tff, kind, num, p0 :: P.map fin, none⟩ with
    | error e => rfl
    | ok r =>
      show Except.ok (fin c * r * fin eps) = Except.ok (fin c * (r * fin eps))
      rw [F.mul_pos_assoc hc]
  · unfold Petrosian.rHalfLight; rw [hfrac, hmapfst]
  · unfold Petrosian.rTotalFlux; rw [hfrac, hmapfst]
  · intro f; unfold Petrosian.fractionFluxToR; rw [hfrac, hmapfst]
  · unfold Petrosian.totalFlux Petrosian.rTotalFlux
    rw [hfrac]
    cases hcase : Petrosian.calcFractionToR ip
      ⟨R.map fin, A.map fin, Y.map fin, none, none, eta, fin eps, epsf, tff, kind, num, p0 :: P.map fin, none⟩ tff with
    | error e => rfl
    | ok t => exact hflux _ (hrq _ _ _ hcase)
  · unfold Petrosian.halfFlux Petrosian.rHalfLight
    rw [hfrac]
    cases hcase : Petrosian.calcFractionToR ip
      ⟨R.map fin, A.map fin, Y.map fin, none, none, eta, fin eps, epsf, tff, kind, num, p0 :: P.map fin, none⟩ (fin (1 / 2)) with
    | error e => rfl
    | ok t => exact hflux _ (hrq _ _ _ hcase)

/-- Non-vacuity: the same object in a unit half as large. -/
example : ((Petrosian.init ([1, 2, 4, 6].map fin : List (F ℚ)) ([1, 4, 16, 36].map fin) ([2, 5, 8, 9].map fin) none none (fin (4 / 5))
    (fin 2) (fin 1) (fin 1) (some "linear") 16).bind fun p => p.rHalfLight fun _ => linearInterp) = .ok (fin (5 / 3)) ∧
  ((Petrosian.init ([2, 4, 8, 12].map fin : List (F ℚ)) ([4, 16, 64, 144].map fin) ([2, 5, 8, 9].map fin) none none (fin (4 / 5))
    (fin 2) (fin 1) (fin 1) (some "linear") 16).bind fun p => p.rHalfLight fun _ => linearInterp) = .ok (fin (10 / 3)) := by decide +kernel

end Verif.Props

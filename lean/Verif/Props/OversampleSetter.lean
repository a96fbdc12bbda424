import Verif.Props.PSFModel

/-!
# C56: what the setters of oversampling store
-/

namespace Verif.Props

open Verif PSFModel

variable {K : Type} [Field K] [LinearOrder K] [IsStrictOrderedRing K]

/-- **C56, stored settings.** Exactly the factors that are positive multiples of the PSF factor are accepted for `oversample`, alone or in a window; the
window is stored as given and nothing else changes. The PSF must be there and the factor must divide that of the grid for `psf_oversample`. -/
theorem C56_stored (M M' : PSFModel K) :
    (∀ k : Int, M.setOversample (.int k) = .ok M' ↔ 0 < k ∧ (M.psfFactor : Int) ∣ k ∧ M' = { M with oversample := .int k.toNat }) ∧
    (∀ x y (size k : Int), M.setOversample (.window x y (some size) (some k)) = .ok M' ↔
      0 < k ∧ (M.psfFactor : Int) ∣ k ∧ M' = { M with oversample := .window x y size k.toNat }) ∧
    (∀ k : Int, M.setPsfOversample (.int k) = .ok M' ↔
      M.psf ≠ none ∧ 0 < k ∧ k ∣ (M.oversampleFactor : Int) ∧ M' = { M with psfOversample := some k.toNat }) := by
  have hf : ∀ k : Int, ∀ n, M.checkFactor k = .ok n ↔ 0 < k ∧ (M.psfFactor : Int) ∣ k ∧ n = k.toNat := by
    intro k n
    unfold checkFactor
    by_cases h1 : k ≤ 0
    · simp [h1, not_lt.2 h1]
    by_cases h2 : k % (M.psfFactor : Int) = 0
    · simp [h1, not_le.1 h1, h2, Int.dvd_of_emod_eq_zero h2, eq_comm]
    · have h3 : ¬ (M.psfFactor : Int) ∣ k := fun h => h2 (Int.emod_eq_zero_of_dvd h)
      simp [h1, h2, h3]
  refine ⟨?_, ?_, ?_⟩
  · intro k
    simp only [setOversample, bind_eq_ok, hf, Except.ok.injEq]
    constructor
    · rintro ⟨f, ⟨a, b, rfl⟩, rfl⟩; exact ⟨a, b, rfl⟩
    · rintro ⟨a, b, rfl⟩; exact ⟨_, ⟨a, b, rfl⟩, rfl⟩
  · intro x y size k
    simp only [setOversample, bind_eq_ok, hf, Except.ok.injEq]
    constructor
    · rintro ⟨f, ⟨a, b, rfl⟩, rfl⟩; exact ⟨a, b, rfl⟩
    · rintro ⟨a, b, rfl⟩; exact ⟨_, ⟨a, b, rfl⟩, rfl⟩
  · intro k
    unfold setPsfOversample
    cases hp : M.psf with
    | none => simp
    | some p =>
      by_cases h1 : k ≤ 0
      · simp [h1, not_lt.2 h1]
      by_cases h2 : (M.oversampleFactor : Int) % k = 0
      · simp [h1, not_le.1 h1, h2, Int.dvd_of_emod_eq_zero h2, eq_comm]
      · have h3 : ¬ k ∣ (M.oversampleFactor : Int) := fun h => h2 (Int.emod_eq_zero_of_dvd h)
        simp [h1, h2, h3]

/-- A window of 10 pixels around (20, 30) with the factor 4, for a PSF sampled with the factor 2. -/
example (p : Img ℚ) (c : Bool) : ∃ M : PSFModel ℚ, M.psfFactor = 2 ∧ M.setOversample (.window (.num 20) (.num 30) (some 10) (some 4)) =
    .ok { M with oversample := .window (.num 20) (.num 30) 10 4 } :=
  ⟨⟨tilt, some p, .int 2, some 2, c, 0, 0, none, none⟩, rfl, ((C56_stored _ _).2.1 _ _ 10 4).2 ⟨by norm_num, ⟨2, rfl⟩, rfl⟩⟩

end Verif.Props

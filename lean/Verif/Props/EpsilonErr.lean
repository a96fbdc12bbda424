import Verif.Props.PetrosianFluxes

/-!
# C104: only the product of `r_petrosian` and `epsilon` matters
-/

set_option linter.unusedSectionVars false

namespace Verif.Props

open F Spec

variable {K : Type} [Field K] [LinearOrder K] [IsStrictOrderedRing K]

/-- C104, what holds: the radius — and whether the call raises — depends on `r_petrosian` and `epsilon` only through `r_epsilon`, their
product, when no flux errors are given.  With flux errors the whole outcome agrees when moreover the same *unscaled* error is given.
Missing: with flux errors the error of `r_epsilon` should be `epsilon` times that of `r_petrosian`, see `C104_violated`. -/
theorem C104_product_partial (ip : InterpFam K) (f : F K) (R flux : List (F K)) (rp rp' eps eps' epsf : F K) (fe : Option (List (F K)))
    (rpe : Option (F K)) (kind : Option String) (num : Nat) (h : rp * eps = rp' * eps') :
    fractionToR ip f R flux rp fe rpe eps epsf kind num = fractionToR ip f R flux rp' fe rpe eps' epsf kind num ∧
    ∀ rpe', fractionToR ip f R flux rp none rpe eps epsf kind num = fractionToR ip f R flux rp' none rpe' eps' epsf kind num := by
  unfold fractionToR
  rw [h]
  exact ⟨rfl, fun _ => rfl⟩

set_option maxRecDepth 20000 in
set_option maxHeartbeats 2000000 in
/-- C104 is false of the code: the error of `r_petrosian` is used as the error of `r_epsilon = epsilon * r_petrosian`.  Here
`r_petrosian = 1 ± 1/2` with `epsilon = 2` and `r_petrosian = 2 ± 1` with `epsilon = 1` describe the same `r_epsilon = 2 ± 1`; the
radii agree and their errors do not. -/
theorem C104_violated : ∃ (R Y E : List (F ℚ)) (r e e' : ℚ),
    fractionToR (fun _ => linearInterp) (fin 1) R Y (fin 1) (some E) (some (fin (1 / 2))) (fin 2) (fin 1) (some "linear") 16 =
      .ok (fin r, fin e) ∧
    fractionToR (fun _ => linearInterp) (fin 1) R Y (fin (1 * 2)) (some E) (some (fin (1 / 2 * 2))) (fin 1) (fin 1) (some "linear") 16 =
      .ok (fin r, fin e') ∧ e ≠ e' := by
  refine ⟨[1, 2, 4, 6].map fin, [2, 5, 8, 9].map fin, [1, 0, 0, 0].map fin, 2, 4010 / 4999, 14165 / 9998, ?_, ?_, ?_⟩
  · decide +kernel
  · decide +kernel
  · decide +kernel

end Verif.Props

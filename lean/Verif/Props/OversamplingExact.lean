import Verif.Props.PSFMore

/-!
# C54 for the values of `evaluate`
-/

set_option linter.unusedSectionVars false

namespace Verif.Props

open F Spec PSFModel

section
variable {K : Type} [Field K] [LinearOrder K] [IsStrictOrderedRing K] [FloorRing K]

/-- **C54, planes.** A model that is a plane is evaluated exactly, whatever the integer oversampling and the PSF oversampling are. -/
theorem C54_plane_values (M : PSFModel K) (hM : CacheOk M) (hc : Compatible M) (hpsf : M.psf = none)
    (hwin : ∀ x y s f, M.oversample ≠ .window x y s f) (rot : Img K → K → Img K) (coords : List (K × K)) (x0 y0 : K)
    (hx : (coords.map (·.1)).min? = some x0) (hy : (coords.map (·.2)).min? = some y0)
    (hw : ∀ c ∈ coords, ∃ i j : ℤ, c = (x0 + i, y0 + j)) (params : List K) (pa : K) (a b c : K)
    (hplane : ∀ x y, M.sub.eval params x y = a * x + b * y + c) :
    (M.evaluate rot coords params pa).1 = .ok (coords.map fun v => a * v.1 + b * v.2 + c) := by
  rw [(C77_whole_partial M hM hc hpsf hwin rot coords x0 y0 hx hy hw params pa).1]
  congr 1
  apply List.map_congr_left
  intro v _
  have : M.sub.eval params = fun x y => a * x + b * y + c := by funext x y; exact hplane x y
  rw [this]
  exact C54_plane a b c v.1 v.2 _ hc.1

/-- **C54, range.** A value lies between the bounds of the model on the pixel. -/
theorem C54_range_values (M : PSFModel K) (hM : CacheOk M) (hc : Compatible M) (hpsf : M.psf = none)
    (hwin : ∀ x y s f, M.oversample ≠ .window x y s f) (rot : Img K → K → Img K) (coords : List (K × K)) (x0 y0 : K)
    (hx : (coords.map (·.1)).min? = some x0) (hy : (coords.map (·.2)).min? = some y0)
    (hw : ∀ c ∈ coords, ∃ i j : ℤ, c = (x0 + i, y0 + j)) (params : List K) (pa : K) :
    ∃ vs, (M.evaluate rot coords params pa).1 = .ok vs ∧ List.Forall₂ (fun c v => ∀ lo hi,
      (∀ u w, |u - c.1| < 1 / 2 → |w - c.2| < 1 / 2 → lo ≤ M.sub.eval params u w ∧ M.sub.eval params u w ≤ hi) → lo ≤ v ∧ v ≤ hi) coords vs := by
  refine ⟨_, (C77_whole_partial M hM hc hpsf hwin rot coords x0 y0 hx hy hw params pa).1, ?_⟩
  rw [List.forall₂_map_right_iff, List.forall₂_same]
  intro c _ lo hi h
  have hf : (0 : K) < M.oversampleFactor := by exact_mod_cast hc.1
  have hin : ∀ k : Nat, k < M.oversampleFactor → |((k : K) + 1 / 2) / M.oversampleFactor - 1 / 2| < 1 / 2 := by
    intro k hk
    have hk' : (k : K) + 1 ≤ M.oversampleFactor := by exact_mod_cast hk
    have h0 : (0 : K) ≤ k := Nat.cast_nonneg k
    rw [abs_lt]
    constructor
    · have : 0 < ((k : K) + 1 / 2) / M.oversampleFactor := by positivity
      linarith
    · have : ((k : K) + 1 / 2) / M.oversampleFactor < 1 := by rw [div_lt_one hf]; linarith
      linarith
  refine C54_range _ _ _ lo hi _ hc.1 fun a b ha hb => h _ _ ?_ ?_
  · rw [add_sub_cancel_left]; exact hin b hb
  · rw [add_sub_cancel_left]; exact hin a ha

end

/-- Non-vacuity: a plane on three pixels with threefold oversampling. -/
example : ((⟨⟨[], fun _ x y => 2 * x - 3 * y + 1⟩, none, .int 3, none, true, 0, 0, none, none⟩ : PSFModel ℚ).evaluate (fun p _ => p)
    [(5, 7), (6, 7), (5, 8)] [] 0).1 = .ok [-10, -8, -13] := by decide +kernel

end Verif.Props

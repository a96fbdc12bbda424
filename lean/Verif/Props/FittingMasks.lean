import Verif.Props.Fitting

/-!
# C128: clipped pixels and the choice of the fitter
-/

set_option linter.unusedSectionVars false

namespace Verif.Spec

variable {K : Type} [Field K] [LinearOrder K]

/-- The unmasked entries of the data given to a fitter: x, y, value. -/
def unmasked (d : FitData K) : List (Nat × Nat × F K) :=
  ((d.x.zip (d.y.zip d.z)).zip d.zMask).filterMap fun p => if p.2 then none else some p.1

/-- A fitter that skips masked values (without weights), as `LinearLSQFitter` does. -/
def SkipsMasked {M : Type} (fitter : M → FitData K → Except PyErr M) : Prop :=
  ∀ m d d', d.w = none → d'.w = none → unmasked d = unmasked d' → fitter m d = fitter m d'

/-- A fitter that does not look at the mask, as the fitters that call the scipy optimisers. -/
def IgnoresMask {M : Type} (fitter : M → FitData K → Except PyErr M) : Prop :=
  ∀ m d z, fitter m d = fitter m { d with zMask := z }

end Verif.Spec

namespace Verif.Props

open F Spec

section
variable {K : Type} [Field K] [LinearOrder K] [IsStrictOrderedRing K] {M : Type}

theorem fitData_none_eq (im : Img (F K)) (mask : Nat → Nat → Bool) :
    fitData im mask none = .ok ⟨(npWhere im.h im.w fun i j => !(im.px i j).isNaN).map (·.2), (npWhere im.h im.w fun i j => !(im.px i j).isNaN).map (·.1),
      (npWhere im.h im.w fun i j => !(im.px i j).isNaN).map fun p => im.px p.1 p.2,
      (npWhere im.h im.w fun i j => !(im.px i j).isNaN).map fun p => mask p.1 p.2, none⟩ := by
  unfold fitData
  simp only [List.zipWith_map, List.zipWith_self]

theorem unmasked_fitData (im : Img (F K)) (mask : Nat → Nat → Bool) (d : FitData K) (h : fitData im mask none = .ok d) :
    unmasked d = (npWhere im.h im.w fun i j => !(im.px i j).isNaN).filterMap fun p =>
      if mask p.1 p.2 then none else some (p.2, p.1, im.px p.1 p.2) := by
  rw [fitData_none_eq] at h
  injection h with h
  subst h
  unfold unmasked
  generalize (npWhere im.h im.w fun i j => !(im.px i j).isNaN) = l
  induction l with
  | nil => rfl
  | cons p l ih =>
    simp only [List.map_cons, List.zip_cons_cons, List.filterMap_cons]
    cases mask p.1 p.2 <;> simp [ih]

/-- Two filterMaps over filtered index lists. -/
theorem npWhere_filterMap {β : Type} (h w : Nat) (c : Nat → Nat → Bool) (f : Nat × Nat → Option β) :
    (npWhere h w c).filterMap f =
      (List.range h).flatMap fun i => (List.range w).filterMap fun j => if c i j then f (i, j) else none := by
  unfold npWhere
  rw [List.filterMap_flatMap]
  congr 1
  funext i
  rw [List.filterMap_map, List.filterMap_filter]
  rfl

/-- **C128, with a fitter that skips masked values.** Clipped pixels have no influence on the background: images of the same shape that
are clipped alike and agree on the other pixels get the same background. -/
theorem C128_skipped_partial {fitter : M → FitData K → Except PyErr M} (hf : SkipsMasked fitter)
    (clip : Img (F K) → K → Nat → Nat → Bool) (im im' : Img (F K)) (model : M) (sigma : K) (hh : im'.h = im.h) (hw : im'.w = im.w)
    (hc : ∀ i j, i < im.h → j < im.w → clip im' sigma i j = clip im sigma i j)
    (hp : ∀ i j, i < im.h → j < im.w → clip im sigma i j = false → im'.px i j = im.px i j) :
    fitBackground clip fitter im' model (some sigma) = fitBackground clip fitter im model (some sigma) := by
  unfold fitBackground fitModel
  simp only
  have e1 := fitData_none_eq im (clip im sigma)
  have e2 := fitData_none_eq im' (clip im' sigma)
  rw [e1, e2]
  refine hf model _ _ rfl rfl ?_
  rw [unmasked_fitData im' _ _ e2, unmasked_fitData im _ _ e1, npWhere_filterMap, npWhere_filterMap, hh, hw]
  have cong : ∀ (l : List Nat) (f g : Nat → List (Nat × Nat × F K)), (∀ i ∈ l, f i = g i) → l.flatMap f = l.flatMap g := by
    intro l f g h
    induction l with
    | nil => rfl
    | cons a l ih => rw [List.flatMap_cons, List.flatMap_cons, h a (by simp), ih fun i hi => h i (by simp [hi])]
  apply cong
  intro i hi
  apply List.filterMap_congr
  intro j hj
  have hi := List.mem_range.1 hi
  have hj := List.mem_range.1 hj
  simp only [hc i j hi hj]
  cases hm : clip im sigma i j with
  | true => simp
  | false => simp [hp i j hi hj hm]

/-- **C128, violated.** With a fitter that does not look at the mask, `sigma` has no effect at all: the background is that of the image
without clipping. -/
theorem C128_ignored_violated {fitter : M → FitData K → Except PyErr M} (hf : IgnoresMask fitter)
    (clip : Img (F K) → K → Nat → Nat → Bool) (im : Img (F K)) (model : M) (sigma : K) :
    fitBackground clip fitter im model (some sigma) = fitBackground clip fitter im model none := by
  unfold fitBackground fitModel
  simp only
  rw [fitData_none_eq, fitData_none_eq]
  exact hf model _ _

end

/-! ### Both kinds exist and differ -/

/-- The mean of the unmasked values, skipping the mask or not. -/
def meanFitter (useMask : Bool) (_ : ℚ) (d : FitData ℚ) : Except PyErr ℚ :=
  let vals := if useMask then (unmasked d).map (·.2.2) else d.z
  let v := vals.filterMap fun | .fin x => some x | _ => none
  .ok (v.sum / v.length)

example : SkipsMasked (meanFitter true) := by
  intro m d d' _ _ h
  simp only [meanFitter, if_true, h]

example : IgnoresMask (meanFitter false) := by
  intro m d z; rfl

/-- One bright pixel among eleven of brightness 1: clipped at 3 sigma, the mean background is 1; with the other kind of fitter it is 10. -/
theorem C128_witness : let im : Img (F ℚ) := ⟨1, 12, fun _ j => if j = 5 then .fin 109 else .fin 1⟩
    fitBackground sigmaClipMask (meanFitter true) im 0 (some 3) = .ok 1 ∧
    fitBackground sigmaClipMask (meanFitter false) im 0 (some 3) = .ok 10 := by
  decide +kernel

end Verif.Props

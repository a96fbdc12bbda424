import Verif.Model.PSFModel
import Mathlib.Algebra.BigOperators.Group.Finset.Basic
import Mathlib.Algebra.BigOperators.Ring.Finset

/-!
# Pixel means, sums and histories for `PSFConvolvedModel2D`
-/

set_option linter.unusedSectionVars false

namespace Verif.Spec

variable {K : Type} [Field K] [LinearOrder K]

/-- The mean of `g` over the `f × f` equally spaced sub-samples of the unit pixel centred at `(x, y)`. -/
def pixelMean (g : K → K → K) (x y : K) (f : Nat) : K :=
  (∑ a ∈ Finset.range f, ∑ b ∈ Finset.range f, g (x + ((b + 1 / 2) / f - 1 / 2)) (y + ((a + 1 / 2) / f - 1 / 2))) / (f : K) ^ 2

/-- The total of an image. -/
def total (im : Img K) : K := ∑ i ∈ Finset.range im.h, ∑ j ∈ Finset.range im.w, im.px i j

/-- The operations on a model whose settings can change. -/
inductive PSFOp (K : Type)
  | evaluate (coords : List (K × K)) (params : List K) (psfPa : K)
  | setPsf (psf : Option (Img K))
  | setOversample (o : OversampleArg K)
  | setPsfOversample (o : PsfOversampleArg)
  | setCacheGrid (v : Bool)
  | clearCachedGrid

variable [FloorRing K]

/-- One operation: the values of an evaluation, if it is one, and the model afterwards. -/
def PSFOp.exec (rot : Img K → K → Img K) (M : PSFModel K) : PSFOp K → Option (Except PyErr (List K)) × PSFModel K
  | .evaluate c p a => (some (M.evaluate rot c p a).1, (M.evaluate rot c p a).2)
  | .setPsf psf => (none, M.setPsf psf)
  | .setOversample o => (none, match M.setOversample o with | .ok M' => M' | .error _ => M)
  | .setPsfOversample o => (none, match M.setPsfOversample o with | .ok M' => M' | .error _ => M)
  | .setCacheGrid v => (none, M.setCacheGrid v)
  | .clearCachedGrid => (none, M.clearCachedGrid)

/-- The outputs of a history. -/
def psfHistory (rot : Img K → K → Img K) (M : PSFModel K) : List (PSFOp K) → List (Option (Except PyErr (List K)))
  | [] => []
  | op :: ops => (op.exec rot M).1 :: psfHistory rot (op.exec rot M).2 ops

/-- The model after a history. -/
def psfAfter (rot : Img K → K → Img K) (M : PSFModel K) (ops : List (PSFOp K)) : PSFModel K :=
  ops.foldl (fun M op => (op.exec rot M).2) M

/-- The model as it would be built anew with the same settings and without a cache. -/
def uncached (M : PSFModel K) : PSFModel K := ⟨M.sub, M.psf, M.oversample, M.psfOversample, false, 0, 0, none, none⟩

/-- The outputs of a history in which every evaluation is done by a fresh model without a cache. -/
def freshHistory (rot : Img K → K → Img K) (M : PSFModel K) : List (PSFOp K) → List (Option (Except PyErr (List K)))
  | [] => []
  | op :: ops => (op.exec rot (uncached M)).1 :: freshHistory rot (op.exec rot (uncached M)).2 ops

end Verif.Spec

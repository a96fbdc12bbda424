import Verif.Model.Photometry
import Mathlib.Algebra.BigOperators.Group.Finset.Basic
import Mathlib.Algebra.Order.BigOperators.Group.Finset
import Mathlib.Algebra.BigOperators.Ring.Finset

/-!
# What is assumed of photutils, and the photometric sums
-/

namespace Verif.Spec

variable {K : Type} [Field K] [LinearOrder K]

/-- The contract of a photutils overlap method: weights are fractions, apertures of the same shape are nested as their size grows, and a
pixel of the image with positive weight means that the bounding box meets the image. -/
structure OverlapLaw (ov : Overlap K) : Prop where
  nonneg : ∀ e i j, 0 ≤ ov.weight e i j
  le_one : ∀ e i j, ov.weight e i j ≤ 1
  nested : ∀ cx cy q t r r' i j, 0 < q → 0 < r → r ≤ r' →
    ov.weight ⟨cx, cy, r, r / q, t⟩ i j ≤ ov.weight ⟨cx, cy, r', r' / q, t⟩ i j
  hits_of_pos : ∀ e h w i j, 0 < e.a → 0 < e.b → i < h → j < w → 0 < ov.weight e i j → ov.hits e h w = true
  hits_mono : ∀ cx cy q t r r' h w, 0 < q → 0 < r → r ≤ r' →
    ov.hits ⟨cx, cy, r, r / q, t⟩ h w = true → ov.hits ⟨cx, cy, r', r' / q, t⟩ h w = true

/-- The weighted sum of `f` over the pixels of an `h × w` image that are to be used. -/
def weightedSum (wt : Nat → Nat → K) (h w : Nat) (use : Nat → Nat → Bool) (f : Nat → Nat → K) : K :=
  ∑ i ∈ Finset.range h, ∑ j ∈ Finset.range w, if use i j then f i j * wt i j else 0

/-- The pixels to be used: all without a mask, otherwise those where the mask is True. -/
def Used (mask : Option (Img Bool)) (i j : Nat) : Bool := match mask with | none => true | some m => m.px i j

end Verif.Spec

import Verif.Model.Overlap

/-!
# An image as a function on the plane, and apertures inside the image
-/

namespace Verif.Spec

/-- The image as a function on the plane: at a point it has the value of the pixel that contains the point, and it is zero outside the frame
and on pixels that are not used.  Pixel `(i, j)` is centred at `x = j`, `y = i`. -/
noncomputable def stepImage (h w : Nat) (use : Nat → Nat → Bool) (f : Nat → Nat → ℝ) (p : ℝ × ℝ) : ℝ :=
  if 0 ≤ ⌈p.2 - 1 / 2⌉ ∧ ⌈p.2 - 1 / 2⌉ < h ∧ 0 ≤ ⌈p.1 - 1 / 2⌉ ∧ ⌈p.1 - 1 / 2⌉ < w ∧
      use ⌈p.2 - 1 / 2⌉.toNat ⌈p.1 - 1 / 2⌉.toNat = true
  then f ⌈p.2 - 1 / 2⌉.toNat ⌈p.1 - 1 / 2⌉.toNat else 0

/-- Every point of the set lies on a pixel of an `h × w` image. -/
def OnFrame (S : Set (ℝ × ℝ)) (h w : Nat) : Prop :=
  ∀ p ∈ S, -1 / 2 < p.1 ∧ p.1 ≤ (w : ℝ) - 1 / 2 ∧ -1 / 2 < p.2 ∧ p.2 ≤ (h : ℝ) - 1 / 2

end Verif.Spec

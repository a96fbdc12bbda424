import Verif.Model.Drawing

/-!
# What the drawing helpers should show
-/

namespace Verif.Spec

open Verif

variable {K : Type} [Field K] [LinearOrder K]

/-- The centre of the pixel in row `i` and column `j` is within the limits. -/
def winShows (v : Window K) (i j : Nat) : Prop := v.xlo ≤ j ∧ (j : K) ≤ v.xhi ∧ v.ylo ≤ i ∧ (i : K) ≤ v.yhi

/-- The number that was printed. -/
def printedValue : Printed → Option K
  | .number neg whole frac => some ((if neg then -1 else 1) * ((whole : K) + frac / 10 ^ 4))
  | .text _ => none

end Verif.Spec

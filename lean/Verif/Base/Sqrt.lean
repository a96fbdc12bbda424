import Verif.Base.Float
import Mathlib.Data.Rat.Sqrt
import Mathlib.Analysis.SpecialFunctions.Log.Base

/-!
# Square roots and logarithms

`ℝ` instances are the real functions.  The `ℚ` square root is exact on squares of rationals (and 0 elsewhere); it is used only to run
concrete examples.
-/

namespace Verif

noncomputable instance : HasSqrt ℝ := ⟨Real.sqrt⟩
instance : HasSqrt ℚ := ⟨fun q => if Rat.sqrt q * Rat.sqrt q = q then Rat.sqrt q else 0⟩
noncomputable instance : HasLog10 ℝ := ⟨Real.logb 10⟩

end Verif

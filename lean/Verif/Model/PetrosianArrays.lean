import Verif.Model.Heap

/-!
# The arrays a `Petrosian` object hands out
-/

namespace Verif

variable {K : Type}

/-- The array attributes of a `Petrosian` object. -/
inductive PArray
  | rList | areaList | areaErr | fluxList | fluxErr | petrosianList | petrosianErr

/-- petrofit/petrosian/core.py:662-685: the getters return the stored arrays themselves, not copies; `petrosian_list` and
`petrosian_err` (lines 555-556, 583) are plain attributes. `none` is python's `None`. -/
def PetrosianH.array (p : PetrosianH K) : PArray → Option Nat
  | .rList => some p.rList
  | .areaList => some p.areaList
  | .areaErr => p.areaErr
  | .fluxList => some p.fluxList
  | .fluxErr => p.fluxErr
  | .petrosianList => some p.petrosianList
  | .petrosianErr => p.petrosianErr

end Verif

import Verif.Base.NumPy

/-!
# `interp1d(kind='nearest')`
-/

namespace Verif

open F

variable {K : Type} [Field K] [LinearOrder K]

/-- `interp1d(x, y, kind='nearest')` (called at petrofit/petrosian/core.py:803 and 830): scipy's `_call_nearest` takes the value at
`searchsorted(x[:-1]/2 + x[1:]/2, q, side='left')`, the number of midpoints below `q`.  ValueError for mismatched or empty arrays and for
queries outside `[x[0], x[-1]]`; a NaN query sorts behind every midpoint and gives the last value.  Simplification: scipy sorts x first; the
model requires x sorted. -/
def nearestInterp : Interp K := fun x y q =>
  if x.length ≠ y.length then .error .valueError
  else match x.head?, x.getLast? with
    | some a, some b =>
      if F.lt q a || F.lt b q then .error .valueError
      else
        let mid := List.zipWith (fun u v => u / fin 2 + v / fin 2) x.dropLast x.tail
        let i := if q.isNaN then mid.length else (mid.takeWhile (fun m => F.lt m q)).length
        getItem y i
    | _, _ => .error .valueError

end Verif

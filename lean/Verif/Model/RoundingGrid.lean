import Verif.Model.Rounding
import Verif.Model.Correction

/-!
# The grid lookup in rounded arithmetic
-/

namespace Verif

open F

namespace Correction

variable {K : Type} [Field K] [LinearOrder K] (fl : K → K) (c : Correction K)

/-- petrofit/petrosian/correction.py:430-432: `w * (column - v) / std`, squared (line 434), in rounded arithmetic. -/
def termR (s v x : F K) : F K :=
  let d := ((fin 100 * (x - v).rnd fl).rnd fl / s).rnd fl
  (F.sq d).rnd fl

/-- petrofit/petrosian/correction.py:421-436 `_dr` in rounded arithmetic. The results `s` of the three `np.std` are parameters: any numbers,
so their own rounding is included. -/
def drR [HasSqrt K] (s : F K × F K × F K) (x0 y0 z0 : F K) : List (F K) :=
  List.zipWith (fun a (b : F K × F K) => (F.sqrt (((a + b.1).rnd fl + b.2).rnd fl)).rnd fl)
    (c.x.map (termR fl s.1 x0)) ((c.y.map (termR fl s.2.1 y0)).zip (c.z.map (termR fl s.2.2 z0)))

/-- petrofit/petrosian/correction.py:449-454 `_closest_row` in rounded arithmetic. -/
def closestRowR [HasSqrt K] (s : F K × F K × F K) (x0 y0 z0 : F K) : Except PyErr (List (F K)) := do
  if c.enforceRange then c.validateInput x0 y0 z0
  let i ← npArgmin (c.drR fl s x0 y0 z0)
  getItem c.grid.rows i

end Correction
end Verif

import Verif.Model.Petrosian
import Verif.Model.Heap
import Verif.Base.Image
import Verif.Base.Sqrt
import Mathlib.Analysis.SpecialFunctions.Pow.Real
import Mathlib.Analysis.Real.Pi.Bounds

/-!
# petrofit/utils.py, the remaining functions
-/

set_option linter.unusedSectionVars false

namespace Verif

open F

variable {K : Type} [Field K] [LinearOrder K]

/-! ### Ellipticity and elongation -/

/-- petrofit/utils.py:40-42 `ellip_to_elong` of a python float. -/
def ellipToElong (ellip : F K) : Except PyErr (F K) := pyDiv (fin 1) (fin 1 - ellip)

/-- petrofit/utils.py:45-47 `elong_to_ellip` of a python float. -/
def elongToEllip (elong : F K) : Except PyErr (F K) := pyDiv (elong - fin 1) elong

/-! ### Radius lists -/

/-- `10 ** x` on finite numbers. -/
class HasPow10 (K : Type) where
  pow10 : K → K

noncomputable instance : HasPow10 ℝ := ⟨fun x => (10 : ℝ) ^ x⟩

/-- `np.power(10.0, x)`. -/
def F.pow10 [HasPow10 K] : F K → F K
  | nan => nan | ninf => fin 0 | pinf => pinf | fin x => fin (HasPow10.pow10 x)

/-- `np.logspace(start, stop, num, base=10.0)`: ten to the power of the linspace. -/
def npLogspace [HasPow10 K] (start stop : F K) (num : Nat) : List (F K) :=
  (npLinspace start stop num).map F.pow10

/-- petrofit/utils.py:50-57 `make_radius_list` with `log=False` (line 57); `n` is a natural number, so `n = 0` gives an empty list
without dividing. -/
def makeRadiusList (maxPix : F K) (n : Nat) : List (F K) :=
  (List.range n).map fun i => fin ((i + 1 : Nat) : K) * maxPix / fin (n : K)

/-- petrofit/utils.py:50-57 `make_radius_list` with `log=True` (lines 53-55). -/
def makeRadiusListLog [HasLog10 K] [HasPow10 K] (maxPix : F K) (n : Nat) : List (F K) :=
  npLogspace (fin 0) (F.log10 maxPix) n

/-! ### Natural sorting -/

/-- A python string, as its characters. -/
abbrev Str := List Char

/-- The elements of a sort key: lower-case text or a number. -/
inductive Tok
  | str (s : Str)
  | num (n : Nat)
  deriving DecidableEq, Repr

/-- `re.split("([0-9]+)", s)`: the texts between the maximal digit runs and, because of the capturing group, the digit runs
themselves; texts may be empty at the two ends. -/
def reSplit : Str → List Str
  | [] => [[]]
  | c :: s =>
    match reSplit s with
    | [] => [[]]
    | t :: rest =>
      if c.isDigit then
        match t, rest with
        | [], d :: rest' => [] :: (c :: d) :: rest'
        | _, _ => [] :: [c] :: t :: rest
      else (c :: t) :: rest

/-- `int(text)` for a string of ASCII digits: python refuses more than 4300 digits (`sys.get_int_max_str_digits`, default). -/
def pyInt (t : Str) : Except PyErr Nat :=
  if 4300 < t.length then .error .valueError
  else .ok (t.foldl (fun a c => 10 * a + (c.toNat - '0'.toNat)) 0)

/-- petrofit/utils.py:35 `convert`.  For ASCII strings `isdigit` means non-empty and only digits, and `lower` acts on A-Z. -/
def convert (t : Str) : Except PyErr Tok :=
  if t ≠ [] ∧ t.all Char.isDigit then do return .num (← pyInt t)
  else .ok (.str (t.map Char.toLower))

/-- petrofit/utils.py:36 `alphanum_key`. -/
def alphanumKey (s : Str) : Except PyErr (List Tok) := (reSplit s).mapM convert

/-- `a < b` for python strings: by code points. -/
def strLt : Str → Str → Bool
  | [], [] => false
  | [], _ :: _ => true
  | _ :: _, [] => false
  | a :: s, b :: t => if a = b then strLt s t else decide (a.toNat < b.toNat)

/-- `a < b` for key elements: python raises TypeError between str and int. -/
def tokLt : Tok → Tok → Except PyErr Bool
  | .str a, .str b => .ok (strLt a b)
  | .num a, .num b => .ok (decide (a < b))
  | _, _ => .error .typeError

/-- `a < b` for python lists: `<` of the first pair of elements that are not `==`. -/
def keyLt : List Tok → List Tok → Except PyErr Bool
  | [], [] => .ok false
  | [], _ :: _ => .ok true
  | _ :: _, [] => .ok false
  | a :: s, b :: t => if a = b then keyLt s t else tokLt a b

/-- One insertion of a stable insertion sort. -/
def insertM {α : Type} (lt : α → α → Except PyErr Bool) (a : α) : List α → Except PyErr (List α)
  | [] => .ok [a]
  | b :: l => do
    if ← lt b a then do return b :: (← insertM lt a l)
    else return a :: b :: l

/-- `sorted`: a stable sort that only uses `<`.  Python runs another algorithm (timsort); when no comparison raises and `<` is a strict
weak order every stable sort gives the same list. -/
def pySorted {α : Type} (lt : α → α → Except PyErr Bool) : List α → Except PyErr (List α)
  | [] => .ok []
  | a :: l => do insertM lt a (← pySorted lt l)

/-- petrofit/utils.py:33-37 `natural_sort` of a list of strings. -/
def naturalSort (l : List Str) : Except PyErr (List Str) := do
  let keys ← l.mapM alphanumKey
  let s ← pySorted (fun a b => keyLt a.1 b.1) (keys.zip l)
  return s.map (·.2)

/-! ### AB magnitudes -/

/-- The three header cards that are read; `none` is a missing card. -/
structure PhotHeader (K : Type) where
  photflam : Option (F K)
  photzpt : Option (F K)
  photplam : Option (F K)

/-- `header[key]`. -/
def card : Option (F K) → Except PyErr (F K)
  | none => .error .keyError
  | some v => .ok v

section mag
variable [HasLog10 K]

/-- petrofit/utils.py:68-73: the AB zero point. -/
def abZpt (hd : PhotHeader K) : Except PyErr (F K) := do
  let photflam ← card hd.photflam
  let photzpt ← card hd.photzpt
  let photplam ← card hd.photplam
  let stmagZpt := fin (-5 / 2) * F.log10 photflam + photzpt
  return stmagZpt - fin 5 * F.log10 photplam + fin (18692 / 1000)

/-- petrofit/utils.py:60-75 `hst_flux_to_abmag` of a python number (lines 65-66 return before the header is read). -/
def hstFluxToAbmag (flux : F K) (hd : PhotHeader K) : Except PyErr (F K) :=
  if F.le flux (fin 0) then .ok nan
  else do return fin (-5 / 2) * F.log10 flux + (← abZpt hd)

open HM in
/-- petrofit/utils.py:60-75 `hst_flux_to_abmag` of a float array (one dimensional) on the heap: line 63 copies, line 64 writes into the
copy, line 75 makes a new array. -/
def hstFluxToAbmagH (flux : Nat) (hd : PhotHeader K) : HM K Nat := do
  let flux ← npArray flux
  let v ← read flux
  write flux (v.map fun x => if F.le x (fin 0) then nan else x)
  let z ← lift (abZpt hd)
  let v ← read flux
  alloc (v.map fun x => fin (-5 / 2) * F.log10 x + z)

/-- petrofit/utils.py:60-75 `hst_flux_to_abmag` of an integer array or list of python ints: `np.array` keeps the integer dtype, so writing
NaN into it (line 64) raises ValueError when there is an entry to overwrite.  (Simplification: with no such entry the write is a
no-op.) -/
def hstFluxToAbmagInt (flux : List Int) (hd : PhotHeader K) : Except PyErr (List (F K)) :=
  if flux.any (· ≤ 0) then .error .valueError
  else do
    let z ← abZpt hd
    return flux.map fun x => fin (-5 / 2) * F.log10 (fin (x : K)) + z

end mag

/-! ### Angles and pixels -/

/-- What is used of a WCS: the two plane pixel scales and the size of `cunit[0]` in arcsec. -/
structure Wcs (K : Type) where
  scale0 : F K
  scale1 : F K
  cunit : K

/-- An angle: a value and the size of its unit in arcsec. -/
structure Angle (K : Type) where
  value : F K
  unit : K

/-- `np.allclose(a, b)` for scalars: `|a - b| <= 1e-8 + 1e-5 |b|`; infinite values are close when equal. -/
def npAllclose (a b : F K) : Bool :=
  if a.isFin && b.isFin then F.le (F.abs (a - b)) (fin (1 / 10 ^ 8) + fin (1 / 10 ^ 5) * F.abs b) else F.eqv a b

/-- petrofit/utils.py:85-94 `angular_to_pixel`: the scale is converted to the unit of the angle. -/
def angularToPixel (t : Angle K) (w : Wcs K) : Except PyErr (F K) :=
  if npAllclose w.scale0 w.scale1 then .ok (t.value / (w.scale0 * fin (w.cunit / t.unit))) else .error .assertionError

/-- petrofit/utils.py:97-107 `pixel_to_angular`: the result is in arcsec (unit size 1). -/
def pixelToAngular (p : F K) (w : Wcs K) : Except PyErr (Angle K) :=
  if npAllclose w.scale0 w.scale1 then .ok ⟨p * (w.scale0 * fin (w.cunit / 1)), 1⟩ else .error .assertionError

/-! ### Areas and radii -/

/-- petrofit/utils.py:110-114 `elliptical_area_to_r` (numpy floats: division by zero does not raise). -/
noncomputable def ellipticalAreaToR (area elong : F ℝ) : F ℝ × F ℝ :=
  let a := F.sqrt (elong * area / fin Real.pi)
  (a, a / elong)

/-- petrofit/utils.py:117-119 `circle_area_to_r`. -/
noncomputable def circleAreaToR (area : F ℝ) : F ℝ := F.sqrt (area / fin Real.pi)

/-! ### Cutout subtraction -/

/-- Length of the numpy slice `[lo:hi]` of an axis of length `n`, for non-negative bounds. -/
def sliceLen (n : Nat) (lo hi : Int) : Nat := min n hi.toNat - min n lo.toNat

/-- Whether an axis of length `m` broadcasts to an axis of length `n`. -/
def broadcasts (m n : Nat) : Bool := m = n || m = 1

/-- petrofit/utils.py:211-237 `cutout_subtract`.  `mem` are the pixels of all image objects; the caller passes the reference `r`, line 236
updates that object in place, and line 237 returns the reference itself.  The in-place operation raises ValueError, without
writing, when the target does not broadcast to the window. -/
def cutoutSubtract (mem : Nat → Img (F K)) (r : Nat) (target : Img (F K)) (x y : Int) :
    Except PyErr Nat × (Nat → Img (F K)) :=
  let image := mem r
  let ymin := max 0 (y - (target.h / 2 : Nat))
  let ymax := max 0 (y + (target.h / 2 : Nat))
  let xmin := max 0 (x - (target.w / 2 : Nat))
  let xmax := max 0 (x + (target.w / 2 : Nat))
  if broadcasts target.h (sliceLen image.h ymin ymax) && broadcasts target.w (sliceLen image.w xmin xmax) then
    (.ok r, fun k => if k = r then
      { image with px := fun i j =>
          if ymin ≤ i ∧ i < ymax ∧ xmin ≤ j ∧ j < xmax then
            image.px i j - target.px (if target.h = 1 then 0 else i - ymin.toNat) (if target.w = 1 then 0 else j - xmin.toNat)
          else image.px i j }
      else mem k)
  else (.error .valueError, mem)

end Verif

import Verif.Model.Photometry

/-!
# petrofit/segmentation.py

Label lists and images are mutable objects here.  A catalog entry is represented by what is used of it: its label, the pixel of its
maximum, elongation and orientation.  Plotting and the detection itself (photutils `detect_sources`, `deblend_sources`) are not modelled.
-/

set_option linter.unusedSectionVars false

namespace Verif

open F

/-- The objects in memory: python lists of labels and float images; image addresses below `next` are in use. -/
structure Mem (K : Type) where
  lists : Nat → List Int
  imgs : Nat → Img (F K)
  next : Nat

/-- A computation with memory effects; effects done before an exception stay. -/
def MM (K α : Type) := Mem K → Except PyErr α × Mem K

namespace MM
variable {K α β : Type}

instance : Monad (MM K) where
  pure a := fun m => (.ok a, m)
  bind x f := fun m => match x m with
    | (.ok a, m') => f a m'
    | (.error e, m') => (.error e, m')

/-- A computation without memory effects. -/
def lift (e : Except PyErr α) : MM K α := fun m => (e, m)

/-- A new image object. -/
def newImg (i : Img (F K)) : MM K Nat := fun m =>
  (.ok m.next, { m with imgs := fun k => if k = m.next then i else m.imgs k, next := m.next + 1 })

/-- The pixels of an image object. -/
def getImg (r : Nat) : MM K (Img (F K)) := fun m => (.ok (m.imgs r), m)

/-- Overwrite the pixels of an image object in place. -/
def setImg (r : Nat) (i : Img (F K)) : MM K Unit := fun m =>
  (.ok (), { m with imgs := fun k => if k = r then i else m.imgs k })

/-- The contents of a label list. -/
def getList (r : Nat) : MM K (List Int) := fun m => (.ok (m.lists r), m)

/-- `l.append(x)`. -/
def append (r : Nat) (x : Int) : MM K Unit := fun m =>
  (.ok (), { m with lists := fun k => if k = r then m.lists k ++ [x] else m.lists k })

end MM

open MM

/-- The `source` argument of `segm_mask`: a label or catalog entry, a reference to a list of labels, or anything else. -/
inductive SegSource
  | label (l : Int)
  | list (r : Nat)
  | other

/-- petrofit/segmentation.py:235-245: the loop over `sources`; `None` stays `None` when there are none. -/
def maskLoop (segm : Img Int) : List Int → Option (Img Bool) → Option (Img Bool)
  | [], mask => mask
  | s :: rest, none => maskLoop segm rest (some (segm.map fun l => l == s))
  | s :: rest, some mask => maskLoop segm rest (some ⟨segm.h, segm.w, fun i j => (segm.px i j == s) || mask.px i j⟩)

/-- petrofit/segmentation.py:197-245 `segm_mask`: line 227 keeps the caller's list object and line 234 appends to it. -/
def segmMask {K : Type} (source : SegSource) (segm : Img Int) (maskBackground : Bool := false) : MM K (Option (Img Bool)) :=
  match source with
  | .other => lift (.error .typeError)
  | .label l =>
    let sources := if maskBackground then [l] else [l] ++ [0]
    pure (maskLoop segm sources none)
  | .list r => do
    if !maskBackground then append r 0
    let sources ← getList r
    pure (maskLoop segm sources none)

variable {K : Type} [Field K] [LinearOrder K]

/-- petrofit/segmentation.py:248-286 `masked_segm_image` for a float ndarray: `deepcopy` makes a new object, boolean indexing needs equal
shapes (IndexError), and `np.invert(None)` raises TypeError. -/
def maskedSegmImage (source : SegSource) (image : Nat) (segm : Img Int) (fill : Option (F K) := none)
    (maskBackground : Bool := false) : MM K Nat := do
  let fill := fill.getD nan
  let mask ← segmMask source segm maskBackground
  let maskedImage ← newImg (← getImg image)
  match mask with
  | none => lift (.error .typeError)
  | some m => do
    let px ← getImg maskedImage
    if ¬ (m.h = px.h ∧ m.w = px.w) then lift (.error .indexError)
    else do
      setImg maskedImage { px with px := fun i j => if !(m.px i j) then fill else px.px i j }
      pure maskedImage

/-! ### Cutouts -/

/-- The result of `Cutout2D(...).data`: a view into another image object (`obj`, with the position of the corner), or an object of its
own at the image border. -/
inductive Cut
  | view (obj : Nat) (y0 x0 n : Nat)
  | own (obj : Nat)

/-- `Cutout2D(image, (x, y), n, mode="partial", fill_value=nan).data` for an even size `n`: the corner is `position - n/2`; a cutout inside
the image is a view, otherwise a new array filled with NaN outside. -/
def cutout2D (image : Nat) (x y : Nat) (n : Nat) : MM K Cut := do
  let im ← getImg image
  if n / 2 ≤ y ∧ y + n / 2 ≤ im.h ∧ n / 2 ≤ x ∧ x + n / 2 ≤ im.w then
    pure (.view image (y - n / 2) (x - n / 2) n)
  else do
    let o ← newImg ⟨n, n, fun i j =>
      if n / 2 ≤ y + i ∧ y + i - n / 2 < im.h ∧ n / 2 ≤ x + j ∧ x + j - n / 2 < im.w then
        im.px (y + i - n / 2) (x + j - n / 2) else nan⟩
    pure (.own o)

/-- The pixels seen through a cutout. -/
def Cut.read : Cut → MM K (Img (F K))
  | .view o y0 x0 n => do
    let im ← getImg o
    pure ⟨n, n, fun i j => im.px (y0 + i) (x0 + j)⟩
  | .own o => getImg o

/-- In-place elementwise update through a cutout: `cut[...] = f(row, column, old value)`. -/
def Cut.update (f : Nat → Nat → F K → F K) : Cut → MM K Unit
  | .view o y0 x0 n => do
    let im ← getImg o
    setImg o { im with px := fun i j =>
      if y0 ≤ i ∧ i < y0 + n ∧ x0 ≤ j ∧ j < x0 + n then f (i - y0) (j - x0) (im.px i j) else im.px i j }
  | .own o => do
    let im ← getImg o
    setImg o { im with px := fun i j => f i j (im.px i j) }

/-! ### Source photometry -/

/-- The library functions used for the background: sigma clipping (clipped pixels become NaN; the mask of the masked array),
the statistics (mean and standard deviation), and the plane fit turned into an image of side `n`. -/
structure BgLib (K : Type) where
  sigmaClip : Img (F K) → F K → Img (F K)
  stats : Img (F K) → F K × F K
  fitImage : Img (F K) → Nat → Except PyErr (Img (F K))

/-- What is used of a catalog entry. -/
structure SourceRow (K : Type) where
  label : Int
  x : Nat
  y : Nat
  elong : K
  theta : K

/-- How the background is masked. -/
inductive SigmaType
  | clip | bound | other
  deriving DecidableEq

/-- petrofit/segmentation.py:608-613: the cutout size; `max` of an empty list raises ValueError. -/
def cutoutSize [FloorRing K] (requested : Option Nat) (rList : List K) : Except PyErr Nat := do
  let n ← match requested with
    | some n => Except.ok n
    | none => match rList.max? with
      | none => .error .valueError
      | some m => .ok (⌈m * 3⌉.toNat)
  .ok (if n % 2 = 1 then n + 1 else n)

/-- The number of pixels that are not NaN. -/
def countFinite (i : Img (F K)) : Nat := ((pixels i.h i.w).filter fun p => !(i.px p.1 p.2).isNaN).length

section
variable [HasSqrt K] [FloorRing K]

/-- petrofit/segmentation.py:651-668: the background pixels to fit; lines 663-664 work in place on the statistics cutout, and an unknown
`sigma_type` (line 666) raises TypeError because a string is raised. -/
def backgroundToFit (lib : BgLib K) (stats : Cut) (sigma : F K) (st : SigmaType) : MM K (Img (F K)) := do
  let s ← stats.read
  match st with
  | .clip => pure (lib.sigmaClip s sigma)
  | .bound =>
    let mean := (lib.stats s).1
    let std := (lib.stats s).2
    stats.update fun _ _ v => if F.lt (mean + std * sigma) v then nan else v
    stats.update fun _ _ v => if F.lt v (mean - std * sigma) then nan else v
    stats.read
  | .other => lift (.error .typeError)

/-- petrofit/segmentation.py:646-677: background subtraction; returns the image to measure.  Line 672 works in place on the cutout,
line 674 makes a new array. -/
def subtractBackground (lib : BgLib K) (maskedImage stats : Cut) (n : Nat) (sigma : F K) (st : SigmaType) : MM K Cut := do
  let s ← stats.read
  if countFinite s ≤ 10 then pure maskedImage
  else do
    let fitBg ← backgroundToFit lib stats sigma st
    let plane ← lift (lib.fitImage fitBg n)
    maskedImage.update fun i j v => v - plane.px i j
    if st = .bound then do
      let px ← maskedImage.read
      let o ← newImg (px.map fun v => if F.lt v (-sigma) then -sigma else v)
      pure (.own o)
    else pure maskedImage

/-- petrofit/segmentation.py:646: only with `bg_sub`. -/
def maybeSubtract (bgSub : Bool) (lib : BgLib K) (maskedImage stats : Cut) (n : Nat) (sigma : F K) (st : SigmaType) : MM K Cut :=
  if bgSub then subtractBackground lib maskedImage stats n sigma st else pure maskedImage

/-- petrofit/segmentation.py:617-621: the cutout of the error map, when there is one. -/
def errorCutout (error : Option Nat) (x y n : Nat) : MM K (Option Cut) :=
  match error with
  | none => pure none
  | some e => do
    let c ← cutout2D e x y n
    pure (some c)

/-- The pixels of the error cutout. -/
def readError (c : Option Cut) : MM K (Option (Img (F K))) :=
  match c with
  | none => pure none
  | some c => do
    let e ← c.read
    pure (some e)

/-- petrofit/segmentation.py:488-743 `source_photometry` (`plot=False`) for one catalog entry and a float image. -/
def sourcePhotometry (ov : Overlap K) (lib : BgLib K) (source : SourceRow K) (image : Nat) (segm : Img Int) (rList : List K)
    (error : Option Nat) (requested : Option Nat) (bgSub : Bool) (sigma : F K) (st : SigmaType) (maskBackground : Bool) :
    MM K (List (F K) × List (F K) × List (F K)) := do
  let n ← lift (cutoutSize requested rList)
  let maskedErr ← errorCutout error source.x source.y n
  let fullMasked ← maskedSegmImage (.label source.label) image segm (some nan) maskBackground
  let maskedImage ← cutout2D fullMasked source.x source.y n
  let fullBg ← maskedSegmImage (.label 0) image segm (some nan) false
  let stats ← cutout2D fullBg source.x source.y n
  let maskedImage ← maybeSubtract bgSub lib maskedImage stats n sigma st
  let data ← maskedImage.read
  let mask := data.map fun v => !v.isNaN
  let err ← readError maskedErr
  -- line 685: `position = np.array(masked_image.data.shape) / 2.0`
  lift (radialPhotometry ov data ((data.h : K) / 2) ((data.w : K) / 2) rList err (some mask) source.elong source.theta)

end

/-! ### Catalog order -/

/-- petrofit/segmentation.py:170-194 `order_cat`: `table[key]` (KeyError), `argsort` (a parameter, numpy's), reversed on request. -/
def orderCat (argsort : List (F K) → List Nat) (table : String → Option (List (F K))) (key : String := "area")
    (reverse : Bool := true) : Except PyErr (List Nat) :=
  match table key with
  | none => .error .keyError
  | some col => .ok (if reverse then (argsort col).reverse else argsort col)

end Verif

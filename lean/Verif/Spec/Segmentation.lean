import Verif.Model.Segmentation

/-!
# Selection of pixels by label, and the image measured by `source_photometry`
-/

set_option linter.unusedSectionVars false

namespace Verif.Spec

variable {K : Type} [Field K] [LinearOrder K]

/-- The labels asked for by a `source` argument. -/
def labelsOf (m : Mem K) : SegSource → List Int
  | .label l => [l]
  | .list r => m.lists r
  | .other => []

/-- The source is a label, a catalog entry or a list of them. -/
def WellTyped : SegSource → Prop
  | .other => False
  | _ => True

/-- A pixel is selected: its label is requested, or it is background and background is to be kept. -/
def Selected (segm : Img Int) (labels : List Int) (maskBackground : Bool) (i j : Nat) : Prop :=
  segm.px i j ∈ labels ∨ (maskBackground = false ∧ segm.px i j = 0)

instance (segm : Img Int) (labels : List Int) (mb : Bool) (i j : Nat) : Decidable (Selected segm labels mb i j) := by
  unfold Selected; infer_instance

/-- The image with everything outside the selection replaced. -/
def masked (im : Img (F K)) (segm : Img Int) (labels : List Int) (mb : Bool) (fill : F K) : Img (F K) :=
  ⟨im.h, im.w, fun i j => if Selected segm labels mb i j then im.px i j else fill⟩

/-- The square of even side `n` around the pixel in column `x` and row `y`; NaN outside the image. -/
def window (im : Img (F K)) (x y n : Nat) : Img (F K) :=
  ⟨n, n, fun i j => if n / 2 ≤ y + i ∧ y + i - n / 2 < im.h ∧ n / 2 ≤ x + j ∧ x + j - n / 2 < im.w then
    im.px (y + i - n / 2) (x + j - n / 2) else F.nan⟩

/-- The numerical libraries see only the pixels of an image. -/
structure LibExt (lib : BgLib K) : Prop where
  sigmaClip : ∀ a b s, a.Same b → (lib.sigmaClip a s).Same (lib.sigmaClip b s)
  stats : ∀ a b, a.Same b → lib.stats a = lib.stats b
  fitImage : ∀ a b n, a.Same b → lib.fitImage a n = lib.fitImage b n

/-- Background subtraction as a function of the source cutout and the background cutout. -/
def backgroundSubtracted (lib : BgLib K) (im bg : Img (F K)) (n : Nat) (sigma : F K) (st : SigmaType) : Except PyErr (Img (F K)) :=
  if countFinite bg ≤ 10 then .ok im
  else match st with
    | .other => .error .typeError
    | .clip =>
      match lib.fitImage (lib.sigmaClip bg sigma) n with
      | .error e => .error e
      | .ok p => .ok ⟨im.h, im.w, fun i j => im.px i j - p.px i j⟩
    | .bound =>
      let lo := (lib.stats bg).1 - (lib.stats bg).2 * sigma
      let hi := (lib.stats bg).1 + (lib.stats bg).2 * sigma
      match lib.fitImage (bg.map fun v => if F.lt hi v || F.lt v lo then F.nan else v) n with
      | .error e => .error e
      | .ok p => .ok ⟨im.h, im.w, fun i j =>
        if F.lt (im.px i j - p.px i j) (-sigma) then -sigma else im.px i j - p.px i j⟩

/-- The image measured by `source_photometry`. -/
def measured (lib : BgLib K) (im : Img (F K)) (segm : Img Int) (s : SourceRow K) (n : Nat) (bgSub : Bool) (sigma : F K)
    (st : SigmaType) (mb : Bool) : Except PyErr (Img (F K)) :=
  let src := window (masked im segm [s.label] mb F.nan) s.x s.y n
  let bg := window (masked im segm [0] true F.nan) s.x s.y n
  if bgSub then backgroundSubtracted lib src bg n sigma st else .ok src

/-- Everything created before address `b` is untouched. -/
def Frame (b : Nat) (m m' : Mem K) : Prop := m'.lists = m.lists ∧ ∀ k < b, m'.imgs k = m.imgs k

end Verif.Spec

/-! ### Histories of calls -/

namespace Verif.Spec

variable {K : Type} [Field K] [LinearOrder K]

/-- A call of `segm_mask` or `masked_segm_image`. -/
inductive SegCall (K : Type)
  | mask (s : SegSource) (segm : Img Int) (mb : Bool)
  | image (s : SegSource) (im : Nat) (segm : Img Int) (fill : Option (F K)) (mb : Bool)

/-- The memory after a call, whether it raises or not. -/
def SegCall.exec (m : Mem K) : SegCall K → Mem K
  | .mask s segm mb => (segmMask s segm mb m).2
  | .image s im segm fill mb => (maskedSegmImage s im segm fill mb m).2

/-- The memory after a history. -/
def segHistory (m : Mem K) (h : List (SegCall K)) : Mem K := h.foldl SegCall.exec m

/-- The call is given list `r` and keeps the background. -/
def SegCall.keepsBackground (r : Nat) : SegCall K → Bool
  | .mask (.list q) _ false => q == r
  | .image (.list q) _ _ _ false => q == r
  | _ => false

/-- numpy's order on floats: NaN is last. -/
def npLe (a b : F K) : Bool := b.isNaN || F.le a b

/-- What `argsort` promises: each index once, in the order of the values. -/
structure ArgsortLaw (argsort : List (F K) → List Nat) : Prop where
  perm : ∀ l, (argsort l).Perm (List.range l.length)
  sorted : ∀ l, (argsort l).Pairwise fun i j => npLe (l.getD i F.nan) (l.getD j F.nan) = true

end Verif.Spec

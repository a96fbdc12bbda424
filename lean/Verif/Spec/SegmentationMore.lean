import Verif.Model.SegmentationMore

/-!
# What photutils promises about detection and deblending
-/

namespace Verif.Spec

variable {K T W C : Type}

/-- Documented behaviour of the photutils functions used by `make_catalog`: `above` says that a pixel exceeds the threshold. -/
structure SegLaw (lib : SegLib K T W C) (above : Img (F K) → T → Nat → Nat → Prop) : Prop where
  /-- Labelled pixels exceed the threshold; the map has the shape of the image and at least one source. -/
  detect : ∀ im t n s, lib.detect im t n = .ok (some s) → s.h = im.h ∧ s.w = im.w ∧
    (∃ i j, i < s.h ∧ j < s.w ∧ s.px i j ≠ 0) ∧ ∀ i j, i < s.h → j < s.w → s.px i j ≠ 0 → above im t i j
  /-- Deblending relabels within the sources: the labelled pixels stay the same and no new source straddles two old ones. -/
  deblend : ∀ im s n l c d, lib.deblend im (some s) n l c = .ok d → d.h = s.h ∧ d.w = s.w ∧
    (∀ i j, i < s.h → j < s.w → (d.px i j = 0 ↔ s.px i j = 0)) ∧
    ∀ i j i' j', i < s.h → j < s.w → i' < s.h → j' < s.w → d.px i j = d.px i' j' → s.px i j = s.px i' j'
  /-- `None` is not a segmentation map. -/
  deblendNone : ∀ im n l c, ∃ e, lib.deblend im none n l c = .error e
  catalogNone : ∀ im w, ∃ e, lib.catalog im none w = .error e

end Verif.Spec

import Verif.Spec.SegmentationMore
import Verif.Props.Segmentation
import Verif.Props.Utils

/-!
# C93-C96: the catalog pipeline, the residual plot, source accessors, isophote amplitudes
-/

set_option linter.unusedSectionVars false
set_option linter.unusedVariables false
set_option linter.unusedSimpArgs false

namespace Verif.Props

open F Spec MM

section
variable {K T W C : Type} [Field K] [LinearOrder K] (lib : SegLib K T W C)

/-- **C93, wiring.** What `make_catalog` returns is what the three steps give one after the other with the caller's settings: the first map
is detected with the caller's threshold and `npixels`, the second is its deblending with the caller's `npixels`, `nlevels` and `contrast`
(absent without `deblend`), and the catalog is made from the last map and the WCS.  The container of the image and the `plot` flag do not
matter, and only returned maps are drawn. -/
theorem C93_pipeline (image : ImageArg K) (threshold : T) (wcs : Option W) (deblend : Bool) (npixels : Option Nat) (nlevels : Nat)
    (contrast : F K) (plot : Bool) (cat : C) (segm sd : Option (Img Int)) (drawn : List (String × Img Int))
    (h : makeCatalog lib image threshold wcs deblend npixels nlevels contrast plot = .ok ((cat, segm, sd), drawn)) :
    makeSegments lib image.data npixels threshold = .ok segm ∧
    (deblend = true → ∃ d, sd = some d ∧ deblendSegments lib image.data segm npixels nlevels contrast = .ok d ∧
      lib.catalog image.data (some d) wcs = .ok cat) ∧
    (deblend = false → sd = none ∧ lib.catalog image.data segm wcs = .ok cat) ∧
    (∃ drawn', makeCatalog lib (.array image.data) threshold wcs deblend npixels nlevels contrast false = .ok ((cat, segm, sd), drawn')) ∧
    (∀ t ∈ drawn, plot = true ∧ (segm = some t.2 ∨ sd = some t.2)) := by
  unfold makeCatalog at h
  obtain ⟨s, h1, h⟩ := bind_eq_ok.1 h
  have hd : (ImageArg.array image.data).data = image.data := rfl
  cases deblend with
  | true =>
    rw [if_pos rfl] at h
    obtain ⟨d, h2, h⟩ := bind_eq_ok.1 h
    split at h
    · cases h
    · rename_i hp
      obtain ⟨c, h3, h⟩ := bind_eq_ok.1 h
      cases h
      refine ⟨h1, fun _ => ⟨d, rfl, h2, h3⟩, fun e => (nomatch e), ?_, ?_⟩
      · unfold makeCatalog
        rw [hd]
        simp only [h1, Except.bind_ok, h2, if_true, Bool.false_and, Bool.false_eq_true, if_false, h3]
        exact ⟨_, rfl⟩
      · intro t ht
        rw [List.mem_append] at ht
        rcases ht with ht | ht
        · unfold firstPlot at ht
          cases segm with
          | none => simp at ht
          | some s =>
            cases plot with
            | false => simp at ht
            | true =>
              simp only [if_true, List.mem_singleton] at ht
              subst ht
              exact ⟨rfl, Or.inl rfl⟩
        · cases plot with
          | false => simp at ht
          | true =>
            simp only [if_true, List.mem_singleton] at ht
            subst ht
            exact ⟨rfl, Or.inr rfl⟩
  | false =>
    simp only [Bool.false_eq_true, if_false] at h
    obtain ⟨c, h3, h⟩ := bind_eq_ok.1 h
    cases h
    refine ⟨h1, fun e => (nomatch e), fun _ => ⟨rfl, h3⟩, ?_, ?_⟩
    · unfold makeCatalog
      rw [hd]
      simp only [h1, Except.bind_ok, Bool.false_eq_true, if_false, h3]
      exact ⟨_, rfl⟩
    · intro t ht
      unfold firstPlot at ht
      cases segm with
      | none => simp at ht
      | some s =>
        cases plot with
        | false => simp at ht
        | true =>
          simp only [if_true, List.mem_singleton] at ht
          subst ht
          exact ⟨rfl, Or.inl rfl⟩

/-- **C93, footprint.** When `make_catalog` succeeds there is at least one source; both maps have the shape of the image, they label the same
pixels, all of which exceed the threshold, and a deblended source lies inside one source of the first map. -/
theorem C93_footprint {above : Img (F K) → T → Nat → Nat → Prop} (law : SegLaw lib above) (image : ImageArg K) (threshold : T)
    (wcs : Option W) (deblend : Bool) (npixels : Option Nat) (nlevels : Nat) (contrast : F K) (plot : Bool) (cat : C)
    (segm sd : Option (Img Int)) (drawn : List (String × Img Int))
    (h : makeCatalog lib image threshold wcs deblend npixels nlevels contrast plot = .ok ((cat, segm, sd), drawn)) :
    ∃ s, segm = some s ∧ s.h = image.data.h ∧ s.w = image.data.w ∧ (∃ i j, i < s.h ∧ j < s.w ∧ s.px i j ≠ 0) ∧
      (∀ i j, i < s.h → j < s.w → s.px i j ≠ 0 → above image.data threshold i j) ∧
      ∀ d, sd = some d → d.h = s.h ∧ d.w = s.w ∧ (∀ i j, i < s.h → j < s.w → (d.px i j ≠ 0 ↔ s.px i j ≠ 0)) ∧
        ∀ i j i' j', i < s.h → j < s.w → i' < s.h → j' < s.w → d.px i j = d.px i' j' → s.px i j = s.px i' j' := by
  obtain ⟨h1, h2, h3, -, -⟩ := C93_pipeline lib image threshold wcs deblend npixels nlevels contrast plot cat segm sd drawn h
  cases segm with
  | none =>
    exfalso
    cases deblend with
    | true =>
      obtain ⟨d, -, hd, -⟩ := h2 rfl
      obtain ⟨e, he⟩ := law.deblendNone image.data npixels nlevels contrast
      unfold deblendSegments at hd
      rw [he] at hd
      cases hd
    | false =>
      obtain ⟨-, hc⟩ := h3 rfl
      obtain ⟨e, he⟩ := law.catalogNone image.data wcs
      rw [he] at hc
      cases hc
  | some s =>
    obtain ⟨a, b, c, d⟩ := law.detect _ _ _ _ h1
    refine ⟨s, rfl, a, b, c, d, ?_⟩
    intro dd hdd
    cases deblend with
    | true =>
      obtain ⟨d', e1, e2, -⟩ := h2 rfl
      rw [hdd] at e1
      cases e1
      obtain ⟨f1, f2, f3, f4⟩ := law.deblend _ _ _ _ _ _ e2
      exact ⟨f1, f2, fun i j hi hj => not_congr (f3 i j hi hj), f4⟩
    | false =>
      rw [(h3 rfl).1] at hdd
      cases hdd

/-- **C93 is violated** for an image without sources: `make_catalog` does not return an empty catalog, it raises, with and without deblending
and plotting. -/
theorem C93_violated {above : Img (F K) → T → Nat → Nat → Prop} (law : SegLaw lib above) (image : ImageArg K) (threshold : T)
    (wcs : Option W) (deblend : Bool) (npixels : Option Nat) (nlevels : Nat) (contrast : F K) (plot : Bool)
    (hno : lib.detect image.data threshold npixels = .ok none) :
    ∃ e, makeCatalog lib image threshold wcs deblend npixels nlevels contrast plot = .error e := by
  unfold makeCatalog makeSegments deblendSegments
  dsimp only
  rw [hno, Except.bind_ok]
  cases deblend with
  | true =>
    obtain ⟨e, he⟩ := law.deblendNone image.data npixels nlevels contrast
    rw [if_pos rfl, he]
    exact ⟨e, rfl⟩
  | false =>
    obtain ⟨e, he⟩ := law.catalogNone image.data wcs
    simp only [Bool.false_eq_true, if_false, he]
    exact ⟨e, rfl⟩

/-! ### C94 -/

/-- **C94.** `plot_segment_residual` shows the image with every labelled pixel at zero and all others unchanged, and changes no existing
array. -/
theorem C94_residual (m : Mem K) (segm : Img Int) (image : Nat) (hi : image < m.next)
    (hsh : segm.h = (m.imgs image).h ∧ segm.w = (m.imgs image).w) :
    ∃ shown m', plotSegmentResidual segm image m = (.ok shown, m') ∧ (∀ k < m.next, m'.imgs k = m.imgs k) ∧ m'.lists = m.lists ∧
      shown.h = (m.imgs image).h ∧ shown.w = (m.imgs image).w ∧
      ∀ i j, i < shown.h → j < shown.w →
        (segm.px i j ≠ 0 → shown.px i j = fin 0) ∧ (segm.px i j = 0 → shown.px i j = (m.imgs image).px i j) := by
  unfold plotSegmentResidual
  rw [bind_ok (getImg_run _ _), bind_ok (newImg_run _ _), bind_ok (getImg_run _ _)]
  simp only [if_true]
  have hany : ((pixels segm.h segm.w).any fun q => segm.px q.1 q.2 != 0 && !(decide (q.1 < (m.imgs image).h) && decide (q.2 < (m.imgs image).w)))
      = false := by
    rw [List.any_eq_false]
    rintro ⟨i, j⟩ hq
    have := mem_pixels.1 hq
    simp [hsh.1 ▸ this.1, hsh.2 ▸ this.2]
  rw [hany, if_neg (by simp)]
  refine ⟨_, _, rfl, ?_, rfl, ?_, ?_, ?_⟩
  · intro k hk
    have : k ≠ m.next := Nat.ne_of_lt hk
    simp [this]
  · simp
  · simp
  · intro i j h1 h2
    simp only [if_true] at h1 h2 ⊢
    have h1' : i < segm.h := by rw [hsh.1]; exact h1
    have h2' : j < segm.w := by rw [hsh.2]; exact h2
    constructor
    · intro hne
      rw [if_pos ⟨h1', h2', hne⟩]
    · intro he
      rw [if_neg (by rintro ⟨_, _, h⟩; exact h he)]

/-! ### C96 -/

/-- **C96.** For every numeric radius `get_amplitude_at_r` returns: the fitted intensity when the isophote fit succeeds, and NaN with a
warning when it raises anything; a `CCDData` or `Cutout2D` is measured as its array. A radius that is not a number raises TypeError. -/
theorem C96_amplitude (fit : Img (F K) → F K → F K → F K → F K → F K → Except PyErr (F K)) (image : ImageArg K) (x0 y0 ellip theta : F K) :
    (∀ r, ∃ a warned, getAmplitudeAtR fit (some r) image x0 y0 ellip theta = .ok (a, warned) ∧
      (warned = false → fit image.data x0 y0 ellip theta r = .ok a) ∧
      (warned = true → a = nan ∧ ∃ e, fit image.data x0 y0 ellip theta r = .error e) ∧
      getAmplitudeAtR fit (some r) (.array image.data) x0 y0 ellip theta = .ok (a, warned)) ∧
    getAmplitudeAtR fit none image x0 y0 ellip theta = .error .typeError := by
  refine ⟨fun r => ?_, rfl⟩
  unfold getAmplitudeAtR
  have hd : (ImageArg.array image.data).data = image.data := rfl
  rw [hd]
  cases h : fit image.data x0 y0 ellip theta r with
  | ok a => exact ⟨a, false, by simp only [h], fun _ => rfl, fun e => (nomatch e), by simp only [h]⟩
  | error e => exact ⟨nan, true, by simp only [h], fun e => (nomatch e), fun _ => ⟨rfl, e, rfl⟩, by simp only [h]⟩

end

/-! ### C95 -/

/-- **C95.** A catalog entry and its table row describe the same source: same position, elongation, ellipticity and angle, the angle in
radians; and for semi-axes `0 < b ≤ a` elongation and ellipticity are converted into each other by the library's own conversions. -/
theorem C95_accessors (x y : Nat) (a b d : ℝ) (hb : 0 < b) (hab : b ≤ a) :
    let s := Source.catalog x y a b d
    s.position = (x, y) ∧ s.toTable.position = s.position ∧ s.toTable.elong = s.elong ∧ s.toTable.ellip = s.ellip ∧
    s.toTable.theta = s.theta ∧ s.theta / Real.pi = d / 180 ∧ 1 ≤ s.elong ∧ 0 ≤ s.ellip ∧ s.ellip < 1 ∧
    ellipToElong (fin s.ellip) = .ok (fin s.elong) ∧ elongToEllip (fin s.elong) = .ok (fin s.ellip) := by
  have ha : 0 < a := lt_of_lt_of_le hb hab
  have h1 : 1 ≤ a / b := by rw [le_div_iff₀ hb]; linarith
  have h2 : b / a ≤ 1 := by rw [div_le_one ha]; exact hab
  have h3 : 0 < b / a := by positivity
  refine ⟨rfl, rfl, rfl, rfl, rfl, ?_, h1, by show 0 ≤ 1 - b / a; linarith, by show 1 - b / a < 1; linarith, ?_, ?_⟩
  · show d * (Real.pi / 180) / Real.pi = d / 180
    field_simp
  · show ellipToElong (fin (1 - b / a)) = .ok (fin (a / b))
    unfold ellipToElong pyDiv
    have hne : (1 : ℝ) - (1 - b / a) ≠ 0 := by rw [sub_sub_cancel]; exact h3.ne'
    rw [fin_sub, if_neg (by simp only [eqv_fin, decide_eq_true_eq]; exact hne), fin_div_of_ne _ hne]
    congr 2
    rw [sub_sub_cancel, one_div_div]
  · show elongToEllip (fin (a / b)) = .ok (fin (1 - b / a))
    unfold elongToEllip pyDiv
    have hne : a / b ≠ 0 := by positivity
    rw [fin_sub, if_neg (by simp only [eqv_fin, decide_eq_true_eq]; exact hne), fin_div_of_ne _ hne]
    congr 2
    field_simp

/-! ### Non-vacuity -/

/-- A pipeline that labels the pixels above the threshold and doubles the labels when deblending. -/
def exampleSegLib : SegLib ℚ (F ℚ) Unit (Img Int) where
  detect im t _ :=
    if (pixels im.h im.w).any fun q => F.lt t (im.px q.1 q.2) then .ok (some ⟨im.h, im.w, fun i j => if F.lt t (im.px i j) then 1 else 0⟩)
    else .ok none
  deblend _ s _ _ _ := match s with
    | some s => .ok (s.map fun l => 2 * l)
    | none => .error .valueError
  catalog _ s _ := match s with
    | some s => .ok s
    | none => .error .typeError

/-- A `CCDData` with sources: catalogued, two maps drawn. -/
example : ∃ cat segm sd drawn, makeCatalog exampleSegLib (.ccdData ⟨2, 2, fun i j => fin ((i + j : Nat) : ℚ)⟩) (fin 0) none =
    .ok ((cat, segm, sd), drawn) ∧ drawn.length = 2 := ⟨_, _, _, _, rfl, rfl⟩

example : SegLaw exampleSegLib (fun im t i j => F.lt t (im.px i j) = true) where
  detect := by
    intro im t n s h
    unfold exampleSegLib at h
    dsimp only at h
    split at h
    · rename_i hany
      cases h
      rw [List.any_eq_true] at hany
      obtain ⟨⟨i, j⟩, hm, hlt⟩ := hany
      obtain ⟨hi, hj⟩ := mem_pixels.1 hm
      refine ⟨rfl, rfl, ⟨i, j, hi, hj, by simp only [hlt, if_true]; decide⟩, fun i j _ _ hne => ?_⟩
      by_contra hc
      simp only [hc, if_false, ne_eq, not_true_eq_false] at hne
    · cases h
  deblend := by
    intro im s n l c d h
    cases h
    refine ⟨rfl, rfl, fun i j _ _ => ?_, fun i j i' j' _ _ _ _ h => ?_⟩
    · show 2 * s.px i j = 0 ↔ s.px i j = 0
      omega
    · have h' : 2 * s.px i j = 2 * s.px i' j' := h
      omega
  deblendNone := fun im n l c => ⟨_, rfl⟩
  catalogNone := fun im w => ⟨_, rfl⟩

/-- An image without sources raises. -/
example : makeCatalog exampleSegLib (.array ⟨2, 2, fun _ _ => fin 0⟩) (fin 0) none = .error .valueError := rfl

/-- C94: an image and a map of the same shape with one labelled pixel. -/
example : ∃ m', plotSegmentResidual (K := ℚ) ⟨1, 2, fun _ j => (j : Int)⟩ 0 ⟨fun _ => [], fun _ => ⟨1, 2, fun _ _ => fin 7⟩, 1⟩ =
    (.ok ⟨1, 2, fun i j => if i < 1 ∧ j < 2 ∧ (j : Int) ≠ 0 then fin 0 else fin 7⟩, m') := ⟨_, rfl⟩

/-- C95: semi-axes 3 and 2. -/
example : (Source.catalog 4 5 3 2 90).elong = 3 / 2 ∧ (Source.catalog 4 5 3 2 90).theta = Real.pi / 2 := by
  constructor
  · rfl
  · show 90 * (Real.pi / 180) = Real.pi / 2
    ring

/-- C96: an isophote fit that fails for large radii. -/
example : getAmplitudeAtR (fun _ _ _ _ _ r => if F.lt (fin 5) r then .error .valueError else .ok (fin 1)) (some (fin (9 : ℚ)))
    (.array ⟨0, 0, fun _ _ => nan⟩) (fin 0) (fin 0) (fin 0) (fin 0) = .ok (nan, true) := by decide +kernel

end Verif.Props

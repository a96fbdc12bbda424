import Verif.Spec.Segmentation
import Verif.Lemmas.Photometry

/-!
# Masks, cutouts and the measured image
-/

set_option linter.unusedSectionVars false
set_option linter.unusedSimpArgs false

namespace Verif

open F MM Spec

namespace MM
variable {K α β : Type}

theorem bind_run (x : MM K α) (f : α → MM K β) (m : Mem K) :
    (x >>= f) m = match x m with | (.ok a, m') => f a m' | (.error e, m') => (.error e, m') := rfl
@[simp] theorem pure_run (a : α) (m : Mem K) : (pure a : MM K α) m = (.ok a, m) := rfl
@[simp] theorem lift_run (e : Except PyErr α) (m : Mem K) : (lift e : MM K α) m = (e, m) := rfl
@[simp] theorem getImg_run (r : Nat) (m : Mem K) : getImg r m = (.ok (m.imgs r), m) := rfl
theorem newImg_run (i : Img (F K)) (m : Mem K) : newImg i m =
    (.ok m.next, { m with imgs := fun k => if k = m.next then i else m.imgs k, next := m.next + 1 }) := rfl
theorem setImg_run (r : Nat) (i : Img (F K)) (m : Mem K) : setImg r i m =
    (.ok (), { m with imgs := fun k => if k = r then i else m.imgs k }) := rfl
@[simp] theorem getList_run (r : Nat) (m : Mem K) : getList r m = (.ok (m.lists r), m) := rfl

/-- Run the first step of a computation that succeeds. -/
theorem bind_ok {x : MM K α} {m m' : Mem K} {a : α} (h : x m = (.ok a, m')) (f : α → MM K β) : (x >>= f) m = f a m' := by
  rw [bind_run, h]
theorem bind_err {x : MM K α} {m m' : Mem K} {e : PyErr} (h : x m = (.error e, m')) (f : α → MM K β) :
    (x >>= f) m = (.error e, m') := by
  rw [bind_run, h]

end MM

section
variable {K : Type} [Field K] [LinearOrder K]

theorem maskLoop_some (segm : Img Int) : ∀ (l : List Int) (mk : Img Bool), mk.h = segm.h → mk.w = segm.w →
    ∃ r, maskLoop segm l (some mk) = some r ∧ r.h = segm.h ∧ r.w = segm.w ∧
      ∀ i j, (r.px i j = true ↔ segm.px i j ∈ l ∨ mk.px i j = true)
  | [], mk, h1, h2 => ⟨mk, rfl, h1, h2, by simp⟩
  | s :: rest, mk, _, _ => by
    obtain ⟨r, e, a, b, c⟩ := maskLoop_some segm rest
      ⟨segm.h, segm.w, fun i j => (segm.px i j == s) || mk.px i j⟩ rfl rfl
    refine ⟨r, e, a, b, fun i j => ?_⟩
    rw [c i j]; simp only [Bool.or_eq_true, beq_iff_eq, List.mem_cons]; tauto

theorem maskLoop_none (segm : Img Int) {l : List Int} (h : l ≠ []) :
    ∃ r, maskLoop segm l none = some r ∧ r.h = segm.h ∧ r.w = segm.w ∧ ∀ i j, (r.px i j = true ↔ segm.px i j ∈ l) := by
  cases l with
  | nil => exact absurd rfl h
  | cons s rest =>
    obtain ⟨r, e, a, b, c⟩ := maskLoop_some segm rest (segm.map fun l => l == s) rfl rfl
    refine ⟨r, e, a, b, fun i j => ?_⟩
    rw [c i j]; simp only [Img.map, beq_iff_eq, List.mem_cons]; tauto

/-- What `segm_mask` does to the lists. -/
def listsAfter (m : Mem K) (s : SegSource) (mb : Bool) : Nat → List Int :=
  match s with
  | .list r => if mb then m.lists else fun k => if k = r then m.lists k ++ [0] else m.lists k
  | _ => m.lists

theorem segmMask_run (m : Mem K) (s : SegSource) (segm : Img Int) (mb : Bool) (hs : WellTyped s)
    (hne : labelsOf m s ≠ [] ∨ mb = false) :
    ∃ r, segmMask s segm mb m = (.ok (some r), { m with lists := listsAfter m s mb }) ∧ r.h = segm.h ∧ r.w = segm.w ∧
      ∀ i j, (r.px i j = true ↔ Selected segm (labelsOf m s) mb i j) := by
  cases s with
  | other => exact hs.elim
  | label l =>
    cases mb with
    | true =>
      obtain ⟨r, e, a, b, c⟩ := maskLoop_none segm (l := [l]) (by simp)
      exact ⟨r, by simp [segmMask, e, listsAfter], a, b, fun i j => by rw [c]; simp [Selected, labelsOf]⟩
    | false =>
      obtain ⟨r, e, a, b, c⟩ := maskLoop_none segm (l := [l] ++ [0]) (by simp)
      exact ⟨r, by simp [segmMask, listsAfter] at e ⊢; exact e, a, b, fun i j => by rw [c]; simp [Selected, labelsOf]⟩
  | list q =>
    cases mb with
    | true =>
      obtain ⟨r, e, a, b, c⟩ := maskLoop_none segm (l := m.lists q) (by simpa [labelsOf] using hne)
      exact ⟨r, by simp [segmMask, bind_run, e, listsAfter], a, b, fun i j => by rw [c]; simp [Selected, labelsOf]⟩
    | false =>
      obtain ⟨r, e, a, b, c⟩ := maskLoop_none segm (l := m.lists q ++ [0]) (by simp)
      exact ⟨r, by simp [segmMask, bind_run, append, e, listsAfter], a, b, fun i j => by
        rw [c]; simp [Selected, labelsOf]⟩

theorem masked_eq {r : Img Bool} {segm : Img Int} {L : List Int} {mb : Bool}
    (hr : ∀ i j, (r.px i j = true ↔ Selected segm L mb i j)) (im : Img (F K)) (fill : F K) :
    { im with px := fun i j => if !(r.px i j) then fill else im.px i j } = masked im segm L mb fill := by
  unfold masked
  congr 1
  funext i j
  by_cases h : Selected segm L mb i j
  · rw [if_pos h, (hr i j).2 h]; rfl
  · have : r.px i j = false := by
      by_contra hc; exact h ((hr i j).1 (by simpa using hc))
    rw [if_neg h, this]; rfl

/-- `masked_segm_image` makes a new object with the masked pixels. -/
theorem maskedSegmImage_run (m : Mem K) (s : SegSource) (image : Nat) (segm : Img Int) (fill : Option (F K)) (mb : Bool)
    (hs : WellTyped s) (hne : labelsOf m s ≠ [] ∨ mb = false) (hsh : segm.h = (m.imgs image).h ∧ segm.w = (m.imgs image).w) :
    maskedSegmImage s image segm fill mb m = (.ok m.next,
      { lists := listsAfter m s mb
        imgs := fun k => if k = m.next then masked (m.imgs image) segm (labelsOf m s) mb (fill.getD nan) else m.imgs k
        next := m.next + 1 }) := by
  obtain ⟨r, e, a, b, c⟩ := segmMask_run m s segm mb hs hne
  unfold maskedSegmImage
  rw [bind_ok e]
  rw [bind_ok (getImg_run image _)]
  rw [bind_ok (newImg_run _ _)]
  simp only
  rw [bind_ok (getImg_run _ _)]
  have hsh' : r.h = (m.imgs image).h ∧ r.w = (m.imgs image).w := ⟨a.trans hsh.1, b.trans hsh.2⟩
  simp only [if_true]
  rw [if_neg (not_not.2 hsh')]
  rw [bind_ok (setImg_run _ _ _)]
  simp only [pure_run]
  congr 2
  funext k
  by_cases hk : k = m.next
  · simp only [hk, if_true]; exact masked_eq c _ _
  · simp [hk]

/-! ### Cutouts -/

/-- The object of a cutout. -/
def Cut.obj : Cut → Nat
  | .view o _ _ _ => o
  | .own o => o

/-- The pixels seen through a cutout in the memory `m`. -/
def Cut.val (m : Mem K) : Cut → Img (F K)
  | .view o y0 x0 n => ⟨n, n, fun i j => (m.imgs o).px (y0 + i) (x0 + j)⟩
  | .own o => m.imgs o

theorem Cut.val_own (m : Mem K) (o : Nat) : (Cut.own o).val m = m.imgs o := rfl

theorem Cut.read_run (c : Cut) (m : Mem K) : c.read m = (.ok (c.val m), m) := by
  cases c <;> rfl

theorem Cut.val_congr {m m' : Mem K} {c : Cut} (h : m'.imgs c.obj = m.imgs c.obj) : c.val m' = c.val m := by
  cases c with
  | view o y x n => simp only [Cut.val, Cut.obj] at *; rw [h]
  | own o => simpa [Cut.val, Cut.obj] using h

theorem cutout2D_run (m : Mem K) (im x y n : Nat) (hn : n % 2 = 0) :
    ∃ c m', cutout2D im x y n m = (.ok c, m') ∧ m'.lists = m.lists ∧ m.next ≤ m'.next ∧ (∀ k < m.next, m'.imgs k = m.imgs k) ∧
      (c.obj = im ∨ (c.obj = m.next ∧ m.next < m'.next)) ∧ (c.val m').Same (window (m.imgs im) x y n) := by
  unfold cutout2D
  rw [bind_ok (getImg_run _ _)]
  by_cases h : n / 2 ≤ y ∧ y + n / 2 ≤ (m.imgs im).h ∧ n / 2 ≤ x ∧ x + n / 2 ≤ (m.imgs im).w
  · rw [if_pos h]
    refine ⟨_, m, rfl, rfl, le_refl _, fun _ _ => rfl, Or.inl rfl, rfl, rfl, fun i j hi hj => ?_⟩
    have hi' : i < n := hi
    have hj' : j < n := hj
    have hc : n / 2 ≤ y + i ∧ y + i - n / 2 < (m.imgs im).h ∧ n / 2 ≤ x + j ∧ x + j - n / 2 < (m.imgs im).w := by omega
    show (m.imgs im).px (y - n / 2 + i) (x - n / 2 + j) = _
    simp only [window]
    rw [if_pos hc]
    congr 1 <;> omega
  · rw [if_neg h]
    refine ⟨.own m.next, _, rfl, rfl, Nat.le_succ _, fun k hk => ?_, Or.inr ⟨rfl, Nat.lt_succ_self _⟩, ?_⟩
    · simp [Nat.ne_of_lt hk]
    · have : (Cut.own m.next).val
          { m with imgs := fun k => if k = m.next then window (m.imgs im) x y n else m.imgs k, next := m.next + 1 } =
          window (m.imgs im) x y n := by simp [Cut.val]
      show Img.Same ((Cut.own m.next).val _) _
      erw [this]
      exact Img.Same.refl _

theorem Cut.update_run (c : Cut) (f : Nat → Nat → F K → F K) (m : Mem K) :
    ∃ m', c.update f m = (.ok (), m') ∧ m'.lists = m.lists ∧ m'.next = m.next ∧ (∀ k, k ≠ c.obj → m'.imgs k = m.imgs k) ∧
      (c.val m').Same ⟨(c.val m).h, (c.val m).w, fun i j => f i j ((c.val m).px i j)⟩ := by
  cases c with
  | view o y0 x0 n =>
    refine ⟨_, rfl, rfl, rfl, fun k hk => ?_, ?_⟩
    · have : k ≠ o := hk
      simp [this]
    · refine ⟨rfl, rfl, fun i j hi hj => ?_⟩
      have hi' : i < n := hi
      have hj' : j < n := hj
      simp [Cut.val, hi', hj']
  | own o =>
    refine ⟨_, rfl, rfl, rfl, fun k hk => ?_, ?_⟩
    · have : k ≠ o := hk
      simp [this]
    · exact ⟨by simp [Cut.val], by simp [Cut.val], fun i j hi hj => by simp [Cut.val]⟩

/-! ### Images with the same pixels -/

theorem countFinite_congr {a b : Img (F K)} (h : a.Same b) : countFinite a = countFinite b := by
  unfold countFinite
  rw [← h.1, ← h.2.1]
  congr 1
  apply List.filter_congr
  rintro ⟨i, j⟩ hp
  rw [mem_pixels] at hp
  rw [h.2.2 i j hp.1 hp.2]

theorem Same.map' {α β : Type} {a b : Img α} (h : a.Same b) (f : α → β) : (a.map f).Same (b.map f) :=
  ⟨h.1, h.2.1, fun i j hi hj => by simp only [Img.map]; rw [h.2.2 i j hi hj]⟩

theorem masked_same {a b : Img (F K)} {segm : Img Int} {L : List Int} {mb : Bool} {fill : F K} (hh : a.h = b.h) (hw : a.w = b.w)
    (h : ∀ i j, i < a.h → j < a.w → Selected segm L mb i j → a.px i j = b.px i j) :
    (masked a segm L mb fill).Same (masked b segm L mb fill) := by
  refine ⟨hh, hw, fun i j hi hj => ?_⟩
  simp only [masked]
  by_cases hs : Selected segm L mb i j
  · rw [if_pos hs, if_pos hs, h i j hi hj hs]
  · rw [if_neg hs, if_neg hs]

theorem window_same {a b : Img (F K)} (h : a.Same b) (x y n : Nat) : (window a x y n).Same (window b x y n) := by
  refine ⟨rfl, rfl, fun i j hi hj => ?_⟩
  simp only [window]
  rw [← h.1, ← h.2.1]
  by_cases hs : n / 2 ≤ y + i ∧ y + i - n / 2 < a.h ∧ n / 2 ≤ x + j ∧ x + j - n / 2 < a.w
  · rw [if_pos hs, if_pos hs, h.2.2 _ _ hs.2.1 hs.2.2.2]
  · rw [if_neg hs, if_neg hs]

/-- Two results are equal up to the representation of the image. -/
def SameRes (a b : Except PyErr (Img (F K))) : Prop :=
  match a, b with
  | .ok x, .ok y => x.Same y
  | .error e, .error e' => e = e'
  | _, _ => False

theorem backgroundSubtracted_same {lib : BgLib K} (hl : LibExt lib) {im im' bg bg' : Img (F K)} (h : im.Same im')
    (hb : bg.Same bg') (n : Nat) (sigma : F K) (st : SigmaType) :
    SameRes (backgroundSubtracted lib im bg n sigma st) (backgroundSubtracted lib im' bg' n sigma st) := by
  unfold backgroundSubtracted
  rw [countFinite_congr hb]
  by_cases hc : countFinite bg' ≤ 10
  · rw [if_pos hc, if_pos hc]; exact h
  · rw [if_neg hc, if_neg hc]
    cases st with
    | other => rfl
    | clip =>
      simp only
      rw [hl.fitImage _ _ n (hl.sigmaClip _ _ sigma hb)]
      cases lib.fitImage (lib.sigmaClip bg' sigma) n with
      | error e => rfl
      | ok p => exact ⟨h.1, h.2.1, fun i j hi hj => by show _ - _ = _ - _; rw [h.2.2 i j hi hj]⟩
    | bound =>
      simp only
      rw [hl.stats _ _ hb, hl.fitImage _ _ n (Same.map' hb _)]
      cases lib.fitImage (bg'.map _) n with
      | error e => rfl
      | ok p => exact ⟨h.1, h.2.1, fun i j hi hj => by simp only; rw [h.2.2 i j hi hj]⟩

end

section
variable {K : Type} [Field K] [LinearOrder K] [HasSqrt K] [FloorRing K]

/-- The photometry sees only the pixels of its images. -/
theorem radialPhotometry_same {ov : Overlap K} {a b : Img (F K)} {e e' : Option (Img (F K))} {mk mk' : Img Bool}
    (h : a.Same b) (hm : mk.Same mk') (hms : mk.h = a.h ∧ mk.w = a.w)
    (he : match e, e' with | none, none => True | some x, some y => x.Same y | _, _ => False)
    (cx cy : K) (rs : List K) (q t : K) :
    radialPhotometry ov a cx cy rs e (some mk) q t = radialPhotometry ov b cx cy rs e' (some mk') q t := by
  have key : photometryAt ov a cx cy e ((some mk).map fun m => m.map fun b => !b) q t =
      photometryAt ov b cx cy e' ((some mk').map fun m => m.map fun b => !b) q t := by
    funext r
    unfold photometryAt
    cases hap : radialEllipticalAperture cx cy r q t with
    | error x => rfl
    | ok ap =>
      have hg : goodPixels ov ap a.h a.w (some (mk.map fun b => !b)) = goodPixels ov ap b.h b.w (some (mk'.map fun b => !b)) := by
        unfold goodPixels
        rw [← h.1, ← h.2.1]
        apply List.filter_congr
        rintro ⟨i, j⟩ hp
        rw [mem_pixels] at hp
        simp only [Img.map]
        rw [hm.2.2 i j (hms.1 ▸ hp.1) (hms.2 ▸ hp.2)]
      have hgm : ∀ p ∈ goodPixels ov ap b.h b.w (some (mk'.map fun b => !b)), p.1 < a.h ∧ p.2 < a.w := by
        rintro ⟨i, j⟩ hp
        unfold goodPixels at hp
        rw [List.mem_filter, mem_pixels, ← h.1, ← h.2.1] at hp
        exact hp.1
      have sh2 : shapeOk a (some (mk.map fun b => !b)) = shapeOk b (some (mk'.map fun b => !b)) := by
        simp only [shapeOk, Img.map]; rw [← h.1, ← h.2.1, ← hm.1, ← hm.2.1]
      have sh1 : shapeOk a e = shapeOk b e' := by
        cases e with
        | none => cases e' with
          | none => rfl
          | some y => exact he.elim
        | some x => cases e' with
          | none => exact he.elim
          | some y =>
            have he : x.Same y := he
            simp only [shapeOk]; rw [← h.1, ← h.2.1, ← he.1, ← he.2.1]
      have d1 : doPhotometry ov ap a e (some (mk.map fun b => !b)) = doPhotometry ov ap b e' (some (mk'.map fun b => !b)) := by
        unfold doPhotometry
        rw [sh1, sh2, hg, ← h.1, ← h.2.1]
        rw [← h.1, ← h.2.1] at hgm
        by_cases hs1 : shapeOk b e' = true
        swap
        · simp [hs1]
        by_cases hs2 : shapeOk b (some (mk'.map fun b => !b)) = true
        swap
        · simp [hs1, hs2]
        have e1 : (goodPixels ov ap a.h a.w (some (mk'.map fun b => !b))).map (fun p => a.px p.1 p.2 * fin (ov.weight ap p.1 p.2)) =
            (goodPixels ov ap a.h a.w (some (mk'.map fun b => !b))).map (fun p => b.px p.1 p.2 * fin (ov.weight ap p.1 p.2)) :=
          List.map_congr_left fun p hp => by rw [h.2.2 _ _ (hgm p hp).1 (hgm p hp).2]
        cases e with
        | none => cases e' with
          | none => simp only [e1]
          | some y => exact he.elim
        | some x => cases e' with
          | none => exact he.elim
          | some y =>
            have he : x.Same y := he
            have hy : y.h = b.h ∧ y.w = b.w := by simpa [shapeOk] using hs1
            have e2 : (goodPixels ov ap a.h a.w (some (mk'.map fun b => !b))).map
                  (fun p => F.sq (x.px p.1 p.2) * fin (ov.weight ap p.1 p.2)) =
                (goodPixels ov ap a.h a.w (some (mk'.map fun b => !b))).map
                  (fun p => F.sq (y.px p.1 p.2) * fin (ov.weight ap p.1 p.2)) :=
              List.map_congr_left fun p hp => by
                rw [he.2.2 _ _ (by rw [he.1, hy.1, ← h.1]; exact (hgm p hp).1) (by rw [he.2.1, hy.2, ← h.2.1]; exact (hgm p hp).2)]
            simp only [e1, e2]
      have d2 : doPhotometry ov ap (a.map fun _ => (fin 1 : F K)) none (some (mk.map fun b => !b)) =
          doPhotometry ov ap (b.map fun _ => (fin 1 : F K)) none (some (mk'.map fun b => !b)) := by
        have s1 : shapeOk (a.map fun _ => (fin 1 : F K)) (some (mk.map fun b => !b)) =
            shapeOk (b.map fun _ => (fin 1 : F K)) (some (mk'.map fun b => !b)) := sh2
        have s0 : shapeOk (a.map fun _ => (fin 1 : F K)) (none : Option (Img (F K))) =
            shapeOk (b.map fun _ => (fin 1 : F K)) (none : Option (Img (F K))) := rfl
        have s3 : ov.hits ap (a.map fun _ => (fin 1 : F K)).h (a.map fun _ => (fin 1 : F K)).w =
            ov.hits ap (b.map fun _ => (fin 1 : F K)).h (b.map fun _ => (fin 1 : F K)).w := by
          simp only [Img.map]; rw [h.1, h.2.1]
        have s4 : goodPixels ov ap (a.map fun _ => (fin 1 : F K)).h (a.map fun _ => (fin 1 : F K)).w (some (mk.map fun b => !b)) =
            goodPixels ov ap (b.map fun _ => (fin 1 : F K)).h (b.map fun _ => (fin 1 : F K)).w (some (mk'.map fun b => !b)) := hg
        unfold doPhotometry
        rw [s0, s1, s3, s4]
        rfl
      simp only [bind, Except.bind, Option.map]
      rw [d1, d2]
  unfold radialPhotometry
  simp only
  rw [key]

variable {ov : Overlap K} {lib : BgLib K}

/-- The effect of background subtraction: the new cutout shows the subtracted image, and objects below `b` are untouched. -/
theorem subtractBackground_run (hl : LibExt lib) (m : Mem K) (c s : Cut) (n : Nat) (sigma : F K) (st : SigmaType) (b : Nat)
    (hb : b ≤ m.next) (hc : b ≤ c.obj) (hs : b ≤ s.obj) (hcn : c.obj < m.next) (hne : c.obj ≠ s.obj)
    (im bg : Img (F K)) (him : (c.val m).Same im) (hbg : (s.val m).Same bg) :
    ∃ m', Frame b m m' ∧
      match backgroundSubtracted lib im bg n sigma st with
      | .error e => subtractBackground lib c s n sigma st m = (.error e, m')
      | .ok r => ∃ c', subtractBackground lib c s n sigma st m = (.ok c', m') ∧ (c'.val m').Same r := by
  unfold subtractBackground backgroundSubtracted
  rw [bind_ok (s.read_run m), countFinite_congr hbg]
  by_cases hcount : countFinite bg ≤ 10
  · rw [if_pos hcount, if_pos hcount]
    exact ⟨m, ⟨rfl, fun _ _ => rfl⟩, c, rfl, him⟩
  rw [if_neg hcount, if_neg hcount]
  cases st with
  | other =>
    refine ⟨m, ⟨rfl, fun _ _ => rfl⟩, ?_⟩
    simp only
    rw [bind_err (x := backgroundToFit _ _ _ _) (e := .typeError) (m' := m)
      (by unfold backgroundToFit; rw [bind_ok (s.read_run m)]; rfl)]
  | clip =>
    simp only
    rw [bind_ok (x := backgroundToFit _ _ _ _) (a := lib.sigmaClip (s.val m) sigma) (m' := m)
      (by unfold backgroundToFit; rw [bind_ok (s.read_run m)]; rfl)]
    have hf : lib.fitImage (lib.sigmaClip (s.val m) sigma) n = lib.fitImage (lib.sigmaClip bg sigma) n :=
      hl.fitImage _ _ n (hl.sigmaClip _ _ sigma hbg)
    cases hp : lib.fitImage (lib.sigmaClip bg sigma) n with
    | error e =>
      refine ⟨m, ⟨rfl, fun _ _ => rfl⟩, ?_⟩
      simp only
      rw [bind_err (e := e) (m' := m)]
      rw [lift_run, hf, hp]
    | ok p =>
      rw [bind_ok (a := p) (m' := m) (by rw [lift_run, hf, hp])]
      obtain ⟨m1, e1, l1, n1, f1, v1⟩ := c.update_run (fun i j v => v - p.px i j) m
      rw [bind_ok e1, if_neg (by decide)]
      refine ⟨m1, ⟨l1, fun k hk => f1 k (by omega)⟩, c, rfl, v1.trans ⟨him.1, him.2.1, fun i j hi hj => ?_⟩⟩
      simp only
      rw [him.2.2 i j hi hj]
  | bound =>
    simp only
    obtain ⟨m1, e1, l1, n1, f1, v1⟩ := s.update_run
      (fun _ _ v => if F.lt ((lib.stats (s.val m)).1 + (lib.stats (s.val m)).2 * sigma) v then nan else v) m
    obtain ⟨m2, e2, l2, n2, f2, v2⟩ := s.update_run
      (fun _ _ v => if F.lt v ((lib.stats (s.val m)).1 - (lib.stats (s.val m)).2 * sigma) then nan else v) m1
    have hx : (s.val m2).Same (bg.map fun v => if F.lt ((lib.stats bg).1 + (lib.stats bg).2 * sigma) v ||
        F.lt v ((lib.stats bg).1 - (lib.stats bg).2 * sigma) then nan else v) := by
      refine ⟨v2.1.trans (v1.1.trans hbg.1), v2.2.1.trans (v1.2.1.trans hbg.2.1), fun i j hi hj => ?_⟩
      have hi1 : i < (s.val m1).h := v2.1 ▸ hi
      have hj1 : j < (s.val m1).w := v2.2.1 ▸ hj
      have hi0 : i < (s.val m).h := v1.1 ▸ hi1
      have hj0 : j < (s.val m).w := v1.2.1 ▸ hj1
      rw [v2.2.2 i j hi hj]
      simp only
      rw [v1.2.2 i j hi1 hj1]
      simp only [Img.map]
      rw [hl.stats _ _ hbg, hbg.2.2 i j hi0 hj0]
      cases h1 : F.lt ((lib.stats bg).1 + (lib.stats bg).2 * sigma) (bg.px i j) with
      | true => simp [F.lt]
      | false => simp
    have hfit := hl.fitImage _ _ n hx
    have hm2 : ∀ k, k ≠ s.obj → m2.imgs k = m.imgs k := fun k hk => (f2 k hk).trans (f1 k hk)
    have step : backgroundToFit lib s sigma .bound m = (.ok (s.val m2), m2) := by
      unfold backgroundToFit
      rw [bind_ok (s.read_run m)]
      simp only
      rw [bind_ok e1, bind_ok e2, s.read_run]
    rw [bind_ok step]
    cases hp : lib.fitImage (bg.map fun v => if F.lt ((lib.stats bg).1 + (lib.stats bg).2 * sigma) v ||
        F.lt v ((lib.stats bg).1 - (lib.stats bg).2 * sigma) then nan else v) n with
    | error e =>
      refine ⟨m2, ⟨l2.trans l1, fun k hk => hm2 k (by omega)⟩, ?_⟩
      simp only
      rw [bind_err (e := e) (m' := m2)]
      rw [lift_run, hfit, hp]
    | ok p =>
      rw [bind_ok (a := p) (m' := m2) (by rw [lift_run, hfit, hp])]
      obtain ⟨m3, e3, l3, n3, f3, v3⟩ := c.update_run (fun i j v => v - p.px i j) m2
      have hcv : c.val m2 = c.val m := Cut.val_congr (hm2 _ hne)
      rw [bind_ok e3, if_pos trivial, bind_ok (c.read_run m3)]
      rw [bind_ok (newImg_run _ _)]
      refine ⟨{ m3 with
        imgs := fun k => if k = m3.next then (c.val m3).map (fun v => if F.lt v (-sigma) then -sigma else v) else m3.imgs k
        next := m3.next + 1 }, ⟨l3.trans (l2.trans l1), fun k hk => ?_⟩, .own m3.next, rfl, ?_⟩
      · have : k ≠ m3.next := by omega
        simp only [this, if_false]
        rw [f3 k (by omega), hm2 k (by omega)]
      · rw [Cut.val_own]
        simp only [if_true]
        rw [hcv] at v3
        refine ⟨v3.1.trans him.1, v3.2.1.trans him.2.1, fun i j hi hj => ?_⟩
        simp only [Img.map]
        rw [v3.2.2 i j hi hj]
        simp only
        rw [him.2.2 i j (v3.1 ▸ hi) (v3.2.1 ▸ hj)]

theorem cutoutSize_even {req : Option Nat} {rs : List K} {n : Nat} (h : cutoutSize req rs = .ok n) : n % 2 = 0 := by
  unfold cutoutSize at h
  have key : ∀ k : Nat, (if k % 2 = 1 then k + 1 else k) = n → n % 2 = 0 := by
    intro k hk; split_ifs at hk <;> omega
  cases req with
  | some k => exact key k (by simpa [bind, Except.bind] using h)
  | none =>
    cases hm : rs.max? with
    | none => simp [hm, bind, Except.bind] at h
    | some v => exact key ⌈v * 3⌉.toNat (by simpa [hm, bind, Except.bind] using h)

/-- `source_photometry` is elliptical photometry of the measured image around its middle, with the pixels that are NaN masked out; it
touches no existing object. -/
theorem sourcePhotometry_run (hl : LibExt lib) (m : Mem K) (s : SourceRow K) (image : Nat) (segm : Img Int) (rs : List K)
    (error : Option Nat) (req : Option Nat) (bgSub : Bool) (sigma : F K) (st : SigmaType) (mb : Bool)
    (himg : image < m.next) (herr : ∀ e, error = some e → e < m.next)
    (hsh : segm.h = (m.imgs image).h ∧ segm.w = (m.imgs image).w) :
    ∃ m', Frame m.next m m' ∧ sourcePhotometry ov lib s image segm rs error req bgSub sigma st mb m = (
      (match cutoutSize req rs with
      | .error e => .error e
      | .ok n => match measured lib (m.imgs image) segm s n bgSub sigma st mb with
        | .error e => .error e
        | .ok d => radialPhotometry ov d ((n : K) / 2) ((n : K) / 2) rs (error.map fun e => window (m.imgs e) s.x s.y n)
            (some (d.map fun v => !v.isNaN)) s.elong s.theta), m') := by
  unfold sourcePhotometry
  cases hn : cutoutSize req rs with
  | error e =>
    exact ⟨m, ⟨rfl, fun _ _ => rfl⟩, by rw [bind_err (e := e) (m' := m) (by rw [lift_run])]⟩
  | ok n =>
    have hev := cutoutSize_even hn
    rw [bind_ok (a := n) (m' := m) (by rw [lift_run])]
    simp only
    -- the error cutout
    obtain ⟨ce, m1, e1, l1, n1, f1, v1⟩ : ∃ (ce : Option Cut) (m1 : Mem K),
        errorCutout error s.x s.y n m = (.ok ce, m1) ∧ m1.lists = m.lists ∧ m.next ≤ m1.next ∧
          (∀ k < m.next, m1.imgs k = m.imgs k) ∧
          (match ce, error with
            | none, none => True
            | some c, some e => (c.val m1).Same (window (m.imgs e) s.x s.y n) ∧ c.obj < m1.next
            | _, _ => False) := by
      cases error with
      | none => exact ⟨none, m, rfl, rfl, le_refl _, fun _ _ => rfl, trivial⟩
      | some e =>
        obtain ⟨c, m', a, b, d, f, g, v⟩ := cutout2D_run m e s.x s.y n hev
        refine ⟨some c, m', by simp only [errorCutout]; rw [bind_ok a]; rfl, b, d, f, v, ?_⟩
        have := herr e rfl
        rcases g with g | g <;> omega
    rw [bind_ok e1]
    -- the masked image
    have hsh1 : segm.h = (m1.imgs image).h ∧ segm.w = (m1.imgs image).w := by rw [f1 _ himg]; exact hsh
    have e2 := maskedSegmImage_run m1 (.label s.label) image segm (some nan) mb trivial (Or.inl (by simp [labelsOf])) hsh1
    rw [bind_ok e2]
    set m2 : Mem K := { lists := listsAfter m1 (.label s.label) mb
                        imgs := fun k => if k = m1.next then masked (m1.imgs image) segm (labelsOf m1 (.label s.label)) mb
                          ((some nan : Option (F K)).getD nan) else m1.imgs k
                        next := m1.next + 1 } with hm2
    have i2 : m2.imgs m1.next = masked (m.imgs image) segm [s.label] mb nan := by
      simp only [hm2, if_true, labelsOf, Option.getD_some]; rw [f1 _ himg]
    have f2 : ∀ k < m1.next, m2.imgs k = m1.imgs k := fun k hk => by simp [hm2, Nat.ne_of_lt hk]
    have l2 : m2.lists = m1.lists := rfl
    have n2 : m2.next = m1.next + 1 := rfl
    obtain ⟨c, m3, e3, l3, n3, f3, o3, v3⟩ := cutout2D_run m2 m1.next s.x s.y n hev
    rw [bind_ok e3]
    -- the background image
    have hi3 : m3.imgs image = m.imgs image := by
      rw [f3 _ (by omega), f2 _ (by omega), f1 _ himg]
    have hsh3 : segm.h = (m3.imgs image).h ∧ segm.w = (m3.imgs image).w := by rw [hi3]; exact hsh
    have e4 := maskedSegmImage_run m3 (.label 0) image segm (some nan) false trivial (Or.inl (by simp [labelsOf])) hsh3
    rw [bind_ok e4]
    set m4 : Mem K := { lists := listsAfter m3 (.label 0) false
                        imgs := fun k => if k = m3.next then masked (m3.imgs image) segm (labelsOf m3 (.label 0)) false
                          ((some nan : Option (F K)).getD nan) else m3.imgs k
                        next := m3.next + 1 } with hm4
    have i4 : m4.imgs m3.next = masked (m.imgs image) segm [0] true nan := by
      simp only [hm4, if_true, labelsOf, Option.getD_some]; rw [hi3]
      unfold masked Selected
      congr 1
      funext i j
      by_cases h0 : segm.px i j = 0 <;> simp [h0]
    have f4 : ∀ k < m3.next, m4.imgs k = m3.imgs k := fun k hk => by simp [hm4, Nat.ne_of_lt hk]
    have l4 : m4.lists = m3.lists := rfl
    have n4 : m4.next = m3.next + 1 := rfl
    obtain ⟨sc, m5, e5, l5, n5, f5, o5, v5⟩ := cutout2D_run m4 m3.next s.x s.y n hev
    rw [bind_ok e5]
    rw [i2] at v3
    rw [i4] at v5
    have co : m1.next ≤ c.obj ∧ c.obj < m3.next := by rcases o3 with o | o <;> omega
    have so : m3.next ≤ sc.obj ∧ sc.obj < m5.next := by rcases o5 with o | o <;> omega
    have v3' : (c.val m5).Same (window (masked (m.imgs image) segm [s.label] mb nan) s.x s.y n) := by
      rw [Cut.val_congr (m := m3)]
      · exact v3
      · rw [f5 _ (by omega), f4 _ (by omega)]
    have ferr : ∀ k < m1.next, m5.imgs k = m1.imgs k := fun k hk => by
      rw [f5 _ (by omega), f4 _ (by omega), f3 _ (by omega), f2 _ hk]
    have fr : ∀ k < m.next, m5.imgs k = m.imgs k := fun k hk => by rw [ferr k (by omega), f1 k hk]
    have lr : m5.lists = m.lists := l5.trans (l4.trans (l3.trans (l2.trans l1)))
    -- background subtraction
    have hb : ∃ m6, m6.lists = m.lists ∧ (∀ k < m1.next, m6.imgs k = m1.imgs k) ∧
        (match measured lib (m.imgs image) segm s n bgSub sigma st mb with
        | .error e => maybeSubtract bgSub lib c sc n sigma st m5 = (.error e, m6)
        | .ok r => ∃ c', maybeSubtract bgSub lib c sc n sigma st m5 = (.ok c', m6) ∧
            (c'.val m6).Same r) := by
      unfold measured
      cases bgSub with
      | false => exact ⟨m5, lr, ferr, c, rfl, v3'⟩
      | true =>
        obtain ⟨m6, fr6, h6⟩ := subtractBackground_run hl m5 c sc n sigma st m1.next (by omega) co.1 (by omega) (by omega)
          (by omega) _ _ v3' v5
        refine ⟨m6, fr6.1.trans lr, fun k hk => (fr6.2 k hk).trans (ferr k hk), ?_⟩
        simpa [maybeSubtract] using h6
    obtain ⟨m6, l6, f6, h6⟩ := hb
    have frame : Frame m.next m m6 := ⟨l6, fun k hk => by rw [f6 k (by omega), f1 k hk]⟩
    cases hmeas : measured lib (m.imgs image) segm s n bgSub sigma st mb with
    | error e =>
      rw [hmeas] at h6
      exact ⟨m6, frame, by rw [bind_err h6]⟩
    | ok d =>
      rw [hmeas] at h6
      obtain ⟨c', e6, v6⟩ := h6
      rw [bind_ok e6, bind_ok (c'.read_run m6)]
      have hd : (d.h = n ∧ d.w = n) := by
        have aux : ∀ im bg r, backgroundSubtracted lib im bg n sigma st = .ok r → r.h = im.h ∧ r.w = im.w := by
          intro im bg r h
          unfold backgroundSubtracted at h
          by_cases hc : countFinite bg ≤ 10
          · rw [if_pos hc] at h; cases h; exact ⟨rfl, rfl⟩
          · rw [if_neg hc] at h
            cases st with
            | other => cases h
            | clip =>
              simp only at h
              cases hq : lib.fitImage (lib.sigmaClip bg sigma) n with
              | error e => rw [hq] at h; cases h
              | ok p => rw [hq] at h; cases h; exact ⟨rfl, rfl⟩
            | bound =>
              simp only at h
              cases hq : lib.fitImage (bg.map fun v => if F.lt ((lib.stats bg).1 + (lib.stats bg).2 * sigma) v ||
                F.lt v ((lib.stats bg).1 - (lib.stats bg).2 * sigma) then nan else v) n with
              | error e => rw [hq] at h; cases h
              | ok p => rw [hq] at h; cases h; exact ⟨rfl, rfl⟩
        unfold measured at hmeas
        cases bgSub with
        | false => simp at hmeas; rw [← hmeas]; exact ⟨rfl, rfl⟩
        | true => simp only [if_true] at hmeas; exact aux _ _ _ hmeas
      have hv6 : (c'.val m6).h = n ∧ (c'.val m6).w = n := ⟨v6.1.trans hd.1, v6.2.1.trans hd.2⟩
      refine ⟨m6, frame, ?_⟩
      cases ce with
      | none =>
        cases error with
        | some e => exact v1.elim
        | none =>
          simp only
          rw [bind_ok (x := readError none) (a := none) (m' := m6) rfl, lift_run, hv6.1, hv6.2]
          simp only [Option.map_none]
          congr 1
          exact radialPhotometry_same v6 (Same.map' v6 _) ⟨rfl, rfl⟩ trivial _ _ _ _ _
      | some cc =>
        cases error with
        | none => exact v1.elim
        | some e =>
          simp only
          have hcc : cc.val m6 = cc.val m1 := Cut.val_congr (f6 _ v1.2)
          rw [bind_ok (x := readError (some cc)) (a := some (cc.val m6)) (m' := m6)
            (by simp only [readError]; rw [bind_ok (cc.read_run m6)]; rfl), lift_run, hv6.1, hv6.2]
          simp only [Option.map_some]
          congr 1
          refine radialPhotometry_same v6 (Same.map' v6 _) ⟨rfl, rfl⟩ ?_ _ _ _ _ _
          simp only
          rw [hcc]; exact v1.1

end
end Verif

import Verif.Props.SourcePhotometry
import Verif.Props.Fitting

/-!
# C131: background subtraction in source photometry, and C132: the meaning of `sigma` with `sigma_type="bound"`
-/

set_option linter.unusedSectionVars false

namespace Verif.Spec

variable {K : Type} [Field K] [LinearOrder K]

/-- An image without the plane `Q` (`x` is the column, `y` the row). -/
def planeRemoved (im : Img (F K)) (Q : Plane K) : Img (F K) := ⟨im.h, im.w, fun i j => im.px i j - F.fin (Q.at_ j i)⟩

/-- An image on top of the plane `Q`. -/
def planeAdded (im : Img (F K)) (Q : Plane K) : Img (F K) := ⟨im.h, im.w, fun i j => im.px i j + F.fin (Q.at_ j i)⟩

/-- Background subtraction with `sigma_type='bound'` as documented (petrofit/segmentation.py:541-543): `sigma` is a value; the plane is
fitted to the background pixels within `sigma` of the mean and subtracted. -/
def boundDocumented (lib : BgLib K) (im bg : Img (F K)) (n : Nat) (sigma : F K) : Except PyErr (Img (F K)) :=
  let lo := (lib.stats bg).1 - sigma
  let hi := (lib.stats bg).1 + sigma
  match lib.fitImage (bg.map fun v => if F.lt hi v || F.lt v lo then F.nan else v) n with
  | .error e => .error e
  | .ok p => .ok ⟨im.h, im.w, fun i j => im.px i j - p.px i j⟩

/-- The photometry that goes with it, with a cutout of side `n`. -/
def documentedPhotometry [HasSqrt K] [FloorRing K] (ov : Overlap K) (lib : BgLib K) (im : Img (F K)) (segm : Img Int) (s : SourceRow K)
    (rs : List K) (error : Option (Img (F K))) (n : Nat) (sigma : F K) (mb : Bool) : Except PyErr (List (F K) × List (F K) × List (F K)) :=
  match boundDocumented lib (window (masked im segm [s.label] mb F.nan) s.x s.y n) (window (masked im segm [0] true F.nan) s.x s.y n) n sigma with
  | .error e => .error e
  | .ok d => radialPhotometry ov d ((n : K) / 2) ((n : K) / 2) rs (error.map fun e => window e s.x s.y n)
      (some (d.map fun v => !v.isNaN)) s.elong s.theta

end Verif.Spec

namespace Verif.Props

open F Spec

section
variable {K : Type} [Field K] [LinearOrder K]

theorem fitData_same {a b : Img (F K)} (h : a.Same b) :
    fitData a (fun _ _ => false) none = fitData b (fun _ _ => false) none := by
  rw [fitData_none, fitData_none]
  have hw : (npWhere a.h a.w fun i j => !(a.px i j).isNaN) = npWhere b.h b.w fun i j => !(b.px i j).isNaN := by
    unfold npWhere
    rw [h.1, h.2.1]
    apply List.flatMap_congr
    intro i hi
    congr 1
    apply List.filter_congr
    intro j hj
    simp only
    rw [h.2.2 i j (by rw [h.1]; exact List.mem_range.1 hi) (by rw [h.2.1]; exact List.mem_range.1 hj)]
  simp only [hw, Except.ok.injEq, FitData.mk.injEq, true_and, and_true]
  apply List.map_congr_left
  intro p hp
  rw [npWhere_mem] at hp
  exact h.2.2 _ _ (by rw [h.1]; exact hp.1) (by rw [h.2.1]; exact hp.2.1)

theorem window_in {im : Img (F K)} {x y n i j : Nat}
    (h : n / 2 ≤ y + i ∧ y + i - n / 2 < im.h ∧ n / 2 ≤ x + j ∧ x + j - n / 2 < im.w) :
    (window im x y n).px i j = im.px (y + i - n / 2) (x + j - n / 2) := if_pos h

theorem window_out {im : Img (F K)} {x y n i j : Nat}
    (h : ¬ (n / 2 ≤ y + i ∧ y + i - n / 2 < im.h ∧ n / 2 ≤ x + j ∧ x + j - n / 2 < im.w)) : (window im x y n).px i j = nan := if_neg h

/-- The plane-fitting library sees only the pixels of an image, if clipping and statistics do. -/
theorem planeLib_ext [FloorRing K] {clip : Img (F K) → F K → Nat → Nat → Bool} {stats : Img (F K) → F K × F K}
    (hc : ∀ a b s, a.Same b → ∀ i j, i < a.h → j < a.w → clip a s i j = clip b s i j) (hst : ∀ a b, a.Same b → stats a = stats b)
    (fitter : Plane K → FitData K → Except PyErr (Plane K)) (integ : GridModel K → K × K → K × K → Except PyErr (Img K)) :
    LibExt (planeLib clip stats fitter integ) where
  sigmaClip a b s h := ⟨h.1, h.2.1, fun i j hi hj => by
    simp only [planeLib] at hi hj ⊢
    rw [hc a b s h i j hi hj, h.2.2 i j hi hj]⟩
  stats := hst
  fitImage a b n h := by
    simp only [planeLib, fitBackground, fitModel]
    rw [fitData_same h]

end

/-- **C131, few pixels.** With at most 10 background pixels in the cutout `bg_sub=True` does nothing. -/
theorem C131_few {K : Type} [Field K] [LinearOrder K] [HasSqrt K] [FloorRing K] {ov : Overlap K} {lib : BgLib K} (hl : LibExt lib)
    (m : Mem K) (s : SourceRow K) (image : Nat) (segm : Img Int) (rs : List K) (error req : Option Nat) (sigma : F K) (st : SigmaType)
    (mb : Bool) (himg : image < m.next) (herr : ∀ e, error = some e → e < m.next)
    (hsh : segm.h = (m.imgs image).h ∧ segm.w = (m.imgs image).w)
    (hfew : ∀ n, cutoutSize req rs = .ok n → countFinite (window (masked (m.imgs image) segm [0] true nan) s.x s.y n) ≤ 10) :
    (sourcePhotometry ov lib s image segm rs error req true sigma st mb m).1 =
      (sourcePhotometry ov lib s image segm rs error req false sigma st mb m).1 := by
  obtain ⟨m1, -, e1⟩ := sourcePhotometry_run (ov := ov) hl m s image segm rs error req true sigma st mb himg herr hsh
  obtain ⟨m2, -, e2⟩ := sourcePhotometry_run (ov := ov) hl m s image segm rs error req false sigma st mb himg herr hsh
  rw [e1, e2]
  cases hn : cutoutSize req rs with
  | error e => rfl
  | ok n =>
    have : measured lib (m.imgs image) segm s n true sigma st mb = measured lib (m.imgs image) segm s n false sigma st mb := by
      simp only [measured, if_true, backgroundSubtracted]
      rw [if_pos (hfew n hn)]
      rfl
    simp only [this]

/-- **C131, unknown type.** With more than 10 background pixels a `sigma_type` other than 'clip' and 'bound' raises TypeError. -/
theorem C131_other {K : Type} [Field K] [LinearOrder K] [HasSqrt K] [FloorRing K] {ov : Overlap K} {lib : BgLib K} (hl : LibExt lib)
    (m : Mem K) (s : SourceRow K) (image : Nat) (segm : Img Int) (rs : List K) (error req : Option Nat) (sigma : F K)
    (mb : Bool) (himg : image < m.next) (herr : ∀ e, error = some e → e < m.next)
    (hsh : segm.h = (m.imgs image).h ∧ segm.w = (m.imgs image).w) (n : Nat) (hn : cutoutSize req rs = .ok n)
    (hmany : 10 < countFinite (window (masked (m.imgs image) segm [0] true nan) s.x s.y n)) :
    (sourcePhotometry ov lib s image segm rs error req true sigma .other mb m).1 = .error .typeError := by
  obtain ⟨m1, -, e1⟩ := sourcePhotometry_run (ov := ov) hl m s image segm rs error req true sigma .other mb himg herr hsh
  have : measured lib (m.imgs image) segm s n true sigma .other mb = .error .typeError := by
    simp only [measured, if_true, backgroundSubtracted]
    rw [if_neg (by omega)]
  rw [e1, hn]
  simp only [this]

theorem sub_fin_isNaN (v : F ℝ) (x : ℝ) : (v - F.fin x).isNaN = v.isNaN := by cases v <;> rfl

/-- **C131.** If the background pixels of the cutout that survive clipping lie on a plane, `source_photometry` with `bg_sub=True` is the
photometry of the full image without that plane, at the position of the source, with all pixels of other sources masked. -/
theorem C131_background {ov : Overlap ℝ} (hm : Method ov) {clip : Img (F ℝ) → F ℝ → Nat → Nat → Bool} {stats : Img (F ℝ) → F ℝ × F ℝ}
    (hc : ∀ a b s, a.Same b → ∀ i j, i < a.h → j < a.w → clip a s i j = clip b s i j) (hst : ∀ a b, a.Same b → stats a = stats b)
    {fitter : Plane ℝ → FitData ℝ → Except PyErr (Plane ℝ)} (law : LinearFitter fitter)
    (integ : GridModel ℝ → ℝ × ℝ → ℝ × ℝ → Except PyErr (Img ℝ)) (m : Mem ℝ) (s : SourceRow ℝ) (image : Nat)
    (segm : Img Int) (rs : List ℝ) (error req : Option Nat) (mb : Bool) (sigma : F ℝ) (himg : image < m.next)
    (herr : ∀ e, error = some e → e < m.next ∧ (m.imgs e).h = (m.imgs image).h ∧ (m.imgs e).w = (m.imgs image).w)
    (hsh : segm.h = (m.imgs image).h ∧ segm.w = (m.imgs image).w) (hy : s.y < (m.imgs image).h) (hx : s.x < (m.imgs image).w)
    (n : Nat) (hn : cutoutSize req rs = .ok n)
    (hin : ∀ r ∈ rs, 0 < r → 0 < r / s.elong → ∀ p ∈ Ellipse.set ⟨(n : ℝ) / 2, (n : ℝ) / 2, r, r / s.elong, s.theta⟩,
      -(1 / 2) < p.1 ∧ p.1 < (n : ℝ) - 1 / 2 ∧ -(1 / 2) < p.2 ∧ p.2 < (n : ℝ) - 1 / 2)
    (bg : Img (F ℝ)) (hbg : bg = window (masked (m.imgs image) segm [0] true nan) s.x s.y n) (hmany : 10 < countFinite bg)
    (hs : KeptSpread bg (clip bg sigma)) (Q : Plane ℝ)
    (hv : ∀ i j, Kept bg (clip bg sigma) i j → bg.px i j = fin (Q.at_ ((s.x : ℝ) + j - (n : ℝ) / 2) ((s.y : ℝ) + i - (n : ℝ) / 2))) :
    (sourcePhotometry ov (planeLib clip stats fitter integ) s image segm rs error req true sigma .clip mb m).1 =
      radialPhotometry ov (planeRemoved (m.imgs image) Q) s.x s.y rs (error.map m.imgs) (some (sourceMask (m.imgs image) segm s.label mb))
        s.elong s.theta := by
  obtain ⟨m', -, e⟩ := sourcePhotometry_run (ov := ov) (planeLib_ext hc hst fitter integ) m s image segm rs error req true sigma .clip mb himg
    (fun e h => (herr e h).1) hsh
  have hev := cutoutSize_even hn
  rw [e, hn]
  set im := m.imgs image with him
  -- the plane in the coordinates of the cutout
  set P : Plane ℝ := ⟨Q.a, Q.b, Q.a * ((s.x : ℝ) - (n : ℝ) / 2) + Q.b * ((s.y : ℝ) - (n : ℝ) / 2) + Q.c⟩ with hP
  have hPQ : ∀ i j : ℝ, P.at_ j i = Q.at_ ((s.x : ℝ) + j - (n : ℝ) / 2) ((s.y : ℝ) + i - (n : ℝ) / 2) := by
    intro i j
    simp only [hP, Plane.at_]
    ring
  set src := window (masked im segm [s.label] mb nan) s.x s.y n with hsrc
  obtain ⟨r, h1, h2, h3, h4, -⟩ := C63_source clip stats law integ src bg n sigma P hmany rfl rfl
    (fun i j h => by rw [hv i j h, hPQ]) hs
  have hmeas : measured (planeLib clip stats fitter integ) im segm s n true sigma .clip mb = .ok r := by
    simp only [measured, if_true, ← hbg, ← hsrc]
    exact h1
  simp only [hmeas]
  have hhalf : ((n : ℝ) / 2) = ((n / 2 : Nat) : ℝ) := by
    have : n = 2 * (n / 2) := by omega
    conv_lhs => rw [this]
    push_cast; ring
  have hsame : r.Same (window (masked (planeRemoved im Q) segm [s.label] mb nan) s.x s.y n) := by
    refine ⟨h2, h3, fun i j hi hj => ?_⟩
    rw [h4 i j (h2 ▸ hi) (h3 ▸ hj), hPQ]
    rw [hsrc]
    by_cases ho : n / 2 ≤ s.y + i ∧ s.y + i - n / 2 < im.h ∧ n / 2 ≤ s.x + j ∧ s.x + j - n / 2 < im.w
    · rw [window_in (im := masked im segm [s.label] mb nan) ho, window_in (im := masked (planeRemoved im Q) segm [s.label] mb nan) ho]
      simp only [masked, planeRemoved]
      split_ifs with hsel
      · rw [hhalf]
        push_cast [Nat.cast_sub ho.1, Nat.cast_sub ho.2.2.1]
        rfl
      · rfl
    · rw [window_out (im := masked im segm [s.label] mb nan) ho, window_out (im := masked (planeRemoved im Q) segm [s.label] mb nan) ho]
      rfl
  have hmask : sourceMask im segm s.label mb = sourceMask (planeRemoved im Q) segm s.label mb := by
    simp only [sourceMask, planeRemoved, sub_fin_isNaN]
  rw [hmask]
  have h := photometry_window hm s (planeRemoved im Q) segm rs (error.map m.imgs) mb ?_ hy hx n hev hin
  · rw [← h]
    refine radialPhotometry_same hsame (Same.map' hsame _) ⟨rfl, rfl⟩ ?_ _ _ _ _ _
    cases error with
    | none => trivial
    | some e0 => exact Img.Same.refl _
  · intro e he
    cases error with
    | none => cases he
    | some e0 =>
      cases he
      exact (herr e0 rfl).2

theorem planeRemoved_added (S : Img (F ℝ)) (Q : Plane ℝ) : planeRemoved (planeAdded S Q) Q = S := by
  obtain ⟨h, w, px⟩ := S
  simp only [planeRemoved, planeAdded, Img.mk.injEq, true_and]
  funext i j
  cases px i j with
  | fin x => rw [F.fin_add, F.fin_sub, add_sub_cancel_right]
  | nan => rfl
  | pinf => rfl
  | ninf => rfl

/-- **C131, recovery.** If the image is a sky plane plus sources that are zero on the background pixels of the segmentation map (NaN
pixels are allowed anywhere), `source_photometry` with `bg_sub=True` and 'clip' is the photometry of the image without sky, whatever the
plane and whatever is clipped, as long as three surviving background pixels of the cutout are not on a line. -/
theorem C131_recovers {ov : Overlap ℝ} (hm : Method ov) {clip : Img (F ℝ) → F ℝ → Nat → Nat → Bool} {stats : Img (F ℝ) → F ℝ × F ℝ}
    (hc : ∀ a b s, a.Same b → ∀ i j, i < a.h → j < a.w → clip a s i j = clip b s i j) (hst : ∀ a b, a.Same b → stats a = stats b)
    {fitter : Plane ℝ → FitData ℝ → Except PyErr (Plane ℝ)} (law : LinearFitter fitter)
    (integ : GridModel ℝ → ℝ × ℝ → ℝ × ℝ → Except PyErr (Img ℝ)) (m : Mem ℝ) (s : SourceRow ℝ) (image : Nat)
    (segm : Img Int) (rs : List ℝ) (error req : Option Nat) (mb : Bool) (sigma : F ℝ) (himg : image < m.next)
    (S : Img (F ℝ)) (Q : Plane ℝ) (hS : m.imgs image = planeAdded S Q)
    (hzero : ∀ i j, i < S.h → j < S.w → segm.px i j = 0 → S.px i j = fin 0 ∨ S.px i j = nan)
    (herr : ∀ e, error = some e → e < m.next ∧ (m.imgs e).h = S.h ∧ (m.imgs e).w = S.w)
    (hsh : segm.h = S.h ∧ segm.w = S.w) (hy : s.y < S.h) (hx : s.x < S.w)
    (n : Nat) (hn : cutoutSize req rs = .ok n)
    (hin : ∀ r ∈ rs, 0 < r → 0 < r / s.elong → ∀ p ∈ Ellipse.set ⟨(n : ℝ) / 2, (n : ℝ) / 2, r, r / s.elong, s.theta⟩,
      -(1 / 2) < p.1 ∧ p.1 < (n : ℝ) - 1 / 2 ∧ -(1 / 2) < p.2 ∧ p.2 < (n : ℝ) - 1 / 2)
    (bg : Img (F ℝ)) (hbg : bg = window (masked (planeAdded S Q) segm [0] true nan) s.x s.y n) (hmany : 10 < countFinite bg)
    (hs : KeptSpread bg (clip bg sigma)) :
    (sourcePhotometry ov (planeLib clip stats fitter integ) s image segm rs error req true sigma .clip mb m).1 =
      radialPhotometry ov S s.x s.y rs (error.map m.imgs) (some (sourceMask S segm s.label mb)) s.elong s.theta := by
  have hev := cutoutSize_even hn
  have hhalf : ((n : ℝ) / 2) = ((n / 2 : Nat) : ℝ) := by
    have : n = 2 * (n / 2) := by omega
    conv_lhs => rw [this]
    push_cast; ring
  have hmask : sourceMask (planeAdded S Q) segm s.label mb = sourceMask S segm s.label mb := by
    conv_rhs => rw [← planeRemoved_added S Q]
    simp only [sourceMask, planeRemoved, sub_fin_isNaN]
  have h := C131_background hm hc hst law integ m s image segm rs error req mb sigma himg (by rw [hS]; exact herr) (by rw [hS]; exact hsh)
    (by rw [hS]; exact hy) (by rw [hS]; exact hx) n hn hin bg (by rw [hS]; exact hbg) hmany hs Q ?_
  · rw [h, hS, planeRemoved_added, hmask]
  · intro i j hk
    have hk' := hk.2.2.1
    rw [hbg] at hk' ⊢
    by_cases ho : n / 2 ≤ s.y + i ∧ s.y + i - n / 2 < S.h ∧ n / 2 ≤ s.x + j ∧ s.x + j - n / 2 < S.w
    · rw [window_in (im := masked (planeAdded S Q) segm [0] true nan) ho] at hk' ⊢
      simp only [masked, Selected, planeAdded, List.mem_singleton, Bool.true_eq_false, false_and, or_false] at hk' ⊢
      split_ifs at hk' ⊢ with h0
      · rcases hzero _ _ ho.2.1 ho.2.2.2 h0 with hz | hz
        · rw [hz, F.fin_add, zero_add, hhalf]
          push_cast [Nat.cast_sub ho.1, Nat.cast_sub ho.2.2.1]
          rfl
        · rw [hz] at hk'
          exact absurd rfl hk'
      · exact absurd rfl hk'
    · rw [window_out (im := masked (planeAdded S Q) segm [0] true nan) ho] at hk'
      exact absurd rfl hk'

/-- A 10 × 10 image: a source of nine pixels around row 5, column 5 on zero sky. -/
noncomputable def sky10 : Img (F ℝ) := ⟨10, 10, fun i j => if 4 ≤ i ∧ i ≤ 6 ∧ 4 ≤ j ∧ j ≤ 6 then fin 7 else fin 0⟩
def skySegm10 : Img Int := ⟨10, 10, fun i j => if 4 ≤ i ∧ i ≤ 6 ∧ 4 ≤ j ∧ j ≤ 6 then 1 else 0⟩

/-- The hypotheses can be met: with any sloped sky under this source. -/
example (Q : Plane ℝ) (m : Mem ℝ) (hnext : 0 < m.next) (h0 : m.imgs 0 = planeAdded sky10 Q)
    (integ : GridModel ℝ → ℝ × ℝ → ℝ × ℝ → Except PyErr (Img ℝ)) :
    (sourcePhotometry exactOverlap (planeLib (fun _ _ _ _ => false) (fun _ => (fin 0, fin 1)) normalFitter integ) ⟨1, 5, 5, 2, 1⟩ 0 skySegm10
      [1, 3 / 2] none none true (fin 3) .clip false m).1 =
      radialPhotometry exactOverlap sky10 5 5 [1, 3 / 2] none (some (sourceMask sky10 skySegm10 1 false)) 2 1 := by
  have hM : ([1, 3 / 2] : List ℝ).max? = some (3 / 2) := by norm_num [List.max?]
  have hn : cutoutSize (K := ℝ) none [1, 3 / 2] = .ok 6 := by
    have : ⌈(3 / 2 * 3 : ℝ)⌉ = 5 := by rw [Int.ceil_eq_iff]; norm_num
    unfold cutoutSize
    simp [hM, this, bind, Except.bind]
  have hk : ∀ i j, i < 2 → j < 2 → Kept (window (masked (planeAdded sky10 Q) skySegm10 [0] true nan) 5 5 6) (fun _ _ => false) i j := by
    intro i j hi hj
    refine ⟨by simp only [window]; omega, by simp only [window]; omega, ?_, rfl⟩
    rw [window_in (by simp only [masked, planeAdded, sky10]; omega)]
    have e : skySegm10.px (5 + i - 6 / 2) (5 + j - 6 / 2) = 0 := by
      simp only [skySegm10]; rw [if_neg (by omega)]
    simp only [masked, Selected, e, List.mem_singleton, true_or, if_true, planeAdded, sky10]
    rw [if_neg (by omega), F.fin_add]
    simp
  have h := C131_recovers Method.exact (clip := fun _ _ _ _ => false) (stats := fun _ => (fin 0, fin 1)) (fun _ _ _ _ _ _ _ _ => rfl)
    (fun _ _ _ => rfl) normalFitter_law integ m ⟨1, 5, 5, 2, 1⟩ 0 skySegm10 [1, 3 / 2] none none false (fin 3) hnext sky10 Q h0
    (by
      intro i j _ _ hs
      left
      simp only [skySegm10] at hs
      simp only [sky10]
      by_cases h : 4 ≤ i ∧ i ≤ 6 ∧ 4 ≤ j ∧ j ≤ 6
      · rw [if_pos h] at hs
        exact absurd hs (by norm_num)
      · rw [if_neg h])
    (by simp) ⟨rfl, rfl⟩ (by simp [sky10]) (by simp [sky10]) 6 hn
    (fun r hr h1 _ p hp => by
      have := C50_contains_partial hM hn (Or.inr (by norm_num)) 2 1 r (by norm_num) hr h1 p hp
      rw [neg_div] at this
      exact this)
    _ rfl ?_ ⟨0, 0, 0, 1, 1, 0, hk 0 0 (by omega) (by omega), hk 0 1 (by omega) (by omega), hk 1 0 (by omega) (by omega), by norm_num⟩
  · simpa using h
  · have e : ∀ i j, ((window (masked (planeAdded sky10 Q) skySegm10 [0] true nan) 5 5 6).px i j).isNaN =
        ((window (K := ℚ) (masked ⟨10, 10, fun _ _ => fin 0⟩ skySegm10 [0] true nan) 5 5 6).px i j).isNaN := by
      intro i j
      by_cases ho : 6 / 2 ≤ 5 + i ∧ 5 + i - 6 / 2 < 10 ∧ 6 / 2 ≤ 5 + j ∧ 5 + j - 6 / 2 < 10
      · rw [window_in (im := masked (planeAdded sky10 Q) skySegm10 [0] true nan) ho,
          window_in (im := masked (K := ℚ) ⟨10, 10, fun _ _ => fin 0⟩ skySegm10 [0] true nan) ho]
        simp only [masked]
        by_cases hsel : Selected skySegm10 [0] true (5 + i - 6 / 2) (5 + j - 6 / 2)
        · rw [if_pos hsel, if_pos hsel]
          simp only [planeAdded, sky10]
          split_ifs <;> rfl
        · rw [if_neg hsel, if_neg hsel]
          rfl
      · rw [window_out (im := masked (planeAdded sky10 Q) skySegm10 [0] true nan) ho,
          window_out (im := masked (K := ℚ) ⟨10, 10, fun _ _ => fin 0⟩ skySegm10 [0] true nan) ho]
        rfl
    unfold countFinite
    simp only [e]
    change 10 < ((pixels 6 6).filter fun p =>
      !((window (K := ℚ) (masked ⟨10, 10, fun _ _ => fin 0⟩ skySegm10 [0] true nan) 5 5 6).px p.1 p.2).isNaN).length
    decide +kernel

/-! ### C132: `sigma_type='bound'` -/

section
variable {K : Type} [Field K] [LinearOrder K] [HasSqrt K] [FloorRing K]

/-- **C132 (partial).** With `sigma_type='bound'` the photometry is as documented if the standard deviation of the background happens to
be 1 and no pixel of the cutout is below `-sigma` after the subtraction. -/
theorem C132_bound_partial {ov : Overlap K} {lib : BgLib K} (hl : LibExt lib)
    (m : Mem K) (s : SourceRow K) (image : Nat) (segm : Img Int) (rs : List K) (error req : Option Nat) (sigma : K)
    (mb : Bool) (himg : image < m.next) (herr : ∀ e, error = some e → e < m.next)
    (hsh : segm.h = (m.imgs image).h ∧ segm.w = (m.imgs image).w) (n : Nat) (hn : cutoutSize req rs = .ok n)
    (hmany : 10 < countFinite (window (masked (m.imgs image) segm [0] true nan) s.x s.y n))
    (hstd : (lib.stats (window (masked (m.imgs image) segm [0] true nan) s.x s.y n)).2 = fin 1)
    (hlow : ∀ d, boundDocumented lib (window (masked (m.imgs image) segm [s.label] mb nan) s.x s.y n)
      (window (masked (m.imgs image) segm [0] true nan) s.x s.y n) n (fin sigma) = .ok d → ∀ i j, F.lt (d.px i j) (-(fin sigma)) = false) :
    (sourcePhotometry ov lib s image segm rs error req true (fin sigma) .bound mb m).1 =
      documentedPhotometry ov lib (m.imgs image) segm s rs (error.map m.imgs) n (fin sigma) mb := by
  obtain ⟨m1, -, e1⟩ := sourcePhotometry_run (ov := ov) hl m s image segm rs error req true (fin sigma) .bound mb himg herr hsh
  rw [e1, hn]
  have : measured lib (m.imgs image) segm s n true (fin sigma) .bound mb =
      boundDocumented lib (window (masked (m.imgs image) segm [s.label] mb nan) s.x s.y n)
        (window (masked (m.imgs image) segm [0] true nan) s.x s.y n) n (fin sigma) := by
    simp only [measured, if_true, backgroundSubtracted]
    rw [if_neg (by omega)]
    unfold boundDocumented at hlow ⊢
    simp only [hstd, F.fin_mul, one_mul] at hlow ⊢
    split at hlow
    · next e he => simp only [he]
    · next p hp =>
      simp only [hp]
      congr 2
      funext i j
      have := hlow _ rfl i j
      simp only at this
      rw [this]
      rfl
  simp only [this, documentedPhotometry, Option.map_map]
  rfl

/-- **C132, floor.** With `sigma_type='bound'` every pixel that is measured is NaN or at least `-sigma`. -/
theorem C132_floor {ov : Overlap K} {lib : BgLib K} (hl : LibExt lib)
    (m : Mem K) (s : SourceRow K) (image : Nat) (segm : Img Int) (rs : List K) (error req : Option Nat) (sigma : K)
    (mb : Bool) (himg : image < m.next) (herr : ∀ e, error = some e → e < m.next)
    (hsh : segm.h = (m.imgs image).h ∧ segm.w = (m.imgs image).w) (n : Nat) (hn : cutoutSize req rs = .ok n)
    (hmany : 10 < countFinite (window (masked (m.imgs image) segm [0] true nan) s.x s.y n))
    {out : List (F K) × List (F K) × List (F K)}
    (hok : (sourcePhotometry ov lib s image segm rs error req true (fin sigma) .bound mb m).1 = .ok out) :
    ∃ d : Img (F K), d.h = n ∧ d.w = n ∧ (∀ i j, (d.px i j).isNaN = true ∨ F.le (fin (-sigma)) (d.px i j) = true) ∧
      radialPhotometry ov d ((n : K) / 2) ((n : K) / 2) rs (error.map fun e => window (m.imgs e) s.x s.y n)
        (some (d.map fun v => !v.isNaN)) s.elong s.theta = .ok out := by
  obtain ⟨m1, -, e1⟩ := sourcePhotometry_run (ov := ov) hl m s image segm rs error req true (fin sigma) .bound mb himg herr hsh
  rw [e1, hn] at hok
  simp only at hok
  cases hmeas : measured lib (m.imgs image) segm s n true (fin sigma) .bound mb with
  | error e => rw [hmeas] at hok; cases hok
  | ok d =>
    rw [hmeas] at hok
    simp only at hok
    simp only [measured, if_true, backgroundSubtracted] at hmeas
    rw [if_neg (by omega)] at hmeas
    split at hmeas
    · cases hmeas
    · injection hmeas with hmeas
      refine ⟨d, by rw [← hmeas]; rfl, by rw [← hmeas]; rfl, fun i j => ?_, hok⟩
      rw [← hmeas]
      simp only
      have hneg : -(fin sigma : F K) = fin (-sigma) := rfl
      rw [hneg]
      split_ifs with hlt
      · right
        simp [F.le]
      · generalize (window (masked (m.imgs image) segm [s.label] mb nan) s.x s.y n).px i j - _ = v at *
        cases v with
        | nan => left; rfl
        | pinf => right; rfl
        | ninf => exact absurd rfl hlt
        | fin x =>
          right
          simp only [F.lt, F.le, decide_eq_true_eq, not_lt] at hlt ⊢
          exact hlt

end

/-- A 4 × 5 image with a source of four pixels in the corner and 16 background pixels, twelve 0, two 4 and two -4: mean 0 and standard
deviation 2 (nothing is beyond three standard deviations). -/
def boundSegm : Img Int := Img.ofRows 0 [[0, 0, 0, 0, 0], [0, 0, 0, 0, 0], [0, 0, 0, 1, 1], [0, 0, 0, 1, 1]]
def boundMem (v : F ℚ) : Mem ℚ :=
  ⟨fun _ => [], fun _ => Img.ofRows nan [[fin (-4), fin 0, fin 0, fin 0, fin 4], [fin (-4), fin 0, fin 0, fin 0, fin 4],
    [fin 0, fin 0, fin 0, fin 5, fin 5], [fin 0, fin 0, fin 0, fin 5, v]], 1⟩
def boundLib (std : ℚ) : BgLib ℚ :=
  planeLib (fun _ _ _ _ => false) (fun _ => (fin 0, fin std)) normalFitter (fun _ _ _ => .error .valueError)

/-- **C132 violated: the cut.** With `sigma=3` the background pixels ±4 should not enter the fit, so that the sky is 0 and the flux of the
source is 20. They enter because the code cuts at `sigma` standard deviations. -/
theorem C132_violated :
    documentedPhotometry boxOverlap (boundLib 2) ((boundMem (fin 5)).imgs 0) boundSegm ⟨1, 3, 3, 1, 0⟩ [1, 2] none 8 (fin 3) true =
      .ok ([fin 20, fin 20], [fin 4, fin 4], [nan, nan]) ∧
    (sourcePhotometry boxOverlap (boundLib 2) ⟨1, 3, 3, 1, 0⟩ 0 boundSegm [1, 2] none (some 8) true (fin 3) .bound true
      (boundMem (fin 5))).1 = .ok ([fin (7770701 / 1000000), fin (7770701 / 1000000)], [fin 4, fin 4], [nan, nan]) := by
  constructor <;> decide +kernel

/-- **C132 violated: the floor.** A source pixel of -50 counts as -1 with `sigma=1`, where the same pixels are fitted either way. -/
theorem C132_floor_violated :
    documentedPhotometry boxOverlap (boundLib 2) ((boundMem (fin (-50))).imgs 0) boundSegm ⟨1, 3, 3, 1, 0⟩ [1, 2] none 8 (fin 1) true =
      .ok ([fin (-35), fin (-35)], [fin 4, fin 4], [nan, nan]) ∧
    (sourcePhotometry boxOverlap (boundLib 2) ⟨1, 3, 3, 1, 0⟩ 0 boundSegm [1, 2] none (some 8) true (fin 1) .bound true
      (boundMem (fin (-50)))).1 = .ok ([fin 14, fin 14], [fin 4, fin 4], [nan, nan]) := by
  constructor <;> decide +kernel

/-- The hypotheses of `C132_bound_partial` can be met. -/
example : (boundLib 1).stats (window (masked ((boundMem (fin 5)).imgs 0) boundSegm [0] true nan) 3 3 8) = (fin 0, fin 1) ∧
    10 < countFinite (window (masked ((boundMem (fin 5)).imgs 0) boundSegm [0] true nan) 3 3 8) ∧
    (sourcePhotometry boxOverlap (boundLib 1) ⟨1, 3, 3, 1, 0⟩ 0 boundSegm [1, 2] none (some 8) true (fin 3) .bound true
      (boundMem (fin 5))).1 = .ok ([fin 20, fin 20], [fin 4, fin 4], [nan, nan]) := by
  refine ⟨rfl, ?_, ?_⟩ <;> decide +kernel

end Verif.Props

import Verif.Props.PhotometrySymmetry
import Verif.Props.Segmentation

/-!
# C127: source photometry is photometry on the full image
-/

set_option linter.unusedSectionVars false

namespace Verif.Spec

/-- The pixels of an image that belong to the source (and to the background, unless `mask_background`) and are numbers. -/
def sourceMask (im : Img (F ℝ)) (segm : Img Int) (label : Int) (mb : Bool) : Img Bool :=
  ⟨im.h, im.w, fun i j => (decide (segm.px i j = label) || (!mb && decide (segm.px i j = 0))) && !(im.px i j).isNaN⟩

end Verif.Spec

namespace Verif.Props

open F Spec

/-- Photometry of a square window of even side around a source, with everything else masked, is photometry of the full image. -/
theorem photometry_window {ov : Overlap ℝ} (hm : Method ov) (s : SourceRow ℝ) (im : Img (F ℝ)) (segm : Img Int) (rs : List ℝ)
    (er : Option (Img (F ℝ))) (mb : Bool) (herr : ∀ e, er = some e → e.h = im.h ∧ e.w = im.w) (hy : s.y < im.h) (hx : s.x < im.w)
    (n : Nat) (hev : n % 2 = 0)
    (hin : ∀ r ∈ rs, 0 < r → 0 < r / s.elong → ∀ p ∈ Ellipse.set ⟨(n : ℝ) / 2, (n : ℝ) / 2, r, r / s.elong, s.theta⟩,
      -(1 / 2) < p.1 ∧ p.1 < (n : ℝ) - 1 / 2 ∧ -(1 / 2) < p.2 ∧ p.2 < (n : ℝ) - 1 / 2) :
    radialPhotometry ov (window (masked im segm [s.label] mb nan) s.x s.y n) ((n : ℝ) / 2) ((n : ℝ) / 2) rs
        (er.map fun e => window e s.x s.y n) (some ((window (masked im segm [s.label] mb nan) s.x s.y n).map fun v => !v.isNaN))
        s.elong s.theta =
      radialPhotometry ov im s.x s.y rs er (some (sourceMask im segm s.label mb)) s.elong s.theta := by
  set d := window (masked im segm [s.label] mb nan) s.x s.y n with hd
  have hhalf : ((n : ℝ) / 2) = ((n / 2 : Nat) : ℝ) := by
    have : n = 2 * (n / 2) := by omega
    conv_lhs => rw [this]
    push_cast; ring
  -- a pixel of the cutout inside the image
  have hpx : ∀ i j, n / 2 ≤ s.y + i → s.y + i - n / 2 < im.h → n / 2 ≤ s.x + j → s.x + j - n / 2 < im.w →
      d.px i j = if segm.px (s.y + i - n / 2) (s.x + j - n / 2) = s.label ∨ (mb = false ∧ segm.px (s.y + i - n / 2) (s.x + j - n / 2) = 0) then
        im.px (s.y + i - n / 2) (s.x + j - n / 2) else nan := by
    intro i j h1 h2 h3 h4
    simp only [hd, window]
    rw [if_pos ⟨h1, h2, h3, h4⟩]
    simp [masked, Selected]
  have hout : ∀ i j, ¬ (n / 2 ≤ s.y + i ∧ s.y + i - n / 2 < im.h ∧ n / 2 ≤ s.x + j ∧ s.x + j - n / 2 < im.w) → d.px i j = nan := by
    intro i j h
    simp only [hd, window]
    exact if_neg h
  symm
  rw [hhalf] at hin ⊢
  refine radialPhotometry_moved (image := d) (φ := fun p => (s.y + p.1 - n / 2, s.x + p.2 - n / 2)) (fun r hr h1 h2 => ?_) ?_ ?_
  · -- the counting pixels of the cutout
    have hgood : ∀ p : Nat × Nat, p ∈ goodPixels ov ⟨((n / 2 : Nat) : ℝ), ((n / 2 : Nat) : ℝ), r, r / s.elong, s.theta⟩ d.h d.w
          (inv (some (d.map fun v => !v.isNaN))) ↔
        (p.1 < n ∧ p.2 < n) ∧ 0 < ov.weight ⟨((n / 2 : Nat) : ℝ), ((n / 2 : Nat) : ℝ), r, r / s.elong, s.theta⟩ p.1 p.2 ∧
        (n / 2 ≤ s.y + p.1 ∧ s.y + p.1 - n / 2 < im.h ∧ n / 2 ≤ s.x + p.2 ∧ s.x + p.2 - n / 2 < im.w) ∧
        (segm.px (s.y + p.1 - n / 2) (s.x + p.2 - n / 2) = s.label ∨ (mb = false ∧ segm.px (s.y + p.1 - n / 2) (s.x + p.2 - n / 2) = 0)) ∧
        (im.px (s.y + p.1 - n / 2) (s.x + p.2 - n / 2)).isNaN = false := by
      intro p
      rw [mem_goodPixels]
      simp only [Used, Img.map]
      have e1 : d.h = n := rfl
      have e2 : d.w = n := rfl
      rw [e1, e2]
      by_cases ho : n / 2 ≤ s.y + p.1 ∧ s.y + p.1 - n / 2 < im.h ∧ n / 2 ≤ s.x + p.2 ∧ s.x + p.2 - n / 2 < im.w
      · rw [hpx p.1 p.2 ho.1 ho.2.1 ho.2.2.1 ho.2.2.2]
        split_ifs with hs
        · simp only [Bool.not_eq_true', ho, hs, true_and, and_true]
          tauto
        · simp [hs]
      · rw [hout p.1 p.2 ho]
        simp only [isNaN]
        tauto
    have hwt : ∀ p : Nat × Nat, n / 2 ≤ s.y + p.1 → n / 2 ≤ s.x + p.2 →
        ov.weight ⟨(s.x : ℝ), (s.y : ℝ), r, r / s.elong, s.theta⟩ (s.y + p.1 - n / 2) (s.x + p.2 - n / 2) =
          ov.weight ⟨((n / 2 : Nat) : ℝ), ((n / 2 : Nat) : ℝ), r, r / s.elong, s.theta⟩ p.1 p.2 := by
      intro p g1 g2
      have a1 := weight_shifted hm (s.x : ℝ) (s.y : ℝ) r (r / s.elong) s.theta (n / 2) (n / 2) (s.y + p.1 - n / 2) (s.x + p.2 - n / 2)
      have a2 := weight_shifted hm ((n / 2 : Nat) : ℝ) ((n / 2 : Nat) : ℝ) r (r / s.elong) s.theta s.y s.x p.1 p.2
      rw [← a1, ← a2, add_comm (s.x : ℝ), add_comm (s.y : ℝ)]
      congr 1 <;> omega
    refine ⟨?_, ?_, ?_⟩
    · rw [List.perm_ext_iff_of_nodup]
      · intro q
        rw [mem_goodPixels, List.mem_map]
        constructor
        · rintro ⟨g1, g2, g3, g4⟩
          -- the pixel lies in the cutout
          obtain ⟨x, y, hxy, bx, by'⟩ := hm.point g3
          have hxy' : (x - s.x + ((n / 2 : Nat) : ℝ), y - s.y + ((n / 2 : Nat) : ℝ)) ∈
              Ellipse.set ⟨((n / 2 : Nat) : ℝ), ((n / 2 : Nat) : ℝ), r, r / s.elong, s.theta⟩ := by
            simp only [Ellipse.set, Set.mem_setOf_eq] at hxy ⊢
            rw [add_sub_cancel_right, add_sub_cancel_right]
            exact hxy
          obtain ⟨b1, b2, b3, b4⟩ := hin r hr h1 h2 _ hxy'
          simp only at b1 b2 b3 b4
          have c1 : s.x ≤ q.2 + n / 2 := by
            have : (s.x : ℝ) < q.2 + ((n / 2 : Nat) : ℝ) + 1 := by linarith
            exact Nat.lt_succ_iff.1 (by exact_mod_cast this)
          have c2 : q.2 + n / 2 < s.x + n := by
            have : (q.2 : ℝ) + ((n / 2 : Nat) : ℝ) < s.x + n := by linarith
            exact_mod_cast this
          have c3 : s.y ≤ q.1 + n / 2 := by
            have : (s.y : ℝ) < q.1 + ((n / 2 : Nat) : ℝ) + 1 := by linarith
            exact Nat.lt_succ_iff.1 (by exact_mod_cast this)
          have c4 : q.1 + n / 2 < s.y + n := by
            have : (q.1 : ℝ) + ((n / 2 : Nat) : ℝ) < s.y + n := by linarith
            exact_mod_cast this
          have k1 : s.y + (q.1 + n / 2 - s.y) - n / 2 = q.1 := by omega
          have k2 : s.x + (q.2 + n / 2 - s.x) - n / 2 = q.2 := by omega
          refine ⟨(q.1 + n / 2 - s.y, q.2 + n / 2 - s.x), (hgood _).2 ⟨⟨by simp only; omega, by simp only; omega⟩, ?_, ⟨?_, ?_, ?_, ?_⟩, ?_⟩, ?_⟩
          · rw [← hwt _ (by simp only; omega) (by simp only; omega)]
            simp only [k1, k2]
            exact g3
          · simp only; omega
          · simp only [k1]; exact g1
          · simp only; omega
          · simp only [k2]; exact g2
          · simp only [k1, k2]
            simp only [Used, sourceMask, Bool.and_eq_true, Bool.or_eq_true, decide_eq_true_eq, Bool.not_eq_true'] at g4
            exact g4
          · simp only [k1, k2]
        · rintro ⟨p, hp, rfl⟩
          obtain ⟨g1, g2, g3, g4, g5⟩ := (hgood p).1 hp
          refine ⟨g3.2.1, g3.2.2.2, ?_, ?_⟩
          · rw [hwt p g3.1 g3.2.2.1]; exact g2
          · simp only [Used, sourceMask, Bool.and_eq_true, Bool.or_eq_true, decide_eq_true_eq, Bool.not_eq_true']
            exact ⟨g4, g5⟩
      · exact (pixels_nodup _ _).filter _
      · refine List.Nodup.map_on ?_ ((pixels_nodup _ _).filter _)
        intro p hp q hq hpq
        have a1 := ((hgood p).1 hp).2.2.1
        have a2 := ((hgood q).1 hq).2.2.1
        obtain ⟨p1, p2⟩ := p
        obtain ⟨q1, q2⟩ := q
        simp only [Prod.mk.injEq] at hpq a1 a2 ⊢
        omega
    · rw [hm.hits_eq, hm.hits_eq]
      have hc : (((n / 2 : Nat) : ℝ), ((n / 2 : Nat) : ℝ)) ∈ Ellipse.set ⟨((n / 2 : Nat) : ℝ), ((n / 2 : Nat) : ℝ), r, r / s.elong, s.theta⟩ := by
        simp [Ellipse.set]
      obtain ⟨b1, b2, b3, b4⟩ := hin r hr h1 h2 _ hc
      simp only at b1 b2 b3 b4
      have hn2 : n / 2 < n := by
        have : ((n / 2 : Nat) : ℝ) < n := by linarith
        exact_mod_cast this
      have t1 : boxHits ⟨(s.x : ℝ), (s.y : ℝ), r, r / s.elong, s.theta⟩ im.h im.w = true :=
        boxHits_of_mem (p := ((s.x : ℝ), (s.y : ℝ))) h1 h2 (by simp [Ellipse.set]) hy hx (by simp) (by simp)
      have t2 : boxHits ⟨((n / 2 : Nat) : ℝ), ((n / 2 : Nat) : ℝ), r, r / s.elong, s.theta⟩ d.h d.w = true :=
        boxHits_of_mem h1 h2 hc (show n / 2 < d.h from hn2) (show n / 2 < d.w from hn2) (by simp) (by simp)
      rw [t1, t2]
    · intro p hp
      obtain ⟨-, -, g3, g4, -⟩ := (hgood p).1 hp
      refine ⟨hwt p g3.1 g3.2.2.1, ?_, ?_⟩
      · rw [hpx p.1 p.2 g3.1 g3.2.1 g3.2.2.1 g3.2.2.2, if_pos g4]
      · intro a ha b hb
        cases er with
        | none => cases ha
        | some e0 =>
          obtain ⟨f1, f2⟩ := herr e0 rfl
          cases ha; cases hb
          simp only [window]
          rw [if_pos ⟨g3.1, by rw [f1]; exact g3.2.1, g3.2.2.1, by rw [f2]; exact g3.2.2.2⟩]
  · simp [shapeOk, sourceMask, Img.map]
  · cases er with
    | none => exact Or.inl ⟨rfl, rfl⟩
    | some e0 =>
      obtain ⟨f1, f2⟩ := herr e0 rfl
      refine Or.inr ⟨_, _, rfl, rfl, ?_⟩
      simp only [shapeOk, f1, f2, hd, window, beq_self_eq_true, Bool.and_self]

/-- **C127.** Without background subtraction, `source_photometry` is the photometry of the full image at the position of the source, with
all pixels of other sources masked, as long as the apertures lie within the cutout. The cutout may reach beyond the image. -/
theorem C127_full_image {ov : Overlap ℝ} (hm : Method ov) {lib : BgLib ℝ} (hl : LibExt lib) (m : Mem ℝ) (s : SourceRow ℝ) (image : Nat)
    (segm : Img Int) (rs : List ℝ) (error req : Option Nat) (mb : Bool) (sigma : F ℝ) (st : SigmaType) (himg : image < m.next)
    (herr : ∀ e, error = some e → e < m.next ∧ (m.imgs e).h = (m.imgs image).h ∧ (m.imgs e).w = (m.imgs image).w)
    (hsh : segm.h = (m.imgs image).h ∧ segm.w = (m.imgs image).w) (hy : s.y < (m.imgs image).h) (hx : s.x < (m.imgs image).w)
    (n : Nat) (hn : cutoutSize req rs = .ok n)
    (hin : ∀ r ∈ rs, 0 < r → 0 < r / s.elong → ∀ p ∈ Ellipse.set ⟨(n : ℝ) / 2, (n : ℝ) / 2, r, r / s.elong, s.theta⟩,
      -(1 / 2) < p.1 ∧ p.1 < (n : ℝ) - 1 / 2 ∧ -(1 / 2) < p.2 ∧ p.2 < (n : ℝ) - 1 / 2) :
    (sourcePhotometry ov lib s image segm rs error req false sigma st mb m).1 =
      radialPhotometry ov (m.imgs image) s.x s.y rs (error.map m.imgs) (some (sourceMask (m.imgs image) segm s.label mb)) s.elong s.theta := by
  obtain ⟨m', -, e⟩ := sourcePhotometry_run (ov := ov) hl m s image segm rs error req false sigma st mb himg
    (fun e h => (herr e h).1) hsh
  have hev := cutoutSize_even hn
  rw [e, hn]
  have hmeas : measured lib (m.imgs image) segm s n false sigma st mb = .ok (window (masked (m.imgs image) segm [s.label] mb nan) s.x s.y n) := rfl
  simp only [hmeas]
  have h := photometry_window hm s (m.imgs image) segm rs (error.map m.imgs) mb ?_ hy hx n hev hin
  · rw [← h, Option.map_map]
    rfl
  · intro e he
    cases error with
    | none => cases he
    | some e0 =>
      cases he
      exact (herr e0 rfl).2

/-- **C127, default cutout.** With the default cutout size and an elongation of at least 1 this holds for every list of radii whose largest
is at most 1/2 or larger than 2/3 of a pixel. -/
theorem C127_default {ov : Overlap ℝ} (hm : Method ov) {lib : BgLib ℝ} (hl : LibExt lib) (m : Mem ℝ) (s : SourceRow ℝ) (image : Nat)
    (segm : Img Int) (rs : List ℝ) (error : Option Nat) (mb : Bool) (sigma : F ℝ) (st : SigmaType) (himg : image < m.next)
    (herr : ∀ e, error = some e → e < m.next ∧ (m.imgs e).h = (m.imgs image).h ∧ (m.imgs e).w = (m.imgs image).w)
    (hsh : segm.h = (m.imgs image).h ∧ segm.w = (m.imgs image).w) (hy : s.y < (m.imgs image).h) (hx : s.x < (m.imgs image).w)
    {M : ℝ} (hM : rs.max? = some M) (hr : M ≤ 1 / 2 ∨ 2 / 3 < M) (hq : 1 ≤ s.elong) :
    (sourcePhotometry ov lib s image segm rs error none false sigma st mb m).1 =
      radialPhotometry ov (m.imgs image) s.x s.y rs (error.map m.imgs) (some (sourceMask (m.imgs image) segm s.label mb)) s.elong s.theta := by
  obtain ⟨n, hn⟩ : ∃ n, cutoutSize none rs = .ok n := by
    unfold cutoutSize
    rw [hM]
    exact ⟨_, rfl⟩
  refine C127_full_image hm hl m s image segm rs error none mb sigma st himg herr hsh hy hx n hn fun r hr' h1 _ p hp => ?_
  have := C50_contains_partial hM hn hr s.elong s.theta r hq hr' h1 p hp
  rw [neg_div] at this
  exact this

/-- Non-vacuity: radii 1, 2, 4 around a source at the corner of a 10 × 10 image; the 12 × 12 cutout reaches beyond the image. -/
example (lib : BgLib ℝ) (hl : LibExt lib) (m : Mem ℝ) (hnext : 0 < m.next) (h1 : (m.imgs 0).h = 10) (h2 : (m.imgs 0).w = 10) :
    (sourcePhotometry exactOverlap lib ⟨1, 0, 0, 2, 1⟩ 0 ⟨10, 10, fun i j => if i + j < 3 then 1 else 0⟩ [1, 2, 4] none none false (fin 3)
      .clip false m).1 =
      radialPhotometry exactOverlap (m.imgs 0) 0 0 [1, 2, 4] none
        (some (sourceMask (m.imgs 0) ⟨10, 10, fun i j => if i + j < 3 then 1 else 0⟩ 1 false)) 2 1 := by
  have := C127_default Method.exact hl m ⟨1, 0, 0, 2, 1⟩ 0 ⟨10, 10, fun i j => if i + j < 3 then 1 else 0⟩ [1, 2, 4] none false (fin 3) .clip
    hnext (by simp) ⟨h1.symm, h2.symm⟩ (by simp [h1]) (by simp [h2]) (M := 4) (by norm_num [List.max?]) (by norm_num) (by norm_num)
  simpa using this

end Verif.Props

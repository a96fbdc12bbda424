import Verif.Lemmas.Photometry
import Verif.Model.Overlap
import Mathlib.MeasureTheory.Group.Measure
import Mathlib.MeasureTheory.Group.Prod
import Mathlib.MeasureTheory.Measure.Haar.Unique
import Mathlib.Data.List.ProdSigma

/-!
# C125, C126: photometry of transposed, mirrored, rotated and cut-out images
-/

set_option linter.unusedSectionVars false

namespace Verif.Spec

/-- `image.T`. -/
def transposed {α : Type} (a : Img α) : Img α := ⟨a.w, a.h, fun i j => a.px j i⟩

/-- `image[:, ::-1]`. -/
def mirrored {α : Type} (a : Img α) : Img α := ⟨a.h, a.w, fun i j => a.px i (a.w - 1 - j)⟩

/-- `np.rot90(image)`: a quarter turn, row `i` of the result is column `w - 1 - i`. -/
def quarterTurn {α : Type} (a : Img α) : Img α := ⟨a.w, a.h, fun i j => a.px j (a.w - 1 - i)⟩

/-- `image[y0:y0+h, x0:x0+w]`. -/
def cutoutOf {α : Type} (a : Img α) (y0 x0 h w : Nat) : Img α := ⟨h, w, fun i j => a.px (y0 + i) (x0 + j)⟩

end Verif.Spec

namespace Verif.Props

open F Spec MeasureTheory

/-! ### Moving pixels -/

section
variable {K : Type} [Field K] [LinearOrder K] [IsStrictOrderedRing K] {ov : Overlap K}

theorem npSum_perm {l m : List (F K)} (h : l.Perm m) : npSum l = npSum m := by
  induction h with
  | nil => rfl
  | cons x _ ih => show x + npSum _ = x + npSum _; rw [ih]
  | swap x y l =>
    show y + (x + npSum l) = x + (y + npSum l)
    generalize npSum l = z
    cases x <;> cases y <;> cases z <;> first | rfl | (simp; ring)
  | trans _ _ h1 h2 => exact h1.trans h2

theorem pixels_nodup (h w : Nat) : (pixels h w).Nodup := by
  have : pixels h w = (List.range h).product (List.range w) := rfl
  rw [this]
  exact List.Nodup.product List.nodup_range List.nodup_range

/-- The pixels of an `h × w` image correspond under `φ` to those of an `h' × w'` image that count, with the same weights. -/
structure Moves (ov : Overlap K) (φ : Nat × Nat → Nat × Nat) (h w h' w' : Nat) (e e' : Ellipse K) : Prop where
  inj : ∀ p ∈ pixels h w, ∀ q ∈ pixels h w, φ p = φ q → p = q
  into : ∀ p ∈ pixels h w, φ p ∈ pixels h' w'
  onto : ∀ q ∈ pixels h' w', 0 < ov.weight e' q.1 q.2 → ∃ p ∈ pixels h w, φ p = q
  weight : ∀ p ∈ pixels h w, ov.weight e' (φ p).1 (φ p).2 = ov.weight e p.1 p.2
  hits : ov.hits e' h' w' = ov.hits e h w

/-- `b` has at `φ p` what `a` has at `p`. -/
def Carries {α : Type} (φ : Nat × Nat → Nat × Nat) (h w : Nat) (a b : Img α) : Prop :=
  ∀ p ∈ pixels h w, b.px (φ p).1 (φ p).2 = a.px p.1 p.2

/-- The same for an optional map that goes with an image. -/
def CarriesOpt {α : Type} (φ : Nat × Nat → Nat × Nat) (h w h' w' : Nat) (o o' : Option (Img α)) : Prop :=
  (o = none ∧ o' = none) ∨ ∃ a b, o = some a ∧ o' = some b ∧ ((a.h = h ∧ a.w = w) ↔ (b.h = h' ∧ b.w = w')) ∧ Carries φ h w a b

/-- Whether a pixel is masked. -/
def isBad (bad : Option (Img Bool)) (p : Nat × Nat) : Bool := match bad with | none => false | some m => m.px p.1 p.2

theorem goodPixels_eq (e : Ellipse K) (h w : Nat) (bad : Option (Img Bool)) :
    goodPixels ov e h w bad = (pixels h w).filter fun p => decide (0 < ov.weight e p.1 p.2) && !isBad bad p := rfl

theorem goodPixels_moves {φ : Nat × Nat → Nat × Nat} {h w h' w' : Nat} {e e' : Ellipse K} (m : Moves ov φ h w h' w' e e')
    {bad bad' : Option (Img Bool)} (hb : CarriesOpt φ h w h' w' bad bad') :
    (goodPixels ov e' h' w' bad').Perm ((goodPixels ov e h w bad).map φ) := by
  have hbad : ∀ p ∈ pixels h w, isBad bad' (φ p) = isBad bad p := by
    intro p hp
    rcases hb with ⟨rfl, rfl⟩ | ⟨a, b, rfl, rfl, -, hc⟩
    · rfl
    · exact hc p hp
  rw [goodPixels_eq, goodPixels_eq, List.perm_ext_iff_of_nodup]
  · intro q
    simp only [List.mem_filter, List.mem_map, Bool.and_eq_true, decide_eq_true_eq]
    constructor
    · rintro ⟨h1, h2, h3⟩
      obtain ⟨p, hp, rfl⟩ := m.onto q h1 h2
      refine ⟨p, ⟨hp, ?_, ?_⟩, rfl⟩
      · rw [← m.weight p hp]; exact h2
      · rw [← hbad p hp]; exact h3
    · rintro ⟨p, ⟨hp, h2, h3⟩, rfl⟩
      refine ⟨m.into p hp, ?_, ?_⟩
      · rw [m.weight p hp]; exact h2
      · rw [hbad p hp]; exact h3
  · exact (pixels_nodup h' w').filter _
  · refine List.Nodup.map_on ?_ ((pixels_nodup h w).filter _)
    intro p hp q hq
    exact m.inj p (List.mem_filter.1 hp).1 q (List.mem_filter.1 hq).1

variable [HasSqrt K]

theorem npSum_moved {φ : Nat × Nat → Nat × Nat} {g g' : List (Nat × Nat)} (hp : g'.Perm (g.map φ)) {wt wt' : Nat → Nat → K}
    (hw : ∀ p ∈ g, wt' (φ p).1 (φ p).2 = wt p.1 p.2) (f f' : Nat × Nat → F K) (hf : ∀ p ∈ g, f' (φ p) = f p) :
    npSum (g'.map fun p => f' p * fin (wt' p.1 p.2)) = npSum (g.map fun p => f p * fin (wt p.1 p.2)) := by
  rw [npSum_perm (hp.map _), List.map_map]
  congr 1
  apply List.map_congr_left
  intro p hp
  simp only [Function.comp, hf p hp, hw p hp]

theorem doPhotometry_moved {φ : Nat × Nat → Nat × Nat} {data data' : Img (F K)} {e e' : Ellipse K} {bad bad' : Option (Img Bool)}
    (hp : (goodPixels ov e' data'.h data'.w bad').Perm ((goodPixels ov e data.h data.w bad).map φ))
    (hw : ∀ p ∈ goodPixels ov e data.h data.w bad, ov.weight e' (φ p).1 (φ p).2 = ov.weight e p.1 p.2)
    (hh : ov.hits e' data'.h data'.w = ov.hits e data.h data.w)
    (hd : ∀ p ∈ goodPixels ov e data.h data.w bad, data'.px (φ p).1 (φ p).2 = data.px p.1 p.2)
    (hsb : shapeOk data' bad' = shapeOk data bad) {error error' : Option (Img (F K))}
    (he : (error = none ∧ error' = none) ∨ ∃ a b, error = some a ∧ error' = some b ∧ shapeOk data' (some b) = shapeOk data (some a) ∧
      ∀ p ∈ goodPixels ov e data.h data.w bad, b.px (φ p).1 (φ p).2 = a.px p.1 p.2) :
    doPhotometry ov e' data' error' bad' = doPhotometry ov e data error bad := by
  have hse : shapeOk data' error' = shapeOk data error := by
    rcases he with ⟨rfl, rfl⟩ | ⟨a, b, rfl, rfl, h1, -⟩
    · rfl
    · exact h1
  unfold doPhotometry
  rw [hsb, hse, hh]
  have h1 := npSum_moved hp hw (fun p => data.px p.1 p.2) (fun p => data'.px p.1 p.2) hd
  rcases he with ⟨rfl, rfl⟩ | ⟨a, b, rfl, rfl, -, hc⟩
  · simp only [h1]
  · have h2 := npSum_moved hp hw (fun p => F.sq (a.px p.1 p.2)) (fun p => F.sq (b.px p.1 p.2)) (fun p hp => by rw [hc p hp])
    simp only [h1, h2]

variable [FloorRing K]

/-- Photometry of images whose counting pixels correspond. -/
theorem radialPhotometry_moved {φ : Nat × Nat → Nat × Nat} {image image' : Img (F K)} {cx cy cx' cy' t t' q : K} {rs : List K}
    {mask mask' : Option (Img Bool)} {error error' : Option (Img (F K))}
    (m : ∀ r ∈ rs, 0 < r → 0 < r / q →
      (goodPixels ov ⟨cx', cy', r, r / q, t'⟩ image'.h image'.w (inv mask')).Perm
        ((goodPixels ov ⟨cx, cy, r, r / q, t⟩ image.h image.w (inv mask)).map φ) ∧
      ov.hits ⟨cx', cy', r, r / q, t'⟩ image'.h image'.w = ov.hits ⟨cx, cy, r, r / q, t⟩ image.h image.w ∧
      ∀ p ∈ goodPixels ov ⟨cx, cy, r, r / q, t⟩ image.h image.w (inv mask),
        ov.weight ⟨cx', cy', r, r / q, t'⟩ (φ p).1 (φ p).2 = ov.weight ⟨cx, cy, r, r / q, t⟩ p.1 p.2 ∧
        image'.px (φ p).1 (φ p).2 = image.px p.1 p.2 ∧ ∀ a ∈ error, ∀ b ∈ error', b.px (φ p).1 (φ p).2 = a.px p.1 p.2)
    (hsm : shapeOk image' mask' = shapeOk image mask)
    (hse : (error = none ∧ error' = none) ∨ ∃ a b, error = some a ∧ error' = some b ∧ shapeOk image' (some b) = shapeOk image (some a)) :
    radialPhotometry ov image' cx' cy' rs error' mask' q t' = radialPhotometry ov image cx cy rs error mask q t := by
  have hsb : shapeOk image' (inv mask') = shapeOk image (inv mask) := by
    cases mask <;> cases mask' <;> exact hsm
  have h : ∀ r ∈ rs, photometryAt ov image' cx' cy' error' (inv mask') q t' r = photometryAt ov image cx cy error (inv mask) q t r := by
    intro r hr
    unfold photometryAt radialEllipticalAperture ellipticalAperture
    by_cases hq : q = 0
    · simp only [hq, if_true]; rfl
    · simp only [hq, if_false]
      by_cases hp : r ≤ 0 ∨ r / q ≤ 0
      · simp only [hp, if_true]; rfl
      · simp only [hp, if_false]
        rw [not_or, not_le, not_le] at hp
        obtain ⟨m1, m2, m3⟩ := m r hr hp.1 hp.2
        have d1 : doPhotometry ov ⟨cx', cy', r, r / q, t'⟩ image' error' (inv mask') =
            doPhotometry ov ⟨cx, cy, r, r / q, t⟩ image error (inv mask) := by
          refine doPhotometry_moved m1 (fun p hp => (m3 p hp).1) m2 (fun p hp => (m3 p hp).2.1) hsb ?_
          rcases hse with h | ⟨a, b, rfl, rfl, h⟩
          · exact Or.inl h
          · exact Or.inr ⟨a, b, rfl, rfl, h, fun p hp => (m3 p hp).2.2 a rfl b rfl⟩
        have d2 : doPhotometry ov ⟨cx', cy', r, r / q, t'⟩ (image'.map fun _ => fin 1) none (inv mask') =
            doPhotometry ov ⟨cx, cy, r, r / q, t⟩ (image.map fun _ => fin 1) none (inv mask) :=
          doPhotometry_moved (data := image.map fun _ => fin 1) (data' := image'.map fun _ => fin 1) m1 (fun p hp => (m3 p hp).1) m2
            (fun _ _ => rfl) hsb (Or.inl ⟨rfl, rfl⟩)
        show (doPhotometry ov _ image' error' (inv mask') >>= _) = (doPhotometry ov _ image error (inv mask) >>= _)
        rw [d1, d2]
  have hmm : rs.mapM (photometryAt ov image' cx' cy' error' (inv mask') q t') = rs.mapM (photometryAt ov image cx cy error (inv mask) q t) := by
    clear m
    induction rs with
    | nil => rfl
    | cons r rs ih =>
      rw [List.mapM_cons, List.mapM_cons, h r (by simp), ih (fun r hr => h r (by simp [hr]))]
  unfold radialPhotometry
  show (rs.mapM (photometryAt ov image' cx' cy' error' (inv mask') q t') >>= _) =
    (rs.mapM (photometryAt ov image cx cy error (inv mask) q t) >>= _)
  rw [hmm]

/-- Photometry of corresponding images at corresponding apertures. -/
theorem radialPhotometry_moves {φ : Nat × Nat → Nat × Nat} {image image' : Img (F K)} {cx cy cx' cy' t t' q : K} {rs : List K}
    (m : ∀ r ∈ rs, 0 < r → 0 < r / q → Moves ov φ image.h image.w image'.h image'.w ⟨cx, cy, r, r / q, t⟩ ⟨cx', cy', r, r / q, t'⟩)
    (hi : Carries φ image.h image.w image image') {mask mask' : Option (Img Bool)}
    (hm : CarriesOpt φ image.h image.w image'.h image'.w mask mask') {error error' : Option (Img (F K))}
    (he : CarriesOpt φ image.h image.w image'.h image'.w error error') :
    radialPhotometry ov image' cx' cy' rs error' mask' q t' = radialPhotometry ov image cx cy rs error mask q t := by
  have hb : CarriesOpt φ image.h image.w image'.h image'.w (inv mask) (inv mask') := by
    rcases hm with ⟨rfl, rfl⟩ | ⟨a, b, rfl, rfl, h1, h2⟩
    · exact Or.inl ⟨rfl, rfl⟩
    · exact Or.inr ⟨_, _, rfl, rfl, h1, fun p hp => by simp only [Img.map, h2 p hp]⟩
  have hs : ∀ {β : Type} {a b : Img β}, ((a.h = image.h ∧ a.w = image.w) ↔ (b.h = image'.h ∧ b.w = image'.w)) →
      shapeOk image' (some b) = shapeOk image (some a) := by
    intro β a b h1
    simp only [shapeOk]
    rw [Bool.eq_iff_iff]
    simp only [Bool.and_eq_true, beq_iff_eq]
    exact h1.symm
  refine radialPhotometry_moved (φ := φ) (fun r hr h1 h2 => ?_) ?_ ?_
  · have mr := m r hr h1 h2
    refine ⟨goodPixels_moves mr hb, mr.hits, fun p hp => ?_⟩
    have hp : p ∈ pixels image.h image.w := (List.mem_filter.1 hp).1
    refine ⟨mr.weight p hp, hi p hp, fun a ha b hb => ?_⟩
    rcases he with ⟨rfl, rfl⟩ | ⟨a', b', rfl, rfl, -, h3⟩
    · cases ha
    · cases ha; cases hb; exact h3 p hp
  · rcases hm with ⟨rfl, rfl⟩ | ⟨a, b, rfl, rfl, h1, -⟩
    · rfl
    · exact hs h1
  · rcases he with h | ⟨a, b, rfl, rfl, h1, -⟩
    · exact Or.inl h
    · exact Or.inr ⟨a, b, rfl, rfl, hs h1⟩

end

/-! ### The three photutils methods -/

/-- One of the photutils methods. -/
inductive Method : Overlap ℝ → Prop
  | exact : Method exactOverlap
  | center : Method centerOverlap
  | subpixel (s : Nat) (hs : 0 < s) : Method (subpixelOverlap s)

theorem Method.hits_eq {ov : Overlap ℝ} (hm : Method ov) (e : Ellipse ℝ) (h w : Nat) : ov.hits e h w = boxHits e h w := by
  cases hm <;> rfl

theorem Method.law {ov : Overlap ℝ} (hm : Method ov) : OverlapLaw ov := by
  cases hm with
  | exact => exact exactOverlap_law
  | center => exact centerOverlap_law
  | subpixel s hs => exact subpixelOverlap_law s hs

/-- A pixel with positive weight contains a point of the aperture. -/
theorem Method.point {ov : Overlap ℝ} (hm : Method ov) {e : Ellipse ℝ} {i j : Nat} (hpos : 0 < ov.weight e i j) :
    ∃ x y : ℝ, (x, y) ∈ e.set ∧ ((j : ℝ) - 1 / 2 ≤ x ∧ x ≤ j + 1 / 2) ∧ ((i : ℝ) - 1 / 2 ≤ y ∧ y ≤ i + 1 / 2) := by
  cases hm with
  | exact =>
    have hne : (pixelSquare i j ∩ e.set).Nonempty := by
      rw [Set.nonempty_iff_ne_empty]
      intro h0
      simp [exactOverlap, h0] at hpos
    obtain ⟨⟨x, y⟩, ⟨⟨a1, a2⟩, ⟨a3, a4⟩⟩, hp2⟩ := hne
    exact ⟨x, y, hp2, ⟨a1.le, a2⟩, ⟨a3.le, a4⟩⟩
  | center =>
    have hp : ((j : ℝ), (i : ℝ)) ∈ e.set := by
      by_contra hn
      simp [centerOverlap, hn] at hpos
    exact ⟨j, i, hp, ⟨by linarith, by linarith⟩, ⟨by linarith, by linarith⟩⟩
  | subpixel s hs =>
    classical
    have hs0 : (0 : ℝ) < s := by exact_mod_cast hs
    have hne : ((Finset.range s ×ˢ Finset.range s).filter fun k : Nat × Nat =>
        ((j : ℝ) - 1 / 2 + (k.1 + 1 / 2) / s, (i : ℝ) - 1 / 2 + (k.2 + 1 / 2) / s) ∈ e.set).Nonempty := by
      rw [Finset.nonempty_iff_ne_empty]
      intro h0
      have : (subpixelOverlap s).weight e i j = 0 := by
        simp only [subpixelOverlap]
        rw [div_eq_zero_iff]; left
        rw [Nat.cast_eq_zero, Finset.card_eq_zero]
        convert h0
      rw [this] at hpos
      exact lt_irrefl _ hpos
    obtain ⟨k, hk'⟩ := hne
    rw [Finset.mem_filter, Finset.mem_product, Finset.mem_range, Finset.mem_range] at hk'
    obtain ⟨⟨k1, k2⟩, hp2⟩ := hk'
    have key : ∀ m : Nat, m < s → 0 ≤ ((m : ℝ) + 1 / 2) / s ∧ ((m : ℝ) + 1 / 2) / s ≤ 1 := by
      intro m hm
      have hm1 : (m : ℝ) + 1 ≤ s := by exact_mod_cast hm
      have hm0 : (0 : ℝ) ≤ m := Nat.cast_nonneg m
      exact ⟨by positivity, by rw [div_le_one hs0]; linarith⟩
    have := key _ k1
    have := key _ k2
    exact ⟨_, _, hp2, ⟨by linarith, by linarith⟩, ⟨by linarith, by linarith⟩⟩

theorem pixelSquare_ae (i j : Nat) : (pixelSquare i j : Set (ℝ × ℝ)) =ᵐ[volume]
    Set.Ioo ((j : ℝ) - 1 / 2) (j + 1 / 2) ×ˢ Set.Ioo ((i : ℝ) - 1 / 2) (i + 1 / 2) := by
  unfold pixelSquare
  rw [Measure.volume_eq_prod]
  exact Measure.set_prod_ae_eq Ioo_ae_eq_Ioc.symm Ioo_ae_eq_Ioc.symm

/-- The open pixel. -/
def openPixel (i j : Nat) : Set (ℝ × ℝ) := Set.Ioo ((j : ℝ) - 1 / 2) (j + 1 / 2) ×ˢ Set.Ioo ((i : ℝ) - 1 / 2) (i + 1 / 2)

theorem exact_weight_open (e : Ellipse ℝ) (i j : Nat) : exactOverlap.weight e i j = (volume (openPixel i j ∩ e.set)).toReal := by
  show (volume (pixelSquare i j ∩ e.set)).toReal = _
  have h : (pixelSquare i j ∩ e.set : Set (ℝ × ℝ)) =ᵐ[volume] (openPixel i j ∩ e.set : Set (ℝ × ℝ)) :=
    ae_eq_set_inter (pixelSquare_ae i j) (Filter.EventuallyEq.refl _ _)
  rw [measure_congr h]

/-- Transposition. -/
theorem weight_transposed {ov : Overlap ℝ} (hm : Method ov) (cx cy a b t : ℝ) (i j : Nat) :
    ov.weight ⟨cy, cx, a, b, Real.pi / 2 - t⟩ j i = ov.weight ⟨cx, cy, a, b, t⟩ i j := by
  have hmem : ∀ x y : ℝ, (y, x) ∈ Ellipse.set ⟨cy, cx, a, b, Real.pi / 2 - t⟩ ↔ (x, y) ∈ Ellipse.set ⟨cx, cy, a, b, t⟩ := by
    intro x y
    simp only [Ellipse.set, Set.mem_setOf_eq, Real.cos_pi_div_two_sub, Real.sin_pi_div_two_sub]
    have e1 : (y - cy) * Real.sin t + (x - cx) * Real.cos t = (x - cx) * Real.cos t + (y - cy) * Real.sin t := by ring
    have e2 : (((x - cx) * Real.sin t - (y - cy) * Real.cos t) / b) ^ 2 = (((y - cy) * Real.cos t - (x - cx) * Real.sin t) / b) ^ 2 := by
      rw [← neg_sq]; congr 1; ring
    rw [e1, e2]
  cases hm with
  | exact =>
    show (volume _).toReal = (volume _).toReal
    congr 1
    have hpre : (MeasurableEquiv.prodComm : ℝ × ℝ ≃ᵐ ℝ × ℝ) ⁻¹' (pixelSquare j i ∩ Ellipse.set ⟨cy, cx, a, b, Real.pi / 2 - t⟩) =
        pixelSquare i j ∩ Ellipse.set ⟨cx, cy, a, b, t⟩ := by
      ext ⟨x, y⟩
      show (y, x) ∈ (pixelSquare j i ∩ Ellipse.set ⟨cy, cx, a, b, Real.pi / 2 - t⟩ : Set (ℝ × ℝ)) ↔ _
      simp only [Set.mem_inter_iff, hmem x y, pixelSquare, Set.mem_prod]
      tauto
    rw [← hpre]
    have mp : MeasurePreserving (MeasurableEquiv.prodComm : ℝ × ℝ ≃ᵐ ℝ × ℝ) volume volume := by
      rw [Measure.volume_eq_prod]; exact Measure.measurePreserving_swap
    exact (mp.measure_preimage_equiv _).symm
  | center =>
    classical
    exact if_congr (hmem _ _) rfl rfl
  | subpixel s hs =>
    simp only [subpixelOverlap]
    congr 2
    apply Finset.card_nbij' Prod.swap Prod.swap
    · intro k hk
      simp only [Finset.coe_filter, Finset.mem_product, Finset.mem_range, Set.mem_setOf_eq, hmem] at hk ⊢
      exact ⟨⟨hk.1.2, hk.1.1⟩, hk.2⟩
    · intro k hk
      simp only [Finset.coe_filter, Finset.mem_product, Finset.mem_range, Set.mem_setOf_eq, hmem] at hk ⊢
      exact ⟨⟨hk.1.2, hk.1.1⟩, hk.2⟩
    · intro k _; exact Prod.swap_swap k
    · intro k _; exact Prod.swap_swap k

theorem hits_transposed (cx cy a b t : ℝ) (h w : Nat) :
    boxHits ⟨cy, cx, a, b, Real.pi / 2 - t⟩ w h = boxHits ⟨cx, cy, a, b, t⟩ h w := by
  unfold boxHits Ellipse.xExtent Ellipse.yExtent
  simp only [Real.cos_pi_div_two_sub, Real.sin_pi_div_two_sub]
  rw [decide_eq_decide]
  tauto

/-- Mirror image. -/
theorem weight_mirrored {ov : Overlap ℝ} (hm : Method ov) (cx cy a b t : ℝ) (w i j : Nat) (hj : j < w) :
    ov.weight ⟨w - 1 - cx, cy, a, b, -t⟩ i (w - 1 - j) = ov.weight ⟨cx, cy, a, b, t⟩ i j := by
  have hmem : ∀ x y : ℝ, ((w : ℝ) - 1 - x, y) ∈ Ellipse.set ⟨w - 1 - cx, cy, a, b, -t⟩ ↔ (x, y) ∈ Ellipse.set ⟨cx, cy, a, b, t⟩ := by
    intro x y
    simp only [Ellipse.set, Set.mem_setOf_eq, Real.cos_neg, Real.sin_neg]
    have e1 : (((w : ℝ) - 1 - x - (w - 1 - cx)) * Real.cos t + (y - cy) * -Real.sin t) =
        -((x - cx) * Real.cos t + (y - cy) * Real.sin t) := by ring
    have e2 : (y - cy) * Real.cos t - ((w : ℝ) - 1 - x - (w - 1 - cx)) * -Real.sin t =
        (y - cy) * Real.cos t - (x - cx) * Real.sin t := by ring
    rw [e1, e2, neg_div, neg_sq]
  have hcast : ((w - 1 - j : Nat) : ℝ) = w - 1 - j := by
    rw [Nat.cast_sub (by omega), Nat.cast_sub (by omega)]; simp
  cases hm with
  | exact =>
    rw [exact_weight_open, exact_weight_open]
    congr 1
    have hpre : (fun p : ℝ × ℝ => ((w : ℝ) - 1 - p.1, p.2)) ⁻¹' (openPixel i (w - 1 - j) ∩ Ellipse.set ⟨w - 1 - cx, cy, a, b, -t⟩) =
        openPixel i j ∩ Ellipse.set ⟨cx, cy, a, b, t⟩ := by
      ext ⟨x, y⟩
      simp only [Set.mem_preimage, Set.mem_inter_iff, hmem x y, openPixel, Set.mem_prod, Set.mem_Ioo, hcast]
      refine and_congr_left fun _ => and_congr_left fun _ => ?_
      constructor <;> rintro ⟨h1, h2⟩ <;> constructor <;> linarith
    rw [← hpre]
    let eq : ℝ × ℝ ≃ᵐ ℝ × ℝ := (MeasurableEquiv.subLeft ((w : ℝ) - 1)).prodCongr (MeasurableEquiv.refl ℝ)
    have mp : MeasurePreserving eq volume volume := by
      rw [Measure.volume_eq_prod]
      exact (Measure.measurePreserving_sub_left volume ((w : ℝ) - 1)).prod (MeasurePreserving.id volume)
    exact (mp.measure_preimage_equiv _).symm
  | center =>
    have := hmem j i
    rw [← hcast] at this
    classical
    exact if_congr this rfl rfl
  | subpixel s hs =>
    have hs0 : (s : ℝ) ≠ 0 := by exact_mod_cast hs.ne'
    have pt : ∀ k : Nat, k < s → ((w - 1 - j : Nat) : ℝ) - 1 / 2 + (((s - 1 - k : Nat) : ℝ) + 1 / 2) / s =
        (w : ℝ) - 1 - ((j : ℝ) - 1 / 2 + ((k : ℝ) + 1 / 2) / s) := by
      intro k hk
      have : ((s - 1 - k : Nat) : ℝ) = s - 1 - k := by
        rw [Nat.cast_sub (by omega), Nat.cast_sub (by omega)]; simp
      rw [hcast, this]
      field_simp
      ring
    simp only [subpixelOverlap]
    congr 2
    apply Finset.card_nbij' (fun k : Nat × Nat => (s - 1 - k.1, k.2)) (fun k : Nat × Nat => (s - 1 - k.1, k.2))
    · intro k hk
      simp only [Finset.coe_filter, Finset.mem_product, Finset.mem_range, Set.mem_setOf_eq] at hk ⊢
      obtain ⟨⟨h1, h2⟩, h3⟩ := hk
      refine ⟨⟨by omega, h2⟩, ?_⟩
      rw [← hmem, ← pt (s - 1 - k.1) (by omega)]
      have : s - 1 - (s - 1 - k.1) = k.1 := by omega
      rw [this]
      exact h3
    · intro k hk
      simp only [Finset.coe_filter, Finset.mem_product, Finset.mem_range, Set.mem_setOf_eq] at hk ⊢
      obtain ⟨⟨h1, h2⟩, h3⟩ := hk
      refine ⟨⟨by omega, h2⟩, ?_⟩
      rw [pt k.1 h1, hmem]
      exact h3
    · intro k hk
      simp only [Finset.coe_filter, Finset.mem_product, Finset.mem_range, Set.mem_setOf_eq] at hk
      ext
      · show s - 1 - (s - 1 - k.1) = k.1; omega
      · rfl
    · intro k hk
      simp only [Finset.coe_filter, Finset.mem_product, Finset.mem_range, Set.mem_setOf_eq] at hk
      ext
      · show s - 1 - (s - 1 - k.1) = k.1; omega
      · rfl

theorem hits_mirrored (cx cy a b t : ℝ) (h w : Nat) :
    boxHits ⟨w - 1 - cx, cy, a, b, -t⟩ h w = boxHits ⟨cx, cy, a, b, t⟩ h w := by
  unfold boxHits Ellipse.xExtent Ellipse.yExtent
  simp only [Real.cos_neg, Real.sin_neg, mul_neg, neg_sq]
  rw [decide_eq_decide]
  simp only [Int.floor_lt, Int.ceil_pos, Int.cast_natCast]
  refine ⟨?_, ?_⟩ <;> rintro ⟨h1, h2, h3, h4⟩ <;> exact ⟨by linarith, by linarith, h3, h4⟩

/-- Translation. -/
theorem weight_shifted {ov : Overlap ℝ} (hm : Method ov) (cx cy a b t : ℝ) (y0 x0 i j : Nat) :
    ov.weight ⟨x0 + cx, y0 + cy, a, b, t⟩ (y0 + i) (x0 + j) = ov.weight ⟨cx, cy, a, b, t⟩ i j := by
  have hmem : ∀ x y : ℝ, ((x0 : ℝ) + x, (y0 : ℝ) + y) ∈ Ellipse.set ⟨x0 + cx, y0 + cy, a, b, t⟩ ↔ (x, y) ∈ Ellipse.set ⟨cx, cy, a, b, t⟩ := by
    intro x y
    simp only [Ellipse.set, Set.mem_setOf_eq, add_sub_add_left_eq_sub]
  cases hm with
  | exact =>
    show (volume _).toReal = (volume _).toReal
    congr 1
    have hpre : (fun p : ℝ × ℝ => ((x0 : ℝ) + p.1, (y0 : ℝ) + p.2)) ⁻¹'
        (pixelSquare (y0 + i) (x0 + j) ∩ Ellipse.set ⟨x0 + cx, y0 + cy, a, b, t⟩) = pixelSquare i j ∩ Ellipse.set ⟨cx, cy, a, b, t⟩ := by
      ext ⟨x, y⟩
      simp only [Set.mem_preimage, Set.mem_inter_iff, hmem x y, pixelSquare, Set.mem_prod, Set.mem_Ioc, Nat.cast_add]
      refine and_congr_left fun _ => and_congr ?_ ?_ <;> constructor <;> rintro ⟨h1, h2⟩ <;> constructor <;> linarith
    rw [← hpre]
    let eq : ℝ × ℝ ≃ᵐ ℝ × ℝ := (MeasurableEquiv.addLeft (x0 : ℝ)).prodCongr (MeasurableEquiv.addLeft (y0 : ℝ))
    have mp : MeasurePreserving eq volume volume := by
      rw [Measure.volume_eq_prod]
      exact (measurePreserving_add_left volume (x0 : ℝ)).prod (measurePreserving_add_left volume (y0 : ℝ))
    exact (mp.measure_preimage_equiv _).symm
  | center =>
    have := hmem j i
    rw [← Nat.cast_add, ← Nat.cast_add] at this
    classical
    exact if_congr this rfl rfl
  | subpixel s hs =>
    have e : ∀ c n k : ℝ, c + n - 1 / 2 + k = c + (n - 1 / 2 + k) := by intro c n k; ring
    classical
    simp only [subpixelOverlap]
    congr 2
    apply congrArg Finset.card
    apply Finset.filter_congr
    intro k _
    rw [Nat.cast_add, Nat.cast_add, e, e, hmem]

/-! ### The theorems -/

theorem carriesOpt_map {α : Type} {φ : Nat × Nat → Nat × Nat} {h w h' w' : Nat} (o : Option (Img α)) (f : Img α → Img α)
    (hs : ∀ a ∈ o, ((a.h = h ∧ a.w = w) ↔ ((f a).h = h' ∧ (f a).w = w'))) (hc : ∀ a ∈ o, Carries φ h w a (f a)) :
    CarriesOpt φ h w h' w' o (o.map f) := by
  cases o with
  | none => exact Or.inl ⟨rfl, rfl⟩
  | some a => exact Or.inr ⟨a, f a, rfl, rfl, hs a rfl, hc a rfl⟩

/-- **C125, transposition.** The photometry of the transposed image, with swapped coordinates and the angle from the other axis, is the
same. -/
theorem C125_transposed {ov : Overlap ℝ} (hm : Method ov) (image : Img (F ℝ)) (cx cy : ℝ) (rs : List ℝ) (error : Option (Img (F ℝ)))
    (mask : Option (Img Bool)) (q t : ℝ) :
    radialPhotometry ov (transposed image) cy cx rs (error.map transposed) (mask.map transposed) q (Real.pi / 2 - t) =
      radialPhotometry ov image cx cy rs error mask q t := by
  have sh : ∀ {α : Type} (a : Img α), ((a.h = image.h ∧ a.w = image.w) ↔ ((transposed a).h = (transposed image).h ∧ (transposed a).w = (transposed image).w)) :=
    fun a => ⟨fun h => ⟨h.2, h.1⟩, fun h => ⟨h.2, h.1⟩⟩
  refine radialPhotometry_moves (φ := Prod.swap) (fun r _ _ _ => ⟨?_, ?_, ?_, ?_, ?_⟩) (fun p _ => rfl)
    (carriesOpt_map _ _ (fun a _ => sh a) (fun a _ p _ => rfl)) (carriesOpt_map _ _ (fun a _ => sh a) (fun a _ p _ => rfl))
  · intro p _ q _ h; exact Prod.swap_injective h
  · rintro ⟨i, j⟩ h
    rw [mem_pixels] at h
    exact mem_pixels.2 ⟨h.2, h.1⟩
  · rintro ⟨i, j⟩ h _
    rw [mem_pixels] at h
    exact ⟨(j, i), mem_pixels.2 ⟨h.2, h.1⟩, rfl⟩
  · intro p _; exact weight_transposed hm cx cy r (r / q) t p.1 p.2
  · rw [hm.hits_eq, hm.hits_eq]; exact hits_transposed cx cy r (r / q) t image.h image.w

/-- **C125, mirror image.** The photometry of the mirror image at the mirrored position and angle is the same. -/
theorem C125_mirrored {ov : Overlap ℝ} (hm : Method ov) (image : Img (F ℝ)) (cx cy : ℝ) (rs : List ℝ) (error : Option (Img (F ℝ)))
    (mask : Option (Img Bool)) (he : ∀ e ∈ error, e.h = image.h ∧ e.w = image.w) (hk : ∀ m ∈ mask, m.h = image.h ∧ m.w = image.w) (q t : ℝ) :
    radialPhotometry ov (mirrored image) (image.w - 1 - cx) cy rs (error.map mirrored) (mask.map mirrored) q (-t) =
      radialPhotometry ov image cx cy rs error mask q t := by
  have hc : ∀ {α : Type} (a : Img α), a.w = image.w → Carries (fun p => (p.1, image.w - 1 - p.2)) image.h image.w a (mirrored a) := by
    intro α a ha p hp
    obtain ⟨i, j⟩ := p
    rw [mem_pixels] at hp
    show a.px i (a.w - 1 - (image.w - 1 - j)) = a.px i j
    have : a.w - 1 - (image.w - 1 - j) = j := by omega
    rw [this]
  refine radialPhotometry_moves (φ := fun p => (p.1, image.w - 1 - p.2)) (fun r _ _ _ => ⟨?_, ?_, ?_, ?_, ?_⟩) (hc image rfl)
    (carriesOpt_map _ mirrored (fun a _ => Iff.rfl) (fun a ha => hc a (hk a ha).2)) (carriesOpt_map _ mirrored (fun a _ => Iff.rfl) (fun a ha => hc a (he a ha).2))
  · rintro ⟨i, j⟩ h1 ⟨i', j'⟩ h2 h
    rw [mem_pixels] at h1 h2
    simp only [Prod.mk.injEq] at h ⊢
    omega
  · rintro ⟨i, j⟩ h
    rw [mem_pixels] at h
    exact mem_pixels.2 ⟨h.1, by show image.w - 1 - j < image.w; omega⟩
  · rintro ⟨i, j⟩ h _
    have h : i < image.h ∧ j < image.w := mem_pixels.1 h
    refine ⟨(i, image.w - 1 - j), mem_pixels.2 ⟨h.1, by omega⟩, ?_⟩
    simp only [Prod.mk.injEq, true_and]
    omega
  · rintro ⟨i, j⟩ h
    exact weight_mirrored hm cx cy r (r / q) t image.w i j (mem_pixels.1 h).2
  · rw [hm.hits_eq, hm.hits_eq]; exact hits_mirrored cx cy r (r / q) t image.h image.w

/-- **C125, quarter turn.** The photometry of `np.rot90(image)`, at the rotated position and an angle that differs by a quarter turn, is
the same. -/
theorem C125_quarter_turn {ov : Overlap ℝ} (hm : Method ov) (image : Img (F ℝ)) (cx cy : ℝ) (rs : List ℝ) (error : Option (Img (F ℝ)))
    (mask : Option (Img Bool)) (he : ∀ e ∈ error, e.h = image.h ∧ e.w = image.w) (hk : ∀ m ∈ mask, m.h = image.h ∧ m.w = image.w) (q t : ℝ) :
    radialPhotometry ov (quarterTurn image) cy (image.w - 1 - cx) rs (error.map quarterTurn) (mask.map quarterTurn) q (Real.pi / 2 + t) =
      radialPhotometry ov image cx cy rs error mask q t := by
  rw [← C125_mirrored hm image cx cy rs error mask he hk q t,
    ← C125_transposed hm (mirrored image) (image.w - 1 - cx) cy rs (error.map mirrored) (mask.map mirrored) q (-t), sub_neg_eq_add,
    Option.map_map, Option.map_map]
  rfl

/-- **C126.** Photometry on a cutout is photometry on the image, for apertures inside the cutout. -/
theorem C126_cutout {ov : Overlap ℝ} (hm : Method ov) (image : Img (F ℝ)) (y0 x0 h w : Nat) (hh : y0 + h ≤ image.h) (hw : x0 + w ≤ image.w)
    (cx cy : ℝ) (rs : List ℝ) (error : Option (Img (F ℝ))) (mask : Option (Img Bool)) (he : ∀ e ∈ error, e.h = image.h ∧ e.w = image.w)
    (hk : ∀ m ∈ mask, m.h = image.h ∧ m.w = image.w) (q t : ℝ)
    (hin : ∀ r ∈ rs, 0 < r → 0 < r / q → ∀ p ∈ Ellipse.set ⟨cx, cy, r, r / q, t⟩,
      -(1 / 2) < p.1 ∧ p.1 < (w : ℝ) - 1 / 2 ∧ -(1 / 2) < p.2 ∧ p.2 < (h : ℝ) - 1 / 2) :
    radialPhotometry ov (cutoutOf image y0 x0 h w) cx cy rs (error.map (cutoutOf · y0 x0 h w)) (mask.map (cutoutOf · y0 x0 h w)) q t =
      radialPhotometry ov image (x0 + cx) (y0 + cy) rs error mask q t := by
  have hopt : ∀ {α : Type} (o : Option (Img α)), (∀ a ∈ o, a.h = image.h ∧ a.w = image.w) →
      CarriesOpt (fun p : Nat × Nat => (y0 + p.1, x0 + p.2)) h w image.h image.w (o.map (cutoutOf · y0 x0 h w)) o := by
    intro α o ho
    cases o with
    | none => exact Or.inl ⟨rfl, rfl⟩
    | some a => exact Or.inr ⟨cutoutOf a y0 x0 h w, a, rfl, rfl, ⟨fun _ => ho a rfl, fun _ => ⟨rfl, rfl⟩⟩, fun p _ => rfl⟩
  symm
  refine radialPhotometry_moves (image := cutoutOf image y0 x0 h w) (image' := image) (φ := fun p => (y0 + p.1, x0 + p.2))
    (fun r hr h1 h2 => ⟨?_, ?_, ?_, ?_, ?_⟩) (fun p _ => rfl) (hopt mask hk) (hopt error he)
  · rintro ⟨i, j⟩ _ ⟨i', j'⟩ _ h
    simp only [Prod.mk.injEq] at h ⊢
    omega
  · rintro ⟨i, j⟩ hp
    have hp : i < h ∧ j < w := mem_pixels.1 hp
    exact mem_pixels.2 ⟨by show y0 + i < _; omega, by show x0 + j < _; omega⟩
  · rintro ⟨i, j⟩ hp hpos
    have hp : i < image.h ∧ j < image.w := mem_pixels.1 hp
    -- a point of the aperture in the pixel
    obtain ⟨x, y, hxy, hx, hy⟩ := hm.point hpos
    have hxy' : (x - x0, y - y0) ∈ Ellipse.set ⟨cx, cy, r, r / q, t⟩ := by
      simp only [Ellipse.set, Set.mem_setOf_eq] at hxy ⊢
      have e1 : x - (x0 + cx) = x - x0 - cx := by ring
      have e2 : y - (y0 + cy) = y - y0 - cy := by ring
      rw [e1, e2] at hxy
      exact hxy
    obtain ⟨b1, b2, b3, b4⟩ := hin r hr h1 h2 _ hxy'
    simp only at b1 b2 b3 b4
    have c1 : x0 ≤ j := by
      have : (x0 : ℝ) < j + 1 := by linarith
      exact Nat.lt_succ_iff.1 (by exact_mod_cast this)
    have c2 : j < x0 + w := by
      have : (j : ℝ) < x0 + w := by linarith
      exact_mod_cast this
    have c3 : y0 ≤ i := by
      have : (y0 : ℝ) < i + 1 := by linarith
      exact Nat.lt_succ_iff.1 (by exact_mod_cast this)
    have c4 : i < y0 + h := by
      have : (i : ℝ) < y0 + h := by linarith
      exact_mod_cast this
    refine ⟨(i - y0, j - x0), mem_pixels.2 ⟨by show i - y0 < h; omega, by show j - x0 < w; omega⟩, ?_⟩
    simp only [Prod.mk.injEq]
    omega
  · rintro ⟨i, j⟩ _
    exact weight_shifted hm cx cy r (r / q) t y0 x0 i j
  · rw [hm.hits_eq, hm.hits_eq]
    have hc : (cx, cy) ∈ Ellipse.set ⟨cx, cy, r, r / q, t⟩ := by simp [Ellipse.set]
    obtain ⟨b1, b2, b3, b4⟩ := hin r hr h1 h2 _ hc
    simp only at b1 b2 b3 b4
    have e1 : 0 ≤ Real.sqrt ((r * Real.cos t) ^ 2 + (r / q * Real.sin t) ^ 2) := Real.sqrt_nonneg _
    have e2 : 0 ≤ Real.sqrt ((r * Real.sin t) ^ 2 + (r / q * Real.cos t) ^ 2) := Real.sqrt_nonneg _
    have hw' : (x0 : ℝ) + w ≤ image.w := by exact_mod_cast hw
    have hh' : (y0 : ℝ) + h ≤ image.h := by exact_mod_cast hh
    have p1 : (0 : ℝ) ≤ x0 := Nat.cast_nonneg _
    have p2 : (0 : ℝ) ≤ y0 := Nat.cast_nonneg _
    unfold boxHits Ellipse.xExtent Ellipse.yExtent
    rw [decide_eq_decide]
    simp only [Int.floor_lt, Int.ceil_pos, Int.cast_natCast, cutoutOf]
    constructor <;> intro _ <;> exact ⟨by linarith, by linarith, by linarith, by linarith⟩

/-- **C126, by radius.** It is enough that the largest radius fits between the position and the edges of the cutout. -/
theorem C126_radius {ov : Overlap ℝ} (hm : Method ov) (image : Img (F ℝ)) (y0 x0 h w : Nat) (hh : y0 + h ≤ image.h) (hw : x0 + w ≤ image.w)
    (cx cy : ℝ) (rs : List ℝ) (error : Option (Img (F ℝ))) (mask : Option (Img Bool)) (he : ∀ e ∈ error, e.h = image.h ∧ e.w = image.w)
    (hk : ∀ m ∈ mask, m.h = image.h ∧ m.w = image.w) (q t : ℝ) (hq : 1 ≤ q)
    (hin : ∀ r ∈ rs, r ≤ cx + 1 / 2 ∧ r ≤ (w : ℝ) - 1 / 2 - cx ∧ r ≤ cy + 1 / 2 ∧ r ≤ (h : ℝ) - 1 / 2 - cy) :
    radialPhotometry ov (cutoutOf image y0 x0 h w) cx cy rs (error.map (cutoutOf · y0 x0 h w)) (mask.map (cutoutOf · y0 x0 h w)) q t =
      radialPhotometry ov image (x0 + cx) (y0 + cy) rs error mask q t := by
  refine C126_cutout hm image y0 x0 h w hh hw cx cy rs error mask he hk q t fun r hr h1 h2 p hp => ?_
  obtain ⟨e1, e2⟩ := Ellipse.extent (e := ⟨cx, cy, r, r / q, t⟩) h1 h2 hp
  have hb : (r / q) ^ 2 ≤ r ^ 2 := pow_le_pow_left₀ h2.le (div_le_self h1.le hq) 2
  have hcs := Real.cos_sq_add_sin_sq t
  have k1 : Real.sqrt ((r * Real.cos t) ^ 2 + (r / q * Real.sin t) ^ 2) ≤ r := by
    rw [Real.sqrt_le_left h1.le]
    nlinarith [mul_le_mul_of_nonneg_right hb (sq_nonneg (Real.sin t))]
  have k2 : Real.sqrt ((r * Real.sin t) ^ 2 + (r / q * Real.cos t) ^ 2) ≤ r := by
    rw [Real.sqrt_le_left h1.le]
    nlinarith [mul_le_mul_of_nonneg_right hb (sq_nonneg (Real.cos t))]
  obtain ⟨g1, g2, g3, g4⟩ := hin r hr
  simp only [Ellipse.xExtent, Ellipse.yExtent] at e1 e2
  rw [abs_lt] at e1 e2
  exact ⟨by linarith, by linarith, by linarith, by linarith⟩

/-- Non-vacuity: radii up to three pixels around pixel (3, 3) of a 7 × 7 cutout of a 20 × 30 image. -/
example (image : Img (F ℝ)) (h1 : image.h = 20) (h2 : image.w = 30) (t : ℝ) :
    radialPhotometry exactOverlap (cutoutOf image 5 9 7 7) 3 3 [1, 2, 3] none none 2 t =
      radialPhotometry exactOverlap image (9 + 3) (5 + 3) [1, 2, 3] none none 2 t := by
  have := C126_radius Method.exact image 5 9 7 7 (by omega) (by omega) 3 3 [1, 2, 3] none none (by simp) (by simp) 2 t (by norm_num)
    (by intro r hr; simp only [List.mem_cons, List.not_mem_nil, or_false] at hr; rcases hr with rfl | rfl | rfl <;> norm_num)
  simpa using this

end Verif.Props

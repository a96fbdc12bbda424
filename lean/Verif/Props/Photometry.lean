import Verif.Lemmas.Photometry
import Verif.Model.Overlap
import Verif.Props.PetrosianProfile

/-!
# C42-C46: aperture photometry
-/

set_option linter.unusedSectionVars false
set_option linter.unusedVariables false
set_option linter.unusedSimpArgs false

namespace Verif.Props

open Verif F Spec

variable {K : Type} [Field K] [LinearOrder K] [IsStrictOrderedRing K] [HasSqrt K] [FloorRing K] {ov : Overlap K}

theorem pairwise_of_forall₂ {α β : Type} {R : α → β → Prop} {S : α → α → Prop} {T : β → β → Prop} {l : List α} {m : List β}
    (h : List.Forall₂ R l m) (hl : l.Pairwise S) (hST : ∀ a b x y, R a x → R b y → S a b → T x y) : m.Pairwise T := by
  induction h with
  | nil => exact .nil
  | @cons a x l m hax h ih =>
    rw [List.pairwise_cons] at hl ⊢
    refine ⟨?_, ih hl.2⟩
    intro y hy
    obtain ⟨i, hi, rfl⟩ := List.getElem_of_mem hy
    have hi' : i < l.length := by rw [h.length_eq]; exact hi
    have := (List.forall₂_iff_get.1 h).2 i hi' hi
    exact hST _ _ _ _ hax this (hl.1 _ (List.getElem_mem hi'))

/-! ### C42 -/

/-- **C42, areas.** Whenever `radial_photometry` returns for a non-decreasing list of radii, the areas are finite and non-decreasing, for
every image, error map, mask, geometry and lawful overlap method; with at least three radii `calculate_petrosian` accepts the
result. -/
theorem C42_areas (hov : OverlapLaw ov) (image : Img (F K)) (cx cy : K) (rs : List K) (error : Option (Img (F K)))
    (mask : Option (Img Bool)) (q t : K) (fl ar er : List (F K)) (hr : rs.Pairwise (· ≤ ·))
    (h : radialPhotometry ov image cx cy rs error mask q t = .ok (fl, ar, er)) :
    (∃ A : List K, ar = A.map fin ∧ A.Pairwise (· ≤ ·) ∧ ∀ x ∈ A, 0 ≤ x) ∧
    (3 ≤ rs.length → ∃ res, calculatePetrosian ar fl = .ok res) := by
  obtain ⟨l, hl, rfl, rfl, rfl⟩ := radialPhotometry_ok.1 h
  have hA : ∃ A : List K, l.map (·.2.1) = A.map fin ∧ A.Pairwise (· ≤ ·) ∧ ∀ x ∈ A, 0 ≤ x := by
    refine ⟨rs.map fun r => round6 (weightedSum (ov.weight ⟨cx, cy, r, r / q, t⟩) image.h image.w (Used mask) fun _ _ => 1), ?_, ?_, ?_⟩
    · clear h hr
      induction hl with
      | nil => rfl
      | @cons r p rs l hp _ ih =>
        obtain ⟨v, a, e⟩ := p
        obtain ⟨_, _, _, _, _, _, _, ha, _⟩ := (photometryAt_ok hov).1 hp
        simp only [List.map_cons, ha, ih]
    · have : ∀ r ∈ rs, 0 < r ∧ 0 < q := by
        intro r hr
        obtain ⟨i, hi, rfl⟩ := List.getElem_of_mem hr
        have hi' : i < l.length := by rw [← hl.length_eq]; exact hi
        have hp := (List.forall₂_iff_get.1 hl).2 i hi hi'
        simp only [List.get_eq_getElem] at hp
        rcases hlp : l[i] with ⟨v, a, e⟩
        rw [hlp] at hp
        obtain ⟨h1, h2, _⟩ := (photometryAt_ok hov).1 hp
        exact ⟨h1, h2⟩
      rw [List.pairwise_map]
      apply hr.imp_of_mem
      intro r r' hm hm' hle
      apply round6_mono
      apply weightedSum_mono
      · intro i j _ _
        exact hov.nested cx cy q t r r' i j (this r hm).2 (this r hm).1 hle
      · intros; norm_num
    · intro x hx
      obtain ⟨r, _, rfl⟩ := List.mem_map.1 hx
      rw [← round6_zero]
      apply round6_mono
      unfold weightedSum
      apply Finset.sum_nonneg; intro i _
      apply Finset.sum_nonneg; intro j _
      split
      · simpa using hov.nonneg _ i j
      · exact le_rfl
  refine ⟨hA, ?_⟩
  intro h3
  obtain ⟨A, hA1, hA2, _⟩ := hA
  apply ((C02_validation _ _ none none).2).2
  have hlen : A.length = l.length := by
    have := congrArg List.length hA1
    simpa using this.symm
  refine ⟨by simp, by simpa [← hl.length_eq] using h3, ?_, by simp, by simp⟩
  intro i hi
  have hi1 : i + 1 < A.length := by simpa [hlen] using hi
  have e1 : (l.map (·.2.1))[i]? = some (fin A[i]) := by rw [hA1]; simp
  have e2 : (l.map (·.2.1))[i + 1]? = some (fin A[i + 1]) := by rw [hA1]; simp
  rw [List.getElem?_eq_getElem (by omega)] at e1
  rw [List.getElem?_eq_getElem hi] at e2
  simp only [Option.some.injEq] at e1 e2
  rw [e1, e2]
  refine ⟨?_, by simp⟩
  simpa using List.pairwise_iff_getElem.1 hA2 i (i + 1) (by omega) hi1 (by omega)

/-- **C42, fluxes.** If moreover the image is finite and non-negative on the pixels in use, the fluxes are finite and non-decreasing. -/
theorem C42_fluxes (hov : OverlapLaw ov) (image : Img (F K)) (f : Nat → Nat → K) (cx cy : K) (rs : List K)
    (error : Option (Img (F K))) (mask : Option (Img Bool)) (q t : K) (fl ar er : List (F K)) (hr : rs.Pairwise (· ≤ ·))
    (hf : ∀ i j, i < image.h → j < image.w → Used mask i j = true → image.px i j = fin (f i j) ∧ 0 ≤ f i j)
    (h : radialPhotometry ov image cx cy rs error mask q t = .ok (fl, ar, er)) :
    ∃ V : List K, fl = V.map fin ∧ V.Pairwise (· ≤ ·) ∧ ∀ x ∈ V, 0 ≤ x := by
  obtain ⟨l, hl, rfl, rfl, rfl⟩ := radialPhotometry_ok.1 h
  refine ⟨rs.map fun r => round6 (weightedSum (ov.weight ⟨cx, cy, r, r / q, t⟩) image.h image.w (Used mask) f), ?_, ?_, ?_⟩
  · clear h hr
    induction hl with
    | nil => rfl
    | @cons r p rs l hp _ ih =>
      obtain ⟨v, a, e⟩ := p
      obtain ⟨_, _, _, _, _, _, hv, _, _⟩ := (photometryAt_ok hov).1 hp
      rw [rawSum, npSum_good hov _ _ _ mask image.px f (fun i j hi hj _ hu => (hf i j hi hj hu).1)] at hv
      simp only [List.map_cons, hv, ih, npRound6_fin]
  · have : ∀ r ∈ rs, 0 < r ∧ 0 < q := by
      intro r hr
      obtain ⟨i, hi, rfl⟩ := List.getElem_of_mem hr
      have hi' : i < l.length := by rw [← hl.length_eq]; exact hi
      have hp := (List.forall₂_iff_get.1 hl).2 i hi hi'
      simp only [List.get_eq_getElem] at hp
      rcases hlp : l[i] with ⟨v, a, e⟩
      rw [hlp] at hp
      obtain ⟨h1, h2, _⟩ := (photometryAt_ok hov).1 hp
      exact ⟨h1, h2⟩
    rw [List.pairwise_map]
    apply hr.imp_of_mem
    intro r r' hm hm' hle
    apply round6_mono
    apply weightedSum_mono
    · intro i j _ _
      exact hov.nested cx cy q t r r' i j (this r hm).2 (this r hm).1 hle
    · intro i j hi hj hu; exact (hf i j hi hj hu).2
  · intro x hx
    obtain ⟨r, _, rfl⟩ := List.mem_map.1 hx
    rw [← round6_zero]
    apply round6_mono
    unfold weightedSum
    apply Finset.sum_nonneg; intro i hi
    apply Finset.sum_nonneg; intro j hj
    rw [Finset.mem_range] at hi hj
    split
    · rename_i hu
      exact mul_nonneg (hf i j hi hj hu).2 (hov.nonneg _ i j)
    · exact le_rfl

/-- The three photutils methods are covered. -/
theorem C42_methods : OverlapLaw exactOverlap ∧ OverlapLaw centerOverlap ∧ ∀ s, 0 < s → OverlapLaw (subpixelOverlap s) :=
  ⟨exactOverlap_law, centerOverlap_law, subpixelOverlap_law⟩

/-! ### C43 -/

/-- **C43.** Two images, and two error maps, of equal shape that agree on the pixels in use give the same result (the same arrays or the
same exception), whatever the other pixels hold. -/
theorem C43_masked (image image' : Img (F K)) (cx cy : K) (rs : List K) (error error' : Option (Img (F K)))
    (mask : Option (Img Bool)) (q t : K) (hh : image'.h = image.h) (hw : image'.w = image.w)
    (hpx : ∀ i j, i < image.h → j < image.w → Used mask i j = true → image'.px i j = image.px i j)
    (herr : (error = none ∧ error' = none) ∨ ∃ e e', error = some e ∧ error' = some e' ∧ e'.h = e.h ∧ e'.w = e.w ∧
      ∀ i j, i < image.h → j < image.w → Used mask i j = true → e'.px i j = e.px i j) :
    radialPhotometry ov image' cx cy rs error' mask q t = radialPhotometry ov image cx cy rs error mask q t := by
  have hgood : ∀ e : Ellipse K, goodPixels ov e image'.h image'.w (inv mask) = goodPixels ov e image.h image.w (inv mask) := by
    intro e; rw [hh, hw]
  have hmap : ∀ (e : Ellipse K) (g g' : Nat → Nat → F K),
      (∀ i j, i < image.h → j < image.w → Used mask i j = true → g' i j = g i j) →
      (goodPixels ov e image.h image.w (inv mask)).map (fun p => g' p.1 p.2 * fin (ov.weight e p.1 p.2)) =
      (goodPixels ov e image.h image.w (inv mask)).map (fun p => g p.1 p.2 * fin (ov.weight e p.1 p.2)) := by
    intro e g g' hg
    apply List.map_congr_left
    intro p hp
    obtain ⟨a, b, _, d⟩ := mem_goodPixels.1 hp
    rw [hg p.1 p.2 a b d]
  have hs : ∀ {β : Type} (o : Option (Img β)), shapeOk image' o = shapeOk image o := by
    intro β o
    cases o with
    | none => rfl
    | some x => simp [shapeOk, hh, hw]
  have hs' : shapeOk image error' = shapeOk image error := by
    rcases herr with ⟨rfl, rfl⟩ | ⟨e, e', rfl, rfl, h1, h2, _⟩
    · rfl
    · simp [shapeOk, h1, h2]
  have hphot : ∀ e : Ellipse K, doPhotometry ov e image' error' (inv mask) = doPhotometry ov e image error (inv mask) := by
    intro e
    unfold doPhotometry
    simp only [hs, hs', hh, hw, hmap e image.px image'.px hpx]
    rcases herr with ⟨rfl, rfl⟩ | ⟨e1, e1', rfl, rfl, _, _, h3⟩
    · rfl
    · simp only [hmap e (fun i j => F.sq (e1.px i j)) (fun i j => F.sq (e1'.px i j)) (fun i j a b c => by rw [h3 i j a b c])]
  have harea : (image'.map fun _ => (fin 1 : F K)) = (image.map fun _ => (fin 1 : F K)) := by
    unfold Img.map; rw [hh, hw]
  unfold radialPhotometry
  have : ∀ r, photometryAt ov image' cx cy error' (inv mask) q t r = photometryAt ov image cx cy error (inv mask) q t r := by
    intro r
    unfold photometryAt
    simp only [hphot, harea]
  have h2 : (fun r => photometryAt ov image' cx cy error' (inv mask) q t r) =
      fun r => photometryAt ov image cx cy error (inv mask) q t r := funext this
  show (rs.mapM (fun r => photometryAt ov image' cx cy error' (inv mask) q t r) >>= _) = _
  rw [h2]
  rfl

/-- **C43, all-True mask.** An all-True mask of the right shape is the same as no mask. -/
theorem C43_all_true (image : Img (F K)) (cx cy : K) (rs : List K) (error : Option (Img (F K))) (m : Img Bool) (q t : K)
    (hh : m.h = image.h) (hw : m.w = image.w) (hm : ∀ i j, i < image.h → j < image.w → m.px i j = true) :
    radialPhotometry ov image cx cy rs error (some m) q t = radialPhotometry ov image cx cy rs error none q t := by
  have hgood : ∀ e : Ellipse K, goodPixels ov e image.h image.w (inv (some m)) = goodPixels ov e image.h image.w (inv none) := by
    intro e
    unfold goodPixels
    apply List.filter_congr
    rintro ⟨i, j⟩ hp
    rw [mem_pixels] at hp
    simp [inv, Img.map, hm i j hp.1 hp.2]
  have hphot : ∀ (d : Img (F K)) (e : Ellipse K) (er : Option (Img (F K))), d.h = image.h → d.w = image.w →
      doPhotometry ov e d er (inv (some m)) = doPhotometry ov e d er (inv none) := by
    intro d e er h1 h2
    have hs : shapeOk d (inv (some m)) = shapeOk d (inv none) := by
      simp [shapeOk, inv, Img.map, hh, hw, h1, h2]
    unfold doPhotometry
    rw [hs, h1, h2, hgood]
  have h2 : (fun r => photometryAt ov image cx cy error (inv (some m)) q t r) =
      fun r => photometryAt ov image cx cy error (inv none) q t r := by
    funext r
    unfold photometryAt
    simp only [hphot image _ _ rfl rfl, hphot (image.map fun _ => fin 1) _ _ rfl rfl]
  show (rs.mapM (fun r => photometryAt ov image cx cy error (inv (some m)) q t r) >>= _) =
    (rs.mapM (fun r => photometryAt ov image cx cy error (inv none) q t r) >>= _)
  rw [h2]

/-- **C43, area.** The area is the rounded weight of the pixels in use. -/
theorem C43_area (hov : OverlapLaw ov) (image : Img (F K)) (cx cy r : K) (error : Option (Img (F K))) (mask : Option (Img Bool))
    (q t : K) (fl ar er : List (F K)) (h : radialPhotometry ov image cx cy [r] error mask q t = .ok (fl, ar, er)) :
    ar = [fin (round6 (weightedSum (ov.weight ⟨cx, cy, r, r / q, t⟩) image.h image.w (Used mask) fun _ _ => 1))] := by
  obtain ⟨l, hl, rfl, rfl, rfl⟩ := radialPhotometry_ok.1 h
  cases hl with
  | cons hp hn =>
    cases hn
    rename_i p
    obtain ⟨v, a, e⟩ := p
    obtain ⟨_, _, _, _, _, _, _, ha, _⟩ := (photometryAt_ok hov).1 hp
    simp [ha]

/-! ### C44 -/

/-- **C44.** A result has three arrays of the length of the radius list and no flux is NaN; without an error map all errors are NaN, and
with finite errors on the pixels in use none is. -/
theorem C44_no_nan (hov : OverlapLaw ov) (image : Img (F K)) (cx cy : K) (rs : List K) (error : Option (Img (F K)))
    (mask : Option (Img Bool)) (q t : K) (fl ar er : List (F K))
    (h : radialPhotometry ov image cx cy rs error mask q t = .ok (fl, ar, er)) :
    fl.length = rs.length ∧ ar.length = rs.length ∧ er.length = rs.length ∧ (∀ v ∈ fl, v ≠ nan) ∧ (∀ v ∈ ar, v ≠ nan) ∧
    (error = none → ∀ v ∈ er, v = nan) ∧
    (∀ (e : Img (F K)) (f : Nat → Nat → K), error = some e →
      (∀ i j, i < image.h → j < image.w → Used mask i j = true → e.px i j = fin (f i j)) → ∀ v ∈ er, v ≠ nan) := by
  obtain ⟨l, hl, rfl, rfl, rfl⟩ := radialPhotometry_ok.1 h
  have hmem : ∀ p ∈ l, ∃ r, photometryAt ov image cx cy error (inv mask) q t r = .ok p := by
    intro p hp
    obtain ⟨i, hi, rfl⟩ := List.getElem_of_mem hp
    have hi' : i < rs.length := by rw [hl.length_eq]; exact hi
    exact ⟨_, (List.forall₂_iff_get.1 hl).2 i hi' hi⟩
  refine ⟨by simp [hl.length_eq], by simp [hl.length_eq], by simp [hl.length_eq], ?_, ?_, ?_, ?_⟩
  · intro v hv
    obtain ⟨⟨v, a, e⟩, hp, rfl⟩ := List.mem_map.1 hv
    obtain ⟨r, hr⟩ := hmem _ hp
    obtain ⟨_, _, _, _, _, hn, hv', _, _⟩ := (photometryAt_ok hov).1 hr
    rintro rfl
    rw [← npRound6_isNaN, ← hv'] at hn
    cases hn
  · intro v hv
    obtain ⟨⟨v, a, e⟩, hp, rfl⟩ := List.mem_map.1 hv
    obtain ⟨r, hr⟩ := hmem _ hp
    obtain ⟨_, _, _, _, _, _, _, ha, _⟩ := (photometryAt_ok hov).1 hr
    simp [ha]
  · rintro rfl v hv
    obtain ⟨⟨v, a, e⟩, hp, rfl⟩ := List.mem_map.1 hv
    obtain ⟨r, hr⟩ := hmem _ hp
    obtain ⟨_, _, _, _, _, _, _, _, he⟩ := (photometryAt_ok hov).1 hr
    exact he
  · rintro e f rfl hf v hv
    obtain ⟨⟨v, a, e'⟩, hp, rfl⟩ := List.mem_map.1 hv
    obtain ⟨r, hr⟩ := hmem _ hp
    obtain ⟨_, _, _, _, _, _, _, _, he⟩ := (photometryAt_ok hov).1 hr
    simp only [rawErr] at he
    rw [npSum_good hov _ _ _ mask (fun i j => F.sq (e.px i j)) (fun i j => f i j * f i j)
      (fun i j a b _ d => by rw [hf i j a b d]; rfl)] at he
    have hnn : 0 ≤ weightedSum (ov.weight ⟨cx, cy, r, r / q, t⟩) image.h image.w (Used mask) (fun i j => f i j * f i j) := by
      unfold weightedSum
      apply Finset.sum_nonneg; intro i _
      apply Finset.sum_nonneg; intro j _
      split
      · exact mul_nonneg (mul_self_nonneg _) (hov.nonneg _ i j)
      · exact le_rfl
    rw [he]
    simp [F.sqrt, not_lt.2 hnn, npRound6]

/-- **C44, NaN pixels.** A NaN in a pixel that is in use and has positive weight in one of the apertures makes the call raise. -/
theorem C44_raises (hov : OverlapLaw ov) (image : Img (F K)) (cx cy : K) (rs : List K) (error : Option (Img (F K)))
    (mask : Option (Img Bool)) (q t r : K) (hr : r ∈ rs) (i j : Nat) (hi : i < image.h) (hj : j < image.w)
    (hu : Used mask i j = true) (hw : 0 < ov.weight ⟨cx, cy, r, r / q, t⟩ i j) (hn : image.px i j = nan) :
    ∃ err, radialPhotometry ov image cx cy rs error mask q t = .error err := by
  rcases h : radialPhotometry ov image cx cy rs error mask q t with err | ⟨fl, ar, er⟩
  · exact ⟨err, rfl⟩
  · exfalso
    obtain ⟨l, hl, -⟩ := radialPhotometry_ok.1 h
    obtain ⟨k, hk, rfl⟩ := List.getElem_of_mem hr
    have hk' : k < l.length := by rw [← hl.length_eq]; exact hk
    have hp := (List.forall₂_iff_get.1 hl).2 k hk hk'
    simp only [List.get_eq_getElem] at hp
    rcases hlp : l[k] with ⟨v, a, e⟩
    rw [hlp] at hp
    obtain ⟨_, _, _, _, _, hnn, _⟩ := (photometryAt_ok hov).1 hp
    have : rawSum ov ⟨cx, cy, rs[k], rs[k] / q, t⟩ image mask = nan := by
      apply npSum_nan
      rw [List.mem_map]
      exact ⟨(i, j), mem_goodPixels.2 ⟨hi, hj, hw, hu⟩, by simp [hn]⟩
    rw [this] at hnn
    cases hnn

/-- **C44, "exactly" is violated.** With an error map that is NaN in one pixel in use of positive weight the errors can be all NaN
although an error map is given. -/
theorem C44_nan_error_violated (hov : OverlapLaw ov) (image : Img (F K)) (cx cy : K) (rs : List K) (e : Img (F K))
    (mask : Option (Img Bool)) (q t : K) (fl ar er : List (F K)) (i j : Nat) (hi : i < image.h) (hj : j < image.w)
    (hu : Used mask i j = true) (hw : ∀ r ∈ rs, 0 < ov.weight ⟨cx, cy, r, r / q, t⟩ i j) (hn : e.px i j = nan)
    (h : radialPhotometry ov image cx cy rs (some e) mask q t = .ok (fl, ar, er)) : ∀ v ∈ er, v = nan := by
  obtain ⟨l, hl, rfl, rfl, rfl⟩ := radialPhotometry_ok.1 h
  intro v hv
  obtain ⟨⟨v, a, e'⟩, hp, rfl⟩ := List.mem_map.1 hv
  obtain ⟨k, hk, hlp⟩ := List.getElem_of_mem hp
  have hk' : k < rs.length := by rw [hl.length_eq]; exact hk
  have hp := (List.forall₂_iff_get.1 hl).2 k hk' hk
  simp only [List.get_eq_getElem] at hp
  rw [hlp] at hp
  obtain ⟨_, _, _, _, _, _, _, _, he⟩ := (photometryAt_ok hov).1 hp
  simp only [rawErr] at he
  rw [npSum_nan] at he
  · exact he
  · rw [List.mem_map]
    exact ⟨(i, j), mem_goodPixels.2 ⟨hi, hj, hw _ (List.getElem_mem hk'), hu⟩, by simp [hn, F.sq]⟩

/-! ### C45 -/

/-- **C45.** The unrounded flux of a finite image is the weighted sum over the pixels in use; it is additive and homogeneous in the image,
the unrounded area is the flux of the unit image, and a uniform image of level `c` has `c` times that. -/
theorem C45_linear (hov : OverlapLaw ov) (e : Ellipse K) (h w : Nat) (mask : Option (Img Bool)) (f g : Nat → Nat → K) (c : K) :
    rawSum ov e ⟨h, w, fun i j => fin (f i j)⟩ mask = fin (weightedSum (ov.weight e) h w (Used mask) f) ∧
    rawSum ov e ⟨h, w, fun i j => fin (f i j + g i j)⟩ mask =
      rawSum ov e ⟨h, w, fun i j => fin (f i j)⟩ mask + rawSum ov e ⟨h, w, fun i j => fin (g i j)⟩ mask ∧
    rawSum ov e ⟨h, w, fun i j => fin (c * f i j)⟩ mask = fin c * rawSum ov e ⟨h, w, fun i j => fin (f i j)⟩ mask ∧
    rawSum ov e ⟨h, w, fun _ _ => fin c⟩ mask =
      fin (c * weightedSum (ov.weight e) h w (Used mask) fun _ _ => 1) := by
  have key : ∀ f : Nat → Nat → K, rawSum ov e ⟨h, w, fun i j => fin (f i j)⟩ mask =
      fin (weightedSum (ov.weight e) h w (Used mask) f) := by
    intro f
    exact npSum_good hov e h w mask (fun i j => fin (f i j)) f (fun _ _ _ _ _ _ => rfl)
  refine ⟨key f, ?_, ?_, ?_⟩
  · rw [key f, key g, key (fun i j => f i j + g i j), fin_add]
    congr 1
    unfold weightedSum
    rw [← Finset.sum_add_distrib]
    apply Finset.sum_congr rfl; intro i _
    rw [← Finset.sum_add_distrib]
    apply Finset.sum_congr rfl; intro j _
    split <;> ring
  · rw [key f, key (fun i j => c * f i j), fin_mul]
    congr 1
    unfold weightedSum
    rw [Finset.mul_sum]
    apply Finset.sum_congr rfl; intro i _
    rw [Finset.mul_sum]
    apply Finset.sum_congr rfl; intro j _
    split <;> ring
  · rw [key (fun _ _ => c)]
    congr 1
    unfold weightedSum
    rw [Finset.mul_sum]
    apply Finset.sum_congr rfl; intro i _
    rw [Finset.mul_sum]
    apply Finset.sum_congr rfl; intro j _
    split <;> ring

/-- **C45, API.** What `radial_photometry` returns at every radius for a finite image is this sum and this area, each rounded to six
decimals, so at most `5e-7` away from them. -/
theorem C45_rounded (hov : OverlapLaw ov) (h w : Nat) (f : Nat → Nat → K) (cx cy : K) (rs : List K) (error : Option (Img (F K)))
    (mask : Option (Img Bool)) (q t : K) (fl ar er : List (F K))
    (hres : radialPhotometry ov ⟨h, w, fun i j => fin (f i j)⟩ cx cy rs error mask q t = .ok (fl, ar, er)) :
    List.Forall₂ (fun r v => ∃ x, v = fin x ∧
      |x - weightedSum (ov.weight ⟨cx, cy, r, r / q, t⟩) h w (Used mask) f| ≤ 1 / 2 / 10 ^ 6) rs fl ∧
    List.Forall₂ (fun r v => ∃ x, v = fin x ∧
      |x - weightedSum (ov.weight ⟨cx, cy, r, r / q, t⟩) h w (Used mask) fun _ _ => 1| ≤ 1 / 2 / 10 ^ 6) rs ar := by
  obtain ⟨l, hl, rfl, rfl, rfl⟩ := radialPhotometry_ok.1 hres
  clear hres
  constructor
  · induction hl with
    | nil => exact .nil
    | @cons r p rs l hp _ ih =>
      obtain ⟨v, a, e⟩ := p
      obtain ⟨_, _, _, _, _, _, hv, _, _⟩ := (photometryAt_ok hov).1 hp
      refine .cons ?_ ih
      rw [(C45_linear hov _ h w mask f f 0).1, npRound6_fin] at hv
      exact ⟨_, hv, abs_round6_sub _⟩
  · induction hl with
    | nil => exact .nil
    | @cons r p rs l hp _ ih =>
      obtain ⟨v, a, e⟩ := p
      obtain ⟨_, _, _, _, _, _, _, ha, _⟩ := (photometryAt_ok hov).1 hp
      refine .cons ?_ ih
      exact ⟨_, ha, abs_round6_sub _⟩

/-! ### C46 -/

/-- photutils `EllipticalAperture.area`. -/
noncomputable def apertureArea (e : Ellipse ℝ) : ℝ := Real.pi * e.a * e.b

/-- photutils `EllipticalAnnulus.area`. -/
noncomputable def annulusArea (e : Annulus ℝ) : ℝ := Real.pi * (e.aOut * e.bOut - e.aIn * e.bIn)

/-- **C46, apertures.** The aperture exists exactly for positive `r` and `elong`, with semi-axes `r` and `r / elong`; zero elongation
raises ZeroDivisionError and the other cases ValueError. -/
theorem C46_aperture (cx cy r q t : K) :
    (0 < r → 0 < q → radialEllipticalAperture cx cy r q t = .ok ⟨cx, cy, r, r / q, t⟩) ∧
    (q = 0 → radialEllipticalAperture cx cy r q t = .error .zeroDivisionError) ∧
    (q ≠ 0 → ¬ (0 < r ∧ 0 < q) → radialEllipticalAperture cx cy r q t = .error .valueError) := by
  refine ⟨fun h1 h2 => radialEllipticalAperture_ok.2 ⟨h1, h2, rfl⟩, ?_, ?_⟩
  · rintro rfl
    simp [radialEllipticalAperture]
  · intro hq h
    rcases he : radialEllipticalAperture cx cy r q t with err | e
    · unfold radialEllipticalAperture ellipticalAperture at he
      rw [if_neg hq] at he
      split at he
      · exact he.symm
      · cases he
    · exact absurd ⟨(radialEllipticalAperture_ok.1 he).1, (radialEllipticalAperture_ok.1 he).2.1⟩ h

/-- **C46, annuli.** For positive `r`, `dr` and `elong` the annulus lies between the two apertures of radius `r` and `r + dr`, and its
area is the difference of theirs. -/
theorem C46_annulus (cx cy r dr q t : ℝ) (hr : 0 < r) (hd : 0 < dr) (hq : 0 < q) :
    radialEllipticalAnnulus cx cy r dr q t = .ok ⟨cx, cy, r, r + dr, r / q, (r + dr) / q, t⟩ ∧
    annulusArea ⟨cx, cy, r, r + dr, r / q, (r + dr) / q, t⟩ =
      apertureArea ⟨cx, cy, r + dr, (r + dr) / q, t⟩ - apertureArea ⟨cx, cy, r, r / q, t⟩ ∧
    apertureArea ⟨cx, cy, r, r / q, t⟩ = Real.pi * r ^ 2 / q := by
  refine ⟨?_, ?_, ?_⟩
  · have hs : 0 < r + dr := by linarith
    have hb : (r + dr) / q * r / (r + dr) = r / q := by field_simp
    have h1 : ¬ r + dr ≤ r := by linarith
    have h2 : ¬ (r ≤ 0 ∨ r + dr ≤ 0 ∨ (r + dr) / q ≤ 0 ∨ (r + dr) / q * r / (r + dr) ≤ 0) := by
      rw [hb]
      have := div_pos hs hq
      have := div_pos hr hq
      push Not
      exact ⟨hr, hs, by assumption, by assumption⟩
    unfold radialEllipticalAnnulus ellipticalAnnulus
    simp only [hq.ne', h1, h2, if_false]
    rw [hb]
  · simp only [annulusArea, apertureArea]; ring
  · simp only [apertureArea]; ring

/-- **C46, empty annuli.** Without positive thickness the annulus is rejected. -/
theorem C46_annulus_rejects (cx cy r dr q t : K) (hq : q ≠ 0) (hd : dr ≤ 0) :
    radialEllipticalAnnulus cx cy r dr q t = .error .valueError := by
  unfold radialEllipticalAnnulus ellipticalAnnulus
  rw [if_neg hq, if_pos (by linarith)]

/-! ### A concrete case -/

/-- A toy overlap for running the code: weight 1 for pixels whose offsets from the centre are at most the semi-axes. -/
def boxOverlap : Overlap ℚ :=
  ⟨fun e i j => if -e.a ≤ (j : ℚ) - e.cx ∧ (j : ℚ) - e.cx ≤ e.a ∧ -e.b ≤ (i : ℚ) - e.cy ∧ (i : ℚ) - e.cy ≤ e.b then 1 else 0,
   fun e h w => (pixels h w).any fun p =>
     decide (-e.a ≤ (p.2 : ℚ) - e.cx ∧ (p.2 : ℚ) - e.cx ≤ e.a ∧ -e.b ≤ (p.1 : ℚ) - e.cy ∧ (p.1 : ℚ) - e.cy ≤ e.b)⟩

theorem boxOverlap_law : OverlapLaw boxOverlap where
  nonneg := fun e i j => by simp only [boxOverlap]; split <;> norm_num
  le_one := fun e i j => by simp only [boxOverlap]; split <;> norm_num
  nested := fun cx cy q t r r' i j hq hr h => by
    have := div_le_div_of_nonneg_right h hq.le
    simp only [boxOverlap]
    split
    · rename_i hc
      rw [if_pos]
      obtain ⟨a, b, c, d⟩ := hc
      exact ⟨by linarith, by linarith, by linarith, by linarith⟩
    · split <;> norm_num
  hits_of_pos := fun e h w i j _ _ hi hj hw => by
    simp only [boxOverlap, List.any_eq_true, decide_eq_true_eq]
    refine ⟨(i, j), mem_pixels.2 ⟨hi, hj⟩, ?_⟩
    by_contra hn
    simp only [boxOverlap] at hw
    rw [if_neg hn] at hw
    exact absurd hw (lt_irrefl _)
  hits_mono := fun cx cy q t r r' h w hq hr hle hb => by
    have := div_le_div_of_nonneg_right hle hq.le
    simp only [boxOverlap, List.any_eq_true, decide_eq_true_eq] at hb ⊢
    obtain ⟨p, hp, a, b, c, d⟩ := hb
    exact ⟨p, hp, by linarith, by linarith, by linarith, by linarith⟩

/-- Three radii on a 3×3 image with a NaN under the mask: fluxes and areas grow, no error map gives NaN errors. -/
example : radialPhotometry boxOverlap (Img.ofRows nan [[fin 1, fin 2, fin 3], [fin 4, fin 5, fin 6], [nan, fin 8, fin 9]]) 1 1
    [1 / 2, 1, 2] none (some (Img.ofRows true [[true, true, true], [true, true, true], [false, true, true]])) 1 0 =
    .ok ([fin 5, fin 38, fin 38], [fin 1, fin 8, fin 8], [nan, nan, nan]) := by decide +kernel

example : radialPhotometry boxOverlap (Img.ofRows nan [[fin 1, fin 2, fin 3], [fin 4, fin 5, fin 6], [nan, fin 8, fin 9]]) 1 1
    [1 / 2, 1, 2] none none 1 0 = .error .exception := by decide +kernel

end Verif.Props

import Verif.Props.RecipeFluxes
import Verif.Lemmas.BlurredSimulation
import Verif.Props.SersicFit

/-!
# C161: the documented recipe on images seen through a PSF

`make_radius_list`, `radial_photometry` and `Petrosian` (petrofit/utils.py, petrofit/photometry.py:108-227, petrofit/petrosian/core.py) on images
whose pixels are not samples of the galaxy but averages of its light over surroundings of the pixel: pixels with an area, seeing, a PSF that
changes over the image, and the model images of `PSFConvolvedModel2D` (petrofit/modeling/models.py:353-560).
-/

set_option linter.unusedSectionVars false
set_option linter.unusedVariables false

namespace Verif.Props

open Verif F Spec Lemmas MeasureTheory Real

variable {I : ℝ → ℝ}

/-- Every pixel `[i, j]` shows an average of the light of the galaxy over places within `reach` pixels of its centre. The average may be
different for each pixel. -/
def Smeared (I : ℝ → ℝ) (s reach cx cy ellip theta : ℝ) (h w : Nat) (f : Nat → Nat → ℝ) : Prop :=
  ∀ i j : Nat, i < h → j < w → ∃ μ : Measure (ℝ × ℝ), IsProbabilityMeasure μ ∧ (∀ᵐ p ∂μ, distTo p.1 p.2 j i ≤ reach) ∧
    f i j = ∫ p, I (ellRadius p.1 p.2 cx cy ellip theta / s) ∂μ

/-- Smeared images are blurred. -/
theorem Smeared.blurred (G : Galaxy I) {s reach cx cy ellip theta : ℝ} {h w : Nat} {f : Nat → Nat → ℝ} (hs : 0 < s) (he0 : 0 ≤ ellip)
    (he1 : ellip < 1) (hf : Smeared I s reach cx cy ellip theta h w f) (D : ℝ) :
    Blurred I s (reach / (1 - ellip)) cx cy ellip theta h w D f := by
  have hq : 0 < 1 - ellip := by linarith
  set g : ℝ × ℝ → ℝ := fun p => I (ellRadius p.1 p.2 cx cy ellip theta / s) with hg
  have hnn : ∀ p : ℝ × ℝ, 0 ≤ ellRadius p.1 p.2 cx cy ellip theta / s := fun p => div_nonneg (ellRadius_nonneg _ _ _ _ _ _) hs.le
  have hgc : Continuous g := G.cont.comp_continuous ((ellRadius_continuous cx cy ellip theta).div_const s) fun p => Set.mem_Ici.2 (hnn p)
  have anti : ∀ x y, 0 ≤ x → x ≤ y → I y ≤ I x := fun x y hx hxy =>
    G.falls.antitoneOn (Set.mem_Ici.2 hx) (Set.mem_Ici.2 (hx.trans hxy)) hxy
  have hint : ∀ μ : Measure (ℝ × ℝ), IsProbabilityMeasure μ → Integrable g μ := fun μ _ =>
    Integrable.of_bound hgc.aestronglyMeasurable (I 0) (Filter.Eventually.of_forall fun p => by
      rw [Real.norm_eq_abs, abs_of_pos (G.pos _ (hnn p))]
      exact anti _ _ le_rfl (hnn p))
  have near : ∀ (i j : Nat) (p : ℝ × ℝ), distTo p.1 p.2 j i ≤ reach →
      ellRadius p.1 p.2 cx cy ellip theta ≤ ellRadius j i cx cy ellip theta + reach / (1 - ellip) ∧
      ellRadius j i cx cy ellip theta - reach / (1 - ellip) ≤ ellRadius p.1 p.2 cx cy ellip theta := by
    intro i j p hp
    have l1 := ellRadius_lip (x0 := cx) (y0 := cy) (theta := theta) he0 he1 p ((j : ℝ), (i : ℝ))
    have l2 := ellRadius_lip (x0 := cx) (y0 := cy) (theta := theta) he0 he1 ((j : ℝ), (i : ℝ)) p
    simp only at l1 l2
    have e : distTo (j : ℝ) i p.1 p.2 = distTo p.1 p.2 j i := by unfold distTo; congr 1; ring
    rw [e] at l2
    have := div_le_div_of_nonneg_right hp hq.le
    constructor <;> linarith
  refine ⟨fun i j hi hj => ?_, fun i j hi hj => ?_, fun i j hi hj _ => ?_⟩
  · obtain ⟨μ, hμ, -, e⟩ := hf i j hi hj
    rw [e]
    exact integral_nonneg fun p => (G.pos _ (hnn p)).le
  · obtain ⟨μ, hμ, hr, e⟩ := hf i j hi hj
    rw [e]
    have : ∫ p, g p ∂μ ≤ ∫ _, I (max (ellRadius j i cx cy ellip theta - reach / (1 - ellip)) 0 / s) ∂μ := by
      refine integral_mono_ae (hint μ hμ) (integrable_const _) ?_
      filter_upwards [hr] with p hp
      exact anti _ _ (div_nonneg (le_max_right _ _) hs.le)
        (div_le_div_of_nonneg_right (max_le (near i j p hp).2 (ellRadius_nonneg _ _ _ _ _ _)) hs.le)
    simpa using this
  · obtain ⟨μ, hμ, hr, e⟩ := hf i j hi hj
    rw [e]
    have : ∫ _, I ((ellRadius j i cx cy ellip theta + reach / (1 - ellip)) / s) ∂μ ≤ ∫ p, g p ∂μ := by
      refine integral_mono_ae (integrable_const _) (hint μ hμ) ?_
      filter_upwards [hr] with p hp
      exact anti _ _ (hnn p) (div_le_div_of_nonneg_right (near i j p hp).1 hs.le)
    simpa using this

/-- **C161, radii.** The documented recipe on an image seen through any PSF. -/
theorem C161_radii (G : Galaxy I) {ellip : ℝ} (he0 : 0 ≤ ellip) (he1 : ellip < 1) {reach : ℝ} (hreach : 0 ≤ reach)
    {eta eps epsf frac rP rF : ℝ} (heps : 0 < eps) (hepsf : epsf ≠ 0) (hrP : 0 < rP) (hrF : 0 < rF) (htP : petroRatio I rP = eta)
    (htF : enclosed I 1 rF = frac / epsf * enclosed I 1 (eps * rP)) {T : ℝ} (hT1 : rP < T) (hT2 : eps * rP < T) (hT3 : rF < T) {ε : ℝ}
    (hε : 0 < ε) :
    ∃ n0 : Nat, ∃ s0 > 0, ∃ w0 > 0, ∀ n ≥ n0, ∀ s ≥ s0, w0 ≤ s * T / n →
      ∀ (h w : Nat) (cx cy theta : ℝ) (f : Nat → Nat → ℝ), Smeared I s reach cx cy ellip theta h w f →
      OnFrame (⟨cx, cy, s * T, s * T * (1 - ellip), theta⟩ : Ellipse ℝ).set h w →
      ∃ rs : List ℝ, makeRadiusList (fin (s * T)) n = rs.map fin ∧
      ∃ fl ar er, radialPhotometry exactOverlap ⟨h, w, fun i j => fin (f i j)⟩ cx cy rs none none (1 / (1 - ellip)) theta = .ok (fl, ar, er) ∧
        ∀ (ip : InterpFam ℝ) (num : Nat) (tff : F ℝ), ip "cubic" = cubicInterp →
        ∃ p, Petrosian.init (rs.map fin) ar fl none none (fin eta) (fin eps) (fin epsf) tff (some "cubic") num = .ok p ∧
          ∃ rp rf, p.rPetrosian ip = .ok (fin rp) ∧ |rp / s - rP| ≤ ε ∧
            p.fractionFluxToR ip (fin frac) = .ok (fin rf) ∧ |rf / s - rF| ≤ ε := by
  have hq : 0 < 1 - ellip := by linarith
  obtain ⟨n0, s0, hs0, w0, hw0, H⟩ := blurred_recipe G he0 he1 (div_nonneg hreach hq.le) heps hepsf hrP hrF htP htF hT1 hT2 hT3 hε
  exact ⟨n0, s0, hs0, w0, hw0, fun n hn s hs hw h w cx cy theta f hf => H n hn s hs hw h w cx cy theta _ f
    (hf.blurred G (lt_of_lt_of_le hs0 hs) he0 he1 _) le_rfl⟩

/-- **C161, total flux.** -/
theorem C161_total (G : Galaxy I) {ellip : ℝ} (he0 : 0 ≤ ellip) (he1 : ellip < 1) {reach : ℝ} (hreach : 0 ≤ reach)
    {eta eps epsf tf rP rT : ℝ} (heps : 0 < eps) (hepsf : epsf ≠ 0) (hrP : 0 < rP) (hrT : 0 < rT) (htP : petroRatio I rP = eta)
    (htT : enclosed I 1 rT = tf / epsf * enclosed I 1 (eps * rP)) {T : ℝ} (hT1 : rP < T) (hT2 : eps * rP < T) (hT3 : rT < T) {ε : ℝ}
    (hε : 0 < ε) :
    ∃ n0 : Nat, ∃ s0 > 0, ∃ w0 > 0, ∀ n ≥ n0, ∀ s ≥ s0, w0 ≤ s * T / n →
      ∀ (h w : Nat) (cx cy theta : ℝ) (f : Nat → Nat → ℝ), Smeared I s reach cx cy ellip theta h w f →
      OnFrame (⟨cx, cy, s * T, s * T * (1 - ellip), theta⟩ : Ellipse ℝ).set h w →
      ∃ rs : List ℝ, makeRadiusList (fin (s * T)) n = rs.map fin ∧
      ∃ fl ar er, radialPhotometry exactOverlap ⟨h, w, fun i j => fin (f i j)⟩ cx cy rs none none (1 / (1 - ellip)) theta = .ok (fl, ar, er) ∧
        ∀ (ip : InterpFam ℝ) (num : Nat), ip "cubic" = cubicInterp →
        ∃ p, Petrosian.init (rs.map fin) ar fl none none (fin eta) (fin eps) (fin epsf) (fin tf) (some "cubic") num = .ok p ∧
          ∃ rt ft, p.rTotalFlux ip = .ok (fin rt) ∧ |rt / s - rT| ≤ ε ∧
            p.totalFlux ip = .ok (fin ft) ∧ |ft / s ^ 2 - (1 - ellip) * enclosed I 1 rT| ≤ ε := by
  have hq : 0 < 1 - ellip := by linarith
  obtain ⟨n0, s0, hs0, w0, hw0, H⟩ := blurred_total G he0 he1 (div_nonneg hreach hq.le) heps hepsf hrP hrT htP htT hT1 hT2 hT3 hε
  exact ⟨n0, s0, hs0, w0, hw0, fun n hn s hs hw h w cx cy theta f hf => H n hn s hs hw h w cx cy theta _ f
    (hf.blurred G (lt_of_lt_of_le hs0 hs) he0 he1 _) le_rfl⟩

/-- **C161, concentration.** -/
theorem C161_concentration (G : Galaxy I) {ellip : ℝ} (he0 : 0 ≤ ellip) (he1 : ellip < 1) {reach : ℝ} (hreach : 0 ≤ reach)
    {eta eps epsf f1 f2 rP rF1 rF2 : ℝ}
    (heps : 0 < eps) (hepsf : epsf ≠ 0) (hrP : 0 < rP) (hrF1 : 0 < rF1) (hrF2 : 0 < rF2) (htP : petroRatio I rP = eta)
    (htF1 : enclosed I 1 rF1 = f1 / epsf * enclosed I 1 (eps * rP)) (htF2 : enclosed I 1 rF2 = f2 / epsf * enclosed I 1 (eps * rP))
    {T : ℝ} (hT1 : rP < T) (hT2 : eps * rP < T) (hT3 : rF1 < T) (hT4 : rF2 < T) {ε : ℝ} (hε : 0 < ε) :
    ∃ n0 : Nat, ∃ s0 > 0, ∃ w0 > 0, ∀ n ≥ n0, ∀ s ≥ s0, w0 ≤ s * T / n →
      ∀ (h w : Nat) (cx cy theta : ℝ) (f : Nat → Nat → ℝ), Smeared I s reach cx cy ellip theta h w f →
      OnFrame (⟨cx, cy, s * T, s * T * (1 - ellip), theta⟩ : Ellipse ℝ).set h w →
      ∃ rs : List ℝ, makeRadiusList (fin (s * T)) n = rs.map fin ∧
      ∃ fl ar er, radialPhotometry exactOverlap ⟨h, w, fun i j => fin (f i j)⟩ cx cy rs none none (1 / (1 - ellip)) theta = .ok (fl, ar, er) ∧
        ∀ (ip : InterpFam ℝ) (num : Nat) (tff : F ℝ), ip "cubic" = cubicInterp →
        ∃ p, Petrosian.init (rs.map fin) ar fl none none (fin eta) (fin eps) (fin epsf) tff (some "cubic") num = .ok p ∧
          ∃ r1 r2 c, p.concentrationIndex ip (fin f1) (fin f2) = .ok (fin r1, fin r2, fin c) ∧
            |r1 / s - rF1| ≤ ε ∧ |r2 / s - rF2| ≤ ε ∧ |c - 5 * Real.logb 10 (rF2 / rF1)| ≤ ε := by
  have hq : 0 < 1 - ellip := by linarith
  obtain ⟨n0, s0, hs0, w0, hw0, H⟩ := blurred_concentration G he0 he1 (div_nonneg hreach hq.le) heps hepsf hrP hrF1 hrF2 htP htF1 htF2 hT1 hT2 hT3
    hT4 hε
  exact ⟨n0, s0, hs0, w0, hw0, fun n hn s hs hw h w cx cy theta f hf => H n hn s hs hw h w cx cy theta _ f
    (hf.blurred G (lt_of_lt_of_le hs0 hs) he0 he1 _) le_rfl⟩

/-- Pixels that show the light on their area, as those of a detector do. -/
theorem C161_light (I : ℝ → ℝ) (s cx cy ellip theta : ℝ) (h w : Nat) :
    Smeared I s 1 cx cy ellip theta h w fun i j => ∫ p in pixelSquare i j, I (ellRadius p.1 p.2 cx cy ellip theta / s) := by
  intro i j _ _
  refine ⟨volume.restrict (pixelSquare i j), ⟨by rw [Measure.restrict_apply_univ, volume_pixel]⟩, ?_, rfl⟩
  filter_upwards [ae_restrict_mem (measurableSet_Ioc.prod measurableSet_Ioc)] with p hp
  refine (dist_pixel hp).trans ?_
  rw [div_le_one (by positivity)]
  exact Real.le_sqrt_of_sq_le (by norm_num)

/-! ### Model images -/

/-- The oversampling window, if there is one, is inside an image of `N` by `N` pixels. -/
def WindowInside (M : PSFModel ℝ) (params : List ℝ) (N : Nat) : Prop :=
  ∀ x y size f, M.oversample = .window x y size f → 0 ≤ size ∧ ∃ vx vy, PSFModel.centerValue M.sub params x = .ok vx ∧
    PSFModel.centerValue M.sub params y = .ok vy ∧ 0 ≤ corner vx size.toNat ∧ 0 ≤ corner vy size.toNat ∧
    corner vx size.toNat + size ≤ N ∧ corner vy size.toNat + size ≤ N

/-- A bound for how far a PSF moves light, in pixels: its two sides together and two more. -/
def psfReach (P : Option (Img ℝ)) : Nat := ((P.getD ⟨1, 1, fun _ _ => 1⟩).h + (P.getD ⟨1, 1, fun _ _ => 1⟩).w) + 2

/-- The image of a wrapped galaxy model is a blurred image of the galaxy. -/
theorem modelImage_blurred (G : Galaxy I) {s : ℝ} (hs : 0 < s) {ellip theta cx cy : ℝ} (he0 : 0 ≤ ellip) (he1 : ellip < 1)
    {S : SubModel ℝ} {psf : Option (Img ℝ)} {o : OversampleArg ℝ} {p : PsfOversampleArg} {M : PSFModel ℝ}
    (hM : PSFModel.init S psf o p = .ok M) (hpsf : ∀ P, psf = some P → UnitPsf P) {params : List ℝ}
    (hS : ∀ x y, S.eval params x y = I (ellRadius x y cx cy ellip theta / s)) {N : Nat} (hN : 0 < N) (hw : WindowInside M params N) {D : ℝ}
    (hx0 : D ≤ cx) (hy0 : D ≤ cy) (hx1 : cx + D ≤ N) (hy1 : cy + D ≤ N)
    (integ : GridModel ℝ → ℝ × ℝ → ℝ × ℝ → Except PyErr (Img ℝ)) (rot : Img ℝ → ℝ → Img ℝ) :
    ∃ im, modelToImage integ (M.onGrid rot params 0) (.num (fin (N : ℝ))) .center 1 none = .ok im ∧ im.h = N ∧ im.w = N ∧
      Blurred I s ((psfReach psf : ℝ) / (1 - ellip)) cx cy ellip theta N N D im.px := by
  obtain ⟨m1, m2, m3, m4, m5, m6⟩ := init_settings hM
  set P : Img ℝ := psf.getD ⟨1, 1, fun _ _ => 1⟩ with hP
  have hPu : UnitPsf P := by
    cases h : psf with
    | none => rw [hP, h]; exact ⟨fun _ _ _ _ => zero_le_one, by simp⟩
    | some Q => rw [hP, h]; exact hpsf Q h
  have hN1 : N - 1 + 1 = N := by omega
  obtain ⟨k, hk, hcells⟩ := cells_image (M := M.setPsf (some P)) m3 m4 (P := P) rfl (N := N - 1) params (by
    intro x y size f ho
    have := hw x y size f ho
    have e : ((N - 1 : Nat) : Int) + 1 = (N : Int) := by omega
    rw [e]
    exact this)
  rw [hN1] at hcells
  have hsame : ∀ rot coords, ((M.setPsf (some P)).evaluate rot coords params 0).1 = (M.evaluate rot coords params 0).1 := by
    intro rot coords
    cases h : psf with
    | none =>
      have e : M = M.setPsf none := by rw [h] at m2; unfold PSFModel.setPsf; rw [← m2]
      have hP1 : P = ⟨1, 1, fun _ _ => 1⟩ := by rw [hP, h]; rfl
      rw [C59_evaluate_identity M m3 P (by rw [hP1]; exact Nat.one_pos) (by rw [hP1]; exact Nat.one_pos) (by
        rw [hP1]
        intro a b ha hb
        obtain rfl : a = 0 := by simpa using ha
        obtain rfl : b = 0 := by simpa using hb
        simp) rot coords params, ← e]
    | some Q =>
      have e : M = M.setPsf (some P) := by
        have hPQ : P = Q := by rw [hP, h]; rfl
        rw [hPQ]
        rw [h] at m2; unfold PSFModel.setPsf; rw [← m2]
      rw [← e]
  have hD : Describes (.num (fin (N : ℝ))) none N N (0 : ℝ) 0 := ⟨Or.inl ⟨rfl, rfl⟩, Or.inl ⟨rfl, rfl, rfl⟩⟩
  obtain ⟨im, i1, i2, i3, i4⟩ := modelToImage_evaluate hD hN hN integ M rot params 0
    (V := fun i j => cellsOfPixel (convAt P (psfCells (S.eval params) 0 0 N M.psfFactor k)) M.psfFactor i j) (by
      intro coords hg
      rw [← hsame]
      have := hcells rot coords hg
      rw [this]
      show Except.ok (coords.map fun c => cellsOfPixel (convAt P (psfCells (M.sub.eval params) 0 0 N M.psfFactor k)) M.psfFactor _ _) = _
      rw [m1]) 1
  have hb := psfCells_blurred_ell G hs he0 he1 hS hPu m4.2.1 hk hx0 hy0 hx1 hy1
  refine ⟨im, by simpa using i1, i2, i3, ?_, ?_, ?_⟩
  · intro i j hi hj; rw [i4 i j hi hj]; exact hb.nonneg i j hi hj
  · intro i j hi hj; rw [i4 i j hi hj]; exact hb.le i j hi hj
  · intro i j hi hj hd; rw [i4 i j hi hj]; exact hb.ge i j hi hj hd

/-- **C161, model images.** Make an image of a galaxy model with `PSFConvolvedModel2D` and `model_to_image`, with any PSF of sum 1 without
negative pixels and any oversampling, on a square frame that has room for the largest aperture and the PSF, and follow the recipe: the radii are
within any tolerance of the radii of the galaxy without PSF, once the galaxy is large enough. -/
theorem C161_model (G : Galaxy I) {ellip : ℝ} (he0 : 0 ≤ ellip) (he1 : ellip < 1) {S : SubModel ℝ} {psf : Option (Img ℝ)} {o : OversampleArg ℝ}
    {po : PsfOversampleArg} {M : PSFModel ℝ} (hM : PSFModel.init S psf o po = .ok M) (hpsf : ∀ P, psf = some P → UnitPsf P)
    {eta eps epsf frac rP rF : ℝ} (heps : 0 < eps) (hepsf : epsf ≠ 0) (hrP : 0 < rP) (hrF : 0 < rF) (htP : petroRatio I rP = eta)
    (htF : enclosed I 1 rF = frac / epsf * enclosed I 1 (eps * rP)) {T : ℝ} (hT1 : rP < T) (hT2 : eps * rP < T) (hT3 : rF < T) {ε : ℝ}
    (hε : 0 < ε) :
    ∃ n0 : Nat, ∃ s0 > 0, ∃ w0 > 0, ∀ n ≥ n0, ∀ s ≥ s0, w0 ≤ s * T / n →
      ∀ (N : Nat) (cx cy theta : ℝ) (params : List ℝ), (∀ x y, S.eval params x y = I (ellRadius x y cx cy ellip theta / s)) →
      WindowInside M params N → (∀ c, c = cx ∨ c = cy → s * T + (psfReach psf + 1) / (1 - ellip) ≤ c ∧ c + (s * T + (psfReach psf + 1) / (1 - ellip)) ≤ N) →
      ∀ (integ : GridModel ℝ → ℝ × ℝ → ℝ × ℝ → Except PyErr (Img ℝ)) (rot : Img ℝ → ℝ → Img ℝ),
      ∃ im, modelToImage integ (M.onGrid rot params 0) (.num (fin (N : ℝ))) .center 1 none = .ok im ∧
      ∃ rs : List ℝ, makeRadiusList (fin (s * T)) n = rs.map fin ∧
      ∃ fl ar er, radialPhotometry exactOverlap ⟨im.h, im.w, fun i j => fin (im.px i j)⟩ cx cy rs none none (1 / (1 - ellip)) theta =
          .ok (fl, ar, er) ∧
        ∀ (ip : InterpFam ℝ) (num : Nat) (tff : F ℝ), ip "cubic" = cubicInterp →
        ∃ p, Petrosian.init (rs.map fin) ar fl none none (fin eta) (fin eps) (fin epsf) tff (some "cubic") num = .ok p ∧
          ∃ rp rf, p.rPetrosian ip = .ok (fin rp) ∧ |rp / s - rP| ≤ ε ∧
            p.fractionFluxToR ip (fin frac) = .ok (fin rf) ∧ |rf / s - rF| ≤ ε := by
  have hq : 0 < 1 - ellip := by linarith
  have hT0 : 0 < T := hrP.trans hT1
  obtain ⟨n0, s0, hs0, w0, hw0, H⟩ := blurred_recipe G he0 he1 (div_nonneg (Nat.cast_nonneg (psfReach psf)) hq.le) heps hepsf hrP hrF htP htF
    hT1 hT2 hT3 hε
  refine ⟨n0, s0, hs0, w0, hw0, fun n hn s hs hw N cx cy theta params hS hwin hroom integ rot => ?_⟩
  have hsp : 0 < s := lt_of_lt_of_le hs0 hs
  set m : ℝ := (psfReach psf + 1) / (1 - ellip) with hm
  have hm1 : 1 ≤ m := by
    rw [hm, le_div_iff₀ hq]
    have : (0 : ℝ) ≤ psfReach psf := Nat.cast_nonneg _
    linarith
  obtain ⟨x0, x1⟩ := hroom cx (Or.inl rfl)
  obtain ⟨y0, y1⟩ := hroom cy (Or.inr rfl)
  have hst : 0 < s * T := by positivity
  have hN : 0 < N := by
    have : (0 : ℝ) < N := by linarith
    exact_mod_cast this
  obtain ⟨im, i1, i2, i3, i4⟩ := modelImage_blurred G hsp he0 he1 hM hpsf hS hN hwin (D := s * T + m) x0 y0 x1 y1 integ rot
  have hb : 0 < s * T * (1 - ellip) := mul_pos hst hq
  have hb' : s * T * (1 - ellip) ≤ s * T := mul_le_of_le_one_right hst.le (by linarith)
  have hcs := Real.cos_sq_add_sin_sq theta
  have key : ∀ c d : ℝ, c ^ 2 + d ^ 2 = 1 → √((s * T * c) ^ 2 + (s * T * (1 - ellip) * d) ^ 2) ≤ s * T := by
    intro c d hcd
    rw [Real.sqrt_le_left hst.le]
    have h1 : (s * T * (1 - ellip)) ^ 2 ≤ (s * T) ^ 2 := pow_le_pow_left₀ hb.le hb' 2
    have h2 := mul_le_mul_of_nonneg_right h1 (sq_nonneg d)
    have h3 : (s * T * c) ^ 2 + (s * T) ^ 2 * d ^ 2 = (s * T) ^ 2 := by
      rw [mul_pow, ← mul_add, hcd, mul_one]
    rw [mul_pow _ d 2]
    linarith
  have hx : Ellipse.xExtent ⟨cx, cy, s * T, s * T * (1 - ellip), theta⟩ ≤ s * T := key _ _ hcs
  have hy : Ellipse.yExtent ⟨cx, cy, s * T, s * T * (1 - ellip), theta⟩ ≤ s * T := key _ _ (by linarith)
  obtain ⟨rs, h1, h2⟩ := H n hn s hs hw N N cx cy theta _ im.px i4
    (by rw [hm, add_div]; linarith) (by
      apply onFrame_of_box _ hst hb <;> simp only <;> linarith)
  rw [← i2] at h2
  exact ⟨im, i1, rs, h1, by rw [i3]; rw [← i2]; exact h2⟩

/-- A wrapped `Sersic2D`. -/
theorem sersicSub_radius {A r n cx cy ellip theta : ℝ} (hr : 0 < r) (x y : ℝ) :
    sersicSub.eval [A, r, n, cx, cy, ellip, theta] x y = sersic (bn n) A 1 n (ellRadius x y cx cy ellip theta / r) := by
  show sersic2D x y A r n cx cy ellip theta = _
  rw [sersic2D_radius hr]
  unfold Spec.sersic
  rw [div_one, neg_mul]

/-- The half light radius of an elliptical disc galaxy seen through a PSF that is not symmetric, with an oversampling window at the centre. -/
example {rP rF eta ε : ℝ} (hrP : 0 < rP) (hrF : 0 < rF) (hFP : rF < 2 * rP) (hε : 0 < ε) (htP : petroRatio (sersic (bn 1) 1 1 1) rP = eta)
    (htF : enclosed (sersic (bn 1) 1 1 1) 1 rF = 1 / 2 / 1 * enclosed (sersic (bn 1) 1 1 1) 1 (2 * rP)) :
    ∃ (M : PSFModel ℝ) (s c : ℝ) (N n : Nat) (im : Img ℝ), 0 < s ∧
      PSFModel.init sersicSub (some ⟨1, 2, fun _ v => if v = 0 then 1 / 4 else 3 / 4⟩) (.window (.name "x_0") (.name "y_0") (some 2) (some 5)) .none =
        .ok M ∧
      modelToImage (fun _ _ _ => .error .exception) (M.onGrid (fun a _ => a) [1, s, 1, c, c, 3 / 10, 1 / 2] 0) (.num (fin (N : ℝ))) .center 1 none =
        .ok im ∧
      ∃ rs : List ℝ, makeRadiusList (fin (s * (3 * rP))) n = rs.map fin ∧
      ∃ fl ar er, radialPhotometry exactOverlap ⟨im.h, im.w, fun i j => fin (im.px i j)⟩ c c rs none none (1 / (1 - 3 / 10)) (1 / 2) =
          .ok (fl, ar, er) ∧
        ∃ p, Petrosian.init (rs.map fin) ar fl none none (fin eta) (fin 2) (fin 1) (fin 1) (some "cubic") 5000 = .ok p ∧
          ∃ r, p.rHalfLight (fun _ => cubicInterp) = .ok (fin r) ∧ |r / s - rF| ≤ ε := by
  set P : Img ℝ := ⟨1, 2, fun _ v => if v = 0 then 1 / 4 else 3 / 4⟩ with hP
  have hPu : UnitPsf P := by
    refine ⟨fun u v _ _ => ?_, ?_⟩
    · simp only [hP]
      split_ifs <;> norm_num
    · simp [hP, Finset.sum_range_succ]
      norm_num
  obtain ⟨M, hM, hMo⟩ : ∃ M, PSFModel.init sersicSub (some P) (.window (.name "x_0") (.name "y_0") (some 2) (some 5)) .none = .ok M ∧
      M.sub = sersicSub ∧ M.oversample = .window (.name "x_0") (.name "y_0") 2 5 := by
    refine ⟨⟨sersicSub, some P, .window (.name "x_0") (.name "y_0") 2 5, none, true, 0, 0, none, none⟩, ?_, rfl, rfl⟩
    simp [PSFModel.init, PSFModel.setOversample, PSFModel.setPsfOversample, PSFModel.checkFactor, PSFModel.psfFactor, Bind.bind, Except.bind]
  obtain ⟨n0, s0, hs0, w0, hw0, H⟩ := C161_model (sersic_galaxy (amplitude := 1) (rEff := 1) (n := 1) one_pos one_pos one_pos) (ellip := 3 / 10)
    (eps := 2) (by norm_num) (by norm_num) hM (by rintro Q ⟨⟩; exact hPu) (by norm_num) one_ne_zero hrP hrF htP htF (T := 3 * rP) (by linarith)
    (by linarith) (by linarith) hε
  set n := n0 + 1 with hn
  have hn0 : (0 : ℝ) < n := by rw [hn]; positivity
  set s := max s0 (w0 * n / (3 * rP)) with hs
  have hsp : 0 < s := lt_of_lt_of_le hs0 (le_max_left _ _)
  have hsw : w0 * n / (3 * rP) ≤ s := le_max_right _ _
  obtain ⟨C, hC⟩ := exists_nat_gt (s * (3 * rP) + (psfReach (some P) + 1) / (1 - 3 / 10))
  have hC1 : 1 ≤ C := by
    have : (0 : ℝ) < C := lt_of_le_of_lt (by positivity) hC
    exact_mod_cast this
  have hcor : corner (C : ℝ) 2 = (C : Int) - 1 := by
    have e : rint (C : ℝ) = (C : Int) := by
      have := rint_int (K := ℝ) (C : Int)
      rwa [Int.cast_natCast] at this
    simp [corner, e]
  obtain ⟨im, h1, rs, h2, fl, ar, er, h3, h4⟩ := H n (by omega) s (le_max_left _ _)
    (by rw [div_le_iff₀ (by positivity)] at hsw; rw [le_div_iff₀ hn0]; exact hsw) (2 * C + 1) C C (1 / 2) [1, s, 1, (C : ℝ), (C : ℝ), 3 / 10, 1 / 2]
    (sersicSub_radius hsp)
    (by
      intro x y size f ho
      rw [hMo.2] at ho
      cases ho
      rw [hMo.1]
      refine ⟨by norm_num, C, C, rfl, rfl, ?_⟩
      have e : (2 : Int).toNat = 2 := rfl
      rw [e, hcor]
      push_cast
      omega)
    (by
      rintro c (rfl | rfl) <;> exact ⟨hC.le, by push_cast; linarith⟩)
    (fun _ _ _ => .error .exception) (fun a _ => a)
  obtain ⟨p, g1, _, rf, _, _, g4, g5⟩ := h4 (fun _ => cubicInterp) 5000 (fin 1) rfl
  refine ⟨M, s, C, 2 * C + 1, n, im, hsp, hM, h1, rs, h2, fl, ar, er, h3, p, g1, rf, ?_, g5⟩
  rw [← g4]
  simp [Petrosian.rHalfLight, Petrosian.fractionFluxToR]

/-- Pixels of a detector: the recipe applies to the light on the pixels of a Sersic galaxy. -/
example {n s : ℝ} (hn : 0 < n) (hs : 0 < s) (D : ℝ) :
    Blurred (sersic (bn n) 1 1 n) s (1 / (1 - 1 / 2)) 50 50 (1 / 2) 0 100 100 D
      fun i j => ∫ p in pixelSquare i j, sersic (bn n) 1 1 n (ellRadius p.1 p.2 50 50 (1 / 2) 0 / s) :=
  (C161_light _ s 50 50 (1 / 2) 0 100 100).blurred (sersic_galaxy (amplitude := 1) (rEff := 1) one_pos hn one_pos) hs (by norm_num) (by norm_num) D

end Verif.Props

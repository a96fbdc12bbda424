import Verif.Spec.SersicFit
import Verif.Spec.Profiles
import Verif.Lemmas.SersicFit
import Verif.Props.Fitting

/-!
# C153: what `fit_model` returns for the image of a Sersic model
-/

set_option linter.unusedSectionVars false
set_option linter.unusedVariables false

namespace Verif.Props

open Verif F Spec Lemmas

variable {M : Type} {fam : M → ℝ → ℝ → ℝ} {allowed : M → Prop} {fitter : M → FitData ℝ → Except PyErr M} {image : Img (F ℝ)}
  {mask : Nat → Nat → Bool} {weights : Option (Img (F ℝ))} {m p truth : M}

/-- A pixel that counts: fitted, and with a weight that is a number other than zero (if there are weights). -/
def Counts (image : Img (F ℝ)) (mask : Nat → Nat → Bool) (weights : Option (Img (F ℝ))) (i j : Nat) : Prop :=
  Kept image mask i j ∧ ∀ wt, weights = some wt → ∃ v, wt.px i j = .fin v ∧ v ≠ 0

theorem wChi2_nonneg (f : ℝ → ℝ → ℝ) (d : FitData ℝ) : 0 ≤ wChi2 f d := by
  unfold wChi2
  refine List.sum_nonneg fun x hx => ?_
  obtain ⟨k, -, rfl⟩ := List.mem_map.1 hx
  split
  · exact le_rfl
  · exact sq_nonneg _

/-- **C153, exact images.** If the pixels that are not NaN and not masked are exactly the values of an allowed model, what `fit_model`
returns has exactly these values at all pixels with nonzero weight: for every family of models and every best fitter. -/
theorem C153_exact (law : BestFitter fam allowed fitter) (hfit : fitModel fitter image mask m weights = .ok p) (ht : allowed truth)
    (hv : ∀ i j, Kept image mask i j → image.px i j = .fin (fam truth j i)) (i j : Nat) (hc : Counts image mask weights i j) :
    fam p j i = fam truth j i := by
  have hw : ∀ wt, weights = some wt → wt.h = image.h ∧ wt.w = image.w := by
    intro wt hwt
    by_contra hn
    rw [hwt, C62_shape image mask wt hn] at hfit
    exact absurd hfit (by simp)
  obtain ⟨d, hd, idx, hmem, hnd, hsort, hy, hx, hz, hm, hwd⟩ := C62_fitted image mask weights hw
  have hfd : fitter m d = .ok p := by
    unfold fitModel at hfit
    rw [hd] at hfit
    exact hfit
  obtain ⟨hp, hbest⟩ := law m d p hfd
  have hlen : d.z.length = idx.length := by rw [hz, List.length_map]
  have ex : ∀ k (hk : k < idx.length), d.x.getD k 0 = idx[k].2 := fun k hk => by simp [hx, hk]
  have ey : ∀ k (hk : k < idx.length), d.y.getD k 0 = idx[k].1 := fun k hk => by simp [hy, hk]
  have ez : ∀ k (hk : k < idx.length), d.z.getD k .nan = image.px idx[k].1 idx[k].2 := fun k hk => by simp [hz, hk]
  have em : ∀ k (hk : k < idx.length), d.zMask.getD k true = mask idx[k].1 idx[k].2 := fun k hk => by simp [hm, hk]
  have h0 : wChi2 (fam truth) d = 0 := by
    unfold wChi2
    rw [hlen]
    refine List.sum_eq_zero fun x hx => ?_
    obtain ⟨k, hk, rfl⟩ := List.mem_map.1 hx
    have hk' := List.mem_range.1 hk
    rw [em k hk']
    split
    · rfl
    · rename_i hmk
      have hin := (hmem idx[k].1 idx[k].2).1 (List.getElem_mem hk')
      rw [ex k hk', ey k hk', ez k hk', hv _ _ ⟨hin.1, hin.2.1, hin.2.2, by simpa using hmk⟩]
      simp [numberOf]
  have h1 : wChi2 (fam p) d = 0 := le_antisymm ((hbest truth ht).trans_eq h0) (wChi2_nonneg _ _)
  obtain ⟨⟨hi, hj, hnan, hmk⟩, hcw⟩ := hc
  obtain ⟨k, hk, hkij⟩ := List.getElem_of_mem ((hmem i j).2 ⟨hi, hj, hnan⟩)
  unfold wChi2 at h1
  rw [hlen] at h1
  have hall := @List.all_zero_of_le_zero_le_of_sum_eq_zero ℝ _ _ _ _ (fun x hx => by
    obtain ⟨k, -, rfl⟩ := List.mem_map.1 hx
    split
    · exact le_rfl
    · exact sq_nonneg _) h1
  · have h2 := hall (List.mem_map.2 ⟨k, List.mem_range.2 hk, rfl⟩)
    rw [em k hk, ex k hk, ey k hk, ez k hk, hkij] at h2
    simp only [hmk, Bool.false_eq_true, if_false] at h2
    rw [hv i j ⟨hi, hj, hnan, hmk⟩] at h2
    have h3 := pow_eq_zero_iff (two_ne_zero) |>.1 h2
    refine sub_eq_zero.1 ((mul_eq_zero.1 h3).resolve_left ?_)
    cases weights with
    | none =>
      rw [hwd]
      exact one_ne_zero
    | some wt =>
      obtain ⟨v, hv1, hv2⟩ := hcw wt rfl
      rw [hwd]
      simp [hk, hkij, hv1, numberOf, hv2]
/-- What `fit_model` returns is allowed. -/
theorem fit_allowed (law : BestFitter fam allowed fitter) (hfit : fitModel fitter image mask m weights = .ok p) : allowed p := by
  unfold fitModel at hfit
  cases hd : fitData image mask weights with
  | error e => rw [hd] at hfit; exact absurd hfit (by simp [bind, Except.bind])
  | ok d => rw [hd] at hfit; exact (law m d p hfit).1

variable {ok : SersicP → Prop} {sfitter : SersicP → FitData ℝ → Except PyErr SersicP} {m0 fit tr : SersicP}

theorem inBounds_pos {q : SersicP} (hq : q.InBounds) : 0 < q.rEff ∧ 0 < q.n ∧ 0 ≤ q.ellip ∧ q.ellip < 1 := by
  obtain ⟨-, h1, ⟨h2, -⟩, ⟨h3, h4⟩, -⟩ := hq
  exact ⟨by linarith, by linarith, h3, by linarith⟩

theorem sersic2D_radius {A r n x0 y0 e t : ℝ} (hr : 0 < r) (x y : ℝ) :
    sersic2D x y A r n x0 y0 e t = A * Real.exp (-bn n * ((ellRadius x y x0 y0 e t / r) ^ (1 / n) - 1)) := by
  unfold sersic2D ellRadius
  simp only
  congr 5
  rw [← Real.sqrt_sq hr.le, ← Real.sqrt_div (by positivity), Real.sqrt_sq hr.le]
  congr 1
  rw [div_pow, div_pow, div_pow, add_div _ _ (r ^ 2), div_div, mul_pow]

/-- **C153, known geometry.** Fit a Sersic model with the geometry (centre, ellipticity, angle) held fixed and the other parameters inside the
default bounds to the image of a Sersic model with that geometry. If three of the fitted pixels have different elliptical radii, `fit_model`
returns exactly the true amplitude, effective radius and index. -/
theorem C153_radial (hok : ∀ q, ok q → q.InBounds ∧ q.x0 = tr.x0 ∧ q.y0 = tr.y0 ∧ q.ellip = tr.ellip ∧ q.theta = tr.theta)
    (law : BestFitter SersicP.at_ ok sfitter) (hfit : fitModel sfitter image mask m0 weights = .ok fit) (ht : ok tr) (hA : 0 < tr.amplitude)
    (hv : ∀ i j, Kept image mask i j → image.px i j = .fin (tr.at_ j i)) {i₁ j₁ i₂ j₂ i₃ j₃ : Nat} (k1 : Counts image mask weights i₁ j₁)
    (k2 : Counts image mask weights i₂ j₂) (k3 : Counts image mask weights i₃ j₃)
    (h12 : ellRadius j₁ i₁ tr.x0 tr.y0 tr.ellip tr.theta < ellRadius j₂ i₂ tr.x0 tr.y0 tr.ellip tr.theta)
    (h23 : ellRadius j₂ i₂ tr.x0 tr.y0 tr.ellip tr.theta < ellRadius j₃ i₃ tr.x0 tr.y0 tr.ellip tr.theta) : fit = tr := by
  have hex := C153_exact law hfit ht hv
  have hf : ok fit := fit_allowed law hfit
  obtain ⟨hb, hx0, hy0, he, hth⟩ := hok fit hf
  obtain ⟨hr, hn, -, -⟩ := inBounds_pos hb
  obtain ⟨hr', hn', -, -⟩ := inBounds_pos (hok tr ht).1
  have e : ∀ i j : Nat, Counts image mask weights i j →
      fit.amplitude * Real.exp (-bn fit.n * ((ellRadius j i tr.x0 tr.y0 tr.ellip tr.theta / fit.rEff) ^ (1 / fit.n) - 1)) =
      tr.amplitude * Real.exp (-bn tr.n * ((ellRadius j i tr.x0 tr.y0 tr.ellip tr.theta / tr.rEff) ^ (1 / tr.n) - 1)) := by
    intro i j hc
    have h1 := hex i j hc
    unfold SersicP.at_ at h1
    rw [hx0, hy0, he, hth] at h1
    rwa [sersic2D_radius hr, sersic2D_radius hr'] at h1
  obtain ⟨g1, g2, g3⟩ := sersic_params_unique hA hr' hr hn' hn (Real.sqrt_nonneg _) h12 h23 fun z hz => by
    rcases hz with rfl | rfl | rfl
    · exact e _ _ k1
    · exact e _ _ k2
    · exact e _ _ k3
  cases fit
  cases tr
  simp only at hx0 hy0 he hth g1 g2 g3
  subst hx0 hy0 he hth g1 g2 g3
  rfl

/-- **C153, known centre.** With only the centre held fixed, at a pixel: if that pixel, the next two to the right, the one above and the one
above and to the right are fitted, `fit_model` returns the true amplitude, effective radius, index and ellipticity, and the true angle up to
half turns (any angle if the galaxy is round). -/
theorem C153_centre {ci cj : Nat} (hok : ∀ q, ok q → q.InBounds ∧ q.x0 = cj ∧ q.y0 = ci) (law : BestFitter SersicP.at_ ok sfitter)
    (hfit : fitModel sfitter image mask m0 weights = .ok fit) (ht : ok tr) (hA : 0 < tr.amplitude)
    (hv : ∀ i j, Kept image mask i j → image.px i j = .fin (tr.at_ j i)) (k00 : Counts image mask weights ci cj)
    (k01 : Counts image mask weights ci (cj + 1)) (k02 : Counts image mask weights ci (cj + 2)) (k10 : Counts image mask weights (ci + 1) cj)
    (k11 : Counts image mask weights (ci + 1) (cj + 1)) :
    fit.amplitude = tr.amplitude ∧ fit.rEff = tr.rEff ∧ fit.n = tr.n ∧ fit.x0 = tr.x0 ∧ fit.y0 = tr.y0 ∧ fit.ellip = tr.ellip ∧
      (tr.ellip ≠ 0 → ∃ k : ℤ, fit.theta = tr.theta + k * Real.pi) := by
  have hex := C153_exact law hfit ht hv
  have hf : ok fit := fit_allowed law hfit
  obtain ⟨hb, hx0, hy0⟩ := hok fit hf
  obtain ⟨hb', hx0', hy0'⟩ := hok tr ht
  obtain ⟨hr, hn, he, he1⟩ := inBounds_pos hb
  obtain ⟨hr', hn', he', he1'⟩ := inBounds_pos hb'
  obtain ⟨g1, g2, g3, g4, g5⟩ := sersic_centre_unique (x0 := (cj : ℝ)) (y0 := (ci : ℝ)) (t := tr.theta) (t' := fit.theta) hA hr' hr hn' hn he' he1' he he1 fun d hd => by
    have h1 : ∀ i j : Nat, Counts image mask weights i j →
        sersic2D j i fit.amplitude fit.rEff fit.n cj ci fit.ellip fit.theta = sersic2D j i tr.amplitude tr.rEff tr.n cj ci tr.ellip tr.theta := by
      intro i j hc
      have h2 := hex i j hc
      unfold SersicP.at_ at h2
      rwa [hx0, hy0, hx0', hy0'] at h2
    have a00 := h1 _ _ k00
    have a01 := h1 _ _ k01
    have a02 := h1 _ _ k02
    have a10 := h1 _ _ k10
    have a11 := h1 _ _ k11
    push_cast at a01 a02 a10 a11
    rcases hd with rfl | rfl | rfl | rfl | rfl
    · simpa using a00
    · simpa using a01
    · simpa using a02
    · simpa using a10
    · simpa using a11
  exact ⟨g1, g2, g3, hx0.trans hx0'.symm, hy0.trans hy0'.symm, g4, g5⟩

/-- **C153, the model itself.** Two Sersic models with positive amplitude that agree everywhere have the same amplitude, effective radius,
index, centre and ellipticity, and the same angle up to half turns unless they are round. -/
theorem C153_everywhere {p q : SersicP} (hp : p.InBounds) (hq : q.InBounds) (hA : 0 < q.amplitude) (h : ∀ x y, p.at_ x y = q.at_ x y) :
    p.amplitude = q.amplitude ∧ p.rEff = q.rEff ∧ p.n = q.n ∧ p.x0 = q.x0 ∧ p.y0 = q.y0 ∧ p.ellip = q.ellip ∧
      (q.ellip ≠ 0 → ∃ k : ℤ, p.theta = q.theta + k * Real.pi) := by
  obtain ⟨hr, hn, he, he1⟩ := inBounds_pos hp
  obtain ⟨hr', hn', he', he1'⟩ := inBounds_pos hq
  have hAp : 0 < p.amplitude := by
    have h1 := h 0 0
    have h2 : 0 < q.at_ 0 0 := mul_pos hA (Real.exp_pos _)
    rw [← h1] at h2
    exact pos_of_mul_pos_left h2 (Real.exp_pos _).le
  have peak : ∀ {s : SersicP}, s.InBounds → 0 < s.amplitude → ∀ x y, ¬ (x = s.x0 ∧ y = s.y0) → s.at_ x y < s.at_ s.x0 s.y0 := by
    intro s hs hsA x y hxy
    obtain ⟨hr, hn, he, he1⟩ := inBounds_pos hs
    unfold SersicP.at_
    rw [sersic2D_scaled, sersic2D_scaled]
    refine mul_lt_mul_of_pos_left (Real.exp_lt_exp.2 ?_) hsA
    have hp := one_div_pos.2 hn
    have h1 : scaledSq s.rEff (1 - s.ellip) s.theta (s.x0 - s.x0) (s.y0 - s.y0) = 0 := by simp [scaledSq]
    rw [h1, Real.sqrt_zero, Real.zero_rpow hp.ne']
    have h2 : 0 < scaledSq s.rEff (1 - s.ellip) s.theta (x - s.x0) (y - s.y0) := by
      refine scaledSq_pos hr (by linarith) _ ?_
      by_contra hn
      rw [not_or, not_not, not_not, sub_eq_zero, sub_eq_zero] at hn
      exact hxy hn
    have h3 := Real.rpow_pos_of_pos (Real.sqrt_pos.2 h2) (1 / s.n)
    have h4 := mul_pos (bn_pos hn) h3
    linarith
  have hc : q.x0 = p.x0 ∧ q.y0 = p.y0 := by
    by_contra hne
    have h1 := peak hp hAp q.x0 q.y0 hne
    have h2 := peak hq hA p.x0 p.y0 fun hc => hne ⟨hc.1.symm, hc.2.symm⟩
    rw [h, h] at h1
    linarith
  obtain ⟨g1, g2, g3, g4, g5⟩ := sersic_centre_unique (x0 := p.x0) (y0 := p.y0) (t := q.theta) (t' := p.theta) hA hr' hr hn' hn he' he1' he he1 fun d _ => by
    have h1 := h (p.x0 + d.1) (p.y0 + d.2)
    unfold SersicP.at_ at h1
    rwa [hc.1, hc.2] at h1
  exact ⟨g1, g2, g3, hc.1.symm, hc.2.symm, g4, g5⟩

/-- **C153, violated for the angle.** Inside the default bounds every model has a twin with another angle and the same values everywhere
(the bounds on theta span two full turns, and half a turn changes nothing). So whatever the image, a best fit is never unique: the fitted
angle is not determined by the image. -/
theorem C153_angle_violated (d : FitData ℝ) {p : SersicP} (hp : BestFit SersicP.at_ SersicP.InBounds d p) :
    ∃ q : SersicP, BestFit SersicP.at_ SersicP.InBounds d q ∧ (∀ x y, q.at_ x y = p.at_ x y) ∧ |q.theta - p.theta| = Real.pi := by
  obtain ⟨⟨b1, b2, b3, b4, b5, b6⟩, hbest⟩ := hp
  have hpi := Real.pi_pos
  obtain ⟨t, ht1, ht2, hc, hs⟩ : ∃ t : ℝ, (-2 * Real.pi ≤ t ∧ t ≤ 2 * Real.pi) ∧ |t - p.theta| = Real.pi ∧ Real.cos t = -Real.cos p.theta ∧
      Real.sin t = -Real.sin p.theta := by
    rcases le_total 0 p.theta with h0 | h0
    · exact ⟨p.theta - Real.pi, ⟨by linarith, by linarith⟩, by simp [abs_of_pos hpi], Real.cos_sub_pi _, Real.sin_sub_pi _⟩
    · exact ⟨p.theta + Real.pi, ⟨by linarith, by linarith⟩, by simp [abs_of_pos hpi], Real.cos_add_pi _, Real.sin_add_pi _⟩
  have hsame : ∀ x y, (⟨p.amplitude, p.rEff, p.n, p.x0, p.y0, p.ellip, t⟩ : SersicP).at_ x y = p.at_ x y := by
    intro x y
    unfold SersicP.at_
    rw [sersic2D_scaled, sersic2D_scaled]
    simp only
    have : scaledSq p.rEff (1 - p.ellip) t (x - p.x0) (y - p.y0) = scaledSq p.rEff (1 - p.ellip) p.theta (x - p.x0) (y - p.y0) := by
      unfold scaledSq
      rw [hc, hs, div_pow, div_pow, div_pow, div_pow]
      ring
    rw [this]
  refine ⟨⟨p.amplitude, p.rEff, p.n, p.x0, p.y0, p.ellip, t⟩, ⟨⟨b1, b2, b3, b4, ht1⟩, fun q hq => ?_⟩, hsame, ht2⟩
  have : SersicP.at_ ⟨p.amplitude, p.rEff, p.n, p.x0, p.y0, p.ellip, t⟩ = p.at_ := funext fun x => funext fun y => hsame x y
  rw [this]
  exact hbest q hq

/-- A fitter that meets the assumption: it returns a best fit if there is one. -/
noncomputable def chosenFitter (fam : M → ℝ → ℝ → ℝ) (allowed : M → Prop) : M → FitData ℝ → Except PyErr M := fun _ d =>
  open Classical in if h : ∃ p, BestFit fam allowed d p then .ok h.choose else .error .exception

theorem chosenFitter_law (fam : M → ℝ → ℝ → ℝ) (allowed : M → Prop) : BestFitter fam allowed (chosenFitter fam allowed) := by
  intro m d p hp
  unfold chosenFitter at hp
  split at hp
  · rename_i h
    injection hp with hp
    exact hp ▸ h.choose_spec
  · exact absurd hp (by simp)

/-- A 3 × 3 image of a galaxy with index 4 and ellipticity 1/2, centred on the first pixel and fitted with the centre held fixed: the fit
exists and has the true amplitude, effective radius, index and ellipticity. -/
example (m0 : SersicP) : ∃ fit k, fitModel (chosenFitter SersicP.at_ fun q => q.InBounds ∧ q.x0 = (0 : Nat) ∧ q.y0 = (0 : Nat))
      ⟨3, 3, fun i j => .fin (SersicP.at_ ⟨10, 2, 4, 0, 0, 1 / 2, 1⟩ j i)⟩ (fun _ _ => false) m0 none = .ok fit ∧
    fit = ⟨10, 2, 4, 0, 0, 1 / 2, 1 + (k : ℤ) * Real.pi⟩ := by
  have hpi := Real.pi_gt_three
  have ht : (fun q : SersicP => q.InBounds ∧ q.x0 = (0 : Nat) ∧ q.y0 = (0 : Nat)) ⟨10, 2, 4, 0, 0, 1 / 2, 1⟩ := by
    refine ⟨⟨by norm_num, by norm_num, ⟨by norm_num, by norm_num⟩, ⟨by norm_num, by norm_num⟩, ⟨?_, ?_⟩⟩, by simp, by simp⟩ <;>
      simp only <;> linarith
  have hv : ∀ i j, Kept (⟨3, 3, fun i j => .fin (SersicP.at_ ⟨10, 2, 4, 0, 0, 1 / 2, 1⟩ j i)⟩ : Img (F ℝ)) (fun _ _ => false) i j →
      (⟨3, 3, fun i j => .fin (SersicP.at_ ⟨10, 2, 4, 0, 0, 1 / 2, 1⟩ j i)⟩ : Img (F ℝ)).px i j =
        .fin (SersicP.at_ ⟨10, 2, 4, 0, 0, 1 / 2, 1⟩ j i) := fun _ _ _ => rfl
  have hc : ∀ i j, i < 3 → j < 3 →
      Counts (⟨3, 3, fun i j => .fin (SersicP.at_ ⟨10, 2, 4, 0, 0, 1 / 2, 1⟩ j i)⟩ : Img (F ℝ)) (fun _ _ => false) none i j :=
    fun i j hi hj => ⟨⟨hi, hj, by simp, rfl⟩, fun wt h => absurd h (by simp)⟩
  obtain ⟨fit, hfit⟩ : ∃ fit, fitModel (chosenFitter SersicP.at_ fun q => q.InBounds ∧ q.x0 = (0 : Nat) ∧ q.y0 = (0 : Nat))
      ⟨3, 3, fun i j => .fin (SersicP.at_ ⟨10, 2, 4, 0, 0, 1 / 2, 1⟩ j i)⟩ (fun _ _ => false) m0 none = .ok fit := by
    obtain ⟨d, hd, idx, hmem, hnd, hsort, hy, hx, hz, hm, hwd⟩ := C62_fitted
      (⟨3, 3, fun i j => .fin (SersicP.at_ ⟨10, 2, 4, 0, 0, 1 / 2, 1⟩ j i)⟩ : Img (F ℝ)) (fun _ _ => false) none (fun wt h => absurd h (by simp))
    have h0 : wChi2 (SersicP.at_ ⟨10, 2, 4, 0, 0, 1 / 2, 1⟩) d = 0 := by
      unfold wChi2
      refine List.sum_eq_zero fun x hx' => ?_
      obtain ⟨k, hk, rfl⟩ := List.mem_map.1 hx'
      have hk' : k < idx.length := by
        have := List.mem_range.1 hk
        rwa [hz, List.length_map] at this
      simp [hx, hy, hz, hk', numberOf]
    have hbest : ∃ p, BestFit SersicP.at_ (fun q => q.InBounds ∧ q.x0 = (0 : Nat) ∧ q.y0 = (0 : Nat)) d p :=
      ⟨_, ht, fun q _ => h0.le.trans (wChi2_nonneg _ _)⟩
    refine ⟨hbest.choose, ?_⟩
    unfold fitModel
    rw [hd]
    simp only [bind, Except.bind, chosenFitter]
    rw [dif_pos hbest]
  obtain ⟨g1, g2, g3, g4, g5, g6, g7⟩ := C153_centre (ci := 0) (cj := 0) (fun q hq => hq) (chosenFitter_law _ _) hfit ht (by norm_num) hv
    (hc 0 0 (by norm_num) (by norm_num)) (hc 0 1 (by norm_num) (by norm_num)) (hc 0 2 (by norm_num) (by norm_num))
    (hc 1 0 (by norm_num) (by norm_num)) (hc 1 1 (by norm_num) (by norm_num))
  obtain ⟨k, hk⟩ := g7 (by norm_num)
  refine ⟨fit, k, hfit, ?_⟩
  cases fit
  simp only at g1 g2 g3 g4 g5 g6 hk
  rw [g1, g2, g3, g4, g5, g6, hk]

end Verif.Props

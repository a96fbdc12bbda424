import Verif.Props.FitRobust
import Verif.Lemmas.ShapeContinuous

/-!
# C173: fluxes and radii computed from the fitted parameters

After a fit, `sersic_enclosed`, `sersic_enclosed_inv` and `petrosian_profile` are called with the fitted parameters. The results converge to those of the true galaxies.
-/

set_option linter.unusedSectionVars false
set_option linter.unusedVariables false

namespace Verif.Spec

open Verif Filter Topology

/-- What the functions of `petrofit/modeling/models.py` return for the fitted galaxy is within `ε` of what they return for the true one. The fitted galaxy is in pixels, the
true one in units of the scene, which has `N` pixels per unit: radii are divided by `N`, fluxes by `N ^ 2`. `r` is a radius, `f` a flux and `eta` a Petrosian ratio. -/
structure SersicP.DerivedWithin (ε : ℝ) (N : Nat) (r f eta : ℝ) (tr fit : SersicP) : Prop where
  /-- the flux within the radius `r` -/
  enclosed : |sersicEnclosed (N * r) fit.amplitude fit.rEff fit.n fit.ellip / (N : ℝ) ^ 2 - sersicEnclosed r tr.amplitude tr.rEff tr.n tr.ellip| < ε
  /-- the total flux -/
  total : ∀ T T', Tendsto (fun r => sersicEnclosed r tr.amplitude tr.rEff tr.n tr.ellip) atTop (𝓝 T) →
    Tendsto (fun r => sersicEnclosed r fit.amplitude fit.rEff fit.n fit.ellip) atTop (𝓝 T') → |T' / (N : ℝ) ^ 2 - T| < ε
  /-- the radius that holds the flux `f` -/
  radius : |sersicEnclosedInv ((N : ℝ) ^ 2 * f) fit.amplitude fit.rEff fit.n fit.ellip / N - sersicEnclosedInv f tr.amplitude tr.rEff tr.n tr.ellip| < ε
  /-- the Petrosian ratio at the radius `r` -/
  petrosian : |petrosianProfile (N * r) fit.rEff fit.n - petrosianProfile r tr.rEff tr.n| < ε
  /-- the Petrosian radius -/
  petrosianRadius : ∀ R R', 0 < R → petrosianProfile R tr.rEff tr.n = eta → 0 < R' → petrosianProfile R' fit.rEff fit.n = eta → |R' / N - R| < ε

/-- The parameters on which fluxes and radii depend. -/
def SersicP.shape (q : SersicP) : ℝ × ℝ × ℝ × ℝ := (q.amplitude, q.rEff, q.n, q.ellip)

end Verif.Spec

namespace Verif.Props

open Verif F Spec Lemmas Filter Topology MeasureTheory PSFModel

/-! ### From pixels to the scene -/

theorem enclosed_zoomOut {N : Nat} (hN : 0 < N) (r a e n ell : ℝ) : sersicEnclosed (N * r) a e n ell = (N : ℝ) ^ 2 * sersicEnclosed r a (e / N) n ell := by
  have hN' : (N : ℝ) ≠ 0 := (Nat.cast_pos.2 hN).ne'
  have h1 : N * r / e = r / (e / N) := by
    rw [div_div_eq_mul_div, mul_comm]
  unfold sersicEnclosed
  simp only
  rw [h1]
  generalize Real.Gamma (2 * n) * gammainc (2 * n) (bn n * (r / (e / N)) ^ (1 / n)) = g
  field_simp

theorem enclosedInv_zoomOut {N : Nat} (hN : 0 < N) (f a e n ell : ℝ) : sersicEnclosedInv ((N : ℝ) ^ 2 * f) a e n ell = N * sersicEnclosedInv f a (e / N) n ell := by
  have hN' : (N : ℝ) ≠ 0 := (Nat.cast_pos.2 hN).ne'
  unfold sersicEnclosedInv
  simp only
  have h1 : (N : ℝ) ^ 2 * f / (a * e ^ 2 * 2 * Real.pi * n * (Real.exp (bn n) / bn n ^ (2 * n)) * (1 - ell)) =
      f / (a * (e / N) ^ 2 * 2 * Real.pi * n * (Real.exp (bn n) / bn n ^ (2 * n)) * (1 - ell)) := by
    rw [show a * (e / N) ^ 2 * 2 * Real.pi * n * (Real.exp (bn n) / bn n ^ (2 * n)) * (1 - ell) =
      a * e ^ 2 * 2 * Real.pi * n * (Real.exp (bn n) / bn n ^ (2 * n)) * (1 - ell) / (N : ℝ) ^ 2 by field_simp, div_div_eq_mul_div, mul_comm f]
  rw [h1]
  field_simp

theorem petrosian_zoomOut {N : Nat} (hN : 0 < N) (r e n : ℝ) : petrosianProfile (N * r) e n = petrosianProfile r (e / N) n := by
  have h1 : N * r / e = r / (e / N) := by
    rw [div_div_eq_mul_div, mul_comm]
  unfold petrosianProfile
  simp only [h1]

/-! ### Parameters near the true ones -/

theorem near_shapes {k : Nat} {tr : Fin k → SersicP} {p : (Fin k → ℝ × ℝ × ℝ × ℝ) → Prop} (h : ∀ᶠ s in 𝓝 fun i => (tr i).shape, p s) :
    ∃ ε : ℝ, 0 < ε ∧ ∀ q : Fin k → SersicP, (∀ i, SersicP.RecoversAll ε (tr i) (q i)) → p fun i => (q i).shape := by
  obtain ⟨ε, hε, hp⟩ := Metric.eventually_nhds_iff.1 h
  refine ⟨ε, hε, fun q hq => hp ?_⟩
  rw [dist_pi_lt_iff hε]
  intro i
  obtain ⟨h1, h2, h3, -, -, h4, -⟩ := hq i
  simp only [SersicP.shape, Prod.dist_eq, Real.dist_eq, max_lt_iff]
  exact ⟨h1, h2, h3, h4⟩

theorem shape_eventually {k : Nat} {tr : Fin k → SersicP} {p : Fin k → ℝ × ℝ × ℝ × ℝ → Prop} (h : ∀ i, ∀ᶠ s in 𝓝 (tr i).shape, p i s) :
    ∀ᶠ s in 𝓝 fun i => (tr i).shape, ∀ i, p i (s i) :=
  eventually_all.2 fun i => (continuous_apply i).continuousAt.eventually (h i)

theorem within_eventually {Q : ℝ × ℝ × ℝ × ℝ → ℝ} {s : ℝ × ℝ × ℝ × ℝ} (h : ContinuousAt Q s) {ε : ℝ} (hε : 0 < ε) : ∀ᶠ s' in 𝓝 s, |Q s' - Q s| < ε := by
  have := h.eventually (Metric.ball_mem_nhds (Q s) hε)
  filter_upwards [this] with s' hs'
  rwa [Real.dist_eq] at hs'

/-- Galaxies with parameters near the true ones have nearly the same fluxes and radii. -/
theorem derived_near {tr : SersicP} (hA : 0 < tr.amplitude) (he : 0 < tr.rEff) (hn : 0 < tr.n) (hell : tr.ellip < 1) {r f eta T : ℝ} (hr : 0 < r)
    (hf0 : 0 < f) (hT : Tendsto (fun r => sersicEnclosed r tr.amplitude tr.rEff tr.n tr.ellip) atTop (𝓝 T)) (hf : f < T) {ε : ℝ} (hε : 0 < ε) :
    ∀ᶠ s in 𝓝 tr.shape, ∀ (N : Nat) (q : SersicP), 0 < N → (q.zoomOut N).shape = s → SersicP.DerivedWithin ε N r f eta tr q := by
  have hTe := total_unique hn he hT
  rw [hTe] at hf
  have hR : ∀ᶠ s in 𝓝 tr.shape, ∀ R, 0 < R → petrosianProfile R tr.rEff tr.n = eta → ∀ r', 0 < r' → petrosianProfile r' s.2.1 s.2.2.1 = eta → |r' - R| < ε := by
    by_cases hc : ∃ R, 0 < R ∧ petrosianProfile R tr.rEff tr.n = eta
    · obtain ⟨R, hR0, hR⟩ := hc
      filter_upwards [petrosian_radius_near (a := tr.amplitude) (ell := tr.ellip) hR0 he hn hR hε] with s hs R₁ hR₁ hRe r' hr' he'
      have : R₁ = R := (C67_decreasing hn he).injOn hR₁ hR0 (hRe.trans hR.symm)
      rw [this]
      exact hs r' hr' he'
    · exact Eventually.of_forall fun s R hR0 hR => absurd ⟨R, hR0, hR⟩ hc
  have hre : ContinuousAt (fun s : ℝ × ℝ × ℝ × ℝ => s.2.1) tr.shape := by fun_prop
  filter_upwards [within_eventually (s := tr.shape) (sersicEnclosed_continuousAt (a := tr.amplitude) (ell := tr.ellip) hr he hn) hε,
    within_eventually (s := tr.shape) (sersicTotal_continuousAt (a := tr.amplitude) (e := tr.rEff) (ell := tr.ellip) hn) hε,
    within_eventually (s := tr.shape) (sersicEnclosedInv_continuousAt hA he hn hell hf0 hf) hε,
    within_eventually (s := tr.shape) (petrosianProfile_continuousAt (a := tr.amplitude) (ell := tr.ellip) hr he hn) hε, hR,
    index_near (a := tr.amplitude) (e := tr.rEff) (ell := tr.ellip) hn, hre.eventually_const_lt he] with s h1 h2 h3 h4 h5 h6 h7 N q hN hs
  have hN' : (0 : ℝ) < N := Nat.cast_pos.2 hN
  subst hs
  simp only [SersicP.shape, SersicP.zoomOut] at h1 h2 h3 h4 h5 h6 h7
  refine ⟨?_, ?_, ?_, ?_, ?_⟩
  · rw [enclosed_zoomOut hN, mul_div_cancel_left₀ _ (by positivity)]
    exact h1
  · intro T₁ T' hT₁ hT'
    have e1 : T' / (N : ℝ) ^ 2 = fluxScale q.amplitude (q.rEff / N) q.n q.ellip * Real.Gamma (2 * q.n) := by
      refine total_unique h6 h7 ?_
      have h8 := (hT'.comp (tendsto_id.const_mul_atTop hN')).div_const ((N : ℝ) ^ 2)
      refine h8.congr fun r => ?_
      simp only [Function.comp, id]
      rw [enclosed_zoomOut hN, mul_div_cancel_left₀ _ (by positivity)]
    rw [e1, tendsto_nhds_unique hT₁ hT, hTe]
    exact h2
  · rw [enclosedInv_zoomOut hN, mul_div_cancel_left₀ _ hN'.ne']
    exact h3
  · rw [petrosian_zoomOut hN]
    exact h4
  · intro R R' hR0 hR hR'0 hR'
    refine h5 R hR0 hR (R' / N) (div_pos hR'0 hN') ?_
    rw [← petrosian_zoomOut hN, mul_div_cancel₀ _ hN'.ne']
    exact hR'

/-- The fraction of the light that comes from one of the galaxies. -/
theorem fraction_near {k : Nat} {tr : Fin k → SersicP} (hA : ∀ i, 0 < (tr i).amplitude) (he : ∀ i, 0 < (tr i).rEff) (hn : ∀ i, 0 < (tr i).n) (hell : ∀ i, (tr i).ellip < 1)
    {T : Fin k → ℝ} (hT : ∀ i, Tendsto (fun r => sersicEnclosed r (tr i).amplitude (tr i).rEff (tr i).n (tr i).ellip) atTop (𝓝 (T i))) {ε : ℝ} (hε : 0 < ε) :
    ∀ᶠ s in 𝓝 fun i => (tr i).shape, ∀ (N : Nat) (q : Fin k → SersicP), 0 < N → (fun i => ((q i).zoomOut N).shape) = s → ∀ T' : Fin k → ℝ,
      (∀ i, Tendsto (fun r => sersicEnclosed r (q i).amplitude (q i).rEff (q i).n (q i).ellip) atTop (𝓝 (T' i))) → ∀ i, |T' i / ∑ j, T' j - T i / ∑ j, T j| < ε := by
  set G : ℝ × ℝ × ℝ × ℝ → ℝ := fun s => fluxScale s.1 s.2.1 s.2.2.1 s.2.2.2 * Real.Gamma (2 * s.2.2.1) with hG
  have hTe : ∀ i, T i = G (tr i).shape := fun i => total_unique (hn i) (he i) (hT i)
  have hGpos : ∀ i, 0 < G (tr i).shape := fun i => mul_pos (fluxScale_pos (hA i) (he i) (hn i) (hell i)) (Real.Gamma_pos_of_pos (mul_pos two_pos (hn i)))
  have hc : ∀ i, ContinuousAt (fun s : Fin k → ℝ × ℝ × ℝ × ℝ => G (s i)) fun i => (tr i).shape := fun i =>
    ContinuousAt.comp (f := fun s : Fin k → ℝ × ℝ × ℝ × ℝ => s i) (g := G) (sersicTotal_continuousAt (hn i)) (continuous_apply i).continuousAt
  have hratio : ∀ i, ∀ᶠ s in 𝓝 fun i => (tr i).shape, |G (s i) / ∑ j, G (s j) - G (tr i).shape / ∑ j, G (tr j).shape| < ε := by
    intro i
    have h1 : ContinuousAt (fun s : Fin k → ℝ × ℝ × ℝ × ℝ => G (s i) / ∑ j, G (s j)) fun i => (tr i).shape :=
      (hc i).div (tendsto_finsetSum _ fun j _ => hc j) (Finset.sum_pos (fun j _ => hGpos j) ⟨i, Finset.mem_univ i⟩).ne'
    filter_upwards [h1.eventually (Metric.ball_mem_nhds _ hε)] with s hs
    rwa [Real.dist_eq] at hs
  have hre : ∀ i, ∀ᶠ s in 𝓝 (tr i).shape, 0 < s.2.1 ∧ 0 < s.2.2.1 := fun i => by
    have h1 : ContinuousAt (fun s : ℝ × ℝ × ℝ × ℝ => s.2.1) (tr i).shape := by fun_prop
    have h2 : ContinuousAt (fun s : ℝ × ℝ × ℝ × ℝ => s.2.2.1) (tr i).shape := by fun_prop
    exact (h1.eventually_const_lt (he i)).and (h2.eventually_const_lt (hn i))
  filter_upwards [eventually_all.2 hratio, shape_eventually hre] with s h1 h2 N q hN hs T' hT' i
  have hN' : (0 : ℝ) < N := Nat.cast_pos.2 hN
  subst hs
  have e1 : ∀ i, T' i = (N : ℝ) ^ 2 * G ((q i).zoomOut N).shape := by
    intro i
    have h8 := ((hT' i).comp (tendsto_id.const_mul_atTop hN')).div_const ((N : ℝ) ^ 2)
    have h9 : T' i / (N : ℝ) ^ 2 = G ((q i).zoomOut N).shape := by
      refine total_unique (h2 i).2 (h2 i).1 (h8.congr fun r => ?_)
      simp only [Function.comp, id, SersicP.zoomOut]
      rw [enclosed_zoomOut hN, mul_div_cancel_left₀ _ (by positivity)]
      rfl
    rw [← h9]
    field_simp
  have e2 : T' i / ∑ j, T' j = G ((q i).zoomOut N).shape / ∑ j, G ((q j).zoomOut N).shape := by
    simp only [e1]
    rw [← Finset.mul_sum, mul_div_mul_left _ _ (by positivity)]
  rw [e2]
  simp only [hTe]
  exact h1 i

/-! ### Fits -/

/-- What follows from parameters near the true ones holds in the limit for the results of consistent fits. -/
theorem derived_limit {k : Nat} {tr : Fin k → SersicP} {Ω : ℕ → Type} [∀ N, MeasurableSpace (Ω N)] {μ : ∀ N, Measure (Ω N)} {results : ∀ N, Ω N → (Fin k → SersicP) → Prop}
    (hcons : ∀ ε : ℝ, 0 < ε → Tendsto (fun N => μ N {ω | ∃ q, results N ω q ∧ ¬ ∀ i, SersicP.RecoversAll ε (tr i) ((q i).zoomOut N)}) atTop (𝓝 0))
    {good : ℕ → (Fin k → SersicP) → Prop}
    (h : ∀ᶠ s in 𝓝 fun i => (tr i).shape, ∀ (N : Nat) (q : Fin k → SersicP), 0 < N → (fun i => ((q i).zoomOut N).shape) = s → good N q) :
    Tendsto (fun N => μ N {ω | ∃ q, results N ω q ∧ ¬ good N q}) atTop (𝓝 0) := by
  obtain ⟨ε, hε, hgood⟩ := near_shapes h
  refine tendsto_of_tendsto_of_tendsto_of_le_of_le' tendsto_const_nhds (hcons ε hε) (Eventually.of_forall fun N => zero_le)
    ((eventually_gt_atTop 0).mono fun N hN => measure_mono ?_)
  rintro ω ⟨q, hq, hnot⟩
  exact ⟨q, hq, fun hrec => hnot (hgood _ hrec N q hN rfl)⟩

/-- **C173.** For whatever fits recover the parameters of the galaxies in the limit: the fluxes, the radii, the Petrosian profile and the Petrosian radius that
`sersic_enclosed`, `sersic_enclosed_inv` and `petrosian_profile` give for the fitted parameters converge to those of the true galaxies. -/
theorem C173_derived {k : Nat} {tr : Fin k → SersicP} {Ω : ℕ → Type} [∀ N, MeasurableSpace (Ω N)] {μ : ∀ N, Measure (Ω N)} {results : ∀ N, Ω N → (Fin k → SersicP) → Prop}
    (hcons : ∀ ε : ℝ, 0 < ε → Tendsto (fun N => μ N {ω | ∃ q, results N ω q ∧ ¬ ∀ i, SersicP.RecoversAll ε (tr i) ((q i).zoomOut N)}) atTop (𝓝 0))
    (hA : ∀ i, 0 < (tr i).amplitude) (he : ∀ i, 0 < (tr i).rEff) (hn : ∀ i, 0 < (tr i).n) (hell : ∀ i, (tr i).ellip < 1) {r : ℝ} (hr : 0 < r) (eta : ℝ) {f T : Fin k → ℝ}
    (hf0 : ∀ i, 0 < f i) (hT : ∀ i, Tendsto (fun r => sersicEnclosed r (tr i).amplitude (tr i).rEff (tr i).n (tr i).ellip) atTop (𝓝 (T i))) (hf : ∀ i, f i < T i)
    {ε : ℝ} (hε : 0 < ε) :
    Tendsto (fun N => μ N {ω | ∃ q, results N ω q ∧ ¬ ∀ i, SersicP.DerivedWithin ε N r (f i) eta (tr i) (q i)}) atTop (𝓝 0) := by
  refine derived_limit hcons ?_
  filter_upwards [shape_eventually fun i => derived_near (eta := eta) (hA i) (he i) (hn i) (hell i) hr (hf0 i) (hT i) (hf i) hε] with s hs N q hN hq i
  exact hs i N (q i) hN (congrFun hq i)

/-- **C173, fractions.** The fraction of the total flux that comes from one of the galaxies, such as the bulge-to-total ratio, converges as well. -/
theorem C173_fraction {k : Nat} {tr : Fin k → SersicP} {Ω : ℕ → Type} [∀ N, MeasurableSpace (Ω N)] {μ : ∀ N, Measure (Ω N)} {results : ∀ N, Ω N → (Fin k → SersicP) → Prop}
    (hcons : ∀ ε : ℝ, 0 < ε → Tendsto (fun N => μ N {ω | ∃ q, results N ω q ∧ ¬ ∀ i, SersicP.RecoversAll ε (tr i) ((q i).zoomOut N)}) atTop (𝓝 0))
    (hA : ∀ i, 0 < (tr i).amplitude) (he : ∀ i, 0 < (tr i).rEff) (hn : ∀ i, 0 < (tr i).n) (hell : ∀ i, (tr i).ellip < 1) {T : Fin k → ℝ}
    (hT : ∀ i, Tendsto (fun r => sersicEnclosed r (tr i).amplitude (tr i).rEff (tr i).n (tr i).ellip) atTop (𝓝 (T i))) {ε : ℝ} (hε : 0 < ε) :
    Tendsto (fun N => μ N {ω | ∃ q, results N ω q ∧ ¬ ∀ T' : Fin k → ℝ,
      (∀ i, Tendsto (fun r => sersicEnclosed r (q i).amplitude (q i).rEff (q i).n (q i).ellip) atTop (𝓝 (T' i))) → ∀ i, |T' i / ∑ j, T' j - T i / ∑ j, T j| < ε}) atTop (𝓝 0) :=
  derived_limit hcons (fraction_near hA he hn hell hT hε)

/-- **C173, tolerances.** Without a limit: there is an `ε'` such that, in images of any size, galaxies whose parameters are within `ε'` of the true ones have fluxes, radii,
Petrosian radii and fractions of the total flux within `ε` of the true ones. -/
theorem C173_tolerance {k : Nat} {tr : Fin k → SersicP} (hA : ∀ i, 0 < (tr i).amplitude) (he : ∀ i, 0 < (tr i).rEff) (hn : ∀ i, 0 < (tr i).n) (hell : ∀ i, (tr i).ellip < 1)
    {r : ℝ} (hr : 0 < r) (eta : ℝ) {f T : Fin k → ℝ} (hf0 : ∀ i, 0 < f i)
    (hT : ∀ i, Tendsto (fun r => sersicEnclosed r (tr i).amplitude (tr i).rEff (tr i).n (tr i).ellip) atTop (𝓝 (T i))) (hf : ∀ i, f i < T i) {ε : ℝ} (hε : 0 < ε) :
    ∃ ε' : ℝ, 0 < ε' ∧ ∀ (N : Nat) (q : Fin k → SersicP), 0 < N → (∀ i, SersicP.RecoversAll ε' (tr i) ((q i).zoomOut N)) →
      (∀ i, SersicP.DerivedWithin ε N r (f i) eta (tr i) (q i)) ∧
      ∀ T' : Fin k → ℝ, (∀ i, Tendsto (fun r => sersicEnclosed r (q i).amplitude (q i).rEff (q i).n (q i).ellip) atTop (𝓝 (T' i))) →
        ∀ i, |T' i / ∑ j, T' j - T i / ∑ j, T j| < ε := by
  obtain ⟨ε', hε', h⟩ := near_shapes ((shape_eventually fun i => derived_near (eta := eta) (hA i) (he i) (hn i) (hell i) hr (hf0 i) (hT i) (hf i) hε).and
    (fraction_near hA he hn hell hT hε))
  exact ⟨ε', hε', fun N q hN hq => ⟨fun i => (h _ hq).1 i N (q i) hN rfl, (h _ hq).2 N q hN rfl⟩⟩

/-- **C173, robust.** The setting of C172: `evaluate` computes the values only up to errors of `δ`, the mean of the data differs from the image of the galaxies by at most `δ` in
the mean square, and the fitter stops when the sum of squares per pixel is within `δ` of the smallest. For every `ε` and `ρ` there is such a `δ` for which the fluxes, radii,
Petrosian radii and fractions of the total flux of the fitted galaxies are within `ε` of the true ones with a probability of at least `1 - ρ`, in all large images. -/
theorem C173_robust {k W H : Nat} {lo hi tr : Fin k → SersicP} {use mask : ℕ → Nat → Nat → Bool} {hasSky : Bool} {sky slo shi v : ℝ}
    {wt : ℕ → Option (Img (F ℝ))} {wa wb : ℝ} (hb : GalaxyBounds W H lo hi) (hW : 0 < W) (hH : 0 < H) (hnosky : hasSky = false → slo = 0 ∧ shi = 0)
    (htr : ∀ i, SersicP.Between (lo i) (hi i) (tr i)) (hsky : slo ≤ sky ∧ sky ≤ shi) (hA : ∀ i, 0 < (tr i).amplitude) (hv : 0 ≤ v)
    (hwa : 0 < wa) (hwb : 0 ≤ wb) (hwt : ∀ N, WeightsUpTo (H * N) (W * N) (use N) (mask N) (wt N) wb)
    (hun : Tendsto (fun N : ℕ => (unfitted (H * N) (W * N) (heavy (use N) (wt N) wa) (mask N) : ℝ) / (N : ℝ) ^ 2) atTop (𝓝 0))
    (he : ∀ i, 0 < (tr i).rEff) (hn : ∀ i, 0 < (tr i).n) (hell : ∀ i, (tr i).ellip < 1) {r : ℝ} (hr : 0 < r) (eta : ℝ) {f T : Fin k → ℝ} (hf0 : ∀ i, 0 < f i)
    (hT : ∀ i, Tendsto (fun r => sersicEnclosed r (tr i).amplitude (tr i).rEff (tr i).n (tr i).ellip) atTop (𝓝 (T i))) (hf : ∀ i, f i < T i) {ε : ℝ} (hε : 0 < ε)
    {ρ : ENNReal} (hρ : 0 < ρ) :
    ∃ δ : ℝ, 0 < δ ∧ ∀ (Ω : ℕ → Type) [∀ N, MeasurableSpace (Ω N)] (μ : ∀ N, Measure (Ω N)) [∀ N, IsProbabilityMeasure (μ N)] (X : ∀ N, Nat → Nat → Ω N → ℝ)
      (m m' : ℕ → Nat → Nat → ℝ) (M M' : ℕ → PSFModel ℝ) (rot rot' : Img ℝ → ℝ → Img ℝ) (pas pas' : Set ℝ) (R R' : Nat) (pa₀ pa' : ℕ → ℝ)
      (ok : ℕ → (Fin k → SersicP) × ℝ × ℝ → Prop) (τ : ℕ → ℝ) (ev : ℕ → (Fin k → SersicP) × ℝ × ℝ → List (ℝ × ℝ) → Except PyErr (List ℝ))
      (fitter : ℕ → (Fin k → SersicP) × ℝ × ℝ → FitData ℝ → Except PyErr ((Fin k → SersicP) × ℝ × ℝ)) (idx : ℕ → List (Nat × Nat)),
      (∀ N, (M N).sub = galaxiesSub k hasSky) → (∀ N, PSFSetting R (M N) rot pas) →
      (∀ N q, 0 < N → ok N q → (∀ i, SersicP.Between (lo i) (hi i) ((q.1 i).zoomOut N)) ∧ (slo ≤ q.2.1 ∧ q.2.1 ≤ shi) ∧ q.2.2 ∈ pas) →
      (∀ N, 0 < N → ok N (fun i => (tr i).zoomIn N, sky, pa₀ N)) →
      (∀ N, ComputedUpTo δ (H * N) (W * N) (ok N) (ev N) fun q c => ((M N).evaluate rot c (galaxiesParams q.1 hasSky q.2.1) q.2.2).1) →
      (∀ N, NearValuesFitter (ev N) (ok N) (τ N) (fitter N)) → (∀ᶠ N : ℕ in atTop, τ N ≤ δ * (N : ℝ) ^ 2) →
      (∀ N, (M' N).sub = galaxiesSub k hasSky) → (∀ N, PSFSetting R' (M' N) rot' pas') → (∀ N, pa' N ∈ pas') →
      (∀ N i j, (i, j) ∈ idx N ↔ i < H * N ∧ j < W * N) →
      (∀ N, 0 < N → ((M' N).evaluate rot' (pixelCoords (idx N)) (galaxiesParams (fun i => (tr i).zoomIn N) hasSky sky) (pa' N)).1 =
        .ok ((idx N).map fun p => m' N p.1 p.2)) →
      (∀ᶠ N : ℕ in atTop, ∑ p ∈ Finset.range (H * N) ×ˢ Finset.range (W * N), (m N p.1 p.2 - m' N p.1 p.2) ^ 2 ≤ δ * (N : ℝ) ^ 2) →
      (∀ N, CorrelatedNoise (μ N) (H * N) (W * N) (X N) (m N) v) →
      ∀ᶠ N : ℕ in atTop, μ N {ω | ∃ m₀ fit, fitModel (fitter N) (nanImage (H * N) (W * N) (use N) fun i j => X N i j ω) (mask N) m₀ (wt N) = .ok fit ∧
        ¬ ((∀ i, SersicP.DerivedWithin ε N r (f i) eta (tr i) (fit.1 i)) ∧
          ∀ T' : Fin k → ℝ, (∀ i, Tendsto (fun r => sersicEnclosed r (fit.1 i).amplitude (fit.1 i).rEff (fit.1 i).n (fit.1 i).ellip) atTop (𝓝 (T' i))) →
            ∀ i, |T' i / ∑ j, T' j - T i / ∑ j, T j| < ε)} ≤ ρ := by
  obtain ⟨ε', hε', htol⟩ := C173_tolerance hA he hn hell hr eta hf0 hT hf hε
  obtain ⟨δ, hδ, h⟩ := C172_galaxies (use := use) (mask := mask) (v := v) (wt := wt) hb hW hH hnosky htr hsky hA hv hwa hwb hwt hun hε' hρ
  refine ⟨δ, hδ, ?_⟩
  intro Ω _ μ _ X m m' M M' rot rot' pas pas' R R' pa₀ pa' ok τ ev fitter idx hsub hset hok ht hcomp law hτ hsub' hset' hpa' hidx hm hdev hX
  filter_upwards [h Ω μ X m m' M M' rot rot' pas pas' R R' pa₀ pa' ok τ ev fitter idx hsub hset hok ht hcomp law hτ hsub' hset' hpa' hidx hm hdev hX,
    eventually_gt_atTop 0] with N hN hN0
  refine le_trans (measure_mono ?_) hN
  rintro ω ⟨m₀, fit, hfit, hnot⟩
  exact ⟨m₀, fit, hfit, fun hrec => hnot (htol N fit.1 hN0 hrec.1)⟩

/-- A bulge and a disk: there is a tolerance for the parameters that gives the part of the light that is in the bulge within 1/100, in images of any size. -/
example {T : Fin 2 → ℝ} (hT : ∀ i, Tendsto (fun r => sersicEnclosed r (bulgeDisk i).amplitude (bulgeDisk i).rEff (bulgeDisk i).n (bulgeDisk i).ellip) atTop (𝓝 (T i))) :
    ∃ ε' : ℝ, 0 < ε' ∧ ∀ (N : Nat) (q : Fin 2 → SersicP), 0 < N → (∀ i, SersicP.RecoversAll ε' (bulgeDisk i) ((q i).zoomOut N)) → ∀ T' : Fin 2 → ℝ,
      (∀ i, Tendsto (fun r => sersicEnclosed r (q i).amplitude (q i).rEff (q i).n (q i).ellip) atTop (𝓝 (T' i))) → |T' 0 / (T' 0 + T' 1) - T 0 / (T 0 + T 1)| < 1 / 100 := by
  have hpos : ∀ i, 0 < (bulgeDisk i).amplitude ∧ 0 < (bulgeDisk i).rEff ∧ 0 < (bulgeDisk i).n ∧ (bulgeDisk i).ellip < 1 := fun i => by
    fin_cases i <;> norm_num [bulgeDisk]
  have hT0 : ∀ i, 0 < T i := fun i => by
    obtain ⟨h1, h2, h3, h4⟩ := hpos i
    rw [total_unique h3 h2 (hT i)]
    exact mul_pos (fluxScale_pos h1 h2 h3 h4) (Real.Gamma_pos_of_pos (by positivity))
  obtain ⟨ε', hε', h⟩ := C173_tolerance (fun i => (hpos i).1) (fun i => (hpos i).2.1) (fun i => (hpos i).2.2.1) (fun i => (hpos i).2.2.2) one_pos (1 / 5)
    (fun i => half_pos (hT0 i)) hT (fun i => half_lt_self (hT0 i)) (show (0 : ℝ) < 1 / 100 by norm_num)
  refine ⟨ε', hε', fun N q hN hq T' hT' => ?_⟩
  have := (h N q hN hq).2 T' hT' 0
  rwa [Fin.sum_univ_two, Fin.sum_univ_two] at this

/-- C169, C171 and the like give what C173 needs. -/
theorem galaxies_results {k : Nat} {tr : Fin k → SersicP} {sky : ℝ} {Ω : ℕ → Type} [∀ N, MeasurableSpace (Ω N)] {μ : ∀ N, Measure (Ω N)}
    {result : ∀ N, Ω N → (Fin k → SersicP) × ℝ × ℝ → Except PyErr ((Fin k → SersicP) × ℝ × ℝ)}
    (h : ∀ ε : ℝ, 0 < ε → Tendsto (fun N : ℕ => μ N {ω | ∃ m₀ fit, result N ω m₀ = .ok fit ∧
      ¬ ((∀ i, SersicP.RecoversAll ε (tr i) ((fit.1 i).zoomOut N)) ∧ |fit.2.1 - sky| < ε)}) atTop (𝓝 0)) (ε : ℝ) (hε : 0 < ε) :
    Tendsto (fun N => μ N {ω | ∃ q, (∃ m₀ fit, result N ω m₀ = .ok fit ∧ fit.1 = q) ∧ ¬ ∀ i, SersicP.RecoversAll ε (tr i) ((q i).zoomOut N)}) atTop (𝓝 0) := by
  refine tendsto_of_tendsto_of_tendsto_of_le_of_le tendsto_const_nhds (h ε hε) (fun N => zero_le) fun N => measure_mono ?_
  rintro ω ⟨q, ⟨m₀, fit, hfit, rfl⟩, hnot⟩
  exact ⟨m₀, fit, hfit, fun hr => hnot hr.1⟩

/-- A bulge and a disk with the same centre, smeared along the rows, with Gaussian noise of 100 in every pixel, fitted with the wrong PSF. Whatever part of the light is in the
bulge, the one of the fitted parameters is within 1/100 of it, with a probability that goes to one. -/
example (rot : Img ℝ → ℝ → Img ℝ) {T : Fin 2 → ℝ}
    (hT : ∀ i, Tendsto (fun r => sersicEnclosed r (bulgeDisk i).amplitude (bulgeDisk i).rEff (bulgeDisk i).n (bulgeDisk i).ellip) atTop (𝓝 (T i))) :
    ∃ (m : ℕ → Nat → Nat → ℝ) (fitter : ℕ → (Fin 2 → SersicP) × ℝ × ℝ → FitData ℝ → Except PyErr ((Fin 2 → SersicP) × ℝ × ℝ)),
    (∀ N, 0 < N → ({ smearModel with sub := galaxiesSub 2 true }.evaluate rot (pixelCoords (npWhere (1 * N) (1 * N) fun _ _ => true))
      (galaxiesParams (fun i => (bulgeDisk i).zoomIn N) true 7) 0).1 = .ok ((npWhere (1 * N) (1 * N) fun _ _ => true).map fun p => m N p.1 p.2)) ∧
    (∀ N, 0 < N → ∀ ω m₀, ∃ fit, fitModel (fitter N)
      (nanImage (1 * N) (1 * N) (fun _ _ => true) fun i j => gaussImage (1 * N) (1 * N) (m N) (fun _ _ => 100) i j ω) (fun _ _ => false) m₀ none = .ok fit) ∧
    Tendsto (fun N => gaussField (1 * N) (1 * N) {ω | ∃ m₀ fit, fitModel (fitter N)
        (nanImage (1 * N) (1 * N) (fun _ _ => true) fun i j => gaussImage (1 * N) (1 * N) (m N) (fun _ _ => 100) i j ω) (fun _ _ => false) m₀ none = .ok fit ∧
      ¬ ∀ T' : Fin 2 → ℝ, (∀ i, Tendsto (fun r => sersicEnclosed r (fit.1 i).amplitude (fit.1 i).rEff (fit.1 i).n (fit.1 i).ellip) atTop (𝓝 (T' i))) →
        |T' 0 / (T' 0 + T' 1) - T 0 / (T 0 + T 1)| < 1 / 100}) atTop (𝓝 0) := by
  set ok : ℕ → (Fin 2 → SersicP) × ℝ × ℝ → Prop := fun N q =>
    (∀ i, SersicP.Between (bulgeDiskLo i) (bulgeDiskHi i) ((q.1 i).zoomOut N)) ∧ (0 ≤ q.2.1 ∧ q.2.1 ≤ 1000) ∧ q.2.2 ∈ ({0} : Set ℝ) with hokd
  set ev : (Fin 2 → SersicP) × ℝ × ℝ → List (ℝ × ℝ) → Except PyErr (List ℝ) := fun q c =>
    ({ crossModel with sub := galaxiesSub 2 true }.evaluate rot c (galaxiesParams q.1 true q.2.1) q.2.2).1 with hev
  have hset := setting_sub (cross_setting rot) (galaxiesSub 2 true)
  have hset' := setting_sub (smear_setting rot) (galaxiesSub 2 true)
  have ht : ∀ N, 0 < N → ok N (fun i => (bulgeDisk i).zoomIn N, 7, 0) := fun N hN =>
    ⟨fun i => by rw [zoomOut_zoomIn hN]; exact bulgeDisk_between i, by norm_num, rfl⟩
  have hidx : ∀ N i j, (i, j) ∈ npWhere (1 * N) (1 * N) (fun _ _ => true) ↔ i < 1 * N ∧ j < 1 * N := fun N i j => by rw [npWhere_mem]; simp
  have hm : ∀ N, ∃ m : Nat → Nat → ℝ, 0 < N → ({ smearModel with sub := galaxiesSub 2 true }.evaluate rot (pixelCoords (npWhere (1 * N) (1 * N) fun _ _ => true))
      (galaxiesParams (fun i => (bulgeDisk i).zoomIn N) true 7) 0).1 = .ok ((npWhere (1 * N) (1 * N) fun _ _ => true).map fun p => m p.1 p.2) := by
    intro N
    rcases Nat.eq_zero_or_pos N with h0 | hN
    · exact ⟨fun _ _ => 0, fun h => absurd h (by omega)⟩
    · obtain ⟨V, -, -, -, hV, -⟩ := psf_values hset' (h := 1 * N) (w := 1 * N) (List.ne_nil_of_mem ((hidx N 0 0).2 ⟨by omega, by omega⟩))
        (fun p hp => (hidx N p.1 p.2).1 hp) (galaxiesParams (fun i => (bulgeDisk i).zoomIn N) true 7) (Set.mem_singleton (0 : ℝ))
      exact ⟨V, fun _ => hV⟩
  choose m hm using hm
  have hpos : ∀ i, 0 < (bulgeDisk i).amplitude ∧ 0 < (bulgeDisk i).rEff ∧ 0 < (bulgeDisk i).n ∧ (bulgeDisk i).ellip < 1 := fun i => by
    fin_cases i <;> norm_num [bulgeDisk]
  refine ⟨m, fun N => chosenNearFitter ev (ok N) 1, hm, ?_, ?_⟩
  · intro N hN ω m₀
    refine C168_exists one_pos _ _ (ht N hN) (fun idx hi => ?_) _ m₀ (by simp)
    obtain ⟨V, -, -, -, hV, -⟩ := psf_values hset (h := 1 * N) (w := 1 * N) (List.ne_nil_of_mem ((hi (0, 0)).2 ⟨by simpa using hN, by simpa using hN, rfl⟩))
      (fun p hp => ⟨((hi p).1 hp).1, ((hi p).1 hp).2.1⟩) (galaxiesParams (fun i => (bulgeDisk i).zoomIn N) true 7) (Set.mem_singleton (0 : ℝ))
    exact ⟨_, hV⟩
  have hlim := fun (ε : ℝ) (hε : 0 < ε) => C169_galaxies (W := 1) (H := 1) (use := fun _ _ _ => true) (mask := fun _ _ _ => false)
    (M := fun _ => { crossModel with sub := galaxiesSub 2 true })
    (M' := fun _ => { smearModel with sub := galaxiesSub 2 true }) (ok := ok) (pa₀ := fun _ => 0) (pa' := fun _ => 0) (rot := rot) (rot' := rot) (tr := bulgeDisk) (sky := 7)
    (slo := 0) (shi := 1000) (hasSky := true) (fitter := fun N => chosenNearFitter ev (ok N) 1)
    bulgeDisk_bounds one_pos one_pos (by simp) (fun _ => rfl) (fun _ => hset) (fun N q _ hq => hq) ht
    (fun i => (hpos i).1) (τ := fun _ => 1) (fun N => chosenNearFitter_law _ _ _)
    (tendsto_const_nhds.div_atTop ((tendsto_pow_atTop two_ne_zero).comp tendsto_natCast_atTop_atTop)) (fun _ => rfl) (fun _ => hset') (fun _ => rfl) hidx hm
    (fun N => (gaussian_noise (1 * N) (1 * N) (m N) fun _ _ => 100).correlated (v := 10000) fun _ _ _ _ => by norm_num) (by norm_num)
    one_pos zero_le_one (fun N => weights_none _ _ _ _) (by simp [unfitted, heavy_none]) hε
  have hfrac := C173_fraction (galaxies_results hlim) (fun i => (hpos i).1) (fun i => (hpos i).2.1) (fun i => (hpos i).2.2.1) (fun i => (hpos i).2.2.2) hT
    (show (0 : ℝ) < 1 / 100 by norm_num)
  refine tendsto_of_tendsto_of_tendsto_of_le_of_le tendsto_const_nhds hfrac (fun N => zero_le) fun N => measure_mono ?_
  rintro ω ⟨m₀, fit, hfit, hnot⟩
  refine ⟨fit.1, ⟨m₀, fit, hfit, rfl⟩, fun hall => hnot fun T' hT' => ?_⟩
  have := hall T' hT' 0
  rwa [Fin.sum_univ_two, Fin.sum_univ_two] at this

/-- Fits of a de Vaucouleurs galaxy whose index is too large by `1 / (N + 1)`: the Petrosian radius converges. -/
example {R T : ℝ} (hR : 0 < R) (hRe : petrosianProfile R (1 / 10) 4 = 1 / 5) (hT : Tendsto (fun r => sersicEnclosed r 10 (1 / 10) 4 (1 / 2)) atTop (𝓝 T))
    {R' : ℕ → ℝ} (hR' : ∀ N, 0 < R' N ∧ petrosianProfile (R' N) (N * (1 / 10)) (4 + 1 / ((N : ℝ) + 1)) = 1 / 5) {ε : ℝ} (hε : 0 < ε) :
    ∀ᶠ N : ℕ in atTop, |R' N / N - R| < ε := by
  set tr : Fin 1 → SersicP := fun _ => ⟨10, 1 / 10, 4, 1 / 2, 1 / 2, 1 / 2, 1⟩ with htr
  have hT0 : 0 < T := by
    rw [total_unique (by norm_num) (by norm_num) hT]
    exact mul_pos (fluxScale_pos (by norm_num) (by norm_num) (by norm_num) (by norm_num)) (Real.Gamma_pos_of_pos (by norm_num))
  have h := C173_derived (tr := tr) (Ω := fun _ => Unit) (μ := fun _ => Measure.dirac ())
    (results := fun N _ q => q = fun _ => ⟨10, N * (1 / 10), 4 + 1 / ((N : ℝ) + 1), N * (1 / 2), N * (1 / 2), 1 / 2, 1⟩) (T := fun _ => T) (f := fun _ => T / 2)
    (by
      intro ε hε
      refine tendsto_const_nhds.congr' ?_
      filter_upwards [(tendsto_one_div_add_atTop_nhds_zero_nat (𝕜 := ℝ)).eventually_lt_const hε, eventually_gt_atTop 0] with N h1 hN
      have hN' : (N : ℝ) ≠ 0 := (Nat.cast_pos.2 hN).ne'
      symm
      convert measure_empty (μ := Measure.dirac ())
      rw [Set.eq_empty_iff_forall_notMem]
      rintro ω ⟨q, rfl, hnot⟩
      refine hnot fun i => ?_
      have h2 : (0 : ℝ) < 1 / ((N : ℝ) + 1) := by positivity
      refine ⟨?_, ?_, ?_, ?_, ?_, ?_, fun _ => ⟨0, ?_⟩⟩ <;> simp only [htr, SersicP.zoomOut, mul_div_cancel_left₀ _ hN', sub_self, abs_zero, hε, add_sub_cancel_left]
      · rwa [abs_of_pos h2]
      · simpa using hε)
    (fun i => by norm_num [htr]) (fun i => by norm_num [htr]) (fun i => by norm_num [htr]) (fun i => by norm_num [htr]) one_pos (1 / 5) (fun _ => half_pos hT0)
    (fun i => hT) (fun _ => half_lt_self hT0) hε
  filter_upwards [h.eventually_lt_const one_pos, eventually_gt_atTop 0] with N h1 hN
  by_contra hnot
  refine absurd h1 (not_lt.2 (le_of_eq ?_))
  symm
  rw [Measure.dirac_apply_of_mem]
  refine ⟨_, rfl, fun hall => hnot ?_⟩
  exact (hall 0).petrosianRadius R (R' N) hR hRe (hR' N).1 (hR' N).2

end Verif.Props

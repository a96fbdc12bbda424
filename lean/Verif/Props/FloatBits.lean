import Verif.Props.FloatFits

/-!
# C180: how many bits a fit needs

The profiles of galaxies hardly change when the points they are sampled at are off by a small fraction of the scene. So fits with models of galaxies in `p` bits recover them
on all large images if `p` is above the logarithm of the image size by a constant.
-/

set_option linter.unusedSectionVars false
set_option linter.unusedVariables false

namespace Verif.Spec

/-- A model function that returns the nearest floats. -/
def roundedSub (fl : ℝ → ℝ) (S : SubModel ℝ) : SubModel ℝ := ⟨S.paramNames, fun params x y => fl (S.eval params x y)⟩

end Verif.Spec

namespace Verif.Props

open Verif F Verif.Spec Lemmas Filter Topology MeasureTheory PSFModel

/-- **C180, samples.** The sum of galaxies, computed with errors up to `η` at points that are off by at most a small part `ν` of the scene. -/
theorem C180_sampled {k W H : Nat} {lo hi : Fin k → SersicP} (hb : GalaxyRange W H lo hi) (slo shi : ℝ) {hasSky : Bool} (hnosky : hasSky = false → slo = 0 ∧ shi = 0)
    (c : ℝ) {δ : ℝ} (hδ : 0 < δ) : ∃ ν : ℝ, 0 < ν ∧ ∀ (N L : Nat) (q : Fin k → SersicP) (sky ξ η : ℝ) (S' : SubModel ℝ), 0 < N →
      (∀ i, SersicP.Between (lo i) (hi i) ((q i).zoomOut N)) → (slo ≤ sky ∧ sky ≤ shi) → (L : ℝ) ≤ c * N → ξ ≤ ν * N →
      (∀ x y : ℝ, |S'.eval (galaxiesParams q hasSky sky) x y - (galaxiesSub k hasSky).eval (galaxiesParams q hasSky sky) x y| ≤ η) →
      SampledUpTo L ξ (η + δ) S' (galaxiesSub k hasSky) (galaxiesParams q hasSky sky) := by
  set I : Set ℝ := Set.Icc (-(2 * c + 1)) (2 * c + 1) with hI
  have hcomp : IsCompact (galaxyBox lo hi slo shi ×ˢ (I ×ˢ I)) := (galaxyBox_compact lo hi slo shi).prod (isCompact_Icc.prod isCompact_Icc)
  have hg := (galaxies_scene (slo := slo) (shi := shi) hb).mono (Set.prod_mono_right (s := galaxyBox lo hi slo shi) (Set.subset_univ (I ×ˢ I)))
  obtain ⟨ν, hν, hmod⟩ := Metric.uniformContinuousOn_iff.1 (hcomp.uniformContinuousOn_of_continuous hg) δ hδ
  refine ⟨min (ν / 2) 1, lt_min (half_pos hν) one_pos, ?_⟩
  intro N L q sky ξ η S' hN hq hsky hL hξ hη x y x' y' hx hy hx' hy'
  have hN' : (0 : ℝ) < N := Nat.cast_pos.2 hN
  have h1 := hη x' y'
  refine (abs_sub_le _ ((galaxiesSub k hasSky).eval (galaxiesParams q hasSky sky) x' y') _).trans (add_le_add h1 ?_)
  rw [C169_sum, sky_value hnosky hsky.1 hsky.2]
  have e : galaxiesAt q sky = zoomed N (galaxiesAt (fun i => (q i).zoomOut N) sky) := by
    rw [← galaxies_zoomed hN]
    simp only [zoomIn_zoomOut hN]
  rw [e]
  choose θ hθ using fun i => (⟨_, sersicAt_surj ((q i).zoomOut N)⟩ : ∃ θ, sersicAt θ = (q i).zoomOut N)
  have hmem : (θ, sky) ∈ galaxyBox lo hi slo shi := by
    rw [mem_galaxyBox]
    exact ⟨fun i => by rw [hθ]; exact hq i, hsky⟩
  have hin : ∀ a a' : ℝ, |a| ≤ 2 * L → |a' - a| ≤ ξ → a / N ∈ I ∧ a' / N ∈ I ∧ dist (a' / N) (a / N) < ν := by
    intro a a' ha ha'
    have b1 : |a / N| ≤ 2 * c := by
      rw [abs_div, abs_of_pos hN', div_le_iff₀ hN']
      linarith
    have b2 : |a' / N - a / N| ≤ min (ν / 2) 1 := by
      rw [← sub_div, abs_div, abs_of_pos hN', div_le_iff₀ hN']
      exact ha'.trans hξ
    have b3 := b2.trans (min_le_right _ _)
    have b4 := b2.trans (min_le_left _ _)
    rw [abs_le] at b1 b3
    refine ⟨⟨by linarith, by linarith⟩, ⟨by linarith, by linarith⟩, ?_⟩
    rw [Real.dist_eq]
    linarith
  obtain ⟨x1, x2, x3⟩ := hin x x' hx hx'
  obtain ⟨y1, y2, y3⟩ := hin y y' hy hy'
  have h2 := hmod ((θ, sky), x' / N, y' / N) ⟨hmem, x2, y2⟩ ((θ, sky), x / N, y / N) ⟨hmem, x1, y1⟩ (by
    rw [Prod.dist_eq, Prod.dist_eq, dist_self]
    exact max_lt (by simpa using hν) (max_lt x3 y3))
  rw [Real.dist_eq] at h2
  simp only [hθ] at h2
  exact h2.le

/-- **C180, runs.** For models of galaxies the accuracy at wrong points follows: a run is accurate up to `t` if the arithmetic, the PSF and the values of the wrapped model are
accurate up to `s`, with arrays of a length up to a multiple `c` of the image. -/
theorem C180_run {k W H : Nat} {lo hi : Fin k → SersicP} (hb : GalaxyRange W H lo hi) (slo shi : ℝ) {hasSky : Bool} (hnosky : hasSky = false → slo = 0 ∧ shi = 0)
    (c : Nat) {t : ℝ} (ht : 0 < t) : ∃ s : ℝ, 0 < s ∧ ∀ (N : Nat) (q : Fin k → SersicP) (sky pa : ℝ) (ops : FloatOps ℝ) (rot : Img ℝ → ℝ → Img ℝ) (M' M : PSFModel ℝ)
      (h w : Nat) (u γ κ ζ : ℝ), 0 < N → (∀ i, SersicP.Between (lo i) (hi i) ((q i).zoomOut N)) → (slo ≤ sky ∧ sky ≤ shi) → M.sub = galaxiesSub k hasSky →
      (0 ≤ u ∧ u ≤ s) → (0 ≤ γ ∧ γ ≤ s) → (0 ≤ κ ∧ κ ≤ s) → (0 ≤ ζ ∧ ζ ≤ s) → FloatLaw (c * N) u γ κ ops → FloatModel (c * N) ζ 1 ops rot pa M' M →
      FitsIn (c * N) h w M (galaxiesParams q hasSky sky) →
      (∀ x y : ℝ, |M'.sub.eval (galaxiesParams q hasSky sky) x y - M.sub.eval (galaxiesParams q hasSky sky) x y| ≤ s) →
      FloatRun t h w ops rot pa M' M (galaxiesParams q hasSky sky) := by
  obtain ⟨ν, hν, hsam⟩ := C180_sampled hb slo shi hnosky c (half_pos ht)
  have hc : (0 : ℝ) < 6 * c + 1 := by positivity
  refine ⟨min (t / 2) (ν / (6 * c + 1)), lt_min (half_pos ht) (div_pos hν hc), ?_⟩
  intro N q sky pa ops rot M' M h w u γ κ ζ hN hq hsky hsub hu hγ hκ hζ law hM' hfit hS
  have hle : ∀ {x : ℝ}, (0 ≤ x ∧ x ≤ min (t / 2) (ν / (6 * c + 1))) → 0 ≤ x ∧ x ≤ t := fun hx =>
    ⟨hx.1, (hx.2.trans (min_le_left _ _)).trans (by linarith)⟩
  refine ⟨c * N, u, γ, κ, ζ, t, hle hu, hle hγ, hle hκ, hle hζ, ⟨ht.le, le_rfl⟩, law, hM', hfit, ?_⟩
  have h1 : 6 * u * ((c * N : Nat) : ℝ) ≤ ν * N := by
    have h2 := (le_div_iff₀ hc).1 (hu.2.trans (min_le_right _ _))
    have h3 : 6 * u * c ≤ ν := by nlinarith [hu.1]
    push_cast
    calc 6 * u * (c * N) = 6 * u * c * N := by ring
      _ ≤ ν * N := mul_le_mul_of_nonneg_right h3 (Nat.cast_nonneg _)
  have h4 := hsam N (c * N) q sky (6 * u * ((c * N : Nat) : ℝ)) (t / 2) M'.sub hN hq hsky (by push_cast; rfl) h1 (fun x y => by
    rw [← hsub]
    exact (hS x y).trans (min_le_left _ _))
  rw [add_halves] at h4
  rw [hsub]
  exact h4

/-- With enough bits all errors of `directOps` are small; a constant more than the logarithm of the size are enough. -/
theorem bits_small (c : Nat) (hc : 0 < c) {s : ℝ} (hs : 0 < s) : ∃ b : Nat, ∀ N p : Nat, 0 < N → b + Nat.log 2 N ≤ p → 1 ≤ p ∧ c * N ≤ 2 ^ p ∧ (2 : ℝ) ^ (-(p : ℤ)) ≤ s ∧
    (1 + (2 : ℝ) ^ (-(p : ℤ))) ^ pwDepth (c * N) - 1 ≤ s ∧ (1 + (2 : ℝ) ^ (-(p : ℤ))) ^ (pwDepth (c * N * (c * N)) + 1) - 1 ≤ s := by
  set C : ℝ := 2 * (26 + 2 * c) with hC
  have l0 : Tendsto (fun b : ℕ => C * (1 / 2 : ℝ) ^ b) atTop (𝓝 (C * 0)) :=
    (tendsto_pow_atTop_nhds_zero_of_lt_one (by norm_num) (by norm_num)).const_mul C
  rw [mul_zero] at l0
  have l1 : Tendsto (fun b : ℕ => Real.exp (C * (1 / 2 : ℝ) ^ b) - 1) atTop (𝓝 (Real.exp 0 - 1)) := ((Real.continuous_exp.tendsto 0).comp l0).sub_const 1
  rw [Real.exp_zero, sub_self] at l1
  obtain ⟨b, b1, b2, b3⟩ := ((l0.eventually_le_const hs).and ((l1.eventually_le_const hs).and
    ((tendsto_pow_atTop_atTop_of_one_lt (show (1 : ℕ) < 2 by norm_num)).eventually_ge_atTop (2 * c)))).exists
  refine ⟨b, fun N p hN hp => ?_⟩
  have hN' : (0 : ℝ) < N := Nat.cast_pos.2 hN
  have hN1 : (1 : ℝ) ≤ N := by exact_mod_cast hN
  have hlog : N < 2 ^ (Nat.log 2 N + 1) := Nat.lt_pow_succ_log_self (by norm_num) N
  have hpow : (2 : ℕ) ^ b * 2 ^ Nat.log 2 N ≤ 2 ^ p := by
    rw [← pow_add]
    exact Nat.pow_le_pow_right (by norm_num) hp
  have hbig : 2 ^ b * N ≤ 2 * 2 ^ p := by
    rw [pow_succ] at hlog
    nlinarith [Nat.pos_of_ne_zero (pow_ne_zero b (two_ne_zero (α := ℕ)))]
  have hu : (2 : ℝ) ^ (-(p : ℤ)) * N ≤ 2 * (1 / 2 : ℝ) ^ b := by
    rw [zpow_neg, zpow_natCast, one_div, inv_pow, ← div_eq_inv_mul, ← div_eq_mul_inv, div_le_div_iff₀ (by positivity) (by positivity)]
    have : ((2 ^ b * N : ℕ) : ℝ) ≤ ((2 * 2 ^ p : ℕ) : ℝ) := by exact_mod_cast hbig
    push_cast at this
    linarith
  have hu0 : (0 : ℝ) ≤ (2 : ℝ) ^ (-(p : ℤ)) := by positivity
  have hhalf : (0 : ℝ) ≤ (1 / 2 : ℝ) ^ b := by positivity
  have hc1 : (0 : ℝ) ≤ c := Nat.cast_nonneg _
  have hdepth : ∀ d : Nat, d ≤ 26 + 2 * (c * N) → (1 + (2 : ℝ) ^ (-(p : ℤ))) ^ d - 1 ≤ s := by
    intro d hd
    have h1 : (1 + (2 : ℝ) ^ (-(p : ℤ))) ^ d ≤ Real.exp ((2 : ℝ) ^ (-(p : ℤ)) * d) := by
      rw [mul_comm, Real.exp_nat_mul]
      refine pow_le_pow_left₀ (by positivity) ?_ d
      rw [add_comm]
      exact Real.add_one_le_exp _
    have h2 : (d : ℝ) ≤ (26 + 2 * c) * N := by
      have : (d : ℝ) ≤ ((26 + 2 * (c * N) : ℕ) : ℝ) := by exact_mod_cast hd
      push_cast at this
      nlinarith
    have h3 : (2 : ℝ) ^ (-(p : ℤ)) * d ≤ C * (1 / 2 : ℝ) ^ b := by
      calc (2 : ℝ) ^ (-(p : ℤ)) * d ≤ (2 : ℝ) ^ (-(p : ℤ)) * ((26 + 2 * c) * N) := mul_le_mul_of_nonneg_left h2 hu0
        _ = (26 + 2 * c) * ((2 : ℝ) ^ (-(p : ℤ)) * N) := by ring
        _ ≤ (26 + 2 * c) * (2 * (1 / 2 : ℝ) ^ b) := mul_le_mul_of_nonneg_left hu (by positivity)
        _ = C * (1 / 2 : ℝ) ^ b := by rw [hC]; ring
    have h4 := Real.exp_le_exp.2 h3
    linarith
  have hlin : ∀ n m : Nat, n < 2 ^ m → Nat.log 2 (n - 15) ≤ m := by
    intro n m hnm
    rcases Nat.eq_zero_or_pos (n - 15) with h0 | h0
    · rw [h0]
      simp
    · exact (Nat.log_lt_of_lt_pow (by omega) (show n - 15 < 2 ^ m by omega)).le
  have hL := (c * N).lt_two_pow_self
  refine ⟨?_, ?_, ?_, ?_, ?_⟩
  · rcases Nat.eq_zero_or_pos b with rfl | hb
    · simp at b3
      omega
    · omega
  · nlinarith
  · have h1 : (2 : ℝ) ^ (-(p : ℤ)) * 1 ≤ (2 : ℝ) ^ (-(p : ℤ)) * N := mul_le_mul_of_nonneg_left hN1 hu0
    have h2 : 2 * (1 / 2 : ℝ) ^ b ≤ C * (1 / 2 : ℝ) ^ b := mul_le_mul_of_nonneg_right (by rw [hC]; nlinarith) hhalf
    linarith
  · refine hdepth _ ?_
    have := hlin _ _ hL
    unfold pwDepth
    omega
  · refine hdepth _ ?_
    have := hlin (c * N * (c * N)) (2 * (c * N)) (by
      rw [two_mul, pow_add]
      exact Nat.mul_lt_mul'' hL hL)
    unfold pwDepth
    omega

theorem kernel_total {R : Nat} {Q : Img ℝ} (hQ : Kernel R Q) : absTotal Q ≤ 1 := by
  unfold absTotal
  rw [← hQ.one]
  refine le_of_eq (Finset.sum_congr rfl fun u hu => Finset.sum_congr rfl fun v hv => ?_)
  exact abs_of_nonneg (hQ.nonneg u (Finset.mem_range.1 hu) v (Finset.mem_range.1 hv))

/-- **C180, runs in bits.** Runs with models of galaxies whose wrapped model returns the nearest floats, with pairwise sums and direct convolutions, are accurate up to `t` if the
number of bits is above the logarithm of the size by a constant. -/
theorem C180_bits_run {k W H R : Nat} {lo hi : Fin k → SersicP} (hb : GalaxyRange W H lo hi) (slo shi : ℝ) {hasSky : Bool} (hnosky : hasSky = false → slo = 0 ∧ shi = 0)
    {M : PSFModel ℝ} {rot : Img ℝ → ℝ → Img ℝ} {pas : Set ℝ} (hsub : M.sub = galaxiesSub k hasSky) (hset : PSFSetting R M rot pas) {t : ℝ} (ht : 0 < t) :
    ∃ b : Nat, ∀ (N p : Nat) (q : (Fin k → SersicP) × ℝ × ℝ), 0 < N → b + Nat.log 2 N ≤ p → (∀ i, SersicP.Between (lo i) (hi i) ((q.1 i).zoomOut N)) →
      (slo ≤ q.2.1 ∧ q.2.1 ≤ shi) → q.2.2 ∈ pas →
      FloatRun t (H * N) (W * N) (directOps (flBits p) rot) rot q.2.2 { M with sub := roundedSub (flBits p) M.sub } M (galaxiesParams q.1 hasSky q.2.1) := by
  set c : Nat := 2 * ((H + W) * M.gridFactor) + 3 + M.gridFactor * M.gridFactor + M.psfFactor * M.psfFactor + R with hcd
  obtain ⟨s, hs, hrun⟩ := C180_run hb slo shi hnosky c ht
  obtain ⟨B, hB⟩ := galaxies_bounded hb slo shi
  have hB' : 0 < |B| + 1 := by positivity
  obtain ⟨b, hbits⟩ := bits_small c (by omega) (lt_min hs (div_pos hs hB'))
  refine ⟨b, fun N p q hN hp q1 q2 q3 => ?_⟩
  obtain ⟨p1, p2, p3, p4, p5⟩ := hbits N p hN hp
  have hL : ∀ {a : Nat}, a ≤ c → a ≤ c * N := fun ha => ha.trans (Nat.le_mul_of_pos_right c hN)
  have hu0 : (0 : ℝ) ≤ (2 : ℝ) ^ (-((p : Nat) : ℤ)) := by positivity
  have hpw : ∀ d : Nat, (0 : ℝ) ≤ (1 + (2 : ℝ) ^ (-((p : Nat) : ℤ))) ^ d - 1 := fun d => sub_nonneg.2 (one_le_pow₀ (by linarith))
  have hfits : FitsIn (c * N) (H * N) (W * N) M (galaxiesParams q.1 hasSky q.2.1) := by
    refine ⟨?_, hL ?_, hL ?_, fun x y size f hw => absurd hw (hset.noWindow x y size f)⟩
    · have e : 2 * ((H * N + W * N) * M.gridFactor) + 3 = 2 * ((H + W) * M.gridFactor) * N + 3 := by ring
      rw [e]
      have h1 : (2 * ((H + W) * M.gridFactor) + 3) * N ≤ c * N := Nat.mul_le_mul_right _ (by omega)
      nlinarith
    · have h1 : M.gridFactor / M.psfFactor ≤ M.gridFactor := Nat.div_le_self _ _
      have h2 := Nat.mul_le_mul h1 h1
      omega
    · omega
  refine hrun N q.1 q.2.1 q.2.2 (directOps (flBits p) rot) rot _ M (H * N) (W * N) _ _ _ 0 hN q1 q2 hsub ⟨hu0, p3.trans (min_le_left _ _)⟩
    ⟨hpw _, p4.trans (min_le_left _ _)⟩ ⟨hpw _, p5.trans (min_le_left _ _)⟩ ⟨le_rfl, hs.le⟩
    (C180_direct (flBits_relErr p p1) hu0 (fun k hk => ?_) rot) ⟨rfl, rfl, rfl, fun h => h, fun psf hpsf => ⟨psf, hpsf, ?_, kernel_total (hset.kernel psf hpsf _ q3)⟩⟩ hfits ?_
  · have h1 := flBits_repr (K := ℝ) p p1 k (hk.trans (by exact_mod_cast p2)) (-1)
    rw [zpow_neg_one, ← div_eq_mul_inv] at h1
    exact h1
  · have hk := hset.kernel psf hpsf _ q3
    refine ⟨rfl, rfl, ⟨hL (hk.height.trans (by omega)), hL (hk.width.trans (by omega))⟩, ?_⟩
    show ∑ a ∈ Finset.range _, ∑ b ∈ Finset.range _, |(kernel rot psf q.2.2).px a b - (kernel rot psf q.2.2).px a b| ≤ 0
    simp
  · intro x y
    show |flBits p (M.sub.eval _ x y) - M.sub.eval _ x y| ≤ s
    refine (flBits_relErr p p1 _).trans ?_
    have h1 : |M.sub.eval (galaxiesParams q.1 hasSky q.2.1) x y| ≤ |B| + 1 := by
      rw [hsub, C169_sum, sky_value hnosky q2.1 q2.2]
      have := hB N q.1 q.2.1 q1 q2 x y
      linarith [le_abs_self B]
    have h2 := (le_div_iff₀ hB').1 (p3.trans (min_le_right _ _))
    exact (mul_le_mul_of_nonneg_left h1 hu0).trans h2

/-- **C180, bits.** A model of galaxies with a PSF and oversampling, whose wrapped model returns the nearest floats, run in `p N` bits on the `N`-th image, with pairwise sums and
direct convolutions. There is a number `b` of bits such that fits recover all parameters within `ε` with a probability of at least `1 - ρ` on all large images, if `p N` is at
least `b` plus the logarithm of `N`, and the deviation of the data and the excess of the fitter per unit of the scene are at most `t`. -/
theorem C180_bits {k W H R : Nat} {lo hi tr : Fin k → SersicP} {use mask : ℕ → Nat → Nat → Bool} {hasSky : Bool} {sky slo shi v : ℝ}
    {wt : ℕ → Option (Img (F ℝ))} {wa wb : ℝ} {M : PSFModel ℝ} {rot : Img ℝ → ℝ → Img ℝ} {pas : Set ℝ} (hb : GalaxyBounds W H lo hi) (hW : 0 < W) (hH : 0 < H)
    (hnosky : hasSky = false → slo = 0 ∧ shi = 0)
    (htr : ∀ i, SersicP.Between (lo i) (hi i) (tr i)) (hsky : slo ≤ sky ∧ sky ≤ shi) (hA : ∀ i, 0 < (tr i).amplitude) (hv : 0 ≤ v)
    (hwa : 0 < wa) (hwb : 0 ≤ wb) (hwt : ∀ N, WeightsUpTo (H * N) (W * N) (use N) (mask N) (wt N) wb)
    (hun : Tendsto (fun N : ℕ => (unfitted (H * N) (W * N) (heavy (use N) (wt N) wa) (mask N) : ℝ) / (N : ℝ) ^ 2) atTop (𝓝 0)) {ε : ℝ} (hε : 0 < ε)
    {ρ : ENNReal} (hρ : 0 < ρ) (hsub : M.sub = galaxiesSub k hasSky) (hset : PSFSetting R M rot pas) :
    ∃ (t : ℝ) (b : Nat), 0 < t ∧ ∀ (p : ℕ → ℕ) (Ω : ℕ → Type) [∀ N, MeasurableSpace (Ω N)] (μ : ∀ N, Measure (Ω N)) [∀ N, IsProbabilityMeasure (μ N)]
      (X : ∀ N, Nat → Nat → Ω N → ℝ)
      (m m' : ℕ → Nat → Nat → ℝ) (M' : ℕ → PSFModel ℝ) (rot' : Img ℝ → ℝ → Img ℝ) (pas' : Set ℝ) (R' : Nat) (pa₀ pa' : ℕ → ℝ)
      (ok : ℕ → (Fin k → SersicP) × ℝ × ℝ → Prop) (τ : ℕ → ℝ)
      (fitter : ℕ → (Fin k → SersicP) × ℝ × ℝ → FitData ℝ → Except PyErr ((Fin k → SersicP) × ℝ × ℝ)) (idx : ℕ → List (Nat × Nat)),
      (∀ N, b + Nat.log 2 N ≤ p N) →
      (∀ N q, 0 < N → ok N q → (∀ i, SersicP.Between (lo i) (hi i) ((q.1 i).zoomOut N)) ∧ (slo ≤ q.2.1 ∧ q.2.1 ≤ shi) ∧ q.2.2 ∈ pas) →
      (∀ N, 0 < N → ok N (fun i => (tr i).zoomIn N, sky, pa₀ N)) →
      (∀ N, NearValuesFitter (fun q c => ({ M with sub := roundedSub (flBits (p N)) M.sub }).evaluateFl (directOps (flBits (p N)) rot) c
        (galaxiesParams q.1 hasSky q.2.1) q.2.2) (ok N) (τ N) (fitter N)) → (∀ᶠ N : ℕ in atTop, τ N ≤ t * (N : ℝ) ^ 2) →
      (∀ N, (M' N).sub = galaxiesSub k hasSky) → (∀ N, PSFSetting R' (M' N) rot' pas') → (∀ N, pa' N ∈ pas') →
      (∀ N i j, (i, j) ∈ idx N ↔ i < H * N ∧ j < W * N) →
      (∀ N, 0 < N → ((M' N).evaluate rot' (pixelCoords (idx N)) (galaxiesParams (fun i => (tr i).zoomIn N) hasSky sky) (pa' N)).1 =
        .ok ((idx N).map fun p => m' N p.1 p.2)) →
      (∀ᶠ N : ℕ in atTop, ∑ p ∈ Finset.range (H * N) ×ˢ Finset.range (W * N), (m N p.1 p.2 - m' N p.1 p.2) ^ 2 ≤ t * (N : ℝ) ^ 2) →
      (∀ N, CorrelatedNoise (μ N) (H * N) (W * N) (X N) (m N) v) →
      ∀ᶠ N : ℕ in atTop, μ N {ω | ∃ m₀ fit, fitModel (fitter N) (nanImage (H * N) (W * N) (use N) fun i j => X N i j ω) (mask N) m₀ (wt N) = .ok fit ∧
        ¬ ((∀ i, SersicP.RecoversAll ε (tr i) ((fit.1 i).zoomOut N)) ∧ |fit.2.1 - sky| < ε)} ≤ ρ := by
  obtain ⟨t, ht, hfit⟩ := C180_galaxies (use := use) (mask := mask) hb hW hH hnosky htr hsky hA hv hwa hwb hwt hun hε hρ
  obtain ⟨b, hbits⟩ := C180_bits_run hb.toGalaxyRange slo shi hnosky hsub hset ht
  refine ⟨t, b, ht, ?_⟩
  intro p Ω _ μ _ X m m' M' rot' pas' R' pa₀ pa' ok τ fitter idx hp hok htr' law hτ hsub' hset' hpa' hidx hm hdev hX
  refine hfit Ω μ X m m' (fun _ => M) M' (fun N => { M with sub := roundedSub (flBits (p N)) M.sub }) (fun N => directOps (flBits (p N)) rot) rot rot' pas pas' R R' pa₀ pa' ok τ
    fitter idx (fun _ => hsub) (fun _ => hset) hok htr' ?_ law hτ hsub' hset' hpa' hidx hm hdev hX
  intro N q hN hq
  obtain ⟨q1, q2, q3⟩ := hok N q hN hq
  exact hbits N (p N) q hN (hp N) q1 q2 q3

/-- The two galaxies and the sky of C169 with Gaussian noise of 100 in every pixel. The fit runs in `b` bits more than the logarithm of the image size, and there is a fit for
every image: the index of the second galaxy is within 1/10 of 1 in 99 of 100 images that are large enough. -/
example (rot : Img ℝ → ℝ → Img ℝ) (m₀ : (Fin 2 → SersicP) × ℝ × ℝ) : ∃ b : Nat,
    ∃ (m : ℕ → Nat → Nat → ℝ) (fitter : ℕ → (Fin 2 → SersicP) × ℝ × ℝ → FitData ℝ → Except PyErr ((Fin 2 → SersicP) × ℝ × ℝ))
      (fit : ∀ N, (Fin (1 * N) × Fin (1 * N) → ℝ) → (Fin 2 → SersicP) × ℝ × ℝ),
    (∀ N, 0 < N → ({ smearModel with sub := galaxiesSub 2 true }.evaluate rot (pixelCoords (npWhere (1 * N) (1 * N) fun _ _ => true))
      (galaxiesParams (fun i => (pairTruth i).zoomIn N) true 7) 0).1 = .ok ((npWhere (1 * N) (1 * N) fun _ _ => true).map fun p => m N p.1 p.2)) ∧
    (∀ N, NearValuesFitter (fun q c => ({ crossModel with sub := roundedSub (flBits (b + Nat.log 2 N)) (galaxiesSub 2 true) }).evaluateFl
        (directOps (flBits (b + Nat.log 2 N)) rot) c (galaxiesParams q.1 true q.2.1) q.2.2)
      (fun q => (∀ i, SersicP.Between (pairLo i) (pairHi i) ((q.1 i).zoomOut N)) ∧ (0 ≤ q.2.1 ∧ q.2.1 ≤ 1000) ∧ q.2.2 ∈ ({0} : Set ℝ)) 1 (fitter N)) ∧
    (∀ N, 0 < N → ∀ ω, fitModel (fitter N)
      (nanImage (1 * N) (1 * N) (fun _ _ => true) fun i j => gaussImage (1 * N) (1 * N) (m N) (fun _ _ => 100) i j ω) (fun _ _ => false) m₀ none = .ok (fit N ω)) ∧
    ∀ᶠ N in atTop, gaussField (1 * N) (1 * N) {ω | ¬ |((fit N ω).1 1).n - 1| < 1 / 10} ≤ 1 / 100 := by
  set ok : ℕ → (Fin 2 → SersicP) × ℝ × ℝ → Prop := fun N q =>
    (∀ i, SersicP.Between (pairLo i) (pairHi i) ((q.1 i).zoomOut N)) ∧ (0 ≤ q.2.1 ∧ q.2.1 ≤ 1000) ∧ q.2.2 ∈ ({0} : Set ℝ) with hokd
  have hset := setting_sub (cross_setting rot) (galaxiesSub 2 true)
  have hset' := setting_sub (smear_setting rot) (galaxiesSub 2 true)
  have ht : ∀ N, 0 < N → ok N (fun i => (pairTruth i).zoomIn N, 7, 0) := fun N hN =>
    ⟨fun i => by rw [zoomOut_zoomIn hN]; exact pair_between i, by norm_num, rfl⟩
  have hidx : ∀ N i j, (i, j) ∈ npWhere (1 * N) (1 * N) (fun _ _ => true) ↔ i < 1 * N ∧ j < 1 * N := fun N i j => by rw [npWhere_mem]; simp
  have hm : ∀ N, ∃ m : Nat → Nat → ℝ, 0 < N → ({ smearModel with sub := galaxiesSub 2 true }.evaluate rot (pixelCoords (npWhere (1 * N) (1 * N) fun _ _ => true))
      (galaxiesParams (fun i => (pairTruth i).zoomIn N) true 7) 0).1 = .ok ((npWhere (1 * N) (1 * N) fun _ _ => true).map fun p => m p.1 p.2) := by
    intro N
    rcases Nat.eq_zero_or_pos N with h0 | hN
    · exact ⟨fun _ _ => 0, fun h => absurd h (by omega)⟩
    · obtain ⟨V, -, -, -, hV, -⟩ := psf_values hset' (h := 1 * N) (w := 1 * N) (List.ne_nil_of_mem ((hidx N 0 0).2 ⟨by omega, by omega⟩))
        (fun p hp => (hidx N p.1 p.2).1 hp) (galaxiesParams (fun i => (pairTruth i).zoomIn N) true 7) (Set.mem_singleton (0 : ℝ))
      exact ⟨V, fun _ => hV⟩
  choose m hm using hm
  obtain ⟨t, b₁, ht0, hrec⟩ := C180_bits (W := 1) (H := 1) (use := fun _ _ _ => true) (mask := fun _ _ _ => false) (wt := fun _ => none) (tr := pairTruth) (sky := 7)
    (slo := 0) (shi := 1000) (hasSky := true) (v := 10000) pair_bounds one_pos one_pos (by simp) pair_between (by norm_num)
    (fun i => by fin_cases i <;> simp [pairTruth]) (by norm_num) one_pos zero_le_one (fun N => weights_none _ _ _ _) (by simp [unfitted, heavy_none])
    (show (0 : ℝ) < 1 / 10 by norm_num) (show (0 : ENNReal) < 1 / 100 by simp) (show ({ crossModel with sub := galaxiesSub 2 true } : PSFModel ℝ).sub = galaxiesSub 2 true from rfl) hset
  obtain ⟨t', ht0', huni⟩ := C180_uniform pair_bounds.toGalaxyRange 0 1000 (hasSky := true) (by simp) one_pos
  obtain ⟨b₂, hrun⟩ := C180_bits_run pair_bounds.toGalaxyRange 0 1000 (hasSky := true) (by simp)
    (show ({ crossModel with sub := galaxiesSub 2 true } : PSFModel ℝ).sub = galaxiesSub 2 true from rfl) hset ht0'
  set b := max b₁ b₂ with hbd
  set ev : ℕ → (Fin 2 → SersicP) × ℝ × ℝ → List (ℝ × ℝ) → Except PyErr (List ℝ) := fun N q c =>
    ({ crossModel with sub := roundedSub (flBits (b + Nat.log 2 N)) (galaxiesSub 2 true) }).evaluateFl (directOps (flBits (b + Nat.log 2 N)) rot) c
      (galaxiesParams q.1 true q.2.1) q.2.2 with hev
  have hex : ∀ N, 0 < N → ∀ ω, ∃ r, fitModel (chosenNearFitter (ev N) (ok N) 1)
      (nanImage (1 * N) (1 * N) (fun _ _ => true) fun i j => gaussImage (1 * N) (1 * N) (m N) (fun _ _ => 100) i j ω) (fun _ _ => false) m₀ none = .ok r := by
    intro N hN ω
    refine C168_exists one_pos _ _ (ht N hN) (fun idx hi => ?_) _ m₀ (by simp)
    have hin : ∀ p ∈ idx, p.1 < 1 * N ∧ p.2 < 1 * N := fun p hp => ⟨((hi p).1 hp).1, ((hi p).1 hp).2.1⟩
    obtain ⟨V, -, -, -, hV, -⟩ := psf_values hset (h := 1 * N) (w := 1 * N) (List.ne_nil_of_mem ((hi (0, 0)).2 ⟨by simpa using hN, by simpa using hN, rfl⟩))
      hin (galaxiesParams (fun i => (pairTruth i).zoomIn N) true 7) (Set.mem_singleton (0 : ℝ))
    have h1 := hrun N (b + Nat.log 2 N) (fun i => (pairTruth i).zoomIn N, 7, 0) hN (by omega) (ht N hN).1 (ht N hN).2.1 rfl
    obtain ⟨vals, hvals, -⟩ := (huni N _ _ _ _ _ _ _ _ _ idx (ht N hN).1 (ht N hN).2.1 rfl hset.cache ⟨hset.compatible.1, hset.compatible.2.1⟩ h1 hin).2 _ hV
    exact ⟨_, hvals⟩
  choose fit hfit using fun N => ok_choice m₀ fun ω => fitModel (chosenNearFitter (ev N) (ok N) 1)
      (nanImage (1 * N) (1 * N) (fun _ _ => true) fun i j => gaussImage (1 * N) (1 * N) (m N) (fun _ _ => 100) i j ω) (fun _ _ => false) m₀ none
  refine ⟨b, m, fun N => chosenNearFitter (ev N) (ok N) 1, fit, hm, fun N => chosenNearFitter_law _ _ _, fun N hN ω => hfit N ω (hex N hN ω), ?_⟩
  have hlim := hrec (fun N => b + Nat.log 2 N) _ (fun N => gaussField (1 * N) (1 * N)) (fun N i j ω => gaussImage (1 * N) (1 * N) (m N) (fun _ _ => 100) i j ω) m m
    (fun _ => { smearModel with sub := galaxiesSub 2 true }) rot {0} _ (fun _ => 0) (fun _ => 0) ok
    (fun _ => 1) (fun N => chosenNearFitter (ev N) (ok N) 1) (fun N => npWhere (1 * N) (1 * N) fun _ _ => true) (fun N => by omega)
    (fun N q _ hq => hq) ht (fun N => chosenNearFitter_law _ _ _)
    ((((tendsto_pow_atTop two_ne_zero).comp tendsto_natCast_atTop_atTop).const_mul_atTop ht0).eventually_ge_atTop 1)
    (fun _ => rfl) (fun _ => hset') (fun _ => rfl) hidx hm
    (Eventually.of_forall fun N => by
      simp only [sub_self, ne_eq, OfNat.ofNat_ne_zero, not_false_eq_true, zero_pow, Finset.sum_const_zero]
      positivity)
    (fun N => (gaussian_noise (1 * N) (1 * N) (m N) fun _ _ => 100).correlated (v := 10000) fun _ _ _ _ => by norm_num)
  filter_upwards [hlim, eventually_gt_atTop 0] with N hN1 hN
  refine le_trans (measure_mono ?_) hN1
  intro ω hω
  refine ⟨m₀, fit N ω, hfit N ω (hex N hN ω), fun hr => hω ?_⟩
  have := (hr.1 1).2.2.1
  simpa [pairTruth, SersicP.zoomOut] using this

end Verif.Props

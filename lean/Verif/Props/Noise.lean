import Verif.Lemmas.Noise
import Verif.Props.Photometry

/-!
# C150: what the reported photometric errors mean
-/

set_option linter.unusedSectionVars false
set_option linter.unusedVariables false

namespace Verif.Props

open Verif F Spec Lemmas MeasureTheory ProbabilityTheory

variable {Ω : Type} [MeasurableSpace Ω] {μ : Measure Ω} [IsProbabilityMeasure μ] {h w : Nat} {X : Nat → Nat → Ω → ℝ}
  {m σ : Nat → Nat → ℝ} {ov : Overlap ℝ}

/-- **C150, the reported error.** With an error map `σ` the third list of `radial_photometry` is, radius by radius, the square root of the
weighted sum of `σ²` over the used pixels, rounded to six decimals.  The weight enters once, not squared. -/
theorem C150_error (hov : OverlapLaw ov) (f : Nat → Nat → ℝ) (cx cy : ℝ) (rs : List ℝ) (mask : Option (Img Bool)) (q t : ℝ)
    (fl ar er : List (F ℝ))
    (hres : radialPhotometry ov ⟨h, w, fun i j => fin (f i j)⟩ cx cy rs (some ⟨h, w, fun i j => fin (σ i j)⟩) mask q t =
      .ok (fl, ar, er)) :
    List.Forall₂ (fun r v => ∃ x, v = fin x ∧ 0 ≤ x ∧
      |x - Real.sqrt (weightedSum (ov.weight ⟨cx, cy, r, r / q, t⟩) h w (Used mask) fun i j => σ i j ^ 2)| ≤ 1 / 2 / 10 ^ 6) rs er := by
  obtain ⟨l, hl, rfl, rfl, rfl⟩ := radialPhotometry_ok.1 hres
  clear hres
  induction hl with
  | nil => exact .nil
  | @cons r p rs l hp _ ih =>
    obtain ⟨v, a, e⟩ := p
    obtain ⟨_, _, _, _, _, _, _, _, he⟩ := (photometryAt_ok hov).1 hp
    refine .cons ?_ ih
    have hS : 0 ≤ weightedSum (ov.weight ⟨cx, cy, r, r / q, t⟩) h w (Used mask) fun i j => σ i j ^ 2 := by
      unfold weightedSum
      refine Finset.sum_nonneg fun i _ => Finset.sum_nonneg fun j _ => ?_
      split
      · exact mul_nonneg (sq_nonneg _) (hov.nonneg _ _ _)
      · exact le_rfl
    have h1 := npSum_good hov ⟨cx, cy, r, r / q, t⟩ h w mask (fun i j => F.sq (fin (σ i j))) (fun i j => σ i j ^ 2)
      (fun i j _ _ _ _ => by rw [fsq_fin, pow_two])
    simp only [rawErr] at he
    rw [h1, fsqrt_real hS, npRound6_fin] at he
    refine ⟨_, he, ?_, abs_round6_sub _⟩
    have h2 : round6 (0 : ℝ) ≤ round6 (Real.sqrt (weightedSum (ov.weight ⟨cx, cy, r, r / q, t⟩) h w (Used mask)
      fun i j => σ i j ^ 2)) := round6_mono (Real.sqrt_nonneg _)
    rwa [round6_zero] at h2

/-- **C150, unbiased.** The expected aperture sum is the aperture sum of the expected image. -/
theorem C150_unbiased (hX : PixelNoise μ h w X m σ) (e : Ellipse ℝ) (mask : Option (Img Bool)) :
    ∫ ω, weightedSum (ov.weight e) h w (Used mask) (fun i j => X i j ω) ∂μ = weightedSum (ov.weight e) h w (Used mask) m :=
  noise_mean hX _ _

theorem weightedSum_le_of_le {a b : Nat → Nat → ℝ} {use : Nat → Nat → Bool} {f : Nat → Nat → ℝ} (hf : ∀ i j, 0 ≤ f i j)
    (hab : ∀ i j, i < h → j < w → a i j ≤ b i j) : weightedSum a h w use f ≤ weightedSum b h w use f :=
  weightedSum_mono hab fun i j _ _ _ => hf i j

/-- **C150, variance.** The variance of an aperture sum is at most the square of the error the code computes for it. -/
theorem C150_variance (hov : OverlapLaw ov) (hX : PixelNoise μ h w X m σ) (e : Ellipse ℝ) (mask : Option (Img Bool)) :
    Var[fun ω => weightedSum (ov.weight e) h w (Used mask) fun i j => X i j ω; μ] ≤
      weightedSum (ov.weight e) h w (Used mask) fun i j => σ i j ^ 2 := by
  rw [noise_var hX]
  refine weightedSum_le_of_le (fun i j => sq_nonneg _) fun i j _ _ => ?_
  have h1 := hov.nonneg e i j
  have h2 := hov.le_one e i j
  nlinarith

/-- **C150, exactness.** With weights 0 and 1 (method `center`) the two are equal: the reported error is the standard deviation. -/
theorem C150_center (hX : PixelNoise μ h w X m σ) (e : Ellipse ℝ) (mask : Option (Img Bool)) :
    Var[fun ω => weightedSum (centerOverlap.weight e) h w (Used mask) fun i j => X i j ω; μ] =
      weightedSum (centerOverlap.weight e) h w (Used mask) fun i j => σ i j ^ 2 := by
  rw [noise_var hX]
  congr 1
  funext i j
  simp only [centerOverlap]
  split <;> norm_num

/-- **C150, API.** Give `radial_photometry` a noisy image and its error map.  Then the flux it returns misses the flux of the noiseless
image by `t` reported errors with probability at most `1/t²`, for every law of uncorrelated noise, mask, geometry, lawful overlap method
and radius; the half units of the sixth decimal are the rounding of both numbers. -/
theorem C150_honest (hov : OverlapLaw ov) (hX : PixelNoise μ h w X m σ) (cx cy : ℝ) (rs : List ℝ) (mask : Option (Img Bool)) (q t : ℝ)
    (fl : Ω → List (F ℝ)) (ar er : List (F ℝ))
    (hres : ∀ ω, radialPhotometry ov ⟨h, w, fun i j => fin (X i j ω)⟩ cx cy rs (some ⟨h, w, fun i j => fin (σ i j)⟩) mask q t =
      .ok (fl ω, ar, er)) (k : Nat) (r : ℝ) (hk : rs[k]? = some r) (s : ℝ) (hs : 0 < s) :
    ∃ (f : Ω → ℝ) (e : ℝ), (∀ ω, (fl ω)[k]? = some (fin (f ω))) ∧ er[k]? = some (fin e) ∧
      μ {ω | s * (e + 1 / 2 / 10 ^ 6) + 1 / 2 / 10 ^ 6 ≤
        |f ω - weightedSum (ov.weight ⟨cx, cy, r, r / q, t⟩) h w (Used mask) m|} ≤ ENNReal.ofReal (1 / s ^ 2) := by
  have hne : Nonempty Ω := by
    by_contra hn
    rw [not_nonempty_iff] at hn
    have h1 : μ Set.univ = 1 := measure_univ
    rw [Set.eq_empty_of_isEmpty Set.univ] at h1
    simp at h1
  obtain ⟨hk1, hk2⟩ := List.getElem?_eq_some_iff.1 hk
  have hfl : ∀ ω, ∃ x, (fl ω)[k]? = some (fin x) ∧
      |x - weightedSum (ov.weight ⟨cx, cy, r, r / q, t⟩) h w (Used mask) fun i j => X i j ω| ≤ 1 / 2 / 10 ^ 6 := by
    intro ω
    have h1 := (C45_rounded hov h w (fun i j => X i j ω) cx cy rs _ mask q t _ _ _ (hres ω)).1
    have hl := h1.length_eq
    obtain ⟨x, hx, hx'⟩ := (List.forall₂_iff_get.1 h1).2 k hk1 (hl ▸ hk1)
    refine ⟨x, ?_, ?_⟩
    · rw [List.getElem?_eq_getElem (hl ▸ hk1)]
      simpa using hx
    · simpa [hk2] using hx'
  choose f hf hfe using hfl
  obtain ⟨ω₀⟩ := hne
  have h1 := C150_error hov (fun i j => X i j ω₀) cx cy rs mask q t _ _ _ (hres ω₀)
  have hl := h1.length_eq
  obtain ⟨e, he, he0, he'⟩ := (List.forall₂_iff_get.1 h1).2 k hk1 (hl ▸ hk1)
  refine ⟨f, e, hf, ?_, ?_⟩
  · rw [List.getElem?_eq_getElem (hl ▸ hk1)]
    simpa using he
  simp only [List.get_eq_getElem, hk2] at he'
  set wt := ov.weight ⟨cx, cy, r, r / q, t⟩ with hwt
  set S := weightedSum wt h w (Used mask) fun i j => σ i j ^ 2 with hS
  have hvar : Var[fun ω => weightedSum wt h w (Used mask) fun i j => X i j ω; μ] ≤ S := C150_variance hov hX _ mask
  have hS0 : 0 ≤ S := le_trans (variance_nonneg _ _) hvar
  have hd : Real.sqrt S ≤ e + 1 / 2 / 10 ^ 6 := by
    have := (abs_le.1 he').1
    linarith
  have hd0 : 0 < e + 1 / 2 / 10 ^ 6 := by
    have : (0 : ℝ) < 1 / 2 / 10 ^ 6 := by norm_num
    linarith
  have hc : 0 < s * (e + 1 / 2 / 10 ^ 6) := mul_pos hs hd0
  have hch := meas_ge_le_variance_div_sq (noise_memLp hX wt (Used mask)) hc
  rw [noise_mean hX] at hch
  refine (measure_mono ?_).trans (hch.trans (ENNReal.ofReal_le_ofReal ?_))
  · intro ω hω
    simp only [Set.mem_setOf_eq] at hω ⊢
    have h2 := hfe ω
    have h3 := abs_sub_le (f ω) (weightedSum wt h w (Used mask) fun i j => X i j ω) (weightedSum wt h w (Used mask) m)
    linarith
  · rw [div_le_div_iff₀ (by positivity) (by positivity), one_mul, mul_pow]
    have h4 : S ≤ (e + 1 / 2 / 10 ^ 6) ^ 2 := by
      rw [← Real.sq_sqrt hS0]
      exact pow_le_pow_left₀ (Real.sqrt_nonneg _) hd 2
    have h5 : (0 : ℝ) ≤ s ^ 2 := sq_nonneg _
    nlinarith [mul_le_mul_of_nonneg_right (hvar.trans h4) h5]

/-! ### Rings -/

/-- **C150, rings.** `calculate_petrosian` gives a ring the quadrature sum of the errors of its two apertures (`core.py`, lines 95-97).  This
is never too small: the flux of the ring has at most the variance of the outer aperture. -/
theorem C150_ring (hov : OverlapLaw ov) (hX : PixelNoise μ h w X m σ) (cx cy q t r r' : ℝ) (hq : 0 < q) (hr : 0 < r) (hrr : r ≤ r')
    (mask : Option (Img Bool)) :
    Var[fun ω => weightedSum (ov.weight ⟨cx, cy, r', r' / q, t⟩) h w (Used mask) (fun i j => X i j ω) -
        weightedSum (ov.weight ⟨cx, cy, r, r / q, t⟩) h w (Used mask) (fun i j => X i j ω); μ] ≤
      weightedSum (ov.weight ⟨cx, cy, r', r' / q, t⟩) h w (Used mask) (fun i j => σ i j ^ 2) ∧
    Var[fun ω => weightedSum (ov.weight ⟨cx, cy, r', r' / q, t⟩) h w (Used mask) (fun i j => X i j ω) -
        weightedSum (ov.weight ⟨cx, cy, r, r / q, t⟩) h w (Used mask) (fun i j => X i j ω); μ] ≤
      weightedSum (ov.weight ⟨cx, cy, r, r / q, t⟩) h w (Used mask) (fun i j => σ i j ^ 2) +
      weightedSum (ov.weight ⟨cx, cy, r', r' / q, t⟩) h w (Used mask) (fun i j => σ i j ^ 2) := by
  have h0 : 0 ≤ weightedSum (ov.weight ⟨cx, cy, r, r / q, t⟩) h w (Used mask) (fun i j => σ i j ^ 2) :=
    (variance_nonneg _ _).trans (C150_variance hov hX _ mask)
  suffices hs : _ from ⟨hs, hs.trans (le_add_of_nonneg_left h0)⟩
  simp only [← weightedSum_wt_sub]
  rw [noise_var hX]
  refine weightedSum_le_of_le (fun i j => sq_nonneg _) fun i j _ _ => ?_
  have h1 := hov.nonneg ⟨cx, cy, r, r / q, t⟩ i j
  have h2 := hov.le_one ⟨cx, cy, r', r' / q, t⟩ i j
  have h3 := hov.nested cx cy q t r r' i j hq hr hrr
  nlinarith

/-- The centre of pixel `(0, j)` is in the circle of radius `r` around the origin. -/
theorem center_row (r : ℝ) (hr : 0 < r) (j : Nat) :
    centerOverlap.weight ⟨0, 0, r, r / 1, 0⟩ 0 j = if (j : ℝ) < r then 1 else 0 := by
  simp only [centerOverlap, Ellipse.set, Set.mem_setOf_eq]
  have : ((((j : ℝ) - 0) * Real.cos 0 + (((0 : Nat) : ℝ) - 0) * Real.sin 0) / r) ^ 2 +
      (((((0 : Nat) : ℝ) - 0) * Real.cos 0 - ((j : ℝ) - 0) * Real.sin 0) / (r / 1)) ^ 2 < 1 ↔ (j : ℝ) < r := by
    simp only [Real.cos_zero, Real.sin_zero, Nat.cast_zero]
    norm_num
    rw [abs_of_nonneg (by positivity), div_lt_one hr]
  simp only [this]

/-- The sum of ones over a row within radius `k + 1/2`. -/
theorem center_row_sum (n k : Nat) (hk : k < n) :
    weightedSum (centerOverlap.weight ⟨0, 0, (k : ℝ) + 1 / 2, ((k : ℝ) + 1 / 2) / 1, 0⟩) 1 n (Used none) (fun _ _ => (1 : ℝ) ^ 2) =
      k + 1 := by
  have h1 : ∀ j : Nat, centerOverlap.weight ⟨0, 0, (k : ℝ) + 1 / 2, ((k : ℝ) + 1 / 2) / 1, 0⟩ 0 j = if j < k + 1 then 1 else 0 := by
    intro j
    rw [center_row _ (by positivity)]
    congr 1
    apply propext
    constructor
    · intro h
      by_contra hn
      have : ((k + 1 : Nat) : ℝ) ≤ j := by exact_mod_cast not_lt.1 hn
      push_cast at this
      linarith
    · intro h
      have : (j : ℝ) ≤ k := by exact_mod_cast Nat.lt_succ_iff.1 h
      linarith
  simp only [weightedSum, Finset.sum_range_one, h1, Used, if_true, one_pow, one_mul]
  rw [Finset.sum_ite, Finset.sum_const_zero, add_zero, Finset.sum_const, nsmul_eq_mul, mul_one]
  have : Finset.filter (fun j => j < k + 1) (Finset.range n) = Finset.range (k + 1) := by
    ext j
    simp only [Finset.mem_filter, Finset.mem_range]
    omega
  rw [this, Finset.card_range]
  push_cast
  ring

/-- **C150, violated.** The quadrature sum is not the standard deviation of a ring, because the two apertures share their pixels: however
large `N`, there are an image with unit noise, two concentric apertures and method `center` for which the square of the code's error is
more than `N` times the variance, which is positive. -/
theorem C150_ring_violated (N : Nat) :
    ∃ (n : Nat) (r r' : ℝ), 0 < r ∧ r ≤ r' ∧
      ∀ (Ω : Type) [MeasurableSpace Ω] (μ : Measure Ω) [IsProbabilityMeasure μ] (X : Nat → Nat → Ω → ℝ) (m : Nat → Nat → ℝ),
        PixelNoise μ 1 n X m (fun _ _ => 1) →
        0 < Var[fun ω => weightedSum (centerOverlap.weight ⟨0, 0, r', r' / 1, 0⟩) 1 n (Used none) (fun i j => X i j ω) -
            weightedSum (centerOverlap.weight ⟨0, 0, r, r / 1, 0⟩) 1 n (Used none) (fun i j => X i j ω); μ] ∧
        N * Var[fun ω => weightedSum (centerOverlap.weight ⟨0, 0, r', r' / 1, 0⟩) 1 n (Used none) (fun i j => X i j ω) -
            weightedSum (centerOverlap.weight ⟨0, 0, r, r / 1, 0⟩) 1 n (Used none) (fun i j => X i j ω); μ] <
          weightedSum (centerOverlap.weight ⟨0, 0, r, r / 1, 0⟩) 1 n (Used none) (fun _ _ => (1 : ℝ) ^ 2) +
          weightedSum (centerOverlap.weight ⟨0, 0, r', r' / 1, 0⟩) 1 n (Used none) (fun _ _ => (1 : ℝ) ^ 2) := by
  refine ⟨N + 2, (N : ℝ) + 1 / 2, ((N + 1 : Nat) : ℝ) + 1 / 2, by positivity, by push_cast; linarith, ?_⟩
  intro Ω _ μ _ X m hX
  have hv : Var[fun ω => weightedSum (centerOverlap.weight ⟨0, 0, ((N + 1 : Nat) : ℝ) + 1 / 2, (((N + 1 : Nat) : ℝ) + 1 / 2) / 1, 0⟩)
        1 (N + 2) (Used none) (fun i j => X i j ω) -
      weightedSum (centerOverlap.weight ⟨0, 0, (N : ℝ) + 1 / 2, ((N : ℝ) + 1 / 2) / 1, 0⟩) 1 (N + 2) (Used none)
        (fun i j => X i j ω); μ] = 1 := by
    simp only [← weightedSum_wt_sub]
    rw [noise_var hX]
    have h1 : ∀ i j, (centerOverlap.weight ⟨0, 0, ((N + 1 : Nat) : ℝ) + 1 / 2, (((N + 1 : Nat) : ℝ) + 1 / 2) / 1, 0⟩ i j -
        centerOverlap.weight ⟨0, 0, (N : ℝ) + 1 / 2, ((N : ℝ) + 1 / 2) / 1, 0⟩ i j) ^ 2 =
        centerOverlap.weight ⟨0, 0, ((N + 1 : Nat) : ℝ) + 1 / 2, (((N + 1 : Nat) : ℝ) + 1 / 2) / 1, 0⟩ i j -
        centerOverlap.weight ⟨0, 0, (N : ℝ) + 1 / 2, ((N : ℝ) + 1 / 2) / 1, 0⟩ i j := by
      intro i j
      have h2 := C42_methods.2.1.nested 0 0 1 0 ((N : ℝ) + 1 / 2) (((N + 1 : Nat) : ℝ) + 1 / 2) i j one_pos (by positivity)
        (by push_cast; linarith)
      simp only [centerOverlap] at h2 ⊢
      split at h2 <;> split at h2 <;> simp_all
      linarith
    simp only [h1]
    rw [weightedSum_wt_sub, center_row_sum (N + 2) (N + 1) (by omega), center_row_sum (N + 2) N (by omega)]
    push_cast
    ring
  rw [hv, center_row_sum (N + 2) N (by omega), center_row_sum (N + 2) (N + 1) (by omega)]
  refine ⟨one_pos, ?_⟩
  push_cast
  linarith [Nat.cast_nonneg (α := ℝ) N]

/-! ### The profile -/

/-- **C150, linearisation.** If the two fluxes move by `τ d₀` and `τ d₁`, the Petrosian value moves at rate
`v ((d₁ - d₀)/ΔF - d₁/F₁)`.  This is the map whose variance an error bar of the profile stands for. -/
theorem C150_linear (a0 a1 f0 f1 d0 d1 : ℝ) (ha : a0 < a1) (ha1 : a1 ≠ 0) (hf : f1 ≠ 0) (hd : f1 ≠ f0) :
    HasDerivAt (fun τ => ((f1 + τ * d1) - (f0 + τ * d0)) / (a1 - a0) / ((f1 + τ * d1) / a1))
      ((f1 - f0) / (a1 - a0) / (f1 / a1) * ((d1 - d0) / (f1 - f0) - d1 / f1)) 0 := by
  have ha' : a1 - a0 ≠ 0 := (sub_pos.2 ha).ne'
  have hd' : f1 - f0 ≠ 0 := sub_ne_zero.2 hd
  have h1 : HasDerivAt (fun τ : ℝ => f1 + τ * d1) d1 0 := by
    simpa using ((hasDerivAt_id (0 : ℝ)).mul_const d1).const_add f1
  have h0 : HasDerivAt (fun τ : ℝ => f0 + τ * d0) d0 0 := by
    simpa using ((hasDerivAt_id (0 : ℝ)).mul_const d0).const_add f0
  have hne : (f1 + 0 * d1) / a1 ≠ 0 := by simpa using ⟨hf, ha1⟩
  have h2 := ((h1.sub h0).div_const (a1 - a0)).div (h1.div_const a1) hne
  refine h2.congr_deriv ?_
  simp only [Pi.sub_apply, zero_mul, add_zero]
  field_simp

/-- **C150, profile.** `calculate_petrosian` is given the fluxes of the expected image in nested apertures and the photometric errors of
each.  Wherever flux and flux difference have the same sign, the variance of the linearised Petrosian value under uncorrelated pixel noise
is at most the square of the returned error. -/
theorem C150_profile (hX : PixelNoise μ h w X m σ) (use : Nat → Nat → Bool) (wt : Nat → Nat → Nat → ℝ) (A Fl Fe : List ℝ)
    (hl : A.length = Fl.length) (h3 : 3 ≤ A.length) (hlf : Fe.length = A.length)
    (hw0 : ∀ k i j, 0 ≤ wt k i j) (hw1 : ∀ k i j, wt k i j ≤ 1) (hwn : ∀ k i j, wt k i j ≤ wt (k + 1) i j)
    (hA : ∀ i (h : i + 1 < A.length), A[i] < A[i + 1])
    (hA0 : ∀ i (h : i + 1 < A.length), A[i + 1] ≠ 0)
    (hFe : ∀ k (h' : k < Fe.length), Fe[k] = Real.sqrt (weightedSum (wt k) h w use fun i j => σ i j ^ 2))
    (hF0 : ∀ i (h : i + 1 < A.length), Fl[i + 1] ≠ 0) (hdF : ∀ i (h : i + 1 < A.length), Fl[i + 1] ≠ Fl[i]) :
    ∃ p e, calculatePetrosian (A.map fin) (Fl.map fin) none (some (Fe.map fin)) = .ok (p, some e) ∧
      ∀ k (hk : k + 1 < A.length), ∃ v s : ℝ, p[k + 1]? = some (fin v) ∧ e[k + 1]? = some (fin s) ∧ 0 ≤ s ∧
        v = (Fl[k + 1] - Fl[k]) / (A[k + 1] - A[k]) / (Fl[k + 1] / A[k + 1]) ∧
        (0 < (Fl[k + 1] - Fl[k]) * Fl[k + 1] →
          Var[fun ω => v * ((weightedSum (wt (k + 1)) h w use (fun i j => X i j ω) -
              weightedSum (wt k) h w use (fun i j => X i j ω)) / (Fl[k + 1] - Fl[k]) -
            weightedSum (wt (k + 1)) h w use (fun i j => X i j ω) / Fl[k + 1]); μ] ≤ s ^ 2) := by
  obtain ⟨p, e, hr, _, _, hg⟩ := C06_errors_quadrature A Fl (A.map fun _ => 0) Fe hl h3 (by simp) hlf hA hA0 hF0 hdF
  refine ⟨p, e, ?_, ?_⟩
  · rw [(C06_errors_shape (A.map fin) (Fl.map fin) none none).2.2 (Fe.map fin), ← hr, List.map_map, List.map_map]
    rfl
  intro k hk
  obtain ⟨v, s, hp, he, hs0, hv, hs⟩ := hg k hk
  refine ⟨v, s, hp, he, hs0, hv, ?_⟩
  intro hpos
  have hk' : k < Fe.length := by omega
  have hk'' : k + 1 < Fe.length := by omega
  have hnn : ∀ k, 0 ≤ weightedSum (wt k) h w use fun i j => σ i j ^ 2 := by
    intro k
    unfold weightedSum
    refine Finset.sum_nonneg fun i _ => Finset.sum_nonneg fun j _ => ?_
    split
    · exact mul_nonneg (sq_nonneg _) (hw0 k _ _)
    · exact le_rfl
  have e1 : Fe[k] ^ 2 = weightedSum (wt k) h w use fun i j => σ i j ^ 2 := by rw [hFe k hk', Real.sq_sqrt (hnn k)]
  have e2 : Fe[k + 1] ^ 2 = weightedSum (wt (k + 1)) h w use fun i j => σ i j ^ 2 := by
    rw [hFe (k + 1) hk'', Real.sq_sqrt (hnn (k + 1))]
  set D := Fl[k + 1] - Fl[k] with hD
  set G := Fl[k + 1] with hG
  have hD0 : D ≠ 0 := fun h0 => by rw [h0] at hpos; simp at hpos
  have hG0 : G ≠ 0 := fun h0 => by rw [h0] at hpos; simp at hpos
  have hs2 : s ^ 2 = v ^ 2 * weightedSum (fun i j => 1 / D ^ 2 * wt k i j + (1 / D ^ 2 + 1 / G ^ 2) * wt (k + 1) i j) h w use
      fun i j => σ i j ^ 2 := by
    rw [hs, mul_pow, sq_abs, Real.sq_sqrt (by positivity), weightedSum_wt_comb, div_pow, e1, e2]
    congr 1
    simp only [List.getElem_map]
    field_simp
    ring
  have hlin : (fun ω => v * ((weightedSum (wt (k + 1)) h w use (fun i j => X i j ω) -
        weightedSum (wt k) h w use (fun i j => X i j ω)) / D - weightedSum (wt (k + 1)) h w use (fun i j => X i j ω) / G)) =
      fun ω => v * weightedSum (fun i j => (-1 / D) * wt k i j + (1 / D - 1 / G) * wt (k + 1) i j) h w use fun i j => X i j ω := by
    funext ω
    rw [weightedSum_wt_comb]
    ring
  rw [hlin, variance_const_mul, noise_var hX, hs2]
  refine mul_le_mul_of_nonneg_left (weightedSum_le_of_le (fun i j => sq_nonneg _) fun i j _ _ => ?_) (sq_nonneg _)
  have b1 := hw0 k i j
  have b2 := hw1 (k + 1) i j
  have b3 := hwn k i j
  set a := wt k i j
  set b := wt (k + 1) i j
  have c1 : 0 ≤ (1 / D) * (1 / G) := by
    rw [div_mul_div_comm, one_mul]
    exact (one_div_pos.2 hpos).le
  have c2 : 0 ≤ (b - a) * b * ((1 / D) * (1 / G)) := mul_nonneg (mul_nonneg (by linarith) (by linarith)) c1
  have c3 : (b - a) ^ 2 ≤ a + b := by nlinarith
  have c4 : b ^ 2 ≤ b := by nlinarith
  have c5 := mul_le_mul_of_nonneg_left c3 (sq_nonneg (1 / D))
  have c6 := mul_le_mul_of_nonneg_left c4 (sq_nonneg (1 / G))
  have e3 : (-1 / D * a + (1 / D - 1 / G) * b) ^ 2 =
      (1 / D) ^ 2 * (b - a) ^ 2 + (1 / G) ^ 2 * b ^ 2 - 2 * ((b - a) * b * ((1 / D) * (1 / G))) := by ring
  have e4 : 1 / D ^ 2 * a + (1 / D ^ 2 + 1 / G ^ 2) * b = (1 / D) ^ 2 * (a + b) + (1 / G) ^ 2 * b := by
    simp only [one_div, inv_pow]
    ring
  rw [e3, e4]
  linarith

/-- **C150, profile violated.** Where the ring has negative flux (noise beyond the galaxy) the returned error can be too small: it leaves
out the correlation between the ring and the aperture that contains it.  Three apertures, pixel noise 0, 1 and 0; fluxes 2, 1 and 2. -/
theorem C150_profile_violated :
    ∃ p e v s, calculatePetrosian ([1, 2, 3].map fin : List (F ℝ)) ([2, 1, 2].map fin) none (some ([0, 1, 1].map fin)) = .ok (p, some e) ∧
      p[1]? = some (fin v) ∧ e[1]? = some (fin s) ∧ 0 < s ∧
      (∀ k : Nat, k < 3 → ([0, 1, 1] : List ℝ)[k]? = some (Real.sqrt (weightedSum (fun _ j => if j ≤ k then 1 else 0) 1 3 (Used none)
        fun _ j => (if j = 1 then 1 else 0 : ℝ) ^ 2))) ∧
      ∀ (Ω : Type) [MeasurableSpace Ω] (μ : Measure Ω) [IsProbabilityMeasure μ] (X : Nat → Nat → Ω → ℝ) (m : Nat → Nat → ℝ),
        PixelNoise μ 1 3 X m (fun _ j => if j = 1 then 1 else 0) →
        Var[fun ω => v * ((weightedSum (fun _ j => if j ≤ 1 then 1 else 0) 1 3 (Used none) (fun i j => X i j ω) -
              weightedSum (fun _ j => if j ≤ 0 then 1 else 0) 1 3 (Used none) (fun i j => X i j ω)) / (1 - 2) -
            weightedSum (fun _ j => if j ≤ 1 then 1 else 0) 1 3 (Used none) (fun i j => X i j ω) / 1); μ] = 2 * s ^ 2 := by
  obtain ⟨p, e, hr, _, _, hg⟩ := C06_errors_quadrature [1, 2, 3] [2, 1, 2] [0, 0, 0] [0, 1, 1] rfl (by simp) rfl rfl
    (by intro i h; have : i = 0 ∨ i = 1 := by { simp at h; omega }
        rcases this with rfl | rfl <;> norm_num)
    (by intro i h; have : i = 0 ∨ i = 1 := by { simp at h; omega }
        rcases this with rfl | rfl <;> norm_num)
    (by intro i h; have : i = 0 ∨ i = 1 := by { simp at h; omega }
        rcases this with rfl | rfl <;> norm_num)
    (by intro i h; have : i = 0 ∨ i = 1 := by { simp at h; omega }
        rcases this with rfl | rfl <;> norm_num)
  obtain ⟨v, s, hp, he, hs0, hv, hs⟩ := hg 0 (by simp)
  have hv' : v = -2 := by
    rw [hv]
    norm_num
  have hs' : s ^ 2 = 8 := by
    rw [hs, hv', mul_pow, Real.sq_sqrt (by norm_num)]
    norm_num
  refine ⟨p, e, v, s, ?_, hp, he, ?_, ?_, ?_⟩
  · rw [(C06_errors_shape ([1, 2, 3].map fin) ([2, 1, 2].map fin) none none).2.2 ([0, 1, 1].map fin), ← hr]
    rfl
  · rcases hs0.lt_or_eq with h | h
    · exact h
    · rw [← h] at hs'
      norm_num at hs'
  · intro k hk
    have : k = 0 ∨ k = 1 ∨ k = 2 := by omega
    rcases this with rfl | rfl | rfl <;> simp [weightedSum, Used, Finset.sum_range_succ]
  · intro Ω _ μ _ X m hX
    have hlin : (fun ω => v * ((weightedSum (fun _ j => if j ≤ 1 then 1 else 0) 1 3 (Used none) (fun i j => X i j ω) -
          weightedSum (fun _ j => if j ≤ 0 then 1 else 0) 1 3 (Used none) (fun i j => X i j ω)) / (1 - 2) -
        weightedSum (fun _ j => if j ≤ 1 then 1 else 0) 1 3 (Used none) (fun i j => X i j ω) / 1)) =
      fun ω => v * weightedSum (fun i j => 1 * (if j ≤ 0 then 1 else 0) + (-2) * (if j ≤ 1 then 1 else 0)) 1 3 (Used none)
        fun i j => X i j ω := by
      funext ω
      rw [weightedSum_wt_comb 1 (-2) (fun _ j => if j ≤ 0 then (1 : ℝ) else 0) (fun _ j => if j ≤ 1 then (1 : ℝ) else 0)]
      ring
    rw [hlin, variance_const_mul, noise_var hX, hs', hv']
    simp [weightedSum, Used, Finset.sum_range_succ]
    norm_num

/-! ### Cases -/

/-- `radial_photometry` returns whenever every aperture covers part of some pixel of a finite image. -/
theorem noise_returns (hov : OverlapLaw ov) (cx cy : ℝ) (rs : List ℝ) (q t : ℝ) (hq : 0 < q) (hr : ∀ r ∈ rs, 0 < r)
    (hc : ∀ r ∈ rs, ∃ i j, i < h ∧ j < w ∧ 0 < ov.weight ⟨cx, cy, r, r / q, t⟩ i j) :
    ∃ ar er, ∀ f : Nat → Nat → ℝ, ∃ fl,
      radialPhotometry ov ⟨h, w, fun i j => fin (f i j)⟩ cx cy rs (some ⟨h, w, fun i j => fin (σ i j)⟩) none q t = .ok (fl, ar, er) := by
  refine ⟨rs.map fun r => fin (round6 (weightedSum (ov.weight ⟨cx, cy, r, r / q, t⟩) h w (Used none) fun _ _ => 1)),
    rs.map fun r => rawErr ov ⟨cx, cy, r, r / q, t⟩ ⟨h, w, fun _ _ => fin 0⟩ (some ⟨h, w, fun i j => fin (σ i j)⟩) none, fun f => ?_⟩
  refine ⟨rs.map fun r => npRound6 (rawSum ov ⟨cx, cy, r, r / q, t⟩ ⟨h, w, fun i j => fin (f i j)⟩ none),
    radialPhotometry_ok.2 ⟨rs.map fun r => (npRound6 (rawSum ov ⟨cx, cy, r, r / q, t⟩ ⟨h, w, fun i j => fin (f i j)⟩ none),
      fin (round6 (weightedSum (ov.weight ⟨cx, cy, r, r / q, t⟩) h w (Used none) fun _ _ => 1)),
      rawErr ov ⟨cx, cy, r, r / q, t⟩ ⟨h, w, fun _ _ => fin 0⟩ (some ⟨h, w, fun i j => fin (σ i j)⟩) none), ?_, ?_, ?_, ?_⟩⟩
  · rw [List.forall₂_map_right_iff, List.forall₂_same]
    intro r hrm
    obtain ⟨i, j, hi, hj, hp⟩ := hc r hrm
    refine (photometryAt_ok hov).2 ⟨hr r hrm, hq, ?_, rfl, ?_, ?_, rfl, rfl, rfl⟩
    · simp [shapeOk]
    · exact hov.hits_of_pos _ h w i j (hr r hrm) (div_pos (hr r hrm) hq) hi hj hp
    · have := npSum_good hov ⟨cx, cy, r, r / q, t⟩ h w none (fun i j => fin (f i j)) f (fun _ _ _ _ _ _ => rfl)
      unfold rawSum
      rw [this]
      rfl
  all_goals simp [List.map_map, Function.comp_def]

/-- The hypotheses of `C150_honest` can be met: a row of five pixels with independent Gaussian noise of standard deviation `1, 2, …, 5` on a
signal of 7, and three apertures around its first pixel. -/
example : ∃ (fl : (Fin 1 × Fin 5 → ℝ) → List (F ℝ)) (ar er : List (F ℝ)),
    PixelNoise (gaussField 1 5) 1 5 (gaussImage 1 5 (fun _ _ => 7) fun _ j => j + 1) (fun _ _ => 7) (fun _ j => j + 1) ∧
    (∀ ω, radialPhotometry centerOverlap ⟨1, 5, fun i j => fin (gaussImage 1 5 (fun _ _ => 7) (fun _ j => (j : ℝ) + 1) i j ω)⟩ 0 0
      [1 / 2, 3 / 2, 5 / 2] (some ⟨1, 5, fun _ j => fin (j + 1)⟩) none 1 0 = .ok (fl ω, ar, er)) ∧
    ∃ (f : (Fin 1 × Fin 5 → ℝ) → ℝ) (e : ℝ), (∀ ω, (fl ω)[1]? = some (fin (f ω))) ∧ er[1]? = some (fin e) ∧
      gaussField 1 5 {ω | 10 * (e + 1 / 2 / 10 ^ 6) + 1 / 2 / 10 ^ 6 ≤ |f ω - 14|} ≤ ENNReal.ofReal (1 / 10 ^ 2) := by
  have hov := C42_methods.2.1
  have hX := gaussian_noise 1 5 (fun _ _ => 7) (fun _ j => (j : ℝ) + 1)
  obtain ⟨ar, er, hres⟩ := noise_returns (h := 1) (w := 5) (σ := fun _ j => (j : ℝ) + 1) hov 0 0 [1 / 2, 3 / 2, 5 / 2] 1 0 one_pos
    (by intro r hr; simp at hr; rcases hr with rfl | rfl | rfl <;> norm_num)
    (by
      intro r hr
      refine ⟨0, 0, by omega, by omega, ?_⟩
      have h0 : 0 < r := by simp at hr; rcases hr with rfl | rfl | rfl <;> norm_num
      rw [center_row r h0]
      simp [h0])
  choose fl hfl using fun ω => hres fun i j => gaussImage 1 5 (fun _ _ => 7) (fun _ j => (j : ℝ) + 1) i j ω
  refine ⟨fl, ar, er, hX, hfl, ?_⟩
  obtain ⟨f, e, hf, he, hμ⟩ := C150_honest hov hX 0 0 _ none 1 0 fl ar er hfl 1 (3 / 2) rfl 10 (by norm_num)
  refine ⟨f, e, hf, he, ?_⟩
  have h14 : weightedSum (centerOverlap.weight ⟨0, 0, 3 / 2, 3 / 2 / 1, 0⟩) 1 5 (Used none) (fun _ _ => (7 : ℝ)) = 14 := by
    simp only [weightedSum, Finset.sum_range_one, center_row (3 / 2) (by norm_num), Finset.sum_range_succ, Used, if_true]
    norm_num
  rwa [h14] at hμ

/-- The hypotheses of `C150_profile` can be met: one more pixel of unit noise in each of three apertures. -/
example : ∃ p e, calculatePetrosian ([1, 2, 3].map fin : List (F ℝ)) ([2, 3, 4].map fin) none
    (some ([1, Real.sqrt 2, Real.sqrt 3].map fin)) = .ok (p, some e) ∧ ∃ v s : ℝ, p[1]? = some (fin v) ∧ e[1]? = some (fin s) ∧
      Var[fun ω => v * ((weightedSum (fun _ j => if j ≤ 1 then 1 else 0) 1 3 (fun _ _ => true)
            (fun i j => gaussImage 1 3 (fun _ _ => 1) (fun _ _ => 1) i j ω) -
          weightedSum (fun _ j => if j ≤ 0 then 1 else 0) 1 3 (fun _ _ => true)
            (fun i j => gaussImage 1 3 (fun _ _ => 1) (fun _ _ => 1) i j ω)) / (3 - 2) -
        weightedSum (fun _ j => if j ≤ 1 then 1 else 0) 1 3 (fun _ _ => true)
            (fun i j => gaussImage 1 3 (fun _ _ => 1) (fun _ _ => 1) i j ω) / 3); gaussField 1 3] ≤ s ^ 2 := by
  have h01 : ∀ i, i + 1 < ([1, 2, 3] : List ℝ).length → i = 0 ∨ i = 1 := by intro i h; simp at h; omega
  obtain ⟨p, e, hr, hg⟩ := C150_profile (gaussian_noise 1 3 (fun _ _ => 1) (fun _ _ => 1)) (fun _ _ => true)
    (fun k _ j => if j ≤ k then 1 else 0) [1, 2, 3] [2, 3, 4] [1, Real.sqrt 2, Real.sqrt 3] rfl (by simp) rfl
    (by intro k i j; split <;> norm_num) (by intro k i j; split <;> norm_num)
    (by
      intro k i j
      split
      · rw [if_pos (by omega)]
      · split <;> norm_num)
    (by intro i h; rcases h01 i h with rfl | rfl <;> norm_num) (by intro i h; rcases h01 i h with rfl | rfl <;> norm_num)
    (by
      intro k hk
      have : k = 0 ∨ k = 1 ∨ k = 2 := by simp at hk; omega
      rcases this with rfl | rfl | rfl <;>
        norm_num [weightedSum, Finset.sum_range_succ, -Finset.sum_boole])
    (by intro i h; rcases h01 i h with rfl | rfl <;> norm_num) (by intro i h; rcases h01 i h with rfl | rfl <;> norm_num)
  obtain ⟨v, s, hp, he, _, _, hvar⟩ := hg 0 (by simp)
  exact ⟨p, e, hr, v, s, hp, he, hvar (by norm_num)⟩

end Verif.Props

import Verif.Model.UtilsMore
import Verif.Lemmas.Linear
import Verif.Lemmas.Sampled
import Verif.Lemmas.Heap

/-!
# C34, C35, C37-C41: the utility functions
-/

set_option linter.unusedSectionVars false
set_option linter.unusedVariables false
set_option linter.unusedSimpArgs false

namespace Verif.Props

open Verif F Spec

variable {K : Type} [Field K] [LinearOrder K] [IsStrictOrderedRing K]

/-! ### C34 -/

theorem ellipToElong_fin {e : K} (h : e ≠ 1) : ellipToElong (fin e) = .ok (fin (1 / (1 - e))) := by
  have h' : (1 : K) - e ≠ 0 := sub_ne_zero.2 (Ne.symm h)
  simp [ellipToElong, pyDiv, h']

theorem elongToEllip_fin {q : K} (h : q ≠ 0) : elongToEllip (fin q) = .ok (fin ((q - 1) / q)) := by
  simp [elongToEllip, pyDiv, h]

/-- **C34.** The two conversions are inverse to each other wherever they are defined. -/
theorem C34_inverse :
    (∀ e : K, e ≠ 1 → ∃ q, ellipToElong (fin e) = .ok (fin q) ∧ elongToEllip (fin q) = .ok (fin e)) ∧
    (∀ q : K, q ≠ 0 → ∃ e, elongToEllip (fin q) = .ok (fin e) ∧ ellipToElong (fin e) = .ok (fin q)) := by
  constructor
  · intro e he
    have h' : (1 : K) - e ≠ 0 := sub_ne_zero.2 (Ne.symm he)
    refine ⟨_, ellipToElong_fin he, ?_⟩
    rw [elongToEllip_fin (one_div_ne_zero h')]
    congr 2
    field_simp
    ring
  · intro q hq
    have h1 : (q - 1) / q ≠ 1 := by
      intro h
      rw [div_eq_one_iff_eq hq] at h
      linarith
    refine ⟨_, elongToEllip_fin hq, ?_⟩
    rw [ellipToElong_fin h1]
    congr 2
    have h2 : 1 - (q - 1) / q ≠ 0 := sub_ne_zero.2 (Ne.symm h1)
    field_simp
    ring

/-- **C34, ranges.** Ellipticities in `[0, 1)` and elongations in `[1, inf)` are mapped onto each other, strictly increasingly. -/
theorem C34_monotone :
    (∀ e : K, 0 ≤ e → e < 1 → ∃ q, 1 ≤ q ∧ ellipToElong (fin e) = .ok (fin q) ∧
      ∀ e', e < e' → e' < 1 → ∃ q', q < q' ∧ ellipToElong (fin e') = .ok (fin q')) ∧
    (∀ q : K, 1 ≤ q → ∃ e, 0 ≤ e ∧ e < 1 ∧ elongToEllip (fin q) = .ok (fin e) ∧
      ∀ q', q < q' → ∃ e', e < e' ∧ elongToEllip (fin q') = .ok (fin e')) := by
  constructor
  · intro e h0 h1
    have hd : 0 < 1 - e := by linarith
    refine ⟨_, ?_, ellipToElong_fin h1.ne, ?_⟩
    · rw [le_div_iff₀ hd]; linarith
    · intro e' h2 h3
      refine ⟨_, ?_, ellipToElong_fin h3.ne⟩
      exact one_div_lt_one_div_of_lt (by linarith) (by linarith)
  · intro q h1
    have hq : 0 < q := by linarith
    refine ⟨_, ?_, ?_, elongToEllip_fin hq.ne', ?_⟩
    · exact div_nonneg (by linarith) hq.le
    · rw [div_lt_one hq]; linarith
    · intro q' h2
      have hq' : 0 < q' := by linarith
      refine ⟨_, ?_, elongToEllip_fin hq'.ne'⟩
      rw [div_lt_div_iff₀ hq hq']
      nlinarith

/-- **C34, poles.** -/
theorem C34_poles : ellipToElong (fin (1 : K)) = .error .zeroDivisionError ∧
    elongToEllip (fin (0 : K)) = .error .zeroDivisionError := by
  simp [ellipToElong, elongToEllip, pyDiv]

example : ellipToElong (fin (3 / 4 : ℚ)) = .ok (fin 4) ∧ elongToEllip (fin (4 : ℚ)) = .ok (fin (3 / 4)) := by decide +kernel

/-! ### C35 -/

/-- **C35, linear.** `n` radii `max_pix / n, 2 max_pix / n, …, max_pix`: strictly increasing, evenly spaced, in `(0, max_pix]`, ending
exactly at `max_pix`. -/
theorem C35_linear {m : K} (hm : 0 < m) (n : Nat) :
    ∃ rs : List K, makeRadiusList (fin m) n = rs.map fin ∧ rs.length = n ∧ Incr rs ∧ (∀ r ∈ rs, 0 < r ∧ r ≤ m) ∧
      (∀ i (h : i + 1 < rs.length), rs[i + 1] - rs[i] = m / n) ∧
      (∀ h : 0 < rs.length, rs[0] = m / n ∧ rs[rs.length - 1] = m) := by
  have hpos : ∀ i, i < n → (0 : K) < n := fun i hi => by exact_mod_cast (by omega : 0 < n)
  refine ⟨(List.range n).map fun i => ((i + 1 : Nat) : K) * m / n, ?_, by simp, ?_, ?_, ?_, ?_⟩
  · simp only [makeRadiusList, List.map_map]
    apply List.map_congr_left
    intro i hi
    have := (hpos i (List.mem_range.1 hi)).ne'
    simp [this]
  · unfold Incr
    rw [List.pairwise_map]
    apply List.pairwise_lt_range.imp_of_mem
    intro i j hi hj hij
    have h0 := hpos i (List.mem_range.1 hi)
    have h1 : ((i + 1 : Nat) : K) < ((j + 1 : Nat) : K) := by exact_mod_cast (by omega)
    exact div_lt_div_of_pos_right (mul_lt_mul_of_pos_right h1 hm) h0
  · intro r hr
    obtain ⟨i, hi, rfl⟩ := List.mem_map.1 hr
    have hin := List.mem_range.1 hi
    have h0 := hpos i hin
    have h1 : (0 : K) < ((i + 1 : Nat) : K) := by exact_mod_cast (by omega)
    have h2 : ((i + 1 : Nat) : K) ≤ n := by exact_mod_cast (by omega)
    refine ⟨by positivity, ?_⟩
    rw [div_le_iff₀ h0, mul_comm]
    exact mul_le_mul_of_nonneg_left h2 hm.le
  · intro i h
    have h0 := (hpos i (by simp at h; omega)).ne'
    simp only [List.getElem_map, List.getElem_range, Nat.cast_add, Nat.cast_one]
    field_simp
    ring
  · intro h
    have hn : 0 < n := by simpa using h
    have h0 : (n : K) ≠ 0 := (hpos 0 hn).ne'
    simp only [List.getElem_map, List.getElem_range, List.length_map, List.length_range]
    refine ⟨by simp, ?_⟩
    rw [show n - 1 + 1 = n by omega]
    field_simp

/-- **C35, logarithmic.** With `log=True`, `max_pix > 1` and `n >= 2` the radii start at 1, end at `max_pix`, and the ratio of
neighbours is a constant greater than 1. -/
theorem C35_log {m : ℝ} (hm : 1 < m) (n : Nat) (hn : 2 ≤ n) :
    ∃ rs : List ℝ, makeRadiusListLog (fin m) n = rs.map fin ∧ rs.length = n ∧
      (∀ h : 0 < rs.length, rs[0] = 1 ∧ rs[rs.length - 1] = m) ∧
      ∃ c, 1 < c ∧ ∀ i (h : i + 1 < rs.length), rs[i + 1] = c * rs[i] := by
  have hlog : F.log10 (fin m) = fin (Real.logb 10 m) := by
    have h1 : m ≠ 0 := by linarith
    have h2 : ¬ m < 0 := by linarith
    simp only [F.log10, h1, h2, if_false]
    rfl
  have hL : 0 < Real.logb 10 m := Real.logb_pos (by norm_num) hm
  have hn1 : (0 : ℝ) < (n : ℝ) - 1 := by
    have : (2 : ℝ) ≤ n := by exact_mod_cast hn
    linarith
  refine ⟨(List.range n).map fun i => (10 : ℝ) ^ gridPt 0 (Real.logb 10 m) n i, ?_, by simp, ?_,
    (10 : ℝ) ^ ((Real.logb 10 m - 0) / ((n : ℝ) - 1)), ?_, ?_⟩
  · unfold makeRadiusListLog npLogspace
    rw [hlog, npLinspace_fin _ _ _ hn]
    simp only [List.map_map]
    rfl
  · intro h
    simp only [List.getElem_map, List.getElem_range, List.length_map, List.length_range]
    rw [gridPt_zero, gridPt_last _ _ _ hn]
    exact ⟨Real.rpow_zero 10, Real.rpow_logb (by norm_num) (by norm_num) (by linarith)⟩
  · apply Real.one_lt_rpow (by norm_num)
    rw [sub_zero]
    positivity
  · intro i h
    simp only [List.getElem_map, List.getElem_range]
    rw [← Real.rpow_add (by norm_num)]
    congr 1
    unfold gridPt
    push_cast
    ring

example : makeRadiusList (fin (10 : ℚ)) 4 = [fin (5 / 2), fin 5, fin (15 / 2), fin 10] := by decide +kernel

/-! ### C37 -/

/-- A complete header with the given positive values. -/
def mkHeader (a z p : K) : PhotHeader K := ⟨some (fin a), some (fin z), some (fin p)⟩

theorem log10_pos {x : ℝ} (h : 0 < x) : F.log10 (fin x) = fin (Real.logb 10 x) := by
  simp only [F.log10, h.ne', not_lt.2 h.le, if_false]
  rfl

theorem abZpt_fin {a z p : ℝ} (ha : 0 < a) (hp : 0 < p) :
    abZpt (mkHeader a z p) = .ok (fin (-5 / 2 * Real.logb 10 a + z - 5 * Real.logb 10 p + 18692 / 1000)) := by
  simp only [abZpt, mkHeader, card, Except.bind_ok, log10_pos ha, log10_pos hp, fin_mul, fin_add, fin_sub]
  rfl

/-- **C37.** For a header with positive PHOTFLAM and PHOTPLAM the magnitude is NaN exactly for non-positive flux, strictly decreasing for
positive flux, and 100 times the flux is exactly 5 magnitudes brighter. -/
theorem C37_scalar {a z p : ℝ} (ha : 0 < a) (hp : 0 < p) :
    (∀ x : ℝ, x ≤ 0 → hstFluxToAbmag (fin x) (mkHeader a z p) = .ok nan) ∧
    (∀ x : ℝ, 0 < x → ∃ m : ℝ, hstFluxToAbmag (fin x) (mkHeader a z p) = .ok (fin m) ∧
      hstFluxToAbmag (fin (100 * x)) (mkHeader a z p) = .ok (fin (m - 5)) ∧
      ∀ y, x < y → ∃ m', m' < m ∧ hstFluxToAbmag (fin y) (mkHeader a z p) = .ok (fin m')) := by
  have hval : ∀ x : ℝ, 0 < x → hstFluxToAbmag (fin x) (mkHeader a z p) =
      .ok (fin (-5 / 2 * Real.logb 10 x + (-5 / 2 * Real.logb 10 a + z - 5 * Real.logb 10 p + 18692 / 1000))) := by
    intro x hx
    unfold hstFluxToAbmag
    rw [abZpt_fin ha hp, if_neg (by simpa using hx), log10_pos hx]
    rfl
  refine ⟨?_, ?_⟩
  · intro x hx
    simp [hstFluxToAbmag, hx]
  · intro x hx
    refine ⟨_, hval x hx, ?_, ?_⟩
    · rw [hval _ (by positivity)]
      have h100 : Real.logb 10 (100 * x) = 2 + Real.logb 10 x := by
        rw [Real.logb_mul (by norm_num) hx.ne']
        congr 1
        rw [show (100 : ℝ) = 10 ^ (2 : ℝ) by norm_num, Real.logb_rpow (by norm_num) (by norm_num)]
      rw [h100]
      congr 2
      ring
    · intro y hy
      refine ⟨_, ?_, hval y (hx.trans hy)⟩
      have := Real.logb_lt_logb (b := 10) (by norm_num) hx hy
      linarith

/-- **C37, arrays.** On a float array with a complete header the result is a new array holding the scalar result of every element, and no
existing array, in particular the caller's, is modified. -/
theorem C37_array {a z p : ℝ} (ha : 0 < a) (hp : 0 < p) (h : Heap ℝ) (r : Nat) (hr : r < h.next) :
    ∃ r' h', hstFluxToAbmagH r (mkHeader a z p) h = (.ok r', h') ∧ (∀ k, k < h.next → h'.mem k = h.mem k) ∧ h.next ≤ r' ∧
      ∀ x, (h.mem r).mapM (fun v => hstFluxToAbmag v (mkHeader a z p)) = .ok x → h'.mem r' = x := by
  rcases hres : hstFluxToAbmagH r (mkHeader a z p) h with ⟨res, h'⟩
  unfold hstFluxToAbmagH at hres
  simp only [bind, HM.npArray, HM.alloc, HM.read, HM.write, HM.lift, abZpt_fin ha hp] at hres
  cases hres
  refine ⟨h.next + 1, _, rfl, ?_, by omega, ?_⟩
  · intro k hk
    simp only
    rw [if_neg (by omega), if_neg (by omega), if_neg (by omega)]
  · intro x hx
    simp only [if_true]
    have : (h.mem r).mapM (fun v => hstFluxToAbmag v (mkHeader a z p)) = .ok ((h.mem r).map fun v =>
        fin (-5 / 2) * F.log10 (if F.le v (fin 0) then nan else v) +
          fin (-5 / 2 * Real.logb 10 a + z - 5 * Real.logb 10 p + 18692 / 1000)) := by
      apply mapM_ok_of_forall
      intro v _
      unfold hstFluxToAbmag
      by_cases hv : F.le v (fin 0) = true
      · rw [if_pos hv, if_pos hv]
        simp [F.log10]
      · rw [if_neg hv, if_neg hv, abZpt_fin ha hp]; rfl
    rw [hx] at this
    cases this
    rw [List.map_map]
    rfl

/-- **C37, missing cards.** A positive flux needs all three header cards; a non-positive python number does not look at the header. -/
theorem C37_missing [HasLog10 K] (hd : PhotHeader K) (x : K) :
    (x ≤ 0 → hstFluxToAbmag (fin x) hd = .ok nan) ∧
    (0 < x → (hd.photflam = none ∨ hd.photzpt = none ∨ hd.photplam = none) →
      hstFluxToAbmag (fin x) hd = .error .keyError) := by
  constructor
  · intro hx; simp [hstFluxToAbmag, hx]
  · intro hx hm
    unfold hstFluxToAbmag
    rw [if_neg (by simpa using hx)]
    have : abZpt hd = .error .keyError := by
      unfold abZpt
      rcases hd with ⟨_ | a, _ | b, _ | c⟩ <;> simp at hm <;> rfl
    rw [this]; rfl

/-- **C75 is violated.** An integer array (or list of python ints) with a non-positive entry raises ValueError, although the same values
as python ints one by one, or as floats, give NaN there. -/
theorem C75_int_array_violated [HasLog10 K] (hd : PhotHeader K) (l : List Int) (x : Int) (hx : x ∈ l) (h0 : x ≤ 0) :
    hstFluxToAbmagInt (K := K) l hd = .error .valueError ∧ hstFluxToAbmag (fin (x : K)) hd = .ok nan := by
  constructor
  · unfold hstFluxToAbmagInt
    rw [if_pos]
    simp only [List.any_eq_true, decide_eq_true_eq]
    exact ⟨x, hx, h0⟩
  · have : (x : K) ≤ 0 := by exact_mod_cast h0
    simp [hstFluxToAbmag, this]

/-! ### C38 -/

/-- **C38.** For every WCS with equal non-zero pixel scales (in any positive unit) the two conversions are inverse to each other; angles
come back in arcsec. -/
theorem C38_round_trip_partial {s c : K} (hs : s ≠ 0) (hc : 0 < c) :
    (∀ v un : K, 0 < un → ∃ px, angularToPixel ⟨fin v, un⟩ ⟨fin s, fin s, c⟩ = .ok (fin px) ∧
      pixelToAngular (fin px) ⟨fin s, fin s, c⟩ = .ok ⟨fin (v * un), 1⟩) ∧
    (∀ px : K, ∃ v, pixelToAngular (fin px) ⟨fin s, fin s, c⟩ = .ok ⟨fin v, 1⟩ ∧
      angularToPixel ⟨fin v, 1⟩ ⟨fin s, fin s, c⟩ = .ok (fin px)) := by
  have hclose : npAllclose (fin s) (fin s) = true := by
    have : (0 : K) ≤ 1 / 10 ^ 8 + 1 / 10 ^ 5 * |s| := by positivity
    simp only [npAllclose, F.isFin, Bool.and_self, if_true, fin_sub, sub_self, abs_fin, abs_zero, fin_mul, fin_add, le_fin,
      decide_eq_true_eq]
    exact this
  constructor
  · intro v un hu
    have h1 : s * (c / un) ≠ 0 := mul_ne_zero hs (div_ne_zero hc.ne' hu.ne')
    refine ⟨v / (s * (c / un)), ?_, ?_⟩
    · simp only [angularToPixel, hclose, if_true, fin_mul, fin_div_of_ne _ h1]
    · simp only [pixelToAngular, hclose, if_true, fin_mul]
      congr 3
      field_simp
  · intro px
    have h1 : s * (c / 1) ≠ 0 := mul_ne_zero hs (div_ne_zero hc.ne' one_ne_zero)
    refine ⟨px * (s * (c / 1)), ?_, ?_⟩
    · simp only [pixelToAngular, hclose, if_true, fin_mul]
    · simp only [angularToPixel, hclose, if_true, fin_mul, fin_div_of_ne _ h1]
      congr 2
      field_simp

/-- **C38, rejection.** Both functions reject a WCS exactly when the scales (numbers in `cunit`) differ by more than
`1e-8 + 1e-5 * |second scale|`. -/
theorem C38_rejects (s s' c : K) :
    (1 / 10 ^ 8 + 1 / 10 ^ 5 * |s'| < |s - s'| →
      (∀ t, angularToPixel t ⟨fin s, fin s', c⟩ = .error .assertionError) ∧
      (∀ p, pixelToAngular p ⟨fin s, fin s', c⟩ = .error .assertionError)) ∧
    (|s - s'| ≤ 1 / 10 ^ 8 + 1 / 10 ^ 5 * |s'| →
      (∀ t, ∃ v, angularToPixel t ⟨fin s, fin s', c⟩ = .ok v) ∧ (∀ p, ∃ v, pixelToAngular p ⟨fin s, fin s', c⟩ = .ok v)) := by
  have hclose : npAllclose (fin s) (fin s') = decide (|s - s'| ≤ 1 / 10 ^ 8 + 1 / 10 ^ 5 * |s'|) := by
    simp only [npAllclose, F.isFin, Bool.and_self, if_true, fin_sub, abs_fin, fin_mul, fin_add, le_fin]
  constructor
  · intro h
    have : npAllclose (fin s) (fin s') = false := by rw [hclose, decide_eq_false (not_le.2 h)]
    simp [angularToPixel, pixelToAngular, this]
  · intro h
    have : npAllclose (fin s) (fin s') = true := by rw [hclose, decide_eq_true h]
    simp [angularToPixel, pixelToAngular, this]

/-- **C38 is violated** for unequal scales below the absolute tolerance: pixels of `5e-9` by `1e-9` degrees (one side five times the other;
18 and 3.6 microarcsec) are accepted, and the first scale is used. -/
theorem C38_violated (v : K) : pixelToAngular (fin v) ⟨fin (5 / 10 ^ 9), fin (1 / 10 ^ 9), 3600⟩ =
    .ok ⟨fin (v * (18 / 10 ^ 6)), 1⟩ := by
  have : npAllclose (fin (5 / 10 ^ 9 : K)) (fin (1 / 10 ^ 9)) = true := by
    simp only [npAllclose, F.isFin, Bool.and_self, if_true, fin_sub, abs_fin, fin_mul, fin_add, le_fin, decide_eq_true_eq]
    rw [abs_of_pos (by norm_num), abs_of_pos (by norm_num)]
    norm_num
  simp only [pixelToAngular, this, if_true, fin_mul]
  congr 3
  norm_num

example : angularToPixel ⟨fin (3 : ℚ), 60⟩ ⟨fin (1 / 7200), fin (1 / 7200), 3600⟩ = .ok (fin 360) := by decide +kernel

/-! ### C39 -/

/-- **C39.** For an area and an elongation `> 0` the semi-axes satisfy `π a b = area` and `a / b = elong` (for positive area). -/
theorem C39_axes {area e : ℝ} (ha : 0 ≤ area) (he : 0 < e) :
    ∃ a b : ℝ, ellipticalAreaToR (fin area) (fin e) = (fin a, fin b) ∧ 0 ≤ a ∧ 0 ≤ b ∧ Real.pi * a * b = area ∧ a = e * b ∧
      (0 < area → a / b = e) := by
  have hpi := Real.pi_pos
  have hx : 0 ≤ e * area / Real.pi := by positivity
  have hsq : Real.sqrt (e * area / Real.pi) * Real.sqrt (e * area / Real.pi) = e * area / Real.pi := Real.mul_self_sqrt hx
  refine ⟨Real.sqrt (e * area / Real.pi), Real.sqrt (e * area / Real.pi) / e, ?_, Real.sqrt_nonneg _, ?_, ?_, ?_, ?_⟩
  · have h1 : F.sqrt (fin (e * area / Real.pi)) = fin (Real.sqrt (e * area / Real.pi)) := by
      simp only [F.sqrt, not_lt.2 hx, if_false]; rfl
    simp only [ellipticalAreaToR, fin_mul, fin_div_of_ne _ hpi.ne', h1, fin_div_of_ne _ he.ne']
  · exact div_nonneg (Real.sqrt_nonneg _) he.le
  · rw [mul_div_assoc', mul_assoc, hsq]
    field_simp
  · field_simp
  · intro hpos
    have : 0 < Real.sqrt (e * area / Real.pi) := Real.sqrt_pos.2 (by positivity)
    field_simp

/-- **C39, inverse of the aperture area.** The area of the ellipse with semi-axes `r` and `r / elong` is mapped back to these axes. -/
theorem C39_inverts {r e : ℝ} (hr : 0 ≤ r) (he : 0 < e) :
    ellipticalAreaToR (fin (Real.pi * r * (r / e))) (fin e) = (fin r, fin (r / e)) := by
  have hpi := Real.pi_pos
  have hx : e * (Real.pi * r * (r / e)) / Real.pi = r * r := by field_simp
  have h1 : F.sqrt (fin (r * r)) = fin r := by
    simp only [F.sqrt, not_lt.2 (mul_self_nonneg r), if_false]
    congr 1
    exact Real.sqrt_mul_self hr
  simp only [ellipticalAreaToR, fin_mul, fin_div_of_ne _ hpi.ne', hx, h1, fin_div_of_ne _ he.ne']

/-- **C39, circles.** `circle_area_to_r` is the case of elongation 1 (both axes), and inverts `π r²`. -/
theorem C39_circle {area r : ℝ} (ha : 0 ≤ area) (hr : 0 ≤ r) :
    ellipticalAreaToR (fin area) (fin 1) = (circleAreaToR (fin area), circleAreaToR (fin area)) ∧
    circleAreaToR (fin (Real.pi * r * r)) = fin r := by
  have hpi := Real.pi_pos
  have h0 : ∀ x : ℝ, 0 ≤ x → F.sqrt (fin x) = fin (Real.sqrt x) := by
    intro x hx
    simp only [F.sqrt, not_lt.2 hx, if_false]; rfl
  have hx : 0 ≤ area / Real.pi := by positivity
  have hx' : 0 ≤ Real.pi * r * r / Real.pi := by positivity
  constructor
  · simp only [ellipticalAreaToR, circleAreaToR, fin_mul, one_mul, fin_div_of_ne _ hpi.ne', h0 _ hx,
      fin_div_of_ne _ (one_ne_zero : (1 : ℝ) ≠ 0), div_one]
  · simp only [circleAreaToR, fin_div_of_ne _ hpi.ne', h0 _ hx']
    congr 1
    rw [show Real.pi * r * r / Real.pi = r * r by field_simp]
    exact Real.sqrt_mul_self hr

/-! ### C40 -/

/-- **C40, no interpolation.** -/
theorem C40_none (ip : InterpFam K) (x y : List (F K)) (num : Nat) : getInterpolatedValues ip x y num none = .ok (x, y) := rfl

/-- **C40.** With any lawful interpolation kind the result has `max num len` points from the smallest to the largest abscissa, strictly
increasing and evenly spaced, and every ordinate is the interpolant there. -/
theorem C40_grid (ip : InterpFam K) {k : String} {m : Nat} (hip : Lawful (ip k) m) (xs ys : List K)
    (hl : xs.length = ys.length) (hm : m ≤ xs.length) (h2 : 2 ≤ xs.length) (hx : Incr xs) (num : Nat) :
    ∃ us vs : List K, getInterpolatedValues ip (xs.map fin) (ys.map fin) num (some k) = .ok (us.map fin, vs.map fin) ∧
      us.length = max num xs.length ∧ vs.length = us.length ∧ Incr us ∧
      (∀ lo hi, (lo ∈ xs ∧ ∀ x ∈ xs, lo ≤ x) → (hi ∈ xs ∧ ∀ x ∈ xs, x ≤ hi) → us.head? = some lo ∧ us.getLast? = some hi) ∧
      (∃ step, 0 < step ∧ ∀ i (h : i + 1 < us.length), us[i + 1] - us[i] = step) ∧
      ∀ i (h : i < us.length) (h' : i < vs.length),
        ip k (xs.map fin) (ys.map fin) (fin us[i]) = .ok (fin vs[i]) := by
  have hne : xs ≠ [] := by rintro rfl; simp at h2
  obtain ⟨lo, h1, -, h1'⟩ := pyMin_fin hne
  obtain ⟨hi, h3, -, h3'⟩ := pyMax_fin hne
  have hlt : lo < hi := by
    have h01 := List.pairwise_iff_getElem.1 hx 0 1 (by omega) (by omega) (by omega)
    have := h1' _ (List.getElem_mem (show 0 < xs.length by omega))
    have := h3' _ (List.getElem_mem (show 1 < xs.length by omega))
    linarith
  obtain ⟨vs, hv, he, hp⟩ := getInterpolatedValues_ok ip hip xs ys hl hm h2 hx num h1 h1' h3 h3'
  have hN : 2 ≤ max num xs.length := by omega
  have hN1 : (0 : K) < ((max num xs.length : Nat) : K) - 1 := by
    have : (2 : K) ≤ ((max num xs.length : Nat) : K) := by exact_mod_cast hN
    linarith
  refine ⟨(List.range (max num xs.length)).map (gridPt lo hi (max num xs.length)), vs, ?_, by simp, by simp [hv], ?_, ?_, ?_, ?_⟩
  · rw [he, List.map_map]; rfl
  · unfold Incr
    rw [List.pairwise_map]
    apply List.pairwise_lt_range.imp
    intro i j hij
    exact gridPt_strictMono hlt _ hN hij
  · rintro lo' hi' ⟨a1, a2⟩ ⟨b1, b2⟩
    have e1 : lo' = lo := le_antisymm (a2 _ h1) (h1' _ a1)
    have e2 : hi' = hi := le_antisymm (h3' _ b1) (b2 _ h3)
    subst e1 e2
    constructor
    · rw [List.head?_map, List.head?_range]
      rw [if_neg (by omega)]
      simp [gridPt_zero]
    · rw [List.getLast?_map, List.getLast?_range]
      rw [if_neg (by omega)]
      simp [gridPt_last _ _ _ hN]
  · refine ⟨(hi - lo) / (((max num xs.length : Nat) : K) - 1), div_pos (by linarith) hN1, ?_⟩
    intro i h
    simp only [List.getElem_map, List.getElem_range, gridPt]
    push_cast
    ring
  · intro i h h'
    simp only [List.getElem_map, List.getElem_range]
    exact hp i h'

theorem linK_mem (xs ys : List K) (hl : xs.length = ys.length) (hx : Incr xs) {a b : K} (hy : ∀ y ∈ ys, a ≤ y ∧ y ≤ b) {q : K}
    (hne : xs ≠ []) (h0 : ∀ x ∈ xs.head?, x ≤ q) (h1 : ∀ x ∈ xs.getLast?, q ≤ x) :
    a ≤ linK (xs.zip ys) q ∧ linK (xs.zip ys) q ≤ b := by
  induction xs generalizing ys with
  | nil => exact absurd rfl hne
  | cons x0 xs ih =>
    cases ys with
    | nil => simp at hl
    | cons y0 ys =>
      cases xs with
      | nil =>
        cases ys with
        | nil => simpa [linK] using hy y0 (by simp)
        | cons y1 ys => simp at hl
      | cons x1 xs =>
        cases ys with
        | nil => simp at hl
        | cons y1 ys =>
          have hlt : x0 < x1 := (List.pairwise_cons.1 hx).1 x1 (by simp)
          simp only [List.zip_cons_cons, linK]
          split
          · rename_i hq
            have hx0 : x0 ≤ q := h0 x0 (by simp)
            obtain ⟨p0, p1⟩ := hy y0 (by simp)
            obtain ⟨r0, r1⟩ := hy y1 (by simp)
            have hd : 0 < x1 - x0 := by linarith
            have e : (y1 - y0) / (x1 - x0) * (q - x0) + y0 = (y0 * (x1 - q) + y1 * (q - x0)) / (x1 - x0) := by
              field_simp; ring
            rw [e, le_div_iff₀ hd, div_le_iff₀ hd]
            constructor <;> nlinarith [mul_le_mul_of_nonneg_right p0 (by linarith : 0 ≤ x1 - q),
              mul_le_mul_of_nonneg_right r0 (by linarith : 0 ≤ q - x0),
              mul_le_mul_of_nonneg_right p1 (by linarith : 0 ≤ x1 - q),
              mul_le_mul_of_nonneg_right r1 (by linarith : 0 ≤ q - x0)]
          · rename_i hq
            have := ih (y1 :: ys) (by simpa using hl) (List.pairwise_cons.1 hx).2 (fun y hy' => hy y (by simp [hy']))
              (by simp) (by intro x hx'; simp at hx'; subst hx'; linarith) (by
                intro x hx'
                exact h1 x (by rwa [List.getLast?_cons_cons]))
            simpa only [List.zip_cons_cons] using this

/-- **C40, linear.** Linear interpolation stays between the smallest and the largest ordinate and reproduces the data at the nodes. -/
theorem C40_linear (xs ys : List K) (hl : xs.length = ys.length) (hne : xs ≠ []) (hx : Incr xs) {a b : K}
    (hy : ∀ y ∈ ys, a ≤ y ∧ y ≤ b) :
    (∀ q, InRange xs q → ∃ v, linearInterp (xs.map fin) (ys.map fin) (fin q) = .ok (fin v) ∧ a ≤ v ∧ v ≤ b) ∧
    ∀ i (h : i < xs.length) (h' : i < ys.length), linearInterp (xs.map fin) (ys.map fin) (fin xs[i]) = .ok (fin ys[i]) := by
  refine ⟨?_, ?_⟩
  · rintro q hq
    refine ⟨_, (linearInterp_eq xs ys hl hx hne q).1 hq, ?_⟩
    obtain ⟨⟨x, hx1, hx2⟩, ⟨y, hy1, hy2⟩⟩ := hq
    apply linK_mem xs ys hl hx hy hne
    · intro z hz
      cases xs with
      | nil => simp at hz
      | cons c l => simp at hz; subst hz; exact (incr_head_le hx x hx1).trans hx2
    · intro z hz
      exact hy2.trans (incr_le_last hx hz y hy1)
  · intro i h h'
    rw [(linearInterp_eq xs ys hl hx hne xs[i]).1
      ⟨⟨_, List.getElem_mem h, le_rfl⟩, ⟨_, List.getElem_mem h, le_rfl⟩⟩, linK_node xs ys hl hx i h]

example : getInterpolatedValues (fun _ => linearInterp) [fin (1 : ℚ), fin 2, fin 4] [fin 0, fin 4, fin 2] 4 (some "linear") =
    .ok ([fin 1, fin 2, fin 3, fin 4], [fin 0, fin 4, fin 3, fin 2]) := by decide +kernel

/-! ### C41 -/

theorem sliceLen_inside {n a : Nat} {y : Int} (h0 : (a : Int) ≤ y) (h1 : y + a ≤ n) :
    sliceLen n (max 0 (y - (2 * a / 2 : Nat))) (max 0 (y + (2 * a / 2 : Nat))) = 2 * a := by
  have : 2 * a / 2 = a := by omega
  rw [this]
  unfold sliceLen
  omega

/-- **C41, inside.** A target of even height `2a` and width `2b` whose window `[y-a, y+a) × [x-b, x+b)` lies in the image is subtracted
there, and the other pixels keep their values. -/
theorem C41_inside_partial (mem : Nat → Img (F K)) (r : Nat) (target : Img (F K)) (x y : Int) (a b : Nat) (hh : target.h = 2 * a)
    (hw : target.w = 2 * b) (hy0 : (a : Int) ≤ y) (hy1 : y + a ≤ (mem r).h) (hx0 : (b : Int) ≤ x) (hx1 : x + b ≤ (mem r).w) :
    ∃ mem', cutoutSubtract mem r target x y = (.ok r, mem') ∧
      (mem' r).h = (mem r).h ∧ (mem' r).w = (mem r).w ∧
      (∀ i j : Nat, i < 2 * a → j < 2 * b →
        (mem' r).px ((y - a).toNat + i) ((x - b).toNat + j) =
          (mem r).px ((y - a).toNat + i) ((x - b).toNat + j) - target.px i j) ∧
      ∀ i j : Nat, ((i : Int) < y - a ∨ y + a ≤ i ∨ (j : Int) < x - b ∨ x + b ≤ j) → (mem' r).px i j = (mem r).px i j := by
  have e1 : 2 * a / 2 = a := by omega
  have e2 : 2 * b / 2 = b := by omega
  have hs1 : sliceLen (mem r).h (max 0 (y - (target.h / 2 : Nat))) (max 0 (y + (target.h / 2 : Nat))) = target.h := by
    rw [hh]; exact sliceLen_inside hy0 hy1
  have hs2 : sliceLen (mem r).w (max 0 (x - (target.w / 2 : Nat))) (max 0 (x + (target.w / 2 : Nat))) = target.w := by
    rw [hw]; exact sliceLen_inside hx0 hx1
  unfold cutoutSubtract
  simp only [hs1, hs2, broadcasts, decide_true, Bool.true_or, Bool.and_self, if_true]
  refine ⟨_, rfl, ?_, ?_, ?_, ?_⟩
  · simp
  · simp
  · intro i j hi hj
    simp only [if_true, hh, hw, e1, e2]
    rw [if_pos (by omega), if_neg (by omega), if_neg (by omega)]
    congr 2 <;> omega
  · intro i j hij
    simp only [if_true, hh, hw, e1, e2]
    rw [if_neg (by omega)]

/-- **C41, caller's image: violated.** The reference returned is the one passed in and only that object is changed, in place: whenever a
window pixel changes value, the caller's own image has changed. -/
theorem C41_in_place_violated (mem mem' : Nat → Img (F K)) (r r' : Nat) (target : Img (F K)) (x y : Int)
    (h : cutoutSubtract mem r target x y = (.ok r', mem')) : r' = r ∧ ∀ k, k ≠ r → mem' k = mem k := by
  unfold cutoutSubtract at h
  simp only at h
  split at h
  · cases h
    refine ⟨rfl, ?_⟩
    intro k hk
    simp [hk]
  · cases h

/-- The witness: subtracting a 2×2 target of ones from a 2×2 image of threes leaves twos in the caller's image. -/
theorem C41_witness : let mem : Nat → Img (F ℚ) := fun _ => Img.ofRows nan [[fin 3, fin 3], [fin 3, fin 3]]
    let res := cutoutSubtract mem 0 (Img.ofRows nan [[fin 1, fin 1], [fin 1, fin 1]]) 1 1
    res.1 = .ok 0 ∧ (res.2 0).rows = [[fin 2, fin 2], [fin 2, fin 2]] := by decide +kernel

/-- **C41, mismatch.** For targets of at least 2×2 pixels the call succeeds exactly when both sides are even and the window lies inside
the image; otherwise it raises ValueError and no pixel has changed. -/
theorem C41_mismatch (mem : Nat → Img (F K)) (r : Nat) (target : Img (F K)) (x y : Int) (h2 : 2 ≤ target.h) (w2 : 2 ≤ target.w) :
    (∃ a b : Nat, target.h = 2 * a ∧ target.w = 2 * b ∧ (a : Int) ≤ y ∧ y + a ≤ (mem r).h ∧ (b : Int) ≤ x ∧ x + b ≤ (mem r).w) ∨
    cutoutSubtract mem r target x y = (.error .valueError, mem) := by
  have key : ∀ (n m : Nat) (y : Int), 2 ≤ m →
      broadcasts m (sliceLen n (max 0 (y - (m / 2 : Nat))) (max 0 (y + (m / 2 : Nat)))) = true →
      ∃ a : Nat, m = 2 * a ∧ (a : Int) ≤ y ∧ y + a ≤ n := by
    intro n m y hm hb
    simp only [broadcasts, sliceLen, Bool.or_eq_true, decide_eq_true_eq] at hb
    rcases hb with hb | hb
    · replace hb := of_decide_eq_true hb
      refine ⟨m / 2, ?_, ?_, ?_⟩ <;> omega
    · omega
  by_cases hc : (broadcasts target.h (sliceLen (mem r).h (max 0 (y - (target.h / 2 : Nat))) (max 0 (y + (target.h / 2 : Nat)))) &&
      broadcasts target.w (sliceLen (mem r).w (max 0 (x - (target.w / 2 : Nat))) (max 0 (x + (target.w / 2 : Nat))))) = true
  · left
    rw [Bool.and_eq_true] at hc
    obtain ⟨a, h1, h3, h4⟩ := key _ _ _ h2 hc.1
    obtain ⟨b, k1, k3, k4⟩ := key _ _ _ w2 hc.2
    exact ⟨a, b, h1, k1, h3, h4, k3, k4⟩
  · right
    unfold cutoutSubtract
    simp only [hc, Bool.false_eq_true, if_false]

/-- **C41, mismatch: violated for one-pixel-high targets.** A 1×1 target is accepted everywhere and nothing is subtracted. -/
theorem C41_one_pixel_violated (mem : Nat → Img (F K)) (r : Nat) (target : Img (F K)) (x y : Int) (h1 : target.h = 1)
    (w1 : target.w = 1) : ∃ mem', cutoutSubtract mem r target x y = (.ok r, mem') ∧ ∀ k, (mem' k).px = (mem k).px := by
  unfold cutoutSubtract
  simp only [h1, w1, broadcasts, decide_true, Bool.or_true, Bool.and_self, if_true]
  refine ⟨_, rfl, ?_⟩
  intro k
  by_cases hk : k = r
  · subst hk
    simp only [if_true]
    funext i j
    rw [if_neg]
    simp only [show 1 / 2 = 0 from rfl]
    omega
  · simp [hk]

end Verif.Props

import Verif.Props.Consistency
import Verif.Props.REpsilon
import Verif.Props.Refinement
import Verif.Props.RadiusErrorCubic

/-!
# C188: no Petrosian radius is reported if the true one is beyond the apertures
-/

set_option linter.unusedVariables false

namespace Verif.Props

open F Spec Lemmas Real

variable {I : ℝ → ℝ} {q : ℝ}

/-- **C188, radius beyond the apertures.** If all apertures of an exactly measured galaxy are smaller than its Petrosian radius, `r_petrosian` is NaN,
without interpolation and with every interpolation that stays between neighbouring data points, for all spacings, axis ratios and `interp_num`. -/
theorem C188_outside_partial (G : Galaxy I) (hq : 0 < q) {eta rP : ℝ} (hrP : 0 < rP) (htrue : petroRatio I rP = eta) {δ : ℝ} {R : List ℝ}
    (hR : Fine δ R) (hout : ∀ x ∈ R, x < rP) (ip : InterpFam ℝ) (kind : Option String) (num : Nat)
    (hB : ∀ k, kind = some k → BetweenNodes (ip k)) :
    ∃ p, calculatePetrosian (areas q R) (fluxes I q R) none none = .ok (p, none) ∧
      calculatePetrosianR ip (R.map fin) p none (fin eta) kind num = .ok (nan, nan) := by
  obtain ⟨p, hp, hpne, Y, hY, hl, hY0, hYi⟩ := consistency_profile G hq hR
  obtain ⟨hN, hNl, hNg, hNe⟩ := Fine.zeroed hR
  have h3 := hR.three
  set N := 0 :: R.tail with hNdef
  have hlN : N.length = Y.length := by omega
  obtain ⟨xs, ys, hS, hxy⟩ := Sampled.exists_between (num := num) hB (by omega : 2 ≤ N.length) hlN hN
  refine ⟨p, hp, petrosianR_of_sampled hpne (by omega) (xs := xs) (ys := ys.map fin) (by rw [hY]; exact hS) (radiusAt_none ?_)⟩
  refine (C07_closest_value_index eta ys false).1.2 ?_
  intro y hy
  obtain ⟨k, hk, rfl⟩ := List.getElem_of_mem hy
  obtain ⟨i, j, hi, hj, -, -, b1, -⟩ := Sampled.near hS hlN (by omega) hN hB hNg k (by omega) hk
  simp only [Reaches, Bool.false_eq_true, if_false, not_le]
  refine lt_of_lt_of_le ?_ b1
  rw [← htrue]
  cases i with
  | zero => rw [hY0 (by omega)]; exact (petroRatio_mem G hrP).2
  | succ i =>
    have hiR : i + 1 < R.length := by omega
    exact lt_of_lt_of_le (G.ratioFalls (Set.mem_Ioi.2 (hR.pos hiR)) (Set.mem_Ioi.2 hrP) (hout _ (List.getElem_mem hiR))) (hYi i hiR).1

/-- **C188, radius well inside.** If the intensity at the last but one aperture is at most `eta` times the mean intensity in the last one, a radius is
reported, whatever the interpolation (splines included). -/
theorem C188_found (G : Galaxy I) (hq : 0 < q) {eta : ℝ} {δ : ℝ} {R : List ℝ} (hR : Fine δ R)
    (hin : ∀ h : R.length - 1 < R.length, I (R[R.length - 2]'(by omega)) ≤
      eta * (enclosed I 1 R[R.length - 1] / (π * R[R.length - 1] ^ 2)))
    (ip : InterpFam ℝ) (kind : Option String) (num m : Nat) (hm : m ≤ R.length) (hip : Lawful (ip (kind.getD "cubic")) m) :
    ∃ p r, calculatePetrosian (areas q R) (fluxes I q R) none none = .ok (p, none) ∧
      calculatePetrosianR ip (R.map fin) p none (fin eta) kind num = .ok (fin r, nan) ∧ 0 ≤ r ∧ ∃ x ∈ R, r ≤ x := by
  obtain ⟨p, hp, hpne, Y, hY, hl, hY0, hYi⟩ := consistency_profile G hq hR
  obtain ⟨hN, hNl, hNg, hNe⟩ := Fine.zeroed hR
  have h3 := hR.three
  set N := 0 :: R.tail with hNdef
  have hlN : N.length = Y.length := by omega
  obtain ⟨xs, ys, hS, hxy⟩ := Sampled.exists (kind := kind) (num := num) (ip := ip) (m := m)
    (by rintro k rfl; exact hip) (by omega) (by omega : 2 ≤ N.length) hlN hN
  have hlast := Sampled.last_mem hip (by omega) (by omega) hlN hN hS
  have hval : Y[N.length - 1]'(by omega) ≤ eta := by
    have h1 := (hYi (R.length - 2) (by omega)).2
    have ee : R.length - 2 + 1 = R.length - 1 := by omega
    simp only [ee] at h1
    simp only [hNl]
    refine h1.trans ?_
    unfold mixRatio
    have hpos : 0 < R[R.length - 1]'(by omega) := hR.pos (by omega)
    have henc : 0 < enclosed I 1 (R[R.length - 1]'(by omega)) := gal_pos G one_pos hpos
    rw [div_le_iff₀ (div_pos henc (by positivity))]
    exact hin (by omega)
  obtain ⟨o, ho⟩ := closestValueIndex_total (fin eta) (ys.map fin) false
  cases o with
  | none =>
    have := (C07_closest_value_index eta ys false).1.1 ho _ hlast
    exact absurd hval (by simpa [Reaches] using this)
  | some i =>
    obtain ⟨k, hk, hik, -⟩ := ((C07_closest_value_index eta ys false).2.1 i).1 ho
    have hi : i < xs.length := by omega
    have hres := petrosianR_of_sampled (R := R) (eta := fin eta) hpne (by omega) (xs := xs) (ys := ys.map fin) (by rw [hY]; exact hS)
      (radiusAt_some ho hi)
    refine ⟨p, xs[i], hp, hres, ?_⟩
    obtain ⟨xs', ys', -, -, h⟩ := C08_radius_in_range ip R p none (fin eta) kind num (by omega) hN hres
    obtain ⟨x, -, hx, h0, h1⟩ := h (by simp)
    injection hx with hx
    rw [hx]
    exact ⟨h0, h1⟩

/-! ### The default interpolation -/

/-- A galaxy with the intensity `1 / (1 + r²)²` at the distance `r`. -/
noncomputable def plumDisc (r : ℝ) : ℝ := 1 / (1 + r ^ 2) ^ 2

theorem plumDisc_continuous : Continuous plumDisc := by
  unfold plumDisc
  exact continuous_const.div (by fun_prop) fun r => by positivity

theorem plumDisc_enclosed (q r : ℝ) : enclosed plumDisc q r = π * q * r ^ 2 / (1 + r ^ 2) := by
  have hd : ∀ t ∈ Set.uIcc 0 r, HasDerivAt (fun t : ℝ => π * q * t ^ 2 / (1 + t ^ 2)) (2 * π * t * plumDisc t * q) t := by
    intro t _
    have h1 : HasDerivAt (fun t : ℝ => π * q * t ^ 2) (π * q * (2 * t)) t := by
      simpa using ((hasDerivAt_pow 2 t).const_mul (π * q))
    have h2 : HasDerivAt (fun t : ℝ => 1 + t ^ 2) (2 * t) t := by
      simpa using ((hasDerivAt_pow 2 t).const_add 1)
    have hne : (1 + t ^ 2 : ℝ) ≠ 0 := by positivity
    refine (h1.div h2 hne).congr_deriv ?_
    unfold plumDisc
    field_simp
    ring
  unfold enclosed
  rw [intervalIntegral.integral_eq_sub_of_hasDerivAt hd (Continuous.intervalIntegrable (by
    have := plumDisc_continuous
    fun_prop) _ _)]
  simp

theorem plumDisc_ratio {r : ℝ} (hr : 0 < r) : petroRatio plumDisc r = 1 / (1 + r ^ 2) := by
  have := Real.pi_pos
  unfold petroRatio
  rw [plumDisc_enclosed]
  unfold plumDisc
  field_simp

theorem plumDisc_galaxy : Galaxy plumDisc where
  cont := plumDisc_continuous.continuousOn
  pos := fun r _ => by unfold plumDisc; positivity
  falls := by
    intro x hx y hy hxy
    unfold plumDisc
    have hx : 0 ≤ x := hx
    exact one_div_lt_one_div_of_lt (by positivity) (by gcongr)
  ratioFalls := by
    intro x hx y hy hxy
    have hx : 0 < x := hx
    rw [plumDisc_ratio hx, plumDisc_ratio hy]
    exact one_div_lt_one_div_of_lt (by positivity) (by gcongr)

theorem outside_fine : Fine 3 ([1 / 3, 3, 4, 7] : List ℝ) := by
  refine ⟨by simp, fun h => by norm_num, fun i h => ?_⟩
  have h : i < 3 := by simp at h; omega
  interval_cases i <;> norm_num

/-- The cubic through the profile of the witness. -/
noncomputable def dipCubic : Cubic ℝ := ⟨1, 17239 / 14280, -1183 / 2040, 33 / 595⟩

theorem dip_small {x : ℝ} (h1 : 9 / 2 ≤ x) (h2 : x ≤ 5) : dipCubic.at x ≤ 1 / 101 := by
  simp only [Cubic.at, dipCubic]
  nlinarith [mul_nonneg (sub_nonneg.2 h1) (sub_nonneg.2 h2), mul_nonneg (mul_nonneg (sub_nonneg.2 h1) (sub_nonneg.2 h2)) (by linarith : 0 ≤ x)]

/-- **C188 fails with the default interpolation.** A galaxy with the Petrosian radius 10, measured exactly in four apertures up to the radius 7. All
entries of the profile are above `eta`, but the cubic spline dips below it between the apertures, and a radius of at most 5 is reported. -/
theorem C188_cubic_violated : ∃ (I : ℝ → ℝ) (R : List ℝ) (rP eta : ℝ), Galaxy I ∧ Fine 3 R ∧ 0 < rP ∧ petroRatio I rP = eta ∧ (∀ x ∈ R, x < rP) ∧
    ∃ p, calculatePetrosian (areas 1 R) (fluxes I 1 R) none none = .ok (p, none) ∧ (∀ y ∈ p, F.le y (fin eta) = false) ∧
      ∀ num, 15 ≤ num → ∃ r, calculatePetrosianR (fun _ => cubicInterp) (R.map fin) p none (fin eta) (some "cubic") num = .ok (fin r, nan) ∧
        r ≤ 5 ∧ r ≤ rP / 2 := by
  have hpi := Real.pi_pos
  have hI : Incr ([0, 3, 4, 7] : List ℝ) := by unfold Incr; norm_num
  have hF := outside_fine
  refine ⟨plumDisc, [1 / 3, 3, 4, 7], 10, 1 / 101, plumDisc_galaxy, hF, by norm_num, ?_, by norm_num, ?_⟩
  · rw [plumDisc_ratio (by norm_num)]; norm_num
  have hA : areas 1 ([1 / 3, 3, 4, 7] : List ℝ) = ([π * 1 * (1 / 3) ^ 2, π * 1 * 3 ^ 2, π * 1 * 4 ^ 2, π * 1 * 7 ^ 2] : List ℝ).map fin := by
    simp [areas]
  have hFl : fluxes plumDisc 1 ([1 / 3, 3, 4, 7] : List ℝ) =
      ([enclosed plumDisc 1 (1 / 3), enclosed plumDisc 1 3, enclosed plumDisc 1 4, enclosed plumDisc 1 7] : List ℝ).map fin := by
    simp [fluxes]
  obtain ⟨p, hp, hpl, hp0, hpe⟩ := profile_entries ([π * 1 * (1 / 3) ^ 2, π * 1 * 3 ^ 2, π * 1 * 4 ^ 2, π * 1 * 7 ^ 2] : List ℝ)
    [enclosed plumDisc 1 (1 / 3), enclosed plumDisc 1 3, enclosed plumDisc 1 4, enclosed plumDisc 1 7] (by simp) (by simp)
    (by simp; constructorm* _ ∧ _ <;> nlinarith)
  have hr : ∀ s t : ℝ, 0 < s → s < t → ratio (π * 1 * s ^ 2) (enclosed plumDisc 1 s) (π * 1 * t ^ 2) (enclosed plumDisc 1 t) = fin (1 / (1 + s ^ 2)) := by
    intro s t hs hst
    have ht : 0 < t := hs.trans hst
    have n1 : π * 1 * t ^ 2 ≠ 0 := by positivity
    have n2 : enclosed plumDisc 1 t / (π * 1 * t ^ 2) ≠ 0 := by rw [plumDisc_enclosed]; positivity
    have hd : 0 < t ^ 2 - s ^ 2 := by nlinarith
    have n3 : π * 1 * t ^ 2 - π * 1 * s ^ 2 ≠ 0 := by
      have : 0 < π * (t ^ 2 - s ^ 2) := mul_pos hpi hd
      intro h; nlinarith
    have e : ratio (π * 1 * s ^ 2) (enclosed plumDisc 1 s) (π * 1 * t ^ 2) (enclosed plumDisc 1 t) =
        fin ((enclosed plumDisc 1 t - enclosed plumDisc 1 s) / (π * 1 * t ^ 2 - π * 1 * s ^ 2) / (enclosed plumDisc 1 t / (π * 1 * t ^ 2))) := by
      generalize π * 1 * s ^ 2 = a, enclosed plumDisc 1 s = f, π * 1 * t ^ 2 = a', enclosed plumDisc 1 t = f' at *
      simp [ratio, n1, n2, n3]
    rw [e, plumDisc_enclosed, plumDisc_enclosed]
    congr 1
    rw [show π * 1 * t ^ 2 - π * 1 * s ^ 2 = π * (t ^ 2 - s ^ 2) by ring]
    field_simp
    ring
  have e1 := hpe 0 _ _ _ _ rfl rfl rfl rfl
  have e2 := hpe 1 _ _ _ _ rfl rfl rfl rfl
  have e3 := hpe 2 _ _ _ _ rfl rfl rfl rfl
  rw [hr _ _ (by norm_num) (by norm_num)] at e1 e2 e3
  have hpv : p = [nan, fin (9 / 10), fin (1 / 10), fin (1 / 17)] := by
    match p, hpl with
    | [a, b, c, d], _ =>
      simp at hp0 e1 e2 e3
      rw [hp0, e1, e2, e3]
      norm_num
  refine ⟨p, by rw [hA, hFl]; exact hp, ?_, ?_⟩
  · rw [hpv]
    intro y hy
    simp only [List.mem_cons, List.not_mem_nil, or_false] at hy
    rcases hy with rfl | rfl | rfl | rfl <;> simp <;> norm_num
  intro num hnum
  have em : ([0, 3, 4, 7] : List ℝ).map dipCubic.at = [1, 9 / 10, 1 / 10, 1 / 17] := by
    simp only [List.map_cons, List.map_nil, Cubic.at, dipCubic]
    norm_num
  obtain ⟨vs, hvl, hg, hvs⟩ := getInterpolatedValues_ok (fun _ => cubicInterp) (k := "cubic") cubic_lawful ([0, 3, 4, 7] : List ℝ)
    (([0, 3, 4, 7] : List ℝ).map dipCubic.at) (by simp) (by simp) (by simp) hI num (lo := 0) (hi := 7) (by simp) (by norm_num) (by simp) (by norm_num)
  have hN : max num ([0, 3, 4, 7] : List ℝ).length = num := by simp; omega
  rw [hN] at hvl hg hvs
  have hv : ∀ i (hi : i < vs.length), vs[i] = dipCubic.at (gridPt 0 7 num i) := by
    intro i hi
    obtain ⟨g1, g2⟩ := gridPt_mem (show (0 : ℝ) ≤ 7 by norm_num) num (by omega) (show i < num by omega)
    have := hvs i hi
    rw [C97_exact ([0, 3, 4, 7] : List ℝ) (by simp) hI dipCubic _ ⟨⟨0, by simp, g1⟩, ⟨7, by simp, g2⟩⟩] at this
    injection this with this
    injection this with this
    exact this.symm
  obtain ⟨f, hf, f1, f2⟩ := gridPt_between (b := (7 : ℝ)) (by norm_num) (N := num) (by omega) (s := 9 / 2) (t := 5) (by norm_num) (by norm_num)
    (by
      have : (15 : ℝ) ≤ num := by exact_mod_cast hnum
      rw [div_le_iff₀ (by linarith)]
      linarith)
  have hfv : vs[f]'(by omega) ≤ 1 / 101 := by rw [hv]; exact dip_small f1 f2
  obtain ⟨o, ho⟩ := closestValueIndex_total (fin (1 / 101)) (vs.map fin) false
  cases o with
  | none =>
    have := (C07_closest_value_index (1 / 101) vs false).1.1 ho _ (List.getElem_mem (by omega : f < vs.length))
    exact absurd hfv (by simpa [Reaches] using this)
  | some i =>
    obtain ⟨k, hk, hi, -, hfirst, -⟩ := ((C07_closest_value_index (1 / 101) vs false).2.1 i).1 ho
    have hkf : k ≤ f := by
      by_contra hc
      exact hfirst f (by omega) (by simpa [Reaches] using hfv)
    have hle : gridPt (0 : ℝ) 7 num i ≤ 5 := (gridPt_mono (by norm_num) num (by omega) (by omega : i ≤ f)).trans f2
    refine ⟨gridPt 0 7 num i, ?_, hle, by linarith⟩
    rw [em] at hg
    unfold calculatePetrosianR
    rw [hpv]
    simp only [List.map_cons, List.map_nil] at hg
    simp only [setItem0, Except.bind_ok, List.map_cons, List.map_nil]
    rw [hg]
    have emm : (List.range num).map (fun i => fin (gridPt (0 : ℝ) 7 num i)) = ((List.range num).map (gridPt 0 7 num)).map fin := by
      rw [List.map_map]; rfl
    simp only [Except.bind_ok]
    rw [emm, radiusAt_some ho (by simp; omega)]
    simp [Except.bind_ok]

/-! ### Concrete cases -/

/-- The same galaxy and apertures with linear interpolation: no radius. -/
example : ∃ p, calculatePetrosian (areas 1 [1 / 3, 3, 4, 7]) (fluxes plumDisc 1 [1 / 3, 3, 4, 7]) none none = .ok (p, none) ∧
    calculatePetrosianR (fun _ => linearInterp) (([1 / 3, 3, 4, 7] : List ℝ).map fin) p none (fin (1 / 101)) (some "linear") 5000 = .ok (nan, nan) :=
  C188_outside_partial plumDisc_galaxy one_pos (rP := 10) (by norm_num) (by rw [plumDisc_ratio (by norm_num)]; norm_num) 
    outside_fine (by norm_num) _ _ _ (fun _ _ => linear_between)

/-- The same galaxy with `eta = 1/5`, the default: 1/(1 + 3²)² is small enough, and cubic splines find a radius. -/
example : ∃ p r, calculatePetrosian (areas 1 [1 / 3, 3, 4, 7]) (fluxes plumDisc 1 [1 / 3, 3, 4, 7]) none none = .ok (p, none) ∧
    calculatePetrosianR (fun _ => cubicInterp) (([1 / 3, 3, 4, 7] : List ℝ).map fin) p none (fin (1 / 5)) (some "cubic") 5000 = .ok (fin r, nan) ∧
    0 ≤ r ∧ ∃ x ∈ ([1 / 3, 3, 4, 7] : List ℝ), r ≤ x :=
  C188_found plumDisc_galaxy one_pos outside_fine (by
    intro h
    have := Real.pi_pos
    simp only [List.length_cons, List.length_nil, Nat.reduceAdd, Nat.reduceSub, List.getElem_cons_succ, List.getElem_cons_zero]
    rw [plumDisc_enclosed]
    unfold plumDisc
    rw [show π * 1 * 7 ^ 2 / (1 + 7 ^ 2) / (π * 7 ^ 2) = (1 / 50 : ℝ) by field_simp; norm_num]
    norm_num) _ (some "cubic") 5000 4 (by simp) cubic_lawful

end Verif.Props

import Verif.Props.RadiusErrorLinear
import Verif.Props.Spline

/-!
# C11 with the default cubic interpolation
-/

set_option linter.unusedSectionVars false

namespace Verif.Props

open F Spec

section
variable {K : Type} [Field K] [LinearOrder K] [IsStrictOrderedRing K]

/-- Every stretch longer than the step of the grid holds a grid point. -/
theorem gridPt_between {b : K} (hb : 0 < b) {N : Nat} (hN : 2 ≤ N) {s t : K} (hs : 0 ≤ s) (ht : t ≤ b) (hst : b / ((N : K) - 1) ≤ t - s) :
    ∃ i, i < N ∧ s ≤ gridPt 0 b N i ∧ gridPt 0 b N i ≤ t := by
  have h2 : (2 : K) ≤ N := by exact_mod_cast hN
  have hd : 0 < b / ((N : K) - 1) := div_pos hb (by linarith)
  have hst' : s ≤ t := by linarith
  have hex : ∃ i, s ≤ gridPt 0 b N i := ⟨N - 1, by rw [gridPt_last 0 b N hN]; linarith⟩
  classical
  obtain ⟨f, hf, hmin⟩ : ∃ f, s ≤ gridPt 0 b N f ∧ ∀ m < f, ¬ s ≤ gridPt 0 b N m :=
    ⟨Nat.find hex, Nat.find_spec hex, fun m hm => Nat.find_min hex hm⟩
  refine ⟨f, ?_, hf, ?_⟩
  · by_contra hc
    exact hmin (N - 1) (by omega) (by rw [gridPt_last 0 b N hN]; linarith)
  · cases f with
    | zero => rw [gridPt_zero]; linarith
    | succ f =>
      have h1 := hmin f (by omega)
      simp only [gridPt, not_le, zero_add, sub_zero] at h1 ⊢
      push_cast
      linarith

/-- What the radius search returns on the samples of a cubic. -/
theorem cubic_radius (xs : List K) (hm : 4 ≤ xs.length) (hx : Incr xs) (p : Cubic K) (eta : K) (num : Nat) {b : K} (hb : 0 < b)
    (h0 : 0 ∈ xs) (h0' : ∀ x ∈ xs, 0 ≤ x) (hb1 : b ∈ xs) (hb' : ∀ x ∈ xs, x ≤ b) (hend : p.at b ≤ eta) :
    ∃ i k, i ≤ k ∧ k < max num xs.length ∧
      (getInterpolatedValues (fun _ => cubicInterp) (xs.map fin) ((xs.map p.at).map fin) num (some "cubic") >>= fun xy =>
        radiusAt (fin eta) xy false) = .ok (fin (gridPt 0 b (max num xs.length) i)) ∧
      p.at (gridPt 0 b (max num xs.length) k) ≤ eta ∧ (∀ j < k, eta < p.at (gridPt 0 b (max num xs.length) j)) ∧
      ∀ j ≤ k, |p.at (gridPt 0 b (max num xs.length) i) - eta| ≤ |p.at (gridPt 0 b (max num xs.length) j) - eta| := by
  obtain ⟨vs, hvl, hg, hvs⟩ := getInterpolatedValues_ok (fun _ => cubicInterp) (k := "cubic") cubic_lawful xs (xs.map p.at) (by simp) hm (by omega)
    hx num h0 h0' hb1 hb'
  set N := max num xs.length with hN
  have hN2 : 2 ≤ N := by omega
  have hv : ∀ i (hi : i < vs.length), vs[i] = p.at (gridPt 0 b N i) := by
    intro i hi
    obtain ⟨g1, g2⟩ := gridPt_mem hb.le _ hN2 (show i < N by omega)
    have := hvs i hi
    rw [C97_exact xs hm hx p _ ⟨⟨0, h0, g1⟩, ⟨b, hb1, g2⟩⟩] at this
    injection this with this
    injection this with this
    exact this.symm
  obtain ⟨o, ho⟩ := closestValueIndex_total (fin eta) (vs.map fin) false
  cases o with
  | none =>
    have := (C07_closest_value_index eta vs false).1.1 ho vs[N - 1] (List.getElem_mem (by omega))
    rw [hv, gridPt_last 0 b N hN2] at this
    exact absurd hend (by simpa [Reaches] using this)
  | some i =>
    obtain ⟨k, hk, hi, hr, hf, hmin, -⟩ := ((C07_closest_value_index eta vs false).2.1 i).1 ho
    refine ⟨i, k, hi, by omega, ?_, ?_, ?_, ?_⟩
    · rw [hg]
      have em : (List.range N).map (fun i => fin (gridPt 0 b N i)) = ((List.range N).map (gridPt 0 b N)).map fin := by
        rw [List.map_map]; rfl
      simp only [Except.bind_ok]
      rw [em, radiusAt_some ho (by simp; omega)]
      simp
    · simpa [Reaches, hv] using hr
    · intro j hj
      have := hf j hj
      simpa [Reaches, hv] using this
    · intro j hj
      have := hmin j hj
      simpa [hv] using this

end

/-- The three curves of the witness: the cubics through profile plus error, profile, and profile minus error. -/
def upCubic : Cubic ℚ := ⟨1, 2459 / 660000, -13841 / 2200000, 1273 / 6600000⟩
@[inherit_doc upCubic] def midCubic : Cubic ℚ := ⟨1, -127 / 4200, -17 / 14000, 1 / 42000⟩
@[inherit_doc upCubic] def loCubic : Cubic ℚ := ⟨1, -98871 / 1540000, 59487 / 15400000, -2237 / 15400000⟩

theorem up_small {x : ℚ} (h1 : 17 ≤ x) (h2 : x ≤ 18) : upCubic.at x ≤ 1 / 5 := by
  simp only [Cubic.at, upCubic]
  nlinarith [mul_nonneg (sub_nonneg.2 h1) (sub_nonneg.2 h2), mul_nonneg (mul_nonneg (sub_nonneg.2 h1) (sub_nonneg.2 h2)) (by linarith : 0 ≤ x)]

theorem lo_falls {x y : ℚ} (h : x < y) : loCubic.at y < loCubic.at x := by
  have e : loCubic.at x - loCubic.at y = (y - x) * (988710 / 15400000 - 59487 / 15400000 * (x + y) + 2237 / 15400000 * (x ^ 2 + x * y + y ^ 2)) := by
    simp only [Cubic.at, loCubic]; ring
  have : 0 < (988710 / 15400000 - 59487 / 15400000 * (x + y) + 2237 / 15400000 * (x ^ 2 + x * y + y ^ 2) : ℚ) := by
    nlinarith [sq_nonneg (x - y), sq_nonneg (x + y - 18)]
  have := mul_pos (sub_pos.2 h) this
  linarith

/-- **C11 fails with the default cubic interpolation.** Four radii, a profile whose values fall strictly, and positive errors such that profile
plus error and profile minus error fall strictly too. For every sampling of at least 106 points (5000 is the default) the Petrosian radius is
found, and its reported error is a negative number: the splines through the two error profiles cross `eta` in the wrong order. -/
theorem C11_cubic_violated : ∃ (R P E : List ℚ) (eta : ℚ), Incr (0 :: R) ∧ (∀ x ∈ E, 0 < x) ∧ (1 :: P).Pairwise (· > ·) ∧
    (1 :: List.zipWith (· + ·) P E).Pairwise (· > ·) ∧ (1 :: List.zipWith (· - ·) P E).Pairwise (· > ·) ∧
    (∀ x ∈ List.zipWith (· - ·) P E, 0 < x) ∧
    ∀ (r0 p0 e0 : F ℚ) (num : Nat), 106 ≤ num → ∃ r e,
      calculatePetrosianR (fun _ => cubicInterp) (r0 :: R.map fin) (p0 :: P.map fin) (some (e0 :: E.map fin)) (fin eta) (some "cubic") num =
        .ok (fin r, fin e) ∧ e < 0 := by
  refine ⟨[10, 20, 21], [3 / 5, 1 / 10, 1 / 20], [1 / 1000, 1 / 1000, 1 / 25], 1 / 5, by unfold Incr; decide +kernel, by decide +kernel, by decide +kernel,
    by decide +kernel, by decide +kernel, by decide +kernel, fun r0 p0 e0 num hnum => ?_⟩
  have hI : Incr ([0, 10, 20, 21] : List ℚ) := by unfold Incr; decide +kernel
  have key := fun (p : Cubic ℚ) hend => cubic_radius ([0, 10, 20, 21] : List ℚ) (by simp) hI p (1 / 5) num (b := 21) (by norm_num) (by simp)
    (by decide +kernel) (by simp) (by decide +kernel) hend
  have hN : max num ([0, 10, 20, 21] : List ℚ).length = num := by simp; omega
  rw [hN] at key
  have hstep : (21 : ℚ) / ((num : ℚ) - 1) ≤ 1 / 5 := by
    have : (106 : ℚ) ≤ num := by exact_mod_cast hnum
    rw [div_le_div_iff₀ (by linarith) (by norm_num)]
    linarith
  have hmono : ∀ i j, i ≤ j → gridPt (0 : ℚ) 21 num i ≤ gridPt 0 21 num j := fun i j h => gridPt_mono (by norm_num) num (by omega) h
  obtain ⟨im, km, -, -, hm, -, -, -⟩ := key midCubic (by norm_num [Cubic.at, midCubic])
  obtain ⟨iu, ku, hiu, -, hu, -, hu2, -⟩ := key upCubic (by norm_num [Cubic.at, upCubic])
  obtain ⟨il, kl, hil, hkl, hl, hl1, hl2, hl3⟩ := key loCubic (by norm_num [Cubic.at, loCubic])
  have em : ([0, 10, 20, 21] : List ℚ).map midCubic.at = [1, 3 / 5, 1 / 10, 1 / 20] := by decide +kernel
  have eu : ([0, 10, 20, 21] : List ℚ).map upCubic.at = [1, 3 / 5 + 1 / 1000, 1 / 10 + 1 / 1000, 1 / 20 + 1 / 25] := by decide +kernel
  have el : ([0, 10, 20, 21] : List ℚ).map loCubic.at = [1, 3 / 5 - 1 / 1000, 1 / 10 - 1 / 1000, 1 / 20 - 1 / 25] := by decide +kernel
  rw [em] at hm
  rw [eu] at hu
  rw [el] at hl
  have hup : gridPt (0 : ℚ) 21 num iu ≤ 18 := by
    obtain ⟨j, hj, hj1, hj2⟩ := gridPt_between (b := (21 : ℚ)) (by norm_num) (N := num) (by omega) (s := 17) (t := 18) (by norm_num)
      (by norm_num) (by linarith)
    have : iu ≤ j := by
      by_contra hc
      exact absurd (hu2 j (by omega)) (not_lt.2 (up_small hj1 hj2))
    exact (hmono _ _ this).trans hj2
  have hlo : (18 : ℚ) < gridPt 0 21 num il := by
    by_contra hc
    rw [not_lt] at hc
    obtain ⟨j, hj, hj1, hj2⟩ := gridPt_between (b := (21 : ℚ)) (by norm_num) (N := num) (by omega) (s := 91 / 5) (t := 93 / 5) (by norm_num)
      (by norm_num) (by linarith)
    have v1 : (1 : ℚ) / 5 < loCubic.at (93 / 5) := by norm_num [Cubic.at, loCubic]
    have hv : ∀ x y : ℚ, x ≤ y → loCubic.at y ≤ loCubic.at x := fun x y h => by
      rcases h.eq_or_lt with rfl | h
      · exact le_rfl
      · exact (lo_falls h).le
    have hjv := hv _ _ hj2
    have hjk : j ≤ kl := by
      by_contra hc'
      have := hv _ _ ((hmono kl j (by omega)).trans hj2)
      linarith
    have a1 := hl3 j hjk
    have a2 := hv _ _ hc
    have a3 := lo_falls (show (18 : ℚ) < gridPt 0 21 num j by linarith)
    rw [abs_of_nonneg (by linarith), abs_of_nonneg (by linarith)] at a1
    linarith
  refine ⟨gridPt 0 21 num im, (gridPt 0 21 num iu - gridPt 0 21 num il) / 2, ?_, by linarith⟩
  have zu : zipOp (· + ·) [fin 1, fin (3 / 5), fin (1 / 10), fin (1 / 20)] ([fin 0, fin (1 / 1000), fin (1 / 1000), fin (1 / 25)] : List (F ℚ)) =
      .ok (([1, 3 / 5 + 1 / 1000, 1 / 10 + 1 / 1000, 1 / 20 + 1 / 25] : List ℚ).map fin) := by decide +kernel
  have zl : zipOp (· - ·) [fin 1, fin (3 / 5), fin (1 / 10), fin (1 / 20)] ([fin 0, fin (1 / 1000), fin (1 / 1000), fin (1 / 25)] : List (F ℚ)) =
      .ok (([1, 3 / 5 - 1 / 1000, 1 / 10 - 1 / 1000, 1 / 20 - 1 / 25] : List ℚ).map fin) := by decide +kernel
  simp only [bind_eq_ok] at hm hu hl
  obtain ⟨xm, hm1, hm2⟩ := hm
  obtain ⟨xu, hu1, hu2'⟩ := hu
  obtain ⟨xl, hl1', hl2'⟩ := hl
  unfold calculatePetrosianR
  have er : ([0, 10, 20, 21] : List ℚ).map fin = [fin 0, fin 10, fin 20, fin 21] := rfl
  have ep : ([1, 3 / 5, 1 / 10, 1 / 20] : List ℚ).map fin = [fin 1, fin (3 / 5), fin (1 / 10), fin (1 / 20)] := rfl
  rw [er] at hm1 hu1 hl1'
  rw [ep] at hm1
  simp only [setItem0, Except.bind_ok, List.map_cons, List.map_nil]
  rw [hm1]
  simp only [Except.bind_ok]
  rw [hm2]
  simp only [Except.bind_ok, isNaN, Bool.false_eq_true, if_false]
  rw [zu, zl]
  simp only [Except.bind_ok]
  rw [hu1, hl1']
  simp only [Except.bind_ok]
  rw [hu2', hl2']
  simp only [Except.bind_ok]
  rw [fin_sub, fin_div_of_ne _ (by norm_num)]

end Verif.Props

import Verif.Lemmas.SplineBound
import Mathlib.Analysis.SpecificLimits.Basic

/-!
# C142: how far the default interpolation overshoots, and how far a bad aperture reaches
-/

set_option linter.unusedSectionVars false
set_option linter.unusedVariables false

namespace Verif.Props

open F Spec

variable {K : Type} [Field K] [LinearOrder K] [IsStrictOrderedRing K]

/-- **C142, overshoot.** The default cubic interpolation on radii whose gaps are all between `g` and `ρ g` (the outermost gaps at most `ρe` times
the ones next to them). If neighbouring values differ by at most `δ` on a range of segments and by at most `B` anywhere, then `k` segments
inside this range the interpolant leaves the interval of the two data values around the query by at most
`ρ² (1 + 2 ρe) (1 + ρe) (δ + (ρe / (ρe + 1))^k B)`. -/
theorem C142_overshoot {ρ ρe : K} (hρ : 1 ≤ ρe) :
    Tame ρ ρe (ρ ^ 2 * (1 + 2 * ρe) * (1 + ρe)) (ρe / (ρe + 1)) (cubicInterp : Interp K) := cubic_tame hρ

theorem NotAKnot.sub {n : Nat} {x y y' M M' : Nat → K} (h : NotAKnot n x y M) (h' : NotAKnot n x y' M') :
    NotAKnot n x (fun i => y i - y' i) (fun i => M i - M' i) := by
  refine ⟨fun i hi => ?_, ?_, fun k hk => ?_⟩
  · linear_combination h.cont i hi - h'.cont i hi
  · linear_combination h.first - h'.first
  · linear_combination h.last k hk - h'.last k hk

/-- The spline through the differences is the difference of the splines. -/
theorem cubic_sub {xs ys ys' : List K} (hl : xs.length = ys.length) (hl' : xs.length = ys'.length) (hm : 4 ≤ xs.length) (hx : Incr xs) {q v v' : K}
    (h : cubicInterp (xs.map fin) (ys.map fin) (fin q) = .ok (fin v)) (h' : cubicInterp (xs.map fin) (ys'.map fin) (fin q) = .ok (fin v')) :
    cubicInterp (xs.map fin) ((List.zipWith (· - ·) ys ys').map fin) (fin q) = .ok (fin (v - v')) := by
  obtain ⟨M, hM⟩ := NotAKnot.exists hm (seqOf xs) (seqOf ys) (seqOf_incr hx)
  obtain ⟨M', hM'⟩ := NotAKnot.exists hm (seqOf xs) (seqOf ys') (seqOf_incr hx)
  have e : (fun i => seqOf ys i - seqOf ys' i) = seqOf (List.zipWith (· - ·) ys ys') := by
    funext i
    unfold seqOf
    rcases Nat.lt_or_ge i xs.length with hi | hi
    · have h1 : i < ys.length := by omega
      have h2 : i < ys'.length := by omega
      simp [h1, h2]
    · have h1 : ¬ i < ys.length := by omega
      have h2 : ¬ i < ys'.length := by omega
      simp [h1, h2]
  have hD := NotAKnot.sub hM hM'
  rw [e] at hD
  rw [cubic_value hl hm hx hM] at h
  rw [cubic_value hl' hm hx hM'] at h'
  rw [cubic_value (by simp; omega) hm hx hD]
  cases hf : (List.range (xs.length - 1)).find? (fun i => decide (seqOf xs i ≤ q ∧ q ≤ seqOf xs (i + 1))) with
  | none => rw [hf] at h; cases h
  | some i =>
    rw [hf] at h h'
    dsimp only at h h' ⊢
    injection h with h
    injection h with h
    injection h' with h'
    injection h' with h'
    rw [← h, ← h', ← e]
    congr 2
    unfold segCubic
    ring

/-- **C142, influence.** Two curves on the same radii (as above), no two values of which differ by more than `B`, and which differ by at most
`η` on a range of apertures: `k` segments inside this range the interpolated curves differ by at most
`η + 2 ρ² (1 + 2 ρe) (1 + ρe) (η + (ρe / (ρe + 1))^k B)`, so the influence of a bad aperture dies out geometrically. -/
theorem C142_influence {ρ ρe : K} (hρ : 1 ≤ ρe) {xs ys ys' : List K} (hl : xs.length = ys.length) (hl' : xs.length = ys'.length) (hm : 4 ≤ xs.length)
    {g : K} (hg : 0 < g) (hgap : ∀ i (h : i + 1 < xs.length), g ≤ xs[i + 1] - xs[i] ∧ xs[i + 1] - xs[i] ≤ ρ * g)
    (hf0 : xs[1] - xs[0] ≤ ρe * (xs[2] - xs[1])) (hl0 : ∀ k (h : xs.length = k + 3), xs[k + 2] - xs[k + 1] ≤ ρe * (xs[k + 1] - xs[k]))
    {η B : K} (hB : ∀ i (h : i < xs.length), |ys[i] - ys'[i]| ≤ B) {L H k : Nat}
    (hη : ∀ i (h : i < xs.length), L ≤ i → i ≤ H + 1 → |ys[i] - ys'[i]| ≤ η) {j : Nat} (h : j + 1 < xs.length) {q : K} (hq : xs[j] ≤ q)
    (hq' : q ≤ xs[j + 1]) (h1 : L ≤ j) (h2 : j ≤ H) (h3 : L = 0 ∨ L + k + 2 ≤ j) (h4 : xs.length ≤ H + 2 ∨ j + k + 2 ≤ H) :
    ∃ v v', cubicInterp (xs.map fin) (ys.map fin) (fin q) = .ok (fin v) ∧ cubicInterp (xs.map fin) (ys'.map fin) (fin q) = .ok (fin v') ∧
      |v - v'| ≤ η + 2 * (ρ ^ 2 * (1 + 2 * ρe) * (1 + ρe)) * (η + (ρe / (ρe + 1)) ^ k * B) := by
  have hinc : Incr xs := by
    unfold Incr
    rw [← List.isChain_iff_pairwise, List.isChain_iff_getElem]
    intro i hi
    have := (hgap i hi).1
    linarith
  have hr : InRange xs q := ⟨⟨_, List.getElem_mem _, hq⟩, _, List.getElem_mem _, hq'⟩
  obtain ⟨v, hv⟩ := cubic_lawful.total xs ys hl hm hinc q hr
  obtain ⟨v', hv'⟩ := cubic_lawful.total xs ys' hl' hm hinc q hr
  refine ⟨v, v', hv, hv', ?_⟩
  have hs := cubic_sub hl hl' hm hinc hv hv'
  have hzv : ∀ i (hi : i < (List.zipWith (· - ·) ys ys').length), (List.zipWith (· - ·) ys ys')[i] = ys[i]'(by simp at hi; omega) - ys'[i]'(by simp at hi; omega) := by
    intro i hi; simp
  have hzl : xs.length = (List.zipWith (· - ·) ys ys').length := by simp; omega
  have hzv : ∀ zs, zs = List.zipWith (· - ·) ys ys' → ∀ i (hi : i < zs.length) (h1 : i < ys.length) (h2 : i < ys'.length), zs[i] = ys[i] - ys'[i] := by
    rintro zs rfl i hi h1 h2; exact hzv i hi
  obtain ⟨zs, hzs⟩ : ∃ zs, zs = List.zipWith (· - ·) ys ys' := ⟨_, rfl⟩
  have hzv := hzv zs hzs
  rw [← hzs] at hs hzl
  have jump : ∀ {a b c : K}, |a| ≤ c → |b| ≤ c → |a - b| ≤ 2 * c := fun ha hb => (abs_sub _ _).trans (by linarith)
  obtain ⟨w, hw, w1, w2⟩ := C142_overshoot (ρ := ρ) hρ xs zs hzl hm g hg hgap (fun _ => hf0) hl0 (2 * η) (2 * B)
    (fun i hi => by
      rw [hzv _ hi (by omega) (by omega), hzv i (by omega) (by omega) (by omega)]
      exact jump (hB _ (by omega)) (hB _ (by omega)))
    L H k
    (fun i hi a b => by
      rw [hzv _ hi (by omega) (by omega), hzv i (by omega) (by omega) (by omega)]
      exact jump (hη _ (by omega) (by omega) (by omega)) (hη _ (by omega) (by omega) (by omega)))
    j h q hq hq' h1 h2 h3 h4
  rw [hs] at hw
  injection hw with hw
  injection hw with hw
  rw [hw]
  have z1 := abs_le.1 (hη j (by omega) h1 (by omega))
  have z2 := abs_le.1 (hη (j + 1) h (by omega) (by omega))
  rw [← hzv j (by omega) (by omega) (by omega)] at z1
  rw [← hzv (j + 1) (by omega) (by omega) (by omega)] at z2
  have m1 := le_min z1.1 z2.1
  have m2 := max_le z1.2 z2.2
  rw [abs_le]
  constructor <;> linarith

/-- The influence of a bad aperture dies out: for any number of digits there is a number of apertures. -/
theorem C142_dies {ρe : ℝ} (hρ : 1 ≤ ρe) (C B : ℝ) {ε : ℝ} (hε : 0 < ε) : ∃ k0, ∀ k ≥ k0, C * ((ρe / (ρe + 1)) ^ k * B) < ε := by
  have h0 : 0 ≤ ρe / (ρe + 1) := by positivity
  have h1 : ρe / (ρe + 1) < 1 := by rw [div_lt_one (by linarith)]; linarith
  have ht := ((tendsto_pow_atTop_nhds_zero_of_lt_one h0 h1).mul_const B).const_mul C
  rw [zero_mul, mul_zero] at ht
  obtain ⟨k0, hk⟩ := Filter.eventually_atTop.1 (ht.eventually (gt_mem_nhds hε))
  exact ⟨k0, hk⟩

/-- The default interpolation does leave the interval of the neighbouring data. -/
theorem C142_leaves : ¬ BetweenNodes (cubicInterp : Interp ℚ) := by
  intro h
  obtain ⟨v, hv, _, hv2⟩ := h [0, 1, 2, 3] [0, 0, 0, 1] rfl (by decide) (by unfold Incr; decide +kernel) 0 (by decide) (1 / 2) (by norm_num) (by norm_num)
  have hM : NotAKnot [(0 : ℚ), 1, 2, 3].length (seqOf [0, 1, 2, 3]) (seqOf [(0 : ℚ), 0, 0, 1]) (fun i => (i : ℚ) - 1) := by
    refine ⟨fun i hi => ?_, ?_, fun k hk => ?_⟩
    · have : i = 0 ∨ i = 1 := by simp at hi; omega
      rcases this with rfl | rfl <;> simp [seqOf] <;> norm_num
    · simp [seqOf]
    · obtain rfl : k = 1 := by simp at hk; omega
      simp [seqOf]; norm_num
  rw [cubic_value (by rfl) (by decide) (by unfold Incr; decide +kernel) hM] at hv
  have hf : (List.range ([(0 : ℚ), 1, 2, 3].length - 1)).find? (fun i => decide (seqOf [(0 : ℚ), 1, 2, 3] i ≤ 1 / 2 ∧ (1 : ℚ) / 2 ≤ seqOf [(0 : ℚ), 1, 2, 3] (i + 1))) =
      some 0 := by decide +kernel
  rw [hf] at hv
  simp only [segCubic, seqOf] at hv
  injection hv with hv
  injection hv with hv
  simp at hv hv2
  norm_num at hv
  linarith

/-- A spike of height 1 in the eighth of nine apertures (unit spacing) moves the interpolated curve in the first segment by at most 3/2. -/
example : ∃ v v', cubicInterp ([0, 1, 2, 3, 4, 5, 6, 7, 8].map fin) ([0, 0, 0, 0, 0, 0, 0, 1, 0].map fin) (fin (1 / 2 : ℚ)) = .ok (fin v) ∧
    cubicInterp ([0, 1, 2, 3, 4, 5, 6, 7, 8].map fin) ([0, 0, 0, 0, 0, 0, 0, 0, 0].map fin) (fin (1 / 2 : ℚ)) = .ok (fin v') ∧ |v - v'| ≤ 3 / 2 := by
  obtain ⟨v, v', h1, h2, h3⟩ := C142_influence (K := ℚ) (ρ := 1) (ρe := 1) le_rfl (xs := [0, 1, 2, 3, 4, 5, 6, 7, 8]) (ys := [0, 0, 0, 0, 0, 0, 0, 1, 0])
    (ys' := [0, 0, 0, 0, 0, 0, 0, 0, 0]) rfl rfl (by decide) (g := 1) one_pos
    (by
      intro i h
      have : i < 8 := by simp at h; omega
      interval_cases i <;> norm_num) (by decide +kernel)
    (by
      intro k h
      obtain rfl : k = 6 := by simp at h; omega
      norm_num) (η := 0) (B := 1) (by decide +kernel) (L := 0) (H := 5) (k := 3)
    (by decide +kernel) (j := 0) (by decide) (q := 1 / 2) (by decide +kernel) (by decide +kernel) le_rfl (by decide) (Or.inl rfl) (Or.inr (by decide))
  exact ⟨v, v', h1, h2, h3.trans (by norm_num)⟩

end Verif.Props

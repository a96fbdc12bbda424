import Verif.Props.RoundingImage
import Verif.Lemmas.SplineBound

/-!
# C148: the conditions can be met, in binary arithmetic with enough bits
-/

set_option linter.unusedSectionVars false
set_option linter.unusedVariables false

namespace Verif.Props

open Verif F Spec Lemmas MeasureTheory Real

/-- A gentle interpolant whose value is rounded at the end. -/
theorem gentle_rounded {K : Type} [Field K] [LinearOrder K] [IsStrictOrderedRing K] {ρ C : K} (hC : 0 ≤ C) {I : Interp K} (hI : Gentle ρ C I)
    {fl : K → K} {u : K} (hu : RelErr u fl) (hu0 : 0 ≤ u) : GentleR ρ C (u * (1 + 2 * C)) fun x y q => (I x y q).map (F.rnd fl) := by
  intro xs ys hl hm g hg hgap δ B hδ hB j hj q h1 h2
  have hy : ∀ i (hi : i < ys.length), |ys[i]| ≤ B := fun i hi => hB _ (List.getElem_mem hi)
  have hB0 : 0 ≤ B := (abs_nonneg _).trans (hy j (by omega))
  obtain ⟨v, hv, v1, v2⟩ := hI xs ys hl hm g hg hgap (min δ (2 * B)) (fun i hi => le_min (hδ i hi) (by
    have a := abs_le.1 (hy i (by omega))
    have b := abs_le.1 (hy (i + 1) hi)
    rw [abs_le]; constructor <;> linarith [a.1, a.2, b.1, b.2])) j hj q h1 h2
  refine ⟨fl v, by dsimp only; rw [hv]; rfl, ?_⟩
  have a := abs_le.1 (hy j (by omega))
  have b := abs_le.1 (hy (j + 1) (by omega))
  have hm1 : C * min δ (2 * B) ≤ C * δ := mul_le_mul_of_nonneg_left (min_le_left _ _) hC
  have hm2 : C * min δ (2 * B) ≤ C * (2 * B) := mul_le_mul_of_nonneg_left (min_le_right _ _) hC
  have lo : -B ≤ min ys[j] ys[j + 1] := le_min a.1 b.1
  have hi : max ys[j] ys[j + 1] ≤ B := max_le a.2 b.2
  have hv' : |v| ≤ (1 + 2 * C) * B := by rw [abs_le]; constructor <;> linarith
  have h3 := abs_le.1 ((hu v).trans (mul_le_mul_of_nonneg_left hv' hu0))
  constructor <;> linarith [h3.1, h3.2]

/-- A circular aperture well inside a square frame. -/
theorem circle_onFrame {H : Nat} {r : ℝ} (hr : 0 < r) (hH : r ≤ H) : OnFrame (⟨(H : ℝ), (H : ℝ), r, r * (1 - 0), 0⟩ : Ellipse ℝ).set (2 * H + 1) (2 * H + 1) := by
  intro p hp
  have hp : (((p.1 - H) * Real.cos 0 + (p.2 - H) * Real.sin 0) / r) ^ 2 + (((p.2 - H) * Real.cos 0 - (p.1 - H) * Real.sin 0) / (r * (1 - 0))) ^ 2 < 1 := hp
  rw [Real.cos_zero, Real.sin_zero, mul_zero, mul_zero, mul_one, mul_one, add_zero, sub_zero, sub_zero, mul_one, div_pow, div_pow, ← add_div,
    div_lt_one (by positivity)] at hp
  have h1 := abs_lt.1 (abs_lt_of_sq_lt_sq (show (p.1 - H) ^ 2 < r ^ 2 by nlinarith [sq_nonneg (p.2 - H)]) hr.le)
  have h2 := abs_lt.1 (abs_lt_of_sq_lt_sq (show (p.2 - H) ^ 2 < r ^ 2 by nlinarith [sq_nonneg (p.1 - H)]) hr.le)
  push_cast
  refine ⟨?_, ?_, ?_, ?_⟩ <;> linarith [h1.1, h1.2, h2.1, h2.2]

/-- Circular apertures with representable radii, exact weights and the true centre have no error of their own. -/
theorem exact_apertures {fl : ℝ → ℝ} {s : ℝ} (hs : 0 < s) {R : List ℝ} {H : Nat} (hR : ∀ r ∈ R, 0 < r ∧ s * r ≤ H ∧ fl (s * r) = s * r) :
    GoodApertures fl exactOverlap s H H 0 0 H H 1 0 0 (2 * H + 1) (2 * H + 1) R where
  nonneg := fun e i j => ENNReal.toReal_nonneg
  long := one_pos
  frame := fun r hr => circle_onFrame (mul_pos hs (hR r hr).1) (hR r hr).2.1
  hits := by
    intro r hr
    obtain ⟨h1, h2, h3⟩ := hR r hr
    have hsr := mul_pos hs h1
    have hf := circle_onFrame hsr h2
    rw [sub_zero, mul_one] at hf
    rw [div_one, h3]
    by_contra hno
    have hsum := weightedSum_onFrame ⟨(H : ℝ), (H : ℝ), s * r, s * r, 0⟩ hsr hsr _ _ hf 1
    have hle : weightedSum (exactOverlap.weight ⟨(H : ℝ), (H : ℝ), s * r, s * r, 0⟩) (2 * H + 1) (2 * H + 1) (fun _ _ => true) (fun _ _ => 1) ≤ 0 := by
      unfold weightedSum
      refine Finset.sum_nonpos fun i hi => Finset.sum_nonpos fun j hj => ?_
      simp only [if_true, one_mul]
      by_contra hlt
      exact hno (exactOverlap_law.hits_of_pos _ _ _ i j hsr hsr (Finset.mem_range.1 hi) (Finset.mem_range.1 hj) (not_le.1 hlt))
    have : 0 < 1 * (π * (s * r) * (s * r)) := by positivity
    linarith
  close := by
    intro r hr
    rw [div_one, (hR r hr).2.2, sub_zero, mul_one]
    unfold weightError
    simp

/-- Radii `g, 2 g, …, N g`. -/
def evenList (g : ℝ) (N : Nat) : List ℝ := (List.range N).map fun j => ((j + 1 : Nat) : ℝ) * g

theorem evenList_length (g : ℝ) (N : Nat) : (evenList g N).length = N := by simp [evenList]

theorem evenList_get (g : ℝ) (N i : Nat) (h : i < (evenList g N).length) : (evenList g N)[i] = ((i + 1 : Nat) : ℝ) * g := by simp [evenList]

theorem evenList_fine {g δ : ℝ} (hg : 0 < g) (hδ : g ≤ δ) {N : Nat} (hN : 3 ≤ N) : Fine δ (evenList g N) where
  three := by rw [evenList_length]; exact hN
  first := fun h => by
    rw [evenList_get]; push_cast; constructor <;> linarith
  step := fun i h => by
    rw [evenList_get, evenList_get]; push_cast; constructor <;> linarith

theorem evenList_even {g : ℝ} (hg : 0 < g) (N : Nat) : EvenRadii 2 (evenList g N) := by
  refine ⟨g, hg, fun i h => ?_, fun h => ?_⟩
  · rw [evenList_get, evenList_get]; push_cast; constructor <;> linarith
  · rw [evenList_get]; push_cast; linarith

variable {I : ℝ → ℝ}

/-- The cubic interpolation with values rounded to `p` bits. -/
noncomputable def cubicBits (p : Nat) : InterpFam ℝ := fun _ x y q => (cubicInterp x y q).map (F.rnd (flBits p))

/-- A sampled circular galaxy with pixel values rounded to `p` bits. -/
noncomputable def imageBits (I : ℝ → ℝ) (p H : Nat) (s : ℝ) : Img (F ℝ) :=
  ⟨2 * H + 1, 2 * H + 1, fun i j => fin (flBits p (I (ellRadius j i H H 0 0 / s)))⟩

set_option maxHeartbeats 1000000 in
/-- **C148, attained.** For every galaxy and every `ε` there are a scale, a frame, a list of radii and a number of bits such that, with that many
bits or more, the whole recipe carried out in binary arithmetic on the rounded image (pixel values, sums, areas, profile, spline values, grid) gives
the Petrosian radius and the fraction radius to `ε`. -/
theorem C148_attained (G : Galaxy I) {eta frac eps epsf rP rF : ℝ} (heps : 0 < eps) (hepsf : epsf ≠ 0) (hrP : 0 < rP) (hrF : 0 < rF)
    (hP : petroRatio I rP = eta) (hF : enclosed I 1 rF = frac / epsf * enclosed I 1 (eps * rP)) {ε : ℝ} (hε : 0 < ε) (num : Nat) :
    ∃ s > 0, ∃ g > 0, ∃ H N p0 : Nat, ∀ p ≥ p0,
      ∃ flux area err prof rp rf,
        radialPhotometryR (flBits p) exactOverlap (imageBits I p H s) H H ((evenList g N).map fun r => s * r) none none 1 0 = .ok (flux, area, err) ∧
        calculatePetrosianFl (flBits p) area flux = .ok prof ∧
        calculatePetrosianRR (flBits p) (cubicBits p) ((evenList g N).map fun x => fin (s * x)) prof (fin eta) (some "cubic") num = .ok (fin (s * rp)) ∧
        |rp - rP| ≤ ε ∧
        fractionToRR (flBits p) (cubicBits p) (fin frac) ((evenList g N).map fun x => fin (s * x)) flux (fin (s * rp)) (fin eps) (fin epsf)
          (some "cubic") num = .ok (fin (s * rf)) ∧ |rf - rF| ≤ ε := by
  have hpi := Real.pi_pos
  have hI0 : 0 < I 0 := G.pos 0 le_rfl
  set M := max rP (max rF (eps * rP)) + ε with hM
  have m1 : rP + ε ≤ M := by have := le_max_left rP (max rF (eps * rP)); linarith
  have m2 : rF + ε ≤ M := by have := (le_max_left rF (eps * rP)).trans (le_max_right rP (max rF (eps * rP))); linarith
  have m3 : eps * rP + ε ≤ M := by have := (le_max_right rF (eps * rP)).trans (le_max_right rP (max rF (eps * rP))); linarith
  have hM0 : 0 < M := by linarith
  set C : ℝ := 2 * tameFactor 2 2 with hC
  have hC0 : 0 ≤ C := by rw [hC]; unfold tameFactor; norm_num
  obtain ⟨δ, hδ, s0, hs0, c0, hc0, hall⟩ := C148_image G (ellip := 0) le_rfl one_pos heps hepsf hrP hrF hP (by rw [sub_zero]; exact hF) hε
    (T := M + 4) (by linarith) (by linarith) (by linarith) 2 C
  -- the spacing of the radii
  obtain ⟨m, hm⟩ := exists_pow_lt_of_lt_one (show 0 < min δ 1 from lt_min hδ one_pos) (show (1 / 2 : ℝ) < 1 by norm_num)
  set g : ℝ := (1 / 2) ^ m with hg
  have hg0 : 0 < g := by positivity
  have hgδ : g ≤ δ := hm.le.trans (min_le_left _ _)
  have hg1 : g ≤ 1 := hm.le.trans (min_le_right _ _)
  set N := ⌈M / g⌉₊ + 3 with hN
  have n1 : M ≤ (N : ℝ) * g := by
    have h1 := Nat.le_ceil (M / g)
    rw [div_le_iff₀ hg0] at h1
    rw [hN]; push_cast
    linarith
  have n2 : (N : ℝ) * g ≤ M + 4 := by
    have h1 := (Nat.ceil_lt_add_one (div_pos hM0 hg0).le).le
    have h2 := mul_le_mul_of_nonneg_right h1 hg0.le
    rw [add_mul, div_mul_cancel₀ _ hg0.ne'] at h2
    rw [hN]; push_cast
    linarith
  -- the scale
  obtain ⟨a, ha⟩ := pow_unbounded_of_one_lt (max s0 (1 / (c0 * (π * g ^ 2)))) (show (1 : ℝ) < 2 by norm_num)
  set s : ℝ := 2 ^ a with hs
  have hs1 : 1 ≤ s := one_le_pow₀ (by norm_num)
  have hsp : 0 < s := by linarith
  have hss : s0 ≤ s := (le_max_left _ _).trans ha.le
  have hsg : 1 ≤ c0 * (π * (s * g) ^ 2) := by
    have h1 := (le_max_right s0 (1 / (c0 * (π * g ^ 2)))).trans ha.le
    rw [div_le_iff₀ (by positivity)] at h1
    have h2 : s ≤ s ^ 2 := by nlinarith
    have h3 := mul_le_mul_of_nonneg_right h2 (show 0 ≤ c0 * (π * g ^ 2) by positivity)
    calc (1 : ℝ) ≤ s * (c0 * (π * g ^ 2)) := h1
      _ ≤ s ^ 2 * (c0 * (π * g ^ 2)) := h3
      _ = c0 * (π * (s * g) ^ 2) := by ring
  -- the frame
  set H := ⌈s * (M + 4)⌉₊ with hH
  have hH1 : s * (M + 4) ≤ H := Nat.le_ceil _
  set P := 28 + Nat.log 2 ((2 * H + 1) * (2 * H + 1) - 15) with hPdef
  -- the bits
  have hlim : Filter.Tendsto (fun p : Nat => (1 / 2 : ℝ) ^ p) Filter.atTop (nhds 0) := tendsto_pow_atTop_nhds_zero_of_lt_one (by norm_num) (by norm_num)
  have small : ∀ (φ : ℝ → ℝ) (b : ℝ), Continuous φ → φ 0 < b → ∀ᶠ p : Nat in Filter.atTop, φ ((1 / 2 : ℝ) ^ p) ≤ b := by
    intro φ b hφ hb
    have := (hφ.tendsto 0).comp hlim
    exact (this.eventually_lt_const hb).mono fun p h => h.le
  have ev := (small (fun u => u) c0 (by fun_prop) (by simpa using hc0)).and
    ((small (fun u => 4 * u * ((max num N : Nat) : ℝ)) 1 (by fun_prop) (by simp)).and
    ((small (fun u => u * I 0) c0 (by fun_prop) (by simpa using hc0)).and
    ((small (fun u => u * (1 + 2 * C)) c0 (by fun_prop) (by simpa using hc0)).and
    ((small (fun u => ((1 + u) ^ P - 1) * (π * (s * (M + 4)) ^ 2)) (1 / 2) (by fun_prop) (by simp)).and
    ((small (fun u => u * N) 1 (by fun_prop) (by simp)).and (Filter.eventually_ge_atTop 1))))))
  obtain ⟨p0, hp0⟩ := Filter.eventually_atTop.1 ev
  refine ⟨s, hsp, g, hg0, H, N, p0, fun p hp => ?_⟩
  obtain ⟨u1, u2, u3, u4, u5, u6, u7⟩ := hp0 p hp
  have hup : (2 : ℝ) ^ (-(p : ℤ)) = (1 / 2) ^ p := by rw [zpow_neg, zpow_natCast, one_div, inv_pow]
  set u : ℝ := (1 / 2) ^ p with hu
  have hu0 : 0 ≤ u := by positivity
  have hrel : RelErr u (flBits p : ℝ → ℝ) := by rw [← hup]; exact flBits_relErr p u7
  have hNp : (N : ℤ) ≤ 2 ^ p := by
    have h1 : (N : ℝ) ≤ 2 ^ p := by
      have h2 := mul_le_mul_of_nonneg_right u6 (show (0 : ℝ) ≤ 2 ^ p by positivity)
      have h3 : u * 2 ^ p = 1 := by rw [hu, ← mul_pow]; norm_num
      calc (N : ℝ) = (u * 2 ^ p) * N := by rw [h3, one_mul]
        _ = u * N * 2 ^ p := by ring
        _ ≤ 2 ^ p := by rw [one_mul] at h2; exact h2
    exact_mod_cast h1
  -- the radii
  have hget := fun i (hi : i < N) => evenList_get g N i (by rw [evenList_length]; exact hi)
  have hrad : ∀ r ∈ evenList g N, 0 < r ∧ r ≤ M + 4 ∧ flBits p (s * r) = s * r := by
    intro r hr
    obtain ⟨j, hj, rfl⟩ := List.mem_map.1 hr
    rw [List.mem_range] at hj
    have hj1 : ((j + 1 : Nat) : ℝ) ≤ N := by exact_mod_cast hj
    refine ⟨by positivity, (mul_le_mul_of_nonneg_right hj1 hg0.le).trans n2, ?_⟩
    have e : s * (((j + 1 : Nat) : ℝ) * g) = (((j + 1 : Nat) : ℤ) : ℝ) * (2 : ℝ) ^ ((a : ℤ) - (m : ℤ)) := by
      rw [zpow_sub₀ (by norm_num), zpow_natCast, zpow_natCast, hs, hg, one_div, inv_pow, Int.cast_natCast]
      field_simp
    rw [e]
    exact flBits_repr p u7 _ (by rw [abs_of_nonneg (by positivity)]; omega) _
  have hcov : ∀ x, x ≤ M → Covers (evenList g N) x := by
    intro x hx
    refine ⟨((N - 1 + 1 : Nat) : ℝ) * g, List.mem_map.2 ⟨N - 1, List.mem_range.2 (by omega), rfl⟩, ?_⟩
    rw [Nat.sub_add_cancel (by omega)]
    linarith
  have hpix : ∀ i j : Nat, i < 2 * H + 1 → j < 2 * H + 1 →
      |flBits p (I (ellRadius j i H H 0 0 / s)) - I (ellRadius j i H H 0 0 / s)| ≤ c0 := by
    intro i j _ _
    have hx : 0 ≤ ellRadius j i H H 0 0 / s := div_nonneg (ellRadius_nonneg _ _ _ _ _ _) hsp.le
    have h1 := hrel (I (ellRadius j i H H 0 0 / s))
    rw [abs_of_pos (G.pos _ hx)] at h1
    have h2 : I (ellRadius j i H H 0 0 / s) ≤ I 0 := G.falls.antitoneOn (Set.mem_Ici.2 le_rfl) (Set.mem_Ici.2 hx) hx
    exact h1.trans ((mul_le_mul_of_nonneg_left h2 hu0).trans u3)
  have hphot : ∀ i (hi : i < N), photError u (2 * H + 1) (2 * H + 1) (π * (1 - 0) * (s * (((i + 1 : Nat) : ℝ) * g)) ^ 2) 0 ≤
      c0 * (π * (s * g) ^ 2) := by
    intro i hi
    have hj1 : ((i + 1 : Nat) : ℝ) ≤ N := by exact_mod_cast hi
    have h1 : s * (((i + 1 : Nat) : ℝ) * g) ≤ s * (M + 4) := mul_le_mul_of_nonneg_left ((mul_le_mul_of_nonneg_right hj1 hg0.le).trans n2) hsp.le
    have h2 : (s * (((i + 1 : Nat) : ℝ) * g)) ^ 2 ≤ (s * (M + 4)) ^ 2 := pow_le_pow_left₀ (by positivity) h1 2
    have h3 : (0 : ℝ) ≤ (1 + u) ^ P - 1 := sub_nonneg.2 (one_le_pow₀ (by linarith))
    have h4 := mul_le_mul_of_nonneg_left (mul_le_mul_of_nonneg_left h2 hpi.le) h3
    unfold photError
    rw [sub_zero, mul_one, add_zero, add_zero]
    have : (1 : ℝ) / 10 ^ 6 ≤ 1 / 2 := by norm_num
    linarith
  have hroom : Roomy c0 u (1 - 0) s 0 (2 * H + 1) (2 * H + 1) (evenList g N) := by
    refine ⟨fun h0 => ?_, fun i hi => ?_⟩
    · rw [evenList_get]
      refine (hphot 0 (by omega)).trans (le_of_eq ?_)
      push_cast
      ring
    · rw [evenList_length] at hi
      rw [evenList_get, evenList_get]
      refine (hphot (i + 1) hi).trans (mul_le_mul_of_nonneg_left ?_ hc0.le)
      push_cast
      have h1 : 0 ≤ π * (s * g) ^ 2 * (2 * (i : ℝ) + 2) := by positivity
      have e : π * (1 - 0) * (s * (((i : ℝ) + 1 + 1) * g)) ^ 2 - π * (1 - 0) * (s * (((i : ℝ) + 1) * g)) ^ 2 =
        π * (s * g) ^ 2 + π * (s * g) ^ 2 * (2 * (i : ℝ) + 2) := by ring
      rw [e]
      linarith
  exact hall s hss (flBits p) u (flBits_rounding p u7) hrel hu0 u1 (evenList g N) (evenList_fine hg0 hgδ (by omega)) (evenList_even hg0 N)
    (fun r hr => ⟨(hrad r hr).2.1, (hrad r hr).2.2⟩) (hcov _ m1) (hcov _ m2) (hcov _ m3) (2 * H + 1) (2 * H + 1) H H 0 _ hpix exactOverlap H H 1 0 0
    (exact_apertures hsp fun r hr => ⟨(hrad r hr).1, (mul_le_mul_of_nonneg_left (hrad r hr).2.1 hsp.le).trans hH1, (hrad r hr).2.2⟩) hroom
    (cubicBits p) "cubic" num (u * (1 + 2 * C)) (by rw [evenList_length]; exact u2) (by positivity) u4
    (gentle_rounded hC0 (cubic_gentle (by norm_num)) hrel hu0)

/-- A case: the half-light radius of a Sersic profile, with 5000 points. -/
example {n rP rF eta : ℝ} (hn : 0 < n) (hrP : 0 < rP) (hrF : 0 < rF) (hP : petroRatio (sersic (bn n) 1 1 n) rP = eta)
    (hF : enclosed (sersic (bn n) 1 1 n) 1 rF = 1 / 2 / 1 * enclosed (sersic (bn n) 1 1 n) 1 (2 * rP)) :
    ∃ s > 0, ∃ g > 0, ∃ H N p : Nat, ∃ flux area err prof rp rf,
      radialPhotometryR (flBits p) exactOverlap (imageBits (sersic (bn n) 1 1 n) p H s) H H ((evenList g N).map fun r => s * r) none none 1 0 =
        .ok (flux, area, err) ∧
      calculatePetrosianFl (flBits p) area flux = .ok prof ∧
      calculatePetrosianRR (flBits p) (cubicBits p) ((evenList g N).map fun x => fin (s * x)) prof (fin eta) (some "cubic") 5000 = .ok (fin (s * rp)) ∧
      |rp - rP| ≤ 1 / 100 ∧
      fractionToRR (flBits p) (cubicBits p) (fin (1 / 2)) ((evenList g N).map fun x => fin (s * x)) flux (fin (s * rp)) (fin 2) (fin 1)
        (some "cubic") 5000 = .ok (fin (s * rf)) ∧ |rf - rF| ≤ 1 / 100 := by
  obtain ⟨s, hs, g, hg, H, N, p0, h⟩ := C148_attained (sersic_galaxy (amplitude := 1) (rEff := 1) one_pos hn one_pos) two_pos one_ne_zero hrP hrF hP hF
    (ε := 1 / 100) (by norm_num) 5000
  exact ⟨s, hs, g, hg, H, N, p0, h p0 le_rfl⟩

end Verif.Props

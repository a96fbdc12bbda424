import Verif.Lemmas.SimulationLists
import Verif.Lemmas.TameCalm
import Verif.Props.CubicRadius

/-!
# The Petrosian profiles of the simulations behind the correction grid
-/

set_option linter.unusedSectionVars false
set_option linter.unusedVariables false

namespace Verif.Props

open F Spec Lemmas Real Filter Topology

theorem gridProfile_zero {n : ℝ} (hn : 0 < n) : gridProfile n 0 = 100 := by
  have := (C105_truth hn one_pos).1
  rw [sim_profile one_pos, zero_div] at this
  exact this

/-- The flux in an aperture grows with the aperture. -/
theorem imageSum_mono {px : Nat → Nat → ℝ} (cx cy : ℝ) (h w : Nat) (h0 : ∀ i j, i < h → j < w → 0 ≤ px i j) {a b : ℝ} (ha : 0 < a) (hab : a ≤ b) :
    imageSum px cx cy 0 0 h w a ≤ imageSum px cx cy 0 0 h w b := by
  unfold imageSum
  rw [sub_zero, mul_one, mul_one]
  apply weightedSum_mono
  · intro i j _ _
    have := exactOverlap_law.nested cx cy 1 0 a b i j one_pos ha hab
    simpa only [div_one] using this
  · intro i j hi hj _
    exact h0 i j hi hj

/-- The flux between two apertures is at most the brightest pixel times the area between them. -/
theorem imageSum_le_area {px : Nat → Nat → ℝ} (cx cy : ℝ) (h w : Nat) {M : ℝ} (hM : ∀ i j, i < h → j < w → px i j ≤ M) {a b : ℝ} (ha : 0 < a)
    (hab : a ≤ b) :
    imageSum px cx cy 0 0 h w b - imageSum px cx cy 0 0 h w a ≤
      M * (weightedSum (exactOverlap.weight ⟨cx, cy, b, b, 0⟩) h w (fun _ _ => true) (fun _ _ => (1 : ℝ)) -
        weightedSum (exactOverlap.weight ⟨cx, cy, a, a, 0⟩) h w (fun _ _ => true) fun _ _ => (1 : ℝ)) := by
  have hm := weightedSum_mono (wt := exactOverlap.weight ⟨cx, cy, a, a, 0⟩) (wt' := exactOverlap.weight ⟨cx, cy, b, b, 0⟩) (h := h) (w := w)
    (use := fun _ _ => true) (f := fun i j => M - px i j)
    (fun i j _ _ => by
      have := exactOverlap_law.nested cx cy 1 0 a b i j one_pos ha hab
      simpa only [div_one] using this)
    (fun i j hi hj _ => sub_nonneg.2 (hM i j hi hj))
  have e : ∀ r : ℝ, weightedSum (exactOverlap.weight ⟨cx, cy, r, r, 0⟩) h w (fun _ _ => true) (fun i j => M - px i j) =
      M * weightedSum (exactOverlap.weight ⟨cx, cy, r, r, 0⟩) h w (fun _ _ => true) (fun _ _ => (1 : ℝ)) - imageSum px cx cy 0 0 h w r := by
    intro r
    unfold imageSum weightedSum
    rw [sub_zero, mul_one, Finset.mul_sum, ← Finset.sum_sub_distrib]
    apply Finset.sum_congr rfl; intro i _
    rw [Finset.mul_sum, ← Finset.sum_sub_distrib]
    apply Finset.sum_congr rfl; intro j _
    simp only [if_true]
    ring
  rw [e, e] at hm
  linarith

/-- The area of an aperture is at most that of the image. -/
theorem area_le_image (cx cy r : ℝ) (h w : Nat) :
    weightedSum (exactOverlap.weight ⟨cx, cy, r, r, 0⟩) h w (fun _ _ => true) (fun _ _ => (1 : ℝ)) ≤ (h : ℝ) * w := by
  unfold weightedSum
  have : (h : ℝ) * w = ∑ i ∈ Finset.range h, ∑ j ∈ Finset.range w, (1 : ℝ) := by simp
  rw [this]
  refine Finset.sum_le_sum fun i _ => Finset.sum_le_sum fun j _ => ?_
  simp only [if_true, one_mul]
  exact exactOverlap_law.le_one _ _ _

/-- Rings between radii at least 1 pixel, 2 pixels apart. -/
theorem pixel_rings {x y : ℝ} (hx : 1 ≤ x) (hxy : x + 2 ≤ y) : 24 ≤ π * (1 - 0) * (y ^ 2 - x ^ 2) ∧ y ≤ π * (1 - 0) * (y ^ 2 - x ^ 2) ∧
    2 ≤ π * (y - 1 / 2) ^ 2 - π * x ^ 2 ∧ 4 * y ≤ π * (y - 1 / 2) ^ 2 := by
  have hp := Real.pi_gt_three
  have h1 : 8 ≤ y ^ 2 - x ^ 2 := by nlinarith
  have h2 : y ≤ y ^ 2 - x ^ 2 := by nlinarith
  have h3 : 1 ≤ (y - 1 / 2) ^ 2 - x ^ 2 := by nlinarith
  have h4 : 2 * y ≤ (y - 1 / 2) ^ 2 := by nlinarith
  rw [sub_zero, mul_one]
  refine ⟨by nlinarith, by nlinarith, by nlinarith, by nlinarith⟩

/-- The ratio of numbers that are only known to be in proportion to the areas. -/
theorem ratio_bounded {Wx Wy Sx Sy m0 : ℝ} (hm0 : 0 < m0) (h1 : 2 ≤ Wy - Wx) (h2 : 4 ≤ m0 * Wy) (h3 : Sx ≤ Sy) (h4 : Sy - Sx ≤ 100 * (Wy - Wx))
    (h5 : m0 * Wy ≤ Sy) (h6 : 4 ≤ Wy) : ∃ v, ratio (round6 Wx) (round6 Sx) (round6 Wy) (round6 Sy) = fin v ∧ |v| ≤ 2 + 202 / m0 := by
  have r1 := abs_le.1 (abs_round6_sub Wx)
  have r2 := abs_le.1 (abs_round6_sub Wy)
  have r3 := abs_le.1 (abs_round6_sub Sx)
  have r4 := abs_le.1 (abs_round6_sub Sy)
  have r5 := round6_mono h3
  norm_num at r1 r2 r3 r4
  generalize round6 Wx = wx at *
  generalize round6 Wy = wy at *
  generalize round6 Sx = sx at *
  generalize round6 Sy = sy at *
  have d1 : 1 ≤ wy - wx := by linarith
  have d2 : sy - sx ≤ 101 * (wy - wx) := by linarith
  have d3 : 0 < sy := by linarith
  have d4 : 0 < wy := by linarith
  have d5 : m0 / 2 * wy ≤ sy := by
    have a1 : m0 / 2 * wy ≤ m0 / 2 * (Wy + 1) := mul_le_mul_of_nonneg_left (by linarith) (by linarith)
    have a2 : m0 / 2 * 4 ≤ m0 / 2 * Wy := mul_le_mul_of_nonneg_left h6 (by linarith)
    linarith
  refine ⟨(sy - sx) / (wy - wx) / (sy / wy), ?_, ?_⟩
  · unfold ratio
    rw [F.fin_div_of_ne _ (by linarith), F.fin_div_of_ne _ d4.ne', F.fin_div_of_ne _ (by positivity)]
  · have e1 : 0 ≤ (sy - sx) / (wy - wx) := div_nonneg (by linarith) (by linarith)
    have e2 : (sy - sx) / (wy - wx) ≤ 101 := by rw [div_le_iff₀ (by linarith)]; exact d2
    have e3 : m0 / 2 ≤ sy / wy := by rw [le_div_iff₀ d4]; exact d5
    have e4 : 0 < sy / wy := by positivity
    rw [abs_of_nonneg (div_nonneg e1 e4.le), div_le_iff₀ e4]
    have e5 : 202 / m0 * (m0 / 2) = 101 := by field_simp; norm_num
    have e6 : 202 / m0 * (m0 / 2) ≤ 202 / m0 * (sy / wy) := mul_le_mul_of_nonneg_left e3 (by positivity)
    linarith

section
variable {n : ℝ} (hn : 0 < n) {cfg : SimSettings} {bl : Nat}
include hn

/-- The largest radius of a simulation in units of `r_eff`. -/
theorem sim_last : ∀ᶠ s in atTop, ∀ R ∈ simRs s n, (R : ℝ) ≤ s * (gridReach n + 1) := by
  filter_upwards [sim_large hn, eventually_ge_atTop 100] with s ⟨h2, h7⟩ hs R hR
  rw [simRs_eq hn h7] at hR
  unfold simRadii at hR
  simp only at hR
  rw [if_pos h2, List.mem_append] at hR
  have hfl := Int.floor_le (s * gridReach n)
  have h0 : 0 ≤ ⌊s * gridReach n⌋ := Int.floor_nonneg.2 (by linarith)
  rcases hR with hR | hR
  · have : R ≤ 201 := by
      simp only [pyRange, List.mem_map, List.mem_range] at hR
      obtain ⟨k, hk, rfl⟩ := hR
      omega
    have : (R : ℝ) ≤ 201 := by exact_mod_cast this
    linarith
  · have : R ≤ ⌊s * gridReach n⌋.toNat + 100 := by
      simp only [pyRange, List.mem_map, List.mem_range] at hR
      obtain ⟨k, hk, rfl⟩ := hR
      omega
    have h3 : (R : ℤ) ≤ ⌊s * gridReach n⌋ + 100 := by omega
    have h4 : (R : ℝ) ≤ ⌊s * gridReach n⌋ + 100 := by exact_mod_cast h3
    linarith

/-- Radii short of the reach stay away from the edge of the image. -/
theorem sim_room {t : ℝ} (ht : t < gridReach n) (m : ℝ) :
    ∀ᶠ s in atTop, ∀ R ∈ simRs s n, (∀ x ∈ simRs s n, x ≤ R) → s * t + m ≤ R := by
  have h1 : (t + gridReach n) / 2 < gridReach n := by linarith
  filter_upwards [sim_reach hn h1, eventually_ge_atTop (m / ((gridReach n - t) / 2))] with s hs hm R hR hmax
  rw [div_le_iff₀ (by linarith)] at hm
  have := (hs R hR hmax).1
  linarith

set_option maxHeartbeats 1000000 in
/-- The Petrosian profile measured on a simulation with large `r_eff`: accurate up to rounding near the centre, as accurate as desired away from
it, and bounded beyond. -/
theorem sim_entries {T' : ℝ} (hT0 : 0 < T') (hT' : T' < gridReach n) : ∃ B0 ≥ 2, ∀ ρ0 > 0, ∀ τ > 0, ∀ᶠ s in atTop, ∀ R A px, SimLists cfg bl s n R A px →
    ∃ pl, calculatePetrosian (A.map fin) ((simFlux s n R px).map fin) none none = .ok (pl, none) ∧ pl.length = (simUnits s n).length ∧
      ∀ i (h : i + 1 < (simUnits s n).length), ∃ v, pl[i + 1]? = some (fin v) ∧ |v| ≤ B0 ∧
        ((simUnits s n)[i + 1] ≤ T' → |v - petroRatio (gridProfile n) (simUnits s n)[i + 1]| ≤ 1 / 2 / 10 ^ 6 ∧
          (ρ0 ≤ (simUnits s n)[i + 1] → |v - petroRatio (gridProfile n) (simUnits s n)[i + 1]| ≤ τ)) := by
  have G := gridProfile_galaxy hn
  have hI0 := gridProfile_zero hn
  have hgr := (rTotal_pos hn).trans (rTotal_lt_reach hn)
  have hE0 : 0 < enclosed (gridProfile n) 1 T' := gal_pos G one_pos hT0
  set m0 := enclosed (gridProfile n) 1 T' / (16 * (gridReach n + 1) ^ 2) with hm0
  have hm0p : 0 < m0 := by positivity
  have hbl0 : (0 : ℝ) ≤ bl := Nat.cast_nonneg _
  refine ⟨2 + 202 / m0, by have : 0 < 202 / m0 := by positivity
                           linarith, fun ρ0 hρ0 τ hτ => ?_⟩
  obtain ⟨ρc, hρc, hc⟩ := gal_centre G (γ := 1 / 10) (by norm_num)
  set ρ1 := min ρ0 (min ρc T') with hρ1
  have hρ1p : 0 < ρ1 := lt_min hρ0 (lt_min hρc hT0)
  set τ' := min τ (1 / 2 / 10 ^ 6) / 2 with hτ'
  have hτ'0 : 0 < τ' := by rw [hτ']; exact half_pos (lt_min hτ (by norm_num))
  obtain ⟨ν, hν, hmix⟩ := mixRatio_close G hT0 (σ := min τ' (1 / 10 ^ 7)) (lt_min hτ'0 (by norm_num))
  obtain ⟨s1, hs1, ω1, hω1, hun⟩ := blurred_entry_unif G le_rfl one_pos hbl0 hT0 hτ'0
  obtain ⟨s2, hs2, hfT⟩ := blurred_flux G le_rfl one_pos hbl0 T' (half_pos hE0)
  obtain ⟨ν', hν', hmod⟩ := gal_modulus G (T' + 1) (κ := 1 / 10 ^ 7) (by norm_num)
  filter_upwards [sim_large hn, sim_fine hn hν, sim_last hn, sim_room hn hT' (1 + bl), eventually_ge_atTop s1, eventually_ge_atTop (ω1 / ρ1),
    eventually_ge_atTop ((1 + bl) / ν'), eventually_ge_atTop (1 / (m0 * T')), eventually_ge_atTop s2, eventually_ge_atTop (1 + (bl : ℝ)),
    eventually_ge_atTop (4 / enclosed (gridProfile n) 1 T')] with s ⟨h2, h7⟩ hf hlast hroom hss hsω hsν hsm hss2 hsb hsE R A px hA
  have hs : 0 < s := by linarith
  have hp := Real.pi_gt_three
  rw [div_le_iff₀ hρ1p] at hsω
  rw [div_le_iff₀ hν'] at hsν
  rw [div_le_iff₀ (by positivity)] at hsm
  rw [div_le_iff₀ hE0] at hsE
  have hroomR := hroom R hA.mem hA.max
  have hR : s * T' < R := by linarith
  have hlR := hlast R hA.mem
  have hUl : (simUnits s n).length = (simRs s n).length := by simp [simUnits]
  have hUv : ∀ i (h : i < (simUnits s n).length), s * (simUnits s n)[i] = ((simRs s n)[i]'(by omega) : ℕ) := by
    intro i h
    simp only [simUnits, List.getElem_map]
    rw [mul_div_cancel₀ _ hs.ne']
  obtain ⟨hlen, hval⟩ := simRadii_values h2
  have hFl : (simFlux s n R px).length = (simUnits s n).length := by simp [simFlux]
  obtain ⟨pl, e, h1, h3, -, h4⟩ := C01_profile_formula A (simFlux s n R px) (by rw [hFl, hA.length]) (by rw [hA.length]; exact hf.three) hA.grows none none
    (by rintro e ⟨⟩) (by rintro e ⟨⟩)
  have he : e = none := by
    have := calculatePetrosian_none_snd h1
    exact this
  subst he
  refine ⟨pl, h1, by rw [h3, hA.length], fun i h => ?_⟩
  have hi : i < (simUnits s n).length := by omega
  have hv := h4 i (by rw [hA.length]; exact h)
  rw [hv]
  -- radii in pixels
  have hrs : i + 1 < (simRs s n).length := by omega
  have hgap : (simRs s n)[i] + 2 ≤ (simRs s n)[i + 1] := by
    have h' : i + 1 < (simRadii (s * gridReach n)).length := by rw [← simRs_eq hn h7]; exact hrs
    have := (simRadii_gap h2 i h').1
    simpa [simRs_eq hn h7] using this
  have hone : 1 ≤ (simRs s n)[i] := by
    have h' : i < (simRadii (s * gridReach n)).length := by rw [← simRs_eq hn h7]; omega
    have := hval i h'
    simp only [simRs_eq hn h7]
    rw [this]
    split_ifs <;> omega
  have hmaxR : (simRs s n)[i + 1] ≤ R := hA.max _ (List.getElem_mem _)
  set x := (simUnits s n)[i] with hx
  set y := (simUnits s n)[i + 1] with hy
  have hsx : s * x = ((simRs s n)[i] : ℕ) := hUv i hi
  have hsy : s * y = ((simRs s n)[i + 1] : ℕ) := hUv (i + 1) h
  have hsx1 : 1 ≤ s * x := by rw [hsx]; exact_mod_cast hone
  have hsxy : s * x + 2 ≤ s * y := by rw [hsx, hsy]; exact_mod_cast hgap
  have hsyR : s * y ≤ R := by rw [hsy]; exact_mod_cast hmaxR
  have hx0 : 0 < x := hf.pos hi
  have hxy : x < y := (hf.step i h).1
  have hxyν : y - x ≤ ν := (hf.step i h).2
  obtain ⟨hring, hringy, hdπ, hbπ⟩ := pixel_rings hsx1 hsxy
  have efl : ∀ j (hj : j < (simUnits s n).length), (simFlux s n R px)[j]'(by omega) =
      round6 (imageSum px R R 0 0 (R * 2) (R * 2) (s * (simUnits s n)[j])) := by
    intro j hj
    simp [simFlux]
  rw [efl i hi, efl (i + 1) h]
  by_cases hyT : y ≤ T'
  · have hlt : s * y < R := lt_of_le_of_lt (mul_le_mul_of_nonneg_left hyT hs.le) hR
    have hltx : s * x < R := by linarith
    rw [hA.area i hi hltx, hA.area (i + 1) h hlt]
    have hfr := hA.frame y (List.getElem_mem h) hlt
    have hyR : s * y + 1 / (1 - 0) + bl ≤ R := by
      have := mul_le_mul_of_nonneg_left hyT hs.le
      rw [sub_zero, div_one]
      linarith
    have hmixy := hmix x y hx0.le hxy.le (hx0.trans hxy) hyT hxyν
    obtain ⟨hq0, hq1⟩ := petroRatio_mem G (hx0.trans hxy)
    -- away from the centre
    have away : ρ1 ≤ y → ∃ v, ratio (round6 (π * (1 - 0) * (s * x) ^ 2)) (round6 (imageSum px R R 0 0 (R * 2) (R * 2) (s * x)))
        (round6 (π * (1 - 0) * (s * y) ^ 2)) (round6 (imageSum px R R 0 0 (R * 2) (R * 2) (s * y))) = fin v ∧
        |v - petroRatio (gridProfile n) y| ≤ min τ (1 / 2 / 10 ^ 6) := by
      intro hρy
      obtain ⟨-, -, -, v, hv, v1, v2⟩ := hun s hss x y hx0 hxy hyT (R * 2) (R * 2) R R 0 R px hA.blurred hyR hfr (by
        exact (hsω.trans (mul_le_mul_of_nonneg_left hρy hs.le)).trans hringy)
      refine ⟨v, hv, ?_⟩
      have := min_le_left τ' (1 / 10 ^ 7)
      have e2 : min τ (1 / 2 / 10 ^ 6) = 2 * τ' := by rw [hτ']; ring
      rw [e2, abs_le]
      constructor <;> linarith
    by_cases hρy : ρ1 ≤ y
    · obtain ⟨v, hv, v1⟩ := away hρy
      have hb := abs_le.1 (v1.trans (min_le_right _ _))
      have hB : 0 < 202 / m0 := by positivity
      refine ⟨v, by rw [hv], ?_, fun _ => ⟨v1.trans (min_le_right _ _), fun _ => v1.trans (min_le_left _ _)⟩⟩
      rw [abs_le]
      norm_num at hb
      constructor <;> linarith
    · have hyρ : y < ρ1 := not_le.1 hρy
      have hyc : y ≤ ρc := hyρ.le.trans ((min_le_right _ _).trans (min_le_left _ _))
      obtain ⟨c1, c2⟩ := hc y (hx0.trans hxy) hyc
      rw [hI0] at c1
      have hs1' : (1 + (bl : ℝ)) / s ≤ 1 := by rw [div_le_one hs]; exact hsb
      have hsn : (1 + (bl : ℝ)) / s ≤ ν' := by rw [div_le_iff₀ hs]; linarith
      obtain ⟨-, -, -, v, hv, v1, v2⟩ := image_entry G le_rfl one_pos hs hx0 hxy hfr (κ := 1 / 10 ^ 7) (by norm_num)
        (hA.blurred.pixel le_rfl one_pos hs hbl0 (hx0.trans hxy) (by
          intro a b ha hab hb hbb hd
          rw [sub_zero, div_one] at hab hd
          exact hmod a b ha (by linarith) hb (by linarith) (hd.trans hsn)) hyR)
        (ω0 := 24) (by norm_num) hring (by rw [hI0]; norm_num; linarith)
      rw [hI0] at v1 v2
      have herr : 4 * (2 * (1 / 10 ^ 7) + 2 * (1 / 10 ^ 6) * (1 + 100) / 24) / gridProfile n y ≤ 395 / 10 ^ 9 := by
        rw [div_le_iff₀ (by linarith)]
        norm_num
        linarith
      have hmm : mixRatio (gridProfile n) x y ≤ petroRatio (gridProfile n) y + 1 / 10 ^ 7 := by
        linarith only [hmixy, min_le_right τ' (1 / 10 ^ 7)]
      have hclose : |v - petroRatio (gridProfile n) y| ≤ 1 / 2 / 10 ^ 6 := by
        rw [abs_le]
        norm_num at herr v1 v2 hmm ⊢
        constructor <;> linarith
      refine ⟨v, by rw [hv], ?_, fun _ => ⟨hclose, fun hρ => ?_⟩⟩
      · have hb := abs_le.1 hclose
        have hB : 0 < 202 / m0 := by positivity
        rw [abs_le]
        norm_num at hb
        constructor <;> linarith
      · exact absurd (le_trans (min_le_left _ _) hρ) hρy
  · have hTy : T' < y := not_le.1 hyT
    have hy0 : 0 < s * y := by linarith
    have hmono := imageSum_mono (px := px) R R (R * 2) (R * 2) hA.blurred.nonneg (by linarith : 0 < s * x) (by linarith : s * x ≤ s * y)
    have hle := imageSum_le_area (px := px) R R (R * 2) (R * 2) (hA.blurred.le_centre G hs) (by linarith : 0 < s * x) (by linarith : s * x ≤ s * y)
    have hge : m0 * weightedSum (exactOverlap.weight ⟨(R : ℝ), (R : ℝ), s * y, s * y, 0⟩) (R * 2) (R * 2) (fun _ _ => true) (fun _ _ => (1 : ℝ)) ≤
        imageSum px R R 0 0 (R * 2) (R * 2) (s * y) := by
      have a1 := area_le_image R R (s * y) (R * 2) (R * 2)
      push_cast at a1
      have a2 := hfT s hss2 T' hT0 le_rfl (R * 2) (R * 2) R R 0 R px hA.blurred (by rw [sub_zero, div_one]; linarith) (by
        rw [sub_zero, mul_one]
        exact sim_circle_onFrame R (mul_pos hs hT0) (by linarith))
      rw [sub_zero] at a2
      have a3 := (abs_le.1 a2).1
      have a4 := (abs_le.1 (abs_round6_sub (imageSum px R R 0 0 (R * 2) (R * 2) (s * T')))).2
      have a5 := imageSum_mono (px := px) R R (R * 2) (R * 2) hA.blurred.nonneg (mul_pos hs hT0) (mul_le_mul_of_nonneg_left hTy.le hs.le)
      norm_num at a4
      have a6 : (R : ℝ) * R ≤ s * (gridReach n + 1) * (s * (gridReach n + 1)) := mul_le_mul hlR hlR (Nat.cast_nonneg _) (by positivity)
      have a7 : m0 * (16 * (gridReach n + 1) ^ 2) = enclosed (gridProfile n) 1 T' := by rw [hm0]; field_simp
      have a8 : m0 * (4 * (R * R)) ≤ m0 * (4 * (s * (gridReach n + 1) * (s * (gridReach n + 1)))) :=
        mul_le_mul_of_nonneg_left (by linarith) hm0p.le
      have a9 : m0 * (4 * (s * (gridReach n + 1) * (s * (gridReach n + 1)))) = s ^ 2 * enclosed (gridProfile n) 1 T' / 4 := by
        rw [← a7]; ring
      have a10 := mul_le_mul_of_nonneg_left a1 hm0p.le
      have a11 : 4 * s ≤ s ^ 2 * enclosed (gridProfile n) 1 T' := by nlinarith
      have a12 : m0 * ((R : ℝ) * 2 * (R * 2)) = m0 * (4 * (R * R)) := by ring
      linarith
    rw [hI0] at hle
    -- the areas
    have hW1 := sim_area R (r := s * x) (by linarith) (by linarith)
    have hW2 := sim_area R (r := s * y - 1 / 2) (by linarith) (by linarith)
    have hW3 : weightedSum (exactOverlap.weight ⟨(R : ℝ), (R : ℝ), s * y - 1 / 2, s * y - 1 / 2, 0⟩) (R * 2) (R * 2) (fun _ _ => true)
        (fun _ _ => (1 : ℝ)) ≤ weightedSum (exactOverlap.weight ⟨(R : ℝ), (R : ℝ), s * y, s * y, 0⟩) (R * 2) (R * 2) (fun _ _ => true)
        (fun _ _ => (1 : ℝ)) := by
      apply weightedSum_mono
      · intro i j _ _
        have := exactOverlap_law.nested R R 1 0 (s * y - 1 / 2) (s * y) i j one_pos (by linarith) (by linarith)
        simpa only [div_one] using this
      · intros; norm_num
    rw [hW2] at hW3
    rw [hA.areas i hi, hA.areas (i + 1) h]
    rw [← hx, ← hy]
    rw [hW1] at hle
    have hbig := hbπ.trans hW3
    have h5 : 1 ≤ m0 * (s * y) := by
      have h6 : m0 * (s * T') ≤ m0 * (s * y) := mul_le_mul_of_nonneg_left (mul_le_mul_of_nonneg_left hTy.le hs.le) hm0p.le
      linarith only [h6, hsm, mul_left_comm m0 s T']
    have h6 := mul_le_mul_of_nonneg_left hbig hm0p.le
    obtain ⟨v, hv, hvB⟩ := ratio_bounded (Sx := imageSum px R R 0 0 (R * 2) (R * 2) (s * x)) hm0p
      (hdπ.trans (sub_le_sub_right hW3 _)) (by linarith only [h5, h6]) hmono hle hge (by linarith only [hbig, hsx1, hsxy])
    refine ⟨v, ?_, hvB, fun h => absurd h hyT⟩
    rw [hW1, hv]

/-- The total flux of a simulation in units of `r_eff²`. -/
theorem sim_flux_bounded : ∃ B0 > 0, ∀ᶠ s in atTop, ∀ R A px, SimLists cfg bl s n R A px → ∀ i (h : i < (simFlux s n R px).length),
    |(simFlux s n R px)[i]| ≤ s ^ 2 * B0 := by
  have G := gridProfile_galaxy hn
  have hI0 := gridProfile_zero hn
  have hre := (rTotal_pos hn).trans (rTotal_lt_reach hn)
  refine ⟨400 * (gridReach n + 1) ^ 2 + 1, by positivity, ?_⟩
  filter_upwards [sim_last hn, eventually_ge_atTop 1] with s hl hs R A px hA i h
  have hR := hl R hA.mem
  have hs0 : 0 < s := by linarith
  simp only [simFlux, List.getElem_map]
  generalize s * (simUnits s n)[i]'(by simpa [simFlux] using h) = r
  have h0 : 0 ≤ imageSum px R R 0 0 (R * 2) (R * 2) r := by
    unfold imageSum weightedSum
    refine Finset.sum_nonneg fun i hi => Finset.sum_nonneg fun j hj => ?_
    simp only [if_true]
    exact mul_nonneg (hA.blurred.nonneg i j (Finset.mem_range.1 hi) (Finset.mem_range.1 hj)) (exactOverlap_law.nonneg _ _ _)
  have h1 : imageSum px R R 0 0 (R * 2) (R * 2) r ≤ 400 * (R : ℝ) ^ 2 := by
    have : imageSum px R R 0 0 (R * 2) (R * 2) r ≤ ∑ i ∈ Finset.range (R * 2), ∑ j ∈ Finset.range (R * 2), (100 : ℝ) := by
      unfold imageSum weightedSum
      refine Finset.sum_le_sum fun i hi => Finset.sum_le_sum fun j hj => ?_
      simp only [if_true]
      have a1 : px i j ≤ 100 := by
        rw [← hI0]
        exact hA.blurred.le_centre G hs0 i j (Finset.mem_range.1 hi) (Finset.mem_range.1 hj)
      have a2 := exactOverlap_law.le_one ⟨(R : ℝ), (R : ℝ), r, r * (1 - 0), 0⟩ i j
      have a3 := exactOverlap_law.nonneg ⟨(R : ℝ), (R : ℝ), r, r * (1 - 0), 0⟩ i j
      calc _ ≤ 100 * exactOverlap.weight ⟨(R : ℝ), (R : ℝ), r, r * (1 - 0), 0⟩ i j := mul_le_mul_of_nonneg_right a1 a3
        _ ≤ 100 * 1 := mul_le_mul_of_nonneg_left a2 (by norm_num)
        _ = 100 := by norm_num
    refine this.trans (le_of_eq ?_)
    simp only [Finset.sum_const, Finset.card_range, nsmul_eq_mul]
    push_cast
    ring
  have h2 := abs_le.1 (abs_round6_sub (imageSum px R R 0 0 (R * 2) (R * 2) r))
  norm_num at h2
  have h3 : (R : ℝ) ^ 2 ≤ (s * (gridReach n + 1)) ^ 2 := pow_le_pow_left₀ (Nat.cast_nonneg _) hR 2
  have h4 : 1 ≤ s ^ 2 := one_le_pow₀ hs
  rw [mul_pow] at h3
  rw [abs_le]
  have h5 : 0 ≤ s ^ 2 * (gridReach n + 1) ^ 2 := by positivity
  constructor <;> nlinarith only [h0, h1, h2, h3, h4, h5]

/-- The radii of a simulation with large `r_eff`, as nodes of an interpolant, with the first radius or with 0 in its place. -/
theorem sim_nodes : ∀ᶠ s in atTop, ∀ N : List ℝ, N = ((simUnits s n).map fun x => s * x) ∨ N = ((0 :: (simUnits s n).tail).map fun x => s * x) →
    N.length = (simUnits s n).length ∧ 4 ≤ N.length ∧ (∀ i (h : i + 1 < N.length), (2 : ℝ) ≤ N[i + 1] - N[i] ∧ N[i + 1] - N[i] ≤ 101 / 2 * 2) ∧
    (∀ h : 2 < N.length, N[1] - N[0] ≤ 3 / 2 * (N[2] - N[1])) ∧
    (∀ k (h : N.length = k + 3), N[k + 2] - N[k + 1] ≤ 3 / 2 * (N[k + 1] - N[k])) ∧
    ∀ i (h : i + 1 < N.length) (h' : i + 1 < (simUnits s n).length), N[i + 1] = s * (simUnits s n)[i + 1] := by
  have hre := (rTotal_pos hn).trans (rTotal_lt_reach hn)
  filter_upwards [sim_large hn, eventually_ge_atTop (600 / gridReach n)] with s ⟨h2, h7⟩ h6 N hN
  have hs : 0 < s := by linarith
  rw [div_le_iff₀ hre] at h6
  obtain ⟨hlen, hval⟩ := simRadii_values h2
  have hUl : (simUnits s n).length = (simRs s n).length := by simp [simUnits]
  have hUv : ∀ i (h : i < (simUnits s n).length), s * (simUnits s n)[i] = if i < 100 then 1 + 2 * (i : ℝ) else 300 + 100 * ((i : ℝ) - 100) := by
    intro i h
    have h' : i < (simRadii (s * gridReach n)).length := by rw [← simRs_eq hn h7, ← hUl]; exact h
    have e : s * (simUnits s n)[i] = ((simRs s n)[i]'(by omega) : ℕ) := by
      simp only [simUnits, List.getElem_map]
      rw [mul_div_cancel₀ _ hs.ne']
    rw [e]
    simp only [simRs_eq hn h7]
    rw [hval i h']
    split_ifs with hi
    · push_cast; ring
    · push_cast [Nat.cast_sub (not_lt.1 hi)]; ring
  have hl103 : 103 ≤ (simUnits s n).length := by
    have hfl : (600 : ℤ) ≤ ⌊s * gridReach n⌋ := Int.le_floor.2 (by push_cast; linarith)
    rw [hUl, simRs_eq hn h7]
    unfold simRadii
    simp only
    rw [if_pos h2, List.length_append, pyRange_length, pyRange_length]
    omega
  have hNl : N.length = (simUnits s n).length := by
    rcases hN with rfl | rfl <;> simp
    omega
  have hNv : ∀ i (h : i + 1 < N.length), N[i + 1] = if i + 1 < 100 then 3 + 2 * (i : ℝ) else 300 + 100 * ((i : ℝ) - 99) := by
    intro i h
    have e : N[i + 1] = s * (simUnits s n)[i + 1]'(by omega) := by
      rcases hN with rfl | rfl <;> simp
    rw [e, hUv]
    split_ifs <;> push_cast <;> ring
  have hN0 : ∀ h : 0 < N.length, N[0] = 1 ∨ N[0] = 0 := by
    intro h
    rcases hN with rfl | rfl
    · left
      have := hUv 0 (by omega)
      simpa using this
    · right; simp
  refine ⟨hNl, by omega, ?_, ?_, ?_, ?_⟩
  · intro i h
    cases i with
    | zero =>
      have e1 := hNv 0 h
      norm_num at e1
      simp only [zero_add]
      rw [e1]
      rcases hN0 (by omega) with e | e <;> rw [e] <;> norm_num
    | succ i =>
      rw [hNv (i + 1) h, hNv i (by omega)]
      by_cases h1 : i + 1 < 99
      · rw [if_pos (by omega), if_pos (by omega)]; push_cast; constructor <;> linarith
      · by_cases h3 : i + 1 = 99
        · rw [if_neg (by omega), if_pos (by omega)]
          obtain rfl : i = 98 := by omega
          norm_num
        · rw [if_neg (by omega), if_neg (by omega)]; push_cast; constructor <;> linarith
  · intro h
    have e1 := hNv 0 (by omega)
    have e2 := hNv 1 (by omega)
    norm_num at e1 e2
    rw [e1, e2]
    rcases hN0 (by omega) with e | e <;> rw [e] <;> norm_num
  · intro k h
    rw [hNv (k + 1) (by omega), hNv k (by omega)]
    obtain ⟨j, rfl⟩ : ∃ j, k = j + 1 := ⟨k - 1, by omega⟩
    rw [hNv j (by omega), if_neg (by omega), if_neg (by omega), if_neg (by omega)]
    push_cast
    linarith
  · intro i h h'
    rcases hN with rfl | rfl <;> simp

end

end Verif.Props

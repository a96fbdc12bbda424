import Verif.Lemmas.FluxRadius
import Verif.Props.ImageConvergence
import Verif.Props.SimulatedRow

/-!
# The lists of the simulations behind the correction grid, in units of `r_eff`, for large `r_eff`
-/

set_option linter.unusedSectionVars false
set_option linter.unusedVariables false

namespace Verif.Props

open F Spec Lemmas Real Filter Topology

/-- The Sersic profile of the simulations in units of `r_eff`: index `n`, central brightness 100. -/
noncomputable def gridProfile (n : ℝ) : ℝ → ℝ := sersic (bn n) (100 / Real.exp (bn n)) 1 n

theorem gridProfile_galaxy {n : ℝ} (hn : 0 < n) : Galaxy (gridProfile n) := sersic_galaxy (by positivity) hn one_pos

theorem sim_profile {s n : ℝ} (hs : 0 < s) (t : ℝ) : sersic (bn n) (simNumbers s n).amplitude s n t = gridProfile n (t / s) := by
  unfold gridProfile sersic
  rw [div_one]
  rfl

theorem sim_enclosed {s n : ℝ} (hs : 0 < s) (q x : ℝ) :
    enclosed (sersic (bn n) (simNumbers s n).amplitude s n) q (s * x) = s ^ 2 * enclosed (gridProfile n) q x := by
  rw [← enclosed_scale (gridProfile n) q hs x]
  congr 1
  funext t
  exact sim_profile hs t

/-- The Sersic numbers of a simulation in units of `r_eff`. -/
theorem sim_scaling {s n : ℝ} (hn : 0 < n) (hs : 0 < s) :
    (simNumbers s n).lTotal = s ^ 2 * (simNumbers 1 n).lTotal ∧ (simNumbers s n).totalFlux = s ^ 2 * (simNumbers 1 n).totalFlux ∧
      (simNumbers s n).r20 = s * (simNumbers 1 n).r20 ∧ (simNumbers s n).r80 = s * (simNumbers 1 n).r80 ∧
      (simNumbers s n).rTotal = s * (simNumbers 1 n).rTotal := by
  have hL : (simNumbers s n).lTotal = s ^ 2 * (simNumbers 1 n).lTotal := by
    simp only [simNumbers, sersicTotal]; ring
  obtain ⟨-, -, -, -, a4, a5, a6, a7, a8, a9, a10⟩ := C105_truth hn hs
  obtain ⟨-, -, -, -, b4, b5, b6, b7, b8, b9, b10⟩ := C105_truth hn one_pos
  have e1 : sersic (bn n) (simNumbers 1 n).amplitude 1 n = gridProfile n := by
    funext t; rw [sim_profile one_pos, div_one]
  rw [e1] at b8 b9 b10
  have key : ∀ x y, 0 < x → 0 < y → enclosed (sersic (bn n) (simNumbers s n).amplitude s n) 1 x = s ^ 2 * enclosed (gridProfile n) 1 y →
      x = s * y := by
    intro x y hx hy h
    have ex : x = s * (x / s) := by field_simp
    rw [ex, sim_enclosed hs] at h
    have h' := mul_left_cancel₀ (by positivity : s ^ 2 ≠ 0) h
    have := (gal_strictMono (gridProfile_galaxy hn) one_pos).injOn (Set.mem_Ici.2 (by positivity)) (Set.mem_Ici.2 hy.le) h'
    rw [ex, this]
  refine ⟨hL, by rw [a4, b4, hL]; ring, key _ _ a5 b5 ?_, key _ _ (by linarith) (by linarith) ?_, key _ _ (by linarith) (by linarith) ?_⟩
  · rw [a8, b8, hL]; ring
  · rw [a9, b9, hL]; ring
  · rw [a10, b10, hL]; ring

/-- How far the radii of a simulation reach, in units of `r_eff` (for `r_eff >= 7`). -/
noncomputable def gridReach (n : ℝ) : ℝ := (if n < 2 then 3 else 13 / 10) * (simNumbers 1 n).rTotal

theorem sim_maxR {s n : ℝ} (hn : 0 < n) (hs : 7 ≤ s) : simMaxR s n (simNumbers s n).rTotal = s * gridReach n := by
  rw [(sim_scaling hn (by linarith : 0 < s)).2.2.2.2]
  unfold simMaxR gridReach
  rw [if_neg (by rintro ⟨h, _⟩; linarith)]
  split_ifs <;> ring

theorem rTotal_pos {n : ℝ} (hn : 0 < n) : 0 < (simNumbers 1 n).rTotal := by
  obtain ⟨-, -, -, -, -, b5, b6, b7, -⟩ := C105_truth hn one_pos
  linarith

theorem rTotal_lt_reach {n : ℝ} (hn : 0 < n) : (simNumbers 1 n).rTotal < gridReach n := by
  have := rTotal_pos hn
  unfold gridReach
  split_ifs <;> linarith

theorem pyRange_getElem (a b s i : Nat) (h : i < (pyRange a b s).length) : (pyRange a b s)[i] = a + s * i := by simp [pyRange]

theorem pyRange_length (a b s : Nat) : (pyRange a b s).length = (b - a + (s - 1)) / s := by simp [pyRange]

/-- The radii of a simulation that reaches 200 pixels. -/
theorem simRadii_values {M : ℝ} (hM : 200 ≤ M) :
    99 < (simRadii M).length ∧ (∀ i (h : i < (simRadii M).length), (simRadii M)[i] = if i < 100 then 1 + 2 * i else 300 + 100 * (i - 100)) := by
  have e : simRadii M = pyRange 1 201 2 ++ pyRange 300 (⌊M⌋.toNat + 100) 100 := by
    unfold simRadii
    simp only
    rw [if_pos hM]
  have l1 : (pyRange 1 201 2).length = 100 := by rw [pyRange_length]
  constructor
  · rw [e, List.length_append, l1]; omega
  · intro i h
    simp only [e]
    rw [List.getElem_append]
    split_ifs with h1 h2 h2
    · exact pyRange_getElem _ _ _ _ _
    · omega
    · omega
    · rw [pyRange_getElem, l1]

theorem simRadii_gap {M : ℝ} (hM : 200 ≤ M) (i : Nat) (h : i + 1 < (simRadii M).length) :
    (simRadii M)[i] + 2 ≤ (simRadii M)[i + 1] ∧ (simRadii M)[i + 1] ≤ (simRadii M)[i] + 101 := by
  obtain ⟨-, hv⟩ := simRadii_values hM
  rw [hv i (by omega), hv (i + 1) h]
  split_ifs <;> omega

/-- The radii of a simulation in units of `r_eff`. -/
noncomputable def simUnits (s n : ℝ) : List ℝ := (simRs s n).map fun r : Nat => (r : ℝ) / s

theorem simUnits_radii {s n : ℝ} (hs : 0 < s) : ((simRs s n).map fun r : Nat => fin (r : ℝ)) = (simUnits s n).map fun x => fin (s * x) := by
  unfold simUnits
  rw [List.map_map]
  apply List.map_congr_left
  intro r _
  simp only [Function.comp_apply]
  rw [mul_div_cancel₀ _ hs.ne']

section
variable {n : ℝ} (hn : 0 < n)
include hn

/-- For large `r_eff` the radii reach 200 pixels. -/
theorem sim_large : ∀ᶠ s in atTop, 200 ≤ s * gridReach n ∧ 7 ≤ s := by
  have h := (rTotal_pos hn).trans (rTotal_lt_reach hn)
  filter_upwards [eventually_ge_atTop (200 / gridReach n), eventually_ge_atTop 7] with s h1 h2
  rw [div_le_iff₀ h] at h1
  exact ⟨h1, h2⟩

theorem simRs_eq {s : ℝ} (h7 : 7 ≤ s) : simRs s n = simRadii (s * gridReach n) := by
  unfold simRs
  rw [sim_maxR hn h7]

/-- For large `r_eff` the radii are as fine as desired. -/
theorem sim_fine {δ : ℝ} (hδ : 0 < δ) : ∀ᶠ s in atTop, Fine δ (simUnits s n) := by
  filter_upwards [sim_large hn, eventually_ge_atTop (101 / δ)] with s ⟨h2, h7⟩ hsδ
  have hs : 0 < s := by linarith
  rw [div_le_iff₀ hδ] at hsδ
  have eU : simUnits s n = (simRadii (s * gridReach n)).map fun r : Nat => (r : ℝ) / s := by unfold simUnits; rw [simRs_eq hn h7]
  obtain ⟨hl, hv⟩ := simRadii_values h2
  rw [eU]
  refine ⟨by rw [List.length_map]; omega, ?_, ?_⟩
  · intro h
    rw [List.getElem_map, hv]
    simp only [Nat.mul_zero, Nat.add_zero]
    rw [if_pos (by norm_num)]
    push_cast
    exact ⟨by positivity, by rw [div_le_iff₀ hs]; linarith⟩
  · intro i h
    rw [List.length_map] at h
    obtain ⟨g1, g2⟩ := simRadii_gap h2 i h
    simp only [List.getElem_map]
    have g1' : (((simRadii (s * gridReach n))[i] : ℕ) : ℝ) + 2 ≤ ((simRadii (s * gridReach n))[i + 1] : ℕ) := by exact_mod_cast g1
    have g2' : ((((simRadii (s * gridReach n))[i + 1] : ℕ)) : ℝ) ≤ ((simRadii (s * gridReach n))[i] : ℕ) + 101 := by exact_mod_cast g2
    constructor
    · exact div_lt_div_of_pos_right (by linarith) hs
    · rw [← sub_div, div_le_iff₀ hs]; linarith

/-- For large `r_eff` the largest radius is beyond any `t` short of the reach. -/
theorem sim_reach {t : ℝ} (ht : t < gridReach n) :
    ∀ᶠ s in atTop, ∀ R ∈ simRs s n, (∀ x ∈ simRs s n, x ≤ R) → s * t < R ∧ Covers (simUnits s n) t := by
  filter_upwards [sim_large hn, eventually_gt_atTop (2 / (gridReach n - t))] with s ⟨h2, h7⟩ hst R hR hmax
  have hs : 0 < s := by linarith
  rw [div_lt_iff₀ (by linarith)] at hst
  have h0 : 0 ≤ s * gridReach n := by linarith
  obtain ⟨-, -, -, x, hx, hx1, -⟩ := C33_radii _ h0
  rw [← simRs_eq hn h7] at hx
  have hxR : (x : ℝ) ≤ R := by exact_mod_cast hmax x hx
  have hfl := Int.lt_floor_add_one (s * gridReach n)
  have hx1' : ((⌊s * gridReach n⌋ : ℤ) : ℝ) - 1 ≤ x := by exact_mod_cast hx1
  have hlt : s * t < R := by linarith
  refine ⟨hlt, (R : ℝ) / s, List.mem_map_of_mem hR, ?_⟩
  rw [le_div_iff₀ hs]; linarith

/-- For large `r_eff` the rings have enough pixels. -/
theorem sim_rings {eta ω0 ρ : ℝ} (heta : eta ≤ 1 / 2) (hρ : 0 < ρ) (T : ℝ) :
    ∀ᶠ s in atTop, Rings (gridProfile n) eta ω0 ρ (1 - 0) s (simUnits s n) T := by
  filter_upwards [sim_large hn, eventually_ge_atTop (ω0 / ρ)] with s ⟨h2, h7⟩ hsρ i h hiT
  have hs : 0 < s := by linarith
  have hp := Real.pi_gt_three
  rw [div_le_iff₀ hρ] at hsρ
  have eU : simUnits s n = (simRadii (s * gridReach n)).map fun r : Nat => (r : ℝ) / s := by unfold simUnits; rw [simRs_eq hn h7]
  have hl : i + 1 < (simRadii (s * gridReach n)).length := by simpa [eU] using h
  obtain ⟨g1, -⟩ := simRadii_gap h2 i hl
  have g1' : (((simRadii (s * gridReach n))[i] : ℕ) : ℝ) + 2 ≤ ((simRadii (s * gridReach n))[i + 1] : ℕ) := by exact_mod_cast g1
  have e1 : (simUnits s n)[i + 1] = ((simRadii (s * gridReach n))[i + 1] : ℕ) / s := by simp [eU]
  have e0 : (simUnits s n)[i] = ((simRadii (s * gridReach n))[i] : ℕ) / s := by simp [eU]
  rw [e1, e0, mul_div_cancel₀ _ hs.ne', mul_div_cancel₀ _ hs.ne', sub_zero, mul_one]
  set a := (((simRadii (s * gridReach n))[i] : ℕ) : ℝ) with ha
  set b := (((simRadii (s * gridReach n))[i + 1] : ℕ) : ℝ) with hb
  have ha0 : 0 ≤ a := Nat.cast_nonneg _
  have hring : 2 * b ≤ b ^ 2 - a ^ 2 := by nlinarith
  have harea : b ≤ π * (b ^ 2 - a ^ 2) := by nlinarith
  by_cases hbρ : b / s ≤ ρ
  · refine Or.inr ⟨?_, hbρ, by linarith⟩
    have hI0 : gridProfile n 0 = 100 := by
      have := (C105_truth hn one_pos).1
      rw [sim_profile one_pos, zero_div] at this
      exact this
    unfold Bright
    rw [hI0]
    norm_num
    linarith
  · rw [not_le, lt_div_iff₀ hs] at hbρ
    exact Or.inl (by linarith)

omit hn in
/-- A circle around the centre of the image, half a pixel smaller than the image, is on the image. -/
theorem sim_circle_onFrame (R : Nat) {r : ℝ} (hr : 0 < r) (h : r ≤ R - 1 / 2) :
    OnFrame (⟨(R : ℝ), (R : ℝ), r, r, 0⟩ : Ellipse ℝ).set (R * 2) (R * 2) := by
  obtain ⟨e1, e2⟩ := circle_xExtent (R : ℝ) r hr
  rw [div_one] at e1 e2
  apply onFrame_of_box _ hr hr
  · rw [e1]; show (-1 : ℝ) / 2 ≤ R - r; linarith
  · rw [e1]; push_cast; show (R : ℝ) + r ≤ _; linarith
  · rw [e2]; show (-1 : ℝ) / 2 ≤ R - r; linarith
  · rw [e2]; push_cast; show (R : ℝ) + r ≤ _; linarith

omit hn in
/-- The area of an aperture of a simulation. -/
theorem sim_area (R : Nat) {r : ℝ} (hr : 0 < r) (h : r ≤ R - 1 / 2) :
    weightedSum (exactOverlap.weight ⟨(R : ℝ), (R : ℝ), r, r, 0⟩) (R * 2) (R * 2) (fun _ _ => true) (fun _ _ => 1) = π * r ^ 2 := by
  rw [weightedSum_onFrame _ (by exact hr) (by exact hr) _ _ (sim_circle_onFrame R hr h)]
  ring

omit hn in
theorem sim_area_grows (R : Nat) {a b : Nat} (ha : 0 < a) (hab : a + 2 ≤ b) (hb : b ≤ R) :
    round6 (weightedSum (exactOverlap.weight ⟨(R : ℝ), (R : ℝ), (a : ℝ), (a : ℝ), 0⟩) (R * 2) (R * 2) (fun _ _ => true) fun _ _ => (1 : ℝ)) <
    round6 (weightedSum (exactOverlap.weight ⟨(R : ℝ), (R : ℝ), (b : ℝ), (b : ℝ), 0⟩) (R * 2) (R * 2) (fun _ _ => true) fun _ _ => (1 : ℝ)) := by
  have hp := Real.pi_gt_three
  have ha' : (1 : ℝ) ≤ a := by exact_mod_cast ha
  have hab' : (a : ℝ) + 2 ≤ b := by exact_mod_cast hab
  have hb' : (b : ℝ) ≤ R := by exact_mod_cast hb
  have h1 := sim_area R (r := a) (by linarith) (by linarith)
  have h2 := sim_area R (r := (b : ℝ) - 1 / 2) (by linarith) (by linarith)
  have h3 : weightedSum (exactOverlap.weight ⟨(R : ℝ), (R : ℝ), (b : ℝ) - 1 / 2, (b : ℝ) - 1 / 2, 0⟩) (R * 2) (R * 2) (fun _ _ => true)
      (fun _ _ => (1 : ℝ)) ≤ weightedSum (exactOverlap.weight ⟨(R : ℝ), (R : ℝ), (b : ℝ), (b : ℝ), 0⟩) (R * 2) (R * 2) (fun _ _ => true)
      (fun _ _ => (1 : ℝ)) := by
    apply weightedSum_mono
    · intro i j _ _
      have := exactOverlap_law.nested R R 1 0 ((b : ℝ) - 1 / 2) b i j one_pos (by linarith) (by linarith)
      simpa only [div_one] using this
    · intros; norm_num
  rw [h2] at h3
  have r1 := (abs_le.1 (abs_round6_sub (weightedSum (exactOverlap.weight ⟨(R : ℝ), (R : ℝ), (a : ℝ), (a : ℝ), 0⟩) (R * 2) (R * 2)
    (fun _ _ => true) fun _ _ => (1 : ℝ)))).2
  have r2 := (abs_le.1 (abs_round6_sub (weightedSum (exactOverlap.weight ⟨(R : ℝ), (R : ℝ), (b : ℝ), (b : ℝ), 0⟩) (R * 2) (R * 2)
    (fun _ _ => true) fun _ _ => (1 : ℝ)))).1
  rw [h1] at r1
  have h4 : π * (a : ℝ) ^ 2 + 3 ≤ π * ((b : ℝ) - 1 / 2) ^ 2 := by
    have : (a : ℝ) ^ 2 + 1 ≤ ((b : ℝ) - 1 / 2) ^ 2 := by nlinarith
    nlinarith
  rw [h1]
  norm_num at r1 r2
  linarith

omit hn in
/-- The fluxes of a simulation with pixels `px`. -/
noncomputable def simFlux (s n : ℝ) (R : Nat) (px : Nat → Nat → ℝ) : List ℝ :=
  (simUnits s n).map fun x => round6 (imageSum px R R 0 0 (R * 2) (R * 2) (s * x))

omit hn in
/-- What does not change from row to row: PSF, oversampling and oversampling of the PSF. -/
structure SimSettings where
  psf : Option (Img ℝ)
  oversample : OversampleArg ℝ
  psfOversample : PsfOversampleArg

omit hn in
/-- The images made with the settings for index `n` and large `r_eff` are blurred by at most `B` pixels. -/
def SimSettings.Blurs (c : SimSettings) (B : Nat) (n : ℝ) : Prop :=
  ∀ᶠ s in atTop, ∃ (R : Nat) (px : Nat → Nat → ℝ), R ∈ simRs s n ∧ (∀ x ∈ simRs s n, x ≤ R) ∧
    Blurred (gridProfile n) s B R R 0 0 (R * 2) (R * 2) R px ∧
    ∀ (integ : GridModel ℝ → ℝ × ℝ → ℝ × ℝ → Except PyErr (Img ℝ)) (rot : Img ℝ → ℝ → Img ℝ),
      ∃ im, simImage integ rot c.psf c.oversample c.psfOversample s n = .ok im ∧ im.h = R * 2 ∧ im.w = R * 2 ∧
        ∀ i j, i < R * 2 → j < R * 2 → im.px i j = px i j

omit hn in
/-- What a simulation with largest radius `R` measures (areas `A`, pixels `px`), and the row made from it. -/
structure SimLists (c : SimSettings) (B : Nat) (s n : ℝ) (R : Nat) (A : List ℝ) (px : Nat → Nat → ℝ) : Prop where
  mem : R ∈ simRs s n
  max : ∀ x ∈ simRs s n, x ≤ R
  length : A.length = (simUnits s n).length
  grows : ∀ i (h : i + 1 < A.length), A[i] < A[i + 1]
  areas : ∀ i (h : i < (simUnits s n).length), A[i] = round6 (weightedSum (exactOverlap.weight ⟨(R : ℝ), (R : ℝ), s * (simUnits s n)[i],
    s * (simUnits s n)[i], 0⟩) (R * 2) (R * 2) (fun _ _ => true) fun _ _ => (1 : ℝ))
  area : ∀ i (h : i < (simUnits s n).length), s * (simUnits s n)[i] < R → A[i] = round6 (π * (1 - 0) * (s * (simUnits s n)[i]) ^ 2)
  frame : ∀ x ∈ simUnits s n, s * x < R → OnFrame (⟨(R : ℝ), (R : ℝ), s * x, s * x * (1 - 0), 0⟩ : Ellipse ℝ).set (R * 2) (R * 2)
  blurred : Blurred (gridProfile n) s B R R 0 0 (R * 2) (R * 2) R px
  row : ∀ (ip : InterpFam ℝ) (integ : GridModel ℝ → ℝ × ℝ → ℝ × ℝ → Except PyErr (Img ℝ)) (rot : Img ℝ → ℝ → Img ℝ),
    simulate ip exactOverlap integ rot c.psf c.oversample c.psfOversample s n =
      simRow ip (fin n) (fin s) (fin (s * (simNumbers 1 n).r20)) (fin (s * (simNumbers 1 n).r80)) (fin (s * (simNumbers 1 n).rTotal))
        (fin (s ^ 2 * (simNumbers 1 n).lTotal)) (fin (s ^ 2 * (simNumbers 1 n).totalFlux)) ((simUnits s n).map fun x => fin (s * x))
        (A.map fin) ((simFlux s n R px).map fin)

/-- The simulation for large `r_eff`: areas, fluxes and row. -/
theorem sim_lists {c : SimSettings} {B : Nat} (hc : c.Blurs B n) : ∀ᶠ s in atTop, ∃ R A px, SimLists c B s n R A px := by
  filter_upwards [sim_large hn, hc] with s ⟨h2, h7⟩ ⟨R, px, hR, hmax, hbl, him⟩
  have hs : 0 < s := by linarith
  have hgap := simRadii_gap h2
  obtain ⟨hlen, hv⟩ := simRadii_values h2
  rw [← simRs_eq hn h7] at hlen
  have hgap : ∀ i (h : i + 1 < (simRs s n).length), (simRs s n)[i] + 2 ≤ (simRs s n)[i + 1] := by
    intro i h
    have h' : i + 1 < (simRadii (s * gridReach n)).length := by rw [← simRs_eq hn h7]; exact h
    have := (simRadii_gap h2 i h').1
    simpa [simRs_eq hn h7] using this
  have hpos : ∀ i (h : i < (simRs s n).length), 0 < (simRs s n)[i] := by
    intro i h
    have h' : i < (simRadii (s * gridReach n)).length := by rw [← simRs_eq hn h7]; exact h
    have := hv i h'
    simp only [simRs_eq hn h7]
    rw [this]
    split_ifs <;> omega
  set A := (simRs s n).map fun r : Nat => round6 (weightedSum (exactOverlap.weight ⟨(R : ℝ), (R : ℝ), (r : ℝ), (r : ℝ), 0⟩) (R * 2) (R * 2)
    (fun _ _ => true) fun _ _ => (1 : ℝ)) with hA
  have hAl : A.length = (simRs s n).length := by simp [hA]
  have hUl : (simUnits s n).length = (simRs s n).length := by simp [simUnits]
  have hUv : ∀ i (h : i < (simUnits s n).length), s * (simUnits s n)[i] = ((simRs s n)[i]'(by omega) : ℕ) := by
    intro i h
    simp only [simUnits, List.getElem_map]
    rw [mul_div_cancel₀ _ hs.ne']
  have hRlt : ∀ {r : Nat}, (r : ℝ) < R → (r : ℝ) ≤ R - 1 / 2 := by
    intro r h
    have : r + 1 ≤ R := by exact_mod_cast h
    have : (r : ℝ) + 1 ≤ R := by exact_mod_cast this
    linarith
  refine ⟨R, A, px, hR, hmax, by omega, ?_, ?_, ?_, ?_, hbl, ?_⟩
  · intro i h
    have h' : i + 1 < (simRs s n).length := by omega
    simp only [hA, List.getElem_map]
    exact sim_area_grows R (hpos i (by omega)) (hgap i h') (hmax _ (List.getElem_mem _))
  · intro i h
    rw [hUv i h]
    simp only [hA, List.getElem_map]
  · intro i h hlt
    rw [hUv i h] at hlt ⊢
    have h'' : i < (simRs s n).length := by omega
    simp only [hA, List.getElem_map]
    rw [sim_area R (by exact_mod_cast hpos i h'') (hRlt hlt)]
    congr 1; ring
  · intro x hx hlt
    obtain ⟨i, h, rfl⟩ := List.getElem_of_mem hx
    rw [hUv i h] at hlt ⊢
    rw [sub_zero, mul_one]
    exact sim_circle_onFrame R (by exact_mod_cast hpos i (by omega)) (hRlt hlt)
  · intro ip integ rot
    obtain ⟨im, him, hh, hw, hpx⟩ := him integ rot
    have hp : ∀ x ∈ simRs s n, 0 < x := by
      intro x hx
      obtain ⟨i, h, rfl⟩ := List.getElem_of_mem hx
      exact hpos i h
    obtain ⟨fl, ar, er, hph⟩ := simPhotometry_ok hp hR hmax im (by rw [simSize_eq hR hmax]; exact hh) (by rw [simSize_eq hR hmax]; exact hw)
    obtain ⟨e1, e2⟩ := simPhotometry_lists hR hmax hh hw hpx hph
    obtain ⟨c1, c2, c3, c4, c5⟩ := sim_scaling hn hs
    have eA : ar = A.map fin := by rw [e1, hA, List.map_map]; rfl
    have eF : fl = (simFlux s n R px).map fin := by
      rw [e2]
      unfold simFlux simUnits
      rw [List.map_map, List.map_map]
      apply List.map_congr_left
      intro r _
      simp only [Function.comp_apply]
      rw [mul_div_cancel₀ _ hs.ne']
      unfold imageSum
      rw [sub_zero, mul_one]
    unfold simulate
    rw [him]
    show (simPhotometry exactOverlap im (simRs s n) >>= _) = _
    rw [hph]
    show simRow _ _ _ _ _ _ _ _ _ ar fl = _
    rw [eA, eF, c1, c2, c3, c4, c5, simUnits_radii hs]

/-- Without PSF and without oversampling nothing is blurred. -/
theorem plain_blurs : SimSettings.Blurs ⟨none, .none, .none⟩ 0 n := by
  filter_upwards [sim_large hn] with s ⟨h2, h7⟩
  have hs : 0 < s := by linarith
  have integ0 : GridModel ℝ → ℝ × ℝ → ℝ × ℝ → Except PyErr (Img ℝ) := fun _ _ _ => .error .exception
  obtain ⟨R, _, hR, hmax, -⟩ := C106_pixels hn hs integ0 (fun im _ => im)
  refine ⟨R, fun i j => gridProfile n (ellRadius (j : ℝ) i R R 0 0 / s), hR, hmax, ?_, fun integ rot => ?_⟩
  · rw [Nat.cast_zero]
    exact Blurred.sampled (gridProfile_galaxy hn) hs R R 0 0 (R * 2) (R * 2) R
  · obtain ⟨R', im, hR', hmax', him, hh, hw, hpx, -⟩ := C106_pixels hn hs integ rot
    obtain rfl : R' = R := le_antisymm (hmax _ hR') (hmax' _ hR)
    refine ⟨im, him, hh, hw, fun i j hi hj => ?_⟩
    rw [hpx i j hi hj, sim_profile hs]
    simp [ellRadius]

end

end Verif.Props

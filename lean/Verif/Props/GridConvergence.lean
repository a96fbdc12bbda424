import Verif.Lemmas.BlurredSimulation
import Verif.Lemmas.GammaTail

/-!
# C138: the correction grid for large galaxies
-/

set_option linter.unusedSectionVars false
set_option linter.unusedVariables false

namespace Verif.Props

open F Spec Lemmas Real Filter Topology

section
variable {n : ℝ} (hn : 0 < n) {cfg : SimSettings} {bl : Nat}
include hn

omit hn in
/-- The default interpolation is covered. -/
theorem cubic_grid : GridInterp (cubicInterp : Interp ℝ) := by
  right
  have h := cubic_tame (K := ℝ) (ρ := 101 / 2) (ρe := 3 / 2) (by norm_num)
  have e1 : tameFactor (101 / 2 : ℝ) (3 / 2) = 51005 / 2 := by unfold tameFactor; norm_num
  have e2 : (3 / 2 : ℝ) / (3 / 2 + 1) = 3 / 5 := by norm_num
  rwa [e1, e2] at h

omit hn in
theorem power_small (C B : ℝ) {ε : ℝ} (hε : 0 < ε) : ∃ k : ℕ, C * ((3 / 5 : ℝ) ^ k * B) < ε := by
  have ht := ((tendsto_pow_atTop_nhds_zero_of_lt_one (by norm_num : (0 : ℝ) ≤ 3 / 5) (by norm_num)).mul_const B).const_mul C
  rw [zero_mul, mul_zero] at ht
  obtain ⟨k0, hk⟩ := Filter.eventually_atTop.1 (ht.eventually (gt_mem_nhds hε))
  exact ⟨k0, hk k0 le_rfl⟩

set_option maxHeartbeats 1000000 in
/-- The interpolants of the Petrosian profiles of simulations with large `r_eff`. -/
theorem sim_past {eta rP T : ℝ} (heta : eta ≤ 1 / 2) (hrP : 0 < rP) (hrT : rP ≤ T) (hT : T < gridReach n) {σ : ℝ} (hσ : 0 < σ) :
    ∀ᶠ s in atTop, ∀ R A px, SimLists cfg bl s n R A px →
      ∃ pl, calculatePetrosian (A.map fin) ((simFlux s n R px).map fin) none none = .ok (pl, none) ∧ pl.length = (simUnits s n).length ∧
        (∀ i (h : i + 1 < (simUnits s n).length), ∃ v, pl[i + 1]? = some (fin v) ∧ ((simUnits s n)[i + 1] ≤ T →
          min (petroRatio (gridProfile n) (simUnits s n)[i + 1]) (eta + 1 / 4) - σ ≤ v ∧
            (rP ≤ (simUnits s n)[i + 1] → v ≤ petroRatio (gridProfile n) (simUnits s n)[i + 1] + σ))) ∧
        ∀ I, GridInterp I → ∀ Y : List ℝ, fin 1 :: pl.tail = Y.map fin →
          CalmPast (eta + 1 / 4) (s * rP) σ (s * T) I ((0 :: (simUnits s n).tail).map fun x => s * x) Y := by
  have G := gridProfile_galaxy hn
  set T' := (T + gridReach n) / 2 with hT'
  have hT'r : T' < gridReach n := by rw [hT']; linarith
  have hTT' : T < T' := by rw [hT']; linarith
  have hT'0 : 0 < T' := by linarith
  obtain ⟨B0, hB0, hent⟩ := sim_entries hn (cfg := cfg) (bl := bl) hT'0 hT'r
  obtain ⟨ρc, hρc, hc⟩ := gal_centre G (γ := 1 / 10) (by norm_num)
  set ρb := min ρc rP / 2 with hρb
  have hρb0 : 0 < ρb := by rw [hρb]; exact half_pos (lt_min hρc hrP)
  have hρbc : 2 * ρb ≤ ρc := by rw [hρb]; linarith [min_le_left ρc rP]
  have hρbP : 2 * ρb ≤ rP := by rw [hρb]; linarith [min_le_right ρc rP]
  obtain ⟨k, hk⟩ := power_small (51005 / 2) (2 * B0) (ε := min (σ / 2) (1 / 1000)) (lt_min (half_pos hσ) (by norm_num))
  have hk1 := hk.le.trans (min_le_left _ _)
  have hk2 := hk.le.trans (min_le_right _ _)
  set τ := σ / 200000 with hτ
  have hτ0 : 0 < τ := by rw [hτ]; positivity
  obtain ⟨ν, hν, hmod⟩ := fullRatio_modulus G T' (κ := min τ (1 / 10 ^ 7)) (lt_min hτ0 (by norm_num))
  filter_upwards [hent (ρb / 2) (by linarith) τ hτ0, sim_fine hn hν, sim_nodes hn, eventually_gt_atTop 0, sim_fine hn one_pos,
    eventually_ge_atTop ((k + 3) * 101 / (ρb / 2)), eventually_ge_atTop ((k + 3) * 101 / (T' - T)), eventually_ge_atTop (101 / ν)] with s hent hf hnodes hs hf1 hs1 hs2 hs3 R A px hA
  rw [div_le_iff₀ (by linarith)] at hs1 hs2 hs3
  obtain ⟨pl, h1, h2, h3⟩ := hent R A px hA
  refine ⟨pl, h1, h2, fun i h => ?_, fun I hI Y hY => ?_⟩
  · obtain ⟨v, hv, -, hacc⟩ := h3 i h
    refine ⟨v, hv, fun hiT => ?_⟩
    obtain ⟨a1, a2⟩ := hacc (hiT.trans hTT'.le)
    have hx0 := hf.pos h
    constructor
    · by_cases hcen : (simUnits s n)[i + 1] ≤ ρc
      · have := (hc _ hx0 hcen).2
        have h5 := (abs_le.1 a1).1
        have h6 := min_le_right (petroRatio (gridProfile n) (simUnits s n)[i + 1]) (eta + 1 / 4)
        norm_num at h5
        linarith only [this, h5, h6, heta, hσ]
      · have h5 := (abs_le.1 (a2 (by linarith [not_le.1 hcen]))).1
        have h6 := min_le_left (petroRatio (gridProfile n) (simUnits s n)[i + 1]) (eta + 1 / 4)
        have : τ ≤ σ := by rw [hτ]; linarith
        linarith only [h5, h6, this]
    · intro hrx
      have h5 := (abs_le.1 (a2 (by linarith))).2
      have : τ ≤ σ := by rw [hτ]; linarith
      linarith only [h5, this]
  · obtain ⟨hNl, hN4, hgap, hfirst, hlast, hNv⟩ := hnodes _ (Or.inr rfl)
    obtain ⟨Y', hY', hl, hY0, hacc⟩ := profile_numbers (Q := fun i v => ∀ h : i + 1 < (simUnits s n).length, |v| ≤ B0 ∧
        ((simUnits s n)[i + 1] ≤ T' → |v - petroRatio (gridProfile n) (simUnits s n)[i + 1]| ≤ 1 / 2 / 10 ^ 6 ∧
          (ρb / 2 ≤ (simUnits s n)[i + 1] → |v - petroRatio (gridProfile n) (simUnits s n)[i + 1]| ≤ τ))) h2 (by have := hf.three; omega)
      (fun i h => by
        obtain ⟨v, hv, hb⟩ := h3 i h
        exact ⟨v, hv, fun _ => hb⟩)
    obtain rfl : Y = Y' := by
      have : Y.map fin = Y'.map fin := by rw [← hY, ← hY']
      exact List.map_injective_iff.2 (fun a b h => by injection h) this
    rcases hI with hI | hI
    · exact calm_past (between_calm hI hσ.le _ (by rw [hNl, hl]) (by omega) (by
        unfold Incr
        rw [List.pairwise_map]
        exact hf.zeroed.1.imp fun h => mul_lt_mul_of_pos_left h hs)) _ _
    set N := (0 :: (simUnits s n).tail).map fun x => s * x with hN
    have hN0 : ∀ h : 0 < N.length, N[0] = 0 := by intro h; simp [hN]
    clear_value N
    have hYb : ∀ i (h : i < Y.length), |Y[i]| ≤ B0 := by
      intro i h
      cases i with
      | zero => rw [hY0 h, abs_one]; linarith
      | succ i => exact (hacc i (by omega) (by omega)).1
    -- the data in units of `r_eff`
    have hU : ∀ i (h : i < N.length), ∃ x, 0 ≤ x ∧ N[i] = s * x ∧ (x ≤ T' → |Y[i]'(by omega) - fullRatio (gridProfile n) x| ≤ 1 / 2 / 10 ^ 6 ∧
        (ρb / 2 ≤ x → |Y[i]'(by omega) - fullRatio (gridProfile n) x| ≤ τ)) := by
      intro i h
      cases i with
      | zero =>
        refine ⟨0, le_rfl, by rw [hN0 h, mul_zero], fun _ => ⟨?_, fun hb => absurd hb (by linarith)⟩⟩
        rw [hY0, fullRatio_zero]
        norm_num
      | succ i =>
        have hx0 := hf.pos (i := i + 1) (by omega)
        refine ⟨(simUnits s n)[i + 1]'(by omega), hx0.le, hNv i h (by omega), fun hxT => ?_⟩
        rw [fullRatio_pos hx0]
        exact (hacc i (by omega) (by omega)).2 hxT
    have hjump : ∀ i (h : i + 1 < N.length), N[i + 1] ≤ s * T' → |Y[i + 1]'(by omega) - Y[i]'(by omega)| ≤ 11 / 10 ^ 7 ∧
        (s * (ρb / 2) ≤ N[i] → |Y[i + 1]'(by omega) - Y[i]'(by omega)| ≤ 3 * τ) := by
      intro i h hiT
      obtain ⟨x, hx0, hx, hax⟩ := hU i (by omega)
      obtain ⟨y, hy0, hy, hay⟩ := hU (i + 1) h
      have g := hgap i h
      rw [hy] at hiT
      have hyT := le_of_mul_le_mul_left hiT hs
      have hxy : x ≤ y := by
        by_contra hcon
        have := mul_lt_mul_of_pos_left (not_le.1 hcon) hs
        linarith only [this, g.1, hx, hy]
      have hd : |y - x| ≤ ν := by
        rw [abs_of_nonneg (by linarith)]
        refine le_of_mul_le_mul_left ?_ hs
        linarith only [g.2, hx, hy, hs3]
      have hm := hmod y x hy0 hyT hx0 (hxy.trans hyT) hd
      obtain ⟨a1, a2⟩ := hax (hxy.trans hyT)
      obtain ⟨b1, b2⟩ := hay hyT
      constructor
      · have m2 := abs_le.1 (hm.trans (min_le_right _ _))
        have a1' := abs_le.1 a1
        have b1' := abs_le.1 b1
        norm_num at m2 a1' b1'
        rw [abs_le]
        norm_num
        constructor <;> linarith only [m2.1, m2.2, a1'.1, a1'.2, b1'.1, b1'.2]
      · intro hbx
        rw [hx] at hbx
        have hbx' := le_of_mul_le_mul_left hbx hs
        have m2 := abs_le.1 (hm.trans (min_le_left _ _))
        have a1' := abs_le.1 (a2 hbx')
        have b1' := abs_le.1 (b2 (hbx'.trans hxy))
        rw [abs_le]
        constructor <;> linarith only [m2.1, m2.2, a1'.1, a1'.2, b1'.1, b1'.2]
    have hpast := tame_past hI (by rw [hNl, hl]) hN4 two_pos (by norm_num) hgap hfirst hlast hYb (δ1 := 11 / 10 ^ 7) (δ2 := 3 * τ) (T := s * T)
      (T' := s * T') (ρ' := s * (ρb / 2)) (a := s * ρb) (d := σ) (lo := eta + 1 / 4) k (fun i h hT => (hjump i h hT).1)
      (fun i h hb hT => (hjump i h hT).2 hb) (by linarith only [hs2]) (by linarith only [hs1])
      (by rw [hN0 (by omega)]; positivity)
      (by
        intro i h hi
        obtain ⟨x, hx0, hx, hax⟩ := hU i h
        rw [hx] at hi
        have hx2 : x ≤ 2 * ρb := by
          refine le_of_mul_le_mul_left ?_ hs
          have hk0 : (0 : ℝ) ≤ k := Nat.cast_nonneg _
          nlinarith only [hi, hs1, hk0, hs, hρb0]
        have hxc := hx2.trans hρbc
        obtain ⟨a1, -⟩ := hax (by linarith only [hx2, hρbP, hrT, hTT'])
        have a1' := (abs_le.1 a1).1
        have hfull : 9 / 10 ≤ fullRatio (gridProfile n) x := by
          rcases hx0.eq_or_lt with e | e
          · rw [← e, fullRatio_zero]; norm_num
          · rw [fullRatio_pos e]
            have := (hc x e hxc).2
            linarith
        norm_num at a1' ⊢
        linarith only [a1', hfull, hk2, heta, hσ])
      (by rw [hτ]; linarith only [hk1, hτ, hσ])
    intro j h h' q hq1 hq2
    obtain ⟨v, hv, hb⟩ := hpast j h h' q hq1 hq2
    refine ⟨v, hv, fun hqT => ⟨(hb hqT).1, fun ha => (hb hqT).2 (le_trans ?_ ha)⟩⟩
    exact mul_le_mul_of_nonneg_left (by linarith) hs.le

/-- Petrosian radii of simulations with large `r_eff`. -/
theorem sim_petrosian {eta rP : ℝ} (heta : eta ≤ 1 / 2) (hrP : 0 < rP) (htrue : petroRatio (gridProfile n) rP = eta) (hreach : rP < gridReach n)
    {ε : ℝ} (hε : 0 < ε) : ∀ᶠ s in atTop, ∀ R A px, SimLists cfg bl s n R A px →
      ∃ pl, calculatePetrosian (A.map fin) ((simFlux s n R px).map fin) none none = .ok (pl, none) ∧
        ∀ (ip : InterpFam ℝ) (kind : Option String) (num : Nat), (∀ k, kind = some k → GridInterp (ip k)) →
        ∃ r, calculatePetrosianR ip ((simUnits s n).map fun x => fin (s * x)) pl none (fin eta) kind num = .ok (fin (s * r), nan) ∧
          |r - rP| ≤ ε := by
  set ε' := min ε ((gridReach n - rP) / 2) with hε'
  have hε'0 : 0 < ε' := lt_min hε (by linarith)
  have G := gridProfile_galaxy hn
  obtain ⟨δ, hδ, σ, hσ, h⟩ := C136_stable_past G hrP htrue hε'0 (c := 1 / 4) (by norm_num)
  have hr : rP + ε' < gridReach n := by
    have := min_le_right ε ((gridReach n - rP) / 2)
    linarith
  filter_upwards [sim_fine hn hδ, eventually_gt_atTop 0, sim_past hn (cfg := cfg) (bl := bl) heta hrP (by linarith : rP ≤ rP + ε') hr hσ, sim_reach hn hr]
    with s hf hs hpast hre R A px hA
  obtain ⟨pl, h1, h2, h3, h4⟩ := hpast R A px hA
  obtain ⟨-, hcov⟩ := hre R hA.mem hA.max
  refine ⟨pl, h1, fun ip kind num hB => ?_⟩
  obtain ⟨r, g1, g2⟩ := h s hs (simUnits s n) hf hcov pl h2 (by
    intro i hi
    obtain ⟨v, hv, hacc⟩ := h3 i hi
    refine ⟨v, hv, fun hiT => ⟨(hacc hiT).1, fun hri => ((hacc hiT).2 hri).trans ?_⟩⟩
    have hx0 := hf.pos (i := i) (by omega)
    have hxy := (hf.step i hi).1
    have hE := gal_pos G one_pos (hf.pos hi)
    have hp := Real.pi_pos
    have hy0 := hf.pos hi
    have : gridProfile n (simUnits s n)[i + 1] ≤ gridProfile n (simUnits s n)[i] :=
      G.falls.antitoneOn (Set.mem_Ici.2 hx0.le) (Set.mem_Ici.2 hy0.le) hxy.le
    unfold petroRatio
    have h5 : gridProfile n (simUnits s n)[i + 1] / (enclosed (gridProfile n) 1 (simUnits s n)[i + 1] / (π * (simUnits s n)[i + 1] ^ 2)) ≤
        gridProfile n (simUnits s n)[i] / (enclosed (gridProfile n) 1 (simUnits s n)[i + 1] / (π * (simUnits s n)[i + 1] ^ 2)) :=
      div_le_div_of_nonneg_right this (by positivity)
    linarith only [h5]) ip kind num (fun k hk Y hY => h4 (ip k) (hB k hk) Y hY)
  exact ⟨r, g1, g2.trans (min_le_left _ _)⟩

omit hn in
/-- `fraction_to_r` without flux errors only depends on the product of Petrosian radius and epsilon. -/
theorem fractionToR_product {ip : InterpFam ℝ} {fraction epsf a b a' b' : F ℝ} {rl fl : List (F ℝ)} {rpe : Option (F ℝ)} {kind : Option String}
    {num : Nat} (h : a * b = a' * b') :
    fractionToR ip fraction rl fl a none rpe b epsf kind num = fractionToR ip fraction rl fl a' none rpe b' epsf kind num := by
  unfold fractionToR
  rw [h]

/-- The fluxes of simulations with large `r_eff`. -/
theorem sim_flux {T : ℝ} (hT : T < gridReach n) {σ : ℝ} (hσ : 0 < σ) : ∀ᶠ s in atTop, ∀ R A px, SimLists cfg bl s n R A px →
    ∀ i (h : i < (simUnits s n).length) (h' : i < (simFlux s n R px).length), (simUnits s n)[i] ≤ T →
      |(simFlux s n R px)[i] - s ^ 2 * enclosed (gridProfile n) 1 (simUnits s n)[i]| ≤ s ^ 2 * σ := by
  obtain ⟨s0, hs0, h0⟩ := blurred_flux (gridProfile_galaxy hn) le_rfl one_pos (Nat.cast_nonneg bl) T hσ
  filter_upwards [sim_fine hn one_pos, eventually_ge_atTop s0, sim_reach hn hT, sim_room hn hT (1 + bl)] with s hf hs hre hroom R A px hA i h h' hi
  have hsp : 0 < s := lt_of_lt_of_le hs0 hs
  have := h0 s hs (simUnits s n)[i] (hf.pos h) hi (R * 2) (R * 2) R R 0 R px hA.blurred
    (by
      have := mul_le_mul_of_nonneg_left hi hsp.le
      have := hroom R hA.mem hA.max
      rw [sub_zero, div_one]
      linarith)
    (hA.frame _ (List.getElem_mem h) (lt_of_le_of_lt (mul_le_mul_of_nonneg_left hi hsp.le) (hre R hA.mem hA.max).1))
  rw [sub_zero] at this
  simpa [simFlux] using this

/-- The interpolants of the fluxes of simulations with large `r_eff`. -/
theorem sim_flux_calm {T : ℝ} (hT0 : 0 < T) (hT : T < gridReach n) {σ : ℝ} (hσ : 0 < σ) : ∀ᶠ s in atTop, ∀ R A px, SimLists cfg bl s n R A px →
    ∀ I, GridInterp I → Calm (s ^ 2 * σ) (s * T) I ((simUnits s n).map fun x => s * x) (simFlux s n R px) := by
  have G := gridProfile_galaxy hn
  have hI0 := gridProfile_zero hn
  set T' := (T + gridReach n) / 2 with hT'
  have hT'r : T' < gridReach n := by rw [hT']; linarith
  have hTT' : T < T' := by rw [hT']; linarith
  obtain ⟨B0, hB0, hbound⟩ := sim_flux_bounded hn (cfg := cfg) (bl := bl)
  obtain ⟨k, hk⟩ := power_small (51005 / 2) (2 * B0) (half_pos hσ)
  set τ := σ / 200000 with hτ
  have hτ0 : 0 < τ := by rw [hτ]; positivity
  have hp := Real.pi_pos
  have hT'0 : 0 < T' := by linarith
  filter_upwards [hbound, sim_flux hn (cfg := cfg) (bl := bl) hT'r hτ0, sim_fine hn one_pos, sim_nodes hn, eventually_gt_atTop 0,
    eventually_ge_atTop ((k + 3) * 101 / (T' - T)), eventually_ge_atTop (101 * (100 * (π * (2 * T'))) / τ)] with s hbound hfl hf hnodes hs hs2 hs3 R A px hA I hI
  rw [div_le_iff₀ (by linarith)] at hs2
  rw [div_le_iff₀ hτ0] at hs3
  obtain ⟨hNl, hN4, hgap, hfirst, hlast, hNv⟩ := hnodes _ (Or.inl rfl)
  have hFl : (simFlux s n R px).length = (simUnits s n).length := by simp [simFlux]
  rcases hI with hI | hI
  · refine between_calm hI (by positivity) _ (by rw [hNl, hFl]) (by omega) (by
      unfold Incr
      rw [List.pairwise_map]
      exact hf.incr.imp fun h => mul_lt_mul_of_pos_left h hs)
  have hNx : ∀ i (h : i < ((simUnits s n).map fun x => s * x).length) (h' : i < (simUnits s n).length),
      ((simUnits s n).map fun x => s * x)[i] = s * (simUnits s n)[i] := by
    intro i h h'; simp
  have hs20 : 0 < s ^ 2 := by positivity
  refine tame_calm hI (by rw [hNl, hFl]) hN4 two_pos (by norm_num) hgap hfirst hlast (hbound R A px hA) (δ := s ^ 2 * (3 * τ)) (T' := s * T') k
    ?_ (by linarith only [hs2]) ?_
  · intro i h hiT
    have hi1 : i + 1 < (simUnits s n).length := by omega
    have g := (hgap i h).2
    rw [hNx _ h hi1] at hiT g
    rw [hNx i (by omega) (by omega)] at g
    have hyT := le_of_mul_le_mul_left hiT hs
    have hxy := (hf.step i hi1).1
    have hx0 := hf.pos (i := i) (by omega)
    have a1 := abs_le.1 (hfl R A px hA i (by omega) (by omega) (hxy.le.trans hyT))
    have a2 := abs_le.1 (hfl R A px hA (i + 1) hi1 (by omega) hyT)
    obtain ⟨r1, r2⟩ := gal_ring G one_pos hx0.le hxy.le
    set x := (simUnits s n)[i] with hx
    set y := (simUnits s n)[i + 1] with hy
    have hmono : enclosed (gridProfile n) 1 x ≤ enclosed (gridProfile n) 1 y :=
      (gal_strictMono G one_pos).monotoneOn (Set.mem_Ici.2 hx0.le) (Set.mem_Ici.2 (hx0.trans hxy).le) hxy.le
    have hIx : gridProfile n x ≤ 100 := by
      rw [← hI0]
      exact G.falls.antitoneOn (Set.mem_Ici.2 le_rfl) (Set.mem_Ici.2 hx0.le) hx0.le
    have hring : enclosed (gridProfile n) 1 y - enclosed (gridProfile n) 1 x ≤ τ := by
      have b0 : 0 ≤ y ^ 2 - x ^ 2 := by nlinarith only [hx0, hxy]
      have b1 : π * 1 * y ^ 2 - π * 1 * x ^ 2 = π * (y ^ 2 - x ^ 2) := by ring
      rw [b1] at r2
      have b2 : gridProfile n x * (π * (y ^ 2 - x ^ 2)) ≤ 100 * (π * (y ^ 2 - x ^ 2)) := mul_le_mul_of_nonneg_right hIx (by positivity)
      have b3 : y ^ 2 - x ^ 2 ≤ 2 * T' * (y - x) := by nlinarith only [hx0, hxy, hyT]
      have b4 : π * (y ^ 2 - x ^ 2) ≤ π * (2 * T' * (y - x)) := mul_le_mul_of_nonneg_left b3 hp.le
      have b5 : s * (100 * (π * (2 * T' * (y - x)))) ≤ s * τ := by
        have c1 : 100 * (π * (2 * T')) * (s * y - s * x) ≤ 100 * (π * (2 * T')) * 101 := mul_le_mul_of_nonneg_left (by linarith only [g]) (by positivity)
        linarith only [c1, hs3]
      have b6 := le_of_mul_le_mul_left b5 hs
      linarith only [r2, b2, b4, b6]
    have hring' := mul_le_mul_of_nonneg_left hring hs20.le
    have hmono' := mul_le_mul_of_nonneg_left hmono hs20.le
    rw [abs_le]
    constructor <;> linarith only [a1.1, a1.2, a2.1, a2.2, hring', hmono']
  · have h1 : 51005 / 2 * (s ^ 2 * (3 * τ) + (3 / 5) ^ k * (2 * (s ^ 2 * B0))) = s ^ 2 * (51005 / 2 * (3 * τ) + 51005 / 2 * ((3 / 5) ^ k * (2 * B0))) := by
      ring
    rw [h1]
    refine mul_le_mul_of_nonneg_left ?_ hs20.le
    rw [hτ]
    linarith only [hk, hσ]

/-- Radii of flux fractions of simulations with large `r_eff`. -/
theorem sim_fraction {frac epsf x0 rF : ℝ} (hepsf : epsf ≠ 0) (hx0 : 0 < x0) (hrF : 0 < rF)
    (htrue : enclosed (gridProfile n) 1 rF = frac / epsf * enclosed (gridProfile n) 1 x0) (hreach : rF < gridReach n)
    (hreach' : x0 < gridReach n) {ε : ℝ} (hε : 0 < ε) : ∃ δ > 0, ∀ᶠ s in atTop, ∀ R A px, SimLists cfg bl s n R A px → ∀ x, |x - x0| ≤ δ →
      ∀ a b : F ℝ, a * b = fin (s * x) → ∀ (ip : InterpFam ℝ) (kind : Option String) (num : Nat) (rpe : Option (F ℝ)),
      GridInterp (ip (kind.getD "cubic")) →
      ∃ r, fractionToR ip (fin frac) ((simUnits s n).map fun x => fin (s * x)) ((simFlux s n R px).map fin) a none rpe b (fin epsf) kind num =
          .ok (fin (s * r), nan) ∧ |r - rF| ≤ ε ∧ 0 < r := by
  set m := max rF x0 with hm
  have hmr : m < gridReach n := max_lt hreach hreach'
  set ε' := min ε ((gridReach n - m) / 2) with hε'
  have hε'0 : 0 < ε' := lt_min hε (by linarith)
  have hr : m + ε' < gridReach n := by
    have := min_le_right ε ((gridReach n - m) / 2)
    linarith
  have hr0 : 0 < m + ε' := by
    have := le_max_left rF x0
    linarith
  obtain ⟨δ, hδ, σ, hσ, h⟩ := C137_stable_calm (gridProfile_galaxy hn) one_pos (eps := 1) one_pos hepsf hx0 hrF (by rw [one_mul]; exact htrue) hε'0
  refine ⟨δ, hδ, ?_⟩
  filter_upwards [sim_fine hn hδ, eventually_gt_atTop 0, sim_reach hn hr, sim_flux hn (cfg := cfg) (bl := bl) hr hσ, sim_flux_calm hn (cfg := cfg) (bl := bl) hr0 hr hσ]
    with s hf hs hre hfl hcalm R A px hA x hx a b hab ip kind num rpe hB
  obtain ⟨hR, y, hy, hyT⟩ := hre R hA.mem hA.max
  have hcov : ∀ t, t ≤ m → Covers (simUnits s n) (t + ε') := fun t ht => ⟨y, hy, by linarith⟩
  have hl : (simUnits s n).length = (simFlux s n R px).length := by simp [simFlux]
  obtain ⟨r, g1, g2, g3⟩ := h s hs (s ^ 2) (by positivity) (simUnits s n) hf (hcov _ (le_max_left _ _))
    (by rw [one_mul]; exact hcov _ (le_max_right _ _)) (simFlux s n R px) hl
    (by
      rw [one_mul]
      intro i hi hiT
      exact hfl R A px hA i hi (by omega) hiT) x hx ip kind num rpe (by rw [one_mul]; exact hcalm R A px hA _ hB)
  refine ⟨r, ?_, g2.trans (min_le_left _ _), g3⟩
  rw [← g1]
  exact fractionToR_product (by rw [hab]; simp)

/-- Radii of fluxes of simulations with large `r_eff`. -/
theorem sim_radiusOfFlux {r0 : ℝ} (hr0 : 0 < r0) (hreach : r0 < gridReach n) {ε : ℝ} (hε : 0 < ε) :
    ∀ᶠ s in atTop, ∀ R A px, SimLists cfg bl s n R A px → ∀ ip : InterpFam ℝ, BetweenNodes (ip "linear") →
      ∃ r, RadiusOfFlux ip ((simUnits s n).map fun x => fin (s * x)) ((simFlux s n R px).map fin) (fin (s ^ 2 * enclosed (gridProfile n) 1 r0))
        (fin (s * r)) ∧ |r - r0| ≤ ε := by
  set ε' := min ε ((gridReach n - r0) / 2) with hε'
  have hε'0 : 0 < ε' := lt_min hε (by linarith)
  have hr : r0 + ε' < gridReach n := by
    have := min_le_right ε ((gridReach n - r0) / 2)
    linarith
  obtain ⟨δ, hδ, σ, hσ, h⟩ := radiusOfFlux_stable (gridProfile_galaxy hn) one_pos hr0 hε'0
  filter_upwards [sim_fine hn hδ, eventually_gt_atTop 0, sim_reach hn hr, sim_flux hn (cfg := cfg) (bl := bl) hr hσ] with s hf hs hre hfl R A px hA ip hB
  obtain ⟨hR, hcov⟩ := hre R hA.mem hA.max
  have hl : (simUnits s n).length = (simFlux s n R px).length := by simp [simFlux]
  obtain ⟨r, g1, g2⟩ := h s hs (s ^ 2) (by positivity) (simUnits s n) hf hcov (simFlux s n R px) hl
    (by
      intro i j hi hj hij
      have hj' : j < (simUnits s n).length := by omega
      have hi' : i < (simUnits s n).length := by omega
      simp only [simFlux, List.getElem_map]
      apply round6_mono
      apply imageSum_mono _ _ _ _ hA.blurred.nonneg (mul_pos hs (hf.pos hi'))
      exact mul_le_mul_of_nonneg_left (Incr.le_getElem hf.incr hij hj') hs.le)
    (fun i hi hiT => hfl R A px hA i hi (by omega) hiT) ip hB
  exact ⟨r, g1, g2.trans (min_le_left _ _)⟩

end

theorem div_stable {a b ε : ℝ} (hb : 0 < b) (hε : 0 < ε) :
    ∃ τ > 0, ∀ x y, |x - a| ≤ τ → |y - b| ≤ τ → 0 < y ∧ |x / y - a / b| ≤ ε := by
  have hc : ContinuousAt (fun p : ℝ × ℝ => p.1 / p.2) (a, b) := continuousAt_fst.div continuousAt_snd hb.ne'
  obtain ⟨τ, hτ, h⟩ := Metric.continuousAt_iff.1 hc ε hε
  refine ⟨min (τ / 2) (b / 2), lt_min (by linarith) (by linarith), fun x y hx hy => ⟨?_, ?_⟩⟩
  · have := (abs_le.1 (hy.trans (min_le_right _ _))).1
    linarith
  · have := @h (x, y) (by
      rw [Prod.dist_eq, max_lt_iff, Real.dist_eq, Real.dist_eq]
      have h1 := hx.trans (min_le_left _ _)
      have h2 := hy.trans (min_le_left _ _)
      exact ⟨by linarith, by linarith⟩)
    rw [Real.dist_eq] at this
    exact this.le

theorem radiusOfFlux_unique {ip : InterpFam ℝ} {rl fl : List (F ℝ)} {t r r' : F ℝ} (h : RadiusOfFlux ip rl fl t r)
    (h' : RadiusOfFlux ip rl fl t r') : r = r' := by
  obtain ⟨a, b, h1, h2, h3⟩ := h
  obtain ⟨a', b', h1', h2', h3'⟩ := h'
  rw [h1] at h1'
  rw [h2] at h2'
  injection h1' with h1'
  injection h2' with h2'
  subst h1' h2'
  rw [h3] at h3'
  exact Except.ok.inj h3'

/-- A Petrosian radius for every smaller ratio. -/
theorem petro_exists {I : ℝ → ℝ} (G : Galaxy I) {eta eta' rP : ℝ} (hrP : 0 < rP) (h : petroRatio I rP = eta) (h1 : eta ≤ eta') (h2 : eta' < 1) :
    ∃ r, 0 < r ∧ r ≤ rP ∧ petroRatio I r = eta' := by
  obtain ⟨ρ, hρ, hc⟩ := gal_centre G (γ := 1 - eta') (by linarith)
  set b := min ρ rP with hb
  have hb0 : 0 < b := lt_min hρ hrP
  have hbP : b ≤ rP := min_le_right _ _
  have hlo := (hc b hb0 (min_le_left _ _)).2
  have hcont : ContinuousOn (petroRatio I) (Set.Icc b rP) := fun x hx =>
    (petroRatio_continuousAt G (lt_of_lt_of_le hb0 hx.1)).continuousWithinAt
  obtain ⟨r, hr, e⟩ := intermediate_value_Icc' hbP hcont (show eta' ∈ _ from ⟨by rw [h]; exact h1, by linarith⟩)
  exact ⟨r, lt_of_lt_of_le hb0 hr.1, hr.2, e⟩

/-- A radius for every smaller flux. -/
theorem flux_exists {I : ℝ → ℝ} (G : Galaxy I) {c x0 : ℝ} (hx0 : 0 < x0) (h1 : 0 < c) (h2 : c ≤ 1) :
    ∃ r, 0 < r ∧ r ≤ x0 ∧ enclosed I 1 r = c * enclosed I 1 x0 := by
  have hE := gal_pos G one_pos hx0
  have hcont : ContinuousOn (enclosed I 1) (Set.Icc 0 x0) := (gal_cont G 1).mono fun x hx => hx.1
  obtain ⟨r, hr, e⟩ := intermediate_value_Icc hx0.le hcont (show c * enclosed I 1 x0 ∈ _ from by
    rw [gal_zero]
    constructor
    · positivity
    · nlinarith)
  refine ⟨r, lt_of_le_of_ne hr.1 ?_, hr.2, e⟩
  rintro rfl
  rw [gal_zero] at e
  have : 0 < c * enclosed I 1 x0 := by positivity
  linarith

/-- The cell `key` of a row is `unit` times a number within `ε` of `x`. -/
def Cell (row : List (F ℝ)) (key : String) (unit x ε : ℝ) : Prop := ∃ v, rowGet gridNames row key = .ok (fin (unit * v)) ∧ |v - x| ≤ ε

/-- The object of a simulation. -/
theorem sim_object {s n : ℝ} {R : Nat} {A : List ℝ} {px : Nat → Nat → ℝ} {pl : List (F ℝ)} (hf : Fine 1 (simUnits s n)) 
    (hpl : calculatePetrosian (A.map fin) ((simFlux s n R px).map fin) none none = .ok (pl, none)) :
    SimProfile ((simUnits s n).map fun x => fin (s * x)) (A.map fin) ((simFlux s n R px).map fin)
      ⟨(simUnits s n).map fun x => fin (s * x), A.map fin, (simFlux s n R px).map fin, none, none, fin (1 / 5), fin 2, fin (99 / 100),
        fin (99 / 100), some "cubic", 5000, pl, none⟩ := by
  have := hf.three
  refine Petrosian.init_ok_iff.2 ⟨?_, ?_, by rintro e ⟨⟩, by rintro e ⟨⟩, pl, none, hpl, rfl⟩
  · rw [List.length_map]; omega
  · simp [simFlux]

section
variable {n : ℝ} (hn : 0 < n) {cfg : SimSettings} {bl : Nat}
include hn

theorem grid_numbers : enclosed (gridProfile n) 1 1 = (simNumbers 1 n).lTotal / 2 ∧
    Tendsto (fun r => enclosed (gridProfile n) 1 r) atTop (𝓝 (simNumbers 1 n).lTotal) ∧
    (simNumbers 1 n).totalFlux = enclosed (gridProfile n) 1 (simNumbers 1 n).rTotal ∧
    (simNumbers 1 n).totalFlux = 99 / 100 * (simNumbers 1 n).lTotal ∧
    (simNumbers 1 n).totalFlux * (4 / 5) = enclosed (gridProfile n) 1 (simNumbers 1 n).r80 ∧ 0 < (simNumbers 1 n).r80 ∧
    (simNumbers 1 n).r80 < (simNumbers 1 n).rTotal ∧ 0 < (simNumbers 1 n).lTotal := by
  obtain ⟨-, -, b2, b3, b4, b5, b6, b7, b8, b9, b10⟩ := C105_truth hn one_pos
  have e1 : sersic (bn n) (simNumbers 1 n).amplitude 1 n = gridProfile n := by
    funext t; rw [sim_profile one_pos, div_one]
  rw [e1] at b2 b3 b8 b9 b10
  have := gal_pos (gridProfile_galaxy hn) one_pos (one_pos : (0 : ℝ) < 1)
  refine ⟨b3, b2, by rw [b4, b10], b4, by rw [b4, b9]; ring, by linarith, b7, by linarith⟩

/-- One of the four Petrosian columns. -/
theorem sim_column_petrosian {eta rP : ℝ} (heta : eta ≤ 1 / 2) (hrP : 0 < rP) (htrue : petroRatio (gridProfile n) rP = eta)
    (hreach : rP < gridReach n) {ε : ℝ} (hε : 0 < ε) : ∀ᶠ s in atTop, ∀ R A px, SimLists cfg bl s n R A px → ∀ pl,
      calculatePetrosian (A.map fin) ((simFlux s n R px).map fin) none none = .ok (pl, none) → ∀ ip : InterpFam ℝ, GridInterp (ip "cubic") →
      ∃ r, calculatePetrosianR ip ((simUnits s n).map fun x => fin (s * x)) pl none (fin eta) = .ok (fin (s * r), nan) ∧ |r - rP| ≤ ε := by
  filter_upwards [sim_petrosian hn (cfg := cfg) (bl := bl) heta hrP htrue hreach hε] with s h R A px hA pl hpl ip hB
  obtain ⟨pl', h1, h2⟩ := h R A px hA
  obtain rfl : pl' = pl := by
    rw [h1] at hpl
    exact congrArg Prod.fst (Except.ok.inj hpl)
  exact h2 ip _ _ (by rintro k ⟨⟩; exact hB)

set_option maxHeartbeats 1000000 in
/-- The columns, in terms of the numbers of the unit simulation. -/
theorem grid_columns (hcfg : cfg.Blurs bl n) {rP r3 r4 r5 r20 r80 : ℝ} (hrP : 0 < rP) (hP : petroRatio (gridProfile n) rP = 1 / 5) (hreach : rP < gridReach n)
    (hr3 : 0 < r3) (h3 : petroRatio (gridProfile n) r3 = 3 / 10) (hr4 : 0 < r4) (h4 : petroRatio (gridProfile n) r4 = 2 / 5)
    (hr5 : 0 < r5) (h5 : petroRatio (gridProfile n) r5 = 1 / 2) (hr20 : 0 < r20)
    (h20 : enclosed (gridProfile n) 1 r20 = (simNumbers 1 n).lTotal / 5) (hr80 : 0 < r80)
    (h80 : enclosed (gridProfile n) 1 r80 = (simNumbers 1 n).lTotal * 4 / 5) {ε : ℝ} (hε : 0 < ε) :
    ∀ᶠ s in atTop, ∀ (ip : InterpFam ℝ) (integ : GridModel ℝ → ℝ × ℝ → ℝ × ℝ → Except PyErr (Img ℝ)) (rot : Img ℝ → ℝ → Img ℝ),
      GridInterp (ip "cubic") → BetweenNodes (ip "linear") → ∀ row,
      simulate ip exactOverlap integ rot cfg.psf cfg.oversample cfg.psfOversample s n = .ok row →
      Cell row "p02" s rP ε ∧ Cell row "p03" s r3 ε ∧ Cell row "p04" s r4 ε ∧ Cell row "p05" s r5 ε ∧
      Cell row "c_epsilon" 1 ((simNumbers 1 n).rTotal / rP) ε ∧ Cell row "c_epsilon_80" 1 ((simNumbers 1 n).r80 / rP) ε ∧
      Cell row "c_r_99" s (simNumbers 1 n).rTotal ε ∧ Cell row "c_r_50" s 1 ε ∧ Cell row "c_r_20" s r20 ε ∧ Cell row "c_r_80" s r80 ε ∧
      rowGet gridNames row "sersic_r_20" = .ok (fin (s * (simNumbers 1 n).r20)) ∧
      rowGet gridNames row "sersic_r_80" = .ok (fin (s * (simNumbers 1 n).r80)) ∧
      rowGet gridNames row "sersic_r_99" = .ok (fin (s * (simNumbers 1 n).rTotal)) := by
  have G := gridProfile_galaxy hn
  obtain ⟨n1, n2, n3, n4, n5, n6, n7, n8⟩ := grid_numbers hn
  have hT := rTotal_pos hn
  have hTr := rTotal_lt_reach hn
  have hE99 : enclosed (gridProfile n) 1 (simNumbers 1 n).rTotal = 99 / 100 * (simNumbers 1 n).lTotal := by rw [← n3, n4]
  have hin : ∀ r, 0 < r → enclosed (gridProfile n) 1 r < 99 / 100 * (simNumbers 1 n).lTotal → r < gridReach n := by
    intro r hr h
    refine lt_trans ?_ hTr
    by_contra hcon
    have := (gal_strictMono G one_pos).monotoneOn (Set.mem_Ici.2 hT.le) (Set.mem_Ici.2 hr.le) (not_lt.1 hcon)
    linarith
  have hless : ∀ r eta', 0 < r → petroRatio (gridProfile n) r = eta' → 1 / 5 ≤ eta' → r < gridReach n := by
    intro r eta' hr he h
    refine lt_of_le_of_lt ?_ hreach
    by_contra hcon
    have := G.ratioFalls (Set.mem_Ioi.2 hrP) (Set.mem_Ioi.2 hr) (not_le.1 hcon)
    linarith
  obtain ⟨τ1, hτ1, hd1⟩ := div_stable (a := (simNumbers 1 n).rTotal) hrP hε
  obtain ⟨τ2, hτ2, hd2⟩ := div_stable (a := (simNumbers 1 n).r80) hrP hε
  have h99 : (99 / 100 : ℝ) ≠ 0 := by norm_num
  obtain ⟨δ1, hδ1, f1⟩ := sim_fraction hn (cfg := cfg) (bl := bl) (frac := 99 / 100) h99 hT hT (by norm_num) hTr hTr hε
  obtain ⟨δ2, hδ2, f2⟩ := sim_fraction hn (cfg := cfg) (bl := bl) (frac := 1 / 2) (rF := 1) h99 hT one_pos (by rw [n1, hE99]; ring)
    (hin 1 one_pos (by rw [n1]; linarith)) hTr hε
  obtain ⟨δ3, hδ3, f3⟩ := sim_fraction hn (cfg := cfg) (bl := bl) (frac := 1 / 5) h99 hT hr20 (by rw [h20, hE99]; ring)
    (hin _ hr20 (by rw [h20]; linarith)) hTr hε
  obtain ⟨δ4, hδ4, f4⟩ := sim_fraction hn (cfg := cfg) (bl := bl) (frac := 4 / 5) h99 hT hr80 (by rw [h80, hE99]; ring)
    (hin _ hr80 (by rw [h80]; linarith)) hTr hε
  set τm := min (min τ1 (min δ1 δ2)) (min δ3 δ4) with hτm
  have hτm0 : 0 < τm := lt_min (lt_min hτ1 (lt_min hδ1 hδ2)) (lt_min hδ3 hδ4)
  have m1 : τm ≤ τ1 := (min_le_left _ _).trans (min_le_left _ _)
  have m2 : τm ≤ δ1 := (min_le_left _ _).trans ((min_le_right _ _).trans (min_le_left _ _))
  have m3 : τm ≤ δ2 := (min_le_left _ _).trans ((min_le_right _ _).trans (min_le_right _ _))
  have m4 : τm ≤ δ3 := (min_le_right _ _).trans (min_le_left _ _)
  have m5 : τm ≤ δ4 := (min_le_right _ _).trans (min_le_right _ _)
  set τp := min ε (min τ1 τ2) with hτp
  have hτp0 : 0 < τp := lt_min hε (lt_min hτ1 hτ2)
  filter_upwards [sim_lists hn hcfg, sim_fine hn one_pos, eventually_gt_atTop 0, sim_petrosian hn (cfg := cfg) (bl := bl) (by norm_num) hrP hP hreach hτp0,
    sim_column_petrosian hn (cfg := cfg) (bl := bl) (by norm_num) hrP hP hreach hτp0,
    sim_column_petrosian hn (cfg := cfg) (bl := bl) (by norm_num) hr3 h3 (hless _ _ hr3 h3 (by norm_num)) hε,
    sim_column_petrosian hn (cfg := cfg) (bl := bl) (by norm_num) hr4 h4 (hless _ _ hr4 h4 (by norm_num)) hε,
    sim_column_petrosian hn (cfg := cfg) (bl := bl) (by norm_num) hr5 h5 (hless _ _ hr5 h5 (by norm_num)) hε,
    sim_radiusOfFlux hn (cfg := cfg) (bl := bl) hT hTr hτm0, sim_radiusOfFlux hn (cfg := cfg) (bl := bl) n6 (n7.trans hTr) hτ2, f1, f2, f3, f4]
    with s ⟨R, A, px, hA⟩ hf hs p0 p2 p3 p4 p5 q1 q2 f1 f2 f3 f4 ip integ rot hC hL row hrow
  rw [hA.row ip integ rot] at hrow
  obtain ⟨pl, hpl, -⟩ := p0 R A px hA
  obtain ⟨x, x1, x2⟩ := p2 R A px hA pl hpl ip hC
  obtain ⟨x3, y1, y2⟩ := p3 R A px hA pl hpl ip hC
  obtain ⟨x4, z1, z2⟩ := p4 R A px hA pl hpl ip hC
  obtain ⟨x5, w1, w2⟩ := p5 R A px hA pl hpl ip hC
  obtain ⟨m, hm1, hm2⟩ := q1 R A px hA ip hL
  obtain ⟨m', hm3, hm4⟩ := q2 R A px hA ip hL
  rw [← n3] at hm1
  rw [← n5, ← mul_assoc] at hm3
  have hp := sim_object hf hpl
  obtain ⟨rp, mt, m80, c02, c03, c04, c05, k1, k2, k3, k4, k5, k6, k7, k8, cp, rfl, hcol⟩ := C117_columns hrow hp
  obtain rfl := radiusOfFlux_unique hm1 k2
  have k3' : RadiusOfFlux ip ((simUnits s n).map fun x => fin (s * x)) ((simFlux s n R px).map fin)
      (fin (s ^ 2 * (simNumbers 1 n).totalFlux * (4 / 5))) m80 := by simpa using k3
  obtain rfl := radiusOfFlux_unique hm3 k3'
  have hcr : ∀ e : F ℝ, Petrosian.calcPetrosianR ip
      ⟨(simUnits s n).map fun x => fin (s * x), A.map fin, (simFlux s n R px).map fin, none, none, fin (1 / 5), e, fin (99 / 100),
        fin (99 / 100), some "cubic", 5000, pl, none⟩ = .ok (fin (s * x), nan) := fun e => x1
  obtain rfl : fin (s * x) = rp := by
    rw [Petrosian.rPetrosian, hcr] at k1
    exact Except.ok.inj k1
  rw [x1] at k5
  rw [y1] at k6
  rw [z1] at k7
  rw [w1] at k8
  obtain rfl : fin (s * x) = c02 := Except.ok.inj k5
  obtain rfl : fin (s * x3) = c03 := Except.ok.inj k6
  obtain rfl : fin (s * x4) = c04 := Except.ok.inj k7
  obtain rfl : fin (s * x5) = c05 := Except.ok.inj k8
  obtain ⟨hx0, he1⟩ := hd1 m x (hm2.trans m1) (x2.trans ((min_le_right _ _).trans (min_le_left _ _)))
  obtain ⟨-, he2⟩ := hd2 m' x hm4 (x2.trans ((min_le_right _ _).trans (min_le_right _ _)))
  have hsx : s * x ≠ 0 := (mul_pos hs hx0).ne'
  have ediv : ∀ a : ℝ, fin (s * a) / fin (s * x) = fin (a / x) := by
    intro a
    rw [F.fin_div_of_ne _ hsx, mul_div_mul_left _ _ hs.ne']
  have eprod : fin (s * x) * (fin (s * m) / fin (s * x)) = fin (s * m) := by
    rw [ediv, F.fin_mul]
    congr 1
    field_simp
  have hfrac : ∀ (f r : ℝ), fractionToR ip (fin f) ((simUnits s n).map fun x => fin (s * x)) ((simFlux s n R px).map fin) (fin (s * x)) none
      (some nan) (fin (s * m) / fin (s * x)) (fin (99 / 100)) (some "cubic") 5000 = .ok (fin (s * r), nan) →
      Petrosian.calcFractionToR ip ⟨(simUnits s n).map fun x => fin (s * x), A.map fin, (simFlux s n R px).map fin, none, none, fin (1 / 5),
        fin (s * m) / fin (s * x), fin (99 / 100), fin (99 / 100), some "cubic", 5000, pl, none⟩ (fin f) = .ok (fin (s * r), nan) := by
    intro f r h
    simp only [Petrosian.calcFractionToR, Petrosian.rPetrosian, Petrosian.rPetrosianErr, hcr, Except.map, Except.bind_ok, h]
  obtain ⟨r1, a1, b1, -⟩ := f1 R A px hA m (hm2.trans m2) _ _ eprod ip (some "cubic") 5000 (some nan) hC
  obtain ⟨r2, a2, b2, -⟩ := f2 R A px hA m (hm2.trans m3) _ _ eprod ip (some "cubic") 5000 (some nan) hC
  obtain ⟨r3', a3, b3, -⟩ := f3 R A px hA m (hm2.trans m4) _ _ eprod ip (some "cubic") 5000 (some nan) hC
  obtain ⟨r4', a4, b4, -⟩ := f4 R A px hA m (hm2.trans m5) _ _ eprod ip (some "cubic") 5000 (some nan) hC
  refine ⟨⟨x, hcol _ _ (by simp), x2.trans (min_le_left _ _)⟩, ⟨x3, hcol _ _ (by simp), y2⟩, ⟨x4, hcol _ _ (by simp), z2⟩,
    ⟨x5, hcol _ _ (by simp), w2⟩, ⟨m / x, ?_, he1⟩, ⟨m' / x, ?_, he2⟩, ⟨r1, ?_, b1⟩, ⟨r2, ?_, b2⟩, ⟨r3', ?_, b3⟩, ⟨r4', ?_, b4⟩,
    hcol _ _ (by simp), hcol _ _ (by simp), hcol _ _ (by simp)⟩
  · rw [one_mul, ← ediv]; exact hcol _ _ (by simp)
  · rw [one_mul, ← ediv]; exact hcol _ _ (by simp)
  · refine (hcol "c_r_99" _ (List.mem_iff_getElem?.2 ⟨25, rfl⟩)).trans ?_
    exact congrArg (Except.map Prod.fst) (hfrac _ _ a1)
  · refine (hcol "c_r_50" _ (List.mem_iff_getElem?.2 ⟨24, rfl⟩)).trans ?_
    exact congrArg (Except.map Prod.fst) (hfrac _ _ a2)
  · refine (hcol "c_r_20" _ (List.mem_iff_getElem?.2 ⟨26, rfl⟩)).trans ?_
    exact congrArg (Except.map Prod.fst) (hfrac _ _ a3)
  · refine (hcol "c_r_80" _ (List.mem_iff_getElem?.2 ⟨27, rfl⟩)).trans ?_
    exact congrArg (Except.map Prod.fst) (hfrac _ _ a4)

/-- Radii of all fractions that a row needs. -/
theorem sim_fractions {x0 : ℝ} (hx0 : 0 < x0) (hreach : x0 < gridReach n) : ∃ δ > 0, ∀ᶠ s in atTop, ∀ R A px, SimLists cfg bl s n R A px →
    ∀ x, |x - x0| ≤ δ → ∀ a b : F ℝ, a * b = fin (s * x) → ∀ ip : InterpFam ℝ, GridInterp (ip "cubic") →
    ∀ f ∈ [(1 / 2 : ℝ), 1 / 5, 4 / 5, 99 / 100, 9 / 10],
    ∃ r, fractionToR ip (fin f) ((simUnits s n).map fun x => fin (s * x)) ((simFlux s n R px).map fin) a none (some nan) b (fin (99 / 100))
      (some "cubic") 5000 = .ok (fin (s * r), nan) ∧ 0 < r := by
  have one : ∀ f : ℝ, 0 < f → f ≤ 99 / 100 → ∃ δ > 0, ∀ᶠ s in atTop, ∀ R A px, SimLists cfg bl s n R A px →
      ∀ x, |x - x0| ≤ δ → ∀ a b : F ℝ, a * b = fin (s * x) → ∀ ip : InterpFam ℝ, GridInterp (ip "cubic") →
      ∃ r, fractionToR ip (fin f) ((simUnits s n).map fun x => fin (s * x)) ((simFlux s n R px).map fin) a none (some nan) b (fin (99 / 100))
        (some "cubic") 5000 = .ok (fin (s * r), nan) ∧ 0 < r := by
    intro f hf0 hf1
    obtain ⟨rF, h1, h2, h3⟩ := flux_exists (gridProfile_galaxy hn) hx0 (c := f / (99 / 100)) (by positivity)
      (by rw [div_le_one (by norm_num)]; exact hf1)
    obtain ⟨δ, hδ, h⟩ := sim_fraction hn (cfg := cfg) (bl := bl) (by norm_num : (99 / 100 : ℝ) ≠ 0) hx0 h1 h3 (lt_of_le_of_lt h2 hreach) hreach one_pos
    refine ⟨δ, hδ, ?_⟩
    filter_upwards [h] with s h R A px hA x hx a b hab ip hC
    obtain ⟨r, g1, -, g3⟩ := h R A px hA x hx a b hab ip (some "cubic") 5000 (some nan) hC
    exact ⟨r, g1, g3⟩
  obtain ⟨δ1, h1, e1⟩ := one (1 / 2) (by norm_num) (by norm_num)
  obtain ⟨δ2, h2, e2⟩ := one (1 / 5) (by norm_num) (by norm_num)
  obtain ⟨δ3, h3, e3⟩ := one (4 / 5) (by norm_num) (by norm_num)
  obtain ⟨δ4, h4, e4⟩ := one (99 / 100) (by norm_num) (by norm_num)
  obtain ⟨δ5, h5, e5⟩ := one (9 / 10) (by norm_num) (by norm_num)
  refine ⟨min (min δ1 δ2) (min δ3 (min δ4 δ5)), lt_min (lt_min h1 h2) (lt_min h3 (lt_min h4 h5)), ?_⟩
  filter_upwards [e1, e2, e3, e4, e5] with s e1 e2 e3 e4 e5 R A px hA x hx a b hab ip hC f hf
  have m1 := hx.trans ((min_le_left _ _).trans (min_le_left _ _))
  have m2 := hx.trans ((min_le_left _ _).trans (min_le_right _ _))
  have m3 := hx.trans ((min_le_right _ _).trans (min_le_left _ _))
  have m4 := hx.trans ((min_le_right _ _).trans ((min_le_right _ _).trans (min_le_left _ _)))
  have m5 := hx.trans ((min_le_right _ _).trans ((min_le_right _ _).trans (min_le_right _ _)))
  simp only [List.mem_cons, List.not_mem_nil, or_false] at hf
  rcases hf with rfl | rfl | rfl | rfl | rfl
  · exact e1 R A px hA x m1 a b hab ip hC
  · exact e2 R A px hA x m2 a b hab ip hC
  · exact e3 R A px hA x m3 a b hab ip hC
  · exact e4 R A px hA x m4 a b hab ip hC
  · exact e5 R A px hA x m5 a b hab ip hC

omit hn in
/-- What a row needs from an object. -/
theorem object_numbers {ip : InterpFam ℝ} {p : Petrosian ℝ} {s rp : ℝ} (hs : 0 < s) (h1 : p.calcPetrosianR ip = .ok (fin rp, nan))
    (h2 : p.fluxErr = none) (htff : p.totalFluxFraction = fin (99 / 100))
    (h : ∀ f ∈ [(1 / 2 : ℝ), 1 / 5, 4 / 5, 99 / 100, 9 / 10], ∃ r, fractionToR ip (fin f) p.rList p.fluxList (fin rp) none (some nan)
      p.epsilon p.epsilonFraction p.interpKind p.interpNum = .ok (fin (s * r), nan) ∧ 0 < r) :
    (∃ a b c : ℝ, p.concentrationIndex ip (fin (1 / 5)) (fin (4 / 5)) = .ok (fin a, fin b, fin c)) ∧
    (∃ v, p.fractionFluxToR ip (fin (1 / 2)) = .ok v) ∧ (∃ v, p.fractionFluxToR ip (fin (1 / 5)) = .ok v) ∧
    (∃ v, p.fractionFluxToR ip (fin (4 / 5)) = .ok v) ∧ (∃ v, p.rTotalFlux ip = .ok v) ∧ (∃ v, p.c2080 ip = .ok v) ∧
    ∃ v, p.c5090 ip = .ok v := by
  have hfr : ∀ f ∈ [(1 / 2 : ℝ), 1 / 5, 4 / 5, 99 / 100, 9 / 10], ∃ v, p.fractionFluxToR ip (fin f) = .ok v := by
    intro f hf
    obtain ⟨r, hr, -⟩ := h f hf
    refine ⟨fin (s * r), ?_⟩
    simp only [Petrosian.fractionFluxToR, Petrosian.calcFractionToR, Petrosian.rPetrosian, Petrosian.rPetrosianErr, h1, Except.map,
      Except.bind_ok, h2, hr]
  have hci : ∀ f ∈ [(1 / 2 : ℝ), 1 / 5, 4 / 5, 99 / 100, 9 / 10], ∀ g ∈ [(1 / 2 : ℝ), 1 / 5, 4 / 5, 99 / 100, 9 / 10],
      ∃ a b c : ℝ, p.concentrationIndex ip (fin f) (fin g) = .ok (fin a, fin b, fin c) := by
    intro f hf g hg
    obtain ⟨a, ha, ha0⟩ := h f hf
    obtain ⟨b, hb, hb0⟩ := h g hg
    have hab : 0 < s * b / (s * a) := by positivity
    refine ⟨s * a, s * b, 5 * HasLog10.log10 (s * b / (s * a)), ?_⟩
    simp only [Petrosian.concentrationIndex, Petrosian.rPetrosian, Petrosian.rPetrosianErr, h1, Except.map, Except.bind_ok, h2,
      calculateConcentrationIndex, ha, hb]
    rw [F.fin_div_of_ne _ (mul_pos hs ha0).ne']
    simp [F.isNaN, F.log10, hab.ne', hab.le]
  obtain ⟨a, b, c, hc1⟩ := hci (1 / 5) (by simp) (4 / 5) (by simp)
  obtain ⟨a', b', c', hc2⟩ := hci (1 / 2) (by simp) (9 / 10) (by simp)
  refine ⟨⟨a, b, c, hc1⟩, hfr _ (by simp), hfr _ (by simp), hfr _ (by simp), ?_, ⟨fin c, ?_⟩, ⟨fin c', ?_⟩⟩
  · obtain ⟨v, hv⟩ := hfr (99 / 100) (by simp)
    exact ⟨v, by rw [Petrosian.rTotalFlux, htff]; exact hv⟩
  · rw [Petrosian.c2080, hc1]; rfl
  · rw [Petrosian.c5090, hc2]; rfl

omit hn in
/-- A row is made if everything it needs is there. -/
theorem simRow_ok {ip : InterpFam ℝ} {n rEff r20 r80 rTotal lTotal totalFlux : F ℝ} {rl ar fl : List (F ℝ)} {p cp : Petrosian ℝ}
    (hp : SimProfile rl ar fl p) {m m80 : F ℝ} {rp : ℝ} (hcp : cp = { p with epsilon := m / fin rp })
    (hci : ∃ a b c : ℝ, p.concentrationIndex ip (fin (1 / 5)) (fin (4 / 5)) = .ok (fin a, fin b, fin c))
    (hm : RadiusOfFlux ip rl fl totalFlux m) (hm80 : RadiusOfFlux ip rl fl (totalFlux * fin (4 / 5)) m80)
    (hrp : p.rPetrosian ip = .ok (fin rp)) {pl : List (F ℝ)} (hpl : calculatePetrosian p.areaList p.fluxList = .ok (pl, none))
    (h2 : calculatePetrosianR ip p.rList pl none (fin (1 / 5)) = .ok (fin rp, nan)) {v3 v4 v5 : F ℝ × F ℝ}
    (h3 : calculatePetrosianR ip p.rList pl none (fin (3 / 10)) = .ok v3) (h4 : calculatePetrosianR ip p.rList pl none (fin (2 / 5)) = .ok v4)
    (h5 : calculatePetrosianR ip p.rList pl none (fin (1 / 2)) = .ok v5)
    (hobj : ∀ o ∈ [p, cp], (∃ v, o.fractionFluxToR ip (fin (1 / 2)) = .ok v) ∧ (∃ v, o.fractionFluxToR ip (fin (1 / 5)) = .ok v) ∧
      (∃ v, o.fractionFluxToR ip (fin (4 / 5)) = .ok v) ∧ (∃ v, o.rTotalFlux ip = .ok v) ∧ (∃ v, o.c2080 ip = .ok v) ∧
      ∃ v, o.c5090 ip = .ok v) :
    ∃ row, simRow ip n rEff r20 r80 rTotal lTotal totalFlux rl ar fl = .ok row := by
  obtain ⟨a, b, c, hci⟩ := hci
  obtain ⟨f1, g1, e1, e2, e3⟩ := hm
  obtain ⟨f1', g1', e1', e2', e3'⟩ := hm80
  rw [e1] at e1'
  rw [e2] at e2'
  injection e1' with e1'
  injection e2' with e2'
  subst e1' e2'
  obtain ⟨⟨w1, u1⟩, ⟨w2, u2⟩, ⟨w3, u3⟩, ⟨w4, u4⟩, ⟨w5, u5⟩, w6, u6⟩ := hobj p (by simp)
  obtain ⟨⟨x1, c1⟩, ⟨x2, c2⟩, ⟨x3, c3⟩, ⟨x4, c4⟩, ⟨x5, c5⟩, x6, c6⟩ := hobj cp (by simp)
  rw [hcp] at c1 c2 c3 c4 c5 c6
  unfold SimProfile at hp
  unfold simRow
  rw [hp, Except.bind_ok]
  simp only [hci, Except.bind_ok, F.isNaN, Bool.or_self, Bool.false_eq_true, if_false, e1, e2, e3, e3', hrp, hpl, h2, h3, h4, h5, F.eqv,
    decide_true, not_true, u1, u2, u3, u4, u5, u6, c1, c2, c3, c4, c5, c6]
  exact ⟨_, rfl⟩

/-- Simulations with large `r_eff` make a row. -/
theorem grid_row (hcfg : cfg.Blurs bl n) {rP : ℝ} (hrP : 0 < rP) (hP : petroRatio (gridProfile n) rP = 1 / 5) (hreach : 2 * rP < gridReach n) :
    ∀ᶠ s in atTop, ∀ (ip : InterpFam ℝ) (integ : GridModel ℝ → ℝ × ℝ → ℝ × ℝ → Except PyErr (Img ℝ)) (rot : Img ℝ → ℝ → Img ℝ),
      GridInterp (ip "cubic") → BetweenNodes (ip "linear") → ∃ row, simulate ip exactOverlap integ rot cfg.psf cfg.oversample cfg.psfOversample s n = .ok row := by
  have G := gridProfile_galaxy hn
  obtain ⟨n1, n2, n3, n4, n5, n6, n7, n8⟩ := grid_numbers hn
  have hT := rTotal_pos hn
  have hTr := rTotal_lt_reach hn
  obtain ⟨r3, a3, b3, c3⟩ := petro_exists G hrP hP (by norm_num : (1 / 5 : ℝ) ≤ 3 / 10) (by norm_num)
  obtain ⟨r4, a4, b4, c4⟩ := petro_exists G hrP hP (by norm_num : (1 / 5 : ℝ) ≤ 2 / 5) (by norm_num)
  obtain ⟨r5, a5, b5, c5⟩ := petro_exists G hrP hP (by norm_num : (1 / 5 : ℝ) ≤ 1 / 2) (by norm_num)
  obtain ⟨δp, hδp, f1⟩ := sim_fractions hn (cfg := cfg) (bl := bl) (x0 := 2 * rP) (by linarith) hreach
  obtain ⟨δm, hδm, f2⟩ := sim_fractions hn (cfg := cfg) (bl := bl) hT hTr
  have hτ : 0 < min (δp / 2) (rP / 2) := lt_min (by linarith) (by linarith)
  filter_upwards [sim_lists hn hcfg, sim_fine hn one_pos, eventually_gt_atTop 0,
    sim_petrosian hn (cfg := cfg) (bl := bl) (by norm_num) hrP hP (by linarith) one_pos,
    sim_column_petrosian hn (cfg := cfg) (bl := bl) (by norm_num) hrP hP (by linarith) hτ,
    sim_column_petrosian hn (cfg := cfg) (bl := bl) (by norm_num) a3 c3 (by linarith) one_pos,
    sim_column_petrosian hn (cfg := cfg) (bl := bl) (by norm_num) a4 c4 (by linarith) one_pos,
    sim_column_petrosian hn (cfg := cfg) (bl := bl) (by norm_num) a5 c5 (by linarith) one_pos,
    sim_radiusOfFlux hn (cfg := cfg) (bl := bl) hT hTr hδm, sim_radiusOfFlux hn (cfg := cfg) (bl := bl) n6 (n7.trans hTr) one_pos, f1, f2]
    with s ⟨R, A, px, hA⟩ hf hs p0 p2 p3 p4 p5 q1 q2 f1 f2 ip integ rot hC hL
  rw [hA.row ip integ rot]
  obtain ⟨pl, hpl, -⟩ := p0 R A px hA
  obtain ⟨x, x1, x2⟩ := p2 R A px hA pl hpl ip hC
  obtain ⟨x3, y1, -⟩ := p3 R A px hA pl hpl ip hC
  obtain ⟨x4, z1, -⟩ := p4 R A px hA pl hpl ip hC
  obtain ⟨x5, w1, -⟩ := p5 R A px hA pl hpl ip hC
  obtain ⟨m, hm1, hm2⟩ := q1 R A px hA ip hL
  obtain ⟨m', hm3, -⟩ := q2 R A px hA ip hL
  rw [← n3] at hm1
  rw [← n5, ← mul_assoc] at hm3
  have hx0 : 0 < x := by have := (abs_le.1 (x2.trans (min_le_right _ _))).1; linarith
  have hsx : s * x ≠ 0 := (mul_pos hs hx0).ne'
  have hp := sim_object hf hpl
  have hx : |2 * x - 2 * rP| ≤ δp := by
    have := x2.trans (min_le_left _ _)
    rw [← mul_sub, abs_mul, abs_of_pos two_pos]
    linarith
  have e2 : fin (s * x) * fin 2 = fin (s * (2 * x)) := by rw [F.fin_mul]; congr 1; ring
  have eprod : fin (s * x) * (fin (s * m) / fin (s * x)) = fin (s * m) := by
    rw [F.fin_div_of_ne _ hsx, F.fin_mul]
    congr 1
    field_simp
  have o1 := object_numbers (p := ⟨(simUnits s n).map fun x => fin (s * x), A.map fin, (simFlux s n R px).map fin, none, none, fin (1 / 5), fin 2,
    fin (99 / 100), fin (99 / 100), some "cubic", 5000, pl, none⟩) hs x1 rfl rfl (f1 R A px hA _ hx _ _ e2 ip hC)
  have o2 := object_numbers (p := ⟨(simUnits s n).map fun x => fin (s * x), A.map fin, (simFlux s n R px).map fin, none, none, fin (1 / 5),
    fin (s * m) / fin (s * x), fin (99 / 100), fin (99 / 100), some "cubic", 5000, pl, none⟩) hs x1 rfl rfl (f2 R A px hA _ hm2 _ _ eprod ip hC)
  refine simRow_ok hp rfl o1.1 hm1 (by simpa using hm3) ?_ hpl x1 y1 z1 w1 ?_
  · rw [Petrosian.rPetrosian]
    exact congrArg (Except.map Prod.fst) x1
  · intro o ho
    simp only [List.mem_cons, List.not_mem_nil, or_false] at ho
    rcases ho with rfl | rfl
    · exact o1.2
    · exact o2.2

/-- The light inside a radius by the incomplete gamma function. -/
theorem gridProfile_enclosed {r : ℝ} (hr : 0 ≤ r) :
    enclosed (gridProfile n) 1 r = fluxScale (100 / Real.exp (bn n)) 1 n 0 * lowerGamma (2 * n) (bn n * r ^ (1 / n)) := by
  have := C64_integral (amplitude := 100 / Real.exp (bn n)) (ellip := 0) hn one_pos hr
  rw [sub_zero] at this
  rw [gridProfile, ← this, sersicEnclosed_eq _ _ _ _ _ hn, div_one]

theorem gridProfile_total : (simNumbers 1 n).lTotal = fluxScale (100 / Real.exp (bn n)) 1 n 0 * Real.Gamma (2 * n) := by
  refine tendsto_nhds_unique (grid_numbers hn).2.1 ?_
  have hx : Tendsto (fun r : ℝ => bn n * r ^ (1 / n)) atTop atTop :=
    (tendsto_rpow_atTop (one_div_pos.2 hn)).const_mul_atTop (bn_pos hn)
  refine (((lowerGamma_tendsto (2 * n) (by linarith)).comp hx).const_mul (fluxScale (100 / Real.exp (bn n)) 1 n 0)).congr' ?_
  filter_upwards [eventually_ge_atTop 0] with r hr
  rw [gridProfile_enclosed hn hr]
  rfl

theorem gridProfile_ratio {r : ℝ} (hr : 0 < r) : petroRatio (gridProfile n) r = etaOf (2 * n) (bn n * r ^ (1 / n)) := by
  have h := C67_ratio (amplitude := 100 / Real.exp (bn n)) (by positivity) hn one_pos hr
  rw [gridProfile, ← h, petrosianProfile_eq _ _ _ hn, div_one]

end

/-- The apertures of the grid reach twice the Petrosian radius. -/
theorem grid_inside {n rP : ℝ} (hn : 1 / 2 ≤ n) (hrP : 0 < rP) (hP : petroRatio (gridProfile n) rP = 1 / 5) : 2 * rP < gridReach n := by
  have hn0 : 0 < n := by linarith
  have G := gridProfile_galaxy hn0
  have hT := rTotal_pos hn0
  have hb := bn_pos hn0
  have hF : 0 < fluxScale (100 / Real.exp (bn n)) 1 n 0 := fluxScale_pos (by positivity) one_pos hn0 (by norm_num)
  have key : ∀ r, 0 < r → petroRatio (gridProfile n) r < 1 / 5 → rP < r := by
    intro r hr h
    by_contra hcon
    rcases (not_lt.1 hcon).eq_or_lt with e | e
    · rw [e] at h; linarith
    · have := G.ratioFalls (Set.mem_Ioi.2 hr) (Set.mem_Ioi.2 hrP) e
      linarith
  have hx : 0 < bn n * (simNumbers 1 n).rTotal ^ (1 / n) := mul_pos hb (Real.rpow_pos_of_pos hT _)
  have h99 : lowerGamma (2 * n) (bn n * (simNumbers 1 n).rTotal ^ (1 / n)) = 99 / 100 * Real.Gamma (2 * n) := by
    obtain ⟨-, -, n3, n4, -⟩ := grid_numbers hn0
    rw [n4, gridProfile_enclosed hn0 hT.le, gridProfile_total hn0] at n3
    have : fluxScale (100 / Real.exp (bn n)) 1 n 0 * (lowerGamma (2 * n) (bn n * (simNumbers 1 n).rTotal ^ (1 / n)) -
        99 / 100 * Real.Gamma (2 * n)) = 0 := by linarith
    rcases mul_eq_zero.1 this with h | h
    · exact absurd h hF.ne'
    · linarith
  unfold gridReach
  by_cases h2 : n < 2
  · rw [if_pos h2]
    have := key _ hT (by rw [gridProfile_ratio hn0 hT]; exact etaOf_lt_fifth _ (by linarith) hx h99)
    linarith
  · rw [if_neg h2]
    have hr : 0 < 13 / 20 * (simNumbers 1 n).rTotal := by positivity
    have := key _ hr (by
      rw [gridProfile_ratio hn0 hr, Real.mul_rpow (by norm_num) hT.le, mul_left_comm]
      refine etaOf_lt_fifth' _ (by linarith [not_lt.1 h2]) hx h99 (Real.rpow_pos_of_pos (by norm_num) _) ?_
      rw [← Real.rpow_mul (by norm_num)]
      have : 1 / n * (2 * n) = 2 := by field_simp
      rw [this, ← Real.rpow_natCast]
      norm_num)
    linarith

theorem sersic_linear (b A A' n t : ℝ) : A' * sersic b A 1 n t = A * sersic b A' 1 n t := by
  unfold sersic
  ring

theorem enclosed_linear (b A A' n r : ℝ) : A' * enclosed (sersic b A 1 n) 1 r = A * enclosed (sersic b A' 1 n) 1 r := by
  unfold enclosed
  rw [← intervalIntegral.integral_const_mul, ← intervalIntegral.integral_const_mul]
  congr 1
  funext t
  linear_combination 2 * π * t * sersic_linear b A A' n t

/-- The fractions of the light do not depend on the amplitude. -/
theorem grid_fraction {n A L r c : ℝ} (hn : 0 < n) (hA : 0 < A) (hL : Tendsto (fun r => enclosed (sersic (bn n) A 1 n) 1 r) atTop (𝓝 L))
    (h : enclosed (sersic (bn n) A 1 n) 1 r = c * L) : enclosed (gridProfile n) 1 r = c * (simNumbers 1 n).lTotal := by
  have hE := Real.exp_pos (bn n)
  have e : L = A / (100 / Real.exp (bn n)) * (simNumbers 1 n).lTotal := by
    refine tendsto_nhds_unique hL (((grid_numbers hn).2.1.const_mul _).congr fun r => ?_)
    have := enclosed_linear (bn n) A (100 / Real.exp (bn n)) n r
    rw [gridProfile, div_mul_eq_mul_div, div_eq_iff (by positivity), ← this]
    ring
  have := enclosed_linear (bn n) A (100 / Real.exp (bn n)) n r
  rw [h, e] at this
  change _ = A * enclosed (gridProfile n) 1 r at this
  have h2 : A * (c * (simNumbers 1 n).lTotal) = A * enclosed (gridProfile n) 1 r := by
    rw [← this]
    field_simp
  exact (mul_left_cancel₀ hA.ne' h2).symm

theorem grid_ratio {n A r : ℝ} (hn : 0 < n) (hA : 0 < A) (hr : 0 < r) : petroRatio (gridProfile n) r = petroRatio (sersic (bn n) A 1 n) r := by
  rw [← C67_ratio hA.ne' hn one_pos hr, gridProfile, ← C67_ratio (by positivity) hn one_pos hr]

set_option maxHeartbeats 1000000 in
/-- **C138** For all settings (PSF with sum 1, oversampling), every Sersic index from one half on and every tolerance there is a size from which on every simulation makes a row, and the
columns of this row are, within the tolerance and in units of the effective radius, the true Petrosian radii of the Sersic profile, its
true radii of 20, 50, 80 and 99 percent of the light, and as correction the true radius of 99 percent over the Petrosian radius. -/
theorem C138_columns {cfg : SimSettings} (hcfg : cfg.Usable) {n b A L rP r3 r4 r5 r20 r80 r99 : ℝ} (hn : 1 / 2 ≤ n) (hb : HalfLight b n) (hA : 0 < A)
    (hL : Tendsto (fun r => enclosed (sersic b A 1 n) 1 r) atTop (𝓝 L))
    (hpos : ∀ r ∈ [rP, r3, r4, r5, r20, r80, r99], 0 < r) (hP : petroRatio (sersic b A 1 n) rP = 1 / 5)
    (h3 : petroRatio (sersic b A 1 n) r3 = 3 / 10) (h4 : petroRatio (sersic b A 1 n) r4 = 2 / 5)
    (h5 : petroRatio (sersic b A 1 n) r5 = 1 / 2) (h20 : enclosed (sersic b A 1 n) 1 r20 = 1 / 5 * L)
    (h80 : enclosed (sersic b A 1 n) 1 r80 = 4 / 5 * L) (h99 : enclosed (sersic b A 1 n) 1 r99 = 99 / 100 * L) {ε : ℝ} (hε : 0 < ε) :
    ∀ᶠ s in atTop, ∀ (ip : InterpFam ℝ) (integ : GridModel ℝ → ℝ × ℝ → ℝ × ℝ → Except PyErr (Img ℝ)) (rot : Img ℝ → ℝ → Img ℝ),
      GridInterp (ip "cubic") → BetweenNodes (ip "linear") →
      ∃ row, simulate ip exactOverlap integ rot cfg.psf cfg.oversample cfg.psfOversample s n = .ok row ∧
      Cell row "p02" s rP ε ∧ Cell row "p03" s r3 ε ∧ Cell row "p04" s r4 ε ∧ Cell row "p05" s r5 ε ∧
      Cell row "c_epsilon" 1 (r99 / rP) ε ∧ Cell row "c_r_99" s r99 ε ∧ Cell row "c_r_50" s 1 ε ∧ Cell row "c_r_20" s r20 ε ∧
      Cell row "c_r_80" s r80 ε := by
  have hn0 : 0 < n := by linarith
  obtain rfl := (C65_coefficient hn0 b).1 hb
  simp only [List.mem_cons, List.not_mem_nil, or_false, forall_eq_or_imp, forall_eq] at hpos
  obtain ⟨p1, p2, p3, p4, p5, p6, p7⟩ := hpos
  have hr99 : r99 = (simNumbers 1 n).rTotal := by
    obtain ⟨-, -, n3, n4, -⟩ := grid_numbers hn0
    refine (gal_strictMono (gridProfile_galaxy hn0) one_pos).injOn (Set.mem_Ici.2 p7.le) (Set.mem_Ici.2 (rTotal_pos hn0).le) ?_
    rw [grid_fraction hn0 hA hL h99, ← n3, n4]
  have hP' := (grid_ratio hn0 hA p1).trans hP
  have hin := grid_inside hn p1 hP'
  obtain ⟨bl, hbl⟩ := usable_blurs hn0 hcfg
  filter_upwards [grid_row hn0 hbl p1 hP' hin, grid_columns hn0 hbl p1 hP' (by linarith) p2 ((grid_ratio hn0 hA p2).trans h3) p3
    ((grid_ratio hn0 hA p3).trans h4) p4 ((grid_ratio hn0 hA p4).trans h5) p5 (by rw [grid_fraction hn0 hA hL h20]; ring) p6
    (by rw [grid_fraction hn0 hA hL h80]; ring) hε] with s h1 h2 ip integ rot hC hLi
  obtain ⟨row, hrow⟩ := h1 ip integ rot hC hLi
  obtain ⟨a1, a2, a3, a4, a5, -, a7, a8, a9, a10, -⟩ := h2 ip integ rot hC hLi row hrow
  rw [hr99]
  exact ⟨row, hrow, a1, a2, a3, a4, a5, a7, a8, a9, a10⟩

/-- All radii that C138 speaks of exist. -/
theorem C138_radii {n : ℝ} (hn : 0 < n) : ∃ L, 0 < L ∧ Tendsto (fun r => enclosed (sersic (bn n) 1 1 n) 1 r) atTop (𝓝 L) ∧
    (∀ eta, 0 < eta → eta < 1 → ∃ r, 0 < r ∧ petroRatio (sersic (bn n) 1 1 n) r = eta) ∧
    ∀ c, 0 < c → c < 1 → ∃ r, 0 < r ∧ enclosed (sersic (bn n) 1 1 n) 1 r = c * L := by
  have G : Galaxy (sersic (bn n) 1 1 n) := sersic_galaxy one_pos hn one_pos
  have hE := Real.exp_pos (bn n)
  have hlim : Tendsto (fun r => enclosed (sersic (bn n) 1 1 n) 1 r) atTop (𝓝 ((100 / Real.exp (bn n))⁻¹ * (simNumbers 1 n).lTotal)) := by
    refine ((grid_numbers hn).2.1.const_mul _).congr fun r => ?_
    have := enclosed_linear (bn n) 1 (100 / Real.exp (bn n)) n r
    rw [gridProfile, inv_mul_eq_iff_eq_mul₀ (by positivity), this, one_mul]
  have hLp : 0 < (100 / Real.exp (bn n))⁻¹ * (simNumbers 1 n).lTotal := by
    have := (grid_numbers hn).2.2.2.2.2.2.2
    positivity
  refine ⟨_, hLp, hlim, fun eta h0 h1 => ?_, fun c h0 h1 => ?_⟩
  · obtain ⟨r, ⟨hr, he⟩, -⟩ := C67_unique_radius hn one_pos h0 h1
    exact ⟨r, hr, by rw [← C67_ratio one_ne_zero hn one_pos hr]; exact he⟩
  · have hlt : c * ((100 / Real.exp (bn n))⁻¹ * (simNumbers 1 n).lTotal) < (100 / Real.exp (bn n))⁻¹ * (simNumbers 1 n).lTotal := by
      nlinarith
    obtain ⟨T, hT, hT0⟩ := ((hlim.eventually (lt_mem_nhds hlt)).and (eventually_gt_atTop 0)).exists
    have hE0 := gal_pos G one_pos hT0
    obtain ⟨r, h1, h2, h3⟩ := flux_exists G hT0 (c := c * ((100 / Real.exp (bn n))⁻¹ * (simNumbers 1 n).lTotal) /
      enclosed (sersic (bn n) 1 1 n) 1 T) (by positivity) ((div_le_one hE0).2 hT.le)
    exact ⟨r, h1, by rw [h3, div_mul_cancel₀ _ hE0.ne']⟩

/-- Settings without PSF and oversampling are usable. -/
theorem plain_usable : SimSettings.Usable ⟨none, .none, .none⟩ where
  accepted := ⟨_, rfl⟩
  psf := by rintro P ⟨⟩
  window := by rintro x y size factor ⟨⟩

/-- The default settings, `oversample=("x_0", "y_0", 10, 50)` (petrofit/petrosian/correction.py:186-192). -/
def defaultSettings : SimSettings := ⟨none, .window (.name "x_0") (.name "y_0") (some 10) (some 50), .none⟩

theorem default_usable : defaultSettings.Usable where
  accepted := ⟨_, rfl⟩
  psf := by rintro P ⟨⟩
  window := by
    rintro x y size factor ⟨⟩
    exact ⟨by norm_num, Or.inl rfl, Or.inr (Or.inl rfl)⟩

/-- A PSF that is not symmetric, at twice the resolution of the image, with oversampling. -/
noncomputable def skewSettings : SimSettings :=
  ⟨some ⟨2, 3, fun u v => if u = 0 ∧ v = 0 then 1 / 4 else if u = 1 ∧ v = 2 then 3 / 4 else 0⟩, .int 4, .int 2⟩

theorem skew_usable : skewSettings.Usable where
  accepted := ⟨_, rfl⟩
  psf := by
    rintro P ⟨⟩
    refine ⟨fun u v _ _ => ?_, ?_⟩
    · dsimp only
      split_ifs <;> norm_num
    · simp [Finset.sum_range_succ]
      norm_num
  window := by rintro x y size factor ⟨⟩

/-- The grid of a disc galaxy, `n = 1`, with all radii there are, with the default settings and with the skew PSF. -/
example (cfg : SimSettings) (hcfg : cfg = defaultSettings ∨ cfg = skewSettings) : ∃ rP r99 : ℝ, 0 < rP ∧ petroRatio (sersic (bn 1) 1 1 1) rP = 1 / 5 ∧ ∀ ε > 0, ∀ᶠ s in atTop,
    ∀ (ip : InterpFam ℝ) (integ : GridModel ℝ → ℝ × ℝ → ℝ × ℝ → Except PyErr (Img ℝ)) (rot : Img ℝ → ℝ → Img ℝ),
      GridInterp (ip "cubic") → BetweenNodes (ip "linear") →
      ∃ row, simulate ip exactOverlap integ rot cfg.psf cfg.oversample cfg.psfOversample s 1 = .ok row ∧ Cell row "c_epsilon" 1 (r99 / rP) ε := by
  obtain ⟨L, hL0, hL, hp, hf⟩ := C138_radii one_pos
  obtain ⟨rP, a1, b1⟩ := hp (1 / 5) (by norm_num) (by norm_num)
  obtain ⟨r3, a2, b2⟩ := hp (3 / 10) (by norm_num) (by norm_num)
  obtain ⟨r4, a3, b3⟩ := hp (2 / 5) (by norm_num) (by norm_num)
  obtain ⟨r5, a4, b4⟩ := hp (1 / 2) (by norm_num) (by norm_num)
  obtain ⟨r20, a5, b5⟩ := hf (1 / 5) (by norm_num) (by norm_num)
  obtain ⟨r80, a6, b6⟩ := hf (4 / 5) (by norm_num) (by norm_num)
  obtain ⟨r99, a7, b7⟩ := hf (99 / 100) (by norm_num) (by norm_num)
  refine ⟨rP, r99, a1, b1, fun ε hε => ?_⟩
  filter_upwards [C138_columns (cfg := cfg) (by rcases hcfg with rfl | rfl; exacts [default_usable, skew_usable]) (by norm_num) ((C65_coefficient one_pos _).2 rfl) one_pos hL (by simp [a1, a2, a3, a4, a5, a6, a7]) b1 b2 b3 b4
    b5 b6 b7 hε] with s h ip integ rot hC hLi
  obtain ⟨row, h1, -, -, -, -, h2, -⟩ := h ip integ rot hC hLi
  exact ⟨row, h1, h2⟩

end Verif.Props

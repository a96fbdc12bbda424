import Verif.Props.GridColumns
import Verif.Props.PhotometryUnits
import Verif.Props.Simulation

/-!
# C133: the row of a simulation as a whole
-/

set_option linter.unusedSectionVars false

namespace Verif.Props

open F Spec Filter Topology

/-- The lists of the photometry of a simulated image. -/
theorem simPhotometry_lists {rs : List Nat} {R : Nat} (hR : R ∈ rs) (hmax : ∀ r ∈ rs, r ≤ R) {im : Img ℝ} (hh : im.h = R * 2)
    (hw : im.w = R * 2) {f : Nat → Nat → ℝ} (hpx : ∀ i j, i < R * 2 → j < R * 2 → im.px i j = f i j) {fl ar er : List (F ℝ)}
    (hph : simPhotometry exactOverlap im rs = .ok (fl, ar, er)) :
    ar = rs.map (fun r : Nat => fin (round6 (weightedSum (exactOverlap.weight ⟨(R : ℝ), (R : ℝ), (r : ℝ), (r : ℝ), 0⟩) (R * 2) (R * 2)
      (fun _ _ => true) fun _ _ => 1))) ∧
    fl = rs.map (fun r : Nat => fin (round6 (weightedSum (exactOverlap.weight ⟨(R : ℝ), (R : ℝ), (r : ℝ), (r : ℝ), 0⟩) (R * 2) (R * 2)
      (fun _ _ => true) f))) := by
  have hc := simCentre_eq hR hmax
  unfold simPhotometry at hph
  rw [hc] at hph
  have hflux := (photometry_finite exactOverlap_law im.h im.w im.px im.px (R : ℝ) (R : ℝ) _ none none 1 0 fl ar er hph).1
  constructor
  · obtain ⟨l, hl, -, rfl, -⟩ := radialPhotometry_ok.1 hph
    apply List.ext_getElem
    · simpa using hl.length_eq.symm
    · intro k hk1 hk2
      have hp := (List.forall₂_iff_get.1 hl).2 k (by simpa using hk2) (by simpa using hk1)
      simp only [List.get_eq_getElem, List.getElem_map] at hp ⊢
      rcases hlk : l[k]'(by simpa using hk1) with ⟨v, a, e⟩
      rw [hlk] at hp
      obtain ⟨_, _, _, _, _, _, _, ha, _⟩ := (photometryAt_ok exactOverlap_law).1 hp
      simp only [ha, div_one, Img.map, hh, hw]
      rfl
  · rw [hflux, List.map_map]
    apply List.map_congr_left
    intro r _
    simp only [Function.comp, div_one]
    congr 2
    rw [hh, hw]
    unfold weightedSum
    apply Finset.sum_congr rfl; intro i hi
    apply Finset.sum_congr rfl; intro j hj
    rw [hpx i j (Finset.mem_range.1 hi) (Finset.mem_range.1 hj)]
    rfl

/-- **C133.** The row that `_generate_petrosian_correction(r_eff, n)` returns (no PSF, no oversampling) belongs to a Sersic profile `I` with
central brightness 100, whose light to infinity is `sersic_L_inf`, half of it inside `r_eff`, and 20, 80 and 100 % of 0.99 of it inside
`sersic_r_20`, `sersic_r_80` and `sersic_r_99`. The measured profile `p` behind the other columns has the radii 1 < ... < R, which reach to
two pixels of 1.3 `sersic_r_99` or beyond; each of its fluxes is, rounded to six decimals, the sum over an image of 2R × 2R pixels with `I`
at the distance of each pixel from pixel [R, R], weighted with the overlap of pixel and circle; its areas are the sums of these weights. -/
theorem C133_row {ip : InterpFam ℝ} {rEff n : ℝ} (hn : 0 < n) (hre : 0 < rEff)
    (integ : GridModel ℝ → ℝ × ℝ → ℝ × ℝ → Except PyErr (Img ℝ)) (rot : Img ℝ → ℝ → Img ℝ) {row : List (F ℝ)}
    (h : simulate ip exactOverlap integ rot none .none .none rEff n = .ok row) :
    ∃ (A L r20 r80 r99 : ℝ) (R : Nat) (rs : List Nat) (area flux : List (F ℝ)) (p : Petrosian ℝ) (rp m : F ℝ) (I : ℝ → ℝ),
      I = Spec.sersic (bn n) A rEff n ∧ I 0 = 100 ∧ Tendsto (fun r => Spec.enclosed I 1 r) atTop (𝓝 L) ∧ Spec.enclosed I 1 rEff = L / 2 ∧
      Spec.enclosed I 1 r20 = 99 / 100 * L / 5 ∧ Spec.enclosed I 1 r80 = 99 / 100 * L * 4 / 5 ∧ Spec.enclosed I 1 r99 = 99 / 100 * L ∧
      rs.head? = some 1 ∧ rs.Pairwise (· < ·) ∧ R ∈ rs ∧ (∀ r ∈ rs, r ≤ R) ∧ 13 / 10 * r99 - 2 < R ∧
      flux = rs.map (fun r : Nat => fin (round6 (weightedSum (exactOverlap.weight ⟨(R : ℝ), (R : ℝ), (r : ℝ), (r : ℝ), 0⟩) (R * 2) (R * 2)
        (fun _ _ => true) fun i j => I (Real.sqrt (((j : ℝ) - R) ^ 2 + ((i : ℝ) - R) ^ 2))))) ∧
      area = rs.map (fun r : Nat => fin (round6 (weightedSum (exactOverlap.weight ⟨(R : ℝ), (R : ℝ), (r : ℝ), (r : ℝ), 0⟩) (R * 2) (R * 2)
        (fun _ _ => true) fun _ _ => 1))) ∧
      SimProfile (rs.map fun r : Nat => fin (r : ℝ)) area flux p ∧ p.rPetrosian ip = .ok rp ∧
      RadiusOfFlux ip (rs.map fun r : Nat => fin (r : ℝ)) flux (fin (99 / 100 * L)) m ∧
      rowGet gridNames row "n" = .ok (fin n) ∧ rowGet gridNames row "r_eff" = .ok (fin rEff) ∧
      rowGet gridNames row "sersic_r_20" = .ok (fin r20) ∧ rowGet gridNames row "sersic_r_80" = .ok (fin r80) ∧
      rowGet gridNames row "sersic_r_99" = .ok (fin r99) ∧ rowGet gridNames row "sersic_L_inf" = .ok (fin L) ∧
      rowGet gridNames row "u_r_50" = p.rHalfLight ip ∧ rowGet gridNames row "u_c2080" = p.c2080 ip ∧
      rowGet gridNames row "c_epsilon" = .ok (m / rp) ∧ rowGet gridNames row "c_r_99" = Petrosian.rTotalFlux ip { p with epsilon := m / rp } := by
  unfold simulate at h
  obtain ⟨t0, t1, t2, t3, t4, t5, t6, t7, t8, t9, t10⟩ := C105_truth hn hre
  obtain ⟨R, im, hR, hmax, him, hh, hw, hpx, -⟩ := C106_pixels hn hre integ rot
  obtain ⟨im', him', h⟩ := bind_eq_ok.1 h
  obtain rfl : im = im' := by
    rw [him] at him'; exact Except.ok.inj him'
  obtain ⟨⟨fl, ar, er⟩, hph, h⟩ := bind_eq_ok.1 h
  simp only at h
  -- the profile
  obtain ⟨p, hp⟩ : ∃ p, SimProfile ((simRs rEff n).map fun r : Nat => fin (r : ℝ)) ar fl p := by
    have h' := h
    unfold simRow at h'
    obtain ⟨p, hp, -⟩ := bind_eq_ok.1 h'
    exact ⟨p, hp⟩
  obtain ⟨rp, m, m80, p02, p03, p04, p05, c1, c2, -, -, -, -, -, -, cp, rfl, hcol⟩ := C117_columns h hp
  -- the radii
  have h0 : 0 ≤ simMaxR rEff n (simNumbers rEff n).rTotal := by
    unfold simMaxR
    split_ifs <;> nlinarith
  obtain ⟨q1, q2, -, x, hx, hx1, -⟩ := C33_radii _ h0
  have hreach : 13 / 10 * (simNumbers rEff n).rTotal - 2 < R := by
    have hM : 13 / 10 * (simNumbers rEff n).rTotal ≤ simMaxR rEff n (simNumbers rEff n).rTotal := by
      unfold simMaxR
      split_ifs <;> nlinarith
    have hxR : (x : ℝ) ≤ R := by exact_mod_cast hmax x hx
    have hfl := Int.lt_floor_add_one (simMaxR rEff n (simNumbers rEff n).rTotal)
    have hx1' : ((⌊simMaxR rEff n (simNumbers rEff n).rTotal⌋ : ℤ) : ℝ) - 1 ≤ x := by exact_mod_cast hx1
    linarith
  obtain ⟨harea, hflux⟩ := simPhotometry_lists hR hmax hh hw hpx hph
  refine ⟨(simNumbers rEff n).amplitude, (simNumbers rEff n).lTotal, (simNumbers rEff n).r20, (simNumbers rEff n).r80,
    (simNumbers rEff n).rTotal, R, simRs rEff n, ar, fl, p, rp, m, _, rfl, t0, t2, t3, t8, t9, t10, q1, q2, hR, hmax, hreach, hflux, harea, hp, c1,
    ?_, ?_, ?_, ?_, ?_, ?_, ?_, ?_, ?_, ?_, ?_⟩
  · rw [← t4]; exact c2
  all_goals exact hcol _ _ (by simp)

/-- **C133, the photometry never fails.** Nothing before the row itself can raise: for every `n` and `r_eff` the row is computed from the
radii, areas and fluxes of `C133_row`. -/
theorem C133_photometry (ip : InterpFam ℝ) {rEff n : ℝ} (hn : 0 < n) (hre : 0 < rEff)
    (integ : GridModel ℝ → ℝ × ℝ → ℝ × ℝ → Except PyErr (Img ℝ)) (rot : Img ℝ → ℝ → Img ℝ) :
    ∃ (A L r20 r80 r99 : ℝ) (R : Nat) (rs : List Nat) (I : ℝ → ℝ), I = Spec.sersic (bn n) A rEff n ∧ I 0 = 100 ∧
      Tendsto (fun r => Spec.enclosed I 1 r) atTop (𝓝 L) ∧ Spec.enclosed I 1 r20 = 99 / 100 * L / 5 ∧
      Spec.enclosed I 1 r80 = 99 / 100 * L * 4 / 5 ∧ Spec.enclosed I 1 r99 = 99 / 100 * L ∧ rs.head? = some 1 ∧ rs.Pairwise (· < ·) ∧ R ∈ rs ∧ (∀ r ∈ rs, r ≤ R) ∧
      simulate ip exactOverlap integ rot none .none .none rEff n =
        simRow ip (fin n) (fin rEff) (fin r20) (fin r80) (fin r99) (fin L) (fin (99 / 100 * L)) (rs.map fun r : Nat => fin (r : ℝ))
          (rs.map fun r : Nat => fin (round6 (weightedSum (exactOverlap.weight ⟨(R : ℝ), (R : ℝ), (r : ℝ), (r : ℝ), 0⟩) (R * 2) (R * 2)
            (fun _ _ => true) fun _ _ => 1)))
          (rs.map fun r : Nat => fin (round6 (weightedSum (exactOverlap.weight ⟨(R : ℝ), (R : ℝ), (r : ℝ), (r : ℝ), 0⟩) (R * 2) (R * 2)
            (fun _ _ => true) fun i j => I (Real.sqrt (((j : ℝ) - R) ^ 2 + ((i : ℝ) - R) ^ 2))))) := by
  obtain ⟨t0, t1, t2, t3, t4, t5, t6, t7, t8, t9, t10⟩ := C105_truth hn hre
  obtain ⟨R, im, hR, hmax, him, hh, hw, hpx, -⟩ := C106_pixels hn hre integ rot
  obtain ⟨R', im', fl, ar, er, -, -, him', hph, -⟩ := C107_every_simulation hn hre integ rot
  obtain rfl : im = im' := by
    rw [him] at him'; exact Except.ok.inj him'
  have h0 : 0 ≤ simMaxR rEff n (simNumbers rEff n).rTotal := by
    unfold simMaxR
    split_ifs <;> nlinarith
  obtain ⟨q1, q2, -⟩ := C33_radii _ h0
  refine ⟨(simNumbers rEff n).amplitude, (simNumbers rEff n).lTotal, (simNumbers rEff n).r20, (simNumbers rEff n).r80,
    (simNumbers rEff n).rTotal, R, simRs rEff n, _, rfl, t0, t2, t8, t9, t10, q1, q2, hR, hmax, ?_⟩
  obtain ⟨e1, e2⟩ := simPhotometry_lists hR hmax hh hw hpx hph
  unfold simulate
  rw [him]
  show (simPhotometry exactOverlap im (simRs rEff n) >>= _) = _
  rw [hph, ← e1, ← e2, ← t4]
  rfl

end Verif.Props

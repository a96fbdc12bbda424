import Verif.Props.GridConvergence

/-!
# C118 and C139: the true and the corrected radii of the correction grid
-/

set_option linter.unusedVariables false

namespace Verif.Props

open F Spec Lemmas Real Filter Topology

/-- The number in a column. -/
def Value (row : List (F ℝ)) (key : String) (v : ℝ) : Prop := rowGet gridNames row key = .ok (fin v)

theorem grid_gap {n : ℝ} (hn : 1 / 2 ≤ n) : ∃ g > 0, ∀ cfg : SimSettings, cfg.Usable → ∀ ε > 0, ∀ᶠ s in atTop,
    ∀ (ip : InterpFam ℝ) (integ : GridModel ℝ → ℝ × ℝ → ℝ × ℝ → Except PyErr (Img ℝ)) (rot : Img ℝ → ℝ → Img ℝ),
      GridInterp (ip "cubic") → BetweenNodes (ip "linear") →
      ∃ row, simulate ip exactOverlap integ rot cfg.psf cfg.oversample cfg.psfOversample s n = .ok row ∧
      ∃ e p c20 c80 c99 t20 t80 t99, Value row "c_epsilon_80" e ∧ Value row "p02" p ∧ Value row "c_r_20" c20 ∧ Value row "c_r_80" c80 ∧
        Value row "c_r_99" c99 ∧ Value row "sersic_r_20" t20 ∧ Value row "sersic_r_80" t80 ∧ Value row "sersic_r_99" t99 ∧
        e * p + s * g ≤ c80 ∧ t20 + s * g ≤ c20 ∧ t80 + s * g ≤ c80 ∧ |c99 - t99| ≤ s * ε := by
  have hn0 : 0 < n := by linarith
  have G := gridProfile_galaxy hn0
  obtain ⟨L, hL0, hL, hp, hf⟩ := C138_radii hn0
  obtain ⟨rP, a1, b1⟩ := hp (1 / 5) (by norm_num) (by norm_num)
  obtain ⟨r3, a2, b2⟩ := hp (3 / 10) (by norm_num) (by norm_num)
  obtain ⟨r4, a3, b3⟩ := hp (2 / 5) (by norm_num) (by norm_num)
  obtain ⟨r5, a4, b4⟩ := hp (1 / 2) (by norm_num) (by norm_num)
  obtain ⟨r20, a5, b5⟩ := hf (1 / 5) (by norm_num) (by norm_num)
  obtain ⟨r80, a6, b6⟩ := hf (4 / 5) (by norm_num) (by norm_num)
  obtain ⟨-, -, n3, n4, n5, n6, n7, n8⟩ := grid_numbers hn0
  have q20 := grid_fraction hn0 one_pos hL b5
  have q80 := grid_fraction hn0 one_pos hL b6
  obtain ⟨-, -, -, -, -, t5, t6, -, t8, -, -⟩ := C105_truth hn0 one_pos
  have e1 : sersic (bn n) (simNumbers 1 n).amplitude 1 n = gridProfile n := by
    funext t; rw [sim_profile one_pos, div_one]
  simp only [e1] at t8
  have less : ∀ r r', 0 < r → 0 < r' → enclosed (gridProfile n) 1 r < enclosed (gridProfile n) 1 r' → r < r' := by
    intro r r' hr hr' h
    exact ((gal_strictMono G one_pos).lt_iff_lt (Set.mem_Ici.2 hr.le) (Set.mem_Ici.2 hr'.le)).1 h
  have l20 : (simNumbers 1 n).r20 < r20 := less _ _ t5 a5 (by rw [t8, q20]; linarith)
  have l80 : (simNumbers 1 n).r80 < r80 := less _ _ n6 a6 (by rw [← n5, n4, q80]; linarith)
  have hP' := (grid_ratio hn0 one_pos a1).trans b1
  have hin := grid_inside hn a1 hP'
  obtain ⟨d, hd⟩ : ∃ d, d = min (r20 - (simNumbers 1 n).r20) (r80 - (simNumbers 1 n).r80) := ⟨_, rfl⟩
  have hd0 : 0 < d := by rw [hd]; exact lt_min (by linarith) (by linarith)
  have d20 : d ≤ r20 - (simNumbers 1 n).r20 := hd ▸ min_le_left _ _
  have d80 : d ≤ r80 - (simNumbers 1 n).r80 := hd ▸ min_le_right _ _
  have hcm : ContinuousAt (fun p : ℝ × ℝ => p.1 * p.2) ((simNumbers 1 n).r80 / rP, rP) := continuousAt_fst.mul continuousAt_snd
  obtain ⟨τ, hτ, hm⟩ := Metric.continuousAt_iff.1 hcm (d / 4) (by linarith)
  refine ⟨d / 2, by linarith, fun cfg hcfg ε hε => ?_⟩
  obtain ⟨bl, hbl⟩ := usable_blurs hn0 hcfg
  filter_upwards [grid_row hn0 hbl a1 hP' hin, eventually_gt_atTop 0, grid_columns hn0 hbl a1 hP' (by linarith) a2
    ((grid_ratio hn0 one_pos a2).trans b2) a3 ((grid_ratio hn0 one_pos a3).trans b3) a4 ((grid_ratio hn0 one_pos a4).trans b4) a5
    (by rw [q20]; ring) a6 (by rw [q80]; ring) (lt_min hε (lt_min (half_pos hτ) (by linarith : 0 < d / 4)))] with s h1 hs h2 ip integ rot hC hLi
  obtain ⟨row, hrow⟩ := h1 ip integ rot hC hLi
  obtain ⟨⟨v2, u2, w2⟩, -, -, -, -, ⟨ve, ue, we⟩, ⟨v99, u99, w99⟩, -, ⟨v20, u20, w20⟩, ⟨v80, u80, w80⟩, s20, s80, s99⟩ :=
    h2 ip integ rot hC hLi row hrow
  rw [one_mul] at ue
  have m1 : min ε (min (τ / 2) (d / 4)) ≤ ε := min_le_left _ _
  have m2 : min ε (min (τ / 2) (d / 4)) ≤ τ / 2 := (min_le_right _ _).trans (min_le_left _ _)
  have m3 : min ε (min (τ / 2) (d / 4)) ≤ d / 4 := (min_le_right _ _).trans (min_le_right _ _)
  have hprod : ve * v2 ≤ (simNumbers 1 n).r80 + d / 4 := by
    have := @hm (ve, v2) (by
      rw [Prod.dist_eq, max_lt_iff, Real.dist_eq, Real.dist_eq]
      exact ⟨by linarith [we.trans m2], by linarith [w2.trans m2]⟩)
    rw [Real.dist_eq, div_mul_cancel₀ _ a1.ne'] at this
    linarith [(abs_lt.1 this).2]
  have k20 := (abs_le.1 (w20.trans m3)).1
  have k80 := (abs_le.1 (w80.trans m3)).1
  refine ⟨row, hrow, ve, s * v2, s * v20, s * v80, s * v99, _, _, _, ue, u2, u20, u80, u99, s20, s80, s99, ?_, ?_, ?_, ?_⟩
  · have := mul_le_mul_of_nonneg_left (by linarith : ve * v2 + d / 2 ≤ v80) hs.le
    linarith
  · have := mul_le_mul_of_nonneg_left (by linarith : (simNumbers 1 n).r20 + d / 2 ≤ v20) hs.le
    linarith
  · have := mul_le_mul_of_nonneg_left (by linarith : (simNumbers 1 n).r80 + d / 2 ≤ v80) hs.le
    linarith
  · rw [← mul_sub, abs_mul, abs_of_pos hs]
    exact mul_le_mul_of_nonneg_left (w99.trans m1) hs.le

/-- **C118, violated by every large simulation.** `c_epsilon_80` times the Petrosian radius falls short of `c_r_80` by a fixed fraction of the
effective radius. -/
theorem C118_large {n : ℝ} (hn : 1 / 2 ≤ n) : ∃ g > 0, ∀ cfg : SimSettings, cfg.Usable → ∀ᶠ s in atTop,
    ∀ (ip : InterpFam ℝ) (integ : GridModel ℝ → ℝ × ℝ → ℝ × ℝ → Except PyErr (Img ℝ)) (rot : Img ℝ → ℝ → Img ℝ),
      GridInterp (ip "cubic") → BetweenNodes (ip "linear") →
      ∃ row, simulate ip exactOverlap integ rot cfg.psf cfg.oversample cfg.psfOversample s n = .ok row ∧
      ∃ e p c, Value row "c_epsilon_80" e ∧ Value row "p02" p ∧ Value row "c_r_80" c ∧ e * p + s * g ≤ c := by
  obtain ⟨g, hg, h⟩ := grid_gap hn
  refine ⟨g, hg, fun cfg hcfg => ?_⟩
  filter_upwards [h cfg hcfg 1 one_pos] with s h ip integ rot hC hL
  obtain ⟨row, hrow, e, p, c20, c80, c99, t20, t80, t99, v1, v2, v3, v4, v5, v6, v7, v8, h1, h2, h3, h4⟩ := h ip integ rot hC hL
  exact ⟨row, hrow, e, p, c80, v1, v2, v4, h1⟩

/-- **C139, the 99 percent column.** The corrected radius of 99 percent of the light agrees with the true one up to any fraction of the
effective radius, for large galaxies.  The columns of 20 and 80 percent do not, see `C139_violated`. -/
theorem C139_partial {cfg : SimSettings} (hcfg : cfg.Usable) {n : ℝ} (hn : 1 / 2 ≤ n) {ε : ℝ} (hε : 0 < ε) : ∀ᶠ s in atTop,
    ∀ (ip : InterpFam ℝ) (integ : GridModel ℝ → ℝ × ℝ → ℝ × ℝ → Except PyErr (Img ℝ)) (rot : Img ℝ → ℝ → Img ℝ),
      GridInterp (ip "cubic") → BetweenNodes (ip "linear") →
      ∃ row, simulate ip exactOverlap integ rot cfg.psf cfg.oversample cfg.psfOversample s n = .ok row ∧
      ∃ c t, Value row "c_r_99" c ∧ Value row "sersic_r_99" t ∧ |c - t| ≤ s * ε := by
  obtain ⟨g, hg, h⟩ := grid_gap hn
  filter_upwards [h cfg hcfg ε hε] with s h ip integ rot hC hL
  obtain ⟨row, hrow, e, p, c20, c80, c99, t20, t80, t99, v1, v2, v3, v4, v5, v6, v7, v8, h1, h2, h3, h4⟩ := h ip integ rot hC hL
  exact ⟨row, hrow, c99, t99, v5, v8, h4⟩

/-- **C139, violated by every large simulation.** `sersic_r_20` and `sersic_r_80` enclose 20 and 80 percent of `0.99 L_inf`, `c_r_20` and
`c_r_80` enclose 20 and 80 percent of `L_inf`; they differ by a fixed fraction of the effective radius however large the galaxy. -/
theorem C139_violated {n : ℝ} (hn : 1 / 2 ≤ n) : ∃ g > 0, ∀ cfg : SimSettings, cfg.Usable → ∀ᶠ s in atTop,
    ∀ (ip : InterpFam ℝ) (integ : GridModel ℝ → ℝ × ℝ → ℝ × ℝ → Except PyErr (Img ℝ)) (rot : Img ℝ → ℝ → Img ℝ),
      GridInterp (ip "cubic") → BetweenNodes (ip "linear") →
      ∃ row, simulate ip exactOverlap integ rot cfg.psf cfg.oversample cfg.psfOversample s n = .ok row ∧
      ∃ c20 c80 t20 t80, Value row "c_r_20" c20 ∧ Value row "c_r_80" c80 ∧ Value row "sersic_r_20" t20 ∧ Value row "sersic_r_80" t80 ∧
        t20 + s * g ≤ c20 ∧ t80 + s * g ≤ c80 := by
  obtain ⟨g, hg, h⟩ := grid_gap hn
  refine ⟨g, hg, fun cfg hcfg => ?_⟩
  filter_upwards [h cfg hcfg 1 one_pos] with s h ip integ rot hC hL
  obtain ⟨row, hrow, e, p, c20, c80, c99, t20, t80, t99, v1, v2, v3, v4, v5, v6, v7, v8, h1, h2, h3, h4⟩ := h ip integ rot hC hL
  exact ⟨row, hrow, c20, c80, t20, t80, v3, v4, v6, v7, h2, h3⟩

/-- **C138 and C139 for the interpolation of scipy.** With the not-a-knot cubic spline for "cubic" and linear interpolation for "linear",
every large simulation gives a row; its Petrosian radius `p02` approaches the true one, its 99 percent column approaches the true radius, its
80 percent column misses `sersic_r_80` by a fixed fraction of the effective radius. -/
theorem C138_default {n b A rP : ℝ} (hn : 1 / 2 ≤ n) (hb : HalfLight b n) (hA : 0 < A) (hrP : 0 < rP)
    (hP : petroRatio (sersic b A 1 n) rP = 1 / 5) : ∃ g > 0, ∀ cfg : SimSettings, cfg.Usable → ∀ ε > 0, ∀ᶠ s in atTop,
    ∀ (ip : InterpFam ℝ) (integ : GridModel ℝ → ℝ × ℝ → ℝ × ℝ → Except PyErr (Img ℝ)) (rot : Img ℝ → ℝ → Img ℝ),
      ip "cubic" = cubicInterp → ip "linear" = linearInterp →
      ∃ row, simulate ip exactOverlap integ rot cfg.psf cfg.oversample cfg.psfOversample s n = .ok row ∧ Cell row "p02" s rP ε ∧
      ∃ c80 c99 t80 t99, Value row "c_r_80" c80 ∧ Value row "c_r_99" c99 ∧ Value row "sersic_r_80" t80 ∧ Value row "sersic_r_99" t99 ∧
        t80 + s * g ≤ c80 ∧ |c99 - t99| ≤ s * ε := by
  have hn0 : 0 < n := by linarith
  obtain rfl := (C65_coefficient hn0 b).1 hb
  obtain ⟨g, hg, h⟩ := grid_gap hn
  have hP' := (grid_ratio hn0 hA hrP).trans hP
  have hin := grid_inside hn hrP hP'
  obtain ⟨L, hL0, hL, hp, hf⟩ := C138_radii hn0
  obtain ⟨r3, a2, b2⟩ := hp (3 / 10) (by norm_num) (by norm_num)
  obtain ⟨r4, a3, b3⟩ := hp (2 / 5) (by norm_num) (by norm_num)
  obtain ⟨r5, a4, b4⟩ := hp (1 / 2) (by norm_num) (by norm_num)
  obtain ⟨r20, a5, b5⟩ := hf (1 / 5) (by norm_num) (by norm_num)
  obtain ⟨r80, a6, b6⟩ := hf (4 / 5) (by norm_num) (by norm_num)
  have q20 := grid_fraction hn0 one_pos hL b5
  have q80 := grid_fraction hn0 one_pos hL b6
  refine ⟨g, hg, fun cfg hcfg ε hε => ?_⟩
  obtain ⟨bl, hbl⟩ := usable_blurs hn0 hcfg
  filter_upwards [h cfg hcfg ε hε, grid_columns hn0 hbl hrP hP' (by linarith) a2 ((grid_ratio hn0 one_pos a2).trans b2) a3
    ((grid_ratio hn0 one_pos a3).trans b3) a4 ((grid_ratio hn0 one_pos a4).trans b4) a5 (by rw [q20]; ring) a6 (by rw [q80]; ring) hε]
    with s h h' ip integ rot hC hL
  have hC' : GridInterp (ip "cubic") := hC ▸ cubic_grid
  have hL' : BetweenNodes (ip "linear") := hL ▸ linear_between
  obtain ⟨row, hrow, e, p, c20, c80, c99, t20, t80, t99, v1, v2, v3, v4, v5, v6, v7, v8, h1, h2, h3, h4⟩ := h ip integ rot hC' hL'
  exact ⟨row, hrow, (h' ip integ rot hC' hL' row hrow).1, c80, c99, t80, t99, v4, v5, v7, v8, h3, h4⟩

/-- So there is a simulation of a disc galaxy with a wrong column, with the interpolation and the settings the code uses. -/
example : ∃ (s : ℝ) (row : List (F ℝ)) (c t : ℝ), Value row "c_r_80" c ∧ Value row "sersic_r_80" t ∧ t < c ∧
    simulate (fun k => if k = "cubic" then cubicInterp else linearInterp) exactOverlap (fun _ _ _ => .error .exception) (fun a _ => a)
      defaultSettings.psf defaultSettings.oversample defaultSettings.psfOversample s 1 = .ok row := by
  obtain ⟨L, hL0, hL, hp, hf⟩ := C138_radii one_pos
  obtain ⟨rP, a1, b1⟩ := hp (1 / 5) (by norm_num) (by norm_num)
  obtain ⟨g, hg, h⟩ := C138_default (by norm_num) ((C65_coefficient one_pos _).2 rfl) one_pos a1 b1
  obtain ⟨s, h, hs⟩ := ((h _ default_usable 1 one_pos).and (eventually_gt_atTop 0)).exists
  obtain ⟨row, hrow, -, c80, c99, t80, t99, v1, -, v3, -, h2, -⟩ := h (fun k => if k = "cubic" then cubicInterp else linearInterp)
    (fun _ _ _ => .error .exception) (fun a _ => a) (by simp) (by simp)
  have := mul_pos hs hg
  exact ⟨s, row, c80, t80, v1, v3, by linarith, hrow⟩

/-- Linear interpolation is an interpolation these theorems apply to, so there is a simulation of a disc galaxy with a wrong column. -/
example : ∃ (s : ℝ) (row : List (F ℝ)) (c t : ℝ), Value row "c_r_80" c ∧ Value row "sersic_r_80" t ∧ t < c ∧
    simulate (fun _ => linearInterp) exactOverlap (fun _ _ _ => .error .exception) (fun a _ => a) none .none .none s 1 = .ok row := by
  obtain ⟨g, hg, h⟩ := C139_violated (n := 1) (by norm_num)
  obtain ⟨s, h, hs⟩ := ((h _ plain_usable).and (eventually_gt_atTop 0)).exists
  obtain ⟨row, hrow, c20, c80, t20, t80, -, v2, -, v4, -, h2⟩ := h (fun _ => linearInterp) (fun _ _ _ => .error .exception) (fun a _ => a)
    (Or.inl linear_between) linear_between
  have := mul_pos hs hg
  exact ⟨s, row, c80, t80, v2, v4, by linarith, hrow⟩

end Verif.Props

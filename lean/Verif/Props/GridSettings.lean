import Verif.Props.GridTruth

/-!
# C160: the correction grid and its settings

petrofit/petrosian/correction.py:18-181 (`_generate_petrosian_correction`): the simulation with a PSF and oversampling. For large galaxies
the columns of a row do not depend on the settings, with the interpolations the code uses.
-/

set_option linter.unusedSectionVars false

namespace Verif.Props

open Verif F Spec Filter Topology

/-- The cells `key` of two rows are numbers that differ by at most `d`. -/
def CellsAgree (row row' : List (F ℝ)) (key : String) (d : ℝ) : Prop :=
  ∃ v v', rowGet gridNames row key = .ok (fin v) ∧ rowGet gridNames row' key = .ok (fin v') ∧ |v - v'| ≤ d

theorem Cell.agree {row row' : List (F ℝ)} {key : String} {unit x ε : ℝ} (hu : 0 ≤ unit) (h : Cell row key unit x (ε / 2))
    (h' : Cell row' key unit x (ε / 2)) : CellsAgree row row' key (unit * ε) := by
  obtain ⟨v, e, d⟩ := h
  obtain ⟨v', e', d'⟩ := h'
  refine ⟨_, _, e, e', ?_⟩
  rw [← mul_sub, abs_mul, abs_of_nonneg hu]
  apply mul_le_mul_of_nonneg_left _ hu
  rw [abs_le] at d d' ⊢
  constructor <;> linarith [d.1, d.2, d'.1, d'.2]

/-- **C160** Any two usable settings, for instance the default oversampling and an oversampled PSF, give rows for every large galaxy, and
the measured columns of the two rows agree up to any fraction of the effective radius. -/
theorem C160_settings {n : ℝ} (hn : 1 / 2 ≤ n) {cfg cfg' : SimSettings} (hc : cfg.Usable) (hc' : cfg'.Usable) {ε : ℝ} (hε : 0 < ε) :
    ∀ᶠ s in atTop, ∀ (ip : InterpFam ℝ) (integ : GridModel ℝ → ℝ × ℝ → ℝ × ℝ → Except PyErr (Img ℝ)) (rot : Img ℝ → ℝ → Img ℝ),
      ip "cubic" = cubicInterp → ip "linear" = linearInterp →
      ∃ row row', simulate ip exactOverlap integ rot cfg.psf cfg.oversample cfg.psfOversample s n = .ok row ∧
      simulate ip exactOverlap integ rot cfg'.psf cfg'.oversample cfg'.psfOversample s n = .ok row' ∧
      (∀ key ∈ ["p02", "p03", "p04", "p05", "c_r_20", "c_r_50", "c_r_80", "c_r_99"], CellsAgree row row' key (s * ε)) ∧
      CellsAgree row row' "c_epsilon" ε := by
  have hn0 : 0 < n := by linarith
  obtain ⟨L, hL0, hL, hp, hf⟩ := C138_radii hn0
  obtain ⟨rP, a1, b1⟩ := hp (1 / 5) (by norm_num) (by norm_num)
  obtain ⟨r3, a2, b2⟩ := hp (3 / 10) (by norm_num) (by norm_num)
  obtain ⟨r4, a3, b3⟩ := hp (2 / 5) (by norm_num) (by norm_num)
  obtain ⟨r5, a4, b4⟩ := hp (1 / 2) (by norm_num) (by norm_num)
  obtain ⟨r20, a5, b5⟩ := hf (1 / 5) (by norm_num) (by norm_num)
  obtain ⟨r80, a6, b6⟩ := hf (4 / 5) (by norm_num) (by norm_num)
  obtain ⟨r99, a7, b7⟩ := hf (99 / 100) (by norm_num) (by norm_num)
  have hpos : ∀ r ∈ [rP, r3, r4, r5, r20, r80, r99], 0 < r := by
    simp only [List.mem_cons, List.not_mem_nil, or_false]
    rintro r (rfl | rfl | rfl | rfl | rfl | rfl | rfl) <;> assumption
  have hb := (C65_coefficient hn0 (bn n)).2 rfl
  filter_upwards [C138_columns hc hn hb one_pos hL hpos b1 b2 b3 b4 b5 b6 b7 (half_pos hε),
    C138_columns hc' hn hb one_pos hL hpos b1 b2 b3 b4 b5 b6 b7 (half_pos hε), eventually_ge_atTop 0] with s h h' hs ip integ rot hC hLi
  have hC' : GridInterp (ip "cubic") := hC ▸ cubic_grid
  have hL' : BetweenNodes (ip "linear") := hLi ▸ linear_between
  obtain ⟨row, e, p1, p2, p3, p4, p5, p6, p7, p8, p9⟩ := h ip integ rot hC' hL'
  obtain ⟨row', e', q1, q2, q3, q4, q5, q6, q7, q8, q9⟩ := h' ip integ rot hC' hL'
  refine ⟨row, row', e, e', ?_, by simpa using p5.agree zero_le_one q5⟩
  simp only [List.mem_cons, List.not_mem_nil, or_false]
  rintro key (rfl | rfl | rfl | rfl | rfl | rfl | rfl | rfl)
  exacts [p1.agree hs q1, p2.agree hs q2, p3.agree hs q3, p4.agree hs q4, p8.agree hs q8, p7.agree hs q7, p9.agree hs q9, p6.agree hs q6]

/-- What the code asks of the settings: the default settings are usable. -/
theorem C160_default : defaultSettings.Usable := default_usable

/-- Every PSF without negative pixels that sums to 1 is usable, whatever its size, at any resolution that divides the oversampling. -/
theorem C160_psf {P : Img ℝ} (h0 : ∀ u v, u < P.h → v < P.w → 0 ≤ P.px u v)
    (h1 : ∑ u ∈ Finset.range P.h, ∑ v ∈ Finset.range P.w, P.px u v = 1) {k p : Int} (hk : 0 < k) (hp : 0 < p) (hpk : p ∣ k) :
    SimSettings.Usable ⟨some P, .int k, .int p⟩ where
  accepted := by
    simp [PSFModel.init, PSFModel.setOversample, PSFModel.setPsfOversample, PSFModel.checkFactor, PSFModel.oversampleFactor, PSFModel.psfFactor, Bind.bind, Except.bind,
      hk.not_ge, hp.not_ge, hk.le, hpk]
  psf := by rintro Q ⟨⟩; exact ⟨h0, h1⟩
  window := by rintro x y size factor ⟨⟩

/-- The default settings against a skew PSF at twice the resolution, a disc galaxy. -/
example : ∃ (s : ℝ) (row row' : List (F ℝ)),
    simulate (fun k => if k = "cubic" then cubicInterp else linearInterp) exactOverlap (fun _ _ _ => .error .exception) (fun a _ => a)
      defaultSettings.psf defaultSettings.oversample defaultSettings.psfOversample s 1 = .ok row ∧
    simulate (fun k => if k = "cubic" then cubicInterp else linearInterp) exactOverlap (fun _ _ _ => .error .exception) (fun a _ => a)
      skewSettings.psf skewSettings.oversample skewSettings.psfOversample s 1 = .ok row' ∧ CellsAgree row row' "c_r_50" (s * (1 / 1000)) := by
  obtain ⟨s, h⟩ := (C160_settings (n := 1) (by norm_num) default_usable skew_usable (ε := 1 / 1000) (by norm_num)).exists
  obtain ⟨row, row', e, e', h1, -⟩ := h (fun k => if k = "cubic" then cubicInterp else linearInterp)
    (fun _ _ _ => .error .exception) (fun a _ => a) (by simp) (by simp)
  exact ⟨s, row, row', e, e', h1 "c_r_50" (by simp)⟩

end Verif.Props

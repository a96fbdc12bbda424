import Verif.Model.PlotLabels
import Verif.Props.RoundingProfile

/-!
# C115: labels of the plots; C116: the concentration index in floating point
-/

set_option linter.unusedSectionVars false
set_option linter.unusedVariables false

namespace Verif.Props

open F Spec

section
variable {K : Type} [Field K] [LinearOrder K] [IsStrictOrderedRing K] [FloorRing K]

/-- **C115, partial.** For a fraction of `k` percent the legend shows `k` or `k - 1`. -/
theorem C115_percent_partial {fl : K → K} (hfl : Rounding fl) {u : K} (hu : RelErr u fl) (hu0 : 0 ≤ u) (k : Nat) (hk : 1 ≤ k)
    (hku : (k : K) * (2 * u + u ^ 2) < 1) :
    legendPercent fl (fin (fl ((k : K) / 100))) = .ok (k : ℤ) ∨ legendPercent fl (fin (fl ((k : K) / 100))) = .ok ((k : ℤ) - 1) := by
  have hk0 : (0 : K) < k := by exact_mod_cast hk
  have hu1 : u < 1 := by
    have : (1 : K) ≤ k := by exact_mod_cast hk
    nlinarith
  have h1 := relErr_le hu (x := (k : K) / 100) (by positivity)
  have hp : 0 ≤ fl ((k : K) / 100) := Rounding.nonneg hfl (by positivity)
  have h2 := relErr_le hu (x := fl ((k : K) / 100) * 100) (by positivity)
  set y := fl (fl ((k : K) / 100) * 100) with hy
  have hy0 : 0 ≤ y := Rounding.nonneg hfl (by positivity)
  have hup : y < k + 1 := by
    have : fl ((k : K) / 100) * 100 ≤ (1 + u) * k := by linarith [h1.1]
    calc y ≤ (1 + u) * (fl ((k : K) / 100) * 100) := h2.1
      _ ≤ (1 + u) * ((1 + u) * k) := by gcongr
      _ = k + k * (2 * u + u ^ 2) := by ring
      _ < k + 1 := by linarith
  have hlo : (k : K) - 1 ≤ y := by
    have : (1 - u) * k ≤ fl ((k : K) / 100) * 100 := by linarith [h1.2]
    calc (k : K) - 1 ≤ k - k * (2 * u + u ^ 2) := by linarith
      _ ≤ k - k * (2 * u - u ^ 2) := by nlinarith [sq_nonneg u]
      _ = (1 - u) * ((1 - u) * k) := by ring
      _ ≤ (1 - u) * (fl ((k : K) / 100) * 100) := mul_le_mul_of_nonneg_left this (by linarith)
      _ ≤ y := h2.2
  have hfloor : ⌊y⌋ = (k : ℤ) ∨ ⌊y⌋ = (k : ℤ) - 1 := by
    have a1 : ⌊y⌋ < (k : ℤ) + 1 := by
      rw [Int.floor_lt]; push_cast; exact hup
    have a2 : (k : ℤ) - 1 ≤ ⌊y⌋ := by
      rw [Int.le_floor]; push_cast; exact hlo
    omega
  have hval : legendPercent fl (fin (fl ((k : K) / 100))) = .ok ⌊y⌋ := by
    unfold legendPercent
    rw [fin_mul, rnd_fin, ← hy]
    simp only [pyIntF, if_pos hy0]
  rw [hval]
  rcases hfloor with h | h <;> rw [h]
  · exact Or.inl rfl
  · exact Or.inr rfl

/-- In exact arithmetic the legend would show `k`. -/
theorem C115_percent_exact (k : Nat) : legendPercent id (fin ((k : K) / 100)) = .ok (k : ℤ) := by
  unfold legendPercent
  rw [fin_mul, rnd_fin, div_mul_cancel₀ _ (by norm_num)]
  simp [pyIntF]

/-- `_plot_radii` draws exactly the radii that are not NaN, at their values. -/
theorem C115_radii (fl : K → K) (eta rP rTotal rHalf : F K) (f : K) :
    ∃ ls, plotRadii fl eta rP rTotal rHalf (fin f) = .ok ls ∧
      ls.map (fun l => (l.x, l.symbol)) = [(rP, "p"), (rTotal, "total"), (rHalf, "50")].filter fun q => !q.1.isNaN := by
  obtain ⟨k, hk⟩ : ∃ k, legendPercent fl (fin f) = .ok k := ⟨_, rfl⟩
  unfold plotRadii
  rw [hk]
  cases h1 : rP.isNaN <;> cases h2 : rTotal.isNaN <;> cases h3 : rHalf.isNaN <;>
    simp [h1, h2, h3, bind, Except.bind, pure, Except.pure]

end

/-- **C115, violated.** In double precision 0.29 is shown as 28 percent; of all whole percentages exactly 29, 57 and 58 are wrong. -/
theorem C115_percent_violated :
    legendPercent (flBits 53) (fin (flBits 53 (29 / 100 : ℚ))) = .ok 28 ∧
    ∀ k : Nat, k ≤ 100 → (legendPercent (flBits 53) (fin (flBits 53 ((k : ℚ) / 100))) ≠ .ok (k : ℤ) ↔ k = 29 ∨ k = 57 ∨ k = 58) := by
  constructor
  · decide +kernel
  · have : ∀ k : Fin 101, legendPercent (flBits 53) (fin (flBits 53 (((k : Nat) : ℚ) / 100))) ≠ .ok ((k : Nat) : ℤ) ↔
        (k : Nat) = 29 ∨ (k : Nat) = 57 ∨ (k : Nat) = 58 := by decide +kernel
    intro k hk
    exact this ⟨k, by omega⟩

/-- **C115, axis labels.** The x axis names the radius and its unit when there is a unit; the y axis of the curve of growth always names
its quantity, with the unit when there is one. -/
theorem C115_axis (u : String) (hu : u ≠ "") :
    xLabel (some u) = "Aperture Radius" ++ (" [" ++ u ++ "]") ∧ yLabelCog (some u) = "$L(\\leq r)$" ++ (" [" ++ u ++ "]") ∧
    yLabelCog none = "$L(\\leq r)$" ∧ yLabelCog (some "") = "$L(\\leq r)$" := by
  refine ⟨?_, ?_, by decide, by decide⟩
  · unfold xLabel unitText
    rw [if_pos (by simpa using hu)]; rfl
  · unfold yLabelCog unitText
    rw [if_pos (by simpa using hu)]; rfl

/-- **C115, axis labels, violated.** Without a unit the x axis has no label at all. -/
theorem C115_axis_violated : xLabel none = "" ∧ xLabel (some "") = "" ∧ yLabelCog none ≠ "" := by decide

/-- The default fraction 0.99 is shown as 99. -/
example : legendPercent (flBits 53) (fin (flBits 53 (99 / 100 : ℚ))) = .ok 99 := by decide +kernel
/-- The hypotheses of the partial theorem hold for all percentages up to 10^15 in double precision. -/
example : legendPercent (flBits 53) (fin (flBits 53 (((29 : Nat) : ℚ) / 100))) = .ok (29 : Nat) ∨
    legendPercent (flBits 53) (fin (flBits 53 (((29 : Nat) : ℚ) / 100))) = .ok ((29 : Nat) - 1) :=
  C115_percent_partial (flBits_rounding 53 (by decide)) (flBits_relErr 53 (by decide)) (by positivity) 29 (by decide) (by norm_num)
example : (plotRadii (flBits 53) (fin (1 / 5)) (fin 7) nan (fin 3) (fin (99 / 100 : ℚ))).map (·.map (·.x)) = .ok [fin 7, fin 3] := by
  decide +kernel

/-! ### C116 -/

section
variable {K : Type} [Field K] [LinearOrder K] [IsStrictOrderedRing K] [HasSqrt K] [HasLog10 K]

/-- **C116.** In floating point the concentration index of two positive radii is a number; it is at least 0 when the second radius is not
smaller and at most 0 when it is not larger, provided `log10` has the right sign. -/
theorem C116_sign {fl : K → K} (hfl : Rounding fl) {u : K} (hu : RelErr u fl) (hu1 : u < 1)
    (hlog : ∀ x : K, 1 ≤ x → 0 ≤ HasLog10.log10 x) (hlog' : ∀ x : K, 0 < x → x ≤ 1 → HasLog10.log10 x ≤ 0) {r1 r2 : K} (h1 : 0 < r1) (h2 : 0 < r2) :
    ∃ c, concentrationR fl (fin r1) (fin r2) = fin c ∧ (r1 ≤ r2 → 0 ≤ c) ∧ (r2 ≤ r1 → c ≤ 0) := by
  have hq : 0 < fl (r2 / r1) := pos_of_relErr hfl hu hu1 (div_pos h2 h1)
  have hnp : ∀ {x : K}, x ≤ 0 → fl x ≤ 0 := by
    intro x hx
    have := Rounding.nonneg hfl (x := -x) (by linarith)
    rw [hfl.neg] at this
    linarith
  refine ⟨fl (5 * fl (HasLog10.log10 (fl (r2 / r1)))), ?_, ?_, ?_⟩
  · unfold concentrationR
    rw [if_neg (by simp), fin_div_of_ne _ h1.ne', rnd_fin]
    simp only [F.log10, hq.ne', not_lt.2 hq.le, if_false, rnd_fin, fin_mul]
  · intro h
    have : 1 ≤ fl (r2 / r1) := by
      rw [← hfl.one]; exact hfl.mono ((one_le_div h1).2 h)
    exact Rounding.nonneg hfl (mul_nonneg (by norm_num) (Rounding.nonneg hfl (hlog _ this)))
  · intro h
    have : fl (r2 / r1) ≤ 1 := by
      rw [← hfl.one]; exact hfl.mono ((div_le_one h1).2 h)
    exact hnp (mul_nonpos_of_nonneg_of_nonpos (by norm_num) (hnp (hlog' _ hq this)))

/-- Measuring both radii in a unit that differs by a power of two does not change the index at all. -/
theorem C116_power_of_two {fl : K → K} (j : ℤ) (r1 r2 : K) :
    concentrationR fl (fin ((2 : K) ^ j * r1)) (fin ((2 : K) ^ j * r2)) = concentrationR fl (fin r1) (fin r2) := by
  unfold concentrationR
  rw [F.mul_div_mul_left' _ _ _ (by positivity)]
  simp

/-- NaN radii give NaN. -/
theorem C116_nan {fl : K → K} (r : F K) : concentrationR fl nan r = nan ∧ concentrationR fl r nan = nan := by
  unfold concentrationR
  simp

end

/-- The real logarithm qualifies, with 53 bit arithmetic on the reals. -/
example : ∃ c, concentrationR (flBits 53) (fin (2 : ℝ)) (fin 7) = fin c ∧ 0 ≤ c := by
  obtain ⟨c, h, h', -⟩ := C116_sign (K := ℝ) (flBits_rounding 53 (by decide)) (flBits_relErr 53 (by decide)) (by norm_num)
    (fun x hx => Real.logb_nonneg (by norm_num) hx) (fun x h0 hx => Real.logb_nonpos (by norm_num) h0.le hx) (r1 := 2) (r2 := 7)
    (by norm_num) (by norm_num)
  exact ⟨c, h, h' (by norm_num)⟩

end Verif.Props

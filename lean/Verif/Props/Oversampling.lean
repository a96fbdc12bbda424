import Verif.Lemmas.Midpoint
import Verif.Lemmas.SersicFit
import Verif.Lemmas.IncGamma

/-!
# C154: oversampling converges to the light on the pixels
-/

set_option linter.unusedSectionVars false
set_option linter.unusedVariables false

namespace Verif.Spec

/-- The light at PSF resolution on an image of `n × n` pixels with `p × p` cells each, zero outside of the image. -/
noncomputable def lightCells (g : ℝ → ℝ → ℝ) (x0 y0 : ℝ) (n p : Nat) (r c : Int) : ℝ :=
  if 0 ≤ r ∧ r < (n * p : Nat) ∧ 0 ≤ c ∧ c < (n * p : Nat) then cellLight g (cellCentre x0 p c) (cellCentre y0 p r) (1 / p) else 0

/-- Evaluation succeeds, and every value is within `ε` of what it is for the coordinate in `ideal`. -/
def Near (res : Except PyErr (List ℝ)) (coords : List (ℝ × ℝ)) (ideal : ℝ × ℝ → ℝ) (ε : ℝ) : Prop :=
  ∃ vs, res = .ok vs ∧ List.Forall₂ (fun c v => |v - ideal c| ≤ ε) coords vs

end Verif.Spec

namespace Verif.Props

open Verif Spec Lemmas PSFModel MeasureTheory Filter Topology

theorem near_map {res : Except PyErr (List ℝ)} {coords : List (ℝ × ℝ)} {val ideal : ℝ × ℝ → ℝ} {ε : ℝ} (h : res = .ok (coords.map val))
    (hv : ∀ c ∈ coords, |val c - ideal c| ≤ ε) : Near res coords ideal ε := by
  refine ⟨_, h, ?_⟩
  clear h
  induction coords with
  | nil => exact List.Forall₂.nil
  | cons c l ih =>
    exact List.Forall₂.cons (hv c (by simp)) (ih fun c hc => hv c (by simp [hc]))

/-- A continuous function: the mean of the samples of a cell converges to its light. -/
theorem cell_converges {g : ℝ → ℝ → ℝ} (hg : Continuous (Function.uncurry g)) (x y : ℝ) {w : ℝ} (hw : 0 < w) {ε : ℝ} (hε : 0 < ε) :
    ∃ k0 : Nat, ∀ k, k0 ≤ k → 0 < k → |cellMean g x y w k - cellLight g x y w| ≤ ε := by
  have hc : IsCompact (Metric.closedBall ((x, y) : ℝ × ℝ) (w / 2)) := isCompact_closedBall _ _
  have hu := hc.uniformContinuousOn_of_continuous hg.continuousOn
  rw [Metric.uniformContinuousOn_iff_le] at hu
  obtain ⟨δ, hδ, hu⟩ := hu (ε / 2) (by positivity)
  have hmem : ∀ u v, |u - x| ≤ w / 2 → |v - y| ≤ w / 2 → ((u, v) : ℝ × ℝ) ∈ Metric.closedBall ((x, y) : ℝ × ℝ) (w / 2) := by
    intro u v h1 h2
    rw [Metric.mem_closedBall, Prod.dist_eq, Real.dist_eq, Real.dist_eq]
    exact max_le h1 h2
  obtain ⟨k0, hk0⟩ := exists_nat_gt (w / δ)
  refine ⟨k0, fun k hk hkp => ?_⟩
  have hkr : (0 : ℝ) < k := by exact_mod_cast hkp
  have hsmall : w / k / 2 ≤ δ := by
    have : w / δ < k := hk0.trans_le (by exact_mod_cast hk)
    rw [div_lt_iff₀ hδ] at this
    have : w / k < δ := by rw [div_lt_iff₀ hkr]; linarith [mul_comm (k : ℝ) δ]
    have : 0 < w / k := by positivity
    linarith
  have near : ∀ u v u' v', |u - x| ≤ w / 2 → |v - y| ≤ w / 2 → |u' - x| ≤ w / 2 → |v' - y| ≤ w / 2 → |u - u'| ≤ δ → |v - v'| ≤ δ →
      |g u v - g u' v'| ≤ ε / 2 := by
    intro u v u' v' h1 h2 h3 h4 h5 h6
    have := hu _ (hmem u v h1 h2) _ (hmem u' v' h3 h4) (by rw [Prod.dist_eq, Real.dist_eq, Real.dist_eq]; exact max_le h5 h6)
    rwa [Real.dist_eq] at this
  have aux : ∀ m d c : ℝ, 0 ≤ d → |m - c| + d ≤ w / 2 → |m + d - c| ≤ w / 2 ∧ |m - d - c| ≤ w / 2 ∧ |m - c| ≤ w / 2 := by
    intro m d c h0 h
    have a1 := abs_le.1 (le_refl |m - c|)
    refine ⟨?_, ?_, ?_⟩ <;> rw [abs_le] <;> constructor <;> linarith [a1.1, a1.2]
  have h := mid_square hg (φ := fun _ => ε) (ψ := fun _ => ε) continuous_const continuous_const (x := x) (y := y) hw hkp
    (fun m v d h0 h1 h2 h3 => by
      obtain ⟨b1, b2, b3⟩ := aux m d x h0 h2
      have n1 := near (m + d) v m v b1 h3 b3 h3 (by rw [add_sub_cancel_left, abs_of_nonneg h0]; linarith) (by simpa using hδ.le)
      have n2 := near (m - d) v m v b2 h3 b3 h3 (by rw [sub_sub_cancel_left, abs_neg, abs_of_nonneg h0]; linarith) (by simpa using hδ.le)
      rw [abs_le] at n1 n2 ⊢
      constructor <;> linarith [n1.1, n1.2, n2.1, n2.2])
    (fun u m d h0 h1 h2 h3 => by
      obtain ⟨b1, b2, b3⟩ := aux m d y h0 h3
      have n1 := near u (m + d) u m h2 b1 h2 b3 (by simpa using hδ.le) (by rw [add_sub_cancel_left, abs_of_nonneg h0]; linarith)
      have n2 := near u (m - d) u m h2 b2 h2 b3 (by simpa using hδ.le) (by rw [sub_sub_cancel_left, abs_neg, abs_of_nonneg h0]; linarith)
      rw [abs_le] at n1 n2 ⊢
      constructor <;> linarith [n1.1, n1.2, n2.1, n2.2])
  refine h.trans (le_of_eq ?_)
  rw [intervalIntegral.integral_const, smul_eq_mul]
  field_simp
  ring

/-- **C154, without a PSF.** For every continuous model, coordinates and tolerance there is an oversampling factor from which on
evaluation gives at every coordinate the light of the model on that pixel. -/
theorem C154_converges (S : SubModel ℝ) (params : List ℝ) (hS : Continuous (Function.uncurry (S.eval params))) (coords : List (ℝ × ℝ))
    (x0 y0 : ℝ) (hx : (coords.map (·.1)).min? = some x0) (hy : (coords.map (·.2)).min? = some y0)
    (hwhole : ∀ c ∈ coords, ∃ i j : ℤ, c = (x0 + i, y0 + j)) {ε : ℝ} (hε : 0 < ε) :
    ∃ k0 : Nat, ∀ M : PSFModel ℝ, M.sub = S → CacheOk M → Compatible M → M.psf = none → (∀ x y s f, M.oversample ≠ .window x y s f) →
      k0 ≤ M.oversampleFactor → ∀ (rot : Img ℝ → ℝ → Img ℝ) (pa : ℝ),
        Near (M.evaluate rot coords params pa).1 coords (fun c => pixelLight (S.eval params) c.1 c.2) ε := by
  have hex : ∃ k0 : Nat, ∀ c ∈ coords, ∀ k, k0 ≤ k → 0 < k → |cellMean (S.eval params) c.1 c.2 1 k - cellLight (S.eval params) c.1 c.2 1| ≤ ε := by
    clear hx hy hwhole
    induction coords with
    | nil => exact ⟨0, by simp⟩
    | cons c l ih =>
      obtain ⟨a, ha⟩ := ih
      obtain ⟨b, hb⟩ := cell_converges hS c.1 c.2 one_pos hε
      refine ⟨max a b, fun d hd k hk h0 => ?_⟩
      rcases List.mem_cons.1 hd with rfl | hd
      · exact hb k ((le_max_right _ _).trans hk) h0
      · exact ha d hd k ((le_max_left _ _).trans hk) h0
  obtain ⟨k0, hk0⟩ := hex
  refine ⟨k0, fun M hM h1 h2 h3 h4 h5 rot pa => ?_⟩
  subst hM
  refine near_map (C77_whole_partial M h1 h2 h3 h4 rot coords x0 y0 hx hy hwhole params pa).1 fun c hc => ?_
  have := hk0 c hc _ h5 h2.1
  rwa [cellMean_unit, cellLight_one] at this

/-- How far apart two images at PSF resolution are after convolution and averaging to pixels. -/
theorem conv_close (psf : Img ℝ) {T T' : Int → Int → ℝ} {ε : ℝ} (h : ∀ r c, |T r c - T' r c| ≤ ε) (p i j : Nat) (hp : 0 < p) :
    |cellsOfPixel (convAt psf T) p i j - cellsOfPixel (convAt psf T') p i j| ≤
      (∑ u ∈ Finset.range psf.h, ∑ v ∈ Finset.range psf.w, |psf.px u v|) * ε := by
  have hpr : (0 : ℝ) < p := by exact_mod_cast hp
  have hconv : ∀ r c, |convAt psf T r c - convAt psf T' r c| ≤ (∑ u ∈ Finset.range psf.h, ∑ v ∈ Finset.range psf.w, |psf.px u v|) * ε := by
    intro r c
    unfold convAt
    rw [← Finset.sum_sub_distrib, Finset.sum_mul]
    refine (Finset.abs_sum_le_sum_abs _ _).trans (Finset.sum_le_sum fun u _ => ?_)
    rw [← Finset.sum_sub_distrib, Finset.sum_mul]
    refine (Finset.abs_sum_le_sum_abs _ _).trans (Finset.sum_le_sum fun v _ => ?_)
    rw [← mul_sub, abs_mul]
    exact mul_le_mul_of_nonneg_left (h _ _) (abs_nonneg _)
  unfold cellsOfPixel
  rw [← sub_div, ← Finset.sum_sub_distrib, abs_div, abs_of_pos (by positivity : (0 : ℝ) < (p : ℝ) ^ 2), div_le_iff₀ (by positivity)]
  calc _ ≤ ∑ a ∈ Finset.range p, ∑ b ∈ Finset.range p, (∑ u ∈ Finset.range psf.h, ∑ v ∈ Finset.range psf.w, |psf.px u v|) * ε := by
        refine (Finset.abs_sum_le_sum_abs _ _).trans (Finset.sum_le_sum fun a _ => ?_)
        rw [← Finset.sum_sub_distrib]
        exact (Finset.abs_sum_le_sum_abs _ _).trans (Finset.sum_le_sum fun b _ => hconv _ _)
    _ = _ := by simp only [Finset.sum_const, Finset.card_range, nsmul_eq_mul]; ring

/-- **C154, with a PSF.** The limit is the PSF convolved with the light on the PSF cells of the image, averaged to pixels. -/
theorem C154_psf (S : SubModel ℝ) (params : List ℝ) (hS : Continuous (Function.uncurry (S.eval params))) (psf : Img ℝ) (p : Nat)
    (rot : Img ℝ → ℝ → Img ℝ) (pa : ℝ) (coords : List (ℝ × ℝ)) (x0 y0 xMax yMax : ℝ)
    (g1 : (coords.map (·.1)).min? = some x0) (g2 : (coords.map (·.1)).max? = some xMax) (g3 : (coords.map (·.2)).min? = some y0)
    (g4 : (coords.map (·.2)).max? = some yMax) {ε : ℝ} (hε : 0 < ε) :
    ∃ k0 : Nat, ∀ M : PSFModel ℝ, M.sub = S → CacheOk M → Compatible M → M.psf = some psf → M.psfFactor = p →
      (∀ x y s f, M.oversample ≠ .window x y s f) → k0 ≤ M.oversampleFactor →
        Near (M.evaluate rot coords params pa).1 coords (fun c =>
          cellsOfPixel (convAt (if pa ≠ 0 then rot psf pa else psf)
            (lightCells (S.eval params) x0 y0 (max (indexOf xMax x0) (indexOf yMax y0) + 1) p)) p (indexOf c.2 y0) (indexOf c.1 x0)) ε := by
  rcases Nat.eq_zero_or_pos p with h0 | hp
  · refine ⟨0, fun M _ _ h2 _ h5 _ _ => ?_⟩
    have := h2.2.1
    omega
  have hpr : (0 : ℝ) < p := by exact_mod_cast hp
  set Q := if pa ≠ 0 then rot psf pa else psf with hQ
  set N := max (indexOf xMax x0) (indexOf yMax y0) + 1 with hN
  set s := ∑ u ∈ Finset.range Q.h, ∑ v ∈ Finset.range Q.w, |Q.px u v| with hs
  have hs0 : 0 ≤ s := Finset.sum_nonneg fun _ _ => Finset.sum_nonneg fun _ _ => abs_nonneg _
  have hε' : 0 < ε / (s + 1) := by positivity
  have hpick : ∀ rc : Fin (N * p) × Fin (N * p), ∃ k0 : Nat, ∀ k, k0 ≤ k → 0 < k →
      |cellMean (S.eval params) (cellCentre x0 p (rc.2.1 : Int)) (cellCentre y0 p (rc.1.1 : Int)) (1 / p) k -
        cellLight (S.eval params) (cellCentre x0 p (rc.2.1 : Int)) (cellCentre y0 p (rc.1.1 : Int)) (1 / p)| ≤ ε / (s + 1) :=
    fun rc => cell_converges hS _ _ (by positivity) hε'
  choose K hK using hpick
  refine ⟨p * (Finset.univ.sup K + 1), fun M hM h1 h2 h3 h5 h4 h6 => ?_⟩
  subst hM
  refine near_map (C119_evaluate M h1 h2 psf h3 h4 rot coords x0 y0 xMax yMax g1 g2 g3 g4 params pa) fun c hc => ?_
  rw [h5]
  obtain ⟨q, hq⟩ := h2.2.2
  rw [h5] at hq
  have hdiv : M.oversampleFactor / p = q := by rw [hq]; exact Nat.mul_div_cancel_left q hp
  have hqK : Finset.univ.sup K + 1 ≤ q := by
    rw [hq] at h6
    exact Nat.le_of_mul_le_mul_left h6 hp
  rw [hdiv]
  have hcl := conv_close Q (T := psfCells (M.sub.eval params) x0 y0 N p fun _ _ => q) (T' := lightCells (M.sub.eval params) x0 y0 N p)
    (ε := ε / (s + 1)) (fun r c => by
      unfold psfCells lightCells
      by_cases h : 0 ≤ r ∧ r < (N * p : Nat) ∧ 0 ≤ c ∧ c < (N * p : Nat)
      · rw [if_pos h, if_pos h]
        obtain ⟨i, rfl⟩ := Int.eq_ofNat_of_zero_le h.1
        obtain ⟨j, rfl⟩ := Int.eq_ofNat_of_zero_le h.2.2.1
        have hi : i < N * p := by exact_mod_cast h.2.1
        have hj : j < N * p := by exact_mod_cast h.2.2.2
        refine hK (⟨i, hi⟩, ⟨j, hj⟩) q ?_ (by omega)
        have := Finset.le_sup (f := K) (Finset.mem_univ ((⟨i, hi⟩, ⟨j, hj⟩) : Fin (N * p) × Fin (N * p)))
        omega
      · rw [if_neg h, if_neg h, sub_zero, abs_zero]; exact hε'.le) p (indexOf c.2 y0) (indexOf c.1 x0) hp
  refine hcl.trans ?_
  rw [← hs, ← mul_div_assoc, div_le_iff₀ (by linarith)]
  nlinarith

/-- **C154, first order.** If the model changes by at most `Lx` and `Ly` per pixel along the axes, the error is at most
`(Lx + Ly) / (4 k)`. -/
theorem C154_lipschitz {g : ℝ → ℝ → ℝ} (hg : Continuous (Function.uncurry g)) {Lx Ly : ℝ} (hx : ∀ u u' v, |g u v - g u' v| ≤ Lx * |u - u'|)
    (hy : ∀ u v v', |g u v - g u v'| ≤ Ly * |v - v'|) (x y : ℝ) {k : Nat} (hk : 0 < k) :
    |pixelMean g x y k - pixelLight g x y| ≤ (Lx + Ly) / (4 * k) := by
  have hkr : (0 : ℝ) < k := by exact_mod_cast hk
  have h := mid_square hg (φ := fun d => 2 * Lx * d) (ψ := fun d => 2 * Ly * d) (by fun_prop) (by fun_prop) (x := x) (y := y) one_pos hk
    (fun m v d h0 _ _ _ => by
      have n1 := hx (m + d) m v
      have n2 := hx (m - d) m v
      rw [add_sub_cancel_left, abs_of_nonneg h0] at n1
      rw [sub_sub_cancel_left, abs_neg, abs_of_nonneg h0] at n2
      rw [abs_le] at n1 n2 ⊢
      constructor <;> linarith [n1.1, n1.2, n2.1, n2.2])
    (fun u m d h0 _ _ _ => by
      have n1 := hy u (m + d) m
      have n2 := hy u (m - d) m
      rw [add_sub_cancel_left, abs_of_nonneg h0] at n1
      rw [sub_sub_cancel_left, abs_neg, abs_of_nonneg h0] at n2
      rw [abs_le] at n1 n2 ⊢
      constructor <;> linarith [n1.1, n1.2, n2.1, n2.2])
  rw [cellMean_unit, cellLight_one] at h
  refine h.trans (le_of_eq ?_)
  rw [intervalIntegral.integral_const_mul, intervalIntegral.integral_const_mul, integral_id]
  field_simp
  ring

/-- **C154, second order.** If the second differences of the model are at most `Bx` and `By` times the square of the step (second
derivatives bounded by these), the error is at most `(Bx + By) / (24 k^2)`: doubling the factor divides the error by four. -/
theorem C154_smooth {g : ℝ → ℝ → ℝ} (hg : Continuous (Function.uncurry g)) {Bx By : ℝ}
    (hx : ∀ u v d, |g (u + d) v + g (u - d) v - 2 * g u v| ≤ Bx * d ^ 2)
    (hy : ∀ u v d, |g u (v + d) + g u (v - d) - 2 * g u v| ≤ By * d ^ 2) (x y : ℝ) {k : Nat} (hk : 0 < k) :
    |pixelMean g x y k - pixelLight g x y| ≤ (Bx + By) / (24 * (k : ℝ) ^ 2) := by
  have hkr : (0 : ℝ) < k := by exact_mod_cast hk
  have h := mid_square hg (φ := fun d => Bx * d ^ 2) (ψ := fun d => By * d ^ 2) (by fun_prop) (by fun_prop) (x := x) (y := y) one_pos hk
    (fun m v d _ _ _ _ => hx m v d) (fun u m d _ _ _ _ => hy u m d)
  rw [cellMean_unit, cellLight_one] at h
  refine h.trans (le_of_eq ?_)
  rw [intervalIntegral.integral_const_mul, intervalIntegral.integral_const_mul, integral_pow]
  field_simp
  norm_num
  field_simp
  ring

theorem sum_range_id (k : Nat) : ∑ a ∈ Finset.range k, (a : ℝ) = k * (k - 1) / 2 := by
  induction k with
  | zero => simp
  | succ k ih => rw [Finset.sum_range_succ, ih]; push_cast; ring

theorem sum_range_square (k : Nat) : ∑ a ∈ Finset.range k, (a : ℝ) ^ 2 = k * (k - 1) * (2 * k - 1) / 6 := by
  induction k with
  | zero => simp
  | succ k ih => rw [Finset.sum_range_succ, ih]; push_cast; ring

/-- **C154, the order is exact.** For the model `x^2 + y^2` (`Bx = By = 2`) the error is the bound, for every factor and pixel. -/
theorem C154_sharp (x y : ℝ) {k : Nat} (hk : 0 < k) :
    pixelLight (fun u v => u ^ 2 + v ^ 2) x y - pixelMean (fun u v => u ^ 2 + v ^ 2) x y k = 4 / (24 * (k : ℝ) ^ 2) := by
  have hkr : (0 : ℝ) < k := by exact_mod_cast hk
  have e1 : pixelLight (fun u v => u ^ 2 + v ^ 2) x y = x ^ 2 + y ^ 2 + 1 / 6 := by
    unfold pixelLight
    have inner : ∀ u : ℝ, ∫ v in (y - 1 / 2)..(y + 1 / 2), (u ^ 2 + v ^ 2) = u ^ 2 + (y ^ 2 + 1 / 12) := by
      intro u
      rw [intervalIntegral.integral_add (Continuous.intervalIntegrable (by fun_prop) _ _) (Continuous.intervalIntegrable (by fun_prop) _ _), intervalIntegral.integral_const, integral_pow, smul_eq_mul]
      ring
    simp only [inner]
    rw [intervalIntegral.integral_add (Continuous.intervalIntegrable (by fun_prop) _ _) (Continuous.intervalIntegrable (by fun_prop) _ _), intervalIntegral.integral_const, integral_pow, smul_eq_mul]
    ring
  have one : ∀ c : ℝ, ∑ a ∈ Finset.range k, (c + (((a : ℝ) + 1 / 2) / k - 1 / 2)) ^ 2 = k * (c ^ 2 + 1 / 12 - 1 / (12 * (k : ℝ) ^ 2)) := by
    intro c
    have : ∀ a ∈ Finset.range k, (c + (((a : ℝ) + 1 / 2) / k - 1 / 2)) ^ 2 =
        (a : ℝ) ^ 2 / k ^ 2 + (a : ℝ) * (2 / k * (c + 1 / (2 * k) - 1 / 2)) + (c + 1 / (2 * k) - 1 / 2) ^ 2 := by
      intro a _; field_simp; ring
    rw [Finset.sum_congr rfl this, Finset.sum_add_distrib, Finset.sum_add_distrib, ← Finset.sum_div, ← Finset.sum_mul, sum_range_id,
      sum_range_square, Finset.sum_const, Finset.card_range, nsmul_eq_mul]
    field_simp
    ring
  rw [e1]
  unfold pixelMean
  simp only [Finset.sum_add_distrib, Finset.sum_const, Finset.card_range, nsmul_eq_mul, ← Finset.mul_sum, one]
  field_simp
  ring

/-- Sersic models are continuous. -/
theorem sersic2D_continuous {n : ℝ} (hn : 0 < n) (A r x0 y0 e t : ℝ) :
    Continuous (Function.uncurry fun x y => sersic2D x y A r n x0 y0 e t) := by
  unfold Function.uncurry sersic2D
  have hz : Continuous fun p : ℝ × ℝ => Real.sqrt ((((p.1 - x0) * Real.cos t + (p.2 - y0) * Real.sin t) / r) ^ 2 +
      ((-(p.1 - x0) * Real.sin t + (p.2 - y0) * Real.cos t) / ((1 - e) * r)) ^ 2) := by fun_prop
  have hp := hz.rpow_const (p := 1 / n) fun _ => Or.inr (by positivity)
  exact continuous_const.mul (Real.continuous_exp.comp (continuous_const.mul (hp.sub continuous_const)))

/-- **C154, Sersic models.** Every Sersic model of any index, size, ellipticity and position, however peaked, is covered: oversampled far
enough it gives the light on every pixel. -/
theorem C154_sersic {n : ℝ} (hn : 0 < n) (A r x0 y0 e t : ℝ) (coords : List (ℝ × ℝ)) (x1 y1 : ℝ)
    (hx : (coords.map (·.1)).min? = some x1) (hy : (coords.map (·.2)).min? = some y1)
    (hwhole : ∀ c ∈ coords, ∃ i j : ℤ, c = (x1 + i, y1 + j)) {ε : ℝ} (hε : 0 < ε) :
    ∃ k0 : Nat, ∀ M : PSFModel ℝ, M.sub = sersicSub → CacheOk M → Compatible M → M.psf = none →
      (∀ x y s f, M.oversample ≠ .window x y s f) → k0 ≤ M.oversampleFactor → ∀ (rot : Img ℝ → ℝ → Img ℝ) (pa : ℝ),
        Near (M.evaluate rot coords [A, r, n, x0, y0, e, t] pa).1 coords
          (fun c => pixelLight (fun x y => sersic2D x y A r n x0 y0 e t) c.1 c.2) ε :=
  C154_converges sersicSub [A, r, n, x0, y0, e, t] (sersic2D_continuous hn A r x0 y0 e t) coords x1 y1 hx hy hwhole hε

/-- Non-vacuity: a model with factor `k` that meets the hypotheses of `C154_sersic`. -/
example (k : Nat) (hk : 0 < k) : CacheOk (⟨sersicSub, none, .int k, none, true, 0, 0, none, none⟩ : PSFModel ℝ) ∧
    Compatible (⟨sersicSub, none, .int k, none, true, 0, 0, none, none⟩ : PSFModel ℝ) ∧
    (⟨sersicSub, none, .int k, none, true, 0, 0, none, none⟩ : PSFModel ℝ).oversampleFactor = k :=
  ⟨fun r hr => by simp at hr, ⟨hk, Nat.one_pos, one_dvd _⟩, rfl⟩

/-- A bounded family of continuous functions that goes to zero away from a line: its light on a pixel goes to zero. -/
theorem light_vanishes {f : ℝ → ℝ → ℝ → ℝ} {B : ℝ} (hf : ∀ r, Continuous (Function.uncurry (f r))) (hle : ∀ r u v, |f r u v| ≤ B) (x0 : ℝ)
    (hpt : ∀ u v, u ≠ x0 → Tendsto (fun r => f r u v) (𝓝[>] 0) (𝓝 0)) (x y : ℝ) :
    Tendsto (fun r => pixelLight (f r) x y) (𝓝[>] 0) (𝓝 0) := by
  have hcu : ∀ r u, Continuous fun v => f r u v := fun r u => (hf r).comp (by fun_prop : Continuous fun v => (u, v))
  have hinner : ∀ u, u ≠ x0 → Tendsto (fun r => ∫ v in (y - 1 / 2)..(y + 1 / 2), f r u v) (𝓝[>] 0) (𝓝 0) := by
    intro u hu
    have := intervalIntegral.tendsto_integral_filter_of_dominated_convergence (μ := volume) (l := 𝓝[>] (0 : ℝ)) (a := y - 1 / 2) (b := y + 1 / 2)
      (F := fun r v => f r u v) (f := fun _ => (0 : ℝ)) (fun _ => B)
      (Eventually.of_forall fun r => (hcu r u).aestronglyMeasurable)
      (Eventually.of_forall fun r => Eventually.of_forall fun v _ => by rw [Real.norm_eq_abs]; exact hle r u v)
      (by simp) (Eventually.of_forall fun v _ => hpt u v hu)
    simpa using this
  have hinb : ∀ r u, |∫ v in (y - 1 / 2)..(y + 1 / 2), f r u v| ≤ B := by
    intro r u
    have := intervalIntegral.norm_integral_le_of_norm_le_const (a := y - 1 / 2) (b := y + 1 / 2)
      (f := fun v => f r u v) (C := B) fun v _ => by rw [Real.norm_eq_abs]; exact hle r u v
    rw [Real.norm_eq_abs] at this
    refine this.trans (le_of_eq ?_)
    rw [show y + 1 / 2 - (y - 1 / 2) = 1 by ring]; simp
  have hG : ∀ r, Continuous fun u => ∫ v in (y - 1 / 2)..(y + 1 / 2), f r u v := fun r =>
    intervalIntegral.continuous_parametric_intervalIntegral_of_continuous' (hf r) _ _
  have := intervalIntegral.tendsto_integral_filter_of_dominated_convergence (μ := volume) (l := 𝓝[>] (0 : ℝ)) (a := x - 1 / 2) (b := x + 1 / 2)
    (F := fun r u => ∫ v in (y - 1 / 2)..(y + 1 / 2), f r u v) (f := fun _ => (0 : ℝ)) (fun _ => B)
    (Eventually.of_forall fun r => (hG r).aestronglyMeasurable)
    (Eventually.of_forall fun r => Eventually.of_forall fun u _ => by rw [Real.norm_eq_abs]; exact hinb r u)
    (by simp)
    (by
      have : ∀ᵐ u : ℝ, u ≠ x0 := by simp [ae_iff]
      filter_upwards [this] with u hu _ using hinner u hu)
  unfold pixelLight
  simpa using this

theorem sersic2D_le {A n : ℝ} (hA : 0 < A) (hn : 0 < n) (e t x0 y0 r u v : ℝ) : |sersic2D u v A r n x0 y0 e t| ≤ A * Real.exp (bn n) := by
  have hb := bn_pos hn
  rw [sersic2D_scaled, abs_of_pos (mul_pos hA (Real.exp_pos _))]
  refine mul_le_mul_of_nonneg_left (Real.exp_le_exp.2 ?_) hA.le
  have : 0 ≤ Real.sqrt (scaledSq r (1 - e) t (u - x0) (v - y0)) ^ (1 / n) := Real.rpow_nonneg (Real.sqrt_nonneg _) _
  nlinarith

theorem sersic2D_small {n e : ℝ} (hn : 0 < n) (he : e < 1) (A t x0 y0 : ℝ) {u : ℝ} (v : ℝ) (hu : u ≠ x0) :
    Tendsto (fun r => sersic2D u v A r n x0 y0 e t) (𝓝[>] 0) (𝓝 0) := by
  have hb := bn_pos hn
  have hq : 0 < scaledSq 1 (1 - e) t (u - x0) (v - y0) := scaledSq_pos one_pos (by linarith) t (Or.inl (sub_ne_zero.2 hu))
  have hs : ∀ᶠ r : ℝ in 𝓝[>] 0, A * Real.exp (-bn n * ((Real.sqrt (scaledSq 1 (1 - e) t (u - x0) (v - y0)) * r⁻¹) ^ (1 / n) - 1)) =
      sersic2D u v A r n x0 y0 e t := by
    filter_upwards [self_mem_nhdsWithin] with r hr
    have hr : 0 < r := hr
    have : scaledSq r (1 - e) t (u - x0) (v - y0) = scaledSq 1 (1 - e) t (u - x0) (v - y0) * (r⁻¹) ^ 2 := by
      unfold scaledSq; field_simp
    rw [sersic2D_scaled, this, Real.sqrt_mul hq.le, Real.sqrt_sq (inv_nonneg.2 hr.le)]
  refine Tendsto.congr' hs ?_
  generalize scaledSq 1 (1 - e) t (u - x0) (v - y0) = z at hq
  generalize bn n = b at hb
  have h1 : Tendsto (fun r : ℝ => Real.sqrt z * r⁻¹) (𝓝[>] 0) atTop :=
    Tendsto.const_mul_atTop (Real.sqrt_pos.2 hq) tendsto_inv_nhdsGT_zero
  have h2 := (tendsto_rpow_atTop (show 0 < 1 / n by positivity)).comp h1
  have h3 : Tendsto (fun r : ℝ => -b * ((Real.sqrt z * r⁻¹) ^ (1 / n) - 1)) (𝓝[>] 0) atBot :=
    Tendsto.const_mul_atTop_of_neg (by linarith) (tendsto_atTop_add_const_right _ (-1) h2)
  have h4 := (Real.tendsto_exp_atBot.comp h3).const_mul A
  rwa [mul_zero] at h4

/-- The light of a Sersic model on a pixel goes to zero with its size. -/
theorem sersic_light_vanishes {A n e : ℝ} (hA : 0 < A) (hn : 0 < n) (he : e < 1) (t x0 y0 x y : ℝ) :
    Tendsto (fun r => pixelLight (fun u v => sersic2D u v A r n x0 y0 e t) x y) (𝓝[>] 0) (𝓝 0) :=
  light_vanishes (f := fun r u v => sersic2D u v A r n x0 y0 e t) (fun r => sersic2D_continuous hn A r x0 y0 e t)
    (fun r u v => sersic2D_le hA hn e t x0 y0 r u v) x0 (fun u v hu => sersic2D_small hn he A t x0 y0 v hu) x y

/-- **C154, no fixed factor is enough.** For every oversampling factor, pixel, Sersic index, ellipticity and angle and every ratio there is a
small enough galaxy on that pixel whose sampled value is more than that many times its light there. -/
theorem C154_fixed_violated {A n e : ℝ} (hA : 0 < A) (hn : 0 < n) (he : e < 1) (t x y C : ℝ) {k : Nat} (hk : 0 < k) :
    ∃ r x0 y0 : ℝ, 0 < r ∧ |x0 - x| ≤ 1 / 2 ∧ |y0 - y| ≤ 1 / 2 ∧
      C * pixelLight (fun u v => sersic2D u v A r n x0 y0 e t) x y < pixelMean (fun u v => sersic2D u v A r n x0 y0 e t) x y k := by
  have hkr : (1 : ℝ) ≤ k := by exact_mod_cast hk
  have hk0 : (0 : ℝ) < k := by linarith
  set d : ℝ := (((0 : ℕ) : ℝ) + 1 / 2) / k - 1 / 2 with hd
  have hd2 : |d| ≤ 1 / 2 := by
    have h1 : (0 : ℝ) ≤ (((0 : ℕ) : ℝ) + 1 / 2) / k := by positivity
    have h2 : (((0 : ℕ) : ℝ) + 1 / 2) / k ≤ 1 := by rw [div_le_one hk0]; simp; linarith
    rw [abs_le]; constructor <;> linarith
  have hlim := (sersic_light_vanishes hA hn he t (x + d) (y + d) x y).const_mul C
  rw [mul_zero] at hlim
  have hpos : 0 < A * Real.exp (bn n) / (k : ℝ) ^ 2 := by positivity
  obtain ⟨r, hr, hlt⟩ := (Filter.Eventually.and (self_mem_nhdsWithin : ∀ᶠ r : ℝ in 𝓝[>] 0, r ∈ Set.Ioi 0) (hlim.eventually (gt_mem_nhds hpos))).exists
  have hr : 0 < r := hr
  refine ⟨r, x + d, y + d, hr, by simpa using hd2, by simpa using hd2, hlt.trans_le ?_⟩
  unfold pixelMean
  refine div_le_div_of_nonneg_right ?_ (by positivity)
  have hnn : ∀ u v, 0 ≤ sersic2D u v A r n (x + d) (y + d) e t := fun u v => by rw [sersic2D_scaled]; positivity
  have hc : sersic2D (x + d) (y + d) A r n (x + d) (y + d) e t = A * Real.exp (bn n) := by
    rw [sersic2D_scaled]
    simp only [scaledSq, sub_self, neg_zero, zero_mul, add_zero, zero_div, ne_eq, OfNat.ofNat_ne_zero, not_false_eq_true, zero_pow, Real.sqrt_zero,
      Real.zero_rpow (one_div_ne_zero hn.ne')]
    ring_nf
  rw [← hc]
  have hmem : 0 ∈ Finset.range k := Finset.mem_range.2 hk
  refine le_trans ?_ (Finset.single_le_sum (f := fun a => ∑ b ∈ Finset.range k,
    sersic2D (x + (((b : ℕ) + 1 / 2) / (k : ℝ) - 1 / 2)) (y + (((a : ℕ) + 1 / 2) / (k : ℝ) - 1 / 2)) A r n (x + d) (y + d) e t)
    (fun a _ => Finset.sum_nonneg fun b _ => hnn _ _) hmem)
  exact Finset.single_le_sum (f := fun b : ℕ => sersic2D (x + ((b + 1 / 2) / (k : ℝ) - 1 / 2)) (y + d) A r n (x + d) (y + d) e t)
    (fun b _ => hnn _ _) hmem

end Verif.Props

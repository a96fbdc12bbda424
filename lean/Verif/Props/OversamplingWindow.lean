import Verif.Props.Oversampling
import Verif.Props.PhotometryUnits

/-!
# C154 for oversampling windows
-/

set_option linter.unusedSectionVars false
set_option linter.unusedVariables false

namespace Verif.Spec

/-- The limit of a model with an oversampling window, at PSF resolution: the light on the cells inside of the window, the value at the centre of
the cells outside, zero outside of the image.  The window covers the pixels from column `a` and row `b` on, `size` of them each way. -/
noncomputable def windowCells (g : ℝ → ℝ → ℝ) (n p : Nat) (a b : Int) (size : Nat) (r c : Int) : ℝ :=
  if 0 ≤ r ∧ r < (n * p : Nat) ∧ 0 ≤ c ∧ c < (n * p : Nat) then
    if a * p ≤ c ∧ c < (a + size) * p ∧ b * p ≤ r ∧ r < (b + size) * p then cellLight g (cellCentre 0 p c) (cellCentre 0 p r) (1 / p)
    else g (cellCentre 0 p c) (cellCentre 0 p r)
  else 0

end Verif.Spec

namespace Verif.Props

open Verif Spec Lemmas PSFModel MeasureTheory Filter Topology

theorem cellMean_single (g : ℝ → ℝ → ℝ) (x y w : ℝ) : cellMean g x y w 1 = g x y := by
  simp [cellMean]

/-- **C154, window.** A window inside of an image whose lowest coordinates are zero: with growing factor the values of the pixels in the window
converge to the light on them; those outside are the values at the pixel centres whatever the factor is. -/
theorem C154_window (S : SubModel ℝ) (params : List ℝ) (hS : Continuous (Function.uncurry (S.eval params))) (cx cy : Center ℝ) (size : Nat)
    (coords : List (ℝ × ℝ)) (iMax jMax : Nat) (hg : OnGrid coords 0 0 iMax jMax) (hint : ∀ c ∈ coords, ∃ i j : Nat, c = ((i : ℝ), (j : ℝ)))
    (vx vy : ℝ) (hx : centerValue S params cx = .ok vx) (hy : centerValue S params cy = .ok vy)
    (hx0 : 0 ≤ corner vx size) (hy0 : 0 ≤ corner vy size) (hx1 : corner vx size + size ≤ iMax + 1) (hy1 : corner vy size + size ≤ jMax + 1)
    {ε : ℝ} (hε : 0 < ε) :
    ∃ k0 : Nat, ∀ (M : PSFModel ℝ) (f : Nat), M.sub = S → CacheOk M → M.psf = none → M.psfOversample = none →
      M.oversample = .window cx cy (size : Int) f → k0 ≤ f → ∀ (rot : Img ℝ → ℝ → Img ℝ) (pa : ℝ),
        ∃ vs, (M.evaluate rot coords params pa).1 = .ok vs ∧ List.Forall₂ (fun c v =>
          if (corner vx size : ℝ) ≤ c.1 ∧ c.1 < (corner vx size : ℝ) + size ∧ (corner vy size : ℝ) ≤ c.2 ∧ c.2 < (corner vy size : ℝ) + size then
            |v - pixelLight (S.eval params) c.1 c.2| ≤ ε
          else v = S.eval params c.1 c.2) coords vs := by
  have hex : ∃ k0 : Nat, ∀ c ∈ coords, ∀ k, k0 ≤ k → 0 < k → |cellMean (S.eval params) c.1 c.2 1 k - cellLight (S.eval params) c.1 c.2 1| ≤ ε := by
    clear hg hint
    induction coords with
    | nil => exact ⟨0, by simp⟩
    | cons c l ih =>
      obtain ⟨a, ha⟩ := ih
      obtain ⟨b, hb⟩ := cell_converges hS c.1 c.2 one_pos hε
      refine ⟨max a b, fun d hd k hk h0 => ?_⟩
      rcases List.mem_cons.1 hd with rfl | hd
      · exact hb k ((le_max_right _ _).trans hk) h0
      · exact ha d hd k ((le_max_left _ _).trans hk) h0
  obtain ⟨k0, hk0⟩ := hex
  refine ⟨max k0 2, fun M f hM h1 h2 h3 h4 h5 rot pa => ?_⟩
  subst hM
  have hf : 1 < f := by have := le_max_right k0 2; omega
  refine ⟨_, C57_window_partial M h1 h2 h3 cx cy size f h4 hf rot coords iMax jMax hg hint params pa vx vy hx hy hx0 hy0 hx1 hy1, ?_⟩
  rw [List.forall₂_map_right_iff, List.forall₂_same]
  intro c hc
  split
  · have := hk0 c hc f ((le_max_left _ _).trans h5) (by omega)
    rwa [cellMean_unit, cellLight_one] at this
  · rfl

/-- **C154, window and PSF.** The same at PSF resolution; the limit is convolved and averaged to pixels. -/
theorem C154_window_psf (S : SubModel ℝ) (params : List ℝ) (hS : Continuous (Function.uncurry (S.eval params))) (psf : Img ℝ) (p : Nat)
    (cx cy : Center ℝ) (size : Nat) (rot : Img ℝ → ℝ → Img ℝ) (pa : ℝ) (coords : List (ℝ × ℝ)) (iMax jMax : Nat)
    (hg : OnGrid coords 0 0 iMax jMax)
    (vx vy : ℝ) (hx : centerValue S params cx = .ok vx) (hy : centerValue S params cy = .ok vy)
    (hx0 : 0 ≤ corner vx size) (hy0 : 0 ≤ corner vy size) (hx1 : corner vx size + size ≤ iMax + 1) (hy1 : corner vy size + size ≤ jMax + 1)
    {ε : ℝ} (hε : 0 < ε) :
    ∃ k0 : Nat, ∀ (M : PSFModel ℝ) (f : Nat), M.sub = S → CacheOk M → Compatible M → M.psf = some psf → M.psfFactor = p →
      M.oversample = .window cx cy (size : Int) f → k0 ≤ f →
        Near (M.evaluate rot coords params pa).1 coords (fun c =>
          cellsOfPixel (convAt (if pa ≠ 0 then rot psf pa else psf)
            (windowCells (S.eval params) (max iMax jMax + 1) p (corner vx size) (corner vy size) size)) p (indexOf c.2 0) (indexOf c.1 0)) ε := by
  rcases Nat.eq_zero_or_pos p with h0 | hp
  · refine ⟨0, fun M f _ _ h2 _ h5 _ _ => ?_⟩
    have := h2.2.1
    omega
  have hpr : (0 : ℝ) < p := by exact_mod_cast hp
  set Q := if pa ≠ 0 then rot psf pa else psf with hQ
  set N := max iMax jMax + 1 with hN
  set s := ∑ u ∈ Finset.range Q.h, ∑ v ∈ Finset.range Q.w, |Q.px u v| with hs
  have hs0 : 0 ≤ s := Finset.sum_nonneg fun _ _ => Finset.sum_nonneg fun _ _ => abs_nonneg _
  have hε' : 0 < ε / (s + 1) := by positivity
  have hpick : ∀ rc : Fin (N * p) × Fin (N * p), ∃ k0 : Nat, ∀ k, k0 ≤ k → 0 < k →
      |cellMean (S.eval params) (cellCentre 0 p (rc.2.1 : Int)) (cellCentre 0 p (rc.1.1 : Int)) (1 / p) k -
        cellLight (S.eval params) (cellCentre 0 p (rc.2.1 : Int)) (cellCentre 0 p (rc.1.1 : Int)) (1 / p)| ≤ ε / (s + 1) :=
    fun rc => cell_converges hS _ _ (by positivity) hε'
  choose K hK using hpick
  refine ⟨p * (Finset.univ.sup K + 1), fun M f hM h1 h2 h3 h5 h4 h6 => ?_⟩
  subst hM
  refine near_map (C119_window_partial M h1 h2 psf h3 cx cy size f h4 rot coords iMax jMax hg params pa vx vy hx hy hx0 hy0 hx1 hy1)
    fun c hc => ?_
  rw [h5]
  obtain ⟨q, hq⟩ := h2.2.2
  have hfo : M.oversampleFactor = f := by unfold oversampleFactor; rw [h4]
  rw [h5, hfo] at hq
  have hdiv : f / p = q := by rw [hq]; exact Nat.mul_div_cancel_left q hp
  have hqK : Finset.univ.sup K + 1 ≤ q := by
    rw [hq] at h6
    exact Nat.le_of_mul_le_mul_left h6 hp
  rw [hdiv]
  have hcl := conv_close Q (T := psfCells (M.sub.eval params) 0 0 N p fun r c =>
      if corner vx size * p ≤ c ∧ c < (corner vx size + size) * p ∧ corner vy size * p ≤ r ∧ r < (corner vy size + size) * p then q else 1)
    (T' := windowCells (M.sub.eval params) N p (corner vx size) (corner vy size) size)
    (ε := ε / (s + 1)) (fun r c => by
      unfold psfCells windowCells
      by_cases h : 0 ≤ r ∧ r < (N * p : Nat) ∧ 0 ≤ c ∧ c < (N * p : Nat)
      · rw [if_pos h, if_pos h]
        beta_reduce
        by_cases hw : corner vx size * p ≤ c ∧ c < (corner vx size + size) * p ∧ corner vy size * p ≤ r ∧ r < (corner vy size + size) * p
        · rw [if_pos hw, if_pos hw]
          obtain ⟨i, rfl⟩ := Int.eq_ofNat_of_zero_le h.1
          obtain ⟨j, rfl⟩ := Int.eq_ofNat_of_zero_le h.2.2.1
          have hi : i < N * p := by exact_mod_cast h.2.1
          have hj : j < N * p := by exact_mod_cast h.2.2.2
          refine hK (⟨i, hi⟩, ⟨j, hj⟩) q ?_ (by omega)
          have := Finset.le_sup (f := K) (Finset.mem_univ ((⟨i, hi⟩, ⟨j, hj⟩) : Fin (N * p) × Fin (N * p)))
          omega
        · rw [if_neg hw, if_neg hw, cellMean_single, sub_self, abs_zero]; exact hε'.le
      · rw [if_neg h, if_neg h, sub_zero, abs_zero]; exact hε'.le) p (indexOf c.2 0) (indexOf c.1 0) hp
  refine hcl.trans ?_
  rw [← hs, ← mul_div_assoc, div_le_iff₀ (by linarith)]
  nlinarith

/-- **C154, the documented window.** `oversample=('x_0', 'y_0', size, factor)` for a Sersic model: the window follows the centre parameters. -/
theorem C154_window_sersic {n : ℝ} (hn : 0 < n) (A r x0 y0 e t : ℝ) (size : Nat) (coords : List (ℝ × ℝ)) (iMax jMax : Nat)
    (hg : OnGrid coords 0 0 iMax jMax) (hint : ∀ c ∈ coords, ∃ i j : Nat, c = ((i : ℝ), (j : ℝ)))
    (hx0 : 0 ≤ corner x0 size) (hy0 : 0 ≤ corner y0 size) (hx1 : corner x0 size + size ≤ iMax + 1) (hy1 : corner y0 size + size ≤ jMax + 1)
    {ε : ℝ} (hε : 0 < ε) :
    ∃ k0 : Nat, ∀ (M : PSFModel ℝ) (f : Nat), M.sub = sersicSub → CacheOk M → M.psf = none → M.psfOversample = none →
      M.oversample = .window (.name "x_0") (.name "y_0") (size : Int) f → k0 ≤ f → ∀ (rot : Img ℝ → ℝ → Img ℝ) (pa : ℝ),
        ∃ vs, (M.evaluate rot coords [A, r, n, x0, y0, e, t] pa).1 = .ok vs ∧ List.Forall₂ (fun c v =>
          if (corner x0 size : ℝ) ≤ c.1 ∧ c.1 < (corner x0 size : ℝ) + size ∧ (corner y0 size : ℝ) ≤ c.2 ∧ c.2 < (corner y0 size : ℝ) + size then
            |v - pixelLight (fun x y => sersic2D x y A r n x0 y0 e t) c.1 c.2| ≤ ε
          else v = sersic2D c.1 c.2 A r n x0 y0 e t) coords vs :=
  C154_window sersicSub [A, r, n, x0, y0, e, t] (sersic2D_continuous hn A r x0 y0 e t) (.name "x_0") (.name "y_0") size coords iMax jMax hg hint
    x0 y0 (by simp [centerValue, sersicSub, List.idxOf, List.findIdx_cons]) (by simp [centerValue, sersicSub, List.idxOf, List.findIdx_cons])
    hx0 hy0 hx1 hy1 hε

/-- Non-vacuity: the corners of a 4 × 4 image and its centre, a window of 2 × 2 pixels around `(2, 2)`. -/
example : OnGrid [((0 : ℝ), (0 : ℝ)), (3, 0), (0, 3), (3, 3), (2, 2)] 0 0 3 3 ∧ corner (2 : ℝ) 2 = 1 ∧
    (∀ c ∈ [((0 : ℝ), (0 : ℝ)), (3, 0), (0, 3), (3, 3), (2, 2)], ∃ i j : Nat, c = ((i : ℝ), (j : ℝ))) ∧
    ∀ f, CacheOk (⟨sersicSub, none, .window (.name "x_0") (.name "y_0") 2 f, none, true, 0, 0, none, none⟩ : PSFModel ℝ) := by
  refine ⟨⟨?_, ?_, ?_, ?_⟩, ?_, ?_, fun f r hr => by simp at hr⟩
  · norm_num [List.min?]
  · norm_num [List.min?]
  · norm_num [List.max?]
  · norm_num [List.max?]
  · have := rint_int (K := ℝ) 2
    push_cast at this
    simp [corner, this]
  · intro c hc
    simp only [List.mem_cons, List.not_mem_nil, or_false] at hc
    rcases hc with rfl | rfl | rfl | rfl | rfl
    exacts [⟨0, 0, by simp⟩, ⟨3, 0, by simp⟩, ⟨0, 3, by simp⟩, ⟨3, 3, by simp⟩, ⟨2, 2, by simp⟩]

end Verif.Props

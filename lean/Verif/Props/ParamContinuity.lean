import Verif.Props.PSFImage
import Mathlib.Topology.Algebra.Monoid
import Mathlib.Topology.Instances.Real.Lemmas

/-!
# C184: model images as functions of the parameters
-/

set_option linter.unusedSectionVars false
set_option linter.unusedVariables false
set_option linter.unusedSimpArgs false

namespace Verif.Spec

/-- The wrapped model depends continuously on what its parameters depend on, at every point of the plane. -/
def ContinuousModel {X : Type} [TopologicalSpace X] (S : SubModel ℝ) (params : X → List ℝ) : Prop :=
  ∀ x y : ℝ, Continuous fun t => S.eval (params t) x y

/-- A smooth model with a centre: the squared distance from it along the rows. -/
def squareModel : SubModel ℝ := ⟨["x_0", "y_0"], fun ps x _ => (x - ps.getD 0 0) ^ 2⟩

end Verif.Spec

namespace Verif.Props

open F Spec PSFModel

variable {X : Type} [TopologicalSpace X]

theorem continuous_cells {S : SubModel ℝ} {params : X → List ℝ} (h : ContinuousModel S params) (x0 y0 : ℝ) (n p : Nat) (k : Int → Int → Nat)
    (r c : Int) : Continuous fun t => psfCells (S.eval (params t)) x0 y0 n p k r c := by
  unfold psfCells
  by_cases hc : 0 ≤ r ∧ r < (n * p : Nat) ∧ 0 ≤ c ∧ c < (n * p : Nat)
  · simp only [hc, if_true, and_self]
    unfold cellMean
    exact Continuous.div_const (continuous_finsetSum _ fun a _ => continuous_finsetSum _ fun b _ => h _ _) _
  · simp only [hc, if_false]
    exact continuous_const

theorem continuous_pixel {S : SubModel ℝ} {params : X → List ℝ} (h : ContinuousModel S params) (psf : Img ℝ) (x0 y0 : ℝ) (n p : Nat)
    (k : Int → Int → Nat) (i j : Nat) :
    Continuous fun t => cellsOfPixel (convAt psf (psfCells (S.eval (params t)) x0 y0 n p k)) p i j := by
  unfold cellsOfPixel convAt
  refine Continuous.div_const (continuous_finsetSum _ fun a _ => continuous_finsetSum _ fun b _ => ?_) _
  exact continuous_finsetSum _ fun u _ => continuous_finsetSum _ fun v _ => continuous_const.mul (continuous_cells h _ _ _ _ _ _ _)

/-- **C184, no window.** The values of `evaluate` are continuous functions of anything that the values of the wrapped model depend on
continuously (its parameters, at a fixed `psf_pa`): with and without PSF, for all integer oversampling factors and all coordinates. -/
theorem C184_continuous (M : PSFModel ℝ) (hM : CacheOk M) (hc : Compatible M) (hwin : ∀ x y s f, M.oversample ≠ .window x y s f)
    (rot : Img ℝ → ℝ → Img ℝ) (coords : List (ℝ × ℝ)) (hne : coords ≠ []) (params : X → List ℝ) (pa : ℝ)
    (h : ContinuousModel M.sub params) :
    ∃ f : X → ℝ × ℝ → ℝ, (∀ t, (M.evaluate rot coords (params t) pa).1 = .ok (coords.map (f t))) ∧ ∀ c, Continuous fun t => f t c := by
  have hx : coords.map (·.1) ≠ [] := by simpa using hne
  have hy : coords.map (·.2) ≠ [] := by simpa using hne
  obtain ⟨x0, g1⟩ := min?_some hx
  obtain ⟨xMax, g2⟩ := max?_some hx
  obtain ⟨y0, g3⟩ := min?_some hy
  obtain ⟨yMax, g4⟩ := max?_some hy
  cases hp : M.psf with
  | some psf =>
    exact ⟨_, fun t => C119_evaluate M hM hc psf hp hwin rot coords x0 y0 xMax yMax g1 g2 g3 g4 (params t) pa,
      fun c => continuous_pixel h _ _ _ _ _ _ _ _⟩
  | none =>
    refine ⟨_, fun t => evaluate_int_any hM hc hp hwin rot g1 g2 g3 g4 (params t) pa, fun c => ?_⟩
    unfold pixelMean
    exact Continuous.div_const (continuous_finsetSum _ fun a _ => continuous_finsetSum _ fun b _ => h _ _) _

/-- **C184, fixed windows.** The same with an oversampling window that is given by numbers, on an image that starts at `(0, 0)` and contains it. -/
theorem C184_window_partial (M : PSFModel ℝ) (hM : CacheOk M) (hc : Compatible M) (psf : Img ℝ) (hp : M.psf = some psf) (vx vy : ℝ)
    (size f : Nat) (hwin : M.oversample = .window (.num vx) (.num vy) (size : Int) f) (rot : Img ℝ → ℝ → Img ℝ) (coords : List (ℝ × ℝ))
    (iMax jMax : Nat) (hg : OnGrid coords 0 0 iMax jMax) (hx0 : 0 ≤ corner vx size) (hy0 : 0 ≤ corner vy size)
    (hx1 : corner vx size + size ≤ iMax + 1) (hy1 : corner vy size + size ≤ jMax + 1) (params : X → List ℝ) (pa : ℝ)
    (h : ContinuousModel M.sub params) :
    ∃ f : X → ℝ × ℝ → ℝ, (∀ t, (M.evaluate rot coords (params t) pa).1 = .ok (coords.map (f t))) ∧ ∀ c, Continuous fun t => f t c :=
  ⟨_, fun t => C119_window_partial M hM hc psf hp (.num vx) (.num vy) size f hwin rot coords iMax jMax hg (params t) pa vx vy rfl rfl hx0 hy0
    hx1 hy1, fun c => continuous_pixel h _ _ _ _ _ _ _ _⟩

/-! ### Windows that follow a parameter -/

theorem square_sum (n : ℝ) (hn : n ≠ 0) (u : ℝ) (m : Nat) :
    ∑ b ∈ Finset.range m, (u + ((b : ℝ) + 1 / 2) / n) ^ 2 = m * u ^ 2 + u * m ^ 2 / n + ((m : ℝ) ^ 3 / 3 - m / 12) / n ^ 2 := by
  induction m with
  | zero => simp
  | succ m ih =>
    rw [Finset.sum_range_succ, ih]
    push_cast
    field_simp
    ring

/-- The mean of a squared distance over `f × f` samples of a pixel is larger than at its centre by `(1 - 1 / f²) / 12`. -/
theorem square_mean (ps : List ℝ) (x y : ℝ) (f : Nat) (hf : 0 < f) :
    pixelMean (squareModel.eval ps) x y f = (x - ps.getD 0 0) ^ 2 + (1 - 1 / (f : ℝ) ^ 2) / 12 := by
  have h0 : (f : ℝ) ≠ 0 := by exact_mod_cast hf.ne'
  unfold pixelMean squareModel
  simp only
  have e : ∀ b : Nat, (x + (((b : ℝ) + 1 / 2) / f - 1 / 2) - ps.getD 0 0) ^ 2 = ((x - ps.getD 0 0 - 1 / 2) + ((b : ℝ) + 1 / 2) / f) ^ 2 := by
    intro b; ring
  simp only [e, square_sum (f : ℝ) h0, Finset.sum_const, Finset.card_range, nsmul_eq_mul]
  field_simp
  ring

theorem rint_near_window (k : Int) (t : ℝ) (h1 : (k : ℝ) - 1 / 2 < t) (h2 : t < k + 1 / 2) : rint t = k := by
  unfold rint
  by_cases h : (k : ℝ) ≤ t
  · have hfl : ⌊t⌋ = k := Int.floor_eq_iff.2 ⟨h, by linarith⟩
    rw [hfl, if_pos (by linarith)]
  · push Not at h
    have hfl : ⌊t⌋ = k - 1 := Int.floor_eq_iff.2 ⟨by push_cast; linarith, by push_cast; linarith⟩
    rw [hfl]
    have : 1 / 2 < t - ((k - 1 : Int) : ℝ) := by push_cast; linarith
    rw [if_neg (by linarith), if_pos this]
    ring

/-- **C184, violated by windows that follow a parameter.** For the smooth model `(x - x_0)²`, every window `("x_0", "y_0", size, f)` of at least one
pixel and a factor of at least 2, and every image that contains it: as `x_0` passes the edge of a pixel the first column of the window changes from
oversampled to sampled at the centre, and its values fall by `(1 - 1 / f²) / 12` at once. -/
theorem C184_named_window_violated (size f k N : Nat) (hs : 0 < size) (hf : 2 ≤ f) (hk : size / 2 ≤ k) (hN : k - size / 2 + size ≤ N)
    (rot : Img ℝ → ℝ → Img ℝ) (coords : List (ℝ × ℝ)) (hg : OnGrid coords 0 0 N N) (pa : ℝ) :
    ∃ v : ℝ → ℝ × ℝ → ℝ,
      (∀ t : ℝ, (k : ℝ) - 1 / 2 < t → t < k + 3 / 2 → t ≠ k + 1 / 2 →
        ((⟨squareModel, none, .window (.name "x_0") (.name "y_0") size f, none, true, 0, 0, none, none⟩ : PSFModel ℝ).evaluate rot coords
          [t, k] pa).1 = .ok (coords.map (v t))) ∧
      (∀ t : ℝ, (k : ℝ) - 1 / 2 < t → t < k + 1 / 2 → v t (((k - size / 2 : Nat) : ℝ), ((k - size / 2 : Nat) : ℝ)) =
        (((k - size / 2 : Nat) : ℝ) - t) ^ 2 + (1 - 1 / (f : ℝ) ^ 2) / 12) ∧
      (∀ t : ℝ, (k : ℝ) + 1 / 2 < t → t < k + 3 / 2 → v t (((k - size / 2 : Nat) : ℝ), ((k - size / 2 : Nat) : ℝ)) =
        (((k - size / 2 : Nat) : ℝ) - t) ^ 2) ∧
      ∀ ε > 0, ∃ t t' : ℝ, |t - (k + 1 / 2)| < ε ∧ |t' - (k + 1 / 2)| < ε ∧
        1 / 32 ≤ |v t (((k - size / 2 : Nat) : ℝ), ((k - size / 2 : Nat) : ℝ)) - v t' (((k - size / 2 : Nat) : ℝ), ((k - size / 2 : Nat) : ℝ))| := by
  set a : Nat := k - size / 2 with ha
  have hM : CacheOk (⟨squareModel, none, .window (.name "x_0") (.name "y_0") size f, none, true, 0, 0, none, none⟩ : PSFModel ℝ) :=
    fun r hr => by cases hr
  have hkk : rint (k : ℝ) = (k : Int) := rint_near_window k k (by push_cast; linarith) (by push_cast; linarith)
  have cv : ∀ t : ℝ, centerValue squareModel [t, (k : ℝ)] (.name "x_0") = .ok t ∧ centerValue squareModel [t, (k : ℝ)] (.name "y_0") = .ok (k : ℝ) :=
    fun t => ⟨by simp [centerValue, squareModel], by simp [centerValue, squareModel, List.idxOf_cons]⟩
  let v : ℝ → ℝ × ℝ → ℝ := fun t c =>
    if corner t size ≤ (indexOf c.1 0 : Int) ∧ (indexOf c.1 0 : Int) < corner t size + size ∧ corner (k : ℝ) size ≤ (indexOf c.2 0 : Int) ∧
      (indexOf c.2 0 : Int) < corner (k : ℝ) size + size then
      pixelMean (squareModel.eval [t, k]) (indexOf c.1 0 : ℝ) (indexOf c.2 0 : ℝ) f
    else squareModel.eval [t, k] (0 + (indexOf c.1 0 : ℝ)) (0 + (indexOf c.2 0 : ℝ))
  have hr : ∀ t : ℝ, (k : ℝ) - 1 / 2 < t → t < k + 3 / 2 → t ≠ k + 1 / 2 →
      (t < k + 1 / 2 ∧ corner t size = (a : Int)) ∨ (k + 1 / 2 < t ∧ corner t size = (a : Int) + 1) := by
    intro t h1 h2 h3
    rcases lt_or_gt_of_ne h3 with h | h
    · left
      have := rint_near_window (k : Int) t (by push_cast; linarith) (by push_cast; linarith)
      refine ⟨h, ?_⟩
      unfold corner
      rw [this]; omega
    · right
      have := rint_near_window ((k : Int) + 1) t (by push_cast; linarith) (by push_cast; linarith)
      refine ⟨h, ?_⟩
      unfold corner
      rw [this]; omega
  have hck : corner (k : ℝ) size = (a : Int) := by unfold corner; rw [hkk]; omega
  have hia : indexOf (a : ℝ) 0 = a := by
    have := indexOf_add (0 : ℝ) a
    rwa [zero_add] at this
  have hlow : ∀ t : ℝ, (k : ℝ) - 1 / 2 < t → t < k + 1 / 2 → v t ((a : ℝ), (a : ℝ)) = ((a : ℝ) - t) ^ 2 + (1 - 1 / (f : ℝ) ^ 2) / 12 := by
    intro t h1 h2
    have hct : corner t size = (a : Int) := by
      rcases hr t h1 (by linarith) (by linarith) with h | h
      · exact h.2
      · linarith [h.1]
    simp only [v, hia, hct, hck]
    rw [if_pos ⟨le_refl _, by omega, le_refl _, by omega⟩, square_mean _ _ _ f (by omega)]
    rfl
  have hhigh : ∀ t : ℝ, (k : ℝ) + 1 / 2 < t → t < k + 3 / 2 → v t ((a : ℝ), (a : ℝ)) = ((a : ℝ) - t) ^ 2 := by
    intro t h1 h2
    have hct : corner t size = (a : Int) + 1 := by
      rcases hr t (by linarith) h2 (by linarith) with h | h
      · linarith [h.1]
      · exact h.2
    simp only [v, hia, hct, hck]
    rw [if_neg (by omega)]
    simp [squareModel]
  refine ⟨v, fun t h1 h2 h3 => ?_, hlow, hhigh, ?_⟩
  · have hc0 : 0 ≤ corner t size ∧ corner t size + size ≤ N + 1 := by
      rcases hr t h1 h2 h3 with h | h <;> rw [h.2] <;> omega
    exact evaluate_window hM rfl rfl rfl (by omega) rot hg [t, (k : ℝ)] pa (cv t).1 (cv t).2 hc0.1 (by omega) hc0.2 (by omega)
  · intro ε hε
    set d : ℝ := (k : ℝ) + 1 / 2 - a with hd
    have hdpos : 0 < d := by
      have : (a : ℝ) ≤ k := by exact_mod_cast (by omega : a ≤ k)
      linarith
    set η := min (ε / 2) (min (1 / 4) (1 / (128 * d))) with hη
    have hηpos : 0 < η := by positivity
    have h1 : η ≤ ε / 2 := min_le_left _ _
    have h2 : η ≤ 1 / 4 := (min_le_right _ _).trans (min_le_left _ _)
    have h3 : η ≤ 1 / (128 * d) := (min_le_right _ _).trans (min_le_right _ _)
    have h3' : d * η ≤ 1 / 128 := by
      have := mul_le_mul_of_nonneg_left h3 hdpos.le
      have e : d * (1 / (128 * d)) = 1 / 128 := by field_simp
      linarith
    refine ⟨k + 1 / 2 - η, k + 1 / 2 + η, ?_, ?_, ?_⟩
    · rw [show (k : ℝ) + 1 / 2 - η - (k + 1 / 2) = -η by ring, abs_neg, abs_of_pos hηpos]; linarith
    · rw [show (k : ℝ) + 1 / 2 + η - (k + 1 / 2) = η by ring, abs_of_pos hηpos]; linarith
    · rw [hlow _ (by linarith) (by linarith), hhigh _ (by linarith) (by linarith)]
      have e : ((a : ℝ) - (k + 1 / 2 - η)) ^ 2 + (1 - 1 / (f : ℝ) ^ 2) / 12 - ((a : ℝ) - (k + 1 / 2 + η)) ^ 2 =
          (1 - 1 / (f : ℝ) ^ 2) / 12 - 4 * (d * η) := by rw [hd]; ring
      rw [e]
      have hf2 : 1 / (f : ℝ) ^ 2 ≤ 1 / 4 := by
        have : (2 : ℝ) ≤ f := by exact_mod_cast hf
        apply one_div_le_one_div_of_le (by norm_num)
        nlinarith
      refine le_trans ?_ (le_abs_self _)
      linarith

/-- The squared distance is a continuous model, and a window of `3 × 3` pixels around `(2, 2)` in an image of `6 × 6` meets the hypotheses. -/
example : ContinuousModel squareModel (fun t : ℝ => [t, 2]) ∧ OnGrid [((0 : ℝ), (0 : ℝ)), (1, 1), (5, 5)] 0 0 5 5 ∧ 3 / 2 ≤ 2 ∧ 2 - 3 / 2 + 3 ≤ 5 := by
  refine ⟨fun x y => ?_, ⟨?_, ?_, ?_, ?_⟩, by norm_num, by norm_num⟩
  · simp only [squareModel, List.getD_cons_zero]
    fun_prop
  all_goals norm_num [List.min?, List.max?]

end Verif.Props

import Verif.Model.RoundingModel
import Verif.Props.RoundingConvert
import Verif.Props.Fitting

/-!
# C158: coordinates and pixel indices of model images in floating point
-/

set_option linter.unusedSectionVars false
set_option linter.unusedVariables false

namespace Verif.Props

open Verif F Spec

/-! ### Dyadic centres -/

section
variable {K : Type} [Field K] [LinearOrder K] [IsStrictOrderedRing K] [FloorRing K] {fl : K → K} {H : Nat} {N : ℤ}

/-- `np.arange` is exact. -/
theorem npArangeR_exact (hH : 0 < H) (hex : ∀ k : ℤ, |k| ≤ N → fl ((k : K) / ((2 * H : Nat) : K)) = k / ((2 * H : Nat) : K)) (s : ℤ) (n : Nat)
    (stop : K) (hs : |s| + (n + 1) * (2 * H) ≤ N) (hstop : fl (stop - s / ((2 * H : Nat) : K)) = stop - s / ((2 * H : Nat) : K))
    (hn : ⌈stop - (s : K) / ((2 * H : Nat) : K)⌉ = n) :
    npArangeR fl ((s : K) / ((2 * H : Nat) : K)) stop = (List.range n).map fun k : Nat => (s : K) / ((2 * H : Nat) : K) + k := by
  have hD : ((2 * H : Nat) : K) ≠ 0 := by exact_mod_cast (by omega : 2 * H ≠ 0)
  have hH' : (0 : ℤ) < 2 * H := by omega
  have hs0 := abs_nonneg s
  have key : ∀ k : Nat, k ≤ n + 1 → fl ((s : K) / ((2 * H : Nat) : K) + k) = (s : K) / ((2 * H : Nat) : K) + k := by
    intro k hk
    have e : (s : K) / ((2 * H : Nat) : K) + k = ((s + k * (2 * H) : ℤ) : K) / ((2 * H : Nat) : K) := by
      rw [eq_div_iff hD, add_mul, div_mul_cancel₀ _ hD]; push_cast; ring
    rw [e]
    apply hex
    have h1 := abs_add_le s (k * (2 * H))
    have h2 : |(k : ℤ) * (2 * H)| = k * (2 * H) := abs_of_nonneg (by positivity)
    have h3 : (k : ℤ) * (2 * H) ≤ (n + 1) * (2 * H) := mul_le_mul_of_nonneg_right (by exact_mod_cast hk) hH'.le
    linarith
  have keyN : ∀ k : Nat, k ≤ n + 1 → fl (k : K) = k := by
    intro k hk
    have e : (k : K) = ((k * (2 * H) : ℤ) : K) / ((2 * H : Nat) : K) := by rw [eq_div_iff hD]; push_cast; ring
    rw [e]
    apply hex
    rw [abs_of_nonneg (by positivity)]
    have h3 : (k : ℤ) * (2 * H) ≤ (n + 1) * (2 * H) := mul_le_mul_of_nonneg_right (by exact_mod_cast hk) hH'.le
    linarith
  unfold npArangeR
  rw [hstop, hn, Int.toNat_natCast]
  apply List.map_congr_left
  intro k hk
  rw [List.mem_range] at hk
  have h1 := key 1 (by omega)
  rw [Nat.cast_one] at h1
  have h2 : fl 1 = (1 : K) := by simpa using keyN 1 (by omega)
  rw [h1, show (s : K) / ((2 * H : Nat) : K) + 1 - s / ((2 * H : Nat) : K) = 1 by ring, h2, mul_one, keyN k (by omega), key k (by omega)]
  by_cases h0 : k = 0
  · rw [if_pos h0, h0]; simp
  · rw [if_neg h0]
    by_cases h3 : k = 1
    · rw [if_pos h3, h3]; simp
    · rw [if_neg h3]

theorem getD_map_range {α : Type} (n : Nat) (f : Nat → α) (d : α) {k : Nat} (hk : k < n) : ((List.range n).map f).getD k d = f k := by
  simp [List.getD, hk]

/-- `make_grid` is exact. -/
theorem makeGridR_exact (hH : 0 < H) (hex : ∀ k : ℤ, |k| ≤ N → fl ((k : K) / ((2 * H : Nat) : K)) = k / ((2 * H : Nat) : K)) (s t : ℤ) (n : Nat)
    (hs : |s| + (n + 2) * (2 * H) ≤ N) (ht : |t| + (n + 2) * (2 * H) ≤ N) :
    (makeGridR fl n ((s : K) / ((2 * H : Nat) : K), (t : K) / ((2 * H : Nat) : K))).1.h = n ∧
    (makeGridR fl n ((s : K) / ((2 * H : Nat) : K), (t : K) / ((2 * H : Nat) : K))).1.w = n ∧
    ∀ i j, i < n → j < n →
      (makeGridR fl n ((s : K) / ((2 * H : Nat) : K), (t : K) / ((2 * H : Nat) : K))).1.px i j = s / ((2 * H : Nat) : K) + j ∧
      (makeGridR fl n ((s : K) / ((2 * H : Nat) : K), (t : K) / ((2 * H : Nat) : K))).2.px i j = t / ((2 * H : Nat) : K) + i := by
  have hD : ((2 * H : Nat) : K) ≠ 0 := by exact_mod_cast (by omega : 2 * H ≠ 0)
  have hH' : (0 : ℤ) < 2 * H := by omega
  have hs0 := abs_nonneg s
  have hhalf : (1 / 2 : K) = ((H : ℤ) : K) / ((2 * H : Nat) : K) := by
    have : (H : K) ≠ 0 := by exact_mod_cast hH.ne'
    push_cast; field_simp
  have hHn : |(H : ℤ)| = H := abs_of_nonneg (by positivity)
  have har : npArangeR fl (1 / 2) (n : K) = (List.range n).map fun k : Nat => (1 / 2 : K) + k := by
    rw [hhalf]
    apply npArangeR_exact hH hex
    · rw [hHn]; nlinarith
    · have e : (n : K) - ((H : ℤ) : K) / ((2 * H : Nat) : K) = ((n * (2 * H) - H : ℤ) : K) / ((2 * H : Nat) : K) := by
        rw [eq_div_iff hD, sub_mul, div_mul_cancel₀ _ hD]; push_cast; ring
      rw [e]
      apply hex
      have h1 := abs_sub (n * (2 * H) : ℤ) H
      rw [hHn, abs_of_nonneg (by positivity : (0 : ℤ) ≤ n * (2 * H))] at h1
      nlinarith
    · rw [← hhalf, Int.ceil_eq_iff]
      push_cast
      constructor <;> linarith
  have hax : ∀ s : ℤ, |s| + (n + 2) * (2 * H) ≤ N → ((List.range n).map fun k : Nat => (1 / 2 : K) + k).map
      (fun v => fl (fl (fl (v / 1) - 1 / 2) + (s : K) / ((2 * H : Nat) : K))) = (List.range n).map fun k : Nat => (s : K) / ((2 * H : Nat) : K) + k := by
    intro s hs
    have hs0 := abs_nonneg s
    rw [List.map_map]
    apply List.map_congr_left
    intro k hk
    rw [List.mem_range] at hk
    have hkn : (k : ℤ) * (2 * H) ≤ n * (2 * H) := mul_le_mul_of_nonneg_right (by exact_mod_cast hk.le) hH'.le
    have h1 : fl ((1 / 2 : K) + k) = 1 / 2 + k := by
      have e : (1 / 2 : K) + k = ((H + k * (2 * H) : ℤ) : K) / ((2 * H : Nat) : K) := by
        rw [hhalf, eq_div_iff hD, add_mul, div_mul_cancel₀ _ hD]; push_cast; ring
      rw [e]
      apply hex
      rw [abs_of_nonneg (by positivity)]
      nlinarith
    have h2 : fl (k : K) = k := by
      have e : (k : K) = ((k * (2 * H) : ℤ) : K) / ((2 * H : Nat) : K) := by rw [eq_div_iff hD]; push_cast; ring
      rw [e]
      apply hex
      rw [abs_of_nonneg (by positivity)]
      nlinarith
    have h3 : fl ((k : K) + s / ((2 * H : Nat) : K)) = k + s / ((2 * H : Nat) : K) := by
      have e : (k : K) + s / ((2 * H : Nat) : K) = ((k * (2 * H) + s : ℤ) : K) / ((2 * H : Nat) : K) := by
        rw [eq_div_iff hD, add_mul, div_mul_cancel₀ _ hD]; push_cast; ring
      rw [e]
      apply hex
      have h4 := abs_add_le (k * (2 * H) : ℤ) s
      rw [abs_of_nonneg (by positivity : (0 : ℤ) ≤ k * (2 * H))] at h4
      nlinarith
    show fl (fl (fl ((1 / 2 + (k : K)) / 1) - 1 / 2) + (s : K) / ((2 * H : Nat) : K)) = _
    rw [div_one, h1, add_sub_cancel_left, h2, h3, add_comm]
  unfold makeGridR meshgrid
  simp only
  rw [har, hax s hs, hax t ht]
  refine ⟨by simp, by simp, fun i j hi hj => ⟨?_, ?_⟩⟩
  · exact getD_map_range n _ 0 hj
  · exact getD_map_range n _ 0 hi

theorem mapM_ok {α β : Type} (f : α → Except PyErr β) (g : α → β) (l : List α) (h : ∀ a ∈ l, f a = .ok (g a)) : l.mapM f = .ok (l.map g) := by
  induction l with
  | nil => rfl
  | cons a l ih =>
    rw [List.mapM_cons, h a (by simp), ih fun b hb => h b (by simp [hb])]
    rfl

/-- The coordinates of an image. -/
theorem onGridR_exact (hH : 0 < H) (hex : ∀ k : ℤ, |k| ≤ N → fl ((k : K) / ((2 * H : Nat) : K)) = k / ((2 * H : Nat) : K)) (s t : ℤ) (nx ny : Nat)
    (hx : 0 < nx) (hy : 0 < ny) (hs : |s| + (nx + ny + 2) * (2 * H) ≤ N) (ht : |t| + (nx + ny + 2) * (2 * H) ≤ N) (S : SubModel K) (params : List K) :
    evaluateR fl S ((List.range ny).flatMap fun i : Nat => (List.range nx).map fun j : Nat =>
        ((s : K) / ((2 * H : Nat) : K) + (j : K), (t : K) / ((2 * H : Nat) : K) + (i : K))) params =
      .ok (((List.range ny).flatMap fun i : Nat => (List.range nx).map fun j : Nat =>
        ((s : K) / ((2 * H : Nat) : K) + (j : K), (t : K) / ((2 * H : Nat) : K) + (i : K))).map fun c => S.eval params c.1 c.2) := by
  have hD : ((2 * H : Nat) : K) ≠ 0 := by exact_mod_cast (by omega : 2 * H ≠ 0)
  have hH' : (0 : ℤ) < 2 * H := by omega
  have hs0 := abs_nonneg s
  set ox := (s : K) / ((2 * H : Nat) : K) with hox
  set oy := (t : K) / ((2 * H : Nat) : K) with hoy
  set coords := (List.range ny).flatMap fun i : Nat => (List.range nx).map fun j : Nat => (ox + (j : K), oy + (i : K)) with hco
  have hmem : ∀ c, c ∈ coords ↔ ∃ i, i < ny ∧ ∃ j, j < nx ∧ (ox + (j : K), oy + (i : K)) = c := by
    intro c
    simp only [hco, List.mem_flatMap, List.mem_map, List.mem_range]
  have hX := min_max_axis nx hx ox (coords.map (·.1))
    (by
      intro x hxm
      obtain ⟨c, hcm, rfl⟩ := List.mem_map.1 hxm
      obtain ⟨i, _, j, hj, rfl⟩ := (hmem c).1 hcm
      exact ⟨j, hj, rfl⟩)
    (fun k hk => List.mem_map.2 ⟨(ox + (k : K), oy + ((0 : Nat) : K)), (hmem _).2 ⟨0, hy, k, hk, rfl⟩, rfl⟩)
  have hY := min_max_axis ny hy oy (coords.map (·.2))
    (by
      intro x hxm
      obtain ⟨c, hcm, rfl⟩ := List.mem_map.1 hxm
      obtain ⟨i, hi, j, _, rfl⟩ := (hmem c).1 hcm
      exact ⟨i, hi, rfl⟩)
    (fun k hk => List.mem_map.2 ⟨(ox + ((0 : Nat) : K), oy + (k : K)), (hmem _).2 ⟨k, hk, 0, hx, rfl⟩, rfl⟩)
  have hidx : ∀ (o : K) (k : Nat), k < nx + ny → indexOfR fl (o + (k : K)) o = k := by
    intro o k hk
    unfold indexOfR
    have h2 : fl (k : K) = k := by
      have e : (k : K) = ((k * (2 * H) : ℤ) : K) / ((2 * H : Nat) : K) := by rw [eq_div_iff hD]; push_cast; ring
      rw [e]
      apply hex
      rw [abs_of_nonneg (by positivity)]
      have : (k : ℤ) * (2 * H) ≤ (nx + ny) * (2 * H) := mul_le_mul_of_nonneg_right (by exact_mod_cast hk.le) hH'.le
      nlinarith
    rw [add_sub_cancel_left, h2]
    simp
  have hsize : ∀ a b : Nat, 0 < a → 0 < b → max (a - 1) (b - 1) + 1 = max a b := by omega
  have hm : (((max nx ny : Nat) : ℤ) + 2) * (2 * H) ≤ (nx + ny + 2) * (2 * H) := mul_le_mul_of_nonneg_right (by push_cast; omega) hH'.le
  obtain ⟨g1, g2, g3⟩ := makeGridR_exact (fl := fl) hH hex s t (max nx ny) (by linarith) (by linarith)
  unfold evaluateR
  rw [hX.1, hX.2, hY.1, hY.2]
  simp only
  rw [hidx ox (nx - 1) (by omega), hidx oy (ny - 1) (by omega), hsize nx ny hx hy]
  apply mapM_ok _ (fun c : K × K => S.eval params c.1 c.2)
  intro c hc
  obtain ⟨i, hi, j, hj, rfl⟩ := (hmem c).1 hc
  simp only
  rw [hidx ox j (by omega), hidx oy i (by omega)]
  have h1 : (PSFModel.sample S params (makeGridR fl (max nx ny) (ox, oy))).h = max nx ny := g1
  have h2 : (PSFModel.sample S params (makeGridR fl (max nx ny) (ox, oy))).w = max nx ny := g2
  unfold PSFModel.pick
  rw [if_pos ⟨by rw [h1]; exact lt_max_of_lt_right hi, by rw [h2]; exact lt_max_of_lt_left hj⟩]
  obtain ⟨g4, g5⟩ := g3 i j (lt_max_of_lt_right hi) (lt_max_of_lt_left hj)
  show Except.ok (S.eval params _ _) = _
  rw [g4, g5]

/-- **C158, dyadic centres.**  If the rounding is exact on the multiples of `1 / (2 H)` that occur, then the image of a plain model and of
a wrapped model has at pixel `[j, i]` the value of the model at `(cx - nx // 2 + i, cy - ny // 2 + j)`. -/
theorem C158_dyadic_partial (hH : 0 < H) (hex : ∀ k : ℤ, |k| ≤ N → fl ((k : K) / ((2 * H : Nat) : K)) = k / ((2 * H : Nat) : K)) (a b : ℤ)
    (nx ny : Nat) (hx : 0 < nx) (hy : 0 < ny) (ha : |a| + 2 * (nx + ny + 1) * (2 * H) ≤ N) (hb : |b| + 2 * (nx + ny + 1) * (2 * H) ≤ N) :
    (∀ g : K → K → K, ∃ im, modelToImageR fl (pointwise g) nx ny (a / ((2 * H : Nat) : K)) (b / ((2 * H : Nat) : K)) = .ok im ∧ im.h = ny ∧ im.w = nx ∧
      ∀ j i, j < ny → i < nx → im.px j i = g (a / ((2 * H : Nat) : K) - (nx / 2 : Nat) + i) (b / ((2 * H : Nat) : K) - (ny / 2 : Nat) + j)) ∧
    (∀ (S : SubModel K) (params : List K), ∃ im, modelToImageR fl (onGridR fl S params) nx ny (a / ((2 * H : Nat) : K)) (b / ((2 * H : Nat) : K)) = .ok im ∧
      im.h = ny ∧ im.w = nx ∧
      ∀ j i, j < ny → i < nx → im.px j i = S.eval params (a / ((2 * H : Nat) : K) - (nx / 2 : Nat) + i) (b / ((2 * H : Nat) : K) - (ny / 2 : Nat) + j)) := by
  have hD : ((2 * H : Nat) : K) ≠ 0 := by exact_mod_cast (by omega : 2 * H ≠ 0)
  have hH' : (0 : ℤ) < 2 * H := by omega
  have ho : ∀ (c : ℤ) (n : Nat), |c| + 2 * (n : ℤ) * (2 * H) ≤ N →
      (c : K) / ((2 * H : Nat) : K) - ((n / 2 : Nat) : K) = ((c - (n / 2 : Nat) * (2 * H) : ℤ) : K) / ((2 * H : Nat) : K) ∧
      |c - ((n / 2 : Nat) : ℤ) * (2 * H)| ≤ |c| + n * (2 * H) := by
    intro c n hc
    constructor
    · generalize n / 2 = m
      rw [eq_div_iff hD, sub_mul, div_mul_cancel₀ _ hD]; push_cast; ring
    · have h1 := abs_sub c (((n / 2 : Nat) : ℤ) * (2 * H))
      rw [abs_of_nonneg (by positivity : (0 : ℤ) ≤ ((n / 2 : Nat) : ℤ) * (2 * H))] at h1
      have h2 : ((n / 2 : Nat) : ℤ) * (2 * H) ≤ n * (2 * H) := mul_le_mul_of_nonneg_right (by exact_mod_cast Nat.div_le_self n 2) hH'.le
      linarith
  have hnx : (0 : ℤ) ≤ nx * (2 * H) := by positivity
  have hny : (0 : ℤ) ≤ ny * (2 * H) := by positivity
  obtain ⟨ex, bx⟩ := ho a nx (by nlinarith)
  obtain ⟨ey, by'⟩ := ho b ny (by nlinarith)
  have hend : ∀ (s : ℤ) (n : Nat), |s| + n * (2 * H) ≤ N → fl ((s : K) / ((2 * H : Nat) : K) + n) = s / ((2 * H : Nat) : K) + n := by
    intro s n hs
    have e : (s : K) / ((2 * H : Nat) : K) + n = ((s + n * (2 * H) : ℤ) : K) / ((2 * H : Nat) : K) := by
      rw [eq_div_iff hD, add_mul, div_mul_cancel₀ _ hD]; push_cast; ring
    rw [e]
    apply hex
    have h1 := abs_add_le s (n * (2 * H))
    rw [abs_of_nonneg (by positivity : (0 : ℤ) ≤ (n : ℤ) * (2 * H))] at h1
    linarith
  have hwhole : ∀ n : Nat, (n : ℤ) * (2 * H) ≤ N → fl (n : K) = n := by
    intro n hn
    have := hend 0 n (by simpa using hn)
    simpa using this
  set s : ℤ := a - ((nx / 2 : Nat) : ℤ) * (2 * H) with hs
  set t : ℤ := b - ((ny / 2 : Nat) : ℤ) * (2 * H) with ht
  have hsb : |s| + (nx + ny + 2) * (2 * H) ≤ N := by nlinarith
  have htb : |t| + (nx + ny + 2) * (2 * H) ≤ N := by nlinarith
  have fx : fl ((s : K) / ((2 * H : Nat) : K)) = s / ((2 * H : Nat) : K) := hex s (by nlinarith)
  have fy : fl ((t : K) / ((2 * H : Nat) : K)) = t / ((2 * H : Nat) : K) := hex t (by nlinarith)
  have fx' := hend s nx (by nlinarith)
  have fy' := hend t ny (by nlinarith)
  have wx := hwhole nx (by nlinarith [abs_nonneg s])
  have wy := hwhole ny (by nlinarith [abs_nonneg t])
  have arx := npArangeR_exact (fl := fl) hH hex s nx ((s : K) / ((2 * H : Nat) : K) + nx) (by nlinarith) (by rw [add_sub_cancel_left, wx])
    (by rw [add_sub_cancel_left]; simp)
  have ary := npArangeR_exact (fl := fl) hH hex t ny ((t : K) / ((2 * H : Nat) : K) + ny) (by nlinarith) (by rw [add_sub_cancel_left, wy])
    (by rw [add_sub_cancel_left]; simp)
  have hrun : ∀ m : GridModel K, modelToImageR fl m nx ny (a / ((2 * H : Nat) : K)) (b / ((2 * H : Nat) : K)) =
      m (meshgrid ((List.range nx).map fun k : Nat => (s : K) / ((2 * H : Nat) : K) + k) ((List.range ny).map fun k : Nat => (t : K) / ((2 * H : Nat) : K) + k)).1
        (meshgrid ((List.range nx).map fun k : Nat => (s : K) / ((2 * H : Nat) : K) + k) ((List.range ny).map fun k : Nat => (t : K) / ((2 * H : Nat) : K) + k)).2 := by
    intro m
    unfold modelToImageR
    simp only
    rw [ex, ey, fx, fy, fx', fy', add_sub_cancel_left, add_sub_cancel_left, wx, wy, arx, ary, if_neg (by simp), if_neg (by simp)]
  rw [ex, ey] at *
  constructor
  · intro g
    refine ⟨_, by rw [hrun]; rfl, by simp [meshgrid], by simp [meshgrid], ?_⟩
    intro j i hj hi
    unfold meshgrid
    simp only
    rw [getD_map_range nx _ 0 hi, getD_map_range ny _ 0 hj]
  · intro S params
    have hev := onGridR_exact (fl := fl) hH hex s t nx ny hx hy hsb htb S params
    rw [hrun]
    unfold onGridR meshgrid
    simp only [List.length_map, List.length_range]
    have hcoords : ((List.range ny).flatMap fun i => (List.range nx).map fun j =>
        (((List.range nx).map fun k : Nat => (s : K) / ((2 * H : Nat) : K) + k).getD j 0, ((List.range ny).map fun k : Nat => (t : K) / ((2 * H : Nat) : K) + k).getD i 0)) =
        (List.range ny).flatMap fun i : Nat => (List.range nx).map fun j : Nat => ((s : K) / ((2 * H : Nat) : K) + (j : K), (t : K) / ((2 * H : Nat) : K) + (i : K)) := by
      apply List.flatMap_congr
      intro i hi
      apply List.map_congr_left
      intro j hj
      rw [List.mem_range] at hi hj
      rw [getD_map_range nx _ 0 hj, getD_map_range ny _ 0 hi]
    rw [hcoords, hev]
    refine ⟨_, rfl, rfl, rfl, ?_⟩
    intro j i hj hi
    simp only
    rw [List.map_flatMap]
    simp only [List.map_map, Function.comp_def]
    exact getD_rows nx (fun c d => S.eval params ((s : K) / ((2 * H : Nat) : K) + (d : K)) ((t : K) / ((2 * H : Nat) : K) + (c : K))) 0 ny j i hj hi

/-- **C158, binary64 with a fraction that is a multiple of a power of two.**  For a centre `(a / 2^s, b / 2^s)`, as long as all numbers
involved have at most 53 bits: the image is exact, and no exception is raised. -/
theorem C158_binary64_partial (s : Nat) (hs : 1 ≤ s) (a b : ℤ) (nx ny : Nat) (hx : 0 < nx) (hy : 0 < ny)
    (ha : |a| + 2 * (nx + ny + 1) * 2 ^ s ≤ 2 ^ 53) (hb : |b| + 2 * (nx + ny + 1) * 2 ^ s ≤ 2 ^ 53) :
    (∀ g : K → K → K, ∃ im, modelToImageR fl53 (pointwise g) nx ny (a / 2 ^ s) (b / 2 ^ s) = .ok im ∧ im.h = ny ∧ im.w = nx ∧
      ∀ j i, j < ny → i < nx → im.px j i = g (a / 2 ^ s - (nx / 2 : Nat) + i) (b / 2 ^ s - (ny / 2 : Nat) + j)) ∧
    (∀ (S : SubModel K) (params : List K), ∃ im, modelToImageR fl53 (onGridR fl53 S params) nx ny (a / 2 ^ s) (b / 2 ^ s) = .ok im ∧
      im.h = ny ∧ im.w = nx ∧
      ∀ j i, j < ny → i < nx → im.px j i = S.eval params (a / 2 ^ s - (nx / 2 : Nat) + i) (b / 2 ^ s - (ny / 2 : Nat) + j)) := by
  obtain ⟨r, rfl⟩ : ∃ r, s = r + 1 := ⟨s - 1, by omega⟩
  have e : ((2 * 2 ^ r : Nat) : K) = 2 ^ (r + 1) := by push_cast; ring
  have hz : (2 * ((2 ^ r : Nat) : ℤ)) = 2 ^ (r + 1) := by push_cast; ring
  have := C158_dyadic_partial (K := K) (fl := fl53) (H := 2 ^ r) (N := 2 ^ 53) (by positivity)
    (by
      intro k hk
      rw [e]
      have := flBits_repr (K := K) 53 (by decide) k hk (-((r + 1 : Nat) : ℤ))
      rw [zpow_neg, zpow_natCast, ← div_eq_mul_inv] at this
      exact this) a b nx ny hx hy (by rw [hz]; exact ha) (by rw [hz]; exact hb)
  rw [e] at this
  exact this

/-- The hypotheses hold for an image of 101 times 50 pixels around (20.5, 31.25). -/
example : |(82 : ℤ)| + 2 * ((101 : Nat) + (50 : Nat) + 1) * 2 ^ 2 ≤ 2 ^ 53 ∧ |(125 : ℤ)| + 2 * ((101 : Nat) + (50 : Nat) + 1) * 2 ^ 2 ≤ 2 ^ 53 := by
  norm_num

/-! ### Any centre -/

variable {u : K}

/-- One axis of `model_to_image`. -/
theorem axisR_near (hu : RelErr u fl) (hu0 : 0 ≤ u) (hu1 : u ≤ 1 / 8) (c R : K) (n : Nat) (hR : |c| + n + 1 ≤ R) (hE : 8 * (u * R) ≤ 1) (o : K)
    (ho : o = fl (c - ((n / 2 : Nat) : K))) :
    |o - (c - ((n / 2 : Nat) : K))| ≤ u * R ∧ |fl (fl (o + n) - o) - n| < 1 ∧
    (fl (fl (o + n) - o) = n → (npArangeR fl o (fl (o + n))).length = n ∧ (0 < n → (npArangeR fl o (fl (o + n))).getD 0 0 = o) ∧
      ∀ k : Nat, k < n → |(npArangeR fl o (fl (o + n))).getD k 0 - (o + k)| ≤ 5 * (u * R) * (k + 1)) := by
  have hc0 := abs_nonneg c
  have hn0 : (0 : K) ≤ n := Nat.cast_nonneg n
  have hR1 : 1 ≤ R := by linarith
  have hm : ((n / 2 : Nat) : K) ≤ n := by exact_mod_cast Nat.div_le_self n 2
  have hm0 : (0 : K) ≤ ((n / 2 : Nat) : K) := Nat.cast_nonneg _
  set m := ((n / 2 : Nat) : K) with hmd
  set E := u * R with hEd
  have hE0 : 0 ≤ E := mul_nonneg hu0 (by linarith)
  have huE : u ≤ E := by rw [hEd]; nlinarith
  have huEE : u * E ≤ E / 8 := by nlinarith
  have hca := abs_le.1 (le_refl |c|)
  have h1 : |o - (c - m)| ≤ E := by
    rw [ho]
    refine (hu _).trans ?_
    rw [hEd]
    apply mul_le_mul_of_nonneg_left _ hu0
    rw [abs_le]
    constructor <;> linarith
  have h1' := abs_le.1 h1
  have hok : ∀ k : K, 0 ≤ k → k ≤ n → |o + k| ≤ R + E := by
    intro k hk hkn
    rw [abs_le]
    constructor <;> linarith
  have herr : ∀ k : K, 0 ≤ k → k ≤ n → |fl (o + k) - (o + k)| ≤ 9 / 8 * E := by
    intro k hk hkn
    refine (hu _).trans ?_
    have := mul_le_mul_of_nonneg_left (hok k hk hkn) hu0
    rw [mul_add, ← hEd] at this
    linarith
  refine ⟨h1, ?_, ?_⟩
  · have h2 := abs_le.1 (herr n hn0 le_rfl)
    have h3 := hu (fl (o + n) - o)
    have h4 : |fl (o + n) - o| ≤ R + E := by
      rw [abs_le]; constructor <;> linarith
    have h5 := mul_le_mul_of_nonneg_left h4 hu0
    rw [mul_add, ← hEd] at h5
    have h6 := abs_le.1 (h3.trans h5)
    rw [abs_lt]
    constructor <;> linarith
  · intro hd
    have hlen : (npArangeR fl o (fl (o + n))).length = n := by
      unfold npArangeR
      rw [hd]
      simp
    refine ⟨hlen, fun hn => ?_, fun k hk => ?_⟩
    · unfold npArangeR
      rw [hd]
      simp only [Int.ceil_natCast, Int.toNat_natCast]
      rw [getD_map_range n _ 0 hn, if_pos rfl]
    have hkK : (k : K) ≤ n := by exact_mod_cast hk.le
    have hk0 : (0 : K) ≤ k := Nat.cast_nonneg k
    have hEk : 0 ≤ E * k := mul_nonneg hE0 hk0
    have huEk := mul_le_mul_of_nonneg_right hu1 hEk
    unfold npArangeR
    rw [hd]
    simp only [Int.ceil_natCast, Int.toNat_natCast]
    rw [getD_map_range n _ 0 hk]
    by_cases hk1 : k = 0
    · rw [if_pos hk1, hk1]
      simp only [Nat.cast_zero, add_zero, sub_self, abs_zero]
      linarith
    rw [if_neg hk1]
    have hn1 : (1 : K) ≤ n := by exact_mod_cast (by omega : 1 ≤ n)
    have e1 := herr 1 zero_le_one hn1
    by_cases hk2 : k = 1
    · rw [if_pos hk2, hk2, Nat.cast_one]
      refine e1.trans ?_
      linarith
    rw [if_neg hk2]
    set st := fl (fl (o + 1) - o) with hst
    have e1' := abs_le.1 e1
    have hs1 : |st - 1| ≤ 37 / 16 * E := by
      have h3 := hu (fl (o + 1) - o)
      have h4 : |fl (o + 1) - o| ≤ 1 + 9 / 8 * E := by rw [abs_le]; constructor <;> linarith
      have h5 := mul_le_mul_of_nonneg_left h4 hu0
      have h6 := abs_le.1 (h3.trans h5)
      rw [abs_le]
      constructor <;> linarith
    have hs1' := abs_le.1 hs1
    have hs2 : |(k : K) * st - k| ≤ 37 / 16 * (E * k) := by
      rw [show (k : K) * st - k = k * (st - 1) by ring, abs_mul, abs_of_nonneg hk0]
      have := mul_le_mul_of_nonneg_left hs1 hk0
      linarith
    have hs2' := abs_le.1 hs2
    have hs3 : |fl ((k : K) * st) - k| ≤ 29 / 8 * (E * k) := by
      have h3 := hu ((k : K) * st)
      have h4 : |(k : K) * st| ≤ k + 37 / 16 * (E * k) := by rw [abs_le]; constructor <;> linarith
      have h5 := mul_le_mul_of_nonneg_left h4 hu0
      have h6 := abs_le.1 (h3.trans h5)
      have h7 : u * k ≤ E * k := mul_le_mul_of_nonneg_right huE hk0
      have h8 : u * (E * k) ≤ E * k / 8 := by linarith
      rw [abs_le]
      constructor <;> linarith
    have hs3' := abs_le.1 hs3
    have h9 := hu (o + fl ((k : K) * st))
    have h10 : |o + fl ((k : K) * st)| ≤ R + E + 29 / 8 * (E * k) := by
      have := abs_le.1 (hok k hk0 hkK)
      rw [abs_le]; constructor <;> linarith
    have h11 := mul_le_mul_of_nonneg_left h10 hu0
    rw [mul_add, mul_add, ← hEd] at h11
    have h8 : u * (29 / 8 * (E * k)) ≤ 29 / 64 * (E * k) := by linarith
    have h12 := abs_le.1 (h9.trans h11)
    have h13 : (2 : K) ≤ k := by exact_mod_cast (by omega : 2 ≤ k)
    have h14 : 2 * E ≤ E * k := by linarith [mul_le_mul_of_nonneg_left h13 hE0]
    rw [abs_le]
    constructor <;> linarith

theorem whole_of_near {x : K} {n : Nat} (h : |x - n| < 1) (hw : x = ⌊x⌋) : x = n := by
  rw [hw] at h ⊢
  have h' : |(⌊x⌋ : ℤ) - (n : ℤ)| < 1 := by exact_mod_cast h
  have : ⌊x⌋ = (n : ℤ) := by
    rw [Int.abs_lt_one_iff] at h'
    omega
  rw [this]; simp

/-- **C158, any centre, plain models.**  If `model_to_image` returns, then the image has `ny` rows and `nx` columns, and pixel `[j, i]` is
the value of the model at a point within `6 u R (i + 1)` and `6 u R (j + 1)` of `(cx - nx // 2 + i, cy - ny // 2 + j)`. -/
theorem C158_shape_partial (hu : RelErr u fl) (hu0 : 0 ≤ u) (hu1 : u ≤ 1 / 8) (cx cy R : K) (nx ny : Nat) (hRx : |cx| + nx + 1 ≤ R) (hRy : |cy| + ny + 1 ≤ R)
    (hE : 8 * (u * R) ≤ 1) (g : K → K → K) (im : Img K) (h : modelToImageR fl (pointwise g) nx ny cx cy = .ok im) :
    im.h = ny ∧ im.w = nx ∧ ∃ xs ys : Nat → K, (∀ i, i < nx → |xs i - (cx - ((nx / 2 : Nat) : K) + i)| ≤ 6 * (u * R) * (i + 1)) ∧
      (∀ j, j < ny → |ys j - (cy - ((ny / 2 : Nat) : K) + j)| ≤ 6 * (u * R) * (j + 1)) ∧ ∀ j i, im.px j i = g (xs i) (ys j) := by
  obtain ⟨a1, a2, a3⟩ := axisR_near hu hu0 hu1 cx R nx hRx hE _ rfl
  obtain ⟨b1, b2, b3⟩ := axisR_near hu hu0 hu1 cy R ny hRy hE _ rfl
  unfold modelToImageR at h
  simp only at h
  split_ifs at h with h1 h2
  rw [not_not] at h1 h2
  obtain ⟨a4, -, a5⟩ := a3 (whole_of_near a2 h1)
  obtain ⟨b4, -, b5⟩ := b3 (whole_of_near b2 h2)
  have hE0 : 0 ≤ u * R := mul_nonneg hu0 (by linarith [abs_nonneg cx, (Nat.cast_nonneg nx : (0 : K) ≤ nx)])
  have hput : ∀ (x o b : K) (k : Nat), |o - b| ≤ u * R → |x - (o + k)| ≤ 5 * (u * R) * (k + 1) → |x - (b + k)| ≤ 6 * (u * R) * (k + 1) := by
    intro x o b k h1 h2
    have h1 := abs_le.1 h1
    have h2 := abs_le.1 h2
    have h3 : 0 ≤ u * R * k := mul_nonneg hE0 (Nat.cast_nonneg k)
    rw [abs_le]
    constructor <;> nlinarith
  have hEq := Except.ok.inj h
  rw [← hEq]
  refine ⟨b4, a4, _, _, fun i hi => hput _ _ _ i a1 (a5 i hi), fun j hj => hput _ _ _ j b1 (b5 j hj), fun j i => rfl⟩

/-- `make_grid` from any origin. -/
theorem makeGridR_near (hH : 0 < H) (hex : ∀ k : ℤ, |k| ≤ N → fl ((k : K) / ((2 * H : Nat) : K)) = k / ((2 * H : Nat) : K)) (p q : K) (n : Nat)
    (hs : ((n : ℤ) + 2) * (2 * H) ≤ N) :
    (makeGridR fl n (p, q)).1.h = n ∧ (makeGridR fl n (p, q)).1.w = n ∧
    ∀ i j, i < n → j < n → (makeGridR fl n (p, q)).1.px i j = fl (j + p) ∧ (makeGridR fl n (p, q)).2.px i j = fl (i + q) := by
  have hD : ((2 * H : Nat) : K) ≠ 0 := by exact_mod_cast (by omega : 2 * H ≠ 0)
  have hH' : (0 : ℤ) < 2 * H := by omega
  have hhalf : (1 / 2 : K) = ((H : ℤ) : K) / ((2 * H : Nat) : K) := by
    have : (H : K) ≠ 0 := by exact_mod_cast hH.ne'
    push_cast; field_simp
  have hHn : |(H : ℤ)| = H := abs_of_nonneg (by positivity)
  have har : npArangeR fl (1 / 2) (n : K) = (List.range n).map fun k : Nat => (1 / 2 : K) + k := by
    rw [hhalf]
    apply npArangeR_exact hH hex
    · rw [hHn]; nlinarith
    · have e : (n : K) - ((H : ℤ) : K) / ((2 * H : Nat) : K) = ((n * (2 * H) - H : ℤ) : K) / ((2 * H : Nat) : K) := by
        rw [eq_div_iff hD, sub_mul, div_mul_cancel₀ _ hD]; push_cast; ring
      rw [e]
      apply hex
      have h1 := abs_sub (n * (2 * H) : ℤ) H
      rw [hHn, abs_of_nonneg (by positivity : (0 : ℤ) ≤ n * (2 * H))] at h1
      nlinarith
    · rw [← hhalf, Int.ceil_eq_iff]
      push_cast
      constructor <;> linarith
  have hax : ∀ p : K, ((List.range n).map fun k : Nat => (1 / 2 : K) + k).map
      (fun v => fl (fl (fl (v / 1) - 1 / 2) + p)) = (List.range n).map fun k : Nat => fl (k + p) := by
    intro p
    rw [List.map_map]
    apply List.map_congr_left
    intro k hk
    rw [List.mem_range] at hk
    have hkn : (k : ℤ) * (2 * H) ≤ n * (2 * H) := mul_le_mul_of_nonneg_right (by exact_mod_cast hk.le) hH'.le
    have h1 : fl ((1 / 2 : K) + k) = 1 / 2 + k := by
      have e : (1 / 2 : K) + k = ((H + k * (2 * H) : ℤ) : K) / ((2 * H : Nat) : K) := by
        rw [hhalf, eq_div_iff hD, add_mul, div_mul_cancel₀ _ hD]; push_cast; ring
      rw [e]
      apply hex
      rw [abs_of_nonneg (by positivity)]
      nlinarith
    have h2 : fl (k : K) = k := by
      have e : (k : K) = ((k * (2 * H) : ℤ) : K) / ((2 * H : Nat) : K) := by rw [eq_div_iff hD]; push_cast; ring
      rw [e]
      apply hex
      rw [abs_of_nonneg (by positivity)]
      nlinarith
    show fl (fl (fl ((1 / 2 + (k : K)) / 1) - 1 / 2) + p) = _
    rw [div_one, h1, add_sub_cancel_left, h2]
  unfold makeGridR meshgrid
  simp only
  rw [har, hax p, hax q]
  refine ⟨by simp, by simp, fun i j hi hj => ⟨?_, ?_⟩⟩
  · exact getD_map_range n _ 0 hj
  · exact getD_map_range n _ 0 hi

/-- Indices along one axis. -/
theorem axisIndex (hfl : Rounding fl) (hu : RelErr u fl) (hu0 : 0 ≤ u) (n : Nat) (R o : K) (hn : (n : K) ≤ R) (hE : u * R ≤ 1 / 20) (xs : Nat → K)
    (h0 : xs 0 = o) (hnear : ∀ k, k < n → |xs k - (o + k)| ≤ 1 / 4) :
    (∀ k, k < n → o ≤ xs k) ∧ (∀ k, k < n → xs k ≤ xs (n - 1)) ∧ (∀ k, k < n → indexOfR fl (xs k) o ≤ indexOfR fl (xs (n - 1)) o) ∧
    ∀ k, k < n → indexOfR fl (xs k) o = k ∨ indexOfR fl (xs k) o + 1 = k := by
  have hmax : ∀ k, k < n → xs k ≤ xs (n - 1) := by
    intro k hk
    rcases Nat.lt_or_ge k (n - 1) with h | h
    · have h1 := abs_le.1 (hnear k hk)
      have h2 := abs_le.1 (hnear (n - 1) (by omega))
      have h3 : (k : K) + 1 ≤ ((n - 1 : Nat) : K) := by exact_mod_cast h
      linarith
    · rw [show k = n - 1 by omega]
  refine ⟨?_, hmax, ?_, ?_⟩
  · intro k hk
    rcases Nat.eq_zero_or_pos k with h | h
    · rw [h, h0]
    · have h1 := abs_le.1 (hnear k hk)
      have h3 : (1 : K) ≤ k := by exact_mod_cast h
      linarith
  · intro k hk
    unfold indexOfR
    exact Int.toNat_le_toNat (Int.floor_le_floor (hfl.mono (sub_le_sub_right (hmax k hk) o)))
  · intro k hk
    rcases Nat.eq_zero_or_pos k with h | h
    · left
      rw [h, h0]
      unfold indexOfR
      rw [sub_self, relErr_zero hu]
      simp
    · have h1 := abs_le.1 (hnear k hk)
      have h3 : (1 : K) ≤ k := by exact_mod_cast h
      have h4 : (k : K) + 1 ≤ n := by exact_mod_cast hk
      have h5 : |xs k - o| ≤ R := by rw [abs_le]; constructor <;> linarith
      have h6 := abs_le.1 ((hu (xs k - o)).trans (mul_le_mul_of_nonneg_left h5 hu0))
      have l1 : (k : K) - 1 < fl (xs k - o) := by linarith
      have l2 : fl (xs k - o) < (k : K) + 1 := by linarith
      have f1 : ((k : ℤ) - 1) ≤ ⌊fl (xs k - o)⌋ := by rw [Int.le_floor]; push_cast; exact l1.le
      have f2 : ⌊fl (xs k - o)⌋ < (k : ℤ) + 1 := by rw [Int.floor_lt]; push_cast; exact l2
      unfold indexOfR
      omega

/-- **C158, any centre, wrapped models.**  `model_to_image` of a wrapped model either raises ValueError or returns an image of `ny` rows and
`nx` columns in which pixel `[j, i]` is the value of the model at the coordinates of that pixel or of a neighbour with an index lower by
one. -/
theorem C158_wrapped_partial (hfl : Rounding fl) (hu : RelErr u fl) (hu0 : 0 ≤ u) (cx cy R : K) (nx ny : Nat) (hx : 0 < nx) (hy : 0 < ny)
    (hRx : |cx| + nx + 1 ≤ R) (hRy : |cy| + ny + 1 ≤ R) (hE : 20 * (u * R * R) ≤ 1)
    (hex : ∀ k : ℤ, |k| ≤ 2 * (nx + ny + 2) → fl ((k : K) / 2) = k / 2) (S : SubModel K) (params : List K) :
    modelToImageR fl (onGridR fl S params) nx ny cx cy = .error .valueError ∨
    ∃ im, modelToImageR fl (onGridR fl S params) nx ny cx cy = .ok im ∧ im.h = ny ∧ im.w = nx ∧
      ∀ j i, j < ny → i < nx → ∃ j' i' : Nat, (j' = j ∨ j' + 1 = j) ∧ (i' = i ∨ i' + 1 = i) ∧
        im.px j i = S.eval params (fl (i' + fl (cx - ((nx / 2 : Nat) : K)))) (fl (j' + fl (cy - ((ny / 2 : Nat) : K)))) := by
  have hnx0 : (0 : K) ≤ nx := Nat.cast_nonneg nx
  have hny0 : (0 : K) ≤ ny := Nat.cast_nonneg ny
  have hR1 : 1 ≤ R := by linarith [abs_nonneg cx]
  have hE1 : u * R ≤ 1 / 20 := by
    have : u * R * 1 ≤ u * R * R := mul_le_mul_of_nonneg_left hR1 (mul_nonneg hu0 (by linarith))
    linarith
  have hu1 : u ≤ 1 / 8 := by
    have : u * 1 ≤ u * R := mul_le_mul_of_nonneg_left hR1 hu0
    linarith
  obtain ⟨a1, a2, a3⟩ := axisR_near hu hu0 hu1 cx R nx hRx (by linarith) _ rfl
  obtain ⟨b1, b2, b3⟩ := axisR_near hu hu0 hu1 cy R ny hRy (by linarith) _ rfl
  set ox := fl (cx - ((nx / 2 : Nat) : K)) with hox
  set oy := fl (cy - ((ny / 2 : Nat) : K)) with hoy
  unfold modelToImageR
  simp only
  rw [← hox, ← hoy]
  by_cases h1 : fl (fl (ox + nx) - ox) ≠ ⌊fl (fl (ox + nx) - ox)⌋
  · left; rw [if_pos h1]
  by_cases h2 : fl (fl (oy + ny) - oy) ≠ ⌊fl (fl (oy + ny) - oy)⌋
  · left; rw [if_neg h1, if_pos h2]
  right
  rw [if_neg h1, if_neg h2]
  rw [not_not] at h1 h2
  obtain ⟨a4, a5, a6⟩ := a3 (whole_of_near a2 h1)
  obtain ⟨b4, b5, b6⟩ := b3 (whole_of_near b2 h2)
  set lx := npArangeR fl ox (fl (ox + nx)) with hlx
  set ly := npArangeR fl oy (fl (oy + ny)) with hly
  have hquart : ∀ (x : K) (n k : Nat) (c : K), |c| + n + 1 ≤ R → k < n → |x| ≤ 5 * (u * R) * (k + 1) → |x| ≤ 1 / 4 := by
    intro x n k c hc hk hxk
    have h3 : (k : K) + 1 ≤ n := by exact_mod_cast hk
    have h4 : u * R * (k + 1) ≤ u * R * R := mul_le_mul_of_nonneg_left (by linarith [abs_nonneg c]) (mul_nonneg hu0 (by linarith))
    linarith
  obtain ⟨p1, p2, p3, p4⟩ := axisIndex hfl hu hu0 nx R ox (by linarith [abs_nonneg cx]) hE1 (fun k => lx.getD k 0) (a5 hx)
    (fun k hk => hquart _ nx k cx hRx hk (a6 k hk))
  obtain ⟨q1, q2, q3, q4⟩ := axisIndex hfl hu hu0 ny R oy (by linarith [abs_nonneg cy]) hE1 (fun k => ly.getD k 0) (b5 hy)
    (fun k hk => hquart _ ny k cy hRy hk (b6 k hk))
  unfold onGridR meshgrid
  simp only [a4, b4]
  set coords := (List.range ny).flatMap fun i : Nat => (List.range nx).map fun j : Nat => (lx.getD j 0, ly.getD i 0) with hco
  have hmem : ∀ c, c ∈ coords ↔ ∃ i, i < ny ∧ ∃ j, j < nx ∧ (lx.getD j 0, ly.getD i 0) = c := by
    intro c
    simp only [hco, List.mem_flatMap, List.mem_map, List.mem_range]
  have m1 : (coords.map (·.1)).min? = some ox := by
    rw [List.min?_eq_some_iff]
    refine ⟨List.mem_map.2 ⟨_, (hmem _).2 ⟨0, hy, 0, hx, rfl⟩, a5 hx⟩, fun x hxm => ?_⟩
    obtain ⟨c, hcm, rfl⟩ := List.mem_map.1 hxm
    obtain ⟨i, _, j, hj, rfl⟩ := (hmem c).1 hcm
    exact p1 j hj
  have m2 : (coords.map (·.1)).max? = some (lx.getD (nx - 1) 0) := by
    rw [List.max?_eq_some_iff]
    refine ⟨List.mem_map.2 ⟨_, (hmem _).2 ⟨0, hy, nx - 1, by omega, rfl⟩, rfl⟩, fun x hxm => ?_⟩
    obtain ⟨c, hcm, rfl⟩ := List.mem_map.1 hxm
    obtain ⟨i, _, j, hj, rfl⟩ := (hmem c).1 hcm
    exact p2 j hj
  have m3 : (coords.map (·.2)).min? = some oy := by
    rw [List.min?_eq_some_iff]
    refine ⟨List.mem_map.2 ⟨_, (hmem _).2 ⟨0, hy, 0, hx, rfl⟩, b5 hy⟩, fun x hxm => ?_⟩
    obtain ⟨c, hcm, rfl⟩ := List.mem_map.1 hxm
    obtain ⟨i, hi, j, _, rfl⟩ := (hmem c).1 hcm
    exact q1 i hi
  have m4 : (coords.map (·.2)).max? = some (ly.getD (ny - 1) 0) := by
    rw [List.max?_eq_some_iff]
    refine ⟨List.mem_map.2 ⟨_, (hmem _).2 ⟨ny - 1, by omega, 0, hx, rfl⟩, rfl⟩, fun x hxm => ?_⟩
    obtain ⟨c, hcm, rfl⟩ := List.mem_map.1 hxm
    obtain ⟨i, hi, j, _, rfl⟩ := (hmem c).1 hcm
    exact q2 i hi
  set size := max (indexOfR fl (lx.getD (nx - 1) 0) ox) (indexOfR fl (ly.getD (ny - 1) 0) oy) + 1 with hsize
  have hsz : size ≤ nx + ny := by
    have := p4 (nx - 1) (by omega)
    have := q4 (ny - 1) (by omega)
    omega
  obtain ⟨g1, g2, g3⟩ := makeGridR_near (fl := fl) (H := 1) (N := 2 * (nx + ny + 2)) one_pos (by simpa using hex) ox oy size (by push_cast; omega)
  have hev : evaluateR fl S coords params = .ok (coords.map fun c => S.eval params (fl (indexOfR fl c.1 ox + ox)) (fl (indexOfR fl c.2 oy + oy))) := by
    unfold evaluateR
    rw [m1, m2, m3, m4]
    simp only
    rw [← hsize]
    apply mapM_ok _ (fun c : K × K => S.eval params (fl (indexOfR fl c.1 ox + ox)) (fl (indexOfR fl c.2 oy + oy)))
    intro c hc
    obtain ⟨i, hi, j, hj, rfl⟩ := (hmem c).1 hc
    simp only
    have r1 : indexOfR fl (lx.getD j 0) ox < size := by have := p3 j hj; omega
    have r2 : indexOfR fl (ly.getD i 0) oy < size := by have := q3 i hi; omega
    have e1 : (PSFModel.sample S params (makeGridR fl size (ox, oy))).h = size := g1
    have e2 : (PSFModel.sample S params (makeGridR fl size (ox, oy))).w = size := g2
    unfold PSFModel.pick
    rw [if_pos ⟨by rw [e1]; exact r2, by rw [e2]; exact r1⟩]
    obtain ⟨g4, g5⟩ := g3 _ _ r2 r1
    show Except.ok (S.eval params _ _) = _
    rw [g4, g5]
  rw [hev]
  refine ⟨_, rfl, rfl, rfl, ?_⟩
  intro j i hj hi
  refine ⟨indexOfR fl (ly.getD j 0) oy, indexOfR fl (lx.getD i 0) ox, q4 j hj, p4 i hi, ?_⟩
  have hflat : (coords.map fun c => S.eval params (fl (indexOfR fl c.1 ox + ox)) (fl (indexOfR fl c.2 oy + oy))) =
      (List.range ny).flatMap fun i => (List.range nx).map fun j =>
        S.eval params (fl (indexOfR fl (lx.getD j 0) ox + ox)) (fl (indexOfR fl (ly.getD i 0) oy + oy)) := by
    rw [hco, List.map_flatMap]
    simp only [List.map_map, Function.comp_def]
  rw [hflat]
  exact getD_rows nx (fun c d => S.eval params (fl (indexOfR fl (lx.getD d 0) ox + ox)) (fl (indexOfR fl (ly.getD c 0) oy + oy))) 0 ny j i hj hi

end

/-- The hypotheses of the last two theorems hold in binary64 for an image of 100 times 50 pixels around (50.3, 25.7). -/
example : Rounding (fl53 : ℚ → ℚ) ∧ RelErr ((2 : ℚ) ^ (-((53 : Nat) : ℤ))) fl53 ∧ |(503 / 10 : ℚ)| + (100 : Nat) + 1 ≤ 152 ∧
    |(257 / 10 : ℚ)| + (50 : Nat) + 1 ≤ 152 ∧ 20 * ((2 : ℚ) ^ (-((53 : Nat) : ℤ)) * 152 * 152) ≤ 1 ∧
    ∀ k : ℤ, |k| ≤ 2 * ((100 : Nat) + (50 : Nat) + 2) → fl53 ((k : ℚ) / 2) = k / 2 := by
  refine ⟨flBits_rounding 53 (by decide), flBits_relErr 53 (by decide), ?_, ?_, ?_, fun k hk => ?_⟩
  · rw [abs_of_pos (by norm_num)]; norm_num
  · rw [abs_of_pos (by norm_num)]; norm_num
  · norm_num
  · have := flBits_repr (K := ℚ) 53 (by decide) k (by norm_num at hk ⊢; linarith) (-1)
    rw [zpow_neg_one, ← div_eq_mul_inv] at this
    exact this

/-! ### The violations -/

/-- **C158 is violated: a fractional centre can make model_to_image fail.**  `model_to_image(model, 3, center=(2.1, 2.1))` raises ValueError
for every model: the image is to range from 1.1 to 4.1, whose difference is not a whole number in binary64. -/
theorem C158_raises_violated (m : GridModel ℚ) : modelToImageR fl53 m 3 3 (fl53 (21 / 10)) (fl53 (21 / 10)) = .error .valueError := by
  unfold modelToImageR
  have h : fl53 (fl53 (fl53 (fl53 (21 / 10 : ℚ) - ((3 / 2 : Nat) : ℚ)) + ((3 : Nat) : ℚ)) - fl53 (fl53 (21 / 10 : ℚ) - ((3 / 2 : Nat) : ℚ))) ≠
      ⌊fl53 (fl53 (fl53 (fl53 (21 / 10 : ℚ) - ((3 / 2 : Nat) : ℚ)) + ((3 : Nat) : ℚ)) - fl53 (fl53 (21 / 10 : ℚ) - ((3 / 2 : Nat) : ℚ)))⌋ := by
    decide +kernel
  simp only
  rw [if_pos h]

/-- The coordinates of the three columns for the centre 1.3: 0.3, 1.3 and 2.3, rounded. -/
def columns13 : List ℚ := npArangeR fl53 (fl53 (fl53 (13 / 10) - 1)) (fl53 (fl53 (fl53 (13 / 10) - 1) + 3))

/-- The pixels. -/
def pixels13 : List (ℚ × ℚ) := columns13.flatMap fun y => columns13.map fun x => (x, y)

theorem pick_ok {K : Type} {im : Img K} {i j : Nat} (hi : i < im.h) (hj : j < im.w) : PSFModel.pick im (i, j) = .ok (im.px i j) := by
  unfold PSFModel.pick
  rw [if_pos ⟨hi, hj⟩]

theorem evaluate13 (S : SubModel ℚ) (params : List ℚ) : ∃ a b c d : ℚ, evaluateR fl53 S pixels13 params = .ok [a, b, b, c, d, d, c, d, d] := by
  have h1 : (pixels13.map (·.1)).min? = some (columns13.getD 0 0) := by decide +kernel
  have h2 : (pixels13.map (·.1)).max? = some (columns13.getD 2 0) := by decide +kernel
  have h3 : (pixels13.map (·.2)).min? = some (columns13.getD 0 0) := by decide +kernel
  have h4 : (pixels13.map (·.2)).max? = some (columns13.getD 2 0) := by decide +kernel
  have hs : max (indexOfR fl53 (columns13.getD 2 0) (columns13.getD 0 0)) (indexOfR fl53 (columns13.getD 2 0) (columns13.getD 0 0)) + 1 = 2 := by
    decide +kernel
  have hi : pixels13.map (fun c => (indexOfR fl53 c.2 (columns13.getD 0 0), indexOfR fl53 c.1 (columns13.getD 0 0))) =
      [(0, 0), (0, 1), (0, 1), (1, 0), (1, 1), (1, 1), (1, 0), (1, 1), (1, 1)] := by decide +kernel
  have hh : (makeGridR fl53 2 (columns13.getD 0 0, columns13.getD 0 0)).1.h = 2 := by decide +kernel
  have hw : (makeGridR fl53 2 (columns13.getD 0 0, columns13.getD 0 0)).1.w = 2 := by decide +kernel
  unfold evaluateR
  rw [h1, h2, h3, h4]
  simp only
  rw [hs]
  set im := PSFModel.sample S params (makeGridR fl53 2 (columns13.getD 0 0, columns13.getD 0 0)) with him
  have hh' : im.h = 2 := hh
  have hw' : im.w = 2 := hw
  have e : (pixels13.mapM fun c => PSFModel.pick im (indexOfR fl53 c.2 (columns13.getD 0 0), indexOfR fl53 c.1 (columns13.getD 0 0))) =
      (pixels13.map (fun c => (indexOfR fl53 c.2 (columns13.getD 0 0), indexOfR fl53 c.1 (columns13.getD 0 0)))).mapM (PSFModel.pick im) := by
    rw [List.mapM_map]
    rfl
  rw [e, hi]
  refine ⟨im.px 0 0, im.px 0 1, im.px 1 0, im.px 1 1, ?_⟩
  have p00 := pick_ok (im := im) (i := 0) (j := 0) (by omega) (by omega)
  have p01 := pick_ok (im := im) (i := 0) (j := 1) (by omega) (by omega)
  have p10 := pick_ok (im := im) (i := 1) (j := 0) (by omega) (by omega)
  have p11 := pick_ok (im := im) (i := 1) (j := 1) (by omega) (by omega)
  simp only [List.mapM_cons, List.mapM_nil, p00, p01, p10, p11]
  rfl

/-- **C158 is violated: a column and a row are repeated.**  For every wrapped model, `model_to_image(model, 3, center=(1.3, 1.3))` repeats
column one in column two and row one in row two: `2.3 - 0.3` is a little less than two in binary64 and the pixel index is truncated. -/
theorem C158_columns_violated (S : SubModel ℚ) (params : List ℚ) :
    ∃ im, modelToImageR fl53 (onGridR fl53 S params) 3 3 (fl53 (13 / 10)) (fl53 (13 / 10)) = .ok im ∧ im.h = 3 ∧ im.w = 3 ∧
      (∀ i, i < 3 → im.px i 2 = im.px i 1) ∧ ∀ j, j < 3 → im.px 2 j = im.px 1 j := by
  obtain ⟨a, b, c, d, he⟩ := evaluate13 S params
  have hl : columns13.length = 3 := by decide +kernel
  have hr : fl53 (fl53 (fl53 (fl53 (13 / 10 : ℚ) - ((3 / 2 : Nat) : ℚ)) + ((3 : Nat) : ℚ)) - fl53 (fl53 (13 / 10 : ℚ) - ((3 / 2 : Nat) : ℚ))) =
      ⌊fl53 (fl53 (fl53 (fl53 (13 / 10 : ℚ) - ((3 / 2 : Nat) : ℚ)) + ((3 : Nat) : ℚ)) - fl53 (fl53 (13 / 10 : ℚ) - ((3 / 2 : Nat) : ℚ)))⌋ := by
    decide +kernel
  have hc : npArangeR fl53 (fl53 (fl53 (13 / 10 : ℚ) - ((3 / 2 : Nat) : ℚ))) (fl53 (fl53 (fl53 (13 / 10 : ℚ) - ((3 / 2 : Nat) : ℚ)) + ((3 : Nat) : ℚ))) =
      columns13 := by decide +kernel
  have hp : ((List.range 3).flatMap fun i => (List.range 3).map fun j => (columns13.getD j 0, columns13.getD i 0)) = pixels13 := by decide +kernel
  unfold modelToImageR
  simp only
  rw [if_neg (not_not.2 hr), if_neg (not_not.2 hr), hc]
  unfold onGridR meshgrid
  simp only [hl]
  rw [hp, he]
  refine ⟨_, rfl, rfl, rfl, ?_, ?_⟩
  · intro i hi
    interval_cases i <;> rfl
  · intro j hj
    interval_cases j <;> rfl

/-- The repeated column is wrong: for the ramp `x` the values are about 0.3, 1.3 and 1.3. -/
example : (evaluateR fl53 (⟨[], fun _ x _ => x⟩ : SubModel ℚ) pixels13 []).toOption.map (fun l => l.map fun v => ⌊10 * v⌋) =
    some [3, 13, 13, 3, 13, 13, 3, 13, 13] := by decide +kernel

end Verif.Props

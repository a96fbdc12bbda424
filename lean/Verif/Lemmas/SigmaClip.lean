import Verif.Model.Fitting
import Mathlib.Tactic.LinearCombination
import Mathlib.Tactic.FieldSimp
import Mathlib.Tactic.Linarith
import Mathlib.Algebra.Order.BigOperators.Group.List

/-!
# Medians, variances and sigma clipping
-/

set_option linter.unusedSectionVars false

namespace Verif.Lemmas

variable {K : Type} [Field K] [LinearOrder K] [IsStrictOrderedRing K]

theorem sum_sq (l : List K) (a t : K) : (l.map fun v => (v - t) ^ 2).sum =
    (l.map fun v => (v - a) ^ 2).sum + 2 * (a - t) * (l.sum - l.length * a) + l.length * (a - t) ^ 2 := by
  induction l with
  | nil => simp
  | cons v l ih =>
    simp only [List.map_cons, List.sum_cons, List.length_cons, ih]
    push_cast
    ring

theorem length_ne {l : List K} (h : l ≠ []) : (l.length : K) ≠ 0 := by
  have := List.length_pos_iff.2 h
  exact_mod_cast this.ne'

theorem varK_nonneg (l : List K) : 0 ≤ varK l := by
  unfold varK
  simp only
  refine div_nonneg (List.sum_nonneg ?_) (Nat.cast_nonneg _)
  intro x hx
  obtain ⟨v, -, rfl⟩ := List.mem_map.1 hx
  positivity

/-- The mean square distance from any point. -/
theorem sum_sq_var {l : List K} (h : l ≠ []) (t : K) : (l.map fun v => (v - t) ^ 2).sum = l.length * varK l + l.length * (l.sum / l.length - t) ^ 2 := by
  rw [sum_sq l (l.sum / l.length) t]
  have := length_ne h
  unfold varK
  simp only
  rw [mul_div_cancel₀ _ this, mul_div_cancel₀ _ this, sub_self, mul_zero, add_zero]

theorem sum_ge_card {l : List K} {f : K → K} {b : K} (h : ∀ v ∈ l, b ≤ f v) : l.length * b ≤ (l.map f).sum := by
  induction l with
  | nil => simp
  | cons v l ih =>
    simp only [List.map_cons, List.sum_cons, List.length_cons]
    have h1 := ih fun v hv => h v (List.mem_cons_of_mem _ hv)
    have h2 := h v List.mem_cons_self
    push_cast
    linarith

theorem sum_map_nonneg {l : List K} {f : K → K} (h : ∀ v, 0 ≤ f v) : 0 ≤ (l.map f).sum := by
  have := sum_ge_card (l := l) (b := 0) fun v _ => h v
  rwa [mul_zero] at this

theorem getD_lt {s : List K} {i : Nat} (h : i < s.length) : s.getD i 0 = s[i] := by
  simp [List.getD, h]

theorem sorted_le {s : List K} (hs : s.Pairwise (· ≤ ·)) {i j : Nat} (hij : i ≤ j) (hj : j < s.length) : s[i] ≤ s[j] := by
  rcases hij.eq_or_lt with rfl | h
  · exact le_rfl
  · exact List.pairwise_iff_getElem.1 hs i j (by omega) hj h

/-- The upper half of a list is above its median and the lower half is below. -/
theorem median_halves {l : List K} (h : l ≠ []) :
    (∀ v ∈ (l.insertionSort (· ≤ ·)).drop (l.length / 2), medianK l ≤ v) ∧
    (∀ v ∈ (l.insertionSort (· ≤ ·)).take (l.length - l.length / 2), v ≤ medianK l) := by
  have hl : (l.insertionSort (· ≤ ·)).length = l.length := List.length_insertionSort _ _
  have hs : (l.insertionSort (· ≤ ·)).Pairwise (· ≤ ·) := List.pairwise_insertionSort _ _
  have hp := List.length_pos_iff.2 h
  unfold medianK
  simp only
  generalize l.insertionSort (· ≤ ·) = s at *
  rw [hl]
  by_cases ho : l.length % 2 = 1
  · rw [if_pos ho, getD_lt (by omega : l.length / 2 < s.length)]
    constructor
    · intro v hv
      obtain ⟨i, hi, rfl⟩ := List.getElem_of_mem hv
      rw [List.getElem_drop]
      exact sorted_le hs (by omega) _
    · intro v hv
      obtain ⟨i, hi, rfl⟩ := List.getElem_of_mem hv
      rw [List.getElem_take]
      rw [List.length_take] at hi
      exact sorted_le hs (by omega) _
  · rw [if_neg ho, getD_lt (by omega : l.length / 2 < s.length), getD_lt (by omega : l.length / 2 - 1 < s.length)]
    have h1 : s[l.length / 2 - 1]'(by omega) ≤ s[l.length / 2]'(by omega) := sorted_le hs (by omega) _
    constructor
    · intro v hv
      obtain ⟨i, hi, rfl⟩ := List.getElem_of_mem hv
      rw [List.getElem_drop]
      rw [List.length_drop] at hi
      have := sorted_le hs (by omega : l.length / 2 ≤ l.length / 2 + i) (by omega)
      linarith
    · intro v hv
      obtain ⟨i, hi, rfl⟩ := List.getElem_of_mem hv
      rw [List.getElem_take]
      rw [List.length_take] at hi
      have := sorted_le hs (by omega : i ≤ l.length / 2 - 1) (by omega)
      linarith

/-- The median is within one standard deviation of the mean. -/
theorem median_near_mean {l : List K} (h : l ≠ []) : (l.sum / l.length - medianK l) ^ 2 ≤ varK l := by
  obtain ⟨h1, h2⟩ := median_halves h
  have hl : (l.insertionSort (· ≤ ·)).length = l.length := List.length_insertionSort _ _
  have hperm : (l.insertionSort (· ≤ ·)).Perm l := List.perm_insertionSort _ _
  have hp := List.length_pos_iff.2 h
  have hpK : (0 : K) < l.length := by exact_mod_cast hp
  set m := l.sum / l.length with hm
  set c := medianK l with hc
  set s := l.insertionSort (· ≤ ·) with hs
  have hsum := sum_sq_var h (m - (c - m))
  rw [← hm] at hsum
  have e : (l.map fun v => (v - (m - (c - m))) ^ 2).sum = (s.map fun v => (v - (m - (c - m))) ^ 2).sum :=
    ((hperm.map _).sum_eq).symm
  have key : l.length * (2 * (c - m) ^ 2) ≤ (s.map fun v => (v - (m - (c - m))) ^ 2).sum := by
    have h2n : (l.length : K) ≤ 2 * ((l.length - l.length / 2 : Nat) : K) := by
      have : l.length ≤ 2 * (l.length - l.length / 2) := by omega
      exact_mod_cast this
    rcases le_total m c with hmc | hmc
    · rw [← List.take_append_drop (l.length / 2) s, List.map_append, List.sum_append]
      have h3 : (0 : K) ≤ ((s.take (l.length / 2)).map fun v => (v - (m - (c - m))) ^ 2).sum := sum_map_nonneg fun v => by positivity
      have h4 := sum_ge_card (l := s.drop (l.length / 2)) (f := fun v => (v - (m - (c - m))) ^ 2) (b := 4 * (c - m) ^ 2) (by
        intro v hv
        have := h1 v hv
        nlinarith)
      rw [List.length_drop, hl] at h4
      have := mul_le_mul_of_nonneg_right h2n (by positivity : 0 ≤ 2 * (c - m) ^ 2)
      linarith
    · rw [← List.take_append_drop (l.length - l.length / 2) s, List.map_append, List.sum_append]
      have h3 : (0 : K) ≤ ((s.drop (l.length - l.length / 2)).map fun v => (v - (m - (c - m))) ^ 2).sum := sum_map_nonneg fun v => by positivity
      have h4 := sum_ge_card (l := s.take (l.length - l.length / 2)) (f := fun v => (v - (m - (c - m))) ^ 2) (b := 4 * (c - m) ^ 2) (by
        intro v hv
        have := h2 v hv
        nlinarith)
      rw [List.length_take, hl, min_eq_left (by omega)] at h4
      have := mul_le_mul_of_nonneg_right h2n (by positivity : 0 ≤ 2 * (c - m) ^ 2)
      linarith
  rw [← e, hsum] at key
  have : l.length * (m - c) ^ 2 ≤ l.length * varK l := by
    have e2 : m - (m - (c - m)) = c - m := by ring
    rw [e2] at key
    nlinarith
  exact le_of_mul_le_mul_left this hpK

/-- One round of clipping removes at most the fraction `2 / sigma²` of the values. -/
theorem clip_round (l : List K) (sigma : K) :
    ((l.length - (l.filter fun v => (v - medianK l) ^ 2 ≤ sigma ^ 2 * varK l).length : Nat) : K) * sigma ^ 2 ≤ 2 * l.length := by
  by_cases h : l = []
  · subst h; simp
  have hpK : (0 : K) < l.length := by exact_mod_cast List.length_pos_iff.2 h
  have hv := varK_nonneg l
  have hsum := sum_sq_var h (medianK l)
  have hnear := median_near_mean h
  have hle : (l.map fun v => (v - medianK l) ^ 2).sum ≤ 2 * l.length * varK l := by
    rw [hsum]
    have := mul_le_mul_of_nonneg_left hnear hpK.le
    linarith
  have hcnt : l.length - (l.filter fun v => (v - medianK l) ^ 2 ≤ sigma ^ 2 * varK l).length =
      (l.filter fun v => ¬ (v - medianK l) ^ 2 ≤ sigma ^ 2 * varK l).length := by
    have := List.length_eq_length_filter_add (l := l) fun v => decide ((v - medianK l) ^ 2 ≤ sigma ^ 2 * varK l)
    simp only [decide_not]
    omega
  rw [hcnt]
  have hge : ((l.filter fun v => ¬ (v - medianK l) ^ 2 ≤ sigma ^ 2 * varK l).length : K) * (sigma ^ 2 * varK l) ≤
      (l.map fun v => (v - medianK l) ^ 2).sum := by
    refine (sum_ge_card (f := fun v => (v - medianK l) ^ 2) ?_).trans ?_
    · intro v hv
      have := (List.mem_filter.1 hv).2
      simp only [decide_eq_true_eq, not_le] at this
      exact this.le
    · exact ((List.filter_sublist (l := l)).map _).sum_le_sum (by
        intro x hx
        obtain ⟨v, -, rfl⟩ := List.mem_map.1 hx
        positivity)
  rcases hv.eq_or_lt with h0 | h0
  · have hz : ∀ v ∈ l, (v - medianK l) ^ 2 ≤ sigma ^ 2 * varK l := by
      intro v hvl
      rw [← h0, mul_zero]
      rw [← h0, mul_zero] at hle
      have := List.single_le_sum (l := l.map fun v => (v - medianK l) ^ 2) (by
        intro x hx
        obtain ⟨v, -, rfl⟩ := List.mem_map.1 hx
        positivity) _ (List.mem_map.2 ⟨v, hvl, rfl⟩)
      linarith
    have : (l.filter fun v => ¬ (v - medianK l) ^ 2 ≤ sigma ^ 2 * varK l) = [] := by
      rw [List.filter_eq_nil_iff]
      intro v hv
      simpa using hz v hv
    rw [this]
    simp
  · refine le_of_mul_le_mul_right ?_ h0
    linarith

/-- A value is inside the bounds. -/
def Within (cb : K × K) (v : K) : Bool := decide ((v - cb.1) ^ 2 ≤ cb.2)

/-- After `n + 1` rounds at least the fraction `(1 - 2 / sigma²)^(n + 1)` of the values are inside the bounds. -/
theorem clip_rounds {sigma : K} (hs : 2 ≤ sigma ^ 2) (n : Nat) (l : List K) :
    l.length * (sigma ^ 2 - 2) ^ (n + 1) ≤ ((l.filter (Within (clipBounds sigma n l))).length : K) * (sigma ^ 2) ^ (n + 1) := by
  have hone : ∀ l : List K, l.length * (sigma ^ 2 - 2) ≤
      ((l.filter fun v => (v - medianK l) ^ 2 ≤ sigma ^ 2 * varK l).length : K) * sigma ^ 2 := by
    intro l
    have h1 := clip_round l sigma
    have h2 : (l.filter fun v => (v - medianK l) ^ 2 ≤ sigma ^ 2 * varK l).length ≤ l.length := List.length_filter_le _ _
    rw [Nat.cast_sub h2] at h1
    linarith
  have h0 : (0 : K) ≤ sigma ^ 2 - 2 := by linarith
  induction n generalizing l with
  | zero =>
    rw [zero_add, pow_one, pow_one]
    exact hone l
  | succ n ih =>
    unfold clipBounds
    simp only
    have hle : (l.filter fun v => (v - medianK l) ^ 2 ≤ sigma ^ 2 * varK l).length ≤ l.length := List.length_filter_le _ _
    split
    · rename_i he
      have : (l.filter (Within (medianK l, sigma ^ 2 * varK l))).length = l.length := he
      rw [this]
      refine mul_le_mul_of_nonneg_left (pow_le_pow_left₀ h0 (by linarith) _) (Nat.cast_nonneg _)
    · have h1 := ih (l.filter fun v => (v - medianK l) ^ 2 ≤ sigma ^ 2 * varK l)
      have h2 := hone l
      generalize hb : clipBounds sigma n (l.filter fun v => (v - medianK l) ^ 2 ≤ sigma ^ 2 * varK l) = b at *
      have h3 : ((l.filter fun v => (v - medianK l) ^ 2 ≤ sigma ^ 2 * varK l).filter (Within b)).length ≤ (l.filter (Within b)).length :=
        (List.filter_sublist.filter _).length_le
      have h3' : (((l.filter fun v => (v - medianK l) ^ 2 ≤ sigma ^ 2 * varK l).filter (Within b)).length : K) ≤ (l.filter (Within b)).length := by
        exact_mod_cast h3
      calc (l.length : K) * (sigma ^ 2 - 2) ^ (n + 1 + 1) = l.length * (sigma ^ 2 - 2) * (sigma ^ 2 - 2) ^ (n + 1) := by ring
        _ ≤ ((l.filter fun v => (v - medianK l) ^ 2 ≤ sigma ^ 2 * varK l).length : K) * sigma ^ 2 * (sigma ^ 2 - 2) ^ (n + 1) :=
          mul_le_mul_of_nonneg_right h2 (by positivity)
        _ = sigma ^ 2 * (((l.filter fun v => (v - medianK l) ^ 2 ≤ sigma ^ 2 * varK l).length : K) * (sigma ^ 2 - 2) ^ (n + 1)) := by ring
        _ ≤ sigma ^ 2 * ((l.filter (Within b)).length * (sigma ^ 2) ^ (n + 1)) := by
          refine mul_le_mul_of_nonneg_left (h1.trans ?_) (by positivity)
          exact mul_le_mul_of_nonneg_right h3' (by positivity)
        _ = _ := by ring

/-! ### Change of unit and zero point -/

theorem sort_map_pos {a : K} (ha : 0 < a) (b : K) (l : List K) :
    (l.map fun v => a * v + b).insertionSort (· ≤ ·) = (l.insertionSort (· ≤ ·)).map fun v => a * v + b := by
  refine List.Perm.eq_of_pairwise' (List.pairwise_insertionSort _ _) ?_
    ((List.perm_insertionSort _ _).trans ((List.perm_insertionSort (· ≤ ·) l).map _).symm)
  rw [List.pairwise_map]
  refine (List.pairwise_insertionSort (· ≤ ·) l).imp ?_
  intro x y hxy
  have := mul_le_mul_of_nonneg_left hxy ha.le
  linarith

theorem sort_map_neg {a : K} (ha : a < 0) (b : K) (l : List K) :
    (l.map fun v => a * v + b).insertionSort (· ≤ ·) = ((l.insertionSort (· ≤ ·)).map fun v => a * v + b).reverse := by
  refine List.Perm.eq_of_pairwise' (List.pairwise_insertionSort _ _) ?_
    ((List.perm_insertionSort _ _).trans (((List.perm_insertionSort (· ≤ ·) l).map _).symm.trans (List.reverse_perm _).symm))
  rw [List.pairwise_reverse, List.pairwise_map]
  refine (List.pairwise_insertionSort (· ≤ ·) l).imp ?_
  intro x y hxy
  have := mul_le_mul_of_nonpos_left hxy ha.le
  linarith

/-- The median follows a change of unit and zero point. -/
theorem median_affine {a : K} (ha : a ≠ 0) (b : K) {l : List K} (h : l ≠ []) : medianK (l.map fun v => a * v + b) = a * medianK l + b := by
  have hp := List.length_pos_iff.2 h
  have hl : (l.insertionSort (· ≤ ·)).length = l.length := List.length_insertionSort _ _
  unfold medianK
  simp only
  rcases lt_or_gt_of_ne ha with hn | hn
  · rw [sort_map_neg hn]
    generalize l.insertionSort (· ≤ ·) = s at *
    rw [List.length_reverse, List.length_map, hl]
    split
    · rename_i ho
      rw [getD_lt (by simp; omega), getD_lt (by omega), List.getElem_reverse, List.getElem_map]
      simp only [List.length_map, hl]
      congr 3
      omega
    · rename_i ho
      rw [getD_lt (by simp; omega), getD_lt (by simp; omega), getD_lt (by omega), getD_lt (by omega), List.getElem_reverse,
        List.getElem_map, List.getElem_reverse, List.getElem_map]
      simp only [List.length_map, hl]
      have e1 : l.length - 1 - (l.length / 2 - 1) = l.length / 2 := by omega
      have e2 : l.length - 1 - l.length / 2 = l.length / 2 - 1 := by omega
      simp only [e1, e2]
      ring
  · rw [sort_map_pos hn]
    generalize l.insertionSort (· ≤ ·) = s at *
    rw [List.length_map, hl]
    split
    · rw [getD_lt (by simp; omega), getD_lt (by omega), List.getElem_map]
    · rw [getD_lt (by simp; omega), getD_lt (by simp; omega), getD_lt (by omega), getD_lt (by omega), List.getElem_map, List.getElem_map]
      ring

theorem sum_affine (a b : K) (l : List K) : (l.map fun v => a * v + b).sum = a * l.sum + l.length * b := by
  induction l with
  | nil => simp
  | cons v l ih =>
    simp only [List.map_cons, List.sum_cons, List.length_cons, ih]
    push_cast
    ring

theorem var_affine (a b : K) {l : List K} (h : l ≠ []) : varK (l.map fun v => a * v + b) = a ^ 2 * varK l := by
  have hne := length_ne h
  unfold varK
  simp only
  rw [sum_affine, List.length_map, List.map_map]
  have e : (l.map ((fun v => (v - (a * l.sum + l.length * b) / l.length) ^ 2) ∘ fun v => a * v + b)).sum =
      a ^ 2 * (l.map fun v => (v - l.sum / l.length) ^ 2).sum := by
    rw [← List.sum_map_mul_left]
    congr 1
    apply List.map_congr_left
    intro v _
    simp only [Function.comp]
    field_simp
    ring
  rw [e, mul_div_assoc]

theorem clip_nonempty {sigma : K} (hs : 2 < sigma ^ 2) {l : List K} (h : l ≠ []) :
    (l.filter fun v => (v - medianK l) ^ 2 ≤ sigma ^ 2 * varK l) ≠ [] := by
  intro he
  have := clip_round l sigma
  rw [he, List.length_nil, Nat.sub_zero] at this
  have hp : (0 : K) < l.length := by exact_mod_cast List.length_pos_iff.2 h
  nlinarith

theorem within_affine {a : K} (ha : a ≠ 0) (b c B v : K) : (a * v + b - (a * c + b)) ^ 2 ≤ a ^ 2 * B ↔ (v - c) ^ 2 ≤ B := by
  have e : (a * v + b - (a * c + b)) ^ 2 = a ^ 2 * (v - c) ^ 2 := by ring
  rw [e]
  exact mul_le_mul_iff_right₀ (by positivity)

/-- The clipping bounds follow a change of unit and zero point. -/
theorem clipBounds_affine {sigma a : K} (hs : 2 < sigma ^ 2) (ha : a ≠ 0) (b : K) (n : Nat) {l : List K} (h : l ≠ []) :
    clipBounds sigma n (l.map fun v => a * v + b) = (a * (clipBounds sigma n l).1 + b, a ^ 2 * (clipBounds sigma n l).2) := by
  induction n generalizing l with
  | zero =>
    unfold clipBounds
    rw [median_affine ha b h, var_affine a b h]
    simp only [Prod.mk.injEq, true_and]
    ring
  | succ n ih =>
    have hf : ((l.map fun v => a * v + b).filter fun v => (v - medianK (l.map fun v => a * v + b)) ^ 2 ≤ sigma ^ 2 * varK (l.map fun v => a * v + b)) =
        (l.filter fun v => (v - medianK l) ^ 2 ≤ sigma ^ 2 * varK l).map fun v => a * v + b := by
      rw [List.filter_map, median_affine ha b h, var_affine a b h]
      congr 1
      apply List.filter_congr
      intro v _
      simp only [Function.comp]
      have := within_affine ha b (medianK l) (sigma ^ 2 * varK l) v
      rw [show sigma ^ 2 * (a ^ 2 * varK l) = a ^ 2 * (sigma ^ 2 * varK l) by ring]
      exact decide_eq_decide.2 this
    rw [clipBounds, clipBounds]
    rw [hf, List.length_map, List.length_map]
    split
    · rw [median_affine ha b h, var_affine a b h]
      simp only [Prod.mk.injEq, true_and]
      ring
    · exact ih (clip_nonempty hs h)

/-! ### The pixels of an image -/

/-- The finite value of a pixel. -/
def finVal : F K → Option K
  | .fin v => some v
  | _ => none

/-- The finite values of an image. -/
def finVals (im : Img (F K)) : List K := (pixels im.h im.w).filterMap fun p => finVal (im.px p.1 p.2)

theorem mask_eq (im : Img (F K)) (sigma : K) (i j : Nat) : sigmaClipMask im sigma i j =
    match im.px i j with
    | .fin v => !Within (clipBounds sigma 4 (finVals im)) v
    | _ => true := by
  have e : ((List.range im.h).flatMap fun i => (List.range im.w).map fun j => im.px i j).filterMap finVal = finVals im := by
    have e2 : ((List.range im.h).flatMap fun i => (List.range im.w).map fun j => im.px i j) = (pixels im.h im.w).map fun p => im.px p.1 p.2 := by
      unfold pixels
      rw [List.map_flatMap]
      simp only [List.map_map]
      rfl
    rw [e2, List.filterMap_map]
    unfold finVals
    congr 1
  have key : sigmaClipMask im sigma i j =
      let b := clipBounds sigma 4 (((List.range im.h).flatMap fun i => (List.range im.w).map fun j => im.px i j).filterMap finVal)
      match im.px i j with
      | .fin v => decide (b.2 < (v - b.1) ^ 2)
      | _ => true := rfl
  rw [key, e]
  cases im.px i j with
  | fin v =>
    simp only [Within]
    rw [← decide_not]
    exact decide_eq_decide.2 not_le.symm
  | nan => rfl
  | pinf => rfl
  | ninf => rfl

theorem pixels_mem {h w : Nat} {p : Nat × Nat} : p ∈ pixels h w ↔ p.1 < h ∧ p.2 < w := by
  unfold pixels
  simp only [List.mem_flatMap, List.mem_range, List.mem_map]
  constructor
  · rintro ⟨i, hi, j, hj, rfl⟩; exact ⟨hi, hj⟩
  · rintro ⟨h1, h2⟩; exact ⟨p.1, h1, p.2, h2, rfl⟩

theorem finVals_mem {im : Img (F K)} {v : K} : v ∈ finVals im ↔ ∃ i j, i < im.h ∧ j < im.w ∧ im.px i j = .fin v := by
  unfold finVals
  rw [List.mem_filterMap]
  have hf : ∀ x : F K, finVal x = some v ↔ x = .fin v := by
    intro x
    cases x <;> simp [finVal]
  simp only [hf]
  constructor
  · rintro ⟨p, hp, h⟩
    exact ⟨p.1, p.2, (pixels_mem.1 hp).1, (pixels_mem.1 hp).2, h⟩
  · rintro ⟨i, j, hi, hj, h⟩
    exact ⟨(i, j), pixels_mem.2 ⟨hi, hj⟩, h⟩

/-- The number of pixels with a property. -/
def pixelCount (im : Img (F K)) (c : F K → Bool) : Nat := ((pixels im.h im.w).filter fun p => c (im.px p.1 p.2)).length

theorem pixelCount_fin (im : Img (F K)) (q : K → Bool) :
    pixelCount im (fun x => match x with | .fin v => q v | _ => false) = ((finVals im).filter q).length := by
  unfold pixelCount finVals
  induction pixels im.h im.w with
  | nil => rfl
  | cons p l ih =>
    rw [List.filter_cons, List.filterMap_cons]
    cases im.px p.1 p.2 with
    | fin v =>
      have e : finVal (F.fin v) = some v := rfl
      rw [e]
      dsimp only
      rw [List.filter_cons]
      by_cases hq : q v = true
      · rw [if_pos hq, if_pos hq, List.length_cons, List.length_cons, ih]
      · rw [if_neg hq, if_neg hq, ih]
    | nan => simpa [finVal] using ih
    | pinf => simpa [finVal] using ih
    | ninf => simpa [finVal] using ih

theorem pixelCount_isFin (im : Img (F K)) : pixelCount im F.isFin = (finVals im).length := by
  have := pixelCount_fin im fun _ => true
  rw [List.filter_true] at this
  rw [← this]
  congr 1

/-! ### A constant background -/

/-- If more than half of the values are equal to `c`, the median is `c`. -/
theorem median_majority {l : List K} {c : K} (h : l.length < 2 * (l.filter fun v => v = c).length) : medianK l = c := by
  have hne : l ≠ [] := by
    rintro rfl
    simp at h
  obtain ⟨h1, h2⟩ := median_halves hne
  have hl : (l.insertionSort (· ≤ ·)).length = l.length := List.length_insertionSort _ _
  have hperm : (l.insertionSort (· ≤ ·)).Perm l := List.perm_insertionSort _ _
  have hcnt : ((l.insertionSort (· ≤ ·)).filter fun v => v = c).length = (l.filter fun v => v = c).length := (hperm.filter _).length_eq
  generalize l.insertionSort (· ≤ ·) = s at *
  have hnil : ∀ t : List K, (∀ v ∈ t, v ≠ c) → (t.filter fun v => v = c) = [] := by
    intro t ht
    rw [List.filter_eq_nil_iff]
    intro v hv
    simpa using ht v hv
  rcases lt_trichotomy (medianK l) c with hc | hc | hc
  · exfalso
    rw [← List.take_append_drop (l.length - l.length / 2) s, List.filter_append, hnil _ fun v hv => ((h2 v hv).trans_lt hc).ne,
      List.nil_append] at hcnt
    have := List.length_filter_le (fun v => decide (v = c)) (s.drop (l.length - l.length / 2))
    rw [List.length_drop, hl] at this
    omega
  · exact hc
  · exfalso
    rw [← List.take_append_drop (l.length / 2) s, List.filter_append, hnil (s.drop _) fun v hv => (hc.trans_le (h1 v hv)).ne',
      List.append_nil] at hcnt
    have := List.length_filter_le (fun v => decide (v = c)) (s.take (l.length / 2))
    rw [List.length_take, hl] at this
    omega

theorem var_le {l : List K} (h : l ≠ []) (t : K) : l.length * varK l ≤ (l.map fun v => (v - t) ^ 2).sum := by
  rw [sum_sq_var h t]
  have : (0 : K) ≤ l.length * (l.sum / l.length - t) ^ 2 := by positivity
  linarith

/-- The bounds of a constant list. -/
theorem clip_constant (sigma : K) (n : Nat) {l : List K} {c : K} (h : l ≠ []) (hc : ∀ v ∈ l, v = c) : clipBounds sigma n l = (c, 0) := by
  have hf : (l.filter fun v => v = c) = l := by
    rw [List.filter_eq_self]
    simpa using hc
  have hm : medianK l = c := by
    apply median_majority
    rw [hf]
    have := List.length_pos_iff.2 h
    omega
  have hv : varK l = 0 := by
    have h1 := var_le h c
    have h2 : (l.map fun v => (v - c) ^ 2).sum = 0 := by
      apply List.sum_eq_zero
      intro x hx
      obtain ⟨v, hv, rfl⟩ := List.mem_map.1 hx
      rw [hc v hv, sub_self, zero_pow two_ne_zero]
    rw [h2] at h1
    have h3 := varK_nonneg l
    have h4 : (0 : K) < l.length := by exact_mod_cast List.length_pos_iff.2 h
    nlinarith
  cases n with
  | zero => rw [clipBounds, hm, hv, mul_zero]
  | succ n =>
    rw [clipBounds]
    rw [hm, hv, mul_zero]
    rw [if_pos]
    congr 1
    rw [List.filter_eq_self]
    intro v hv
    rw [hc v hv]
    simp

/-- The sum of squared distances from the background. -/
theorem sum_contaminated {l : List K} {c M : K} (hM : ∀ v ∈ l, v ≠ c → (v - c) ^ 2 ≤ M) :
    (l.map fun v => (v - c) ^ 2).sum ≤ ((l.filter fun v => v ≠ c).length : K) * M := by
  induction l with
  | nil => simp
  | cons v l ih =>
    have h1 := ih fun v hv => hM v (List.mem_cons_of_mem _ hv)
    rw [List.map_cons, List.sum_cons, List.filter_cons]
    by_cases hv : v = c
    · rw [if_neg (by simpa using hv), hv, sub_self, zero_pow two_ne_zero, zero_add]
      exact h1
    · rw [if_pos (by simpa using hv), List.length_cons]
      have h2 := hM v List.mem_cons_self hv
      push_cast
      linarith

/-- Contamination of similar strength is clipped completely, and nothing else is. -/
theorem clip_contaminated {sigma c h2 M : K} (hs : 2 ≤ sigma ^ 2) (hh : 0 < h2) (hhM : h2 ≤ M) {l : List K}
    (hl : ∀ v ∈ l, v ≠ c → h2 ≤ (v - c) ^ 2 ∧ (v - c) ^ 2 ≤ M)
    (hk : sigma ^ 2 * ((l.filter fun v => v ≠ c).length : K) * M < l.length * h2) (n : Nat) :
    ∀ v ∈ l, Within (clipBounds sigma (n + 1) l) v = decide (v = c) := by
  have hne : l ≠ [] := by
    rintro rfl
    simp at hk
  have hpos : (0 : K) < l.length := by exact_mod_cast List.length_pos_iff.2 hne
  have hsplit : l.length = (l.filter fun v => v = c).length + (l.filter fun v => v ≠ c).length := by
    have := List.length_eq_length_filter_add (l := l) fun v => decide (v = c)
    simp only [ne_eq, decide_not]
    omega
  have hmaj : l.length < 2 * (l.filter fun v => v = c).length := by
    have h1 : 2 * ((l.filter fun v => v ≠ c).length : K) * h2 < l.length * h2 := by
      refine lt_of_le_of_lt ?_ hk
      exact mul_le_mul (mul_le_mul_of_nonneg_right hs (Nat.cast_nonneg _)) hhM hh.le (by positivity)
    have h3 : 2 * ((l.filter fun v => v ≠ c).length : K) < l.length := lt_of_mul_lt_mul_right h1 hh.le
    have h4 : 2 * (l.filter fun v => v ≠ c).length < l.length := by exact_mod_cast h3
    omega
  have hm := median_majority hmaj
  have hvar : sigma ^ 2 * varK l < h2 := by
    have h1 := (var_le hne c).trans (sum_contaminated (M := M) fun v hv hc => (hl v hv hc).2)
    have h3 : l.length * (sigma ^ 2 * varK l) < l.length * h2 := by
      have := mul_le_mul_of_nonneg_left h1 (by positivity : 0 ≤ sigma ^ 2)
      linarith
    exact lt_of_mul_lt_mul_left h3 hpos.le
  have hin : ∀ v ∈ l, decide ((v - medianK l) ^ 2 ≤ sigma ^ 2 * varK l) = decide (v = c) := by
    intro v hv
    apply decide_eq_decide.2
    rw [hm]
    constructor
    · intro h
      by_contra hc
      have := (hl v hv hc).1
      linarith
    · rintro rfl
      rw [sub_self, zero_pow two_ne_zero]
      have := varK_nonneg l
      positivity
  have hf : (l.filter fun v => (v - medianK l) ^ 2 ≤ sigma ^ 2 * varK l) = l.filter fun v => v = c := List.filter_congr hin
  intro v hv
  rw [clipBounds]
  rw [hf]
  split
  · exact hin v hv
  · rw [clip_constant (c := c)]
    · unfold Within
      simp only
      apply decide_eq_decide.2
      constructor
      · intro h
        have := le_antisymm h (sq_nonneg _)
        exact sub_eq_zero.1 (pow_eq_zero_iff two_ne_zero |>.1 this)
      · rintro rfl
        simp
    · intro he
      rw [he] at hmaj
      simp at hmaj
    · intro v hv
      simpa using (List.mem_filter.1 hv).2

end Verif.Lemmas

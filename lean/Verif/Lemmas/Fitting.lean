import Verif.Spec.Fitting
import Verif.Lemmas.PSFModel
import Mathlib.LinearAlgebra.Matrix.ToLinearEquiv
import Mathlib.LinearAlgebra.Matrix.Determinant.Basic
import Mathlib.LinearAlgebra.Matrix.Notation
import Mathlib.Tactic.LinearCombination

/-!
# Selected pixels and least-squares planes
-/

set_option linter.unusedSectionVars false
set_option linter.unusedSimpArgs false

namespace Verif

open Spec

section pixels

theorem npWhere_mem {h w : Nat} {c : Nat → Nat → Bool} {p : Nat × Nat} :
    p ∈ npWhere h w c ↔ p.1 < h ∧ p.2 < w ∧ c p.1 p.2 = true := by
  unfold npWhere
  simp only [List.mem_flatMap, List.mem_range, List.mem_map, List.mem_filter]
  constructor
  · rintro ⟨i, hi, j, ⟨hj, hc⟩, rfl⟩; exact ⟨hi, hj, hc⟩
  · rintro ⟨h1, h2, h3⟩; exact ⟨p.1, h1, p.2, ⟨h2, h3⟩, rfl⟩

/-- The order of an image scan: by row, then by column. -/
def scanLt (p q : Nat × Nat) : Prop := p.1 < q.1 ∨ (p.1 = q.1 ∧ p.2 < q.2)

theorem npWhere_sorted (h w : Nat) (c : Nat → Nat → Bool) : (npWhere h w c).Pairwise scanLt := by
  unfold npWhere
  rw [List.pairwise_flatMap]
  constructor
  · intro i _
    rw [List.pairwise_map]
    exact ((List.pairwise_lt_range).filter _).imp fun h => Or.inr ⟨rfl, h⟩
  · refine List.pairwise_lt_range.imp ?_
    intro a b hab x hx y hy
    simp only [List.mem_map] at hx hy
    obtain ⟨_, _, rfl⟩ := hx
    obtain ⟨_, _, rfl⟩ := hy
    exact Or.inl hab

theorem npWhere_filter (h w : Nat) (c d : Nat → Nat → Bool) :
    (npWhere h w c).filter (fun p => d p.1 p.2) = npWhere h w (fun i j => c i j && d i j) := by
  unfold npWhere
  rw [List.filter_flatMap]
  apply List.flatMap_congr
  intro i _
  rw [List.filter_map, List.filter_filter]
  congr 1
  apply List.filter_congr
  intro j _
  simp [Bool.and_comm]

end pixels

variable {K : Type} [Field K] [LinearOrder K]

theorem zipWith_fst_snd {α : Type} (l : List (Nat × Nat)) (f : Nat → Nat → α) :
    List.zipWith (fun i j => f i j) (l.map (·.1)) (l.map (·.2)) = l.map fun p => f p.1 p.2 := by
  induction l with
  | nil => rfl
  | cons p t ih => simp only [List.map_cons, List.zipWith_cons_cons, ih]

/-- The pixels of an image that are neither NaN nor masked, row by row. -/
def keptPixels (im : Img (F K)) (mask : Nat → Nat → Bool) : List (Nat × Nat) :=
  npWhere im.h im.w fun i j => !(im.px i j).isNaN && !mask i j

theorem fitData_none (im : Img (F K)) (mask : Nat → Nat → Bool) :
    fitData im mask none = .ok (
      let idx := npWhere im.h im.w fun i j => !(im.px i j).isNaN
      ⟨idx.map (·.2), idx.map (·.1), idx.map fun p => im.px p.1 p.2, idx.map fun p => mask p.1 p.2, none⟩) := by
  unfold fitData
  simp only [zipWith_fst_snd]

/-- The points seen by a fitter: the kept pixels. -/
theorem fitPoints_fitData (im : Img (F K)) (mask : Nat → Nat → Bool) (val : Nat → Nat → K)
    (hv : ∀ p ∈ keptPixels im mask, im.px p.1 p.2 = .fin (val p.1 p.2)) (d : FitData K) (hd : fitData im mask none = .ok d) :
    d.w = none ∧ fitPoints d = some ((keptPixels im mask).map fun p => ⟨(p.2 : K), (p.1 : K), val p.1 p.2⟩) := by
  rw [fitData_none] at hd
  simp only [Except.ok.injEq] at hd
  subst hd
  refine ⟨rfl, ?_⟩
  unfold fitPoints keptPixels at *
  simp only
  rw [← npWhere_filter im.h im.w (fun i j => !(im.px i j).isNaN) (fun i j => !mask i j)] at hv ⊢
  generalize (npWhere im.h im.w fun i j => !(im.px i j).isNaN) = l at *
  induction l with
  | nil => rfl
  | cons p t ih =>
    simp only [List.map_cons, List.zip_cons_cons]
    by_cases hm : mask p.1 p.2 = true
    · rw [List.filter_cons_of_neg (by simp [hm]), List.filter_cons_of_neg (by simp [hm])]
      exact ih fun q hq => hv q (by rw [List.filter_cons_of_neg (by simp [hm])]; exact hq)
    · have hm' : mask p.1 p.2 = false := by simpa using hm
      rw [List.filter_cons_of_pos (by simp [hm']), List.filter_cons_of_pos (by simp [hm'])]
      rw [List.mapM_cons, ih fun q hq => hv q (by rw [List.filter_cons_of_pos (by simp [hm'])]; exact List.mem_cons_of_mem _ hq)]
      have := hv p (by rw [List.filter_cons_of_pos (by simp [hm'])]; exact List.mem_cons_self)
      simp [this]

variable [IsStrictOrderedRing K]

theorem chi2_nonneg (p : Plane K) (pts : List (Point K)) : 0 ≤ chi2 p pts := by
  unfold chi2
  apply List.sum_nonneg
  intro x hx
  obtain ⟨d, _, rfl⟩ := List.mem_map.1 hx
  exact sq_nonneg _

theorem chi2_zero {p : Plane K} {pts : List (Point K)} : chi2 p pts = 0 ↔ ∀ d ∈ pts, p.at_ d.x d.y = d.z := by
  unfold chi2
  induction pts with
  | nil => simp
  | cons d t ih =>
    rw [List.map_cons, List.sum_cons]
    have h1 : (0 : K) ≤ (t.map fun d => (p.at_ d.x d.y - d.z) ^ 2).sum := chi2_nonneg p t
    have h2 := sq_nonneg (p.at_ d.x d.y - d.z)
    constructor
    · intro h
      have e1 : (p.at_ d.x d.y - d.z) ^ 2 = 0 := by linarith
      have e2 : (t.map fun d => (p.at_ d.x d.y - d.z) ^ 2).sum = 0 := by linarith
      intro e he
      rcases List.mem_cons.1 he with rfl | he
      · exact sub_eq_zero.1 (pow_eq_zero_iff (by norm_num) |>.1 e1)
      · exact ih.1 e2 e he
    · intro h
      rw [ih.2 fun e he => h e (List.mem_cons_of_mem _ he), h d List.mem_cons_self]
      ring

/-- A plane that vanishes at three points that are not on a line is zero. -/
theorem plane_zero {p : Plane K} {pts : List (Point K)} (hs : Spread pts) (h : ∀ d ∈ pts, p.at_ d.x d.y = 0) : p = ⟨0, 0, 0⟩ := by
  obtain ⟨u, hu, v, hv, w, hw, hd⟩ := hs
  have h1 := h u hu
  have h2 := h v hv
  have h3 := h w hw
  unfold Plane.at_ at h1 h2 h3
  have ha : p.a = 0 := by
    have : p.a * ((v.x - u.x) * (w.y - u.y) - (w.x - u.x) * (v.y - u.y)) = 0 := by
      linear_combination (w.y - u.y) * (h2 - h1) - (v.y - u.y) * (h3 - h1)
    exact (mul_eq_zero.1 this).resolve_right hd
  have hb : p.b = 0 := by
    have : p.b * ((v.x - u.x) * (w.y - u.y) - (w.x - u.x) * (v.y - u.y)) = 0 := by
      linear_combination (v.x - u.x) * (h3 - h1) - (w.x - u.x) * (h2 - h1)
    exact (mul_eq_zero.1 this).resolve_right hd
  have hc : p.c = 0 := by rw [ha, hb] at h1; linarith
  ext <;> assumption

theorem plane_unique {p q : Plane K} {pts : List (Point K)} (hs : Spread pts) (h : ∀ d ∈ pts, p.at_ d.x d.y = q.at_ d.x d.y) : p = q := by
  have := plane_zero (p := ⟨p.a - q.a, p.b - q.b, p.c - q.c⟩) hs (fun d hd => by
    have := h d hd
    unfold Plane.at_ at this ⊢
    linear_combination this)
  injection this with h1 h2 h3
  ext
  · exact sub_eq_zero.1 h1
  · exact sub_eq_zero.1 h2
  · exact sub_eq_zero.1 h3

/-- The midpoint of two planes has a smaller sum of squares. -/
theorem chi2_mid (p q : Plane K) (pts : List (Point K)) :
    chi2 ⟨(p.a + q.a) / 2, (p.b + q.b) / 2, (p.c + q.c) / 2⟩ pts =
      (chi2 p pts + chi2 q pts) / 2 - (pts.map fun d => (p.at_ d.x d.y - q.at_ d.x d.y) ^ 2).sum / 4 := by
  unfold chi2
  induction pts with
  | nil => simp
  | cons d t ih =>
    simp only [List.map_cons, List.sum_cons]
    rw [ih]
    unfold Plane.at_
    ring

/-- A least-squares plane is unique. -/
theorem lsq_unique {p q : Plane K} {pts : List (Point K)} (hs : Spread pts) (hp : IsLsq p pts) (hq : IsLsq q pts) : p = q := by
  apply plane_unique hs
  have h1 := hp ⟨(p.a + q.a) / 2, (p.b + q.b) / 2, (p.c + q.c) / 2⟩
  have h2 := hp q
  have h3 := hq p
  rw [chi2_mid] at h1
  have h4 : (pts.map fun d => (p.at_ d.x d.y - q.at_ d.x d.y) ^ 2).sum ≤ 0 := by linarith
  have h5 : chi2 p (pts.map fun d => ⟨d.x, d.y, q.at_ d.x d.y⟩) = 0 := by
    apply le_antisymm _ (chi2_nonneg _ _)
    unfold chi2
    rw [List.map_map]
    exact h4
  intro d hd
  exact chi2_zero.1 h5 ⟨d.x, d.y, q.at_ d.x d.y⟩ (List.mem_map_of_mem hd)

theorem lsq_exact {p : Plane K} {pts : List (Point K)} (h : ∀ d ∈ pts, d.z = p.at_ d.x d.y) : IsLsq p pts := by
  intro q
  rw [chi2_zero.2 fun d hd => (h d hd).symm]
  exact chi2_nonneg _ _

theorem lsq_shift {p q : Plane K} {pts : List (Point K)} (h : IsLsq p pts) :
    IsLsq (p.add q) (pts.map fun d => ⟨d.x, d.y, d.z + q.at_ d.x d.y⟩) := by
  have key : ∀ r : Plane K, chi2 r (pts.map fun d => ⟨d.x, d.y, d.z + q.at_ d.x d.y⟩) = chi2 ⟨r.a - q.a, r.b - q.b, r.c - q.c⟩ pts := by
    intro r
    unfold chi2
    rw [List.map_map]
    congr 1
    apply List.map_congr_left
    intro d _
    simp only [Function.comp, Plane.at_]
    ring
  intro r
  rw [key, key]
  have : (⟨(p.add q).a - q.a, (p.add q).b - q.b, (p.add q).c - q.c⟩ : Plane K) = p := by
    ext <;> simp [Plane.add]
  rw [this]
  exact h _

/-! ### A fitter: Cramer's rule for the normal equations -/

/-- Sum of a function over the points. -/
def sumOver (pts : List (Point K)) (f : Point K → K) : K := (pts.map f).sum

/-- The determinant of the normal equations. -/
def normalDet (pts : List (Point K)) : K :=
  let s := sumOver pts
  let xx := s fun d => d.x * d.x
  let xy := s fun d => d.x * d.y
  let yy := s fun d => d.y * d.y
  let x := s fun d => d.x
  let y := s fun d => d.y
  let n := s fun _ => 1
  xx * (yy * n - y * y) - xy * (xy * n - y * x) + x * (xy * y - yy * x)

/-- The solution of the normal equations. -/
def normalPlane (pts : List (Point K)) : Plane K :=
  let s := sumOver pts
  let xx := s fun d => d.x * d.x
  let xy := s fun d => d.x * d.y
  let yy := s fun d => d.y * d.y
  let x := s fun d => d.x
  let y := s fun d => d.y
  let n := s fun _ => 1
  let xz := s fun d => d.x * d.z
  let yz := s fun d => d.y * d.z
  let z := s fun d => d.z
  let D := normalDet pts
  ⟨(xz * (yy * n - y * y) - xy * (yz * n - y * z) + x * (yz * y - yy * z)) / D,
   (xx * (yz * n - y * z) - xz * (xy * n - y * x) + x * (xy * z - yz * x)) / D,
   (xx * (yy * z - yz * y) - xy * (xy * z - yz * x) + xz * (xy * y - yy * x)) / D⟩

/-- A linear fitter. -/
def normalFitter : Plane K → FitData K → Except PyErr (Plane K) := fun _ d =>
  match fitPoints d with
  | none => .error .exception
  | some pts => .ok (normalPlane pts)

theorem quadForm (a b c : K) (pts : List (Point K)) :
    (pts.map fun d => (a * d.x + b * d.y + c) ^ 2).sum =
      a * (a * sumOver pts (fun d => d.x * d.x) + b * sumOver pts (fun d => d.x * d.y) + c * sumOver pts fun d => d.x) +
      b * (a * sumOver pts (fun d => d.x * d.y) + b * sumOver pts (fun d => d.y * d.y) + c * sumOver pts fun d => d.y) +
      c * (a * sumOver pts (fun d => d.x) + b * sumOver pts (fun d => d.y) + c * sumOver pts fun _ => 1) := by
  unfold sumOver
  induction pts with
  | nil => simp
  | cons d t ih => simp only [List.map_cons, List.sum_cons, ih]; ring

theorem normalDet_ne {pts : List (Point K)} (hs : Spread pts) : normalDet pts ≠ 0 := by
  intro h0
  let M : Matrix (Fin 3) (Fin 3) K :=
    !![sumOver pts (fun d => d.x * d.x), sumOver pts (fun d => d.x * d.y), sumOver pts (fun d => d.x);
       sumOver pts (fun d => d.x * d.y), sumOver pts (fun d => d.y * d.y), sumOver pts (fun d => d.y);
       sumOver pts (fun d => d.x), sumOver pts (fun d => d.y), sumOver pts (fun _ => 1)]
  have hdet : M.det = 0 := by
    rw [Matrix.det_fin_three]
    simp only [M, Matrix.of_apply, Matrix.cons_val', Matrix.cons_val_zero, Matrix.cons_val_one, Matrix.cons_val]
    rw [← h0]; unfold normalDet; ring
  obtain ⟨v, hv, hMv⟩ := Matrix.exists_mulVec_eq_zero_iff.2 hdet
  have e0 := congrFun hMv 0
  have e1 := congrFun hMv 1
  have e2 := congrFun hMv 2
  simp only [M, Matrix.mulVec, dotProduct, Fin.sum_univ_three, Matrix.of_apply, Matrix.cons_val', Matrix.cons_val_zero,
    Matrix.cons_val_one, Matrix.cons_val, Pi.zero_apply] at e0 e1 e2
  have hq : (pts.map fun d => (v 0 * d.x + v 1 * d.y + v 2) ^ 2).sum = 0 := by
    rw [quadForm]
    linear_combination v 0 * e0 + v 1 * e1 + v 2 * e2
  have hp : chi2 (⟨v 0, v 1, v 2⟩ : Plane K) (pts.map fun d => ⟨d.x, d.y, 0⟩) = 0 := by
    unfold chi2
    rw [List.map_map]
    refine Eq.trans ?_ hq
    congr 1
    apply List.map_congr_left
    intro d _
    simp [Plane.at_]
  have hz := plane_zero (p := ⟨v 0, v 1, v 2⟩) hs fun d hd => chi2_zero.1 hp ⟨d.x, d.y, 0⟩ (List.mem_map_of_mem hd)
  injection hz with h1 h2 h3
  apply hv
  funext k
  fin_cases k <;> assumption

theorem chi2_expand (p q : Plane K) (pts : List (Point K)) :
    chi2 q pts = chi2 p pts + (pts.map fun d => ((q.a - p.a) * d.x + (q.b - p.b) * d.y + (q.c - p.c)) ^ 2).sum +
      2 * ((q.a - p.a) * (p.a * sumOver pts (fun d => d.x * d.x) + p.b * sumOver pts (fun d => d.x * d.y) +
              p.c * sumOver pts (fun d => d.x) - sumOver pts fun d => d.x * d.z) +
           (q.b - p.b) * (p.a * sumOver pts (fun d => d.x * d.y) + p.b * sumOver pts (fun d => d.y * d.y) +
              p.c * sumOver pts (fun d => d.y) - sumOver pts fun d => d.y * d.z) +
           (q.c - p.c) * (p.a * sumOver pts (fun d => d.x) + p.b * sumOver pts (fun d => d.y) +
              p.c * sumOver pts (fun _ => 1) - sumOver pts fun d => d.z)) := by
  unfold chi2 sumOver
  induction pts with
  | nil => simp
  | cons d t ih =>
    simp only [List.map_cons, List.sum_cons]
    have hq' : q.at_ d.x d.y = q.a * d.x + q.b * d.y + q.c := rfl
    have hp' : p.at_ d.x d.y = p.a * d.x + p.b * d.y + p.c := rfl
    rw [ih, hq', hp']
    ring

/-- The solution of the normal equations is a least-squares plane. -/
theorem normalPlane_lsq {pts : List (Point K)} (hs : Spread pts) : IsLsq (normalPlane pts) pts := by
  have hD := normalDet_ne hs
  intro q
  rw [chi2_expand (normalPlane pts) q]
  have hnn : (0 : K) ≤ (pts.map fun d => ((q.a - (normalPlane pts).a) * d.x + (q.b - (normalPlane pts).b) * d.y +
      (q.c - (normalPlane pts).c)) ^ 2).sum := by
    apply List.sum_nonneg
    intro x hx
    obtain ⟨d, _, rfl⟩ := List.mem_map.1 hx
    exact sq_nonneg _
  have key : ∀ xx xy yy x y n xz yz z : K,
      xx * (yy * n - y * y) - xy * (xy * n - y * x) + x * (xy * y - yy * x) ≠ 0 →
      (xz * (yy * n - y * y) - xy * (yz * n - y * z) + x * (yz * y - yy * z)) /
          (xx * (yy * n - y * y) - xy * (xy * n - y * x) + x * (xy * y - yy * x)) * xx +
        (xx * (yz * n - y * z) - xz * (xy * n - y * x) + x * (xy * z - yz * x)) /
          (xx * (yy * n - y * y) - xy * (xy * n - y * x) + x * (xy * y - yy * x)) * xy +
        (xx * (yy * z - yz * y) - xy * (xy * z - yz * x) + xz * (xy * y - yy * x)) /
          (xx * (yy * n - y * y) - xy * (xy * n - y * x) + x * (xy * y - yy * x)) * x - xz = 0 ∧
      (xz * (yy * n - y * y) - xy * (yz * n - y * z) + x * (yz * y - yy * z)) /
          (xx * (yy * n - y * y) - xy * (xy * n - y * x) + x * (xy * y - yy * x)) * xy +
        (xx * (yz * n - y * z) - xz * (xy * n - y * x) + x * (xy * z - yz * x)) /
          (xx * (yy * n - y * y) - xy * (xy * n - y * x) + x * (xy * y - yy * x)) * yy +
        (xx * (yy * z - yz * y) - xy * (xy * z - yz * x) + xz * (xy * y - yy * x)) /
          (xx * (yy * n - y * y) - xy * (xy * n - y * x) + x * (xy * y - yy * x)) * y - yz = 0 ∧
      (xz * (yy * n - y * y) - xy * (yz * n - y * z) + x * (yz * y - yy * z)) /
          (xx * (yy * n - y * y) - xy * (xy * n - y * x) + x * (xy * y - yy * x)) * x +
        (xx * (yz * n - y * z) - xz * (xy * n - y * x) + x * (xy * z - yz * x)) /
          (xx * (yy * n - y * y) - xy * (xy * n - y * x) + x * (xy * y - yy * x)) * y +
        (xx * (yy * z - yz * y) - xy * (xy * z - yz * x) + xz * (xy * y - yy * x)) /
          (xx * (yy * n - y * y) - xy * (xy * n - y * x) + x * (xy * y - yy * x)) * n - z = 0 := by
    intro xx xy yy x y n xz yz z h
    refine ⟨?_, ?_, ?_⟩
    all_goals (rw [div_mul_eq_mul_div, div_mul_eq_mul_div, div_mul_eq_mul_div, ← add_div, ← add_div, sub_eq_zero, div_eq_iff h]; ring)
  obtain ⟨k1, k2, k3⟩ := key (sumOver pts fun d => d.x * d.x) (sumOver pts fun d => d.x * d.y) (sumOver pts fun d => d.y * d.y)
    (sumOver pts fun d => d.x) (sumOver pts fun d => d.y) (sumOver pts fun _ => 1) (sumOver pts fun d => d.x * d.z)
    (sumOver pts fun d => d.y * d.z) (sumOver pts fun d => d.z) hD
  have e1 : (normalPlane pts).a * sumOver pts (fun d => d.x * d.x) + (normalPlane pts).b * sumOver pts (fun d => d.x * d.y) +
      (normalPlane pts).c * sumOver pts (fun d => d.x) - sumOver pts (fun d => d.x * d.z) = 0 := k1
  have e2 : (normalPlane pts).a * sumOver pts (fun d => d.x * d.y) + (normalPlane pts).b * sumOver pts (fun d => d.y * d.y) +
      (normalPlane pts).c * sumOver pts (fun d => d.y) - sumOver pts (fun d => d.y * d.z) = 0 := k2
  have e3 : (normalPlane pts).a * sumOver pts (fun d => d.x) + (normalPlane pts).b * sumOver pts (fun d => d.y) +
      (normalPlane pts).c * sumOver pts (fun _ => 1) - sumOver pts (fun d => d.z) = 0 := k3
  rw [e1, e2, e3]
  linarith

/-- The contract of the fitter has an instance. -/
theorem normalFitter_law : LinearFitter (normalFitter (K := K)) := by
  intro m d pts _ hp hs
  refine ⟨normalPlane pts, ?_, normalPlane_lsq hs⟩
  unfold normalFitter
  rw [hp]

end Verif

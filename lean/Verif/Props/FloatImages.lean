import Verif.Model.RoundingEvaluate
import Verif.Props.FitRobust
import Verif.Props.RoundingModel
import Verif.Props.PhotometryUnits
import Verif.Lemmas.PairwiseSum

/-!
# C180: model images in floating point

`evaluate` computes grids, samples, block means, the rotation of the PSF and the convolution in floats. Its values differ from the exact ones by no more than a bound that
adds up the errors of the single steps, whatever the settings.
-/

set_option linter.unusedSectionVars false
set_option linter.unusedVariables false

namespace Verif.Spec

open Verif PSFModel

/-- The sum of the absolute values of a PSF. -/
noncomputable def absTotal (Q : Img ℝ) : ℝ := ∑ a ∈ Finset.range Q.h, ∑ b ∈ Finset.range Q.w, |Q.px a b|

/-- What is known about the arithmetic for arrays of at most `L` entries along each axis: rounding has the relative error `u` and leaves half-integers alone, sums have an error of at
most `γ` times the sum of the absolute values (in whatever order numpy adds), and convolutions one of at most `κ` times the largest value of the image and the absolute
total of the PSF (with whatever method scipy computes them). -/
structure FloatLaw (L : Nat) (u γ κ : ℝ) (ops : FloatOps ℝ) : Prop where
  relErr : RelErr u ops.fl
  halves : ∀ k : ℤ, |k| ≤ L → ops.fl ((k : ℝ) / 2) = k / 2
  sum : ∀ l : List ℝ, l.length ≤ L → |ops.sum l - l.sum| ≤ γ * (l.map abs).sum
  shape : ∀ im Q, (ops.conv im Q).h = im.h ∧ (ops.conv im Q).w = im.w
  conv : ∀ (im Q : Img ℝ) (G : ℝ), im.h ≤ L → im.w ≤ L → Q.h ≤ L → Q.w ≤ L → (∀ i < im.h, ∀ j < im.w, |im.px i j| ≤ G) →
    ∀ i < im.h, ∀ j < im.w, |(ops.conv im Q).px i j - convAt Q im.zeroPad i j| ≤ κ * G * absTotal Q

/-- The wrapped model is computed with an error of at most `η` at points that are off by at most `ξ`, not farther than `2 L` from the origin. -/
def SampledUpTo (L : Nat) (ξ η : ℝ) (S' S : SubModel ℝ) (params : List ℝ) : Prop :=
  ∀ x y x' y' : ℝ, |x| ≤ 2 * L → |y| ≤ 2 * L → |x' - x| ≤ ξ → |y' - y| ≤ ξ → |S'.eval params x' y' - S.eval params x y| ≤ η

/-- The PSFs have the same shape and differ by at most `ζ` in the sum over their pixels. -/
structure PsfUpTo (L : Nat) (ζ : ℝ) (Q' Q : Img ℝ) : Prop where
  height : Q'.h = Q.h
  width : Q'.w = Q.w
  small : Q.h ≤ L ∧ Q.w ≤ L
  near : ∑ a ∈ Finset.range Q.h, ∑ b ∈ Finset.range Q.w, |Q'.px a b - Q.px a b| ≤ ζ

/-- Error of a mean over a block of numbers up to `B` that have errors of `η`. -/
def meanErr (u γ B η : ℝ) : ℝ := η + γ * (B + η) + u * (B + (η + γ * (B + η)))

/-- Error of a convolution of an image with values up to `B` that have errors of `η`, with a PSF of the absolute total `P` known up to `ζ`. -/
def convErr (κ ζ P B η : ℝ) : ℝ := (P + ζ) * (κ * (B + η) + η) + ζ * B

/-- Error of a model image. -/
def imageErr (u γ κ ζ P B η : ℝ) : ℝ := meanErr u γ (P * B) (convErr κ ζ P B (meanErr u γ B η))

/-- The model `M'` of the float computation has the settings of `M`, and the PSF it convolves with at the angle `pa` is that of `M` up to `ζ`; its absolute total is at most `P`. -/
structure FloatModel (L : Nat) (ζ P : ℝ) (ops : FloatOps ℝ) (rot : Img ℝ → ℝ → Img ℝ) (pa : ℝ) (M' M : PSFModel ℝ) : Prop where
  oversample : M'.oversample = M.oversample
  psfOversample : M'.psfOversample = M.psfOversample
  names : M'.sub.paramNames = M.sub.paramNames
  noPsf : M.psf = none → M'.psf = none
  psf : ∀ psf, M.psf = some psf → ∃ psf', M'.psf = some psf' ∧ PsfUpTo L ζ (kernel ops.rot psf' pa) (kernel rot psf pa) ∧ absTotal (kernel rot psf pa) ≤ P

/-- The arrays of a call with these settings, on an image of `h × w` pixels, are small enough for `FloatLaw L`. -/
structure FitsIn (L h w : Nat) (M : PSFModel ℝ) (params : List ℝ) : Prop where
  grid : 2 * ((h + w) * M.gridFactor) + 3 ≤ L
  blocks : (M.gridFactor / M.psfFactor) * (M.gridFactor / M.psfFactor) ≤ L
  psfBlocks : M.psfFactor * M.psfFactor ≤ L
  window : ∀ x y size f, M.oversample = .window x y size f → ∃ s : Nat, size = s ∧ 2 * (s * f) + 3 ≤ L ∧ (f / M.psfFactor) * (f / M.psfFactor) ≤ L ∧
    ∀ v, centerValue M.sub params x = .ok v ∨ centerValue M.sub params y = .ok v → 2 * (|rint v| + s) ≤ L

end Verif.Spec

namespace Verif.Props

open Verif F Verif.Spec Lemmas PSFModel

/-! ### Images that are near each other -/

/-- Images of the same shape whose values differ by at most `η`. -/
structure NearImg (η : ℝ) (a b : Img ℝ) : Prop where
  h : a.h = b.h
  w : a.w = b.w
  px : ∀ i < b.h, ∀ j < b.w, |a.px i j - b.px i j| ≤ η

/-- The values of the image are at most `B`. -/
def BoundImg (B : ℝ) (b : Img ℝ) : Prop := ∀ i < b.h, ∀ j < b.w, |b.px i j| ≤ B

theorem NearImg.mono {η η' : ℝ} {a b : Img ℝ} (h : NearImg η a b) (hη : η ≤ η') : NearImg η' a b :=
  ⟨h.h, h.w, fun i hi j hj => (h.px i hi j hj).trans hη⟩

theorem NearImg.bound {η B : ℝ} {a b : Img ℝ} (h : NearImg η a b) (hb : BoundImg B b) : ∀ i < a.h, ∀ j < a.w, |a.px i j| ≤ B + η := by
  intro i hi j hj
  rw [h.h] at hi
  rw [h.w] at hj
  have h1 := h.px i hi j hj
  have h2 := hb i hi j hj
  have h3 : |a.px i j| ≤ |b.px i j| + |a.px i j - b.px i j| := by
    have := abs_add_le (b.px i j) (a.px i j - b.px i j)
    rwa [add_sub_cancel] at this
  linarith

/-- The two calls return images near each other or raise the same exception. -/
def CloseImg (η : ℝ) : Except PyErr (Img ℝ) → Except PyErr (Img ℝ) → Prop
  | .ok a, .ok b => NearImg η a b
  | .error e, .error e' => e = e'
  | _, _ => False

theorem abs_sum_le_list : ∀ l : List ℝ, |l.sum| ≤ (l.map abs).sum
  | [] => by simp
  | a :: l => by
    rw [List.map_cons, List.sum_cons, List.sum_cons]
    exact (abs_add_le _ _).trans (add_le_add le_rfl (abs_sum_le_list l))

theorem abs_sum_bound {l : List ℝ} {B : ℝ} (h : ∀ x ∈ l, |x| ≤ B) : (l.map abs).sum ≤ l.length * B := by
  induction l with
  | nil => simp
  | cons a l ih =>
    rw [List.map_cons, List.sum_cons, List.length_cons]
    have h1 := h a (List.mem_cons_self ..)
    have h2 := ih fun x hx => h x (List.mem_cons_of_mem _ hx)
    push_cast
    linarith

theorem sum_near : ∀ {l l' : List ℝ} {η : ℝ}, List.Forall₂ (fun x y => |x - y| ≤ η) l' l → |l'.sum - l.sum| ≤ l.length * η
  | [], _, η, .nil => by simp
  | a :: l, a' :: l', η, .cons h1 h2 => by
    have h3 := sum_near h2
    rw [List.sum_cons, List.sum_cons, List.length_cons]
    have h4 := abs_add_le (a' - a) (l'.sum - l.sum)
    push_cast
    rw [add_sub_add_comm]
    linarith

section
variable {L : Nat} {u γ κ : ℝ} {ops : FloatOps ℝ}

/-- The mean of a block. -/
theorem NearImg.blockMean (law : FloatLaw L u γ κ ops) (hu : 0 ≤ u) (hγ : 0 ≤ γ) {B η : ℝ} (hB : 0 ≤ B) (hη : 0 ≤ η) {a b : Img ℝ} (H : NearImg η a b)
    (hb : BoundImg B b) {f : Nat} (hf : 0 < f) (hL : f * f ≤ L) :
    NearImg (meanErr u γ B η) (blockMeanFl ops a f) ((blockReduce b f).divBy ((f : ℝ) ^ 2)) ∧ BoundImg B ((blockReduce b f).divBy ((f : ℝ) ^ 2)) := by
  have hf' : (0 : ℝ) < (f : ℝ) ^ 2 := by positivity
  have inside : ∀ {i c n : Nat}, i < n / f → c < f → i * f + c < n := fun {i c n} hi hc => by
    have h1 : (i + 1) * f ≤ n := (Nat.le_div_iff_mul_le hf).1 hi
    have h2 : (i + 1) * f = i * f + f := by ring
    omega
  have hlist : ∀ (im : Img ℝ) (i j : Nat), (blockReduce im f).px i j =
      ((List.range f).flatMap fun x => (List.range f).map fun y => im.px (i * f + x) (j * f + y)).sum := by
    intro im i j
    rw [List.flatMap_def, List.sum_flatten, List.map_map]
    rfl
  have hlen : ∀ (im : Img ℝ) (i j : Nat), ((List.range f).flatMap fun x => (List.range f).map fun y => im.px (i * f + x) (j * f + y)).length = f * f := by
    intro im i j
    simp [List.length_flatMap]
  have key : ∀ i < b.h / f, ∀ j < b.w / f, |(blockReduce b f).px i j / (f : ℝ) ^ 2| ≤ B ∧
      |(blockMeanFl ops a f).px i j - (blockReduce b f).px i j / (f : ℝ) ^ 2| ≤ meanErr u γ B η := by
    intro i hi j hj
    set lb := (List.range f).flatMap fun x => (List.range f).map fun y => b.px (i * f + x) (j * f + y) with hlb
    set la := (List.range f).flatMap fun x => (List.range f).map fun y => a.px (i * f + x) (j * f + y) with hla
    have b1 : ∀ x ∈ lb, |x| ≤ B := by
      intro x hx
      simp only [hlb, List.mem_flatMap, List.mem_map, List.mem_range] at hx
      obtain ⟨c, hc, d, hd, rfl⟩ := hx
      exact hb _ (inside hi hc) _ (inside hj hd)
    have b2 : ∀ x ∈ la, |x| ≤ B + η := by
      intro x hx
      simp only [hla, List.mem_flatMap, List.mem_map, List.mem_range] at hx
      obtain ⟨c, hc, d, hd, rfl⟩ := hx
      exact H.bound hb _ (by rw [H.h]; exact inside hi hc) _ (by rw [H.w]; exact inside hj hd)
    have hla' : (la.length : ℝ) = (f : ℝ) ^ 2 := by rw [hla, hlen]; push_cast; ring
    have hlb' : (lb.length : ℝ) = (f : ℝ) ^ 2 := by rw [hlb, hlen]; push_cast; ring
    have b3 : List.Forall₂ (fun x y => |x - y| ≤ η) la lb := by
      have hr : List.Forall₂ (fun x y : Nat => x = y ∧ x < f) (List.range f) (List.range f) :=
        List.forall₂_same.2 fun x hx => ⟨rfl, List.mem_range.1 hx⟩
      refine List.rel_flatMap hr fun x y hxy => ?_
      obtain ⟨rfl, hx⟩ := hxy
      rw [List.forall₂_map_left_iff, List.forall₂_map_right_iff]
      refine List.forall₂_same.2 fun y hy => H.px _ (inside hi hx) _ (inside hj (List.mem_range.1 hy))
    have c1 := abs_sum_bound b1
    have c2 := abs_sum_bound b2
    have c3 := sum_near b3
    have c4 := law.sum la (by rw [hla, hlen]; exact hL)
    have c5 := abs_sum_le_list lb
    rw [hla'] at c2
    rw [hlb'] at c1 c3
    have d1 : |lb.sum / (f : ℝ) ^ 2| ≤ B := by
      rw [abs_div, abs_of_pos hf', div_le_iff₀ hf']
      linarith
    have d2 : |ops.sum la / (f : ℝ) ^ 2 - lb.sum / (f : ℝ) ^ 2| ≤ η + γ * (B + η) := by
      rw [← sub_div, abs_div, abs_of_pos hf', div_le_iff₀ hf']
      have := abs_sub_le (ops.sum la) la.sum lb.sum
      have e := mul_le_mul_of_nonneg_left c2 hγ
      linarith
    rw [hlist]
    refine ⟨d1, ?_⟩
    show |ops.fl (ops.sum la / (f : ℝ) ^ 2) - lb.sum / (f : ℝ) ^ 2| ≤ _
    have d3 := law.relErr (ops.sum la / (f : ℝ) ^ 2)
    have d4 : |ops.sum la / (f : ℝ) ^ 2| ≤ B + (η + γ * (B + η)) := by
      have := abs_add_le (lb.sum / (f : ℝ) ^ 2) (ops.sum la / (f : ℝ) ^ 2 - lb.sum / (f : ℝ) ^ 2)
      rw [add_sub_cancel] at this
      linarith
    have d5 := abs_sub_le (ops.fl (ops.sum la / (f : ℝ) ^ 2)) (ops.sum la / (f : ℝ) ^ 2) (lb.sum / (f : ℝ) ^ 2)
    have d6 := mul_le_mul_of_nonneg_left d4 hu
    unfold meanErr
    linarith
  refine ⟨⟨?_, ?_, fun i hi j hj => (key i hi j hj).2⟩, fun i hi j hj => (key i hi j hj).1⟩
  · show a.h / f = b.h / f
    rw [H.h]
  · show a.w / f = b.w / f
    rw [H.w]

/-- A convolution. -/
theorem NearImg.conv (law : FloatLaw L u γ κ ops) (hκ : 0 ≤ κ) {ζ P B η : ℝ} (hζ : 0 ≤ ζ) (hB : 0 ≤ B) (hη : 0 ≤ η) {a b Q Q' : Img ℝ}
    (H : NearImg η a b) (hb : BoundImg B b) (hL : b.h ≤ L ∧ b.w ≤ L) (hQ : PsfUpTo L ζ Q' Q) (hP : absTotal Q ≤ P) :
    NearImg (convErr κ ζ P B η) (ops.conv a Q') (convolveSame b Q) ∧ BoundImg (P * B) (convolveSame b Q) := by
  have hconv : ∀ i j : Nat, (convolveSame b Q).px i j = convAt Q b.zeroPad i j := fun i j => by
    rw [convolveSame_px]
    rfl
  have hpad : ∀ i j : Int, |b.zeroPad i j| ≤ B := by
    intro i j
    unfold Img.zeroPad
    split_ifs with h
    · exact hb _ (by omega) _ (by omega)
    · simpa using hB
  have hdiff : ∀ i j : Int, |a.zeroPad i j - b.zeroPad i j| ≤ η := by
    intro i j
    unfold Img.zeroPad
    rw [H.h, H.w]
    split_ifs with h
    · exact H.px _ (by omega) _ (by omega)
    · simpa using hη
  have hQ' : absTotal Q' ≤ P + ζ := by
    refine le_trans ?_ (add_le_add hP hQ.near)
    unfold absTotal
    rw [hQ.height, hQ.width, ← Finset.sum_add_distrib]
    refine Finset.sum_le_sum fun c _ => ?_
    rw [← Finset.sum_add_distrib]
    refine Finset.sum_le_sum fun d _ => ?_
    have := abs_add_le (Q.px c d) (Q'.px c d - Q.px c d)
    rwa [add_sub_cancel] at this
  have hQ0 : 0 ≤ absTotal Q' := Finset.sum_nonneg fun _ _ => Finset.sum_nonneg fun _ _ => abs_nonneg _
  have hlin : ∀ (R : Img ℝ) (T T' : Int → Int → ℝ) (e : ℝ) (i j : Int), (∀ r s, |T' r s - T r s| ≤ e) → |convAt R T' i j - convAt R T i j| ≤ absTotal R * e := by
    intro R T T' e i j hT
    unfold convAt absTotal
    rw [← Finset.sum_sub_distrib, Finset.sum_mul]
    refine (Finset.abs_sum_le_sum_abs _ _).trans (Finset.sum_le_sum fun c _ => ?_)
    rw [← Finset.sum_sub_distrib, Finset.sum_mul]
    refine (Finset.abs_sum_le_sum_abs _ _).trans (Finset.sum_le_sum fun d _ => ?_)
    rw [← mul_sub, abs_mul]
    exact mul_le_mul_of_nonneg_left (hT _ _) (abs_nonneg _)
  have hker : ∀ i j : Int, |convAt Q' b.zeroPad i j - convAt Q b.zeroPad i j| ≤ ζ * B := by
    intro i j
    refine le_trans ?_ (mul_le_mul_of_nonneg_right hQ.near hB)
    unfold convAt
    rw [hQ.height, hQ.width, ← Finset.sum_sub_distrib, Finset.sum_mul]
    refine (Finset.abs_sum_le_sum_abs _ _).trans (Finset.sum_le_sum fun c _ => ?_)
    rw [← Finset.sum_sub_distrib, Finset.sum_mul]
    refine (Finset.abs_sum_le_sum_abs _ _).trans (Finset.sum_le_sum fun d _ => ?_)
    rw [← sub_mul, abs_mul]
    exact mul_le_mul_of_nonneg_left (hpad _ _) (abs_nonneg _)
  have hQL : Q'.h ≤ L ∧ Q'.w ≤ L := by
    rw [hQ.height, hQ.width]
    exact hQ.small
  refine ⟨⟨(law.shape a Q').1.trans H.h, (law.shape a Q').2.trans H.w, fun i hi j hj => ?_⟩, fun i hi j hj => ?_⟩
  · have hi' : i < a.h := by
      rw [H.h]
      exact hi
    have hj' : j < a.w := by
      rw [H.w]
      exact hj
    have e1 := law.conv a Q' (B + η) (by rw [H.h]; exact hL.1) (by rw [H.w]; exact hL.2) hQL.1 hQL.2 (H.bound hb) i hi' j hj'
    have e2 := hlin Q' b.zeroPad a.zeroPad η i j hdiff
    have e3 := hker i j
    have e4 := abs_sub_le ((ops.conv a Q').px i j) (convAt Q' a.zeroPad i j) (convAt Q b.zeroPad i j)
    have e5 := abs_sub_le (convAt Q' a.zeroPad i j) (convAt Q' b.zeroPad i j) (convAt Q b.zeroPad i j)
    have e6 : κ * (B + η) * absTotal Q' ≤ κ * (B + η) * (P + ζ) := mul_le_mul_of_nonneg_left hQ' (by positivity)
    have e7 : absTotal Q' * η ≤ (P + ζ) * η := mul_le_mul_of_nonneg_right hQ' hη
    rw [hconv]
    unfold convErr
    linarith
  · rw [hconv]
    have e1 := hlin Q (fun _ _ => 0) b.zeroPad B i j fun r s => by simpa using hpad r s
    have e2 : convAt Q (fun _ _ => 0) i j = 0 := by simp [convAt]
    rw [e2, sub_zero] at e1
    exact e1.trans (mul_le_mul_of_nonneg_right hP hB)

theorem broadcast_lt {m n k : Nat} (hm : broadcasts m n = true) (hk : k < n) : (if m = 1 then 0 else k) < m := by
  simp only [broadcasts, Bool.or_eq_true, decide_eq_true_eq] at hm
  split_ifs <;> omega

/-- A slice assignment. -/
theorem NearImg.slice {η : ℝ} {a b sa sb : Img ℝ} (H : NearImg η a b) (S : NearImg η sa sb) (r0 r1 c0 c1 : Int) :
    CloseImg η (sliceAssign a r0 r1 c0 c1 sa) (sliceAssign b r0 r1 c0 c1 sb) := by
  unfold sliceAssign
  rw [H.h, H.w, S.h, S.w]
  simp only
  by_cases hc : (broadcasts sb.h (sliceBound b.h r1 - sliceBound b.h r0) && broadcasts sb.w (sliceBound b.w c1 - sliceBound b.w c0)) = true
  · rw [if_pos hc, if_pos hc]
    rw [Bool.and_eq_true] at hc
    refine ⟨rfl, rfl, fun i hi j hj => ?_⟩
    simp only
    by_cases h : sliceBound b.h r0 ≤ i ∧ i < sliceBound b.h r1 ∧ sliceBound b.w c0 ≤ j ∧ j < sliceBound b.w c1
    · rw [if_pos h, if_pos h]
      exact S.px _ (broadcast_lt hc.1 (by omega)) _ (broadcast_lt hc.2 (by omega))
    · rw [if_neg h, if_neg h]
      exact H.px i hi j hj
  · rw [if_neg hc, if_neg hc]
    rfl

theorem slice_shape {b sb y : Img ℝ} {r0 r1 c0 c1 : Int} (h : sliceAssign b r0 r1 c0 c1 sb = .ok y) : y.h = b.h ∧ y.w = b.w := by
  unfold sliceAssign at h
  simp only at h
  split at h
  · cases h
    exact ⟨rfl, rfl⟩
  · cases h

theorem BoundImg.slice {B : ℝ} {b sb y : Img ℝ} (H : BoundImg B b) (S : BoundImg B sb) {r0 r1 c0 c1 : Int} (h : sliceAssign b r0 r1 c0 c1 sb = .ok y) :
    BoundImg B y := by
  unfold sliceAssign at h
  simp only at h
  by_cases hc : (broadcasts sb.h (sliceBound b.h r1 - sliceBound b.h r0) && broadcasts sb.w (sliceBound b.w c1 - sliceBound b.w c0)) = true
  · rw [if_pos hc] at h
    rw [Bool.and_eq_true] at hc
    cases h
    intro i hi j hj
    simp only
    by_cases h : sliceBound b.h r0 ≤ i ∧ i < sliceBound b.h r1 ∧ sliceBound b.w c0 ≤ j ∧ j < sliceBound b.w c1
    · rw [if_pos h]
      exact S _ (broadcast_lt hc.1 (by omega)) _ (broadcast_lt hc.2 (by omega))
    · rw [if_neg h]
      exact H i hi j hj
  · rw [if_neg hc] at h
    cases h

/-! ### Grids and samples -/

/-- An axis of a sampling grid. -/
theorem axisFl_near (law : FloatLaw L u γ κ ops) (hu : 0 ≤ u) (hu1 : u ≤ 1 / 8) {s f : Nat} (hf : 0 < f) (hL : 2 * (s * f) + 3 ≤ L) {o : ℝ} (ho : |o| ≤ L) :
    ∃ X : Nat → ℝ, ((npArangeR ops.fl (1 / 2) (((s : Int) * f : Int) : ℝ)).map fun v => ops.fl (ops.fl (ops.fl (v / (f : ℝ)) - 1 / 2) + o)) = (List.range (s * f)).map X ∧
      ∀ k < s * f, |X k - (o + (((k : ℝ) + 1 / 2) / f - 1 / 2))| ≤ 6 * u * L ∧ |o + (((k : ℝ) + 1 / 2) / f - 1 / 2)| ≤ 2 * L := by
  have hex : ∀ k : ℤ, |k| ≤ (L : ℤ) → ops.fl ((k : ℝ) / ((2 * 1 : Nat) : ℝ)) = k / ((2 * 1 : Nat) : ℝ) := by
    intro k hk
    have := law.halves k hk
    push_cast
    exact this
  have e0 : (1 / 2 : ℝ) = ((1 : ℤ) : ℝ) / ((2 * 1 : Nat) : ℝ) := by norm_num
  have har : npArangeR ops.fl (1 / 2) (((s : Int) * f : Int) : ℝ) = (List.range (s * f)).map fun k : Nat => (1 / 2 : ℝ) + k := by
    have e1 : (((s : Int) * f : Int) : ℝ) - ((1 : ℤ) : ℝ) / ((2 * 1 : Nat) : ℝ) = ((2 * (s * f : Nat) - 1 : ℤ) : ℝ) / ((2 * 1 : Nat) : ℝ) := by
      push_cast
      ring
    have h1 := npArangeR_exact (K := ℝ) (fl := ops.fl) (H := 1) (N := L) one_pos hex 1 (s * f) (((s : Int) * f : Int) : ℝ) (by
      rw [abs_one]
      push_cast
      omega) (by
      rw [e1]
      apply hex
      rw [abs_le]
      omega) (by
      rw [Int.ceil_eq_iff]
      push_cast
      constructor <;> linarith)
    rw [← e0] at h1
    exact h1
  rw [har, List.map_map]
  refine ⟨_, rfl, fun k hk => ?_⟩
  have hf' : (0 : ℝ) < f := Nat.cast_pos.2 hf
  have hs1 : 1 ≤ s := by
    rcases Nat.eq_zero_or_pos s with h | h
    · rw [h, Nat.zero_mul] at hk
      omega
    · exact h
  have hsL : 2 * s + 3 ≤ L := by
    have : s ≤ s * f := Nat.le_mul_of_pos_right s hf
    omega
  have hs1' : (1 : ℝ) ≤ s := by exact_mod_cast hs1
  have hsL' : 2 * (s : ℝ) + 3 ≤ L := by exact_mod_cast hsL
  simp only [Function.comp]
  set v : ℝ := 1 / 2 + (k : ℝ) with hv
  set t : ℝ := v / f with ht
  have hk0 : (0 : ℝ) ≤ k := Nat.cast_nonneg k
  have ht0 : 0 ≤ t := by
    rw [ht, hv]
    positivity
  have hts : t ≤ s := by
    rw [ht, div_le_iff₀ hf', hv]
    have : (k : ℝ) + 1 ≤ s * f := by exact_mod_cast hk
    linarith
  have e2 : ((k : ℝ) + 1 / 2) / f = t := by rw [ht, hv, add_comm]
  rw [e2]
  have a1 := law.relErr t
  rw [abs_of_nonneg ht0] at a1
  have a2 := law.relErr (ops.fl t - 1 / 2)
  have a3 := law.relErr (ops.fl (ops.fl t - 1 / 2) + o)
  set t1 := ops.fl t
  set t2 := ops.fl (t1 - 1 / 2)
  set t3 := ops.fl (t2 + o)
  have b1 : u * t ≤ u * s := mul_le_mul_of_nonneg_left hts hu
  have b2 : u * s ≤ 1 / 8 * s := mul_le_mul_of_nonneg_right hu1 (by linarith)
  have c1 : |t1 - t| ≤ u * s := a1.trans b1
  have c2 : |t1 - 1 / 2| ≤ 9 / 8 * s + 1 / 2 := by
    rw [abs_le] at c1 ⊢
    constructor <;> linarith [c1.1, c1.2]
  have b3 : u * |t1 - 1 / 2| ≤ u * (9 / 8 * s + 1 / 2) := mul_le_mul_of_nonneg_left c2 hu
  have b4 : u * (9 / 8 * s + 1 / 2) ≤ 1 / 8 * (9 / 8 * s + 1 / 2) := mul_le_mul_of_nonneg_right hu1 (by linarith)
  have c3 : |t2 - (t - 1 / 2)| ≤ u * (9 / 8 * s + 1 / 2) + u * s := by
    have := abs_sub_le t2 (t1 - 1 / 2) (t - 1 / 2)
    rw [show t1 - 1 / 2 - (t - 1 / 2) = t1 - t by ring] at this
    linarith
  have c4 : |t2 + o| ≤ 2 * s + L := by
    have h1 : |t2| ≤ 2 * s := by
      rw [abs_le] at c3 ⊢
      constructor <;> linarith [c3.1, c3.2]
    have := abs_add_le t2 o
    linarith
  have b5 : u * |t2 + o| ≤ u * (2 * s + L) := mul_le_mul_of_nonneg_left c4 hu
  constructor
  · have := abs_sub_le t3 (t2 + o) (o + (t - 1 / 2))
    rw [show t2 + o - (o + (t - 1 / 2)) = t2 - (t - 1 / 2) by ring] at this
    have h2 : u * (2 * s + L) + (u * (9 / 8 * s + 1 / 2) + u * s) ≤ 6 * u * L := by
      rw [← mul_add, ← mul_add, mul_comm 6 u, mul_assoc]
      exact mul_le_mul_of_nonneg_left (by linarith) hu
    linarith
  · rw [abs_le] at ho ⊢
    constructor <;> linarith [ho.1, ho.2]

/-- Samples of the wrapped model. -/
theorem sampleFl_near (law : FloatLaw L u γ κ ops) (hu : 0 ≤ u) (hu1 : u ≤ 1 / 8) {S S' : SubModel ℝ} {params : List ℝ} {η B : ℝ}
    (hS : SampledUpTo L (6 * u * L) η S' S params) (hB : ∀ x y : ℝ, |S.eval params x y| ≤ B) {s f : Nat} (hf : 0 < f) (hL : 2 * (s * f) + 3 ≤ L) {o : ℝ × ℝ}
    (ho1 : |o.1| ≤ L) (ho2 : |o.2| ≤ L) :
    NearImg η (sample S' params (makeGridFl ops.fl (s : Int) o f)) (sample S params (makeGrid (s : Int) o f)) ∧
      BoundImg B (sample S params (makeGrid (s : Int) o f)) ∧ (sample S params (makeGrid (s : Int) o f)).h = s * f ∧
      (sample S params (makeGrid (s : Int) o f)).w = s * f := by
  obtain ⟨m1, m2, m3, m4, m5⟩ := makeGrid_spec (K := ℝ) s f o
  obtain ⟨X, hX, hX'⟩ := axisFl_near law hu hu1 hf hL ho1
  obtain ⟨Y, hY, hY'⟩ := axisFl_near law hu hu1 hf hL ho2
  have g1 : makeGridFl ops.fl (s : Int) o f = meshgrid ((List.range (s * f)).map X) ((List.range (s * f)).map Y) := by
    unfold makeGridFl
    simp only
    rw [hX, hY]
  refine ⟨⟨?_, ?_, fun i hi j hj => ?_⟩, fun i _ j _ => hB _ _, m1, m2⟩
  · show (makeGridFl ops.fl (s : Int) o f).1.h = (makeGrid (s : Int) o f).1.h
    rw [g1, m1]
    simp [meshgrid]
  · show (makeGridFl ops.fl (s : Int) o f).1.w = (makeGrid (s : Int) o f).1.w
    rw [g1, m2]
    simp [meshgrid]
  · have hi' : i < s * f := by
      rw [← m1]
      exact hi
    have hj' : j < s * f := by
      rw [← m2]
      exact hj
    obtain ⟨p1, p2⟩ := m5 i j hi' hj'
    show |S'.eval params ((makeGridFl ops.fl (s : Int) o f).1.px i j) ((makeGridFl ops.fl (s : Int) o f).2.px i j) -
      S.eval params ((makeGrid (s : Int) o f).1.px i j) ((makeGrid (s : Int) o f).2.px i j)| ≤ η
    rw [p1, p2, g1]
    simp only [meshgrid]
    rw [getD_map_range _ X _ hj', getD_map_range _ Y _ hi']
    exact hS _ _ _ _ (hX' j hj').2 (hY' i hi').2 (hX' j hj').1 (hY' i hi').1

/-- Picking values out of two images. -/
theorem pick_near {δ : ℝ} {a b : Img ℝ} (H : NearImg δ a b) (idx : List (Nat × Nat)) : CallsUpTo δ (idx.mapM (pick a)) (idx.mapM (pick b)) := by
  induction idx with
  | nil =>
    refine ⟨fun e he => ?_, fun vals hv => ⟨[], rfl, ?_⟩⟩
    · cases he
    · cases hv
      exact .nil
  | cons p idx ih =>
    rw [List.mapM_cons, List.mapM_cons]
    unfold pick at *
    simp only [H.h, H.w] at ih ⊢
    by_cases hp : p.1 < b.h ∧ p.2 < b.w
    · rw [if_pos hp, if_pos hp]
      simp only [Bind.bind, Except.bind]
      obtain ⟨h1, h2⟩ := ih
      cases hr : List.mapM (fun p : Nat × Nat => if p.1 < b.h ∧ p.2 < b.w then Except.ok (ε := PyErr) (b.px p.1 p.2) else .error .indexError) idx with
      | error e =>
        have h3 := h1 e hr
        refine ⟨fun e' he => ?_, fun vals hv => (by cases hv)⟩
        cases he
        rw [h3]
      | ok vs =>
        obtain ⟨vs', h3, h4⟩ := h2 vs hr
        refine ⟨fun e' he => (by cases he), fun vals hv => ?_⟩
        cases hv
        rw [h3]
        exact ⟨_, rfl, .cons (H.px _ hp.1 _ hp.2) h4⟩
    · rw [if_neg hp, if_neg hp]
      refine ⟨fun e he => ?_, fun vals hv => ?_⟩
      · cases he
        rfl
      · cases hv

/-! ### `evaluate` -/

variable {ζ P B η pa : ℝ} {M M' : PSFModel ℝ} {rot : Img ℝ → ℝ → Img ℝ} {params : List ℝ}

theorem le_meanErr (hu : 0 ≤ u) (hγ : 0 ≤ γ) (hB : 0 ≤ B) (hη : 0 ≤ η) : η ≤ meanErr u γ B η := by
  unfold meanErr
  have h1 : 0 ≤ γ * (B + η) := by positivity
  have h2 : 0 ≤ u * (B + (η + γ * (B + η))) := by positivity
  linarith

theorem le_convErr (hκ : 0 ≤ κ) (hζ : 0 ≤ ζ) (hP : 1 ≤ P) (hB : 0 ≤ B) (hη : 0 ≤ η) : η ≤ convErr κ ζ P B η := by
  unfold convErr
  have h1 : 0 ≤ κ * (B + η) := by positivity
  have h2 : 0 ≤ ζ * B := by positivity
  nlinarith

/-- The image at PSF resolution. -/
theorem oversampledFl_close (law : FloatLaw L u γ κ ops) (hu : 0 ≤ u) (hu1 : u ≤ 1 / 8) (hγ : 0 ≤ γ) (hB0 : 0 ≤ B) (hη : 0 ≤ η)
    (hM' : FloatModel L ζ P ops rot pa M' M) (hf0 : 0 < M.oversampleFactor) {h w : Nat} (hfit : FitsIn L h w M params) (hB : ∀ x y : ℝ, |M.sub.eval params x y| ≤ B)
    (hS : SampledUpTo L (6 * u * L) η M'.sub M.sub params) {a b : Img ℝ} (H : NearImg η a b) (hb : BoundImg B b) (hbL : b.h ≤ L ∧ b.w ≤ L) (iMax jMax : Nat) :
    CloseImg (meanErr u γ B η) (M'.oversampledFl ops params a iMax jMax) (M.oversampled params M.gridFactor b iMax jMax) ∧
      ∀ y, M.oversampled params M.gridFactor b iMax jMax = .ok y → BoundImg B y ∧ y.h ≤ L ∧ y.w ≤ L := by
  have hle := le_meanErr (u := u) (γ := γ) hu hγ hB0 hη
  have hpf : M'.psfFactor = M.psfFactor := by
    unfold psfFactor
    rw [hM'.psfOversample]
  have hgf : M'.gridFactor = M.gridFactor := by
    unfold PSFModel.gridFactor oversampleFactor
    rw [hM'.oversample, hpf]
  have hcv : ∀ c, centerValue M'.sub params c = centerValue M.sub params c := by
    intro c
    cases c <;> simp only [centerValue, hM'.names]
  have plain : CloseImg (meanErr u γ B η) (.ok (if 1 < M.gridFactor / M.psfFactor then blockMeanFl ops a (M.gridFactor / M.psfFactor) else a))
        (.ok (if 1 < M.gridFactor / M.psfFactor then (blockReduce b (M.gridFactor / M.psfFactor)).divBy (((M.gridFactor / M.psfFactor : Nat) : ℝ) ^ 2) else b)) ∧
      ∀ y, (Except.ok (ε := PyErr) (if 1 < M.gridFactor / M.psfFactor then (blockReduce b (M.gridFactor / M.psfFactor)).divBy (((M.gridFactor / M.psfFactor : Nat) : ℝ) ^ 2) else b)) = .ok y →
        BoundImg B y ∧ y.h ≤ L ∧ y.w ≤ L := by
    by_cases h1 : 1 < M.gridFactor / M.psfFactor
    · rw [if_pos h1, if_pos h1]
      obtain ⟨k1, k2⟩ := H.blockMean law hu hγ hB0 hη hb (by omega) hfit.blocks
      refine ⟨k1, fun y hy => ?_⟩
      cases hy
      exact ⟨k2, (Nat.div_le_self _ _).trans hbL.1, (Nat.div_le_self _ _).trans hbL.2⟩
    · rw [if_neg h1, if_neg h1]
      refine ⟨H.mono hle, fun y hy => ?_⟩
      cases hy
      exact ⟨hb, hbL⟩
  unfold oversampledFl PSFModel.oversampled
  rw [hM'.oversample, hgf, hpf]
  cases hov : M.oversample with
  | none => exact plain
  | int k => exact plain
  | window x y size f =>
    simp only
    obtain ⟨s, rfl, hs1, hs2, hs3⟩ := hfit.window x y size f hov
    have hf : 0 < f := by
      unfold oversampleFactor at hf0
      rw [hov] at hf0
      exact hf0
    unfold pasteWindowFl pasteWindow
    rw [hpf]
    by_cases h1 : f / M.psfFactor ≤ 1
    · simp only [h1, if_true]
      refine ⟨H.mono hle, fun y hy => ?_⟩
      cases hy
      exact ⟨hb, hbL⟩
    · simp only [h1, if_false]
      rw [hcv, hcv]
      cases hx : centerValue M.sub params x with
      | error e => exact ⟨rfl, fun y hy => by cases hy⟩
      | ok x0 =>
        cases hy : centerValue M.sub params y with
        | error e => exact ⟨rfl, fun y hy => by cases hy⟩
        | ok y0 =>
          simp only [Bind.bind, Except.bind]
          have org : ∀ v : ℝ, 2 * (|rint v| + s) ≤ (L : ℤ) → ops.fl ((rint v : ℝ) - (((s : Int) / 2 : Int) : ℝ)) = ((rint v - (s : Int) / 2 : Int) : ℝ) ∧
              |((rint v - (s : Int) / 2 : Int) : ℝ)| ≤ L := by
            intro v hv
            have h2 : |rint v - (s : Int) / 2| ≤ |rint v| + s := by
              have := abs_sub (rint v) ((s : Int) / 2)
              rw [abs_of_nonneg (show (0 : ℤ) ≤ (s : Int) / 2 by omega)] at this
              omega
            have h3 := law.halves (2 * (rint v - (s : Int) / 2)) (by
              rw [abs_mul]
              norm_num
              omega)
            constructor
            · rw [← Int.cast_sub]
              have e : ((2 * (rint v - (s : Int) / 2) : Int) : ℝ) / 2 = ((rint v - (s : Int) / 2 : Int) : ℝ) := by
                push_cast
                ring
              rw [e] at h3
              exact h3
            · rw [← Int.cast_abs]
              have := abs_nonneg (rint v)
              exact_mod_cast (show |rint v - (s : Int) / 2| ≤ (L : ℤ) by omega)
          obtain ⟨o1, o2⟩ := org x0 (hs3 x0 (Or.inl hx))
          obtain ⟨o3, o4⟩ := org y0 (hs3 y0 (Or.inr hy))
          rw [o1, o3]
          simp only [rint_int]
          obtain ⟨n1, n2, n3, n4⟩ := sampleFl_near law hu hu1 hS hB hf hs1 (o := (((rint x0 - (s : Int) / 2 : Int) : ℝ), ((rint y0 - (s : Int) / 2 : Int) : ℝ))) o2 o4
          obtain ⟨k1, k2⟩ := n1.blockMean law hu hγ hB0 hη n2 (f := f / M.psfFactor) (by omega) hs2
          refine ⟨(H.mono hle).slice k1 _ _ _ _, fun y hy => ⟨hb.slice k2 hy, ?_⟩⟩
          rw [(slice_shape hy).1, (slice_shape hy).2]
          exact hbL

/-- The image at the resolution of the data. -/
theorem convolvedFl_near (law : FloatLaw L u γ κ ops) (hu : 0 ≤ u) (hγ : 0 ≤ γ) (hκ : 0 ≤ κ) (hζ : 0 ≤ ζ) (hP : 1 ≤ P) (hB0 : 0 ≤ B) (hη : 0 ≤ η)
    (hM' : FloatModel L ζ P ops rot pa M' M) (hp : M.psfFactor * M.psfFactor ≤ L) {a b : Img ℝ} (H : NearImg η a b) (hb : BoundImg B b) (hbL : b.h ≤ L ∧ b.w ≤ L) :
    NearImg (meanErr u γ (P * B) (convErr κ ζ P B η)) (M'.convolvedFl ops pa a) (M.convolved rot pa b) := by
  have hpf : M'.psfFactor = M.psfFactor := by
    unfold psfFactor
    rw [hM'.psfOversample]
  have hPB : 0 ≤ P * B := by positivity
  have hBP : B ≤ P * B := by nlinarith
  have hle := le_convErr (κ := κ) (ζ := ζ) (P := P) (B := B) (η := η) hκ hζ hP hB0 hη
  have hc0 : 0 ≤ convErr κ ζ P B η := hη.trans hle
  have hle2 := le_meanErr (u := u) (γ := γ) (B := P * B) hu hγ hPB hc0
  obtain ⟨c, d, hc, hd, e1, e2⟩ : ∃ c d : Img ℝ, NearImg (convErr κ ζ P B η) c d ∧ BoundImg (P * B) d ∧
      M'.convolvedFl ops pa a = (if 1 < M.psfFactor then blockMeanFl ops c M.psfFactor else c) ∧
      M.convolved rot pa b = (if 1 < M.psfFactor then (blockReduce d M.psfFactor).divBy ((M.psfFactor : ℝ) ^ 2) else d) := by
    cases hpsf : M.psf with
    | none =>
      refine ⟨a, b, H.mono hle, fun i hi j hj => (hb i hi j hj).trans hBP, ?_, ?_⟩
      · unfold convolvedFl
        rw [hM'.noPsf hpsf, hpf]
      · unfold convolved
        rw [hpsf]
    | some psf =>
      obtain ⟨psf', h1, h2, h3⟩ := hM'.psf psf hpsf
      obtain ⟨k1, k2⟩ := H.conv law hκ hζ hB0 hη hb hbL h2 h3
      refine ⟨_, _, k1, k2, ?_, ?_⟩
      · unfold convolvedFl
        rw [h1, hpf]
      · unfold convolved
        rw [hpsf]
        rfl
  rw [e1, e2]
  by_cases h1 : 1 < M.psfFactor
  · rw [if_pos h1, if_pos h1]
    exact (hc.blockMean law hu hγ hPB hc0 hd (by omega) hp).1
  · rw [if_neg h1, if_neg h1]
    exact hc.mono hle2

theorem indexOfR_pixel (law : FloatLaw L u γ κ ops) {a b : Nat} (ha : 2 * a ≤ L) (hb : 2 * b ≤ L) : indexOfR ops.fl (a : ℝ) (b : ℝ) = a - b := by
  unfold indexOfR
  have h1 := law.halves (2 * ((a : ℤ) - b)) (by
    rw [abs_le]
    omega)
  have e : ((2 * ((a : ℤ) - b) : ℤ) : ℝ) / 2 = (a : ℝ) - b := by
    push_cast
    ring
  rw [e] at h1
  have e2 : (a : ℝ) - b = ((a - b : ℤ) : ℝ) := by push_cast; rfl
  rw [h1, e2, Int.floor_intCast]
  omega

/-- **C180.** Values of a model image in floating point: for every wrapped model, PSF, angle, oversampling or window, `evaluate` computes the values at the pixels of an image
with an error of at most `imageErr`, and raises the same exceptions. `B` bounds the wrapped model, `η` its own errors, `P` the absolute total of the PSF and `ζ` the error
of the (rotated) PSF. -/
theorem C180_accuracy (law : FloatLaw L u γ κ ops) (hu : 0 ≤ u) (hu1 : u ≤ 1 / 8) (hγ : 0 ≤ γ) (hκ : 0 ≤ κ) (hζ : 0 ≤ ζ) (hP : 1 ≤ P) (hη : 0 ≤ η)
    (hM : CacheOk M) (hpos : 0 < M.oversampleFactor ∧ 0 < M.psfFactor) (hM' : FloatModel L ζ P ops rot pa M' M) {h w : Nat} (hfit : FitsIn L h w M params)
    (hB : ∀ x y : ℝ, |M.sub.eval params x y| ≤ B) (hS : SampledUpTo L (6 * u * L) η M'.sub M.sub params) {idx : List (Nat × Nat)}
    (hin : ∀ p ∈ idx, p.1 < h ∧ p.2 < w) :
    CallsUpTo (imageErr u γ κ ζ P B η) (M'.evaluateFl ops (pixelCoords idx) params pa) (M.evaluate rot (pixelCoords idx) params pa).1 := by
  have hB0 : 0 ≤ B := (abs_nonneg _).trans (hB 0 0)
  rcases eq_or_ne idx [] with rfl | hne
  · refine ⟨fun e he => ?_, fun vals hv => ?_⟩
    · cases he
      rfl
    · cases hv
  have e1 : (pixelCoords idx).map (·.1) = (idx.map (·.2)).map fun a : Nat => (a : ℝ) := by simp [pixelCoords]
  have e2 : (pixelCoords idx).map (·.2) = (idx.map (·.1)).map fun a : Nat => (a : ℝ) := by simp [pixelCoords]
  have hne1 : (idx.map (·.2)).map (fun a : Nat => (a : ℝ)) ≠ [] := by simpa using hne
  have hne2 : (idx.map (·.1)).map (fun a : Nat => (a : ℝ)) ≠ [] := by simpa using hne
  obtain ⟨x0, gx⟩ := min?_some hne1
  obtain ⟨y0, gy⟩ := min?_some hne2
  obtain ⟨xm, gxm⟩ := max?_some hne1
  obtain ⟨ym, gym⟩ := max?_some hne2
  obtain ⟨x0, hx0, rfl, hx0'⟩ := cast_min gx
  obtain ⟨y0, hy0, rfl, hy0'⟩ := cast_min gy
  obtain ⟨xm, hxm, rfl, hxm'⟩ := cast_max gxm
  obtain ⟨ym, hym, rfl, hym'⟩ := cast_max gym
  have hx0w : x0 < w := by
    obtain ⟨p, hp, rfl⟩ := List.mem_map.1 hx0
    exact (hin p hp).2
  have hy0h : y0 < h := by
    obtain ⟨p, hp, rfl⟩ := List.mem_map.1 hy0
    exact (hin p hp).1
  have hxmw : xm < w := by
    obtain ⟨p, hp, rfl⟩ := List.mem_map.1 hxm
    exact (hin p hp).2
  have hymh : ym < h := by
    obtain ⟨p, hp, rfl⟩ := List.mem_map.1 hym
    exact (hin p hp).1
  rw [← e1] at gx gxm
  rw [← e2] at gy gym
  have hg0 : 0 < M.gridFactor := by
    unfold PSFModel.gridFactor
    cases hov : M.oversample <;> simp only
    · exact hpos.1
    · exact hpos.1
    · exact hpos.2
  have hgL : (h + w) ≤ (h + w) * M.gridFactor := Nat.le_mul_of_pos_right _ hg0
  have hL1 := hfit.grid
  have hgf : M'.gridFactor = M.gridFactor := by
    unfold PSFModel.gridFactor oversampleFactor psfFactor
    rw [hM'.oversample, hM'.psfOversample]
  have hn : max (xm - x0) (ym - y0) + 1 ≤ h + w := by omega
  have hnL : (max (xm - x0) (ym - y0) + 1) * M.gridFactor ≤ (h + w) * M.gridFactor := Nat.mul_le_mul_right _ hn
  unfold evaluateFl evaluate
  rw [gx, gxm, gy, gym]
  simp only
  rw [indexOfR_pixel law (show 2 * xm ≤ L by omega) (show 2 * x0 ≤ L by omega), indexOfR_pixel law (show 2 * ym ≤ L by omega) (show 2 * y0 ≤ L by omega),
    indexOf_pixel, indexOf_pixel, mainGrid_fst hM, hgf]
  have hidx : ((pixelCoords idx).map fun c => (indexOf c.2 (y0 : ℝ), indexOf c.1 (x0 : ℝ))) = idx.map fun p => (p.1 - y0, p.2 - x0) := by
    simp only [pixelCoords, List.map_map]
    exact List.map_congr_left fun p _ => by simp only [Function.comp, indexOf_pixel]
  have hidx' : ((pixelCoords idx).map fun c => (indexOfR ops.fl c.2 (y0 : ℝ), indexOfR ops.fl c.1 (x0 : ℝ))) = idx.map fun p => (p.1 - y0, p.2 - x0) := by
    simp only [pixelCoords, List.map_map]
    refine List.map_congr_left fun p hp => ?_
    have := hin p hp
    simp only [Function.comp]
    rw [indexOfR_pixel law (show 2 * p.1 ≤ L by omega) (show 2 * y0 ≤ L by omega), indexOfR_pixel law (show 2 * p.2 ≤ L by omega) (show 2 * x0 ≤ L by omega)]
  have hpick : ∀ im : Img ℝ, (pixelCoords idx).mapM (fun c => pick im (indexOfR ops.fl c.2 (y0 : ℝ), indexOfR ops.fl c.1 (x0 : ℝ))) =
      (idx.map fun p => (p.1 - y0, p.2 - x0)).mapM (pick im) := by
    intro im
    rw [← hidx', List.mapM_map]
    rfl
  rw [hidx]
  unfold valuesOn
  simp only [hpick]
  have hx0L : |((x0 : Nat) : ℝ)| ≤ L := by
    rw [Nat.abs_cast]
    exact_mod_cast (show x0 ≤ L by omega)
  have hy0L : |((y0 : Nat) : ℝ)| ≤ L := by
    rw [Nat.abs_cast]
    exact_mod_cast (show y0 ≤ L by omega)
  obtain ⟨n1, n2, n3, n4⟩ := sampleFl_near law hu hu1 hS hB hg0 (s := max (xm - x0) (ym - y0) + 1) (by omega) (o := ((x0 : ℝ), (y0 : ℝ))) hx0L hy0L
  have hmean := hη.trans (le_meanErr (u := u) (γ := γ) hu hγ hB0 hη)
  obtain ⟨k1, k2⟩ := oversampledFl_close law hu hu1 hγ hB0 hη hM' hpos.1 hfit hB hS n1 n2 (by rw [n3, n4]; omega) (xm - x0) (ym - y0)
  cases ha : M'.oversampledFl ops params (sample M'.sub params (makeGridFl ops.fl ((max (xm - x0) (ym - y0) + 1 : Nat) : Int) ((x0 : ℝ), (y0 : ℝ)) M.gridFactor)) (xm - x0) (ym - y0) with
  | error e =>
    cases hb : M.oversampled params M.gridFactor (sample M.sub params (makeGrid ((max (xm - x0) (ym - y0) + 1 : Nat) : Int) ((x0 : ℝ), (y0 : ℝ)) M.gridFactor)) (xm - x0) (ym - y0) with
    | error e' =>
      rw [ha, hb] at k1
      have : e = e' := k1
      subst this
      exact ⟨fun e' he => he, fun vals hv => by cases hv⟩
    | ok b =>
      rw [ha, hb] at k1
      exact k1.elim
  | ok a =>
    cases hb : M.oversampled params M.gridFactor (sample M.sub params (makeGrid ((max (xm - x0) (ym - y0) + 1 : Nat) : Int) ((x0 : ℝ), (y0 : ℝ)) M.gridFactor)) (xm - x0) (ym - y0) with
    | error e' =>
      rw [ha, hb] at k1
      exact k1.elim
    | ok b =>
      rw [ha, hb] at k1
      obtain ⟨k3, k4⟩ := k2 b hb
      exact pick_near (convolvedFl_near law hu hγ hκ hζ hP hB0 hmean hM' hfit.psfBlocks k1 k3 k4) _

end

/-- **C180, small errors.** The bound is as small as wanted if all steps are accurate enough. -/
theorem C180_small (P B : ℝ) {δ : ℝ} (hδ : 0 < δ) : ∃ t : ℝ, 0 < t ∧ ∀ u γ κ ζ η : ℝ, (0 ≤ u ∧ u ≤ t) → (0 ≤ γ ∧ γ ≤ t) → (0 ≤ κ ∧ κ ≤ t) → (0 ≤ ζ ∧ ζ ≤ t) →
    (0 ≤ η ∧ η ≤ t) → imageErr u γ κ ζ P B η ≤ δ := by
  have hc : Continuous fun x : ℝ × ℝ × ℝ × ℝ × ℝ => imageErr x.1 x.2.1 x.2.2.1 x.2.2.2.1 P B x.2.2.2.2 := by
    unfold imageErr meanErr convErr
    fun_prop
  obtain ⟨ε, hε, h⟩ := Metric.continuous_iff.1 hc 0 δ hδ
  refine ⟨ε / 2, by positivity, fun u γ κ ζ η h1 h2 h3 h4 h5 => ?_⟩
  have hd : ∀ x : ℝ, 0 ≤ x ∧ x ≤ ε / 2 → dist x 0 < ε := fun x hx => by
    rw [Real.dist_eq, sub_zero, abs_of_nonneg hx.1]
    linarith [hx.2]
  have h6 := h (u, γ, κ, ζ, η) (by
    simp only [Prod.dist_eq, Prod.fst_zero, Prod.snd_zero]
    exact max_lt (hd _ h1) (max_lt (hd _ h2) (max_lt (hd _ h3) (max_lt (hd _ h4) (hd _ h5)))))
  have h0 : imageErr 0 0 0 0 P B 0 = 0 := by simp [imageErr, meanErr, convErr]
  rw [Real.dist_eq] at h6
  simp only [Prod.fst_zero, Prod.snd_zero, h0, sub_zero] at h6
  exact (le_abs_self _).trans h6.le

/-! ### Direct summation -/

theorem rounded_list {fl : ℝ → ℝ} {u : ℝ} (hu : RelErr u fl) : ∀ l : List ℝ, |(l.map fl).sum - l.sum| ≤ u * (l.map abs).sum ∧
    ((l.map fl).map abs).sum ≤ (1 + u) * (l.map abs).sum
  | [] => by simp
  | x :: l => by
    obtain ⟨h1, h2⟩ := rounded_list hu l
    have h3 := hu x
    have h4 := abs_add_le (fl x - x) ((l.map fl).sum - l.sum)
    have h5 : |fl x| ≤ |x| + |fl x - x| := by
      have := abs_add_le x (fl x - x)
      rwa [add_sub_cancel] at this
    simp only [List.map_cons, List.sum_cons]
    constructor
    · rw [add_sub_add_comm]
      linarith
    · linarith

/-- **C180, direct summation.** Arithmetic with a relative error of `u` per operation, pairwise sums and direct convolutions is as accurate as `FloatLaw` asks for: a sum of `n` numbers
with about `log n` times `u`, a convolution likewise. -/
theorem C180_direct {fl : ℝ → ℝ} {u : ℝ} (hu : RelErr u fl) (hu0 : 0 ≤ u) {L : Nat} (hh : ∀ k : ℤ, |k| ≤ L → fl ((k : ℝ) / 2) = k / 2) (rot : Img ℝ → ℝ → Img ℝ) :
    FloatLaw L u ((1 + u) ^ pwDepth L - 1) ((1 + u) ^ (pwDepth (L * L) + 1) - 1) (directOps fl rot) where
  relErr := hu
  halves := hh
  sum l hl := by
    refine (pairwiseSum_err hu hu0 l).trans (mul_le_mul_of_nonneg_right ?_ ?_)
    · exact sub_le_sub_right (pow_le_pow_right₀ (by linarith) (pwDepth_mono hl)) 1
    · exact List.sum_nonneg fun x hx => by
        obtain ⟨y, _, rfl⟩ := List.mem_map.1 hx
        exact abs_nonneg y
  shape _ _ := ⟨rfl, rfl⟩
  conv im Q G _ _ hQh hQw hG i hi j hj := by
    have hG0 : 0 ≤ G := (abs_nonneg _).trans (hG i hi j hj)
    set l : List ℝ := (List.range Q.h).flatMap fun a => (List.range Q.w).map fun b =>
      Q.px a b * im.zeroPad ((i : Int) + (((Q.h - 1) / 2 : Nat) : Int) - a) ((j : Int) + (((Q.w - 1) / 2 : Nat) : Int) - b) with hl
    have e1 : ((directOps fl rot).conv im Q).px i j = pairwiseSum (fun a b => fl (a + b)) 0 (l.map fl) := by
      simp only [directOps, hl, List.map_flatMap, List.map_map]
      rfl
    have e2 : convAt Q im.zeroPad i j = l.sum := by
      unfold convAt
      rw [hl, List.flatMap_def, List.sum_flatten, List.map_map, sum_range_list]
      refine Finset.sum_congr rfl fun a _ => ?_
      simp only [Function.comp]
      rw [sum_range_list]
    have e3 : (l.map abs).sum ≤ G * absTotal Q := by
      rw [hl, List.flatMap_def, List.map_flatten, List.sum_flatten, List.map_map, List.map_map, sum_range_list, absTotal, Finset.mul_sum]
      refine Finset.sum_le_sum fun a _ => ?_
      simp only [Function.comp]
      rw [List.map_map, sum_range_list, Finset.mul_sum]
      refine Finset.sum_le_sum fun b _ => ?_
      simp only [Function.comp]
      rw [abs_mul, mul_comm]
      refine mul_le_mul_of_nonneg_right ?_ (abs_nonneg _)
      unfold Img.zeroPad
      split_ifs with h
      · exact hG _ (by omega) _ (by omega)
      · simpa using hG0
    have hlen : (l.map fl).length ≤ L * L := by
      rw [List.length_map, hl, List.length_flatMap]
      simp only [List.length_map, List.length_range, List.map_const', List.sum_replicate, smul_eq_mul]
      exact Nat.mul_le_mul hQh hQw
    obtain ⟨h1, h2⟩ := rounded_list hu l
    have h3 := pairwiseSum_err hu hu0 (l.map fl)
    have h0 : 0 ≤ (l.map abs).sum := List.sum_nonneg fun x hx => by
      obtain ⟨y, _, rfl⟩ := List.mem_map.1 hx
      exact abs_nonneg y
    have h00 : 0 ≤ ((l.map fl).map abs).sum := List.sum_nonneg fun x hx => by
      obtain ⟨y, _, rfl⟩ := List.mem_map.1 hx
      exact abs_nonneg y
    have hp : (1 + u) ^ pwDepth (l.map fl).length ≤ (1 + u) ^ pwDepth (L * L) := pow_le_pow_right₀ (by linarith) (pwDepth_mono hlen)
    have hp1 : 1 ≤ (1 + u) ^ pwDepth (L * L) := one_le_pow₀ (by linarith)
    have h4 : |pairwiseSum (fun a b => fl (a + b)) 0 (l.map fl) - (l.map fl).sum| ≤ ((1 + u) ^ pwDepth (L * L) - 1) * ((1 + u) * (l.map abs).sum) :=
      h3.trans (mul_le_mul (by linarith) h2 h00 (by linarith))
    have h5 := abs_sub_le (pairwiseSum (fun a b => fl (a + b)) 0 (l.map fl)) (l.map fl).sum l.sum
    have h6 : ((1 + u) ^ (pwDepth (L * L) + 1) - 1) * (l.map abs).sum = ((1 + u) ^ pwDepth (L * L) - 1) * ((1 + u) * (l.map abs).sum) + u * (l.map abs).sum := by ring
    have h7 : ((1 + u) ^ (pwDepth (L * L) + 1) - 1) * (l.map abs).sum ≤ ((1 + u) ^ (pwDepth (L * L) + 1) - 1) * (G * absTotal Q) :=
      mul_le_mul_of_nonneg_left e3 (by
        have := one_le_pow₀ (a := 1 + u) (n := pwDepth (L * L) + 1) (by linarith)
        linarith)
    rw [e1, e2]
    rw [mul_assoc]
    linarith

/-- **C180, binary64.** The numbers of python with pairwise sums and direct convolutions, for arrays of up to 2^53 pixels along an axis. -/
theorem C180_binary64 {L : Nat} (hL : L ≤ 2 ^ 53) (rot : Img ℝ → ℝ → Img ℝ) :
    FloatLaw L (2 ^ (-(53 : ℤ))) ((1 + 2 ^ (-(53 : ℤ))) ^ pwDepth L - 1) ((1 + 2 ^ (-(53 : ℤ))) ^ (pwDepth (L * L) + 1) - 1) (directOps fl53 rot) := by
  refine C180_direct (flBits_relErr 53 (by decide)) (by positivity) (fun k hk => ?_) rot
  have h1 := flBits_repr (K := ℝ) 53 (by decide) k (hk.trans (by exact_mod_cast hL)) (-1)
  rw [zpow_neg_one, ← div_eq_mul_inv] at h1
  exact h1

/-! ### Fits -/

open Filter Topology MeasureTheory

/-- Galaxies within the bounds have bounded light. -/
theorem galaxies_bounded {k W H : Nat} {lo hi : Fin k → SersicP} (hb : GalaxyRange W H lo hi) (slo shi : ℝ) : ∃ B : ℝ, ∀ (N : Nat) (q : Fin k → SersicP) (sky : ℝ),
    (∀ i, SersicP.Between (lo i) (hi i) ((q i).zoomOut N)) → (slo ≤ sky ∧ sky ≤ shi) → ∀ x y : ℝ, |galaxiesAt q sky x y| ≤ B := by
  have hbn : ∀ i, ∃ C : ℝ, ∀ n : ℝ, (lo i).n ≤ n → n ≤ (hi i).n → bn n ≤ C := by
    intro i
    have hn : 0 < (lo i).n := (hb.scene i).2.2.1
    have hcont : ContinuousOn bn (Set.Icc (lo i).n (hi i).n) := fun n hn' => (bn_continuousAt (hn.trans_le hn'.1)).continuousWithinAt
    obtain ⟨C, hC⟩ := isCompact_Icc.exists_bound_of_continuousOn hcont
    exact ⟨C, fun n h1 h2 => (le_abs_self _).trans (hC n ⟨h1, h2⟩)⟩
  choose C hC using hbn
  refine ⟨∑ i, (hi i).amplitude * Real.exp (C i) + max |slo| |shi|, fun N q sky hq hs x y => ?_⟩
  unfold galaxiesAt
  refine (abs_add_le _ _).trans (add_le_add ((Finset.abs_sum_le_sum_abs _ _).trans (Finset.sum_le_sum fun i _ => ?_)) (abs_le_max_abs_abs hs.1 hs.2))
  obtain ⟨h1, -, h3, -⟩ := hq i
  have h1' : (lo i).amplitude ≤ (q i).amplitude ∧ (q i).amplitude ≤ (hi i).amplitude := h1
  have h3' : (lo i).n ≤ (q i).n ∧ (q i).n ≤ (hi i).n := h3
  have hn : 0 < (lo i).n := (hb.scene i).2.2.1
  have hA := (hb.scene i).1
  refine (sersic_below_peak (q i) (hA.trans h1'.1) (hn.trans_le h3'.1) x y).trans ?_
  exact mul_le_mul h1'.2 (Real.exp_le_exp.2 (hC i _ h3'.1 h3'.2)) (Real.exp_pos _).le (hA.trans (h1'.1.trans h1'.2))

/-- Wrapping it up: a run of `evaluate` in floating point all of whose steps are accurate up to `t`. -/
def FloatRun (t : ℝ) (h w : Nat) (ops : FloatOps ℝ) (rot : Img ℝ → ℝ → Img ℝ) (pa : ℝ) (M' M : PSFModel ℝ) (params : List ℝ) : Prop :=
  ∃ (L : Nat) (u γ κ ζ η : ℝ), (0 ≤ u ∧ u ≤ t) ∧ (0 ≤ γ ∧ γ ≤ t) ∧ (0 ≤ κ ∧ κ ≤ t) ∧ (0 ≤ ζ ∧ ζ ≤ t) ∧ (0 ≤ η ∧ η ≤ t) ∧ FloatLaw L u γ κ ops ∧
    FloatModel L ζ 1 ops rot pa M' M ∧ FitsIn L h w M params ∧ SampledUpTo L (6 * u * L) η M'.sub M.sub params

/-- **C180, uniform.** For all galaxies within the bounds and every accuracy `δ` there is a `t` such that runs whose steps are accurate up to `t` return values accurate up to `δ`. -/
theorem C180_uniform {k W H : Nat} {lo hi : Fin k → SersicP} (hb : GalaxyRange W H lo hi) (slo shi : ℝ) {hasSky : Bool} (hnosky : hasSky = false → slo = 0 ∧ shi = 0)
    {δ : ℝ} (hδ : 0 < δ) : ∃ t : ℝ, 0 < t ∧ ∀ (N : Nat) (q : Fin k → SersicP) (sky pa : ℝ) (ops : FloatOps ℝ) (rot : Img ℝ → ℝ → Img ℝ) (M' M : PSFModel ℝ) (h w : Nat)
      (idx : List (Nat × Nat)), (∀ i, SersicP.Between (lo i) (hi i) ((q i).zoomOut N)) → (slo ≤ sky ∧ sky ≤ shi) → M.sub = galaxiesSub k hasSky → CacheOk M →
      (0 < M.oversampleFactor ∧ 0 < M.psfFactor) → FloatRun t h w ops rot pa M' M (galaxiesParams q hasSky sky) → (∀ p ∈ idx, p.1 < h ∧ p.2 < w) →
      CallsUpTo δ (M'.evaluateFl ops (pixelCoords idx) (galaxiesParams q hasSky sky) pa) (M.evaluate rot (pixelCoords idx) (galaxiesParams q hasSky sky) pa).1 := by
  obtain ⟨B, hB⟩ := galaxies_bounded hb slo shi
  obtain ⟨t, ht, hsmall⟩ := C180_small 1 B hδ
  refine ⟨min t (1 / 8), lt_min ht (by norm_num), ?_⟩
  rintro N q sky pa ops rot M' M h w idx hq hsky hsub hM hpos ⟨L, u, γ, κ, ζ, η, hu, hγ, hκ, hζ, hη, law, hM', hfit, hS⟩ hin
  have hle : ∀ {x : ℝ}, (0 ≤ x ∧ x ≤ min t (1 / 8)) → 0 ≤ x ∧ x ≤ t := fun hx => ⟨hx.1, hx.2.trans (min_le_left _ _)⟩
  have hBM : ∀ x y : ℝ, |M.sub.eval (galaxiesParams q hasSky sky) x y| ≤ B := by
    intro x y
    rw [hsub, C169_sum, sky_value hnosky hsky.1 hsky.2]
    exact hB N q sky hq hsky x y
  obtain ⟨h1, h2⟩ := C180_accuracy law hu.1 (hu.2.trans (min_le_right _ _)) hγ.1 hκ.1 hζ.1 le_rfl hη.1 hM hpos hM' hfit hBM hS hin
  have hs := hsmall u γ κ ζ η (hle hu) (hle hγ) (hle hκ) (hle hζ) (hle hη)
  refine ⟨h1, fun vals hv => ?_⟩
  obtain ⟨vals', h3, h4⟩ := h2 vals hv
  exact ⟨vals', h3, h4.imp fun a b hab => hab.trans hs⟩

/-! ### Example -/

theorem FloatLaw.mono {L : Nat} {u γ κ γ' κ' : ℝ} {ops : FloatOps ℝ} (law : FloatLaw L u γ κ ops) (hγ : γ ≤ γ') (hκ : κ ≤ κ') : FloatLaw L u γ' κ' ops where
  relErr := law.relErr
  halves := law.halves
  sum l hl := (law.sum l hl).trans (mul_le_mul_of_nonneg_right hγ (List.sum_nonneg fun x hx => by
    obtain ⟨y, _, rfl⟩ := List.mem_map.1 hx
    exact abs_nonneg y))
  shape := law.shape
  conv im Q G h1 h2 h3 h4 hG i hi j hj := by
    refine (law.conv im Q G h1 h2 h3 h4 hG i hi j hj).trans ?_
    have hG0 : 0 ≤ G := (abs_nonneg _).trans (hG i hi j hj)
    exact mul_le_mul_of_nonneg_right (mul_le_mul_of_nonneg_right hκ hG0) (Finset.sum_nonneg fun _ _ => Finset.sum_nonneg fun _ _ => abs_nonneg _)

/-- A ridge of light along the y axis, with no parameters. -/
noncomputable def ridgeSub : SubModel ℝ := ⟨[], fun _ x _ => 1 / (1 + x ^ 2)⟩

theorem ridge_bound (x : ℝ) : |1 / (1 + x ^ 2)| ≤ 1 := by
  have h : 0 < 1 + x ^ 2 := by positivity
  rw [abs_of_pos (by positivity), div_le_one h]
  nlinarith [sq_nonneg x]

theorem ridge_near (a b : ℝ) : |1 / (1 + a ^ 2) - 1 / (1 + b ^ 2)| ≤ |a - b| := by
  have h1 : 0 < 1 + a ^ 2 := by positivity
  have h2 : 0 < 1 + b ^ 2 := by positivity
  rw [div_sub_div _ _ h1.ne' h2.ne', abs_div, abs_of_pos (mul_pos h1 h2), div_le_iff₀ (mul_pos h1 h2)]
  rw [show 1 * (1 + b ^ 2) - (1 + a ^ 2) * 1 = (b - a) * (a + b) by ring, abs_mul, abs_sub_comm]
  refine mul_le_mul_of_nonneg_left ?_ (abs_nonneg _)
  have h3 := abs_add_le a b
  have h4 := sq_abs a
  have h5 := sq_abs b
  nlinarith [sq_nonneg (|a| - 1 / 2), sq_nonneg (|b| - 1 / 2), mul_nonneg (sq_nonneg a) (sq_nonneg b)]

/-- The ridge through the PSF of C166, oversampled 4 times, in binary64 on an image of 100 times 100 pixels: all values are accurate to ten digits after the point. -/
example (rot : Img ℝ → ℝ → Img ℝ) {idx : List (Nat × Nat)} (hin : ∀ p ∈ idx, p.1 < 100 ∧ p.2 < 100) :
    CallsUpTo (1 / 10 ^ 10) ({ crossModel with sub := ⟨[], fun _ x _ => fl53 (1 / (1 + x ^ 2))⟩ }.evaluateFl (directOps fl53 rot) (pixelCoords idx) [] 0)
      ({ crossModel with sub := ridgeSub }.evaluate rot (pixelCoords idx) [] 0).1 := by
  have hlog : ∀ n m : Nat, n < 2 ^ m → n ≠ 0 → Nat.log 2 n < m := fun n m h h0 => Nat.log_lt_of_lt_pow h0 h
  have d1 : pwDepth 1603 ≤ 60 := by
    have := hlog (1603 - 15) 30 (by norm_num) (by norm_num)
    unfold pwDepth
    omega
  have d2 : pwDepth (1603 * 1603) + 1 ≤ 60 := by
    have := hlog (1603 * 1603 - 15) 30 (by norm_num) (by norm_num)
    unfold pwDepth
    omega
  have d3 : ∀ d : Nat, d ≤ 60 → (1 + (2 : ℝ) ^ (-(53 : ℤ))) ^ d - 1 ≤ 1 / 10 ^ 11 := fun d hd => by
    refine (sub_le_sub_right (pow_le_pow_right₀ (by norm_num) hd) 1).trans ?_
    norm_num
  have law := FloatLaw.mono (C180_binary64 (L := 1603) (by norm_num) rot) (d3 _ d1) (d3 _ d2)
  have h := C180_accuracy (M := { crossModel with sub := ridgeSub }) (M' := { crossModel with sub := ⟨[], fun _ x _ => fl53 (1 / (1 + x ^ 2))⟩ }) (rot := rot) (params := [])
    (ζ := 0) (P := 1) (B := 1) (η := 1 / 10 ^ 11) (pa := 0) (h := 100) (w := 100) law (by norm_num) (by norm_num) (by norm_num) (by norm_num) le_rfl le_rfl (by norm_num)
    (fun r hr => by simp [crossModel] at hr) (by simp [crossModel, oversampleFactor, psfFactor])
    ⟨rfl, rfl, rfl, fun h => h, fun psf hpsf => ⟨psf, hpsf, ?_, ?_⟩⟩ ⟨?_, ?_, ?_, ?_⟩ (fun x y => ridge_bound x) ?_ hin
  · obtain ⟨h1, h2⟩ := h
    refine ⟨h1, fun vals hv => ?_⟩
    obtain ⟨vals', h3, h4⟩ := h2 vals hv
    refine ⟨vals', h3, h4.imp fun a b hab => hab.trans ?_⟩
    norm_num [imageErr, meanErr, convErr]
  · have hQ : psf = ⟨3, 3, fun u v => if u = 1 ∧ v = 1 then 1 / 2 else if u = 1 ∨ v = 1 then 1 / 8 else 0⟩ := by
      simpa [crossModel] using hpsf.symm
    simp only [kernel, ne_eq, not_true_eq_false, if_false]
    subst hQ
    exact ⟨rfl, rfl, ⟨by norm_num, by norm_num⟩, by simp⟩
  · have hQ : psf = ⟨3, 3, fun u v => if u = 1 ∧ v = 1 then 1 / 2 else if u = 1 ∨ v = 1 then 1 / 8 else 0⟩ := by
      simpa [crossModel] using hpsf.symm
    simp only [kernel, ne_eq, not_true_eq_false, if_false]
    subst hQ
    simp [absTotal, Finset.sum_range_succ]
    norm_num [abs_of_pos]
  · simp [PSFModel.gridFactor, crossModel, oversampleFactor]
  · simp [PSFModel.gridFactor, crossModel, oversampleFactor, psfFactor]
  · simp [crossModel, psfFactor]
  · intro x y size f hw
    simp [crossModel] at hw
  · intro x y x' y' _ _ hx _
    show |fl53 (1 / (1 + x' ^ 2)) - 1 / (1 + x ^ 2)| ≤ _
    have h1 := flBits_relErr (K := ℝ) 53 (by decide) (1 / (1 + x' ^ 2))
    have h2 := abs_sub_le (fl53 (1 / (1 + x' ^ 2))) (1 / (1 + x' ^ 2)) (1 / (1 + x ^ 2))
    have h3 := ridge_near x' x
    have h4 := mul_le_mul_of_nonneg_left (ridge_bound x') (show (0 : ℝ) ≤ 2 ^ (-((53 : Nat) : ℤ)) by positivity)
    have h5 : (2 : ℝ) ^ (-((53 : Nat) : ℤ)) * 1 + 6 * 2 ^ (-(53 : ℤ)) * ((1603 : Nat) : ℝ) ≤ 1 / 10 ^ 11 := by norm_num
    have h6 : |fl53 (1 / (1 + x' ^ 2)) - 1 / (1 + x' ^ 2)| ≤ 2 ^ (-((53 : Nat) : ℤ)) * |1 / (1 + x' ^ 2)| := h1
    exact h2.trans ((add_le_add (h6.trans h4) (h3.trans hx)).trans h5)

end Verif.Props

import Verif.Lemmas.SimulationEntries
import Verif.Props.Fitting
import Verif.Props.PhotometryUnits
import Verif.Props.PSFImage

/-!
# The images of the simulations with PSF and oversampling
-/

set_option linter.unusedSectionVars false
set_option linter.unusedVariables false

namespace Verif.Props

open F Spec Lemmas Real Filter Topology

/-! ### Mean values -/

theorem mean_between {k : Nat} (hk : 0 < k) {lo hi : ℝ} {t : Nat → Nat → ℝ} (h : ∀ a b, a < k → b < k → lo ≤ t a b ∧ t a b ≤ hi) :
    lo ≤ (∑ a ∈ Finset.range k, ∑ b ∈ Finset.range k, t a b) / (k : ℝ) ^ 2 ∧
      (∑ a ∈ Finset.range k, ∑ b ∈ Finset.range k, t a b) / (k : ℝ) ^ 2 ≤ hi := by
  have hk' : (0 : ℝ) < (k : ℝ) ^ 2 := by positivity
  have e : ∀ z : ℝ, z * (k : ℝ) ^ 2 = ∑ a ∈ Finset.range k, ∑ b ∈ Finset.range k, z := by
    intro z; simp; ring
  rw [le_div_iff₀ hk', div_le_iff₀ hk', e, e]
  constructor
  · exact Finset.sum_le_sum fun a ha => Finset.sum_le_sum fun b hb => (h a b (Finset.mem_range.1 ha) (Finset.mem_range.1 hb)).1
  · exact Finset.sum_le_sum fun a ha => Finset.sum_le_sum fun b hb => (h a b (Finset.mem_range.1 ha) (Finset.mem_range.1 hb)).2

/-- A PSF without negative pixels whose sum is 1. -/
def UnitPsf (P : Img ℝ) : Prop :=
  (∀ u v, u < P.h → v < P.w → 0 ≤ P.px u v) ∧ ∑ u ∈ Finset.range P.h, ∑ v ∈ Finset.range P.w, P.px u v = 1

theorem convAt_between {P : Img ℝ} (hP : UnitPsf P) {lo hi : ℝ} {T : Int → Int → ℝ} {r c : Int}
    (h : ∀ u v : Nat, u < P.h → v < P.w → lo ≤ T (r + ((P.h - 1) / 2 : Nat) - u) (c + ((P.w - 1) / 2 : Nat) - v) ∧
      T (r + ((P.h - 1) / 2 : Nat) - u) (c + ((P.w - 1) / 2 : Nat) - v) ≤ hi) : lo ≤ convAt P T r c ∧ convAt P T r c ≤ hi := by
  have e : ∀ z : ℝ, z = ∑ u ∈ Finset.range P.h, ∑ v ∈ Finset.range P.w, P.px u v * z := by
    intro z
    simp only [← Finset.sum_mul]
    rw [hP.2, one_mul]
  unfold convAt
  constructor
  · rw [e lo]
    exact Finset.sum_le_sum fun u hu => Finset.sum_le_sum fun v hv => mul_le_mul_of_nonneg_left
      (h u v (Finset.mem_range.1 hu) (Finset.mem_range.1 hv)).1 (hP.1 u v (Finset.mem_range.1 hu) (Finset.mem_range.1 hv))
  · rw [e hi]
    exact Finset.sum_le_sum fun u hu => Finset.sum_le_sum fun v hv => mul_le_mul_of_nonneg_left
      (h u v (Finset.mem_range.1 hu) (Finset.mem_range.1 hv)).2 (hP.1 u v (Finset.mem_range.1 hu) (Finset.mem_range.1 hv))

/-- Distances from the centre differ by no more than the points. -/
theorem distTo_near (x y x' y' cx cy : ℝ) : |distTo x y cx cy - distTo x' y' cx cy| ≤ |x - x'| + |y - y'| := by
  have key : ∀ x y x' y' : ℝ, distTo x y cx cy ≤ distTo x' y' cx cy + (|x - x'| + |y - y'|) := by
    intro x y x' y'
    unfold distTo
    set a := x' - cx with ha
    set b := y' - cy with hb
    have e1 : x - cx = a + (x - x') := by rw [ha]; ring
    have e2 : y - cy = b + (y - y') := by rw [hb]; ring
    rw [e1, e2]
    set u := x - x'
    set v := y - y'
    have hs := Real.sqrt_nonneg (a ^ 2 + b ^ 2)
    have hsq := Real.sq_sqrt (by positivity : 0 ≤ a ^ 2 + b ^ 2)
    have h1 : |a| ≤ √(a ^ 2 + b ^ 2) := Real.abs_le_sqrt (by nlinarith [sq_nonneg b])
    have h2 : |b| ≤ √(a ^ 2 + b ^ 2) := Real.abs_le_sqrt (by nlinarith [sq_nonneg a])
    have hu := abs_nonneg u
    have hv := abs_nonneg v
    rw [Real.sqrt_le_left (by linarith)]
    have m1 : a * u ≤ √(a ^ 2 + b ^ 2) * |u| := by
      calc a * u ≤ |a * u| := le_abs_self _
        _ = |a| * |u| := abs_mul _ _
        _ ≤ _ := mul_le_mul_of_nonneg_right h1 hu
    have m2 : b * v ≤ √(a ^ 2 + b ^ 2) * |v| := by
      calc b * v ≤ |b * v| := le_abs_self _
        _ = |b| * |v| := abs_mul _ _
        _ ≤ _ := mul_le_mul_of_nonneg_right h2 hv
    have q1 := sq_abs u
    have q2 := sq_abs v
    nlinarith
  have h1 := key x y x' y'
  have h2 := key x' y' x y
  rw [abs_sub_comm x' x, abs_sub_comm y' y] at h2
  rw [abs_le]
  constructor <;> linarith

/-- Where the samples behind a pixel are. -/
theorem sample_near {p k i a q b : Nat} {e : Int} (hp : 0 < p) (hk : 0 < k) (ha : a < p) (hb : b < k) (he : |e| ≤ q) :
    |cellCentre (0 : ℝ) p (((i * p + a : Nat) : Int) + e) - i| ≤ q + 1 / 2 ∧
    |(1 : ℝ) / p * (((b : ℝ) + 1 / 2) / k - 1 / 2)| ≤ 1 / 2 := by
  have hp1 : (1 : ℝ) ≤ p := by exact_mod_cast hp
  have hk0 : (0 : ℝ) < k := by exact_mod_cast hk
  have ha1 : (a : ℝ) + 1 ≤ p := by exact_mod_cast ha
  have hb1 : (b : ℝ) + 1 ≤ k := by exact_mod_cast hb
  have ha0 : (0 : ℝ) ≤ a := Nat.cast_nonneg _
  have hb0 : (0 : ℝ) ≤ b := Nat.cast_nonneg _
  have he' : |(e : ℝ)| ≤ q := by exact_mod_cast he
  constructor
  · have e1 : cellCentre (0 : ℝ) p (((i * p + a : Nat) : Int) + e) - i = (((a : ℝ) + 1 / 2) / p - 1 / 2) + (e : ℝ) / p := by
      unfold cellCentre
      push_cast
      have : (p : ℝ) ≠ 0 := by linarith
      field_simp
      ring
    rw [e1]
    have h1 : |((a : ℝ) + 1 / 2) / p - 1 / 2| ≤ 1 / 2 := by
      rw [abs_le]
      constructor
      · have : 0 ≤ ((a : ℝ) + 1 / 2) / p := by positivity
        linarith
      · have : ((a : ℝ) + 1 / 2) / p ≤ 1 := by rw [div_le_one (by linarith)]; linarith
        linarith
    have h2 : |(e : ℝ) / p| ≤ q := by
      rw [abs_div, abs_of_pos (by linarith : (0 : ℝ) < p)]
      exact (div_le_self (abs_nonneg _) hp1).trans he'
    linarith [abs_add_le (((a : ℝ) + 1 / 2) / p - 1 / 2) ((e : ℝ) / p)]
  · have h1 : |((b : ℝ) + 1 / 2) / k - 1 / 2| ≤ 1 / 2 := by
      rw [abs_le]
      constructor
      · have : 0 ≤ ((b : ℝ) + 1 / 2) / k := by positivity
        linarith
      · have : ((b : ℝ) + 1 / 2) / k ≤ 1 := by rw [div_le_one hk0]; linarith
        linarith
    rw [abs_mul, abs_of_pos (by positivity)]
    have h2 : (1 : ℝ) / p ≤ 1 := by rw [div_le_one (by linarith)]; exact hp1
    have := mul_le_mul h2 h1 (abs_nonneg _) (by norm_num)
    linarith

/-- Cells whose centre is on the image are cells of the image. -/
theorem cell_inside {p N : Nat} {c : Int} (hp : 0 < p) (h0 : 0 ≤ cellCentre (0 : ℝ) p c) (h1 : cellCentre (0 : ℝ) p c ≤ N - 1) :
    0 ≤ c ∧ c < (N * p : Nat) := by
  have hp' : (0 : ℝ) < p := by exact_mod_cast hp
  unfold cellCentre at h0 h1
  have a1 : 1 / 2 ≤ ((c : ℝ) + 1 / 2) / p := by linarith
  have a2 : ((c : ℝ) + 1 / 2) / p ≤ N - 1 / 2 := by linarith
  rw [le_div_iff₀ hp'] at a1
  rw [div_le_iff₀ hp'] at a2
  constructor
  · by_contra h
    have : c ≤ -1 := by omega
    have : (c : ℝ) ≤ -1 := by exact_mod_cast this
    linarith
  · by_contra h
    have : ((N * p : Nat) : Int) ≤ c := by omega
    have : ((N * p : Nat) : ℝ) ≤ c := by exact_mod_cast this
    push_cast at this
    linarith

/-- Moving a point moves its elliptical radius by at most the elongation times the way. -/
theorem ellRadius_near {ellip : ℝ} (h0 : 0 ≤ ellip) (h1 : ellip < 1) (theta x y x' y' cx cy : ℝ) :
    |ellRadius x y cx cy ellip theta - ellRadius x' y' cx cy ellip theta| ≤ (|x - x'| + |y - y'|) / (1 - ellip) := by
  have hq : 0 < 1 - ellip := by linarith
  have key : ∀ a b a' b' : ℝ, distTo a b a' b' ≤ |a - a'| + |b - b'| := by
    intro a b a' b'
    have := (abs_le.1 (distTo_near a b a' b' a' b')).2
    have e : distTo a' b' a' b' = 0 := by simp [distTo]
    rw [e, sub_zero] at this
    exact this
  have l1 := ellRadius_lip (x0 := cx) (y0 := cy) (theta := theta) h0 h1 (x, y) (x', y')
  have l2 := ellRadius_lip (x0 := cx) (y0 := cy) (theta := theta) h0 h1 (x', y') (x, y)
  simp only at l1 l2
  have k1 := div_le_div_of_nonneg_right (key x y x' y') hq.le
  have k2 := div_le_div_of_nonneg_right (key x' y' x y) hq.le
  rw [abs_sub_comm x' x, abs_sub_comm y' y] at k2
  rw [abs_le]
  constructor <;> linarith

/-- Coordinates are at most the elliptical radius away from the centre. -/
theorem coord_le_ellRadius {ellip : ℝ} (h0 : 0 ≤ ellip) (h1 : ellip < 1) (theta x y cx cy : ℝ) :
    |x - cx| ≤ ellRadius x y cx cy ellip theta ∧ |y - cy| ≤ ellRadius x y cx cy ellip theta := by
  have hq : 0 < 1 - ellip := by linarith
  have hcs := Real.cos_sq_add_sin_sq theta
  have hsq : (x - cx) ^ 2 + (y - cy) ^ 2 ≤ ((x - cx) * Real.cos theta + (y - cy) * Real.sin theta) ^ 2 +
      ((-(x - cx) * Real.sin theta + (y - cy) * Real.cos theta) / (1 - ellip)) ^ 2 := by
    have e : (x - cx) ^ 2 + (y - cy) ^ 2 = ((x - cx) * Real.cos theta + (y - cy) * Real.sin theta) ^ 2 +
        (-(x - cx) * Real.sin theta + (y - cy) * Real.cos theta) ^ 2 := by
      have : ((x - cx) * Real.cos theta + (y - cy) * Real.sin theta) ^ 2 +
        (-(x - cx) * Real.sin theta + (y - cy) * Real.cos theta) ^ 2 =
        ((x - cx) ^ 2 + (y - cy) ^ 2) * (Real.cos theta ^ 2 + Real.sin theta ^ 2) := by ring
      rw [this, hcs, mul_one]
    rw [e]
    have : (-(x - cx) * Real.sin theta + (y - cy) * Real.cos theta) ^ 2 ≤
        ((-(x - cx) * Real.sin theta + (y - cy) * Real.cos theta) / (1 - ellip)) ^ 2 := by
      rw [div_pow, le_div_iff₀ (by positivity)]
      have : (1 - ellip) ^ 2 ≤ 1 := by nlinarith
      nlinarith [sq_nonneg (-(x - cx) * Real.sin theta + (y - cy) * Real.cos theta)]
    linarith
  unfold ellRadius
  exact ⟨Real.abs_le_sqrt (by nlinarith [sq_nonneg (y - cy)]), Real.abs_le_sqrt (by nlinarith [sq_nonneg (x - cx)])⟩

/-- The image of a galaxy on a square frame through a PSF is blurred. -/
theorem psfCells_blurred_ell {I : ℝ → ℝ} (G : Galaxy I) {s : ℝ} (hs : 0 < s) {ellip theta cx cy : ℝ} (he0 : 0 ≤ ellip) (he1 : ellip < 1)
    {g : ℝ → ℝ → ℝ} (hg : ∀ x y, g x y = I (ellRadius x y cx cy ellip theta / s)) {P : Img ℝ} (hP : UnitPsf P) {p : Nat} (hp : 0 < p)
    {k : Int → Int → Nat} (hk : ∀ r c, 0 < k r c) {N : Nat} {D : ℝ} (hx0 : D ≤ cx) (hy0 : D ≤ cy) (hx1 : cx + D ≤ N) (hy1 : cy + D ≤ N) :
    Blurred I s (((P.h + P.w + 2 : Nat) : ℝ) / (1 - ellip)) cx cy ellip theta N N D
      fun i j => cellsOfPixel (convAt P (psfCells g 0 0 N p k)) p i j := by
  have hq : 0 < 1 - ellip := by linarith
  set B : ℝ := ((P.h + P.w + 2 : Nat) : ℝ) / (1 - ellip) with hB
  have hB' : (P.h : ℝ) + P.w + 2 ≤ B := by
    have e : ((P.h + P.w + 2 : Nat) : ℝ) = P.h + P.w + 2 := by push_cast; ring
    rw [hB, e]
    exact le_div_self (by positivity) hq (by linarith)
  have anti : ∀ x y, 0 ≤ x → x ≤ y → I y ≤ I x := fun x y hx hxy =>
    G.falls.antitoneOn (Set.mem_Ici.2 hx) (Set.mem_Ici.2 (hx.trans hxy)) hxy
  -- one cell
  have cell : ∀ i j : Nat, ∀ a b, a < p → b < p → ∀ u v : Nat, u < P.h → v < P.w →
      (0 ≤ psfCells g 0 0 N p k (((i * p + a : Nat) : Int) + ((P.h - 1) / 2 : Nat) - u) (((j * p + b : Nat) : Int) + ((P.w - 1) / 2 : Nat) - v)) ∧
      psfCells g 0 0 N p k (((i * p + a : Nat) : Int) + ((P.h - 1) / 2 : Nat) - u) (((j * p + b : Nat) : Int) + ((P.w - 1) / 2 : Nat) - v) ≤
        I (max (ellRadius (j : ℝ) i cx cy ellip theta - B) 0 / s) ∧
      (ellRadius (j : ℝ) i cx cy ellip theta + B ≤ D → I ((ellRadius (j : ℝ) i cx cy ellip theta + B) / s) ≤
        psfCells g 0 0 N p k (((i * p + a : Nat) : Int) + ((P.h - 1) / 2 : Nat) - u) (((j * p + b : Nat) : Int) + ((P.w - 1) / 2 : Nat) - v)) := by
    intro i j a b ha hb u v hu hv
    have er : |(((P.h - 1) / 2 : Nat) : Int) - u| ≤ P.h := by
      rw [abs_le]; generalize hm : (P.h - 1) / 2 = m; constructor <;> omega
    have ec : |(((P.w - 1) / 2 : Nat) : Int) - v| ≤ P.w := by
      rw [abs_le]; generalize hm : (P.w - 1) / 2 = m; constructor <;> omega
    rw [add_sub_assoc, add_sub_assoc]
    generalize (((P.h - 1) / 2 : Nat) : Int) - u = du at *
    generalize (((P.w - 1) / 2 : Nat) : Int) - v = dv at *
    set r : Int := ((i * p + a : Nat) : Int) + du with hr
    set c : Int := ((j * p + b : Nat) : Int) + dv with hc
    set d := ellRadius (j : ℝ) i cx cy ellip theta with hdd
    have hd0 : 0 ≤ d := Real.sqrt_nonneg _
    have hmean := mean_between (hk r c) (lo := I ((d + B) / s)) (hi := I (max (d - B) 0 / s))
      (t := fun a' b' => g (cellCentre 0 p c + 1 / p * ((b' + 1 / 2) / (k r c : ℕ) - 1 / 2)) (cellCentre 0 p r + 1 / p * ((a' + 1 / 2) / (k r c : ℕ) - 1 / 2)))
      (by
        intro a' b' ha' hb'
        obtain ⟨n1, n2⟩ := sample_near (i := i) hp (hk r c) ha ha' er
        obtain ⟨n3, n4⟩ := sample_near (i := j) hp (hk r c) hb hb' ec
        rw [← hr] at n1
        rw [← hc] at n3
        rw [hg]
        generalize 1 / (p : ℝ) * (((a' : ℝ) + 1 / 2) / (k r c : ℕ) - 1 / 2) = oa at n2 ⊢
        generalize 1 / (p : ℝ) * (((b' : ℝ) + 1 / 2) / (k r c : ℕ) - 1 / 2) = ob at n4 ⊢
        generalize cellCentre (0 : ℝ) p c = xc at n3 ⊢
        generalize cellCentre (0 : ℝ) p r = yc at n1 ⊢
        have hn := ellRadius_near he0 he1 theta (xc + ob) (yc + oa) (j : ℝ) i cx cy
        have t1 : |xc + ob - j| ≤ P.w + 1 := by
          have : xc + ob - j = (xc - j) + ob := by ring
          rw [this]; linarith [abs_add_le (xc - (j : ℝ)) ob]
        have t2 : |yc + oa - i| ≤ P.h + 1 := by
          have : yc + oa - i = (yc - i) + oa := by ring
          rw [this]; linarith [abs_add_le (yc - (i : ℝ)) oa]
        rw [← hdd] at hn
        have hn' := abs_le.1 (hn.trans (by
          rw [hB]
          refine div_le_div_of_nonneg_right ?_ hq.le
          push_cast
          linarith : _ ≤ B))
        have hD0 : 0 ≤ ellRadius (xc + ob) (yc + oa) cx cy ellip theta := Real.sqrt_nonneg _
        refine ⟨anti _ _ (div_nonneg hD0 hs.le) (div_le_div_of_nonneg_right (by linarith) hs.le),
          anti _ _ (div_nonneg (le_max_right _ _) hs.le) (div_le_div_of_nonneg_right (max_le (by linarith) hD0) hs.le)⟩)
    have hB0 : 0 ≤ B := div_nonneg (Nat.cast_nonneg _) hq.le
    have hpos : 0 < I ((d + B) / s) := G.pos _ (div_nonneg (by linarith) hs.le)
    have hpos' : 0 < I (max (d - B) 0 / s) := G.pos _ (div_nonneg (le_max_right _ _) hs.le)
    unfold psfCells
    split_ifs with hin
    · exact ⟨hpos.le.trans hmean.1, hmean.2, fun _ => hmean.1⟩
    · refine ⟨le_rfl, hpos'.le, fun hroom => absurd ?_ hin⟩
      obtain ⟨n1, -⟩ := sample_near (i := i) hp one_pos ha one_pos er
      obtain ⟨n3, -⟩ := sample_near (i := j) hp one_pos hb one_pos ec
      rw [← hr] at n1
      rw [← hc] at n3
      obtain ⟨hx, hy⟩ := coord_le_ellRadius he0 he1 theta (j : ℝ) i cx cy
      rw [← hdd] at hx hy
      have n1' := abs_le.1 n1
      have n3' := abs_le.1 n3
      have hx' := abs_le.1 hx
      have hy' := abs_le.1 hy
      have hPh : (0 : ℝ) ≤ P.h := Nat.cast_nonneg _
      have hPw : (0 : ℝ) ≤ P.w := Nat.cast_nonneg _
      obtain ⟨q1, q2⟩ := cell_inside (N := N) (c := r) hp (by linarith) (by linarith)
      obtain ⟨q3, q4⟩ := cell_inside (N := N) (c := c) hp (by linarith) (by linarith)
      exact ⟨q1, q2, q3, q4⟩
  refine ⟨fun i j _ _ => ?_, fun i j _ _ => ?_, fun i j _ _ hroom => ?_⟩
  · exact (mean_between hp (hi := I (max (ellRadius (j : ℝ) i cx cy ellip theta - B) 0 / s)) fun a b ha hb => convAt_between hP fun u v hu hv =>
      ⟨(cell i j a b ha hb u v hu hv).1, (cell i j a b ha hb u v hu hv).2.1⟩).1
  · exact (mean_between hp (lo := 0) fun a b ha hb => convAt_between hP fun u v hu hv =>
      ⟨(cell i j a b ha hb u v hu hv).1, (cell i j a b ha hb u v hu hv).2.1⟩).2
  · exact (mean_between hp (hi := I (max (ellRadius (j : ℝ) i cx cy ellip theta - B) 0 / s)) fun a b ha hb => convAt_between hP fun u v hu hv =>
      ⟨(cell i j a b ha hb u v hu hv).2.2 hroom, (cell i j a b ha hb u v hu hv).2.1⟩).1

/-- The image of a galaxy around pixel `[R, R]` through a PSF is blurred. -/
theorem psfCells_blurred {I : ℝ → ℝ} (G : Galaxy I) {s : ℝ} (hs : 0 < s) {g : ℝ → ℝ → ℝ} {R : Nat} (hg : ∀ x y, g x y = I (distTo x y R R / s))
    {P : Img ℝ} (hP : UnitPsf P) {p : Nat} (hp : 0 < p) {k : Int → Int → Nat} (hk : ∀ r c, 0 < k r c) :
    Blurred I s ((P.h + P.w + 2 : Nat) : ℝ) R R 0 0 (R * 2) (R * 2) R
      fun i j => cellsOfPixel (convAt P (psfCells g 0 0 (R * 2) p k)) p i j := by
  have := psfCells_blurred_ell G hs (ellip := 0) (theta := 0) (cx := R) (cy := R) le_rfl one_pos
    (g := g) (fun x y => by rw [hg, ellRadius_circle]) hP hp hk (N := R * 2) (D := R) le_rfl le_rfl (by push_cast; linarith) (by push_cast; linarith)
  rwa [sub_zero, div_one] at this

/-! ### The image of a model -/

/-- `model_to_image` of a wrapped model whose values on the pixel grid are known. -/
theorem modelToImage_evaluate {size : SizeArg ℝ} {center : Option (CenterArg ℝ)} {nx ny : Nat} {ox oy : ℝ}
    (h : Describes size center nx ny ox oy) (hx : 0 < nx) (hy : 0 < ny) (integ : GridModel ℝ → ℝ × ℝ → ℝ × ℝ → Except PyErr (Img ℝ))
    (M : PSFModel ℝ) (rot : Img ℝ → ℝ → Img ℝ) (params : List ℝ) (pa : ℝ) {V : Nat → Nat → ℝ}
    (hV : ∀ coords, OnGrid coords ox oy (nx - 1) (ny - 1) →
      (M.evaluate rot coords params pa).1 = .ok (coords.map fun c => V (PSFModel.indexOf c.2 oy) (PSFModel.indexOf c.1 ox))) (factor : Int) :
    ∃ im, modelToImage integ (M.onGrid rot params pa) size .center (factor : ℝ) center = .ok im ∧ im.h = ny ∧ im.w = nx ∧
      ∀ j i, j < ny → i < nx → im.px j i = V j i := by
  rw [modelToImage_run h, discretize_checks]
  simp only
  unfold discretizeCenter meshgrid PSFModel.onGrid
  simp only
  rw [(npArange_add ox nx).1, (npArange_add oy ny).1]
  have hcoords : ((List.range ny).flatMap fun i => (List.range nx).map fun j =>
      ((npArange ox (ox + nx)).getD j 0, (npArange oy (oy + ny)).getD i 0)) =
      (List.range ny).flatMap fun i : Nat => (List.range nx).map fun j : Nat => (ox + (j : ℝ), oy + (i : ℝ)) := by
    apply List.flatMap_congr
    intro i hi
    apply List.map_congr_left
    intro j hj
    rw [List.mem_range] at hi hj
    rw [(npArange_add ox nx).2 j hj, (npArange_add oy ny).2 i hi]
  rw [hcoords]
  set coords := (List.range ny).flatMap fun i : Nat => (List.range nx).map fun j : Nat => (ox + (j : ℝ), oy + (i : ℝ)) with hco
  have hmem : ∀ c, c ∈ coords ↔ ∃ i, i < ny ∧ ∃ j, j < nx ∧ (ox + (j : ℝ), oy + (i : ℝ)) = c := by
    intro c
    simp only [hco, List.mem_flatMap, List.mem_map, List.mem_range]
  have hX := min_max_axis nx hx ox (coords.map (·.1))
    (by
      intro x hxm
      obtain ⟨c, hcm, rfl⟩ := List.mem_map.1 hxm
      obtain ⟨i, _, j, hj, rfl⟩ := (hmem c).1 hcm
      exact ⟨j, hj, rfl⟩)
    (fun k hk => List.mem_map.2 ⟨(ox + (k : ℝ), oy + ((0 : Nat) : ℝ)), (hmem _).2 ⟨0, hy, k, hk, rfl⟩, rfl⟩)
  have hY := min_max_axis ny hy oy (coords.map (·.2))
    (by
      intro x hxm
      obtain ⟨c, hcm, rfl⟩ := List.mem_map.1 hxm
      obtain ⟨i, hi, j, _, rfl⟩ := (hmem c).1 hcm
      exact ⟨i, hi, rfl⟩)
    (fun k hk => List.mem_map.2 ⟨(ox + ((0 : Nat) : ℝ), oy + (k : ℝ)), (hmem _).2 ⟨k, hk, 0, hx, rfl⟩, rfl⟩)
  rw [hV coords ⟨hX.1, hY.1, hX.2, hY.2⟩]
  refine ⟨_, rfl, rfl, rfl, ?_⟩
  intro j i hj hi
  simp only [hco]
  rw [List.map_flatMap]
  simp only [List.map_map, Function.comp_def, indexOf_add]
  exact getD_rows nx (fun a b => V a b) 0 ny j i hj hi

/-- A window centre that stays on images of any size: the name of a centre parameter, or a number far enough from the edges at 0. -/
def CentreOk (size : Nat) (x : Center ℝ) : Prop :=
  x = .name "x_0" ∨ x = .name "y_0" ∨ ∃ v, x = .num v ∧ 0 ≤ corner v size

/-- Settings that make sense for a simulation: `PSFConvolvedModel2D` accepts them, the PSF has no negative pixels and sum 1, and an
oversampling window is placed on the image. -/
structure SimSettings.Usable (c : SimSettings) : Prop where
  accepted : ∃ M, PSFModel.init sersicSub c.psf c.oversample c.psfOversample = .ok M
  psf : ∀ P, c.psf = some P → UnitPsf P
  window : ∀ x y size factor, c.oversample = .window x y (some size) (some factor) → 0 ≤ size ∧ CentreOk size.toNat x ∧ CentreOk size.toNat y

theorem init_settings {sub : SubModel ℝ} {psf : Option (Img ℝ)} {o : OversampleArg ℝ} {p : PsfOversampleArg} {M : PSFModel ℝ}
    (h : PSFModel.init sub psf o p = .ok M) :
    M.sub = sub ∧ M.psf = psf ∧ CacheOk M ∧ Compatible M ∧ (psf = none → M.psfFactor = 1) ∧
    ∀ x y size f, M.oversample = .window x y size f → ∃ factor, o = .window x y (some size) (some factor) := by
  unfold PSFModel.init at h
  simp only at h
  cases ho : (⟨sub, psf, .none, none, true, 0, 0, none, none⟩ : PSFModel ℝ).setOversample o with
  | error e => rw [ho] at h; cases h
  | ok M1 =>
    rw [ho] at h
    change M1.setPsfOversample p = .ok M at h
    have h1 : M1.sub = sub ∧ M1.psf = psf ∧ M1.cachedRange = none ∧ M1.psfOversample = none ∧ 0 < M1.oversampleFactor ∧
        ∀ x y size f, M1.oversample = .window x y size f → ∃ factor, o = .window x y (some size) (some factor) := by
      have hck : ∀ (k : Int) (f : Nat), (⟨sub, psf, .none, none, true, 0, 0, none, none⟩ : PSFModel ℝ).checkFactor k = .ok f → 0 < f := by
        intro k f hf
        unfold PSFModel.checkFactor at hf
        split_ifs at hf
        cases hf
        omega
      cases o with
      | none =>
        cases ho
        exact ⟨rfl, rfl, rfl, rfl, Nat.one_pos, fun _ _ _ _ h => by cases h⟩
      | int k =>
        unfold PSFModel.setOversample at ho
        cases hf : (⟨sub, psf, .none, none, true, 0, 0, none, none⟩ : PSFModel ℝ).checkFactor k with
        | error e => simp only [hf] at ho; cases ho
        | ok f =>
          simp only [hf] at ho
          cases ho
          exact ⟨rfl, rfl, rfl, rfl, hck k f hf, fun _ _ _ _ h => by cases h⟩
      | window x y size factor =>
        unfold PSFModel.setOversample at ho
        cases size with
        | none => cases ho
        | some size =>
          cases factor with
          | none => cases ho
          | some factor =>
            cases hf : (⟨sub, psf, .none, none, true, 0, 0, none, none⟩ : PSFModel ℝ).checkFactor factor with
            | error e => simp only [hf] at ho; cases ho
            | ok f =>
              simp only [hf] at ho
              cases ho
              exact ⟨rfl, rfl, rfl, rfl, hck factor f hf, fun _ _ _ _ h => by cases h; exact ⟨factor, rfl⟩⟩
      | badLength => cases ho
      | other => cases ho
    obtain ⟨a1, a2, a3, a4, a5, a6⟩ := h1
    cases p with
    | none =>
      cases h
      exact ⟨a1, a2, fun r hr => by simp [a3] at hr, ⟨a5, Nat.one_pos, one_dvd _⟩, fun _ => rfl, a6⟩
    | int k =>
      unfold PSFModel.setPsfOversample at h
      simp only at h
      split_ifs at h with b1 b2 b3
      cases h
      have hk : 0 < k := by omega
      refine ⟨a1, a2, fun r hr => by simp [a3] at hr, ⟨a5, ?_, ?_⟩, fun hp => ?_, a6⟩
      · show 0 < k.toNat; omega
      · have : (k : Int) ∣ (M1.oversampleFactor : Int) := Int.dvd_of_emod_eq_zero (not_not.1 b3)
        have e : (k.toNat : Int) = k := Int.toNat_of_nonneg hk.le
        rw [← e] at this
        exact Int.natCast_dvd_natCast.1 this
      · rw [a2, hp] at b1; simp at b1
    | other =>
      unfold PSFModel.setPsfOversample at h
      simp only at h
      split_ifs at h

/-- The image of a wrapped model, with its window inside: cells, convolution, pixels. -/
theorem cells_image {M : PSFModel ℝ} (hM : CacheOk M) (hc : Compatible M) {P : Img ℝ} (hP : M.psf = some P) {N : Nat}
    (params : List ℝ)
    (hw : ∀ x y size f, M.oversample = .window x y size f → 0 ≤ size ∧ ∃ vx vy, PSFModel.centerValue M.sub params x = .ok vx ∧
      PSFModel.centerValue M.sub params y = .ok vy ∧ 0 ≤ corner vx size.toNat ∧ 0 ≤ corner vy size.toNat ∧
      corner vx size.toNat + size ≤ N + 1 ∧ corner vy size.toNat + size ≤ N + 1) :
    ∃ k : Int → Int → Nat, (∀ r c, 0 < k r c) ∧ ∀ (rot : Img ℝ → ℝ → Img ℝ) coords, OnGrid coords 0 0 N N →
      (M.evaluate rot coords params 0).1 = .ok (coords.map fun c =>
        cellsOfPixel (convAt P (psfCells (M.sub.eval params) 0 0 (N + 1) M.psfFactor k)) M.psfFactor (PSFModel.indexOf c.2 0)
          (PSFModel.indexOf c.1 0)) := by
  have hq : 0 < M.oversampleFactor / M.psfFactor := Nat.div_pos (Nat.le_of_dvd hc.1 hc.2.2) hc.2.1
  by_cases hwin : ∃ x y size f, M.oversample = .window x y size f
  · obtain ⟨x, y, size, f, ho⟩ := hwin
    obtain ⟨h0, vx, vy, e1, e2, e3, e4, e5, e6⟩ := hw x y size f ho
    obtain ⟨size, rfl⟩ := Int.eq_ofNat_of_zero_le h0
    have hf : M.oversampleFactor = f := by unfold PSFModel.oversampleFactor; rw [ho]
    refine ⟨fun r c => if corner vx size * M.psfFactor ≤ c ∧ c < (corner vx size + size) * M.psfFactor ∧
            corner vy size * M.psfFactor ≤ r ∧ r < (corner vy size + size) * M.psfFactor then f / M.psfFactor else 1, ?_, ?_⟩
    · intro r c
      dsimp only
      split_ifs
      · rw [← hf]; exact hq
      · exact Nat.one_pos
    · intro rot coords hg
      have := C119_window_partial M hM hc P hP x y size f ho rot coords N N hg params 0 vx vy e1 e2 e3 e4 e5 e6
      rw [max_self] at this
      rw [this]
      simp
  · refine ⟨fun _ _ => M.oversampleFactor / M.psfFactor, fun _ _ => hq, ?_⟩
    intro rot coords hg
    have := C119_evaluate M hM hc P hP (fun x y s f ho => hwin ⟨x, y, s, f, ho⟩) rot coords 0 0 _ _ hg.minX hg.maxX hg.minY hg.maxY params 0
    rw [indexOf_add, max_self] at this
    rw [this]
    simp

/-- For large images the window is on the image. -/
theorem window_fits {x : Center ℝ} {size : Nat} (hx : CentreOk size x) : ∃ m : ℝ, ∀ R : Nat, m ≤ R → ∀ a s n : ℝ,
    ∃ v, PSFModel.centerValue sersicSub [a, s, n, (R : ℝ), (R : ℝ), 0, 0] x = .ok v ∧ 0 ≤ corner v size ∧ corner v size + size ≤ (R * 2 : Nat) := by
  have nat : ∀ R : Nat, (size : ℝ) ≤ R → 0 ≤ corner (R : ℝ) size ∧ corner (R : ℝ) size + size ≤ (R * 2 : Nat) := by
    intro R h
    have h' : size ≤ R := by exact_mod_cast h
    unfold corner
    have e : rint (R : ℝ) = (R : Int) := by
      have := rint_int (K := ℝ) (R : Int)
      rwa [Int.cast_natCast] at this
    rw [e]
    generalize hm : size / 2 = m
    push_cast
    constructor <;> omega
  rcases hx with rfl | rfl | ⟨v, rfl, hv⟩
  · exact ⟨size, fun R hR a s n => ⟨R, rfl, nat R hR⟩⟩
  · exact ⟨size, fun R hR a s n => ⟨R, rfl, nat R hR⟩⟩
  · refine ⟨((corner v size + size : Int) : ℝ), fun R hR a s n => ⟨v, rfl, hv, ?_⟩⟩
    have : corner v size + (size : Int) ≤ R := by exact_mod_cast hR
    push_cast
    omega

/-- **Usable settings blur.** -/
theorem usable_blurs {n : ℝ} (hn : 0 < n) {c : SimSettings} (hc : c.Usable) : ∃ B, c.Blurs B n := by
  obtain ⟨⟨M, hM⟩, hpsf, hwin⟩ := hc
  obtain ⟨m1, m2, m3, m4, m5, m6⟩ := init_settings hM
  obtain ⟨m, hm⟩ : ∃ m : ℝ, ∀ R : Nat, m ≤ R → ∀ a s n : ℝ, ∀ x y size f, M.oversample = .window x y size f → 0 ≤ size ∧ ∃ vx vy,
      PSFModel.centerValue sersicSub [a, s, n, (R : ℝ), (R : ℝ), 0, 0] x = .ok vx ∧
      PSFModel.centerValue sersicSub [a, s, n, (R : ℝ), (R : ℝ), 0, 0] y = .ok vy ∧ 0 ≤ corner vx size.toNat ∧ 0 ≤ corner vy size.toNat ∧
      corner vx size.toNat + size ≤ (R * 2 : Nat) ∧ corner vy size.toNat + size ≤ (R * 2 : Nat) := by
    by_cases hw : ∃ x y size f, M.oversample = .window x y size f
    · obtain ⟨x, y, size, f, ho⟩ := hw
      obtain ⟨factor, hf⟩ := m6 x y size f ho
      obtain ⟨h0, hx, hy⟩ := hwin x y size factor hf
      obtain ⟨size, rfl⟩ := Int.eq_ofNat_of_zero_le h0
      obtain ⟨mx, hmx⟩ := window_fits hx
      obtain ⟨my, hmy⟩ := window_fits hy
      refine ⟨max mx my, fun R hR a s n x' y' size' f' ho' => ?_⟩
      rw [ho] at ho'
      cases ho'
      obtain ⟨vx, e1, e2, e3⟩ := hmx R ((le_max_left _ _).trans hR) a s n
      obtain ⟨vy, e4, e5, e6⟩ := hmy R ((le_max_right _ _).trans hR) a s n
      exact ⟨h0, vx, vy, e1, e4, e2, e5, e3, e6⟩
    · exact ⟨0, fun R _ a s n x y size f ho => absurd ⟨x, y, size, f, ho⟩ hw⟩
  -- without PSF: the PSF of one pixel
  set P : Img ℝ := c.psf.getD ⟨1, 1, fun _ _ => 1⟩ with hP
  have hPu : UnitPsf P := by
    cases h : c.psf with
    | none =>
      rw [hP, h]
      exact ⟨fun _ _ _ _ => zero_le_one, by simp⟩
    | some Q =>
      rw [hP, h]
      exact hpsf Q h
  refine ⟨P.h + P.w + 2, ?_⟩
  filter_upwards [sim_large hn, sim_room hn ((rTotal_pos hn).trans (rTotal_lt_reach hn)) (max m 1)] with s ⟨h2, h7⟩ hroom
  have hs : 0 < s := by linarith
  obtain ⟨R, hR0, hR, hmax⟩ := simRs_max hn hs
  have hRm : m ≤ R := by
    have := hroom R hR hmax
    rw [mul_zero, zero_add] at this
    exact (le_max_left _ _).trans this
  set params : List ℝ := [(simNumbers s n).amplitude, s, n, (R : ℝ), (R : ℝ), 0, 0] with hp
  have hsub : ∀ x y, sersicSub.eval params x y = gridProfile n (distTo x y R R / s) := by
    intro x y
    rw [← sim_profile hs]
    show sersic2D x y _ s n R R 0 0 = _
    unfold sersic2D Spec.sersic Spec.distTo
    simp only [Real.cos_zero, Real.sin_zero, mul_one, mul_zero, add_zero, zero_add, sub_zero, one_mul]
    have : Real.sqrt (((x - R) / s) ^ 2 + ((y - R) / s) ^ 2) = Real.sqrt ((x - R) ^ 2 + (y - R) ^ 2) / s := by
      rw [div_pow, div_pow, ← add_div, Real.sqrt_div' _ (by positivity), Real.sqrt_sq hs.le]
    rw [this]
    congr 2; ring
  have hN : R * 2 - 1 + 1 = R * 2 := by omega
  obtain ⟨k, hk, hcells⟩ := cells_image (M := M.setPsf (some P)) m3 m4 (P := P) rfl (N := R * 2 - 1) params (by
    intro x y size f ho
    have := hm R hRm (simNumbers s n).amplitude s n x y size f ho
    show _ ∧ ∃ vx vy, PSFModel.centerValue M.sub params x = .ok vx ∧ PSFModel.centerValue M.sub params y = .ok vy ∧ _
    rw [m1]
    have e : ((R * 2 - 1 : Nat) : Int) + 1 = ((R * 2 : Nat) : Int) := by omega
    rw [e]
    exact this)
  have hsame : ∀ rot coords, ((M.setPsf (some P)).evaluate rot coords params 0).1 = (M.evaluate rot coords params 0).1 := by
    intro rot coords
    cases h : c.psf with
    | none =>
      have e : M = M.setPsf none := by rw [h] at m2; unfold PSFModel.setPsf; rw [← m2]
      have hP1 : P = ⟨1, 1, fun _ _ => 1⟩ := by rw [hP, h]; rfl
      rw [C59_evaluate_identity M m3 P (by rw [hP1]; exact Nat.one_pos) (by rw [hP1]; exact Nat.one_pos) (by
        rw [hP1]
        intro a b ha hb
        obtain rfl : a = 0 := by simpa using ha
        obtain rfl : b = 0 := by simpa using hb
        simp) rot coords params, ← e]
    | some Q =>
      have e : M = M.setPsf (some P) := by
        have hPQ : P = Q := by rw [hP, h]; rfl
        rw [hPQ]
        rw [h] at m2; unfold PSFModel.setPsf; rw [← m2]
      rw [← e]
  rw [hN] at hcells
  refine ⟨R, fun i j => cellsOfPixel (convAt P (psfCells (sersicSub.eval params) 0 0 (R * 2) M.psfFactor k)) M.psfFactor i j, hR, hmax,
    psfCells_blurred (gridProfile_galaxy hn) hs hsub hPu m4.2.1 hk, fun integ rot => ?_⟩
  have hD : Describes (.num (fin ((R * 2 : Nat) : ℝ))) (some (.seq [(R : ℝ), (R : ℝ)])) (R * 2) (R * 2) (0 : ℝ) 0 := by
    refine ⟨Or.inl ⟨rfl, rfl⟩, Or.inr ⟨R, R, rfl, ?_, ?_⟩⟩ <;>
    · have : R * 2 / 2 = R := by omega
      rw [this, sub_self]
  obtain ⟨im, i1, i2, i3, i4⟩ := modelToImage_evaluate hD (by omega) (by omega) integ M rot params 0
    (V := fun i j => cellsOfPixel (convAt P (psfCells (sersicSub.eval params) 0 0 (R * 2) M.psfFactor k)) M.psfFactor i j) (by
      intro coords hg
      rw [← hsame]
      have := hcells rot coords hg
      rw [this]
      show Except.ok (coords.map fun c => cellsOfPixel (convAt P (psfCells (M.sub.eval params) 0 0 (R * 2) M.psfFactor k)) M.psfFactor _ _) = _
      rw [m1]) 1
  refine ⟨im, ?_, i2, i3, i4⟩
  unfold simImage
  simp only [simSize_eq hR hmax, simCentre_eq hR hmax, hM, Except.bind_ok]
  simpa using i1

end Verif.Props

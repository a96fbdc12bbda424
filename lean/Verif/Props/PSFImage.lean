import Verif.Props.PSFMore

/-!
# C119: the image of a model with a PSF, and C57 at PSF resolution
-/

set_option linter.unusedSectionVars false
set_option linter.unusedSimpArgs false

namespace Verif.Spec

variable {K : Type} [Field K] [LinearOrder K]

/-- The mean of `g` over the `k × k` equally spaced sub-samples of the square cell of width `w` centred at `(x, y)`. -/
def cellMean (g : K → K → K) (x y w : K) (k : Nat) : K :=
  (∑ a ∈ Finset.range k, ∑ b ∈ Finset.range k, g (x + w * ((b + 1 / 2) / k - 1 / 2)) (y + w * ((a + 1 / 2) / k - 1 / 2))) / (k : K) ^ 2

/-- The centre of cell `c` on an axis whose first pixel is centred at `x0` and whose pixels have `p` cells each. -/
def cellCentre (x0 : K) (p : Nat) (c : Int) : K := x0 + ((c + 1 / 2) / p - 1 / 2)

/-- The model at PSF resolution on an image of `n × n` pixels with `p × p` cells each, zero outside of the image; `k r c` is the
oversampling of cell `(r, c)`. -/
def psfCells (g : K → K → K) (x0 y0 : K) (n p : Nat) (k : Int → Int → Nat) (r c : Int) : K :=
  if 0 ≤ r ∧ r < (n * p : Nat) ∧ 0 ≤ c ∧ c < (n * p : Nat) then cellMean g (cellCentre x0 p c) (cellCentre y0 p r) (1 / p) (k r c) else 0

/-- Convolution with a PSF whose centre is the pixel `((h - 1) / 2, (w - 1) / 2)`. -/
def convAt (psf : Img K) (T : Int → Int → K) (r c : Int) : K :=
  ∑ u ∈ Finset.range psf.h, ∑ v ∈ Finset.range psf.w,
    psf.px u v * T (r + ((psf.h - 1) / 2 : Nat) - u) (c + ((psf.w - 1) / 2 : Nat) - v)

/-- The mean over the `p × p` cells of pixel `(i, j)`. -/
def cellsOfPixel (T : Int → Int → K) (p : Nat) (i j : Nat) : K :=
  (∑ a ∈ Finset.range p, ∑ b ∈ Finset.range p, T ((i * p + a : Nat) : Int) ((j * p + b : Nat) : Int)) / (p : K) ^ 2

end Verif.Spec

namespace Verif.Props

open Spec PSFModel

section
variable {K : Type} [Field K] [LinearOrder K] [IsStrictOrderedRing K] [FloorRing K]

/-- Block means of samples are cell means. -/
theorem sample_cell (S : SubModel K) (params : List K) (size p q i j : Nat) (hp : 0 < p) (hq : 0 < q) (o : K × K) (hi : i < size * p)
    (hj : j < size * p) :
    ((blockReduce (sample S params (makeGrid (size : Int) o (p * q))) q).divBy ((q : K) ^ 2)).px i j =
      cellMean (S.eval params) (cellCentre o.1 p j) (cellCentre o.2 p i) (1 / p) q := by
  rw [divBy_px, blockReduce_px]
  unfold cellMean cellCentre
  congr 1
  apply Finset.sum_congr rfl
  intro a ha
  apply Finset.sum_congr rfl
  intro b hb
  rw [Finset.mem_range] at ha hb
  have lt : ∀ i a, i < size * p → a < q → i * q + a < size * (p * q) := by
    intro i a hi ha
    calc i * q + a < i * q + q := by omega
      _ = (i + 1) * q := by ring
      _ ≤ size * p * q := Nat.mul_le_mul_right _ hi
      _ = size * (p * q) := by ring
  obtain ⟨-, -, -, -, hg⟩ := makeGrid_spec size (p * q) o
  obtain ⟨hx, hy⟩ := hg _ _ (lt i a hi ha) (lt j b hj hb)
  have hp0 : (p : K) ≠ 0 := by exact_mod_cast hp.ne'
  have hq0 : (q : K) ≠ 0 := by exact_mod_cast hq.ne'
  simp only [sample]
  rw [hx, hy]
  congr 1
  · push_cast; field_simp; ring
  · push_cast; field_simp; ring

/-- Without oversampling a cell mean is the value at the centre. -/
theorem cellMean_one (g : K → K → K) (x y w : K) : cellMean g x y w 1 = g x y := by
  simp [cellMean]

theorem reduce_px (T : Img K) (p i j : Nat) (hp : 0 < p) :
    (if 1 < p then (blockReduce T p).divBy ((p : K) ^ 2) else T).px i j = (blockReduce T p).px i j / (p : K) ^ 2 := by
  by_cases hp1 : 1 < p
  · rw [if_pos hp1]; rfl
  · have : p = 1 := by omega
    rw [if_neg hp1, this, blockReduce_px]; simp

theorem reduce_shape (T : Img K) (n p : Nat) (hp : 0 < p) (h : T.h = n * p ∧ T.w = n * p) :
    (if 1 < p then (blockReduce T p).divBy ((p : K) ^ 2) else T).h = n ∧ (if 1 < p then (blockReduce T p).divBy ((p : K) ^ 2) else T).w = n := by
  by_cases hp1 : 1 < p
  · rw [if_pos hp1]
    constructor
    · show T.h / p = n; rw [h.1, Nat.mul_div_cancel _ hp]
    · show T.w / p = n; rw [h.2, Nat.mul_div_cancel _ hp]
  · have : p = 1 := by omega
    rw [if_neg hp1, h.1, h.2, this]; simp

/-- From the image at PSF resolution to the values. -/
theorem evaluate_from_cells {M : PSFModel K} (hM : CacheOk M) (hp : 0 < M.psfFactor) {psf : Img K} (hpsf : M.psf = some psf)
    (rot : Img K → K → Img K) {coords : List (K × K)} {x0 y0 xMax yMax : K}
    (g1 : (coords.map (·.1)).min? = some x0) (g2 : (coords.map (·.1)).max? = some xMax) (g3 : (coords.map (·.2)).min? = some y0)
    (g4 : (coords.map (·.2)).max? = some yMax) (params : List K) (pa : K) {T : Img K}
    (hov : M.oversampled params M.gridFactor
      (sample M.sub params (makeGrid ((max (indexOf xMax x0) (indexOf yMax y0) + 1 : Nat) : Int) (x0, y0) M.gridFactor))
      (indexOf xMax x0) (indexOf yMax y0) = .ok T)
    (hT : T.h = (max (indexOf xMax x0) (indexOf yMax y0) + 1) * M.psfFactor ∧ T.w = (max (indexOf xMax x0) (indexOf yMax y0) + 1) * M.psfFactor)
    {cells : Int → Int → K} (hcells : ∀ r c, T.zeroPad r c = cells r c) :
    (M.evaluate rot coords params pa).1 = .ok (coords.map fun c =>
      cellsOfPixel (convAt (if pa ≠ 0 then rot psf pa else psf) cells) M.psfFactor (indexOf c.2 y0) (indexOf c.1 x0)) := by
  rw [evaluate_some g1 g2 g3 g4]
  simp only
  rw [mainGrid_fst hM]
  unfold valuesOn
  rw [hov]
  simp only [bind, Except.bind]
  set N := max (indexOf xMax x0) (indexOf yMax y0) + 1 with hN
  have hidx : ∀ c ∈ coords, indexOf c.2 y0 < N ∧ indexOf c.1 x0 < N := by
    intro c hcm
    have := indexOf_mono x0 (mem_le_max g2 (List.mem_map_of_mem (f := (·.1)) hcm))
    have := indexOf_mono y0 (mem_le_max g4 (List.mem_map_of_mem (f := (·.2)) hcm))
    omega
  set Q := if pa ≠ 0 then rot psf pa else psf with hQ
  have hconv : M.convolved rot pa T =
      if 1 < M.psfFactor then (blockReduce (convolveSame T Q) M.psfFactor).divBy ((M.psfFactor : K) ^ 2) else convolveSame T Q := by
    unfold convolved
    rw [hpsf]
  rw [hconv]
  have hsh := reduce_shape (convolveSame T Q) N M.psfFactor hp hT
  rw [mapM_pick _ (fun c : K × K => (indexOf c.2 y0, indexOf c.1 x0)) coords
    (fun c hcm => ⟨by rw [hsh.1]; exact (hidx c hcm).1, by rw [hsh.2]; exact (hidx c hcm).2⟩)]
  congr 1
  apply List.map_congr_left
  intro c hcm
  rw [reduce_px _ _ _ _ hp, blockReduce_px]
  unfold cellsOfPixel
  congr 1
  apply Finset.sum_congr rfl
  intro a _
  apply Finset.sum_congr rfl
  intro b _
  rw [convolveSame_px]
  unfold convAt
  simp only [hcells]

/-- **C119, integer oversampling.** With a PSF the value at a coordinate is the mean, over the PSF cells of its pixel, of the convolution
of the PSF with the model averaged over `oversample / psf_oversample` squared samples per PSF cell (zero outside of the image). -/
theorem C119_evaluate (M : PSFModel K) (hM : CacheOk M) (hc : Compatible M) (psf : Img K) (hpsf : M.psf = some psf)
    (hwin : ∀ x y s f, M.oversample ≠ .window x y s f) (rot : Img K → K → Img K) (coords : List (K × K)) (x0 y0 xMax yMax : K)
    (g1 : (coords.map (·.1)).min? = some x0) (g2 : (coords.map (·.1)).max? = some xMax) (g3 : (coords.map (·.2)).min? = some y0)
    (g4 : (coords.map (·.2)).max? = some yMax) (params : List K) (pa : K) :
    (M.evaluate rot coords params pa).1 = .ok (coords.map fun c =>
      cellsOfPixel (convAt (if pa ≠ 0 then rot psf pa else psf)
        (psfCells (M.sub.eval params) x0 y0 (max (indexOf xMax x0) (indexOf yMax y0) + 1) M.psfFactor
          fun _ _ => M.oversampleFactor / M.psfFactor)) M.psfFactor (indexOf c.2 y0) (indexOf c.1 x0)) := by
  obtain ⟨hf, hp, q, hq⟩ := hc
  have hq0 : 0 < q := by
    rcases Nat.eq_zero_or_pos q with h | h
    · rw [h] at hq; omega
    · exact h
  have hgf : M.gridFactor = M.oversampleFactor := by
    unfold gridFactor
    cases ho : M.oversample with
    | none => rfl
    | int k => rfl
    | window x y s f => exact absurd ho (hwin x y s f)
  have hdiv : M.oversampleFactor / M.psfFactor = q := by rw [hq]; exact Nat.mul_div_cancel_left q hp
  set N := max (indexOf xMax x0) (indexOf yMax y0) + 1 with hN
  set S := sample M.sub params (makeGrid (N : Int) (x0, y0) (M.psfFactor * q)) with hS
  have hSh : S.h = N * M.psfFactor * q ∧ S.w = N * M.psfFactor * q := by
    have h1 := (makeGrid_spec N (M.psfFactor * q) (x0, y0)).1
    have h2 := (makeGrid_spec N (M.psfFactor * q) (x0, y0)).2.1
    rw [← Nat.mul_assoc] at h1 h2
    exact ⟨h1, h2⟩
  have hov : M.oversampled params M.gridFactor (sample M.sub params (makeGrid (N : Int) (x0, y0) M.gridFactor)) (indexOf xMax x0)
      (indexOf yMax y0) = .ok (if 1 < q then (blockReduce S q).divBy ((q : K) ^ 2) else S) := by
    rw [hgf, hS, ← hq]
    unfold oversampled
    cases ho : M.oversample with
    | none => simp only [hdiv]
    | int k => simp only [hdiv]
    | window x y s f => exact absurd ho (hwin x y s f)
  have hsh := reduce_shape S (N * M.psfFactor) q hq0 hSh
  apply evaluate_from_cells hM hp hpsf rot g1 g2 g3 g4 params pa hov hsh
  intro r c
  unfold Img.zeroPad psfCells
  rw [hsh.1, hsh.2, hdiv]
  by_cases h : 0 ≤ r ∧ r < ((N * M.psfFactor : Nat) : Int) ∧ 0 ≤ c ∧ c < ((N * M.psfFactor : Nat) : Int)
  · rw [if_pos h, if_pos h, reduce_px _ _ _ _ hq0]
    have := sample_cell M.sub params N M.psfFactor q r.toNat c.toNat hp hq0 (x0, y0) (by omega) (by omega)
    rw [divBy_px] at this
    rw [hS, this, Int.toNat_of_nonneg h.1, Int.toNat_of_nonneg h.2.2.1]
  · rw [if_neg h, if_neg h]

/-- **C119 and C57, oversampling windows.** On an image that starts at `(0, 0)` and contains the window, the same holds with the PSF cells
in the window averaged over `factor / psf_oversample` squared samples and all the others sampled at their centre. -/
theorem C119_window_partial (M : PSFModel K) (hM : CacheOk M) (hc : Compatible M) (psf : Img K) (hpsf : M.psf = some psf)
    (cx cy : Center K) (size f : Nat) (hwin : M.oversample = .window cx cy (size : Int) f)
    (rot : Img K → K → Img K) (coords : List (K × K)) (iMax jMax : Nat) (hg : OnGrid coords 0 0 iMax jMax)
    (params : List K) (pa : K) (vx vy : K) (hx : centerValue M.sub params cx = .ok vx) (hy : centerValue M.sub params cy = .ok vy)
    (hx0 : 0 ≤ corner vx size) (hy0 : 0 ≤ corner vy size) (hx1 : corner vx size + size ≤ iMax + 1)
    (hy1 : corner vy size + size ≤ jMax + 1) :
    (M.evaluate rot coords params pa).1 = .ok (coords.map fun c =>
      cellsOfPixel (convAt (if pa ≠ 0 then rot psf pa else psf)
        (psfCells (M.sub.eval params) 0 0 (max iMax jMax + 1) M.psfFactor fun r c =>
          if corner vx size * M.psfFactor ≤ c ∧ c < (corner vx size + size) * M.psfFactor ∧
            corner vy size * M.psfFactor ≤ r ∧ r < (corner vy size + size) * M.psfFactor then f / M.psfFactor else 1))
        M.psfFactor (indexOf c.2 0) (indexOf c.1 0)) := by
  obtain ⟨hf, hp, q, hq⟩ := hc
  have hfo : M.oversampleFactor = f := by unfold oversampleFactor; rw [hwin]
  rw [hfo] at hf hq
  have hq0 : 0 < q := by
    rcases Nat.eq_zero_or_pos q with h | h
    · rw [h] at hq; omega
    · exact h
  have hgf : M.gridFactor = M.psfFactor := by unfold gridFactor; rw [hwin]
  have hdiv : f / M.psfFactor = q := by rw [hq]; exact Nat.mul_div_cancel_left q hp
  have hh : ((size : Int) / 2) = ((size / 2 : Nat) : Int) := by push_cast; rfl
  have i1 : indexOf ((0 : K) + iMax) 0 = iMax := indexOf_add _ _
  have j1 : indexOf ((0 : K) + jMax) 0 = jMax := indexOf_add _ _
  have key := @evaluate_from_cells K _ _ _ _ M hM hp psf hpsf rot coords 0 0 _ _ hg.minX hg.maxX hg.minY hg.maxY params pa
  rw [i1, j1] at key
  set N := max iMax jMax + 1 with hN
  set p := M.psfFactor with hpdef
  rw [hgf] at key
  set S := sample M.sub params (makeGrid (N : Int) ((0 : K), (0 : K)) p) with hS
  have hSh : S.h = N * p ∧ S.w = N * p := ⟨(makeGrid_spec N p (0, 0)).1, (makeGrid_spec N p (0, 0)).2.1⟩
  have hSpx : ∀ i j, i < N * p → j < N * p → S.px i j = M.sub.eval params (cellCentre 0 p j) (cellCentre 0 p i) := by
    intro i j hi hj
    obtain ⟨-, -, -, -, e⟩ := makeGrid_spec N p ((0 : K), (0 : K))
    obtain ⟨e1, e2⟩ := e i j hi hj
    simp only [hS, sample]
    rw [e1, e2]
    unfold cellCentre
    push_cast; rfl
  obtain ⟨ax, hax⟩ := Int.eq_ofNat_of_zero_le hx0
  obtain ⟨ay, hay⟩ := Int.eq_ofNat_of_zero_le hy0
  have hcx : rint vx - (size : Int) / 2 = (ax : Int) := by rw [hh, ← hax]; rfl
  have hcy : rint vy - (size : Int) / 2 = (ay : Int) := by rw [hh, ← hay]; rfl
  rw [hax] at hx1 ⊢
  rw [hay] at hy1 ⊢
  rw [hdiv]
  have hle : ∀ a b : Nat, a ≤ b → a * p ≤ b * p := fun a b h => Nat.mul_le_mul_right p h
  have hxN := hle (ax + size) N (by omega)
  have hyN := hle (ay + size) N (by omega)
  rw [Nat.add_mul] at hxN hyN
  by_cases hq1 : q ≤ 1
  · have hq' : q = 1 := by omega
    apply key (T := S)
    · unfold oversampled
      rw [hwin]
      simp only
      unfold pasteWindow
      rw [← hpdef, hdiv, if_pos hq1]
    · exact hSh
    · intro r c
      unfold Img.zeroPad psfCells
      simp only [hSh.1, hSh.2, hq', ite_self]
      by_cases h : 0 ≤ r ∧ r < ((N * p : Nat) : Int) ∧ 0 ≤ c ∧ c < ((N * p : Nat) : Int)
      · rw [if_pos h, if_pos h, cellMean_one, hSpx _ _ (by omega) (by omega), Int.toNat_of_nonneg h.1, Int.toNat_of_nonneg h.2.2.1]
      · rw [if_neg h, if_neg h]
  set W := (blockReduce (sample M.sub params (makeGrid (size : Int) (((ax : Int) : K), ((ay : Int) : K)) f)) q).divBy ((q : K) ^ 2) with hW
  have hWh : W.h = size * p ∧ W.w = size * p := by
    obtain ⟨a, b, -, -, -⟩ := makeGrid_spec size f (((ax : Int) : K), ((ay : Int) : K))
    have e : size * f = size * p * q := by rw [hq]; ring
    constructor
    · show (makeGrid (size : Int) (((ax : Int) : K), ((ay : Int) : K)) f).1.h / q = size * p
      rw [a, e, Nat.mul_div_cancel _ hq0]
    · show (makeGrid (size : Int) (((ax : Int) : K), ((ay : Int) : K)) f).1.w / q = size * p
      rw [b, e, Nat.mul_div_cancel _ hq0]
  have hp0 : (p : K) ≠ 0 := by exact_mod_cast hp.ne'
  have hcentre : ∀ a j : Nat, cellCentre (((a : Int) : K)) p (j : Int) = cellCentre 0 p ((a * p + j : Nat) : Int) := by
    intro a j
    unfold cellCentre
    push_cast; field_simp; ring
  have hWpx : ∀ i j, i < size * p → j < size * p → W.px i j =
      cellMean (M.sub.eval params) (cellCentre 0 p ((ax * p + j : Nat) : Int)) (cellCentre 0 p ((ay * p + i : Nat) : Int)) (1 / p) q := by
    intro i j hi hj
    rw [hW, hq, sample_cell M.sub params size p q i j hp hq0 _ hi hj, hcentre, hcentre]
  apply key (T := ⟨S.h, S.w, fun i j =>
      if ay * p ≤ i ∧ i < ay * p + size * p ∧ ax * p ≤ j ∧ j < ax * p + size * p then
        W.px (if W.h = 1 then 0 else i - ay * p) (if W.w = 1 then 0 else j - ax * p) else S.px i j⟩)
  · unfold oversampled
    rw [hwin]
    simp only
    unfold pasteWindow
    rw [← hpdef, hdiv, if_neg hq1, hx, hy]
    simp only [bind, Except.bind]
    rw [hcx, hcy, ← hW]
    have e1 : ¬ ((ax : Int) < 0) := by omega
    have e2 : ¬ ((ay : Int) < 0) := by omega
    have e3 : (if (ax : Int) + (size : Int) > (iMax : Int) then (iMax : Int) + 1 else (ax : Int) + size) = (ax : Int) + size := by
      split_ifs <;> omega
    have e4 : (if (ay : Int) + (size : Int) > (jMax : Int) then (jMax : Int) + 1 else (ay : Int) + size) = (ay : Int) + size := by
      split_ifs <;> omega
    rw [if_neg e1, if_neg e2, e3, e4]
    unfold sliceAssign
    have s1 : ∀ k n : Nat, k ≤ n → sliceBound n (k : Int) = k := by
      intro k n hkn
      unfold sliceBound
      rw [if_neg (by omega)]
      simp; omega
    have c1 : ((ay : Int) + (size : Int)) * (p : Int) = ((ay * p + size * p : Nat) : Int) := by push_cast; ring
    have c2 : ((ax : Int) + (size : Int)) * (p : Int) = ((ax * p + size * p : Nat) : Int) := by push_cast; ring
    have c3 : (ay : Int) * (p : Int) = ((ay * p : Nat) : Int) := by push_cast; ring
    have c4 : (ax : Int) * (p : Int) = ((ax * p : Nat) : Int) := by push_cast; ring
    rw [c1, c2, c3, c4, s1 (ay * p) _ (by rw [hSh.1]; omega), s1 (ay * p + size * p) _ (by rw [hSh.1]; omega),
      s1 (ax * p) _ (by rw [hSh.2]; omega), s1 (ax * p + size * p) _ (by rw [hSh.2]; omega)]
    simp only
    have hb : (broadcasts W.h (ay * p + size * p - ay * p) && broadcasts W.w (ax * p + size * p - ax * p)) = true := by
      rw [hWh.1, hWh.2, Nat.add_sub_cancel_left, Nat.add_sub_cancel_left]; simp [broadcasts]
    rw [if_pos hb]
  · exact hSh
  · intro r c
    unfold Img.zeroPad psfCells
    simp only
    rw [hSh.1, hSh.2]
    by_cases h : 0 ≤ r ∧ r < ((N * p : Nat) : Int) ∧ 0 ≤ c ∧ c < ((N * p : Nat) : Int)
    · rw [if_pos h, if_pos h]
      obtain ⟨i, rfl⟩ := Int.eq_ofNat_of_zero_le h.1
      obtain ⟨j, rfl⟩ := Int.eq_ofNat_of_zero_le h.2.2.1
      have hi : i < N * p := by omega
      have hj : j < N * p := by omega
      simp only [Int.toNat_natCast]
      by_cases hin : ay * p ≤ i ∧ i < ay * p + size * p ∧ ax * p ≤ j ∧ j < ax * p + size * p
      · have hin' : (ax : Int) * p ≤ j ∧ (j : Int) < ((ax : Int) + size) * p ∧ (ay : Int) * p ≤ i ∧ (i : Int) < ((ay : Int) + size) * p := by
          rw [Int.add_mul, Int.add_mul]
          obtain ⟨a, b, c, d⟩ := hin
          exact ⟨by exact_mod_cast c, by exact_mod_cast d, by exact_mod_cast a, by exact_mod_cast b⟩
        rw [if_pos hin, if_pos hin']
        have r1 : (if W.h = 1 then 0 else i - ay * p) = i - ay * p := by rw [hWh.1]; split_ifs <;> omega
        have r2 : (if W.w = 1 then 0 else j - ax * p) = j - ax * p := by rw [hWh.2]; split_ifs <;> omega
        rw [r1, r2, hWpx _ _ (by omega) (by omega)]
        have q1 : ax * p + (j - ax * p) = j := by omega
        have q2 : ay * p + (i - ay * p) = i := by omega
        rw [q1, q2]
      · have hin' : ¬ ((ax : Int) * p ≤ j ∧ (j : Int) < ((ax : Int) + size) * p ∧ (ay : Int) * p ≤ i ∧ (i : Int) < ((ay : Int) + size) * p) := by
          rw [Int.add_mul, Int.add_mul]
          intro hh
          apply hin
          obtain ⟨a, b, c, d⟩ := hh
          exact ⟨by exact_mod_cast c, by exact_mod_cast d, by exact_mod_cast a, by exact_mod_cast b⟩
        rw [if_neg hin, if_neg hin', cellMean_one, hSpx _ _ hi hj]
    · rw [if_neg h, if_neg h]

end

/-- A PSF with two cells per pixel that is not symmetric. -/
def skewPsf : Img ℚ := Img.ofRows 0 [[0, 1 / 4, 0], [0, 1 / 2, 1 / 4], [0, 0, 0]]

/-- A window of one pixel at `(1, 0)`, four samples across, with two PSF cells per pixel. -/
def skewModel : PSFModel ℚ := ⟨bowl, some skewPsf, .window (.num 1) (.num 0) 1 4, some 2, true, 0, 0, none, none⟩

/-- Non-vacuity of `C119_window_partial`: settings and window fit, the values are neither those without the PSF nor those without the
window. -/
example : Compatible skewModel ∧ corner (1 : ℚ) 1 = 1 ∧ corner (0 : ℚ) 1 = 0 ∧
    (skewModel.evaluate (fun p _ => p) [(0, 0), (1, 0), (0, 1), (1, 1)] [] 0).1 = .ok [1607/128, 3427/256, 5003/64, 11695/128] := by
  refine ⟨by unfold Compatible; decide +kernel, by decide +kernel, by decide +kernel, by decide +kernel⟩

end Verif.Props

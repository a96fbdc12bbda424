import Verif.Props.NaNImages
import Verif.Props.PSFImage

/-!
# C178: undefined values and oversampling windows

The samples of the window replace those of the main grid, so an undefined sample of the main grid inside of the window does no harm.
-/

set_option linter.unusedSectionVars false
set_option linter.unusedVariables false
set_option linter.unusedSimpArgs false

namespace Verif.Spec

variable {K : Type} [Field K] [LinearOrder K]

/-- The point is inside of the window of `size` pixels whose first pixel is `(ax, ay)`. -/
def InWindow (ax ay size : Nat) (x y : K) : Prop :=
  ((ax : K) - 1 / 2 < x ∧ x < (ax : K) + size - 1 / 2) ∧ ((ay : K) - 1 / 2 < y ∧ y < (ay : K) + size - 1 / 2)

/-- The points where a model with a window is evaluated, on an image that starts at `(0, 0)`: `f` per pixel inside of the window, `p` outside. -/
def WindowSample (p f ax ay size : Nat) (x y : K) : Prop :=
  (InWindow ax ay size x y ∧ ∃ i j : Nat, x = ((j : K) + 1 / 2) / f - 1 / 2 ∧ y = ((i : K) + 1 / 2) / f - 1 / 2) ∨
  (¬ InWindow ax ay size x y ∧ ∃ i j : Nat, x = ((j : K) + 1 / 2) / p - 1 / 2 ∧ y = ((i : K) + 1 / 2) / p - 1 / 2)

end Verif.Spec

namespace Verif.Props

open Verif.Spec PSFModel

variable {K : Type} [Field K] [LinearOrder K] [IsStrictOrderedRing K] [FloorRing K]

/-- A slice takes the values of the window inside and those of the image outside. -/
theorem Agree.sliceIn {D E : Nat → Nat → Prop} {a sa : Img (Option K)} {b sb : Img K} (H : Agree D a b) (S : Agree E sa sb) {r r' c c' : Nat}
    (hr' : r + r' ≤ b.h) (hc' : c + c' ≤ b.w) (hsh : sb.h = r') (hsw : sb.w = c') {r0 r1 c0 c1 : Int} (e0 : r0 = (r : Int))
    (e1 : r1 = ((r + r' : Nat) : Int)) (e2 : c0 = (c : Int)) (e3 : c1 = ((c + c' : Nat) : Int)) :
    ∃ x y, sliceAssign b r0 r1 c0 c1 sb = .ok y ∧ sliceAssignN a r0 r1 c0 c1 sa = .ok x ∧ y.h = b.h ∧ y.w = b.w ∧
      Agree (fun i j => (r ≤ i ∧ i < r + r' ∧ c ≤ j ∧ j < c + c' ∧ E (i - r) (j - c)) ∨
        (¬ (r ≤ i ∧ i < r + r' ∧ c ≤ j ∧ j < c + c') ∧ D i j)) x y := by
  have s1 : ∀ k n : Nat, k ≤ n → sliceBound n (k : Int) = k := by
    intro k n hkn
    unfold sliceBound
    rw [if_neg (by omega)]
    simp; omega
  subst e0 e1 e2 e3
  unfold sliceAssign sliceAssignN
  rw [H.h, H.w, S.h, S.w, s1 r _ (by omega), s1 (r + r') _ hr', s1 c _ (by omega), s1 (c + c') _ hc']
  have hb : (broadcasts sb.h (r + r' - r) && broadcasts sb.w (c + c' - c)) = true := by
    rw [hsh, hsw, Nat.add_sub_cancel_left, Nat.add_sub_cancel_left]; simp [broadcasts]
  simp only [hb, if_true]
  refine ⟨_, _, rfl, rfl, rfl, rfl, rfl, rfl, fun i j hD => ?_⟩
  simp only
  by_cases hin : r ≤ i ∧ i < r + r' ∧ c ≤ j ∧ j < c + c'
  · rw [if_pos hin, if_pos hin]
    have hE : E (i - r) (j - c) := by
      rcases hD with h | h
      · exact h.2.2.2.2
      · exact absurd hin h.1
    have r1 : (if sb.h = 1 then 0 else i - r) = i - r := by rw [hsh]; split_ifs <;> omega
    have r2 : (if sb.w = 1 then 0 else j - c) = j - c := by rw [hsw]; split_ifs <;> omega
    rw [r1, r2]
    exact S.px _ _ hE
  · rw [if_neg hin, if_neg hin]
    rcases hD with h | h
    · exact absurd ⟨h.1, h.2.1, h.2.2.1, h.2.2.2.1⟩ hin
    · exact H.px _ _ h.2

/-- A cell is in the window when its samples are. -/
theorem cell_in_window {p q a size j v : Nat} (hp : 0 < p) (hq : 0 < q) (hv : v < q) :
    (((a : K) - 1 / 2 < (((j * q + v : Nat) : K) + 1 / 2) / ((p * q : Nat) : K) - 1 / 2 ∧
      (((j * q + v : Nat) : K) + 1 / 2) / ((p * q : Nat) : K) - 1 / 2 < (a : K) + size - 1 / 2)) ↔ a * p ≤ j ∧ j < a * p + size * p := by
  have hpq : (0 : K) < ((p * q : Nat) : K) := by exact_mod_cast Nat.mul_pos hp hq
  rw [sub_lt_sub_iff_right, sub_lt_sub_iff_right, lt_div_iff₀ hpq, div_lt_iff₀ hpq]
  have key : ∀ m : Nat, ((m : K) * ((p * q : Nat) : K) < ((j * q + v : Nat) : K) + 1 / 2 ↔ m * p ≤ j) ∧
      (((j * q + v : Nat) : K) + 1 / 2 < (m : K) * ((p * q : Nat) : K) ↔ j < m * p) := by
    intro m
    have h1 : m * p ≤ j → m * (p * q) ≤ j * q + v := fun h => by
      calc m * (p * q) = m * p * q := by ring
        _ ≤ j * q := Nat.mul_le_mul_right _ h
        _ ≤ _ := by omega
    have h2 : j < m * p → j * q + v + 1 ≤ m * (p * q) := fun h => by
      calc j * q + v + 1 ≤ j * q + q := by omega
        _ = (j + 1) * q := by ring
        _ ≤ m * p * q := Nat.mul_le_mul_right _ h
        _ = _ := by ring
    have k1 : m * p ≤ j → (m : K) * ((p * q : Nat) : K) ≤ ((j * q + v : Nat) : K) := fun h => by exact_mod_cast h1 h
    have k2 : j < m * p → ((j * q + v : Nat) : K) + 1 ≤ (m : K) * ((p * q : Nat) : K) := fun h => by exact_mod_cast h2 h
    constructor
    · constructor
      · intro h
        by_contra hn
        have := k2 (by omega)
        linarith
      · intro h
        have := k1 h
        linarith
    · constructor
      · intro h
        by_contra hn
        have := k1 (by omega)
        linarith
      · intro h
        have := k2 h
        linarith
  have e : (a : K) + size = ((a + size : Nat) : K) := by push_cast; rfl
  rw [e, (key a).1, (key (a + size)).2, Nat.add_mul]

/-- The image at PSF resolution, with a window inside of the image. -/
theorem window_cells {M : PSFModel K} (hM : CacheOk M) {q : Nat} (hp : 0 < M.psfFactor) (hq1 : 1 < q) {cx cy : Center K} {size f : Nat}
    (hq : f = M.psfFactor * q) (hwin : M.oversample = .window cx cy (size : Int) f) (g : List K → K → K → Option K) (params : List K)
    (hext : ∀ x y v, g params x y = some v → M.sub.eval params x y = v) (iMax jMax : Nat) {N : Nat} (hN : N = max iMax jMax + 1) {vx vy : K}
    (hx : centerValue M.sub params cx = .ok vx) (hy : centerValue M.sub params cy = .ok vy) {ax ay : Nat} (hax : corner vx size = ax)
    (hay : corner vy size = ay) (hx1 : ax + size ≤ iMax + 1) (hy1 : ay + size ≤ jMax + 1) :
    ∃ a b, M.oversampledN g params M.gridFactor (sampleN g params (M.mainGrid N M.gridFactor ((0 : K), ((0 : K) + iMax), (0 : K), ((0 : K) + jMax))).1)
        iMax jMax = .ok a ∧
      M.oversampled params M.gridFactor (sample M.sub params (M.mainGrid N M.gridFactor ((0 : K), ((0 : K) + iMax), (0 : K), ((0 : K) + jMax))).1)
        iMax jMax = .ok b ∧
      b.h = N * M.psfFactor ∧ b.w = N * M.psfFactor ∧
      Agree (fun i j => i < N * M.psfFactor ∧ j < N * M.psfFactor ∧ ∀ u v : Nat, u < q → v < q → ∀ x y : K,
        (x = (((j * q + v : Nat) : K) + 1 / 2) / ((M.psfFactor * q : Nat) : K) - 1 / 2 ∧
          y = (((i * q + u : Nat) : K) + 1 / 2) / ((M.psfFactor * q : Nat) : K) - 1 / 2 ∨
         x = ((j : K) + 1 / 2) / M.psfFactor - 1 / 2 ∧ y = ((i : K) + 1 / 2) / M.psfFactor - 1 / 2) →
        WindowSample M.psfFactor f ax ay size x y → g params x y ≠ none) a b := by
  have hq0 : 0 < q := by omega
  have hgf : M.gridFactor = M.psfFactor := by unfold gridFactor; rw [hwin]
  have hdiv : f / M.psfFactor = q := by rw [hq]; exact Nat.mul_div_cancel_left q hp
  have hh : ((size : Int) / 2) = ((size / 2 : Nat) : Int) := by push_cast; rfl
  have hcx : rint vx - (size : Int) / 2 = (ax : Int) := by rw [hh, ← hax]; rfl
  have hcy : rint vy - (size : Int) / 2 = (ay : Int) := by rw [hh, ← hay]; rfl
  have some_of : ∀ x y, g params x y ≠ none → g params x y = some (M.sub.eval params x y) := fun x y h => by
    obtain ⟨v, hv⟩ := Option.ne_none_iff_exists'.1 h
    rw [hv, hext x y v hv]
  rw [mainGrid_fst hM, hgf]
  set p := M.psfFactor with hpdef
  have hle : ∀ a b : Nat, a ≤ b → a * p ≤ b * p := fun a b h => Nat.mul_le_mul_right p h
  have hxN := hle (ax + size) N (by omega)
  have hyN := hle (ay + size) N (by omega)
  rw [Nat.add_mul] at hxN hyN
  obtain ⟨m1, m2, -, -, m5⟩ := makeGrid_spec (K := K) N p ((0 : K), (0 : K))
  obtain ⟨w1, w2, -, -, w5⟩ := makeGrid_spec (K := K) size f (((ax : Int) : K), ((ay : Int) : K))
  have hd : size * f / q = size * p := by rw [hq, ← Nat.mul_assoc]; exact Nat.mul_div_cancel _ hq0
  have H := Agree.sample (g := g) (S := M.sub) (params := params) (grid := makeGrid (N : Int) ((0 : K), (0 : K)) p)
  have S := ((Agree.sample (g := g) (S := M.sub) (params := params) (grid := makeGrid (size : Int) (((ax : Int) : K), ((ay : Int) : K)) f)).reduce q).div
    ((q : K) ^ 2)
  obtain ⟨x, y, h1, h2, h3, h4, h5⟩ := H.sliceIn S (r := ay * p) (r' := size * p) (c := ax * p) (c' := size * p) (by show _ ≤ (makeGrid _ _ p).1.h; rw [m1]; omega)
    (by show _ ≤ (makeGrid _ _ p).1.w; rw [m2]; omega) (by show (makeGrid _ _ f).1.h / q = _; rw [w1, hd]) (by show (makeGrid _ _ f).1.w / q = _; rw [w2, hd])
    (r0 := (ay : Int) * p) (r1 := ((ay : Int) + size) * p) (c0 := (ax : Int) * p) (c1 := ((ax : Int) + size) * p) (by push_cast; rfl) (by push_cast; ring)
    (by push_cast; rfl) (by push_cast; ring)
  have e1 : ¬ ((ax : Int) < 0) := by omega
  have e2 : ¬ ((ay : Int) < 0) := by omega
  have e3 : (if (ax : Int) + (size : Int) > (iMax : Int) then (iMax : Int) + 1 else (ax : Int) + size) = (ax : Int) + size := by
    split_ifs <;> omega
  have e4 : (if (ay : Int) + (size : Int) > (jMax : Int) then (jMax : Int) + 1 else (ay : Int) + size) = (ay : Int) + size := by
    split_ifs <;> omega
  refine ⟨x, y, ?_, ?_, h3.trans m1, h4.trans m2, h5.mono fun i j hD => ?_⟩
  · unfold oversampledN
    rw [hwin]
    simp only
    unfold pasteWindowN
    rw [← hpdef, hdiv, if_neg (by omega), hx, hy]
    simp only [Bind.bind, Except.bind]
    rw [hcx, hcy, if_neg e1, if_neg e2, e3, e4]
    exact h2
  · unfold PSFModel.oversampled
    rw [hwin]
    simp only
    unfold pasteWindow
    rw [← hpdef, hdiv, if_neg (by omega), hx, hy]
    simp only [Bind.bind, Except.bind]
    rw [hcx, hcy, if_neg e1, if_neg e2, e3, e4]
    exact h1
  · obtain ⟨hi, hj, hD⟩ := hD
    by_cases hin : ay * p ≤ i ∧ i < ay * p + size * p ∧ ax * p ≤ j ∧ j < ax * p + size * p
    · refine Or.inl ⟨hin.1, hin.2.1, hin.2.2.1, hin.2.2.2, fun u v hu hv => some_of _ _ ?_⟩
      have lt : ∀ {i u : Nat}, i < size * p → u < q → i * q + u < size * f := fun {i u} hi hu => by
        calc i * q + u < i * q + q := by omega
          _ = (i + 1) * q := by ring
          _ ≤ size * p * q := Nat.mul_le_mul_right _ hi
          _ = _ := by rw [hq]; ring
      obtain ⟨q1, q2⟩ := w5 ((i - ay * p) * q + u) ((j - ax * p) * q + v) (lt (by omega) hu) (lt (by omega) hv)
      have hp0 : (p : K) ≠ 0 := by exact_mod_cast hp.ne'
      have hq0' : (q : K) ≠ 0 := by exact_mod_cast hq0.ne'
      have shift : ∀ a i u : Nat, a * p ≤ i → (((a : Int) : K)) + (((((i - a * p) * q + u : Nat) : K) + 1 / 2) / (f : K) - 1 / 2) =
          (((i * q + u : Nat) : K) + 1 / 2) / ((p * q : Nat) : K) - 1 / 2 := by
        intro a i u h
        obtain ⟨i', rfl⟩ := Nat.exists_eq_add_of_le h
        rw [Nat.add_sub_cancel_left, hq]
        push_cast
        field_simp
        ring
      rw [q1, q2]
      simp only
      rw [shift ax j v hin.2.2.1, shift ay i u hin.1]
      refine hD u v hu hv _ _ (Or.inl ⟨rfl, rfl⟩) (Or.inl ⟨⟨(cell_in_window hp hq0 hv).2 hin.2.2, (cell_in_window hp hq0 hu).2 ⟨hin.1, hin.2.1⟩⟩,
        i * q + u, j * q + v, ?_, ?_⟩) <;> rw [hq]
    · refine Or.inr ⟨hin, some_of _ _ ?_⟩
      obtain ⟨q1, q2⟩ := m5 i j hi hj
      rw [q1, q2]
      simp only [zero_add]
      refine hD 0 0 hq0 hq0 _ _ (Or.inr ⟨rfl, rfl⟩) (Or.inr ⟨fun hw => hin ?_, i, j, rfl, rfl⟩)
      have c1 := (cell_in_window (K := K) (p := p) (q := 1) (a := ax) (size := size) (j := j) (v := 0) hp one_pos one_pos).1 (by simpa using hw.1)
      have c2 := (cell_in_window (K := K) (p := p) (q := 1) (a := ay) (size := size) (j := i) (v := 0) hp one_pos one_pos).1 (by simpa using hw.2)
      exact ⟨c2.1, c2.2, c1.1, c1.2⟩

/-- The images at the resolution of the data, when the convolution is direct or nothing is undefined. -/
theorem convolved_agree' {M : PSFModel K} (hp : 0 < M.psfFactor) {fft : Nat × Nat → Nat × Nat → Bool} (rot : Img K → K → Img K) (pa : K)
    {D : Nat → Nat → Prop} {a : Img (Option K)} {b : Img K} (H : Agree D a b)
    (hfft : ∀ k, kernel M rot pa = some k → (fft (a.h, a.w) (k.h, k.w) && a.anyNaN) = false) :
    Agree (fun i j => ∀ u v, u < M.psfFactor → v < M.psfFactor →
      match kernel M rot pa with
      | none => D (i * M.psfFactor + u) (j * M.psfFactor + v)
      | some k => TapsIn D k.h k.w b.h b.w (i * M.psfFactor + u) (j * M.psfFactor + v)) (M.convolvedN fft rot pa a) (M.convolved rot pa b) := by
  unfold PSFModel.convolved convolvedN
  unfold kernel at hfft ⊢
  cases hpsf : M.psf with
  | none => exact H.reduceIf hp
  | some psf =>
    simp only [hpsf, Option.map_some]
    refine Agree.reduceIf (D := TapsIn D _ _ b.h b.w) ?_ hp
    unfold convolveN
    rw [hfft _ (by rw [hpsf]; rfl)]
    exact H.direct _

/-- **C178, window.** With an oversampling window inside of an image that starts at `(0, 0)`, a pixel has the value of the model when the model has a value at all points
within the reach of the PSF where it is evaluated, if scipy does not use Fourier transforms: points of the fine grid inside of the window and of the coarse grid outside. -/
theorem C178_window_partial (M : PSFModel K) (hM : CacheOk M) (hc : Compatible M) (cx cy : Center K) (size f : Nat)
    (hwin : M.oversample = .window cx cy (size : Int) f) (hfp : M.psfFactor < f) (g : List K → K → K → Option K) (params : List K)
    (hext : ∀ x y v, g params x y = some v → M.sub.eval params x y = v) (fft : Nat × Nat → Nat × Nat → Bool) (rot : Img K → K → Img K)
    (coords : List (K × K)) (iMax jMax : Nat) (hg : OnGrid coords 0 0 iMax jMax) (hint : ∀ c ∈ coords, ∃ i j : Nat, c = ((i : K), (j : K))) (pa : K)
    (vx vy : K) (hx : centerValue M.sub params cx = .ok vx) (hy : centerValue M.sub params cy = .ok vy) (ax ay : Nat) (hax : corner vx size = ax)
    (hay : corner vy size = ay) (hx1 : ax + size ≤ iMax + 1) (hy1 : ay + size ≤ jMax + 1)
    (hfft : (∀ x y, WindowSample M.psfFactor f ax ay size x y → g params x y ≠ none) ∨ ∀ k, kernel M rot pa = some k →
      fft ((max iMax jMax + 1) * M.psfFactor, (max iMax jMax + 1) * M.psfFactor) (k.h, k.w) = false) :
    ∃ F : K × K → Option K, ∃ G : K × K → K, (M.evaluateN g fft rot coords params pa).1 = .ok (coords.map F) ∧
      (M.evaluate rot coords params pa).1 = .ok (coords.map G) ∧
      ∀ c ∈ coords, (∀ x y, |x - c.1| < Spec.reach (((kernel M rot pa).map (·.w)).getD 0) M.psfFactor →
        |y - c.2| < Spec.reach (((kernel M rot pa).map (·.h)).getD 0) M.psfFactor → WindowSample M.psfFactor f ax ay size x y → g params x y ≠ none) →
        F c = some (G c) := by
  obtain ⟨hf, hp, q, hq⟩ := hc
  have hfo : M.oversampleFactor = f := by unfold oversampleFactor; rw [hwin]
  rw [hfo] at hf hq
  have hq1 : 1 < q := by
    rcases Nat.lt_or_ge 1 q with h | h
    · exact h
    · have : M.psfFactor * q ≤ M.psfFactor * 1 := Nat.mul_le_mul_left _ h
      omega
  have hq0 : 0 < q := by omega
  rw [evaluateN_some hg.minX hg.maxX hg.minY hg.maxY, evaluate_some hg.minX hg.maxX hg.minY hg.maxY]
  simp only
  unfold valuesOnN valuesOn
  rw [indexOf_add, indexOf_add]
  obtain ⟨a, b, e1, e2, bh, bw, H⟩ := window_cells hM hp hq1 hq hwin g params hext iMax jMax rfl hx hy hax hay hx1 hy1
  rw [e1, e2]
  simp only [Bind.bind, Except.bind]
  set N := max iMax jMax + 1 with hN
  have A := convolved_agree' hp (fft := fft) rot pa H (by
    intro k hk
    rcases hfft with h | h
    · rw [anyNaN_false H fun i j hi hj => ⟨by rw [← bh]; exact hi, by rw [← bw]; exact hj, fun u v hu hv x y _ hs => h x y hs⟩, Bool.and_false]
    · rw [H.h, H.w, bh, bw, h k hk, Bool.false_and])
  obtain ⟨s1, s2⟩ := convolved_shape hp rot pa bh bw
  have hidx : ∀ c ∈ coords, indexOf c.2 0 < N ∧ indexOf c.1 0 < N := fun c hcm => by
    have := hg.index_lt hcm
    omega
  refine ⟨_, _, mapM_pickN _ (fun c : K × K => (indexOf c.2 0, indexOf c.1 0)) coords fun c hcm => ?_,
    mapM_pick _ (fun c : K × K => (indexOf c.2 0, indexOf c.1 0)) coords fun c hcm => ?_, fun c hcm hdef => ?_⟩
  · rw [A.h, A.w, s1, s2]; exact hidx c hcm
  · rw [s1, s2]; exact hidx c hcm
  · obtain ⟨i, j, rfl⟩ := hint c hcm
    have hlt := hidx _ hcm
    have hi0 : ∀ n : Nat, indexOf ((n : K)) 0 = n := fun n => by simpa using indexOf_add (0 : K) n
    simp only [hi0] at hlt ⊢
    have lt : ∀ {i u : Nat}, i < N → u < M.psfFactor → i * M.psfFactor + u < N * M.psfFactor := fun {i u} hi hu => by
      calc i * M.psfFactor + u < i * M.psfFactor + M.psfFactor := by omega
        _ = (i + 1) * M.psfFactor := by ring
        _ ≤ N * M.psfFactor := Nat.mul_le_mul_right _ hi
    have near : ∀ {i a k n b : Nat} (ha : a < M.psfFactor) (hk : k < q) (hb : b < n ∨ (n = 0 ∧ b = 0)) {v : Nat}
        (hv : (v : Int) = ((i * M.psfFactor + a : Nat) : Int) + ((n - 1) / 2 : Nat) - b) (x : K),
        (x = (((v * q + k : Nat) : K) + 1 / 2) / ((M.psfFactor * q : Nat) : K) - 1 / 2 ∨ x = ((v : K) + 1 / 2) / M.psfFactor - 1 / 2) →
        |x - i| < Spec.reach n M.psfFactor := by
      intro i a k n b ha hk hb v hv x hx
      rcases hx with rfl | rfl
      · have := sample_in_reach (K := K) (N := N) hp hq0 ha hk hb hv 0
        simpa only [zero_add] using this
      · have := sample_in_reach (K := K) (N := N) hp one_pos ha one_pos hb hv 0
        simpa only [zero_add, Nat.mul_one, Nat.add_zero] using this
    refine A.px _ _ fun u v hu hv => ?_
    cases hk : kernel M rot pa with
    | none =>
      rw [hk] at hdef
      simp only [Option.map_none, Option.getD_none] at hdef ⊢
      refine ⟨lt hlt.1 hu, lt hlt.2 hv, fun u' v' hu' hv' x y hxy hs => hdef x y ?_ ?_ hs⟩
      · exact near (b := 0) hv hv' (Or.inr ⟨rfl, rfl⟩) (by simp) x (hxy.imp And.left And.left)
      · exact near (b := 0) hu hu' (Or.inr ⟨rfl, rfl⟩) (by simp) y (hxy.imp And.right And.right)
    | some k =>
      rw [hk] at hdef
      simp only [Option.map_some, Option.getD_some] at hdef ⊢
      intro a' b' r c ha' hb' hr hc' hrH hcW
      refine ⟨by rw [← bh]; exact hrH, by rw [← bw]; exact hcW, fun u' v' hu' hv' x y hxy hs => hdef x y ?_ ?_ hs⟩
      · exact near hv hv' (Or.inl hb') hc' x (hxy.imp And.left And.left)
      · exact near hu hu' (Or.inl ha') hr y (hxy.imp And.right And.right)

/-- **C178, `Nuker2D` with a window.** A `Nuker2D` centred on a pixel, with a window of an even factor around it, has values at all pixels, whatever method scipy chooses. -/
theorem C178_nuker_window_partial (M : PSFModel ℝ) (hM : CacheOk M) (hc : Compatible M) (cx cy : Center ℝ) (size f : Nat)
    (hwin : M.oversample = .window cx cy (size : Int) f) (hfp : M.psfFactor < f) (heven : Even f) (hsize : 0 < size)
    (amplitude rBreak alpha betta gamma : ℝ) (i j : Nat)
    (hsub : ∀ x y v, nuker2D x y amplitude rBreak i j alpha betta gamma = some v → M.sub.eval [amplitude, rBreak, i, j, alpha, betta, gamma] x y = v)
    (hx : centerValue M.sub [amplitude, rBreak, i, j, alpha, betta, gamma] cx = .ok (i : ℝ))
    (hy : centerValue M.sub [amplitude, rBreak, i, j, alpha, betta, gamma] cy = .ok (j : ℝ))
    (fft : Nat × Nat → Nat × Nat → Bool) (rot : Img ℝ → ℝ → Img ℝ) (coords : List (ℝ × ℝ)) (iMax jMax : Nat) (hg : OnGrid coords 0 0 iMax jMax)
    (hint : ∀ c ∈ coords, ∃ i j : Nat, c = ((i : ℝ), (j : ℝ))) (pa : ℝ) (hi0 : size / 2 ≤ i) (hj0 : size / 2 ≤ j) (hi1 : i - size / 2 + size ≤ iMax + 1)
    (hj1 : j - size / 2 + size ≤ jMax + 1) :
    ∃ G : ℝ × ℝ → ℝ, (M.evaluate rot coords [amplitude, rBreak, i, j, alpha, betta, gamma] pa).1 = .ok (coords.map G) ∧
      (M.evaluateN nukerOf fft rot coords [amplitude, rBreak, i, j, alpha, betta, gamma] pa).1 = .ok (coords.map fun c => some (G c)) := by
  have hr : ∀ n : Nat, size / 2 ≤ n → corner (n : ℝ) size = ((n - size / 2 : Nat) : Int) := fun n hn => by
    have : rint (n : ℝ) = (n : Int) := by
      unfold rint
      rw [Int.floor_natCast]
      norm_num
    unfold corner
    rw [this]
    push_cast [hn]
    rfl
  have hall : ∀ x y, WindowSample M.psfFactor f (i - size / 2) (j - size / 2) size x y →
      nukerOf [amplitude, rBreak, i, j, alpha, betta, gamma] x y ≠ none := by
    intro x y hs hn
    obtain ⟨rfl, rfl⟩ := (nuker_none x y amplitude rBreak i j alpha betta gamma).1 hn
    have inw : ∀ n : Nat, size / 2 ≤ n → ((n - size / 2 : Nat) : ℝ) - 1 / 2 < n ∧ (n : ℝ) < ((n - size / 2 : Nat) : ℝ) + size - 1 / 2 := fun n hn => by
      have h1 : ((n - size / 2 : Nat) : ℝ) ≤ n := by exact_mod_cast Nat.sub_le _ _
      have h2 : (n : ℝ) + 1 ≤ ((n - size / 2 : Nat) : ℝ) + size := by exact_mod_cast (by omega : n + 1 ≤ n - size / 2 + size)
      constructor <;> linarith
    rcases hs with ⟨-, r, c, h1, -⟩ | ⟨h, -⟩
    · obtain ⟨k, rfl⟩ := heven
      have hk : ((k + k : Nat) : ℝ) ≠ 0 := by
        have : 0 < k + k := by omega
        exact_mod_cast this.ne'
      have h2 : (c : ℝ) + 1 / 2 = (i + 1 / 2) * ((k + k : Nat) : ℝ) := by
        rw [h1]
        field_simp
        ring
      push_cast at h2
      have h3 : ((2 * c + 1 : Nat) : ℝ) = ((4 * i * k + 2 * k : Nat) : ℝ) := by push_cast; linarith
      have h4 : 2 * c + 1 = 4 * i * k + 2 * k := by exact_mod_cast h3
      have h5 : 4 * i * k = 2 * (2 * i * k) := by ring
      omega
    · exact h ⟨inw i hi0, inw j hj0⟩
  obtain ⟨F, G, e1, e2, h⟩ := C178_window_partial M hM hc cx cy size f hwin hfp nukerOf [amplitude, rBreak, i, j, alpha, betta, gamma] hsub fft rot coords iMax jMax hg hint pa _ _ hx hy _ _ (hr i hi0) (hr j hj0)
    hi1 hj1 (Or.inl hall)
  refine ⟨G, e2, e1.trans ?_⟩
  congr 1
  exact List.map_congr_left fun c hcm => h c hcm fun x y _ _ hs => hall x y hs

/-! ### Cases -/

/-- The settings of `holeModel` with a window of one pixel at the centre, with two samples across. -/
def holeWindow : PSFModel ℚ := { holeModel with oversample := .window (.name "x_0") (.name "y_0") 1 2 }

/-- The window removes the NaN of the main grid. -/
example : (holeWindow.evaluateN holeOf (fun _ _ => true) (fun p _ => p) holeCoords [1, 0] 0).1 =
    .ok [some (1 / 4), some 1, some 2, some 2, some (31 / 4), some 11, some 12, some (38 / 4)] := by decide +kernel

/-- The centre is a sample of a window with three samples across. -/
example : ({ holeModel with oversample := .window (.name "x_0") (.name "y_0") 1 3 }.evaluateN holeOf (fun _ _ => false) (fun p _ => p) holeCoords [1, 0] 0).1 =
    .ok [none, none, none, some 2, some (31 / 4), some 11, some 12, some (38 / 4)] := by decide +kernel

/-- The hypotheses of `C178_window_partial`. -/
example : CacheOk holeWindow ∧ Compatible holeWindow ∧ OnGrid holeCoords 0 0 3 1 ∧ centerValue holeWindow.sub [1, 0] (.name "x_0") = .ok 1 ∧
    centerValue holeWindow.sub [1, 0] (.name "y_0") = .ok 0 ∧ corner (1 : ℚ) 1 = (1 : Nat) ∧ corner (0 : ℚ) 1 = (0 : Nat) ∧ holeWindow.psfFactor < 2 :=
  ⟨fun r hr => (by cases hr), ⟨by decide, by decide, by decide⟩, ⟨by decide +kernel, by decide +kernel, by decide +kernel, by decide +kernel⟩, rfl, rfl,
    by decide +kernel, by decide +kernel, by decide⟩

end Verif.Props

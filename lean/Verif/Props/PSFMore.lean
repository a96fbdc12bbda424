import Verif.Props.PSFModel

/-!
# C77, C85-C87: coordinates, linearity and frames of `PSFConvolvedModel2D.evaluate`
-/

set_option linter.unusedSectionVars false
set_option linter.unusedVariables false
set_option linter.unusedSimpArgs false

namespace Verif.Props

open Verif Spec PSFModel

variable {K : Type} [Field K] [LinearOrder K] [IsStrictOrderedRing K] [FloorRing K]

/-! ### C77: coordinates between pixels -/

theorem indexOf_cast {v m : K} (h : m ≤ v) : ((indexOf v m : Nat) : K) = ((⌊v - m⌋ : ℤ) : K) := by
  unfold indexOf
  have : ((⌊v - m⌋.toNat : ℕ) : ℤ) = ⌊v - m⌋ := Int.toNat_of_nonneg (Int.floor_nonneg.2 (by linarith))
  exact_mod_cast congrArg (fun z : ℤ => (z : K)) this

theorem le_of_min? {l : List K} {m x : K} (h : l.min? = some m) (hx : x ∈ l) : m ≤ x := (List.min?_eq_some_iff.1 h).2 x hx

/-- **C77, what is returned.** Without a PSF and with an integer oversampling (or none), the value at a coordinate is the pixel mean at the
coordinate moved down to a whole number of pixels from the smallest coordinate, on both axes, for every coordinate array. -/
theorem C77_snaps (M : PSFModel K) (hM : CacheOk M) (hc : Compatible M) (hpsf : M.psf = none)
    (hwin : ∀ x y s f, M.oversample ≠ .window x y s f) (rot : Img K → K → Img K) (coords : List (K × K)) (x0 y0 : K)
    (hx : (coords.map (·.1)).min? = some x0) (hy : (coords.map (·.2)).min? = some y0) (params : List K) (pa : K) :
    (M.evaluate rot coords params pa).1 = .ok (coords.map fun c =>
      pixelMean (M.sub.eval params) (x0 + ⌊c.1 - x0⌋) (y0 + ⌊c.2 - y0⌋) M.oversampleFactor) := by
  have hne : coords ≠ [] := by rintro rfl; simp at hx
  obtain ⟨b, hb⟩ := max?_some (l := coords.map (·.1)) (by simpa using hne)
  obtain ⟨d, hd⟩ := max?_some (l := coords.map (·.2)) (by simpa using hne)
  rw [evaluate_int_any hM hc hpsf hwin rot hx hb hy hd]
  congr 1
  apply List.map_congr_left
  intro c hcm
  rw [indexOf_cast (le_of_min? hx (List.mem_map_of_mem (f := (·.1)) hcm)),
    indexOf_cast (le_of_min? hy (List.mem_map_of_mem (f := (·.2)) hcm))]

/-- **C77, partial.** If all coordinates are whole numbers of pixels from the smallest one (any origin, any order, gaps and repetitions
allowed), the value is the pixel mean at the coordinate itself; without oversampling it is the wrapped model. -/
theorem C77_whole_partial (M : PSFModel K) (hM : CacheOk M) (hc : Compatible M) (hpsf : M.psf = none)
    (hwin : ∀ x y s f, M.oversample ≠ .window x y s f) (rot : Img K → K → Img K) (coords : List (K × K)) (x0 y0 : K)
    (hx : (coords.map (·.1)).min? = some x0) (hy : (coords.map (·.2)).min? = some y0)
    (hw : ∀ c ∈ coords, ∃ i j : ℤ, c = (x0 + i, y0 + j)) (params : List K) (pa : K) :
    (M.evaluate rot coords params pa).1 = .ok (coords.map fun c => pixelMean (M.sub.eval params) c.1 c.2 M.oversampleFactor) ∧
    (M.oversampleFactor = 1 → (M.evaluate rot coords params pa).1 = .ok (coords.map fun c => M.sub.eval params c.1 c.2)) := by
  have h1 : (M.evaluate rot coords params pa).1 =
      .ok (coords.map fun c => pixelMean (M.sub.eval params) c.1 c.2 M.oversampleFactor) := by
    rw [C77_snaps M hM hc hpsf hwin rot coords x0 y0 hx hy]
    congr 1
    apply List.map_congr_left
    intro c hcm
    obtain ⟨i, j, rfl⟩ := hw c hcm
    simp
  refine ⟨h1, fun hf => ?_⟩
  rw [h1, hf]
  congr 1
  apply List.map_congr_left
  intro c _
  simp [pixelMean]

/-- **C77, violated.** Without PSF and oversampling, the wrapper of `x + 10 y` evaluated at `x = 0, 1/2, 1, 3/2` gives `0, 0, 1, 1`. -/
theorem C77_violated : ∃ M : PSFModel ℚ, PSFModel.init tilt none .none .none = .ok M ∧
    (M.evaluate (fun p _ => p) [(0, 0), (1 / 2, 0), (1, 0), (3 / 2, 0)] [0] 0).1 = .ok [0, 0, 1, 1] ∧
    [(0, 0), (1 / 2, 0), (1, 0), (3 / 2, 0)].map (fun c : ℚ × ℚ => tilt.eval [0] c.1 c.2) = [0, 1 / 2, 1, 3 / 2] := by
  refine ⟨_, rfl, ?_, ?_⟩ <;> decide +kernel

/-! ### C85: linearity in the wrapped model -/

/-- `p` times one model plus `q` times another with the same parameters. -/
def combine (p q : K) (S T : SubModel K) : SubModel K := ⟨S.paramNames, fun ps x y => p * S.eval ps x y + q * T.eval ps x y⟩

/-- `C = p A + q B` as images. -/
def Comb (p q : K) (A B C : Img K) : Prop :=
  A.h = C.h ∧ B.h = C.h ∧ A.w = C.w ∧ B.w = C.w ∧ ∀ i j, C.px i j = p * A.px i j + q * B.px i j

variable {p q : K} {A B C : Img K}

theorem Comb.sample (S T : SubModel K) (ps : List K) (g : Img K × Img K) :
    Comb p q (sample S ps g) (sample T ps g) (sample (combine p q S T) ps g) := ⟨rfl, rfl, rfl, rfl, fun _ _ => rfl⟩

theorem Comb.blockReduce (h : Comb p q A B C) (f : Nat) : Comb p q (blockReduce A f) (blockReduce B f) (blockReduce C f) := by
  obtain ⟨h1, h2, h3, h4, h5⟩ := h
  refine ⟨by simp [Verif.blockReduce, h1], by simp [Verif.blockReduce, h2], by simp [Verif.blockReduce, h3],
    by simp [Verif.blockReduce, h4], fun i j => ?_⟩
  rw [blockReduce_px, blockReduce_px, blockReduce_px, Finset.mul_sum, Finset.mul_sum, ← Finset.sum_add_distrib]
  apply Finset.sum_congr rfl; intro a _
  rw [Finset.mul_sum, Finset.mul_sum, ← Finset.sum_add_distrib]
  apply Finset.sum_congr rfl; intro b _
  exact h5 _ _

theorem Comb.divBy (h : Comb p q A B C) (c : K) : Comb p q (A.divBy c) (B.divBy c) (C.divBy c) := by
  obtain ⟨h1, h2, h3, h4, h5⟩ := h
  refine ⟨h1, h2, h3, h4, fun i j => ?_⟩
  rw [divBy_px, divBy_px, divBy_px, h5]
  ring

theorem Comb.convolve (h : Comb p q A B C) (psf : Img K) : Comb p q (convolveSame A psf) (convolveSame B psf) (convolveSame C psf) := by
  obtain ⟨h1, h2, h3, h4, h5⟩ := h
  refine ⟨h1, h2, h3, h4, fun i j => ?_⟩
  have hz : ∀ a b, C.zeroPad a b = p * A.zeroPad a b + q * B.zeroPad a b := by
    intro a b
    unfold Img.zeroPad
    rw [h1, h2, h3, h4]
    split
    · exact h5 _ _
    · ring
  rw [convolveSame_px, convolveSame_px, convolveSame_px, Finset.mul_sum, Finset.mul_sum, ← Finset.sum_add_distrib]
  apply Finset.sum_congr rfl; intro a _
  rw [Finset.mul_sum, Finset.mul_sum, ← Finset.sum_add_distrib]
  apply Finset.sum_congr rfl; intro b _
  rw [hz]; ring

/-- Two results and their combination: all fail in the same way or all succeed and combine. -/
def CombR (p q : K) (a b c : Except PyErr (Img K)) : Prop :=
  (∃ A B C, a = .ok A ∧ b = .ok B ∧ c = .ok C ∧ Comb p q A B C) ∨ ∃ e, a = .error e ∧ b = .error e ∧ c = .error e

theorem Comb.sliceAssign {A' B' C' : Img K} (h : Comb p q A B C) (h' : Comb p q A' B' C') (r0 r1 c0 c1 : Int) :
    CombR p q (sliceAssign A r0 r1 c0 c1 A') (sliceAssign B r0 r1 c0 c1 B') (sliceAssign C r0 r1 c0 c1 C') := by
  obtain ⟨h1, h2, h3, h4, h5⟩ := h
  obtain ⟨k1, k2, k3, k4, k5⟩ := h'
  unfold PSFModel.sliceAssign
  simp only [h1, h2, h3, h4, k1, k2, k3, k4]
  split
  · refine .inl ⟨_, _, _, rfl, rfl, rfl, rfl, rfl, rfl, rfl, fun i j => ?_⟩
    simp only
    split
    · exact k5 _ _
    · exact h5 _ _
  · exact .inr ⟨_, rfl, rfl, rfl⟩

/-- The model with another wrapped model and an empty cache. -/
def withSub (M : PSFModel K) (S : SubModel K) : PSFModel K := { uncached M with sub := S }

theorem Comb.oversampled (M : PSFModel K) (S T : SubModel K) (hn : S.paramNames = T.paramNames) (ps : List K) (gf iMax jMax : Nat)
    (h : Comb p q A B C) :
    CombR p q ((withSub M S).oversampled ps gf A iMax jMax) ((withSub M T).oversampled ps gf B iMax jMax)
      ((withSub M (combine p q S T)).oversampled ps gf C iMax jMax) := by
  unfold PSFModel.oversampled
  have ho : ∀ U, (withSub M U).oversample = M.oversample := fun _ => rfl
  have hp : ∀ U, (withSub M U).psfFactor = M.psfFactor := fun _ => rfl
  simp only [ho, hp]
  have hint : CombR p q (.ok (if 1 < gf / M.psfFactor then (Verif.blockReduce A (gf / M.psfFactor)).divBy (((gf / M.psfFactor : Nat) : K) ^ 2) else A))
      (.ok (if 1 < gf / M.psfFactor then (Verif.blockReduce B (gf / M.psfFactor)).divBy (((gf / M.psfFactor : Nat) : K) ^ 2) else B))
      (.ok (if 1 < gf / M.psfFactor then (Verif.blockReduce C (gf / M.psfFactor)).divBy (((gf / M.psfFactor : Nat) : K) ^ 2) else C)) := by
    refine .inl ⟨_, _, _, rfl, rfl, rfl, ?_⟩
    split
    · exact (h.blockReduce _).divBy _
    · exact h
  cases M.oversample with
  | none => exact hint
  | int k => exact hint
  | window x y size factor =>
    simp only
    unfold pasteWindow
    simp only [hp]
    by_cases hf : factor / M.psfFactor ≤ 1
    · simp only [if_pos hf]
      exact .inl ⟨_, _, _, rfl, rfl, rfl, h⟩
    · simp only [if_neg hf]
      have hcv : ∀ c, centerValue (withSub M T).sub ps c = centerValue (withSub M S).sub ps c := by
        intro c
        cases c with
        | num v => rfl
        | name s =>
          have h1 : (withSub M T).sub.paramNames = (withSub M S).sub.paramNames := hn.symm
          simp only [centerValue, h1]
      have hcv' : ∀ c, centerValue (withSub M (combine p q S T)).sub ps c = centerValue (withSub M S).sub ps c := fun c => by
        cases c <;> rfl
      simp only [hcv, hcv']
      cases hx : centerValue (withSub M S).sub ps x with
      | error e => exact .inr ⟨e, rfl, rfl, rfl⟩
      | ok vx =>
        cases hy : centerValue (withSub M S).sub ps y with
        | error e => exact .inr ⟨e, rfl, rfl, rfl⟩
        | ok vy =>
          exact h.sliceAssign (((Comb.sample S T ps _).blockReduce _).divBy _) _ _ _ _

theorem Comb.convolved (M : PSFModel K) (S T U : SubModel K) (rot : Img K → K → Img K) (pa : K) (h : Comb p q A B C) :
    Comb p q ((withSub M S).convolved rot pa A) ((withSub M T).convolved rot pa B) ((withSub M U).convolved rot pa C) := by
  unfold PSFModel.convolved
  have ho : ∀ U, (withSub M U).psf = M.psf := fun _ => rfl
  have hp : ∀ U, (withSub M U).psfFactor = M.psfFactor := fun _ => rfl
  simp only [ho, hp]
  cases M.psf with
  | none =>
    simp only
    split
    · exact (h.blockReduce _).divBy _
    · exact h
  | some psf =>
    simp only
    split
    · exact ((h.convolve _).blockReduce _).divBy _
    · exact h.convolve _

theorem Comb.pick (h : Comb p q A B C) (idx : List (Nat × Nat)) :
    idx.mapM (pick C) = (do
      let a ← idx.mapM (pick A)
      let b ← idx.mapM (pick B)
      .ok (List.zipWith (fun u v => p * u + q * v) a b)) := by
  obtain ⟨h1, h2, h3, h4, h5⟩ := h
  induction idx with
  | nil => rfl
  | cons i t ih =>
    rw [List.mapM_cons, List.mapM_cons, List.mapM_cons, ih]
    unfold PSFModel.pick
    rw [h1, h2, h3, h4]
    split
    · rename_i hi
      cases hA : List.mapM (fun p : Nat × Nat => if p.1 < C.h ∧ p.2 < C.w then (Except.ok (A.px p.1 p.2) : Except PyErr K) else .error .indexError) t with
      | error e => rfl
      | ok a =>
        cases hB : List.mapM (fun p : Nat × Nat => if p.1 < C.h ∧ p.2 < C.w then (Except.ok (B.px p.1 p.2) : Except PyErr K) else .error .indexError) t with
        | error e => rfl
        | ok b =>
          show Except.ok (C.px i.1 i.2 :: _) = Except.ok ((p * A.px i.1 i.2 + q * B.px i.1 i.2) :: _)
          rw [h5]
    · rfl

/-- **C85.** With any PSF, position angle, oversampling, window, PSF oversampling and coordinates, the image of `p S + q T` is `p` times the
image of `S` plus `q` times the image of `T` (and evaluation fails for all three in the same way). -/
theorem C85_linear (M : PSFModel K) (S T : SubModel K) (hn : S.paramNames = T.paramNames) (p q : K) (rot : Img K → K → Img K)
    (coords : List (K × K)) (params : List K) (pa : K) :
    ((withSub M (combine p q S T)).evaluate rot coords params pa).1 = (do
      let a ← ((withSub M S).evaluate rot coords params pa).1
      let b ← ((withSub M T).evaluate rot coords params pa).1
      .ok (List.zipWith (fun u v => p * u + q * v) a b)) := by
  by_cases hc : coords = []
  · rw [evaluate_err hc, evaluate_err hc, evaluate_err hc]; rfl
  · obtain ⟨a, ha⟩ := min?_some (l := coords.map (·.1)) (by simpa using hc)
    obtain ⟨b, hb⟩ := max?_some (l := coords.map (·.1)) (by simpa using hc)
    obtain ⟨c, hc'⟩ := min?_some (l := coords.map (·.2)) (by simpa using hc)
    obtain ⟨d, hd⟩ := max?_some (l := coords.map (·.2)) (by simpa using hc)
    rw [evaluate_some ha hb hc' hd, evaluate_some ha hb hc' hd, evaluate_some ha hb hc' hd]
    have h0 : ∀ U, CacheOk (withSub M U) := fun U r hr => by cases hr
    have hgf : ∀ U, (withSub M U).gridFactor = M.gridFactor := fun U => rfl
    simp only [hgf]
    rw [mainGrid_fst (h0 _), mainGrid_fst (h0 _), mainGrid_fst (h0 _)]
    unfold valuesOn
    simp only [hgf]
    have hs : Comb p q (sample (withSub M S).sub params (makeGrid ((max (indexOf b a) (indexOf d c) + 1 : Nat) : Int) (a, c) M.gridFactor))
        (sample (withSub M T).sub params (makeGrid ((max (indexOf b a) (indexOf d c) + 1 : Nat) : Int) (a, c) M.gridFactor))
        (sample (withSub M (combine p q S T)).sub params (makeGrid ((max (indexOf b a) (indexOf d c) + 1 : Nat) : Int) (a, c) M.gridFactor)) :=
      Comb.sample S T params _
    rcases Comb.oversampled M S T hn params M.gridFactor (indexOf b a) (indexOf d c) hs with ⟨A, B, C, e1, e2, e3, h⟩ | ⟨e, e1, e2, e3⟩
    · rw [e1, e2, e3]
      exact (h.convolved M S T _ rot pa).pick _
    · rw [e1, e2, e3]; rfl

/-- Non-vacuity: a combination of two models with a window, a 3-pixel PSF and a rotation that flips it. -/
example : ((withSub { bowlModel with psf := some (Img.ofRows 0 [[1 / 4, 1 / 2, 1 / 4]]) } (combine 2 (-1) bowl ⟨bowl.paramNames, fun _ x _ => x⟩)).evaluate
    (fun p _ => p) [(0, 0), (1, 0), (2, 1)] [1, 1] 0).1.isOk = true := by decide +kernel

/-! ### C86: moving the model and the coordinates together -/

/-- The model moved by `(u, v)`. -/
def moved (S : SubModel K) (u v : K) : SubModel K := ⟨S.paramNames, fun ps x y => S.eval ps (x - u) (y - v)⟩

theorem min?_add {l : List K} {m : K} (u : K) (h : l.min? = some m) : (l.map (· + u)).min? = some (m + u) := by
  rw [List.min?_eq_some_iff] at h ⊢
  refine ⟨List.mem_map_of_mem h.1, fun b hb => ?_⟩
  obtain ⟨a, ha, rfl⟩ := List.mem_map.1 hb
  linarith [h.2 a ha]

theorem max?_add {l : List K} {m : K} (u : K) (h : l.max? = some m) : (l.map (· + u)).max? = some (m + u) := by
  rw [List.max?_eq_some_iff] at h ⊢
  refine ⟨List.mem_map_of_mem h.1, fun b hb => ?_⟩
  obtain ⟨a, ha, rfl⟩ := List.mem_map.1 hb
  linarith [h.2 a ha]

theorem divBy_same {a b : Img K} (h : a.Same b) (c : K) : (a.divBy c).Same (b.divBy c) := by
  obtain ⟨h1, h2, h3⟩ := h
  exact ⟨h1, h2, fun i j hi hj => by rw [divBy_px, divBy_px, h3 i j hi hj]⟩

theorem convolve_same {a b : Img K} (h : a.Same b) (psf : Img K) : (convolveSame a psf).Same (convolveSame b psf) := by
  obtain ⟨h1, h2, h3⟩ := h
  refine ⟨h1, h2, fun i j hi hj => ?_⟩
  have hz : ∀ x y, a.zeroPad x y = b.zeroPad x y := by
    intro x y
    unfold Img.zeroPad
    rw [← h1, ← h2]
    split
    · exact h3 _ _ (by omega) (by omega)
    · rfl
  rw [convolveSame_px, convolveSame_px]
  simp only [hz]

theorem convolved_same (M : PSFModel K) (rot : Img K → K → Img K) (pa : K) {a b : Img K} (h : a.Same b) :
    (M.convolved rot pa a).Same (M.convolved rot pa b) := by
  unfold convolved
  cases M.psf with
  | none =>
    simp only
    split
    · exact divBy_same (blockReduce_same h _) _
    · exact h
  | some psf =>
    simp only
    split
    · exact divBy_same (blockReduce_same (convolve_same h _) _) _
    · exact convolve_same h _

/-- **C86.** Without a window, and for any PSF, position angle and fitting factors: moving the model and all the coordinates by the same
vector (whole pixels or not) does not change the values. -/
theorem C86_translation (M : PSFModel K) (hwin : ∀ x y s f, M.oversample ≠ .window x y s f) (S : SubModel K) (u v : K)
    (rot : Img K → K → Img K) (coords : List (K × K)) (params : List K) (pa : K) :
    ((withSub M (moved S u v)).evaluate rot (coords.map fun c => (c.1 + u, c.2 + v)) params pa).1 =
      ((withSub M S).evaluate rot coords params pa).1 := by
  by_cases hc : coords = []
  · subst hc; rfl
  · obtain ⟨a, ha⟩ := min?_some (l := coords.map (·.1)) (by simpa using hc)
    obtain ⟨b, hb⟩ := max?_some (l := coords.map (·.1)) (by simpa using hc)
    obtain ⟨c, hc'⟩ := min?_some (l := coords.map (·.2)) (by simpa using hc)
    obtain ⟨d, hd⟩ := max?_some (l := coords.map (·.2)) (by simpa using hc)
    have e1 : (coords.map fun c => (c.1 + u, c.2 + v)).map (·.1) = (coords.map (·.1)).map (· + u) := by simp
    have e2 : (coords.map fun c => (c.1 + u, c.2 + v)).map (·.2) = (coords.map (·.2)).map (· + v) := by simp
    rw [evaluate_some ha hb hc' hd, evaluate_some (a := a + u) (b := b + u) (c := c + v) (d := d + v)
      (by rw [e1]; exact min?_add u ha) (by rw [e1]; exact max?_add u hb) (by rw [e2]; exact min?_add v hc') (by rw [e2]; exact max?_add v hd)]
    have h0 : ∀ U, CacheOk (withSub M U) := fun U r hr => by cases hr
    have hgf : ∀ U, (withSub M U).gridFactor = M.gridFactor := fun U => rfl
    have hi : ∀ x m t : K, indexOf (x + t) (m + t) = indexOf x m := by
      intro x m t; unfold indexOf; congr 2; ring
    simp only [hgf, hi, List.map_map, Function.comp_def]
    rw [mainGrid_fst (h0 _), mainGrid_fst (h0 _)]
    unfold valuesOn
    simp only [hgf]
    generalize max (indexOf b a) (indexOf d c) + 1 = N
    have hs : (sample (withSub M (moved S u v)).sub params (makeGrid (N : Int) (a + u, c + v) M.gridFactor)).Same
        (sample (withSub M S).sub params (makeGrid (N : Int) (a, c) M.gridFactor)) := by
      obtain ⟨g1, g2, g3, g4, g5⟩ := makeGrid_spec N M.gridFactor (a + u, c + v)
      obtain ⟨k1, k2, k3, k4, k5⟩ := makeGrid_spec N M.gridFactor (a, c)
      refine ⟨g1.trans k1.symm, g2.trans k2.symm, fun i j hi hj => ?_⟩
      have hi' : i < N * M.gridFactor := lt_of_lt_of_eq hi g1
      have hj' : j < N * M.gridFactor := lt_of_lt_of_eq hj g2
      show S.eval params (_ - u) (_ - v) = S.eval params _ _
      rw [(g5 i j hi' hj').1, (g5 i j hi' hj').2, (k5 i j hi' hj').1, (k5 i j hi' hj').2]
      congr 1 <;> ring
    have hov : ∀ U im, (withSub M U).oversampled params M.gridFactor im (indexOf b a) (indexOf d c) =
        .ok (if 1 < M.gridFactor / M.psfFactor then
          (blockReduce im (M.gridFactor / M.psfFactor)).divBy (((M.gridFactor / M.psfFactor : Nat) : K) ^ 2) else im) := by
      intro U im
      unfold oversampled
      have ho : (withSub M U).oversample = M.oversample := rfl
      rw [ho]
      cases hmo : M.oversample with
      | none => rfl
      | int k => rfl
      | window x y s f => exact absurd hmo (hwin x y s f)
    rw [hov, hov]
    simp only [bind, Except.bind]
    have hcv : (withSub M (moved S u v)).convolved rot pa = (withSub M S).convolved rot pa := rfl
    rw [hcv]
    congr 1
    apply pick_same
    apply convolved_same
    split
    · exact divBy_same (blockReduce_same hs _) _
    · exact hs

/-- Non-vacuity: a model with PSF and oversampling, moved by `(1/3, -2)`. -/
example : ((withSub ⟨tilt, some (Img.ofRows 0 [[1 / 4, 1 / 2, 1 / 4]]), .int 2, none, true, 0, 0, none, none⟩ (moved tilt (1 / 3) (-2))).evaluate
      (fun p _ => p) [(1 / 3, -2), (4 / 3, -2), (1 / 3, -1)] [0] 0).1 = .ok [1 / 4, 1 / 2, 31 / 4] ∧
    ((withSub ⟨tilt, some (Img.ofRows 0 [[1 / 4, 1 / 2, 1 / 4]]), .int 2, none, true, 0, 0, none, none⟩ tilt).evaluate
      (fun p _ => p) [(0, 0), (1, 0), (0, 1)] [0] 0).1 = .ok [1 / 4, 1 / 2, 31 / 4] := by
  decide +kernel

/-! ### C87: which other pixels are evaluated -/

/-- **C87, order and repetition.** For every setting, the values depend on the other coordinates only through the smallest and largest `x` and
`y`: there is one function of the coordinate that gives the values for all coordinate arrays with those extremes, in any order, with any
gaps and repetitions. -/
theorem C87_pointwise (M : PSFModel K) (hM : CacheOk M) (rot : Img K → K → Img K) (params : List K) (pa a b c d : K) :
    ∃ value : K × K → Except PyErr K, ∀ coords : List (K × K), (coords.map (·.1)).min? = some a → (coords.map (·.1)).max? = some b →
      (coords.map (·.2)).min? = some c → (coords.map (·.2)).max? = some d →
      (M.evaluate rot coords params pa).1 = coords.mapM value := by
  refine ⟨fun p => do
    let image ← M.oversampled params M.gridFactor
      (sample M.sub params (makeGrid ((max (indexOf b a) (indexOf d c) + 1 : Nat) : Int) (a, c) M.gridFactor)) (indexOf b a) (indexOf d c)
    pick (M.convolved rot pa image) (indexOf p.2 c, indexOf p.1 a), ?_⟩
  intro coords ha hb hc hd
  rw [evaluate_some ha hb hc hd]
  simp only
  rw [mainGrid_fst hM]
  unfold valuesOn
  cases M.oversampled params M.gridFactor
      (sample M.sub params (makeGrid ((max (indexOf b a) (indexOf d c) + 1 : Nat) : Int) (a, c) M.gridFactor)) (indexOf b a) (indexOf d c) with
  | error e =>
    cases coords with
    | nil => simp at ha
    | cons p t => rfl
  | ok im =>
    show (coords.map _).mapM _ = coords.mapM (fun p => pick (M.convolved rot pa im) (indexOf p.2 c, indexOf p.1 a))
    rw [List.mapM_map]
    rfl

/-- **C87, partial.** Without a PSF and without a window, the value at a coordinate does not depend on the other coordinates at all, as long
as they are whole numbers of pixels apart. -/
theorem C87_no_psf_partial (M : PSFModel K) (hM : CacheOk M) (hc : Compatible M) (hpsf : M.psf = none)
    (hwin : ∀ x y s f, M.oversample ≠ .window x y s f) (rot : Img K → K → Img K) (coords coords' : List (K × K))
    (hw : ∀ c ∈ coords ++ coords', ∀ d ∈ coords ++ coords', ∃ i j : ℤ, c = (d.1 + i, d.2 + j)) (params : List K) (pa : K)
    (h1 : coords ≠ []) (h2 : coords' ≠ []) :
    ∃ value : K × K → K, (M.evaluate rot coords params pa).1 = .ok (coords.map value) ∧
      (M.evaluate rot coords' params pa).1 = .ok (coords'.map value) := by
  have key : ∀ l : List (K × K), l ≠ [] → (∀ c ∈ l, ∀ d ∈ l, ∃ i j : ℤ, c = (d.1 + i, d.2 + j)) →
      (M.evaluate rot l params pa).1 = .ok (l.map fun c => pixelMean (M.sub.eval params) c.1 c.2 M.oversampleFactor) := by
    intro l hl hwl
    obtain ⟨x0, hx⟩ := min?_some (l := l.map (·.1)) (by simpa using hl)
    obtain ⟨y0, hy⟩ := min?_some (l := l.map (·.2)) (by simpa using hl)
    refine (C77_whole_partial M hM hc hpsf hwin rot l x0 y0 hx hy ?_ params pa).1
    intro c hcm
    obtain ⟨d, hd, rfl⟩ := List.mem_map.1 (List.min?_eq_some_iff.1 hx).1
    obtain ⟨e, he, rfl⟩ := List.mem_map.1 (List.min?_eq_some_iff.1 hy).1
    obtain ⟨i, _, h1⟩ := hwl c hcm d hd
    obtain ⟨_, j, h2⟩ := hwl c hcm e he
    have g1 : c.1 = d.1 + i := by rw [h1]
    have g2 : c.2 = e.2 + j := by rw [h2]
    exact ⟨i, j, Prod.ext g1 g2⟩
  refine ⟨fun c => pixelMean (M.sub.eval params) c.1 c.2 M.oversampleFactor, key coords h1 ?_, key coords' h2 ?_⟩
  · intro c hc d hd; exact hw c (by simp [hc]) d (by simp [hd])
  · intro c hc d hd; exact hw c (by simp [hc]) d (by simp [hd])

/-- **C87, violated.** With a PSF the value of a pixel depends on which other pixels are evaluated: the image of the constant 1 under a
normalised 3×3 PSF is 1 at `(0, 0)` when the surrounding pixels are evaluated too, and 4/9 when they are left out (for instance because a mask
excludes them from a fit). -/
theorem C87_violated : ∃ M : PSFModel ℚ,
    PSFModel.init ⟨[], fun _ _ _ => 1⟩ (some ⟨3, 3, fun _ _ => 1 / 9⟩) .none .none = .ok M ∧
    (M.evaluate (fun p _ => p) [(0, 0), (1, 1)] [] 0).1 = .ok [4 / 9, 4 / 9] ∧
    (M.evaluate (fun p _ => p) [(0, 0), (1, 1), (-1, -1), (2, 2)] [] 0).1 = .ok [1, 1, 4 / 9, 4 / 9] := by
  refine ⟨_, rfl, ?_, ?_⟩ <;> decide +kernel

end Verif.Props

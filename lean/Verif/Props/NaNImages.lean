import Verif.Model.NaNImages
import Verif.Model.Profiles
import Verif.Props.PSFModel
import Verif.Props.Profiles

/-!
# C178: an undefined value of a model stays where it is
-/

set_option linter.unusedSectionVars false
set_option linter.unusedVariables false
set_option linter.unusedSimpArgs false

namespace Verif.Props

open Spec PSFModel

variable {K : Type} [Field K] [LinearOrder K] [IsStrictOrderedRing K] [FloorRing K]

/-! ### Sums -/

theorem nanSum_some {f : Nat → Option K} {g : Nat → K} {l : List Nat} (h : ∀ k ∈ l, f k = some (g k)) :
    nanSum (l.map f) = some (l.map g).sum := by
  induction l with
  | nil => rfl
  | cons a t ih =>
    have e : nanSum (t.map f) = some (t.map g).sum := ih fun k hk => h k (by simp [hk])
    show (f a).bind (fun x => (nanSum (t.map f)).map fun y => x + y) = _
    rw [h a (by simp), e]
    simp

theorem nanSum_none {f : Nat → Option K} {l : List Nat} {k : Nat} (hk : k ∈ l) (h : f k = none) : nanSum (l.map f) = none := by
  induction l with
  | nil => cases hk
  | cons a t ih =>
    show (f a).bind (fun x => (nanSum (t.map f)).map fun y => x + y) = _
    rcases List.mem_cons.1 hk with e | e
    · rw [← e, h]; rfl
    · rw [ih e]; cases f a <;> rfl

/-- `a` has the shape of `b` and its value at the pixels in `D`. -/
structure Agree (D : Nat → Nat → Prop) (a : Img (Option K)) (b : Img K) : Prop where
  h : a.h = b.h
  w : a.w = b.w
  px : ∀ i j, D i j → a.px i j = some (b.px i j)

theorem Agree.reduce {D : Nat → Nat → Prop} {a : Img (Option K)} {b : Img K} (H : Agree D a b) (f : Nat) :
    Agree (fun i j => ∀ u v, u < f → v < f → D (i * f + u) (j * f + v)) (blockReduceN a f) (blockReduce b f) where
  h := by show a.h / f = b.h / f; rw [H.h]
  w := by show a.w / f = b.w / f; rw [H.w]
  px i j hD := nanSum_some fun u hu => nanSum_some fun v hv => H.px _ _ (hD u v (List.mem_range.1 hu) (List.mem_range.1 hv))

theorem Agree.div {D : Nat → Nat → Prop} {a : Img (Option K)} {b : Img K} (H : Agree D a b) (c : K) :
    Agree D (a.divByN c) (b.divBy c) where
  h := H.h
  w := H.w
  px i j hD := by
    show (a.px i j).map _ = _
    rw [H.px i j hD]; rfl

theorem Agree.mono {D E : Nat → Nat → Prop} {a : Img (Option K)} {b : Img K} (H : Agree D a b) (h : ∀ i j, E i j → D i j) :
    Agree E a b := ⟨H.h, H.w, fun i j e => H.px i j (h i j e)⟩

theorem Agree.pad {D : Nat → Nat → Prop} {a : Img (Option K)} {b : Img K} (H : Agree D a b) (i j : Int)
    (hD : 0 ≤ i → 0 ≤ j → i < b.h → j < b.w → D i.toNat j.toNat) : a.zeroPadN i j = some (b.zeroPad i j) := by
  unfold Img.zeroPadN Img.zeroPad
  rw [H.h, H.w]
  split_ifs with h
  · exact H.px _ _ (hD h.1 h.2.2.1 h.2.1 h.2.2.2)
  · rfl

/-- The pixels that the direct convolution with a kernel of this shape reads for pixel `(i, j)`, inside the image. -/
def TapsIn (D : Nat → Nat → Prop) (h w H W : Nat) (i j : Nat) : Prop :=
  ∀ a b u v : Nat, a < h → b < w → (u : Int) = i + ((h - 1) / 2 : Nat) - a → (v : Int) = j + ((w - 1) / 2 : Nat) - b → u < H → v < W → D u v

theorem Agree.direct {D : Nat → Nat → Prop} {a : Img (Option K)} {b : Img K} (H : Agree D a b) (psf : Img K) :
    Agree (TapsIn D psf.h psf.w b.h b.w) (convolveDirectN a psf) (convolveSame b psf) where
  h := H.h
  w := H.w
  px i j hD := by
    refine nanSum_some fun u hu => nanSum_some fun v hv => ?_
    rw [H.pad _ _ fun h1 h2 h3 h4 => hD u v _ _ (List.mem_range.1 hu) (List.mem_range.1 hv) (Int.toNat_of_nonneg h1)
      (Int.toNat_of_nonneg h2) (by omega) (by omega)]
    rfl

theorem anyNaN_false {D : Nat → Nat → Prop} {a : Img (Option K)} {b : Img K} (H : Agree D a b)
    (h : ∀ i j, i < b.h → j < b.w → D i j) : a.anyNaN = false := by
  unfold Img.anyNaN
  rw [Bool.eq_false_iff]
  intro hc
  obtain ⟨i, hi, hc⟩ := List.any_eq_true.1 hc
  obtain ⟨j, hj, hc⟩ := List.any_eq_true.1 hc
  rw [H.px i j (h i j (by rw [← H.h]; exact List.mem_range.1 hi) (by rw [← H.w]; exact List.mem_range.1 hj))] at hc
  exact absurd hc (by simp)

theorem Agree.sample {g : List K → K → K → Option K} {S : SubModel K} {params : List K} {grid : Img K × Img K} :
    Agree (fun i j => g params (grid.1.px i j) (grid.2.px i j) = some (S.eval params (grid.1.px i j) (grid.2.px i j)))
      (sampleN g params grid) (sample S params grid) := ⟨rfl, rfl, fun i j h => h⟩

theorem mapM_agree {D : Nat → Nat → Prop} {a : Img (Option K)} {b : Img K} (H : Agree D a b) (idx : List (Nat × Nat))
    (hD : ∀ p ∈ idx, D p.1 p.2) : idx.mapM (pickN a) = (idx.mapM (pick b)).map (List.map some) := by
  induction idx with
  | nil => rfl
  | cons p t ih =>
    rw [List.mapM_cons, List.mapM_cons, ih fun q hq => hD q (by simp [hq])]
    have hp : pickN a p = (pick b p).map some := by
      unfold pickN pick
      rw [H.h, H.w]
      split_ifs
      · rw [H.px _ _ (hD p (by simp))]; rfl
      · rfl
    rw [hp]
    cases pick b p <;> cases List.mapM (pick b) t <;> rfl

/-! ### Models without undefined values -/

/-- Everywhere. -/
def Everywhere : Nat → Nat → Prop := fun _ _ => True

theorem Agree.slice {a sa : Img (Option K)} {b sb : Img K} (H : Agree Everywhere a b) (S : Agree Everywhere sa sb) (r0 r1 c0 c1 : Int) :
    (∃ e, sliceAssign b r0 r1 c0 c1 sb = .error e ∧ sliceAssignN a r0 r1 c0 c1 sa = .error e) ∨
    ∃ x y, sliceAssign b r0 r1 c0 c1 sb = .ok y ∧ sliceAssignN a r0 r1 c0 c1 sa = .ok x ∧ Agree Everywhere x y := by
  unfold sliceAssign sliceAssignN
  rw [H.h, H.w, S.h, S.w]
  by_cases h : (broadcasts sb.h (sliceBound b.h r1 - sliceBound b.h r0) && broadcasts sb.w (sliceBound b.w c1 - sliceBound b.w c0)) = true
  all_goals simp only [h, if_true, if_false]
  · refine Or.inr ⟨_, _, rfl, rfl, rfl, rfl, fun i j _ => ?_⟩
    simp only
    split_ifs <;> first | exact S.px _ _ trivial | exact H.px _ _ trivial
  · exact Or.inl ⟨.valueError, by simp, by simp⟩

theorem Agree.oversampled {M : PSFModel K} {g : List K → K → K → Option K} (hg : ∀ p x y, g p x y = some (M.sub.eval p x y))
    (params : List K) (F : Nat) {a : Img (Option K)} {b : Img K} (H : Agree Everywhere a b) (iMax jMax : Nat) :
    (∃ e, M.oversampled params F b iMax jMax = .error e ∧ M.oversampledN g params F a iMax jMax = .error e) ∨
    ∃ x y, M.oversampled params F b iMax jMax = .ok y ∧ M.oversampledN g params F a iMax jMax = .ok x ∧ Agree Everywhere x y := by
  have hi : ∀ k : Nat, Agree Everywhere (if 1 < k then (blockReduceN a k).divByN ((k : K) ^ 2) else a)
      (if 1 < k then (blockReduce b k).divBy ((k : K) ^ 2) else b) := by
    intro k
    split_ifs
    · exact ((H.reduce k).div _).mono fun _ _ _ _ _ _ _ => trivial
    · exact H
  unfold PSFModel.oversampled oversampledN
  cases ho : M.oversample with
  | none => exact Or.inr ⟨_, _, rfl, rfl, hi _⟩
  | int k => exact Or.inr ⟨_, _, rfl, rfl, hi _⟩
  | window x y size f =>
    simp only
    unfold pasteWindow pasteWindowN
    simp only [Bind.bind, Except.bind]
    split_ifs with h1
    · exact Or.inr ⟨_, _, rfl, rfl, H⟩
    · cases hx : centerValue M.sub params x with
      | error e => exact Or.inl ⟨e, rfl, rfl⟩
      | ok x0 =>
        cases hy : centerValue M.sub params y with
        | error e => exact Or.inl ⟨e, rfl, rfl⟩
        | ok y0 =>
          simp only
          refine H.slice (((Agree.sample (g := g) (S := M.sub)).mono (E := Everywhere) fun _ _ _ => hg _ _ _).reduce _ |>.div _ |>.mono
            fun _ _ _ _ _ _ _ => trivial) _ _ _ _

theorem Agree.convolved {M : PSFModel K} (fft : Nat × Nat → Nat × Nat → Bool) (rot : Img K → K → Img K) (pa : K) {a : Img (Option K)}
    {b : Img K} (H : Agree Everywhere a b) : Agree Everywhere (M.convolvedN fft rot pa a) (M.convolved rot pa b) := by
  have hc : Agree Everywhere (match M.psf with
      | none => a
      | some psf => convolveN fft a (if pa ≠ 0 then rot psf pa else psf)) (match M.psf with
      | none => b
      | some psf => convolveSame b (if pa ≠ 0 then rot psf pa else psf)) := by
    cases M.psf with
    | none => exact H
    | some psf =>
      simp only
      unfold convolveN
      rw [anyNaN_false H fun _ _ _ _ => trivial, Bool.and_false]
      exact (H.direct _).mono fun _ _ _ _ _ _ _ _ _ _ _ _ _ => trivial
  unfold PSFModel.convolved convolvedN
  by_cases h : 1 < M.psfFactor
  · simp only [h, if_true]
    exact ((hc.reduce _).div _).mono fun _ _ _ _ _ _ _ => trivial
  · simp only [h, if_false]
    exact hc

/-! ### Models with undefined values -/

theorem Agree.reduceIf {D : Nat → Nat → Prop} {a : Img (Option K)} {b : Img K} (H : Agree D a b) {k : Nat} (hk : 0 < k) :
    Agree (fun i j => ∀ u v, u < k → v < k → D (i * k + u) (j * k + v)) (if 1 < k then (blockReduceN a k).divByN ((k : K) ^ 2) else a)
      (if 1 < k then (blockReduce b k).divBy ((k : K) ^ 2) else b) := by
  by_cases h : 1 < k
  · simp only [h, if_true]
    exact (H.reduce k).div _
  · simp only [h, if_false]
    have : k = 1 := by omega
    subst this
    exact H.mono fun i j hD => by simpa using hD 0 0 (by omega) (by omega)

/-- Without a window the model image is the main grid, reduced to the resolution of the PSF. -/
theorem oversampled_int {M : PSFModel K} (hwin : ∀ x y s f, M.oversample ≠ .window x y s f) (g : List K → K → K → Option K)
    (params : List K) (F : Nat) (a : Img (Option K)) (b : Img K) (iMax jMax : Nat) :
    M.oversampledN g params F a iMax jMax =
      .ok (if 1 < F / M.psfFactor then (blockReduceN a (F / M.psfFactor)).divByN (((F / M.psfFactor : Nat) : K) ^ 2) else a) ∧
    M.oversampled params F b iMax jMax =
      .ok (if 1 < F / M.psfFactor then (blockReduce b (F / M.psfFactor)).divBy (((F / M.psfFactor : Nat) : K) ^ 2) else b) := by
  unfold PSFModel.oversampled oversampledN
  cases ho : M.oversample with
  | none => exact ⟨rfl, rfl⟩
  | int k => exact ⟨rfl, rfl⟩
  | window x y s f => exact absurd ho (hwin x y s f)

theorem gridFactor_int {M : PSFModel K} (hwin : ∀ x y s f, M.oversample ≠ .window x y s f) : M.gridFactor = M.oversampleFactor := by
  unfold gridFactor
  cases ho : M.oversample with
  | none => rfl
  | int k => rfl
  | window x y s f => exact absurd ho (hwin x y s f)

theorem evaluateN_some {M : PSFModel K} {coords : List (K × K)} {a b c d : K} (h1 : (coords.map (·.1)).min? = some a)
    (h2 : (coords.map (·.1)).max? = some b) (h3 : (coords.map (·.2)).min? = some c) (h4 : (coords.map (·.2)).max? = some d)
    (g : List K → K → K → Option K) (fft : Nat × Nat → Nat × Nat → Bool) (rot : Img K → K → Img K) (params : List K) (pa : K) :
    M.evaluateN g fft rot coords params pa =
      (M.valuesOnN g fft rot (coords.map fun e => (indexOf e.2 c, indexOf e.1 a)) params pa (indexOf b a) (indexOf d c)
        (M.mainGrid (max (indexOf b a) (indexOf d c) + 1) M.gridFactor (a, b, c, d)).1,
       (M.mainGrid (max (indexOf b a) (indexOf d c) + 1) M.gridFactor (a, b, c, d)).2) := by
  unfold evaluateN
  rw [h1, h2, h3, h4]

/-- **C178, numbers.** For a wrapped model without undefined values this is `PSFModel.evaluate`, whatever method scipy chooses. -/
theorem C178_numbers (M : PSFModel K) (g : List K → K → K → Option K) (hg : ∀ p x y, g p x y = some (M.sub.eval p x y))
    (fft : Nat × Nat → Nat × Nat → Bool) (rot : Img K → K → Img K) (coords : List (K × K)) (params : List K) (pa : K) :
    M.evaluateN g fft rot coords params pa =
      ((M.evaluate rot coords params pa).1.map (List.map some), (M.evaluate rot coords params pa).2) := by
  by_cases hc : coords = []
  · subst hc; rfl
  obtain ⟨xMin, e1⟩ := min?_some (l := coords.map (·.1)) (by simpa using hc)
  obtain ⟨xMax, e2⟩ := max?_some (l := coords.map (·.1)) (by simpa using hc)
  obtain ⟨yMin, e3⟩ := min?_some (l := coords.map (·.2)) (by simpa using hc)
  obtain ⟨yMax, e4⟩ := max?_some (l := coords.map (·.2)) (by simpa using hc)
  rw [evaluateN_some e1 e2 e3 e4, evaluate_some e1 e2 e3 e4]
  refine Prod.ext ?_ rfl
  simp only
  unfold valuesOnN valuesOn
  rcases Agree.oversampled hg params M.gridFactor ((Agree.sample (g := g) (S := M.sub) (params := params)
    (grid := (M.mainGrid (max (indexOf xMax xMin) (indexOf yMax yMin) + 1) M.gridFactor (xMin, xMax, yMin, yMax)).1)).mono
    (E := Everywhere) fun _ _ _ => hg _ _ _) (indexOf xMax xMin) (indexOf yMax yMin) with ⟨e, h1, h2⟩ | ⟨x, y, h1, h2, h3⟩
  · rw [h1, h2]; rfl
  · rw [h1, h2]
    exact mapM_agree (h3.convolved fft rot pa) _ fun _ _ => trivial

theorem mapM_pickN (im : Img (Option K)) (f : K × K → Nat × Nat) (coords : List (K × K))
    (h : ∀ c ∈ coords, (f c).1 < im.h ∧ (f c).2 < im.w) :
    (coords.map f).mapM (pickN im) = .ok (coords.map fun c => im.px (f c).1 (f c).2) := by
  induction coords with
  | nil => rfl
  | cons c t ih =>
    rw [List.map_cons, List.mapM_cons, ih fun d hd => h d (by simp [hd])]
    have : pickN im (f c) = .ok (im.px (f c).1 (f c).2) := by
      unfold pickN; rw [if_pos (h c (by simp))]
    rw [this]; rfl

/-- The kernel that `evaluate` convolves with. -/
def kernel (M : PSFModel K) (rot : Img K → K → Img K) (pa : K) : Option (Img K) :=
  M.psf.map fun psf => if pa ≠ 0 then rot psf pa else psf

/-- How far from its centre a pixel of the image reads the model along an axis, for a kernel of `n` cells of size `1 / p`. -/
def Spec.reach (n p : Nat) : K := 1 / 2 + (n : K) / 2 / p

/-- The samples that a pixel reads are within its reach. -/
theorem sample_in_reach {p q i a k n b N : Nat} (hp : 0 < p) (hq : 0 < q) (ha : a < p) (hk : k < q) (hb : b < n ∨ (n = 0 ∧ b = 0)) {v : Nat}
    (hv : (v : Int) = ((i * p + a : Nat) : Int) + ((n - 1) / 2 : Nat) - b) (o : K) :
    |(o + ((((v * q + k : Nat) : K) + 1 / 2) / ((p * q : Nat) : K) - 1 / 2)) - (o + i)| < Spec.reach n p := by
  have hp0 : (0 : K) < p := by exact_mod_cast hp
  have hq0 : (0 : K) < q := by exact_mod_cast hq
  have hvK : (v : K) = i * p + a + ((n - 1) / 2 : Nat) - b := by
    have := congrArg (Int.cast : Int → K) hv
    push_cast at this
    exact_mod_cast this
  have e : (o + ((((v * q + k : Nat) : K) + 1 / 2) / ((p * q : Nat) : K) - 1 / 2)) - (o + i) =
      ((a + (((k : K) + 1 / 2) / q)) + ((((n - 1) / 2 : Nat) : K) - b)) / p - 1 / 2 := by
    push_cast
    rw [hvK]
    field_simp
    ring
  rw [e]
  have k0 : 0 < ((k : K) + 1 / 2) / q := by positivity
  have k1 : ((k : K) + 1 / 2) / q < 1 := by
    rw [div_lt_one hq0]
    have : (k : K) + 1 ≤ q := by exact_mod_cast hk
    linarith
  have a0 : (0 : K) ≤ a := by positivity
  have a1 : (a : K) + 1 ≤ p := by exact_mod_cast ha
  have hc : (2 * ((n - 1) / 2 : Nat) : Int) ≤ n + 2 * b ∧ (2 * b : Int) ≤ n + 2 * ((n - 1) / 2 : Nat) := by omega
  have c1 : 2 * (((n - 1) / 2 : Nat) : K) ≤ n + 2 * b := by exact_mod_cast hc.1
  have c2 : 2 * (b : K) ≤ n + 2 * (((n - 1) / 2 : Nat) : K) := by exact_mod_cast hc.2
  unfold Spec.reach
  rw [abs_lt]
  constructor
  · have : -((n : K) / 2) / p < ((a + (((k : K) + 1 / 2) / q)) + ((((n - 1) / 2 : Nat) : K) - b)) / p := by
      apply div_lt_div_of_pos_right _ hp0
      linarith
    rw [neg_div] at this
    linarith
  · have : ((a + (((k : K) + 1 / 2) / q)) + ((((n - 1) / 2 : Nat) : K) - b)) / p < ((p : K) + (n : K) / 2) / p := by
      apply div_lt_div_of_pos_right _ hp0
      linarith
    have e2 : ((p : K) + (n : K) / 2) / p = 1 + (n : K) / 2 / p := by rw [add_div, div_self hp0.ne']
    rw [e2] at this
    linarith

/-- The image at PSF resolution, without a window. -/
theorem cells_agree {M : PSFModel K} (hM : CacheOk M) {q : Nat} (hp : 0 < M.psfFactor) (hq0 : 0 < q)
    (hq : M.oversampleFactor = M.psfFactor * q) (hwin : ∀ x y s f, M.oversample ≠ .window x y s f)
    (g : List K → K → K → Option K) (params : List K) (x0 y0 xMax yMax : K) {N : Nat}
    (hN : N = max (indexOf xMax x0) (indexOf yMax y0) + 1) :
    ∃ a b, M.oversampledN g params M.gridFactor (sampleN g params (M.mainGrid N M.gridFactor (x0, xMax, y0, yMax)).1)
        (indexOf xMax x0) (indexOf yMax y0) = .ok a ∧
      M.oversampled params M.gridFactor (sample M.sub params (M.mainGrid N M.gridFactor (x0, xMax, y0, yMax)).1)
        (indexOf xMax x0) (indexOf yMax y0) = .ok b ∧
      b.h = N * M.psfFactor ∧ b.w = N * M.psfFactor ∧
      Agree (fun i j => i < N * M.psfFactor ∧ j < N * M.psfFactor ∧ ∀ u v : Nat, u < q → v < q →
        g params (x0 + ((((j * q + v : Nat) : K) + 1 / 2) / ((M.psfFactor * q : Nat) : K) - 1 / 2))
          (y0 + ((((i * q + u : Nat) : K) + 1 / 2) / ((M.psfFactor * q : Nat) : K) - 1 / 2)) =
        some (M.sub.eval params (x0 + ((((j * q + v : Nat) : K) + 1 / 2) / ((M.psfFactor * q : Nat) : K) - 1 / 2))
          (y0 + ((((i * q + u : Nat) : K) + 1 / 2) / ((M.psfFactor * q : Nat) : K) - 1 / 2)))) a b ∧
      ∀ i j u v : Nat, u < q → v < q → i < N * M.psfFactor → j < N * M.psfFactor →
        g params (x0 + ((((j * q + v : Nat) : K) + 1 / 2) / ((M.psfFactor * q : Nat) : K) - 1 / 2))
          (y0 + ((((i * q + u : Nat) : K) + 1 / 2) / ((M.psfFactor * q : Nat) : K) - 1 / 2)) = none → a.px i j = none := by
  have hdiv : M.oversampleFactor / M.psfFactor = q := by rw [hq]; exact Nat.mul_div_cancel_left q hp
  rw [mainGrid_fst hM, gridFactor_int hwin]
  obtain ⟨o1, o2⟩ := oversampled_int hwin g params M.oversampleFactor
    (sampleN g params (makeGrid (N : Int) (x0, y0) M.oversampleFactor)) (sample M.sub params (makeGrid (N : Int) (x0, y0) M.oversampleFactor))
    (indexOf xMax x0) (indexOf yMax y0)
  rw [hdiv] at o1 o2
  refine ⟨_, _, o1, o2, ?_⟩
  clear o1 o2
  rw [hq]
  obtain ⟨s1, s2, -, -, s5⟩ := makeGrid_spec (K := K) N (M.psfFactor * q) (x0, y0)
  have lt : ∀ {i u : Nat}, i < N * M.psfFactor → u < q → i * q + u < N * (M.psfFactor * q) := fun {i u} hi hu => by
    calc i * q + u < i * q + q := by omega
      _ = (i + 1) * q := by ring
      _ ≤ N * M.psfFactor * q := Nat.mul_le_mul_right _ hi
      _ = _ := by ring
  have hd : N * (M.psfFactor * q) / q = N * M.psfFactor := by rw [← Nat.mul_assoc]; exact Nat.mul_div_cancel _ hq0
  have hsh : ∀ im : Img K, im.h = N * (M.psfFactor * q) → im.w = N * (M.psfFactor * q) →
      (if 1 < q then (blockReduce im q).divBy ((q : K) ^ 2) else im).h = N * M.psfFactor ∧
      (if 1 < q then (blockReduce im q).divBy ((q : K) ^ 2) else im).w = N * M.psfFactor := by
    intro im h1 h2
    by_cases h : 1 < q
    · simp only [h, if_true]
      exact ⟨by show im.h / q = _; rw [h1, hd], by show im.w / q = _; rw [h2, hd]⟩
    · simp only [h, if_false]
      have : q = 1 := by omega
      rw [h1, h2, this, Nat.mul_one]; exact ⟨rfl, rfl⟩
  have hS := hsh (sample M.sub params (makeGrid (N : Int) (x0, y0) (M.psfFactor * q))) s1 s2
  refine ⟨hS.1, hS.2, ?_, ?_⟩
  · refine (Agree.sample.reduceIf hq0).mono fun i j hD u v hu hv => ?_
    obtain ⟨e1, e2⟩ := s5 (i * q + u) (j * q + v) (lt hD.1 hu) (lt hD.2.1 hv)
    rw [e1, e2]
    exact hD.2.2 u v hu hv
  · intro i j u v hu hv hi hj hn
    obtain ⟨e1, e2⟩ := s5 (i * q + u) (j * q + v) (lt hi hu) (lt hj hv)
    simp only at e1 e2
    rw [← e1, ← e2] at hn
    by_cases h : 1 < q
    · simp only [h, if_true]
      show Option.map _ (nanSum _) = none
      rw [nanSum_none (k := u) (List.mem_range.2 hu) (nanSum_none (k := v) (List.mem_range.2 hv) hn)]
      rfl
    · simp only [h, if_false]
      have h1 : q = 1 := by omega
      have : u = 0 ∧ v = 0 := by omega
      rw [this.1, this.2, h1] at hn
      show g params _ _ = none
      rw [h1]
      simpa using hn

/-- The images at the resolution of the data, after convolution with the direct method. -/
theorem convolved_agree {M : PSFModel K} (hp : 0 < M.psfFactor) {fft : Nat × Nat → Nat × Nat → Bool} (rot : Img K → K → Img K) (pa : K)
    {D : Nat → Nat → Prop} {a : Img (Option K)} {b : Img K} (H : Agree D a b)
    (hfft : ∀ k, kernel M rot pa = some k → fft (a.h, a.w) (k.h, k.w) = false) :
    Agree (fun i j => ∀ u v, u < M.psfFactor → v < M.psfFactor →
      match kernel M rot pa with
      | none => D (i * M.psfFactor + u) (j * M.psfFactor + v)
      | some k => TapsIn D k.h k.w b.h b.w (i * M.psfFactor + u) (j * M.psfFactor + v)) (M.convolvedN fft rot pa a) (M.convolved rot pa b) := by
  unfold PSFModel.convolved convolvedN
  unfold kernel at hfft ⊢
  cases hpsf : M.psf with
  | none => exact H.reduceIf hp
  | some psf =>
    simp only [hpsf, Option.map_some]
    refine Agree.reduceIf (D := TapsIn D _ _ b.h b.w) ?_ hp
    unfold convolveN
    rw [hfft _ (by rw [hpsf]; rfl), Bool.false_and]
    exact H.direct _

theorem convolved_shape {M : PSFModel K} (hp : 0 < M.psfFactor) (rot : Img K → K → Img K) (pa : K) {b : Img K} {N : Nat}
    (hh : b.h = N * M.psfFactor) (hw : b.w = N * M.psfFactor) : (M.convolved rot pa b).h = N ∧ (M.convolved rot pa b).w = N := by
  have key : ∀ c : Img K, c.h = N * M.psfFactor → c.w = N * M.psfFactor →
      (if 1 < M.psfFactor then (blockReduce c M.psfFactor).divBy ((M.psfFactor : K) ^ 2) else c).h = N ∧
      (if 1 < M.psfFactor then (blockReduce c M.psfFactor).divBy ((M.psfFactor : K) ^ 2) else c).w = N := by
    intro c h1 h2
    by_cases h : 1 < M.psfFactor
    · simp only [h, if_true]
      exact ⟨by show c.h / _ = _; rw [h1, Nat.mul_div_cancel _ hp], by show c.w / _ = _; rw [h2, Nat.mul_div_cancel _ hp]⟩
    · simp only [h, if_false]
      have : M.psfFactor = 1 := by omega
      rw [h1, h2, this, Nat.mul_one]; exact ⟨rfl, rfl⟩
  unfold PSFModel.convolved
  cases M.psf with
  | none => exact key b hh hw
  | some psf => exact key _ hh hw

theorem convolvedN_shape {M : PSFModel K} (hp : 0 < M.psfFactor) (fft : Nat × Nat → Nat × Nat → Bool) (rot : Img K → K → Img K) (pa : K)
    {a : Img (Option K)} {N : Nat} (hh : a.h = N * M.psfFactor) (hw : a.w = N * M.psfFactor) :
    (M.convolvedN fft rot pa a).h = N ∧ (M.convolvedN fft rot pa a).w = N := by
  have key : ∀ c : Img (Option K), c.h = N * M.psfFactor → c.w = N * M.psfFactor →
      (if 1 < M.psfFactor then (blockReduceN c M.psfFactor).divByN ((M.psfFactor : K) ^ 2) else c).h = N ∧
      (if 1 < M.psfFactor then (blockReduceN c M.psfFactor).divByN ((M.psfFactor : K) ^ 2) else c).w = N := by
    intro c h1 h2
    by_cases h : 1 < M.psfFactor
    · simp only [h, if_true]
      exact ⟨by show c.h / _ = _; rw [h1, Nat.mul_div_cancel _ hp], by show c.w / _ = _; rw [h2, Nat.mul_div_cancel _ hp]⟩
    · simp only [h, if_false]
      have : M.psfFactor = 1 := by omega
      rw [h1, h2, this, Nat.mul_one]; exact ⟨rfl, rfl⟩
  unfold convolvedN
  cases M.psf with
  | none => exact key a hh hw
  | some psf =>
    have hs : ∀ k : Img K, (convolveN fft a k).h = a.h ∧ (convolveN fft a k).w = a.w := fun k => by
      unfold convolveN; split_ifs <;> exact ⟨rfl, rfl⟩
    exact key _ ((hs _).1.trans hh) ((hs _).2.trans hw)

/-- **C178, direct convolution.** When scipy does not use Fourier transforms, a pixel that is farther from every undefined point than the PSF
reaches has the value of the model: the value for any model without undefined values that agrees where there is a value. -/
theorem C178_local_partial (M : PSFModel K) (hM : CacheOk M) (hc : Compatible M) (hwin : ∀ x y s f, M.oversample ≠ .window x y s f)
    (g : List K → K → K → Option K) (params : List K) (hext : ∀ x y v, g params x y = some v → M.sub.eval params x y = v)
    (fft : Nat × Nat → Nat × Nat → Bool) (rot : Img K → K → Img K) (coords : List (K × K)) (x0 y0 : K) (iMax jMax : Nat)
    (hg : OnGrid coords x0 y0 iMax jMax) (hint : ∀ c ∈ coords, ∃ i j : Nat, c = (x0 + i, y0 + j)) (pa : K)
    (hfft : ∀ k, kernel M rot pa = some k →
      fft ((max iMax jMax + 1) * M.psfFactor, (max iMax jMax + 1) * M.psfFactor) (k.h, k.w) = false) :
    ∃ F : K × K → Option K, ∃ G : K × K → K, (M.evaluateN g fft rot coords params pa).1 = .ok (coords.map F) ∧
      (M.evaluate rot coords params pa).1 = .ok (coords.map G) ∧
      ∀ c ∈ coords, (∀ x y, |x - c.1| < Spec.reach (((kernel M rot pa).map (·.w)).getD 0) M.psfFactor →
        |y - c.2| < Spec.reach (((kernel M rot pa).map (·.h)).getD 0) M.psfFactor → g params x y ≠ none) → F c = some (G c) := by
  obtain ⟨hf, hp, q, hq⟩ := hc
  have hq0 : 0 < q := by
    rcases Nat.eq_zero_or_pos q with h | h
    · rw [h] at hq; omega
    · exact h
  rw [evaluateN_some hg.minX hg.maxX hg.minY hg.maxY, evaluate_some hg.minX hg.maxX hg.minY hg.maxY]
  simp only
  unfold valuesOnN valuesOn
  obtain ⟨a, b, e1, e2, bh, bw, H, -⟩ := cells_agree hM hp hq0 hq hwin g params x0 y0 (x0 + iMax) (y0 + jMax) rfl
  rw [e1, e2]
  simp only [Bind.bind, Except.bind]
  rw [indexOf_add, indexOf_add] at bh bw H
  set N := max iMax jMax + 1 with hN
  have A := convolved_agree hp (fft := fft) rot pa H (by rw [H.h, H.w, bh, bw]; exact hfft)
  obtain ⟨s1, s2⟩ := convolved_shape hp rot pa bh bw
  have hidx : ∀ c ∈ coords, indexOf c.2 y0 < N ∧ indexOf c.1 x0 < N := fun c hcm => by
    have := hg.index_lt hcm
    omega
  refine ⟨_, _, mapM_pickN _ (fun c : K × K => (indexOf c.2 y0, indexOf c.1 x0)) coords fun c hcm => ?_,
    mapM_pick _ (fun c : K × K => (indexOf c.2 y0, indexOf c.1 x0)) coords fun c hcm => ?_, fun c hcm hdef => ?_⟩
  · rw [A.h, A.w, s1, s2]; exact hidx c hcm
  · rw [s1, s2]; exact hidx c hcm
  · obtain ⟨i, j, rfl⟩ := hint c hcm
    have hlt := hidx _ hcm
    simp only [indexOf_add] at hlt ⊢
    have lt : ∀ {i u : Nat}, i < N → u < M.psfFactor → i * M.psfFactor + u < N * M.psfFactor := fun {i u} hi hu => by
      calc i * M.psfFactor + u < i * M.psfFactor + M.psfFactor := by omega
        _ = (i + 1) * M.psfFactor := by ring
        _ ≤ N * M.psfFactor := Nat.mul_le_mul_right _ hi
    have some_of : ∀ x y, g params x y ≠ none → g params x y = some (M.sub.eval params x y) := fun x y h => by
      obtain ⟨v, hv⟩ := Option.ne_none_iff_exists'.1 h
      rw [hv, hext x y v hv]
    refine A.px _ _ fun u v hu hv => ?_
    cases hk : kernel M rot pa with
    | none =>
      rw [hk] at hdef
      simp only [Option.map_none, Option.getD_none] at hdef ⊢
      refine ⟨lt hlt.1 hu, lt hlt.2 hv, fun u' v' hu' hv' => some_of _ _ (hdef _ _ ?_ ?_)⟩
      · exact sample_in_reach (b := 0) (N := N) hp hq0 hv hv' (Or.inr ⟨rfl, rfl⟩) (by simp) x0
      · exact sample_in_reach (b := 0) (N := N) hp hq0 hu hu' (Or.inr ⟨rfl, rfl⟩) (by simp) y0
    | some k =>
      rw [hk] at hdef
      simp only [Option.map_some, Option.getD_some] at hdef ⊢
      intro a' b' r c ha' hb' hr hc' hrH hcW
      refine ⟨by rw [← bh]; exact hrH, by rw [← bw]; exact hcW, fun u' v' hu' hv' => some_of _ _ (hdef _ _ ?_ ?_)⟩
      · exact sample_in_reach (N := N) hp hq0 hv hv' (Or.inl hb') hc' x0
      · exact sample_in_reach (N := N) hp hq0 hu hu' (Or.inl ha') hr y0

/-- **C178, violated with Fourier transforms.** When scipy chooses them, one undefined sample anywhere on the grid makes every pixel NaN. -/
theorem C178_fft_violated (M : PSFModel K) (hM : CacheOk M) (hc : Compatible M) (hwin : ∀ x y s f, M.oversample ≠ .window x y s f)
    (g : List K → K → K → Option K) (fft : Nat × Nat → Nat × Nat → Bool) (rot : Img K → K → Img K) (coords : List (K × K)) (x0 y0 : K)
    (iMax jMax : Nat) (hg : OnGrid coords x0 y0 iMax jMax) (params : List K) (pa : K) (k : Img K) (hk : kernel M rot pa = some k)
    (hfft : fft ((max iMax jMax + 1) * M.psfFactor, (max iMax jMax + 1) * M.psfFactor) (k.h, k.w) = true) (r c : Nat)
    (hr : r < (max iMax jMax + 1) * M.oversampleFactor) (hcl : c < (max iMax jMax + 1) * M.oversampleFactor)
    (hnan : g params (x0 + (((c : K) + 1 / 2) / M.oversampleFactor - 1 / 2)) (y0 + (((r : K) + 1 / 2) / M.oversampleFactor - 1 / 2)) = none) :
    (M.evaluateN g fft rot coords params pa).1 = .ok (coords.map fun _ => none) := by
  obtain ⟨hf, hp, q, hq⟩ := hc
  have hq0 : 0 < q := by
    rcases Nat.eq_zero_or_pos q with h | h
    · rw [h] at hq; omega
    · exact h
  rw [evaluateN_some hg.minX hg.maxX hg.minY hg.maxY]
  simp only
  unfold valuesOnN
  obtain ⟨a, b, e1, -, bh, bw, H, hnone⟩ := cells_agree hM hp hq0 hq hwin g params x0 y0 (x0 + iMax) (y0 + jMax) rfl
  rw [e1]
  simp only [Bind.bind, Except.bind]
  rw [indexOf_add, indexOf_add] at bh bw hnone
  set N := max iMax jMax + 1 with hN
  have hrq : r / q < N * M.psfFactor := Nat.div_lt_of_lt_mul (by rw [hq] at hr; nlinarith)
  have hcq : c / q < N * M.psfFactor := Nat.div_lt_of_lt_mul (by rw [hq] at hcl; nlinarith)
  have hpx : a.px (r / q) (c / q) = none := by
    refine hnone _ _ (r % q) (c % q) (Nat.mod_lt _ hq0) (Nat.mod_lt _ hq0) hrq hcq ?_
    rw [Nat.div_add_mod', Nat.div_add_mod', ← hq]
    exact hnan
  have hany : a.anyNaN = true := by
    unfold Img.anyNaN
    refine List.any_eq_true.2 ⟨r / q, List.mem_range.2 (by rw [H.h, bh]; exact hrq), List.any_eq_true.2 ⟨c / q,
      List.mem_range.2 (by rw [H.w, bw]; exact hcq), by rw [hpx]; rfl⟩⟩
  obtain ⟨s1, s2⟩ := convolvedN_shape hp fft rot pa (a := a) (N := N) (by rw [H.h, bh]) (by rw [H.w, bw])
  have hall : ∀ i j, (M.convolvedN fft rot pa a).px i j = none := by
    intro i j
    unfold kernel at hk
    unfold convolvedN
    cases hpsf : M.psf with
    | none => rw [hpsf] at hk; cases hk
    | some psf =>
      rw [hpsf] at hk
      have hk' : (if pa ≠ 0 then rot psf pa else psf) = k := Option.some.inj hk
      simp only [hpsf]
      rw [hk']
      have hcv : convolveN fft a k = ⟨a.h, a.w, fun _ _ => none⟩ := by
        unfold convolveN
        rw [hany, Bool.and_true, H.h, H.w, bh, bw, hfft, if_pos rfl]
      rw [hcv]
      by_cases h : 1 < M.psfFactor
      · simp only [h, if_true]
        show Option.map _ (nanSum _) = none
        rw [nanSum_none (k := 0) (List.mem_range.2 hp) (nanSum_none (k := 0) (List.mem_range.2 hp) rfl)]
        rfl
      · simp only [h, if_false]
  rw [mapM_pickN _ (fun c : K × K => (indexOf c.2 y0, indexOf c.1 x0)) coords fun c hcm => by
    rw [s1, s2]
    have := hg.index_lt hcm
    omega]
  simp only [hall]

/-! ### Nuker2D -/

/-- `Nuker2D` as a wrapped model; parameters in the order of petrofit/modeling/models.py:595. -/
noncomputable def nukerOf (params : List ℝ) (x y : ℝ) : Option ℝ :=
  nuker2D x y (params.getD 0 0) (params.getD 1 0) (params.getD 2 0) (params.getD 3 0) (params.getD 4 0) (params.getD 5 0) (params.getD 6 0)

theorem nuker_none (x y amplitude rBreak x0 y0 alpha betta gamma : ℝ) :
    nuker2D x y amplitude rBreak x0 y0 alpha betta gamma = none ↔ x = x0 ∧ y = y0 := by
  unfold nuker2D
  simp only
  have h : √((x - x0 + (y - y0)) ^ 2 + (-(x - x0) + (y - y0)) ^ 2) = 0 ↔ x = x0 ∧ y = y0 := by
    rw [Real.sqrt_eq_zero (by positivity)]
    constructor
    · intro h
      have e : (x - x0) ^ 2 + (y - y0) ^ 2 = 0 := by nlinarith
      have h1 := sq_nonneg (x - x0)
      have h2 := sq_nonneg (y - y0)
      exact ⟨sub_eq_zero.1 (pow_eq_zero_iff (two_ne_zero) |>.1 (by linarith)), sub_eq_zero.1 (pow_eq_zero_iff (two_ne_zero) |>.1 (by linarith))⟩
    · rintro ⟨rfl, rfl⟩; simp
  split_ifs with hc
  · simp [h.1 hc]
  · simp only [reduceCtorEq, false_iff]
    exact fun hh => hc (h.2 hh)

/-- **C178, violated for `Nuker2D`.** A `Nuker2D` centred on a pixel of the grid, without oversampling, is NaN at every pixel when the PSF is
applied with Fourier transforms. -/
theorem C178_nuker_violated (M : PSFModel ℝ) (hM : CacheOk M) (ho : M.oversample = .none) (hpo : M.psfOversample = none) (psf : Img ℝ)
    (hpsf : M.psf = some psf) (fft : Nat × Nat → Nat × Nat → Bool) (rot : Img ℝ → ℝ → Img ℝ) (coords : List (ℝ × ℝ)) (x0 y0 : ℝ)
    (iMax jMax : Nat) (hg : OnGrid coords x0 y0 iMax jMax)
    (hfft : fft (max iMax jMax + 1, max iMax jMax + 1) (psf.h, psf.w) = true)
    (amplitude rBreak alpha betta gamma : ℝ) (i j : Nat) (hi : i ≤ iMax) (hj : j ≤ jMax) :
    (M.evaluateN nukerOf fft rot coords [amplitude, rBreak, x0 + i, y0 + j, alpha, betta, gamma] 0).1 = .ok (coords.map fun _ => none) := by
  have hp : M.psfFactor = 1 := by unfold psfFactor; rw [hpo]; rfl
  have hf : M.oversampleFactor = 1 := by unfold oversampleFactor; rw [ho]
  have hk : kernel M rot 0 = some psf := by unfold kernel; rw [hpsf]; simp
  refine C178_fft_violated M hM ⟨by omega, by omega, by rw [hp]; exact one_dvd _⟩ (fun x y s f h => by rw [ho] at h; cases h) nukerOf fft rot coords
    x0 y0 iMax jMax hg _ 0 psf hk (by rw [hp, Nat.mul_one]; exact hfft) j i (by rw [hf]; omega) (by rw [hf]; omega) ?_
  rw [hf]
  refine (nuker_none _ _ _ _ _ _ _ _ _).2 ⟨?_, ?_⟩
  · simp
  · simp

/-! ### Cases -/

/-- A model that is undefined at its centre. -/
def holeOf (params : List ℚ) (x y : ℚ) : Option ℚ := if x = params.getD 0 0 ∧ y = params.getD 1 0 then none else some (x + 10 * y)

/-- A PSF of three pixels in a row. -/
def holePsf : Img ℚ := ⟨1, 3, fun _ j => if j = 1 then 1 / 2 else 1 / 4⟩

/-- The settings. -/
def holeModel : PSFModel ℚ := ⟨⟨["x_0", "y_0"], fun _ x y => x + 10 * y⟩, some holePsf, .none, none, true, 0, 0, none, none⟩

/-- The pixels of a 4 x 2 image. -/
def holeCoords : List (ℚ × ℚ) := [(0, 0), (1, 0), (2, 0), (3, 0), (0, 1), (1, 1), (2, 1), (3, 1)]

example : (holeModel.evaluateN holeOf (fun _ _ => false) (fun p _ => p) holeCoords [0, 0] 0).1 =
    .ok [none, none, some 2, some 2, some (31 / 4), some 11, some 12, some (38 / 4)] := by decide +kernel

example : (holeModel.evaluateN holeOf (fun _ _ => true) (fun p _ => p) holeCoords [0, 0] 0).1 =
    .ok [none, none, none, none, none, none, none, none] := by decide +kernel

/-- The hypotheses of `C178_local_partial`, at the pixel `(3, 0)`. -/
example : CacheOk holeModel ∧ Compatible holeModel ∧ OnGrid holeCoords 0 0 3 1 ∧
    (∀ x y v, holeOf [0, 0] x y = some v → holeModel.sub.eval [0, 0] x y = v) ∧
    ∀ x y, |x - 3| < Spec.reach (((kernel holeModel (fun p _ => p) 0).map (·.w)).getD 0) holeModel.psfFactor →
      |y - 0| < Spec.reach (((kernel holeModel (fun p _ => p) 0).map (·.h)).getD 0) holeModel.psfFactor → holeOf [0, 0] x y ≠ none := by
  refine ⟨fun r hr => (by cases hr), ⟨by decide, by decide, by decide⟩, ⟨by decide +kernel, by decide +kernel, by decide +kernel,
    by decide +kernel⟩, fun x y v h => ?_, fun x y hx hy hn => ?_⟩
  · unfold holeOf at h
    split_ifs at h
    exact Option.some.inj h
  · unfold holeOf at hn
    split_ifs at hn with hc
    have e : (Spec.reach (((kernel holeModel (fun p _ => p) 0).map (·.w)).getD 0) holeModel.psfFactor : ℚ) = 2 := by decide +kernel
    rw [e, hc.1] at hx
    norm_num [List.getD] at hx

end Verif.Props

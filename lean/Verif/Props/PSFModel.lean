import Verif.Lemmas.PSFModel

/-!
# C53-C59: sampling grids, oversampling, the grid cache, settings, oversampling windows and PSF convolution
-/

set_option linter.unusedSectionVars false
set_option linter.unusedVariables false
set_option linter.unusedSimpArgs false

namespace Verif.Props

open Spec PSFModel

variable {K : Type} [Field K] [LinearOrder K] [IsStrictOrderedRing K] [FloorRing K]

/-! ### C53 -/

/-- **C53, samples.** `make_grid(size, origin, factor)` has `size*factor` samples per axis and sample `k` of an axis is
`origin + (k + 0.5)/factor - 0.5`. -/
theorem C53_samples (size f : Nat) (ox oy : K) :
    let g := makeGrid (size : Int) (ox, oy) f
    g.1.h = size * f ∧ g.1.w = size * f ∧ g.2.h = size * f ∧ g.2.w = size * f ∧
    ∀ i j, i < size * f → j < size * f →
      g.1.px i j = ox + (j + 1 / 2) / f - 1 / 2 ∧ g.2.px i j = oy + (i + 1 / 2) / f - 1 / 2 := by
  obtain ⟨a, b, c, d, e⟩ := makeGrid_spec size f (ox, oy)
  refine ⟨a, b, c, d, fun i j hi hj => ?_⟩
  obtain ⟨h1, h2⟩ := e i j hi hj
  exact ⟨by rw [h1]; ring, by rw [h2]; ring⟩

/-- **C53, factor 1.** Without oversampling the samples are the pixel positions. -/
theorem C53_pixels (size : Nat) (ox oy : K) (i j : Nat) (hi : i < size) (hj : j < size) :
    (makeGrid (size : Int) (ox, oy) 1).1.px i j = ox + j ∧ (makeGrid (size : Int) (ox, oy) 1).2.px i j = oy + i := by
  obtain ⟨-, -, -, -, e⟩ := makeGrid_spec size 1 (ox, oy)
  obtain ⟨h1, h2⟩ := e i j (by omega) (by omega)
  constructor
  · rw [h1]; push_cast; ring
  · rw [h2]; push_cast; ring

theorem sum_range_half (f : Nat) : ∑ k ∈ Finset.range f, ((k : K) + 1 / 2) = (f : K) ^ 2 / 2 := by
  induction f with
  | zero => simp
  | succ n ih => rw [Finset.sum_range_succ, ih]; push_cast; ring

/-- **C53, centring.** The mean of the `factor` samples of a pixel is the pixel centre, on both axes. -/
theorem C53_centred (size f : Nat) (hf : 0 < f) (ox oy : K) (p q : Nat) (hp : p < size) (hq : q < size * f) :
    (∑ k ∈ Finset.range f, (makeGrid (size : Int) (ox, oy) f).1.px q (p * f + k)) / f = ox + p ∧
    (∑ k ∈ Finset.range f, (makeGrid (size : Int) (ox, oy) f).2.px (p * f + k) q) / f = oy + p := by
  obtain ⟨-, -, -, -, e⟩ := makeGrid_spec size f (ox, oy)
  have hlt : ∀ k, k < f → p * f + k < size * f := fun k hk => by
    calc p * f + k < p * f + f := by omega
      _ = (p + 1) * f := by ring
      _ ≤ size * f := Nat.mul_le_mul_right _ hp
  have hf0 : (f : K) ≠ 0 := by exact_mod_cast hf.ne'
  have key : ∀ o : K, (∑ k ∈ Finset.range f, (o + ((((p * f + k : Nat) : K) + 1 / 2) / f - 1 / 2))) / f = o + p := by
    intro o
    have h : ∀ k ∈ Finset.range f, (o + ((((p * f + k : Nat) : K) + 1 / 2) / f - 1 / 2)) =
        (o + p - 1 / 2) + ((k : K) + 1 / 2) / f := by
      intro k _; push_cast; field_simp; ring
    rw [Finset.sum_congr rfl h, Finset.sum_add_distrib, ← Finset.sum_div, sum_range_half, Finset.sum_const, Finset.card_range,
      nsmul_eq_mul]
    field_simp; ring
  constructor
  · rw [Finset.sum_congr rfl fun k hk => (e q (p * f + k) hq (hlt k (Finset.mem_range.1 hk))).1]
    exact key ox
  · rw [Finset.sum_congr rfl fun k hk => (e (p * f + k) q (hlt k (Finset.mem_range.1 hk)) hq).2]
    exact key oy

example : (makeGrid (2 : Int) ((10 : ℚ), 20) 2).1.rows = [[39/4, 41/4, 43/4, 45/4], [39/4, 41/4, 43/4, 45/4],
    [39/4, 41/4, 43/4, 45/4], [39/4, 41/4, 43/4, 45/4]] := by decide +kernel

/-! ### C54 -/

/-- **C54, flux.** The total of the block means of a sampled image (side `n*f`) is the total of the samples divided by `f²`. -/
theorem C54_flux (im : Img K) (n f : Nat) (hf : 0 < f) (hh : im.h = n * f) (hw : im.w = n * f) :
    total ((blockReduce im f).divBy ((f : K) ^ 2)) = total im / (f : K) ^ 2 := by
  have h1 : (blockReduce im f).h = n := by simp [blockReduce, hh, Nat.mul_div_cancel n hf]
  have h2 : (blockReduce im f).w = n := by simp [blockReduce, hw, Nat.mul_div_cancel n hf]
  unfold total
  show ∑ i ∈ Finset.range (blockReduce im f).h, ∑ j ∈ Finset.range (blockReduce im f).w, _ = _
  rw [h1, h2, hh, hw, ← sum_blocks n f, Finset.sum_div]
  apply Finset.sum_congr rfl
  intro i _
  simp only [divBy_px, blockReduce_px]
  rw [← Finset.sum_div, Finset.sum_comm]
  congr 1
  apply Finset.sum_congr rfl
  intro a _
  exact sum_blocks n f fun k => im.px (i * f + a) k

/-- **C54, planes.** The pixel mean of a plane is its value at the pixel centre. -/
theorem C54_plane (p q c x y : K) (f : Nat) (hf : 0 < f) : pixelMean (fun x y => p * x + q * y + c) x y f = p * x + q * y + c := by
  have hf0 : (f : K) ≠ 0 := by exact_mod_cast hf.ne'
  have hax : ∑ k ∈ Finset.range f, (((k : K) + 1 / 2) / f - 1 / 2) = 0 := by
    rw [Finset.sum_sub_distrib, ← Finset.sum_div, sum_range_half, Finset.sum_const, Finset.card_range, nsmul_eq_mul]
    field_simp; ring
  unfold pixelMean
  have : ∀ a ∈ Finset.range f, ∑ b ∈ Finset.range f,
      (p * (x + (((b : K) + 1 / 2) / f - 1 / 2)) + q * (y + (((a : K) + 1 / 2) / f - 1 / 2)) + c) =
      f * (p * x + q * y + c) + f * q * (((a : K) + 1 / 2) / f - 1 / 2) := by
    intro a _
    have h : ∀ b ∈ Finset.range f, (p * (x + (((b : K) + 1 / 2) / f - 1 / 2)) + q * (y + (((a : K) + 1 / 2) / f - 1 / 2)) + c) =
        (p * x + q * y + c + q * (((a : K) + 1 / 2) / f - 1 / 2)) + p * (((b : K) + 1 / 2) / f - 1 / 2) := by
      intro b _; ring
    rw [Finset.sum_congr rfl h, Finset.sum_add_distrib, ← Finset.mul_sum, hax, Finset.sum_const, Finset.card_range, nsmul_eq_mul]
    ring
  rw [Finset.sum_congr rfl this, Finset.sum_add_distrib, ← Finset.mul_sum (f := fun a : Nat => ((a : K) + 1 / 2) / f - 1 / 2), hax,
    Finset.sum_const, Finset.card_range, nsmul_eq_mul]
  field_simp; ring

/-- **C54, range.** The pixel mean lies between bounds of the model on the sub-samples of the pixel. -/
theorem C54_range (g : K → K → K) (x y lo hi : K) (f : Nat) (hf : 0 < f)
    (h : ∀ a b, a < f → b < f → lo ≤ g (x + (((b : Nat) + 1 / 2) / f - 1 / 2)) (y + (((a : Nat) + 1 / 2) / f - 1 / 2)) ∧
      g (x + (((b : Nat) + 1 / 2) / f - 1 / 2)) (y + (((a : Nat) + 1 / 2) / f - 1 / 2)) ≤ hi) :
    lo ≤ pixelMean g x y f ∧ pixelMean g x y f ≤ hi := by
  have hf0 : (0 : K) < (f : K) ^ 2 := by
    have : (0 : K) < f := by exact_mod_cast hf
    positivity
  have hc : ∀ v : K, ∑ a ∈ Finset.range f, ∑ b ∈ Finset.range f, v = v * (f : K) ^ 2 := by
    intro v; simp only [Finset.sum_const, Finset.card_range, nsmul_eq_mul]; ring
  unfold pixelMean
  rw [le_div_iff₀ hf0, div_le_iff₀ hf0, ← hc lo, ← hc hi]
  constructor
  · exact Finset.sum_le_sum fun a ha => Finset.sum_le_sum fun b hb => (h a b (Finset.mem_range.1 ha) (Finset.mem_range.1 hb)).1
  · exact Finset.sum_le_sum fun a ha => Finset.sum_le_sum fun b hb => (h a b (Finset.mem_range.1 ha) (Finset.mem_range.1 hb)).2

/-! ### The grid cache -/

/-- What is in the cache is the grid for the key in the cache. -/
def CacheOk (M : PSFModel K) : Prop :=
  ∀ r, M.cachedRange = some r → M.cachedGrid = some (makeGrid (M.cachedSize : Int) (r.1, r.2.2.1) M.cachedFactor)

theorem mainGrid_fst {M : PSFModel K} (h : CacheOk M) (size factor : Nat) (r : K × K × K × K) :
    (M.mainGrid size factor r).1 = makeGrid (size : Int) (r.1, r.2.2.1) factor := by
  unfold mainGrid
  by_cases hc : size = M.cachedSize ∧ factor = M.cachedFactor ∧ M.cachedRange = some r
  · rw [if_pos hc]
    simp only
    rw [h r hc.2.2, hc.1, hc.2.1]; rfl
  · rw [if_neg hc]

theorem mainGrid_snd {M : PSFModel K} (h : CacheOk M) (size factor : Nat) (r : K × K × K × K) :
    CacheOk (M.mainGrid size factor r).2 ∧ uncached (M.mainGrid size factor r).2 = uncached M := by
  unfold mainGrid
  by_cases hc : size = M.cachedSize ∧ factor = M.cachedFactor ∧ M.cachedRange = some r
  · rw [if_pos hc]; exact ⟨h, rfl⟩
  · rw [if_neg hc]
    by_cases hg : M.cacheGrid = true
    · simp only [hg, if_true]
      refine ⟨?_, rfl⟩
      intro r' hr'
      simp only [Option.some.injEq] at hr'
      subst hr'
      rfl
    · simp only
      rw [if_neg hg]
      exact ⟨h, rfl⟩

theorem valuesOn_uncached (M : PSFModel K) : M.valuesOn = (uncached M).valuesOn := by
  funext rot idx params pa iMax jMax g
  unfold valuesOn
  have h1 : M.oversampled = (uncached M).oversampled := by
    funext a b c d e
    unfold oversampled pasteWindow
    rfl
  have h2 : M.convolved = (uncached M).convolved := by
    funext a b c; unfold convolved; rfl
  have h3 : M.gridFactor = (uncached M).gridFactor := by
    unfold gridFactor; rfl
  rw [h1, h2, h3]; rfl

theorem evaluate_err {M : PSFModel K} {coords : List (K × K)} (h : coords = []) (rot : Img K → K → Img K) (params : List K) (pa : K) :
    M.evaluate rot coords params pa = (.error .valueError, M) := by subst h; rfl

theorem min?_some {l : List K} (h : l ≠ []) : ∃ x, l.min? = some x := by
  cases hl : l.min? with
  | none => exact absurd (List.min?_eq_none_iff.1 hl) h
  | some x => exact ⟨x, rfl⟩

theorem max?_some {l : List K} (h : l ≠ []) : ∃ x, l.max? = some x := by
  cases hl : l.max? with
  | none => exact absurd (List.max?_eq_none_iff.1 hl) h
  | some x => exact ⟨x, rfl⟩

theorem evaluate_some {M : PSFModel K} {coords : List (K × K)} {a b c d : K} (h1 : (coords.map (·.1)).min? = some a)
    (h2 : (coords.map (·.1)).max? = some b) (h3 : (coords.map (·.2)).min? = some c) (h4 : (coords.map (·.2)).max? = some d)
    (rot : Img K → K → Img K) (params : List K) (pa : K) :
    M.evaluate rot coords params pa =
      (M.valuesOn rot (coords.map fun p => (indexOf p.2 c, indexOf p.1 a)) params pa (indexOf b a) (indexOf d c)
        (M.mainGrid (max (indexOf b a) (indexOf d c) + 1) M.gridFactor (a, b, c, d)).1,
       (M.mainGrid (max (indexOf b a) (indexOf d c) + 1) M.gridFactor (a, b, c, d)).2) := by
  unfold evaluate
  rw [h1, h2, h3, h4]

/-- Evaluation in terms of the settings only. -/
theorem evaluate_uncached {M : PSFModel K} (h : CacheOk M) (rot : Img K → K → Img K) (coords : List (K × K)) (params : List K)
    (pa : K) : (M.evaluate rot coords params pa).1 = ((uncached M).evaluate rot coords params pa).1 ∧
      CacheOk (M.evaluate rot coords params pa).2 ∧ uncached (M.evaluate rot coords params pa).2 = uncached M := by
  have h0 : CacheOk (uncached M) := fun r hr => by cases hr
  by_cases hc : coords = []
  · rw [evaluate_err hc, evaluate_err hc]
    exact ⟨rfl, h, rfl⟩
  · have hx : coords.map (·.1) ≠ [] := by simpa using hc
    have hy : coords.map (·.2) ≠ [] := by simpa using hc
    obtain ⟨a, ha⟩ := min?_some hx
    obtain ⟨b, hb⟩ := max?_some hx
    obtain ⟨c, hc'⟩ := min?_some hy
    obtain ⟨d, hd⟩ := max?_some hy
    rw [evaluate_some ha hb hc' hd, evaluate_some ha hb hc' hd]
    obtain ⟨e1, e2⟩ := mainGrid_snd h (max (indexOf b a) (indexOf d c) + 1) M.gridFactor (a, b, c, d)
    have hgf : M.gridFactor = (uncached M).gridFactor := by unfold gridFactor; rfl
    refine ⟨?_, e1, e2⟩
    simp only
    rw [mainGrid_fst h, mainGrid_fst h0, valuesOn_uncached M, hgf]

theorem exec_uncached {M : PSFModel K} (h : CacheOk M) (rot : Img K → K → Img K) (op : PSFOp K) :
    (op.exec rot M).1 = (op.exec rot (uncached M)).1 ∧ CacheOk (op.exec rot M).2 ∧
      uncached (op.exec rot M).2 = uncached (op.exec rot (uncached M)).2 := by
  have h0 : CacheOk (uncached M) := fun r hr => by cases hr
  cases op with
  | evaluate c p a =>
    obtain ⟨e1, e2, e3⟩ := evaluate_uncached h rot c p a
    obtain ⟨_, _, e4⟩ := evaluate_uncached h0 rot c p a
    refine ⟨by simp only [PSFOp.exec]; rw [e1], e2, ?_⟩
    simp only [PSFOp.exec]
    rw [e3, e4]; rfl
  | setPsf psf => exact ⟨rfl, h, rfl⟩
  | setOversample o =>
    cases o with
    | none => exact ⟨rfl, h, rfl⟩
    | int k =>
      have : M.checkFactor k = (uncached M).checkFactor k := rfl
      refine ⟨rfl, ?_⟩
      simp only [PSFOp.exec, setOversample]
      rw [← this]
      cases M.checkFactor k with
      | error e => exact ⟨h, rfl⟩
      | ok f => exact ⟨h, rfl⟩
    | window x y s f =>
      cases s with
      | none => exact ⟨rfl, h, rfl⟩
      | some s =>
        cases f with
        | none => exact ⟨rfl, h, rfl⟩
        | some f =>
          have : M.checkFactor f = (uncached M).checkFactor f := rfl
          refine ⟨rfl, ?_⟩
          simp only [PSFOp.exec, setOversample]
          rw [← this]
          cases M.checkFactor f with
          | error e => exact ⟨h, rfl⟩
          | ok f => exact ⟨h, rfl⟩
    | badLength => exact ⟨rfl, h, rfl⟩
    | other => exact ⟨rfl, h, rfl⟩
  | setPsfOversample o =>
    cases o with
    | none => exact ⟨rfl, h, rfl⟩
    | other =>
      refine ⟨rfl, ?_⟩
      simp only [PSFOp.exec, setPsfOversample]
      have : M.psf = (uncached M).psf := rfl
      rw [← this]
      split_ifs <;> exact ⟨h, rfl⟩
    | int k =>
      refine ⟨rfl, ?_⟩
      simp only [PSFOp.exec, setPsfOversample]
      have : M.psf = (uncached M).psf := rfl
      have h2 : M.oversampleFactor = (uncached M).oversampleFactor := rfl
      rw [← this, ← h2]
      split_ifs <;> exact ⟨h, rfl⟩
  | setCacheGrid v =>
    cases v with
    | true => exact ⟨rfl, h, rfl⟩
    | false => exact ⟨rfl, fun r hr => by simp [PSFOp.exec, setCacheGrid, clearCachedGrid] at hr, rfl⟩
  | clearCachedGrid => exact ⟨rfl, fun r hr => by simp [PSFOp.exec, clearCachedGrid] at hr, rfl⟩

/-- **C55.** Over every history of evaluations, setting changes (rejected ones included), cache toggles and cache clears, starting
from a model with an empty cache, each evaluation returns what a fresh model with the same settings and no cache returns. -/
theorem C55_cache_invisible (rot : Img K → K → Img K) (ops : List (PSFOp K)) :
    ∀ (M N : PSFModel K), CacheOk M → uncached M = uncached N → psfHistory rot M ops = freshHistory rot N ops := by
  induction ops with
  | nil => intros; rfl
  | cons op t ih =>
    intro M N h hMN
    obtain ⟨e1, e2, e3⟩ := exec_uncached h rot op
    simp only [psfHistory, freshHistory]
    rw [e1, hMN, ih _ (op.exec rot (uncached N)).2 e2 (by rw [e3, hMN])]

/-- A model that was just built has an empty cache. -/
theorem C55_init (sub : SubModel K) (psf : Option (Img K)) (o : OversampleArg K) (p : PsfOversampleArg) (M : PSFModel K)
    (h : PSFModel.init sub psf o p = .ok M) (rot : Img K → K → Img K) (ops : List (PSFOp K)) :
    psfHistory rot M ops = freshHistory rot M ops := by
  apply C55_cache_invisible rot ops M M _ rfl
  have key : M.cachedRange = none := by
    unfold PSFModel.init at h
    simp only [bind, Except.bind] at h
    have h1 : ∀ M0 : PSFModel K, M0.cachedRange = none → ∀ M1, M0.setOversample o = .ok M1 → M1.cachedRange = none := by
      intro M0 h0 M1 h1
      cases o with
      | none => simp only [setOversample, Except.ok.injEq] at h1; rw [← h1]; exact h0
      | badLength => cases h1
      | other => cases h1
      | int k =>
        simp only [setOversample, bind, Except.bind] at h1
        cases hc : M0.checkFactor k with
        | error e => rw [hc] at h1; cases h1
        | ok f => rw [hc] at h1; cases h1; exact h0
      | window x y s f =>
        cases s with
        | none => cases h1
        | some s =>
          cases f with
          | none => cases h1
          | some f =>
            simp only [setOversample, bind, Except.bind] at h1
            cases hc : M0.checkFactor f with
            | error e => rw [hc] at h1; cases h1
            | ok f => rw [hc] at h1; cases h1; exact h0
    have h2 : ∀ M0 : PSFModel K, M0.cachedRange = none → ∀ M1, M0.setPsfOversample p = .ok M1 → M1.cachedRange = none := by
      intro M0 h0 M1 h1
      cases p with
      | none => simp only [setPsfOversample, Except.ok.injEq] at h1; rw [← h1]; exact h0
      | other => simp only [setPsfOversample] at h1; split_ifs at h1
      | int k =>
        simp only [setPsfOversample] at h1
        split_ifs at h1
        cases h1; exact h0
    cases hc : (⟨sub, psf, .none, none, true, 0, 0, none, none⟩ : PSFModel K).setOversample o with
    | error e => rw [hc] at h; cases h
    | ok M1 =>
      rw [hc] at h
      exact h2 M1 (h1 _ rfl M1 hc) M h
  intro r hr
  rw [key] at hr; cases hr

/-! ### C56 -/

/-- The factors fit: both positive, and the grid factor is a multiple of the PSF factor. -/
def Compatible (M : PSFModel K) : Prop :=
  0 < M.oversampleFactor ∧ 0 < M.psfFactor ∧ M.psfFactor ∣ M.oversampleFactor

/-- What the setters keep: positive factors, which fit unless `oversample` is `None`. -/
def SettingsOk (M : PSFModel K) : Prop :=
  0 < M.oversampleFactor ∧ 0 < M.psfFactor ∧ ((∃ k, M.oversample = k ∧ k ≠ .none) → M.psfFactor ∣ M.oversampleFactor)

theorem checkFactor_ok {M : PSFModel K} {k : Int} {f : Nat} (h : M.checkFactor k = .ok f) : 0 < f ∧ M.psfFactor ∣ f := by
  unfold checkFactor at h
  split_ifs at h with h1 h2
  simp only [Except.ok.injEq] at h
  push Not at h1 h2
  have hk : ((k.toNat : Nat) : Int) = k := Int.toNat_of_nonneg h1.le
  refine ⟨by omega, ?_⟩
  have := Int.dvd_of_emod_eq_zero h2
  rw [← hk, h] at this
  exact_mod_cast this

theorem setOversample_ok {M M' : PSFModel K} (h : SettingsOk M) (o : OversampleArg K) (e : M.setOversample o = .ok M') :
    SettingsOk M' ∧ ((¬ ∃ x, o = x ∧ x = .none) → Compatible M') := by
  obtain ⟨a, b, c⟩ := h
  cases o with
  | none =>
    simp only [setOversample, Except.ok.injEq] at e
    subst e
    exact ⟨⟨Nat.one_pos, b, fun ⟨k, h1, h2⟩ => absurd h1.symm h2⟩, fun hx => absurd ⟨_, rfl, rfl⟩ hx⟩
  | badLength => cases e
  | other => cases e
  | int k =>
    simp only [setOversample, bind, Except.bind] at e
    cases hc : M.checkFactor k with
    | error e' => rw [hc] at e; cases e
    | ok f =>
      rw [hc] at e; cases e
      obtain ⟨h1, h2⟩ := checkFactor_ok hc
      exact ⟨⟨h1, b, fun _ => h2⟩, fun _ => ⟨h1, b, h2⟩⟩
  | window x y s f =>
    cases s with
    | none => cases e
    | some s =>
      cases f with
      | none => cases e
      | some f =>
        simp only [setOversample, bind, Except.bind] at e
        cases hc : M.checkFactor f with
        | error e' => rw [hc] at e; cases e
        | ok f =>
          rw [hc] at e; cases e
          obtain ⟨h1, h2⟩ := checkFactor_ok hc
          exact ⟨⟨h1, b, fun _ => h2⟩, fun _ => ⟨h1, b, h2⟩⟩

theorem setPsfOversample_ok {M M' : PSFModel K} (h : SettingsOk M) (o : PsfOversampleArg) (e : M.setPsfOversample o = .ok M') :
    SettingsOk M' ∧ Compatible M' := by
  obtain ⟨a, b, c⟩ := h
  cases o with
  | none =>
    simp only [setPsfOversample, Except.ok.injEq] at e
    subst e
    exact ⟨⟨a, Nat.one_pos, fun _ => one_dvd _⟩, a, Nat.one_pos, one_dvd _⟩
  | other => simp only [setPsfOversample] at e; split_ifs at e
  | int k =>
    simp only [setPsfOversample] at e
    split_ifs at e with h1 h2 h3
    cases e
    push Not at h2 h3
    have hk : ((k.toNat : Nat) : Int) = k := Int.toNat_of_nonneg h2.le
    have hd : k.toNat ∣ M.oversampleFactor := by
      have := Int.dvd_of_emod_eq_zero h3
      rw [← hk] at this
      exact_mod_cast this
    have hp : 0 < k.toNat := by omega
    exact ⟨⟨a, hp, fun _ => hd⟩, a, hp, hd⟩

theorem exec_settings {M : PSFModel K} (h : SettingsOk M) (rot : Img K → K → Img K) (op : PSFOp K) : SettingsOk (op.exec rot M).2 := by
  cases op with
  | evaluate c p a =>
    have hset : ∀ M N : PSFModel K, uncached N = uncached M → SettingsOk M → SettingsOk N := by
      intro M N hu hM
      have h1 : N.oversample = M.oversample := by
        have : (uncached N).oversample = (uncached M).oversample := by rw [hu]
        exact this
      have h2 : N.psfOversample = M.psfOversample := by
        have : (uncached N).psfOversample = (uncached M).psfOversample := by rw [hu]
        exact this
      unfold SettingsOk oversampleFactor psfFactor at hM ⊢
      rw [h1, h2]; exact hM
    refine hset M _ ?_ h
    simp only [PSFOp.exec]
    by_cases hc : c = []
    · rw [evaluate_err hc]
    · have hx : c.map (·.1) ≠ [] := by simpa using hc
      have hy : c.map (·.2) ≠ [] := by simpa using hc
      obtain ⟨x0, ha⟩ := min?_some hx
      obtain ⟨x1, hb⟩ := max?_some hx
      obtain ⟨y0, hc'⟩ := min?_some hy
      obtain ⟨y1, hd⟩ := max?_some hy
      rw [evaluate_some ha hb hc' hd]
      simp only
      unfold mainGrid
      split_ifs <;> rfl
  | setPsf psf => exact h
  | setOversample o =>
    simp only [PSFOp.exec]
    cases e : M.setOversample o with
    | error _ => exact h
    | ok M' => exact (setOversample_ok h o e).1
  | setPsfOversample o =>
    simp only [PSFOp.exec]
    cases e : M.setPsfOversample o with
    | error _ => exact h
    | ok M' => exact (setPsfOversample_ok h o e).1
  | setCacheGrid v => cases v <;> exact h
  | clearCachedGrid => exact h

/-- **C56, up to `oversample=None`.** After any history of operations on a freshly built model (rejected assignments included) both
factors are positive, and unless `oversample` is currently `None` the grid factor is a multiple of the PSF factor. -/
theorem C56_settings_partial (rot : Img K → K → Img K) (M : PSFModel K) (ops : List (PSFOp K)) (h : SettingsOk M) :
    SettingsOk (psfAfter rot M ops) := by
  induction ops generalizing M with
  | nil => exact h
  | cons op t ih => exact ih _ (exec_settings h rot op)

/-- **C56, construction.** A model that was just built has fitting factors. -/
theorem C56_init (sub : SubModel K) (psf : Option (Img K)) (o : OversampleArg K) (p : PsfOversampleArg) (M : PSFModel K)
    (h : PSFModel.init sub psf o p = .ok M) : Compatible M ∧ SettingsOk M := by
  unfold PSFModel.init at h
  simp only [bind, Except.bind] at h
  have h0 : SettingsOk (⟨sub, psf, .none, none, true, 0, 0, none, none⟩ : PSFModel K) :=
    ⟨Nat.one_pos, Nat.one_pos, fun _ => one_dvd _⟩
  cases hc : (⟨sub, psf, .none, none, true, 0, 0, none, none⟩ : PSFModel K).setOversample o with
  | error e => rw [hc] at h; cases h
  | ok M1 =>
    rw [hc] at h
    obtain ⟨a, b⟩ := setPsfOversample_ok (setOversample_ok h0 o hc).1 p h
    exact ⟨b, a⟩

/-- **C56, accepted assignments.** Any accepted assignment to `psf_oversample`, and any accepted assignment other than `None` to
`oversample`, leaves fitting factors. -/
theorem C56_accepted (M M' : PSFModel K) (h : SettingsOk M) :
    (∀ o, M.setPsfOversample o = .ok M' → Compatible M') ∧
    (∀ o, (∀ x, o = x → x ≠ OversampleArg.none) → M.setOversample o = .ok M' → Compatible M') :=
  ⟨fun o e => (setPsfOversample_ok h o e).2,
   fun o hn e => (setOversample_ok h o e).2 fun ⟨x, h1, h2⟩ => hn x h1 h2⟩

/-- A model for running the code: the sub-model is `x + 10 y`. -/
def tilt : SubModel ℚ := ⟨["x_0"], fun _ x y => x + 10 * y⟩

/-- The 1×1 unit PSF. -/
def unitPsf : Img ℚ := Img.ofRows 0 [[1]]

/-- **C56, violated.** With `oversample=4, psf_oversample=2` the assignment `oversample=None` is accepted and leaves a grid factor 1 that
is not a multiple of the PSF factor 2; evaluating on a 2×2 grid then raises IndexError. -/
theorem C56_violated : ∃ M M' : PSFModel ℚ, PSFModel.init tilt (some unitPsf) (.int 4) (.int 2) = .ok M ∧
    M.setOversample .none = .ok M' ∧ ¬ Compatible M' ∧
    (M'.evaluate (fun p _ => p) [(0, 0), (1, 0), (0, 1), (1, 1)] [0] 0).1 = .error .indexError := by
  refine ⟨_, _, rfl, rfl, ?_, ?_⟩
  · unfold Compatible; decide
  · decide +kernel

/-! ### Evaluation on a grid -/

/-- The coordinates lie on the pixel grid that starts at `(x0, y0)` and reaches index `iMax`, `jMax`. -/
structure OnGrid (coords : List (K × K)) (x0 y0 : K) (iMax jMax : Nat) : Prop where
  minX : (coords.map (·.1)).min? = some x0
  minY : (coords.map (·.2)).min? = some y0
  maxX : (coords.map (·.1)).max? = some (x0 + iMax)
  maxY : (coords.map (·.2)).max? = some (y0 + jMax)

theorem indexOf_add (x0 : K) (n : Nat) : indexOf (x0 + n) x0 = n := by
  unfold indexOf
  simp

theorem indexOf_le {x0 x : K} {n : Nat} (h1 : x ≤ x0 + n) : indexOf x x0 ≤ n := by
  unfold indexOf
  have : ⌊x - x0⌋ ≤ (n : Int) := by
    rw [← Int.floor_natCast (R := K) n]
    exact Int.floor_mono (by linarith)
  omega

theorem mem_le_max {l : List K} {m x : K} (h : l.max? = some m) (hx : x ∈ l) : x ≤ m := (List.max?_eq_some_iff.1 h).2 x hx

theorem OnGrid.index_lt {coords : List (K × K)} {x0 y0 : K} {iMax jMax : Nat} (h : OnGrid coords x0 y0 iMax jMax) {c : K × K}
    (hc : c ∈ coords) : indexOf c.1 x0 ≤ iMax ∧ indexOf c.2 y0 ≤ jMax :=
  ⟨indexOf_le (mem_le_max h.maxX (List.mem_map_of_mem (f := (·.1)) hc)),
   indexOf_le (mem_le_max h.maxY (List.mem_map_of_mem (f := (·.2)) hc))⟩

theorem mapM_pick (im : Img K) (f : K × K → Nat × Nat) (coords : List (K × K)) (h : ∀ c ∈ coords, (f c).1 < im.h ∧ (f c).2 < im.w) :
    (coords.map f).mapM (pick im) = .ok (coords.map fun c => im.px (f c).1 (f c).2) := by
  induction coords with
  | nil => rfl
  | cons c t ih =>
    rw [List.map_cons, List.mapM_cons, ih fun d hd => h d (by simp [hd])]
    have : pick im (f c) = .ok (im.px (f c).1 (f c).2) := by
      unfold pick; rw [if_pos (h c (by simp))]
    rw [this]; rfl

theorem indexOf_mono {a b : K} (m : K) (h : a ≤ b) : indexOf a m ≤ indexOf b m := by
  unfold indexOf
  exact Int.toNat_le_toNat (Int.floor_mono (by linarith))

/-- Evaluation without a window and without a PSF, for any fitting pair of factors. -/
theorem evaluate_int_any {M : PSFModel K} (hM : CacheOk M) (hc : Compatible M) (hpsf : M.psf = none)
    (hwin : ∀ x y s f, M.oversample ≠ .window x y s f) (rot : Img K → K → Img K) {coords : List (K × K)} {x0 y0 xMax yMax : K}
    (g1 : (coords.map (·.1)).min? = some x0) (g2 : (coords.map (·.1)).max? = some xMax) (g3 : (coords.map (·.2)).min? = some y0)
    (g4 : (coords.map (·.2)).max? = some yMax) (params : List K) (pa : K) :
    (M.evaluate rot coords params pa).1 = .ok (coords.map fun c =>
      pixelMean (M.sub.eval params) (x0 + indexOf c.1 x0) (y0 + indexOf c.2 y0) M.oversampleFactor) := by
  obtain ⟨hf, hp, q, hq⟩ := hc
  have hq0 : 0 < q := by
    rcases Nat.eq_zero_or_pos q with h | h
    · rw [h] at hq; omega
    · exact h
  have hgf : M.gridFactor = M.oversampleFactor := by
    unfold gridFactor
    cases ho : M.oversample with
    | none => rfl
    | int k => rfl
    | window x y s f => exact absurd ho (hwin x y s f)
  rw [evaluate_some g1 g2 g3 g4]
  simp only
  rw [hgf, mainGrid_fst hM]
  set iMax := indexOf xMax x0 with hiM
  set jMax := indexOf yMax y0 with hjM
  unfold valuesOn
  rw [hgf]
  set N := max iMax jMax + 1 with hN
  set F := M.oversampleFactor with hF
  set P := M.psfFactor with hP
  have hdiv : F / P = q := by rw [hq]; exact Nat.mul_div_cancel_left q hp
  have hov : ∀ im, M.oversampled params F im iMax jMax =
      .ok (if 1 < q then (blockReduce im q).divBy ((q : K) ^ 2) else im) := by
    intro im
    unfold oversampled
    cases ho : M.oversample with
    | none => simp only [← hP, hdiv]
    | int k => simp only [← hP, hdiv]
    | window x y s f => exact absurd ho (hwin x y s f)
  rw [hov]
  simp only [bind, Except.bind]
  set S := sample M.sub params (makeGrid (N : Int) (x0, y0) F) with hS
  have hSh : S.h = N * F ∧ S.w = N * F := ⟨(makeGrid_spec N F (x0, y0)).1, (makeGrid_spec N F (x0, y0)).2.1⟩
  have hres : ∀ i j, i < N → j < N →
      (M.convolved rot pa (if 1 < q then (blockReduce S q).divBy ((q : K) ^ 2) else S)).px i j =
        pixelMean (M.sub.eval params) (x0 + j) (y0 + i) F := by
    intro i j hi hj
    rw [← sample_mean M.sub params N F i j hf (x0, y0) hi hj]
    unfold convolved
    rw [hpsf]
    simp only [← hP, ← hS]
    -- first reduction
    have h1 : ∀ i j, (if 1 < q then (blockReduce S q).divBy ((q : K) ^ 2) else S).px i j = (blockReduce S q).px i j / (q : K) ^ 2 := by
      intro i j
      by_cases hq1 : 1 < q
      · rw [if_pos hq1]; rfl
      · have : q = 1 := by omega
        rw [if_neg hq1, this, blockReduce_px]; simp
    have h2 : ∀ (T : Img K), (if 1 < P then (blockReduce T P).divBy ((P : K) ^ 2) else T).px i j = (blockReduce T P).px i j / (P : K) ^ 2 := by
      intro T
      by_cases hp1 : 1 < P
      · rw [if_pos hp1]; rfl
      · have : P = 1 := by omega
        rw [if_neg hp1, this, blockReduce_px]; simp
    rw [h2, divBy_px, blockReduce_px]
    simp only [h1]
    have h3 : (blockReduce S F).px i j = (blockReduce (blockReduce S q) P).px i j := by rw [blockReduce_twice, ← hq]
    rw [h3, blockReduce_px]
    simp only [← Finset.sum_div]
    rw [div_div]
    congr 1
    rw [hq]; push_cast; ring
  have hshape : N ≤ (M.convolved rot pa (if 1 < q then (blockReduce S q).divBy ((q : K) ^ 2) else S)).h ∧
      N ≤ (M.convolved rot pa (if 1 < q then (blockReduce S q).divBy ((q : K) ^ 2) else S)).w := by
    have h1 : (if 1 < q then (blockReduce S q).divBy ((q : K) ^ 2) else S).h = N * P ∧
        (if 1 < q then (blockReduce S q).divBy ((q : K) ^ 2) else S).w = N * P := by
      by_cases hq1 : 1 < q
      · rw [if_pos hq1]
        have : N * F / q = N * P := by rw [hq, ← Nat.mul_assoc]; exact Nat.mul_div_cancel _ hq0
        constructor
        · show S.h / q = _; rw [hSh.1, this]
        · show S.w / q = _; rw [hSh.2, this]
      · have hq1' : q = 1 := by omega
        rw [if_neg hq1, hSh.1, hSh.2, hq, hq1', Nat.mul_one]; exact ⟨rfl, rfl⟩
    unfold convolved
    rw [hpsf]
    simp only [← hP]
    by_cases hp1 : 1 < P
    · rw [if_pos hp1]
      constructor
      · show N ≤ _ / P; rw [h1.1, Nat.mul_div_cancel _ hp]
      · show N ≤ _ / P; rw [h1.2, Nat.mul_div_cancel _ hp]
    · rw [if_neg hp1, h1.1, h1.2]
      have : P = 1 := by omega
      rw [this]; omega
  have hidx : ∀ c ∈ coords, indexOf c.2 y0 < N ∧ indexOf c.1 x0 < N := by
    intro c hcm
    have := indexOf_mono x0 (mem_le_max g2 (List.mem_map_of_mem (f := (·.1)) hcm))
    have := indexOf_mono y0 (mem_le_max g4 (List.mem_map_of_mem (f := (·.2)) hcm))
    omega
  rw [mapM_pick _ (fun c : K × K => (indexOf c.2 y0, indexOf c.1 x0)) coords
    (fun c hcm => ⟨lt_of_lt_of_le (hidx c hcm).1 hshape.1, lt_of_lt_of_le (hidx c hcm).2 hshape.2⟩)]
  congr 1
  apply List.map_congr_left
  intro c hcm
  exact hres _ _ (hidx c hcm).1 (hidx c hcm).2

theorem evaluate_int {M : PSFModel K} (hM : CacheOk M) (hc : Compatible M) (hpsf : M.psf = none)
    (hwin : ∀ x y s f, M.oversample ≠ .window x y s f) (rot : Img K → K → Img K) {coords : List (K × K)} {x0 y0 : K}
    {iMax jMax : Nat} (hg : OnGrid coords x0 y0 iMax jMax) (params : List K) (pa : K) :
    (M.evaluate rot coords params pa).1 = .ok (coords.map fun c =>
      pixelMean (M.sub.eval params) (x0 + indexOf c.1 x0) (y0 + indexOf c.2 y0) M.oversampleFactor) :=
  evaluate_int_any hM hc hpsf hwin rot hg.minX hg.maxX hg.minY hg.maxY params pa

/-- **C54, evaluation.** With an integer `oversample` (or none), any fitting `psf_oversample` and no PSF, the value at a grid coordinate
is the mean of the sub-model over the `oversample²` sub-samples of its pixel. -/
theorem C54_evaluate (M : PSFModel K) (hM : CacheOk M) (hc : Compatible M) (hpsf : M.psf = none)
    (hwin : ∀ x y s f, M.oversample ≠ .window x y s f) (rot : Img K → K → Img K) (coords : List (K × K)) (x0 y0 : K)
    (iMax jMax : Nat) (hg : OnGrid coords x0 y0 iMax jMax)
    (hint : ∀ c ∈ coords, ∃ i j : Nat, c = (x0 + i, y0 + j)) (params : List K) (pa : K) :
    (M.evaluate rot coords params pa).1 = .ok (coords.map fun c => pixelMean (M.sub.eval params) c.1 c.2 M.oversampleFactor) := by
  rw [evaluate_int hM hc hpsf hwin rot hg]
  congr 1
  apply List.map_congr_left
  intro c hcm
  obtain ⟨i, j, rfl⟩ := hint c hcm
  simp only [indexOf_add]

example : (PSFModel.init tilt none (.int 3) .none).toOption.map (fun M => (M.evaluate (fun p _ => p)
    [(5, 7), (6, 7), (5, 8), (6, 8)] [0] 0).1) = some (.ok [75, 76, 85, 86]) := by decide +kernel

/-! ### C57 and C58 -/

/-- The corner of the oversampling window on an axis. -/
def corner (v : K) (size : Nat) : Int := rint v - ((size / 2 : Nat) : Int)

/-- Evaluation with an oversampling window whose index box lies inside the image, without a PSF, on a grid that starts at `(x0, y0)`:
inside the index box the value is the pixel mean at the coordinate equal to the index. -/
theorem evaluate_window {M : PSFModel K} (hM : CacheOk M) (hpsf : M.psf = none) (hpo : M.psfOversample = none)
    {cx cy : Center K} {size f : Nat} (hwin : M.oversample = .window cx cy (size : Int) f) (hf : 1 < f)
    (rot : Img K → K → Img K) {coords : List (K × K)} {x0 y0 : K} {iMax jMax : Nat} (hg : OnGrid coords x0 y0 iMax jMax)
    (params : List K) (pa : K) {vx vy : K} (hx : centerValue M.sub params cx = .ok vx) (hy : centerValue M.sub params cy = .ok vy)
    (hx0 : 0 ≤ corner vx size) (hy0 : 0 ≤ corner vy size) (hx1 : corner vx size + size ≤ iMax + 1)
    (hy1 : corner vy size + size ≤ jMax + 1) :
    (M.evaluate rot coords params pa).1 = .ok (coords.map fun c =>
      let i := indexOf c.1 x0
      let j := indexOf c.2 y0
      if corner vx size ≤ (i : Int) ∧ (i : Int) < corner vx size + size ∧ corner vy size ≤ (j : Int) ∧ (j : Int) < corner vy size + size then
        pixelMean (M.sub.eval params) (i : K) (j : K) f
      else M.sub.eval params (x0 + i) (y0 + j)) := by
  have hp : M.psfFactor = 1 := by unfold psfFactor; rw [hpo]; rfl
  have hh : ((size : Int) / 2) = ((size / 2 : Nat) : Int) := by push_cast; rfl
  have hgf : M.gridFactor = 1 := by unfold gridFactor; rw [hwin]; exact hp
  rw [evaluate_some hg.minX hg.maxX hg.minY hg.maxY]
  simp only
  rw [hgf, mainGrid_fst hM, indexOf_add, indexOf_add]
  unfold valuesOn
  rw [hgf]
  set N := max iMax jMax + 1 with hN
  set S := sample M.sub params (makeGrid (N : Int) (x0, y0) 1) with hS
  have hSh : S.h = N ∧ S.w = N := by
    have h1 := (makeGrid_spec N 1 (x0, y0)).1
    have h2 := (makeGrid_spec N 1 (x0, y0)).2.1
    rw [Nat.mul_one] at h1 h2
    exact ⟨h1, h2⟩
  have hSpx : ∀ i j, i < N → j < N → S.px i j = M.sub.eval params (x0 + j) (y0 + i) := by
    intro i j hi hj
    obtain ⟨-, -, -, -, e⟩ := makeGrid_spec N 1 (x0, y0)
    obtain ⟨e1, e2⟩ := e i j (by simpa using hi) (by simpa using hj)
    simp only [hS, sample]
    rw [e1, e2]
    congr 1 <;> (push_cast; ring)
  obtain ⟨ax, hax⟩ := Int.eq_ofNat_of_zero_le hx0
  obtain ⟨ay, hay⟩ := Int.eq_ofNat_of_zero_le hy0
  have hcx : rint vx - (size : Int) / 2 = (ax : Int) := by rw [hh, ← hax]; rfl
  have hcy : rint vy - (size : Int) / 2 = (ay : Int) := by rw [hh, ← hay]; rfl
  set W := (blockReduce (sample M.sub params (makeGrid (size : Int) (((ax : Int) : K), ((ay : Int) : K)) f)) f).divBy ((f : K) ^ 2) with hW
  have hWh : W.h = size ∧ W.w = size := by
    obtain ⟨a, b, -, -, -⟩ := makeGrid_spec size f (((ax : Int) : K), ((ay : Int) : K))
    have hf0 : 0 < f := by omega
    constructor
    · show (makeGrid (size : Int) (((ax : Int) : K), ((ay : Int) : K)) f).1.h / f = size
      rw [a, Nat.mul_div_cancel _ hf0]
    · show (makeGrid (size : Int) (((ax : Int) : K), ((ay : Int) : K)) f).1.w / f = size
      rw [b, Nat.mul_div_cancel _ hf0]
  have hWpx : ∀ i j, i < size → j < size → W.px i j = pixelMean (M.sub.eval params) ((ax + j : Nat) : K) ((ay + i : Nat) : K) f := by
    intro i j hi hj
    rw [hW, sample_mean M.sub params size f i j (by omega) _ hi hj]
    push_cast; rfl
  rw [hax] at hx1
  rw [hay] at hy1
  have hpaste : M.oversampled params 1 S iMax jMax = .ok ⟨S.h, S.w, fun i j =>
      if ay ≤ i ∧ i < ay + size ∧ ax ≤ j ∧ j < ax + size then
        W.px (if W.h = 1 then 0 else i - ay) (if W.w = 1 then 0 else j - ax) else S.px i j⟩ := by
    unfold oversampled
    rw [hwin]
    simp only
    unfold pasteWindow
    rw [hp]
    simp only [Nat.div_one]
    rw [if_neg (by omega), hx, hy]
    simp only [bind, Except.bind]
    rw [hcx, hcy, ← hW]
    have e1 : ¬ ((ax : Int) < 0) := by omega
    have e2 : ¬ ((ay : Int) < 0) := by omega
    have e3 : (if (ax : Int) + (size : Int) > (iMax : Int) then (iMax : Int) + 1 else (ax : Int) + size) = (ax : Int) + size := by
      split_ifs <;> omega
    have e4 : (if (ay : Int) + (size : Int) > (jMax : Int) then (jMax : Int) + 1 else (ay : Int) + size) = (ay : Int) + size := by
      split_ifs <;> omega
    rw [if_neg e1, if_neg e2, e3, e4]
    unfold sliceAssign
    have s1 : ∀ k n : Nat, k ≤ n → sliceBound n ((k : Int) * ((1 : Nat) : Int)) = k := by
      intro k n hkn
      unfold sliceBound
      rw [if_neg (by push_cast; omega)]
      have : ((k : Int) * ((1 : Nat) : Int)).toNat = k := by push_cast; omega
      rw [this]; omega
    have c1 : (ay : Int) + (size : Int) = ((ay + size : Nat) : Int) := by push_cast; rfl
    have c2 : (ax : Int) + (size : Int) = ((ax + size : Nat) : Int) := by push_cast; rfl
    rw [c1, c2, s1 ay _ (by rw [hSh.1]; omega), s1 (ay + size) _ (by rw [hSh.1]; omega), s1 ax _ (by rw [hSh.2]; omega),
      s1 (ax + size) _ (by rw [hSh.2]; omega)]
    simp only
    have hb : (broadcasts W.h (ay + size - ay) && broadcasts W.w (ax + size - ax)) = true := by
      rw [hWh.1, hWh.2]
      have h1 : ay + size - ay = size := by omega
      have h2 : ax + size - ax = size := by omega
      rw [h1, h2]; simp [broadcasts]
    rw [if_pos hb]
  rw [hpaste]
  simp only [bind, Except.bind]
  have hconv : ∀ T, M.convolved rot pa T = T := by
    intro T; unfold convolved; rw [hpsf, hp]; simp
  rw [hconv]
  have hidx : ∀ c ∈ coords, indexOf c.2 y0 < N ∧ indexOf c.1 x0 < N := by
    intro c hcm
    have := hg.index_lt hcm
    omega
  rw [mapM_pick _ (fun c : K × K => (indexOf c.2 y0, indexOf c.1 x0)) coords
    (fun c hcm => ⟨by show _ < S.h; rw [hSh.1]; exact (hidx c hcm).1, by show _ < S.w; rw [hSh.2]; exact (hidx c hcm).2⟩)]
  congr 1
  apply List.map_congr_left
  intro c hcm
  simp only
  obtain ⟨hj, hi⟩ := hidx c hcm
  generalize indexOf c.2 y0 = j at *
  generalize indexOf c.1 x0 = i at *
  rw [hax, hay]
  by_cases hin : ay ≤ j ∧ j < ay + size ∧ ax ≤ i ∧ i < ax + size
  · have hin' : (ax : Int) ≤ i ∧ (i : Int) < ax + size ∧ (ay : Int) ≤ j ∧ (j : Int) < ay + size := by omega
    rw [if_pos hin, if_pos hin']
    have r1 : (if W.h = 1 then 0 else j - ay) = j - ay := by rw [hWh.1]; split_ifs <;> omega
    have r2 : (if W.w = 1 then 0 else i - ax) = i - ax := by rw [hWh.2]; split_ifs <;> omega
    rw [r1, r2, hWpx _ _ (by omega) (by omega)]
    congr 2 <;> omega
  · have hin' : ¬ ((ax : Int) ≤ i ∧ (i : Int) < ax + size ∧ (ay : Int) ≤ j ∧ (j : Int) < ay + size) := by omega
    rw [if_neg hin, if_neg hin', hSpx j i hj hi]

/-- **C57, grids starting at the origin.** On a pixel grid that starts at `(0, 0)` and contains the window (centre given by numbers or by
parameter names), the value is the pixel mean of the sub-model inside the window and the sub-model at the pixel centre outside. -/
theorem C57_window_partial (M : PSFModel K) (hM : CacheOk M) (hpsf : M.psf = none) (hpo : M.psfOversample = none)
    (cx cy : Center K) (size f : Nat) (hwin : M.oversample = .window cx cy (size : Int) f) (hf : 1 < f)
    (rot : Img K → K → Img K) (coords : List (K × K)) (iMax jMax : Nat) (hg : OnGrid coords 0 0 iMax jMax)
    (hint : ∀ c ∈ coords, ∃ i j : Nat, c = ((i : K), (j : K)))
    (params : List K) (pa : K) (vx vy : K) (hx : centerValue M.sub params cx = .ok vx) (hy : centerValue M.sub params cy = .ok vy)
    (hx0 : 0 ≤ corner vx size) (hy0 : 0 ≤ corner vy size) (hx1 : corner vx size + size ≤ iMax + 1)
    (hy1 : corner vy size + size ≤ jMax + 1) :
    (M.evaluate rot coords params pa).1 = .ok (coords.map fun c =>
      if (corner vx size : K) ≤ c.1 ∧ c.1 < (corner vx size : K) + size ∧ (corner vy size : K) ≤ c.2 ∧ c.2 < (corner vy size : K) + size then
        pixelMean (M.sub.eval params) c.1 c.2 f
      else M.sub.eval params c.1 c.2) := by
  rw [evaluate_window hM hpsf hpo hwin hf rot hg params pa hx hy hx0 hy0 hx1 hy1]
  congr 1
  apply List.map_congr_left
  intro c hcm
  obtain ⟨i, j, rfl⟩ := hint c hcm
  have e : ∀ n : Nat, indexOf (n : K) 0 = n := fun n => by simpa using indexOf_add (0 : K) n
  simp only [e, zero_add]
  have q1 : ((corner vx size : K) ≤ (i : K) ∧ (i : K) < (corner vx size : K) + size ∧ (corner vy size : K) ≤ (j : K) ∧
      (j : K) < (corner vy size : K) + size) ↔ (corner vx size ≤ (i : Int) ∧ (i : Int) < corner vx size + size ∧
      corner vy size ≤ (j : Int) ∧ (j : Int) < corner vy size + size) := by
    have a1 : (corner vx size : K) ≤ (i : K) ↔ corner vx size ≤ (i : Int) := by exact_mod_cast Iff.rfl
    have a2 : (i : K) < (corner vx size : K) + size ↔ (i : Int) < corner vx size + size := by exact_mod_cast Iff.rfl
    have a3 : (corner vy size : K) ≤ (j : K) ↔ corner vy size ≤ (j : Int) := by exact_mod_cast Iff.rfl
    have a4 : (j : K) < (corner vy size : K) + size ↔ (j : Int) < corner vy size + size := by exact_mod_cast Iff.rfl
    rw [a1, a2, a3, a4]
  by_cases h : (corner vx size ≤ (i : Int) ∧ (i : Int) < corner vx size + size ∧
      corner vy size ≤ (j : Int) ∧ (j : Int) < corner vy size + size)
  · rw [if_pos h, if_pos (q1.2 h)]
  · rw [if_neg h, if_neg (fun hh => h (q1.1 hh))]

/-- A 4×4 pixel grid from `(x0, y0)`. -/
def grid44 (x0 y0 : ℚ) : List (ℚ × ℚ) :=
  (List.range 4).flatMap fun j : Nat => (List.range 4).map fun i : Nat => (x0 + (i : ℚ), y0 + (j : ℚ))

/-- A curved sub-model, `x² + 100 y`. -/
def bowl : SubModel ℚ := ⟨["x_0", "y_0"], fun _ x y => x ^ 2 + 100 * y⟩

/-- A 2×2 window around `(1, 1)`, given by parameter names, oversampled by 2. -/
def bowlModel : PSFModel ℚ := ⟨bowl, none, .window (.name "x_0") (.name "y_0") 2 2, none, true, 0, 0, none, none⟩

/-- The window shows the pixel means, the other pixels the centres. -/
example : (bowlModel.evaluate (fun p _ => p) (grid44 0 0) [1, 1] 0).1 =
    .ok [1/16, 17/16, 4, 9, 1601/16, 1617/16, 104, 109, 200, 201, 204, 209, 300, 301, 304, 309] := by decide +kernel

/-- **C57, violated.** On the 4×4 grid that starts at `(2, 0)`, which does not meet the window at 0..1, the first two columns, at x = 2 and 3,
show the values of the model at x = 0 and 1: the window is placed by index, not by coordinate. -/
theorem C57_origin_violated : (bowlModel.evaluate (fun p _ => p) (grid44 2 0) [1, 1] 0).1 =
      .ok [1/16, 17/16, 16, 25, 1601/16, 1617/16, 116, 125, 204, 209, 216, 225, 304, 309, 316, 325] ∧
    (({ bowlModel with oversample := .none } : PSFModel ℚ).evaluate (fun p _ => p) (grid44 2 0) [1, 1] 0).1 =
      .ok [4, 9, 16, 25, 104, 109, 116, 125, 204, 209, 216, 225, 304, 309, 316, 325] := by
  constructor <;> decide +kernel

/-- **C58, violated.** Whenever the window crosses the left or right border of the image, or the lower or upper one, evaluation raises
ValueError: the index range is clipped and the oversampled window is not. -/
theorem C58_border_violated (M : PSFModel K) (hM : CacheOk M) (hpo : M.psfOversample = none)
    (cx cy : Center K) (size f : Nat) (hwin : M.oversample = .window cx cy (size : Int) f) (hf : 1 < f)
    (rot : Img K → K → Img K) (coords : List (K × K)) (x0 y0 : K) (iMax jMax : Nat) (hg : OnGrid coords x0 y0 iMax jMax)
    (params : List K) (pa : K) (vx vy : K) (hx : centerValue M.sub params cx = .ok vx) (hy : centerValue M.sub params cy = .ok vy)
    (hcross : (corner vx size < 0 ∧ 0 < corner vx size + size) ∨ (0 ≤ corner vx size ∧ corner vx size ≤ iMax ∧ (iMax : Int) + 1 < corner vx size + size) ∨
      (corner vy size < 0 ∧ 0 < corner vy size + size) ∨ (0 ≤ corner vy size ∧ corner vy size ≤ jMax ∧ (jMax : Int) + 1 < corner vy size + size)) :
    (M.evaluate rot coords params pa).1 = .error .valueError := by
  have hp : M.psfFactor = 1 := by unfold psfFactor; rw [hpo]; rfl
  have hh : ((size : Int) / 2) = ((size / 2 : Nat) : Int) := by push_cast; rfl
  have hgf : M.gridFactor = 1 := by unfold gridFactor; rw [hwin]; exact hp
  rw [evaluate_some hg.minX hg.maxX hg.minY hg.maxY]
  simp only
  rw [hgf, mainGrid_fst hM, indexOf_add, indexOf_add]
  unfold valuesOn
  rw [hgf]
  set N := max iMax jMax + 1 with hN
  set S := sample M.sub params (makeGrid (N : Int) (x0, y0) 1) with hS
  have hSh : S.h = N ∧ S.w = N := by
    have h1 := (makeGrid_spec N 1 (x0, y0)).1
    have h2 := (makeGrid_spec N 1 (x0, y0)).2.1
    rw [Nat.mul_one] at h1 h2
    exact ⟨h1, h2⟩
  have herr : M.oversampled params 1 S iMax jMax = .error .valueError := by
    unfold oversampled
    rw [hwin]
    simp only
    unfold pasteWindow
    rw [hp]
    simp only [Nat.div_one]
    rw [if_neg (by omega), hx, hy]
    simp only [bind, Except.bind]
    have hcx : rint vx - (size : Int) / 2 = corner vx size := by rw [hh]; rfl
    have hcy : rint vy - (size : Int) / 2 = corner vy size := by rw [hh]; rfl
    rw [hcx, hcy]
    set ox := corner vx size
    set oy := corner vy size
    set W := (blockReduce (sample M.sub params (makeGrid (size : Int) ((ox : K), (oy : K)) f)) f).divBy ((f : K) ^ 2) with hW
    have hWh : W.h = size ∧ W.w = size := by
      obtain ⟨a, b, -, -, -⟩ := makeGrid_spec size f ((ox : K), (oy : K))
      have hf0 : 0 < f := by omega
      constructor
      · show (makeGrid (size : Int) ((ox : K), (oy : K)) f).1.h / f = size
        rw [a, Nat.mul_div_cancel _ hf0]
      · show (makeGrid (size : Int) ((ox : K), (oy : K)) f).1.w / f = size
        rw [b, Nat.mul_div_cancel _ hf0]
    unfold sliceAssign
    have s0 : ∀ (n : Nat) (k : Int), 0 ≤ k → sliceBound n (k * ((1 : Nat) : Int)) ≤ k.toNat ∧
        (k ≤ n → sliceBound n (k * ((1 : Nat) : Int)) = k.toNat) := by
      intro n k hk
      unfold sliceBound
      rw [if_neg (by push_cast; omega)]
      have : (k * ((1 : Nat) : Int)).toNat = k.toNat := by push_cast; omega
      rw [this]; omega
    have key : ∀ (o : Int) (mx : Nat), mx < N → ((o < 0 ∧ 0 < o + size) ∨ (0 ≤ o ∧ o ≤ mx ∧ (mx : Int) + 1 < o + size)) →
        broadcasts size (sliceBound N ((if o + (size : Int) > (mx : Int) then (mx : Int) + 1 else o + size) * ((1 : Nat) : Int)) -
          sliceBound N ((if o < 0 then 0 else o) * ((1 : Nat) : Int))) = false := by
      intro o mx hmx hc
      rcases hc with ⟨h1, h2⟩ | ⟨h1, h2, h3⟩
      · rw [if_pos h1]
        obtain ⟨b1, -⟩ := s0 N (if o + (size : Int) > (mx : Int) then (mx : Int) + 1 else o + size) (by split_ifs <;> omega)
        have b2 : (if o + (size : Int) > (mx : Int) then (mx : Int) + 1 else o + size).toNat < size := by split_ifs <;> omega
        have b3 : 1 < size := by omega
        unfold broadcasts
        simp only [Bool.or_eq_false_iff, decide_eq_false_iff_not]
        omega
      · have h4 : ¬ o < 0 := by omega
        have h5 : o + (size : Int) > (mx : Int) := by omega
        rw [if_neg h4, if_pos h5]
        obtain ⟨b1, -⟩ := s0 N ((mx : Int) + 1) (by omega)
        obtain ⟨-, c1⟩ := s0 N o h1
        have c2 := c1 (by omega)
        have b3 : 1 < size := by omega
        unfold broadcasts
        simp only [Bool.or_eq_false_iff, decide_eq_false_iff_not]
        omega
    rw [hSh.1, hSh.2]
    simp only
    rw [if_neg]
    rw [hWh.1, hWh.2, Bool.and_eq_true, not_and_or]
    rcases hcross with h | h | h | h
    · right; rw [key ox iMax (by omega) (Or.inl h)]; simp
    · right; rw [key ox iMax (by omega) (Or.inr h)]; simp
    · left; rw [key oy jMax (by omega) (Or.inl h)]; simp
    · left; rw [key oy jMax (by omega) (Or.inr h)]; simp
  rw [herr]; rfl

/-- A window around `(0, 1)` crosses the border of the grid: hypotheses of `C58_border_violated` met. -/
example : (bowlModel.evaluate (fun p _ => p) (grid44 0 0) [0, 1] 0).1 = .error .valueError := by decide +kernel

/-- **C58, far outside.** A window that lies completely to the left of the image can be written into it silently: python reads the
negative upper index from the end, so that columns 0 and 1 show the model at x = -4 and -3. -/
theorem C58_negative_slice_violated : (bowlModel.evaluate (fun p _ => p) (grid44 0 0) [-3, 1] 0).1 =
    .ok [257/16, 145/16, 4, 9, 1857/16, 1745/16, 104, 109, 200, 201, 204, 209, 300, 301, 304, 309] := by decide +kernel

/-! ### C59 -/

/-- **C59, shape.** The convolved image has the shape of the image. -/
theorem C59_shape (im psf : Img K) : (convolveSame im psf).h = im.h ∧ (convolveSame im psf).w = im.w := ⟨rfl, rfl⟩

/-- **C59, identity.** A PSF that is 1 at `((h-1)//2, (w-1)//2)` and 0 elsewhere leaves the image unchanged; in particular a centred unit
PSF of odd size. -/
theorem C59_identity (im psf : Img K) (hh : 0 < psf.h) (hw : 0 < psf.w)
    (hp : ∀ a b, a < psf.h → b < psf.w → psf.px a b = if a = (psf.h - 1) / 2 ∧ b = (psf.w - 1) / 2 then 1 else 0) :
    (convolveSame im psf).Same im := by
  refine ⟨rfl, rfl, fun i j hi hj => ?_⟩
  have hi' : i < im.h := hi
  have hj' : j < im.w := hj
  rw [convolveSame_px, Finset.sum_eq_single ((psf.h - 1) / 2), Finset.sum_eq_single ((psf.w - 1) / 2)]
  · rw [hp _ _ (by omega) (by omega), if_pos ⟨rfl, rfl⟩, one_mul]
    have e1 : (i : Int) + (((psf.h - 1) / 2 : Nat) : Int) - (((psf.h - 1) / 2 : Nat) : Int) = (i : Int) := by ring
    have e2 : (j : Int) + (((psf.w - 1) / 2 : Nat) : Int) - (((psf.w - 1) / 2 : Nat) : Int) = (j : Int) := by ring
    rw [e1, e2, zeroPad_nat, if_pos ⟨hi', hj'⟩]
  · intro b hb hne
    rw [Finset.mem_range] at hb
    rw [hp _ _ (by omega) hb, if_neg (fun h => hne h.2), zero_mul]
  · intro h; exact absurd (Finset.mem_range.2 (by omega)) h
  · intro a ha hne
    rw [Finset.mem_range] at ha
    apply Finset.sum_eq_zero
    intro b hb
    rw [Finset.mem_range] at hb
    rw [hp _ _ ha hb, if_neg (fun h => hne h.1), zero_mul]
  · intro h; exact absurd (Finset.mem_range.2 (by omega)) h

theorem blockReduce_same {a b : Img K} (h : a.Same b) (f : Nat) : (blockReduce a f).Same (blockReduce b f) := by
  obtain ⟨h1, h2, h3⟩ := h
  refine ⟨by simp [blockReduce, h1], by simp [blockReduce, h2], fun i j hi hj => ?_⟩
  have hi' : i < a.h / f := hi
  have hj' : j < a.w / f := hj
  have hf : 0 < f := by
    rcases Nat.eq_zero_or_pos f with h | h
    · rw [h] at hi'; simp at hi'
    · exact h
  rw [blockReduce_px, blockReduce_px]
  have key : ∀ n i k, i < n / f → k < f → i * f + k < n := by
    intro n i k h1 h2
    calc i * f + k < i * f + f := by omega
      _ = (i + 1) * f := by ring
      _ ≤ n / f * f := Nat.mul_le_mul_right _ h1
      _ ≤ n := Nat.div_mul_le_self n f
  apply Finset.sum_congr rfl
  intro p hp
  apply Finset.sum_congr rfl
  intro q hq
  rw [Finset.mem_range] at hp hq
  exact h3 _ _ (key _ _ _ hi' hp) (key _ _ _ hj' hq)

theorem pick_same {a b : Img K} (h : a.Same b) : pick a = pick b := by
  obtain ⟨h1, h2, h3⟩ := h
  funext p
  unfold pick
  rw [h1, h2]
  by_cases hc : p.1 < b.h ∧ p.2 < b.w
  · rw [if_pos hc, if_pos hc, h3 _ _ (by omega) (by omega)]
  · rw [if_neg hc, if_neg hc]

/-- **C59, identity of evaluation.** At position angle 0 a model with a centred unit PSF evaluates to the same values as the model without
a PSF: for every grid, window, oversampling and PSF oversampling. -/
theorem C59_evaluate_identity (M : PSFModel K) (hM : CacheOk M) (psf : Img K) (hh : 0 < psf.h) (hw : 0 < psf.w)
    (hp : ∀ a b, a < psf.h → b < psf.w → psf.px a b = if a = (psf.h - 1) / 2 ∧ b = (psf.w - 1) / 2 then 1 else 0)
    (rot : Img K → K → Img K) (coords : List (K × K)) (params : List K) :
    ((M.setPsf (some psf)).evaluate rot coords params 0).1 = ((M.setPsf none).evaluate rot coords params 0).1 := by
  by_cases hc : coords = []
  · rw [evaluate_err hc, evaluate_err hc]
  · have hx : coords.map (·.1) ≠ [] := by simpa using hc
    have hy : coords.map (·.2) ≠ [] := by simpa using hc
    obtain ⟨a, ha⟩ := min?_some hx
    obtain ⟨b, hb⟩ := max?_some hx
    obtain ⟨c, hc'⟩ := min?_some hy
    obtain ⟨d, hd⟩ := max?_some hy
    rw [evaluate_some ha hb hc' hd, evaluate_some ha hb hc' hd]
    simp only
    have hM1 : CacheOk (M.setPsf (some psf)) := hM
    have hM2 : CacheOk (M.setPsf none) := hM
    rw [mainGrid_fst hM1, mainGrid_fst hM2]
    have hgf : (M.setPsf (some psf)).gridFactor = (M.setPsf none).gridFactor := by unfold gridFactor; rfl
    rw [hgf]
    unfold valuesOn
    rw [hgf]
    have h1 : (M.setPsf (some psf)).oversampled = (M.setPsf none).oversampled := by
      funext a b c d e
      unfold oversampled pasteWindow
      rfl
    rw [h1]
    congr 1
    funext im
    congr 1
    apply pick_same
    have hs := C59_identity im psf hh hw hp
    have e1 : (M.setPsf (some psf)).convolved rot 0 im = if 1 < M.psfFactor then
        (blockReduce (convolveSame im psf) M.psfFactor).divBy ((M.psfFactor : K) ^ 2) else convolveSame im psf := by
      unfold convolved setPsf
      simp only [ne_eq, not_true_eq_false, if_false]
      rfl
    have e2 : (M.setPsf none).convolved rot 0 im = if 1 < M.psfFactor then
        (blockReduce im M.psfFactor).divBy ((M.psfFactor : K) ^ 2) else im := by
      unfold convolved setPsf
      rfl
    rw [e1, e2]
    by_cases hf : 1 < M.psfFactor
    · rw [if_pos hf, if_pos hf]
      obtain ⟨e1, e2, e3⟩ := blockReduce_same hs M.psfFactor
      refine ⟨e1, e2, fun i j hi hj => ?_⟩
      rw [divBy_px, divBy_px, e3 i j hi hj]
    · rw [if_neg hf, if_neg hf]; exact hs

/-- **C59, linearity.** Convolution is linear in the image. -/
theorem C59_linear (p q : K) (f g : Img K) (psf : Img K) (hh : f.h = g.h) (hw : f.w = g.w) (i j : Nat) :
    (convolveSame ⟨f.h, f.w, fun i j => p * f.px i j + q * g.px i j⟩ psf).px i j =
      p * (convolveSame f psf).px i j + q * (convolveSame g psf).px i j := by
  have hz : ∀ a b : Int, (⟨f.h, f.w, fun i j => p * f.px i j + q * g.px i j⟩ : Img K).zeroPad a b =
      p * f.zeroPad a b + q * g.zeroPad a b := by
    intro a b
    unfold Img.zeroPad
    simp only [← hh, ← hw]
    split_ifs <;> ring
  rw [convolveSame_px, convolveSame_px, convolveSame_px, Finset.mul_sum, Finset.mul_sum, ← Finset.sum_add_distrib]
  apply Finset.sum_congr rfl
  intro a _
  rw [Finset.mul_sum, Finset.mul_sum, ← Finset.sum_add_distrib]
  apply Finset.sum_congr rfl
  intro b _
  rw [hz]; ring

/-- **C59, flux.** If every pixel that is not zero is at least `(size-1)//2` pixels from the upper and left border of the array and
`size//2` from the others (at the PSF's size along each axis), the total of the convolved image is the total of the image times the total
of the PSF: for a PSF that sums to 1 the flux is conserved. -/
theorem C59_flux (im psf : Img K)
    (hs : ∀ i j, i < im.h → j < im.w → im.px i j ≠ 0 →
      (psf.h - 1) / 2 ≤ i ∧ i + psf.h / 2 < im.h ∧ (psf.w - 1) / 2 ≤ j ∧ j + psf.w / 2 < im.w) :
    total (convolveSame im psf) = total im * total psf := by
  have hz : ∀ a b : Int, im.zeroPad a b ≠ 0 → 0 ≤ a ∧ a < im.h ∧ 0 ≤ b ∧ b < im.w ∧ (((psf.h - 1) / 2 : Nat) : Int) ≤ a ∧
      a + ((psf.h / 2 : Nat) : Int) < im.h ∧ (((psf.w - 1) / 2 : Nat) : Int) ≤ b ∧ b + ((psf.w / 2 : Nat) : Int) < im.w := by
    intro a b hne
    unfold Img.zeroPad at hne
    split_ifs at hne with hc
    · have := hs a.toNat b.toNat (by omega) (by omega) hne
      omega
    · exact absurd rfl hne
  have inner : ∀ a b : Nat, a < psf.h → b < psf.w →
      ∑ i ∈ Finset.range im.h, ∑ j ∈ Finset.range im.w,
        im.zeroPad ((i : Int) + (((psf.h - 1) / 2 : Nat) : Int) - a) ((j : Int) + (((psf.w - 1) / 2 : Nat) : Int) - b) = total im := by
    intro a b ha hb
    have h1 : ∀ r : Int, ∑ j ∈ Finset.range im.w, im.zeroPad r ((j : Int) + (((psf.w - 1) / 2 : Nat) : Int) - b) =
        ∑ j ∈ Finset.range im.w, im.zeroPad r (j : Int) := by
      intro r
      have := sum_shift im.w ((((psf.w - 1) / 2 : Nat) : Int) - b) (fun k => im.zeroPad r k) (fun k hk => by
        obtain ⟨_, _, h3, h4, _, _, h7, h8⟩ := hz r k hk
        omega)
      simp only [← add_sub_assoc] at this
      exact this
    simp only [h1]
    have := sum_shift im.h ((((psf.h - 1) / 2 : Nat) : Int) - a) (fun k => ∑ j ∈ Finset.range im.w, im.zeroPad k (j : Int)) (fun k hk => by
      obtain ⟨j, _, hj⟩ := Finset.exists_ne_zero_of_sum_ne_zero hk
      obtain ⟨h3, h4, _, _, h7, h8, _, _⟩ := hz k j hj
      omega)
    simp only [← add_sub_assoc] at this
    rw [this]
    unfold total
    apply Finset.sum_congr rfl
    intro i hi
    apply Finset.sum_congr rfl
    intro j hj
    rw [Finset.mem_range] at hi hj
    rw [zeroPad_nat, if_pos ⟨hi, hj⟩]
  unfold total
  show ∑ i ∈ Finset.range im.h, ∑ j ∈ Finset.range im.w, _ = _
  simp only [convolveSame_px]
  have hswap : ∀ i ∈ Finset.range im.h, ∑ j ∈ Finset.range im.w, ∑ a ∈ Finset.range psf.h, ∑ b ∈ Finset.range psf.w,
      psf.px a b * im.zeroPad ((i : Int) + (((psf.h - 1) / 2 : Nat) : Int) - a) ((j : Int) + (((psf.w - 1) / 2 : Nat) : Int) - b) =
      ∑ a ∈ Finset.range psf.h, ∑ b ∈ Finset.range psf.w, psf.px a b * ∑ j ∈ Finset.range im.w,
        im.zeroPad ((i : Int) + (((psf.h - 1) / 2 : Nat) : Int) - a) ((j : Int) + (((psf.w - 1) / 2 : Nat) : Int) - b) := by
    intro i _
    rw [Finset.sum_comm]
    apply Finset.sum_congr rfl
    intro a _
    rw [Finset.sum_comm]
    apply Finset.sum_congr rfl
    intro b _
    rw [Finset.mul_sum]
  rw [Finset.sum_congr rfl hswap, Finset.sum_comm]
  rw [Finset.mul_sum]
  apply Finset.sum_congr rfl
  intro a ha
  rw [Finset.sum_comm, Finset.mul_sum]
  apply Finset.sum_congr rfl
  intro b hb
  rw [← Finset.mul_sum, inner a b (Finset.mem_range.1 ha) (Finset.mem_range.1 hb)]
  unfold total; ring

/-- A 3×3 PSF moves half of the flux of the central pixel of a 5×5 image to its neighbours. -/
example : (convolveSame (Img.ofRows 0 [[0, 0, 0, 0, 0], [0, 0, 0, 0, 0], [0, 0, 8, 0, 0], [0, 0, 0, 0, 0], [0, 0, 0, 0, (0 : ℚ)]])
    (Img.ofRows 0 [[0, 1/8, 0], [1/8, 1/2, 1/8], [0, 1/8, 0]])).rows =
    [[0, 0, 0, 0, 0], [0, 0, 1, 0, 0], [0, 1, 4, 1, 0], [0, 0, 1, 0, 0], [0, 0, 0, 0, 0]] := by decide +kernel

end Verif.Props

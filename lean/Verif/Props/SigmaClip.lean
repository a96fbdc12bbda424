import Verif.Props.Fitting
import Verif.Lemmas.SigmaClip
import Verif.Lemmas.Scale

/-!
# C140, C141: sigma clipping and the background it leaves
-/

set_option linter.unusedSectionVars false
set_option linter.unusedVariables false

namespace Verif.Props

open Spec Lemmas

variable {K : Type} [Field K] [LinearOrder K] [IsStrictOrderedRing K]

/-! ### C140 -/

/-- **C140, median.** The median of a list that is not empty: at least half of the values are not above it, at least half are not below
it. -/
theorem C140_median {l : List K} (h : l ≠ []) :
    l.length ≤ 2 * (l.filter fun v => v ≤ medianK l).length ∧ l.length ≤ 2 * (l.filter fun v => medianK l ≤ v).length := by
  obtain ⟨h1, h2⟩ := median_halves h
  have hl : (l.insertionSort (· ≤ ·)).length = l.length := List.length_insertionSort _ _
  have hperm : (l.insertionSort (· ≤ ·)).Perm l := List.perm_insertionSort _ _
  rw [← (hperm.filter _).length_eq, ← (hperm.filter fun v => decide (medianK l ≤ v)).length_eq]
  generalize l.insertionSort (· ≤ ·) = s at *
  constructor
  · have := ((List.take_sublist (l.length - l.length / 2) s).filter fun v => decide (v ≤ medianK l)).length_le
    rw [List.filter_eq_self.2 (by simpa using h2), List.length_take] at this
    omega
  · have := ((List.drop_sublist (l.length / 2) s).filter fun v => decide (medianK l ≤ v)).length_le
    rw [List.filter_eq_self.2 (by simpa using h1), List.length_drop] at this
    omega

/-- An image in another unit with another zero point: `a * image + b`. -/
def rescaled (a b : K) (im : Img (F K)) : Img (F K) := ⟨im.h, im.w, fun i j => .fin a * im.px i j + .fin b⟩

theorem rescaled_inf {a : K} (ha : a ≠ 0) (b : K) :
    (.fin a * .pinf + .fin b : F K) = (if 0 < a then .pinf else .ninf) ∧
    (.fin a * .ninf + .fin b : F K) = (if 0 < a then .ninf else .pinf) := by
  have e1 : (.fin a * .pinf : F K) = F.sgnInf a := rfl
  have e2 : (.fin a * .ninf : F K) = F.sgnInf (-a) := rfl
  rw [e1, e2]
  rcases lt_or_gt_of_ne ha with h | h
  · rw [sgnInf_neg h, sgnInf_pos (neg_pos.2 h), if_neg (not_lt.2 h.le), if_neg (not_lt.2 h.le)]
    exact ⟨rfl, rfl⟩
  · rw [sgnInf_pos h, sgnInf_neg (neg_lt_zero.2 h), if_pos h, if_pos h]
    exact ⟨rfl, rfl⟩

theorem finVal_rescaled {a : K} (ha : a ≠ 0) (b : K) (x : F K) : finVal (.fin a * x + .fin b) = (finVal x).map fun v => a * v + b := by
  cases x with
  | fin v => rfl
  | nan => rfl
  | pinf => rw [(rescaled_inf ha b).1]; split <;> rfl
  | ninf => rw [(rescaled_inf ha b).2]; split <;> rfl

theorem finVals_rescaled {a : K} (ha : a ≠ 0) (b : K) (im : Img (F K)) : finVals (rescaled a b im) = (finVals im).map fun v => a * v + b := by
  unfold finVals rescaled
  simp only [finVal_rescaled ha]
  rw [List.map_filterMap]

/-- **C140, mask.** Sigma clipping with `sigma² > 2` masks the same pixels when the image is given in another unit and with another zero
point (negative images included). -/
theorem C140_mask {a : K} (ha : a ≠ 0) (b : K) (im : Img (F K)) {sigma : K} (hs : 2 < sigma ^ 2) {i j : Nat} (hi : i < im.h) (hj : j < im.w) :
    sigmaClipMask (rescaled a b im) sigma i j = sigmaClipMask im sigma i j := by
  rw [mask_eq, mask_eq]
  have hv := finVal_rescaled ha b (im.px i j)
  have hpx : (rescaled a b im).px i j = .fin a * im.px i j + .fin b := rfl
  rw [hpx]
  cases hx : im.px i j with
  | fin v =>
    have hne : finVals im ≠ [] := List.ne_nil_of_mem (finVals_mem.2 ⟨i, j, hi, hj, hx⟩)
    rw [F.fin_mul, F.fin_add, finVals_rescaled ha, clipBounds_affine hs ha b 4 hne]
    simp only [Within]
    rw [decide_eq_decide.2 (within_affine ha b _ _ v)]
  | nan => rfl
  | pinf =>
    rw [hx] at hv
    revert hv
    cases (.fin a * .pinf + .fin b : F K) <;> simp [finVal]
  | ninf =>
    rw [hx] at hv
    revert hv
    cases (.fin a * .ninf + .fin b : F K) <;> simp [finVal]

/-- The least-squares plane in another unit. -/
theorem lsq_scale {a : K} (ha : a ≠ 0) {p : Plane K} {pts : List (Point K)} (h : IsLsq p pts) :
    IsLsq ⟨a * p.a, a * p.b, a * p.c⟩ (pts.map fun d => ⟨d.x, d.y, a * d.z⟩) := by
  have key : ∀ r : Plane K, chi2 ⟨a * r.a, a * r.b, a * r.c⟩ (pts.map fun d => ⟨d.x, d.y, a * d.z⟩) = a ^ 2 * chi2 r pts := by
    intro r
    unfold chi2
    rw [List.map_map, ← List.sum_map_mul_left]
    congr 1
    apply List.map_congr_left
    intro d _
    simp only [Function.comp, Plane.at_]
    ring
  intro r
  have hr : r = ⟨a * (r.a / a), a * (r.b / a), a * (r.c / a)⟩ := by
    ext <;> simp only <;> field_simp
  rw [hr, key ⟨r.a / a, r.b / a, r.c / a⟩, key p]
  exact mul_le_mul_of_nonneg_left (h _) (by positivity)

/-- **C140.** `fit_background` follows a change of unit and zero point of the image: for `a * image + b` it returns `a` times the plane
of the image plus `b`, without clipping and with `sigma² > 2`. -/
theorem C140_fit {fitter : Plane K → FitData K → Except PyErr (Plane K)} (law : LinearFitter fitter) {a : K} (ha : a ≠ 0) (b : K)
    (im : Img (F K)) (sigma : Option K) (hs : ∀ s, sigma = some s → 2 < s ^ 2) (m m' : Plane K) (val : Nat → Nat → K)
    (hv : ∀ i j, Kept im (bgMask sigmaClipMask im sigma) i j → im.px i j = .fin (val i j))
    (hk : KeptSpread im (bgMask sigmaClipMask im sigma)) :
    ∃ p, fitBackground sigmaClipMask fitter im m sigma = .ok p ∧
      fitBackground sigmaClipMask fitter (rescaled a b im) m' sigma = .ok ⟨a * p.a, a * p.b, a * p.c + b⟩ := by
  have hnan : ∀ i j, ((rescaled a b im).px i j).isNaN = (im.px i j).isNaN := by
    intro i j
    show (F.fin a * im.px i j + .fin b).isNaN = _
    cases im.px i j with
    | fin v => rfl
    | nan => rfl
    | pinf => rw [(rescaled_inf ha b).1]; split <;> rfl
    | ninf => rw [(rescaled_inf ha b).2]; split <;> rfl
  have hmask : ∀ i j, i < im.h → j < im.w →
      bgMask sigmaClipMask (rescaled a b im) sigma i j = bgMask sigmaClipMask im sigma i j := by
    intro i j hi hj
    cases sigma with
    | none => rfl
    | some s => exact C140_mask ha b im (hs s rfl) hi hj
  have hkept : ∀ i j, Kept (rescaled a b im) (bgMask sigmaClipMask (rescaled a b im) sigma) i j ↔ Kept im (bgMask sigmaClipMask im sigma) i j := by
    intro i j
    unfold Kept
    have : (rescaled a b im).px i j ≠ .nan ↔ im.px i j ≠ .nan := by
      have := hnan i j
      cases h1 : (rescaled a b im).px i j <;> cases h2 : im.px i j <;> simp_all [F.isNaN]
    rw [this]
    refine and_congr_right fun hi => and_congr_right fun hj => and_congr_right fun _ => ?_
    rw [hmask i j hi hj]
  have hkp : keptPixels (rescaled a b im) (bgMask sigmaClipMask (rescaled a b im) sigma) = keptPixels im (bgMask sigmaClipMask im sigma) := by
    unfold keptPixels npWhere
    apply List.flatMap_congr
    intro i hi
    congr 1
    apply List.filter_congr
    intro j hj
    dsimp only
    rw [hnan, hmask i j (List.mem_range.1 hi) (List.mem_range.1 hj)]
  obtain ⟨p, h1, h2⟩ := fitBackground_lsq law sigmaClipMask im sigma m val hv hk
  refine ⟨p, h1, ?_⟩
  have hk' : KeptSpread (rescaled a b im) (bgMask sigmaClipMask (rescaled a b im) sigma) := by
    obtain ⟨u, v, c, d, e, f, k1, k2, k3, k4⟩ := hk
    exact ⟨u, v, c, d, e, f, (hkept _ _).2 k1, (hkept _ _).2 k2, (hkept _ _).2 k3, k4⟩
  obtain ⟨p', h1', h2'⟩ := fitBackground_lsq law sigmaClipMask (rescaled a b im) sigma m' (fun i j => a * val i j + b)
    (fun i j hkk => by
      show .fin a * im.px i j + .fin b = _
      rw [hv i j ((hkept i j).1 hkk)]
      rfl) hk'
  rw [h1']
  congr 1
  apply lsq_unique (spread_of_kept hk' fun i j => a * val i j + b) h2'
  have := lsq_shift (q := ⟨0, 0, b⟩) (lsq_scale ha h2)
  rw [List.map_map, List.map_map] at this
  rw [hkp]
  simpa [Plane.add, Plane.at_, Function.comp_def] using this

/-! ### C141 -/

/-- **C141.** Five rounds of sigma clipping keep at least the fraction `(1 - 2 / sigma²)^5` of the finite pixels (28 % for `sigma=3`). -/
theorem C141_fraction (im : Img (F K)) {sigma : K} (hs : 2 ≤ sigma ^ 2) :
    (pixelCount im F.isFin : K) * (sigma ^ 2 - 2) ^ 5 ≤ ((keptPixels im (sigmaClipMask im sigma)).length : K) * (sigma ^ 2) ^ 5 := by
  rw [pixelCount_isFin]
  refine (clip_rounds hs 4 (finVals im)).trans_eq ?_
  congr 2
  rw [← pixelCount_fin]
  unfold pixelCount keptPixels npWhere pixels
  rw [List.filter_flatMap]
  congr 1
  apply List.flatMap_congr
  intro i _
  rw [List.filter_map]
  congr 1
  apply List.filter_congr
  intro j _
  simp only [Function.comp, mask_eq]
  cases im.px i j <;> simp [F.isNaN]

/-- **C141, never empty.** An image with a finite pixel keeps a pixel when `sigma² > 2`, and the kept pixels are finite. -/
theorem C141_some (im : Img (F K)) {sigma : K} (hs : 2 < sigma ^ 2) {i j : Nat} {v : K} (hi : i < im.h) (hj : j < im.w)
    (hx : im.px i j = .fin v) :
    (∃ i' j', Kept im (sigmaClipMask im sigma) i' j') ∧
    ∀ i' j', Kept im (sigmaClipMask im sigma) i' j' → ∃ v', im.px i' j' = .fin v' := by
  constructor
  · have h1 := C141_fraction im hs.le
    have hp : (0 : K) < pixelCount im F.isFin := by
      rw [pixelCount_isFin]
      exact_mod_cast List.length_pos_iff.2 (List.ne_nil_of_mem (finVals_mem.2 ⟨i, j, hi, hj, hx⟩))
    have h2 : 0 < (pixelCount im F.isFin : K) * (sigma ^ 2 - 2) ^ 5 := mul_pos hp (pow_pos (by linarith) 5)
    obtain ⟨p, hp⟩ : ∃ p, p ∈ keptPixels im (sigmaClipMask im sigma) := by
      apply List.exists_mem_of_ne_nil
      intro he
      rw [he, List.length_nil, Nat.cast_zero, zero_mul] at h1
      linarith
    exact ⟨p.1, p.2, (kept_iff im _ p).1 hp⟩
  · rintro i' j' ⟨-, -, -, hm⟩
    rw [mask_eq] at hm
    cases hx' : im.px i' j' with
    | fin v' => exact ⟨v', rfl⟩
    | nan => rw [hx'] at hm; exact absurd hm (by simp)
    | pinf => rw [hx'] at hm; exact absurd hm (by simp)
    | ninf => rw [hx'] at hm; exact absurd hm (by simp)

/-- **C141, sources of similar strength are removed.** A constant background `c` with contaminated pixels whose distances from `c` lie
between `h` and `C h`: if their number is below the fraction `1 / (sigma² C²)` of the finite pixels, and the background pixels are not on
a line, `fit_background` returns exactly the constant `c`.  Missing from the general claim: contamination at many strengths. -/
theorem C141_removed_partial {fitter : Plane K → FitData K → Except PyErr (Plane K)} (law : LinearFitter fitter) (im : Img (F K))
    (m : Plane K) {sigma c h C : K} (hs : 2 ≤ sigma ^ 2) (hh : 0 < h) (hC : 1 ≤ C)
    (hpx : ∀ i j v, i < im.h → j < im.w → im.px i j = .fin v → v = c ∨ (h ≤ |v - c| ∧ |v - c| ≤ C * h))
    (hk : sigma ^ 2 * C ^ 2 * (pixelCount im fun x => x.isFin && x != .fin c) < pixelCount im F.isFin)
    (hsp : KeptSpread im fun i j => im.px i j != .fin c) :
    fitBackground sigmaClipMask fitter im m (some sigma) = .ok ⟨0, 0, c⟩ := by
  have hcnt : (pixelCount im fun x => x.isFin && x != .fin c) = ((finVals im).filter fun v => v ≠ c).length := by
    rw [← pixelCount_fin]
    congr 1
    funext x
    cases x with
    | fin v => by_cases hv : v = c <;> simp [F.isFin, hv]
    | nan => rfl
    | pinf => rfl
    | ninf => rfl
  rw [hcnt, pixelCount_isFin] at hk
  have hin := clip_contaminated (sigma := sigma) (c := c) (h2 := h ^ 2) (M := (C * h) ^ 2) (l := finVals im) hs (by positivity) (by
      rw [mul_pow]
      have : 1 ≤ C ^ 2 := one_le_pow₀ hC
      nlinarith [sq_nonneg h]) (by
      intro v hv hne
      obtain ⟨i, j, hi, hj, hx⟩ := finVals_mem.1 hv
      rcases hpx i j v hi hj hx with h0 | ⟨h1, h2⟩
      · exact absurd h0 hne
      · rw [← sq_abs (v - c)]
        exact ⟨pow_le_pow_left₀ hh.le h1 2, pow_le_pow_left₀ (abs_nonneg _) h2 2⟩) (by
      have := mul_lt_mul_of_pos_right hk (by positivity : 0 < h ^ 2)
      calc _ = sigma ^ 2 * C ^ 2 * ((finVals im).filter fun v => v ≠ c).length * h ^ 2 := by ring
        _ < _ := this) 3
  have hmask : ∀ i j, i < im.h → j < im.w → sigmaClipMask im sigma i j = (im.px i j != .fin c) := by
    intro i j hi hj
    rw [mask_eq]
    cases hx : im.px i j with
    | fin v =>
      simp only
      rw [hin v (finVals_mem.2 ⟨i, j, hi, hj, hx⟩)]
      by_cases hv : v = c <;> simp [hv, bne]
    | nan => rfl
    | pinf => rfl
    | ninf => rfl
  apply C63_recovers law
  · rintro i j ⟨hi, hj, _, hm⟩
    have : sigmaClipMask im sigma i j = false := hm
    rw [hmask i j hi hj] at this
    simp only [bne_eq_false_iff_eq] at this
    rw [this]
    simp [Plane.at_]
  · obtain ⟨u, v, c', d, e, f, k1, k2, k3, k4⟩ := hsp
    have hkk : ∀ i j, Kept im (fun i j => im.px i j != .fin c) i j → Kept im (bgMask sigmaClipMask im (some sigma)) i j := by
      rintro i j ⟨hi, hj, hn, hm⟩
      refine ⟨hi, hj, hn, ?_⟩
      show sigmaClipMask im sigma i j = false
      rw [hmask i j hi hj]
      exact hm
    exact ⟨u, v, c', d, e, f, hkk _ _ k1, hkk _ _ k2, hkk _ _ k3, k4⟩

/-- A 5 × 6 image of zeros with a first row `10, 10², …, 10⁶`. -/
def scalesImage : Img (F ℚ) := ⟨5, 6, fun i j => .fin (if i = 0 then 10 ^ (j + 1) else 0)⟩

/-- **C141 violated.** Sources in 6 of 30 pixels of an empty image: after five rounds of clipping the pixel with the value 10 is still
fitted (the clipping has not converged, a sixth round would remove it), and no least-squares fitter returns the zero background. -/
theorem C141_removed_violated {fitter : Plane ℚ → FitData ℚ → Except PyErr (Plane ℚ)} (law : LinearFitter fitter) (m : Plane ℚ) :
    Kept scalesImage (sigmaClipMask scalesImage 3) 0 0 ∧ scalesImage.px 0 0 = .fin 10 ∧
    (∀ i j, 1 ≤ i → scalesImage.px i j = .fin 0) ∧
    fitBackground sigmaClipMask fitter scalesImage m (some 3) ≠ .ok ⟨0, 0, 0⟩ := by
  have hmask : ∀ i < 5, ∀ j < 6, sigmaClipMask scalesImage 3 i j = decide (i = 0 ∧ 1 ≤ j) := by decide +kernel
  have hkept : ∀ i j, i < 5 → j < 6 → ¬ (i = 0 ∧ 1 ≤ j) → Kept scalesImage (bgMask sigmaClipMask scalesImage (some 3)) i j := by
    intro i j hi hj h
    refine ⟨hi, hj, by simp [scalesImage], ?_⟩
    show sigmaClipMask scalesImage 3 i j = false
    rw [hmask i hi j hj]
    simpa using h
  refine ⟨hkept 0 0 (by decide) (by decide) (by decide), by norm_num [scalesImage], ?_, ?_⟩
  · intro i j hi
    have : i ≠ 0 := by omega
    simp [scalesImage, this]
  · obtain ⟨p, h1, h2⟩ := fitBackground_lsq law sigmaClipMask scalesImage (some 3) m
      (fun i j => if i = 0 then 10 ^ (j + 1) else 0) (fun i j _ => rfl)
      ⟨1, 0, 2, 0, 1, 1, hkept _ _ (by decide) (by decide) (by decide), hkept _ _ (by decide) (by decide) (by decide),
        hkept _ _ (by decide) (by decide) (by decide), by decide⟩
    rw [h1]
    intro h
    injection h with h
    subst h
    have := h2 ⟨0, 0, 1 / 10⟩
    revert this
    decide +kernel

/-- A 10 × 12 image of background 5 with four sources of 20 to 30, a NaN and an infinite pixel: the hypotheses of `C141_removed_partial`
with `h = 15` and `C = 5 / 3`. -/
def sourcesImage : Img (F ℚ) := ⟨10, 12, fun i j =>
  if i = 0 ∧ j < 4 then .fin (20 + j * 3) else if i = 9 ∧ j = 0 then .nan else if i = 9 ∧ j = 1 then .pinf else .fin 5⟩

theorem sourcesImage_fit {fitter : Plane ℚ → FitData ℚ → Except PyErr (Plane ℚ)} (law : LinearFitter fitter) (m : Plane ℚ) :
    fitBackground sigmaClipMask fitter sourcesImage m (some 3) = .ok ⟨0, 0, 5⟩ := by
  refine C141_removed_partial (h := 15) (C := 5 / 3) law sourcesImage m (by norm_num) (by norm_num) (by norm_num) ?_ (by decide +kernel) ?_
  · have : ∀ i < 10, ∀ j < 12, ∀ v ∈ finVal (sourcesImage.px i j), v = 5 ∨ ((15 : ℚ) ≤ |v - 5| ∧ |v - 5| ≤ 5 / 3 * 15) := by decide +kernel
    intro i j v hi hj hx
    exact this i hi j hj v (by rw [hx]; rfl)
  · exact ⟨1, 0, 2, 0, 1, 1, ⟨by decide, by decide, by decide +kernel, by decide +kernel⟩,
      ⟨by decide, by decide, by decide +kernel, by decide +kernel⟩, ⟨by decide, by decide, by decide +kernel, by decide +kernel⟩, by decide⟩

/-- The same image in another unit and upside down. -/
example {fitter : Plane ℚ → FitData ℚ → Except PyErr (Plane ℚ)} (law : LinearFitter fitter) (m : Plane ℚ) :
    fitBackground sigmaClipMask fitter (rescaled (-2) 7 sourcesImage) m (some 3) = .ok ⟨0, 0, -3⟩ := by
  obtain ⟨p, h1, h2⟩ := C140_fit law (a := -2) (by norm_num) 7 sourcesImage (some 3) (by rintro s ⟨⟩; norm_num) m m
    (fun i j => (finVal (sourcesImage.px i j)).getD 0) (by
      intro i j hk
      obtain ⟨v, hv⟩ := (C141_some sourcesImage (sigma := 3) (by norm_num) (i := 0) (j := 0) (v := 20) (by decide) (by decide)
        (by decide +kernel)).2 i j hk
      rw [hv]
      rfl)
    ⟨1, 0, 2, 0, 1, 1, ⟨by decide, by decide, by decide +kernel, by decide +kernel⟩,
      ⟨by decide, by decide, by decide +kernel, by decide +kernel⟩, ⟨by decide, by decide, by decide +kernel, by decide +kernel⟩, by decide⟩
  rw [sourcesImage_fit law] at h1
  injection h1 with h1
  subst h1
  rw [h2]
  norm_num

end Verif.Props

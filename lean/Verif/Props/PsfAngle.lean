import Verif.Props.Rotate
import Verif.Props.PSFMore

/-!
# C183: model images as functions of `psf_pa`
-/

set_option linter.unusedSectionVars false
set_option linter.unusedSimpArgs false

namespace Verif.Spec

/-- A single pixel with light: the model that is `params[0]` at pixel `(m, m)` and zero elsewhere. -/
noncomputable def pointModel (m : Nat) : SubModel ℝ := ⟨["amplitude"], fun ps x y => if x = m ∧ y = m then ps.getD 0 0 else 0⟩

end Verif.Spec

namespace Verif.Props

open F Spec PSFModel

theorem convolve_kernel_same {p q : Img ℝ} (h : p.Same q) (im : Img ℝ) : convolveSame im p = convolveSame im q := by
  obtain ⟨h1, h2, h3⟩ := h
  have : (convolveSame im p).px = (convolveSame im q).px := by
    funext i j
    rw [convolveSame_px, convolveSame_px, ← h1, ← h2]
    refine Finset.sum_congr rfl fun a ha => Finset.sum_congr rfl fun b hb => ?_
    rw [h3 a b (Finset.mem_range.1 ha) (Finset.mem_range.1 hb)]
  exact congrArg (Img.mk im.h im.w) this

/-- The values depend on `psf_pa` only through the turned PSF. -/
theorem evaluate_kernel (M : PSFModel ℝ) (rot : Img ℝ → ℝ → Img ℝ) (pa pa' : ℝ)
    (h : ∀ psf, M.psf = some psf → (if pa ≠ 0 then rot psf pa else psf).Same (if pa' ≠ 0 then rot psf pa' else psf)) (coords : List (ℝ × ℝ))
    (params : List ℝ) : M.evaluate rot coords params pa = M.evaluate rot coords params pa' := by
  have hcv : M.convolved rot pa = M.convolved rot pa' := by
    funext im
    unfold convolved
    cases hp : M.psf with
    | none => rfl
    | some psf =>
      simp only
      rw [convolve_kernel_same (h psf hp) im]
  have hv : ∀ idx params iMax jMax g, M.valuesOn rot idx params pa iMax jMax g = M.valuesOn rot idx params pa' iMax jMax g := by
    intro idx params iMax jMax g
    unfold valuesOn
    rw [hcv]
  unfold evaluate
  simp only [hv]

theorem rotateBy_period (interp : Img ℝ → ℝ → ℝ → ℝ) (im : Img ℝ) (angle : ℝ) :
    rotateBy interp im (angle + 360) = rotateBy interp im angle := by
  have h : (angle + 360) * Real.pi / 180 = angle * Real.pi / 180 + 2 * Real.pi := by ring
  unfold rotateBy
  rw [h, Real.cos_add_two_pi, Real.sin_add_two_pi]

theorem rotateBy_zero {interp : Img ℝ → ℝ → ℝ → ℝ} (hI : Interpolation interp) (im : Img ℝ) : (rotateBy interp im 0).Same im := by
  refine ⟨rfl, rfl, fun i j hi hj => ?_⟩
  have hi : i < im.h := hi
  have hj : j < im.w := hj
  have b1 : (i : ℝ) + 1 ≤ im.h := by exact_mod_cast hi
  have b2 : (j : ℝ) + 1 ≤ im.w := by exact_mod_cast hj
  unfold rotateBy
  simp only [zero_mul, zero_div, Real.cos_zero, Real.sin_zero]
  have e1 : (1 : ℝ) * i + 0 + (((im.h : ℝ) - 1) / 2 - (1 * (((im.h : ℝ) - 1) / 2) + 0)) = i := by ring
  have e2 : -(0 : ℝ) * i + 1 * j + (((im.w : ℝ) - 1) / 2 - (-0 * (((im.h : ℝ) - 1) / 2) + 1 * (((im.w : ℝ) - 1) / 2))) = j := by ring
  rw [e1, e2, if_pos ⟨⟨Nat.cast_nonneg _, by linarith⟩, Nat.cast_nonneg _, by linarith⟩, hI.nodes _ _ _ hi hj]

/-- The PSF that is used at an angle is the turned PSF, also at the angle zero, where it is not turned. -/
theorem kernel_rotateBy {interp : Img ℝ → ℝ → ℝ → ℝ} (hI : Interpolation interp) (psf : Img ℝ) (pa : ℝ) :
    (if pa ≠ 0 then rotateBy interp psf pa else psf).Same (rotateBy interp psf pa) := by
  by_cases h : pa = 0
  · rw [if_neg (by simpa using h), h]
    obtain ⟨h1, h2, h3⟩ := rotateBy_zero hI psf
    exact ⟨h1.symm, h2.symm, fun i j hi hj => (h3 i j hi hj).symm⟩
  · rw [if_pos h]
    exact ⟨rfl, rfl, fun _ _ _ _ => rfl⟩

theorem same_symm {p q : Img ℝ} (h : p.Same q) : q.Same p := by
  obtain ⟨h1, h2, h3⟩ := h
  exact ⟨h1.symm, h2.symm, fun i j hi hj => (h3 i j (by omega) (by omega)).symm⟩

theorem same_trans {p q r : Img ℝ} (h : p.Same q) (h' : q.Same r) : p.Same r := by
  obtain ⟨h1, h2, h3⟩ := h
  obtain ⟨k1, k2, k3⟩ := h'
  exact ⟨h1.trans k1, h2.trans k2, fun i j hi hj => (h3 i j hi hj).trans (k3 i j (by omega) (by omega))⟩

/-- **C183, period.** Turning the PSF once more by 360 degrees does not change any value (nor the cache), for all models, PSFs, angles,
oversampling settings and coordinates: a free `psf_pa`, which has no bounds, is never determined by an image. -/
theorem C183_period (interp : Img ℝ → ℝ → ℝ → ℝ) (hI : Interpolation interp) (M : PSFModel ℝ) (coords : List (ℝ × ℝ)) (params : List ℝ)
    (pa : ℝ) : M.evaluate (rotateBy interp) coords params (pa + 360) = M.evaluate (rotateBy interp) coords params pa := by
  refine evaluate_kernel M (rotateBy interp) _ _ (fun psf _ => ?_) coords params
  refine same_trans (kernel_rotateBy hI psf (pa + 360)) ?_
  rw [rotateBy_period]
  exact same_symm (kernel_rotateBy hI psf pa)

/-- **C183, half period.** For a PSF that is symmetric under a half turn (and an interpolation that keeps this) 180 degrees are enough. -/
theorem C183_half_period (interp : Img ℝ → ℝ → ℝ → ℝ) (hI : Interpolation interp) (M : PSFModel ℝ) (psf : Img ℝ) (hp : M.psf = some psf)
    (hs : ∀ y x : ℝ, 0 ≤ y → y ≤ psf.h - 1 → 0 ≤ x → x ≤ psf.w - 1 →
      interp psf ((psf.h : ℝ) - 1 - y) ((psf.w : ℝ) - 1 - x) = interp psf y x) (coords : List (ℝ × ℝ)) (params : List ℝ)
    (pa : ℝ) : M.evaluate (rotateBy interp) coords params (pa + 180) = M.evaluate (rotateBy interp) coords params pa := by
  refine evaluate_kernel M (rotateBy interp) _ _ (fun psf' hp' => ?_) coords params
  rw [hp] at hp'
  cases hp'
  refine same_trans (kernel_rotateBy hI psf (pa + 180)) (same_trans ?_ (same_symm (kernel_rotateBy hI psf pa)))
  refine ⟨rfl, rfl, fun i j _ _ => ?_⟩
  have h : (pa + 180) * Real.pi / 180 = pa * Real.pi / 180 + Real.pi := by ring
  rw [rotateBy_px, rotateBy_px, h, Real.cos_add_pi, Real.sin_add_pi]
  generalize Real.cos (pa * Real.pi / 180) = c
  generalize Real.sin (pa * Real.pi / 180) = s
  generalize (i : ℝ) - ((psf.h : ℝ) - 1) / 2 = v
  generalize (j : ℝ) - ((psf.w : ℝ) - 1) / 2 = u
  have e1 : -c * v + -s * u = -(c * v + s * u) := by ring
  have e2 : -(-s) * v + -c * u = -(-s * v + c * u) := by ring
  rw [e1, e2, abs_neg, abs_neg]
  generalize c * v + s * u = y
  generalize -s * v + c * u = x
  by_cases hc : |y| ≤ ((psf.h : ℝ) - 1) / 2 ∧ |x| ≤ ((psf.w : ℝ) - 1) / 2
  · obtain ⟨h1, h2⟩ := hc
    rw [if_pos ⟨h1, h2⟩, if_pos ⟨h1, h2⟩]
    rw [abs_le] at h1 h2
    rw [← hs (((psf.h : ℝ) - 1) / 2 + y) (((psf.w : ℝ) - 1) / 2 + x) (by linarith) (by linarith) (by linarith) (by linarith)]
    congr 1 <;> ring
  · rw [if_neg hc, if_neg hc]

/-- The value at pixel `(0, 0)` of the point model at `(m, m)`: the first pixel of the turned PSF. -/
theorem point_value (rot : Img ℝ → ℝ → Img ℝ) (psf : Img ℝ) (n : Nat) (hn : 0 < n) (hh : psf.h = n) (hw : psf.w = n) (pa : ℝ)
    (hr : (rot psf pa).h = n ∧ (rot psf pa).w = n) (coords : List (ℝ × ℝ)) (xMax yMax A : ℝ)
    (g1 : (coords.map (·.1)).min? = some 0) (g2 : (coords.map (·.1)).max? = some xMax) (g3 : (coords.map (·.2)).min? = some 0)
    (g4 : (coords.map (·.2)).max? = some yMax) (hx : (n - 1) / 2 ≤ max (indexOf xMax 0) (indexOf yMax 0)) :
    ∃ f : ℝ × ℝ → ℝ, ((⟨pointModel ((n - 1) / 2), some psf, .none, none, true, 0, 0, none, none⟩ : PSFModel ℝ).evaluate rot coords [A] pa).1 =
        .ok (coords.map f) ∧
      f (0, 0) = (if pa ≠ 0 then rot psf pa else psf).px 0 0 * A := by
  have hM : CacheOk (⟨pointModel ((n - 1) / 2), some psf, .none, none, true, 0, 0, none, none⟩ : PSFModel ℝ) := fun r hr => by cases hr
  have hc : Compatible (⟨pointModel ((n - 1) / 2), some psf, .none, none, true, 0, 0, none, none⟩ : PSFModel ℝ) :=
    ⟨Nat.one_pos, Nat.one_pos, dvd_refl _⟩
  refine ⟨_, C119_evaluate _ hM hc psf rfl (fun _ _ _ _ h => by cases h) rot coords 0 0 xMax yMax g1 g2 g3 g4 [A] pa, ?_⟩
  have hf : (⟨pointModel ((n - 1) / 2), some psf, .none, none, true, 0, 0, none, none⟩ : PSFModel ℝ).psfFactor = 1 := rfl
  have ho : (⟨pointModel ((n - 1) / 2), some psf, .none, none, true, 0, 0, none, none⟩ : PSFModel ℝ).oversampleFactor = 1 := rfl
  have hi : indexOf (0 : ℝ) 0 = 0 := by simp [indexOf]
  simp only [hf, ho, hi]
  generalize hk : (if pa ≠ 0 then rot psf pa else psf) = k
  have hkh : k.h = n := by
    rw [← hk]; split
    · exact hr.1
    · exact hh
  have hkw : k.w = n := by
    rw [← hk]; split
    · exact hr.2
    · exact hw
  generalize max (indexOf xMax 0) (indexOf yMax 0) = N at hx
  have hT : ∀ m u v : Nat, m ≤ N → u < n → v < n →
      psfCells ((pointModel m).eval [A]) 0 0 (N + 1) 1 (fun _ _ => 1 / 1) (((0 : Nat) : Int) + m - u)
        (((0 : Nat) : Int) + m - v) = if u = 0 ∧ v = 0 then A else 0 := by
    intro m u v hx hu hv
    unfold psfCells
    have e11 : (1 : Nat) / 1 = 1 := rfl
    rw [e11, cellMean_one]
    unfold cellCentre pointModel
    simp only [List.getD_cons_zero]
    by_cases h0 : u = 0 ∧ v = 0
    · obtain ⟨rfl, rfl⟩ := h0
      rw [if_pos (by omega), if_pos, if_pos ⟨rfl, rfl⟩]
      constructor <;> push_cast <;> ring
    · rw [if_neg h0]
      by_cases hb : 0 ≤ ((0 : Nat) : Int) + m - u ∧ ((0 : Nat) : Int) + m - u < ((N + 1) * 1 : Nat) ∧
          0 ≤ ((0 : Nat) : Int) + m - v ∧ ((0 : Nat) : Int) + m - v < ((N + 1) * 1 : Nat)
      · rw [if_pos hb, if_neg]
        rintro ⟨q1, q2⟩
        apply h0
        push_cast at q1 q2
        have r1 : (v : ℝ) = 0 := by linarith
        have r2 : (u : ℝ) = 0 := by linarith
        exact ⟨by exact_mod_cast r2, by exact_mod_cast r1⟩
      · rw [if_neg hb]
  unfold cellsOfPixel convAt
  simp only [Finset.range_one, Finset.sum_singleton, mul_one, add_zero, Nat.cast_one, one_pow, div_one]
  rw [hkh, hkw, Finset.sum_eq_single 0, Finset.sum_eq_single 0]
  · rw [hT _ 0 0 hx hn hn, if_pos ⟨rfl, rfl⟩]
  · intro v hv hv0
    rw [hT _ 0 v hx hn (Finset.mem_range.1 hv), if_neg (fun h => hv0 h.2), mul_zero]
  · intro h; exact absurd (Finset.mem_range.2 hn) h
  · intro u hu hu0
    refine Finset.sum_eq_zero fun v hv => ?_
    rw [hT _ u v hx (Finset.mem_range.1 hu) (Finset.mem_range.1 hv), if_neg (fun h => hu0 h.1), mul_zero]
  · intro h; exact absurd (Finset.mem_range.2 hn) h

/-- **C183, continuity, violated.** For every square PSF whose first pixel is not zero, every interpolation and every image that has the point
and the pixel `(0, 0)`: the value there is `amplitude * psf[0, 0]` at `psf_pa = 0`, the default, and zero at every angle in `(0, 90)`, however
small; so the quotient of differences that a fitter computes for `psf_pa` grows without bound. -/
theorem C183_jump_violated (interp : Img ℝ → ℝ → ℝ → ℝ) (psf : Img ℝ) (n : Nat) (hn : 2 ≤ n) (hh : psf.h = n) (hw : psf.w = n)
    (h0 : psf.px 0 0 ≠ 0) (coords : List (ℝ × ℝ)) (xMax yMax A : ℝ) (hA : A ≠ 0) (g1 : (coords.map (·.1)).min? = some 0)
    (g2 : (coords.map (·.1)).max? = some xMax) (g3 : (coords.map (·.2)).min? = some 0) (g4 : (coords.map (·.2)).max? = some yMax)
    (hx : (n - 1) / 2 ≤ max (indexOf xMax 0) (indexOf yMax 0)) :
    ∃ (M : PSFModel ℝ) (f : ℝ → ℝ × ℝ → ℝ), PSFModel.init M.sub (some psf) .none .none = .ok M ∧
      (∀ pa, (M.evaluate (rotateBy interp) coords [A] pa).1 = .ok (coords.map (f pa))) ∧
      f 0 (0, 0) = psf.px 0 0 * A ∧ (∀ pa, 0 < pa → pa < 90 → f pa (0, 0) = 0) ∧
      ∀ B : ℝ, ∃ δ > 0, ∀ h, 0 < h → h < δ → B < |f h (0, 0) - f 0 (0, 0)| / h := by
  have hp := fun pa => point_value (rotateBy interp) psf n (by omega) hh hw pa ⟨hh, hw⟩ coords xMax yMax A g1 g2 g3 g4 hx
  choose f hf1 hf2 using hp
  have hz : ∀ pa, 0 < pa → pa < 90 → f pa (0, 0) = 0 := by
    intro pa h1 h2
    have hra : ¬ RightAngle pa := by
      rintro ⟨k, hk⟩
      have k1 : (0 : ℝ) < k := by linarith
      have k2 : (k : ℝ) < 1 := by linarith
      have k1' : (0 : ℤ) < k := by exact_mod_cast k1
      have k2' : k < (1 : ℤ) := by exact_mod_cast k2
      omega
    rw [hf2, if_pos h1.ne', C121_corners interp psf n hn hh hw pa hra 0 0 (.inl rfl) (.inl rfl), zero_mul]
  have hzero : f 0 (0, 0) = psf.px 0 0 * A := by rw [hf2]; simp
  refine ⟨_, f, rfl, hf1, hzero, hz, ?_⟩
  intro B
  have hpos : 0 < |psf.px 0 0 * A| := abs_pos.2 (mul_ne_zero h0 hA)
  refine ⟨min 90 (|psf.px 0 0 * A| / (|B| + 1)), lt_min (by norm_num) (by positivity), fun h h1 h2 => ?_⟩
  rw [hz h h1 (lt_of_lt_of_le h2 (min_le_left _ _)), hzero, zero_sub, abs_neg, lt_div_iff₀ h1]
  have h3 := lt_of_lt_of_le h2 (min_le_right _ _)
  rw [lt_div_iff₀ (by positivity)] at h3
  nlinarith [le_abs_self B]

/-- A pixel of the turned PSF is a continuous function of the angle if the interpolated PSF is continuous and zero on the border. -/
theorem rotateBy_continuous (interp : Img ℝ → ℝ → ℝ → ℝ) (psf : Img ℝ) (hc : Continuous fun p : ℝ × ℝ => interp psf p.1 p.2)
    (hb : ∀ y x : ℝ, (y = 0 ∨ y = psf.h - 1 ∨ x = 0 ∨ x = psf.w - 1) → interp psf y x = 0) (i j : Nat) :
    Continuous fun pa => (rotateBy interp psf pa).px i j := by
  let g : ℝ → ℝ × ℝ := fun pa =>
    let c := Real.cos (pa * Real.pi / 180)
    let s := Real.sin (pa * Real.pi / 180)
    let ch := ((psf.h : ℝ) - 1) / 2
    let cw := ((psf.w : ℝ) - 1) / 2
    (c * i + s * j + (ch - (c * ch + s * cw)), -s * i + c * j + (cw - (-s * ch + c * cw)))
  have hg : Continuous g := by
    simp only [g]
    fun_prop
  let S : Set (ℝ × ℝ) := Set.Icc 0 ((psf.h : ℝ) - 1) ×ˢ Set.Icc 0 ((psf.w : ℝ) - 1)
  have e : (fun pa => (rotateBy interp psf pa).px i j) = fun pa => if g pa ∈ S then interp psf (g pa).1 (g pa).2 else 0 := by
    funext pa
    rfl
  rw [e]
  have hS : ∀ p ∈ frontier S, interp psf p.1 p.2 = 0 := by
    intro p hp
    have hcl : IsClosed S := isClosed_Icc.prod isClosed_Icc
    have hmem : p ∈ S := hcl.frontier_subset hp
    have hnot : p ∉ interior S := by
      have := hp.2
      exact this
    have hsub : Set.Ioo 0 ((psf.h : ℝ) - 1) ×ˢ Set.Ioo 0 ((psf.w : ℝ) - 1) ⊆ interior S :=
      interior_maximal (Set.prod_mono Set.Ioo_subset_Icc_self Set.Ioo_subset_Icc_self) (isOpen_Ioo.prod isOpen_Ioo)
    obtain ⟨⟨m1, m2⟩, m3, m4⟩ := hmem
    apply hb
    by_contra hne
    push Not at hne
    obtain ⟨n1, n2, n3, n4⟩ := hne
    exact hnot (hsub ⟨⟨lt_of_le_of_ne m1 (Ne.symm n1), lt_of_le_of_ne m2 n2⟩, lt_of_le_of_ne m3 (Ne.symm n3), lt_of_le_of_ne m4 n4⟩)
  refine Continuous.if (fun pa hpa => ?_) (hc.comp hg) continuous_const
  exact hS _ (hg.frontier_preimage_subset S hpa)

/-- **C183, continuity.** If the interpolated PSF is continuous and zero on the border of the PSF image, the values of a model with this PSF are
continuous functions of `psf_pa`, for every model, integer oversampling and list of coordinates. -/
theorem C183_continuous_partial (interp : Img ℝ → ℝ → ℝ → ℝ) (hI : Interpolation interp) (M : PSFModel ℝ) (hM : CacheOk M)
    (hcm : Compatible M) (psf : Img ℝ) (hp : M.psf = some psf) (hwin : ∀ x y s f, M.oversample ≠ .window x y s f)
    (hc : Continuous fun p : ℝ × ℝ => interp psf p.1 p.2)
    (hb : ∀ y x : ℝ, (y = 0 ∨ y = psf.h - 1 ∨ x = 0 ∨ x = psf.w - 1) → interp psf y x = 0) (coords : List (ℝ × ℝ)) (hne : coords ≠ [])
    (params : List ℝ) :
    ∃ f : ℝ → ℝ × ℝ → ℝ, (∀ pa, (M.evaluate (rotateBy interp) coords params pa).1 = .ok (coords.map (f pa))) ∧
      ∀ c, Continuous fun pa => f pa c := by
  have hx : coords.map (·.1) ≠ [] := by simpa using hne
  have hy : coords.map (·.2) ≠ [] := by simpa using hne
  obtain ⟨x0, g1⟩ := min?_some hx
  obtain ⟨xMax, g2⟩ := max?_some hx
  obtain ⟨y0, g3⟩ := min?_some hy
  obtain ⟨yMax, g4⟩ := max?_some hy
  refine ⟨fun pa c => cellsOfPixel (convAt (rotateBy interp psf pa)
    (psfCells (M.sub.eval params) x0 y0 (max (indexOf xMax x0) (indexOf yMax y0) + 1) M.psfFactor
      fun _ _ => M.oversampleFactor / M.psfFactor)) M.psfFactor (indexOf c.2 y0) (indexOf c.1 x0), fun pa => ?_, fun c => ?_⟩
  · rw [C119_evaluate M hM hcm psf hp hwin (rotateBy interp) coords x0 y0 xMax yMax g1 g2 g3 g4 params pa]
    have : convAt (if pa ≠ 0 then rotateBy interp psf pa else psf) = convAt (rotateBy interp psf pa) := by
      obtain ⟨h1, h2, h3⟩ := kernel_rotateBy hI psf pa
      funext T r c
      unfold convAt
      rw [← h1, ← h2]
      refine Finset.sum_congr rfl fun u hu => Finset.sum_congr rfl fun v hv => ?_
      rw [h3 u v (Finset.mem_range.1 hu) (Finset.mem_range.1 hv)]
    rw [this]
  · unfold cellsOfPixel convAt
    refine Continuous.div_const (continuous_finsetSum _ fun a _ => continuous_finsetSum _ fun b _ => ?_) _
    change Continuous fun pa => ∑ u ∈ Finset.range psf.h, ∑ v ∈ Finset.range psf.w, _
    refine continuous_finsetSum _ fun u _ => continuous_finsetSum _ fun v _ => ?_
    have eh : ∀ pa, (rotateBy interp psf pa).h = psf.h := fun _ => rfl
    have ew : ∀ pa, (rotateBy interp psf pa).w = psf.w := fun _ => rfl
    simp only [eh, ew]
    exact (rotateBy_continuous interp psf hc hb u v).mul continuous_const

/-- Four pixels and the flat PSF of `3 × 3` pixels: the first pixel has a ninth of the light at the angle 0 and nothing at a
billionth of a degree. -/
example : ∃ (M : PSFModel ℝ) (f : ℝ → ℝ × ℝ → ℝ), PSFModel.init M.sub (some (flatPsf 3)) .none .none = .ok M ∧
    (∀ pa, (M.evaluate (rotateBy fun im y x => im.px ⌊y + 1 / 2⌋₊ ⌊x + 1 / 2⌋₊) [(0, 0), (1, 0), (0, 1), (1, 1)] [9] pa).1 =
      .ok ([(0, 0), (1, 0), (0, 1), (1, 1)].map (f pa))) ∧ f 0 (0, 0) = 1 ∧ f (1 / 10 ^ 9) (0, 0) = 0 := by
  obtain ⟨M, f, h1, h2, h3, h4, _⟩ := C183_jump_violated (fun im y x => im.px ⌊y + 1 / 2⌋₊ ⌊x + 1 / 2⌋₊) (flatPsf 3) 3 (by norm_num) rfl rfl
    (by norm_num [flatPsf]) [(0, 0), (1, 0), (0, 1), (1, 1)] 1 1 9 (by norm_num) (by simp [List.min?]) (by simp [List.max?])
    (by simp [List.min?]) (by simp [List.max?]) (by simp [indexOf])
  exact ⟨M, f, h1, h2, by rw [h3]; norm_num [flatPsf], h4 _ (by norm_num) (by norm_num)⟩

/-! ### Linear interpolation meets the hypotheses -/

/-- The weight of a pixel at a distance in linear interpolation. -/
noncomputable def hat (t : ℝ) : ℝ := max 0 (1 - |t|)

/-- Linear interpolation in both axes (the spline of order 1). -/
noncomputable def bilinear (im : Img ℝ) (y x : ℝ) : ℝ :=
  ∑ i ∈ Finset.range im.h, ∑ j ∈ Finset.range im.w, hat (y - i) * hat (x - j) * im.px i j

theorem hat_nat (k i : Nat) : hat ((k : ℝ) - i) = if k = i then 1 else 0 := by
  unfold hat
  by_cases h : k = i
  · rw [if_pos h, h, sub_self, abs_zero]; norm_num
  · rw [if_neg h]
    apply max_eq_left
    have : (1 : ℝ) ≤ |(k : ℝ) - i| := by
      have h1 : (1 : ℤ) ≤ |(k : ℤ) - i| := Int.one_le_abs (by omega)
      exact_mod_cast h1
    linarith

theorem hat_sum (n : Nat) (y : ℝ) (h0 : 0 ≤ y) (h1 : y ≤ (n : ℝ) - 1) : ∑ i ∈ Finset.range n, hat (y - i) = 1 := by
  induction n with
  | zero => norm_num at h1; linarith
  | succ n ih =>
    rw [Finset.sum_range_succ]
    rw [Nat.cast_succ] at h1
    by_cases hy : y ≤ (n : ℝ) - 1
    · rw [ih hy]
      have : hat (y - n) = 0 := by
        unfold hat
        apply max_eq_left
        rw [abs_of_nonpos (by linarith)]
        linarith
      rw [this, add_zero]
    · push Not at hy
      have hlast : hat (y - n) = 1 - (n - y) := by
        unfold hat
        rw [abs_of_nonpos (by linarith), max_eq_right (by linarith)]
        ring
      cases n with
      | zero =>
        have : y = 0 := by push_cast at h1; linarith
        subst this
        simp [hat]
      | succ m =>
        rw [Finset.sum_range_succ, Finset.sum_eq_zero, hlast]
        · push_cast at hy h1 ⊢
          unfold hat
          rw [abs_of_nonneg (by linarith), max_eq_right (by linarith)]
          ring
        · intro i hi
          have hi' : (i : ℝ) + 1 ≤ m := by exact_mod_cast Finset.mem_range.1 hi
          push_cast at hy
          unfold hat
          apply max_eq_left
          rw [abs_of_nonneg (by linarith)]
          linarith

theorem bilinear_interpolation : Interpolation bilinear := by
  constructor
  · intro im i j hi hj
    unfold bilinear
    rw [Finset.sum_eq_single i, Finset.sum_eq_single j]
    · rw [hat_nat, hat_nat, if_pos rfl, if_pos rfl]; ring
    · intro b _ hb; rw [hat_nat j b, if_neg (Ne.symm hb)]; ring
    · intro h; exact absurd (Finset.mem_range.2 hj) h
    · intro a _ ha
      refine Finset.sum_eq_zero fun b _ => ?_
      rw [hat_nat i a, if_neg (Ne.symm ha)]; ring
    · intro h; exact absurd (Finset.mem_range.2 hi) h
  · intro im v hv y x y0 y1 x0 x1
    unfold bilinear
    have : ∀ i ∈ Finset.range im.h, ∑ j ∈ Finset.range im.w, hat (y - i) * hat (x - j) * im.px i j = hat (y - i) * v := by
      intro i hi
      have e : ∑ j ∈ Finset.range im.w, hat (y - i) * hat (x - j) * im.px i j = ∑ j ∈ Finset.range im.w, hat (x - j) * (hat (y - i) * v) :=
        Finset.sum_congr rfl fun j hj => by rw [hv i j (Finset.mem_range.1 hi) (Finset.mem_range.1 hj)]; ring
      rw [e, ← Finset.sum_mul, hat_sum im.w x x0 x1, one_mul]
    rw [Finset.sum_congr rfl this, ← Finset.sum_mul, hat_sum im.h y y0 y1, one_mul]

/-- The PSF of one bright pixel in the middle of `3 × 3` pixels is zero on its border and linear interpolation of it is continuous: the values of
every model with it are continuous in `psf_pa`. -/
example : let psf : Img ℝ := ⟨3, 3, fun i j => if i = 1 ∧ j = 1 then 1 else 0⟩
    (Continuous fun p : ℝ × ℝ => bilinear psf p.1 p.2) ∧
      ∀ y x : ℝ, (y = 0 ∨ y = (psf.h : ℝ) - 1 ∨ x = 0 ∨ x = (psf.w : ℝ) - 1) → bilinear psf y x = 0 := by
  intro psf
  have e : ∀ y x, bilinear psf y x = hat (y - 1) * hat (x - 1) := by
    intro y x
    simp [bilinear, psf, Finset.sum_range_succ]
  constructor
  · simp only [e, hat]
    fun_prop
  · intro y x h
    rw [e]
    have h3 : ((psf.h : ℝ) - 1) = 2 ∧ ((psf.w : ℝ) - 1) = 2 := by
      simp only [psf]; norm_num
    rw [h3.1] at h
    rcases h with rfl | rfl | rfl | rfl <;> norm_num [hat]

end Verif.Props

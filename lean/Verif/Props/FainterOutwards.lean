import Verif.Props.GrowthSteps
import Verif.Props.PetrosianProfile
import Mathlib.MeasureTheory.Measure.Haar.NormedSpace

/-!
# C186: Petrosian profiles of images that get fainter outwards
-/

set_option linter.unusedSectionVars false
set_option linter.unusedVariables false
set_option linter.unusedSimpArgs false

namespace Verif.Spec

/-- On the frame of an `h × w` image, seen as a function on the plane: no light gets brighter on the way outwards from `(cx, cy)`. -/
def FainterOutwards (h w : Nat) (f : Nat → Nat → ℝ) (cx cy : ℝ) : Prop :=
  ∀ u v k l : ℝ, 0 < k → k ≤ l → OnFrame {(cx + k * u, cy + k * v), (cx + l * u, cy + l * v)} h w →
    stepImage h w (fun _ _ => true) f (cx + l * u, cy + l * v) ≤ stepImage h w (fun _ _ => true) f (cx + k * u, cy + k * v)

/-- The semi-major axis of the ellipse around `(cx, cy)` with elongation `q` and angle `t` through the centre of pixel `(i, j)`. -/
noncomputable def ellipticalDistance (cx cy q t : ℝ) (i j : Nat) : ℝ :=
  Real.sqrt (((j - cx) * Real.cos t + (i - cy) * Real.sin t) ^ 2 + (q * ((i - cy) * Real.cos t - (j - cx) * Real.sin t)) ^ 2)

/-- How far the rounding of fluxes and areas to six decimals can raise an entry of the profile, from the reported fluxes and areas. -/
noncomputable def roundingExcess (A F A' F' : ℝ) : ℝ :=
  ((|F| + |F'| + |A| + |A'|) / 2 / 10 ^ 6 + 1 / 2 / 10 ^ 12) / (F' * (A' - A))

end Verif.Spec

namespace Verif.Props

open Verif F Spec Lemmas MeasureTheory

/-! ### Scaling an aperture -/

theorem ellipse_scaled (cx cy r q t : ℝ) (hr : 0 < r) (hq : 0 < q) (u : ℝ × ℝ) :
    r • u + (cx, cy) ∈ Ellipse.set ⟨cx, cy, r, r / q, t⟩ ↔ u ∈ Ellipse.set ⟨0, 0, 1, 1 / q, t⟩ := by
  simp only [Ellipse.set, Set.mem_setOf_eq, Prod.fst_add, Prod.snd_add, Prod.smul_fst, Prod.smul_snd, smul_eq_mul, sub_zero]
  have e1 : ((r * u.1 + cx - cx) * Real.cos t + (r * u.2 + cy - cy) * Real.sin t) / r = (u.1 * Real.cos t + u.2 * Real.sin t) / 1 := by
    field_simp; ring
  have e2 : ((r * u.2 + cy - cy) * Real.cos t - (r * u.1 + cx - cx) * Real.sin t) / (r / q) =
      (u.2 * Real.cos t - u.1 * Real.sin t) / (1 / q) := by
    field_simp; ring
  rw [e1, e2]

theorem ellipse_flux (cx cy r q t : ℝ) (hr : 0 < r) (hq : 0 < q) (s : ℝ × ℝ → ℝ) :
    ∫ p in Ellipse.set ⟨cx, cy, r, r / q, t⟩, s p = r ^ 2 * ∫ u in Ellipse.set ⟨0, 0, 1, 1 / q, t⟩, s (r • u + (cx, cy)) := by
  rw [← integral_indicator (ellipse_open _).measurableSet, ← integral_indicator (ellipse_open _).measurableSet]
  have h1 : (fun u : ℝ × ℝ => (Ellipse.set ⟨0, 0, 1, 1 / q, t⟩).indicator (fun u => s (r • u + (cx, cy))) u) =
      fun u => (fun p => (Ellipse.set ⟨cx, cy, r, r / q, t⟩).indicator s (p + (cx, cy))) (r • u) := by
    funext u
    by_cases hu : u ∈ Ellipse.set ⟨0, 0, 1, 1 / q, t⟩
    · simp only [Set.indicator_of_mem hu, Set.indicator_of_mem ((ellipse_scaled cx cy r q t hr hq u).2 hu)]
    · simp only [Set.indicator_of_notMem hu, Set.indicator_of_notMem (fun h => hu ((ellipse_scaled cx cy r q t hr hq u).1 h))]
  rw [h1, Measure.integral_comp_smul volume (fun p => (Ellipse.set ⟨cx, cy, r, r / q, t⟩).indicator s (p + (cx, cy))) r,
    integral_add_right_eq_self (μ := volume) ((Ellipse.set ⟨cx, cy, r, r / q, t⟩).indicator s) (cx, cy)]
  have hd : Module.finrank ℝ (ℝ × ℝ) = 2 := by simp
  rw [hd, abs_of_pos (by positivity), smul_eq_mul]
  field_simp

theorem stepImage_integrable (h w : Nat) (use : Nat → Nat → Bool) (f : Nat → Nat → ℝ) : Integrable (stepImage h w use f) := by
  have : stepImage h w use f = fun p => ∑ i ∈ Finset.range h, ∑ j ∈ Finset.range w,
      (pixelSquare i j).indicator (fun _ => if use i j then f i j else 0) p := by
    funext p; exact stepImage_eq_sum h w use f p
  rw [this]
  refine integrable_finsetSum _ fun i _ => integrable_finsetSum _ fun j _ => ?_
  rw [integrable_indicator_iff (measurableSet_pixelSquare i j)]
  have : IsFiniteMeasure (volume.restrict (pixelSquare i j)) := ⟨by
    rw [Measure.restrict_apply_univ, volume_pixel]; exact ENNReal.one_lt_top⟩
  exact integrable_const _

theorem mean_antitone {h w : Nat} {f : Nat → Nat → ℝ} {cx cy r r' q t : ℝ} (hs : FainterOutwards h w f cx cy) (hr : 0 < r) (hrr : r ≤ r')
    (hq : 0 < q) (hf : OnFrame (Ellipse.set ⟨cx, cy, r', r' / q, t⟩) h w) :
    weightedSum (exactOverlap.weight ⟨cx, cy, r', r' / q, t⟩) h w (fun _ _ => true) f / r' ^ 2 ≤
      weightedSum (exactOverlap.weight ⟨cx, cy, r, r / q, t⟩) h w (fun _ _ => true) f / r ^ 2 := by
  have hr' : 0 < r' := hr.trans_le hrr
  rw [C76_integral, C76_integral, ellipse_flux cx cy r q t hr hq, ellipse_flux cx cy r' q t hr' hq,
    mul_div_cancel_left₀ _ (by positivity), mul_div_cancel_left₀ _ (by positivity)]
  have hint : ∀ k : ℝ, 0 < k → IntegrableOn (fun u : ℝ × ℝ => stepImage h w (fun _ _ => true) f (k • u + (cx, cy)))
      (Ellipse.set ⟨0, 0, 1, 1 / q, t⟩) := by
    intro k hk
    refine Integrable.integrableOn ?_
    exact ((stepImage_integrable h w _ f).comp_add_right (cx, cy)).comp_smul hk.ne'
  refine setIntegral_mono_on (hint r' hr') (hint r hr) (ellipse_open _).measurableSet fun u hu => ?_
  have e : ∀ k : ℝ, k • u + (cx, cy) = (cx + k * u.1, cy + k * u.2) := fun k => by
    ext <;> simp [add_comm]
  rw [e, e]
  refine hs u.1 u.2 r r' hr hrr ?_
  rintro p (rfl | hp)
  · refine hf _ (Ellipse.set_nested hq hr hrr ?_)
    rw [← e]; exact (ellipse_scaled cx cy r q t hr hq u).2 hu
  · rw [Set.mem_singleton_iff] at hp
    subst hp
    refine hf _ ?_
    rw [← e]; exact (ellipse_scaled cx cy r' q t hr' hq u).2 hu

/-! ### From means to profiles -/

theorem rounded_product {F A F' A' x y x' y' : ℝ} (h : F' * A ≤ F * A') (hx : |x - F| ≤ 1 / 2 / 10 ^ 6) (hy : |y - A| ≤ 1 / 2 / 10 ^ 6)
    (hx' : |x' - F'| ≤ 1 / 2 / 10 ^ 6) (hy' : |y' - A'| ≤ 1 / 2 / 10 ^ 6) :
    x' * y - x * y' ≤ (|x| + |x'| + |y| + |y'|) / 2 / 10 ^ 6 + 1 / 2 / 10 ^ 12 := by
  set d : ℝ := 1 / 2 / 10 ^ 6 with hd
  have hd0 : 0 ≤ d := by positivity
  have e1 : F' * A = x' * y - x' * (y - A) - y * (x' - F') + (x' - F') * (y - A) := by ring
  have e2 : F * A' = x * y' - x * (y' - A') - y' * (x - F) + (x - F) * (y' - A') := by ring
  have k : ∀ a b c : ℝ, |b| ≤ c → |a * b| ≤ |a| * c := fun a b c h => by rw [abs_mul]; exact mul_le_mul_of_nonneg_left h (abs_nonneg a)
  have k1 := abs_le.1 (k x' _ _ hy)
  have k2 := abs_le.1 (k y _ _ hx')
  have k3 := abs_le.1 (k x _ _ hy')
  have k4 := abs_le.1 (k y' _ _ hx)
  have k5 : |(x' - F') * (y - A)| ≤ d * d := by rw [abs_mul]; exact mul_le_mul hx' hy (abs_nonneg _) hd0
  have k6 : |(x - F) * (y' - A')| ≤ d * d := by rw [abs_mul]; exact mul_le_mul hx hy' (abs_nonneg _) hd0
  rw [abs_le] at k5 k6
  have hdd : (|x| + |x'| + |y| + |y'|) / 2 / 10 ^ 6 + 1 / 2 / 10 ^ 12 = (|x| + |x'| + |y| + |y'|) * d + 2 * (d * d) := by rw [hd]; ring
  rw [hdd]
  rw [e1, e2] at h
  linarith [k1.2, k2.2, k3.1, k4.1, k5.1, k6.2]

/-- An entry of the profile, from rounded fluxes and areas. -/
theorem ratio_le {F A F' A' x y x' y' : ℝ} (h : F' * A ≤ F * A') (hx : |x - F| ≤ 1 / 2 / 10 ^ 6) (hy : |y - A| ≤ 1 / 2 / 10 ^ 6)
    (hx' : |x' - F'| ≤ 1 / 2 / 10 ^ 6) (hy' : |y' - A'| ≤ 1 / 2 / 10 ^ 6) (hy0 : 0 ≤ y) (hyy : y < y') (hpos : 0 < x') :
    ∃ v, ratio y x y' x' = fin v ∧ v ≤ 1 + roundingExcess y x y' x' := by
  have ha : y' ≠ 0 := (hy0.trans_lt hyy).ne'
  have hd : y' - y ≠ 0 := (sub_pos.2 hyy).ne'
  refine ⟨((x' - x) * y') / ((y' - y) * x'), ?_, ?_⟩
  · unfold ratio
    rw [fin_div_of_ne _ hd, fin_div_of_ne _ ha, fin_div_of_ne _ (div_ne_zero hpos.ne' ha)]
    congr 1
    field_simp
  · have hm : 0 < x' * (y' - y) := mul_pos hpos (sub_pos.2 hyy)
    have := rounded_product h hx hy hx' hy'
    unfold roundingExcess
    have e : (x' - x) * y' / ((y' - y) * x') = 1 + (x' * y - x * y') / (x' * (y' - y)) := by
      field_simp; ring
    rw [e]
    gcongr

/-- The profile of photometry whose mean surface brightness does not increase before the rounding. -/
theorem profile_of_means {ov : Overlap ℝ} (hov : OverlapLaw ov) {h w : Nat} {f : Nat → Nat → ℝ} {cx cy : ℝ} {rs : List ℝ}
    {error : Option (Img (F ℝ))} {mask : Option (Img Bool)} {q t : ℝ} {fl ar er : List (F ℝ)}
    (hres : radialPhotometry ov ⟨h, w, fun i j => fin (f i j)⟩ cx cy rs error mask q t = .ok (fl, ar, er)) (h3 : 3 ≤ rs.length)
    (hA : ∀ m (hm : m + 1 < rs.length), weightedSum (ov.weight ⟨cx, cy, rs[m], rs[m] / q, t⟩) h w (Used mask) (fun _ _ => 1) + 1 / 10 ^ 6 <
      weightedSum (ov.weight ⟨cx, cy, rs[m + 1], rs[m + 1] / q, t⟩) h w (Used mask) fun _ _ => 1)
    (hmean : ∀ m (hm : m + 1 < rs.length),
      weightedSum (ov.weight ⟨cx, cy, rs[m + 1], rs[m + 1] / q, t⟩) h w (Used mask) f *
        weightedSum (ov.weight ⟨cx, cy, rs[m], rs[m] / q, t⟩) h w (Used mask) (fun _ _ => 1) ≤
      weightedSum (ov.weight ⟨cx, cy, rs[m], rs[m] / q, t⟩) h w (Used mask) f *
        weightedSum (ov.weight ⟨cx, cy, rs[m + 1], rs[m + 1] / q, t⟩) h w (Used mask) fun _ _ => 1) :
    ∃ (Fl A : List ℝ) (p : List (F ℝ)), fl = Fl.map fin ∧ ar = A.map fin ∧ Fl.length = rs.length ∧ A.length = rs.length ∧
      calculatePetrosian ar fl = .ok (p, none) ∧
      ∀ m F A' F' A'', Fl[m]? = some F → A[m]? = some A' → Fl[m + 1]? = some F' → A[m + 1]? = some A'' → 0 < F' →
        ∃ v, p[m + 1]? = some (fin v) ∧ v ≤ 1 + roundingExcess A' F A'' F' := by
  set W : ℝ → (Nat → Nat → ℝ) → ℝ := fun r g => weightedSum (ov.weight ⟨cx, cy, r, r / q, t⟩) h w (Used mask) g with hW
  have hv := fun m hm => photometry_values hov (f := f) (fun _ _ _ _ _ => rfl) hres m hm
  have hlen : fl.length = rs.length ∧ ar.length = rs.length := by
    obtain ⟨l, hl, rfl, rfl, _⟩ := radialPhotometry_ok.1 hres
    simp [hl.length_eq]
  have e1 : fl = (rs.map fun r => round6 (W r f)).map fin := by
    refine List.ext_getElem? fun m => ?_
    by_cases hm : m < rs.length
    · rw [(hv m hm).2.2.1]; simp [hm, hW]
    · rw [List.getElem?_eq_none (by omega), List.getElem?_eq_none (by simp; omega)]
  have e2 : ar = (rs.map fun r => round6 (W r fun _ _ => 1)).map fin := by
    refine List.ext_getElem? fun m => ?_
    by_cases hm : m < rs.length
    · rw [(hv m hm).2.2.2]; simp [hm, hW]
    · rw [List.getElem?_eq_none (by omega), List.getElem?_eq_none (by simp; omega)]
  set Fl := rs.map fun r => round6 (W r f) with hFl
  set A := rs.map fun r => round6 (W r fun _ _ => 1) with hAl
  have hAlt : ∀ i (hi : i + 1 < A.length), A[i] < A[i + 1] := by
    intro i hi
    have hi' : i + 1 < rs.length := by simpa [hAl] using hi
    have k1 := abs_le.1 (abs_round6_sub (W rs[i] fun _ _ => 1))
    have k2 := abs_le.1 (abs_round6_sub (W rs[i + 1] fun _ _ => 1))
    have k3 : W rs[i] (fun _ _ => 1) + 1 / 10 ^ 6 < W rs[i + 1] fun _ _ => 1 := hA i hi'
    have k4 : (1 : ℝ) / 10 ^ 6 = 1 / 2 / 10 ^ 6 + 1 / 2 / 10 ^ 6 := by ring
    simp only [hAl, List.getElem_map]
    linarith [k1.2, k2.1]
  have hA0 : ∀ r, 0 ≤ round6 (W r fun _ _ => 1) := by
    intro r
    rw [← round6_zero]
    refine round6_mono ?_
    have := (weightedSum_range (wt := ov.weight ⟨cx, cy, r, r / q, t⟩) (h := h) (w := w) (use := Used mask) (f := fun _ _ => (1 : ℝ)) (lo := 0) (hi := 1)
      (hov.nonneg _) (fun _ _ _ _ _ _ => ⟨zero_le_one, le_rfl⟩)).1
    simpa using this
  obtain ⟨p, e, hr, hpl, h0, hg⟩ := C01_profile_formula A Fl (by simp [hAl, hFl]) (by simpa [hAl] using h3) hAlt none none (by simp) (by simp)
  have he : e = none := by
    obtain ⟨p', e', hr', _, raw, _, _, h⟩ := calculatePetrosian_ok _ _ none none (accepted_of_ok hr)
    rw [hr] at hr'
    injection hr' with hr'; injection hr' with h1 h2
    rcases h with h | h
    · rw [h2]; exact h.2.2
    · simp at h
  subst he
  refine ⟨Fl, A, p, e1, e2, by simp [hFl], by simp [hAl], by rw [e1, e2]; exact hr, ?_⟩
  intro m F A' F' A'' g1 g2 g3 g4 hF
  have hm : m + 1 < rs.length := by
    have := (List.getElem?_eq_some_iff.1 g3).1
    simpa [hFl] using this
  have hmA : m + 1 < A.length := by simpa [hAl] using hm
  have hlt := hAlt m hmA
  have hgm := hg m hmA
  simp only [hFl, hAl, List.getElem_map] at hlt hgm
  simp only [hFl, hAl, List.getElem?_map, List.getElem?_eq_getElem hm, List.getElem?_eq_getElem (Nat.lt_of_succ_lt hm), Option.map_some,
    Option.some.injEq] at g1 g2 g3 g4
  subst g1 g2 g3 g4
  obtain ⟨v, hv1, hv2⟩ := ratio_le (hmean m hm) (abs_round6_sub _) (abs_round6_sub _) (abs_round6_sub _) (abs_round6_sub _) (hA0 _) hlt hF
  exact ⟨v, by rw [hgm]; exact congrArg some hv1, hv2⟩

/-- **C186, exact method.** If no light gets brighter on the way outwards from the centre and the apertures lie on the image, the Petrosian profile
exists and no entry (with a positive flux) exceeds 1 by more than the rounding of fluxes and areas: for all elongations and angles of the apertures. -/
theorem C186_exact (h w : Nat) (f : Nat → Nat → ℝ) (cx cy : ℝ) (rs : List ℝ) (error : Option (Img (F ℝ))) (q t : ℝ) (fl ar er : List (F ℝ))
    (hs : FainterOutwards h w f cx cy) (h3 : 3 ≤ rs.length)
    (hstep : ∀ m (hm : m + 1 < rs.length), rs[m] ^ 2 + q / Real.pi / 10 ^ 6 < rs[m + 1] ^ 2)
    (hf : ∀ r ∈ rs, OnFrame (⟨cx, cy, r, r / q, t⟩ : Ellipse ℝ).set h w)
    (hres : radialPhotometry exactOverlap ⟨h, w, fun i j => fin (f i j)⟩ cx cy rs error none q t = .ok (fl, ar, er)) :
    ∃ (Fl A : List ℝ) (p : List (F ℝ)), fl = Fl.map fin ∧ ar = A.map fin ∧ Fl.length = rs.length ∧ A.length = rs.length ∧
      calculatePetrosian ar fl = .ok (p, none) ∧
      ∀ m F A' F' A'', Fl[m]? = some F → A[m]? = some A' → Fl[m + 1]? = some F' → A[m + 1]? = some A'' → 0 < F' →
        ∃ v, p[m + 1]? = some (fin v) ∧ v ≤ 1 + roundingExcess A' F A'' F' := by
  have hv := fun m hm => photometry_values exactOverlap_law (f := f) (fun _ _ _ _ _ => rfl) hres m hm
  have hq : 0 < q := (hv 0 (by omega)).2.1
  have hW1 : ∀ m (hm : m < rs.length), weightedSum (exactOverlap.weight ⟨cx, cy, rs[m], rs[m] / q, t⟩) h w (Used none) (fun _ _ => 1) =
      Real.pi / q * rs[m] ^ 2 := by
    intro m hm
    have hr := (hv m hm).1
    rw [show (Used none) = fun _ _ => true from rfl,
      weightedSum_onFrame _ hr (div_pos hr hq) h w (hf _ (List.getElem_mem _)) 1]
    simp only
    ring
  have hlt : ∀ m (hm : m + 1 < rs.length), rs[m] < rs[m + 1] := by
    intro m hm
    have h1 := hstep m hm
    have h2 : 0 < q / Real.pi / 10 ^ 6 := by positivity
    exact lt_of_pow_lt_pow_left₀ 2 (hv (m + 1) hm).1.le (by linarith)
  refine profile_of_means exactOverlap_law hres h3 (fun m hm => ?_) fun m hm => ?_
  · rw [hW1 m (by omega), hW1 (m + 1) hm]
    have h1 := hstep m hm
    have h2 : (0 : ℝ) < Real.pi / q := by positivity
    have h3 := mul_lt_mul_of_pos_left h1 h2
    have e : Real.pi / q * (rs[m] ^ 2 + q / Real.pi / 10 ^ 6) = Real.pi / q * rs[m] ^ 2 + 1 / 10 ^ 6 := by
      field_simp
    rw [e] at h3
    exact h3
  · rw [hW1 m (by omega), hW1 (m + 1) hm]
    have hr := (hv m (by omega)).1
    have hr' := (hv (m + 1) hm).1
    have := mean_antitone (t := t) hs hr (hlt m hm).le hq (hf _ (List.getElem_mem _))
    rw [div_le_div_iff₀ (by positivity) (by positivity)] at this
    have h2 : (0 : ℝ) < Real.pi / q := by positivity
    have := mul_le_mul_of_nonneg_left this h2.le
    rw [show (Used none) = fun _ _ => true from rfl]
    linarith

/-! ### Sources that get fainter outwards -/

theorem pixel_outwards (c u k l : ℝ) (hk : 0 < k) (hkl : k ≤ l) :
    |((⌈c + k * u - 1 / 2⌉ : ℤ) : ℝ) - c| ≤ |((⌈c + l * u - 1 / 2⌉ : ℤ) : ℝ) - c| := by
  have a1 := Int.le_ceil (c + k * u - 1 / 2)
  have a2 := Int.ceil_lt_add_one (c + k * u - 1 / 2)
  rcases le_total 0 u with hu | hu
  · have hm : ⌈c + k * u - 1 / 2⌉ ≤ ⌈c + l * u - 1 / 2⌉ := Int.ceil_le_ceil (by nlinarith)
    have hku : 0 ≤ k * u := mul_nonneg hk.le hu
    generalize ⌈c + k * u - 1 / 2⌉ = J at *
    generalize ⌈c + l * u - 1 / 2⌉ = L at *
    rcases hm.eq_or_lt with rfl | hm
    · exact le_rfl
    · have h1 : (J : ℝ) + 1 ≤ L := by exact_mod_cast hm
      rw [abs_of_nonneg (a := (L : ℝ) - c) (by linarith), abs_le]
      constructor <;> linarith
  · have hm : ⌈c + l * u - 1 / 2⌉ ≤ ⌈c + k * u - 1 / 2⌉ := Int.ceil_le_ceil (by nlinarith)
    have hku : k * u ≤ 0 := mul_nonpos_of_nonneg_of_nonpos hk.le hu
    generalize ⌈c + k * u - 1 / 2⌉ = J at *
    generalize ⌈c + l * u - 1 / 2⌉ = L at *
    rcases hm.eq_or_lt with rfl | hm
    · exact le_rfl
    · have h1 : (L : ℝ) + 1 ≤ J := by exact_mod_cast hm
      rw [abs_of_nonpos (a := (L : ℝ) - c) (by linarith), abs_le]
      constructor <;> linarith

/-- **C186, sources.** Images sampled from a source whose brightness falls with the distances along rows and columns (round, or elliptical along
the axes, in any profile, anywhere on the pixel grid) get fainter outwards. -/
theorem C186_sources (h w : Nat) (cx cy : ℝ) (G : ℝ → ℝ → ℝ)
    (hG : ∀ a b a' b', 0 ≤ a → a ≤ a' → 0 ≤ b → b ≤ b' → G a' b' ≤ G a b) :
    FainterOutwards h w (fun i j => G |(j : ℝ) - cx| |(i : ℝ) - cy|) cx cy := by
  intro u v k l hk hkl hfr
  have key : ∀ x y : ℝ, (-1 / 2 < x ∧ x ≤ (w : ℝ) - 1 / 2 ∧ -1 / 2 < y ∧ y ≤ (h : ℝ) - 1 / 2) →
      stepImage h w (fun _ _ => true) (fun i j => G |(j : ℝ) - cx| |(i : ℝ) - cy|) (x, y) =
        G |((⌈x - 1 / 2⌉ : ℤ) : ℝ) - cx| |((⌈y - 1 / 2⌉ : ℤ) : ℝ) - cy| := by
    rintro x y ⟨h1, h2, h3, h4⟩
    have g1 : (0 : ℤ) ≤ ⌈y - 1 / 2⌉ := by
      have : (-1 : ℤ) < ⌈y - 1 / 2⌉ := by rw [Int.lt_ceil]; push_cast; linarith
      omega
    have g2 : ⌈y - 1 / 2⌉ < (h : ℤ) := by
      have : ⌈y - 1 / 2⌉ ≤ (h : ℤ) - 1 := by rw [Int.ceil_le]; push_cast; linarith
      omega
    have g3 : (0 : ℤ) ≤ ⌈x - 1 / 2⌉ := by
      have : (-1 : ℤ) < ⌈x - 1 / 2⌉ := by rw [Int.lt_ceil]; push_cast; linarith
      omega
    have g4 : ⌈x - 1 / 2⌉ < (w : ℤ) := by
      have : ⌈x - 1 / 2⌉ ≤ (w : ℤ) - 1 := by rw [Int.ceil_le]; push_cast; linarith
      omega
    unfold stepImage
    simp only
    rw [if_pos ⟨g1, g2, g3, g4, trivial⟩]
    have c1 : ((⌈x - 1 / 2⌉.toNat : ℕ) : ℝ) = ((⌈x - 1 / 2⌉ : ℤ) : ℝ) := by exact_mod_cast congrArg (Int.cast (R := ℝ)) (Int.toNat_of_nonneg g3)
    have c2 : ((⌈y - 1 / 2⌉.toNat : ℕ) : ℝ) = ((⌈y - 1 / 2⌉ : ℤ) : ℝ) := by exact_mod_cast congrArg (Int.cast (R := ℝ)) (Int.toNat_of_nonneg g1)
    rw [c1, c2]
  rw [key _ _ (hfr _ (Or.inl rfl)), key _ _ (hfr _ (Or.inr rfl))]
  exact hG _ _ _ _ (abs_nonneg _) (pixel_outwards cx u k l hk hkl) (abs_nonneg _) (pixel_outwards cy v k l hk hkl)

/-! ### The center method -/

theorem center_weight_elliptical (cx cy r q t : ℝ) (hr : 0 < r) (hq : 0 < q) (i j : Nat) :
    centerOverlap.weight ⟨cx, cy, r, r / q, t⟩ i j = if ellipticalDistance cx cy q t i j < r then 1 else 0 := by
  have hiff : ((j : ℝ), (i : ℝ)) ∈ Ellipse.set ⟨cx, cy, r, r / q, t⟩ ↔ ellipticalDistance cx cy q t i j < r := by
    simp only [Ellipse.set, Set.mem_setOf_eq, ellipticalDistance]
    have e : ∀ a b : ℝ, (a / r) ^ 2 + (b / (r / q)) ^ 2 = (a ^ 2 + (q * b) ^ 2) / r ^ 2 := fun a b => by field_simp
    rw [e, div_lt_one (by positivity), Real.sqrt_lt' hr]
  simp only [centerOverlap]
  by_cases hp : ellipticalDistance cx cy q t i j < r
  · rw [if_pos (hiff.2 hp), if_pos hp]
  · rw [if_neg (fun h => hp (hiff.1 h)), if_neg hp]

/-- **C186, `method="center"`.** The same for every source whose brightness falls with the elliptical distance of the apertures, at every angle,
with every mask, and also for apertures that reach over the edge of the image. -/
theorem C186_center (h w : Nat) (g : ℝ → ℝ) (hg : Antitone g) (cx cy : ℝ) (rs : List ℝ) (error : Option (Img (F ℝ))) (mask : Option (Img Bool))
    (q t : ℝ) (fl ar er : List (F ℝ)) (h3 : 3 ≤ rs.length) (hrs : ∀ m (hm : m + 1 < rs.length), rs[m] ≤ rs[m + 1])
    (hA : ∀ m (hm : m + 1 < rs.length), weightedSum (centerOverlap.weight ⟨cx, cy, rs[m], rs[m] / q, t⟩) h w (Used mask) (fun _ _ => 1) + 1 / 10 ^ 6 <
      weightedSum (centerOverlap.weight ⟨cx, cy, rs[m + 1], rs[m + 1] / q, t⟩) h w (Used mask) fun _ _ => 1)
    (hres : radialPhotometry centerOverlap ⟨h, w, fun i j => fin (g (ellipticalDistance cx cy q t i j))⟩ cx cy rs error mask q t = .ok (fl, ar, er)) :
    ∃ (Fl A : List ℝ) (p : List (F ℝ)), fl = Fl.map fin ∧ ar = A.map fin ∧ Fl.length = rs.length ∧ A.length = rs.length ∧
      calculatePetrosian ar fl = .ok (p, none) ∧
      ∀ m F A' F' A'', Fl[m]? = some F → A[m]? = some A' → Fl[m + 1]? = some F' → A[m + 1]? = some A'' → 0 < F' →
        ∃ v, p[m + 1]? = some (fin v) ∧ v ≤ 1 + roundingExcess A' F A'' F' := by
  refine profile_of_means centerOverlap_law hres h3 hA fun m hm => ?_
  have hv := fun m hm => photometry_values centerOverlap_law (f := fun i j => g (ellipticalDistance cx cy q t i j)) (fun _ _ _ _ _ => rfl) hres m hm
  obtain ⟨hr, hq, _⟩ := hv m (by omega)
  obtain ⟨hr', _, _⟩ := hv (m + 1) hm
  set e : Ellipse ℝ := ⟨cx, cy, rs[m], rs[m] / q, t⟩ with he
  set e' : Ellipse ℝ := ⟨cx, cy, rs[m + 1], rs[m + 1] / q, t⟩ with he'
  have w1 := center_weight_elliptical cx cy rs[m] q t hr hq
  have w2 := center_weight_elliptical cx cy rs[m + 1] q t hr' hq
  rw [← he] at w1
  rw [← he'] at w2
  have b1 : g rs[m] * weightedSum (centerOverlap.weight e) h w (Used mask) (fun _ _ => 1) ≤
      weightedSum (centerOverlap.weight e) h w (Used mask) fun i j => g (ellipticalDistance cx cy q t i j) := by
    simp only [weightedSum_product, Finset.mul_sum]
    refine Finset.sum_le_sum fun p _ => ?_
    rw [w1]
    by_cases hu : Used mask p.1 p.2 = true <;> by_cases hd : ellipticalDistance cx cy q t p.1 p.2 < rs[m] <;> simp [hu, hd]
    exact hg hd.le
  have hdiff : ∀ i j, 0 < centerOverlap.weight e' i j - centerOverlap.weight e i j → rs[m] ≤ ellipticalDistance cx cy q t i j := by
    intro i j hp
    rw [w1, w2] at hp
    by_contra hn
    push Not at hn
    rw [if_pos hn, if_pos (hn.trans_le (hrs m hm))] at hp
    simp at hp
  have hnest : ∀ i j, 0 ≤ centerOverlap.weight e' i j - centerOverlap.weight e i j := fun i j =>
    sub_nonneg.2 (centerOverlap_law.nested cx cy q t _ _ i j hq hr (hrs m hm))
  have b2 : weightedSum (fun i j => centerOverlap.weight e' i j - centerOverlap.weight e i j) h w (Used mask)
      (fun i j => g (ellipticalDistance cx cy q t i j)) ≤
      g rs[m] * weightedSum (fun i j => centerOverlap.weight e' i j - centerOverlap.weight e i j) h w (Used mask) fun _ _ => 1 := by
    simp only [weightedSum_product, Finset.mul_sum]
    refine Finset.sum_le_sum fun p _ => ?_
    by_cases hu : Used mask p.1 p.2 = true
    · simp only [hu, if_true, mul_one]
      rcases (hnest p.1 p.2).eq_or_lt with h0 | h0
      · simp [← h0]
      · nlinarith [hg (hdiff _ _ h0)]
    · simp [hu]
  rw [weightedSum_wt_sub, weightedSum_wt_sub] at b2
  have p1 : 0 ≤ weightedSum (centerOverlap.weight e) h w (Used mask) fun _ _ => (1 : ℝ) := by
    have := (weightedSum_range (wt := centerOverlap.weight e) (h := h) (w := w) (use := Used mask) (f := fun _ _ => (1 : ℝ)) (lo := 0) (hi := 1)
      (centerOverlap_law.nonneg _) (fun _ _ _ _ _ _ => ⟨zero_le_one, le_rfl⟩)).1
    simpa using this
  have p2 := hA m hm
  rw [← he, ← he'] at p2
  have p3 : (0 : ℝ) < 1 / 10 ^ 6 := by positivity
  nlinarith [mul_le_mul_of_nonneg_right b2 p1, mul_le_mul_of_nonneg_right b1 (by linarith : 0 ≤
    weightedSum (centerOverlap.weight e') h w (Used mask) (fun _ _ => 1) - weightedSum (centerOverlap.weight e) h w (Used mask) fun _ _ => 1)]

/-! ### Concrete cases -/

/-- An elongated source whose centre is not at the centre of a pixel. -/
noncomputable def ovalSource (i j : Nat) : ℝ := 100 / (1 + |(j : ℝ) - 4| ^ 2 + 4 * |(i : ℝ) - 21 / 5| ^ 2)

example : ∃ fl ar er, radialPhotometry exactOverlap ⟨9, 9, fun i j => fin (ovalSource i j)⟩ 4 (21 / 5) [1, 2, 3] none none 2 0 = .ok (fl, ar, er) ∧
    ∃ (Fl A : List ℝ) (p : List (F ℝ)), fl = Fl.map fin ∧ ar = A.map fin ∧ Fl.length = 3 ∧ A.length = 3 ∧ calculatePetrosian ar fl = .ok (p, none) ∧
      ∀ m F A' F' A'', Fl[m]? = some F → A[m]? = some A' → Fl[m + 1]? = some F' → A[m + 1]? = some A'' → 0 < F' →
        ∃ v, p[m + 1]? = some (fin v) ∧ v ≤ 1 + roundingExcess A' F A'' F' := by
  have hfr : ∀ r : ℝ, 0 < r → r ≤ 3 → OnFrame (⟨4, 21 / 5, r, r / 2, 0⟩ : Ellipse ℝ).set 9 9 := by
    intro r hr h3
    have hx : (⟨4, 21 / 5, r, r / 2, 0⟩ : Ellipse ℝ).xExtent = r := by simp [Ellipse.xExtent, Real.sqrt_sq hr.le]
    have hy : (⟨4, 21 / 5, r, r / 2, 0⟩ : Ellipse ℝ).yExtent = r / 2 := by simp [Ellipse.yExtent, Real.sqrt_sq (half_pos hr).le]
    refine onFrame_of_box _ hr (half_pos hr) 9 9 ?_ ?_ ?_ ?_ <;> simp only [hx, hy] <;> push_cast <;> linarith
  have hs : ∀ s : ℝ, 0 < s → s ≤ 3 → ∃ p, photometryAt exactOverlap ⟨9, 9, fun i j => fin (ovalSource i j)⟩ 4 (21 / 5) none (inv none) 2 0 s = .ok p := by
    intro s hs h3
    have hraw := (C45_linear exactOverlap_law ⟨4, 21 / 5, s, s / 2, 0⟩ 9 9 none ovalSource ovalSource 0).1
    refine ⟨(_, _, _), (photometryAt_ok exactOverlap_law).2 ⟨hs, two_pos, rfl, rfl, ?_, ?_, rfl, rfl, rfl⟩⟩
    · have hin : ((4 : ℝ), (21 / 5 : ℝ)) ∈ (⟨4, 21 / 5, s, s / 2, 0⟩ : Ellipse ℝ).set := by simp [Ellipse.set]
      exact boxHits_of_mem hs (half_pos hs) hin (h := 9) (w := 9) (i := 4) (j := 4) (by norm_num) (by norm_num) (by norm_num) (by norm_num [abs_le])
    · rw [hraw]; rfl
  obtain ⟨p1, h1⟩ := hs 1 (by norm_num) (by norm_num)
  obtain ⟨p2, h2⟩ := hs 2 (by norm_num) (by norm_num)
  obtain ⟨p3, h3⟩ := hs 3 (by norm_num) (by norm_num)
  have hok : radialPhotometry exactOverlap ⟨9, 9, fun i j => fin (ovalSource i j)⟩ 4 (21 / 5) [1, 2, 3] none none 2 0 = .ok (_, _, _) :=
    radialPhotometry_ok.2 ⟨[p1, p2, p3], .cons h1 (.cons h2 (.cons h3 .nil)), rfl, rfl, rfl⟩
  refine ⟨_, _, _, hok, ?_⟩
  have hsrc := C186_sources 9 9 4 (21 / 5) (fun a b => 100 / (1 + a ^ 2 + 4 * b ^ 2)) (fun a b a' b' ha haa hb hbb => by
    have := pow_le_pow_left₀ ha haa 2
    have := pow_le_pow_left₀ hb hbb 2
    gcongr)
  refine C186_exact 9 9 ovalSource 4 (21 / 5) [1, 2, 3] none 2 0 _ _ _ hsrc (by simp) ?_ ?_ hok
  · have hpi := Real.two_le_pi
    have hsm : 2 / Real.pi / 10 ^ 6 < 1 := by
      rw [div_div, div_lt_one (by positivity)]; nlinarith
    intro m hm
    have hm' : m + 1 < 3 := hm
    obtain rfl | rfl : m = 0 ∨ m = 1 := by omega
    · norm_num at hsm ⊢; linarith
    · norm_num at hsm ⊢; linarith
  · intro r hr
    simp only [List.mem_cons, List.not_mem_nil, or_false] at hr
    rcases hr with rfl | rfl | rfl <;> exact hfr _ (by norm_num) (by norm_num)

end Verif.Props

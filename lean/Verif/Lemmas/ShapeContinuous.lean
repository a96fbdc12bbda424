import Verif.Lemmas.BnContinuous
import Verif.Props.Profiles

/-!
# Fluxes and radii of Sersic profiles are continuous functions of the parameters
-/

set_option linter.unusedVariables false

namespace Verif.Lemmas

open Real Set Filter Topology Verif.Props

/-- Functions that are continuous in one variable and monotone and continuous in the other one are continuous. -/
theorem continuousAt_of_mono {f : ℝ → ℝ → ℝ} {s x : ℝ} (hx : 0 < x) (hs : ∀ y, 0 < y → ContinuousAt (fun s => f s y) s)
    (hm : ∀ᶠ s' in 𝓝 s, MonotoneOn (f s') (Ioi 0)) (hc : ContinuousAt (f s) x) : ContinuousAt (fun z : ℝ × ℝ => f z.1 z.2) (s, x) := by
  have hev : ∀ p : ℝ → Prop, (∀ᶠ y in 𝓝 x, p y) → (∃ y, 0 < y ∧ y < x ∧ p y) ∧ ∃ y, x < y ∧ p y := by
    intro p hp
    constructor
    · have h1 : ∀ᶠ y in 𝓝[<] x, p y ∧ 0 < y ∧ y < x := by
        filter_upwards [hp.filter_mono nhdsWithin_le_nhds, (lt_mem_nhds hx).filter_mono nhdsWithin_le_nhds, self_mem_nhdsWithin] with y a b c
        exact ⟨a, b, c⟩
      obtain ⟨y, a, b, c⟩ := h1.exists
      exact ⟨y, b, c, a⟩
    · have h1 : ∀ᶠ y in 𝓝[>] x, p y ∧ x < y := by
        filter_upwards [hp.filter_mono nhdsWithin_le_nhds, self_mem_nhdsWithin] with y a b
        exact ⟨a, b⟩
      obtain ⟨y, a, b⟩ := h1.exists
      exact ⟨y, b, a⟩
  rw [ContinuousAt, tendsto_order]
  simp only
  constructor
  · intro a ha
    obtain ⟨⟨y, hy0, hyx, hy⟩, -⟩ := hev _ (hc.eventually_const_lt ha)
    have h1 : ∀ᶠ z : ℝ × ℝ in 𝓝 (s, x), a < f z.1 y ∧ MonotoneOn (f z.1) (Ioi 0) :=
      (continuousAt_fst (p := ((s, x) : ℝ × ℝ))).eventually (((hs y hy0).eventually_const_lt hy).and hm)
    have h2 : ∀ᶠ z : ℝ × ℝ in 𝓝 (s, x), y < z.2 := (continuousAt_snd (p := ((s, x) : ℝ × ℝ))).eventually_const_lt hyx
    filter_upwards [h1, h2] with z h3 h4
    exact h3.1.trans_le (h3.2 hy0 (hy0.trans h4) h4.le)
  · intro a ha
    obtain ⟨-, y, hyx, hy⟩ := hev _ (hc.eventually_lt_const ha)
    have h1 : ∀ᶠ z : ℝ × ℝ in 𝓝 (s, x), f z.1 y < a ∧ MonotoneOn (f z.1) (Ioi 0) :=
      (continuousAt_fst (p := ((s, x) : ℝ × ℝ))).eventually (((hs y (hx.trans hyx)).eventually_lt_const hy).and hm)
    have h2 : ∀ᶠ z : ℝ × ℝ in 𝓝 (s, x), z.2 < y ∧ 0 < z.2 :=
      ((continuousAt_snd (p := ((s, x) : ℝ × ℝ))).eventually_lt_const hyx).and ((continuousAt_snd (p := ((s, x) : ℝ × ℝ))).eventually_const_lt hx)
    filter_upwards [h1, h2] with z h3 h4
    exact (h3.2 h4.2 (hx.trans hyx) h4.1.le).trans_lt h3.1

theorem lowerGamma_continuousAt {s x : ℝ} (hs : 0 < s) (hx : 0 < x) : ContinuousAt (fun z : ℝ × ℝ => lowerGamma z.1 z.2) (s, x) :=
  continuousAt_of_mono hx (fun y hy => lowerGamma_continuousAt_index hs hy.le)
    ((lt_mem_nhds hs).mono fun s' hs' => (lowerGamma_strictMono s' hs').monotoneOn.mono Ioi_subset_Ici_self) (lowerGamma_hasDerivAt s hs hx).continuousAt

theorem gammaincinv_continuousAt {s p : ℝ} (hs : 0 < s) (h0 : 0 < p) (h1 : p < 1) : ContinuousAt (fun z : ℝ × ℝ => gammaincinv z.1 z.2) (s, p) := by
  obtain ⟨g0, g1⟩ := gammaincinv_spec s hs h0.le h1
  have hpos : 0 < gammaincinv s p := by
    rcases g0.lt_or_eq with h | h
    · exact h
    · rw [← h, gammainc_zero] at g1
      exact absurd g1 h0.ne
  have hnear : ∀ᶠ z : ℝ × ℝ in 𝓝 (s, p), 0 < z.1 ∧ 0 < z.2 ∧ z.2 < 1 := by
    filter_upwards [(continuousAt_fst (p := ((s, p) : ℝ × ℝ))).eventually_const_lt hs, (continuousAt_snd (p := ((s, p) : ℝ × ℝ))).eventually_const_lt h0,
      (continuousAt_snd (p := ((s, p) : ℝ × ℝ))).eventually_lt_const h1] with z a b c
    exact ⟨a, b, c⟩
  have c : ∀ x : ℝ, 0 ≤ x → ContinuousAt (fun z : ℝ × ℝ => z.2 - gammainc z.1 x) (s, p) := fun x hx =>
    continuousAt_snd.sub (ContinuousAt.comp (f := fun z : ℝ × ℝ => z.1) (g := fun s => gammainc s x) (gammainc_continuousAt_index hs hx) continuousAt_fst)
  rw [ContinuousAt, tendsto_order]
  simp only
  constructor
  · intro a ha
    have hm0 : 0 ≤ max a 0 := le_max_right _ _
    have hm : max a 0 < gammaincinv s p := max_lt ha hpos
    have h2 := gammainc_strictMono s hs hm0 (mem_Ici.2 g0) hm
    rw [g1] at h2
    filter_upwards [(c _ hm0).eventually_const_lt (sub_pos.2 h2), hnear] with z h3 ⟨h4, h5, h6⟩
    obtain ⟨e0, e1⟩ := gammaincinv_spec z.1 h4 h5.le h6
    by_contra hle
    have h7 := (gammainc_strictMono z.1 h4).monotoneOn (mem_Ici.2 e0) hm0 ((not_lt.1 hle).trans (le_max_left _ _))
    rw [e1] at h7
    linarith
  · intro a ha
    have ha0 : 0 ≤ a := g0.trans ha.le
    have h2 := gammainc_strictMono s hs (mem_Ici.2 g0) ha0 ha
    rw [g1] at h2
    filter_upwards [(c _ ha0).eventually_lt_const (sub_neg.2 h2), hnear] with z h3 ⟨h4, h5, h6⟩
    obtain ⟨e0, e1⟩ := gammaincinv_spec z.1 h4 h5.le h6
    by_contra hle
    have h7 := (gammainc_strictMono z.1 h4).monotoneOn ha0 (mem_Ici.2 e0) (not_lt.1 hle)
    rw [e1] at h7
    linarith

theorem etaOf_continuousAt {s x : ℝ} (hs : 0 < s) (hx : 0 < x) : ContinuousAt (fun z : ℝ × ℝ => etaOf z.1 z.2) (s, x) := by
  unfold etaOf
  refine ContinuousAt.div ?_ (continuousAt_fst.mul (lowerGamma_continuousAt hs hx)) (mul_pos hs (lowerGamma_pos s hs hx)).ne'
  exact (Real.continuous_exp.continuousAt.comp continuousAt_snd.neg).mul (continuousAt_snd.rpow continuousAt_fst (Or.inl hx.ne'))

/-! ### As functions of the amplitude, the effective radius, the index and the ellipticity -/

/-- The argument of the incomplete gamma functions. -/
theorem sersicX_continuousAt {r a e n ell : ℝ} (hr : 0 < r) (he : 0 < e) (hn : 0 < n) :
    ContinuousAt (fun s : ℝ × ℝ × ℝ × ℝ => bn s.2.2.1 * (r / s.2.1) ^ (1 / s.2.2.1)) (a, e, n, ell) := by
  have h1 : ContinuousAt (fun s : ℝ × ℝ × ℝ × ℝ => bn s.2.2.1) (a, e, n, ell) :=
    ContinuousAt.comp (f := fun s : ℝ × ℝ × ℝ × ℝ => s.2.2.1) (g := bn) (bn_continuousAt hn) (by fun_prop)
  refine h1.mul (ContinuousAt.rpow ?_ ?_ (Or.inl (div_pos hr he).ne'))
  · exact ContinuousAt.div continuousAt_const (by fun_prop) he.ne'
  · exact ContinuousAt.div continuousAt_const (by fun_prop) hn.ne'

theorem fluxScale_continuousAt {a e n ell : ℝ} (hn : 0 < n) : ContinuousAt (fun s : ℝ × ℝ × ℝ × ℝ => fluxScale s.1 s.2.1 s.2.2.1 s.2.2.2) (a, e, n, ell) := by
  have h1 : ContinuousAt (fun s : ℝ × ℝ × ℝ × ℝ => bn s.2.2.1) (a, e, n, ell) :=
    ContinuousAt.comp (f := fun s : ℝ × ℝ × ℝ × ℝ => s.2.2.1) (g := bn) (bn_continuousAt hn) (by fun_prop)
  unfold fluxScale
  have h2 : ContinuousAt (fun s : ℝ × ℝ × ℝ × ℝ => Real.exp (bn s.2.2.1) / bn s.2.2.1 ^ (2 * s.2.2.1)) (a, e, n, ell) :=
    ContinuousAt.div (Real.continuous_exp.continuousAt.comp h1) (h1.rpow (by fun_prop) (Or.inl (bn_pos hn).ne')) (Real.rpow_pos_of_pos (bn_pos hn) _).ne'
  have h3 : ContinuousAt (fun s : ℝ × ℝ × ℝ × ℝ => s.1 * s.2.1 ^ 2 * 2 * π * s.2.2.1) (a, e, n, ell) := by fun_prop
  have h4 : ContinuousAt (fun s : ℝ × ℝ × ℝ × ℝ => 1 - s.2.2.2) (a, e, n, ell) := by fun_prop
  exact (h3.mul h2).mul h4

theorem index_near {a e n ell : ℝ} (hn : 0 < n) : ∀ᶠ s : ℝ × ℝ × ℝ × ℝ in 𝓝 (a, e, n, ell), 0 < s.2.2.1 := by
  have h : ContinuousAt (fun s : ℝ × ℝ × ℝ × ℝ => s.2.2.1) (a, e, n, ell) := by fun_prop
  exact h.eventually_const_lt hn

theorem sersicEnclosed_continuousAt {r a e n ell : ℝ} (hr : 0 < r) (he : 0 < e) (hn : 0 < n) :
    ContinuousAt (fun s : ℝ × ℝ × ℝ × ℝ => sersicEnclosed r s.1 s.2.1 s.2.2.1 s.2.2.2) (a, e, n, ell) := by
  have h1 : ContinuousAt (fun s : ℝ × ℝ × ℝ × ℝ => fluxScale s.1 s.2.1 s.2.2.1 s.2.2.2 * lowerGamma (2 * s.2.2.1) (bn s.2.2.1 * (r / s.2.1) ^ (1 / s.2.2.1))) (a, e, n, ell) := by
    refine (fluxScale_continuousAt hn).mul ?_
    refine ContinuousAt.comp (f := fun s : ℝ × ℝ × ℝ × ℝ => (2 * s.2.2.1, bn s.2.2.1 * (r / s.2.1) ^ (1 / s.2.2.1))) (g := fun z : ℝ × ℝ => lowerGamma z.1 z.2)
      (lowerGamma_continuousAt (by simp only; linarith) (sersicX_pos hn he hr)) (ContinuousAt.prodMk (by fun_prop) (sersicX_continuousAt hr he hn))
  refine h1.congr ?_
  filter_upwards [index_near hn] with s hs
  rw [sersicEnclosed_eq _ _ _ _ _ hs]

theorem sersicTotal_continuousAt {a e n ell : ℝ} (hn : 0 < n) :
    ContinuousAt (fun s : ℝ × ℝ × ℝ × ℝ => fluxScale s.1 s.2.1 s.2.2.1 s.2.2.2 * Real.Gamma (2 * s.2.2.1)) (a, e, n, ell) := by
  refine (fluxScale_continuousAt hn).mul ?_
  refine ContinuousAt.comp (f := fun s : ℝ × ℝ × ℝ × ℝ => 2 * s.2.2.1) (g := Real.Gamma) ?_ (by fun_prop)
  exact (Real.differentiableAt_Gamma fun m => by have := Nat.cast_nonneg (α := ℝ) m; simp only; linarith).continuousAt

theorem sersicEnclosedInv_continuousAt {f a e n ell : ℝ} (ha : 0 < a) (he : 0 < e) (hn : 0 < n) (hell : ell < 1) (hf0 : 0 < f)
    (hf : f < fluxScale a e n ell * Real.Gamma (2 * n)) : ContinuousAt (fun s : ℝ × ℝ × ℝ × ℝ => sersicEnclosedInv f s.1 s.2.1 s.2.2.1 s.2.2.2) (a, e, n, ell) := by
  have hs : (0 : ℝ) < 2 * n := by linarith
  have hg := Real.Gamma_pos_of_pos hs
  have hS := fluxScale_pos ha he hn hell
  have hb := bn_pos hn
  have e1 : (fun s : ℝ × ℝ × ℝ × ℝ => sersicEnclosedInv f s.1 s.2.1 s.2.2.1 s.2.2.2) = fun s : ℝ × ℝ × ℝ × ℝ =>
      (gammaincinv (2 * s.2.2.1) (f / fluxScale s.1 s.2.1 s.2.2.1 s.2.2.2 / Real.Gamma (2 * s.2.2.1)) / bn s.2.2.1) ^ s.2.2.1 * s.2.1 := rfl
  rw [e1]
  have h0 : 0 < f / fluxScale a e n ell / Real.Gamma (2 * n) := by positivity
  have h1 : f / fluxScale a e n ell / Real.Gamma (2 * n) < 1 := by
    rw [div_div, div_lt_one (by positivity)]
    exact hf
  have hbn : ContinuousAt (fun s : ℝ × ℝ × ℝ × ℝ => bn s.2.2.1) (a, e, n, ell) :=
    ContinuousAt.comp (f := fun s : ℝ × ℝ × ℝ × ℝ => s.2.2.1) (g := bn) (bn_continuousAt hn) (by fun_prop)
  have hG : ContinuousAt (fun s : ℝ × ℝ × ℝ × ℝ => Real.Gamma (2 * s.2.2.1)) (a, e, n, ell) :=
    ContinuousAt.comp (f := fun s : ℝ × ℝ × ℝ × ℝ => 2 * s.2.2.1) (g := Real.Gamma)
      (Real.differentiableAt_Gamma fun m => by have := Nat.cast_nonneg (α := ℝ) m; simp only; linarith).continuousAt (by fun_prop)
  have hp : ContinuousAt (fun s : ℝ × ℝ × ℝ × ℝ => f / fluxScale s.1 s.2.1 s.2.2.1 s.2.2.2 / Real.Gamma (2 * s.2.2.1)) (a, e, n, ell) :=
    (ContinuousAt.div continuousAt_const (fluxScale_continuousAt hn) hS.ne').div hG hg.ne'
  have hinv : ContinuousAt (fun s : ℝ × ℝ × ℝ × ℝ => gammaincinv (2 * s.2.2.1) (f / fluxScale s.1 s.2.1 s.2.2.1 s.2.2.2 / Real.Gamma (2 * s.2.2.1))) (a, e, n, ell) :=
    ContinuousAt.comp (f := fun s : ℝ × ℝ × ℝ × ℝ => (2 * s.2.2.1, f / fluxScale s.1 s.2.1 s.2.2.1 s.2.2.2 / Real.Gamma (2 * s.2.2.1))) (g := fun z : ℝ × ℝ => gammaincinv z.1 z.2)
      (gammaincinv_continuousAt hs h0 h1) (ContinuousAt.prodMk (by fun_prop) hp)
  exact ((hinv.div hbn hb.ne').rpow (by fun_prop) (Or.inr hn)).mul (by fun_prop)

theorem petrosianProfile_continuousAt {r a e n ell : ℝ} (hr : 0 < r) (he : 0 < e) (hn : 0 < n) :
    ContinuousAt (fun s : ℝ × ℝ × ℝ × ℝ => petrosianProfile r s.2.1 s.2.2.1) (a, e, n, ell) := by
  have h1 : ContinuousAt (fun s : ℝ × ℝ × ℝ × ℝ => etaOf (2 * s.2.2.1) (bn s.2.2.1 * (r / s.2.1) ^ (1 / s.2.2.1))) (a, e, n, ell) :=
    ContinuousAt.comp (f := fun s : ℝ × ℝ × ℝ × ℝ => (2 * s.2.2.1, bn s.2.2.1 * (r / s.2.1) ^ (1 / s.2.2.1))) (g := fun z : ℝ × ℝ => etaOf z.1 z.2)
      (etaOf_continuousAt (by simp only; linarith) (sersicX_pos hn he hr)) (ContinuousAt.prodMk (by fun_prop) (sersicX_continuousAt hr he hn))
  refine h1.congr ?_
  filter_upwards [index_near hn] with s hs
  rw [petrosianProfile_eq _ _ _ hs]

/-- The radii where the Petrosian profile is `eta`, for parameters near the given ones. -/
theorem petrosian_radius_near {r a e n ell : ℝ} (hr : 0 < r) (he : 0 < e) (hn : 0 < n) {eta : ℝ} (heta : petrosianProfile r e n = eta) {ε : ℝ} (hε : 0 < ε) :
    ∀ᶠ s : ℝ × ℝ × ℝ × ℝ in 𝓝 (a, e, n, ell), ∀ r', 0 < r' → petrosianProfile r' s.2.1 s.2.2.1 = eta → |r' - r| < ε := by
  have hlo : 0 < max (r - ε) (r / 2) := lt_max_of_lt_right (by linarith)
  have hlo' : max (r - ε) (r / 2) < r := max_lt (by linarith) (by linarith)
  have h1 : eta < petrosianProfile (max (r - ε) (r / 2)) e n := heta ▸ C67_decreasing hn he (mem_Ioi.2 hlo) (mem_Ioi.2 hr) hlo'
  have h2 : petrosianProfile (r + ε) e n < eta := heta ▸ C67_decreasing hn he (mem_Ioi.2 hr) (mem_Ioi.2 (by linarith)) (by linarith)
  have h3 : ContinuousAt (fun s : ℝ × ℝ × ℝ × ℝ => s.2.1) (a, e, n, ell) := by fun_prop
  filter_upwards [(petrosianProfile_continuousAt (a := a) (ell := ell) hlo he hn).eventually_const_lt h1,
    (petrosianProfile_continuousAt (a := a) (ell := ell) (by linarith : 0 < r + ε) he hn).eventually_lt_const h2, index_near hn, h3.eventually_const_lt he] with s g1 g2 g3 g4 r' hr' he'
  rw [← he'] at g1 g2
  have a1 := ((C67_decreasing g3 g4).lt_iff_gt (mem_Ioi.2 hr') (mem_Ioi.2 hlo)).1 g1
  have a2 := ((C67_decreasing g3 g4).lt_iff_gt (mem_Ioi.2 (by linarith : 0 < r + ε)) (mem_Ioi.2 hr')).1 g2
  rw [abs_sub_lt_iff]
  have := le_max_left (r - ε) (r / 2)
  constructor <;> linarith

end Verif.Lemmas

import Verif.Props.RoundingCurve
import Verif.Props.RoundingPhotometry

/-!
# C148: from a pixel image to the radii in floating point arithmetic
-/

set_option linter.unusedSectionVars false
set_option linter.unusedVariables false

namespace Verif.Props

open Verif F Spec Lemmas MeasureTheory Real

variable {I : ℝ → ℝ}

/-- A disc whose flux and area are known to `μ`. -/
theorem measured_disc (G : Galaxy I) {q s b : ℝ} (hq : 0 < q) (hs : 0 < s) (hb : 0 < b) {W A Fl κ μ c : ℝ} (hκ0 : 0 ≤ κ)
    (hdisc : |W - s ^ 2 * enclosed I q b| ≤ κ * (π * q * (s * b) ^ 2)) (hA : |A - π * q * (s * b) ^ 2| ≤ μ) (hF : |Fl - W| ≤ μ)
    (hμ : μ ≤ c * (π * q * (s * b) ^ 2)) (hc : c ≤ 1 / 2) (hτ : 2 * κ + 2 * c * (1 + I 0) ≤ I b / 2) :
    0 < A ∧ 0 < Fl ∧ |Fl / A - enclosed I q b / (π * q * b ^ 2)| ≤ 2 * κ + 2 * c * (1 + I 0) := by
  have hp := Real.pi_pos
  have hIb : 0 < I b := G.pos b hb.le
  have hI0 : 0 < I 0 := G.pos 0 le_rfl
  set α := π * q * (s * b) ^ 2 with hα
  have hα0 : 0 < α := by positivity
  have hμ0 : 0 ≤ μ := (abs_nonneg _).trans hA
  have hB : 0 < π * q * b ^ 2 := by positivity
  set M := enclosed I q b / (π * q * b ^ 2) with hM
  obtain ⟨gr1, gr2⟩ := gal_ring G hq le_rfl hb.le
  rw [gal_zero] at gr1 gr2
  have hMB : M ≤ I 0 := by rw [hM, div_le_iff₀ hB]; linarith
  have hMb : I b ≤ M := by rw [hM, le_div_iff₀ hB]; linarith
  have eM : s ^ 2 * enclosed I q b / α = M := by
    rw [hM, hα]
    have e1 : π * q * (s * b) ^ 2 = s ^ 2 * (π * q * b ^ 2) := by ring
    rw [e1, mul_div_mul_left _ _ (by positivity)]
  have hF' : |Fl - s ^ 2 * enclosed I q b| ≤ κ * α + μ := by
    have e : Fl - s ^ 2 * enclosed I q b = (Fl - W) + (W - s ^ 2 * enclosed I q b) := by ring
    rw [e]
    exact (abs_add_le _ _).trans (by linarith)
  have h2μ : 2 * μ ≤ α := by
    have := mul_le_mul_of_nonneg_right hc hα0.le
    linarith
  obtain ⟨c1, c2⟩ := mean_close (κ := κ) (B := I 0) hα0 le_rfl hμ0 h2μ hκ0 (by rw [eM]; linarith) (by rw [eM]; exact hMB) hF' hA
  rw [eM] at c2
  have h3 : 2 * μ * (1 + I 0) / α ≤ 2 * c * (1 + I 0) := by
    rw [div_le_iff₀ hα0]
    have := mul_le_mul_of_nonneg_right hμ (by linarith : (0 : ℝ) ≤ 2 * (1 + I 0))
    linarith
  have h4 : |Fl / A - M| ≤ 2 * κ + 2 * c * (1 + I 0) := c2.trans (by linarith)
  refine ⟨c1, ?_, h4⟩
  by_contra hcon
  have := div_nonpos_of_nonpos_of_nonneg (not_lt.1 hcon) c1.le
  have := (abs_le.1 h4).1
  linarith

/-- One entry of the profile from fluxes and areas that are known to `μ / 2`. -/
theorem measured_ratio (G : Galaxy I) {q s a b : ℝ} (hq : 0 < q) (hs : 0 < s) (ha : 0 < a) (hab : a < b) {Wa Wb Aa Ab Fa Fb κ μ c : ℝ}
    (hκ0 : 0 ≤ κ)
    (hring : |Wb - Wa - (s ^ 2 * enclosed I q b - s ^ 2 * enclosed I q a)| ≤ κ * (π * q * (s * b) ^ 2 - π * q * (s * a) ^ 2))
    (hdisc : |Wb - s ^ 2 * enclosed I q b| ≤ κ * (π * q * (s * b) ^ 2))
    (hAa : |Aa - π * q * (s * a) ^ 2| ≤ μ / 2) (hAb : |Ab - π * q * (s * b) ^ 2| ≤ μ / 2) (hFa : |Fa - Wa| ≤ μ / 2) (hFb : |Fb - Wb| ≤ μ / 2)
    (hμ : μ ≤ c * (π * q * (s * b) ^ 2 - π * q * (s * a) ^ 2)) (hc0 : 0 ≤ c) (hc : c ≤ 1 / 2) (hτ : 2 * κ + 2 * c * (1 + I 0) ≤ I b / 2) :
    Aa < Ab ∧ 0 < Ab ∧ 0 < Fb ∧ ∃ v, ratio Aa Fa Ab Fb = fin v ∧
      petroRatio I b - 4 * (2 * κ + 2 * c * (1 + I 0)) / I b ≤ v ∧ v ≤ mixRatio I a b + 4 * (2 * κ + 2 * c * (1 + I 0)) / I b := by
  have hp := Real.pi_pos
  have hb : 0 < b := ha.trans hab
  have hIb : 0 < I b := G.pos b hb.le
  have hI0 : 0 < I 0 := G.pos 0 le_rfl
  have hμ0 : 0 ≤ μ := by linarith [(abs_nonneg _).trans hAa]
  set αa := π * q * (s * a) ^ 2 with hαa
  set αb := π * q * (s * b) ^ 2 with hαb
  have hαa0 : 0 < αa := by positivity
  have hsq : a ^ 2 < b ^ 2 := pow_lt_pow_left₀ hab ha.le (by norm_num)
  have hA : 0 < π * q * b ^ 2 - π * q * a ^ 2 := by
    rw [← mul_sub]; exact mul_pos (mul_pos hp hq) (sub_pos.2 hsq)
  have hB : 0 < π * q * b ^ 2 := by positivity
  have eα : αb - αa = s ^ 2 * (π * q * b ^ 2 - π * q * a ^ 2) := by rw [hαa, hαb]; ring
  have hω : 0 < αb - αa := by rw [eα]; positivity
  -- the disc
  obtain ⟨c2a, c2f, c2b⟩ := measured_disc G hq hs hb hκ0 hdisc (hAb.trans (by linarith)) (hFb.trans (by linarith))
    (hμ.trans (mul_le_mul_of_nonneg_left (by linarith) hc0)) hc hτ
  set τ := 2 * κ + 2 * c * (1 + I 0) with hτdef
  -- the true numbers
  obtain ⟨v0, hv0, b1, b2, b3⟩ := gal_ratio G hq ha.le hab
  set Ea := enclosed I q a
  set Eb := enclosed I q b
  have hEb : 0 < Eb := gal_pos G hq hb
  have hEab : Ea < Eb := gal_strictMono G hq (Set.mem_Ici.2 ha.le) (Set.mem_Ici.2 hb.le) hab
  have hMt : 0 < Eb / (π * q * b ^ 2) := div_pos hEb hB
  have hv0' : v0 = (Eb - Ea) / (π * q * b ^ 2 - π * q * a ^ 2) / (Eb / (π * q * b ^ 2)) := by
    unfold ratio at hv0
    rw [F.fin_div_of_ne _ hA.ne', F.fin_div_of_ne _ hB.ne', F.fin_div_of_ne _ hMt.ne'] at hv0
    injection hv0 with hv0
    exact hv0.symm
  set m := (Eb - Ea) / (π * q * b ^ 2 - π * q * a ^ 2) with hm
  set M := Eb / (π * q * b ^ 2) with hM
  have hm0 : 0 ≤ m := (div_pos (by linarith) hA).le
  have hmM : m ≤ M := by rw [hv0', div_le_one hMt] at b3; exact b3
  obtain ⟨gr1, gr2⟩ := gal_ring G hq le_rfl hb.le
  rw [gal_zero] at gr1 gr2
  have hMB : M ≤ I 0 := by rw [hM, div_le_iff₀ hB]; linarith
  have hMb : I b ≤ M := by rw [hM, le_div_iff₀ hB]; linarith
  have em : (s ^ 2 * Eb - s ^ 2 * Ea) / (αb - αa) = m := by
    rw [hm, eα, ← mul_sub, mul_div_mul_left _ _ (by positivity)]
  have a1 := abs_le.1 hAa
  have a2 := abs_le.1 hAb
  have f1 := abs_le.1 hFa
  have f2 := abs_le.1 hFb
  have r1 := abs_le.1 hring
  have h2μ : 2 * μ ≤ αb - αa := by
    have := mul_le_mul_of_nonneg_right hc hω.le
    linarith
  obtain ⟨c1a, c1b⟩ := mean_close (Fl := Fb - Fa) (E := s ^ 2 * Eb - s ^ 2 * Ea) (A := Ab - Aa) (α := αb - αa) (κ := κ) (μ := μ) (B := I 0)
    hω le_rfl hμ0 h2μ hκ0 (by rw [em]; exact hm0) (by rw [em]; exact hmM.trans hMB)
    (by rw [abs_le]; constructor <;> linarith [f1.1, f1.2, f2.1, f2.2, r1.1, r1.2])
    (by rw [abs_le]; constructor <;> linarith [a1.1, a1.2, a2.1, a2.2])
  rw [em] at c1b
  have h3 : 2 * μ * (1 + I 0) / (αb - αa) ≤ 2 * c * (1 + I 0) := by
    rw [div_le_iff₀ hω]
    have := mul_le_mul_of_nonneg_right hμ (by linarith : (0 : ℝ) ≤ 2 * (1 + I 0))
    linarith
  have c1c : |(Fb - Fa) / (Ab - Aa) - m| ≤ τ := c1b.trans (by rw [hτdef]; linarith)
  obtain ⟨d1, d2⟩ := ratio_close hIb hMb hm0 hmM c1c c2b hτ
  rw [← hv0'] at d2
  have d3 := abs_le.1 d2
  refine ⟨by linarith, c2a, c2f, (Fb - Fa) / (Ab - Aa) / (Fb / Ab), ?_, by linarith [d3.1], by linarith [d3.2]⟩
  unfold ratio
  rw [F.fin_div_of_ne _ c1a.ne', F.fin_div_of_ne _ c2a.ne', F.fin_div_of_ne _ d1.ne']

/-- Exact sums over the apertures of an image close to a sampled galaxy. -/
noncomputable def idealSum (cx cy ellip theta : ℝ) (h w : Nat) (f : Nat → Nat → ℝ) (r : ℝ) : ℝ :=
  weightedSum (exactOverlap.weight ⟨cx, cy, r, r * (1 - ellip), theta⟩) h w (fun _ _ => true) f

/-- Discs and rings of an image close to a sampled galaxy. -/
theorem ideal_near (G : Galaxy I) {ellip : ℝ} (he0 : 0 ≤ ellip) (he1 : ellip < 1) {s b : ℝ} (hs : 0 < s) (hb : 0 < b)
    {cx cy theta : ℝ} {h w : Nat} (hf : OnFrame (⟨cx, cy, s * b, s * b * (1 - ellip), theta⟩ : Ellipse ℝ).set h w) {κ : ℝ} (hκ0 : 0 ≤ κ)
    (hκ : ∀ x y, 0 ≤ x → x ≤ b + 1 / (s * (1 - ellip)) → 0 ≤ y → y ≤ b → |x - y| ≤ 1 / (s * (1 - ellip)) → |I x - I y| ≤ κ)
    {f : Nat → Nat → ℝ} {n : ℝ} (hfn : ∀ i j, i < h → j < w → |f i j - I (ellRadius j i cx cy ellip theta / s)| ≤ n) :
    |idealSum cx cy ellip theta h w f (s * b) - s ^ 2 * enclosed I (1 - ellip) b| ≤ (κ + n) * (π * (1 - ellip) * (s * b) ^ 2) ∧
    ∀ a, 0 < a → a ≤ b →
      |idealSum cx cy ellip theta h w f (s * b) - idealSum cx cy ellip theta h w f (s * a) -
        (s ^ 2 * enclosed I (1 - ellip) b - s ^ 2 * enclosed I (1 - ellip) a)| ≤
      (κ + n) * (π * (1 - ellip) * (s * b) ^ 2 - π * (1 - ellip) * (s * a) ^ 2) := by
  have hq : 0 < 1 - ellip := by linarith
  have hsb : 0 < s * b := mul_pos hs hb
  set q := 1 - ellip with hqdef
  set g : ℝ × ℝ → ℝ := fun p => I (ellRadius p.1 p.2 cx cy ellip theta / s) with hg
  have hgc : Continuous g := by
    have : ContinuousOn I (Set.Ici 0) := G.cont
    refine this.comp_continuous ((ellRadius_continuous cx cy ellip theta).div_const s) fun p => ?_
    exact Set.mem_Ici.2 (div_nonneg (ellRadius_nonneg _ _ _ _ _ _) hs.le)
  set eb : Ellipse ℝ := ⟨cx, cy, s * b, s * b * q, theta⟩ with heb
  have hbd : eb.set ⊆ Set.Icc (-1 / 2) ((w : ℝ) - 1 / 2) ×ˢ Set.Icc (-1 / 2) ((h : ℝ) - 1 / 2) := by
    intro p hp
    obtain ⟨p1, p2, p3, p4⟩ := hf p hp
    exact ⟨⟨p1.le, p2⟩, p3.le, p4⟩
  have hgi : IntegrableOn g eb.set :=
    (hgc.locallyIntegrable.integrableOn_isCompact (isCompact_Icc.prod isCompact_Icc)).mono_set hbd
  have hpix : ∀ i j, i < h → j < w → ∀ p ∈ pixelSquare i j, p ∈ eb.set → |f i j - g p| ≤ κ + n := by
    intro i j hi hj p hp hpe
    have h1 := ellRadius_pixel (x0 := cx) (y0 := cy) (theta := theta) he0 he1 hp
    have h2 := ellRadius_inside hsb he1 hpe
    have e1 : 1 / (s * q) = 1 / q / s := by field_simp
    have h3 : |ellRadius j i cx cy ellip theta / s - ellRadius p.1 p.2 cx cy ellip theta / s| ≤ 1 / (s * q) := by
      rw [← sub_div, abs_div, abs_of_pos hs, e1]
      exact div_le_div_of_nonneg_right h1 hs.le
    have h4 : ellRadius p.1 p.2 cx cy ellip theta / s ≤ b := by
      rw [div_le_iff₀ hs]; linarith
    have h5 := hκ _ _ (div_nonneg (ellRadius_nonneg (j : ℝ) i cx cy ellip theta) hs.le) (by have := (abs_le.1 h3).2; linarith)
      (div_nonneg (ellRadius_nonneg p.1 p.2 cx cy ellip theta) hs.le) h4 h3
    have e2 : f i j - g p = (f i j - I (ellRadius j i cx cy ellip theta / s)) + (I (ellRadius j i cx cy ellip theta / s) - g p) := by ring
    rw [e2]
    refine (abs_add_le _ _).trans ?_
    linarith [hfn i j hi hj]
  have hint : ∀ x, 0 < x → ∫ p in (⟨cx, cy, s * x, s * x * q, theta⟩ : Ellipse ℝ).set, g p = s ^ 2 * enclosed I q x := by
    intro x hx
    rw [← enclosed_scale I q hs x, ← integral_isophote (x0 := cx) (y0 := cy) (theta := theta) (fun t => I (t / s)) (mul_pos hs hx) he1]
  constructor
  · have hdisc := weightedSum_close eb hsb (mul_pos hsb hq) h w hf (f := f) hgi hpix
    rw [hint b hb] at hdisc
    change |idealSum cx cy ellip theta h w f (s * b) - _| ≤ (κ + n) * (π * (s * b) * (s * b * q)) at hdisc
    rw [show π * (s * b) * (s * b * q) = π * q * (s * b) ^ 2 by ring] at hdisc
    exact hdisc
  · intro a ha hab
    have hring := ring_close (mul_pos hs ha) (mul_le_mul_of_nonneg_left hab hs.le) hq h w hf (f := f) hgi hpix
    rw [hint b hb, hint a ha] at hring
    exact hring

/-- Sums with slightly wrong weights. -/
theorem weightedSum_weightError {h w : Nat} {wt wt' f : Nat → Nat → ℝ} {B : ℝ} (hB : ∀ i j, i < h → j < w → |f i j| ≤ B) :
    |weightedSum wt h w (fun _ _ => true) f - weightedSum wt' h w (fun _ _ => true) f| ≤ B * weightError h w wt wt' := by
  unfold weightedSum weightError
  rw [← Finset.sum_sub_distrib, Finset.mul_sum]
  refine (Finset.abs_sum_le_sum_abs _ _).trans (Finset.sum_le_sum fun i hi => ?_)
  rw [← Finset.sum_sub_distrib, Finset.mul_sum]
  refine (Finset.abs_sum_le_sum_abs _ _).trans (Finset.sum_le_sum fun j hj => ?_)
  simp only [if_true]
  rw [← mul_sub, abs_mul]
  exact mul_le_mul_of_nonneg_right (hB i j (Finset.mem_range.1 hi) (Finset.mem_range.1 hj)) (abs_nonneg _)

theorem photError_mono {u : ℝ} (hu0 : 0 ≤ u) (h w : Nat) {α α' : ℝ} (hα : α ≤ α') (τ : ℝ) : photError u h w α τ ≤ photError u h w α' τ := by
  unfold photError
  have : (1 : ℝ) ≤ (1 + u) ^ (28 + Nat.log 2 (h * w - 15)) := one_le_pow₀ (by linarith)
  have := mul_le_mul_of_nonneg_left (show α + τ ≤ α' + τ by linarith) (show (0 : ℝ) ≤ (1 + u) ^ (28 + Nat.log 2 (h * w - 15)) - 1 by linarith)
  linarith

/-- What `radial_photometry` measures in rounded arithmetic, compared with exact sums over the intended apertures. -/
theorem measured_sum {fl : ℝ → ℝ} {u : ℝ} (hu0 : 0 ≤ u) (hu1 : u ≤ 1) {ov : Overlap ℝ} {e e' : Ellipse ℝ}
    (h0 : ∀ e i j, 0 ≤ ov.weight e i j) {h w : Nat} {f : Nat → Nat → ℝ} {B τ V : ℝ} (hB1 : 1 ≤ B) (hB : ∀ i j, i < h → j < w → |f i j| ≤ B)
    (ha : 0 < e'.a) (hb : 0 < e'.b) (hf : OnFrame e'.set h w) (hwe : weightError h w (ov.weight e) (exactOverlap.weight e') ≤ τ)
    (hV : |V - weightedSum (ov.weight e) h w (fun _ _ => true) f| ≤ (1 + u) / 2 / 10 ^ 6 +
      ((1 + u) ^ (28 + Nat.log 2 (h * w - 15)) - 1) * weightedSum (ov.weight e) h w (fun _ _ => true) fun i j => |f i j|) :
    |V - weightedSum (exactOverlap.weight e') h w (fun _ _ => true) f| ≤ B * photError u h w (π * e'.a * e'.b) τ := by
  have hB0 : 0 ≤ B := by linarith
  have h1 := (weightedSum_weightError (wt := ov.weight e) (wt' := exactOverlap.weight e') hB).trans (mul_le_mul_of_nonneg_left hwe hB0)
  have h2 : weightedSum (ov.weight e) h w (fun _ _ => true) (fun i j => |f i j|) ≤ B * (π * e'.a * e'.b + τ) := by
    have h3 : weightedSum (ov.weight e) h w (fun _ _ => true) (fun i j => |f i j|) ≤ B * weightedSum (ov.weight e) h w (fun _ _ => true) fun _ _ => 1 := by
      unfold weightedSum
      rw [Finset.mul_sum]
      refine Finset.sum_le_sum fun i hi => ?_
      rw [Finset.mul_sum]
      refine Finset.sum_le_sum fun j hj => ?_
      simp only [if_true, one_mul]
      exact mul_le_mul_of_nonneg_right (hB i j (Finset.mem_range.1 hi) (Finset.mem_range.1 hj)) (h0 _ _ _)
    have h4 := (weightedSum_weightError (wt := ov.weight e) (wt' := exactOverlap.weight e') (h := h) (w := w) (f := fun _ _ => 1) (B := 1)
      (fun _ _ _ _ => by simp))
    rw [weightedSum_onFrame e' ha hb h w hf 1, one_mul, one_mul] at h4
    have h5 := (abs_le.1 h4).2
    exact h3.trans (mul_le_mul_of_nonneg_left (by linarith) hB0)
  have hp : (0 : ℝ) ≤ (1 + u) ^ (28 + Nat.log 2 (h * w - 15)) - 1 := sub_nonneg.2 (one_le_pow₀ (by linarith))
  have h6 := mul_le_mul_of_nonneg_left h2 hp
  have h7 : (1 + u) / 2 / 10 ^ 6 ≤ B * (1 / 10 ^ 6) := by
    have : (1 + u) / 2 ≤ B := by linarith
    rw [mul_one_div]
    exact div_le_div_of_nonneg_right this (by positivity)
  have e1 : V - weightedSum (exactOverlap.weight e') h w (fun _ _ => true) f = (V - weightedSum (ov.weight e) h w (fun _ _ => true) f) +
    (weightedSum (ov.weight e) h w (fun _ _ => true) f - weightedSum (exactOverlap.weight e') h w (fun _ _ => true) f) := by ring
  rw [e1]
  refine (abs_add_le _ _).trans ?_
  unfold photError
  linarith

/-- Six roundings change a number of at most 2 by at most `14 u`. -/
theorem five_roundings {u : ℝ} (hu0 : 0 ≤ u) (hu1 : u ≤ 1 / 10) {v eta : ℝ} (h2 : |eta| ≤ 2) (h0 : 0 ≤ v * eta)
    (hl : (1 - u) ^ 3 / (1 + u) ^ 2 * |eta| ≤ |v|) (hr : |v| ≤ (1 + u) ^ 3 / (1 - u) ^ 2 * |eta|) : |v - eta| ≤ 14 * u := by
  have hu2 : 0 ≤ u ^ 2 := sq_nonneg u
  have p1 : (1 + u) ^ 3 / (1 - u) ^ 2 ≤ 1 + 7 * u := by
    have : 0 < 1 - u := by linarith
    rw [div_le_iff₀ (by positivity)]
    nlinarith [mul_nonneg hu0 hu2, mul_nonneg hu0 (by linarith : 0 ≤ 1 / 10 - u)]
  have p2 : 1 - 7 * u ≤ (1 - u) ^ 3 / (1 + u) ^ 2 := by
    rw [le_div_iff₀ (by positivity)]
    nlinarith [mul_nonneg hu0 hu2, mul_nonneg hu0 (by linarith : 0 ≤ 1 / 10 - u)]
  have q1 := hr.trans (mul_le_mul_of_nonneg_right p1 (abs_nonneg _))
  have q2 := (mul_le_mul_of_nonneg_right p2 (abs_nonneg eta)).trans hl
  have q3 : u * |eta| ≤ u * 2 := mul_le_mul_of_nonneg_left h2 hu0
  have key : |v - eta| = |(|v| - |eta|)| := by
    rcases le_total 0 eta with h | h
    · rcases h.eq_or_lt with h' | h'
      · rw [← h']; simp
      · have hv : 0 ≤ v := by
          by_contra hcon
          have := mul_neg_of_neg_of_pos (not_le.1 hcon) h'
          linarith
        rw [abs_of_nonneg h, abs_of_nonneg hv]
    · rcases h.eq_or_lt with h' | h'
      · rw [h']; simp
      · have hv : v ≤ 0 := by
          by_contra hcon
          have := mul_neg_of_pos_of_neg (not_le.1 hcon) h'
          linarith
        rw [abs_of_nonpos h, abs_of_nonpos hv, show -v - -eta = -(v - eta) by ring, abs_neg]
  rw [key, abs_le]
  constructor <;> linarith

/-- Enough pixels: the error allowed for flux and area stays below `c` times the area of each ring, and of the first aperture. -/
def Roomy (c u q s τ : ℝ) (h w : Nat) (R : List ℝ) : Prop :=
  (∀ h0 : 0 < R.length, photError u h w (π * q * (s * R[0]) ^ 2) τ ≤ c * (π * q * (s * R[0]) ^ 2)) ∧
  ∀ i (hi : i + 1 < R.length), photError u h w (π * q * (s * R[i + 1]) ^ 2) τ ≤ c * (π * q * (s * R[i + 1]) ^ 2 - π * q * (s * R[i]) ^ 2)

/-- The apertures that the code measures: centre `(cx', cy')`, angle `theta'` and elongation as passed by the caller, pixel weights of `ov`. On the
frame they differ from exact weights of the intended apertures (centre `(cx, cy)`, angle `theta`, ellipticity `ellip`) by at most `τ` in total. -/
structure GoodApertures (fl : ℝ → ℝ) (ov : Overlap ℝ) (s cx cy ellip theta cx' cy' elong theta' τ : ℝ) (h w : Nat) (R : List ℝ) : Prop where
  nonneg : ∀ e i j, 0 ≤ ov.weight e i j
  long : 0 < elong
  frame : ∀ r ∈ R, OnFrame (⟨cx, cy, s * r, s * r * (1 - ellip), theta⟩ : Ellipse ℝ).set h w
  hits : ∀ r ∈ R, ov.hits ⟨cx', cy', s * r, fl (s * r / elong), theta'⟩ h w = true
  close : ∀ r ∈ R, weightError h w (ov.weight ⟨cx', cy', s * r, fl (s * r / elong), theta'⟩)
    (exactOverlap.weight ⟨cx, cy, s * r, s * r * (1 - ellip), theta⟩) ≤ τ

set_option maxHeartbeats 1000000 in
/-- Photometry and profile of a pixel image of a galaxy in rounded arithmetic. -/
theorem measured_image (G : Galaxy I) {ellip : ℝ} (he0 : 0 ≤ ellip) (he1 : ellip < 1) {T σ : ℝ} (hT0 : 0 < T) (hσ : 0 < σ) (hσ1 : σ ≤ 1) :
    ∃ δ > 0, ∃ s0 > 0, ∃ c0 > 0, ∀ s ≥ s0, ∀ (fl : ℝ → ℝ) (u : ℝ), Rounding fl → RelErr u fl → 0 ≤ u → u ≤ c0 →
      ∀ R, Fine δ R → (∀ r ∈ R, r ≤ T) →
      ∀ (h w : Nat) (cx cy theta : ℝ) (f : Nat → Nat → ℝ), (∀ i j, i < h → j < w → |f i j - I (ellRadius j i cx cy ellip theta / s)| ≤ c0) →
      ∀ (ov : Overlap ℝ) (cx' cy' elong theta' τ : ℝ), GoodApertures fl ov s cx cy ellip theta cx' cy' elong theta' τ h w R →
      Roomy c0 u (1 - ellip) s τ h w R →
      ∃ (V A : List ℝ) (E p : List (F ℝ)) (hl : R.length = V.length),
        radialPhotometryR fl ov ⟨h, w, fun i j => fin (f i j)⟩ cx' cy' (R.map fun r => s * r) none none elong theta' =
          .ok (V.map fin, A.map fin, E) ∧
        calculatePetrosianFl fl (A.map fin) (V.map fin) = .ok p ∧ p.length = R.length ∧
        (∀ i (h : i + 1 < R.length), ∃ v, p[i + 1]? = some (fin v) ∧ |v - petroRatio I R[i + 1]| ≤ σ) ∧
        ∀ i (h : i < R.length), |V[i] - s ^ 2 * enclosed I (1 - ellip) R[i]| ≤ s ^ 2 * σ := by
  have hp := Real.pi_pos
  have hq : 0 < 1 - ellip := by linarith
  have hI0 : 0 < I 0 := G.pos 0 le_rfl
  set B := I 0 + 1 with hB
  have hB0 : 0 < B := by linarith
  set Q := π * (1 - ellip) * T ^ 2 with hQ
  have hQ0 : 0 < Q := by positivity
  have hM00 : 0 < I T := G.pos T hT0.le
  set τ' := min (I T / 2) (σ * I T / 16) with hτ'
  have hτ'0 : 0 < τ' := lt_min (by linarith) (by positivity)
  have t1 : τ' ≤ I T / 2 := min_le_left _ _
  have t2 : τ' ≤ σ * I T / 16 := min_le_right _ _
  set c := min (1 / 2) (τ' / (4 * (1 + I 0))) with hc
  have hc0 : 0 < c := lt_min (by norm_num) (by positivity)
  have hc1 : c ≤ 1 / 2 := min_le_left _ _
  have hc2 : 2 * c * (1 + I 0) ≤ τ' / 2 := by
    have h1 : c ≤ τ' / (4 * (1 + I 0)) := min_le_right _ _
    rw [le_div_iff₀ (by positivity)] at h1
    linarith
  set κ := min (τ' / 8) (σ / (4 * Q)) with hκ
  have hκ0 : 0 < κ := lt_min (by linarith) (by positivity)
  have k1 : κ ≤ τ' / 8 := min_le_left _ _
  have k2 : κ * Q ≤ σ / 4 := by
    have h1 : κ ≤ σ / (4 * Q) := min_le_right _ _
    rw [le_div_iff₀ (by positivity)] at h1
    linarith
  obtain ⟨δ, hδ, hmix⟩ := mixRatio_close G hT0 (show 0 < σ / 4 by linarith)
  obtain ⟨ν, hν, hmod⟩ := gal_modulus G (T + 1) hκ0
  set s0 := max (1 / (ν * (1 - ellip))) (1 / (1 - ellip)) with hs0
  have hs00 : 0 < s0 := lt_max_of_lt_right (by positivity)
  set c0 := min (c / (2 * B)) (min κ (min (1 / 10) (min (σ / 56) (σ / (2 * Q * B))))) with hc0'
  have hc00 : 0 < c0 := lt_min (by positivity) (lt_min hκ0 (lt_min (by norm_num) (lt_min (by positivity) (by positivity))))
  have e1 : 2 * B * c0 ≤ c := by
    have h1 : c0 ≤ c / (2 * B) := min_le_left _ _
    rw [le_div_iff₀ (by positivity)] at h1
    linarith
  have e2 : c0 ≤ κ := (min_le_right _ _).trans (min_le_left _ _)
  have e3 : c0 ≤ 1 / 10 := (min_le_right _ _).trans ((min_le_right _ _).trans (min_le_left _ _))
  have e4 : 14 * c0 ≤ σ / 4 := by
    have h1 : c0 ≤ σ / 56 := (min_le_right _ _).trans ((min_le_right _ _).trans ((min_le_right _ _).trans (min_le_left _ _)))
    linarith
  have e5 : c0 * B * Q ≤ σ / 2 := by
    have h1 : c0 ≤ σ / (2 * Q * B) := (min_le_right _ _).trans ((min_le_right _ _).trans ((min_le_right _ _).trans (min_le_right _ _)))
    rw [le_div_iff₀ (by positivity)] at h1
    linarith
  clear_value c0 κ c τ'
  refine ⟨δ, hδ, s0, hs00, c0, hc00, ?_⟩
  intro s hs fl u hfl hu hu0 huc R hR hRT h w cx cy theta f hf ov cx' cy' elong theta' τ hap hroom
  have hsp : 0 < s := lt_of_lt_of_le hs00 hs
  have h3 := hR.three
  have hu1 : u ≤ 1 / 10 := huc.trans e3
  have hpos : ∀ r ∈ R, 0 < r := by
    intro r hr
    obtain ⟨i, hi, rfl⟩ := List.getElem_of_mem hr
    exact hR.pos hi
  have hstep1 : 1 / (s * (1 - ellip)) ≤ ν := by
    have : 1 / (ν * (1 - ellip)) ≤ s := (le_max_left _ _).trans hs
    rw [div_le_iff₀ (by positivity)] at this ⊢
    linarith
  have hstep2 : 1 / (s * (1 - ellip)) ≤ 1 := by
    have : 1 / (1 - ellip) ≤ s := (le_max_right _ _).trans hs
    rw [div_le_iff₀ (by positivity)] at this ⊢
    linarith
  have hmod' : ∀ b, b ≤ T → ∀ x y, 0 ≤ x → x ≤ b + 1 / (s * (1 - ellip)) → 0 ≤ y → y ≤ b → |x - y| ≤ 1 / (s * (1 - ellip)) →
      |I x - I y| ≤ κ := fun b hb x y hx hxb hy hyb hxy =>
    hmod x y hx (by linarith) hy (by linarith) (hxy.trans hstep1)
  have hfB : ∀ i j, i < h → j < w → |f i j| ≤ B := by
    intro i j hi hj
    have h1 := abs_le.1 (hf i j hi hj)
    have hx : 0 ≤ ellRadius j i cx cy ellip theta / s := div_nonneg (ellRadius_nonneg _ _ _ _ _ _) hsp.le
    have h2 := G.pos _ hx
    have h3 : I (ellRadius j i cx cy ellip theta / s) ≤ I 0 := G.falls.antitoneOn (Set.mem_Ici.2 le_rfl) (Set.mem_Ici.2 hx) hx
    rw [abs_le]
    constructor <;> linarith [h1.1, h1.2]
  -- the photometry returns
  obtain ⟨F', A', E', hok⟩ := C147_returns (fl := fl) (ov := ov) (h := h) (w := w) (f := f) (cx := cx') (cy := cy') (q := elong) (t := theta')
    (rs := R.map fun r => s * r) (error := none) (mask := none) hap.long.ne' rfl rfl (by
      intro x hx
      obtain ⟨r, hr, rfl⟩ := List.mem_map.1 hx
      have h1 : 0 < s * r := mul_pos hsp (hpos r hr)
      exact ⟨h1, pos_of_relErr hfl hu (by linarith) (div_pos h1 hap.long), hap.hits r hr⟩)
  obtain ⟨V, A, rfl, rfl, lV, lA, hacc⟩ := C147_accuracy hu hu0 hap.nonneg hok
  rw [List.length_map] at lV lA
  set α : ℝ → ℝ := fun r => π * (1 - ellip) * (s * r) ^ 2 with hα
  have hαe : ∀ r, π * (s * r) * (s * r * (1 - ellip)) = α r := fun r => by rw [hα]; ring
  -- fluxes and areas
  have hVA : ∀ i (hi : i < R.length),
      |V[i] - idealSum cx cy ellip theta h w f (s * R[i])| ≤ B * photError u h w (α R[i]) τ ∧
      |A[i] - α R[i]| ≤ B * photError u h w (α R[i]) τ := by
    intro i hi
    have hr := List.getElem_mem hi
    have hsr : 0 < s * R[i] := mul_pos hsp (hpos _ hr)
    have hac := hacc i (by simpa using hi) (by omega) (by omega)
    simp only [List.getElem_map] at hac
    have m1 := measured_sum (fl := fl) (e' := ⟨cx, cy, s * R[i], s * R[i] * (1 - ellip), theta⟩) hu0 (by linarith) hap.nonneg (by linarith) hfB hsr
      (mul_pos hsr hq) (hap.frame _ hr) (hap.close _ hr) hac.1
    have m2 := measured_sum (fl := fl) (e' := ⟨cx, cy, s * R[i], s * R[i] * (1 - ellip), theta⟩) (f := fun _ _ => 1) (B := B) hu0 (by linarith)
      hap.nonneg (by linarith) (fun _ _ _ _ => by rw [abs_one]; linarith) hsr
      (mul_pos hsr hq) (hap.frame _ hr) (hap.close _ hr) (by simp only [abs_one]; exact hac.2)
    rw [weightedSum_onFrame _ hsr (mul_pos hsr hq) h w (hap.frame _ hr) 1, one_mul] at m2
    simp only [hαe] at m1 m2
    exact ⟨m1, m2⟩
  have hαm : ∀ i (hi : i + 1 < R.length), α R[i] < α R[i + 1] := by
    intro i hi
    have h1 := hR.pos (i := i) (by omega)
    have h2 := (hR.step i hi).1
    have h3 : (s * R[i]) ^ 2 < (s * R[i + 1]) ^ 2 := pow_lt_pow_left₀ (mul_lt_mul_of_pos_left h2 hsp) (by positivity) (by norm_num)
    rw [hα]
    exact mul_lt_mul_of_pos_left h3 (by positivity)
  have hα0 : ∀ i (hi : i < R.length), 0 < α R[i] := by
    intro i hi
    have := hR.pos hi
    rw [hα]; positivity
  have hIb : ∀ b, 0 < b → b ≤ T → I T ≤ I b := fun b hb hbT => G.falls.antitoneOn (Set.mem_Ici.2 hb.le) (Set.mem_Ici.2 hT0.le) hbT
  have hnear := fun i (hi : i < R.length) => ideal_near G he0 he1 hsp (hR.pos hi) (hap.frame _ (List.getElem_mem hi)) hκ0.le
    (hmod' _ (hRT _ (List.getElem_mem hi))) hf
  have hτ2 : ∀ i (hi : i < R.length), 2 * (κ + c0) + 2 * c * (1 + I 0) ≤ I R[i] / 2 := by
    intro i hi
    have := hIb _ (hR.pos hi) (hRT _ (List.getElem_mem hi))
    linarith
  -- the entries
  have hentry : ∀ i (hi : i + 1 < R.length), A[i] < A[i + 1] ∧ 0 < A[i + 1] ∧ 0 < V[i + 1] ∧
      ∃ v, ratio A[i] V[i] A[i + 1] V[i + 1] = fin v ∧ petroRatio I R[i + 1] - σ / 4 ≤ v ∧ v ≤ petroRatio I R[i + 1] + σ / 4 + σ / 4 := by
    intro i hi
    have hi' : i < R.length := by omega
    have ha := hR.pos hi'
    have hb := hR.pos hi
    have hst := hR.step i hi
    have hbT := hRT _ (List.getElem_mem hi)
    obtain ⟨a1, a2⟩ := hVA i hi'
    obtain ⟨b1, b2⟩ := hVA (i + 1) hi
    have hpm : B * photError u h w (α R[i]) τ ≤ B * photError u h w (α R[i + 1]) τ :=
      mul_le_mul_of_nonneg_left (photError_mono hu0 h w (hαm i hi).le τ) hB0.le
    have hroom' : 2 * (B * photError u h w (α R[i + 1]) τ) ≤ c * (α R[i + 1] - α R[i]) := by
      have h1 := mul_le_mul_of_nonneg_left (hroom.2 i hi) (show 0 ≤ 2 * B by linarith)
      have h2 := mul_le_mul_of_nonneg_right e1 (show 0 ≤ α R[i + 1] - α R[i] by linarith [hαm i hi])
      simp only [hα] at h1 h2 ⊢
      linarith
    have h2h : 2 * (B * photError u h w (α R[i + 1]) τ) / 2 = B * photError u h w (α R[i + 1]) τ := by ring
    obtain ⟨r1, r2, r3, v, hv, v1, v2⟩ := measured_ratio G hq hsp ha hst.1 (κ := κ + c0) (c := c) (by linarith) ((hnear (i + 1) hi).2 _ ha hst.1.le)
      (hnear (i + 1) hi).1 (by rw [h2h]; exact a2.trans hpm) (by rw [h2h]; exact b2) (by rw [h2h]; exact a1.trans hpm) (by rw [h2h]; exact b1)
      hroom' hc0.le hc1 (hτ2 _ hi)
    have hle : 4 * (2 * (κ + c0) + 2 * c * (1 + I 0)) / I R[i + 1] ≤ σ / 4 := by
      have hI1 := hIb _ hb hbT
      rw [div_le_iff₀ (by linarith)]
      have : σ * I T ≤ σ * I R[i + 1] := mul_le_mul_of_nonneg_left hI1 hσ.le
      linarith
    have hmx := hmix R[i] R[i + 1] ha.le hst.1.le hb hbT hst.2
    exact ⟨r1, r2, r3, v, hv, by linarith, by linarith⟩
  have hfirst : ∀ h0 : 0 < R.length, (0 : ℝ) < A[0] ∧ (0 : ℝ) < V[0] := by
    intro h0
    obtain ⟨a1, a2⟩ := hVA 0 h0
    have hroom' : B * photError u h w (α R[0]) τ ≤ c * α R[0] := by
      have h1 := mul_le_mul_of_nonneg_left (hroom.1 h0) hB0.le
      have h2 := mul_le_mul_of_nonneg_right e1 (hα0 0 h0).le
      have h3 := mul_pos (mul_pos hB0 hc00) (hα0 0 h0)
      simp only [hα] at h1 h2 h3 ⊢
      linarith
    have := measured_disc G hq hsp (hR.pos h0) (κ := κ + c0) (by linarith) (hnear 0 h0).1 a2 a1 hroom' hc1 (hτ2 _ h0)
    exact ⟨this.1, this.2.1⟩
  have hApos : ∀ i (hi : i < A.length), 0 < A[i] := by
    intro i hi
    cases i with
    | zero => exact (hfirst (by omega)).1
    | succ i => exact (hentry i (by omega)).2.1
  have hVpos : ∀ i (hi : i < V.length), 0 < V[i] := by
    intro i hi
    cases i with
    | zero => exact (hfirst (by omega)).2
    | succ i => exact (hentry i (by omega)).2.2.1
  obtain ⟨p, hpp, hpl, -, hpe⟩ := C112_accuracy hfl hu hu0 (by linarith) A V (by omega) (by omega) (fun i hi => (hentry i (by omega)).1)
    (fun a ha => by obtain ⟨i, hi, rfl⟩ := List.getElem_of_mem ha; exact hApos i hi)
    (fun a ha => by obtain ⟨i, hi, rfl⟩ := List.getElem_of_mem ha; exact hVpos i hi)
  refine ⟨V, A, E', p, lV.symm, hok, hpp, by omega, fun i hi => ?_, fun i hi => ?_⟩
  · obtain ⟨v, eta, hv, hr, w0, w1, w2⟩ := hpe i (by omega)
    obtain ⟨-, -, -, v', hv', v1, v2⟩ := hentry i hi
    rw [hv'] at hr
    injection hr with hr
    subst hr
    have hpr := petroRatio_mem G (hR.pos hi)
    refine ⟨v, hv, ?_⟩
    have h5 := abs_le.1 (five_roundings hu0 hu1 (by rw [abs_le]; constructor <;> linarith [hpr.1, hpr.2]) w0 w1 w2)
    rw [abs_le]
    constructor <;> linarith [h5.1, h5.2]
  · have h1 := (hVA i hi).1
    have h2 := (hnear i hi).1
    have hroom' : photError u h w (α R[i]) τ ≤ c0 * α R[i] := by
      cases i with
      | zero => exact hroom.1 hi
      | succ i =>
        refine (hroom.2 i hi).trans (mul_le_mul_of_nonneg_left ?_ hc00.le)
        have := hα0 i (by omega)
        simp only [hα] at this ⊢
        linarith
    have h4 : α R[i] ≤ s ^ 2 * Q := by
      have h5 : R[i] ^ 2 ≤ T ^ 2 := pow_le_pow_left₀ (hR.pos hi).le (hRT _ (List.getElem_mem hi)) 2
      have h6 := mul_le_mul_of_nonneg_left h5 (show 0 ≤ s ^ 2 * (π * (1 - ellip)) by positivity)
      simp only [hα, hQ]
      linarith
    have h7 : |V[i] - s ^ 2 * enclosed I (1 - ellip) R[i]| ≤ B * photError u h w (α R[i]) τ + (κ + c0) * α R[i] := by
      have e : V[i] - s ^ 2 * enclosed I (1 - ellip) R[i] = (V[i] - idealSum cx cy ellip theta h w f (s * R[i])) +
        (idealSum cx cy ellip theta h w f (s * R[i]) - s ^ 2 * enclosed I (1 - ellip) R[i]) := by ring
      rw [e]
      exact (abs_add_le _ _).trans (add_le_add h1 h2)
    have h8 := mul_le_mul_of_nonneg_left hroom' hB0.le
    have h9 : (B * c0 + κ + c0) * α R[i] ≤ (B * c0 + κ + κ) * (s ^ 2 * Q) :=
      mul_le_mul (by linarith) h4 (hα0 i hi).le (by positivity)
    have h10 : (B * c0 + κ + κ) * Q ≤ σ := by linarith
    have h11 := mul_le_mul_of_nonneg_left h10 (sq_nonneg s)
    linarith

set_option maxHeartbeats 600000 in
/-- **C148, from the image.** The documented recipe in floating point arithmetic. For a galaxy with brightness profile `I`, seen at ellipticity
`ellip`, and any `ε`, there are `δ`, `s0` and `c0` such that for every image scale `s ≥ s0` (pixels per unit of length), every rounding with
relative error `u ≤ c0`, all pixel values within `c0` of the sampled profile, apertures whose radii are representable, at most `δ` apart and cover
the radii sought, apertures that are as good and as roomy as `c0` asks, and every interpolation that is gentle up to its own rounding `e ≤ c0`: the
photometry, the profile, the Petrosian radius and the fraction radius of the profile return, and both radii are within `ε` of the true ones. -/
theorem C148_image (G : Galaxy I) {ellip : ℝ} (he0 : 0 ≤ ellip) (he1 : ellip < 1) {eta frac eps epsf rP rF : ℝ} (heps : 0 < eps)
    (hepsf : epsf ≠ 0) (hrP : 0 < rP) (hrF : 0 < rF) (hP : petroRatio I rP = eta)
    (hF : enclosed I (1 - ellip) rF = frac / epsf * enclosed I (1 - ellip) (eps * rP)) {ε T : ℝ} (hε : 0 < ε)
    (hTP : rP + ε ≤ T) (hTF : rF + ε ≤ T) (hTE : eps * rP + ε ≤ T) (ρ C : ℝ) :
    ∃ δ > 0, ∃ s0 > 0, ∃ c0 > 0, ∀ s ≥ s0, ∀ (fl : ℝ → ℝ) (u : ℝ), Rounding fl → RelErr u fl → 0 ≤ u → u ≤ c0 →
      ∀ R, Fine δ R → EvenRadii ρ R → (∀ r ∈ R, r ≤ T ∧ fl (s * r) = s * r) →
        Covers R (rP + ε) → Covers R (rF + ε) → Covers R (eps * rP + ε) →
      ∀ (h w : Nat) (cx cy theta : ℝ) (f : Nat → Nat → ℝ), (∀ i j, i < h → j < w → |f i j - I (ellRadius j i cx cy ellip theta / s)| ≤ c0) →
      ∀ (ov : Overlap ℝ) (cx' cy' elong theta' τ : ℝ), GoodApertures fl ov s cx cy ellip theta cx' cy' elong theta' τ h w R →
      Roomy c0 u (1 - ellip) s τ h w R →
      ∀ (ip : InterpFam ℝ) (k : String) (num : Nat) (e : ℝ), 4 * u * (max num R.length : Nat) ≤ 1 → 0 ≤ e → e ≤ c0 → GentleR ρ C e (ip k) →
      ∃ flux area err p rp rf,
        radialPhotometryR fl ov ⟨h, w, fun i j => fin (f i j)⟩ cx' cy' (R.map fun r => s * r) none none elong theta' = .ok (flux, area, err) ∧
        calculatePetrosianFl fl area flux = .ok p ∧
        calculatePetrosianRR fl ip (R.map fun x => fin (s * x)) p (fin eta) (some k) num = .ok (fin (s * rp)) ∧ |rp - rP| ≤ ε ∧
        fractionToRR fl ip (fin frac) (R.map fun x => fin (s * x)) flux (fin (s * rp)) (fin eps) (fin epsf) (some k) num =
          .ok (fin (s * rf)) ∧ |rf - rF| ≤ ε := by
  have hq : 0 < 1 - ellip := by linarith
  have hT0 : 0 < T := by linarith
  obtain ⟨δ2, hδ2, σ2, hσ2, c2, hc2, hfrac⟩ := C148_fraction G hq heps hepsf hrP hrF hF hε hTF hTE ρ C
  have hε1 : 0 < min ε δ2 := lt_min hε hδ2
  obtain ⟨δ1, hδ1, σ1, hσ1, c1, hc1, hrad⟩ := C148_radius G hrP hP hε1 (T := T) (by linarith [min_le_left ε δ2]) ρ C
  set σ := min 1 (min σ1 σ2) with hσ
  have hσ0 : 0 < σ := lt_min one_pos (lt_min hσ1 hσ2)
  obtain ⟨δ3, hδ3, s0, hs0, c3, hc3, himg⟩ := measured_image G he0 he1 hT0 hσ0 (min_le_left _ _)
  have s1 : σ ≤ σ1 := (min_le_right _ _).trans (min_le_left _ _)
  have s2 : σ ≤ σ2 := (min_le_right _ _).trans (min_le_right _ _)
  set c0 := min c1 (min c2 c3) with hc0
  have q1 : c0 ≤ c1 := min_le_left _ _
  have q2 : c0 ≤ c2 := (min_le_right _ _).trans (min_le_left _ _)
  have q3 : c0 ≤ c3 := (min_le_right _ _).trans (min_le_right _ _)
  set δ := min δ1 (min δ2 δ3) with hδ
  have d1 : δ ≤ δ1 := min_le_left _ _
  have d2 : δ ≤ δ2 := (min_le_right _ _).trans (min_le_left _ _)
  have d3 : δ ≤ δ3 := (min_le_right _ _).trans (min_le_right _ _)
  have hc00 : 0 < c0 := lt_min hc1 (lt_min hc2 hc3)
  refine ⟨δ, lt_min hδ1 (lt_min hδ2 hδ3), s0, hs0, c0, hc00, ?_⟩
  intro s hs fl u hfl hu hu0 huc R hR hev hRT cP cF cE h w cx cy theta f hf ov cx' cy' elong theta' τ hap hroom ip k num e hnum he he' hB
  have hsp : 0 < s := lt_of_lt_of_le hs0 hs
  have hfine : ∀ d, δ ≤ d → Fine d R := fun d hd => ⟨hR.three, fun h => ⟨(hR.first h).1, (hR.first h).2.trans hd⟩,
    fun i hi => ⟨(hR.step i hi).1, (hR.step i hi).2.trans hd⟩⟩
  have hroom' : Roomy c3 u (1 - ellip) s τ h w R := by
    have hp := Real.pi_pos
    refine ⟨fun h0 => (hroom.1 h0).trans (mul_le_mul_of_nonneg_right q3 ?_), fun i hi => (hroom.2 i hi).trans (mul_le_mul_of_nonneg_right q3 ?_)⟩
    · positivity
    · have h1 := hR.pos (i := i) (by omega)
      have h2 : (s * R[i]) ^ 2 ≤ (s * R[i + 1]) ^ 2 := pow_le_pow_left₀ (by positivity) (mul_le_mul_of_nonneg_left (hR.step i hi).1.le hsp.le) 2
      have := mul_le_mul_of_nonneg_left h2 (mul_pos hp hq).le
      linarith
  obtain ⟨V, A, E, p, hl, hok, hpp, hpl, hpv, hV⟩ := himg s hs fl u hfl hu hu0 (huc.trans q3) R (hfine _ d3) (fun r hr => (hRT r hr).1) h w cx cy theta f
    (fun i j hi hj => (hf i j hi hj).trans q3) ov cx' cy' elong theta' τ hap hroom'
  have hcov : Covers R (rP + min ε δ2) := by
    obtain ⟨x, hx, hle⟩ := cP
    exact ⟨x, hx, by linarith [min_le_left ε δ2]⟩
  obtain ⟨rp, hrp, hrp1, -⟩ := hrad s hsp fl u hfl hu hu0 (huc.trans q1) R (hfine _ d1) hev hRT hcov p hpl
    (fun i hi => by obtain ⟨v, hv, hv'⟩ := hpv i hi; exact ⟨v, hv, hv'.trans s1⟩) ip (some k) num e hnum he (he'.trans q1)
    (fun k' hk' => by injection hk' with hk'; subst hk'; exact hB)
  obtain ⟨rf, hrf, hrf1, -⟩ := hfrac s hsp (s ^ 2) (by positivity) fl u hfl hu hu0 (huc.trans q2) R (hfine _ d2) hev hRT cF cE V hl
    (fun i hi => (hV i hi).trans (mul_le_mul_of_nonneg_left s2 (sq_nonneg s))) rp (hrp1.trans (min_le_right _ _)) ip k num e hnum he (he'.trans q2) hB
  exact ⟨V.map fin, A.map fin, E, p, rp, rf, hok, hpp, hrp, hrp1.trans (min_le_left _ _), hrf, hrf1⟩

end Verif.Props

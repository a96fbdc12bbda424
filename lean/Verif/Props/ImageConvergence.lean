import Verif.Lemmas.RingPhotometry
import Verif.Props.RobustRadius

/-!
# C136: from a pixel image to the Petrosian radius
-/

set_option linter.unusedSectionVars false
set_option linter.unusedVariables false

namespace Verif.Props

open Verif F Spec Lemmas MeasureTheory Real

variable {I : ℝ → ℝ}

/-- The sum of the pixels of an image in the aperture of semi major axis `r`, before rounding. -/
noncomputable def imageSum (f : Nat → Nat → ℝ) (cx cy ellip theta : ℝ) (h w : Nat) (r : ℝ) : ℝ :=
  weightedSum (exactOverlap.weight ⟨cx, cy, r, r * (1 - ellip), theta⟩) h w (fun _ _ => true) f

/-- The sum of the pixels of a sampled galaxy in the aperture of semi major axis `r`, before rounding. -/
noncomputable def sampledSum (I : ℝ → ℝ) (s cx cy ellip theta : ℝ) (h w : Nat) (r : ℝ) : ℝ :=
  weightedSum (exactOverlap.weight ⟨cx, cy, r, r * (1 - ellip), theta⟩) h w (fun _ _ => true)
    fun i j => I (ellRadius j i cx cy ellip theta / s)

theorem ellRadius_nonneg (x y x0 y0 ellip theta : ℝ) : 0 ≤ ellRadius x y x0 y0 ellip theta := Real.sqrt_nonneg _

theorem ellRadius_continuous (x0 y0 ellip theta : ℝ) : Continuous fun p : ℝ × ℝ => ellRadius p.1 p.2 x0 y0 ellip theta := by
  unfold ellRadius
  fun_prop

/-- One entry of the profile measured on an image whose pixels differ from the galaxy by at most `κ` in the outer aperture. -/
theorem image_entry (G : Galaxy I) {ellip : ℝ} (he0 : 0 ≤ ellip) (he1 : ellip < 1) {s a b : ℝ} (hs : 0 < s) (ha : 0 < a) (hab : a < b)
    {cx cy theta : ℝ} {h w : Nat} (hf : OnFrame (⟨cx, cy, s * b, s * b * (1 - ellip), theta⟩ : Ellipse ℝ).set h w) {κ : ℝ} (hκ0 : 0 ≤ κ)
    {f : Nat → Nat → ℝ}
    (hκ : ∀ i j, i < h → j < w → ∀ p ∈ pixelSquare i j, p ∈ (⟨cx, cy, s * b, s * b * (1 - ellip), theta⟩ : Ellipse ℝ).set →
      |f i j - I (ellRadius p.1 p.2 cx cy ellip theta / s)| ≤ κ) {ω0 : ℝ}
    (hω0 : 1 / 10 ^ 5 ≤ ω0) (hω : ω0 ≤ π * (1 - ellip) * ((s * b) ^ 2 - (s * a) ^ 2))
    (hτ : 2 * κ + 2 * (1 / 10 ^ 6) * (1 + I 0) / ω0 ≤ I b / 2) :
    round6 (π * (1 - ellip) * (s * a) ^ 2) < round6 (π * (1 - ellip) * (s * b) ^ 2) ∧
    0 < round6 (π * (1 - ellip) * (s * b) ^ 2) ∧
    0 < round6 (imageSum f cx cy ellip theta h w (s * b)) ∧
    ∃ v, ratio (round6 (π * (1 - ellip) * (s * a) ^ 2)) (round6 (imageSum f cx cy ellip theta h w (s * a)))
        (round6 (π * (1 - ellip) * (s * b) ^ 2)) (round6 (imageSum f cx cy ellip theta h w (s * b))) = fin v ∧
      petroRatio I b - 4 * (2 * κ + 2 * (1 / 10 ^ 6) * (1 + I 0) / ω0) / I b ≤ v ∧
      v ≤ mixRatio I a b + 4 * (2 * κ + 2 * (1 / 10 ^ 6) * (1 + I 0) / ω0) / I b := by
  have hp := Real.pi_pos
  have hq : 0 < 1 - ellip := by linarith
  set q := 1 - ellip with hqdef
  have hb : 0 < b := ha.trans hab
  have hsa : 0 < s * a := mul_pos hs ha
  have hsb : 0 < s * b := mul_pos hs hb
  have hsab : s * a ≤ s * b := (mul_lt_mul_of_pos_left hab hs).le
  have hIb : 0 < I b := G.pos b hb.le
  have hω00 : 0 < ω0 := lt_of_lt_of_le (by norm_num) hω0
  set τ := 2 * κ + 2 * (1 / 10 ^ 6) * (1 + I 0) / ω0 with hτdef
  -- the light distribution in pixels
  set g : ℝ × ℝ → ℝ := fun p => I (ellRadius p.1 p.2 cx cy ellip theta / s) with hg
  have hgc : Continuous g := by
    have : ContinuousOn I (Set.Ici 0) := G.cont
    refine this.comp_continuous ((ellRadius_continuous cx cy ellip theta).div_const s) fun p => ?_
    exact Set.mem_Ici.2 (div_nonneg (ellRadius_nonneg _ _ _ _ _ _) hs.le)
  set eb : Ellipse ℝ := ⟨cx, cy, s * b, s * b * q, theta⟩ with heb
  have hbd : eb.set ⊆ Set.Icc (-1 / 2) ((w : ℝ) - 1 / 2) ×ˢ Set.Icc (-1 / 2) ((h : ℝ) - 1 / 2) := by
    intro p hp
    obtain ⟨p1, p2, p3, p4⟩ := hf p hp
    exact ⟨⟨p1.le, p2⟩, p3.le, p4⟩
  have hgi : IntegrableOn g eb.set :=
    (hgc.locallyIntegrable.integrableOn_isCompact (isCompact_Icc.prod isCompact_Icc)).mono_set hbd
  have hpix : ∀ i j, i < h → j < w → ∀ p ∈ pixelSquare i j, p ∈ eb.set → |f i j - g p| ≤ κ := hκ
  -- integrals
  have hint : ∀ x, 0 < x → ∫ p in (⟨cx, cy, s * x, s * x * q, theta⟩ : Ellipse ℝ).set, g p = s ^ 2 * enclosed I q x := by
    intro x hx
    rw [← enclosed_scale I q hs x, ← integral_isophote (x0 := cx) (y0 := cy) (theta := theta) (fun t => I (t / s)) (mul_pos hs hx) he1]
  have hring := ring_close hsa hsab hq h w hf (f := f) hgi hpix
  rw [hint b hb, hint a ha] at hring
  have hdisc := weightedSum_close eb hsb (mul_pos hsb hq) h w hf (f := f) hgi hpix
  rw [hint b hb] at hdisc
  change |imageSum f cx cy ellip theta h w (s * b) - imageSum f cx cy ellip theta h w (s * a) - _| ≤ _ at hring
  change |imageSum f cx cy ellip theta h w (s * b) - _| ≤ κ * (π * (s * b) * (s * b * q)) at hdisc
  set Wa := imageSum f cx cy ellip theta h w (s * a)
  set Wb := imageSum f cx cy ellip theta h w (s * b)
  set αa := π * q * (s * a) ^ 2 with hαa
  set αb := π * q * (s * b) ^ 2 with hαb
  set Ea := enclosed I q a
  set Eb := enclosed I q b
  have hαb0 : 0 < αb := by positivity
  have hαa0 : 0 < αa := by positivity
  have hωr : ω0 ≤ αb - αa := by rw [hαa, hαb]; linarith
  rw [show π * (s * b) * (s * b * q) = αb by rw [hαb]; ring] at hdisc
  have r1 := abs_le.1 (abs_round6_sub Wa)
  have r2 := abs_le.1 (abs_round6_sub Wb)
  have r3 := abs_le.1 (abs_round6_sub αa)
  have r4 := abs_le.1 (abs_round6_sub αb)
  have hring' := abs_le.1 hring
  have hdisc' := abs_le.1 hdisc
  -- the true numbers
  obtain ⟨v0, hv0, b1, b2, b3⟩ := gal_ratio G hq ha.le hab
  have hsq : a ^ 2 < b ^ 2 := pow_lt_pow_left₀ hab ha.le (by norm_num)
  have hA : 0 < π * q * b ^ 2 - π * q * a ^ 2 := by
    rw [← mul_sub]; exact mul_pos (mul_pos hp hq) (sub_pos.2 hsq)
  have hB : 0 < π * q * b ^ 2 := by positivity
  have hEb : 0 < Eb := gal_pos G hq hb
  have hEab : Ea < Eb := gal_strictMono G hq (Set.mem_Ici.2 ha.le) (Set.mem_Ici.2 hb.le) hab
  have hMt : 0 < Eb / (π * q * b ^ 2) := div_pos hEb hB
  have hv0' : v0 = (Eb - Ea) / (π * q * b ^ 2 - π * q * a ^ 2) / (Eb / (π * q * b ^ 2)) := by
    unfold ratio at hv0
    rw [F.fin_div_of_ne _ hA.ne', F.fin_div_of_ne _ hB.ne', F.fin_div_of_ne _ hMt.ne'] at hv0
    injection hv0 with hv0
    exact hv0.symm
  set m := (Eb - Ea) / (π * q * b ^ 2 - π * q * a ^ 2) with hm
  set M := Eb / (π * q * b ^ 2) with hM
  have hm0 : 0 ≤ m := (div_pos (by linarith) hA).le
  have hmM : m ≤ M := by rw [hv0', div_le_one hMt] at b3; exact b3
  obtain ⟨gr1, gr2⟩ := gal_ring G hq le_rfl hb.le
  have hI0 : 0 < I 0 := G.pos 0 le_rfl
  have hMB : M ≤ I 0 := by
    rw [hM, div_le_iff₀ hB]
    rw [gal_zero] at gr2
    linarith
  have hMb : I b ≤ M := by
    rw [hM, le_div_iff₀ hB]
    rw [gal_zero] at gr1
    linarith
  have em : (s ^ 2 * Eb - s ^ 2 * Ea) / (αb - αa) = m := by
    rw [hm, hαa, hαb]
    have e1 : π * q * (s * b) ^ 2 - π * q * (s * a) ^ 2 = s ^ 2 * (π * q * b ^ 2 - π * q * a ^ 2) := by ring
    rw [e1, ← mul_sub, mul_div_mul_left _ _ (by positivity)]
  have eM : s ^ 2 * Eb / αb = M := by
    rw [hM, hαb]
    have e1 : π * q * (s * b) ^ 2 = s ^ 2 * (π * q * b ^ 2) := by ring
    rw [e1, mul_div_mul_left _ _ (by positivity)]
  -- the measured means
  have μω : 2 * (1 / 10 ^ 6 : ℝ) ≤ ω0 := le_trans (by norm_num) hω0
  have c1 := mean_close (Fl := round6 Wb - round6 Wa) (E := s ^ 2 * Eb - s ^ 2 * Ea) (A := round6 αb - round6 αa) (α := αb - αa) (κ := κ)
    (μ := 1 / 10 ^ 6) (B := I 0) hω00 hωr (by norm_num) μω hκ0 (by rw [em]; exact hm0) (by rw [em]; exact hmM.trans hMB)
    (by rw [abs_le]; constructor <;> linarith [r1.1, r1.2, r2.1, r2.2, hring'.1, hring'.2])
    (by rw [abs_le]; constructor <;> linarith [r3.1, r3.2, r4.1, r4.2])
  have c2 := mean_close (Fl := round6 Wb) (E := s ^ 2 * Eb) (A := round6 αb) (α := αb) (κ := κ)
    (μ := 1 / 10 ^ 6) (B := I 0) hω00 (by linarith) (by norm_num) μω hκ0 (by rw [eM]; exact hMt.le) (by rw [eM]; exact hMB)
    (by rw [abs_le]; constructor <;> linarith [r2.1, r2.2, hdisc'.1, hdisc'.2])
    (by rw [abs_le]; constructor <;> linarith [r4.1, r4.2])
  rw [em] at c1
  rw [eM] at c2
  obtain ⟨c1a, c1b⟩ := c1
  obtain ⟨c2a, c2b⟩ := c2
  rw [← hτdef] at c1b c2b
  obtain ⟨d1, d2⟩ := ratio_close hIb hMb hm0 hmM c1b c2b hτ
  rw [← hv0'] at d2
  have d3 := abs_le.1 d2
  refine ⟨by linarith, c2a, ?_, (round6 Wb - round6 Wa) / (round6 αb - round6 αa) / (round6 Wb / round6 αb), ?_, ?_, ?_⟩
  · by_contra hcon
    have := div_nonpos_of_nonpos_of_nonneg (not_lt.1 hcon) c2a.le
    linarith
  · unfold ratio
    rw [F.fin_div_of_ne _ c1a.ne', F.fin_div_of_ne _ c2a.ne', F.fin_div_of_ne _ d1.ne']
  · linarith [d3.1]
  · linarith [d3.2]

/-- One entry of the profile measured on a sampled galaxy. -/
theorem sampled_entry (G : Galaxy I) {ellip : ℝ} (he0 : 0 ≤ ellip) (he1 : ellip < 1) {s a b : ℝ} (hs : 0 < s) (ha : 0 < a) (hab : a < b)
    {cx cy theta : ℝ} {h w : Nat} (hf : OnFrame (⟨cx, cy, s * b, s * b * (1 - ellip), theta⟩ : Ellipse ℝ).set h w) {κ : ℝ} (hκ0 : 0 ≤ κ)
    (hκ : ∀ x y, 0 ≤ x → x ≤ b + 1 / (s * (1 - ellip)) → 0 ≤ y → y ≤ b → |x - y| ≤ 1 / (s * (1 - ellip)) → |I x - I y| ≤ κ) {ω0 : ℝ}
    (hω0 : 1 / 10 ^ 5 ≤ ω0) (hω : ω0 ≤ π * (1 - ellip) * ((s * b) ^ 2 - (s * a) ^ 2))
    (hτ : 2 * κ + 2 * (1 / 10 ^ 6) * (1 + I 0) / ω0 ≤ I b / 2) :
    round6 (π * (1 - ellip) * (s * a) ^ 2) < round6 (π * (1 - ellip) * (s * b) ^ 2) ∧
    0 < round6 (π * (1 - ellip) * (s * b) ^ 2) ∧
    0 < round6 (sampledSum I s cx cy ellip theta h w (s * b)) ∧
    ∃ v, ratio (round6 (π * (1 - ellip) * (s * a) ^ 2)) (round6 (sampledSum I s cx cy ellip theta h w (s * a)))
        (round6 (π * (1 - ellip) * (s * b) ^ 2)) (round6 (sampledSum I s cx cy ellip theta h w (s * b))) = fin v ∧
      petroRatio I b - 4 * (2 * κ + 2 * (1 / 10 ^ 6) * (1 + I 0) / ω0) / I b ≤ v ∧
      v ≤ mixRatio I a b + 4 * (2 * κ + 2 * (1 / 10 ^ 6) * (1 + I 0) / ω0) / I b := by
  refine image_entry G he0 he1 hs ha hab hf hκ0 (f := fun i j => I (ellRadius j i cx cy ellip theta / s)) ?_ hω0 hω hτ
  have hq : 0 < 1 - ellip := by linarith
  have hsb : 0 < s * b := mul_pos hs (ha.trans hab)
  intro i j _ _ p hp hpe
  have h1 := ellRadius_pixel (x0 := cx) (y0 := cy) (theta := theta) he0 he1 hp
  have h2 := ellRadius_inside hsb he1 hpe
  have e1 : 1 / (s * (1 - ellip)) = 1 / (1 - ellip) / s := by field_simp
  have h3 : |ellRadius j i cx cy ellip theta / s - ellRadius p.1 p.2 cx cy ellip theta / s| ≤ 1 / (s * (1 - ellip)) := by
    rw [← sub_div, abs_div, abs_of_pos hs, e1]
    exact div_le_div_of_nonneg_right h1 hs.le
  have h4 : ellRadius p.1 p.2 cx cy ellip theta / s ≤ b := by
    rw [div_le_iff₀ hs]; linarith
  refine hκ _ _ (div_nonneg (ellRadius_nonneg _ _ _ _ _ _) hs.le) ?_ (div_nonneg (ellRadius_nonneg _ _ _ _ _ _) hs.le) h4 h3
  have := (abs_le.1 h3).2
  linarith

/-- A galaxy profile is uniformly continuous on bounded ranges. -/
theorem gal_modulus (G : Galaxy I) (T : ℝ) {κ : ℝ} (hκ : 0 < κ) :
    ∃ ν > 0, ∀ x y, 0 ≤ x → x ≤ T → 0 ≤ y → y ≤ T → |x - y| ≤ ν → |I x - I y| ≤ κ := by
  have huc : UniformContinuousOn I (Set.Icc 0 T) :=
    isCompact_Icc.uniformContinuousOn_of_continuous (G.cont.mono fun x hx => hx.1)
  obtain ⟨ν, hν, h⟩ := Metric.uniformContinuousOn_iff.1 huc κ hκ
  refine ⟨ν / 2, by linarith, fun x y hx hxT hy hyT hxy => ?_⟩
  have := h x ⟨hx, hxT⟩ y ⟨hy, hyT⟩ (by rw [Real.dist_eq]; linarith)
  rw [Real.dist_eq] at this
  exact this.le

/-- Close to the centre the brightness is close to the central one, and the Petrosian ratio close to 1. -/
theorem gal_centre (G : Galaxy I) {γ : ℝ} (hγ : 0 < γ) : ∃ ρ > 0, ∀ b, 0 < b → b ≤ ρ → (1 - γ) * I 0 ≤ I b ∧ 1 - γ ≤ petroRatio I b := by
  have hI0 : 0 < I 0 := G.pos 0 le_rfl
  obtain ⟨ν, hν, h⟩ := gal_modulus G 1 (mul_pos hγ hI0)
  refine ⟨min ν 1, lt_min hν one_pos, fun b hb hbν => ?_⟩
  have h1 := (abs_le.1 (h b 0 hb.le (hbν.trans (min_le_right _ _)) le_rfl zero_le_one
    (by rw [sub_zero, abs_of_pos hb]; exact hbν.trans (min_le_left _ _)))).1
  have h2 : (1 - γ) * I 0 ≤ I b := by linarith
  refine ⟨h2, ?_⟩
  have hp := Real.pi_pos
  obtain ⟨-, gr2⟩ := gal_ring G one_pos le_rfl hb.le
  rw [gal_zero] at gr2
  have hE := gal_pos G one_pos hb
  unfold petroRatio
  have hM : enclosed I 1 b / (π * b ^ 2) ≤ I 0 := by rw [div_le_iff₀ (by positivity)]; linarith
  have hM0 : 0 < enclosed I 1 b / (π * b ^ 2) := by positivity
  rw [le_div_iff₀ hM0]
  rcases le_or_gt (1 - γ) 0 with hn | hn
  · have := mul_nonpos_of_nonpos_of_nonneg hn hM0.le
    have := G.pos b hb.le
    linarith
  · exact (mul_le_mul_of_nonneg_left hM hn.le).trans h2

/-- The sum over a sampled galaxy grows with the aperture. -/
theorem sampledSum_mono (G : Galaxy I) {s : ℝ} (hs : 0 < s) {cx cy ellip theta : ℝ} (he : ellip < 1) (h w : Nat) {r r' : ℝ} (hr : 0 < r)
    (hrr : r ≤ r') : sampledSum I s cx cy ellip theta h w r ≤ sampledSum I s cx cy ellip theta h w r' := by
  have hq : 0 < 1 - ellip := by linarith
  unfold sampledSum
  apply weightedSum_mono
  · intro i j _ _
    have := exactOverlap_law.nested cx cy (1 / (1 - ellip)) theta r r' i j (one_div_pos.2 hq) hr hrr
    simpa only [div_div_eq_mul_div, div_one] using this
  · intro i j _ _ _
    exact (G.pos _ (div_nonneg (ellRadius_nonneg _ _ _ _ _ _) hs.le)).le

/-- Rounding to six decimals must leave room between `eta` and 1 when the rings near the centre are small. -/
def Bright (I : ℝ → ℝ) (eta : ℝ) : Prop := eta + 2 / 10 ^ 5 * (1 + 1 / I 0) < 1

/-- Rings with enough pixels: at least `ω0` pixels, or, close to the centre of a bright galaxy, at least one pixel. -/
def Rings (I : ℝ → ℝ) (eta ω0 ρ q s : ℝ) (R : List ℝ) (T : ℝ) : Prop :=
  ∀ i (h : i + 1 < R.length), R[i + 1] ≤ T → ω0 ≤ π * q * ((s * R[i + 1]) ^ 2 - (s * R[i]) ^ 2) ∨
    Bright I eta ∧ R[i + 1] ≤ ρ ∧ 1 ≤ π * q * ((s * R[i + 1]) ^ 2 - (s * R[i]) ^ 2)

set_option maxHeartbeats 1000000 in
/-- The Petrosian radius of the lists measured on a sampled galaxy. -/
theorem sampled_radius (G : Galaxy I) {ellip : ℝ} (he0 : 0 ≤ ellip) (he1 : ellip < 1) {eta rP : ℝ} (hrP : 0 < rP)
    (htrue : petroRatio I rP = eta) {ε : ℝ} (hε : 0 < ε) :
    ∃ δ > 0, ∃ s0 > 0, ∃ ω0 > 0, ∃ ρ > 0, ∀ s ≥ s0, ∀ R, Fine δ R → Covers R (rP + ε) → Rings I eta ω0 ρ (1 - ellip) s R (rP + ε) →
      ∀ (h w : Nat) (cx cy theta : ℝ),
        (∀ r ∈ R, r ≤ rP + ε → OnFrame (⟨cx, cy, s * r, s * r * (1 - ellip), theta⟩ : Ellipse ℝ).set h w) →
      ∀ A : List ℝ, ∀ hA : A.length = R.length, (∀ i (h : i + 1 < A.length), A[i] < A[i + 1]) →
        (∀ i (h : i < R.length), R[i] ≤ rP + ε → A[i] = round6 (π * (1 - ellip) * (s * R[i]) ^ 2)) →
      ∃ p, calculatePetrosian (A.map fin) (R.map fun r => fin (round6 (sampledSum I s cx cy ellip theta h w (s * r)))) none none =
          .ok (p, none) ∧
        ∀ (ip : InterpFam ℝ) (kind : Option String) (num : Nat), (∀ k, kind = some k → BetweenNodes (ip k)) →
        ∃ r, calculatePetrosianR ip (R.map fun r => fin (s * r)) p none (fin eta) kind num = .ok (fin (s * r), nan) ∧ |r - rP| ≤ ε := by
  have hp := Real.pi_pos
  have hq : 0 < 1 - ellip := by linarith
  have hI0 : 0 < I 0 := G.pos 0 le_rfl
  set T := rP + ε with hT
  have hT0 : 0 < T := by linarith
  have heta : 0 < eta := by rw [← htrue]; exact (petroRatio_mem G hrP).1
  -- room between eta and 1
  set gap := 1 - eta - 2 / 10 ^ 5 * (1 + 1 / I 0) with hgap
  set c := if 0 < gap then gap / 4 else 1 with hc
  have hc0 : 0 < c := by rw [hc]; split_ifs with hg <;> linarith
  set γ := if 0 < gap then min (gap / 4) (1 / 5) else 1 with hγ
  have hγ0 : 0 < γ := by
    rw [hγ]; split_ifs with hg
    · exact lt_min (by linarith) (by norm_num)
    · exact one_pos
  obtain ⟨ρ, hρ, hcen⟩ := gal_centre G hγ0
  obtain ⟨δ1, hδ1, σ, hσ, hst⟩ := C136_stable G hrP htrue hε hc0
  -- accuracies
  set M0 := I T with hM0
  have hM00 : 0 < M0 := G.pos T hT0.le
  set τ := min (M0 / 2) (σ * M0 / 4) with hτ
  have hτ0 : 0 < τ := lt_min (by linarith) (by positivity)
  set κ := min (τ / 8) (I 0 * c / 10) with hκ
  have hκ0 : 0 < κ := lt_min (by linarith) (by positivity)
  have hκ1 : κ ≤ τ / 8 := min_le_left _ _
  have hκ2 : κ ≤ I 0 * c / 10 := min_le_right _ _
  set ω0 := max 1 (8 * (1 / 10 ^ 6) * (1 + I 0) / τ) with hω0
  have hω1 : 1 ≤ ω0 := le_max_left _ _
  have hω2 : 8 * (1 / 10 ^ 6) * (1 + I 0) / τ ≤ ω0 := le_max_right _ _
  have hω00 : 0 < ω0 := by linarith
  obtain ⟨ν, hν, hmod⟩ := gal_modulus G (T + 1) hκ0
  set s0 := max (1 / (ν * (1 - ellip))) (1 / (1 - ellip)) with hs0
  have hs00 : 0 < s0 := lt_max_of_lt_right (by positivity)
  refine ⟨min δ1 (rP / 2), lt_min hδ1 (by linarith), s0, hs00, ω0, hω00, ρ, hρ, ?_⟩
  intro s hs R hR hcov hrings h w cx cy theta hframe A hAl hAinc hAv
  have hsp : 0 < s := lt_of_lt_of_le hs00 hs
  have h3 := hR.three
  have hstep1 : 1 / (s * (1 - ellip)) ≤ ν := by
    have : 1 / (ν * (1 - ellip)) ≤ s := (le_max_left _ _).trans hs
    rw [div_le_iff₀ (by positivity)] at this ⊢
    linarith
  have hstep2 : 1 / (s * (1 - ellip)) ≤ 1 := by
    have : 1 / (1 - ellip) ≤ s := (le_max_right _ _).trans hs
    rw [div_le_iff₀ (by positivity)] at this ⊢
    linarith
  have hmod' : ∀ b, b ≤ T → ∀ x y, 0 ≤ x → x ≤ b + 1 / (s * (1 - ellip)) → 0 ≤ y → y ≤ b → |x - y| ≤ 1 / (s * (1 - ellip)) →
      |I x - I y| ≤ κ := fun b hb x y hx hxb hy hyb hxy =>
    hmod x y hx (by linarith) hy (by linarith) (hxy.trans hstep1)
  -- the entries
  have hIb : ∀ b, 0 < b → b ≤ T → M0 ≤ I b := fun b hb hbT => G.falls.antitoneOn (Set.mem_Ici.2 hb.le) (Set.mem_Ici.2 hT0.le) hbT
  have hentry : ∀ i (hi : i + 1 < R.length), R[i + 1] ≤ T →
      0 < round6 (π * (1 - ellip) * (s * R[i + 1]) ^ 2) ∧
      0 < round6 (sampledSum I s cx cy ellip theta h w (s * R[i + 1])) ∧
      ∃ v, ratio (round6 (π * (1 - ellip) * (s * R[i]) ^ 2)) (round6 (sampledSum I s cx cy ellip theta h w (s * R[i])))
        (round6 (π * (1 - ellip) * (s * R[i + 1]) ^ 2)) (round6 (sampledSum I s cx cy ellip theta h w (s * R[i + 1]))) = fin v ∧
        min (petroRatio I R[i + 1]) (eta + c) - σ ≤ v ∧ (rP ≤ R[i + 1] → v ≤ mixRatio I R[i] R[i + 1] + σ) := by
    intro i hi hiT
    have ha := hR.pos (i := i) (by omega)
    have hb := hR.pos hi
    have hab := (hR.step i hi).1
    have hIb1 := hIb _ hb hiT
    have hfr := hframe _ (List.getElem_mem hi) hiT
    have hsmall : ∀ hω : ω0 ≤ π * (1 - ellip) * ((s * R[i + 1]) ^ 2 - (s * R[i]) ^ 2),
        0 < round6 (π * (1 - ellip) * (s * R[i + 1]) ^ 2) ∧
        0 < round6 (sampledSum I s cx cy ellip theta h w (s * R[i + 1])) ∧
        ∃ v, ratio (round6 (π * (1 - ellip) * (s * R[i]) ^ 2)) (round6 (sampledSum I s cx cy ellip theta h w (s * R[i])))
          (round6 (π * (1 - ellip) * (s * R[i + 1]) ^ 2)) (round6 (sampledSum I s cx cy ellip theta h w (s * R[i + 1]))) = fin v ∧
          min (petroRatio I R[i + 1]) (eta + c) - σ ≤ v ∧ (rP ≤ R[i + 1] → v ≤ mixRatio I R[i] R[i + 1] + σ) := by
      intro hω
      have hτ1 : 2 * κ + 2 * (1 / 10 ^ 6) * (1 + I 0) / ω0 ≤ τ := by
        have : 2 * (1 / 10 ^ 6) * (1 + I 0) / ω0 ≤ τ / 4 := by
          rw [div_le_iff₀ hτ0] at hω2
          rw [div_le_iff₀ hω00]
          linarith
        linarith
      have hτ2 : τ ≤ M0 / 2 := min_le_left _ _
      have hτ3 : τ ≤ σ * M0 / 4 := min_le_right _ _
      obtain ⟨-, e1, e2, v, hv, v1, v2⟩ := sampled_entry G he0 he1 hsp ha hab hfr hκ0.le (hmod' _ hiT) (by linarith) hω (by linarith)
      have hle : 4 * (2 * κ + 2 * (1 / 10 ^ 6) * (1 + I 0) / ω0) / I R[i + 1] ≤ σ := by
        rw [div_le_iff₀ (by linarith)]
        have : σ * M0 ≤ σ * I R[i + 1] := mul_le_mul_of_nonneg_left hIb1 hσ.le
        linarith
      refine ⟨e1, e2, v, hv, ?_, fun _ => by linarith⟩
      have := min_le_left (petroRatio I R[i + 1]) (eta + c)
      linarith
    rcases hrings i hi hiT with hω | ⟨hbr, hiρ, h1⟩
    · exact hsmall hω
    by_cases hiP : rP ≤ R[i + 1]
    · -- then `eta` would be close to 1
      exfalso
      have hg : 0 < gap := by rw [hgap]; unfold Bright at hbr; linarith
      obtain ⟨-, h2⟩ := hcen _ hb hiρ
      have h4 : petroRatio I R[i + 1] ≤ eta := by
        rw [← htrue]
        exact G.ratioFalls.antitoneOn (Set.mem_Ioi.2 hrP) (Set.mem_Ioi.2 hb) hiP
      have h5 : γ ≤ gap / 4 := by rw [hγ, if_pos hg]; exact min_le_left _ _
      have h6 : 0 < 2 / 10 ^ 5 * (1 + 1 / I 0) := by positivity
      linarith
    · have hg : 0 < gap := by rw [hgap]; unfold Bright at hbr; linarith
      have hcv : c = gap / 4 := by rw [hc, if_pos hg]
      have hγ1 : γ ≤ gap / 4 := by rw [hγ, if_pos hg]; exact min_le_left _ _
      have hγ2 : γ ≤ 1 / 5 := by rw [hγ, if_pos hg]; exact min_le_right _ _
      obtain ⟨h2, h4⟩ := hcen _ hb hiρ
      have hI45 : 4 / 5 * I 0 ≤ I R[i + 1] := by
        have := mul_le_mul_of_nonneg_right (show 4 / 5 ≤ 1 - γ by linarith) hI0.le
        linarith
      have hinv : 2 / 10 ^ 5 * (1 + 1 / I 0) * I 0 = 2 / 10 ^ 5 * (1 + I 0) := by field_simp; ring
      have hlt : 2 / 10 ^ 5 * (1 + I 0) ≤ (1 - gap) * I 0 := by
        rw [← hinv]
        exact mul_le_mul_of_nonneg_right (by rw [hgap]; linarith) hI0.le
      have hgI : 0 < gap * I 0 := mul_pos hg hI0
      rw [hcv] at hκ2
      obtain ⟨-, e1, e2, v, hv, v1, v2⟩ := sampled_entry G he0 he1 hsp ha hab hfr hκ0.le (hmod' _ hiT) (ω0 := 1) (by norm_num) h1 (by
        rw [div_one]
        linarith)
      refine ⟨e1, e2, v, hv, ?_, fun h => absurd h hiP⟩
      have hle : 4 * (2 * κ + 2 * (1 / 10 ^ 6) * (1 + I 0) / 1) / I R[i + 1] ≤ gap / 4 + 1 / 10 ^ 5 * (1 + 1 / I 0) := by
        rw [div_le_iff₀ (by linarith), div_one]
        have hx : (gap / 4 + 1 / 10 ^ 5 * (1 + 1 / I 0)) * (4 / 5 * I 0) ≤ (gap / 4 + 1 / 10 ^ 5 * (1 + 1 / I 0)) * I R[i + 1] :=
          mul_le_mul_of_nonneg_left hI45 (by positivity)
        have hy : (gap / 4 + 1 / 10 ^ 5 * (1 + 1 / I 0)) * (4 / 5 * I 0) = gap * I 0 / 5 + 8 / 10 ^ 6 * (1 + I 0) := by
          field_simp; ring
        rw [hy] at hx
        linarith
      have h6 : 0 < 1 / 10 ^ 5 * (1 + 1 / I 0) := by positivity
      have h7 : gap = 1 - eta - 2 / 10 ^ 5 * (1 + 1 / I 0) := hgap
      have := min_le_right (petroRatio I R[i + 1]) (eta + c)
      linarith
  -- the first entry
  have hR1 : R[1]'(by omega) ≤ T := by
    have a := (hR.first (by omega)).2
    have b := (hR.step 0 (by omega)).2
    have := min_le_right δ1 (rP / 2)
    simp only [zero_add] at b
    linarith
  obtain ⟨f1, f2, -⟩ := hentry 0 (by omega) hR1
  simp only [zero_add] at f1 f2
  -- the lists
  set Fl := R.map fun r => round6 (sampledSum I s cx cy ellip theta h w (s * r)) with hFl
  have eFl : (R.map fun r => fin (round6 (sampledSum I s cx cy ellip theta h w (s * r)))) = Fl.map fin := by simp [hFl]
  have hFll : Fl.length = R.length := by simp [hFl]
  have hFlv : ∀ i (hi : i < R.length), Fl[i]'(by omega) = round6 (sampledSum I s cx cy ellip theta h w (s * R[i])) := by
    intro i hi; simp [hFl]
  obtain ⟨p, e, g1, g2, g3, g4⟩ := C01_profile_formula A Fl (by omega) (by omega) hAinc none none (by simp) (by simp)
  have hen : e = none := by
    obtain ⟨p', e', hr', -, raw, -, -, hc⟩ := calculatePetrosian_ok _ _ none none (accepted_of_ok g1)
    rw [g1] at hr'
    injection hr' with hr'
    injection hr' with _ hr'
    subst hr'
    rcases hc with ⟨_, _, h⟩ | ⟨h, _⟩
    · exact h
    · simp at h
  subst hen
  refine ⟨p, by rw [eFl]; exact g1, fun ip kind num hB => ?_⟩
  refine hst s hsp R (hR.mono (min_le_left _ _)) hcov p (by omega) ?_ ip kind num hB
  intro i hi
  have hgi := g4 i (by omega)
  rw [hgi, hFlv i (by omega), hFlv (i + 1) hi]
  by_cases hiT : R[i + 1] ≤ T
  · obtain ⟨-, -, v, hv, v1, v2⟩ := hentry i hi hiT
    have hlt := (hR.step i hi).1
    rw [hAv i (by omega) (by linarith), hAv (i + 1) hi hiT, hv]
    exact ⟨v, rfl, fun _ => ⟨v1, v2⟩⟩
  · have hAinc' : Incr A := by
      unfold Incr
      rw [← List.isChain_iff_pairwise, List.isChain_iff_getElem]
      exact fun i hi => hAinc i hi
    have hA1 : 0 < A[i + 1] := by
      have : A[1]'(by omega) ≤ A[i + 1] := Incr.le_getElem hAinc' (by omega) (by omega)
      rw [hAv 1 (by omega) hR1] at this
      linarith
    have hF1 : 0 < round6 (sampledSum I s cx cy ellip theta h w (s * R[i + 1])) := by
      refine lt_of_lt_of_le f2 (round6_mono (sampledSum_mono G hsp he1 h w (mul_pos hsp (hR.pos (by omega))) ?_))
      exact mul_le_mul_of_nonneg_left (Incr.le_getElem hR.incr (by omega) hi) hsp.le
    have hA2 := hAinc i (by omega)
    refine ⟨(round6 (sampledSum I s cx cy ellip theta h w (s * R[i + 1])) - round6 (sampledSum I s cx cy ellip theta h w (s * R[i]))) /
        (A[i + 1] - A[i]) / (round6 (sampledSum I s cx cy ellip theta h w (s * R[i + 1])) / A[i + 1]), ?_, fun h => absurd h hiT⟩
    unfold ratio
    rw [F.fin_div_of_ne _ (sub_pos.2 hA2).ne', F.fin_div_of_ne _ hA1.ne', F.fin_div_of_ne _ (div_pos hF1 hA1).ne']

/-- `radial_photometry` of an image of numbers with all the apertures on the frame (exact method, no mask). -/
theorem photometry_onFrame (h w : Nat) (f : Nat → Nat → ℝ) (cx cy : ℝ) (rs : List ℝ) (q t : ℝ) (hq : 0 < q) (hr : ∀ r ∈ rs, 0 < r)
    (hf : ∀ r ∈ rs, OnFrame (⟨cx, cy, r, r / q, t⟩ : Ellipse ℝ).set h w) :
    ∃ er, radialPhotometry exactOverlap ⟨h, w, fun i j => fin (f i j)⟩ cx cy rs none none q t =
      .ok (rs.map fun r => fin (round6 (weightedSum (exactOverlap.weight ⟨cx, cy, r, r / q, t⟩) h w (fun _ _ => true) f)),
        rs.map fun r => fin (round6 (π * r ^ 2 / q)), er) := by
  refine ⟨rs.map fun r => rawErr exactOverlap ⟨cx, cy, r, r / q, t⟩ ⟨h, w, fun i j => fin (f i j)⟩ none none, ?_⟩
  rw [radialPhotometry_ok]
  refine ⟨rs.map fun r => (fin (round6 (weightedSum (exactOverlap.weight ⟨cx, cy, r, r / q, t⟩) h w (fun _ _ => true) f)),
    fin (round6 (π * r ^ 2 / q)), rawErr exactOverlap ⟨cx, cy, r, r / q, t⟩ ⟨h, w, fun i j => fin (f i j)⟩ none none), ?_, ?_, ?_, ?_⟩
  · induction rs with
    | nil => exact .nil
    | cons r rs ih =>
      refine .cons ?_ (ih (fun x hx => hr x (List.mem_cons_of_mem _ hx)) (fun x hx => hf x (List.mem_cons_of_mem _ hx)))
      have hr0 := hr r List.mem_cons_self
      have hrq : 0 < r / q := div_pos hr0 hq
      have hws := weightedSum_onFrame ⟨cx, cy, r, r / q, t⟩ hr0 hrq h w (hf r List.mem_cons_self)
      have hu : Used none = fun _ _ => true := rfl
      have hpi : Real.pi * r * (r / q) = Real.pi * r ^ 2 / q := by ring
      simp only [hpi] at hws
      have hpos : 0 < Real.pi * r ^ 2 / q := by positivity
      have hhit : exactOverlap.hits ⟨cx, cy, r, r / q, t⟩ h w = true := by
        by_contra hno
        have h0 : weightedSum (exactOverlap.weight ⟨cx, cy, r, r / q, t⟩) h w (fun _ _ => true) (fun _ _ => (1 : ℝ)) ≤ 0 := by
          unfold weightedSum
          apply Finset.sum_nonpos; intro i hi
          apply Finset.sum_nonpos; intro j hj
          rw [if_pos rfl, one_mul]
          by_contra hlt
          exact hno (exactOverlap_law.hits_of_pos _ h w i j hr0 hrq (Finset.mem_range.1 hi) (Finset.mem_range.1 hj) (not_le.1 hlt))
        rw [hws 1] at h0
        linarith
      have hraw : rawSum exactOverlap ⟨cx, cy, r, r / q, t⟩ ⟨h, w, fun i j => fin (f i j)⟩ none =
          fin (weightedSum (exactOverlap.weight ⟨cx, cy, r, r / q, t⟩) h w (fun _ _ => true) f) := by
        rw [(C45_linear exactOverlap_law _ h w none f f 0).1, hu]
      refine (photometryAt_ok exactOverlap_law).2 ⟨hr0, hq, rfl, rfl, hhit, ?_, ?_, ?_, rfl⟩
      · rw [hraw]; rfl
      · rw [hraw]; rfl
      · rw [hu, hws 1, one_mul]
  · simp
  · simp
  · simp

/-- **C136.** From pixels to the Petrosian radius. A galaxy of any profile with a Petrosian radius `rP`, seen with any ellipticity and position
angle, is sampled at the pixel centres, `s` pixels to the unit of length; `radial_photometry` with apertures of that shape feeds
`Petrosian`. For every tolerance there are a spacing, a resolution and a number of pixels per ring beyond which `r_petrosian` is within
the tolerance of `rP` — whatever the frame, the place of the galaxy on it and of its centre within a pixel, for `interp_kind=None` and every
interpolation that stays between neighbouring data points. -/
theorem C136_image (G : Galaxy I) {ellip : ℝ} (he0 : 0 ≤ ellip) (he1 : ellip < 1) {eta rP : ℝ} (hrP : 0 < rP)
    (htrue : petroRatio I rP = eta) {ε : ℝ} (hε : 0 < ε) :
    ∃ δ > 0, ∃ s0 > 0, ∃ ω0 > 0, ∀ s ≥ s0, ∀ R, Fine δ R → Covers R (rP + ε) →
      (∀ i (h : i + 1 < R.length), ω0 ≤ π * (1 - ellip) * ((s * R[i + 1]) ^ 2 - (s * R[i]) ^ 2)) →
      ∀ (h w : Nat) (cx cy theta : ℝ), (∀ r ∈ R, OnFrame (⟨cx, cy, s * r, s * r * (1 - ellip), theta⟩ : Ellipse ℝ).set h w) →
      ∃ fl ar er, radialPhotometry exactOverlap ⟨h, w, fun i j => fin (I (ellRadius j i cx cy ellip theta / s))⟩ cx cy
          (R.map fun r => s * r) none none (1 / (1 - ellip)) theta = .ok (fl, ar, er) ∧
        ∀ (ip : InterpFam ℝ) (kind : Option String) (num : Nat) (eps epsf tff : F ℝ), (∀ k, kind = some k → BetweenNodes (ip k)) →
        ∃ p, Petrosian.init (R.map fun r => fin (s * r)) ar fl none none (fin eta) eps epsf tff kind num = .ok p ∧
          ∃ r, p.rPetrosian ip = .ok (fin (s * r)) ∧ |r - rP| ≤ ε := by
  have hq : 0 < 1 - ellip := by linarith
  have hp := Real.pi_pos
  obtain ⟨δ, hδ, s0, hs0, ω0, hω0, ρ, hρ, hmain⟩ := sampled_radius G he0 he1 hrP htrue hε
  refine ⟨δ, hδ, s0, hs0, max ω0 1, lt_max_of_lt_left hω0, ?_⟩
  intro s hs R hR hcov hring h w cx cy theta hf
  have hsp : 0 < s := lt_of_lt_of_le hs0 hs
  have ediv : ∀ r, r / (1 / (1 - ellip)) = r * (1 - ellip) := fun r => by rw [div_div_eq_mul_div, div_one]
  obtain ⟨er, hph⟩ := photometry_onFrame h w (fun i j => I (ellRadius j i cx cy ellip theta / s)) cx cy (R.map fun r => s * r)
    (1 / (1 - ellip)) theta (one_div_pos.2 hq)
    (by
      intro r hr
      obtain ⟨x, hx, rfl⟩ := List.mem_map.1 hr
      obtain ⟨i, hi, rfl⟩ := List.getElem_of_mem hx
      exact mul_pos hsp (hR.pos hi))
    (by
      intro r hr
      obtain ⟨x, hx, rfl⟩ := List.mem_map.1 hr
      rw [ediv]
      exact hf x hx)
  refine ⟨_, _, er, hph, fun ip kind num eps epsf tff hB => ?_⟩
  set A := R.map fun r => round6 (π * (1 - ellip) * (s * r) ^ 2) with hA
  have eA : ((R.map fun r => s * r).map fun r => fin (round6 (π * r ^ 2 / (1 / (1 - ellip))))) = A.map fin := by
    rw [hA, List.map_map, List.map_map]
    apply List.map_congr_left
    intro r _
    simp only [Function.comp_apply, ediv]
    congr 2; ring
  have eF : ((R.map fun r => s * r).map fun r => fin (round6 (weightedSum (exactOverlap.weight ⟨cx, cy, r, r / (1 / (1 - ellip)), theta⟩) h w
      (fun _ _ => true) fun i j => I (ellRadius j i cx cy ellip theta / s)))) =
      R.map fun r => fin (round6 (sampledSum I s cx cy ellip theta h w (s * r))) := by
    rw [List.map_map]
    apply List.map_congr_left
    intro r _
    simp only [Function.comp_apply, ediv, sampledSum]
  rw [eA, eF]
  obtain ⟨pl, g1, g2⟩ := hmain s hs R hR hcov (fun i hi _ => .inl ((le_max_left _ _).trans (hring i hi))) h w cx cy theta
    (fun r hr _ => hf r hr) A (by simp [hA])
    (by
      intro i hi
      simp only [hA, List.length_map] at hi
      simp only [hA, List.getElem_map]
      have h1 := (le_max_right _ _).trans (hring i hi)
      have r3 := abs_le.1 (abs_round6_sub (π * (1 - ellip) * (s * R[i]) ^ 2))
      have r4 := abs_le.1 (abs_round6_sub (π * (1 - ellip) * (s * R[i + 1]) ^ 2))
      linarith [r3.2, r4.1])
    (by intro i hi _; simp [hA])
  obtain ⟨r, g3, g4⟩ := g2 ip kind num hB
  have h3 := hR.three
  refine ⟨_, Petrosian.init_ok_iff.2 ⟨by simp; omega, by simp, by simp, by simp, pl, none, g1, rfl⟩, r, ?_, g4⟩
  simp only [Petrosian.rPetrosian, Petrosian.calcPetrosianR, g3, Except.map]

/-- The flux of an image in an aperture on the frame where its pixels differ from the galaxy by at most `κ`. -/
theorem image_flux (G : Galaxy I) {ellip : ℝ} (he1 : ellip < 1) {s r κ : ℝ} (hs : 0 < s) (hr : 0 < r) {h w : Nat} {cx cy theta : ℝ}
    (hf : OnFrame (⟨cx, cy, s * r, s * r * (1 - ellip), theta⟩ : Ellipse ℝ).set h w) {f : Nat → Nat → ℝ}
    (hκ : ∀ i j, i < h → j < w → ∀ p ∈ pixelSquare i j, p ∈ (⟨cx, cy, s * r, s * r * (1 - ellip), theta⟩ : Ellipse ℝ).set →
      |f i j - I (ellRadius p.1 p.2 cx cy ellip theta / s)| ≤ κ) :
    |round6 (imageSum f cx cy ellip theta h w (s * r)) - s ^ 2 * enclosed I (1 - ellip) r| ≤
      s ^ 2 * (κ * (π * (1 - ellip) * r ^ 2)) + 1 / 2 / 10 ^ 6 := by
  have hq : 0 < 1 - ellip := by linarith
  have hsr : 0 < s * r := mul_pos hs hr
  set g : ℝ × ℝ → ℝ := fun p => I (ellRadius p.1 p.2 cx cy ellip theta / s) with hg
  have hgc : Continuous g := by
    have : ContinuousOn I (Set.Ici 0) := G.cont
    refine this.comp_continuous ((ellRadius_continuous cx cy ellip theta).div_const s) fun p => ?_
    exact Set.mem_Ici.2 (div_nonneg (ellRadius_nonneg _ _ _ _ _ _) hs.le)
  set eb : Ellipse ℝ := ⟨cx, cy, s * r, s * r * (1 - ellip), theta⟩ with heb
  have hbd : eb.set ⊆ Set.Icc (-1 / 2) ((w : ℝ) - 1 / 2) ×ˢ Set.Icc (-1 / 2) ((h : ℝ) - 1 / 2) := by
    intro p hp
    obtain ⟨p1, p2, p3, p4⟩ := hf p hp
    exact ⟨⟨p1.le, p2⟩, p3.le, p4⟩
  have hgi : IntegrableOn g eb.set :=
    (hgc.locallyIntegrable.integrableOn_isCompact (isCompact_Icc.prod isCompact_Icc)).mono_set hbd
  have hdisc := weightedSum_close eb hsr (mul_pos hsr hq) h w hf (f := f) hgi hκ
  have hint : ∫ p in eb.set, g p = s ^ 2 * enclosed I (1 - ellip) r := by
    rw [← enclosed_scale I (1 - ellip) hs r, ← integral_isophote (x0 := cx) (y0 := cy) (theta := theta) (fun t => I (t / s)) hsr he1]
  rw [hint] at hdisc
  change |imageSum f cx cy ellip theta h w (s * r) - _| ≤ κ * (π * (s * r) * (s * r * (1 - ellip))) at hdisc
  have hrd := abs_round6_sub (imageSum f cx cy ellip theta h w (s * r))
  have htri := abs_sub_le (round6 (imageSum f cx cy ellip theta h w (s * r))) (imageSum f cx cy ellip theta h w (s * r))
    (s ^ 2 * enclosed I (1 - ellip) r)
  have e1 : κ * (π * (s * r) * (s * r * (1 - ellip))) = s ^ 2 * (κ * (π * (1 - ellip) * r ^ 2)) := by ring
  rw [e1] at hdisc
  linarith

/-- An image of a galaxy at `s` pixels per unit, blurred by at most `B` pixels (in units of the elliptical radius) and cut off at the edges of a frame
that contains the ellipse of semi major axis `ρ`: each pixel has a value between those of the galaxy at `B` inside and `B` outside of it; where
that is not within `ρ`, light may be missing. -/
structure Blurred (I : ℝ → ℝ) (s B cx cy ellip theta : ℝ) (h w : Nat) (ρ : ℝ) (f : Nat → Nat → ℝ) : Prop where
  nonneg : ∀ i j : Nat, i < h → j < w → 0 ≤ f i j
  le : ∀ i j : Nat, i < h → j < w → f i j ≤ I (max (ellRadius j i cx cy ellip theta - B) 0 / s)
  ge : ∀ i j : Nat, i < h → j < w → ellRadius j i cx cy ellip theta + B ≤ ρ → I ((ellRadius j i cx cy ellip theta + B) / s) ≤ f i j

/-- A sampled galaxy is not blurred. -/
theorem Blurred.sampled (G : Galaxy I) {s : ℝ} (hs : 0 < s) (cx cy ellip theta : ℝ) (h w : Nat) (ρ : ℝ) :
    Blurred I s 0 cx cy ellip theta h w ρ fun i j => I (ellRadius j i cx cy ellip theta / s) := by
  refine ⟨fun i j _ _ => (G.pos _ (div_nonneg (ellRadius_nonneg _ _ _ _ _ _) hs.le)).le, fun i j _ _ => ?_, fun i j _ _ _ => ?_⟩
  · rw [sub_zero, max_eq_left (ellRadius_nonneg _ _ _ _ _ _)]
  · rw [add_zero]

/-- No pixel of a blurred image is brighter than the centre of the galaxy. -/
theorem Blurred.le_centre (G : Galaxy I) {s B cx cy ellip theta ρ : ℝ} {h w : Nat} {f : Nat → Nat → ℝ}
    (hB : Blurred I s B cx cy ellip theta h w ρ f) (hs : 0 < s) (i j : Nat) (hi : i < h) (hj : j < w) : f i j ≤ I 0 := by
  refine (hB.le i j hi hj).trans ?_
  have h0 : 0 ≤ max (ellRadius j i cx cy ellip theta - B) 0 / s := div_nonneg (le_max_right _ _) hs.le
  exact G.falls.antitoneOn (Set.mem_Ici.2 le_rfl) (Set.mem_Ici.2 h0) h0

/-- The pixels of a blurred image compared with the galaxy at the points of the pixel. -/
theorem Blurred.pixel {s B cx cy ellip theta ρ : ℝ} {h w : Nat} {f : Nat → Nat → ℝ} (hB : Blurred I s B cx cy ellip theta h w ρ f)
    (he0 : 0 ≤ ellip) (he1 : ellip < 1) (hs : 0 < s) (hB0 : 0 ≤ B) {b κ : ℝ} (hb : 0 < b)
    (hmod : ∀ x y, 0 ≤ x → x ≤ b + (1 / (1 - ellip) + B) / s → 0 ≤ y → y ≤ b → |x - y| ≤ (1 / (1 - ellip) + B) / s → |I x - I y| ≤ κ)
    (hρ : s * b + 1 / (1 - ellip) + B ≤ ρ) :
    ∀ i j, i < h → j < w → ∀ p ∈ pixelSquare i j, p ∈ (⟨cx, cy, s * b, s * b * (1 - ellip), theta⟩ : Ellipse ℝ).set →
      |f i j - I (ellRadius p.1 p.2 cx cy ellip theta / s)| ≤ κ := by
  intro i j hi hj p hp hpe
  have h1 := abs_le.1 (ellRadius_pixel (x0 := cx) (y0 := cy) (theta := theta) he0 he1 hp)
  have h2 := ellRadius_inside (mul_pos hs hb) he1 hpe
  have h3 := hB.le i j hi hj
  have h4 := hB.ge i j hi hj
  have hd0 := ellRadius_nonneg (j : ℝ) (i : ℝ) cx cy ellip theta
  have ht0 := ellRadius_nonneg p.1 p.2 cx cy ellip theta
  generalize ellRadius (j : ℝ) (i : ℝ) cx cy ellip theta = d at *
  generalize ellRadius p.1 p.2 cx cy ellip theta = t at *
  have hq : 0 < 1 / (1 - ellip) := by have : 0 < 1 - ellip := by linarith
                                      positivity
  generalize 1 / (1 - ellip) = q at *
  have hty : t / s ≤ b := by rw [div_le_iff₀ hs]; linarith
  have hty0 : 0 ≤ t / s := div_nonneg ht0 hs.le
  have key : ∀ x, 0 ≤ x → |x - t| ≤ q + B → |I (x / s) - I (t / s)| ≤ κ := by
    intro x hx0 hx
    have hx' : |x / s - t / s| ≤ (q + B) / s := by
      rw [← sub_div, abs_div, abs_of_pos hs]
      exact div_le_div_of_nonneg_right hx hs.le
    exact hmod _ _ (div_nonneg hx0 hs.le) (by linarith [(abs_le.1 hx').2]) hty0 hty hx'
  have k1 := abs_le.1 (key (max (d - B) 0) (le_max_right _ _) (by
    rw [abs_le]
    constructor
    · linarith [le_max_left (d - B) 0]
    · rcases max_cases (d - B) 0 with ⟨e, _⟩ | ⟨e, _⟩ <;> rw [e] <;> linarith))
  have k2 := abs_le.1 (key (d + B) (by linarith) (by rw [abs_le]; constructor <;> linarith))
  have h5 := h4 (by linarith)
  rw [abs_le]
  constructor <;> linarith

/-- The flux of a blurred image in an aperture on the frame: as close to the light of the profile as desired, at high enough resolution. -/
theorem blurred_flux (G : Galaxy I) {ellip : ℝ} (he0 : 0 ≤ ellip) (he1 : ellip < 1) {B : ℝ} (hB : 0 ≤ B) (T : ℝ) {σ : ℝ} (hσ : 0 < σ) :
    ∃ s0 > 0, ∀ s ≥ s0, ∀ r, 0 < r → r ≤ T → ∀ (h w : Nat) (cx cy theta ρ : ℝ) (f : Nat → Nat → ℝ), Blurred I s B cx cy ellip theta h w ρ f →
      s * r + 1 / (1 - ellip) + B ≤ ρ →
      OnFrame (⟨cx, cy, s * r, s * r * (1 - ellip), theta⟩ : Ellipse ℝ).set h w →
      |round6 (imageSum f cx cy ellip theta h w (s * r)) - s ^ 2 * enclosed I (1 - ellip) r| ≤ s ^ 2 * σ := by
  have hp := Real.pi_pos
  have hq : 0 < 1 - ellip := by linarith
  set b := 1 / (1 - ellip) + B with hb
  have hb0 : 0 < b := by positivity
  set κ := σ / (2 * (π * (1 - ellip) * T ^ 2 + 1)) with hκ
  have hκ0 : 0 < κ := by positivity
  obtain ⟨ν, hν, hmod⟩ := gal_modulus G (T + 1) hκ0
  refine ⟨max (max (b / ν) b) (max 1 (1 / σ)), lt_max_of_lt_right (lt_max_of_lt_left one_pos), ?_⟩
  intro s hs r hr hrT h w cx cy theta ρ f hBl hρ hf
  have hs1 : b / ν ≤ s := ((le_max_left _ _).trans (le_max_left _ _)).trans hs
  have hs2 : b ≤ s := ((le_max_right _ _).trans (le_max_left _ _)).trans hs
  have hs3 : 1 ≤ s := ((le_max_left _ _).trans (le_max_right _ _)).trans hs
  have hs4 : 1 / σ ≤ s := ((le_max_right _ _).trans (le_max_right _ _)).trans hs
  have hsp : 0 < s := by linarith
  have hstep1 : b / s ≤ ν := by
    rw [div_le_iff₀ hν] at hs1; rw [div_le_iff₀ hsp]; linarith
  have hstep2 : b / s ≤ 1 := by rw [div_le_one hsp]; exact hs2
  have hfl := image_flux G he1 hsp hr hf (hBl.pixel he0 he1 hsp hB hr
    (fun x y hx hxb hy hyb hxy => hmod x y hx (by linarith) hy (by linarith) (hxy.trans hstep1)) hρ)
  have h5 : s ^ 2 * (κ * (π * (1 - ellip) * r ^ 2)) ≤ s ^ 2 * (σ / 2) := by
    refine mul_le_mul_of_nonneg_left ?_ (by positivity)
    have h6 : r ^ 2 ≤ T ^ 2 := pow_le_pow_left₀ hr.le hrT 2
    have h7 : π * (1 - ellip) * r ^ 2 ≤ π * (1 - ellip) * T ^ 2 + 1 := by
      have := mul_le_mul_of_nonneg_left h6 (by positivity : 0 ≤ π * (1 - ellip))
      linarith
    calc κ * (π * (1 - ellip) * r ^ 2) ≤ κ * (π * (1 - ellip) * T ^ 2 + 1) := mul_le_mul_of_nonneg_left h7 hκ0.le
      _ = σ / 2 := by rw [hκ]; field_simp
  have h8 : (1 : ℝ) / 2 / 10 ^ 6 ≤ s ^ 2 * (σ / 2) := by
    rw [div_le_iff₀ hσ] at hs4
    have : s * σ ≤ s ^ 2 * σ := mul_le_mul_of_nonneg_right (by nlinarith) hσ.le
    norm_num
    linarith
  linarith

/-- The flux of a sampled galaxy in an aperture on the frame: as close to the light of the profile as desired, at high enough resolution. -/
theorem sampled_flux (G : Galaxy I) {ellip : ℝ} (he0 : 0 ≤ ellip) (he1 : ellip < 1) (T : ℝ) {σ : ℝ} (hσ : 0 < σ) :
    ∃ s0 > 0, ∀ s ≥ s0, ∀ r, 0 < r → r ≤ T → ∀ (h w : Nat) (cx cy theta : ℝ),
      OnFrame (⟨cx, cy, s * r, s * r * (1 - ellip), theta⟩ : Ellipse ℝ).set h w →
      |round6 (sampledSum I s cx cy ellip theta h w (s * r)) - s ^ 2 * enclosed I (1 - ellip) r| ≤ s ^ 2 * σ := by
  obtain ⟨s0, hs0, H⟩ := blurred_flux G he0 he1 le_rfl T hσ
  exact ⟨s0, hs0, fun s hs r hr hrT h w cx cy theta hf =>
    H s hs r hr hrT h w cx cy theta _ _ (Blurred.sampled G (lt_of_lt_of_le hs0 hs) cx cy ellip theta h w _) le_rfl hf⟩

/-- **C137.** From pixels to the radii of flux fractions. In the setting of C136, for every tolerance there are a spacing, a resolution and a
number of pixels per ring beyond which `r_petrosian` and the radius of any fraction of the Petrosian flux (`fraction_flux_to_r`, so also
`r_half_light` and `r_total_flux`) are within the tolerance of the radii of the galaxy. -/
theorem C137_image (G : Galaxy I) {ellip : ℝ} (he0 : 0 ≤ ellip) (he1 : ellip < 1) {eta eps epsf frac rP rF : ℝ} (heps : 0 < eps)
    (hepsf : epsf ≠ 0) (hrP : 0 < rP) (hrF : 0 < rF) (htP : petroRatio I rP = eta)
    (htF : enclosed I 1 rF = frac / epsf * enclosed I 1 (eps * rP)) {ε : ℝ} (hε : 0 < ε) :
    ∃ δ > 0, ∃ s0 > 0, ∃ ω0 > 0, ∀ s ≥ s0, ∀ R, Fine δ R → Covers R (rP + ε) → Covers R (eps * rP + ε) → Covers R (rF + ε) →
      (∀ i (h : i + 1 < R.length), ω0 ≤ π * (1 - ellip) * ((s * R[i + 1]) ^ 2 - (s * R[i]) ^ 2)) →
      ∀ (h w : Nat) (cx cy theta : ℝ), (∀ r ∈ R, OnFrame (⟨cx, cy, s * r, s * r * (1 - ellip), theta⟩ : Ellipse ℝ).set h w) →
      ∃ fl ar er, radialPhotometry exactOverlap ⟨h, w, fun i j => fin (I (ellRadius j i cx cy ellip theta / s))⟩ cx cy
          (R.map fun r => s * r) none none (1 / (1 - ellip)) theta = .ok (fl, ar, er) ∧
        ∀ (ip : InterpFam ℝ) (kind : Option String) (num : Nat) (tff : F ℝ), BetweenNodes (ip (kind.getD "cubic")) →
        ∃ p, Petrosian.init (R.map fun r => fin (s * r)) ar fl none none (fin eta) (fin eps) (fin epsf) tff kind num = .ok p ∧
          ∃ rp rf, p.rPetrosian ip = .ok (fin (s * rp)) ∧ |rp - rP| ≤ ε ∧
            p.fractionFluxToR ip (fin frac) = .ok (fin (s * rf)) ∧ |rf - rF| ≤ ε ∧ 0 < rf := by
  have hq : 0 < 1 - ellip := by linarith
  have hp := Real.pi_pos
  have htF' : enclosed I (1 - ellip) rF = frac / epsf * enclosed I (1 - ellip) (eps * rP) := by
    rw [gal_axis (1 - ellip) rF, gal_axis (1 - ellip) (eps * rP), htF]; ring
  obtain ⟨δ1, hδ1, σ, hσ, h1⟩ := C137_stable G hq heps hepsf hrP hrF htF' hε
  obtain ⟨δ2, hδ2, s2, hs2, ω0, hω0, h2⟩ := C136_image G he0 he1 hrP htP (lt_min hε hδ1)
  obtain ⟨s3, hs3, h3⟩ := sampled_flux G he0 he1 (max rF (eps * rP) + ε) hσ
  refine ⟨min δ1 δ2, lt_min hδ1 hδ2, max s2 s3, lt_max_of_lt_left hs2, ω0, hω0, ?_⟩
  intro s hs R hR c1 c2 c3 hring h w cx cy theta hf
  have hsp : 0 < s := lt_of_lt_of_le (lt_max_of_lt_left hs2) hs
  have c1' : Covers R (rP + min ε δ1) := by
    obtain ⟨x, hx, h⟩ := c1
    exact ⟨x, hx, le_trans (by linarith [min_le_left ε δ1]) h⟩
  obtain ⟨fl, ar, er, hph, hP⟩ := h2 s ((le_max_left _ _).trans hs) R (hR.mono (min_le_right _ _)) c1' hring h w cx cy theta hf
  refine ⟨fl, ar, er, hph, fun ip kind num tff hB => ?_⟩
  obtain ⟨p, hp1, rp, hp2, hp3⟩ := hP ip kind num (fin eps) (fin epsf) tff (by rintro k rfl; exact hB)
  -- the fluxes
  have ediv : ∀ r, r / (1 / (1 - ellip)) = r * (1 - ellip) := fun r => by rw [div_div_eq_mul_div, div_one]
  obtain ⟨er', hph'⟩ := photometry_onFrame h w (fun i j => I (ellRadius j i cx cy ellip theta / s)) cx cy (R.map fun r => s * r)
    (1 / (1 - ellip)) theta (one_div_pos.2 hq)
    (by
      intro r hr
      obtain ⟨x, hx, rfl⟩ := List.mem_map.1 hr
      obtain ⟨i, hi, rfl⟩ := List.getElem_of_mem hx
      exact mul_pos hsp (hR.pos hi))
    (by
      intro r hr
      obtain ⟨x, hx, rfl⟩ := List.mem_map.1 hr
      rw [ediv]
      exact hf x hx)
  rw [hph] at hph'
  injection hph' with hph'
  injection hph' with hfl hph'
  set Y := R.map fun r => round6 (sampledSum I s cx cy ellip theta h w (s * r)) with hY
  have eF : fl = Y.map fin := by
    rw [hfl, hY, List.map_map, List.map_map]
    apply List.map_congr_left
    intro r _
    simp only [Function.comp_apply, ediv, sampledSum]
  obtain ⟨rf, f1, f2, f3⟩ := h1 s hsp (s ^ 2) (by positivity) R (hR.mono (min_le_left _ _)) c3 c2 Y (by simp [hY])
    (by
      intro i hi hiT
      have := h3 s ((le_max_right _ _).trans hs) R[i] (hR.pos hi) hiT h w cx cy theta (hf _ (List.getElem_mem hi))
      simpa [hY] using this)
    rp (hp3.trans (min_le_right _ _)) ip kind num (some nan) hB
  refine ⟨p, hp1, rp, rf, hp2, hp3.trans (min_le_left _ _), ?_, f2, f3⟩
  obtain ⟨q1, q2, q3, q4, pl, pe, q5, rfl⟩ := Petrosian.init_ok_iff.1 hp1
  obtain rfl := calculatePetrosian_none_snd q5
  have hsnd : ∀ x, calculatePetrosianR ip (R.map fun r => fin (s * r)) pl none (fin eta) kind num = .ok x → x.2 = nan := by
    intro x hx
    unfold calculatePetrosianR at hx
    simp only [bind_eq_ok] at hx
    obtain ⟨_, _, _, _, _, _, _, _, hx⟩ := hx
    injection hx with hx
    rw [← hx]
  simp only [Petrosian.rPetrosian, Petrosian.calcPetrosianR] at hp2
  obtain ⟨⟨x, y⟩, hx, rfl⟩ := except_map_ok hp2
  have hy : y = nan := hsnd _ hx
  subst hy
  simp only [Petrosian.fractionFluxToR, Petrosian.calcFractionToR, Petrosian.rPetrosian, Petrosian.rPetrosianErr,
    Petrosian.calcPetrosianR, hx, Except.map, Except.bind_ok, eF, f1]

/-- The hypotheses of C136 and C137 can be met: for any spacing, resolution and number of pixels per ring there are radii, a scale and a
frame. -/
theorem C136_attainable {δ s0 ω0 ellip : ℝ} (hδ : 0 < δ) (hs0 : 0 < s0) (hω0 : 0 < ω0) (he0 : 0 ≤ ellip) (he1 : ellip < 1) (T theta : ℝ) :
    ∃ s ≥ s0, ∃ R, Fine δ R ∧ Covers R T ∧ (∀ i (h : i + 1 < R.length), ω0 ≤ π * (1 - ellip) * ((s * R[i + 1]) ^ 2 - (s * R[i]) ^ 2)) ∧
      ∃ (h w : Nat) (cx cy : ℝ), ∀ r ∈ R, OnFrame (⟨cx, cy, s * r, s * r * (1 - ellip), theta⟩ : Ellipse ℝ).set h w := by
  have hp := Real.pi_pos
  have hq : 0 < 1 - ellip := by linarith
  obtain ⟨n, hn⟩ := exists_nat_gt (T / δ)
  set R := (List.range (n + 3)).map fun i : Nat => ((i : ℝ) + 1) * δ with hR
  have hRl : R.length = n + 3 := by simp [hR]
  have hRv : ∀ i (h : i < R.length), R[i] = ((i : ℝ) + 1) * δ := by intro i h; simp [hR]
  set s := max s0 (max 1 (ω0 / (π * (1 - ellip) * δ ^ 2))) with hs
  have hs1 : 1 ≤ s := (le_max_left _ _).trans (le_max_right _ _)
  have hs2 : ω0 / (π * (1 - ellip) * δ ^ 2) ≤ s := (le_max_right _ _).trans (le_max_right _ _)
  have hsp : 0 < s := by linarith
  refine ⟨s, le_max_left _ _, R, ⟨by omega, ?_, ?_⟩, ?_, ?_, ?_⟩
  · intro h; rw [hRv]; simp [hδ]
  · intro i h
    rw [hRv _ h, hRv i (by omega)]
    push_cast
    constructor <;> linarith
  · refine ⟨R[n]'(by omega), List.getElem_mem _, ?_⟩
    rw [hRv]
    rw [div_lt_iff₀ hδ] at hn
    linarith
  · intro i h
    rw [hRv _ h, hRv i (by omega)]
    push_cast
    rw [div_le_iff₀ (by positivity)] at hs2
    have hi : (0 : ℝ) ≤ i := Nat.cast_nonneg i
    have e : π * (1 - ellip) * ((s * (((i : ℝ) + 1 + 1) * δ)) ^ 2 - (s * (((i : ℝ) + 1) * δ)) ^ 2) =
        (s * (π * (1 - ellip) * δ ^ 2)) * (s * (2 * i + 3)) := by ring
    rw [e]
    have h1 : 1 ≤ s * (2 * (i : ℝ) + 3) := by nlinarith
    have h2 : 0 ≤ s * (π * (1 - ellip) * δ ^ 2) := by positivity
    nlinarith
  · obtain ⟨N, hN⟩ := exists_nat_gt (s * ((n + 4 : ℝ) * δ))
    refine ⟨2 * N + 1, 2 * N + 1, N, N, fun r hr => ?_⟩
    obtain ⟨i, hi, rfl⟩ := List.getElem_of_mem hr
    have hr0 : 0 < R[i] := by rw [hRv]; positivity
    have hrN : s * R[i] ≤ N := by
      rw [hRv]
      have : (i : ℝ) + 1 ≤ n + 4 := by
        have : i < n + 3 := by omega
        have : ((i : ℕ) : ℝ) < ((n + 3 : ℕ) : ℝ) := by exact_mod_cast this
        push_cast at this; linarith
      have := mul_le_mul_of_nonneg_left (mul_le_mul_of_nonneg_right this hδ.le) hsp.le
      linarith
    have ha : 0 < s * R[i] := mul_pos hsp hr0
    have hb : 0 < s * R[i] * (1 - ellip) := mul_pos ha hq
    have hba : s * R[i] * (1 - ellip) ≤ s * R[i] := by nlinarith
    have hcs := Real.cos_sq_add_sin_sq theta
    have key : ∀ c d : ℝ, c ^ 2 + d ^ 2 = 1 → √((s * R[i] * c) ^ 2 + (s * R[i] * (1 - ellip) * d) ^ 2) ≤ s * R[i] := by
      intro c d hcd
      rw [Real.sqrt_le_left ha.le]
      have h1 : (s * R[i] * (1 - ellip)) ^ 2 ≤ (s * R[i]) ^ 2 := pow_le_pow_left₀ hb.le hba 2
      have h2 := mul_le_mul_of_nonneg_right h1 (sq_nonneg d)
      have h3 : (s * R[i] * c) ^ 2 + (s * R[i]) ^ 2 * d ^ 2 = (s * R[i]) ^ 2 := by
        rw [mul_pow, ← mul_add, hcd, mul_one]
      rw [mul_pow _ d 2]
      linarith
    have hx : Ellipse.xExtent ⟨(N : ℝ), (N : ℝ), s * R[i], s * R[i] * (1 - ellip), theta⟩ ≤ s * R[i] := key _ _ hcs
    have hy : Ellipse.yExtent ⟨(N : ℝ), (N : ℝ), s * R[i], s * R[i] * (1 - ellip), theta⟩ ≤ s * R[i] := key _ _ (by linarith)
    apply onFrame_of_box _ ha hb
    · simp only; linarith
    · simp only; push_cast; linarith
    · simp only; linarith
    · simp only; push_cast; linarith

/-- A Sersic galaxy of any index and ellipticity 0.3 with linear interpolation: there are images whose measured Petrosian radius is within a
hundredth of a unit of the true one. -/
example {n rP eta : ℝ} (hn : 0 < n) (hrP : 0 < rP) (htrue : petroRatio (sersic (bn n) 1 1 n) rP = eta) :
    ∃ (h w : Nat) (cx cy s : ℝ) (R : List ℝ), 0 < s ∧
      ∃ fl ar er, radialPhotometry exactOverlap
          ⟨h, w, fun i j => fin (sersic (bn n) 1 1 n (ellRadius j i cx cy (3 / 10) (1 / 2) / s))⟩ cx cy
          (R.map fun r => s * r) none none (1 / (1 - 3 / 10)) (1 / 2) = .ok (fl, ar, er) ∧
        ∃ p, Petrosian.init (R.map fun r => fin (s * r)) ar fl none none (fin eta) (fin 2) (fin 1) (fin 1) (some "linear") 5000 = .ok p ∧
          ∃ r, p.rPetrosian (fun _ => linearInterp) = .ok (fin (s * r)) ∧ |r - rP| ≤ 1 / 100 := by
  obtain ⟨δ, hδ, s0, hs0, ω0, hω0, hm⟩ := C136_image (sersic_galaxy (amplitude := 1) (rEff := 1) one_pos hn one_pos)
    (ellip := 3 / 10) (by norm_num) (by norm_num) hrP htrue (ε := 1 / 100) (by norm_num)
  obtain ⟨s, hs, R, hR, hc, hring, h, w, cx, cy, hf⟩ := C136_attainable hδ hs0 hω0 (ellip := 3 / 10) (by norm_num) (by norm_num)
    (rP + 1 / 100) (1 / 2)
  obtain ⟨fl, ar, er, h1, h2⟩ := hm s hs R hR hc hring h w cx cy (1 / 2) hf
  exact ⟨h, w, cx, cy, s, R, lt_of_lt_of_le hs0 hs, fl, ar, er, h1, h2 _ _ _ _ _ _ fun _ _ => linear_between⟩

/-- The same for the half light radius. -/
example {n rP rF eta : ℝ} (hn : 0 < n) (hrP : 0 < rP) (hrF : 0 < rF) (htP : petroRatio (sersic (bn n) 1 1 n) rP = eta)
    (htF : enclosed (sersic (bn n) 1 1 n) 1 rF = 1 / 2 / 1 * enclosed (sersic (bn n) 1 1 n) 1 (2 * rP)) :
    ∃ (h w : Nat) (cx cy s : ℝ) (R : List ℝ), 0 < s ∧
      ∃ fl ar er, radialPhotometry exactOverlap
          ⟨h, w, fun i j => fin (sersic (bn n) 1 1 n (ellRadius j i cx cy (3 / 10) (1 / 2) / s))⟩ cx cy
          (R.map fun r => s * r) none none (1 / (1 - 3 / 10)) (1 / 2) = .ok (fl, ar, er) ∧
        ∃ p, Petrosian.init (R.map fun r => fin (s * r)) ar fl none none (fin eta) (fin 2) (fin 1) (fin 1) (some "linear") 5000 = .ok p ∧
          ∃ r, p.rHalfLight (fun _ => linearInterp) = .ok (fin (s * r)) ∧ |r - rF| ≤ 1 / 100 := by
  obtain ⟨δ, hδ, s0, hs0, ω0, hω0, hm⟩ := C137_image (sersic_galaxy (amplitude := 1) (rEff := 1) one_pos hn one_pos)
    (ellip := 3 / 10) (eps := 2) (by norm_num) (by norm_num) (by norm_num) one_ne_zero hrP hrF htP htF (ε := 1 / 100) (by norm_num)
  obtain ⟨s, hs, R, hR, hc, hring, h, w, cx, cy, hf⟩ := C136_attainable hδ hs0 hω0 (ellip := 3 / 10) (by norm_num) (by norm_num)
    (max (2 * rP) rF + 1 / 100) (1 / 2)
  obtain ⟨x, hx, hxt⟩ := hc
  have hc' : ∀ t, t ≤ max (2 * rP) rF → Covers R (t + 1 / 100) := fun t ht => ⟨x, hx, by linarith⟩
  obtain ⟨fl, ar, er, h1, h2⟩ := hm s hs R hR (hc' _ (le_max_of_le_left (by linarith))) (hc' _ (le_max_left _ _))
    (hc' _ (le_max_right _ _)) hring h w cx cy (1 / 2) hf
  obtain ⟨p, h3, _, rf, _, _, h4, h5, _⟩ := h2 (fun _ => linearInterp) (some "linear") 5000 (fin 1) linear_between
  refine ⟨h, w, cx, cy, s, R, lt_of_lt_of_le hs0 hs, fl, ar, er, h1, p, h3, rf, ?_, h5⟩
  rw [← h4]
  simp [Petrosian.rHalfLight, Petrosian.fractionFluxToR]

end Verif.Props

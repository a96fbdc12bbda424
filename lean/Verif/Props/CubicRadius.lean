import Verif.Lemmas.SplineBound
import Verif.Props.ImageConvergence

/-!
# C143: radii measured on images with the default cubic interpolation
-/

set_option linter.unusedSectionVars false
set_option linter.unusedVariables false

namespace Verif.Props

open Verif F Spec Lemmas MeasureTheory Real

variable {I : ℝ → ℝ}

/-- The Petrosian ratio with its limit 1 at the centre. -/
noncomputable def fullRatio (I : ℝ → ℝ) (r : ℝ) : ℝ := if r ≤ 0 then 1 else petroRatio I r

theorem fullRatio_pos {r : ℝ} (hr : 0 < r) : fullRatio I r = petroRatio I r := if_neg (not_le.2 hr)

theorem fullRatio_zero : fullRatio I 0 = 1 := if_pos le_rfl

/-- The Petrosian ratio is uniformly continuous up to the centre. -/
theorem fullRatio_modulus (G : Galaxy I) (T : ℝ) {κ : ℝ} (hκ : 0 < κ) :
    ∃ ν > 0, ∀ x y, 0 ≤ x → x ≤ T → 0 ≤ y → y ≤ T → |x - y| ≤ ν → |fullRatio I x - fullRatio I y| ≤ κ := by
  have hc : ContinuousOn (fullRatio I) (Set.Icc 0 T) := by
    intro x hx
    rcases hx.1.eq_or_lt with h0 | h0
    · subst h0
      rw [Metric.continuousWithinAt_iff]
      intro ε hε
      obtain ⟨ρ, hρ, h⟩ := gal_centre G (half_pos hε)
      refine ⟨ρ, hρ, fun {y} hy hd => ?_⟩
      rw [fullRatio_zero, Real.dist_eq]
      rw [Real.dist_eq, sub_zero] at hd
      rcases hy.1.eq_or_lt with h1 | h1
      · rw [← h1, fullRatio_zero]; simpa using hε
      · rw [fullRatio_pos h1, abs_lt]
        rw [abs_of_pos h1] at hd
        have := (h y h1 hd.le).2
        have := (petroRatio_mem G h1).2
        constructor <;> linarith
    · have h1 := petroRatio_continuousAt G h0
      have : fullRatio I =ᶠ[nhds x] petroRatio I := by
        filter_upwards [lt_mem_nhds h0] with y hy using fullRatio_pos hy
      exact (h1.congr this.symm).continuousWithinAt
  have huc : UniformContinuousOn (fullRatio I) (Set.Icc 0 T) := isCompact_Icc.uniformContinuousOn_of_continuous hc
  obtain ⟨ν, hν, h⟩ := Metric.uniformContinuousOn_iff.1 huc κ hκ
  refine ⟨ν / 2, by linarith, fun x y hx hxT hy hyT hxy => ?_⟩
  have := h x ⟨hx, hxT⟩ y ⟨hy, hyT⟩ (by rw [Real.dist_eq]; linarith)
  rw [Real.dist_eq] at this
  exact this.le

/-- Entries of the profile measured on a blurred image, to any accuracy, at high enough resolution and with enough pixels in the ring. -/
theorem blurred_entry_unif (G : Galaxy I) {ellip : ℝ} (he0 : 0 ≤ ellip) (he1 : ellip < 1) {B : ℝ} (hB : 0 ≤ B) {T : ℝ} (hT0 : 0 < T)
    {σ : ℝ} (hσ : 0 < σ) :
    ∃ s0 > 0, ∃ ω0 ≥ 1, ∀ s ≥ s0, ∀ a b, 0 < a → a < b → b ≤ T → ∀ (h w : Nat) (cx cy theta ρ : ℝ) (f : Nat → Nat → ℝ),
      Blurred I s B cx cy ellip theta h w ρ f → s * b + 1 / (1 - ellip) + B ≤ ρ →
      OnFrame (⟨cx, cy, s * b, s * b * (1 - ellip), theta⟩ : Ellipse ℝ).set h w →
      ω0 ≤ π * (1 - ellip) * ((s * b) ^ 2 - (s * a) ^ 2) →
      round6 (π * (1 - ellip) * (s * a) ^ 2) < round6 (π * (1 - ellip) * (s * b) ^ 2) ∧
      0 < round6 (π * (1 - ellip) * (s * b) ^ 2) ∧
      0 < round6 (imageSum f cx cy ellip theta h w (s * b)) ∧
      ∃ v, ratio (round6 (π * (1 - ellip) * (s * a) ^ 2)) (round6 (imageSum f cx cy ellip theta h w (s * a)))
        (round6 (π * (1 - ellip) * (s * b) ^ 2)) (round6 (imageSum f cx cy ellip theta h w (s * b))) = fin v ∧
        petroRatio I b - σ ≤ v ∧ v ≤ mixRatio I a b + σ := by
  have hq : 0 < 1 - ellip := by linarith
  have hI0 : 0 < I 0 := G.pos 0 le_rfl
  set M0 := I T with hM0
  have hM00 : 0 < M0 := G.pos T hT0.le
  set τ := min (M0 / 2) (σ * M0 / 4) with hτ
  have hτ0 : 0 < τ := lt_min (by linarith) (by positivity)
  set κ := τ / 8 with hκ
  have hκ0 : 0 < κ := by linarith
  set ω0 := max 1 (8 * (1 / 10 ^ 6) * (1 + I 0) / τ) with hω0
  have hω1 : 1 ≤ ω0 := le_max_left _ _
  have hω2 : 8 * (1 / 10 ^ 6) * (1 + I 0) / τ ≤ ω0 := le_max_right _ _
  have hω00 : 0 < ω0 := by linarith
  obtain ⟨ν, hν, hmod⟩ := gal_modulus G (T + 1) hκ0
  set c := 1 / (1 - ellip) + B with hc
  have hc0 : 0 < c := by positivity
  set s0 := max (c / ν) c with hs0
  have hs00 : 0 < s0 := lt_max_of_lt_right hc0
  refine ⟨s0, hs00, ω0, hω1, ?_⟩
  intro s hs a b ha hab hbT h w cx cy theta ρ f hBl hρ hf hω
  have hsp : 0 < s := lt_of_lt_of_le hs00 hs
  have hb : 0 < b := ha.trans hab
  have hstep1 : c / s ≤ ν := by
    have : c / ν ≤ s := (le_max_left _ _).trans hs
    rw [div_le_iff₀ hν] at this
    rw [div_le_iff₀ hsp]
    linarith
  have hstep2 : c / s ≤ 1 := by
    rw [div_le_one hsp]
    exact (le_max_right _ _).trans hs
  have hIb1 : M0 ≤ I b := G.falls.antitoneOn (Set.mem_Ici.2 hb.le) (Set.mem_Ici.2 hT0.le) hbT
  have hτ1 : 2 * κ + 2 * (1 / 10 ^ 6) * (1 + I 0) / ω0 ≤ τ := by
    have : 2 * (1 / 10 ^ 6) * (1 + I 0) / ω0 ≤ τ / 4 := by
      rw [div_le_iff₀ hτ0] at hω2
      rw [div_le_iff₀ hω00]
      linarith
    linarith
  have hτ2 : τ ≤ M0 / 2 := min_le_left _ _
  have hτ3 : τ ≤ σ * M0 / 4 := min_le_right _ _
  obtain ⟨e0, e1, e2, v, hv, v1, v2⟩ := image_entry G he0 he1 hsp ha hab hf hκ0.le
    (hBl.pixel he0 he1 hsp hB hb (fun x y hx hxb hy hyb hxy => hmod x y hx (by linarith) hy (by linarith) (hxy.trans hstep1)) hρ) (by linarith) hω (by linarith)
  have hle : 4 * (2 * κ + 2 * (1 / 10 ^ 6) * (1 + I 0) / ω0) / I b ≤ σ := by
    rw [div_le_iff₀ (by linarith)]
    have : σ * M0 ≤ σ * I b := mul_le_mul_of_nonneg_left hIb1 hσ.le
    linarith
  exact ⟨e0, e1, e2, v, hv, by linarith, by linarith⟩

/-- Entries of the profile measured on a sampled galaxy, to any accuracy, at high enough resolution and with enough pixels in the ring. -/
theorem sampled_entry_unif (G : Galaxy I) {ellip : ℝ} (he0 : 0 ≤ ellip) (he1 : ellip < 1) {T : ℝ} (hT0 : 0 < T) {σ : ℝ} (hσ : 0 < σ) :
    ∃ s0 > 0, ∃ ω0 ≥ 1, ∀ s ≥ s0, ∀ a b, 0 < a → a < b → b ≤ T → ∀ (h w : Nat) (cx cy theta : ℝ),
      OnFrame (⟨cx, cy, s * b, s * b * (1 - ellip), theta⟩ : Ellipse ℝ).set h w →
      ω0 ≤ π * (1 - ellip) * ((s * b) ^ 2 - (s * a) ^ 2) →
      round6 (π * (1 - ellip) * (s * a) ^ 2) < round6 (π * (1 - ellip) * (s * b) ^ 2) ∧
      0 < round6 (π * (1 - ellip) * (s * b) ^ 2) ∧
      0 < round6 (sampledSum I s cx cy ellip theta h w (s * b)) ∧
      ∃ v, ratio (round6 (π * (1 - ellip) * (s * a) ^ 2)) (round6 (sampledSum I s cx cy ellip theta h w (s * a)))
        (round6 (π * (1 - ellip) * (s * b) ^ 2)) (round6 (sampledSum I s cx cy ellip theta h w (s * b))) = fin v ∧
        petroRatio I b - σ ≤ v ∧ v ≤ mixRatio I a b + σ := by
  obtain ⟨s0, hs0, ω0, hω0, H⟩ := blurred_entry_unif G he0 he1 le_rfl hT0 hσ
  exact ⟨s0, hs0, ω0, hω0, fun s hs a b ha hab hbT h w cx cy theta hf hω =>
    H s hs a b ha hab hbT h w cx cy theta _ _ (Blurred.sampled G (lt_of_lt_of_le hs0 hs) cx cy ellip theta h w _) le_rfl hf hω⟩

/-- The mixed ratio is close to the Petrosian ratio for thin rings. -/
theorem mixRatio_close (G : Galaxy I) {T : ℝ} (hT0 : 0 < T) {σ : ℝ} (hσ : 0 < σ) :
    ∃ ν > 0, ∀ a b, 0 ≤ a → a ≤ b → 0 < b → b ≤ T → b - a ≤ ν → mixRatio I a b ≤ petroRatio I b + σ := by
  have hM00 : 0 < I T := G.pos T hT0.le
  obtain ⟨ν, hν, hmod⟩ := gal_modulus G T (mul_pos hσ hM00)
  refine ⟨ν, hν, fun a b ha hab hb hbT hd => ?_⟩
  have h1 := (abs_le.1 (hmod a b ha (hab.trans hbT) hb.le hbT (by rw [abs_le]; constructor <;> linarith))).2
  have hp := Real.pi_pos
  have hMb : I T ≤ enclosed I 1 b / (π * b ^ 2) := by
    have gr1 := (gal_ring G one_pos le_rfl hb.le).1
    rw [gal_zero] at gr1
    have : I T ≤ I b := G.falls.antitoneOn (Set.mem_Ici.2 hb.le) (Set.mem_Ici.2 hT0.le) hbT
    refine this.trans ?_
    rw [le_div_iff₀ (by positivity)]
    linarith
  unfold mixRatio petroRatio
  have hM0 : 0 < enclosed I 1 b / (π * b ^ 2) := by linarith
  rw [← sub_le_iff_le_add', ← sub_div, div_le_iff₀ hM0]
  have := mul_le_mul_of_nonneg_left hMb hσ.le
  linarith

/-- What `radial_photometry` and `calculate_petrosian` give on an image with all apertures on the frame. -/
theorem image_lists (f : Nat → Nat → ℝ) {ellip : ℝ} (he1 : ellip < 1) {s : ℝ} (hs : 0 < s) {δ : ℝ} {R : List ℝ} (hR : Fine δ R)
    (hring : ∀ i (h : i + 1 < R.length), 1 ≤ π * (1 - ellip) * ((s * R[i + 1]) ^ 2 - (s * R[i]) ^ 2)) {h w : Nat} {cx cy theta : ℝ}
    (hf : ∀ r ∈ R, OnFrame (⟨cx, cy, s * r, s * r * (1 - ellip), theta⟩ : Ellipse ℝ).set h w) :
    ∃ er pl, radialPhotometry exactOverlap ⟨h, w, fun i j => fin (f i j)⟩ cx cy
        (R.map fun r => s * r) none none (1 / (1 - ellip)) theta =
        .ok ((R.map fun r => round6 (imageSum f cx cy ellip theta h w (s * r))).map fin,
          (R.map fun r => round6 (π * (1 - ellip) * (s * r) ^ 2)).map fin, er) ∧
      calculatePetrosian ((R.map fun r => round6 (π * (1 - ellip) * (s * r) ^ 2)).map fin)
        ((R.map fun r => round6 (imageSum f cx cy ellip theta h w (s * r))).map fin) none none = .ok (pl, none) ∧
      pl.length = R.length ∧
      ∀ i (h' : i + 1 < R.length), pl[i + 1]? = some (ratio (round6 (π * (1 - ellip) * (s * R[i]) ^ 2))
        (round6 (imageSum f cx cy ellip theta h w (s * R[i]))) (round6 (π * (1 - ellip) * (s * R[i + 1]) ^ 2))
        (round6 (imageSum f cx cy ellip theta h w (s * R[i + 1])))) := by
  have hq : 0 < 1 - ellip := by linarith
  have ediv : ∀ r, r / (1 / (1 - ellip)) = r * (1 - ellip) := fun r => by rw [div_div_eq_mul_div, div_one]
  obtain ⟨er, hph⟩ := photometry_onFrame h w (f) cx cy (R.map fun r => s * r)
    (1 / (1 - ellip)) theta (one_div_pos.2 hq)
    (by
      intro r hr
      obtain ⟨x, hx, rfl⟩ := List.mem_map.1 hr
      obtain ⟨i, hi, rfl⟩ := List.getElem_of_mem hx
      exact mul_pos hs (hR.pos hi))
    (by
      intro r hr
      obtain ⟨x, hx, rfl⟩ := List.mem_map.1 hr
      rw [ediv]
      exact hf x hx)
  set A := R.map fun r => round6 (π * (1 - ellip) * (s * r) ^ 2) with hA
  set Fl := R.map fun r => round6 (imageSum f cx cy ellip theta h w (s * r)) with hFl
  have eA : ((R.map fun r => s * r).map fun r => fin (round6 (π * r ^ 2 / (1 / (1 - ellip))))) = A.map fin := by
    rw [hA, List.map_map, List.map_map]
    apply List.map_congr_left
    intro r _
    simp only [Function.comp_apply, ediv]
    congr 2; ring
  have eF : ((R.map fun r => s * r).map fun r => fin (round6 (weightedSum (exactOverlap.weight ⟨cx, cy, r, r / (1 / (1 - ellip)), theta⟩) h w
      (fun _ _ => true) f))) = Fl.map fin := by
    rw [hFl, List.map_map, List.map_map]
    apply List.map_congr_left
    intro r _
    simp only [Function.comp_apply, ediv, imageSum]
  rw [eA, eF] at hph
  have h3 := hR.three
  have hAinc : ∀ i (h : i + 1 < A.length), A[i] < A[i + 1] := by
    intro i hi
    simp only [hA, List.length_map] at hi
    simp only [hA, List.getElem_map]
    have h1 := hring i hi
    have r3 := abs_le.1 (abs_round6_sub (π * (1 - ellip) * (s * R[i]) ^ 2))
    have r4 := abs_le.1 (abs_round6_sub (π * (1 - ellip) * (s * R[i + 1]) ^ 2))
    linarith [r3.2, r4.1]
  obtain ⟨p, e, g1, g2, g3, g4⟩ := C01_profile_formula A Fl (by simp [hA, hFl]) (by simpa [hA] using h3) hAinc none none (by simp) (by simp)
  have hen : e = none := calculatePetrosian_none_snd g1
  subst hen
  refine ⟨er, p, hph, g1, by simpa [hA] using g2, fun i hi => ?_⟩
  have := g4 i (by simpa [hA] using hi)
  simpa [hA, hFl] using this

/-- Radii that start close to the centre and grow in small steps stay close to it for a while. -/
theorem fine_le {δ : ℝ} {R : List ℝ} (hR : Fine δ R) : ∀ i (h : i < R.length), R[i] ≤ (i + 1 : ℝ) * δ
  | 0, h => by have := (hR.first h).2; push_cast; linarith
  | i + 1, h => by
    have h1 := fine_le hR i (by omega)
    have h2 := (hR.step i h).2
    push_cast
    linarith

/-- Fine radii that reach far are many. -/
theorem fine_four {δ T : ℝ} (hT : 0 < T) (hδ : δ ≤ T / 4) {R : List ℝ} (hR : Fine δ R) (hc : Covers R T) : 4 ≤ R.length := by
  obtain ⟨x, hx, hTx⟩ := hc
  obtain ⟨i, hi, rfl⟩ := List.getElem_of_mem hx
  by_contra hlt
  have h1 := fine_le hR i hi
  have h0 := hR.first (by omega)
  have hi2 : i ≤ 2 := by omega
  have h2 : (i : ℝ) ≤ 2 := by exact_mod_cast hi2
  nlinarith

/-- From the pixels of a blurred image to the Petrosian radius with an interpolation that may overshoot the data by a multiple of the largest
difference of neighbouring values, as cubic splines do. -/
theorem blurred_petrosian (G : Galaxy I) {ellip : ℝ} (he0 : 0 ≤ ellip) (he1 : ellip < 1) {B : ℝ} (hB : 0 ≤ B) {eta rP : ℝ} (hrP : 0 < rP)
    (htrue : petroRatio I rP = eta) {ε : ℝ} (hε : 0 < ε) (Tmax ρ C : ℝ) :
    ∃ δ > 0, ∃ s0 > 0, ∃ ω0 > 0, ∀ s ≥ s0, ∀ R, Fine δ R → EvenRadii ρ R → (∀ r ∈ R, r ≤ Tmax) → Covers R (rP + ε) →
      (∀ i (h : i + 1 < R.length), ω0 ≤ π * (1 - ellip) * ((s * R[i + 1]) ^ 2 - (s * R[i]) ^ 2)) →
      ∀ (h w : Nat) (cx cy theta D : ℝ) (f : Nat → Nat → ℝ), Blurred I s B cx cy ellip theta h w D f → s * Tmax + 1 / (1 - ellip) + B ≤ D →
      (∀ r ∈ R, OnFrame (⟨cx, cy, s * r, s * r * (1 - ellip), theta⟩ : Ellipse ℝ).set h w) →
      ∃ fl ar er, radialPhotometry exactOverlap ⟨h, w, fun i j => fin (f i j)⟩ cx cy
          (R.map fun r => s * r) none none (1 / (1 - ellip)) theta = .ok (fl, ar, er) ∧
        ∀ (ip : InterpFam ℝ) (kind : Option String) (num : Nat) (eps epsf tff : F ℝ), (∀ k, kind = some k → Gentle ρ C (ip k)) →
        ∃ p, Petrosian.init (R.map fun r => fin (s * r)) ar fl none none (fin eta) eps epsf tff kind num = .ok p ∧
          ∃ r, p.rPetrosian ip = .ok (fin (s * r)) ∧ |r - rP| ≤ ε := by
  have hq : 0 < 1 - ellip := by linarith
  set T := max Tmax 1 with hT
  have hT0 : 0 < T := lt_of_lt_of_le one_pos (le_max_right _ _)
  obtain ⟨δ1, hδ1, σ, hσ, hst⟩ := C136_stable_calm G hrP htrue hε one_pos
  set C' := max C 1 with hC'
  have hC1 : 1 ≤ C' := le_max_right _ _
  have hCC : C ≤ C' := le_max_left _ _
  have hC0 : 0 < C' := by linarith
  set τ := σ / (5 * C') with hτ
  have hτ0 : 0 < τ := by positivity
  have hτC : C' * (5 * τ) = σ := by rw [hτ]; field_simp
  have hτσ : 5 * τ ≤ σ := by nlinarith
  obtain ⟨s0, hs0, ω0, hω0, hent⟩ := blurred_entry_unif G he0 he1 hB hT0 hτ0
  obtain ⟨ν1, hν1, hmix⟩ := mixRatio_close G hT0 hτ0
  obtain ⟨ν2, hν2, hfull⟩ := fullRatio_modulus G T hτ0
  set δ := min δ1 (min ν1 (min (ν2 / 2) (rP / 4))) with hδ
  have d1 : δ ≤ δ1 := min_le_left _ _
  have d2 : δ ≤ ν1 := (min_le_right _ _).trans (min_le_left _ _)
  have d3 : δ ≤ ν2 / 2 := (min_le_right _ _).trans ((min_le_right _ _).trans (min_le_left _ _))
  have d4 : δ ≤ rP / 4 := (min_le_right _ _).trans ((min_le_right _ _).trans (min_le_right _ _))
  have hδ0 : 0 < δ := lt_min hδ1 (lt_min hν1 (lt_min (by linarith) (by linarith)))
  refine ⟨δ, hδ0, s0, hs0, ω0, by linarith, ?_⟩
  intro s hs R hR hev hmax hcov hring h w cx cy theta D f hBl hD hf
  have hsp : 0 < s := lt_of_lt_of_le hs0 hs
  have room : ∀ r ∈ R, s * r + 1 / (1 - ellip) + B ≤ D := fun r hr => by
    have := mul_le_mul_of_nonneg_left (hmax r hr) hsp.le
    linarith
  have h4 : 4 ≤ R.length := fine_four (T := rP + ε) (by linarith) (by linarith) hR hcov
  have hRT : ∀ i (hi : i < R.length), R[i] ≤ T := fun i hi => (hmax _ (List.getElem_mem hi)).trans (le_max_left _ _)
  obtain ⟨er, pl, hph, hcp, hpl, hpe⟩ := image_lists f he1 hsp hR (fun i hi => hω0.trans (hring i hi)) hf
  refine ⟨_, _, er, hph, fun ip kind num eps epsf tff hJ => ?_⟩
  have hentry : ∀ i (hi : i + 1 < R.length), ∃ v, pl[i + 1]? = some (fin v) ∧ petroRatio I R[i + 1] - τ ≤ v ∧
      v ≤ mixRatio I R[i] R[i + 1] + τ := by
    intro i hi
    obtain ⟨-, -, -, v, hv, v1, v2⟩ := hent s hs R[i] R[i + 1] (hR.pos (by omega)) (hR.step i hi).1 (hRT _ hi) h w cx cy theta D f hBl
      (room _ (List.getElem_mem hi)) (hf _ (List.getElem_mem hi)) (hring i hi)
    exact ⟨v, by rw [hpe i hi, hv], v1, v2⟩
  obtain ⟨r, hr1, hr2⟩ := hst s hsp R (hR.mono d1) hcov pl hpl
    (by
      intro i hi
      obtain ⟨v, hv, v1, v2⟩ := hentry i hi
      refine ⟨v, hv, fun _ => ⟨?_, fun _ => ?_⟩⟩
      · linarith [min_le_left (petroRatio I R[i + 1]) (eta + 1)]
      · unfold mixRatio at v2; linarith)
    ip kind num
    (by
      intro k hk Y hY
      obtain ⟨g, hg, hgap, hg1⟩ := hev
      have hYl : Y.length = R.length := by
        have := congrArg List.length hY
        simp only [List.length_cons, List.length_tail, List.length_map] at this
        omega
      have hNl : ((0 :: R.tail).map fun x => s * x).length = R.length := by simp; omega
      have hN0 : ∀ i (hi : i + 1 < R.length), ((0 :: R.tail).map fun x => s * x)[i + 1]'(by omega) = s * R[i + 1] := by
        intro i hi; simp
      -- the data are close to the true ratio
      have hYv : ∀ i (hi : i < R.length), |Y[i]'(by omega) - fullRatio I ((0 :: R.tail)[i]'(by simp; omega))| ≤ 2 * τ := by
        intro i hi
        have hYi : (Y.map fin)[i]? = some (fin (Y[i]'(by omega))) := by
          rw [List.getElem?_map, List.getElem?_eq_getElem (by omega)]; rfl
        rw [← hY] at hYi
        cases i with
        | zero =>
          simp only [List.getElem?_cons_zero, Option.some.injEq, fin.injEq] at hYi
          rw [← hYi, List.getElem_cons_zero, fullRatio_zero]
          simpa using hτ0.le
        | succ i =>
          obtain ⟨v, hv, v1, v2⟩ := hentry i hi
          rw [List.getElem?_cons_succ, List.getElem?_tail, hv] at hYi
          simp only [Option.some.injEq, fin.injEq] at hYi
          rw [← hYi, List.getElem_cons_succ, List.getElem_tail, fullRatio_pos (hR.pos hi)]
          have := hmix R[i] R[i + 1] (hR.pos (by omega)).le (hR.step i hi).1.le (hR.pos hi) (hRT _ hi) ((hR.step i hi).2.trans d2)
          rw [abs_le]
          constructor <;> linarith
      refine Gentle_calm (hJ k hk) (by rw [hNl, hYl]) (by rw [hNl]; exact h4) (g := s * g) (mul_pos hsp hg) ?_ (δ := 5 * τ) ?_
        ((mul_le_mul_of_nonneg_right hCC (by linarith)).trans hτC.le) _
      · intro i hi
        rw [hNl] at hi
        rw [hN0 i hi]
        have e : ρ * (s * g) = s * (ρ * g) := by ring
        rw [e]
        cases i with
        | zero =>
          have hz : ((0 :: R.tail).map fun x => s * x)[0]'(by rw [hNl]; omega) = 0 := by simp
          rw [hz, sub_zero]
          have := hgap 0 hi
          have := hR.pos (i := 0) (by omega)
          have := hg1 hi
          constructor
          · exact mul_le_mul_of_nonneg_left (by simp only [zero_add] at *; linarith) hsp.le
          · exact mul_le_mul_of_nonneg_left (by simp only [zero_add] at *; linarith) hsp.le
        | succ i =>
          rw [hN0 i (by omega), ← mul_sub]
          have := hgap (i + 1) hi
          exact ⟨mul_le_mul_of_nonneg_left this.1 hsp.le, mul_le_mul_of_nonneg_left this.2 hsp.le⟩
      · intro i hi
        rw [hYl] at hi
        have y1 := abs_le.1 (hYv i (by omega))
        have y2 := abs_le.1 (hYv (i + 1) hi)
        have y3 : |fullRatio I ((0 :: R.tail)[i]'(by simp; omega)) - fullRatio I ((0 :: R.tail)[i + 1]'(by simp; omega))| ≤ τ := by
          have p2 : (0 :: R.tail)[i + 1]'(by simp; omega) = R[i + 1] := by simp
          rw [p2]
          have q2 := hRT (i + 1) hi
          have q3 := (hR.pos hi).le
          have q4 := hR.step i hi
          cases i with
          | zero =>
            have f := (hR.first (by omega)).2
            refine hfull _ _ (by simp) (by simpa using hT0.le) q3 q2 ?_
            simp only [List.getElem_cons_zero, zero_sub, abs_neg, zero_add] at *
            rw [abs_of_nonneg q3]
            linarith
          | succ i =>
            have q5 := (hR.pos (i := i + 1) (by omega)).le
            rw [List.getElem_cons_succ, List.getElem_tail]
            refine hfull _ _ q5 (hRT _ _) q3 q2 ?_
            rw [abs_le]
            constructor <;> linarith
        have y4 := abs_le.1 y3
        rw [abs_le]
        constructor <;> linarith)
  refine ⟨_, Petrosian.init_ok_iff.2 ⟨by simp; omega, by simp, by simp, by simp, pl, none, hcp, rfl⟩, r, ?_, hr2⟩
  simp only [Petrosian.rPetrosian, Petrosian.calcPetrosianR, hr1, Except.map]

/-- **C136 with splines.** From pixels to the Petrosian radius with an interpolation that may overshoot the data by a multiple of the largest
difference of neighbouring values, as cubic splines do. -/
theorem C136_gentle (G : Galaxy I) {ellip : ℝ} (he0 : 0 ≤ ellip) (he1 : ellip < 1) {eta rP : ℝ} (hrP : 0 < rP)
    (htrue : petroRatio I rP = eta) {ε : ℝ} (hε : 0 < ε) (Tmax ρ C : ℝ) :
    ∃ δ > 0, ∃ s0 > 0, ∃ ω0 > 0, ∀ s ≥ s0, ∀ R, Fine δ R → EvenRadii ρ R → (∀ r ∈ R, r ≤ Tmax) → Covers R (rP + ε) →
      (∀ i (h : i + 1 < R.length), ω0 ≤ π * (1 - ellip) * ((s * R[i + 1]) ^ 2 - (s * R[i]) ^ 2)) →
      ∀ (h w : Nat) (cx cy theta : ℝ), (∀ r ∈ R, OnFrame (⟨cx, cy, s * r, s * r * (1 - ellip), theta⟩ : Ellipse ℝ).set h w) →
      ∃ fl ar er, radialPhotometry exactOverlap ⟨h, w, fun i j => fin (I (ellRadius j i cx cy ellip theta / s))⟩ cx cy
          (R.map fun r => s * r) none none (1 / (1 - ellip)) theta = .ok (fl, ar, er) ∧
        ∀ (ip : InterpFam ℝ) (kind : Option String) (num : Nat) (eps epsf tff : F ℝ), (∀ k, kind = some k → Gentle ρ C (ip k)) →
        ∃ p, Petrosian.init (R.map fun r => fin (s * r)) ar fl none none (fin eta) eps epsf tff kind num = .ok p ∧
          ∃ r, p.rPetrosian ip = .ok (fin (s * r)) ∧ |r - rP| ≤ ε := by
  obtain ⟨δ, hδ, s0, hs0, ω0, hω0, H⟩ := blurred_petrosian G he0 he1 le_rfl hrP htrue hε Tmax ρ C
  exact ⟨δ, hδ, s0, hs0, ω0, hω0, fun s hs R hR hev hmax hcov hring h w cx cy theta hf => H s hs R hR hev hmax hcov hring h w cx cy theta _ _
    (Blurred.sampled G (lt_of_lt_of_le hs0 hs) cx cy ellip theta h w _) le_rfl hf⟩

/-- From the pixels of a blurred image to the radii of flux fractions. -/
theorem blurred_fraction (G : Galaxy I) {ellip : ℝ} (he0 : 0 ≤ ellip) (he1 : ellip < 1) {B : ℝ} (hB : 0 ≤ B) {eta eps epsf frac rP rF : ℝ} (heps : 0 < eps)
    (hepsf : epsf ≠ 0) (hrP : 0 < rP) (hrF : 0 < rF) (htP : petroRatio I rP = eta)
    (htF : enclosed I 1 rF = frac / epsf * enclosed I 1 (eps * rP)) {ε : ℝ} (hε : 0 < ε) (Tmax ρ C : ℝ) :
    ∃ δ > 0, ∃ s0 > 0, ∃ ω0 > 0, ∀ s ≥ s0, ∀ R, Fine δ R → EvenRadii ρ R → (∀ r ∈ R, r ≤ Tmax) → Covers R (rP + ε) →
      Covers R (eps * rP + ε) → Covers R (rF + ε) →
      (∀ i (h : i + 1 < R.length), ω0 ≤ π * (1 - ellip) * ((s * R[i + 1]) ^ 2 - (s * R[i]) ^ 2)) →
      ∀ (h w : Nat) (cx cy theta D : ℝ) (f : Nat → Nat → ℝ), Blurred I s B cx cy ellip theta h w D f → s * Tmax + 1 / (1 - ellip) + B ≤ D →
      (∀ r ∈ R, OnFrame (⟨cx, cy, s * r, s * r * (1 - ellip), theta⟩ : Ellipse ℝ).set h w) →
      ∃ fl ar er, radialPhotometry exactOverlap ⟨h, w, fun i j => fin (f i j)⟩ cx cy
          (R.map fun r => s * r) none none (1 / (1 - ellip)) theta = .ok (fl, ar, er) ∧
        ∀ (ip : InterpFam ℝ) (kind : Option String) (num : Nat) (tff : F ℝ), Gentle ρ C (ip (kind.getD "cubic")) →
        ∃ p, Petrosian.init (R.map fun r => fin (s * r)) ar fl none none (fin eta) (fin eps) (fin epsf) tff kind num = .ok p ∧
          ∃ rp rf, p.rPetrosian ip = .ok (fin (s * rp)) ∧ |rp - rP| ≤ ε ∧
            p.fractionFluxToR ip (fin frac) = .ok (fin (s * rf)) ∧ |rf - rF| ≤ ε ∧ 0 < rf := by
  have hq : 0 < 1 - ellip := by linarith
  have htF' : enclosed I (1 - ellip) rF = frac / epsf * enclosed I (1 - ellip) (eps * rP) := by
    rw [gal_axis (1 - ellip) rF, gal_axis (1 - ellip) (eps * rP), htF]; ring
  set T := max Tmax (max rF (eps * rP) + ε) with hT
  obtain ⟨δ1, hδ1, σ, hσ, h1⟩ := C137_stable_calm G hq heps hepsf hrP hrF htF' hε
  obtain ⟨δ2, hδ2, s2, hs2, ω0, hω0, h2⟩ := blurred_petrosian G he0 he1 hB hrP htP (lt_min hε hδ1) Tmax ρ C
  set C' := max C 1 with hC'
  have hC1 : 1 ≤ C' := le_max_right _ _
  have hCC : C ≤ C' := le_max_left _ _
  have hC0 : 0 < C' := by linarith
  set τ := σ / (3 * C') with hτ
  have hτ0 : 0 < τ := by positivity
  have hτC : C' * (3 * τ) = σ := by rw [hτ]; field_simp
  have hτσ : 3 * τ ≤ σ := by nlinarith
  obtain ⟨s3, hs3, h3⟩ := blurred_flux G he0 he1 hB T hτ0
  -- the light of the galaxy is uniformly continuous
  have huc : UniformContinuousOn (enclosed I (1 - ellip)) (Set.Icc 0 T) :=
    isCompact_Icc.uniformContinuousOn_of_continuous ((gal_cont G (1 - ellip)).mono fun x hx => Set.mem_Ici.2 hx.1)
  obtain ⟨ν, hν, hmod⟩ := Metric.uniformContinuousOn_iff.1 huc τ hτ0
  set δ := min δ1 (min δ2 (min (ν / 2) (rP / 4))) with hδ
  have d1 : δ ≤ δ1 := min_le_left _ _
  have d2 : δ ≤ δ2 := (min_le_right _ _).trans (min_le_left _ _)
  have d3 : δ ≤ ν / 2 := (min_le_right _ _).trans ((min_le_right _ _).trans (min_le_left _ _))
  have d4 : δ ≤ rP / 4 := (min_le_right _ _).trans ((min_le_right _ _).trans (min_le_right _ _))
  have hδ0 : 0 < δ := lt_min hδ1 (lt_min hδ2 (lt_min (by linarith) (by linarith)))
  refine ⟨δ, hδ0, max s2 s3, lt_max_of_lt_left hs2, max ω0 1, lt_max_of_lt_left hω0, ?_⟩
  intro s hs R hR hev hmax c1 c2 c3 hring h w cx cy theta D f hBl hD hf
  have hsp : 0 < s := lt_of_lt_of_le (lt_max_of_lt_left hs2) hs
  have room : ∀ r ∈ R, s * r + 1 / (1 - ellip) + B ≤ D := fun r hr => by
    have := mul_le_mul_of_nonneg_left (hmax r hr) hsp.le
    linarith
  have h4 : 4 ≤ R.length := fine_four (T := rP + ε) (by linarith) (by linarith) hR c1
  have hRT : ∀ i (hi : i < R.length), R[i] ≤ T := fun i hi => (hmax _ (List.getElem_mem hi)).trans (le_max_left _ _)
  have c1' : Covers R (rP + min ε δ1) := by
    obtain ⟨x, hx, h⟩ := c1
    exact ⟨x, hx, le_trans (by linarith [min_le_left ε δ1]) h⟩
  obtain ⟨fl, ar, er, hph, hP⟩ := h2 s ((le_max_left _ _).trans hs) R (hR.mono d2) hev hmax c1'
    (fun i hi => (le_max_left _ _).trans (hring i hi)) h w cx cy theta D f hBl hD hf
  refine ⟨fl, ar, er, hph, fun ip kind num tff hJ => ?_⟩
  obtain ⟨p, hp1, rp, hp2, hp3⟩ := hP ip kind num (fin eps) (fin epsf) tff (by rintro k rfl; exact hJ)
  obtain ⟨er', pl', hph', -⟩ := image_lists f he1 hsp hR (fun i hi => (le_max_right _ _).trans (hring i hi)) hf
  rw [hph] at hph'
  injection hph' with hph'
  injection hph' with hfl hph'
  set Y := R.map fun r => round6 (imageSum f cx cy ellip theta h w (s * r)) with hY
  have hYl : Y.length = R.length := by simp [hY]
  have hYv : ∀ i (hi : i < R.length), |Y[i]'(by omega) - s ^ 2 * enclosed I (1 - ellip) R[i]| ≤ s ^ 2 * τ := by
    intro i hi
    have := h3 s ((le_max_right _ _).trans hs) R[i] (hR.pos hi) (hRT i hi) h w cx cy theta D f hBl (room _ (List.getElem_mem hi)) (hf _ (List.getElem_mem hi))
    simpa [hY] using this
  have hs2' : 0 < s ^ 2 := by positivity
  obtain ⟨rf, f1, f2, f3⟩ := h1 s hsp (s ^ 2) hs2' R (hR.mono d1) c3 c2 Y (by omega)
    (by
      intro i hi _
      exact (hYv i hi).trans (mul_le_mul_of_nonneg_left (by linarith) hs2'.le))
    rp (hp3.trans (min_le_right _ _)) ip kind num (some nan)
    (by
      obtain ⟨g, hg, hgap, -⟩ := hev
      refine Gentle_calm hJ (by simp [hYl]) (by simpa using h4) (g := s * g) (mul_pos hsp hg) ?_ (δ := 3 * (s ^ 2 * τ)) ?_ ?_ _
      · intro i hi
        simp only [List.length_map] at hi
        simp only [List.getElem_map]
        have e : ρ * (s * g) = s * (ρ * g) := by ring
        rw [e, ← mul_sub]
        have := hgap i hi
        exact ⟨mul_le_mul_of_nonneg_left this.1 hsp.le, mul_le_mul_of_nonneg_left this.2 hsp.le⟩
      · intro i hi
        rw [hYl] at hi
        have y1 := abs_le.1 (hYv i (by omega))
        have y2 := abs_le.1 (hYv (i + 1) hi)
        have q := hR.step i hi
        have y3 := hmod R[i + 1] ⟨(hR.pos hi).le, hRT _ hi⟩ R[i] ⟨(hR.pos (by omega)).le, hRT _ _⟩ (by
          rw [Real.dist_eq, abs_of_pos (by linarith)]; linarith)
        rw [Real.dist_eq] at y3
        have y4 := abs_le.1 y3.le
        have y5 := mul_le_mul_of_nonneg_left y4.1 hs2'.le
        have y6 := mul_le_mul_of_nonneg_left y4.2 hs2'.le
        rw [abs_le]
        constructor <;> linarith
      · have : C * (3 * (s ^ 2 * τ)) ≤ C' * (3 * (s ^ 2 * τ)) := mul_le_mul_of_nonneg_right hCC (by positivity)
        refine this.trans (le_of_eq ?_)
        rw [← hτC]; ring)
  refine ⟨p, hp1, rp, rf, hp2, hp3.trans (min_le_left _ _), ?_, f2, f3⟩
  obtain ⟨q1, q2, q3, q4, pl, pe, q5, rfl⟩ := Petrosian.init_ok_iff.1 hp1
  obtain rfl := calculatePetrosian_none_snd q5
  have hsnd : ∀ x, calculatePetrosianR ip (R.map fun r => fin (s * r)) pl none (fin eta) kind num = .ok x → x.2 = nan := by
    intro x hx
    unfold calculatePetrosianR at hx
    simp only [bind_eq_ok] at hx
    obtain ⟨_, _, _, _, _, _, _, _, hx⟩ := hx
    injection hx with hx
    rw [← hx]
  simp only [Petrosian.rPetrosian, Petrosian.calcPetrosianR] at hp2
  obtain ⟨⟨x, y⟩, hx, rfl⟩ := except_map_ok hp2
  have hy : y = nan := hsnd _ hx
  subst hy
  simp only [Petrosian.fractionFluxToR, Petrosian.calcFractionToR, Petrosian.rPetrosian, Petrosian.rPetrosianErr,
    Petrosian.calcPetrosianR, hx, Except.map, Except.bind_ok, hfl, f1]

/-- **C137 with splines.** From pixels to the radii of flux fractions, with an interpolation that may overshoot the data by a multiple of the
largest difference of neighbouring values. -/
theorem C137_gentle (G : Galaxy I) {ellip : ℝ} (he0 : 0 ≤ ellip) (he1 : ellip < 1) {eta eps epsf frac rP rF : ℝ} (heps : 0 < eps)
    (hepsf : epsf ≠ 0) (hrP : 0 < rP) (hrF : 0 < rF) (htP : petroRatio I rP = eta)
    (htF : enclosed I 1 rF = frac / epsf * enclosed I 1 (eps * rP)) {ε : ℝ} (hε : 0 < ε) (Tmax ρ C : ℝ) :
    ∃ δ > 0, ∃ s0 > 0, ∃ ω0 > 0, ∀ s ≥ s0, ∀ R, Fine δ R → EvenRadii ρ R → (∀ r ∈ R, r ≤ Tmax) → Covers R (rP + ε) →
      Covers R (eps * rP + ε) → Covers R (rF + ε) →
      (∀ i (h : i + 1 < R.length), ω0 ≤ π * (1 - ellip) * ((s * R[i + 1]) ^ 2 - (s * R[i]) ^ 2)) →
      ∀ (h w : Nat) (cx cy theta : ℝ), (∀ r ∈ R, OnFrame (⟨cx, cy, s * r, s * r * (1 - ellip), theta⟩ : Ellipse ℝ).set h w) →
      ∃ fl ar er, radialPhotometry exactOverlap ⟨h, w, fun i j => fin (I (ellRadius j i cx cy ellip theta / s))⟩ cx cy
          (R.map fun r => s * r) none none (1 / (1 - ellip)) theta = .ok (fl, ar, er) ∧
        ∀ (ip : InterpFam ℝ) (kind : Option String) (num : Nat) (tff : F ℝ), Gentle ρ C (ip (kind.getD "cubic")) →
        ∃ p, Petrosian.init (R.map fun r => fin (s * r)) ar fl none none (fin eta) (fin eps) (fin epsf) tff kind num = .ok p ∧
          ∃ rp rf, p.rPetrosian ip = .ok (fin (s * rp)) ∧ |rp - rP| ≤ ε ∧
            p.fractionFluxToR ip (fin frac) = .ok (fin (s * rf)) ∧ |rf - rF| ≤ ε ∧ 0 < rf := by
  obtain ⟨δ, hδ, s0, hs0, ω0, hω0, H⟩ := blurred_fraction G he0 he1 le_rfl heps hepsf hrP hrF htP htF hε Tmax ρ C
  exact ⟨δ, hδ, s0, hs0, ω0, hω0, fun s hs R hR hev hmax c1 c2 c3 hring h w cx cy theta hf => H s hs R hR hev hmax c1 c2 c3 hring h w cx cy theta
    _ _ (Blurred.sampled G (lt_of_lt_of_le hs0 hs) cx cy ellip theta h w _) le_rfl hf⟩

/-- The Petrosian radius and the radii of flux fractions of a blurred image, with the cubic spline. -/
theorem blurred_cubic (G : Galaxy I) {ellip : ℝ} (he0 : 0 ≤ ellip) (he1 : ellip < 1) {B : ℝ} (hB : 0 ≤ B) {eta eps epsf frac rP rF : ℝ} (heps : 0 < eps)
    (hepsf : epsf ≠ 0) (hrP : 0 < rP) (hrF : 0 < rF) (htP : petroRatio I rP = eta)
    (htF : enclosed I 1 rF = frac / epsf * enclosed I 1 (eps * rP)) {ε : ℝ} (hε : 0 < ε) (Tmax : ℝ) {ρ : ℝ} (hρ : 1 ≤ ρ) :
    ∃ δ > 0, ∃ s0 > 0, ∃ ω0 > 0, ∀ s ≥ s0, ∀ R, Fine δ R → EvenRadii ρ R → (∀ r ∈ R, r ≤ Tmax) → Covers R (rP + ε) →
      Covers R (eps * rP + ε) → Covers R (rF + ε) →
      (∀ i (h : i + 1 < R.length), ω0 ≤ π * (1 - ellip) * ((s * R[i + 1]) ^ 2 - (s * R[i]) ^ 2)) →
      ∀ (h w : Nat) (cx cy theta D : ℝ) (f : Nat → Nat → ℝ), Blurred I s B cx cy ellip theta h w D f → s * Tmax + 1 / (1 - ellip) + B ≤ D →
      (∀ r ∈ R, OnFrame (⟨cx, cy, s * r, s * r * (1 - ellip), theta⟩ : Ellipse ℝ).set h w) →
      ∃ fl ar er, radialPhotometry exactOverlap ⟨h, w, fun i j => fin (f i j)⟩ cx cy
          (R.map fun r => s * r) none none (1 / (1 - ellip)) theta = .ok (fl, ar, er) ∧
        ∀ (ip : InterpFam ℝ) (num : Nat) (tff : F ℝ), ip "cubic" = cubicInterp →
        ∃ p, Petrosian.init (R.map fun r => fin (s * r)) ar fl none none (fin eta) (fin eps) (fin epsf) tff (some "cubic") num = .ok p ∧
          ∃ rp rf, p.rPetrosian ip = .ok (fin (s * rp)) ∧ |rp - rP| ≤ ε ∧
            p.fractionFluxToR ip (fin frac) = .ok (fin (s * rf)) ∧ |rf - rF| ≤ ε ∧ 0 < rf := by
  obtain ⟨δ, hδ, s0, hs0, ω0, hω0, hm⟩ := blurred_fraction G he0 he1 hB heps hepsf hrP hrF htP htF hε Tmax ρ (2 * tameFactor ρ ρ)
  refine ⟨δ, hδ, s0, hs0, ω0, hω0, ?_⟩
  intro s hs R hR hev hmax c1 c2 c3 hring h w cx cy theta D f hBl hD hf
  obtain ⟨fl, ar, er, h1, h2⟩ := hm s hs R hR hev hmax c1 c2 c3 hring h w cx cy theta D f hBl hD hf
  refine ⟨fl, ar, er, h1, fun ip num tff hip => h2 ip (some "cubic") num tff ?_⟩
  simp only [Option.getD_some, hip]
  exact cubic_gentle hρ

/-- **C136 and C137 for the default interpolation.** With `interp_kind='cubic'` (the not-a-knot cubic spline of SciPy), the default, on
aperture radii whose gaps differ by at most a given factor (2 for `make_radius_list`), the Petrosian radius and the radii of flux fractions
measured on sampled images converge to the radii of the galaxy, for every profile, every ellipticity, position angle, frame and place on it. -/
theorem C137_cubic (G : Galaxy I) {ellip : ℝ} (he0 : 0 ≤ ellip) (he1 : ellip < 1) {eta eps epsf frac rP rF : ℝ} (heps : 0 < eps)
    (hepsf : epsf ≠ 0) (hrP : 0 < rP) (hrF : 0 < rF) (htP : petroRatio I rP = eta)
    (htF : enclosed I 1 rF = frac / epsf * enclosed I 1 (eps * rP)) {ε : ℝ} (hε : 0 < ε) (Tmax : ℝ) {ρ : ℝ} (hρ : 1 ≤ ρ) :
    ∃ δ > 0, ∃ s0 > 0, ∃ ω0 > 0, ∀ s ≥ s0, ∀ R, Fine δ R → EvenRadii ρ R → (∀ r ∈ R, r ≤ Tmax) → Covers R (rP + ε) →
      Covers R (eps * rP + ε) → Covers R (rF + ε) →
      (∀ i (h : i + 1 < R.length), ω0 ≤ π * (1 - ellip) * ((s * R[i + 1]) ^ 2 - (s * R[i]) ^ 2)) →
      ∀ (h w : Nat) (cx cy theta : ℝ), (∀ r ∈ R, OnFrame (⟨cx, cy, s * r, s * r * (1 - ellip), theta⟩ : Ellipse ℝ).set h w) →
      ∃ fl ar er, radialPhotometry exactOverlap ⟨h, w, fun i j => fin (I (ellRadius j i cx cy ellip theta / s))⟩ cx cy
          (R.map fun r => s * r) none none (1 / (1 - ellip)) theta = .ok (fl, ar, er) ∧
        ∀ (ip : InterpFam ℝ) (num : Nat) (tff : F ℝ), ip "cubic" = cubicInterp →
        ∃ p, Petrosian.init (R.map fun r => fin (s * r)) ar fl none none (fin eta) (fin eps) (fin epsf) tff (some "cubic") num = .ok p ∧
          ∃ rp rf, p.rPetrosian ip = .ok (fin (s * rp)) ∧ |rp - rP| ≤ ε ∧
            p.fractionFluxToR ip (fin frac) = .ok (fin (s * rf)) ∧ |rf - rF| ≤ ε ∧ 0 < rf := by
  obtain ⟨δ, hδ, s0, hs0, ω0, hω0, H⟩ := blurred_cubic G he0 he1 le_rfl heps hepsf hrP hrF htP htF hε Tmax hρ
  exact ⟨δ, hδ, s0, hs0, ω0, hω0, fun s hs R hR hev hmax c1 c2 c3 hring h w cx cy theta hf => H s hs R hR hev hmax c1 c2 c3 hring h w cx cy theta
    _ _ (Blurred.sampled G (lt_of_lt_of_le hs0 hs) cx cy ellip theta h w _) le_rfl hf⟩

end Verif.Props

import Verif.Props.Noise
import Verif.Props.RoundingImage
import Verif.Props.Recipe

/-!
# C151: the documented recipe on noisy images

Pixel noise of any size averages out: with more pixels to the unit of length the radii measured on a noisy image converge in probability to the
radii of the galaxy.
-/

set_option linter.unusedSectionVars false
set_option linter.unusedVariables false

namespace Verif.Props

open Verif F Spec Lemmas MeasureTheory ProbabilityTheory Real

variable {I : ℝ → ℝ}

/-- What `radial_photometry` and `calculate_petrosian` give on any image with all apertures on the frame. -/
theorem noisy_lists {ellip : ℝ} (he1 : ellip < 1) {s : ℝ} (hs : 0 < s) {δ : ℝ} {R : List ℝ} (hR : Fine δ R)
    {h w : Nat} {cx cy theta : ℝ} (f : Nat → Nat → ℝ)
    (hring : ∀ i (h : i + 1 < R.length), 2 / 10 ^ 6 ≤ π * (1 - ellip) * (s * R[i + 1]) ^ 2 - π * (1 - ellip) * (s * R[i]) ^ 2)
    (hf : ∀ r ∈ R, OnFrame (⟨cx, cy, s * r, s * r * (1 - ellip), theta⟩ : Ellipse ℝ).set h w) :
    ∃ er pl, radialPhotometry exactOverlap ⟨h, w, fun i j => fin (f i j)⟩ cx cy
        (R.map fun r => s * r) none none (1 / (1 - ellip)) theta =
        .ok ((R.map fun r => round6 (idealSum cx cy ellip theta h w f (s * r))).map fin,
          (R.map fun r => round6 (π * (1 - ellip) * (s * r) ^ 2)).map fin, er) ∧
      calculatePetrosian ((R.map fun r => round6 (π * (1 - ellip) * (s * r) ^ 2)).map fin)
        ((R.map fun r => round6 (idealSum cx cy ellip theta h w f (s * r))).map fin) none none = .ok (pl, none) ∧
      pl.length = R.length ∧
      ∀ i (h' : i + 1 < R.length), pl[i + 1]? = some (ratio (round6 (π * (1 - ellip) * (s * R[i]) ^ 2))
        (round6 (idealSum cx cy ellip theta h w f (s * R[i]))) (round6 (π * (1 - ellip) * (s * R[i + 1]) ^ 2))
        (round6 (idealSum cx cy ellip theta h w f (s * R[i + 1])))) := by
  have hq : 0 < 1 - ellip := by linarith
  have ediv : ∀ r, r / (1 / (1 - ellip)) = r * (1 - ellip) := fun r => by rw [div_div_eq_mul_div, div_one]
  obtain ⟨er, hph⟩ := photometry_onFrame h w f cx cy (R.map fun r => s * r)
    (1 / (1 - ellip)) theta (one_div_pos.2 hq)
    (by
      intro r hr
      obtain ⟨x, hx, rfl⟩ := List.mem_map.1 hr
      obtain ⟨i, hi, rfl⟩ := List.getElem_of_mem hx
      exact mul_pos hs (hR.pos hi))
    (by
      intro r hr
      obtain ⟨x, hx, rfl⟩ := List.mem_map.1 hr
      rw [ediv]
      exact hf x hx)
  set A := R.map fun r => round6 (π * (1 - ellip) * (s * r) ^ 2) with hA
  set Fl := R.map fun r => round6 (idealSum cx cy ellip theta h w f (s * r)) with hFl
  have eA : ((R.map fun r => s * r).map fun r => fin (round6 (π * r ^ 2 / (1 / (1 - ellip))))) = A.map fin := by
    rw [hA, List.map_map, List.map_map]
    apply List.map_congr_left
    intro r _
    simp only [Function.comp_apply, ediv]
    congr 2; ring
  have eF : ((R.map fun r => s * r).map fun r => fin (round6 (weightedSum (exactOverlap.weight ⟨cx, cy, r, r / (1 / (1 - ellip)), theta⟩) h w
      (fun _ _ => true) f))) = Fl.map fin := by
    rw [hFl, List.map_map, List.map_map]
    apply List.map_congr_left
    intro r _
    simp only [Function.comp_apply, ediv, idealSum]
  rw [eA, eF] at hph
  have h3 := hR.three
  have hAinc : ∀ i (h : i + 1 < A.length), A[i] < A[i + 1] := by
    intro i hi
    simp only [hA, List.length_map] at hi
    simp only [hA, List.getElem_map]
    have h1 := hring i hi
    have r3 := abs_le.1 (abs_round6_sub (π * (1 - ellip) * (s * R[i]) ^ 2))
    have r4 := abs_le.1 (abs_round6_sub (π * (1 - ellip) * (s * R[i + 1]) ^ 2))
    linarith [r3.2, r4.1]
  obtain ⟨p, e, g1, g2, g3, g4⟩ := C01_profile_formula A Fl (by simp [hA, hFl]) (by simpa [hA] using h3) hAinc none none (by simp) (by simp)
  have hen : e = none := calculatePetrosian_none_snd g1
  subst hen
  refine ⟨er, p, hph, g1, by simpa [hA] using g2, fun i hi => ?_⟩
  have := g4 i (by simpa [hA] using hi)
  simpa [hA, hFl] using this

set_option maxHeartbeats 1000000 in
/-- Photometry and profile of an image whose aperture sums are within `D` of those of a sampled galaxy. -/
theorem noisy_image (G : Galaxy I) {ellip : ℝ} (he0 : 0 ≤ ellip) (he1 : ellip < 1) {T σ : ℝ} (hT0 : 0 < T) (hσ : 0 < σ) :
    ∃ δ > 0, ∃ s0 > 0, ∃ c0 > 0, ∀ s ≥ s0, ∀ R, Fine δ R → (∀ r ∈ R, r ≤ T) → ∀ (h w : Nat) (cx cy theta : ℝ),
      (∀ r ∈ R, OnFrame (⟨cx, cy, s * r, s * r * (1 - ellip), theta⟩ : Ellipse ℝ).set h w) →
      ∀ (f : Nat → Nat → ℝ) (D : ℝ), 0 ≤ D →
      (∀ r ∈ R, |idealSum cx cy ellip theta h w f (s * r) -
        idealSum cx cy ellip theta h w (fun i j => I (ellRadius j i cx cy ellip theta / s)) (s * r)| ≤ D) →
      (∀ i (h : i + 1 < R.length), D + 1 / 10 ^ 6 ≤ c0 * (π * (1 - ellip) * (s * R[i + 1]) ^ 2 - π * (1 - ellip) * (s * R[i]) ^ 2)) →
      ∃ (V A : List ℝ) (E p : List (F ℝ)) (hl : R.length = V.length),
        radialPhotometry exactOverlap ⟨h, w, fun i j => fin (f i j)⟩ cx cy (R.map fun r => s * r) none none (1 / (1 - ellip)) theta =
          .ok (V.map fin, A.map fin, E) ∧
        calculatePetrosian (A.map fin) (V.map fin) none none = .ok (p, none) ∧ p.length = R.length ∧
        (∀ i (h : i + 1 < R.length), ∃ v, p[i + 1]? = some (fin v) ∧ |v - petroRatio I R[i + 1]| ≤ σ) ∧
        ∀ i (h : i < R.length), |V[i] - s ^ 2 * enclosed I (1 - ellip) R[i]| ≤ s ^ 2 * σ := by
  have hp := Real.pi_pos
  have hq : 0 < 1 - ellip := by linarith
  have hI0 : 0 < I 0 := G.pos 0 le_rfl
  set Q := π * (1 - ellip) * T ^ 2 with hQ
  have hQ0 : 0 < Q := by positivity
  have hM00 : 0 < I T := G.pos T hT0.le
  set τ' := min (I T / 2) (σ * I T / 16) with hτ'
  have hτ'0 : 0 < τ' := lt_min (by linarith) (by positivity)
  have t1 : τ' ≤ I T / 2 := min_le_left _ _
  have t2 : τ' ≤ σ * I T / 16 := min_le_right _ _
  set c := min (1 / 2) (τ' / (4 * (1 + I 0))) with hc
  have hc0 : 0 < c := lt_min (by norm_num) (by positivity)
  have hc1 : c ≤ 1 / 2 := min_le_left _ _
  have hc2 : 2 * c * (1 + I 0) ≤ τ' / 2 := by
    have h1 : c ≤ τ' / (4 * (1 + I 0)) := min_le_right _ _
    rw [le_div_iff₀ (by positivity)] at h1
    linarith
  set κ := min (τ' / 8) (σ / (4 * Q)) with hκ
  have hκ0 : 0 < κ := lt_min (by linarith) (by positivity)
  have k1 : κ ≤ τ' / 8 := min_le_left _ _
  have k2 : κ * Q ≤ σ / 4 := by
    have h1 : κ ≤ σ / (4 * Q) := min_le_right _ _
    rw [le_div_iff₀ (by positivity)] at h1
    linarith
  obtain ⟨δ, hδ, hmix⟩ := mixRatio_close G hT0 (show 0 < σ / 4 by linarith)
  obtain ⟨ν, hν, hmod⟩ := gal_modulus G (T + 1) hκ0
  set s0 := max (1 / (ν * (1 - ellip))) (1 / (1 - ellip)) with hs0
  have hs00 : 0 < s0 := lt_max_of_lt_right (by positivity)
  set c0 := min (c / 2) (min (1 / 10) (σ / (2 * Q))) with hc0'
  have hc00 : 0 < c0 := lt_min (by positivity) (lt_min (by norm_num) (by positivity))
  have e1 : 2 * c0 ≤ c := by
    have h1 : c0 ≤ c / 2 := min_le_left _ _
    linarith
  have e3 : c0 ≤ 1 / 10 := (min_le_right _ _).trans (min_le_left _ _)
  have e5 : c0 * Q ≤ σ / 2 := by
    have h1 : c0 ≤ σ / (2 * Q) := (min_le_right _ _).trans (min_le_right _ _)
    rw [le_div_iff₀ (by positivity)] at h1
    linarith
  clear_value c0 κ c τ'
  refine ⟨δ, hδ, s0, hs00, c0, hc00, ?_⟩
  intro s hs R hR hRT h w cx cy theta hf f D hD0 hD hroom
  have hsp : 0 < s := lt_of_lt_of_le hs00 hs
  have h3 := hR.three
  have hstep1 : 1 / (s * (1 - ellip)) ≤ ν := by
    have : 1 / (ν * (1 - ellip)) ≤ s := (le_max_left _ _).trans hs
    rw [div_le_iff₀ (by positivity)] at this ⊢
    linarith
  have hstep2 : 1 / (s * (1 - ellip)) ≤ 1 := by
    have : 1 / (1 - ellip) ≤ s := (le_max_right _ _).trans hs
    rw [div_le_iff₀ (by positivity)] at this ⊢
    linarith
  have hmod' : ∀ b, b ≤ T → ∀ x y, 0 ≤ x → x ≤ b + 1 / (s * (1 - ellip)) → 0 ≤ y → y ≤ b → |x - y| ≤ 1 / (s * (1 - ellip)) →
      |I x - I y| ≤ κ := fun b hb x y hx hxb hy hyb hxy =>
    hmod x y hx (by linarith) hy (by linarith) (hxy.trans hstep1)
  set α : ℝ → ℝ := fun r => π * (1 - ellip) * (s * r) ^ 2 with hα
  have hα0 : ∀ i (hi : i < R.length), 0 < α R[i] := by
    intro i hi
    have := hR.pos hi
    rw [hα]; positivity
  have hαm : ∀ i (hi : i + 1 < R.length), α R[i] < α R[i + 1] := by
    intro i hi
    have h1 := hR.pos (i := i) (by omega)
    have h2 := (hR.step i hi).1
    have h3 : (s * R[i]) ^ 2 < (s * R[i + 1]) ^ 2 := pow_lt_pow_left₀ (mul_lt_mul_of_pos_left h2 hsp) (by positivity) (by norm_num)
    rw [hα]
    exact mul_lt_mul_of_pos_left h3 (by positivity)
  have hroom2 : ∀ i (hi : i + 1 < R.length), D + 1 / 10 ^ 6 ≤ c0 * (α R[i + 1] - α R[i]) := hroom
  obtain ⟨er, pl, hph, hcp, hpl, hpe⟩ := noisy_lists (h := h) (w := w) (cx := cx) (cy := cy) (theta := theta) he1 hsp hR f (by
    intro i hi
    have h1 := hroom2 i hi
    have h2 := mul_le_mul_of_nonneg_right e3 (sub_pos.2 (hαm i hi)).le
    change 2 / 10 ^ 6 ≤ α R[i + 1] - α R[i]
    linarith) hf
  set W := idealSum cx cy ellip theta h w (fun i j => I (ellRadius j i cx cy ellip theta / s)) with hW
  have hIb : ∀ b, 0 < b → b ≤ T → I T ≤ I b := fun b hb hbT => G.falls.antitoneOn (Set.mem_Ici.2 hb.le) (Set.mem_Ici.2 hT0.le) hbT
  have hnear := fun i (hi : i < R.length) => ideal_near G he0 he1 hsp (hR.pos hi) (hf _ (List.getElem_mem hi)) hκ0.le
    (hmod' _ (hRT _ (List.getElem_mem hi))) (f := fun i j => I (ellRadius j i cx cy ellip theta / s)) (n := 0)
    (fun i j _ _ => by simp)
  simp only [add_zero] at hnear
  have hFD : ∀ i (hi : i < R.length), |round6 (idealSum cx cy ellip theta h w f (s * R[i])) - W (s * R[i])| ≤ D + 1 / 2 / 10 ^ 6 := by
    intro i hi
    have r1 := abs_le.1 (abs_round6_sub (idealSum cx cy ellip theta h w f (s * R[i])))
    have r2 := abs_le.1 (hD _ (List.getElem_mem hi))
    rw [abs_le]
    constructor <;> linarith [r1.1, r1.2, r2.1, r2.2]
  have hAD : ∀ i (hi : i < R.length), |round6 (α R[i]) - α R[i]| ≤ D + 1 / 2 / 10 ^ 6 := by
    intro i hi
    exact (abs_round6_sub _).trans (by linarith)
  have h2h : 2 * (D + 1 / 2 / 10 ^ 6) / 2 = D + 1 / 2 / 10 ^ 6 := by ring
  refine ⟨_, _, er, pl, by simp, hph, hcp, hpl, ?_, ?_⟩
  · intro i hi
    have hi' : i < R.length := by omega
    have ha := hR.pos hi'
    have hb := hR.pos hi
    have hst := hR.step i hi
    have hbT := hRT _ (List.getElem_mem hi)
    have hI1 := hIb _ hb hbT
    obtain ⟨-, -, -, v, hv, v1, v2⟩ := measured_ratio G hq hsp ha hst.1 (κ := κ) (c := c) (μ := 2 * (D + 1 / 2 / 10 ^ 6)) hκ0.le
      ((hnear (i + 1) hi).2 _ ha hst.1.le) (hnear (i + 1) hi).1 (by rw [h2h]; exact hAD i hi') (by rw [h2h]; exact hAD (i + 1) hi)
      (by rw [h2h]; exact hFD i hi') (by rw [h2h]; exact hFD (i + 1) hi)
      (by
        have h1 := hroom2 i hi
        have h2 := mul_le_mul_of_nonneg_right e1 (sub_pos.2 (hαm i hi)).le
        change _ ≤ c * (α R[i + 1] - α R[i])
        linarith) hc0.le hc1 (by linarith)
    have hle : 4 * (2 * κ + 2 * c * (1 + I 0)) / I R[i + 1] ≤ σ / 4 := by
      rw [div_le_iff₀ (by linarith)]
      have : σ * I T ≤ σ * I R[i + 1] := mul_le_mul_of_nonneg_left hI1 hσ.le
      linarith
    have hmx := hmix R[i] R[i + 1] ha.le hst.1.le hb hbT hst.2
    refine ⟨v, by rw [hpe i hi, hv], ?_⟩
    rw [abs_le]
    constructor <;> linarith
  · intro i hi
    have h1 := hFD i hi
    have h2 := (hnear i hi).1
    have hbound : ∀ j (hj : j < R.length), α R[j] ≤ s ^ 2 * Q := by
      intro j hj
      have h5 : R[j] ^ 2 ≤ T ^ 2 := pow_le_pow_left₀ (hR.pos hj).le (hRT _ (List.getElem_mem hj)) 2
      have h6 := mul_le_mul_of_nonneg_left h5 (show 0 ≤ s ^ 2 * (π * (1 - ellip)) by positivity)
      simp only [hα, hQ]
      linarith
    have hD' : D + 1 / 2 / 10 ^ 6 ≤ c0 * (s ^ 2 * Q) := by
      have r1 := hroom2 0 (by omega)
      have r2 := hbound 1 (by omega)
      have r3 := hα0 0 (by omega)
      have r4 : c0 * (α R[0 + 1] - α R[0]) ≤ c0 * (s ^ 2 * Q) := mul_le_mul_of_nonneg_left (by linarith) hc00.le
      linarith
    have h4 : κ * α R[i] ≤ κ * (s ^ 2 * Q) := mul_le_mul_of_nonneg_left (hbound i hi) hκ0.le
    have h2' : |W (s * R[i]) - s ^ 2 * enclosed I (1 - ellip) R[i]| ≤ κ * α R[i] := h2
    rw [List.getElem_map]
    have e : round6 (idealSum cx cy ellip theta h w f (s * R[i])) - s ^ 2 * enclosed I (1 - ellip) R[i] =
      (round6 (idealSum cx cy ellip theta h w f (s * R[i])) - W (s * R[i])) + (W (s * R[i]) - s ^ 2 * enclosed I (1 - ellip) R[i]) := by ring
    rw [e]
    refine (abs_add_le _ _).trans ?_
    have h10 : c0 * Q + κ * Q ≤ σ := by linarith
    have h11 := mul_le_mul_of_nonneg_left h10 (sq_nonneg s)
    linarith

/-- The documented recipe on the `h × w` image `f`: `make_radius_list(s T, n)`, `radial_photometry` about `(cx, cy)`, `Petrosian` with
`interp_kind='cubic'` and no errors, `r_petrosian` and `fraction_flux_to_r(frac)` return numbers within `ε` (in units of `s` pixels) of `rP` and
`rF`, whatever the resolution of the interpolation and `total_flux_fraction`. -/
def RecipeWithin (ε s T cx cy ellip theta eta eps epsf frac rP rF : ℝ) (n h w : Nat) (f : Nat → Nat → ℝ) : Prop :=
  ∃ rs : List ℝ, makeRadiusList (fin (s * T)) n = rs.map fin ∧
    ∃ fl ar er, radialPhotometry exactOverlap ⟨h, w, fun i j => fin (f i j)⟩ cx cy rs none none (1 / (1 - ellip)) theta = .ok (fl, ar, er) ∧
      ∀ (ip : InterpFam ℝ) (num : Nat) (tff : F ℝ), ip "cubic" = cubicInterp →
        ∃ p, Petrosian.init (rs.map fin) ar fl none none (fin eta) (fin eps) (fin epsf) tff (some "cubic") num = .ok p ∧
          ∃ rp rf, p.rPetrosian ip = .ok (fin rp) ∧ |rp / s - rP| ≤ ε ∧
            p.fractionFluxToR ip (fin frac) = .ok (fin rf) ∧ |rf / s - rF| ≤ ε

theorem gentleR_of_gentle {ρ C : ℝ} {J : Interp ℝ} (hJ : Gentle ρ C J) : GentleR ρ C 0 J := by
  intro xs ys hl h4 g hg hgap δ B hδ hB j hj q q1 q2
  obtain ⟨v, h1, h2, h3⟩ := hJ xs ys hl h4 g hg hgap δ hδ j hj q q1 q2
  exact ⟨v, h1, by linarith, by linarith⟩

theorem rounding_id : Rounding (id : ℝ → ℝ) := ⟨fun x y h => h, fun x => rfl, fun x => rfl, rfl⟩

theorem relErr_id : RelErr 0 (id : ℝ → ℝ) := fun x => by simp

set_option maxHeartbeats 1000000 in
/-- **C151, without probability.** For a galaxy and any tolerance there are a fineness of the apertures, a scale and `c0` such that the recipe
is within the tolerance on every image whose aperture sums differ from those of the sampled galaxy by at most `D`, if `D + 10⁻⁶` is at most
`c0` times the area of each ring.  Single pixels may be wrong by any amount. -/
theorem C151_sums (G : Galaxy I) {ellip : ℝ} (he0 : 0 ≤ ellip) (he1 : ellip < 1) {eta eps epsf frac rP rF : ℝ} (heps : 0 < eps)
    (hepsf : epsf ≠ 0) (hrP : 0 < rP) (hrF : 0 < rF) (htP : petroRatio I rP = eta)
    (htF : enclosed I 1 rF = frac / epsf * enclosed I 1 (eps * rP)) {T : ℝ} (hT1 : rP < T) (hT2 : eps * rP < T) (hT3 : rF < T) {ε : ℝ}
    (hε : 0 < ε) :
    ∃ n0 : Nat, 3 ≤ n0 ∧ ∃ s0 > 0, ∃ c0 > 0, ∀ n ≥ n0, ∀ s ≥ s0,
      ∀ (h w : Nat) (cx cy theta : ℝ), OnFrame (⟨cx, cy, s * T, s * T * (1 - ellip), theta⟩ : Ellipse ℝ).set h w →
      ∀ (f : Nat → Nat → ℝ) (D : ℝ), 0 ≤ D →
      (∀ k : Nat, k < n → |idealSum cx cy ellip theta h w f (s * (T / n * (k + 1))) -
        idealSum cx cy ellip theta h w (fun i j => I (ellRadius j i cx cy ellip theta / s)) (s * (T / n * (k + 1)))| ≤ D) →
      D + 1 / 10 ^ 6 ≤ c0 * (π * (1 - ellip) * (3 * (s * T / n) ^ 2)) →
      RecipeWithin ε s T cx cy ellip theta eta eps epsf frac rP rF n h w f := by
  have hq : 0 < 1 - ellip := by linarith
  have hp := Real.pi_pos
  have hT0 : 0 < T := hrP.trans hT1
  have htF' : enclosed I (1 - ellip) rF = frac / epsf * enclosed I (1 - ellip) (eps * rP) := by
    rw [gal_axis (1 - ellip) rF, gal_axis (1 - ellip) (eps * rP), htF]; ring
  set M := max rP (max (eps * rP) rF) with hM
  have m1 : rP ≤ M := le_max_left _ _
  have m2 : eps * rP ≤ M := (le_max_left _ _).trans (le_max_right _ _)
  have m3 : rF ≤ M := (le_max_right _ _).trans (le_max_right _ _)
  have hMT : M < T := max_lt hT1 (max_lt hT2 hT3)
  set ε' := min ε (T - M) with hε'
  have hε0 : 0 < ε' := lt_min hε (by linarith)
  have hε1 : ε' ≤ ε := min_le_left _ _
  have hε2 : ε' ≤ T - M := min_le_right _ _
  obtain ⟨δ1, hδ1, σ1, hσ1, c1, hc1, hfr⟩ := C148_fraction G hq heps hepsf hrP hrF htF' hε0 (T := T) (by linarith) (by linarith) 2
    (2 * tameFactor 2 2)
  set ε2 := min ε' δ1 with hε2'
  have hε20 : 0 < ε2 := lt_min hε0 hδ1
  obtain ⟨δ2, hδ2, σ2, hσ2, c2, hc2, hra⟩ := C148_radius G hrP htP hε20 (T := T) (by linarith [min_le_left ε' δ1]) 2 (2 * tameFactor 2 2)
  obtain ⟨δ3, hδ3, s0, hs0, c0, hc0, him⟩ := noisy_image G he0 he1 hT0 (lt_min hσ1 hσ2)
  set δ := min δ1 (min δ2 δ3) with hδdef
  have hδ : 0 < δ := lt_min hδ1 (lt_min hδ2 hδ3)
  obtain ⟨n0, hn0⟩ := exists_nat_gt (T / δ)
  refine ⟨max n0 3, le_max_right _ _, s0, hs0, c0, hc0, ?_⟩
  intro n hn s hs h w cx cy theta hf f D hD0 hD hroom
  have hsp : 0 < s := lt_of_lt_of_le hs0 hs
  have hn3 : 3 ≤ n := (le_max_right _ _).trans hn
  have hnn : n0 ≤ n := (le_max_left _ _).trans hn
  have hnp : (0 : ℝ) < n := by exact_mod_cast (by omega : 0 < n)
  obtain ⟨R, r1, r2, r3, r4, r5, r6⟩ := recipe_radii hsp hT0 hn3
  have hδn : T / n ≤ δ := by
    rw [div_lt_iff₀ hδ] at hn0
    rw [div_le_iff₀ hnp]
    have : (n0 : ℝ) ≤ n := by exact_mod_cast hnn
    nlinarith
  have hcov : ∀ x, x ≤ M → Covers R (x + ε') := fun x hx => ⟨T, r5, by linarith⟩
  have hRk : ∀ r ∈ R, ∃ k : Nat, k < n ∧ r = T / n * (k + 1) := by
    intro r hr
    have h1 : fin (s * r) ∈ makeRadiusList (fin (s * T)) n := by rw [r1]; exact List.mem_map.2 ⟨r, hr, rfl⟩
    unfold makeRadiusList at h1
    obtain ⟨k, hk, hk'⟩ := List.mem_map.1 h1
    refine ⟨k, List.mem_range.1 hk, ?_⟩
    simp [hnp.ne'] at hk'
    have h2 : s * r = s * (T / n * (k + 1)) := by rw [← hk']; ring
    exact mul_left_cancel₀ hsp.ne' h2
  obtain ⟨V, A, E, pl, hl, hph, hcp, hpl, hpe, hV⟩ := him s hs R (r2.mono (hδn.trans ((min_le_right _ _).trans (min_le_right _ _))))
    (fun r hr => (r4 r hr).2) h w cx cy theta
    (by
      intro r hr p hpe
      obtain ⟨a, b⟩ := r4 r hr
      exact hf p (ellipse_nested (mul_pos hsp a) (mul_le_mul_of_nonneg_left b hsp.le) hq hpe))
    f D hD0
    (by
      intro r hr
      obtain ⟨k, hk, rfl⟩ := hRk r hr
      exact hD k hk)
    (by
      intro i hi
      refine hroom.trans (mul_le_mul_of_nonneg_left ?_ hc0.le)
      have a := mul_le_mul_of_nonneg_left (r6 i hi) (show 0 ≤ π * (1 - ellip) * s ^ 2 by positivity)
      have e1 : π * (1 - ellip) * (3 * (s * T / n) ^ 2) = π * (1 - ellip) * s ^ 2 * (3 * (T / n) ^ 2) := by ring
      rw [e1]
      linarith)
  refine ⟨R.map fun r => s * r, by rw [r1, List.map_map]; rfl, _, _, E, hph, fun ip num tff hip => ?_⟩
  have hgr : GentleR 2 (2 * tameFactor 2 2) 0 (ip "cubic") := by
    rw [hip]; exact gentleR_of_gentle (cubic_gentle (by norm_num))
  have h3 := r2.three
  obtain ⟨-, -, ex1, ex2, -⟩ := rounded_exact (K := ℝ)
  obtain ⟨rp, a1, a2, a3⟩ := hra s hsp id 0 rounding_id relErr_id le_rfl hc2.le R (r2.mono (hδn.trans ((min_le_right _ _).trans (min_le_left _ _))))
    r3 (fun r hr => ⟨(r4 r hr).2, rfl⟩) ⟨T, r5, by linarith [min_le_left ε' δ1]⟩ pl hpl
    (fun i hi => by
      obtain ⟨v, v1, v2⟩ := hpe i hi
      exact ⟨v, v1, v2.trans (min_le_right _ _)⟩) ip (some "cubic") num 0 (by simp) le_rfl hc2.le
    (by rintro k ⟨⟩; exact hgr)
  obtain ⟨rf, b1, b2, b3⟩ := hfr s hsp (s ^ 2) (by positivity) id 0 rounding_id relErr_id le_rfl hc1.le R (r2.mono (hδn.trans (min_le_left _ _)))
    r3 (fun r hr => ⟨(r4 r hr).2, rfl⟩) (hcov _ m3) (hcov _ m2) V hl
    (fun i hi => (hV i hi).trans (mul_le_mul_of_nonneg_left (min_le_left _ _) (sq_nonneg s))) rp (a2.trans (min_le_right _ _)) ip "cubic" num 0
    (by simp) le_rfl hc1.le hgr
  rw [ex1] at a1
  rw [ex2] at b1
  obtain ⟨⟨x, y⟩, hx, hx1⟩ := except_map_ok a1
  obtain ⟨⟨x', y'⟩, hy, hy1⟩ := except_map_ok b1
  simp only at hx1 hy1
  subst hx1 hy1
  have emap : (R.map fun r => s * r).map fin = R.map fun r => fin (s * r) := by rw [List.map_map]; rfl
  refine ⟨_, Petrosian.init_ok_iff.2 ⟨by simp; omega, by simp [hl], by simp, by simp, pl, none, hcp, rfl⟩, s * rp, s * rf, ?_, ?_, ?_, ?_⟩
  · simp only [Petrosian.rPetrosian, Petrosian.calcPetrosianR, emap, hx, Except.map]
  · rw [mul_div_cancel_left₀ _ hsp.ne']; exact (a2.trans (min_le_left _ _)).trans hε1
  · simp only [Petrosian.fractionFluxToR, Petrosian.calcFractionToR, Petrosian.rPetrosian, Petrosian.rPetrosianErr,
      Petrosian.calcPetrosianR, emap, hx, Except.map, Except.bind_ok]
    have key : fractionToR ip (fin frac) (R.map fun x => fin (s * x)) (V.map fin) (fin (s * rp)) none (some y) (fin eps) (fin epsf)
        (some "cubic") num = .ok (fin (s * rf), y') := hy
    rw [key]
  · rw [mul_div_cancel_left₀ _ hsp.ne']; exact b2.trans hε1

/-- Sums over images that differ by at most `c` on each pixel. -/
theorem weightedSum_diff_le {h w : Nat} {wt f g : Nat → Nat → ℝ} (h0 : ∀ i j, 0 ≤ wt i j) {c : ℝ} (hc : ∀ i j, i < h → j < w → |f i j - g i j| ≤ c) :
    |weightedSum wt h w (fun _ _ => true) f - weightedSum wt h w (fun _ _ => true) g| ≤ weightedSum wt h w (fun _ _ => true) fun _ _ => c := by
  simp only [weightedSum_product, if_true]
  rw [← Finset.sum_sub_distrib]
  refine (Finset.abs_sum_le_sum_abs _ _).trans (Finset.sum_le_sum fun p hp => ?_)
  rw [Finset.mem_product, Finset.mem_range, Finset.mem_range] at hp
  rw [← mul_sub, abs_mul, abs_of_nonneg (h0 _ _)]
  exact mul_le_mul_of_nonneg_left (hc p.1 p.2 hp.1 hp.2) (h0 _ _)

/-- `P s n h w cx cy theta f` holds on every image `f` whose aperture sums are within `D` of those of the sampled galaxy, if `D + 10⁻⁶` is a
small part of the area of a ring: the image has `s` pixels to the unit of length, `h × w` pixels, and `n` apertures up to `T` around `(cx, cy)`. -/
def HoldsNear (I : ℝ → ℝ) (ellip T : ℝ) (P : ℝ → Nat → Nat → Nat → ℝ → ℝ → ℝ → (Nat → Nat → ℝ) → Prop) : Prop :=
  ∃ n0 : Nat, 3 ≤ n0 ∧ ∃ s0 > 0, ∃ c0 > 0, ∀ n ≥ n0, ∀ s ≥ s0,
    ∀ (h w : Nat) (cx cy theta : ℝ), OnFrame (⟨cx, cy, s * T, s * T * (1 - ellip), theta⟩ : Ellipse ℝ).set h w →
    ∀ (f : Nat → Nat → ℝ) (D : ℝ), 0 ≤ D →
    (∀ k : Nat, k < n → |idealSum cx cy ellip theta h w f (s * (T / n * (k + 1))) -
      idealSum cx cy ellip theta h w (fun i j => I (ellRadius j i cx cy ellip theta / s)) (s * (T / n * (k + 1)))| ≤ D) →
    D + 1 / 10 ^ 6 ≤ c0 * (π * (1 - ellip) * (3 * (s * T / n) ^ 2)) → P s n h w cx cy theta f

set_option maxHeartbeats 1000000 in
/-- What holds near the sampled galaxy is likely on images with correlated noise, whose mean is close to the sampled galaxy. -/
theorem noise_event {ellip : ℝ} (he1 : ellip < 1) {T : ℝ} (hT0 : 0 < T) {P : ℝ → Nat → Nat → Nat → ℝ → ℝ → ℝ → (Nat → Nat → ℝ) → Prop}
    (hP : HoldsNear I ellip T P) :
    ∃ n0 : Nat, ∀ n ≥ n0, ∃ s0 > 0, ∃ c > 0, ∃ K > 0, ∀ s ≥ s0,
      ∀ (h w : Nat) (cx cy theta : ℝ), OnFrame (⟨cx, cy, s * T, s * T * (1 - ellip), theta⟩ : Ellipse ℝ).set h w →
      ∀ (Ω : Type) [MeasurableSpace Ω] (μ : Measure Ω) [IsProbabilityMeasure μ] (X : Nat → Nat → Ω → ℝ) (m : Nat → Nat → ℝ) (v : ℝ),
      CorrelatedNoise μ h w X m v → (∀ i j, i < h → j < w → |m i j - I (ellRadius j i cx cy ellip theta / s)| ≤ c) →
      μ {ω | ¬ P s n h w cx cy theta fun i j => X i j ω} ≤ ENNReal.ofReal (v * K / s ^ 2) := by
  have hq : 0 < 1 - ellip := by linarith
  have hp := Real.pi_pos
  obtain ⟨n0, hn3, s0, hs0, c0, hc0, hm⟩ := hP
  refine ⟨n0, fun n hn => ?_⟩
  have hnp : (0 : ℝ) < n := by exact_mod_cast (by omega : 0 < n)
  set θ := c0 * (π * (1 - ellip) * (T / n) ^ 2) with hθ
  have hθ0 : 0 < θ := by positivity
  set Q := π * (1 - ellip) * T ^ 2 with hQ
  have hQ0 : 0 < Q := by positivity
  refine ⟨max s0 (max 1 (1 / 10 ^ 6 / θ)), lt_max_of_lt_left hs0, θ / Q, by positivity, n * (Q / θ ^ 2), by positivity, ?_⟩
  intro s hs h w cx cy theta hf Ω _ μ _ X m v hX hmI
  have hs1 : s0 ≤ s := (le_max_left _ _).trans hs
  have hs2 : 1 ≤ s := (le_max_left _ _).trans ((le_max_right _ _).trans hs)
  have hs3 : 1 / 10 ^ 6 / θ ≤ s := (le_max_right _ _).trans ((le_max_right _ _).trans hs)
  have hsp : 0 < s := lt_of_lt_of_le hs0 hs1
  have hbig : 1 / 10 ^ 6 ≤ θ * s ^ 2 := by
    rw [div_le_iff₀ hθ0] at hs3
    nlinarith
  set r : Nat → ℝ := fun k => s * (T / n * (k + 1)) with hr
  have hr0 : ∀ k, 0 < r k := fun k => by rw [hr]; positivity
  have hrT : ∀ k, k < n → r k ≤ s * T := by
    intro k hk
    have h1 : (k : ℝ) + 1 ≤ n := by exact_mod_cast hk
    have h2 : T / n * (k + 1) ≤ T := by
      have := mul_le_mul_of_nonneg_left h1 (show 0 ≤ T / n by positivity)
      rw [div_mul_cancel₀ _ hnp.ne'] at this
      exact this
    exact mul_le_mul_of_nonneg_left h2 hsp.le
  have hfk : ∀ k, k < n → OnFrame (⟨cx, cy, r k, r k * (1 - ellip), theta⟩ : Ellipse ℝ).set h w := fun k hk p hpe =>
    hf p (ellipse_nested (hr0 k) (hrT k hk) hq hpe)
  have harea : ∀ k, k < n → π * r k * (r k * (1 - ellip)) ≤ Q * s ^ 2 := by
    intro k hk
    have h1 : (r k) ^ 2 ≤ (s * T) ^ 2 := pow_le_pow_left₀ (hr0 k).le (hrT k hk) 2
    have h2 := mul_le_mul_of_nonneg_left h1 (show 0 ≤ π * (1 - ellip) by positivity)
    rw [hQ]
    linarith
  have hmean : ∀ k, k < n → |idealSum cx cy ellip theta h w m (r k) -
      idealSum cx cy ellip theta h w (fun i j => I (ellRadius j i cx cy ellip theta / s)) (r k)| ≤ θ * s ^ 2 := by
    intro k hk
    have h1 := weightedSum_diff_le (wt := exactOverlap.weight ⟨cx, cy, r k, r k * (1 - ellip), theta⟩) (exactOverlap_law.nonneg _) hmI
    rw [weightedSum_onFrame ⟨cx, cy, r k, r k * (1 - ellip), theta⟩ (hr0 k) (mul_pos (hr0 k) hq) h w (hfk k hk)] at h1
    refine h1.trans ((mul_le_mul_of_nonneg_left (harea k hk) (by positivity)).trans (le_of_eq ?_))
    field_simp
  set N : Nat → Ω → ℝ := fun k ω => idealSum cx cy ellip theta h w (fun i j => X i j ω) (r k) with hN
  have hsub : {ω | ¬ P s n h w cx cy theta fun i j => X i j ω} ⊆
      ⋃ k ∈ Finset.range n, {ω | θ * s ^ 2 ≤ |N k ω - idealSum cx cy ellip theta h w m (r k)|} := by
    intro ω hω
    by_contra hno
    simp only [Set.mem_iUnion, Finset.mem_range, Set.mem_ofPred_eq, exists_prop, not_exists, not_and, not_le] at hno
    have e : c0 * (π * (1 - ellip) * (3 * (s * T / n) ^ 2)) = 3 * (θ * s ^ 2) := by rw [hθ]; ring
    refine hω (hm n hn s hs1 h w cx cy theta hf (fun i j => X i j ω) (2 * (θ * s ^ 2)) (by positivity) (fun k hk => ?_) ?_)
    · have h1 := abs_le.1 (hno k hk).le
      have h2 := abs_le.1 (hmean k hk)
      rw [abs_le]
      constructor <;> linarith [h1.1, h1.2, h2.1, h2.2]
    · rw [e]
      linarith
  have hone : ∀ k ∈ Finset.range n, μ {ω | θ * s ^ 2 ≤ |N k ω - idealSum cx cy ellip theta h w m (r k)|} ≤
      ENNReal.ofReal (v * (Q / θ ^ 2) / s ^ 2) := by
    intro k hk
    have hk' := Finset.mem_range.1 hk
    have c1 := meas_ge_le_variance_div_sq (corr_memLp hX (exactOverlap.weight ⟨cx, cy, r k, r k * (1 - ellip), theta⟩) (fun _ _ => true))
      (show 0 < θ * s ^ 2 by positivity)
    rw [corr_mean hX] at c1
    refine c1.trans (ENNReal.ofReal_le_ofReal ?_)
    have v1 := corr_var hX (fun _ _ => true) (exactOverlap_law.nonneg ⟨cx, cy, r k, r k * (1 - ellip), theta⟩) (exactOverlap_law.le_one _)
    have v3 := weightedSum_onFrame ⟨cx, cy, r k, r k * (1 - ellip), theta⟩ (hr0 k) (mul_pos (hr0 k) hq) h w (hfk k hk') v
    have hvar : Var[fun ω => weightedSum (exactOverlap.weight ⟨cx, cy, r k, r k * (1 - ellip), theta⟩) h w (fun _ _ => true) fun i j => X i j ω; μ] ≤
        v * (π * r k * (r k * (1 - ellip))) := by
      rw [← v3]; exact v1
    have ha0 : 0 < π * r k * (r k * (1 - ellip)) := by have := hr0 k; positivity
    have hv0 : 0 ≤ v := by
      by_contra hneg
      have h1 := mul_neg_of_neg_of_pos (not_le.1 hneg) ha0
      have h2 := (variance_nonneg _ _).trans hvar
      linarith
    have h5 := hvar.trans (mul_le_mul_of_nonneg_left (harea k hk') hv0)
    have e : v * (Q / θ ^ 2) / s ^ 2 = v * (Q * s ^ 2) / (θ * s ^ 2) ^ 2 := by field_simp
    rw [e]
    exact div_le_div_of_nonneg_right h5 (by positivity)
  refine (measure_mono hsub).trans ((measure_biUnion_finset_le _ _).trans ((Finset.sum_le_sum hone).trans (le_of_eq ?_)))
  rw [Finset.sum_const, Finset.card_range, nsmul_eq_mul, ← ENNReal.ofReal_natCast, ← ENNReal.ofReal_mul (Nat.cast_nonneg n)]
  congr 1
  ring

/-- The recipe on images with correlated noise, whose mean is close to the sampled galaxy. -/
theorem noise_recipe (G : Galaxy I) {ellip : ℝ} (he0 : 0 ≤ ellip) (he1 : ellip < 1) {eta eps epsf frac rP rF : ℝ} (heps : 0 < eps)
    (hepsf : epsf ≠ 0) (hrP : 0 < rP) (hrF : 0 < rF) (htP : petroRatio I rP = eta)
    (htF : enclosed I 1 rF = frac / epsf * enclosed I 1 (eps * rP)) {T : ℝ} (hT1 : rP < T) (hT2 : eps * rP < T) (hT3 : rF < T) {ε : ℝ}
    (hε : 0 < ε) :
    ∃ n0 : Nat, ∀ n ≥ n0, ∃ s0 > 0, ∃ c > 0, ∃ K > 0, ∀ s ≥ s0,
      ∀ (h w : Nat) (cx cy theta : ℝ), OnFrame (⟨cx, cy, s * T, s * T * (1 - ellip), theta⟩ : Ellipse ℝ).set h w →
      ∀ (Ω : Type) [MeasurableSpace Ω] (μ : Measure Ω) [IsProbabilityMeasure μ] (X : Nat → Nat → Ω → ℝ) (m : Nat → Nat → ℝ) (v : ℝ),
      CorrelatedNoise μ h w X m v → (∀ i j, i < h → j < w → |m i j - I (ellRadius j i cx cy ellip theta / s)| ≤ c) →
      μ {ω | ¬ RecipeWithin ε s T cx cy ellip theta eta eps epsf frac rP rF n h w fun i j => X i j ω} ≤ ENNReal.ofReal (v * K / s ^ 2) :=
  noise_event he1 (hrP.trans hT1) (P := fun s n h w cx cy theta f => RecipeWithin ε s T cx cy ellip theta eta eps epsf frac rP rF n h w f)
    (C151_sums G he0 he1 heps hepsf hrP hrF htP htF hT1 hT2 hT3 hε)

/-- **C151, noise.** The documented recipe is consistent.  Take a galaxy of any profile, sampled at the pixel centres with `s` pixels to the unit
of length, and add noise to the pixels: uncorrelated, mean zero, variances at most `v`, of any law and as large as you like.  For every
tolerance, with enough apertures `n`, the probability that `make_radius_list`, `radial_photometry` and `Petrosian` with the default cubic
interpolation raise, or return an `r_petrosian` or a `fraction_flux_to_r` that misses the radius of the galaxy by more than the tolerance, is at
most `v K / s²`, where `K` depends on the galaxy, the tolerance and `n` alone. -/
theorem C151_recipe (G : Galaxy I) {ellip : ℝ} (he0 : 0 ≤ ellip) (he1 : ellip < 1) {eta eps epsf frac rP rF : ℝ} (heps : 0 < eps)
    (hepsf : epsf ≠ 0) (hrP : 0 < rP) (hrF : 0 < rF) (htP : petroRatio I rP = eta)
    (htF : enclosed I 1 rF = frac / epsf * enclosed I 1 (eps * rP)) {T : ℝ} (hT1 : rP < T) (hT2 : eps * rP < T) (hT3 : rF < T) {ε : ℝ}
    (hε : 0 < ε) :
    ∃ n0 : Nat, ∀ n ≥ n0, ∃ s0 > 0, ∃ K > 0, ∀ s ≥ s0,
      ∀ (h w : Nat) (cx cy theta : ℝ), OnFrame (⟨cx, cy, s * T, s * T * (1 - ellip), theta⟩ : Ellipse ℝ).set h w →
      ∀ (Ω : Type) [MeasurableSpace Ω] (μ : Measure Ω) [IsProbabilityMeasure μ] (X : Nat → Nat → Ω → ℝ) (σ : Nat → Nat → ℝ) (v : ℝ),
      PixelNoise μ h w X (fun i j => I (ellRadius j i cx cy ellip theta / s)) σ → (∀ i j, i < h → j < w → σ i j ^ 2 ≤ v) →
      μ {ω | ¬ RecipeWithin ε s T cx cy ellip theta eta eps epsf frac rP rF n h w fun i j => X i j ω} ≤ ENNReal.ofReal (v * K / s ^ 2) := by
  obtain ⟨n0, H⟩ := noise_recipe G he0 he1 heps hepsf hrP hrF htP htF hT1 hT2 hT3 hε
  refine ⟨n0, fun n hn => ?_⟩
  obtain ⟨s0, hs0, c, hc, K, hK, H⟩ := H n hn
  exact ⟨s0, hs0, K, hK, fun s hs h w cx cy theta hf Ω _ μ _ X σ v hX hv => H s hs h w cx cy theta hf Ω μ X _ v (hX.correlated hv)
    fun i j _ _ => by simpa using hc.le⟩

/-- The probability of a miss tends to zero as the image gets finer, the noise staying the same. -/
theorem C151_consistent (G : Galaxy I) {ellip : ℝ} (he0 : 0 ≤ ellip) (he1 : ellip < 1) {eta eps epsf frac rP rF : ℝ} (heps : 0 < eps)
    (hepsf : epsf ≠ 0) (hrP : 0 < rP) (hrF : 0 < rF) (htP : petroRatio I rP = eta)
    (htF : enclosed I 1 rF = frac / epsf * enclosed I 1 (eps * rP)) {T : ℝ} (hT1 : rP < T) (hT2 : eps * rP < T) (hT3 : rF < T) {ε α v : ℝ}
    (hε : 0 < ε) (hα : 0 < α) :
    ∃ n0 : Nat, ∀ n ≥ n0, ∃ s0 > 0, ∀ s ≥ s0,
      ∀ (h w : Nat) (cx cy theta : ℝ), OnFrame (⟨cx, cy, s * T, s * T * (1 - ellip), theta⟩ : Ellipse ℝ).set h w →
      ∀ (Ω : Type) [MeasurableSpace Ω] (μ : Measure Ω) [IsProbabilityMeasure μ] (X : Nat → Nat → Ω → ℝ) (σ : Nat → Nat → ℝ),
      PixelNoise μ h w X (fun i j => I (ellRadius j i cx cy ellip theta / s)) σ → (∀ i j, i < h → j < w → σ i j ^ 2 ≤ v) →
      μ {ω | ¬ RecipeWithin ε s T cx cy ellip theta eta eps epsf frac rP rF n h w fun i j => X i j ω} ≤ ENNReal.ofReal α := by
  obtain ⟨n0, hn⟩ := C151_recipe G he0 he1 heps hepsf hrP hrF htP htF hT1 hT2 hT3 hε
  refine ⟨n0, fun n hnn => ?_⟩
  obtain ⟨s0, hs0, K, hK, hm⟩ := hn n hnn
  refine ⟨max s0 (max 1 (v * K / α)), lt_max_of_lt_left hs0, ?_⟩
  intro s hs h w cx cy theta hf Ω _ μ _ X σ hX hv
  have hs2 : 1 ≤ s := (le_max_left _ _).trans ((le_max_right _ _).trans hs)
  have hs3 : v * K / α ≤ s := (le_max_right _ _).trans ((le_max_right _ _).trans hs)
  refine (hm s ((le_max_left _ _).trans hs) h w cx cy theta hf Ω μ X σ v hX hv).trans (ENNReal.ofReal_le_ofReal ?_)
  rw [div_le_iff₀ hα] at hs3
  rw [div_le_iff₀ (by positivity)]
  have h1 : s * α ≤ s ^ 2 * α := mul_le_mul_of_nonneg_right (by nlinarith) hα.le
  linarith

/-- Gaussian noise of standard deviation 100 on a Sersic galaxy of brightness 1 at its effective radius: with a big enough image the recipe finds
the Petrosian radius to 1% with a probability of at least 99%. -/
example {n rP rF : ℝ} (hn : 0 < n) (hrP : 0 < rP) (hrF : 0 < rF) (hFP : rF < 2 * rP)
    (htP : petroRatio (sersic (bn n) 1 1 n) rP = 1 / 5)
    (htF : enclosed (sersic (bn n) 1 1 n) 1 rF = 1 / 2 / 1 * enclosed (sersic (bn n) 1 1 n) 1 (2 * rP)) :
    ∃ (k N : Nat) (s : ℝ), 0 < s ∧
      gaussField (2 * N + 1) (2 * N + 1) {ω | ¬ RecipeWithin (rP / 100) s (3 * rP) N N 0 0 (1 / 5) 2 1 (1 / 2) rP rF k (2 * N + 1) (2 * N + 1)
        fun i j => gaussImage (2 * N + 1) (2 * N + 1) (fun i j => sersic (bn n) 1 1 n (ellRadius j i N N 0 0 / s)) (fun _ _ => 100) i j ω} ≤
      ENNReal.ofReal (1 / 100) := by
  obtain ⟨n0, hm⟩ := C151_consistent (sersic_galaxy (amplitude := 1) (rEff := 1) one_pos hn one_pos)
    (ellip := 0) (eps := 2) le_rfl one_pos two_pos one_ne_zero hrP hrF htP htF (T := 3 * rP) (by linarith) (by linarith) (by linarith)
    (show 0 < rP / 100 by positivity) (show (0 : ℝ) < 1 / 100 by norm_num) (v := 10000)
  obtain ⟨s, hs, hm⟩ := hm n0 le_rfl
  obtain ⟨N, hN⟩ := exists_nat_gt (s * (3 * rP))
  have ha : 0 < s * (3 * rP) := by positivity
  refine ⟨n0, N, s, hs, hm s le_rfl _ _ N N 0 ?_ _ _ _ (fun _ _ => 100) (gaussian_noise _ _ _ _) (fun _ _ _ _ => by norm_num)⟩
  have hx : Ellipse.xExtent ⟨(N : ℝ), (N : ℝ), s * (3 * rP), s * (3 * rP) * (1 - 0), 0⟩ ≤ s * (3 * rP) := by
    simp [Ellipse.xExtent, Real.sqrt_sq ha.le]
  have hy : Ellipse.yExtent ⟨(N : ℝ), (N : ℝ), s * (3 * rP), s * (3 * rP) * (1 - 0), 0⟩ ≤ s * (3 * rP) := by
    simp [Ellipse.yExtent, Real.sqrt_sq ha.le]
  apply onFrame_of_box _ ha (by simpa using ha)
  · exact le_trans (by linarith) (sub_le_sub_left hx (N : ℝ))
  · refine (add_le_add_right hx (N : ℝ)).trans ?_
    push_cast; linarith
  · exact le_trans (by linarith) (sub_le_sub_left hy (N : ℝ))
  · refine (add_le_add_right hy (N : ℝ)).trans ?_
    push_cast; linarith

end Verif.Props

import Verif.Props.CubicRadius
import Verif.Props.Utils

/-!
# C143: the documented recipe, end to end

The steps of the PetroFit documentation: `r_list = make_radius_list(max_pix, n)`, `radial_photometry(image, ..., r_list)`,
`Petrosian(r_list, area_list, flux_list)` with its default cubic interpolation.
-/

set_option linter.unusedSectionVars false
set_option linter.unusedVariables false

namespace Verif.Props

open Verif F Spec Lemmas MeasureTheory Real

variable {I : ℝ → ℝ}

/-- The radii of `make_radius_list` in units of length. -/
theorem recipe_radii {s T : ℝ} (hs : 0 < s) (hT : 0 < T) {n : Nat} (hn : 3 ≤ n) :
    ∃ R : List ℝ, makeRadiusList (fin (s * T)) n = R.map (fun r => fin (s * r)) ∧ Fine (T / n) R ∧ EvenRadii 2 R ∧ (∀ r ∈ R, 0 < r ∧ r ≤ T) ∧
      T ∈ R ∧ ∀ i (h : i + 1 < R.length), 3 * (T / n) ^ 2 ≤ R[i + 1] ^ 2 - R[i] ^ 2 := by
  obtain ⟨rs, h1, h2, h3, h4, h5, h6⟩ := C35_linear (mul_pos hs hT) n
  have hn0 : (0 : ℝ) < n := by exact_mod_cast (by omega : 0 < n)
  have hg : 0 < T / n := by positivity
  obtain ⟨h7, h8⟩ := h6 (by omega)
  set R := rs.map fun x => x / s with hR
  have hRl : R.length = n := by simp [hR, h2]
  have e0 : s * T / n / s = T / n := by field_simp
  have hstep : ∀ i (h : i + 1 < R.length), R[i + 1] - R[i] = T / n := by
    intro i hi
    have := h5 i (by omega)
    simp only [hR, List.getElem_map]
    rw [← sub_div, this, e0]
  have h0 : R[0]'(by omega) = T / n := by
    simp only [hR, List.getElem_map, h7, e0]
  have hlow : ∀ i (h : i < R.length), T / n ≤ R[i] := by
    intro i
    induction i with
    | zero => intro h; rw [h0]
    | succ i ih => intro h; have := hstep i h; have := ih (by omega); linarith
  refine ⟨R, ?_, ⟨by omega, ?_, ?_⟩, ⟨T / n, hg, ?_, ?_⟩, ?_, ?_, ?_⟩
  · rw [h1, hR, List.map_map]
    apply List.map_congr_left
    intro r _
    simp only [Function.comp_apply]
    rw [mul_div_cancel₀ _ hs.ne']
  · intro h; rw [h0]; exact ⟨hg, le_rfl⟩
  · intro i h; have := hstep i h; constructor <;> linarith
  · intro i h; have := hstep i h; constructor <;> linarith
  · intro h; have := hstep 0 h; simp only [zero_add] at this; linarith
  · intro r hr
    obtain ⟨x, hx, rfl⟩ := List.mem_map.1 hr
    have := h4 x hx
    refine ⟨div_pos this.1 hs, ?_⟩
    rw [div_le_iff₀ hs]; linarith
  · rw [hR, List.mem_map]
    exact ⟨_, List.getElem_mem (by omega : rs.length - 1 < rs.length), by rw [h8]; field_simp⟩
  · intro i h
    have a := hstep i h
    have b := hlow i (by omega)
    have e : R[i + 1] = R[i] + T / n := by linarith
    rw [e]
    nlinarith

/-- The documented recipe on a blurred image. -/
theorem blurred_recipe (G : Galaxy I) {ellip : ℝ} (he0 : 0 ≤ ellip) (he1 : ellip < 1) {B : ℝ} (hB : 0 ≤ B) {eta eps epsf frac rP rF : ℝ} (heps : 0 < eps)
    (hepsf : epsf ≠ 0) (hrP : 0 < rP) (hrF : 0 < rF) (htP : petroRatio I rP = eta)
    (htF : enclosed I 1 rF = frac / epsf * enclosed I 1 (eps * rP)) {T : ℝ} (hT1 : rP < T) (hT2 : eps * rP < T) (hT3 : rF < T) {ε : ℝ}
    (hε : 0 < ε) :
    ∃ n0 : Nat, ∃ s0 > 0, ∃ w0 > 0, ∀ n ≥ n0, ∀ s ≥ s0, w0 ≤ s * T / n →
      ∀ (h w : Nat) (cx cy theta D : ℝ) (f : Nat → Nat → ℝ), Blurred I s B cx cy ellip theta h w D f → s * T + 1 / (1 - ellip) + B ≤ D →
      OnFrame (⟨cx, cy, s * T, s * T * (1 - ellip), theta⟩ : Ellipse ℝ).set h w →
      ∃ rs : List ℝ, makeRadiusList (fin (s * T)) n = rs.map fin ∧
      ∃ fl ar er, radialPhotometry exactOverlap ⟨h, w, fun i j => fin (f i j)⟩ cx cy
          rs none none (1 / (1 - ellip)) theta = .ok (fl, ar, er) ∧
        ∀ (ip : InterpFam ℝ) (num : Nat) (tff : F ℝ), ip "cubic" = cubicInterp →
        ∃ p, Petrosian.init (rs.map fin) ar fl none none (fin eta) (fin eps) (fin epsf) tff (some "cubic") num = .ok p ∧
          ∃ rp rf, p.rPetrosian ip = .ok (fin rp) ∧ |rp / s - rP| ≤ ε ∧
            p.fractionFluxToR ip (fin frac) = .ok (fin rf) ∧ |rf / s - rF| ≤ ε := by
  have hq : 0 < 1 - ellip := by linarith
  have hp := Real.pi_pos
  have hT0 : 0 < T := hrP.trans hT1
  set M := max rP (max (eps * rP) rF) with hM
  have m1 : rP ≤ M := le_max_left _ _
  have m2 : eps * rP ≤ M := (le_max_left _ _).trans (le_max_right _ _)
  have m3 : rF ≤ M := (le_max_right _ _).trans (le_max_right _ _)
  have hMT : M < T := max_lt hT1 (max_lt hT2 hT3)
  set ε' := min ε (T - M) with hε'
  have hε0 : 0 < ε' := lt_min hε (by linarith)
  have hε1 : ε' ≤ ε := min_le_left _ _
  have hε2 : ε' ≤ T - M := min_le_right _ _
  obtain ⟨δ, hδ, s0, hs0, ω0, hω0, hm⟩ := blurred_cubic G he0 he1 hB heps hepsf hrP hrF htP htF hε0 T (ρ := 2) (by norm_num)
  obtain ⟨n0, hn0⟩ := exists_nat_gt (T / δ)
  set W := max 1 (ω0 / (π * (1 - ellip))) with hW
  have hW1 : 1 ≤ W := le_max_left _ _
  have hW2 : ω0 / (π * (1 - ellip)) ≤ W := le_max_right _ _
  refine ⟨max n0 3, s0, hs0, W, by linarith, ?_⟩
  intro n hn s hs hw h w cx cy theta D f hBl hD hf
  have hsp : 0 < s := lt_of_lt_of_le hs0 hs
  have hn3 : 3 ≤ n := (le_max_right _ _).trans hn
  have hnn : n0 ≤ n := (le_max_left _ _).trans hn
  have hnp : (0 : ℝ) < n := by exact_mod_cast (by omega : 0 < n)
  obtain ⟨R, r1, r2, r3, r4, r5, r6⟩ := recipe_radii hsp hT0 hn3
  have hδn : T / n ≤ δ := by
    rw [div_lt_iff₀ hδ] at hn0
    rw [div_le_iff₀ hnp]
    have : (n0 : ℝ) ≤ n := by exact_mod_cast hnn
    nlinarith
  have hcov : ∀ x, x ≤ M → Covers R (x + ε') := fun x hx => ⟨T, r5, by linarith⟩
  obtain ⟨fl, ar, er, h1, h2⟩ := hm s hs R (r2.mono hδn) r3 (fun r hr => (r4 r hr).2) (hcov _ m1) (hcov _ m2) (hcov _ m3)
    (by
      intro i hi
      have a := r6 i hi
      rw [div_le_iff₀ (by positivity)] at hW2
      have b : s ^ 2 * (3 * (T / n) ^ 2) ≤ s ^ 2 * (R[i + 1] ^ 2 - R[i] ^ 2) := mul_le_mul_of_nonneg_left a (by positivity)
      have c : s ^ 2 * (3 * (T / n) ^ 2) = 3 * (s * T / n) ^ 2 := by ring
      have d : W ≤ 3 * (s * T / n) ^ 2 := by nlinarith
      have e : π * (1 - ellip) * ((s * R[i + 1]) ^ 2 - (s * R[i]) ^ 2) = (s ^ 2 * (R[i + 1] ^ 2 - R[i] ^ 2)) * (π * (1 - ellip)) := by ring
      rw [e]
      exact hW2.trans (mul_le_mul_of_nonneg_right (by linarith) (by positivity)))
    h w cx cy theta D f hBl hD
    (by
      intro r hr p hpe
      obtain ⟨a, b⟩ := r4 r hr
      exact hf p (ellipse_nested (mul_pos hsp a) (mul_le_mul_of_nonneg_left b hsp.le) hq hpe))
  refine ⟨R.map fun r => s * r, by rw [r1, List.map_map]; rfl, fl, ar, er, h1, fun ip num tff hip => ?_⟩
  obtain ⟨p, g1, rp, rf, g2, g3, g4, g5, -⟩ := h2 ip num tff hip
  refine ⟨p, by rw [List.map_map]; exact g1, s * rp, s * rf, g2, ?_, g4, ?_⟩
  · rw [mul_div_cancel_left₀ _ hsp.ne']; exact g3.trans hε1
  · rw [mul_div_cancel_left₀ _ hsp.ne']; exact g5.trans hε1

/-- **C143.** The documented recipe converges. A galaxy of any profile with Petrosian radius `rP`, at which a fraction radius `rF` is wanted, is
sampled at the pixel centres with `s` pixels to the unit of length. Take `make_radius_list(max_pix, n)` with `max_pix = s T` beyond the radii
concerned, `radial_photometry` with these radii, and `Petrosian` with its default `interp_kind='cubic'`. For every tolerance, with enough
apertures, a fine enough sampling and enough pixels between neighbouring apertures, `r_petrosian` and `fraction_flux_to_r` are within the
tolerance of the radii of the galaxy. -/
theorem C143_recipe (G : Galaxy I) {ellip : ℝ} (he0 : 0 ≤ ellip) (he1 : ellip < 1) {eta eps epsf frac rP rF : ℝ} (heps : 0 < eps)
    (hepsf : epsf ≠ 0) (hrP : 0 < rP) (hrF : 0 < rF) (htP : petroRatio I rP = eta)
    (htF : enclosed I 1 rF = frac / epsf * enclosed I 1 (eps * rP)) {T : ℝ} (hT1 : rP < T) (hT2 : eps * rP < T) (hT3 : rF < T) {ε : ℝ}
    (hε : 0 < ε) :
    ∃ n0 : Nat, ∃ s0 > 0, ∃ w0 > 0, ∀ n ≥ n0, ∀ s ≥ s0, w0 ≤ s * T / n →
      ∀ (h w : Nat) (cx cy theta : ℝ), OnFrame (⟨cx, cy, s * T, s * T * (1 - ellip), theta⟩ : Ellipse ℝ).set h w →
      ∃ rs : List ℝ, makeRadiusList (fin (s * T)) n = rs.map fin ∧
      ∃ fl ar er, radialPhotometry exactOverlap ⟨h, w, fun i j => fin (I (ellRadius j i cx cy ellip theta / s))⟩ cx cy
          rs none none (1 / (1 - ellip)) theta = .ok (fl, ar, er) ∧
        ∀ (ip : InterpFam ℝ) (num : Nat) (tff : F ℝ), ip "cubic" = cubicInterp →
        ∃ p, Petrosian.init (rs.map fin) ar fl none none (fin eta) (fin eps) (fin epsf) tff (some "cubic") num = .ok p ∧
          ∃ rp rf, p.rPetrosian ip = .ok (fin rp) ∧ |rp / s - rP| ≤ ε ∧
            p.fractionFluxToR ip (fin frac) = .ok (fin rf) ∧ |rf / s - rF| ≤ ε := by
  obtain ⟨n0, s0, hs0, w0, hw0, H⟩ := blurred_recipe G he0 he1 le_rfl heps hepsf hrP hrF htP htF hT1 hT2 hT3 hε
  exact ⟨n0, s0, hs0, w0, hw0, fun n hn s hs hw h w cx cy theta hf => H n hn s hs hw h w cx cy theta _ _
    (Blurred.sampled G (lt_of_lt_of_le hs0 hs) cx cy ellip theta h w _) le_rfl hf⟩

/-- The half light radius of a Sersic galaxy of any index, ellipticity 0.3, by the documented recipe: whatever the tolerance there are an image,
a largest radius and a number of apertures with which `r_half_light` is that close. -/
example {n rP rF eta ε : ℝ} (hn : 0 < n) (hrP : 0 < rP) (hrF : 0 < rF) (hFP : rF < 2 * rP) (hε : 0 < ε)
    (htP : petroRatio (sersic (bn n) 1 1 n) rP = eta)
    (htF : enclosed (sersic (bn n) 1 1 n) 1 rF = 1 / 2 / 1 * enclosed (sersic (bn n) 1 1 n) 1 (2 * rP)) :
    ∃ (h w m : Nat) (cx cy s maxPix : ℝ), 0 < s ∧ ∃ rs : List ℝ, makeRadiusList (fin maxPix) m = rs.map fin ∧
      ∃ fl ar er, radialPhotometry exactOverlap
          ⟨h, w, fun i j => fin (sersic (bn n) 1 1 n (ellRadius j i cx cy (3 / 10) (1 / 2) / s))⟩ cx cy
          rs none none (1 / (1 - 3 / 10)) (1 / 2) = .ok (fl, ar, er) ∧
        ∃ p, Petrosian.init (rs.map fin) ar fl none none (fin eta) (fin 2) (fin 1) (fin 1) (some "cubic") 5000 = .ok p ∧
          ∃ r, p.rHalfLight (fun _ => cubicInterp) = .ok (fin r) ∧ |r / s - rF| ≤ ε := by
  obtain ⟨n0, s0, hs0, w0, hw0, hm⟩ := C143_recipe (sersic_galaxy (amplitude := 1) (rEff := 1) one_pos hn one_pos)
    (ellip := 3 / 10) (eps := 2) (by norm_num) (by norm_num) (by norm_num) one_ne_zero hrP hrF htP htF (T := 3 * rP) (by linarith)
    (by linarith) (by linarith) hε
  set m := n0 + 1 with hmm
  have hm0 : (0 : ℝ) < m := by rw [hmm]; positivity
  set s := max s0 (w0 * m / (3 * rP)) with hs
  have hsw : w0 * m / (3 * rP) ≤ s := le_max_right _ _
  have hsp : 0 < s := lt_of_lt_of_le hs0 (le_max_left _ _)
  obtain ⟨N, hN⟩ := exists_nat_gt (s * (3 * rP))
  have ha : 0 < s * (3 * rP) := by positivity
  have hb : 0 < s * (3 * rP) * (1 - 3 / 10) := mul_pos ha (by norm_num)
  have hcs := Real.cos_sq_add_sin_sq (1 / 2 : ℝ)
  have key : ∀ c d : ℝ, c ^ 2 + d ^ 2 = 1 → √((s * (3 * rP) * c) ^ 2 + (s * (3 * rP) * (1 - 3 / 10) * d) ^ 2) ≤ s * (3 * rP) := by
    intro c d hcd
    rw [Real.sqrt_le_left ha.le]
    have h1 : (s * (3 * rP) * (1 - 3 / 10)) ^ 2 ≤ (s * (3 * rP)) ^ 2 := pow_le_pow_left₀ hb.le (by linarith) 2
    have h2 := mul_le_mul_of_nonneg_right h1 (sq_nonneg d)
    have h3 : (s * (3 * rP) * c) ^ 2 + (s * (3 * rP)) ^ 2 * d ^ 2 = (s * (3 * rP)) ^ 2 := by
      rw [mul_pow, ← mul_add, hcd, mul_one]
    rw [mul_pow _ d 2]
    linarith
  have hx : Ellipse.xExtent ⟨(N : ℝ), (N : ℝ), s * (3 * rP), s * (3 * rP) * (1 - 3 / 10), 1 / 2⟩ ≤ s * (3 * rP) := key _ _ hcs
  have hy : Ellipse.yExtent ⟨(N : ℝ), (N : ℝ), s * (3 * rP), s * (3 * rP) * (1 - 3 / 10), 1 / 2⟩ ≤ s * (3 * rP) := key _ _ (by linarith)
  obtain ⟨rs, h1, fl, ar, er, h2, h3⟩ := hm m (by omega) s (le_max_left _ _)
    (by rw [div_le_iff₀ (by positivity)] at hsw; rw [le_div_iff₀ hm0]; exact hsw)
    (2 * N + 1) (2 * N + 1) N N (1 / 2)
    (by
      apply onFrame_of_box _ ha hb
      · simp only; linarith
      · simp only; push_cast; linarith
      · simp only; linarith
      · simp only; push_cast; linarith)
  obtain ⟨p, g1, _, rf, _, _, g4, g5⟩ := h3 (fun _ => cubicInterp) 5000 (fin 1) rfl
  refine ⟨_, _, m, _, _, s, _, hsp, rs, h1, fl, ar, er, h2, p, g1, rf, ?_, g5⟩
  rw [← g4]
  simp [Petrosian.rHalfLight, Petrosian.fractionFluxToR]

end Verif.Props

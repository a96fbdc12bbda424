import Verif.Spec.Catalogs
import Verif.Lemmas.NumPy

/-!
# C146: `match_catalogs` finds the nearest source on the sphere
-/

set_option linter.unusedSectionVars false
set_option linter.unusedVariables false

namespace Verif.Props

open Verif Spec

theorem direction_inner (a b c d : ℝ) : inner ℝ (direction a b) (direction c d) =
    Real.sin (radians b) * Real.sin (radians d) + Real.cos (radians b) * Real.cos (radians d) * Real.cos (radians c - radians a) := by
  have e : ∀ x, x * Real.pi / 180 = radians x := fun x => by unfold radians; ring
  simp only [direction, e, EuclideanSpace.inner_eq_star_dotProduct]
  simp [dotProduct, Fin.sum_univ_three, Real.cos_sub]
  ring

theorem direction_norm (a b : ℝ) : ‖direction a b‖ = 1 := by
  have h := direction_inner a b a b
  rw [real_inner_self_eq_norm_sq, sub_self, Real.cos_zero] at h
  have h1 := Real.sin_sq_add_cos_sq (radians b)
  have h2 : ‖direction a b‖ ^ 2 = 1 := by rw [h]; nlinarith
  have h3 := norm_nonneg (direction a b)
  nlinarith

/-- **C146, the separation.** The separation that is returned is the angle between the two directions. -/
theorem C146_separation (p q : SkyPos) : p.separation q = skyAngle p.ra p.dec q.ra q.dec := by
  have hin := direction_inner p.ra p.dec q.ra q.dec
  unfold skyAngle InnerProductGeometry.angle
  rw [direction_norm, direction_norm, mul_one, div_one, hin]
  unfold SkyPos.separation arctan2
  dsimp only
  set sl := Real.sin (radians q.ra - radians p.ra) with hsl
  set cl := Real.cos (radians q.ra - radians p.ra) with hcl
  set s1 := Real.sin (radians p.dec) with hs1
  set c1 := Real.cos (radians p.dec) with hc1
  set s2 := Real.sin (radians q.dec) with hs2
  set c2 := Real.cos (radians q.dec) with hc2
  have e1 : sl ^ 2 + cl ^ 2 = 1 := Real.sin_sq_add_cos_sq _
  have e2 : s1 ^ 2 + c1 ^ 2 = 1 := Real.sin_sq_add_cos_sq _
  have e3 : s2 ^ 2 + c2 ^ 2 = 1 := Real.sin_sq_add_cos_sq _
  clear_value sl cl s1 c1 s2 c2
  set y2 := (c2 * sl) ^ 2 + (c1 * s2 - s1 * c2 * cl) ^ 2 with hy2
  set x := s1 * s2 + c1 * c2 * cl with hx
  have hy0 : 0 ≤ y2 := by positivity
  have key : y2 + x ^ 2 = 1 := by
    rw [hy2, hx]
    have a1 : sl ^ 2 = 1 - cl ^ 2 := by linarith
    have a2 : s1 ^ 2 = 1 - c1 ^ 2 := by linarith
    have a3 : s2 ^ 2 = 1 - c2 ^ 2 := by linarith
    have : (c2 * sl) ^ 2 + (c1 * s2 - s1 * c2 * cl) ^ 2 + (s1 * s2 + c1 * c2 * cl) ^ 2 =
        c2 ^ 2 * sl ^ 2 + (s1 ^ 2 + c1 ^ 2) * (s2 ^ 2 + c2 ^ 2 * cl ^ 2) := by ring
    rw [this, e2, a1, a3]
    ring
  have hn : ‖(⟨x, Real.sqrt y2⟩ : ℂ)‖ = 1 := by
    have : ‖(⟨x, Real.sqrt y2⟩ : ℂ)‖ ^ 2 = 1 := by
      rw [Complex.sq_norm, Complex.normSq_mk]
      nlinarith [Real.mul_self_sqrt hy0]
    have h3 := norm_nonneg (⟨x, Real.sqrt y2⟩ : ℂ)
    nlinarith
  have hz : (⟨x, Real.sqrt y2⟩ : ℂ) ≠ 0 := by
    intro h
    rw [h, norm_zero] at hn
    exact zero_ne_one hn
  have hcos := Complex.cos_arg hz
  rw [hn, div_one] at hcos
  have h0 : 0 ≤ Complex.arg ⟨x, Real.sqrt y2⟩ := Complex.arg_nonneg_iff.2 (Real.sqrt_nonneg _)
  have h1 := Complex.arg_le_pi ⟨x, Real.sqrt y2⟩
  have : Real.arccos (Real.cos (Complex.arg ⟨x, Real.sqrt y2⟩)) = Complex.arg ⟨x, Real.sqrt y2⟩ := Real.arccos_cos h0 h1
  rw [← this, hcos]

theorem skyAngle_mem (a b c d : ℝ) : 0 ≤ skyAngle a b c d ∧ skyAngle a b c d ≤ Real.pi :=
  ⟨InnerProductGeometry.angle_nonneg _ _, InnerProductGeometry.angle_le_pi _ _⟩

theorem cos_skyAngle (a b c d : ℝ) : Real.cos (skyAngle a b c d) =
    Real.sin (radians b) * Real.sin (radians d) + Real.cos (radians b) * Real.cos (radians d) * Real.cos (radians c - radians a) := by
  unfold skyAngle
  rw [InnerProductGeometry.cos_angle, direction_norm, direction_norm, mul_one, div_one, direction_inner]

/-- The distance of the unit vectors in terms of the angle. -/
theorem chord_angle (p q : SkyPos) : chord p.vec q.vec = 2 * Real.sin (skyAngle p.ra p.dec q.ra q.dec / 2) := by
  have h1 := cos_skyAngle p.ra p.dec q.ra q.dec
  obtain ⟨h2, h3⟩ := skyAngle_mem p.ra p.dec q.ra q.dec
  set t := skyAngle p.ra p.dec q.ra q.dec with ht
  have hs : 0 ≤ Real.sin (t / 2) := Real.sin_nonneg_of_nonneg_of_le_pi (by linarith) (by linarith)
  have hc : Real.cos t = 1 - 2 * Real.sin (t / 2) ^ 2 := by
    have h5 := Real.cos_two_mul (t / 2)
    have h4 := Real.sin_sq_add_cos_sq (t / 2)
    rw [mul_div_cancel₀ t two_ne_zero] at h5
    linarith
  unfold chord SkyPos.vec
  rw [← Real.sqrt_sq (mul_nonneg zero_le_two hs)]
  congr 1
  have e1 := Real.sin_sq_add_cos_sq (radians p.dec)
  have e2 := Real.sin_sq_add_cos_sq (radians q.dec)
  have e3 := Real.sin_sq_add_cos_sq (radians p.ra)
  have e4 := Real.sin_sq_add_cos_sq (radians q.ra)
  rw [Real.cos_sub] at h1
  have e5 : (2 * Real.sin (t / 2)) ^ 2 = 2 - 2 * Real.cos t := by rw [hc]; ring
  rw [e5, h1]
  generalize Real.sin (radians p.dec) = a at *
  generalize Real.cos (radians p.dec) = b at *
  generalize Real.sin (radians q.dec) = c at *
  generalize Real.cos (radians q.dec) = d at *
  generalize Real.sin (radians p.ra) = u at *
  generalize Real.cos (radians p.ra) = v at *
  generalize Real.sin (radians q.ra) = x at *
  generalize Real.cos (radians q.ra) = y at *
  simp only
  have : (b * v - d * y) ^ 2 + (b * u - d * x) ^ 2 + (a - c) ^ 2 =
      b ^ 2 * (u ^ 2 + v ^ 2) + a ^ 2 + d ^ 2 * (x ^ 2 + y ^ 2) + c ^ 2 - 2 * (a * c + b * d * (y * v + x * u)) := by ring
  rw [this, e3, e4]
  linarith

/-- Nearer on the sky means nearer in space. -/
theorem chord_le_iff (p q r : SkyPos) : chord p.vec q.vec ≤ chord p.vec r.vec ↔
    skyAngle p.ra p.dec q.ra q.dec ≤ skyAngle p.ra p.dec r.ra r.dec := by
  obtain ⟨h1, h2⟩ := skyAngle_mem p.ra p.dec q.ra q.dec
  obtain ⟨h3, h4⟩ := skyAngle_mem p.ra p.dec r.ra r.dec
  rw [chord_angle, chord_angle]
  have hp := Real.pi_pos
  have := Real.strictMonoOn_sin.le_iff_le (a := skyAngle p.ra p.dec q.ra q.dec / 2) (b := skyAngle p.ra p.dec r.ra r.dec / 2)
    ⟨by linarith, by linarith⟩ ⟨by linarith, by linarith⟩
  constructor
  · intro h
    have := this.1 (by linarith)
    linarith
  · intro h
    have := this.2 (by linarith)
    linarith

/-! ### The call -/

theorem skyCoords_ok {ra dec : List ℝ} (hl : ra.length = dec.length) (hd : ∀ d ∈ dec, -90 ≤ d ∧ d ≤ 90) :
    skyCoords ra dec = .ok (List.zipWith SkyPos.mk ra dec) := by
  unfold skyCoords
  rw [if_neg (by simpa using hl), if_neg]
  rintro ⟨d, h1, h2⟩
  have := hd d h1
  rcases h2 with h2 | h2 <;> linarith

theorem matchCatalogs_ok (tree : List (ℝ × ℝ × ℝ) → ℝ × ℝ × ℝ → Nat) {ra1 dec1 ra2 dec2 : List ℝ} (h1 : ra1.length = dec1.length)
    (h2 : ra2.length = dec2.length) (hd1 : ∀ d ∈ dec1, -90 ≤ d ∧ d ≤ 90) (hd2 : ∀ d ∈ dec2, -90 ≤ d ∧ d ≤ 90) (hne : ra2 ≠ []) :
    let c1 := List.zipWith SkyPos.mk ra1 dec1
    let c2 := List.zipWith SkyPos.mk ra2 dec2
    let idx := c1.map fun p => tree (c2.map SkyPos.vec) p.vec
    let found := idx.map fun k => c2.getD k ⟨0, 0⟩
    matchCatalogs tree ra1 dec1 ra2 dec2 =
      .ok (idx, List.zipWith (fun p q => p.separation q) c1 found, List.zipWith (fun p q => chord p.vec q.vec) c1 found) := by
  have hc : (List.zipWith SkyPos.mk ra2 dec2).isEmpty = false := by
    rw [List.isEmpty_eq_false_iff]
    intro h
    have := congrArg List.length h
    rw [List.length_zipWith, ← h2, min_self] at this
    exact hne (List.length_eq_zero_iff.1 this)
  unfold matchCatalogs
  rw [skyCoords_ok h1 hd1, skyCoords_ok h2 hd2]
  show (if (List.zipWith SkyPos.mk ra2 dec2).isEmpty = true then _ else _) = _
  rw [hc]
  rfl

/-- **C146.** `match_catalogs` returns, for every source of the first catalogue, the index of a source of the second catalogue to which no other one
is nearer on the sky, the angle between the two, and `2 sin(angle / 2)`. -/
theorem C146_nearest {tree : List (ℝ × ℝ × ℝ) → ℝ × ℝ × ℝ → Nat} (law : NearestTree tree) {ra1 dec1 ra2 dec2 : List ℝ}
    (h1 : ra1.length = dec1.length) (h2 : ra2.length = dec2.length) (hd1 : ∀ d ∈ dec1, -90 ≤ d ∧ d ≤ 90)
    (hd2 : ∀ d ∈ dec2, -90 ≤ d ∧ d ≤ 90) (hne : ra2 ≠ []) :
    ∃ idx d2 d3, matchCatalogs tree ra1 dec1 ra2 dec2 = .ok (idx, d2, d3) ∧ idx.length = ra1.length ∧ d2.length = ra1.length ∧
      d3.length = ra1.length ∧
      ∀ k (k1 : k < ra1.length) (k2 : k < dec1.length) (k3 : k < idx.length) (k4 : k < d2.length) (k5 : k < d3.length),
        ∃ (j1 : idx[k] < ra2.length) (j2 : idx[k] < dec2.length),
          d2[k] = skyAngle ra1[k] dec1[k] ra2[idx[k]] dec2[idx[k]] ∧ d3[k] = 2 * Real.sin (d2[k] / 2) ∧
          ∀ j (i1 : j < ra2.length) (i2 : j < dec2.length), d2[k] ≤ skyAngle ra1[k] dec1[k] ra2[j] dec2[j] := by
  have hm := matchCatalogs_ok tree h1 h2 hd1 hd2 hne
  dsimp only at hm
  obtain ⟨c1, hc1⟩ : ∃ c1, c1 = List.zipWith SkyPos.mk ra1 dec1 := ⟨_, rfl⟩
  obtain ⟨c2, hc2⟩ : ∃ c2, c2 = List.zipWith SkyPos.mk ra2 dec2 := ⟨_, rfl⟩
  rw [← hc1, ← hc2] at hm
  refine ⟨_, _, _, hm, by simp [hc1, h1], by simp [hc1, h1], by simp [hc1, h1], ?_⟩
  intro k k1 k2 k3 k4 k5
  have l1 : c1.length = ra1.length := by simp [hc1, h1]
  have l2 : c2.length = ra2.length := by simp [hc2, h2]
  have hv : c2.map SkyPos.vec ≠ [] := by
    intro h
    have := congrArg List.length h
    rw [List.length_map, l2] at this
    exact hne (List.length_eq_zero_iff.1 this)
  have ek : c1[k]'(by omega) = ⟨ra1[k], dec1[k]⟩ := by simp [hc1]
  obtain ⟨hlt, hmin⟩ := law (c2.map SkyPos.vec) (c1[k]'(by omega)).vec hv
  rw [List.length_map] at hlt
  obtain ⟨t, ht⟩ : ∃ t, t = tree (c2.map SkyPos.vec) (c1[k]'(by omega)).vec := ⟨_, rfl⟩
  simp only [← ht] at hlt hmin
  have eidx : (c1.map fun p => tree (c2.map SkyPos.vec) p.vec)[k]'k3 = t := by simp [ht]
  have et : c2[t] = ⟨ra2[t]'(by omega), dec2[t]'(by omega)⟩ := by simp [hc2]
  have hg : c2.getD t ⟨0, 0⟩ = c2[t] := by simp [List.getD_eq_getElem?_getD, hlt]
  simp only [eidx]
  refine ⟨by omega, by omega, ?_, ?_, ?_⟩
  · simp only [List.getElem_zipWith, List.getElem_map, ← ht, hg, C146_separation]
    simp only [ek, et]
  · simp only [List.getElem_zipWith, List.getElem_map, ← ht, hg, C146_separation, chord_angle]
  · intro j i1 i2
    have ej : c2[j]'(by omega) = ⟨ra2[j], dec2[j]⟩ := by simp [hc2]
    have := hmin j (by rw [List.length_map]; omega)
    rw [List.getElem_map, List.getElem_map, chord_le_iff] at this
    simp only [List.getElem_zipWith, List.getElem_map, ← ht, hg, C146_separation]
    simp only [ek, ej] at this ⊢
    exact this

/-- **C146, errors.** An empty second catalogue and declinations out of range are ValueErrors. -/
theorem C146_errors (tree : List (ℝ × ℝ × ℝ) → ℝ × ℝ × ℝ → Nat) (ra1 dec1 ra2 dec2 : List ℝ)
    (h : ra2 = [] ∨ dec2 = [] ∨ ra1.length ≠ dec1.length ∨ ra2.length ≠ dec2.length ∨ (∃ d ∈ dec1, 90 < |d|) ∨ ∃ d ∈ dec2, 90 < |d|) :
    matchCatalogs tree ra1 dec1 ra2 dec2 = .error .valueError := by
  have herr : ∀ ra dec, (∃ c, skyCoords ra dec = .ok c ∧ ra.length = dec.length ∧ c = List.zipWith SkyPos.mk ra dec ∧ ¬ ∃ d ∈ dec, 90 < |d|) ∨
      skyCoords ra dec = .error .valueError := by
    intro ra dec
    unfold skyCoords
    by_cases a : ra.length ≠ dec.length
    · right; rw [if_pos a]
    · rw [if_neg a]
      by_cases b : ∃ d ∈ dec, d < -90 ∨ 90 < d
      · right; rw [if_pos b]
      · left
        rw [if_neg b]
        refine ⟨_, rfl, not_not.1 a, rfl, ?_⟩
        rintro ⟨d, hd, hd'⟩
        refine b ⟨d, hd, ?_⟩
        rcases lt_abs.1 hd' with h | h
        · right; exact h
        · left; linarith
  unfold matchCatalogs
  rcases herr ra1 dec1 with ⟨c1, a1, a2, a3, a4⟩ | a
  · rcases herr ra2 dec2 with ⟨c2, b1, b2, b3, b4⟩ | b
    · rw [a1, b1]
      show (if c2.isEmpty = true then _ else _) = _
      rw [if_pos]
      rw [b3]
      rcases h with h | h | h | h | h | h
      · simp [h]
      · simp [h]
      · exact absurd a2 h
      · exact absurd b2 h
      · exact absurd h a4
      · exact absurd h b4
    · rw [a1, b]; rfl
  · rw [a]; rfl

/-- The separation depends on the unit vectors only. -/
noncomputable def vecAngle (u v : ℝ × ℝ × ℝ) : ℝ :=
  InnerProductGeometry.angle (!₂[u.1, u.2.1, u.2.2] : EuclideanSpace ℝ (Fin 3)) !₂[v.1, v.2.1, v.2.2]

theorem separation_vec (p q : SkyPos) : p.separation q = vecAngle p.vec q.vec := by
  have e : ∀ x, x * Real.pi / 180 = radians x := fun x => by unfold radians; ring
  rw [C146_separation]
  simp only [skyAngle, direction, vecAngle, SkyPos.vec, e]

theorem zipWith_map_both {α β γ δ : Type} (f : α → β) (g : β → β → γ) (l1 l2 : List α) :
    List.zipWith (fun p q => g (f p) (f q)) l1 l2 = List.zipWith g (l1.map f) (l2.map f) := by
  rw [List.zipWith_map]

/-- Everything that is returned is determined by the unit vectors. -/
theorem match_vec (tree : List (ℝ × ℝ × ℝ) → ℝ × ℝ × ℝ → Nat) (c1 c2 : List SkyPos) :
    (let idx := c1.map fun p => tree (c2.map SkyPos.vec) p.vec
     let found := idx.map fun k => c2.getD k ⟨0, 0⟩
     (idx, List.zipWith (fun p q => p.separation q) c1 found, List.zipWith (fun p q => chord p.vec q.vec) c1 found)) =
    (let idx := (c1.map SkyPos.vec).map (tree (c2.map SkyPos.vec))
     let found := idx.map fun k => (c2.map SkyPos.vec).getD k (SkyPos.vec ⟨0, 0⟩)
     (idx, List.zipWith vecAngle (c1.map SkyPos.vec) found, List.zipWith chord (c1.map SkyPos.vec) found)) := by
  have e1 : (c1.map SkyPos.vec).map (tree (c2.map SkyPos.vec)) = c1.map fun p => tree (c2.map SkyPos.vec) p.vec := by
    rw [List.map_map]; rfl
  have e2 : ∀ idx : List Nat, (idx.map fun k => (c2.map SkyPos.vec).getD k (SkyPos.vec ⟨0, 0⟩)) =
      (idx.map fun k => c2.getD k ⟨0, 0⟩).map SkyPos.vec := by
    intro idx
    rw [List.map_map]
    apply List.map_congr_left
    intro k _
    simp only [List.getD_eq_getElem?_getD, List.getElem?_map, Function.comp_apply]
    cases c2[k]? <;> rfl
  dsimp only
  rw [e1, e2, List.zipWith_map, List.zipWith_map]
  simp only [separation_vec]

theorem vec_turn (r d : ℝ) (m : Int) : SkyPos.vec ⟨r + 360 * m, d⟩ = SkyPos.vec ⟨r, d⟩ := by
  have e : radians (r + 360 * m) = radians r + m * (2 * Real.pi) := by unfold radians; ring
  simp only [SkyPos.vec, e, Real.cos_add_int_mul_two_pi, Real.sin_add_int_mul_two_pi]

theorem vecs_turn (ra dec : List ℝ) (m : List Int) (l : m.length = ra.length) :
    (List.zipWith SkyPos.mk (List.zipWith (fun (r : ℝ) (m : Int) => r + 360 * m) ra m) dec).map SkyPos.vec =
      (List.zipWith SkyPos.mk ra dec).map SkyPos.vec := by
  apply List.ext_getElem
  · simp [l]
  · intro i h1 h2
    simp only [List.getElem_map, List.getElem_zipWith, vec_turn]

/-- **C146, whole turns.** Right ascensions that differ by whole turns are the same position: the result does not change. -/
theorem C146_turns (tree : List (ℝ × ℝ × ℝ) → ℝ × ℝ × ℝ → Nat) (ra1 dec1 ra2 dec2 : List ℝ) (m1 m2 : List Int)
    (l1 : m1.length = ra1.length) (l2 : m2.length = ra2.length) :
    matchCatalogs tree (List.zipWith (fun (r : ℝ) (m : Int) => r + 360 * m) ra1 m1) dec1 (List.zipWith (fun (r : ℝ) (m : Int) => r + 360 * m) ra2 m2) dec2 =
      matchCatalogs tree ra1 dec1 ra2 dec2 := by
  have hc : ∀ ra dec m, m.length = ra.length → (skyCoords ra dec = .error .valueError ∧
      skyCoords (List.zipWith (fun (r : ℝ) (m : Int) => r + 360 * m) ra m) dec = .error .valueError) ∨
      (skyCoords ra dec = .ok (List.zipWith SkyPos.mk ra dec) ∧ skyCoords (List.zipWith (fun (r : ℝ) (m : Int) => r + 360 * m) ra m) dec =
        .ok (List.zipWith SkyPos.mk (List.zipWith (fun (r : ℝ) (m : Int) => r + 360 * m) ra m) dec)) := by
    intro ra dec m l
    have e : (List.zipWith (fun (r : ℝ) (m : Int) => r + 360 * m) ra m).length = ra.length := by simp [l]
    unfold skyCoords
    rw [e]
    by_cases a : ra.length ≠ dec.length
    · left; simp [if_pos a]
    · rw [if_neg a, if_neg a]
      by_cases b : ∃ d ∈ dec, d < -90 ∨ 90 < d
      · left; rw [if_pos b, if_pos b]; exact ⟨rfl, rfl⟩
      · right; rw [if_neg b, if_neg b]; exact ⟨rfl, rfl⟩
  unfold matchCatalogs
  rcases hc ra1 dec1 m1 l1 with ⟨a, a'⟩ | ⟨a, a'⟩
  · rw [a, a']; rfl
  · rcases hc ra2 dec2 m2 l2 with ⟨b, b'⟩ | ⟨b, b'⟩
    · rw [a, a', b, b']; rfl
    · rw [a, a', b, b']
      have v1 := vecs_turn ra1 dec1 m1 l1
      have v2 := vecs_turn ra2 dec2 m2 l2
      generalize List.zipWith SkyPos.mk (List.zipWith (fun (r : ℝ) (m : Int) => r + 360 * m) ra1 m1) dec1 = c1' at *
      generalize List.zipWith SkyPos.mk (List.zipWith (fun (r : ℝ) (m : Int) => r + 360 * m) ra2 m2) dec2 = c2' at *
      generalize List.zipWith SkyPos.mk ra1 dec1 = c1 at *
      generalize List.zipWith SkyPos.mk ra2 dec2 = c2 at *
      have he : c2'.isEmpty = c2.isEmpty := by
        have := congrArg List.length v2
        rw [List.length_map, List.length_map] at this
        cases c2' <;> cases c2 <;> simp_all
      have m' := match_vec tree c1' c2'
      have m := match_vec tree c1 c2
      show (if c2'.isEmpty = true then _ else _) = (if c2.isEmpty = true then _ else _)
      rw [he]
      split
      · rfl
      · refine congrArg Except.ok (m'.trans (Eq.trans ?_ m.symm))
        dsimp only
        rw [v1, v2]

/-- **C146, a catalogue with itself.** Every separation is zero, and when no two sources have the same direction every source is matched with
itself. -/
theorem C146_self {tree : List (ℝ × ℝ × ℝ) → ℝ × ℝ × ℝ → Nat} (law : NearestTree tree) {ra dec : List ℝ} (h1 : ra.length = dec.length)
    (hd : ∀ d ∈ dec, -90 ≤ d ∧ d ≤ 90) (hne : ra ≠ []) :
    ∃ idx d2 d3, matchCatalogs tree ra dec ra dec = .ok (idx, d2, d3) ∧ (∀ d ∈ d2, d = 0) ∧ (∀ d ∈ d3, d = 0) ∧
      ((∀ i j (i1 : i < ra.length) (i2 : i < dec.length) (j1 : j < ra.length) (j2 : j < dec.length),
        direction ra[i] dec[i] = direction ra[j] dec[j] → i = j) → idx = List.range ra.length) := by
  obtain ⟨idx, d2, d3, e, n1, n2, n3, hk⟩ := C146_nearest law h1 h1 hd hd hne
  have hz : ∀ a b, skyAngle a b a b = 0 := by
    intro a b
    unfold skyAngle
    apply InnerProductGeometry.angle_self
    intro h
    have := direction_norm a b
    rw [h, norm_zero] at this
    exact zero_ne_one this
  have hd2 : ∀ k (h : k < d2.length), d2[k] = 0 := by
    intro k h
    obtain ⟨j1, j2, a, b, c⟩ := hk k (by omega) (by omega) (by omega) h (by omega)
    have := c k (by omega) (by omega)
    rw [hz] at this
    have h0 := (skyAngle_mem (ra[k]'(by omega)) (dec[k]'(by omega)) (ra[idx[k]'(by omega)]'j1) (dec[idx[k]'(by omega)]'j2)).1
    rw [← a] at h0
    exact le_antisymm this h0
  refine ⟨idx, d2, d3, e, ?_, ?_, ?_⟩
  · intro d h
    obtain ⟨k, hk', rfl⟩ := List.getElem_of_mem h
    exact hd2 k hk'
  · intro d h
    obtain ⟨k, hk', rfl⟩ := List.getElem_of_mem h
    obtain ⟨j1, j2, a, b, c⟩ := hk k (by omega) (by omega) (by omega) (by omega) hk'
    rw [b, hd2 k (by omega)]
    simp
  · intro hinj
    apply List.ext_getElem
    · simp [n1]
    · intro k k1 k2
      rw [List.getElem_range]
      obtain ⟨j1, j2, a, b, c⟩ := hk k (by omega) (by omega) k1 (by omega) (by omega)
      rw [hd2 k (by omega)] at a
      refine (hinj k idx[k] (by omega) (by omega) j1 j2 ?_).symm
      obtain ⟨-, r, hr, hr'⟩ := InnerProductGeometry.angle_eq_zero_iff.1 a.symm
      have hn := congrArg norm hr'
      rw [norm_smul, direction_norm, direction_norm, mul_one, Real.norm_of_nonneg hr.le] at hn
      rw [hr', ← hn, one_smul]

/-- **C146, no match is ever refused.** With a single source in the second catalogue every source of the first is matched with it, however far away
it is (up to 180 degrees). -/
theorem C146_forced {tree : List (ℝ × ℝ × ℝ) → ℝ × ℝ × ℝ → Nat} (law : NearestTree tree) {ra1 dec1 : List ℝ} (h1 : ra1.length = dec1.length)
    (hd1 : ∀ d ∈ dec1, -90 ≤ d ∧ d ≤ 90) (r d : ℝ) (hd : -90 ≤ d ∧ d ≤ 90) :
    ∃ d2 d3, matchCatalogs tree ra1 dec1 [r] [d] = .ok (List.replicate ra1.length 0, d2, d3) := by
  obtain ⟨idx, d2, d3, e, n1, n2, n3, hk⟩ := C146_nearest law h1 (ra2 := [r]) (dec2 := [d]) rfl hd1 (by simpa using hd) (by simp)
  refine ⟨d2, d3, ?_⟩
  rw [e]
  congr 2
  apply List.ext_getElem
  · simp [n1]
  · intro k k1 k2
    obtain ⟨j1, -, -⟩ := hk k (by omega) (by omega) k1 (by omega) (by omega)
    rw [List.getElem_replicate]
    simpa using j1

/-- The direction antipodal to a source is 180 degrees away: the only source of a catalogue is matched nevertheless. -/
example : skyAngle 0 0 180 0 = Real.pi := by
  have h := cos_skyAngle 0 0 180 0
  have e1 : radians 0 = 0 := by unfold radians; ring
  have e2 : radians 180 = Real.pi := by unfold radians; ring
  rw [e1, e2] at h
  simp only [Real.sin_zero, Real.cos_zero, sub_zero, Real.cos_pi] at h
  obtain ⟨h1, h2⟩ := skyAngle_mem 0 0 180 0
  have := Real.arccos_cos h1 h2
  rw [h] at this
  rw [← this]
  norm_num

/-- A tree that works exists: the first index with the smallest distance. -/
example : ∃ tree, NearestTree tree := by
  have : ∀ (vs : List (ℝ × ℝ × ℝ)) v, ∃ t, vs ≠ [] → ∃ h : t < vs.length, ∀ j (h' : j < vs.length), chord v vs[t] ≤ chord v vs[j] := by
    intro vs v
    by_cases hv : vs = []
    · exact ⟨0, fun h => absurd hv h⟩
    · have hp : 0 < vs.length := List.length_pos_iff.2 hv
      obtain ⟨t, -, ht⟩ := Finset.exists_min_image (Finset.univ : Finset (Fin vs.length)) (fun i => chord v vs[i]) ⟨⟨0, hp⟩, Finset.mem_univ _⟩
      exact ⟨t, fun _ => ⟨t.2, fun j hj => ht ⟨j, hj⟩ (Finset.mem_univ _)⟩⟩
  choose tree h using this
  exact ⟨tree, fun vs v hv => h vs v hv⟩

end Verif.Props

import Verif.Lemmas.PairwiseSum
import Verif.Lemmas.Photometry
import Verif.Props.RoundingProfile
import Verif.Props.ApertureArea

/-!
# C147: aperture photometry in floating point arithmetic
-/

set_option linter.unusedSectionVars false
set_option linter.unusedVariables false

namespace Verif.Props

open F Spec Lemmas

section
variable {K : Type} [Field K] [LinearOrder K] [IsStrictOrderedRing K] [HasSqrt K] [FloorRing K] {ov : Overlap K} {fl : K → K} {u : K}

/-- `np.round(x, 6)` of a finite number in rounded arithmetic. -/
def round6R (fl : K → K) (x : K) : K := fl ((rint (fl (x * 10 ^ 6)) : K) / 10 ^ 6)

theorem rint_near (y : K) : |(rint y : K) - y| ≤ 1 / 2 := by
  have h1 := Int.floor_le y
  have h2 := Int.lt_floor_add_one y
  unfold rint
  rw [abs_le]
  split_ifs <;> push_cast <;> constructor <;> linarith

theorem round6R_mono (hfl : Monotone fl) {x y : K} (h : x ≤ y) : round6R fl x ≤ round6R fl y := by
  unfold round6R
  apply hfl
  apply div_le_div_of_nonneg_right _ (by positivity)
  have : x * 10 ^ 6 ≤ y * 10 ^ 6 := mul_le_mul_of_nonneg_right h (by positivity)
  exact_mod_cast rint_mono (hfl this)

theorem round6R_near (hu : RelErr u fl) (hu0 : 0 ≤ u) (x : K) :
    |round6R fl x - x| ≤ (1 + u) / 2 / 10 ^ 6 + ((1 + u) ^ 2 - 1) * |x| := by
  unfold round6R
  set y := fl (x * 10 ^ 6) with hy
  set z : K := (rint y : K) / 10 ^ 6 with hz
  have h1 : |y / 10 ^ 6 - x| ≤ u * |x| := by
    have := hu (x * 10 ^ 6)
    rw [← hy, abs_mul, abs_of_pos (by positivity : (0 : K) < 10 ^ 6)] at this
    have e : y / 10 ^ 6 - x = (y - x * 10 ^ 6) / 10 ^ 6 := by field_simp
    rw [e, abs_div, abs_of_pos (by positivity : (0 : K) < 10 ^ 6), div_le_iff₀ (by positivity)]
    linarith
  have h2 : |z - y / 10 ^ 6| ≤ 1 / 2 / 10 ^ 6 := by
    have e : z - y / 10 ^ 6 = ((rint y : K) - y) / 10 ^ 6 := by rw [hz]; ring
    rw [e, abs_div, abs_of_pos (by positivity : (0 : K) < 10 ^ 6)]
    exact div_le_div_of_nonneg_right (rint_near y) (by positivity)
  have h3 : |z - x| ≤ 1 / 2 / 10 ^ 6 + u * |x| := by
    rw [show z - x = (z - y / 10 ^ 6) + (y / 10 ^ 6 - x) by ring]
    exact (abs_add_le _ _).trans (add_le_add h2 h1)
  have h4 : |z| ≤ 1 / 2 / 10 ^ 6 + u * |x| + |x| := by
    rw [show z = (z - x) + x by ring]
    exact (abs_add_le _ _).trans (add_le_add h3 le_rfl)
  have h5 := hu z
  rw [show fl z - x = (fl z - z) + (z - x) by ring]
  refine (abs_add_le _ _).trans ?_
  have h6 := mul_le_mul_of_nonneg_left h4 hu0
  have e : (1 + u) / 2 / 10 ^ 6 + ((1 + u) ^ 2 - 1) * |x| = u * (1 / 2 / 10 ^ 6 + u * |x| + |x|) + (1 / 2 / 10 ^ 6 + u * |x|) := by ring
  linarith

/-- The rounded sum over an aperture. -/
def apertureSumR (fl : K → K) (ov : Overlap K) (e : Ellipse K) (h w : Nat) (mask : Option (Img Bool)) (f : Nat → Nat → K) : K :=
  pairwiseSum (fun a b => fl (a + b)) 0 ((goodPixels ov e h w (inv mask)).map fun p => fl (f p.1 p.2 * ov.weight e p.1 p.2))

theorem goodPixels_sum (h0 : ∀ e i j, 0 ≤ ov.weight e i j) (e : Ellipse K) (h w : Nat) (mask : Option (Img Bool)) (f : Nat → Nat → K) :
    ((goodPixels ov e h w (inv mask)).map fun p => f p.1 p.2 * ov.weight e p.1 p.2).sum = weightedSum (ov.weight e) h w (Used mask) f := by
  unfold goodPixels
  rw [sum_filter_list, sum_pixels]
  unfold weightedSum
  apply Finset.sum_congr rfl; intro i _
  apply Finset.sum_congr rfl; intro j _
  by_cases hw : 0 < ov.weight e i j
  · cases mask
    · simp [Used, inv, Img.map, hw]
    · rename_i m
      cases hm : m.px i j <;> simp [Used, inv, Img.map, hw, hm]
  · have : ov.weight e i j = 0 := le_antisymm (not_lt.1 hw) (h0 e i j)
    simp [this]

theorem goodPixels_length (e : Ellipse K) (h w : Nat) (bad : Option (Img Bool)) : (goodPixels ov e h w bad).length ≤ h * w := by
  unfold goodPixels
  refine (List.length_filter_le _ _).trans ?_
  rw [pixels]
  simp

theorem products_err (hu : RelErr u fl) {α : Type} (g : List α) (c v : α → K) (hv : ∀ p, 0 ≤ v p) :
    |(g.map fun p => fl (c p * v p)).sum - (g.map fun p => c p * v p).sum| ≤ u * (g.map fun p => |c p| * v p).sum := by
  induction g with
  | nil => simp
  | cons p g ih =>
    simp only [List.map_cons, List.sum_cons]
    have a1 := hu (c p * v p)
    rw [abs_mul, abs_of_nonneg (hv p)] at a1
    rw [show ∀ a b c d : K, a + b - (c + d) = (a - c) + (b - d) from fun a b c d => by ring]
    refine (abs_add_le _ _).trans ?_
    linarith

theorem products_abs (hu : RelErr u fl) {α : Type} (g : List α) (c v : α → K) (hv : ∀ p, 0 ≤ v p) :
    ((g.map fun p => fl (c p * v p)).map fun x => |x|).sum ≤ (1 + u) * (g.map fun p => |c p| * v p).sum := by
  induction g with
  | nil => simp
  | cons p g ih =>
    simp only [List.map_cons, List.sum_cons]
    have a1 := hu (c p * v p)
    have a2 : |fl (c p * v p)| ≤ (1 + u) * (|c p| * v p) := by
      rw [show fl (c p * v p) = (fl (c p * v p) - c p * v p) + c p * v p by ring]
      refine (abs_add_le _ _).trans ?_
      rw [abs_mul (c p) (v p), abs_of_nonneg (hv p)] at *
      linarith
    linarith

/-- One rounding per product, one per level of the summation. -/
theorem apertureSumR_near (hu : RelErr u fl) (hu0 : 0 ≤ u) (h0 : ∀ e i j, 0 ≤ ov.weight e i j) (e : Ellipse K) (h w : Nat)
    (mask : Option (Img Bool)) (f : Nat → Nat → K) :
    |apertureSumR fl ov e h w mask f - weightedSum (ov.weight e) h w (Used mask) f| ≤
      ((1 + u) ^ (pwDepth (h * w) + 1) - 1) * weightedSum (ov.weight e) h w (Used mask) fun i j => |f i j| := by
  rw [← goodPixels_sum h0, ← goodPixels_sum h0]
  unfold apertureSumR
  set g := goodPixels ov e h w (inv mask) with hg
  have hlen : g.length ≤ h * w := goodPixels_length e h w _
  have key := pairwiseSum_err hu hu0 (g.map fun p => fl (f p.1 p.2 * ov.weight e p.1 p.2))
  set S := pairwiseSum (fun a b => fl (a + b)) 0 (g.map fun p => fl (f p.1 p.2 * ov.weight e p.1 p.2)) with hS
  clear_value S
  set T := (g.map fun p => f p.1 p.2 * ov.weight e p.1 p.2).sum with hT
  set A := (g.map fun p => |f p.1 p.2| * ov.weight e p.1 p.2).sum with hA
  have hA0 : 0 ≤ A := by
    apply List.sum_nonneg
    intro x hx
    obtain ⟨p, _, rfl⟩ := List.mem_map.1 hx
    exact mul_nonneg (abs_nonneg _) (h0 _ _ _)
  have h1 : |(g.map fun p => fl (f p.1 p.2 * ov.weight e p.1 p.2)).sum - T| ≤ u * A :=
    products_err hu g (fun p => f p.1 p.2) (fun p => ov.weight e p.1 p.2) fun p => h0 _ _ _
  have h2 : ((g.map fun p => fl (f p.1 p.2 * ov.weight e p.1 p.2)).map fun x => |x|).sum ≤ (1 + u) * A :=
    products_abs hu g (fun p => f p.1 p.2) (fun p => ov.weight e p.1 p.2) fun p => h0 _ _ _
  have hp : (1 + u) ^ pwDepth (g.map fun p => fl (f p.1 p.2 * ov.weight e p.1 p.2)).length ≤ (1 + u) ^ pwDepth (h * w) := by
    apply pow_le_pow_right₀ (by linarith)
    exact pwDepth_mono (by simpa using hlen)
  have hp1 : 1 ≤ (1 + u) ^ pwDepth (h * w) := one_le_pow₀ (by linarith)
  have h3 : |S - (g.map fun p => fl (f p.1 p.2 * ov.weight e p.1 p.2)).sum| ≤ ((1 + u) ^ pwDepth (h * w) - 1) * ((1 + u) * A) := by
    refine key.trans ?_
    apply mul_le_mul (by linarith) h2 _ (by linarith)
    apply List.sum_nonneg
    intro x hx
    obtain ⟨p, _, rfl⟩ := List.mem_map.1 hx
    exact abs_nonneg _
  rw [show S - T = (S - (g.map fun p => fl (f p.1 p.2 * ov.weight e p.1 p.2)).sum) +
    ((g.map fun p => fl (f p.1 p.2 * ov.weight e p.1 p.2)).sum - T) by ring]
  refine (abs_add_le _ _).trans ?_
  have e1 : ((1 + u) ^ (pwDepth (h * w) + 1) - 1) * A = ((1 + u) ^ pwDepth (h * w) - 1) * ((1 + u) * A) + u * A := by ring
  linarith

theorem weightedSum_abs (wt : Nat → Nat → K) (hw : ∀ i j, 0 ≤ wt i j) (h w : Nat) (use : Nat → Nat → Bool) (f : Nat → Nat → K) :
    |weightedSum wt h w use f| ≤ weightedSum wt h w use fun i j => |f i j| := by
  unfold weightedSum
  refine (Finset.abs_sum_le_sum_abs _ _).trans (Finset.sum_le_sum fun i _ => (Finset.abs_sum_le_sum_abs _ _).trans (Finset.sum_le_sum fun j _ => ?_))
  split
  · rw [abs_mul, abs_of_nonneg (hw i j)]
  · simp

/-- The sum and the final `np.round`. -/
theorem round6R_apertureSumR (hu : RelErr u fl) (hu0 : 0 ≤ u) (h0 : ∀ e i j, 0 ≤ ov.weight e i j) (e : Ellipse K) (h w : Nat)
    (mask : Option (Img Bool)) (f : Nat → Nat → K) :
    |round6R fl (apertureSumR fl ov e h w mask f) - weightedSum (ov.weight e) h w (Used mask) f| ≤
      (1 + u) / 2 / 10 ^ 6 + ((1 + u) ^ (pwDepth (h * w) + 3) - 1) * weightedSum (ov.weight e) h w (Used mask) fun i j => |f i j| := by
  have h1 := apertureSumR_near hu hu0 h0 e h w mask f
  have h2 := round6R_near hu hu0 (apertureSumR fl ov e h w mask f)
  have h3 := weightedSum_abs (ov.weight e) (h0 e) h w (Used mask) f
  set S := apertureSumR fl ov e h w mask f
  set T := weightedSum (ov.weight e) h w (Used mask) f
  set A := weightedSum (ov.weight e) h w (Used mask) fun i j => |f i j|
  set P := (1 + u) ^ (pwDepth (h * w) + 1) with hP
  have h4 : |S| ≤ P * A := by
    rw [show S = (S - T) + T by ring]
    refine (abs_add_le _ _).trans ?_
    linarith
  have h5 : 0 ≤ (1 + u) ^ 2 - 1 := by nlinarith
  have h6 := mul_le_mul_of_nonneg_left h4 h5
  rw [show round6R fl S - T = (round6R fl S - S) + (S - T) by ring]
  refine (abs_add_le _ _).trans ?_
  have e1 : ((1 + u) ^ (pwDepth (h * w) + 3) - 1) * A = ((1 + u) ^ 2 - 1) * (P * A) + (P - 1) * A := by
    rw [show pwDepth (h * w) + 3 = pwDepth (h * w) + 1 + 2 by ring, pow_add, ← hP]; ring
  linarith

/-- The aperture of radius `r` in rounded arithmetic. -/
def apR (fl : K → K) (cx cy q t r : K) : Ellipse K := ⟨cx, cy, r, fl (r / q), t⟩

theorem photometryAtR_fin {h w : Nat} {f : Nat → Nat → K} {cx cy q t r : K} {error : Option (Img (F K))} {mask : Option (Img Bool)}
    {v a er : F K} (hok : photometryAtR fl ov ⟨h, w, fun i j => fin (f i j)⟩ cx cy error (inv mask) q t r = .ok (v, a, er)) :
    0 < r ∧ 0 < fl (r / q) ∧ v = fin (round6R fl (apertureSumR fl ov (apR fl cx cy q t r) h w mask f)) ∧
      a = fin (round6R fl (apertureSumR fl ov (apR fl cx cy q t r) h w mask fun _ _ => 1)) := by
  unfold photometryAtR radialEllipticalApertureR ellipticalAperture at hok
  by_cases hq : q = 0
  · rw [if_pos hq] at hok; simp [bind_error'] at hok
  rw [if_neg hq] at hok
  by_cases hr : r ≤ 0 ∨ fl (r / q) ≤ 0
  · rw [if_pos hr] at hok; simp [bind_error'] at hok
  rw [if_neg hr] at hok
  simp only [not_or, not_le] at hr
  refine ⟨hr.1, hr.2, ?_⟩
  simp only [Except.bind_ok] at hok
  change (doPhotometryR fl ov (apR fl cx cy q t r) _ error (inv mask) >>= _) = _ at hok
  set e := apR fl cx cy q t r with he
  rw [bind_eq_ok] at hok
  obtain ⟨⟨s, es⟩, h1, hok⟩ := hok
  rw [bind_eq_ok] at hok
  obtain ⟨⟨s', es'⟩, h2, hok⟩ := hok
  have hfin : ∀ c : Nat → Nat → K, npSumR fl ((goodPixels ov e h w (inv mask)).map fun p => (fin (c p.1 p.2) * fin (ov.weight e p.1 p.2)).rnd fl) =
      fin (apertureSumR fl ov e h w mask c) := by
    intro c
    have : ((goodPixels ov e h w (inv mask)).map fun p => (fin (c p.1 p.2) * fin (ov.weight e p.1 p.2)).rnd fl) =
        ((goodPixels ov e h w (inv mask)).map fun p => fl (c p.1 p.2 * ov.weight e p.1 p.2)).map fin := by
      rw [List.map_map]; rfl
    rw [this, npSumR_fin]; rfl
  change doPhotometryR fl ov e _ none (inv mask) = _ at h2
  unfold doPhotometryR at h1 h2
  by_cases c1 : shapeOk (⟨h, w, fun i j => fin (f i j)⟩ : Img (F K)) error = true
  swap
  · simp [c1] at h1
  by_cases c2 : shapeOk (⟨h, w, fun i j => fin (f i j)⟩ : Img (F K)) (inv mask) = true
  swap
  · simp [c1, c2] at h1
  by_cases c3 : ov.hits e h w = true
  swap
  · simp only [c1, c2, c3, Bool.not_true, Bool.false_eq_true, if_false, Bool.not_false, if_true, Except.ok.injEq, Prod.mk.injEq] at h1
    obtain ⟨rfl, _⟩ := h1
    simp [npRound6R, F.isNaN] at hok
  have c2' : shapeOk ((⟨h, w, fun i j => fin (f i j)⟩ : Img (F K)).map fun _ => (fin 1 : F K)) (inv mask) = true := c2
  have c3' : ov.hits e ((⟨h, w, fun i j => fin (f i j)⟩ : Img (F K)).map fun _ => (fin 1 : F K)).h
    ((⟨h, w, fun i j => fin (f i j)⟩ : Img (F K)).map fun _ => (fin 1 : F K)).w = true := c3
  have c1' : shapeOk ((⟨h, w, fun i j => fin (f i j)⟩ : Img (F K)).map fun _ => (fin 1 : F K)) (none : Option (Img (F K))) = true := rfl
  simp only [c1, c2, c3, Bool.not_true, Bool.false_eq_true, if_false] at h1
  simp only [c1', c2', c3', Bool.not_true, Bool.false_eq_true, if_false, Except.ok.injEq, Prod.mk.injEq] at h2
  have e1 : s = fin (apertureSumR fl ov e h w mask f) := by
    rw [hfin] at h1
    cases error <;> simp only [Except.ok.injEq, Prod.mk.injEq] at h1 <;> exact h1.1.symm
  have e2 : s' = fin (apertureSumR fl ov e h w mask fun _ _ => 1) := by
    rw [← h2.1]
    exact hfin fun _ _ => 1
  subst e1 e2
  simp only [npRound6R, F.isNaN, Bool.false_eq_true, if_false, Except.ok.injEq, Prod.mk.injEq] at hok
  exact ⟨hok.1.symm, hok.2.1.symm⟩

/-- When a finite image is measured without error. -/
theorem photometryAtR_ok {h w : Nat} {f : Nat → Nat → K} {cx cy q t r : K} {error : Option (Img (F K))} {mask : Option (Img Bool)}
    (hq : q ≠ 0) (hr : 0 < r) (hb : 0 < fl (r / q)) (he : shapeOk (⟨h, w, fun i j => fin (f i j)⟩ : Img (F K)) error = true)
    (hm : shapeOk (⟨h, w, fun i j => fin (f i j)⟩ : Img (F K)) mask = true) (hh : ov.hits (apR fl cx cy q t r) h w = true) :
    ∃ p, photometryAtR fl ov ⟨h, w, fun i j => fin (f i j)⟩ cx cy error (inv mask) q t r = .ok p := by
  have hm' : shapeOk (⟨h, w, fun i j => fin (f i j)⟩ : Img (F K)) (inv mask) = true := by rw [← hm]; cases mask <;> rfl
  have hm'' : shapeOk ((⟨h, w, fun i j => fin (f i j)⟩ : Img (F K)).map fun _ => (fin 1 : F K)) (inv mask) = true := hm'
  have hfin : npSumR fl ((goodPixels ov (apR fl cx cy q t r) h w (inv mask)).map fun p =>
      (fin (f p.1 p.2) * fin (ov.weight (apR fl cx cy q t r) p.1 p.2)).rnd fl) = fin (apertureSumR fl ov (apR fl cx cy q t r) h w mask f) := by
    have : ((goodPixels ov (apR fl cx cy q t r) h w (inv mask)).map fun p => (fin (f p.1 p.2) * fin (ov.weight (apR fl cx cy q t r) p.1 p.2)).rnd fl) =
        ((goodPixels ov (apR fl cx cy q t r) h w (inv mask)).map fun p => fl (f p.1 p.2 * ov.weight (apR fl cx cy q t r) p.1 p.2)).map fin := by
      rw [List.map_map]; rfl
    rw [this, npSumR_fin]; rfl
  have h1 : ∃ es, doPhotometryR fl ov (apR fl cx cy q t r) ⟨h, w, fun i j => fin (f i j)⟩ error (inv mask) =
      .ok (fin (apertureSumR fl ov (apR fl cx cy q t r) h w mask f), es) := by
    unfold doPhotometryR
    simp only [he, hm', hh, Bool.not_true, Bool.false_eq_true, if_false, hfin]
    cases error
    · exact ⟨_, rfl⟩
    · exact ⟨_, rfl⟩
  have h2 : ∃ p, doPhotometryR fl ov (apR fl cx cy q t r) ((⟨h, w, fun i j => fin (f i j)⟩ : Img (F K)).map fun _ => fin 1) none (inv mask) =
      .ok p := by
    unfold doPhotometryR
    rw [hm'']
    have : ov.hits (apR fl cx cy q t r) ((⟨h, w, fun i j => fin (f i j)⟩ : Img (F K)).map fun _ => (fin 1 : F K)).h
      ((⟨h, w, fun i j => fin (f i j)⟩ : Img (F K)).map fun _ => (fin 1 : F K)).w = true := hh
    rw [this]
    exact ⟨_, rfl⟩
  obtain ⟨es, h1⟩ := h1
  obtain ⟨p, h2⟩ := h2
  unfold photometryAtR radialEllipticalApertureR ellipticalAperture
  rw [if_neg hq, if_neg (by simp [hr, hb])]
  simp only [Except.bind_ok]
  change ∃ p, (doPhotometryR fl ov (apR fl cx cy q t r) _ error (inv mask) >>= _) = _
  rw [h1]
  simp only [Except.bind_ok]
  change ∃ p, (doPhotometryR fl ov (apR fl cx cy q t r) _ none (inv mask) >>= _) = _
  rw [h2]
  simp only [Except.bind_ok, npRound6R, F.isNaN, Bool.false_eq_true, if_false]
  exact ⟨_, rfl⟩

theorem radialPhotometryR_ok {image : Img (F K)} {cx cy q t : K} {rs : List K} {error : Option (Img (F K))}
    {mask : Option (Img Bool)} {F' A' E' : List (F K)} :
    radialPhotometryR fl ov image cx cy rs error mask q t = .ok (F', A', E') ↔
      ∃ l : List (F K × F K × F K), List.Forall₂ (fun r p => photometryAtR fl ov image cx cy error (inv mask) q t r = .ok p) rs l ∧
        F' = l.map (·.1) ∧ A' = l.map (·.2.1) ∧ E' = l.map (·.2.2) := by
  unfold radialPhotometryR
  rw [bind_eq_ok]
  constructor
  · rintro ⟨l, hl, h⟩
    cases h
    exact ⟨l, mapM_eq_ok.1 hl, rfl, rfl, rfl⟩
  · rintro ⟨l, hl, rfl, rfl, rfl⟩
    exact ⟨l, mapM_eq_ok.2 hl, rfl⟩

/-- What `radial_photometry` returns in rounded arithmetic. -/
theorem radialPhotometryR_lists {h w : Nat} {f : Nat → Nat → K} {cx cy q t : K} {rs : List K} {error : Option (Img (F K))}
    {mask : Option (Img Bool)} {F' A' E' : List (F K)}
    (hok : radialPhotometryR fl ov ⟨h, w, fun i j => fin (f i j)⟩ cx cy rs error mask q t = .ok (F', A', E')) :
    F' = rs.map (fun r => fin (round6R fl (apertureSumR fl ov (apR fl cx cy q t r) h w mask f))) ∧
    A' = rs.map (fun r => fin (round6R fl (apertureSumR fl ov (apR fl cx cy q t r) h w mask fun _ _ => 1))) ∧
    ∀ r ∈ rs, 0 < r ∧ 0 < fl (r / q) := by
  obtain ⟨l, hl, rfl, rfl, rfl⟩ := radialPhotometryR_ok.1 hok
  clear hok
  induction hl with
  | nil => simp
  | @cons r p rs l hp _ ih =>
    obtain ⟨v, a, er⟩ := p
    obtain ⟨g1, g2, rfl, rfl⟩ := photometryAtR_fin hp
    obtain ⟨i1, i2, i3⟩ := ih
    simp only [List.map_cons, i1, i2, List.mem_cons, forall_eq_or_imp, true_and]
    exact ⟨⟨g1, g2⟩, i3⟩

/-! ### The theorems -/

/-- **C147, accuracy.** Whatever `radial_photometry` returns for a finite image in rounded arithmetic: each flux is the weighted sum of the
pixels up to the rounding to six decimals and `28 + log₂` (number of pixels) relative errors of the sum of absolute values, and likewise the
areas. -/
theorem C147_accuracy (hu : RelErr u fl) (hu0 : 0 ≤ u) (h0 : ∀ e i j, 0 ≤ ov.weight e i j) {h w : Nat} {f : Nat → Nat → K} {cx cy q t : K}
    {rs : List K} {error : Option (Img (F K))} {mask : Option (Img Bool)} {F' A' E' : List (F K)}
    (hok : radialPhotometryR fl ov ⟨h, w, fun i j => fin (f i j)⟩ cx cy rs error mask q t = .ok (F', A', E')) :
    ∃ V A : List K, F' = V.map fin ∧ A' = A.map fin ∧ V.length = rs.length ∧ A.length = rs.length ∧
      ∀ i (h1 : i < rs.length) (h2 : i < V.length) (h3 : i < A.length),
        let wt := ov.weight ⟨cx, cy, rs[i], fl (rs[i] / q), t⟩
        |V[i] - weightedSum wt h w (Used mask) f| ≤ (1 + u) / 2 / 10 ^ 6 +
          ((1 + u) ^ (28 + Nat.log 2 (h * w - 15)) - 1) * weightedSum wt h w (Used mask) (fun i j => |f i j|) ∧
        |A[i] - weightedSum wt h w (Used mask) fun _ _ => 1| ≤ (1 + u) / 2 / 10 ^ 6 +
          ((1 + u) ^ (28 + Nat.log 2 (h * w - 15)) - 1) * weightedSum wt h w (Used mask) fun _ _ => 1 := by
  obtain ⟨e1, e2, -⟩ := radialPhotometryR_lists hok
  have hd : pwDepth (h * w) + 3 = 28 + Nat.log 2 (h * w - 15) := by unfold pwDepth; omega
  refine ⟨rs.map fun r => round6R fl (apertureSumR fl ov (apR fl cx cy q t r) h w mask f),
    rs.map fun r => round6R fl (apertureSumR fl ov (apR fl cx cy q t r) h w mask fun _ _ => 1), by rw [e1, List.map_map]; rfl,
    by rw [e2, List.map_map]; rfl, by simp, by simp, fun i h1 h2 h3 => ?_⟩
  intro wt
  rw [List.getElem_map, List.getElem_map, ← hd]
  refine ⟨round6R_apertureSumR hu hu0 h0 _ h w mask f, ?_⟩
  have := round6R_apertureSumR hu hu0 h0 (apR fl cx cy q t rs[i]) h w mask fun _ _ => 1
  simp only [abs_one] at this
  exact this

/-- **C147, nothing new fails.** For a finite image `radial_photometry` returns in rounded arithmetic whenever every aperture has positive axes
and its box meets the image. -/
theorem C147_returns {h w : Nat} {f : Nat → Nat → K} {cx cy q t : K} {rs : List K} {error : Option (Img (F K))} {mask : Option (Img Bool)}
    (hq : q ≠ 0) (he : shapeOk (⟨h, w, fun i j => fin (f i j)⟩ : Img (F K)) error = true)
    (hm : shapeOk (⟨h, w, fun i j => fin (f i j)⟩ : Img (F K)) mask = true)
    (hr : ∀ r ∈ rs, 0 < r ∧ 0 < fl (r / q) ∧ ov.hits ⟨cx, cy, r, fl (r / q), t⟩ h w = true) :
    ∃ F' A' E', radialPhotometryR fl ov ⟨h, w, fun i j => fin (f i j)⟩ cx cy rs error mask q t = .ok (F', A', E') := by
  have : ∃ l : List (F K × F K × F K),
      List.Forall₂ (fun r p => photometryAtR fl ov ⟨h, w, fun i j => fin (f i j)⟩ cx cy error (inv mask) q t r = .ok p) rs l := by
    induction rs with
    | nil => exact ⟨[], .nil⟩
    | cons r rs ih =>
      obtain ⟨l, hl⟩ := ih fun x hx => hr x (List.mem_cons_of_mem _ hx)
      obtain ⟨h1, h2, h3⟩ := hr r List.mem_cons_self
      obtain ⟨p, hp⟩ := photometryAtR_ok (f := f) (t := t) (cx := cx) (cy := cy) hq h1 h2 he hm h3
      exact ⟨p :: l, .cons hp hl⟩
  obtain ⟨l, hl⟩ := this
  exact ⟨_, _, _, radialPhotometryR_ok.2 ⟨l, hl, rfl, rfl, rfl⟩⟩

/-- **C147, acceptance.** If from each radius to the next the area grows by more than the error of the two areas, the areas returned by
`radial_photometry` in rounded arithmetic increase strictly and `calculate_petrosian` accepts them, with any fluxes. -/
theorem C147_accepted (hfl : Rounding fl) (hu : RelErr u fl) (hu0 : 0 ≤ u) (hu1 : u < 1) (h0 : ∀ e i j, 0 ≤ ov.weight e i j) {h w : Nat}
    {f : Nat → Nat → K} {cx cy q t : K} {rs : List K} {error : Option (Img (F K))} {mask : Option (Img Bool)} {F' A' E' : List (F K)}
    (hok : radialPhotometryR fl ov ⟨h, w, fun i j => fin (f i j)⟩ cx cy rs error mask q t = .ok (F', A', E')) (h3 : 3 ≤ rs.length)
    (hgap : ∀ i (hi : i + 1 < rs.length),
      let S := fun r => weightedSum (ov.weight ⟨cx, cy, r, fl (r / q), t⟩) h w (Used mask) fun _ _ => (1 : K)
      (1 + u) / 10 ^ 6 + ((1 + u) ^ (28 + Nat.log 2 (h * w - 15)) - 1) * (S rs[i] + S rs[i + 1]) < S rs[i + 1] - S rs[i]) :
    (∃ A : List K, A' = A.map fin ∧ A.length = rs.length ∧ ∀ i (hi : i + 1 < A.length), A[i] < A[i + 1]) ∧
    ∃ p, calculatePetrosianFl fl A' F' = .ok p := by
  obtain ⟨V, A, rfl, rfl, l1, l2, hk⟩ := C147_accuracy hu hu0 h0 hok
  have hlt : ∀ i (hi : i + 1 < A.length), A[i] < A[i + 1] := by
    intro i hi
    have a1 := (hk i (by omega) (by omega) (by omega)).2
    have a2 := (hk (i + 1) (by omega) (by omega) hi).2
    have g := hgap i (by omega)
    dsimp only at a1 a2 g
    rw [abs_le] at a1 a2
    have e : (1 + u) / 10 ^ 6 = (1 + u) / 2 / 10 ^ 6 + (1 + u) / 2 / 10 ^ 6 := by ring
    rw [e, mul_add] at g
    linarith [a1.2, a2.1]
  refine ⟨⟨A, rfl, l2, hlt⟩, ?_⟩
  refine (C112_acceptance hfl hu hu1 A V).1.2 ?_
  refine (C02_validation _ _ none none).2.2 ⟨by simp [l1, l2], by simp; omega, fun i hi => ?_, by simp, by simp⟩
  simp only [List.getElem_map]
  refine ⟨?_, by simp⟩
  simpa using (hlt i (by simpa using hi)).le

/-- **C147, same pixels.** Between two radii whose apertures touch the same pixels of a non-negative image, flux and area do not decrease, not
even by rounding. -/
theorem C147_same_pixels (hfl : Rounding fl) {h w : Nat} {f : Nat → Nat → K} {cx cy q t r r' : K}
    {error : Option (Img (F K))} {mask : Option (Img Bool)} {F' A' E' : List (F K)}
    (hok : radialPhotometryR fl ov ⟨h, w, fun i j => fin (f i j)⟩ cx cy [r, r'] error mask q t = .ok (F', A', E'))
    (hf : ∀ i j, i < h → j < w → 0 ≤ f i j)
    (hw : ∀ i j, i < h → j < w → ov.weight ⟨cx, cy, r, fl (r / q), t⟩ i j ≤ ov.weight ⟨cx, cy, r', fl (r' / q), t⟩ i j)
    (hs : ∀ i j, i < h → j < w → 0 < ov.weight ⟨cx, cy, r', fl (r' / q), t⟩ i j → 0 < ov.weight ⟨cx, cy, r, fl (r / q), t⟩ i j) :
    ∃ v v' a a' : K, F' = [fin v, fin v'] ∧ A' = [fin a, fin a'] ∧ v ≤ v' ∧ a ≤ a' := by
  obtain ⟨e1, e2, -⟩ := radialPhotometryR_lists hok
  have hg : goodPixels ov (apR fl cx cy q t r) h w (inv mask) = goodPixels ov (apR fl cx cy q t r') h w (inv mask) := by
    unfold goodPixels
    apply List.filter_congr
    rintro ⟨i, j⟩ hp
    obtain ⟨hi, hj⟩ := mem_pixels.1 hp
    congr 1
    rw [decide_eq_decide]
    exact ⟨fun hx => hx.trans_le (hw i j hi hj), hs i j hi hj⟩
  have key : ∀ c : Nat → Nat → K, (∀ i j, i < h → j < w → 0 ≤ c i j) →
      round6R fl (apertureSumR fl ov (apR fl cx cy q t r) h w mask c) ≤ round6R fl (apertureSumR fl ov (apR fl cx cy q t r') h w mask c) := by
    intro c hc
    apply round6R_mono hfl.mono
    unfold apertureSumR
    rw [hg]
    apply pairwiseSum_mono hfl.mono
    rw [List.forall₂_map_right_iff, List.forall₂_map_left_iff]
    refine List.forall₂_same.2 fun p hp => ?_
    obtain ⟨hi, hj, -, -⟩ := mem_goodPixels.1 hp
    exact hfl.mono (mul_le_mul_of_nonneg_left (hw _ _ hi hj) (hc _ _ hi hj))
  exact ⟨_, _, _, _, e1, e2, key f hf, key _ fun _ _ _ _ => zero_le_one⟩

/-- **C147, whole numbers.** With weights 0 and 1 (method `center`) and an image of whole numbers the fluxes and areas are exact, as long as a
million times the sums can be represented. -/
theorem C147_whole {N : K} (hN : ∀ k : ℤ, |(k : K)| ≤ N → fl k = k) {h w : Nat} (k : Nat → Nat → ℤ) {cx cy q t : K}
    {rs : List K} {error : Option (Img (F K))} {mask : Option (Img Bool)} {F' A' E' : List (F K)}
    (h01 : ∀ e i j, ov.weight e i j = 0 ∨ ov.weight e i j = 1)
    (hok : radialPhotometryR fl ov ⟨h, w, fun i j => fin (k i j : K)⟩ cx cy rs error mask q t = .ok (F', A', E'))
    (hk : ∀ r ∈ rs, weightedSum (ov.weight ⟨cx, cy, r, fl (r / q), t⟩) h w (Used mask) (fun i j => |(k i j : K)|) * 10 ^ 6 ≤ N)
    (hA : ∀ r ∈ rs, weightedSum (ov.weight ⟨cx, cy, r, fl (r / q), t⟩) h w (Used mask) (fun _ _ => (1 : K)) * 10 ^ 6 ≤ N) :
    F' = rs.map (fun r => fin (weightedSum (ov.weight ⟨cx, cy, r, fl (r / q), t⟩) h w (Used mask) fun i j => (k i j : K))) ∧
    A' = rs.map (fun r => fin (weightedSum (ov.weight ⟨cx, cy, r, fl (r / q), t⟩) h w (Used mask) fun _ _ => 1)) := by
  obtain ⟨e1, e2, -⟩ := radialPhotometryR_lists hok
  have h0 : ∀ e i j, 0 ≤ ov.weight e i j := fun e i j => by rcases h01 e i j with h | h <;> rw [h]; exact zero_le_one
  have key : ∀ (c : Nat → Nat → ℤ) (e : Ellipse K), weightedSum (ov.weight e) h w (Used mask) (fun i j => |(c i j : K)|) * 10 ^ 6 ≤ N →
      round6R fl (apertureSumR fl ov e h w mask fun i j => (c i j : K)) = weightedSum (ov.weight e) h w (Used mask) fun i j => (c i j : K) := by
    intro c e hc
    have habs := weightedSum_abs (ov.weight e) (h0 e) h w (Used mask) fun i j => (c i j : K)
    rw [← goodPixels_sum h0] at hc habs ⊢
    rw [← goodPixels_sum h0] at habs
    unfold apertureSumR
    set g := goodPixels ov e h w (inv mask) with hg
    have hw1 : ∀ p ∈ g, ov.weight e p.1 p.2 = 1 := by
      intro p hp
      have := (mem_goodPixels.1 hp).2.2.1
      rcases h01 e p.1 p.2 with h | h
      · rw [h] at this; exact absurd this (lt_irrefl _)
      · exact h
    have m1 : (g.map fun p => (c p.1 p.2 : K) * ov.weight e p.1 p.2) = (g.map fun p => c p.1 p.2).map fun z : ℤ => (z : K) := by
      rw [List.map_map]
      exact List.map_congr_left fun p hp => by simp [hw1 p hp]
    have m2 : (g.map fun p => |(c p.1 p.2 : K)| * ov.weight e p.1 p.2) = (g.map fun p => c p.1 p.2).map fun z : ℤ => |(z : K)| := by
      rw [List.map_map]
      exact List.map_congr_left fun p hp => by simp [hw1 p hp]
    rw [m1, m2] at habs
    rw [m2] at hc
    rw [m1]
    set l := g.map fun p => c p.1 p.2 with hl
    have hs0 : 0 ≤ (l.map fun z : ℤ => |(z : K)|).sum := (abs_nonneg _).trans habs
    have hle : (l.map fun z : ℤ => |(z : K)|).sum ≤ N := by nlinarith
    have m3 : (g.map fun p => fl ((c p.1 p.2 : K) * ov.weight e p.1 p.2)) = l.map fun z : ℤ => (z : K) := by
      rw [hl, List.map_map]
      refine List.map_congr_left fun p hp => ?_
      rw [hw1 p hp, mul_one]
      refine hN _ (le_trans ?_ hle)
      refine List.single_le_sum (l := l.map fun z : ℤ => |(z : K)|) ?_ _ ?_
      · intro x hx
        obtain ⟨z, _, rfl⟩ := List.mem_map.1 hx
        exact abs_nonneg _
      · exact List.mem_map.2 ⟨_, List.mem_map.2 ⟨p, hp, rfl⟩, rfl⟩
    rw [m3, pairwiseSum_whole hN l hle]
    have m4 : (l.map fun z : ℤ => (z : K)).sum = ((l.sum : ℤ) : K) := by
      rw [Int.cast_list_sum]
    rw [m4] at habs ⊢
    obtain ⟨z, hz⟩ : ∃ z : ℤ, z = l.sum := ⟨_, rfl⟩
    rw [← hz] at habs ⊢
    have b1 : |(z : K)| ≤ N := habs.trans hle
    have b2 : fl ((z : K) * 10 ^ 6) = ((z * 10 ^ 6 : ℤ) : K) := by
      have e10 : ((z * 10 ^ 6 : ℤ) : K) = (z : K) * 10 ^ 6 := by push_cast; norm_num
      have := hN (z * 10 ^ 6) (by
        rw [e10, abs_mul, abs_of_pos (by positivity : (0 : K) < 10 ^ 6)]
        exact (mul_le_mul_of_nonneg_right habs (by positivity)).trans hc)
      rw [e10] at this ⊢
      exact this
    unfold round6R
    have hri : ∀ z : ℤ, rint (z : K) = z := fun z => by simp [rint]
    have e10 : ((z * 10 ^ 6 : ℤ) : K) / 10 ^ 6 = z := by
      have : ((z * 10 ^ 6 : ℤ) : K) = (z : K) * 10 ^ 6 := by push_cast; norm_num
      rw [this, mul_div_cancel_right₀]
      positivity
    rw [b2, hri, e10, hN _ b1]
  constructor
  · rw [e1]
    refine List.map_congr_left fun r hr => ?_
    rw [key k (apR fl cx cy q t r) (hk r hr)]
    rfl
  · rw [e2]
    refine List.map_congr_left fun r hr => ?_
    have := key (fun _ _ => 1) (apR fl cx cy q t r) (by simp only [Int.cast_one, abs_one]; exact hA r hr)
    simp only [Int.cast_one] at this
    rw [this]
    rfl

/-- **C147 in double precision.** For images of up to `2⁴⁰` pixels the relative part of the error is below `10⁻¹⁴`. -/
theorem C147_binary64 (h0 : ∀ e i j, 0 ≤ ov.weight e i j) {h w : Nat} (hsize : h * w ≤ 2 ^ 40) {f : Nat → Nat → K} {cx cy q t : K}
    {rs : List K} {error : Option (Img (F K))} {mask : Option (Img Bool)} {F' A' E' : List (F K)}
    (hok : radialPhotometryR (flBits 53) ov ⟨h, w, fun i j => fin (f i j)⟩ cx cy rs error mask q t = .ok (F', A', E')) :
    ∃ V A : List K, F' = V.map fin ∧ A' = A.map fin ∧ V.length = rs.length ∧ A.length = rs.length ∧
      ∀ i (h1 : i < rs.length) (h2 : i < V.length) (h3 : i < A.length),
        let wt := ov.weight ⟨cx, cy, rs[i], flBits 53 (rs[i] / q), t⟩
        |V[i] - weightedSum wt h w (Used mask) f| ≤ 51 / 10 ^ 8 + 1 / 10 ^ 14 * weightedSum wt h w (Used mask) (fun i j => |f i j|) ∧
        |A[i] - weightedSum wt h w (Used mask) fun _ _ => 1| ≤ 51 / 10 ^ 8 + 1 / 10 ^ 14 * weightedSum wt h w (Used mask) fun _ _ => 1 := by
  have hu := flBits_relErr (K := K) 53 (by norm_num)
  have hue : (2 : K) ^ (-((53 : Nat) : ℤ)) = 1 / 2 ^ 53 := by rw [zpow_neg, zpow_natCast, one_div]
  rw [hue] at hu
  obtain ⟨V, A, e1, e2, l1, l2, hk⟩ := C147_accuracy hu (by positivity) h0 hok
  refine ⟨V, A, e1, e2, l1, l2, fun i h1 h2 h3 => ?_⟩
  obtain ⟨a1, a2⟩ := hk i h1 h2 h3
  intro wt
  have hlog : Nat.log 2 (h * w - 15) ≤ 40 := by
    have := Nat.log_mono_right (b := 2) (show h * w - 15 ≤ 2 ^ 40 by omega)
    rwa [Nat.log_pow (by norm_num)] at this
  have hp : (1 + 1 / 2 ^ 53 : K) ^ (28 + Nat.log 2 (h * w - 15)) - 1 ≤ 1 / 10 ^ 14 := by
    have h1 : (1 + 1 / 2 ^ 53 : K) ^ (28 + Nat.log 2 (h * w - 15)) ≤ (1 + 1 / 2 ^ 53 : K) ^ 68 :=
      pow_le_pow_right₀ (by norm_num) (by omega)
    have h2 : (1 + 1 / 2 ^ 53 : K) ^ 68 - 1 ≤ 1 / 10 ^ 14 := by norm_num
    linarith
  have hc : (1 + 1 / 2 ^ 53 : K) / 2 / 10 ^ 6 ≤ 51 / 10 ^ 8 := by norm_num
  have hn : ∀ c : Nat → Nat → K, 0 ≤ weightedSum wt h w (Used mask) fun i j => |c i j| := fun c =>
    (abs_nonneg _).trans (weightedSum_abs wt (h0 _) h w (Used mask) c)
  have n1 := mul_le_mul_of_nonneg_right hp (hn f)
  have n2 := mul_le_mul_of_nonneg_right hp (hn fun _ _ => 1)
  simp only [abs_one] at n2
  exact ⟨a1.trans (add_le_add hc n1), a2.trans (add_le_add hc n2)⟩

end

/-! ### Ellipses -/

section
variable {ov : Overlap ℝ} {fl : ℝ → ℝ} {u : ℝ}

/-- The weighted sum of computed weights that are close to the exact ones. -/
theorem weightedSum_tau {τ : ℝ} {e : Ellipse ℝ} (ha : 0 < e.a) (hb : 0 < e.b) {h w : Nat} (hf : OnFrame e.set h w)
    (hτ : ∀ i j, i < h → j < w → |ov.weight e i j - exactOverlap.weight e i j| ≤ τ) :
    |weightedSum (ov.weight e) h w (Used none) (fun _ _ => 1) - Real.pi * e.a * e.b| ≤ τ * (h * w) := by
  have h1 := weightedSum_onFrame e ha hb h w hf 1
  rw [one_mul] at h1
  rw [← h1]
  have hu : Used none = fun _ _ => true := rfl
  rw [hu]
  unfold weightedSum
  rw [← Finset.sum_sub_distrib]
  refine (Finset.abs_sum_le_sum_abs _ _).trans ?_
  calc ∑ i ∈ Finset.range h, |∑ j ∈ Finset.range w, (if true = true then (1 : ℝ) * ov.weight e i j else 0) -
        ∑ j ∈ Finset.range w, (if true = true then (1 : ℝ) * exactOverlap.weight e i j else 0)|
      ≤ ∑ i ∈ Finset.range h, ((w : ℝ) * τ) := by
        refine Finset.sum_le_sum fun i hi => ?_
        rw [← Finset.sum_sub_distrib]
        refine (Finset.abs_sum_le_sum_abs _ _).trans ?_
        calc _ ≤ ∑ j ∈ Finset.range w, τ := by
              refine Finset.sum_le_sum fun j hj => ?_
              simp only [if_true, one_mul]
              exact hτ i j (Finset.mem_range.1 hi) (Finset.mem_range.1 hj)
          _ = (w : ℝ) * τ := by simp
    _ = τ * (h * w) := by simp; ring

/-- **C147, ellipses.** The area returned in rounded arithmetic for an aperture on the image is the area of the ellipse up to the rounding to six
decimals, the errors `τ` of the pixel weights and the rounding of the sum. -/
theorem C147_ellipse (hu : RelErr u fl) (hu0 : 0 ≤ u) (h0 : ∀ e i j, 0 ≤ ov.weight e i j) {τ : ℝ} {h w : Nat} {f : Nat → Nat → ℝ}
    {cx cy q t : ℝ} {rs : List ℝ} {error : Option (Img (F ℝ))} {F' A' E' : List (F ℝ)}
    (hok : radialPhotometryR fl ov ⟨h, w, fun i j => fin (f i j)⟩ cx cy rs error none q t = .ok (F', A', E'))
    (hf : ∀ r ∈ rs, OnFrame (⟨cx, cy, r, fl (r / q), t⟩ : Ellipse ℝ).set h w)
    (hτ : ∀ r ∈ rs, ∀ i j, i < h → j < w →
      |ov.weight ⟨cx, cy, r, fl (r / q), t⟩ i j - exactOverlap.weight ⟨cx, cy, r, fl (r / q), t⟩ i j| ≤ τ) :
    ∃ A : List ℝ, A' = A.map fin ∧ A.length = rs.length ∧ ∀ i (h1 : i < rs.length) (h3 : i < A.length),
      |A[i] - Real.pi * rs[i] * fl (rs[i] / q)| ≤ (1 + u) / 2 / 10 ^ 6 + τ * (h * w) +
        ((1 + u) ^ (28 + Nat.log 2 (h * w - 15)) - 1) * (Real.pi * rs[i] * fl (rs[i] / q) + τ * (h * w)) := by
  obtain ⟨-, -, hpos⟩ := radialPhotometryR_lists hok
  obtain ⟨V, A, -, e2, l1, l2, hk⟩ := C147_accuracy hu hu0 h0 hok
  refine ⟨A, e2, l2, fun i h1 h3 => ?_⟩
  have a2 := (hk i h1 (by omega) h3).2
  have hm := List.getElem_mem h1
  have a3 := weightedSum_tau (e := ⟨cx, cy, rs[i], fl (rs[i] / q), t⟩) (hpos _ hm).1 (hpos _ hm).2 (hf _ hm) (hτ _ hm)
  set S := weightedSum (ov.weight ⟨cx, cy, rs[i], fl (rs[i] / q), t⟩) h w (Used none) fun _ _ => (1 : ℝ)
  have hp : 0 ≤ (1 + u) ^ (28 + Nat.log 2 (h * w - 15)) - 1 := by
    have : 1 ≤ (1 + u) ^ (28 + Nat.log 2 (h * w - 15)) := one_le_pow₀ (by linarith)
    linarith
  have a4 : S ≤ Real.pi * rs[i] * fl (rs[i] / q) + τ * (h * w) := by linarith [(abs_le.1 a3).2]
  have a5 := mul_le_mul_of_nonneg_left a4 hp
  rw [show A[i] - Real.pi * rs[i] * fl (rs[i] / q) = (A[i] - S) + (S - Real.pi * rs[i] * fl (rs[i] / q)) by ring]
  refine (abs_add_le _ _).trans ?_
  linarith

/-- **C147, ellipses are accepted.** If the ellipses are on the image and each is larger than the one before by more than the errors,
`calculate_petrosian` accepts what `radial_photometry` returned, in rounded arithmetic. -/
theorem C147_ellipse_accepted (hfl : Rounding fl) (hu : RelErr u fl) (hu0 : 0 ≤ u) (hu1 : u < 1) (h0 : ∀ e i j, 0 ≤ ov.weight e i j) {τ : ℝ}
    {h w : Nat} {f : Nat → Nat → ℝ} {cx cy q t : ℝ} {rs : List ℝ} {error : Option (Img (F ℝ))} {F' A' E' : List (F ℝ)}
    (hok : radialPhotometryR fl ov ⟨h, w, fun i j => fin (f i j)⟩ cx cy rs error none q t = .ok (F', A', E')) (h3 : 3 ≤ rs.length)
    (hf : ∀ r ∈ rs, OnFrame (⟨cx, cy, r, fl (r / q), t⟩ : Ellipse ℝ).set h w)
    (hτ : ∀ r ∈ rs, ∀ i j, i < h → j < w →
      |ov.weight ⟨cx, cy, r, fl (r / q), t⟩ i j - exactOverlap.weight ⟨cx, cy, r, fl (r / q), t⟩ i j| ≤ τ)
    (hgap : ∀ i (hi : i + 1 < rs.length),
      let S := fun r => Real.pi * r * fl (r / q)
      (1 + u) / 10 ^ 6 + 2 * (τ * (h * w)) + ((1 + u) ^ (28 + Nat.log 2 (h * w - 15)) - 1) * (S rs[i] + S rs[i + 1] + 2 * (τ * (h * w))) <
        S rs[i + 1] - S rs[i]) :
    ∃ p, calculatePetrosianFl fl A' F' = .ok p := by
  obtain ⟨-, -, hpos⟩ := radialPhotometryR_lists hok
  refine (C147_accepted hfl hu hu0 hu1 h0 hok h3 fun i hi => ?_).2
  have m1 := List.getElem_mem (show i < rs.length by omega)
  have m2 := List.getElem_mem hi
  have a1 := abs_le.1 (weightedSum_tau (hpos _ m1).1 (hpos _ m1).2 (hf _ m1) (hτ _ m1))
  have a2 := abs_le.1 (weightedSum_tau (hpos _ m2).1 (hpos _ m2).2 (hf _ m2) (hτ _ m2))
  have g := hgap i hi
  dsimp only at a1 a2 g ⊢
  have hp : 0 ≤ (1 + u) ^ (28 + Nat.log 2 (h * w - 15)) - 1 := by
    have : 1 ≤ (1 + u) ^ (28 + Nat.log 2 (h * w - 15)) := one_le_pow₀ (by linarith)
    linarith
  have a5 := mul_le_mul_of_nonneg_left (show weightedSum (ov.weight ⟨cx, cy, rs[i], fl (rs[i] / q), t⟩) h w (Used none) (fun _ _ => (1 : ℝ)) +
      weightedSum (ov.weight ⟨cx, cy, rs[i + 1], fl (rs[i + 1] / q), t⟩) h w (Used none) (fun _ _ => (1 : ℝ)) ≤
      Real.pi * rs[i] * fl (rs[i] / q) + Real.pi * rs[i + 1] * fl (rs[i + 1] / q) + 2 * (τ * (h * w)) by linarith [a1.2, a2.2]) hp
  linarith [a1.2, a2.1]

end

/-! ### Rounding can make the area decrease -/

/-- Weights of a row of eight pixels: the larger apertures touch the last pixel a little. -/
def nickWeights : List ℚ := [4560428868203447 / 9007199254740992, 3843056913466983 / 9007199254740992, 3748097841754739 / 4503599627370496,
  8799818904699455 / 9007199254740992, 1420371904183637 / 2251799813685248, 3130230936469435 / 4503599627370496,
  131165280302337 / 140737488355328]

/-- The overlap with these weights; the apertures with `1 < a` touch the last pixel with weight `2⁻⁶⁰`. -/
def nickOverlap : Overlap ℚ :=
  ⟨fun e i j => if i = 0 ∧ j < 7 then nickWeights.getD j 0 else if i = 0 ∧ j = 7 ∧ 1 < e.a then 1 / 2 ^ 60 else 0, fun _ _ _ => true⟩

theorem nickWeights_range (j : Nat) : 0 ≤ nickWeights.getD j 0 ∧ nickWeights.getD j 0 ≤ 1 := by
  match j with
  | 0 | 1 | 2 | 3 | 4 | 5 | 6 => simp [nickWeights]; norm_num
  | n + 7 => simp [nickWeights]

theorem nickOverlap_law : OverlapLaw nickOverlap where
  nonneg := fun e i j => by
    simp only [nickOverlap]
    split
    · exact (nickWeights_range j).1
    · split <;> norm_num
  le_one := fun e i j => by
    simp only [nickOverlap]
    split
    · exact (nickWeights_range j).2
    · split <;> norm_num
  nested := fun cx cy q t r r' i j hq hr h => by
    simp only [nickOverlap]
    by_cases h1 : i = 0 ∧ j < 7
    · rw [if_pos h1, if_pos h1]
    · rw [if_neg h1, if_neg h1]
      by_cases h2 : i = 0 ∧ j = 7 ∧ 1 < r
      · rw [if_pos h2, if_pos ⟨h2.1, h2.2.1, h2.2.2.trans_le h⟩]
      · rw [if_neg h2]
        split <;> norm_num
  hits_of_pos := fun _ _ _ _ _ _ _ _ _ _ => rfl
  hits_mono := fun _ _ _ _ _ _ _ _ _ _ _ h => h

theorem pairwiseSum_short {α : Type} (add : α → α → α) (zero : α) {l : List α} (h : l.length < 8) :
    pairwiseSum add zero l = l.foldl add zero := by
  rw [pairwiseSum, if_pos h]

theorem pairwiseSum_eight {α : Type} (add : α → α → α) (zero : α) {l : List α} (h : l.length = 8) :
    pairwiseSum add zero l = pwJoin add zero l := by
  rw [pairwiseSum, if_neg (by omega), if_pos (by omega), pwBlock, if_neg (by simp [h]), List.take_of_length_le (by omega),
    List.drop_of_length_le (by omega)]
  rfl

theorem nick_good : goodPixels nickOverlap (apR (flBits 53) 0 0 1 0 1) 1 8 (inv none) = (List.range 7).map (fun j => (0, j)) ∧
    goodPixels nickOverlap (apR (flBits 53) 0 0 1 0 2) 1 8 (inv none) = (List.range 8).map (fun j => (0, j)) ∧
    goodPixels nickOverlap (apR (flBits 53) 0 0 1 0 3) 1 8 (inv none) = (List.range 8).map (fun j => (0, j)) := by
  decide +kernel

theorem nick_areas :
    round6R (flBits 53) (apertureSumR (flBits 53) nickOverlap (apR (flBits 53) 0 0 1 0 1) 1 8 none fun _ _ => 1) = flBits 53 (5000004 / 10 ^ 6) ∧
    round6R (flBits 53) (apertureSumR (flBits 53) nickOverlap (apR (flBits 53) 0 0 1 0 2) 1 8 none fun _ _ => 1) = flBits 53 (5000003 / 10 ^ 6) ∧
    round6R (flBits 53) (apertureSumR (flBits 53) nickOverlap (apR (flBits 53) 0 0 1 0 3) 1 8 none fun _ _ => 1) = flBits 53 (5000003 / 10 ^ 6) := by
  unfold apertureSumR
  rw [nick_good.1, nick_good.2.1, nick_good.2.2, pairwiseSum_short _ _ (by simp), pairwiseSum_eight _ _ (by simp), pairwiseSum_eight _ _ (by simp)]
  decide +kernel

/-- **C147, violated.** In double precision a larger aperture can be reported with a smaller area, although all weights are at least as large: a
pixel touched with weight `2⁻⁶⁰` changes the order of the additions, and the sum falls below a multiple of half a millionth.  The result of
`radial_photometry` is then rejected by `calculate_petrosian`. -/
theorem C147_violated : OverlapLaw nickOverlap ∧ ∃ F' A' E', radialPhotometryR (flBits 53) nickOverlap ⟨1, 8, fun _ _ => fin 1⟩ 0 0 [1, 2, 3] none none 1 0 =
      .ok (F', A', E') ∧ calculatePetrosianFl (flBits 53) A' F' = .error .assertionError := by
  refine ⟨nickOverlap_law, ?_⟩
  obtain ⟨F', A', E', h⟩ := C147_returns (fl := flBits 53) (ov := nickOverlap) (h := 1) (w := 8) (f := fun _ _ => (1 : ℚ)) (cx := 0) (cy := 0)
    (q := 1) (t := 0) (rs := [1, 2, 3]) (error := none) (mask := none) (by norm_num) rfl rfl (by
      intro r hr
      have : 0 < r := by
        simp only [List.mem_cons, List.not_mem_nil, or_false] at hr
        rcases hr with rfl | rfl | rfl <;> norm_num
      refine ⟨this, ?_, rfl⟩
      rw [flBits_pos 53 (by simpa using this)]
      exact flPos_pos 53 (by norm_num) (by simpa using this))
  refine ⟨F', A', E', h, ?_⟩
  obtain ⟨rfl, rfl, -⟩ := radialPhotometryR_lists h
  simp only [List.map_cons, List.map_nil, nick_areas.1, nick_areas.2.1, nick_areas.2.2]
  decide +kernel

/-! ### The hypotheses can be met -/

theorem box_ok : ∃ F' A' E', radialPhotometryR (flBits 53) boxOverlap ⟨5, 5, fun i j => fin (((i + j : ℕ) : ℤ) : ℚ)⟩ 2 2 [1 / 2, 1, 2] none none 1 0 =
    .ok (F', A', E') := by
  refine C147_returns (fl := flBits 53) (ov := boxOverlap) (h := 5) (w := 5) (f := fun i j => (((i + j : ℕ) : ℤ) : ℚ)) (by norm_num) rfl rfl ?_
  decide +kernel

/-- C147_whole in double precision: the pixels inside growing boxes are counted exactly. -/
example : ∃ F' A' E', radialPhotometryR (flBits 53) boxOverlap ⟨5, 5, fun i j => fin (((i + j : ℕ) : ℤ) : ℚ)⟩ 2 2 [1 / 2, 1, 2] none none 1 0 =
    .ok (F', A', E') ∧ F' = [fin 4, fin 36, fin 100] ∧ A' = [fin 1, fin 9, fin 25] := by
  obtain ⟨F', A', E', h⟩ := box_ok
  obtain ⟨h1, h2⟩ := C147_whole (N := 2 ^ 53) (fun k hk => by
      have := flBits_repr (K := ℚ) 53 (by norm_num) k (by exact_mod_cast hk) 0
      simpa using this) (fun i j => ((i + j : ℕ) : ℤ)) (fun e i j => by
      simp only [boxOverlap]
      split <;> simp) h (by decide +kernel) (by decide +kernel)
  refine ⟨F', A', E', h, ?_, ?_⟩
  · rw [h1]; decide +kernel
  · rw [h2]; decide +kernel

/-- C147_accepted for the same image. -/
example : ∃ F' A' E' p, radialPhotometryR (flBits 53) boxOverlap ⟨5, 5, fun i j => fin (((i + j : ℕ) : ℤ) : ℚ)⟩ 2 2 [1 / 2, 1, 2] none none 1 0 =
    .ok (F', A', E') ∧ calculatePetrosianFl (flBits 53) A' F' = .ok p := by
  obtain ⟨F', A', E', h⟩ := box_ok
  have hu := flBits_relErr (K := ℚ) 53 (by norm_num)
  have hue : (2 : ℚ) ^ (-((53 : Nat) : ℤ)) = 1 / 2 ^ 53 := by rw [zpow_neg, zpow_natCast, one_div]
  rw [hue] at hu
  have hl : Nat.log 2 (5 * 5 - 15) = 3 := by
    rw [Nat.log_eq_iff (by norm_num)]; norm_num
  obtain ⟨-, p, hp⟩ := C147_accepted (f := fun i j => (((i + j : ℕ) : ℤ) : ℚ)) (flBits_rounding 53 (by norm_num)) hu (by norm_num) (by norm_num)
    (fun e i j => boxOverlap_law.nonneg e i j) h (by simp) (by
      rw [hl]
      intro i hi
      have hi' : i + 1 < 3 := hi
      match i, hi' with
      | 0, _ => simp only [List.getElem_cons_zero, List.getElem_cons_succ]; decide +kernel
      | 1, _ => simp only [List.getElem_cons_zero, List.getElem_cons_succ]; decide +kernel)
  exact ⟨F', A', E', p, h, hp⟩

end Verif.Props

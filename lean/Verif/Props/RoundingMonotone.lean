import Verif.Props.Rounding
import Verif.Lemmas.Linear
import Verif.Lemmas.Spline

/-!
# C114: monotonicity of the radii in floating point arithmetic
-/

set_option linter.unusedSectionVars false
set_option linter.unusedVariables false

namespace Verif.Props

open F Spec

section
variable {K : Type} [Field K] [LinearOrder K] [IsStrictOrderedRing K]

/-- The value `v'` is reached later than `v`. -/
def Later (g : Bool) (v v' : K) : Prop := if g then v ≤ v' else v' ≤ v

/-- **C114, search.** If `v'` is reached later than `v`, a search for `v` succeeds whenever a search for `v'` does, and the position for
`v'` is not before the one for `v`, unless the two samples have the same rounded distance to `v'`. -/
theorem C114_closest_partial {fl : K → K} (hfl : Rounding fl) {v v' : K} (g : Bool) (hv : Later g v v') (a : List K) {i' : Nat}
    (h' : closestValueIndexR fl (fin v') (a.map fin) g = .ok (some i')) :
    ∃ i, closestValueIndexR fl (fin v) (a.map fin) g = .ok (some i) ∧ ∃ hi : i < a.length, ∃ hi' : i' < a.length,
      (i ≤ i' ∨ fl |a[i] - v'| = fl |a[i'] - v'| ∧ |a[i] - v'| ≤ |a[i'] - v'|) := by
  obtain ⟨k', hk', hi', r1', r2', m1', m2'⟩ := ((C110_closest hfl v' a g).2.1 i').1 h'
  have hreach : Reaches g v a[k'] := by
    cases g <;> simp only [Reaches, Later, if_true, Bool.false_eq_true, if_false] at * <;> linarith
  cases hc : closestValueIndexR fl (fin v) (a.map fin) g with
  | error e => exact absurd hc ((C110_closest hfl v a g).2.2 e)
  | ok o =>
    cases o with
    | none => exact absurd hreach ((C110_closest hfl v a g).1.1 hc _ (List.getElem_mem _))
    | some i =>
      obtain ⟨k, hk, hi, r1, r2, m1, m2⟩ := ((C110_closest hfl v a g).2.1 i).1 hc
      refine ⟨i, rfl, by omega, by omega, ?_⟩
      rcases Nat.lt_or_ge i' i with hlt | hge
      · right
        have hkk : k ≤ k' := by
          by_contra hcon
          exact r2 k' (by omega) hreach
        have s1 := m2 i' hlt
        have s2 : |a[i] - v| < |a[i'] - v| := by
          by_contra hcon
          exact absurd (hfl.mono (not_lt.1 hcon)) (not_le.2 s1)
        have s3 := r2 i' (by omega)
        have s4 : |a[i] - v'| ≤ |a[i'] - v'| := by
          cases g
          · simp only [Reaches, Later, Bool.false_eq_true, if_false, not_le] at s3 hv
            rw [abs_of_pos (sub_pos.2 s3), abs_lt] at s2
            rw [abs_of_pos (sub_pos.2 (lt_of_le_of_lt hv s3)), abs_le]
            constructor <;> linarith [s2.1, s2.2]
          · simp only [Reaches, Later, if_true, not_le] at s3 hv
            rw [abs_of_neg (sub_neg.2 s3), abs_lt] at s2
            rw [abs_of_neg (sub_neg.2 (lt_of_lt_of_le s3 hv)), abs_le]
            constructor <;> linarith [s2.1, s2.2]
        exact ⟨le_antisymm (hfl.mono s4) (m1' i (by omega)), s4⟩
      · exact Or.inl hge

/-- Two numbers with the same rounding are close. -/
theorem same_rounding {fl : K → K} {u : K} (hu : RelErr u fl) {x y : K} (hx : 0 ≤ x) (hy : 0 ≤ y) (h : fl x = fl y) :
    (1 - u) * y ≤ (1 + u) * x := by
  have h1 := (relErr_le hu hx).1
  have h2 := (relErr_le hu hy).2
  linarith

theorem fractionToRR_calc {fl : K → K} (hfl : Rounding fl) {u : K} (hu : RelErr u fl) (hu0 : 0 ≤ u) (ip : InterpFam K) {k : String}
    {m : Nat} (hip : RangeLaw (ip k) m) (R Y : List K) (hl : R.length = Y.length) (hm : m ≤ R.length)
    (h2 : 2 ≤ R.length) (hR : Incr R) (hrep : ∀ x ∈ R, fl x = x) (num : Nat)
    (hnu : ((max num R.length : Nat) : K) * (1 + u) ^ 3 - 2 * (1 + u) ^ 3 ≤ (max num R.length : Nat) - 1) (rp eps epsf : K) (h0 : epsf ≠ 0)
    (hin : InRange R (fl (rp * eps))) :
    ∃ E xs ys, ip k (R.map fin) (Y.map fin) (fin (fl (rp * eps))) = .ok (fin E) ∧
      xs.length = ys.length ∧ xs.Pairwise (· ≤ ·) ∧ (∀ x ∈ xs, InRange R x) ∧
      List.Forall₂ (fun x y => ip k (R.map fin) (Y.map fin) (fin x) = .ok (fin y)) xs ys ∧
      ∀ f, fractionToRR fl ip (fin f) (R.map fin) (Y.map fin) (fin rp) (fin eps) (fin epsf) (some k) num =
        radiusAtR fl (fin (fl (E * fl (f / epsf)))) (xs.map fin, ys.map fin) true := by
  have hne : R ≠ [] := by rintro rfl; simp at h2
  obtain ⟨hi, l3, hmax, l3'⟩ := pyMax_fin hne
  obtain ⟨E, hE⟩ := hip.total R Y hl hm hR _ hin
  obtain ⟨xs, ys, hg, hxl, hs, hin', hall⟩ := getInterpolatedValuesR_ok hfl hu hu0 ip hip R Y hl hm h2 hR hrep num hnu
  have hlt : F.lt (fin hi) (fin (fl (rp * eps))) = false := by
    obtain ⟨x, hx, hx'⟩ := hin.2
    rw [lt_fin, decide_eq_false_iff_not, not_lt]
    exact hx'.trans (l3' x hx)
  refine ⟨E, xs, ys, hE, hxl, hs, hin', hall, fun f => ?_⟩
  have hd : pyDiv (fin f) (fin epsf) = .ok (fin (f / epsf)) := by
    unfold pyDiv
    rw [if_neg (by simpa using h0), fin_div_of_ne _ h0]
  unfold fractionToRR
  simp only [fin_mul, rnd_fin, hmax, Except.bind_ok, hlt, Bool.false_eq_true, if_false, Option.getD_some, hE, hd, hg]

/-- **C114, `fraction_to_r`.** In floating point a larger fraction of the total flux has a larger or equal radius, up to samples of the
curve of growth that are equally far from the target after rounding. -/
theorem C114_fraction_to_r_partial {fl : K → K} (hfl : Rounding fl) {u : K} (hu : RelErr u fl) (hu0 : 0 ≤ u) (ip : InterpFam K) {k : String}
    {m : Nat} (hip : RangeLaw (ip k) m) (R Y : List K) (hl : R.length = Y.length) (hm : m ≤ R.length)
    (h2 : 2 ≤ R.length) (hR : Incr R) (hrep : ∀ x ∈ R, fl x = x) (num : Nat)
    (hnu : ((max num R.length : Nat) : K) * (1 + u) ^ 3 - 2 * (1 + u) ^ 3 ≤ (max num R.length : Nat) - 1) (rp eps epsf : K) (h0 : 0 < epsf)
    (hin : InRange R (fl (rp * eps))) (E : K) (hE : ip k (R.map fin) (Y.map fin) (fin (fl (rp * eps))) = .ok (fin E)) (hE0 : 0 ≤ E)
    {f f' r' : K} (hf : f ≤ f')
    (h' : fractionToRR fl ip (fin f') (R.map fin) (Y.map fin) (fin rp) (fin eps) (fin epsf) (some k) num = .ok (fin r')) :
    ∃ r, fractionToRR fl ip (fin f) (R.map fin) (Y.map fin) (fin rp) (fin eps) (fin epsf) (some k) num = .ok (fin r) ∧
      (r ≤ r' ∨ ∃ y y', ip k (R.map fin) (Y.map fin) (fin r) = .ok (fin y) ∧ ip k (R.map fin) (Y.map fin) (fin r') = .ok (fin y') ∧
        (1 - u) * |y' - fl (E * fl (f' / epsf))| ≤ (1 + u) * |y - fl (E * fl (f' / epsf))| ∧
        |y - fl (E * fl (f' / epsf))| ≤ |y' - fl (E * fl (f' / epsf))|) := by
  obtain ⟨E', xs, ys, hE', hxl, hs, hin', hall, hcalc⟩ := fractionToRR_calc hfl hu hu0 ip hip R Y hl hm h2 hR hrep num hnu rp eps epsf h0.ne' hin
  rw [hE] at hE'
  injection hE' with hE'
  injection hE' with hE'
  subst hE'
  rw [hcalc] at h' ⊢
  have hv : Later true (fl (E * fl (f / epsf))) (fl (E * fl (f' / epsf))) := by
    simp only [Later, if_true]
    exact hfl.mono (mul_le_mul_of_nonneg_left (hfl.mono (div_le_div_of_nonneg_right hf h0.le)) hE0)
  rcases radiusAtR_ok hfl (fl (E * fl (f' / epsf))) xs ys hxl true with ⟨h1, -⟩ | ⟨i', hi', hc', h1⟩
  · rw [h1] at h'; cases h'
  · rw [h1] at h'
    injection h' with h'
    injection h' with h'
    obtain ⟨i, hc, hi, hi2, hor⟩ := C114_closest_partial hfl true hv ys hc'
    have hxi : i < xs.length := by omega
    have hval : radiusAtR fl (fin (fl (E * fl (f / epsf)))) (xs.map fin, ys.map fin) true = .ok (fin xs[i]) := by
      unfold radiusAtR
      rw [hc, Except.bind_ok]
      simp [getItem, hxi]
    refine ⟨xs[i], hval, ?_⟩
    rcases hor with hle | ⟨e1, e2⟩
    · left
      rw [← h']
      rcases Nat.lt_or_ge i i' with hlt | hge
      · exact List.pairwise_iff_getElem.1 hs i i' hxi hi' hlt
      · have : i = i' := by omega
        subst this; exact le_rfl
    · right
      have hn := (List.forall₂_iff_get.1 hall).2
      refine ⟨ys[i], ys[i'], hn i hxi hi, ?_, same_rounding hu (abs_nonneg _) (abs_nonneg _) e1, e2⟩
      rw [← h']
      exact hn i' hi' hi2

/-- **C114, `calculate_petrosian_r`.** In floating point a smaller eta has a larger or equal Petrosian radius, up to samples of the
profile that are equally far from eta after rounding. -/
theorem C114_petrosian_r_partial {fl : K → K} (hfl : Rounding fl) {u : K} (hu : RelErr u fl) (hu0 : 0 ≤ u) (ip : InterpFam K) {k : String}
    {m : Nat} (hip : RangeLaw (ip k) m) (r0 : F K) (R : List K) (p0 : F K) (P : List K) (hl : R.length = P.length) (hm : m ≤ R.length + 1)
    (h2 : 1 ≤ R.length) (hR : Incr (0 :: R)) (hrep : ∀ x ∈ R, fl x = x) (num : Nat)
    (hnu : ((max num (R.length + 1) : Nat) : K) * (1 + u) ^ 3 - 2 * (1 + u) ^ 3 ≤ (max num (R.length + 1) : Nat) - 1) {eta eta' r' : K}
    (he : eta' ≤ eta)
    (h' : calculatePetrosianRR fl ip (r0 :: R.map fin) (p0 :: P.map fin) (fin eta') (some k) num = .ok (fin r')) :
    ∃ r, calculatePetrosianRR fl ip (r0 :: R.map fin) (p0 :: P.map fin) (fin eta) (some k) num = .ok (fin r) ∧
      (r ≤ r' ∨ ∃ y y', ip k ((0 :: R).map fin) ((1 :: P).map fin) (fin r) = .ok (fin y) ∧
        ip k ((0 :: R).map fin) ((1 :: P).map fin) (fin r') = .ok (fin y') ∧
        (1 - u) * |y' - eta'| ≤ (1 + u) * |y - eta'| ∧ |y - eta'| ≤ |y' - eta'|) := by
  obtain ⟨xs, ys, hg, hxl, hs, hin, hall⟩ := getInterpolatedValuesR_ok hfl hu hu0 ip hip (0 :: R) (1 :: P) (by simp [hl]) (by simpa using hm)
    (by simp; omega) hR (by
      intro x hx
      rcases List.mem_cons.1 hx with rfl | hx
      · exact Rounding.zero hfl
      · exact hrep x hx) num (by simpa using hnu)
  have hcalc : ∀ eta : K, calculatePetrosianRR fl ip (r0 :: R.map fin) (p0 :: P.map fin) (fin eta) (some k) num =
      radiusAtR fl (fin eta) (xs.map fin, ys.map fin) false := by
    intro eta
    unfold calculatePetrosianRR
    simp only [setItem0, Except.bind_ok]
    have e1 : fin 0 :: R.map fin = (0 :: R).map fin := rfl
    have e2 : fin 1 :: P.map fin = (1 :: P).map fin := rfl
    rw [e1, e2, hg, Except.bind_ok]
  rw [hcalc] at h' ⊢
  have hv : Later false eta eta' := by simpa [Later] using he
  rcases radiusAtR_ok hfl eta' xs ys hxl false with ⟨h1, -⟩ | ⟨i', hi', hc', h1⟩
  · rw [h1] at h'; cases h'
  · rw [h1] at h'
    injection h' with h'
    injection h' with h'
    obtain ⟨i, hc, hi, hi2, hor⟩ := C114_closest_partial hfl false hv ys hc'
    have hxi : i < xs.length := by omega
    have hval : radiusAtR fl (fin eta) (xs.map fin, ys.map fin) false = .ok (fin xs[i]) := by
      unfold radiusAtR
      rw [hc, Except.bind_ok]
      simp [getItem, hxi]
    refine ⟨xs[i], hval, ?_⟩
    rcases hor with hle | ⟨e1, e2⟩
    · left
      rw [← h']
      rcases Nat.lt_or_ge i i' with hlt | hge
      · exact List.pairwise_iff_getElem.1 hs i i' hxi hi' hlt
      · have : i = i' := by omega
        subst this; exact le_rfl
    · right
      have hn := (List.forall₂_iff_get.1 hall).2
      refine ⟨ys[i], ys[i'], hn i hxi hi, ?_, same_rounding hu (abs_nonneg _) (abs_nonneg _) e1, e2⟩
      rw [← h']
      exact hn i' hi' hi2

end

/-- **C114, violated.** Full monotonicity fails in double precision. The radii 1, 2, 3, 4 contain the fluxes 1, 1 + 2^-40, 2^22, 2^22; with
`interp_kind=None` the fraction (1 + 2^-40) / 2^22 has the radius 2 and the larger fraction 1/4 has the radius 1, for every interpolator
that reproduces the flux at the measured radii. -/
theorem C114_violated (ip : InterpFam ℚ) (hip : Lawful (ip "cubic") 4) :
    fractionToRR (flBits 53) ip (fin ((1 + 1 / 2 ^ 40) / 2 ^ 22)) [fin 1, fin 2, fin 3, fin 4]
      [fin 1, fin (1 + 1 / 2 ^ 40), fin (2 ^ 22), fin (2 ^ 22)] (fin 2) (fin 2) (fin 1) none = .ok (fin 2) ∧
    fractionToRR (flBits 53) ip (fin (1 / 4)) [fin 1, fin 2, fin 3, fin 4]
      [fin 1, fin (1 + 1 / 2 ^ 40), fin (2 ^ 22), fin (2 ^ 22)] (fin 2) (fin 2) (fin 1) none = .ok (fin 1) := by
  have hE : ip "cubic" [fin 1, fin 2, fin 3, fin 4] [fin 1, fin (1 + 1 / 2 ^ 40), fin (2 ^ 22), fin (2 ^ 22)] (fin 4) = .ok (fin (2 ^ 22)) :=
    hip.node [1, 2, 3, 4] [1, 1 + 1 / 2 ^ 40, 2 ^ 22, 2 ^ 22] rfl (by decide) (by unfold Incr; decide +kernel) 3 (by decide)
  have hr : (fin (2 : ℚ) * fin 2).rnd (flBits 53) = fin 4 := by decide +kernel
  have hm : pyMax ([fin 1, fin 2, fin 3, fin 4] : List (F ℚ)) = .ok (fin 4) := by decide +kernel
  have hlt : F.lt (fin (4 : ℚ)) (fin 4) = false := by decide +kernel
  constructor
  · unfold fractionToRR
    simp only [hr, hm, Except.bind_ok, hlt, Bool.false_eq_true, if_false, Option.getD_none, hE, getInterpolatedValuesR]
    decide +kernel
  · unfold fractionToRR
    simp only [hr, hm, Except.bind_ok, hlt, Bool.false_eq_true, if_false, Option.getD_none, hE, getInterpolatedValuesR]
    decide +kernel

/-! ### Concrete cases for C109 to C114 -/

/-- The contract of the exact interpolators contains the one for rounded arithmetic. -/
theorem lawful_rangeLaw {K : Type} [Field K] [LinearOrder K] {I : Interp K} {m : Nat} (h : Lawful I m) : RangeLaw I m :=
  ⟨h.total, h.outside, h.atNaN⟩

/-- An interpolator whose result is rounded also satisfies it. -/
theorem rangeLaw_rounded {K : Type} [Field K] [LinearOrder K] (fl : K → K) {I : Interp K} {m : Nat} (h : RangeLaw I m) :
    RangeLaw (fun x y q => (I x y q).map (F.rnd fl)) m where
  total := by
    intro xs ys hl hm hx q hq
    obtain ⟨v, hv⟩ := h.total xs ys hl hm hx q hq
    exact ⟨fl v, by rw [hv]; rfl⟩
  outside := by
    intro xs ys hl hm hx q hq
    rw [h.outside xs ys hl hm hx q hq]; rfl
  atNaN := by
    intro xs ys hl hm hx
    rw [h.atNaN xs ys hl hm hx]; rfl

/-- Double precision linear interpolation, as an example of everything the theorems ask for. -/
def exIp : InterpFam ℚ := fun _ x y q => (linearInterp x y q).map (F.rnd (flBits 53))

theorem exIp_law (k : String) : RangeLaw (exIp k) 1 := rangeLaw_rounded _ (lawful_rangeLaw linear_lawful)

theorem ex_samples (n : Nat) (hn : 2 ≤ n) (hn' : n ≤ 10 ^ 15) :
    ((n : Nat) : ℚ) * (1 + (2 : ℚ) ^ (-((53 : Nat) : ℤ))) ^ 3 - 2 * (1 + (2 : ℚ) ^ (-((53 : Nat) : ℤ))) ^ 3 ≤ (n : Nat) - 1 := by
  have := C109_defaults (K := ℚ) n hn hn'
  rw [← sub_mul]
  exact this

theorem ex_u : (0 : ℚ) ≤ (2 : ℚ) ^ (-((53 : Nat) : ℤ)) ∧ (2 : ℚ) ^ (-((53 : Nat) : ℤ)) < 1 := by
  constructor
  · positivity
  · norm_num

/-- C109: the 5000 radii between 0.1 (rounded) and 70. -/
example : ∃ xs : List ℚ, npLinspaceR (flBits 53) (fin (flBits 53 (1 / 10))) (fin 70) 5000 = xs.map fin ∧ xs.length = 5000 ∧
    xs[0]? = some (flBits 53 (1 / 10)) ∧ xs[4999]? = some 70 ∧ xs.Pairwise (· ≤ ·) ∧ ∀ x ∈ xs, flBits 53 (1 / 10) ≤ x ∧ x ≤ 70 :=
  C109_grid (flBits_rounding 53 (by decide)) (flBits_relErr 53 (by decide)) ex_u.1
    ((flBits_rounding (K := ℚ) 53 (by decide)).idem (1 / 10)) (by decide +kernel : flBits 53 (70 : ℚ) = 70) (by decide +kernel) 5000 (by decide)
    (C109_defaults 5000 (by decide) (by decide))

/-- C110: in double precision 0.3 is closest to the third entry. -/
example : closestValueIndexR (flBits 53) (fin (flBits 53 (3 / 10))) ([fin 1, fin (1 / 2), fin (1 / 4), fin (1 / 8)] : List (F ℚ)) =
    .ok (some 2) := by
  decide +kernel

/-- C111: a profile that falls to 1/16 at the radius 3, with the default 5000 samples in double precision. -/
example : ∃ r, calculatePetrosianRR (flBits 53) exIp ([fin 1, fin 2, fin 3] : List (F ℚ)) [nan, fin (1 / 2), fin (1 / 16)]
    (fin (flBits 53 (1 / 5))) (some "linear") 5000 = .ok r := by
  obtain ⟨r, hr, -⟩ := C111_petrosian_r (flBits_rounding 53 (by decide)) (flBits_relErr 53 (by decide)) ex_u.1 ex_u.2 exIp (exIp_law "linear")
    (fin 1) [2, 3] nan [1 / 2, 1 / 16] rfl (by decide) (by decide) (by unfold Incr; decide +kernel) (by decide +kernel) 5000
    (ex_samples _ (by decide) (by decide)) (flBits 53 (1 / 5))
  exact ⟨r, hr⟩

/-- C111 and C114: with few samples the radii can be computed, and the smaller eta has the larger radius. -/
example : ∃ r r', calculatePetrosianRR (flBits 53) exIp ([fin 1, fin 2, fin 3] : List (F ℚ)) [nan, fin (1 / 2), fin (1 / 16)]
      (fin (flBits 53 (1 / 5))) (some "linear") 8 = .ok (fin r) ∧
    calculatePetrosianRR (flBits 53) exIp ([fin 1, fin 2, fin 3] : List (F ℚ)) [nan, fin (1 / 2), fin (1 / 16)]
      (fin (flBits 53 (1 / 16))) (some "linear") 8 = .ok (fin r') ∧ r < r' := by
  refine ⟨flBits 53 (flBits 53 (6 * flBits 53 (3 / 7))), 3, ?_, ?_, ?_⟩ <;> decide +kernel

/-- C111 and C114 for `fraction_to_r`: half of the flux inside the radius 4, and a quarter of it. -/
example : ∃ r r', fractionToRR (flBits 53) exIp (fin (1 / 4)) ([fin 1, fin 2, fin 3, fin 4] : List (F ℚ)) [fin 1, fin 3, fin 5, fin 6]
      (fin 2) (fin 2) (fin 1) (some "linear") 8 = .ok (fin r) ∧
    fractionToRR (flBits 53) exIp (fin (1 / 2)) ([fin 1, fin 2, fin 3, fin 4] : List (F ℚ)) [fin 1, fin 3, fin 5, fin 6]
      (fin 2) (fin 2) (fin 1) (some "linear") 8 = .ok (fin r') ∧ r ≤ r' := by
  refine ⟨flBits 53 (1 + flBits 53 (3 / 7)), flBits 53 (1 + flBits 53 (2 * flBits 53 (3 / 7))), ?_, ?_, ?_⟩ <;> decide +kernel

end Verif.Props

import Verif.Lemmas.PetrosianObj
import Verif.Props.PetrosianProfile
import Verif.Props.PetrosianRadius
import Verif.Props.Fraction

/-!
# C17–C23: the queries of a `Petrosian` object
-/

set_option linter.unusedSectionVars false
set_option linter.unusedVariables false
set_option linter.unusedSimpArgs false

namespace Verif.Props

open F Spec

/-! ### C17 -/

section
variable {K : Type} [Field K] [LinearOrder K] [IsStrictOrderedRing K] [HasSqrt K] [HasLog10 K]

/-- C17 is false of the code: three data points are accepted by the constructor, but with the default cubic interpolation (which needs
four points) *every* such object raises ValueError when `r_petrosian` is read. -/
theorem C17_counterexample_three_points (ip : InterpFam K) (hip : Lawful (ip "cubic") 4) (R A Y : List (F K))
    (aE fE : Option (List (F K))) (eta eps epsf tff : F K) (num : Nat) (h3 : R.length = 3) {p : Petrosian K}
    (hp : Petrosian.init R A Y aE fE eta eps epsf tff (some "cubic") num = .ok p) :
    p.rPetrosian ip = .error .valueError := by
  obtain ⟨h2, hl, _, _, pl, pe, hcp, rfl⟩ := Petrosian.init_ok_iff.1 hp
  have hpl := (profile_length _ _ _ _ _ _ hcp).2
  have hA := (accepted_of_ok hcp).1
  match R, h3, pl, hpl with
  | [r0, r1, r2], _, p0 :: pl, _ =>
    unfold Petrosian.rPetrosian Petrosian.calcPetrosianR calculatePetrosianR getInterpolatedValues
    simp only [setItem0, Except.bind_ok, pyMin, pyMax]
    have : ∀ lo hi, List.mapM (ip "cubic" [fin 0, r1, r2] (fin 1 :: pl))
        (npLinspace lo hi (if [fin 0, r1, r2].length > num then [fin 0, r1, r2].length else num)) = .error .valueError := by
      intro lo hi
      obtain ⟨n, hn⟩ : ∃ n, (if [fin 0, r1, r2].length > num then [fin 0, r1, r2].length else num) = n + 1 := by
        simp only [List.length_cons, List.length_nil]
        split
        · exact ⟨2, rfl⟩
        · exact ⟨num - 1, by omega⟩
      rw [hn]
      unfold npLinspace
      rw [List.range_succ_eq_map, List.map_cons, List.mapM_cons, hip.few _ _ _ (by simp)]
      rfl
    rw [this]
    rfl

/-- Such objects exist. -/
example : ∃ p : Petrosian ℚ, Petrosian.init ([1, 2, 3].map fin) ([1, 4, 9].map fin) ([1, 2, 3].map fin) none none (fin (1 / 5))
    (fin 2) (fin (99 / 100)) (fin (99 / 100)) (some "cubic") 5000 = .ok p := by
  have hcp : calculatePetrosian ([1, 4, 9].map fin : List (F ℚ)) ([1, 2, 3].map fin) none none =
      .ok ([nan, fin (2 / 3), fin (3 / 5)], none) := by decide +kernel
  exact ⟨_, Petrosian.init_ok_iff.2 ⟨by simp, by simp, by simp, by simp, _, _, hcp, rfl⟩⟩

/-- C17 is false of the code in two more ways: `r_epsilon` below the smallest radius raises ValueError, `epsilon_fraction = 0` raises
ZeroDivisionError. -/
theorem C17_counterexample_range :
    (∃ p : Petrosian ℚ, Petrosian.init ([1, 2, 4, 6].map fin) ([1, 4, 16, 36].map fin) ([2, 5, 8, 9].map fin) none none (fin 1)
        (fin 2) (fin (99 / 100)) (fin (99 / 100)) (some "linear") 16 = .ok p ∧
      p.rPetrosian (fun _ => linearInterp) = .ok (fin 0) ∧
      p.rHalfLight (fun _ => linearInterp) = .error .valueError) ∧
    (∃ p : Petrosian ℚ, Petrosian.init ([1, 2, 4, 6].map fin) ([1, 4, 16, 36].map fin) ([2, 5, 8, 9].map fin) none none (fin (4 / 5))
        (fin 2) (fin 0) (fin (99 / 100)) (some "linear") 16 = .ok p ∧
      p.rHalfLight (fun _ => linearInterp) = .error .zeroDivisionError) := by
  have hcp : calculatePetrosian ([1, 4, 16, 36].map fin : List (F ℚ)) ([2, 5, 8, 9].map fin) none none =
      .ok ([nan, fin (4 / 5), fin (1 / 2), fin (1 / 5)], none) := by decide +kernel
  constructor
  · exact ⟨_, Petrosian.init_ok_iff.2 ⟨by simp, by simp, by simp, by simp, _, _, hcp, rfl⟩, by decide +kernel, by decide +kernel⟩
  · exact ⟨_, Petrosian.init_ok_iff.2 ⟨by simp, by simp, by simp, by simp, _, _, hcp, rfl⟩, by decide +kernel⟩

/-- `fraction_to_r` on finite data, no errors: returns unless `r_epsilon` is below the smallest radius. -/
theorem fractionToR_total {ip : InterpFam K} {R Y : List K} {kind : Option String} {num m : Nat}
    (hip : Lawful (ip (kind.getD "cubic")) m) (hm : m ≤ R.length) (h2 : 2 ≤ R.length) (hl : R.length = Y.length) (hR : Incr R)
    {rp : F K} {eps : F K} {epsf : F K} (hepsf : epsf ≠ fin 0) (f : F K) (rpe : Option (F K)) (hq : Query (rp * eps))
    (hge : ∀ x, rp * eps = fin x → ∃ lo ∈ R, lo ≤ x) :
    ∃ r, fractionToR ip f (R.map fin) (Y.map fin) rp none rpe eps epsf kind num = .ok (r, nan) := by
  have hne : R ≠ [] := by rintro rfl; simp at h2
  obtain ⟨hi, h3, hmax, h3'⟩ := pyMax_fin hne
  by_cases hlt : F.lt (fin hi) (rp * eps) = true
  · unfold fractionToR
    simp only [hmax, Except.bind_ok]
    rw [if_pos hlt]
    exact ⟨_, rfl⟩
  · obtain ⟨xs, ys, hS, hlen⟩ := Sampled.exists (ip := ip) (kind := kind) (num := num)
      (by rintro k rfl; exact hip) hm h2 hl hR
    obtain ⟨ef, hef⟩ : ∃ ef, ip (kind.getD "cubic") (R.map fin) (Y.map fin) (rp * eps) = .ok ef := by
      rcases hq with h | ⟨x, hx⟩
      · rw [h]; exact ⟨_, hip.atNaN R Y hl hm hR⟩
      · rw [hx]
        obtain ⟨v, hv⟩ := hip.total R Y hl hm hR x ⟨hge x hx, hi, h3, by rw [hx] at hlt; simpa using hlt⟩
        exact ⟨_, hv⟩
    obtain ⟨o, ho⟩ := closestValueIndex_total (ef * (f / epsf)) (ys.map fin) true
    obtain ⟨r, hr⟩ : ∃ r, radiusAt (ef * (f / epsf)) (xs.map fin, ys.map fin) true = .ok r := by
      cases o with
      | none => exact ⟨_, radiusAt_none ho⟩
      | some i =>
        have := closestValueIndex_lt ho
        exact ⟨_, radiusAt_some ho (by simpa [hlen] using this)⟩
    exact ⟨r, fractionToR_none_ok h2 h3 h3' (by simpa using hlt) hef (pyDiv_ok hepsf) hS hr⟩

/-- C17, what holds: with finite data, no error arrays, an interpolation kind that has enough points, `epsilon_fraction ≠ 0` and a
profile that is finite after its first entry, `r_petrosian` never raises, and the other queries never raise exactly when `r_petrosian`
is NaN or `r_epsilon` is not below the smallest radius.  Missing from the full claim: the three situations of the counterexamples, error
arrays (C18), `interp_kind=None` (C23), profiles with infinities. -/
theorem C17_no_crash_partial (ip : InterpFam K) (R A Y : List K) (eta : F K) (eps : K) (epsf tff : F K) (k : String)
    (num : Nat) {m : Nat} (hip : Lawful (ip k) m) (hm : m ≤ R.length) (hR : Incr R) (hR0 : Incr (0 :: R.tail)) (hepsf : epsf ≠ fin 0)
    {p : Petrosian K}
    (hp : Petrosian.init (R.map fin) (A.map fin) (Y.map fin) none none eta (fin eps) epsf tff (some k) num = .ok p)
    {P : List K} (hfin : p.petrosianList.tail = P.map fin) (hPl : P.length + 1 = R.length) :
    ∃ rp, p.rPetrosian ip = .ok rp ∧
      ((rp = nan ∨ ∃ x, rp = fin x ∧ ∃ lo ∈ R, lo ≤ x * eps) →
        (∀ f, ∃ r, p.fractionFluxToR ip f = .ok r) ∧ (∃ r, p.rHalfLight ip = .ok r) ∧ (∃ r, p.rTotalFlux ip = .ok r) ∧
        (∃ v, p.totalFlux ip = .ok v) ∧ (∃ v, p.halfFlux ip = .ok v) ∧ ∃ v, p.c2080 ip = .ok v) ∧
      ((∃ x, rp = fin x ∧ ∀ lo ∈ R, x * eps < lo) → ∀ f, p.fractionFluxToR ip f = .error .valueError) := by
  obtain ⟨h2, hl, _, _, pl, pe, hcp, rfl⟩ := Petrosian.init_ok_iff.1 hp
  obtain rfl := calculatePetrosian_none_snd hcp
  simp only [List.length_map] at h2 hl
  have h2' : 2 ≤ R.length := by omega
  obtain ⟨p0, rfl⟩ : ∃ p0, pl = p0 :: P.map fin := by
    cases pl with
    | nil =>
      have := (profile_length _ _ _ _ _ _ hcp).2
      simp at this
    | cons p0 pl => exact ⟨p0, by simpa using hfin⟩
  have hlen0 : (0 :: R.tail).length = R.length := by simp; omega
  obtain ⟨xs, ys, hS, hxy⟩ := Sampled.exists (ip := ip) (kind := some k) (num := num) (R := 0 :: R.tail) (Y := 1 :: P) (m := m)
    (by rintro k' ⟨⟩; exact hip) (by omega) (by omega) (by simp at hlen0 ⊢; omega) hR0
  obtain ⟨rp, hrad⟩ : ∃ r, radiusAt eta (xs.map fin, ys.map fin) false = .ok r := by
    obtain ⟨o, ho⟩ := closestValueIndex_total eta (ys.map fin) false
    cases o with
    | none => exact ⟨_, radiusAt_none ho⟩
    | some i => exact ⟨_, radiusAt_some ho (by simpa [hxy] using closestValueIndex_lt ho)⟩
  have hcpr : calculatePetrosianR ip (R.map fin) (p0 :: P.map fin) none eta (some k) num = .ok (rp, nan) := by
    cases R with
    | nil => simp at h2
    | cons r0 R =>
      unfold calculatePetrosianR
      simp only [List.map_cons, setItem0, Except.bind_ok]
      have e0 : (fin 0 :: R.map fin : List (F K)) = (0 :: R).map fin := by simp
      have e2 : (fin 1 :: P.map fin : List (F K)) = (1 :: P).map fin := by simp
      rw [e0, e2, (getInterpolatedValues_sampled ip (some k) num (0 :: R) _ (by simpa using h2') _).2 ⟨xs, ys.map fin, rfl, hS⟩]
      simp only [Except.bind_ok, hrad]
  refine ⟨rp, ?_, ?_, ?_⟩
  · unfold Petrosian.rPetrosian Petrosian.calcPetrosianR
    simp only [hcpr]; rfl
  · intro hcond
    have hq : Query (rp * fin eps) := (calculatePetrosianR_query h2' hcpr).mul_fin eps
    have hge : ∀ x, rp * fin eps = fin x → ∃ lo ∈ R, lo ≤ x := by
      intro x hx
      rcases hcond with rfl | ⟨y, rfl, lo, hlo, hle⟩
      · simp at hx
      · rw [fin_mul] at hx; injection hx with hx
        exact ⟨lo, hlo, by rw [← hx]; exact hle⟩
    have hfrac : ∀ f, ∃ r, Petrosian.calcFractionToR ip
        ⟨R.map fin, A.map fin, Y.map fin, none, none, eta, fin eps, epsf, tff, some k, num, p0 :: P.map fin, none⟩ f = .ok (r, nan) := by
      intro f
      obtain ⟨r, hr⟩ := fractionToR_total (ip := ip) (kind := some k) (num := num) hip hm h2' hl hR hepsf f (some nan) hq hge
      refine ⟨r, ?_⟩
      unfold Petrosian.calcFractionToR Petrosian.rPetrosian Petrosian.rPetrosianErr Petrosian.calcPetrosianR
      simp only [hcpr, Except.map, Except.bind_ok, hr]
    have hflux : ∀ f, ∃ v, ((Petrosian.calcFractionToR ip
        ⟨R.map fin, A.map fin, Y.map fin, none, none, eta, fin eps, epsf, tff, some k, num, p0 :: P.map fin, none⟩ f).map Prod.fst >>=
          Petrosian.fluxAt ip
        ⟨R.map fin, A.map fin, Y.map fin, none, none, eta, fin eps, epsf, tff, some k, num, p0 :: P.map fin, none⟩) = .ok v := by
      intro f
      obtain ⟨r, hr⟩ := hfrac f
      simp only [hr, Except.map, Except.bind_ok]
      have hr' := hr
      unfold Petrosian.calcFractionToR at hr'
      simp only [bind_eq_ok] at hr'
      obtain ⟨_, _, _, _, hr'⟩ := hr'
      have hne : R ≠ [] := by rintro rfl; simp at h2
      obtain ⟨lo, h1, hmin, h1'⟩ := pyMin_fin hne
      obtain ⟨hi, h3, hmax, h3'⟩ := pyMax_fin hne
      unfold Petrosian.fluxAt
      simp only [hmin, hmax, Except.bind_ok]
      rcases fractionToR_query h2' hr' with rfl | ⟨x, rfl, hx⟩
      · simp
      · by_cases hin : (F.le (fin lo) (fin x) && F.le (fin x) (fin hi)) = true
        · rw [if_pos hin]
          obtain ⟨v, hv⟩ := hip.total R Y hl hm hR x hx
          exact ⟨_, hv⟩
        · rw [if_neg hin]; exact ⟨_, rfl⟩
    refine ⟨?_, ?_, ?_, hflux tff, hflux (fin (1 / 2)), ?_⟩
    · intro f; obtain ⟨r, hr⟩ := hfrac f; exact ⟨r, by unfold Petrosian.fractionFluxToR; rw [hr]; rfl⟩
    · obtain ⟨r, hr⟩ := hfrac (fin (1 / 2)); exact ⟨r, by unfold Petrosian.rHalfLight; rw [hr]; rfl⟩
    · obtain ⟨r, hr⟩ := hfrac tff; exact ⟨r, by unfold Petrosian.rTotalFlux; simp only; rw [hr]; rfl⟩
    · have hf' : ∀ f, ∃ r, fractionToR ip f (R.map fin) (Y.map fin) rp none (some nan) (fin eps) epsf (some k) num = .ok (r, nan) :=
        fun f => fractionToR_total hip hm h2' hl hR hepsf f (some nan) hq hge
      obtain ⟨r1, h1⟩ := hf' (fin (1 / 5))
      obtain ⟨r2, h2⟩ := hf' (fin (4 / 5))
      unfold Petrosian.c2080 Petrosian.concentrationIndex Petrosian.rPetrosian Petrosian.rPetrosianErr Petrosian.calcPetrosianR
        calculateConcentrationIndex
      simp only [hcpr, Except.map, Except.bind_ok, h1, h2]
      by_cases hn : (r1.isNaN || r2.isNaN) = true
      · rw [if_pos hn]; exact ⟨_, rfl⟩
      · rw [if_neg hn]; exact ⟨_, rfl⟩
  · rintro ⟨x, rfl, hlt⟩ f
    have hne : R ≠ [] := by rintro rfl; simp at h2
    obtain ⟨hi, h3, hmax, h3'⟩ := pyMax_fin hne
    unfold Petrosian.fractionFluxToR Petrosian.calcFractionToR Petrosian.rPetrosian Petrosian.rPetrosianErr Petrosian.calcPetrosianR
      fractionToR
    have hlt' : F.lt (fin hi) (fin x * fin eps) = false := by simpa using (hlt hi h3).le
    have hout := hip.outside R Y hl hm hR _ ⟨hne, Or.inl hlt⟩
    rw [← fin_mul] at hout
    simp only [hcpr, Except.map, Except.bind_ok, hmax, hlt', Bool.false_eq_true, if_false, Option.getD_some, hout]
    rfl

/-- Non-vacuity of the guard: an object meeting all hypotheses with a finite `r_petrosian`. -/
example : ∃ p : Petrosian ℚ, Petrosian.init ([1, 2, 4, 6].map fin) ([1, 4, 16, 36].map fin) ([2, 5, 8, 9].map fin) none none (fin (4 / 5))
    (fin 2) (fin (99 / 100)) (fin (99 / 100)) (some "linear") 16 = .ok p ∧ p.petrosianList.tail = [4 / 5, 1 / 2, 1 / 5].map fin ∧
    p.rPetrosian (fun _ => linearInterp) = .ok (fin 2) := by
  have hcp : calculatePetrosian ([1, 4, 16, 36].map fin : List (F ℚ)) ([2, 5, 8, 9].map fin) none none =
      .ok ([nan, fin (4 / 5), fin (1 / 2), fin (1 / 5)], none) := by decide +kernel
  exact ⟨_, Petrosian.init_ok_iff.2 ⟨by simp, by simp, by simp, by simp, _, _, hcp, rfl⟩, rfl, by decide +kernel⟩

/-! ### C18 -/

/-- C18 is false of the code: here the radius without flux errors is 5/3, but with flux errors and a radius error for which
`r_epsilon + err` leaves the data, the call raises ValueError. -/
theorem C18_counterexample (ip : InterpFam ℚ) (hip : ip "linear" = linearInterp) :
    fractionToR ip (fin (1 / 2)) ([1, 2, 4, 6].map fin) ([2, 5, 8, 9].map fin) (fin 2) none (some (fin 3)) (fin 2) (fin 1)
      (some "linear") 16 = .ok (fin (5 / 3), nan) ∧
    fractionToR ip (fin (1 / 2)) ([1, 2, 4, 6].map fin) ([2, 5, 8, 9].map fin) (fin 2) (some ([1, 1, 1, 1].map fin)) (some (fin 3))
      (fin 2) (fin 1) (some "linear") 16 = .error .valueError := by
  have hfam : ∀ x y q, ip "linear" x y q = linearInterp x y q := fun x y q => by rw [hip]
  constructor
  · have : fractionToR (fun _ => linearInterp) (fin (1 / 2)) ([1, 2, 4, 6].map fin) ([2, 5, 8, 9].map fin : List (F ℚ)) (fin 2) none
        (some (fin 3)) (fin 2) (fin 1) (some "linear") 16 = .ok (fin (5 / 3), nan) := by decide +kernel
    rw [← this]
    unfold fractionToR getInterpolatedValues
    simp only [Option.getD_some, hip]
  · unfold fractionToR
    have h1 : pyMax ([1, 2, 4, 6].map fin : List (F ℚ)) = .ok (fin 6) := by decide +kernel
    have h2 : linearInterp ([1, 2, 4, 6].map fin : List (F ℚ)) ([2, 5, 8, 9].map fin) (fin 2 * fin 2) = .ok (fin 8) := by
      decide +kernel
    have h3 : (getInterpolatedValues ip ([1, 2, 4, 6].map fin : List (F ℚ)) ([2, 5, 8, 9].map fin) 16 (some "linear") >>=
        fun s => radiusAt (fin 8 * fin (1 / 2)) s true) = .ok (fin (5 / 3)) := by
      unfold getInterpolatedValues
      simp only [hip]
      decide +kernel
    have h4 : pyDiv (fin (1 / 2) : F ℚ) (fin 1) = .ok (fin (1 / 2)) := by decide +kernel
    have h5 : zipOp (· - ·) ([2, 5, 8, 9].map fin : List (F ℚ)) ([1, 1, 1, 1].map fin) = .ok ([1, 4, 7, 8].map fin) := by decide +kernel
    have h6 : zipOp (· + ·) ([2, 5, 8, 9].map fin : List (F ℚ)) ([1, 1, 1, 1].map fin) = .ok ([3, 6, 9, 10].map fin) := by decide +kernel
    have h7 : linearInterp ([1, 2, 4, 6].map fin : List (F ℚ)) ([1, 4, 7, 8].map fin) (fin 2 * fin 2 - fin 3) = .ok (fin 1) := by
      decide +kernel
    have h8 : linearInterp ([1, 2, 4, 6].map fin : List (F ℚ)) ([3, 6, 9, 10].map fin) (fin 2 * fin 2 + fin 3) = .error .valueError := by
      decide +kernel
    have hlt : F.lt (fin 6 : F ℚ) (fin 2 * fin 2) = false := by decide +kernel
    rw [h1]
    simp only [Except.bind_ok, hlt, Bool.false_eq_true, if_false, Option.getD_some, hip, h2, h4, h5, h6, isNaN_fin, h7, h8]
    rw [bind_eq_ok] at h3
    obtain ⟨s, hs, hr⟩ := h3
    simp only [hs, Except.bind_ok, hr, isNaN_fin, Bool.false_eq_true, if_false, h7, h8]
    rfl

/-- C18, what holds: on finite data, if `r_epsilon ± err` stays inside the radii (and there are enough points for both the chosen kind and
the cubic interpolation the error code always uses), supplying flux errors gives the same radius and an error value. -/
theorem C18_errors_partial (ip : InterpFam K) (R Y E : List K) (f : F K) (rp eps epsf err : K) (kind : Option String) (num m m' : Nat)
    (hip : Lawful (ip (kind.getD "cubic")) m) (hm : m ≤ R.length) (hcub : Lawful (ip "cubic") m') (hm' : m' ≤ R.length)
    (h2 : 2 ≤ R.length) (hl : R.length = Y.length) (hlE : R.length = E.length) (hR : Incr R) (hepsf : epsf ≠ 0)
    (hlo : InRange R (rp * eps - err)) (hhi : InRange R (rp * eps + err)) {r : F K}
    (h : fractionToR ip f (R.map fin) (Y.map fin) (fin rp) none (some (fin err)) (fin eps) (fin epsf) kind num = .ok (r, nan)) :
    ∃ e, fractionToR ip f (R.map fin) (Y.map fin) (fin rp) (some (E.map fin)) (some (fin err)) (fin eps) (fin epsf) kind num =
      .ok (r, e) := by
  obtain ⟨hi, h3, h3', hcase⟩ := fractionToR_cases h2 h
  have hne : R ≠ [] := by rintro rfl; simp at h2
  obtain ⟨hi', g3, hmax, g3'⟩ := pyMax_fin hne
  have hh : hi' = hi := le_antisymm (h3' _ g3) (g3' _ h3)
  subst hh
  rcases hcase with ⟨hlt, h1, h4⟩ | ⟨hlt, ef, q, xs, ys, hef, hq, hS, hr⟩
  · refine ⟨nan, ?_⟩
    unfold fractionToR
    simp only [hmax, Except.bind_ok]
    rw [if_pos hlt, h1]
  · unfold fractionToR
    simp only [hmax, Except.bind_ok]
    rw [if_neg (by rw [hlt]; simp)]
    simp only [hef, hq, Except.bind_ok, (getInterpolatedValues_sampled ip kind num R _ h2 _).2 ⟨xs, ys, rfl, hS⟩, hr]
    by_cases hn : r.isNaN = true
    · rw [if_pos hn]; exact ⟨_, rfl⟩
    rw [if_neg hn]
    have hz : ∀ (fF : F K → F K → F K) (g : K → K → K), (∀ a b, fF (fin a) (fin b) = fin (g a b)) →
        zipOp fF (Y.map fin) (E.map fin) = .ok ((List.zipWith g Y E).map fin) := by
      intro fF g hfg
      unfold zipOp
      rw [if_pos (by simp; omega), List.zipWith_map, List.map_zipWith]
      simp only [hfg]
    rw [hz (· - ·) (· - ·) (fun a b => by simp), hz (· + ·) (· + ·) (fun a b => by simp)]
    simp only [Except.bind_ok, isNaN_fin, Bool.false_eq_true, if_false, fin_mul, fin_sub, fin_add]
    obtain ⟨v1, hv1⟩ := hip.total R (List.zipWith (· - ·) Y E) (by simp; omega) hm hR _ hlo
    obtain ⟨v2, hv2⟩ := hip.total R (List.zipWith (· + ·) Y E) (by simp; omega) hm hR _ hhi
    simp only [hv1, hv2, Except.bind_ok]
    have hsamp : ∀ (Z : List K) (v : F K), R.length = Z.length → ∃ r', (getInterpolatedValues ip (R.map fin) (Z.map fin) >>=
        fun s => radiusAt v s true) = .ok r' := by
      intro Z v hZ
      obtain ⟨xs, ys, hS, hlen⟩ := Sampled.exists (ip := ip) (kind := some "cubic") (num := 5000)
        (by rintro k ⟨⟩; exact hcub) hm' h2 hZ hR
      rw [(getInterpolatedValues_sampled ip (some "cubic") 5000 R _ h2 _).2 ⟨xs, ys.map fin, rfl, hS⟩, Except.bind_ok]
      obtain ⟨o, ho⟩ := closestValueIndex_total v (ys.map fin) true
      cases o with
      | none => exact ⟨_, radiusAt_none ho⟩
      | some i => exact ⟨_, radiusAt_some ho (by simpa [hlen] using closestValueIndex_lt ho)⟩
    obtain ⟨r1, hr1⟩ := hsamp (List.zipWith (· - ·) Y E) (ef * q + (fin v2 - fin v1) / fin 2) (by simp; omega)
    obtain ⟨r2, hr2⟩ := hsamp (List.zipWith (· + ·) Y E) (ef * q - (fin v2 - fin v1) / fin 2) (by simp; omega)
    rw [bind_eq_ok] at hr1 hr2
    obtain ⟨s1, hs1, hr1⟩ := hr1
    obtain ⟨s2, hs2, hr2⟩ := hr2
    simp only [hs1, hs2, Except.bind_ok, hr1, hr2]
    exact ⟨_, rfl⟩

/-- Non-vacuity: the numbers of the counterexample with a smaller radius error satisfy the guard. -/
example : InRange ([1, 2, 4, 6] : List ℚ) (2 * 2 - 1) ∧ InRange ([1, 2, 4, 6] : List ℚ) (2 * 2 + 1) := by
  unfold InRange; decide +kernel

/-! ### C19 -/

/-- C19: aliases agree, as whole outcomes (value or exception), for every object state. -/
theorem C19_aliases (ip : InterpFam K) (p : Petrosian K) :
    p.r50 ip = p.rHalfLight ip ∧ p.rHalfLight ip = p.fractionFluxToR ip (fin (1 / 2)) ∧
    p.r50Err ip = p.rHalfLightErr ip ∧ p.rHalfLightErr ip = p.fractionFluxToRErr ip (fin (1 / 2)) ∧
    p.rTotalFlux ip = p.fractionFluxToR ip p.totalFluxFraction ∧
    (∀ f1 f2 a b c, p.concentrationIndex ip f1 f2 = .ok (a, b, c) →
      (a = nan ∧ b = nan ∧ c = nan) ∨ (p.fractionFluxToR ip f1 = .ok a ∧ p.fractionFluxToR ip f2 = .ok b)) ∧
    p.c2080 ip = (p.concentrationIndex ip (fin (1 / 5)) (fin (4 / 5))).map (fun t => t.2.2) ∧
    p.c5090 ip = (p.concentrationIndex ip (fin (1 / 2)) (fin (9 / 10))).map (fun t => t.2.2) := by
  refine ⟨rfl, rfl, rfl, rfl, rfl, ?_, rfl, rfl⟩
  intro f1 f2 a b c h
  unfold Petrosian.concentrationIndex at h
  simp only [bind_eq_ok] at h
  obtain ⟨rp, hrp, rpe, hrpe, h⟩ := h
  obtain ⟨r1, e1, r2, e2, g1, g2, hc⟩ := C14_concentration_consistent ip _ _ _ _ _ _ _ _ _ _ _ h
  have hfrac : ∀ f r e, Verif.fractionToR ip f p.rList p.fluxList rp p.fluxErr (some rpe) p.epsilon p.epsilonFraction
      p.interpKind p.interpNum = .ok (r, e) → p.fractionFluxToR ip f = .ok r := by
    intro f r e hh
    unfold Petrosian.fractionFluxToR Petrosian.calcFractionToR
    simp only [hrp, hrpe, Except.bind_ok, hh]; rfl
  rcases hc with ⟨rfl, rfl, rfl, _⟩ | ⟨rfl, rfl, _, _, _⟩
  · exact Or.inl ⟨rfl, rfl, rfl⟩
  · exact Or.inr ⟨hfrac _ _ _ g1, hfrac _ _ _ g2⟩

/-- Non-vacuity: an object whose concentration index has finite radii. -/
example : ((Petrosian.init ([1, 2, 4, 6].map fin : List (F ℚ)) ([1, 4, 16, 36].map fin) ([2, 5, 8, 9].map fin) none none (fin (4 / 5))
    (fin 2) (fin 1) (fin 1) (some "linear") 16).bind fun p => p.fractionFluxToR (fun _ => linearInterp) (fin (9 / 10))) = .ok (fin (10 / 3)) := by
  decide +kernel

end

end Verif.Props

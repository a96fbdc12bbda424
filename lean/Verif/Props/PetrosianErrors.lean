import Verif.Props.PetrosianFluxes

/-!
# C101: the error of a flux-fraction radius; C102: validation in the `Petrosian` constructor
-/

set_option linter.unusedSectionVars false
set_option linter.unusedVariables false

namespace Verif.Spec

variable {K : Type} [Field K] [LinearOrder K]

/-- `x` is the abscissa of the sample that reads off the value `v` on a sampled growing curve: among the samples up to the first one that
reaches `v`, the first of those closest to `v`. -/
def ReadOff (xs ys : List K) (v x : K) : Prop :=
  ∃ i n, ∃ hx : i < xs.length, ∃ hn : n < ys.length, ∃ hi : i ≤ n, x = xs[i] ∧ v ≤ ys[n] ∧ (∀ j (hj : j < n), ys[j] < v) ∧
    (∀ j (hj : j ≤ n), |ys[i] - v| ≤ |ys[j] - v|) ∧ ∀ j (hj : j < i), |ys[i] - v| < |ys[j] - v|

end Verif.Spec

namespace Verif.Props

open F Spec

section
variable {K : Type} [Field K] [LinearOrder K] [IsStrictOrderedRing K]

/-- **C101, NaN.** Without flux errors, or without a radius, the radius error is NaN; for all data. -/
theorem C101_nan_cases (ip : InterpFam K) (frac : F K) (R flux : List (F K)) (rp : F K) (fe : Option (List (F K))) (rpe : Option (F K))
    (eps epsf : F K) (kind : Option String) (num : Nat) {r e : F K}
    (h : fractionToR ip frac R flux rp fe rpe eps epsf kind num = .ok (r, e)) (hc : fe = none ∨ r = nan) : e = nan := by
  unfold fractionToR at h
  obtain ⟨hi, _, h⟩ := bind_eq_ok.1 h
  by_cases hlt : F.lt hi (rp * eps) = true
  · rw [if_pos hlt] at h; injection h with h; injection h with _ h; exact h.symm
  rw [if_neg hlt] at h
  simp only [bind_eq_ok] at h
  obtain ⟨ef, hef, q, hq, s, hs, rf, hrf, h⟩ := h
  cases fe with
  | none => simp only at h; injection h with h; injection h with _ h; exact h.symm
  | some fe =>
    simp only at h
    by_cases hn : rf.isNaN = true
    · rw [if_pos hn] at h; injection h with h; injection h with _ h; exact h.symm
    · rw [if_neg hn] at h
      simp only [bind_eq_ok] at h
      obtain ⟨_, _, _, _, _, _, _, _, _, _, _, _, _, _, _, _, h⟩ := h
      injection h with h; injection h with h1 _
      rcases hc with hc | hc
      · cases hc
      · rw [h1, hc] at hn; simp at hn

/-- The error of `r_petrosian` that enters: zero when absent or NaN. -/
def usedErr (rpe : Option (F K)) : F K := match rpe with
  | none => fin 0
  | some e => if e.isNaN then fin 0 else e

theorem radiusAt_readOff {v : K} {xs ys : List K} (hl : xs.length = ys.length) {r : F K}
    (h : radiusAt (fin v) (xs.map fin, ys.map fin) true = .ok r) :
    (r = nan ∧ ∀ y ∈ ys, y < v) ∨ ∃ x, r = fin x ∧ ReadOff xs ys v x := by
  rcases radiusAt_cases h with ⟨h1, h2⟩ | ⟨i, h1, hi, h2⟩
  · left
    refine ⟨h1, fun y hy => ?_⟩
    have := ((C07_closest_value_index v ys true).1).1 h2 y hy
    simpa [Reaches] using this
  · right
    obtain ⟨n, hn, hin, g1, g2, g3, g4⟩ := ((C07_closest_value_index v ys true).2.1 i).1 h1
    refine ⟨xs[i], h2, i, n, hi, hn, hin, rfl, ?_, ?_, g3, g4⟩
    · simpa [Reaches] using g1
    · intro j hj
      have := g2 j hj
      simpa [Reaches] using this

/-- **C101, value.** On finite data, with a finite radius, the error is half the distance between the radius where the curve lowered by
its errors reads `F + δ` and the radius where the raised curve reads `F - δ`: `F` is the fraction of the flux inside `r_epsilon` and `δ`
half the difference between the raised curve at `r_epsilon + err` and the lowered curve at `r_epsilon - err`.  It is NaN exactly when one
of the curves does not reach its value. -/
theorem C101_value (ip : InterpFam K) (R Y E : List K) (f rp eps epsf : K) (rpe : Option (F K)) (kind : Option String) (num : Nat)
    {m m' : Nat} (hip : Lawful (ip (kind.getD "cubic")) m) (hm : m ≤ R.length) (hcub : Lawful (ip "cubic") m') (hm' : m' ≤ R.length)
    (h2 : 2 ≤ R.length) (hl : R.length = Y.length) (hlE : R.length = E.length) (hR : Incr R) (hepsf : epsf ≠ 0) {err : K}
    (herr : usedErr rpe = fin err) {r : K} {e : F K}
    (h : fractionToR ip (fin f) (R.map fin) (Y.map fin) (fin rp) (some (E.map fin)) rpe (fin eps) (fin epsf) kind num = .ok (fin r, e)) :
    ∃ flux lo hi, ip (kind.getD "cubic") (R.map fin) (Y.map fin) (fin (rp * eps)) = .ok (fin flux) ∧
      ip (kind.getD "cubic") (R.map fin) ((List.zipWith (· - ·) Y E).map fin) (fin (rp * eps - err)) = .ok (fin lo) ∧
      ip (kind.getD "cubic") (R.map fin) ((List.zipWith (· + ·) Y E).map fin) (fin (rp * eps + err)) = .ok (fin hi) ∧
      ∃ xs ysLo ysHi : List K, Sampled ip (some "cubic") 5000 R ((List.zipWith (· - ·) Y E).map fin) xs (ysLo.map fin) ∧
        Sampled ip (some "cubic") 5000 R ((List.zipWith (· + ·) Y E).map fin) xs (ysHi.map fin) ∧
        ((e = nan ∧ ((∀ y ∈ ysLo, y < flux * (f / epsf) + (hi - lo) / 2) ∨ ∀ y ∈ ysHi, y < flux * (f / epsf) - (hi - lo) / 2)) ∨
         ∃ a b, ReadOff xs ysLo (flux * (f / epsf) + (hi - lo) / 2) a ∧ ReadOff xs ysHi (flux * (f / epsf) - (hi - lo) / 2) b ∧
           e = fin ((a - b) / 2)) := by
  have hne : R ≠ [] := by rintro rfl; simp at h2
  obtain ⟨mx, g3, hmax, g3'⟩ := pyMax_fin hne
  have hz : ∀ (fF : F K → F K → F K) (g : K → K → K), (∀ a b, fF (fin a) (fin b) = fin (g a b)) →
      zipOp fF (Y.map fin) (E.map fin) = .ok ((List.zipWith g Y E).map fin) := by
    intro fF g hfg
    unfold zipOp
    rw [if_pos (by simp; omega), List.zipWith_map, List.map_zipWith]
    simp only [hfg]
  unfold fractionToR at h
  simp only [hmax, Except.bind_ok] at h
  by_cases hlt : F.lt (fin mx) (fin rp * fin eps) = true
  · rw [if_pos hlt] at h; injection h with h; injection h with h _; cases h
  rw [if_neg hlt] at h
  simp only [bind_eq_ok] at h
  obtain ⟨ef, hef, q, hq, s, hs, rf, hrf, h⟩ := h
  by_cases hn : rf.isNaN = true
  · rw [if_pos hn] at h; injection h with h; injection h with h _
    rw [h] at hn; simp at hn
  rw [if_neg hn] at h
  rw [hz (· - ·) (· - ·) (fun a b => by simp), hz (· + ·) (· + ·) (fun a b => by simp)] at h
  simp only [bind_eq_ok, Except.ok.injEq, exists_eq_left'] at h
  obtain ⟨fLo, hfLo, fUp, hfUp, s1, hs1, r1, hr1, s2, hs2, r2, hr2, h⟩ := h
  change ip _ _ _ (fin rp * fin eps - usedErr rpe) = _ at hfLo
  change ip _ _ _ (fin rp * fin eps + usedErr rpe) = _ at hfUp
  rw [herr] at hfLo hfUp
  rw [fin_mul] at hef hfLo hfUp
  rw [fin_sub] at hfLo
  rw [fin_add] at hfUp
  -- interpolated values of finite data at finite points are finite
  have hfin : ∀ (Z : List K) (x : K) (v : F K), R.length = Z.length → ip (kind.getD "cubic") (R.map fin) (Z.map fin) (fin x) = .ok v →
      ∃ w, v = fin w := by
    intro Z x v hZ hv
    rcases inRange_or_out hne x with hx | hx
    · obtain ⟨w, hw⟩ := hip.total R Z hZ hm hR x hx
      rw [hw] at hv; injection hv with hv; exact ⟨w, hv.symm⟩
    · rw [hip.outside R Z hZ hm hR x hx] at hv; cases hv
  obtain ⟨flux, rfl⟩ := hfin Y _ _ hl hef
  obtain ⟨lo, rfl⟩ := hfin _ _ _ (by simp; omega) hfLo
  obtain ⟨hi, rfl⟩ := hfin _ _ _ (by simp; omega) hfUp
  have hq' : q = fin (f / epsf) := by
    unfold pyDiv at hq
    rw [if_neg (by simpa using hepsf), fin_div_of_ne _ hepsf] at hq
    injection hq with hq; exact hq.symm
  rw [hq'] at hr1 hr2
  obtain ⟨xs, ysLo, hSlo, hlenLo⟩ := Sampled.exists (ip := ip) (kind := some "cubic") (num := 5000) (Y := List.zipWith (· - ·) Y E)
    (by rintro k ⟨⟩; exact hcub) hm' h2 (by simp; omega) hR
  obtain ⟨xs', ysHi, hShi, hlenHi⟩ := Sampled.exists (ip := ip) (kind := some "cubic") (num := 5000) (Y := List.zipWith (· + ·) Y E)
    (by rintro k ⟨⟩; exact hcub) hm' h2 (by simp; omega) hR
  have hxx : xs' = xs := by
    obtain ⟨a, b, ha, hb, hx, _⟩ := hSlo
    obtain ⟨a', b', ha', hb', hx', _⟩ := hShi
    rw [hx, hx', le_antisymm (ha.2 _ ha'.1) (ha'.2 _ ha.1), le_antisymm (hb'.2 _ hb.1) (hb.2 _ hb'.1)]
  subst hxx
  have e1 := (getInterpolatedValues_sampled ip (some "cubic") 5000 R _ h2 _).2 ⟨xs', ysLo.map fin, rfl, hSlo⟩
  have e2 := (getInterpolatedValues_sampled ip (some "cubic") 5000 R _ h2 _).2 ⟨xs', ysHi.map fin, rfl, hShi⟩
  rw [e1] at hs1
  rw [e2] at hs2
  cases hs1
  cases hs2
  have hd : (fin hi - fin lo) / fin 2 = (fin ((hi - lo) / 2) : F K) := by
    rw [fin_sub, fin_div_of_ne _ (by norm_num)]
  rw [hd, fin_mul, fin_add] at hr1
  rw [hd, fin_mul, fin_sub] at hr2
  refine ⟨flux, lo, hi, hef, hfLo, hfUp, xs', ysLo, ysHi, hSlo, hShi, ?_⟩
  have he : e = (r1 - r2) / fin 2 := by
    injection h with _ h; exact h.symm
  rcases radiusAt_readOff hlenLo hr1 with ⟨c1, c2⟩ | ⟨a, c1, c2⟩
  · left
    refine ⟨by rw [he, c1]; simp, Or.inl c2⟩
  rcases radiusAt_readOff hlenHi hr2 with ⟨d1, d2⟩ | ⟨b, d1, d2⟩
  · left
    refine ⟨by rw [he, d1, c1]; simp, Or.inr d2⟩
  · right
    refine ⟨a, b, c2, d2, ?_⟩
    rw [he, c1, d1, fin_sub, fin_div_of_ne _ (by norm_num)]

/-- **C101, zero errors.** With all-zero flux errors, and no, NaN or zero error of `r_petrosian`, the error of a radius is zero — or NaN,
when the cubic curve that the error code always samples does not reach the fraction. -/
theorem C101_zero (ip : InterpFam K) (R Y : List K) (f rp eps epsf : K) (rpe : Option (F K)) (kind : Option String) (num : Nat)
    {m m' : Nat} (hip : Lawful (ip (kind.getD "cubic")) m) (hm : m ≤ R.length) (hcub : Lawful (ip "cubic") m') (hm' : m' ≤ R.length)
    (h2 : 2 ≤ R.length) (hl : R.length = Y.length) (hR : Incr R) (hepsf : epsf ≠ 0) (herr : usedErr rpe = fin (0 : K)) {r : K} {e : F K}
    (h : fractionToR ip (fin f) (R.map fin) (Y.map fin) (fin rp) (some ((Y.map fun _ => 0).map fin)) rpe (fin eps) (fin epsf) kind num =
      .ok (fin r, e)) : e = fin 0 ∨ e = nan := by
  obtain ⟨flux, lo, hi, h1, h3, h4, xs, ysLo, ysHi, hLo, hHi, hc⟩ :=
    C101_value ip R Y _ f rp eps epsf rpe kind num hip hm hcub hm' h2 hl (by simpa using hl) hR hepsf herr h
  have z1 : List.zipWith (· - ·) Y (Y.map fun _ => (0 : K)) = Y := by
    apply List.ext_getElem
    · simp
    · intro i h1 h2
      simp
  have z2 : List.zipWith (· + ·) Y (Y.map fun _ => (0 : K)) = Y := by
    apply List.ext_getElem
    · simp
    · intro i h1 h2
      simp
  rw [z1, sub_zero, h1] at h3
  rw [z2, add_zero, h1] at h4
  injection h3 with h3
  injection h3 with h3
  injection h4 with h4
  injection h4 with h4
  rw [z1] at hLo
  rw [z2] at hHi
  have hy : ysLo = ysHi := by
    obtain ⟨_, _, _, _, _, h5⟩ := hLo
    obtain ⟨_, _, _, _, _, h6⟩ := hHi
    have hinj : Function.Injective (fin : K → F K) := fun a b h => by injection h
    apply List.map_injective_iff.2 hinj
    have l5 := h5.length_eq
    have l6 := h6.length_eq
    apply List.ext_getElem
    · omega
    · intro i i1 i2
      have a5 := (List.forall₂_iff_get.1 h5).2 i (by omega) i1
      have a6 := (List.forall₂_iff_get.1 h6).2 i (by omega) i2
      simp only [List.get_eq_getElem] at a5 a6
      rw [a5] at a6
      injection a6
  rw [← h3, ← h4, sub_self, zero_div, add_zero, sub_zero, hy] at hc
  rcases hc with ⟨h5, _⟩ | ⟨a, b, ha, hb, he⟩
  · exact Or.inr h5
  · left
    have hab : a = b := by
      obtain ⟨i, n, hx, hn, hin, rfl, g1, g2, g3, g4⟩ := ha
      obtain ⟨i', n', hx', hn', hin', rfl, k1, k2, k3, k4⟩ := hb
      have hnn : n = n' := by
        rcases Nat.lt_trichotomy n n' with h | h | h
        · exact absurd g1 (not_le.2 (k2 n h))
        · exact h
        · exact absurd k1 (not_le.2 (g2 n' h))
      subst hnn
      have hii : i = i' := by
        rcases Nat.lt_trichotomy i i' with h | h | h
        · exact absurd (g3 i' hin') (not_le.2 (k4 i h))
        · exact h
        · exact absurd (k3 i hin) (not_le.2 (g4 i' h))
      subst hii
      rfl
    rw [he, hab, sub_self, zero_div]

/-- Non-vacuity: a positive error. -/
example : fractionToR (fun _ => linearInterp) (fin 1) ([1, 2, 4, 6].map fin) ([2, 5, 8, 9].map fin) (fin 2)
      (some ([1, 0, 0, 0].map fin)) (some (fin 1)) (fin 1) (fin 1) (some "linear") 16 = .ok (fin 2, fin (14165 / 9998 : ℚ)) := by
  simpa using C21_search 1 (Or.inl rfl)

/-- The error of `r_petrosian` that enters. -/
example : usedErr (some (nan : F ℚ)) = fin 0 ∧ usedErr (some (fin (1 / 2) : F ℚ)) = fin (1 / 2) ∧ usedErr (none : Option (F ℚ)) = fin 0 := by
  decide +kernel

/-! ### C102 -/

/-- **C102.** The `Petrosian` constructor accepts exactly the curves with as many radii as fluxes that `calculate_petrosian` accepts, keeps
every array and parameter as given, and raises nothing but AssertionError. -/
theorem C102_constructor [HasSqrt K] (R A Y : List (F K)) (aE fE : Option (List (F K))) (eta eps epsf tff : F K) (kind : Option String)
    (num : Nat) :
    ((∃ p, Petrosian.init R A Y aE fE eta eps epsf tff kind num = .ok p) ↔ R.length = Y.length ∧ Accepted A Y aE fE) ∧
    (∀ p, Petrosian.init R A Y aE fE eta eps epsf tff kind num = .ok p →
      p.rList = R ∧ p.areaList = A ∧ p.fluxList = Y ∧ p.areaErr = aE ∧ p.fluxErr = fE ∧ p.eta = eta ∧ p.epsilon = eps ∧
      p.epsilonFraction = epsf ∧ p.totalFluxFraction = tff ∧ p.interpKind = kind ∧ p.interpNum = num ∧
      calculatePetrosian A Y aE fE = .ok (p.petrosianList, p.petrosianErr)) ∧
    (∀ err, Petrosian.init R A Y aE fE eta eps epsf tff kind num = .error err → err = .assertionError) := by
  refine ⟨?_, ?_, ?_⟩
  · constructor
    · rintro ⟨p, hp⟩
      obtain ⟨h1, h2, h3, h4, pl, pe, h5, _⟩ := Petrosian.init_ok_iff.1 hp
      exact ⟨h2, (C02_validation A Y aE fE).2.1 ⟨_, h5⟩⟩
    · rintro ⟨h1, h2⟩
      obtain ⟨⟨pl, pe⟩, h5⟩ := (C02_validation A Y aE fE).2.2 h2
      obtain ⟨a1, a2, a3, a4, a5⟩ := h2
      exact ⟨_, Petrosian.init_ok_iff.2 ⟨by omega, h1, a5, a4, pl, pe, h5, rfl⟩⟩
  · intro p hp
    obtain ⟨h1, h2, h3, h4, pl, pe, h5, rfl⟩ := Petrosian.init_ok_iff.1 hp
    exact ⟨rfl, rfl, rfl, rfl, rfl, rfl, rfl, rfl, rfl, rfl, rfl, h5⟩
  · intro err h
    unfold Petrosian.init at h
    have done : ∀ {e : PyErr}, (Except.error .assertionError : Except PyErr (Petrosian K)) = .error e → e = .assertionError := by
      intro e he
      injection he with he
      exact he.symm
    by_cases h1 : ¬ 2 < R.length
    · rw [if_pos h1] at h; exact done h
    rw [if_neg h1] at h
    by_cases h2 : R.length ≠ Y.length
    · rw [if_pos h2] at h; exact done h
    rw [if_neg h2] at h
    by_cases h3 : fE.any (fun e => e.length ≠ Y.length) = true
    · rw [if_pos h3] at h; exact done h
    rw [if_neg h3] at h
    by_cases h4 : aE.any (fun e => e.length ≠ A.length) = true
    · rw [if_pos h4] at h; exact done h
    rw [if_neg h4] at h
    cases hc : calculatePetrosian A Y aE fE with
    | error e =>
      rw [hc] at h
      have := ((C02_validation A Y aE fE).1 e).1 hc
      injection h with h
      rw [← h, this.1]
    | ok t => rw [hc] at h; cases h

/-- Non-vacuity: a radius too many. -/
example : ((Petrosian.init ([1, 2, 3, 4].map fin : List (F ℚ)) ([1, 4, 9].map fin) ([1, 2, 3].map fin) none none (fin 0) (fin 0) (fin 0)
    (fin 0)).map Petrosian.rList) = .error .assertionError := by decide +kernel

end
end Verif.Props

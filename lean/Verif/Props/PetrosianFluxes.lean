import Verif.Lemmas.Nearest
import Verif.Props.PetrosianQueries

/-!
# C20–C23: total and half flux of a `Petrosian` object
-/

set_option linter.unusedSectionVars false
set_option linter.unusedVariables false
set_option linter.unusedSimpArgs false

namespace Verif.Props

open F Spec

section
variable {K : Type} [Field K] [LinearOrder K] [IsStrictOrderedRing K] [HasSqrt K] [HasLog10 K]

/-- The flux of an object at the radius of a fraction `tff` of the total flux. -/
theorem fluxAt_fraction (ip : InterpFam K) (p : Petrosian K) (R Y : List K) (eps epsf tff : K) (k : String) {m : Nat}
    (hr : p.rList = R.map fin) (hf : p.fluxList = Y.map fin) (hk : p.interpKind = some k) (heps : p.epsilon = fin eps)
    (hepsf : p.epsilonFraction = fin epsf) (hepsf0 : epsf ≠ 0) 
    (hip : Lawful (ip k) m) (hm : m ≤ R.length) (h2 : 2 ≤ R.length) (hl : R.length = Y.length) (hR : Incr R)
    {r : F K} (h : (p.calcFractionToR ip (fin tff)).map Prod.fst = .ok r) :
    (r = nan → p.fluxAt ip r = .ok nan) ∧
    (r ≠ nan → ∃ x v rp E, r = fin x ∧ p.fluxAt ip r = .ok (fin v) ∧ ip k (R.map fin) (Y.map fin) (fin x) = .ok (fin v) ∧
      p.rPetrosian ip = .ok (fin rp) ∧ ip k (R.map fin) (Y.map fin) (fin (rp * eps)) = .ok (fin E) ∧
      ∃ xs ys : List K, Sampled ip (some k) p.interpNum R (Y.map fin) xs (ys.map fin) ∧
        ∃ i n, ∃ hi : i < xs.length, ∃ hi' : i < ys.length, ∃ hn : n < ys.length, xs[i] = x ∧ ys[i] = v ∧
          E * (tff / epsf) ≤ ys[n] ∧ (∀ j (hj : j < n), ys[j] < E * (tff / epsf)) ∧
          ∀ j (hj : j ≤ n), |v - E * (tff / epsf)| ≤ |ys[j] - E * (tff / epsf)|) := by
  have hne : R ≠ [] := by rintro rfl; simp at h2
  obtain ⟨lo, l1, hmin, l1'⟩ := pyMin_fin hne
  obtain ⟨hi, l3, hmax, l3'⟩ := pyMax_fin hne
  constructor
  · intro hn
    unfold Petrosian.fluxAt
    simp [hn, hr, hmin, hmax, Except.bind_ok]
  · intro hn
    have h' := h
    unfold Petrosian.calcFractionToR at h'
    cases hrp : p.rPetrosian ip with
    | error e => rw [hrp] at h'; cases h'
    | ok rp =>
    cases hrpe : p.rPetrosianErr ip with
    | error e => rw [hrp, hrpe] at h'; cases h'
    | ok rpe =>
    simp only [hrp, hrpe, Except.bind_ok, hr, hf, hk, heps, hepsf] at h'
    cases hfr : Verif.fractionToR ip (fin tff) (R.map fin) (Y.map fin) rp p.fluxErr (some rpe) (fin eps) (fin epsf) (some k)
        p.interpNum with
    | error e => rw [hfr] at h'; cases h'
    | ok t =>
    obtain ⟨r', e⟩ := t
    rw [hfr] at h'
    injection h' with h'
    simp only at h'
    subst h'
    obtain ⟨hi2, g3, g3', ⟨_, g, _⟩ | ⟨hlt, ef, q, xs, ys, hef, hq, hS, hrad⟩⟩ := fractionToR_cases h2 hfr
    · exact absurd g hn
    rw [pyDiv_ok (by intro h; injection h with h; exact hepsf0 h), fin_div_of_ne _ hepsf0] at hq
    injection hq with hq
    subst hq
    simp only [Option.getD_some] at hef
    -- the samples are finite
    obtain ⟨xs', ys', hS', hlen⟩ := Sampled.exists (ip := ip) (kind := some k) (num := p.interpNum)
      (by rintro k' ⟨⟩; exact hip) hm h2 hl hR
    obtain ⟨rfl, rfl⟩ := Sampled.unique h2 hS hS'
    -- r_epsilon and the flux inside it are finite
    have hrpq : rp = nan ∨ ∃ x, rp = fin x := by
      unfold Petrosian.rPetrosian Petrosian.calcPetrosianR at hrp
      cases hcp : calculatePetrosianR ip p.rList p.petrosianList p.petrosianErr p.eta p.interpKind p.interpNum with
      | error e => rw [hcp] at hrp; cases hrp
      | ok t =>
        rw [hcp] at hrp
        injection hrp with hrp
        subst hrp
        obtain ⟨t1, t2⟩ := t
        rw [hr] at hcp
        exact calculatePetrosianR_query h2 hcp
    rcases hrpq with rfl | ⟨rpv, rfl⟩
    · rw [nan_mul, hip.atNaN R Y hl hm hR] at hef
      injection hef with hef
      subst hef
      rw [nan_mul, radiusAt_none (closestValueIndex_nan _ _)] at hrad
      injection hrad with hrad
      exact absurd hrad.symm hn
    rw [fin_mul] at hef
    obtain ⟨E, rfl⟩ : ∃ E, ef = fin E := by
      rcases inRange_or_out hne (rpv * eps) with hin | hout
      · obtain ⟨v, hv⟩ := hip.total R Y hl hm hR _ hin
        rw [hv] at hef; injection hef with hef; exact ⟨v, hef.symm⟩
      · rw [hip.outside R Y hl hm hR _ hout] at hef; cases hef
    rw [fin_mul] at hrad
    rcases radiusAt_cases hrad with ⟨g, _⟩ | ⟨i, hc, hi', hri⟩
    · exact absurd g hn
    obtain ⟨n, hnl, hin, hreach, hfirst, hmin', _⟩ := ((C07_closest_value_index _ ys' true).2.1 i).1 hc
    simp only [Reaches, if_true, not_le] at hreach hfirst
    have hi'' : i < ys'.length := by omega
    -- the flux at the sampled radius is the sample
    have hv : ip k (R.map fin) (Y.map fin) (fin xs[i]) = .ok (fin ys'[i]) := by
      obtain ⟨_, _, _, _, _, hys⟩ := hS
      rw [List.forall₂_map_right_iff] at hys
      exact List.forall₂_iff_get.1 hys |>.2 i hi' hi''
    refine ⟨xs[i], ys'[i], rpv, E, hri, ?_, hv, rfl, hef, xs, ys', hS, i, n, hi', hi'', hnl, rfl, rfl, hreach, hfirst, hmin'⟩
    unfold Petrosian.fluxAt
    have hxr := Sampled.mem_range hS h2 (List.getElem_mem hi')
    obtain ⟨⟨a, ha, ha'⟩, ⟨b, hb, hb'⟩⟩ := hxr
    have hcond : (F.le (fin lo) (fin xs[i]) && F.le (fin xs[i]) (fin hi)) = true := by
      simp only [le_fin, Bool.and_eq_true, decide_eq_true_eq]
      exact ⟨(l1' a ha).trans ha', hb'.trans (l3' b hb)⟩
    simp only [hri, Except.bind_ok, hr, hmin, hmax, hcond, if_true, hk, interp1d, hf, hv]

/-- C20: `total_flux` is the curve of growth at `r_total_flux`; it is the sampled flux at that radius and no sample up to the first one
reaching the target flux is closer to the target; without `r_total_flux` it is NaN. -/
theorem C20_total_flux (ip : InterpFam K) (p : Petrosian K) (R Y : List K) (eps epsf tff : K) (k : String) {m : Nat}
    (hr : p.rList = R.map fin) (hf : p.fluxList = Y.map fin) (hk : p.interpKind = some k) (heps : p.epsilon = fin eps)
    (hepsf : p.epsilonFraction = fin epsf) (hepsf0 : epsf ≠ 0) (htff : p.totalFluxFraction = fin tff)
    (hip : Lawful (ip k) m) (hm : m ≤ R.length) (h2 : 2 ≤ R.length) (hl : R.length = Y.length) (hR : Incr R)
    {r : F K} (h : p.rTotalFlux ip = .ok r) :
    (r = nan → p.totalFlux ip = .ok nan) ∧
    (r ≠ nan → ∃ x v rp E, r = fin x ∧ p.totalFlux ip = .ok (fin v) ∧ ip k (R.map fin) (Y.map fin) (fin x) = .ok (fin v) ∧
      p.rPetrosian ip = .ok (fin rp) ∧ ip k (R.map fin) (Y.map fin) (fin (rp * eps)) = .ok (fin E) ∧
      ∃ xs ys : List K, Sampled ip (some k) p.interpNum R (Y.map fin) xs (ys.map fin) ∧
        ∃ i n, ∃ hi : i < xs.length, ∃ hi' : i < ys.length, ∃ hn : n < ys.length, xs[i] = x ∧ ys[i] = v ∧
          E * (tff / epsf) ≤ ys[n] ∧ (∀ j (hj : j < n), ys[j] < E * (tff / epsf)) ∧
          ∀ j (hj : j ≤ n), |v - E * (tff / epsf)| ≤ |ys[j] - E * (tff / epsf)|) := by
  have h0 : (p.calcFractionToR ip (fin tff)).map Prod.fst = .ok r := by rw [← htff]; exact h
  have ht : p.totalFlux ip = p.fluxAt ip r := by unfold Petrosian.totalFlux; rw [h, Except.bind_ok]
  rw [ht]
  exact fluxAt_fraction ip p R Y eps epsf tff k hr hf hk heps hepsf hepsf0 hip hm h2 hl hR h0

/-- C20 for `half_flux`: it is the curve of growth at `r_half_light`, whatever `total_flux_fraction` is; the target flux is half of the total,
`E / (2 epsilon_fraction)`. -/
theorem C20_half_flux (ip : InterpFam K) (p : Petrosian K) (R Y : List K) (eps epsf : K) (k : String) {m : Nat}
    (hr : p.rList = R.map fin) (hf : p.fluxList = Y.map fin) (hk : p.interpKind = some k) (heps : p.epsilon = fin eps)
    (hepsf : p.epsilonFraction = fin epsf) (hepsf0 : epsf ≠ 0)
    (hip : Lawful (ip k) m) (hm : m ≤ R.length) (h2 : 2 ≤ R.length) (hl : R.length = Y.length) (hR : Incr R)
    {r : F K} (h : p.rHalfLight ip = .ok r) :
    (r = nan → p.halfFlux ip = .ok nan) ∧
    (r ≠ nan → ∃ x v rp E, r = fin x ∧ p.halfFlux ip = .ok (fin v) ∧ ip k (R.map fin) (Y.map fin) (fin x) = .ok (fin v) ∧
      p.rPetrosian ip = .ok (fin rp) ∧ ip k (R.map fin) (Y.map fin) (fin (rp * eps)) = .ok (fin E) ∧
      ∃ xs ys : List K, Sampled ip (some k) p.interpNum R (Y.map fin) xs (ys.map fin) ∧
        ∃ i n, ∃ hi : i < xs.length, ∃ hi' : i < ys.length, ∃ hn : n < ys.length, xs[i] = x ∧ ys[i] = v ∧
          E * (1 / 2 / epsf) ≤ ys[n] ∧ (∀ j (hj : j < n), ys[j] < E * (1 / 2 / epsf)) ∧
          ∀ j (hj : j ≤ n), |v - E * (1 / 2 / epsf)| ≤ |ys[j] - E * (1 / 2 / epsf)|) := by
  have ht : p.halfFlux ip = p.fluxAt ip r := by unfold Petrosian.halfFlux; rw [h, Except.bind_ok]
  rw [ht]
  exact fluxAt_fraction ip p R Y eps epsf (1 / 2) k hr hf hk heps hepsf hepsf0 hip hm h2 hl hR h

/-- Non-vacuity: an object whose `r_total_flux` is a number. -/
example : ((Petrosian.init ([1, 2, 4, 6].map fin : List (F ℚ)) ([1, 4, 16, 36].map fin) ([2, 5, 8, 9].map fin) none none (fin (4 / 5))
    (fin 2) (fin 1) (fin (9 / 10)) (some "linear") 16).bind fun p => p.rTotalFlux (fun _ => linearInterp)) = .ok (fin (10 / 3)) := by
  decide +kernel

/-- Non-vacuity for `half_flux`: it differs from `total_flux`. -/
example : ((Petrosian.init ([1, 2, 4, 6].map fin : List (F ℚ)) ([1, 4, 16, 36].map fin) ([2, 5, 8, 9].map fin) none none (fin (4 / 5))
    (fin 2) (fin 1) (fin (9 / 10)) (some "linear") 16).bind fun p => p.rHalfLight (fun _ => linearInterp)) = .ok (fin (5 / 3)) := by
  decide +kernel

/-! ### C21 -/

/-- One evaluation of the search behind `r_total_flux`, `r_total_flux_err` and `total_flux` in the counterexample. -/
theorem C21_eval (ys es : List ℚ) (p : Petrosian ℚ) (t : ℚ)
    (h : p.calcFractionToR (fun _ => linearInterp) p.totalFluxFraction = .ok (fin 2, fin t)) (hp : p.fluxErr = some (es.map fin))
    (hr : p.rList = [1, 2, 4, 6].map fin) (hk : p.interpKind = some "linear") (hf : p.fluxList = ys.map fin)
    (hl : ys.length = 4) (he : es.length = 4) (h0 : es[1]? = some 0) :
    p.totalFluxErr (fun _ => linearInterp) = .ok (F.sqrt (fin (t * t))) := by
  have hnode : ∀ zs : List ℚ, ∀ z, zs.length = 4 → zs[1]? = some z →
      linearInterp ([1, 2, 4, 6].map fin : List (F ℚ)) (zs.map fin) (fin 2) = .ok (fin z) := by
    intro zs z hz hz1
    have hi : Incr ([1, 2, 4, 6] : List ℚ) := by unfold Incr; decide +kernel
    have := (linear_lawful (K := ℚ)).node [1, 2, 4, 6] zs (by simp [hz]) (by simp) hi 1 (by simp)
    rw [List.getElem?_eq_getElem (by omega)] at hz1
    injection hz1 with hz1
    rw [hz1] at this
    exact this
  obtain ⟨y1, hy1⟩ : ∃ y1, ys[1]? = some y1 := ⟨_, List.getElem?_eq_getElem (by omega)⟩
  have hmin : pyMin ([1, 2, 4, 6].map fin : List (F ℚ)) = .ok (fin 1) := by decide +kernel
  have hmax : pyMax ([1, 2, 4, 6].map fin : List (F ℚ)) = .ok (fin 6) := by decide +kernel
  have htf : p.totalFlux (fun _ => linearInterp) = .ok (fin y1) := by
    unfold Petrosian.totalFlux Petrosian.rTotalFlux Petrosian.fluxAt
    have hc : (F.le (fin 1 : F ℚ) (fin 2) && F.le (fin 2 : F ℚ) (fin 6)) = true := by decide +kernel
    simp only [h, Except.map, Except.bind_ok, hr, hmin, hmax, hc, if_true, hk, interp1d, hf, hnode ys y1 hl hy1]
  unfold Petrosian.totalFluxErr Petrosian.rTotalFlux Petrosian.rTotalFluxErr
  simp only [h, Except.map, Except.bind_ok, hp, htf, isNaN_fin, Bool.false_eq_true, if_false, hr, hnode es 0 he h0, F.sq, fin_mul,
    fin_add, mul_zero, zero_add]

set_option maxRecDepth 20000 in
theorem C21_search (c : ℚ) (hc : c = 1 ∨ c = 2) :
    fractionToR (fun _ => linearInterp) (fin 1) ([1, 2, 4, 6].map fin) ([2 * c, 5 * c, 8 * c, 9 * c].map fin) (fin 2)
      (some ([c, 0, 0, 0].map fin)) (some (fin 1)) (fin 1) (fin 1) (some "linear") 16 = .ok (fin 2, fin (14165 / 9998)) := by
  rcases hc with rfl | rfl <;> decide +kernel

/-- C21 is false of the code: `total_flux_err` adds a flux error and a radius error in quadrature.  Doubling all fluxes and flux
errors of this object leaves a non-zero `total_flux_err` unchanged. -/
theorem C21_counterexample :
    ∃ p p' : Petrosian ℚ,
      Petrosian.init ([1, 2, 4, 6].map fin) ([1, 4, 16, 36].map fin) ([2, 5, 8, 9].map fin) none (some ([1, 0, 0, 0].map fin))
        (fin (4 / 5)) (fin 1) (fin 1) (fin 1) (some "linear") 16 = .ok p ∧
      Petrosian.init ([1, 2, 4, 6].map fin) ([1, 4, 16, 36].map fin) (([2, 5, 8, 9].map (2 * ·)).map fin) none
        (some (([1, 0, 0, 0].map (2 * ·)).map fin)) (fin (4 / 5)) (fin 1) (fin 1) (fin 1) (some "linear") 16 = .ok p' ∧
      p.totalFluxErr (fun _ => linearInterp) = .ok (fin (14165 / 9998)) ∧
      p'.totalFluxErr (fun _ => linearInterp) = .ok (fin (14165 / 9998)) ∧
      p'.totalFluxErr (fun _ => linearInterp) ≠ (p.totalFluxErr (fun _ => linearInterp)).map (fin 2 * ·) := by
  have hcp : calculatePetrosian ([1, 4, 16, 36].map fin : List (F ℚ)) ([2, 5, 8, 9].map fin) none (some ([1, 0, 0, 0].map fin)) =
      .ok ([nan, fin (4 / 5), fin (1 / 2), fin (1 / 5)], some [nan, fin (4 / 15), fin 0, fin 0]) := by decide +kernel
  have hcp' : calculatePetrosian ([1, 4, 16, 36].map fin : List (F ℚ)) (([2, 5, 8, 9].map (2 * ·)).map fin) none
      (some (([1, 0, 0, 0].map (2 * ·)).map fin)) =
      .ok ([nan, fin (4 / 5), fin (1 / 2), fin (1 / 5)], some [nan, fin (4 / 15), fin 0, fin 0]) := by decide +kernel
  have hsq : F.sqrt (fin (14165 / 9998 * (14165 / 9998)) : F ℚ) = fin (14165 / 9998) := by decide +kernel
  have hrp : calculatePetrosianR (fun _ => linearInterp) ([1, 2, 4, 6].map fin : List (F ℚ)) [nan, fin (4 / 5), fin (1 / 2), fin (1 / 5)]
      (some [nan, fin (4 / 15), fin 0, fin 0]) (fin (4 / 5)) (some "linear") 16 = .ok (fin 2, fin 1) := by decide +kernel
  have key : ∀ ys es : List ℚ, ys.length = 4 → es.length = 4 → es[1]? = some 0 →
      fractionToR (fun _ => linearInterp) (fin 1) ([1, 2, 4, 6].map fin) (ys.map fin) (fin 2)
        (some (es.map fin)) (some (fin 1)) (fin 1) (fin 1) (some "linear") 16 = .ok (fin 2, fin (14165 / 9998)) →
      Petrosian.totalFluxErr (fun _ => linearInterp) (⟨[1, 2, 4, 6].map fin, [1, 4, 16, 36].map fin, ys.map fin, none, some (es.map fin),
        fin (4 / 5), fin 1, fin 1, fin 1, some "linear", 16, [nan, fin (4 / 5), fin (1 / 2), fin (1 / 5)],
        some [nan, fin (4 / 15), fin 0, fin 0]⟩ : Petrosian ℚ) = .ok (fin (14165 / 9998)) := by
    intro ys es h1 h2 h3 h4
    rw [C21_eval ys es _ (14165 / 9998) ?_ rfl rfl rfl rfl h1 h2 h3, hsq]
    unfold Petrosian.calcFractionToR Petrosian.rPetrosian Petrosian.rPetrosianErr Petrosian.calcPetrosianR
    simp only [hrp, Except.map, Except.bind_ok, h4]
  have h1 := key [2, 5, 8, 9] [1, 0, 0, 0] rfl rfl rfl (by simpa using C21_search 1 (Or.inl rfl))
  have h2 := key ([2, 5, 8, 9].map (2 * ·)) ([1, 0, 0, 0].map (2 * ·)) rfl rfl (by simp) (by
    have h := C21_search 2 (Or.inr rfl)
    norm_num at h ⊢
    exact h)
  refine ⟨_, _, Petrosian.init_ok_iff.2 ⟨by simp, by simp, by simp, by simp, _, _, hcp, rfl⟩,
    Petrosian.init_ok_iff.2 ⟨by simp, by simp, by simp, by simp, _, _, hcp', rfl⟩, h1, h2, ?_⟩
  rw [h1, h2]
  decide +kernel

/-- C21, what holds: if the two objects agree on `r_total_flux` (C15), neither total flux is NaN and the radius error is zero in both,
multiplying the flux errors by `c` multiplies `total_flux_err` by `c`.  Missing: any non-zero radius error (see the counterexample). -/
theorem C21_scaling_partial (ip : InterpFam K) (p p' : Petrosian K) (E : List (F K)) (hip : ip "nearest" = nearestInterp)
    (hsqrt : ∀ a b : K, 0 ≤ a → 0 ≤ b → HasSqrt.sqrt (a * a * b) = a * HasSqrt.sqrt b)
    {c : K} (hc : 0 < c) (hr : p'.rList = p.rList) (hE : p.fluxErr = some E)
    (hE' : p'.fluxErr = some (E.map (fin c * ·))) {x v v' : K} (hx : p.rTotalFlux ip = .ok (fin x))
    (hx' : p'.rTotalFlux ip = .ok (fin x)) (he : p.rTotalFluxErr ip = .ok (fin 0)) (he' : p'.rTotalFluxErr ip = .ok (fin 0))
    (hv : p.totalFlux ip = .ok (fin v)) (hv' : p'.totalFlux ip = .ok (fin v')) :
    p'.totalFluxErr ip = (p.totalFluxErr ip).map (fin c * ·) := by
  unfold Petrosian.totalFluxErr
  simp only [hx, hx', he, he', hE, hE', hv, hv', Except.bind_ok, isNaN_fin, Bool.false_eq_true, if_false, hr, hip]
  rw [nearest_map]
  cases hI : nearestInterp p.rList E (fin x) with
  | error e => rfl
  | ok y =>
    simp only [Except.map, Except.bind_ok]
    congr 1
    cases y with
    | nan => simp [F.sq, F.sqrt]
    | pinf => rw [fin_mul_pinf hc]; exact (fin_mul_pinf hc).symm
    | ninf => rw [fin_mul_ninf hc]; exact (fin_mul_pinf hc).symm
    | fin y =>
      simp only [F.sq, fin_mul, fin_add, mul_zero, add_zero, F.sqrt]
      rw [if_neg (by nlinarith [mul_self_nonneg (c * y)]), if_neg (by nlinarith [mul_self_nonneg y]), fin_mul,
        show c * y * (c * y) = c * c * (y * y) by ring, hsqrt c (y * y) hc.le (mul_self_nonneg y)]

/-- C98: `total_flux_err` combines in quadrature the flux error at the measured radius nearest to `r_total_flux` — the smaller one of two
equally near radii — and the error of that radius. -/
theorem C98_total_flux_err (ip : InterpFam K) (p : Petrosian K) (R E : List K) (hip : ip "nearest" = nearestInterp) (hR : Incr R)
    (hl : R.length = E.length) (hr : p.rList = R.map fin) (hE : p.fluxErr = some (E.map fin)) {x v : K} {e : F K}
    (hx : p.rTotalFlux ip = .ok (fin x)) (he : p.rTotalFluxErr ip = .ok e) (hv : p.totalFlux ip = .ok (fin v)) :
    ∃ k, ∃ h : k < R.length, p.totalFluxErr ip = .ok (F.sqrt (F.sq (fin (E[k]'(hl ▸ h))) + F.sq e)) ∧
      (∀ j (hj : j < R.length), |R[k] - x| ≤ |R[j] - x|) ∧ ∀ j (hj : j < k), |R[k] - x| < |R[j] - x| := by
  have hin : InRange R x := by
    have hne : R ≠ [] := by
      rintro rfl
      unfold Petrosian.totalFlux Petrosian.fluxAt at hv
      rw [hx, hr] at hv
      cases hv
    obtain ⟨lo, l1, hmin, l1'⟩ := pyMin_fin hne
    obtain ⟨hi, l3, hmax, l3'⟩ := pyMax_fin hne
    by_contra hcon
    have hc : (F.le (fin lo) (fin x) && F.le (fin x) (fin hi)) = false := by
      rw [Bool.eq_false_iff]
      intro h
      simp only [le_fin, Bool.and_eq_true, decide_eq_true_eq] at h
      exact hcon ⟨⟨lo, l1, h.1⟩, hi, l3, h.2⟩
    unfold Petrosian.totalFlux Petrosian.fluxAt at hv
    simp only [hx, hr, hmin, hmax, Except.bind_ok, hc, Bool.false_eq_true, if_false] at hv
    cases hv
  obtain ⟨k, h, hk, h1, h2⟩ := nearest_spec R E hl hR x hin
  refine ⟨k, h, ?_, h1, h2⟩
  unfold Petrosian.totalFluxErr
  simp only [hx, he, hE, hv, Except.bind_ok, isNaN_fin, Bool.false_eq_true, if_false, hr, hip, hk]

/-- C98: a radius error that is not a number makes `total_flux_err` NaN although the flux error is known. -/
theorem C98_nan_radius_err (ip : InterpFam K) (p : Petrosian K) (R E : List K) (hip : ip "nearest" = nearestInterp) (hR : Incr R)
    (hl : R.length = E.length) (hr : p.rList = R.map fin) (hE : p.fluxErr = some (E.map fin)) {x v : K}
    (hx : p.rTotalFlux ip = .ok (fin x)) (he : p.rTotalFluxErr ip = .ok nan) (hv : p.totalFlux ip = .ok (fin v)) :
    p.totalFluxErr ip = .ok nan := by
  obtain ⟨k, h, hk, _⟩ := C98_total_flux_err ip p R E hip hR hl hr hE hx he hv
  rw [hk]
  simp [F.sq, F.sqrt]

/-- Non-vacuity: an object with a known radius error. -/
example : ((Petrosian.init ([1, 2, 4, 6].map fin : List (F ℚ)) ([1, 4, 16, 36].map fin) ([2, 5, 8, 9].map fin) none
    (some ([1, 0, 0, 0].map fin)) (fin (4 / 5)) (fin 1) (fin 1) (fin 1) (some "linear") 16).bind fun p =>
      p.totalFluxErr (fun k => if k = "nearest" then nearestInterp else linearInterp)) = .ok (fin (14165 / 9998)) := by
  decide +kernel

/-- Non-vacuity: between two radii, the tie going to the smaller one, and an exact hit. -/
example : nearestInterp ([1, 2, 4].map fin : List (F ℚ)) ([10, 20, 30].map fin) (fin 3) = .ok (fin 20) ∧
    nearestInterp ([1, 2, 4].map fin : List (F ℚ)) ([10, 20, 30].map fin) (fin (7 / 2)) = .ok (fin 30) ∧
    nearestInterp ([1, 2, 4].map fin : List (F ℚ)) ([10, 20, 30].map fin) (fin 1) = .ok (fin 10) ∧
    nearestInterp ([1, 2, 4].map fin : List (F ℚ)) ([10, 20, 30].map fin) (fin 5) = .error .valueError := by decide +kernel

/-- Non-vacuity of the square-root hypothesis over ℝ. -/
example : ∀ a b : ℝ, 0 ≤ a → 0 ≤ b → HasSqrt.sqrt (a * a * b) = a * HasSqrt.sqrt b := by
  intro a b ha hb
  show Real.sqrt (a * a * b) = a * Real.sqrt b
  rw [Real.sqrt_mul (mul_nonneg ha ha), Real.sqrt_mul_self ha]

/-! ### C22 -/

/-- C22 is false of the code: reading `half_flux_err` always raises AttributeError, on every object. -/
theorem C22_counterexample (ip : InterpFam K) (p : Petrosian K) : p.halfFluxErr ip = .error .attributeError := by
  unfold Petrosian.halfFluxErr
  have : p.getattr ip "r_half_flux_err" = .error .attributeError := by
    unfold Petrosian.getattr
    simp only [String.reduceEq, if_false]
  rw [this]; rfl

/-- C22, the part that holds: the sister attribute `total_flux_err` returns NaN whenever there are no flux errors and the radius query
returns.  Missing: everything about `half_flux_err` itself. -/
theorem C22_total_flux_err_partial (ip : InterpFam K) (p : Petrosian K) (hE : p.fluxErr = none) {r : F K}
    (h : p.rTotalFlux ip = .ok r) : p.totalFluxErr ip = .ok nan := by
  have : ∃ e, p.rTotalFluxErr ip = .ok e := by
    unfold Petrosian.rTotalFlux at h
    unfold Petrosian.rTotalFluxErr
    cases hc : p.calcFractionToR ip p.totalFluxFraction with
    | error e => rw [hc] at h; cases h
    | ok t => exact ⟨t.2, rfl⟩
  obtain ⟨e, he⟩ := this
  unfold Petrosian.totalFluxErr
  simp only [h, he, hE, Except.bind_ok]

/-! ### C23 -/

/-- C23 is false of the code: with `interp_kind=None`, `total_flux` raises NotImplementedError whenever there is a total-flux radius, and
`half_flux` whenever there is a half-light radius, on every object. -/
theorem C23_counterexample (ip : InterpFam K) (p : Petrosian K) (R : List K) (hr : p.rList = R.map fin) (h2 : 2 ≤ R.length)
    (hk : p.interpKind = none) {r : F K} (hn : r ≠ nan) :
    (p.rTotalFlux ip = .ok r → p.totalFlux ip = .error .notImplementedError) ∧
    (p.rHalfLight ip = .ok r → p.halfFlux ip = .error .notImplementedError) := by
  have hne : R ≠ [] := by rintro rfl; simp at h2
  obtain ⟨lo, l1, hmin, l1'⟩ := pyMin_fin hne
  obtain ⟨hi, l3, hmax, l3'⟩ := pyMax_fin hne
  have key : ∀ f, (p.calcFractionToR ip f).map Prod.fst = .ok r → p.fluxAt ip r = .error .notImplementedError := by
    intro f h
    unfold Petrosian.calcFractionToR at h
    cases hrp : p.rPetrosian ip with
    | error e => rw [hrp] at h; cases h
    | ok rp =>
    cases hrpe : p.rPetrosianErr ip with
    | error e => rw [hrp, hrpe] at h; cases h
    | ok rpe =>
    simp only [hrp, hrpe, Except.bind_ok, hr] at h
    cases hfr : Verif.fractionToR ip f (R.map fin) p.fluxList rp p.fluxErr (some rpe) p.epsilon p.epsilonFraction p.interpKind
        p.interpNum with
    | error e => rw [hfr] at h; cases h
    | ok t =>
    obtain ⟨r', e⟩ := t
    rw [hfr] at h
    injection h with h
    simp only at h
    subst h
    rcases fractionToR_query h2 hfr with h | ⟨x, rfl, ⟨a, ha, ha'⟩, ⟨b, hb, hb'⟩⟩
    · exact absurd h hn
    have hcond : (F.le (fin lo) (fin x) && F.le (fin x) (fin hi)) = true := by
      simp only [le_fin, Bool.and_eq_true, decide_eq_true_eq]
      exact ⟨(l1' a ha).trans ha', hb'.trans (l3' b hb)⟩
    unfold Petrosian.fluxAt
    simp only [hr, hmin, hmax, Except.bind_ok, hcond, if_true, hk, interp1d]
  constructor
  · intro h
    unfold Petrosian.totalFlux
    rw [h, Except.bind_ok]
    exact key _ h
  · intro h
    unfold Petrosian.halfFlux
    rw [h, Except.bind_ok]
    exact key _ h

/-- C23 witness: such an object exists (radius 4, but no total flux). -/
theorem C23_witness : ∃ p : Petrosian ℚ, Petrosian.init ([1, 2, 4, 6].map fin) ([1, 4, 16, 36].map fin) ([2, 5, 8, 9].map fin) none none
      (fin (4 / 5)) (fin 2) (fin 1) (fin 1) none 16 = .ok p ∧
    p.rTotalFlux (fun _ => linearInterp) = .ok (fin 4) ∧ p.totalFlux (fun _ => linearInterp) = .error .notImplementedError := by
  have hcp : calculatePetrosian ([1, 4, 16, 36].map fin : List (F ℚ)) ([2, 5, 8, 9].map fin) none none =
      .ok ([nan, fin (4 / 5), fin (1 / 2), fin (1 / 5)], none) := by decide +kernel
  exact ⟨_, Petrosian.init_ok_iff.2 ⟨by simp, by simp, by simp, by simp, _, _, hcp, rfl⟩, by decide +kernel, by decide +kernel⟩

/-- C23, the part that holds: without a radius both are NaN for every `interp_kind`.  Missing: every object that has a radius. -/
theorem C23_nan_partial (ip : InterpFam K) (p : Petrosian K) (R : List K) (hr : p.rList = R.map fin) (h2 : 2 ≤ R.length) :
    (p.rTotalFlux ip = .ok nan → p.totalFlux ip = .ok nan) ∧ (p.rHalfLight ip = .ok nan → p.halfFlux ip = .ok nan) := by
  have hne : R ≠ [] := by rintro rfl; simp at h2
  obtain ⟨lo, l1, hmin, l1'⟩ := pyMin_fin hne
  obtain ⟨hi, l3, hmax, l3'⟩ := pyMax_fin hne
  constructor <;> intro h
  · unfold Petrosian.totalFlux Petrosian.fluxAt
    simp [h, hr, hmin, hmax, Except.bind_ok]
  · unfold Petrosian.halfFlux Petrosian.fluxAt
    simp [h, hr, hmin, hmax, Except.bind_ok]

end

end Verif.Props

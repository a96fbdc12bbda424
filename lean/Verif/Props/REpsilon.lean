import Verif.Props.PetrosianQueries
import Verif.Lemmas.SampledNear

/-!
# C103: `r_epsilon` and what `r_epsilon_in_range` tells about the other measurements
-/

set_option linter.unusedSectionVars false

namespace Verif.Props

open F Spec

variable {K : Type} [Field K] [LinearOrder K] [IsStrictOrderedRing K]

/-- **C103.** `r_epsilon` is `r_petrosian` times `epsilon`, and `r_epsilon_in_range` is True exactly when it lies between the smallest
and the largest radius; without a Petrosian radius they are NaN and False. -/
theorem C103_r_epsilon (ip : InterpFam K) (p : Petrosian K) (R : List K) (eps : K) (hr : p.rList = R.map fin) (hne : R ≠ [])
    (heps : p.epsilon = fin eps) :
    (p.rPetrosian ip = .ok nan → p.rEpsilon ip = .ok nan ∧ p.rEpsilonInRange ip = .ok false) ∧
    (∀ x, p.rPetrosian ip = .ok (fin x) → p.rEpsilon ip = .ok (fin (x * eps)) ∧
      ∃ b, p.rEpsilonInRange ip = .ok b ∧ (b = true ↔ InRange R (x * eps))) ∧
    (∀ e, p.rPetrosian ip = .error e → p.rEpsilon ip = .error e ∧ p.rEpsilonInRange ip = .error e) := by
  obtain ⟨lo, h1, hmin, h1'⟩ := pyMin_fin hne
  obtain ⟨hi, h3, hmax, h3'⟩ := pyMax_fin hne
  refine ⟨fun h => ?_, fun x h => ?_, fun e h => ?_⟩
  · unfold Petrosian.rEpsilonInRange Petrosian.rEpsilon
    rw [h, hr, hmin, hmax]
    refine ⟨?_, ?_⟩
    · rw [heps]; rfl
    · rw [heps]; rfl
  · have hE : p.rEpsilon ip = .ok (fin (x * eps)) := by
      unfold Petrosian.rEpsilon
      rw [h, heps]; rfl
    refine ⟨hE, F.le (fin lo) (fin (x * eps)) && F.le (fin (x * eps)) (fin hi), ?_, ?_⟩
    · unfold Petrosian.rEpsilonInRange
      rw [hE, hr, hmin, hmax]; rfl
    · simp only [le_fin, Bool.and_eq_true, decide_eq_true_eq]
      constructor
      · rintro ⟨a, b⟩; exact ⟨⟨lo, h1, a⟩, hi, h3, b⟩
      · rintro ⟨⟨a, ha, ha'⟩, b, hb, hb'⟩
        exact ⟨(h1' a ha).trans ha', hb'.trans (h3' b hb)⟩
  · unfold Petrosian.rEpsilonInRange Petrosian.rEpsilon
    rw [h, hr, hmin, hmax]
    exact ⟨rfl, rfl⟩

/-- The largest radius is sampled, with the last flux. -/
theorem Sampled.last_mem {ip : InterpFam K} {kind : Option String} {num : Nat} {R Y xs ys : List K} {m : Nat}
    (hip : Lawful (ip (kind.getD "cubic")) m) (hm : m ≤ R.length) (h2 : 2 ≤ R.length) (hl : R.length = Y.length) (hR : Incr R)
    (hS : Sampled ip kind num R (Y.map fin) xs (ys.map fin)) : Y[R.length - 1]'(by omega) ∈ ys := by
  obtain ⟨hx, _, hlast, _⟩ := Sampled.gap hS h2 hR (D := R[R.length - 1] - R[0]) (fun i h =>
    sub_le_sub (Incr.le_getElem hR (by omega) (by omega)) (Incr.le_getElem hR (Nat.zero_le _) (by omega)))
  have hlen := Sampled.length_eq hS (by simpa using hl)
  rw [List.length_map] at hlen
  cases kind with
  | none =>
    obtain ⟨rfl, hy⟩ := hS
    have hy : ys = Y := List.map_injective_iff.2 (fun a b h => by injection h) hy
    subst hy
    exact List.getElem_mem _
  | some k =>
    obtain ⟨lo, hi, _, _, _, hf⟩ := hS
    have h := (List.forall₂_iff_get.1 hf).2 (xs.length - 1) (by omega) (by simp; omega)
    simp only [List.get_eq_getElem, List.getElem_map] at h
    have hn := hip.node R Y hl hm hR (R.length - 1) (by omega)
    rw [hlast] at h
    rw [Option.getD_some] at hn
    rw [hn] at h
    injection h with h
    injection h with h
    rw [h]
    exact List.getElem_mem _

/-- **C103.** When `r_epsilon_in_range` is True, the flux at `r_epsilon` is not negative and the curve of growth ends at least as high,
every fraction up to `epsilon_fraction` has a radius inside the measured ones. -/
theorem C103_measurable (ip : InterpFam K) (p : Petrosian K) (R Y : List K) (eps epsf : K) {m : Nat} (hr : p.rList = R.map fin)
    (hf : p.fluxList = Y.map fin) (heps : p.epsilon = fin eps) (hepsf : p.epsilonFraction = fin epsf) (hepsf0 : 0 < epsf)
    (hfe : p.fluxErr = none) (hip : Lawful (ip (p.interpKind.getD "cubic")) m) (hm : m ≤ R.length) (h2 : 2 ≤ R.length)
    (hl : R.length = Y.length) (hR : Incr R) (hin : p.rEpsilonInRange ip = .ok true) :
    ∃ x E, p.rPetrosian ip = .ok (fin x) ∧ ip (p.interpKind.getD "cubic") (R.map fin) (Y.map fin) (fin (x * eps)) = .ok (fin E) ∧
      (0 ≤ E → E ≤ Y[R.length - 1] → ∀ f, f ≤ epsf → ∃ r, p.fractionFluxToR ip (fin f) = .ok (fin r) ∧ InRange R r) := by
  have hne : R ≠ [] := by rintro rfl; simp at h2
  obtain ⟨c1, c2, c3⟩ := C103_r_epsilon ip p R eps hr hne heps
  have hR' : ∃ x, p.rPetrosian ip = .ok (fin x) := by
    cases h : p.calcPetrosianR ip with
    | error e =>
      have : p.rPetrosian ip = .error e := by unfold Petrosian.rPetrosian; rw [h]; rfl
      rw [(c3 e this).2] at hin; cases hin
    | ok t =>
      have ht : p.rPetrosian ip = .ok t.1 := by unfold Petrosian.rPetrosian; rw [h]; rfl
      unfold Petrosian.calcPetrosianR at h
      rw [hr] at h
      rcases calculatePetrosianR_query h2 (r := t.1) (e := t.2) h with h' | ⟨x, h'⟩
      · rw [h'] at ht
        rw [(c1 ht).2] at hin; cases hin
      · exact ⟨x, by rw [ht, h']⟩
  obtain ⟨x, hx⟩ := hR'
  obtain ⟨b, hb, hb'⟩ := (c2 x hx).2
  rw [hin] at hb
  injection hb with hb
  have hxin := hb'.1 hb.symm
  obtain ⟨E, hE⟩ := hip.total R Y hl hm hR _ hxin
  refine ⟨x, E, hx, hE, fun h0 hlast f hfe' => ?_⟩
  obtain ⟨xs, ys, hS, hlen⟩ := Sampled.exists (ip := ip) (kind := p.interpKind) (num := p.interpNum)
    (by rintro k hk; rw [hk] at hip; exact hip) hm h2 hl hR
  have hmem := Sampled.last_mem hip hm h2 hl hR hS
  have hle : E * (f / epsf) ≤ Y[R.length - 1] := by
    have : f / epsf ≤ 1 := (div_le_one hepsf0).2 hfe'
    nlinarith [mul_le_mul_of_nonneg_left this h0]
  obtain ⟨i, hi, hri⟩ : ∃ i, ∃ h : i < xs.length, radiusAt (fin (E * (f / epsf))) (xs.map fin, ys.map fin) true = .ok (fin xs[i]) := by
    obtain ⟨o, ho⟩ := closestValueIndex_total (fin (E * (f / epsf))) (ys.map fin) true
    cases o with
    | none => exact absurd hle ((C07_closest_value_index _ _ _).1.1 ho _ hmem)
    | some i =>
      have hlt := closestValueIndex_lt ho
      rw [List.length_map] at hlt
      exact ⟨i, by omega, radiusAt_some ho (by omega)⟩
  refine ⟨xs[i], ?_, Sampled.mem_range hS h2 (List.getElem_mem _)⟩
  obtain ⟨hi', h3, _, h3'⟩ := pyMax_fin hne
  have hrpe : ∃ e, p.rPetrosianErr ip = .ok e := by
    unfold Petrosian.rPetrosian at hx
    unfold Petrosian.rPetrosianErr
    cases h : p.calcPetrosianR ip with
    | error e => rw [h] at hx; cases hx
    | ok t => exact ⟨t.2, rfl⟩
  obtain ⟨e, he⟩ := hrpe
  unfold Petrosian.fractionFluxToR Petrosian.calcFractionToR
  simp only [hx, he, Except.bind_ok, hr, hf, hfe, heps, hepsf]
  have hlt : F.lt (fin hi') (fin x * fin eps) = false := by
    obtain ⟨_, y, hy, hy'⟩ := hxin
    simpa using hy'.trans (h3' y hy)
  rw [fractionToR_none_ok h2 h3 h3' hlt (by rw [fin_mul]; exact hE) (pyDiv_ok (by simpa using hepsf0.ne')) hS
    (by rw [F.fin_div_of_ne _ hepsf0.ne', fin_mul]; exact hri)]
  rfl

/-- **C103.** Conversely, whenever some fraction radius is a number, `r_epsilon_in_range` is True. -/
theorem C103_only_if (ip : InterpFam K) (p : Petrosian K) (R Y : List K) (eps : K) {m : Nat} (hr : p.rList = R.map fin)
    (hf : p.fluxList = Y.map fin) (heps : p.epsilon = fin eps)
    (hip : Lawful (ip (p.interpKind.getD "cubic")) m) (hm : m ≤ R.length) (h2 : 2 ≤ R.length)
    (hl : R.length = Y.length) (hR : Incr R) {f : F K} {r : F K} (h : p.fractionFluxToR ip f = .ok r) (hn : r ≠ nan) :
    p.rEpsilonInRange ip = .ok true := by
  have hne : R ≠ [] := by rintro rfl; simp at h2
  obtain ⟨c1, c2, c3⟩ := C103_r_epsilon ip p R eps hr hne heps
  unfold Petrosian.fractionFluxToR at h
  cases hc : p.calcFractionToR ip f with
  | error e => rw [hc] at h; cases h
  | ok t =>
    rw [hc] at h
    injection h with h
    obtain ⟨r', e⟩ := t
    dsimp only at h
    subst h
    unfold Petrosian.calcFractionToR at hc
    simp only [bind_eq_ok] at hc
    obtain ⟨rp, hrp, rpe, _, hc⟩ := hc
    have hq : Query rp := by
      unfold Petrosian.rPetrosian at hrp
      cases h : p.calcPetrosianR ip with
      | error e => rw [h] at hrp; cases hrp
      | ok t =>
        rw [h] at hrp
        injection hrp with hrp
        unfold Petrosian.calcPetrosianR at h
        rw [hr] at h
        rw [← hrp]
        exact calculatePetrosianR_query h2 (r := t.1) (e := t.2) h
    rw [hr, hf, heps] at hc
    obtain ⟨hi, h3, h3', ⟨_, h4, _⟩ | ⟨hlt, ef, q, xs, ys, hef, hdiv, hS, hrad⟩⟩ := fractionToR_cases h2 hc
    · exact absurd h4 hn
    rcases hq with rfl | ⟨x, rfl⟩
    · have : (nan : F K) * fin eps = nan := by simp
      rw [this, hip.atNaN R Y hl hm hR] at hef
      injection hef with hef
      subst hef
      rcases radiusAt_cases hrad with ⟨h1, _⟩ | ⟨i, h5, _⟩
      · exact absurd h1 hn
      · rw [show (nan : F K) * q = nan by cases q <;> rfl, closestValueIndex_nan] at h5; cases h5
    · obtain ⟨b, hb, hb'⟩ := (c2 x hrp).2
      rw [hb]
      congr 1
      apply hb'.2
      rcases inRange_or_out hne (x * eps) with h | h
      · exact h
      · rw [fin_mul, hip.outside R Y hl hm hR _ h] at hef; cases hef

/-- Non-vacuity: an object with `r_epsilon` inside and one with `r_epsilon` beyond the last radius. -/
example : ((Petrosian.init ([1, 2, 4, 6].map fin : List (F ℚ)) ([1, 4, 16, 36].map fin) ([2, 5, 8, 9].map fin) none none (fin (4 / 5))
      (fin 2) (fin (99 / 100)) (fin (99 / 100)) (some "linear") 16).bind fun p =>
        (p.rEpsilonInRange (fun _ => linearInterp)).bind fun b => (p.fractionFluxToR (fun _ => linearInterp) (fin (99 / 100))).map (b, ·))
      = .ok (true, fin 4) ∧
    ((Petrosian.init ([1, 2, 4, 6].map fin : List (F ℚ)) ([1, 4, 16, 36].map fin) ([2, 5, 8, 9].map fin) none none (fin (4 / 5))
      (fin 4) (fin (99 / 100)) (fin (99 / 100)) (some "linear") 16).bind fun p =>
        (p.rEpsilonInRange (fun _ => linearInterp)).bind fun b => (p.fractionFluxToR (fun _ => linearInterp) (fin (99 / 100))).map (b, ·))
      = .ok (false, nan) := by
  decide +kernel

end Verif.Props

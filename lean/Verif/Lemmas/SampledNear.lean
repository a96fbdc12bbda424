import Verif.Spec.Tame
import Verif.Lemmas.Fraction
import Verif.Props.PetrosianRadius

/-!
# Samples stay close to the data they come from; locating a crossing
-/

set_option linter.unusedSectionVars false

namespace Verif

open F Spec

variable {K : Type} [Field K] [LinearOrder K] [IsStrictOrderedRing K]

/-- Some segment contains the query. -/
theorem segment_exists (L : List K) (t : K) : ∀ n (h : n < L.length), 1 ≤ n → L[0] ≤ t → t ≤ L[n] →
    ∃ j, ∃ h : j + 1 < L.length, L[j] ≤ t ∧ t ≤ L[j + 1] := by
  intro n
  induction n with
  | zero => intro _ h; omega
  | succ n ih =>
    intro h _ h0 h1
    by_cases hn : n = 0
    · subst hn; exact ⟨0, h, h0, h1⟩
    · by_cases hc : t ≤ L[n]
      · exact ih (by omega) (by omega) h0 hc
      · exact ⟨n, h, (not_le.1 hc).le, h1⟩

/-- Consecutive gaps of at most `D` bound the whole range. -/
theorem range_le (L : List K) (D : K) (hg : ∀ i (h : i + 1 < L.length), L[i + 1] - L[i] ≤ D) :
    ∀ n (h : n < L.length), L[n] - L[0] ≤ n * D := by
  intro n
  induction n with
  | zero => intro h; simp
  | succ n ih =>
    intro h
    have h1 := ih (by omega)
    have h2 := hg n h
    push_cast
    linarith

/-- Gaps of the sampled abscissae. -/
theorem Sampled.gap {ip : InterpFam K} {kind : Option String} {num : Nat} {N : List K} {P : List (F K)}
    {xs : List K} {ys : List (F K)} (h : Sampled ip kind num N P xs ys) (h2 : 2 ≤ N.length) (hN : Incr N) {D : K}
    (hg : ∀ i (h : i + 1 < N.length), N[i + 1] - N[i] ≤ D) :
    ∃ hx : 2 ≤ xs.length, xs[0] = N[0] ∧ xs[xs.length - 1] = N[N.length - 1] ∧
      ∀ i (h : i + 1 < xs.length), xs[i + 1] - xs[i] ≤ D := by
  cases kind with
  | none => obtain ⟨rfl, rfl⟩ := h; exact ⟨h2, rfl, rfl, hg⟩
  | some k =>
    obtain ⟨lo, hi, ⟨h1, h1'⟩, ⟨h3, h3'⟩, hxs, _⟩ := h
    have elo : lo = N[0] := by
      obtain ⟨i, hi', e⟩ := List.getElem_of_mem h1
      refine le_antisymm (h1' _ (List.getElem_mem _)) ?_
      rw [← e]; exact Incr.le_getElem hN (Nat.zero_le _) hi'
    have ehi : hi = N[N.length - 1] := by
      obtain ⟨i, hi', e⟩ := List.getElem_of_mem h3
      refine le_antisymm ?_ (h3' _ (List.getElem_mem _))
      rw [← e]; exact Incr.le_getElem hN (by omega) (by omega)
    have hr := range_le N D hg (N.length - 1) (by omega)
    rw [← elo, ← ehi] at hr
    have hcast : ((N.length - 1 : Nat) : K) = (N.length : K) - 1 := by
      rw [Nat.cast_sub (by omega)]; simp
    rw [hcast] at hr
    have hn : (2 : K) ≤ N.length := by exact_mod_cast h2
    have hmx : (N.length : K) ≤ (max num N.length : Nat) := by exact_mod_cast le_max_right _ _
    have hD : 0 ≤ D := by
      have a := hg 0 (by omega)
      have b := List.pairwise_iff_getElem.1 hN 0 1 (by omega) (by omega) (by omega)
      linarith
    subst hxs
    refine ⟨by simp; omega, ?_, ?_, ?_⟩
    · simp [gridPt_zero, elo]
    · simp only [List.length_map, List.length_range, List.getElem_map, List.getElem_range]
      rw [gridPt_last _ _ _ (by omega), ehi]
    · intro i h
      simp only [List.getElem_map, List.getElem_range, gridPt]
      push_cast
      have : lo + ((i : K) + 1) * ((hi - lo) / ((max num N.length : Nat) - 1 : K)) -
          (lo + (i : K) * ((hi - lo) / ((max num N.length : Nat) - 1 : K))) = (hi - lo) / ((max num N.length : Nat) - 1 : K) := by ring
      push_cast at this
      rw [this, div_le_iff₀ (by push_cast at hmx; linarith)]
      push_cast at hmx
      have : (N.length - 1 : K) * D ≤ (max (num : K) N.length - 1) * D := mul_le_mul_of_nonneg_right (by linarith) hD
      linarith

/-- Every point of the range is within one gap of a sample. -/
theorem Sampled.dense {ip : InterpFam K} {kind : Option String} {num : Nat} {N : List K} {P : List (F K)}
    {xs : List K} {ys : List (F K)} (h : Sampled ip kind num N P xs ys) (h2 : 2 ≤ N.length) (hN : Incr N) {D : K}
    (hg : ∀ i (h : i + 1 < N.length), N[i + 1] - N[i] ≤ D) {t : K} (h0 : N[0] ≤ t) (h1 : t ≤ N[N.length - 1]) :
    ∃ k, ∃ hk : k < xs.length, |xs[k] - t| ≤ D := by
  obtain ⟨hx, e0, e1, hgx⟩ := Sampled.gap h h2 hN hg
  obtain ⟨j, hj, a, b⟩ := segment_exists xs t (xs.length - 1) (by omega) (by omega) (by rw [e0]; exact h0) (by rw [e1]; exact h1)
  refine ⟨j, by omega, ?_⟩
  rw [abs_le]
  have := hgx j hj
  constructor <;> linarith

/-- Interpolants that stay between nodes are calm. -/
theorem between_calm {I : Interp K} (hB : BetweenNodes I) {d : K} (hd : 0 ≤ d) (T : K) {N Y : List K} (hl : N.length = Y.length)
    (h2 : 2 ≤ N.length) (hN : Incr N) : Calm d T I N Y := by
  intro j h h' q h1 h3
  obtain ⟨v, hv, v1, v2⟩ := hB N Y hl h2 hN j h q h1 h3
  exact ⟨v, hv, fun _ => ⟨by linarith, by linarith⟩⟩

/-- Every sample lies between two data values whose radii are within one gap, up to the overshoot;
below only up to `lo` and above only from `a` on. -/
theorem Sampled.near_past {ip : InterpFam K} {kind : Option String} {num : Nat} {N Y : List K}
    {xs ys : List K} (h : Sampled ip kind num N (Y.map fin) xs (ys.map fin)) (hl : N.length = Y.length) (h2 : 2 ≤ N.length)
    (hN : Incr N) {lo a d T : K} (hd : 0 ≤ d) (hB : ∀ k, kind = some k → CalmPast lo a d T (ip k) N Y) {D : K}
    (hg : ∀ i (h : i + 1 < N.length), N[i + 1] - N[i] ≤ D) (k : Nat) (hk : k < xs.length) (hk' : k < ys.length) (hT : xs[k] ≤ T) :
    ∃ i j, ∃ hi : i < N.length, ∃ hj : j < N.length, |N[i] - xs[k]| ≤ D ∧ |N[j] - xs[k]| ≤ D ∧
      min Y[i] lo - d ≤ ys[k] ∧ (a ≤ xs[k] → ys[k] ≤ Y[j] + d) := by
  have hD : 0 ≤ D := by
    have a := hg 0 (by omega)
    have b := List.pairwise_iff_getElem.1 hN 0 1 (by omega) (by omega) (by omega)
    linarith
  cases kind with
  | none =>
    obtain ⟨rfl, e⟩ := h
    have e : ys = Y := List.map_injective_iff.2 (fun a b h => by injection h) e
    subst e
    exact ⟨k, k, hk, hk, by simpa using hD, by simpa using hD, by linarith [min_le_left ys[k] lo], fun _ => by linarith⟩
  | some kd =>
    have hr := Sampled.mem_range h h2 (List.getElem_mem hk)
    have hfor : ip kd (N.map fin) (Y.map fin) (fin xs[k]) = .ok (fin ys[k]) := by
      obtain ⟨_, _, _, _, _, hy⟩ := h
      have := List.forall₂_iff_get.1 hy
      have := this.2 k hk (by simpa using hk')
      simpa using this
    obtain ⟨⟨x, ha, ha'⟩, ⟨y, hb, hb'⟩⟩ := hr
    have h0 : N[0] ≤ xs[k] := by
      obtain ⟨i, hi, e⟩ := List.getElem_of_mem ha
      refine le_trans ?_ ha'
      rw [← e]; exact Incr.le_getElem hN (Nat.zero_le _) hi
    have h1 : xs[k] ≤ N[N.length - 1] := by
      obtain ⟨i, hi, e⟩ := List.getElem_of_mem hb
      refine le_trans hb' ?_
      rw [← e]; exact Incr.le_getElem hN (by omega) (by omega)
    obtain ⟨j, hj, s1, s2⟩ := segment_exists N xs[k] (N.length - 1) (by omega) (by omega) h0 h1
    obtain ⟨v, hv, hv12⟩ := hB kd rfl j hj (by omega) xs[k] s1 s2
    obtain ⟨v1, v2⟩ := hv12 hT
    rw [hfor] at hv
    injection hv with hv
    injection hv with hv
    subst hv
    have hgj := hg j hj
    have d1 : |N[j] - xs[k]| ≤ D := by rw [abs_le]; constructor <;> linarith
    have d2 : |N[j + 1] - xs[k]| ≤ D := by rw [abs_le]; constructor <;> linarith
    rcases le_total Y[j] Y[j + 1] with hY | hY
    · rw [min_eq_left hY] at v1; rw [max_eq_right hY] at v2
      exact ⟨j, j + 1, by omega, by omega, d1, d2, v1, v2⟩
    · rw [min_eq_right hY] at v1; rw [max_eq_left hY] at v2
      exact ⟨j + 1, j, by omega, by omega, d2, d1, v1, v2⟩

/-- Calm interpolants are calm from any point on. -/
theorem calm_past {I : Interp K} {d T : K} {N Y : List K} (h : Calm d T I N Y) (lo a : K) : CalmPast lo a d T I N Y := by
  intro j h1 h2 q h3 h4
  obtain ⟨v, hv, hb⟩ := h j h1 h2 q h3 h4
  refine ⟨v, hv, fun hT => ⟨?_, fun _ => (hb hT).2⟩⟩
  linarith [(hb hT).1, min_le_left (min Y[j] Y[j + 1]) lo]

/-- Every sample lies between two data values whose radii are within one gap, up to the overshoot. -/
theorem Sampled.near_calm {ip : InterpFam K} {kind : Option String} {num : Nat} {N Y : List K}
    {xs ys : List K} (h : Sampled ip kind num N (Y.map fin) xs (ys.map fin)) (hl : N.length = Y.length) (h2 : 2 ≤ N.length)
    (hN : Incr N) {d T : K} (hd : 0 ≤ d) (hB : ∀ k, kind = some k → Calm d T (ip k) N Y) {D : K}
    (hg : ∀ i (h : i + 1 < N.length), N[i + 1] - N[i] ≤ D) (k : Nat) (hk : k < xs.length) (hk' : k < ys.length) (hT : xs[k] ≤ T) :
    ∃ i j, ∃ hi : i < N.length, ∃ hj : j < N.length, |N[i] - xs[k]| ≤ D ∧ |N[j] - xs[k]| ≤ D ∧
      Y[i] - d ≤ ys[k] ∧ ys[k] ≤ Y[j] + d := by
  have hD : 0 ≤ D := by
    have a := hg 0 (by omega)
    have b := List.pairwise_iff_getElem.1 hN 0 1 (by omega) (by omega) (by omega)
    linarith
  cases kind with
  | none =>
    obtain ⟨rfl, e⟩ := h
    have e : ys = Y := List.map_injective_iff.2 (fun a b h => by injection h) e
    subst e
    exact ⟨k, k, hk, hk, by simpa using hD, by simpa using hD, by linarith, by linarith⟩
  | some kd =>
    have hr := Sampled.mem_range h h2 (List.getElem_mem hk)
    have hfor : ip kd (N.map fin) (Y.map fin) (fin xs[k]) = .ok (fin ys[k]) := by
      obtain ⟨_, _, _, _, _, hy⟩ := h
      have := List.forall₂_iff_get.1 hy
      have := this.2 k hk (by simpa using hk')
      simpa using this
    obtain ⟨⟨a, ha, ha'⟩, ⟨b, hb, hb'⟩⟩ := hr
    have h0 : N[0] ≤ xs[k] := by
      obtain ⟨i, hi, e⟩ := List.getElem_of_mem ha
      refine le_trans ?_ ha'
      rw [← e]; exact Incr.le_getElem hN (Nat.zero_le _) hi
    have h1 : xs[k] ≤ N[N.length - 1] := by
      obtain ⟨i, hi, e⟩ := List.getElem_of_mem hb
      refine le_trans hb' ?_
      rw [← e]; exact Incr.le_getElem hN (by omega) (by omega)
    obtain ⟨j, hj, s1, s2⟩ := segment_exists N xs[k] (N.length - 1) (by omega) (by omega) h0 h1
    obtain ⟨v, hv, hv12⟩ := hB kd rfl j hj (by omega) xs[k] s1 s2
    obtain ⟨v1, v2⟩ := hv12 hT
    rw [hfor] at hv
    injection hv with hv
    injection hv with hv
    subst hv
    have hgj := hg j hj
    have d1 : |N[j] - xs[k]| ≤ D := by rw [abs_le]; constructor <;> linarith
    have d2 : |N[j + 1] - xs[k]| ≤ D := by rw [abs_le]; constructor <;> linarith
    rcases le_total Y[j] Y[j + 1] with hY | hY
    · rw [min_eq_left hY] at v1; rw [max_eq_right hY] at v2
      exact ⟨j, j + 1, by omega, by omega, d1, d2, v1, v2⟩
    · rw [min_eq_right hY] at v1; rw [max_eq_left hY] at v2
      exact ⟨j + 1, j, by omega, by omega, d2, d1, v1, v2⟩

/-- Every sample lies between two data values whose radii are within one gap. -/
theorem Sampled.near {ip : InterpFam K} {kind : Option String} {num : Nat} {N Y : List K}
    {xs ys : List K} (h : Sampled ip kind num N (Y.map fin) xs (ys.map fin)) (hl : N.length = Y.length) (h2 : 2 ≤ N.length)
    (hN : Incr N) (hB : ∀ k, kind = some k → BetweenNodes (ip k)) {D : K}
    (hg : ∀ i (h : i + 1 < N.length), N[i + 1] - N[i] ≤ D) (k : Nat) (hk : k < xs.length) (hk' : k < ys.length) :
    ∃ i j, ∃ hi : i < N.length, ∃ hj : j < N.length, |N[i] - xs[k]| ≤ D ∧ |N[j] - xs[k]| ≤ D ∧
      Y[i] ≤ ys[k] ∧ ys[k] ≤ Y[j] := by
  have := Sampled.near_calm h hl h2 hN (d := 0) (T := xs[k]) le_rfl (fun k hk => between_calm (hB k hk) le_rfl _ hl h2 hN) hg k hk hk' le_rfl
  simpa using this

/-- Locating a crossing: samples left of `lo` are farther than `d` from `v`, the crossing samples left of `hi` are closer than `d`,
and there is one. -/
theorem locate (g : Bool) (xs ys : List K) (hl : xs.length = ys.length) (hx : Incr xs) (v lo hi d : K)
    (ha : ∀ k (h : k < xs.length), xs[k] ≤ lo → d ≤ |ys[k] - v|)
    (hb : ∀ k (h : k < xs.length), xs[k] ≤ hi → Reaches g v ys[k] → |ys[k] - v| < d)
    (hc : ∃ m, ∃ h : m < xs.length, xs[m] ≤ hi ∧ Reaches g v ys[m]) :
    ∃ i, ∃ h : i < xs.length, closestValueIndex (fin v) (ys.map fin) g = .ok (some i) ∧ lo < xs[i] ∧ xs[i] ≤ hi := by
  obtain ⟨m, hm, hmx, hmr⟩ := hc
  have hC := Props.C07_closest_value_index v ys g
  obtain ⟨o, ho⟩ := closestValueIndex_total (fin v) (ys.map fin) g
  cases o with
  | none => exact absurd hmr (hC.1.1 ho _ (List.getElem_mem _))
  | some i =>
    obtain ⟨k, hk, hik, hr, hf, hmin, _⟩ := (hC.2.1 i).1 ho
    have hkm : k ≤ m := by
      by_contra hcon
      exact hf m (by omega) hmr
    have hkx : xs[k] ≤ hi := (Incr.le_getElem hx hkm hm).trans hmx
    refine ⟨i, by omega, ho, ?_, (Incr.le_getElem hx hik (by omega)).trans hkx⟩
    by_contra hcon
    have h1 := ha i (by omega) (not_lt.1 hcon)
    have h2 := hb k (by omega) hkx hr
    have h3 := hmin k le_rfl
    linarith

/-- `calculate_petrosian_r` from samples. -/
theorem petrosianR_of_sampled {ip : InterpFam K} {R : List K} {P : List (F K)} (hP : P ≠ []) {eta : F K} {kind : Option String}
    {num : Nat} {r : F K} (h2 : 2 ≤ R.length) {xs : List K} {ys : List (F K)}
    (hS : Sampled ip kind num (0 :: R.tail) (fin 1 :: P.tail) xs ys) (hr : radiusAt eta (xs.map fin, ys) false = .ok r) :
    calculatePetrosianR ip (R.map fin) P none eta kind num = .ok (r, nan) := by
  cases R with
  | nil => simp at h2
  | cons r0 R =>
    cases P with
    | nil => exact absurd rfl hP
    | cons p0 P =>
      unfold calculatePetrosianR
      simp only [List.map_cons, setItem0, Except.bind_ok]
      have e0 : (fin 0 :: R.map fin : List (F K)) = (0 :: R).map fin := by simp
      rw [e0, (getInterpolatedValues_sampled ip kind num (0 :: R) (fin 1 :: P) (by simpa using h2) _).2 ⟨xs, ys, rfl, hS⟩]
      simp only [Except.bind_ok, hr]

/-- The sampled values of calm interpolants exist. -/
theorem Sampled.exists_past {ip : InterpFam K} {kind : Option String} {num : Nat} {R Y : List K} {lo a d T : K}
    (hB : ∀ k, kind = some k → CalmPast lo a d T (ip k) R Y) (h2 : 2 ≤ R.length) (hl : R.length = Y.length)
    (hR : Incr R) : ∃ xs ys : List K, Sampled ip kind num R (Y.map fin) xs (ys.map fin) ∧ xs.length = ys.length := by
  cases kind with
  | none => exact ⟨R, Y, ⟨rfl, rfl⟩, hl⟩
  | some k =>
    have hL := hB k rfl
    have hne : R ≠ [] := by rintro rfl; simp at h2
    obtain ⟨lo, h1, _, h1'⟩ := pyMin_fin hne
    obtain ⟨hi, h3, _, h3'⟩ := pyMax_fin hne
    have hv : ∀ x ∈ (List.range (max num R.length)).map (gridPt lo hi (max num R.length)),
        ∃ v, ip k (R.map fin) (Y.map fin) (fin x) = .ok (fin v) := by
      intro x hx
      obtain ⟨i, hi', rfl⟩ := List.mem_map.1 hx
      obtain ⟨g1, g2⟩ := gridPt_mem (h1' _ h3) (max num R.length) (by omega) (List.mem_range.1 hi')
      have h0 : R[0] ≤ gridPt lo hi (max num R.length) i := by
        obtain ⟨j, hj, e⟩ := List.getElem_of_mem h1
        refine le_trans ?_ g1
        rw [← e]; exact Incr.le_getElem hR (Nat.zero_le _) hj
      have h1 : gridPt lo hi (max num R.length) i ≤ R[R.length - 1] := by
        obtain ⟨j, hj, e⟩ := List.getElem_of_mem h3
        refine le_trans g2 ?_
        rw [← e]; exact Incr.le_getElem hR (by omega) (by omega)
      obtain ⟨j, hj, s1, s2⟩ := segment_exists R _ (R.length - 1) (by omega) (by omega) h0 h1
      obtain ⟨v, hv, _⟩ := hL j hj (by omega) _ s1 s2
      exact ⟨v, hv⟩
    have key : ∀ l : List K, (∀ x ∈ l, ∃ v, ip k (R.map fin) (Y.map fin) (fin x) = .ok (fin v)) →
        ∃ vs : List K, List.Forall₂ (fun x y => ip k (R.map fin) (Y.map fin) (fin x) = .ok y) l (vs.map fin) := by
      intro l
      induction l with
      | nil => intro _; exact ⟨[], by simp⟩
      | cons x l ih =>
        intro h
        obtain ⟨v, hv⟩ := h x (by simp)
        obtain ⟨vs, hvs⟩ := ih fun y hy => h y (by simp [hy])
        exact ⟨v :: vs, by simp [hv, hvs]⟩
    obtain ⟨vs, hvs⟩ := key _ hv
    refine ⟨_, vs, ⟨lo, hi, ⟨h1, h1'⟩, ⟨h3, h3'⟩, rfl, hvs⟩, ?_⟩
    have := hvs.length_eq
    simpa using this

/-- The sampled values of calm interpolants exist. -/
theorem Sampled.exists_calm {ip : InterpFam K} {kind : Option String} {num : Nat} {R Y : List K} {d T : K}
    (hB : ∀ k, kind = some k → Calm d T (ip k) R Y) (h2 : 2 ≤ R.length) (hl : R.length = Y.length)
    (hR : Incr R) : ∃ xs ys : List K, Sampled ip kind num R (Y.map fin) xs (ys.map fin) ∧ xs.length = ys.length :=
  Sampled.exists_past (fun k hk => calm_past (hB k hk) 0 0) h2 hl hR

/-- The sampled values exist for interpolants that stay between nodes. -/
theorem Sampled.exists_between {ip : InterpFam K} {kind : Option String} {num : Nat} {R Y : List K}
    (hB : ∀ k, kind = some k → BetweenNodes (ip k)) (h2 : 2 ≤ R.length) (hl : R.length = Y.length)
    (hR : Incr R) : ∃ xs ys : List K, Sampled ip kind num R (Y.map fin) xs (ys.map fin) ∧ xs.length = ys.length :=
  Sampled.exists_calm (d := 0) (T := 0) (fun k hk => between_calm (hB k hk) le_rfl _ hl h2 hR) h2 hl hR

/-- `interp1d(kind='linear')` stays between nodes. -/
theorem linear_between : BetweenNodes (linearInterp : Interp K) := by
  intro xs ys hl h2 hx j hj q h1 h2'
  have hne : xs ≠ [] := by rintro rfl; simp at h2
  refine ⟨linK (xs.zip ys) q, (linearInterp_eq xs ys hl hx hne q).1
    ⟨⟨_, List.getElem_mem _, h1⟩, ⟨_, List.getElem_mem _, h2'⟩⟩, ?_⟩
  clear h2 hne
  induction xs generalizing ys j with
  | nil => simp at hj
  | cons x0 xs ih =>
    cases ys with
    | nil => simp at hl
    | cons y0 ys =>
      cases xs with
      | nil => simp at hj
      | cons x1 xs =>
        cases ys with
        | nil => simp at hl
        | cons y1 ys =>
          have hlt : x0 < x1 := (List.pairwise_cons.1 hx).1 x1 (by simp)
          have hx' := (List.pairwise_cons.1 hx).2
          simp only [List.zip_cons_cons, linK]
          have seg : x0 ≤ q → q ≤ x1 → min y0 y1 ≤ (y1 - y0) / (x1 - x0) * (q - x0) + y0 ∧
              (y1 - y0) / (x1 - x0) * (q - x0) + y0 ≤ max y0 y1 := by
            intro a b
            have hd : 0 < x1 - x0 := sub_pos.2 hlt
            have e : (y1 - y0) / (x1 - x0) * (q - x0) = (y1 - y0) * ((q - x0) / (x1 - x0)) := by ring
            have t0 : 0 ≤ (q - x0) / (x1 - x0) := div_nonneg (by linarith) hd.le
            have t1 : (q - x0) / (x1 - x0) ≤ 1 := by rw [div_le_one hd]; linarith
            rw [e]
            generalize (q - x0) / (x1 - x0) = t at t0 t1
            rcases le_total y0 y1 with h | h
            · rw [min_eq_left h, max_eq_right h]
              constructor <;> nlinarith
            · rw [min_eq_right h, max_eq_left h]
              constructor <;> nlinarith
          by_cases hq : q ≤ x1
          · rw [if_pos hq]
            cases j with
            | zero => exact seg h1 h2'
            | succ j =>
              -- then q is the left end of the segment
              have hle : x1 ≤ q := by
                refine le_trans ?_ h1
                have := Incr.le_getElem hx' (Nat.zero_le j) (by simp at hj ⊢; omega)
                simpa using this
              have e : q = x1 := le_antisymm hq hle
              have hj0 : j = 0 := by
                by_contra hcon
                have := List.pairwise_iff_getElem.1 hx' 0 j (by simp) (by simp at hj ⊢; omega) (by omega)
                simp only [List.getElem_cons_succ] at h1
                simp only [List.getElem_cons_zero] at this
                linarith
              subst hj0
              rw [e, div_mul_cancel₀ _ (sub_ne_zero.2 hlt.ne')]
              simp
          · rw [if_neg hq]
            cases j with
            | zero => exact absurd h2' hq
            | succ j => exact ih (y1 :: ys) (by simpa using hl) hx' j (by simpa using hj) h1 h2'

end Verif

import Verif.Lemmas.SampledNear
import Verif.Props.Rounding
import Verif.Props.CubicRadius

/-!
# Where rounded samples of a monotone curve cross a value
-/

set_option linter.unusedSectionVars false

namespace Verif

open F Spec Props

section
variable {K : Type} [Field K] [LinearOrder K] [IsStrictOrderedRing K]

/-- Locating a crossing in rounded arithmetic: samples left of `lo` are at least `d` away from `v`, the crossing samples left of `hi` at most
half as far, and there is one. -/
theorem locateR {fl : K → K} (hfl : Rounding fl) {u : K} (hu : RelErr u fl) (hu0 : 0 ≤ u) (hu1 : u ≤ 1 / 4) (g : Bool) (xs ys : List K)
    (hl : xs.length = ys.length) (hx : xs.Pairwise (· ≤ ·)) (v lo hi d : K) (hd : 0 < d)
    (ha : ∀ k (h : k < xs.length), xs[k] ≤ lo → d ≤ |ys[k] - v|)
    (hb : ∀ k (h : k < xs.length), xs[k] ≤ hi → Reaches g v ys[k] → 2 * |ys[k] - v| ≤ d)
    (hc : ∃ m, ∃ h : m < xs.length, xs[m] ≤ hi ∧ Reaches g v ys[m]) :
    ∃ i, ∃ h : i < xs.length, radiusAtR fl (fin v) (xs.map fin, ys.map fin) g = .ok (fin xs[i]) ∧ lo < xs[i] ∧ xs[i] ≤ hi := by
  obtain ⟨m, hm, hmx, hmr⟩ := hc
  have hmono : ∀ i j (hij : i ≤ j) (hj : j < xs.length), xs[i] ≤ xs[j] := by
    intro i j hij hj
    rcases hij.eq_or_lt with rfl | h
    · exact le_rfl
    · exact List.pairwise_iff_getElem.1 hx i j (by omega) hj h
  rcases radiusAtR_ok hfl v xs ys hl g with ⟨_, hn⟩ | ⟨i, hi', hci, hri⟩
  · exact absurd hmr (hn _ (List.getElem_mem _))
  · obtain ⟨k, hk, hik, hr, hf, hmin, -⟩ := C110_near hfl hu hu0 (by linarith) v ys g hci
    have hkm : k ≤ m := by
      by_contra hcon
      exact hf m (by omega) hmr
    have hkx : xs[k] ≤ hi := (hmono k m hkm hm).trans hmx
    refine ⟨i, hi', hri, ?_, (hmono i k hik (by omega)).trans hkx⟩
    by_contra hcon
    have h1 := ha i hi' (not_lt.1 hcon)
    have h2 := hb k (by omega) hkx hr
    have h3 := hmin k le_rfl
    have h4 : (3 / 4 : K) * d ≤ (1 - u) * |ys[i] - v| := mul_le_mul (by linarith) h1 hd.le (by linarith)
    have h5 : (1 + u) * |ys[k] - v| ≤ 5 / 4 * (d / 2) := mul_le_mul (by linarith) (by linarith) (abs_nonneg _) (by norm_num)
    linarith

/-- The gaps of `np.linspace` in rounded arithmetic. -/
theorem gridR_gap {fl : K → K} (hfl : Rounding fl) {u : K} (hu : RelErr u fl) (hu0 : 0 ≤ u) (hu1 : u ≤ 1 / 10) {lo hi : K} (hlo : 0 ≤ lo)
    (h : lo ≤ hi) (n : Nat) (hn : 2 ≤ n) {xs : List K} (hxs : npLinspaceR fl (fin lo) (fin hi) n = xs.map fin) :
    ∀ i (h : i + 1 < xs.length), xs[i + 1] - xs[i] ≤ 2 * ((hi - lo) / ((n : K) - 1)) + 5 * u * hi := by
  have hc : ((n - 1 : Nat) : K) = (n : K) - 1 := by
    rw [Nat.cast_sub (by omega)]; simp
  have hn' : (2 : K) ≤ n := by exact_mod_cast hn
  have hn1 : 0 < (n : K) - 1 := by linarith
  set w : K := (hi - lo) / ((n : K) - 1) with hw
  have hw0 : 0 ≤ w := div_nonneg (by linarith) hn1.le
  have hwn : w * ((n : K) - 1) = hi - lo := by rw [hw]; field_simp
  set s : K := fl (fl (hi - lo) / ((n : K) - 1)) with hs
  have hd0 : 0 ≤ fl (hi - lo) := Rounding.nonneg hfl (by linarith)
  have hq0 : 0 ≤ fl (hi - lo) / ((n : K) - 1) := div_nonneg hd0 hn1.le
  have hs0 : 0 ≤ s := Rounding.nonneg hfl hq0
  have a1 := relErr_le hu (x := hi - lo) (by linarith)
  have a2 := relErr_le hu hq0
  have hu1' : 0 ≤ 1 - u := by linarith
  have q1 : fl (hi - lo) / ((n : K) - 1) ≤ (1 + u) * w := by
    rw [hw, ← mul_div_assoc]
    exact div_le_div_of_nonneg_right a1.1 hn1.le
  have q2 : (1 - u) * w ≤ fl (hi - lo) / ((n : K) - 1) := by
    rw [hw, ← mul_div_assoc]
    exact div_le_div_of_nonneg_right a1.2 hn1.le
  have s1 : s ≤ (1 + u) ^ 2 * w := by
    have := mul_le_mul_of_nonneg_left q1 (by linarith : 0 ≤ 1 + u)
    have e : (1 + u) ^ 2 * w = (1 + u) * ((1 + u) * w) := by ring
    rw [e]; exact a2.1.trans this
  have s2 : (1 - u) ^ 2 * w ≤ s := by
    have := mul_le_mul_of_nonneg_left q2 hu1'
    have e : (1 - u) ^ 2 * w = (1 - u) * ((1 - u) * w) := by ring
    rw [e]; exact this.trans a2.2
  let pt : Nat → K := fun i => if 1 < n ∧ i + 1 = n then hi else fl (fl ((i : K) * s) + lo)
  have hpt : xs = (List.range n).map pt := by
    have : npLinspaceR fl (fin lo) (fin hi) n = ((List.range n).map pt).map fin := by
      unfold npLinspaceR
      simp only [show 1 < n by omega, true_and, if_true, hc, fin_sub, rnd_fin, List.map_map]
      apply List.map_congr_left
      intro i _
      rw [fin_div_of_ne _ hn1.ne', rnd_fin]
      simp only [Function.comp_apply, pt, show 1 < n by omega, true_and]
      split
      · rfl
      · rw [fin_mul, rnd_fin, fin_add, rnd_fin]
    rw [hxs] at this
    exact List.map_injective_iff.2 (fun a b h => by injection h) this
  have hlow : ∀ i : Nat, (1 - u) ^ 2 * ((i : K) * s) + (1 - u) * lo ≤ fl (fl ((i : K) * s) + lo) := by
    intro i
    have h1 := relErr_le hu (x := (i : K) * s) (mul_nonneg (Nat.cast_nonneg i) hs0)
    have h0 : 0 ≤ fl ((i : K) * s) := Rounding.nonneg hfl (mul_nonneg (Nat.cast_nonneg i) hs0)
    have h2 := relErr_le hu (x := fl ((i : K) * s) + lo) (by linarith)
    have h3 := mul_le_mul_of_nonneg_left h1.2 hu1'
    have e : (1 - u) ^ 2 * ((i : K) * s) = (1 - u) * ((1 - u) * ((i : K) * s)) := by ring
    rw [e]
    linarith [h2.2]
  have hhigh : ∀ i : Nat, fl (fl ((i : K) * s) + lo) ≤ (1 + u) ^ 2 * ((i : K) * s) + (1 + u) * lo := by
    intro i
    have h1 := relErr_le hu (x := (i : K) * s) (mul_nonneg (Nat.cast_nonneg i) hs0)
    have h0 : 0 ≤ fl ((i : K) * s) := Rounding.nonneg hfl (mul_nonneg (Nat.cast_nonneg i) hs0)
    have h2 := relErr_le hu (x := fl ((i : K) * s) + lo) (by linarith)
    have h3 := mul_le_mul_of_nonneg_left h1.1 (by linarith : 0 ≤ 1 + u)
    have e : (1 + u) ^ 2 * ((i : K) * s) = (1 + u) * ((1 + u) * ((i : K) * s)) := by ring
    rw [e]
    linarith [h2.1]
  have hu2 : u ^ 2 ≤ u / 10 := by nlinarith
  have hu20 : 0 ≤ u ^ 2 := sq_nonneg u
  have p1 : (1 + u) ^ 2 ≤ 5 / 4 := by nlinarith
  have p2 : (1 - u) ^ 2 ≤ 1 := pow_le_one₀ hu1' (by linarith only [hu0])
  have p4 : 1 - 4 * u ≤ (1 - u) ^ 4 := by
    have := one_add_mul_le_pow (a := -u) (by linarith only [hu1]) 4
    push_cast at this
    rw [show (1 - u) ^ 4 = (1 + -u) ^ 4 by ring]
    linarith only [this]
  have hulo : 0 ≤ u * lo := mul_nonneg hu0 hlo
  have huhl : 0 ≤ u * (hi - lo) := mul_nonneg hu0 (by linarith)
  intro i hi'
  simp only [hpt, List.length_map, List.length_range] at hi'
  simp only [hpt, List.getElem_map, List.getElem_range, pt]
  rw [if_neg (by omega : ¬ (1 < n ∧ i + 1 = n))]
  have l1 := hlow i
  have hin : (i : K) ≤ (n : K) - 2 := by
    have : ((i + 2 : Nat) : K) ≤ n := by exact_mod_cast hi'
    push_cast at this; linarith
  have his : (i : K) * s ≤ 5 / 4 * (hi - lo) := by
    have h1 : (i : K) * s ≤ ((n : K) - 1) * s := mul_le_mul_of_nonneg_right (by linarith) hs0
    have h2 : s ≤ 5 / 4 * w := s1.trans (mul_le_mul_of_nonneg_right p1 hw0)
    have h3 := mul_le_mul_of_nonneg_left h2 hn1.le
    have e : ((n : K) - 1) * (5 / 4 * w) = 5 / 4 * (hi - lo) := by rw [← hwn]; ring
    rw [e] at h3
    linarith
  have his0 : 0 ≤ (i : K) * s := mul_nonneg (Nat.cast_nonneg i) hs0
  by_cases hlast : i + 1 + 1 = n
  · rw [if_pos ⟨by omega, hlast⟩]
    have hi2 : (i : K) = (n : K) - 2 := by
      have : ((i + 2 : Nat) : K) = n := by exact_mod_cast hlast
      push_cast at this; linarith
    -- the last gap
    have h1 : (1 - u) ^ 2 * (hi - lo) - s ≤ (i : K) * s := by
      have h2 := mul_le_mul_of_nonneg_left s2 hn1.le
      have e : ((n : K) - 1) * ((1 - u) ^ 2 * w) = (1 - u) ^ 2 * (hi - lo) := by rw [← hwn]; ring
      rw [e] at h2
      have e2 : (i : K) * s = ((n : K) - 1) * s - s := by rw [hi2]; ring
      linarith
    have hs2 : s ≤ 5 / 4 * w := s1.trans (mul_le_mul_of_nonneg_right p1 hw0)
    have h3 : (1 - u) ^ 2 * ((1 - u) ^ 2 * (hi - lo) - s) ≤ (1 - u) ^ 2 * ((i : K) * s) := mul_le_mul_of_nonneg_left h1 (sq_nonneg _)
    have h4 : (1 - 4 * u) * (hi - lo) ≤ (1 - u) ^ 4 * (hi - lo) := by
      exact mul_le_mul_of_nonneg_right p4 (by linarith only [h])
    have h5 : (1 - u) ^ 2 * s ≤ s := mul_le_of_le_one_left hs0 p2
    have e5 : (1 - u) ^ 2 * ((1 - u) ^ 2 * (hi - lo) - s) = (1 - u) ^ 4 * (hi - lo) - (1 - u) ^ 2 * s := by ring
    rw [e5] at h3
    have e6 : 5 * u * hi = 5 * (u * (hi - lo)) + 5 * (u * lo) := by ring
    rw [e6]
    linarith
  · rw [if_neg (by omega : ¬ (1 < n ∧ i + 1 + 1 = n))]
    have l2 := hhigh (i + 1)
    push_cast at l2 ⊢
    have hs2 : s ≤ 5 / 4 * w := s1.trans (mul_le_mul_of_nonneg_right p1 hw0)
    have hs3 : (1 + u) ^ 2 * s ≤ 5 / 4 * (5 / 4 * w) := mul_le_mul p1 hs2 hs0 (by norm_num)
    have e1 : (1 + u) ^ 2 * (((i : K) + 1) * s) = (1 + u) ^ 2 * ((i : K) * s) + (1 + u) ^ 2 * s := by ring
    have e2 : (1 + u) ^ 2 * ((i : K) * s) - (1 - u) ^ 2 * ((i : K) * s) = 4 * u * ((i : K) * s) := by ring
    have h1 : 4 * u * ((i : K) * s) ≤ 4 * u * (5 / 4 * (hi - lo)) := mul_le_mul_of_nonneg_left his (by linarith)
    have e3 : 4 * u * (5 / 4 * (hi - lo)) = 5 * (u * (hi - lo)) := by ring
    have e6 : 5 * u * hi = 5 * (u * (hi - lo)) + 5 * (u * lo) := by ring
    rw [e6]
    linarith

set_option maxHeartbeats 600000 in
/-- The samples of `get_interpolated_values` in rounded arithmetic: sorted, inside the range of the nodes, within `3 D` of every point of the
range, and no farther from the two data values around them than the interpolation allows. -/
theorem samplesR {fl : K → K} (hfl : Rounding fl) {u : K} (hu : RelErr u fl) (hu0 : 0 ≤ u) (hu1 : u ≤ 1 / 10) (ip : InterpFam K)
    (kind : Option String) (num : Nat) {N Y : List K} (hl : N.length = Y.length) (h2 : 2 ≤ N.length) (hN : Incr N) (h0 : (0 : K) ≤ N[0])
    (hrep : ∀ x ∈ N, fl x = x) (hnu : 4 * u * (max num N.length : Nat) ≤ 1) {D d T : K}
    (hg : ∀ i (h : i + 1 < N.length), N[i + 1] - N[i] ≤ D) (hT : N[N.length - 1] ≤ T) (huT : 5 * u * T ≤ D)
    (hB : ∀ k, kind = some k → Calm d T (ip k) N Y) (hd : 0 ≤ d) :
    ∃ xs ys : List K, getInterpolatedValuesR fl ip (N.map fin) (Y.map fin) num kind = .ok (xs.map fin, ys.map fin) ∧
      xs.length = ys.length ∧ xs.Pairwise (· ≤ ·) ∧
      (∀ k (h : k < xs.length) (h' : k < ys.length), ∃ j, ∃ hj : j + 1 < N.length, N[j] ≤ xs[k] ∧ xs[k] ≤ N[j + 1] ∧
        min Y[j] Y[j + 1] - d ≤ ys[k] ∧ ys[k] ≤ max Y[j] Y[j + 1] + d) ∧
      ∀ t, N[0] ≤ t → t ≤ N[N.length - 1] → ∃ k, ∃ h : k < xs.length, |xs[k] - t| ≤ 3 * D := by
  have hD : 0 ≤ D := by
    have a := hg 0 (by omega)
    have b := List.pairwise_iff_getElem.1 hN 0 1 (by omega) (by omega) (by omega)
    linarith
  have hlast0 : (0 : K) ≤ N[N.length - 1] := h0.trans (Incr.le_getElem hN (Nat.zero_le (N.length - 1)) (by omega))
  cases kind with
  | none =>
    refine ⟨N, Y, rfl, hl, hN.imp fun h => h.le, ?_, ?_⟩
    · intro k hk hk'
      have hmx : ∀ j (hj : j + 1 < N.length), min Y[j] Y[j + 1] - d ≤ Y[j] ∧ Y[j] ≤ max Y[j] Y[j + 1] + d ∧
          min Y[j] Y[j + 1] - d ≤ Y[j + 1] ∧ Y[j + 1] ≤ max Y[j] Y[j + 1] + d := fun j hj =>
        ⟨by linarith [min_le_left Y[j] Y[j + 1]], by linarith [le_max_left Y[j] Y[j + 1]],
          by linarith [min_le_right Y[j] Y[j + 1]], by linarith [le_max_right Y[j] Y[j + 1]]⟩
      by_cases h : k + 1 < N.length
      · exact ⟨k, h, le_rfl, Incr.le_getElem hN (by omega) h, (hmx k h).1, (hmx k h).2.1⟩
      · obtain ⟨j, rfl⟩ : ∃ j, k = j + 1 := ⟨k - 1, by omega⟩
        exact ⟨j, hk, Incr.le_getElem hN (by omega) hk, le_rfl, (hmx j hk).2.2.1, (hmx j hk).2.2.2⟩
    · intro t ht0 ht1
      obtain ⟨j, hj, a, b⟩ := segment_exists N t (N.length - 1) (by omega) (by omega) ht0 ht1
      refine ⟨j, by omega, ?_⟩
      have := hg j hj
      rw [abs_le]
      constructor <;> linarith
  | some k =>
    have hne : N ≠ [] := by rintro rfl; simp at h2
    obtain ⟨lo, l1, hmin, l1'⟩ := pyMin_fin hne
    obtain ⟨hi, l3, hmax, l3'⟩ := pyMax_fin hne
    have elo : lo = N[0] := by
      obtain ⟨i, hi', e⟩ := List.getElem_of_mem l1
      refine le_antisymm (l1' _ (List.getElem_mem _)) ?_
      rw [← e]; exact Incr.le_getElem hN (Nat.zero_le _) hi'
    have ehi : hi = N[N.length - 1] := by
      obtain ⟨i, hi', e⟩ := List.getElem_of_mem l3
      refine le_antisymm ?_ (l3' _ (List.getElem_mem _))
      rw [← e]; exact Incr.le_getElem hN (by omega) (by omega)
    set n := max num N.length with hn
    have hn2 : 2 ≤ n := by omega
    have hn2' : (2 : K) ≤ n := by exact_mod_cast hn2
    have hnum : (if (N.map fin).length > num then (N.map fin).length else num) = n := by
      rw [List.length_map]; split <;> omega
    have hp3 : (1 + u) ^ 3 ≤ 1 + 4 * u := by nlinarith [mul_nonneg hu0 hu0, mul_nonneg (mul_nonneg hu0 hu0) hu0]
    obtain ⟨xs, hx, hxl, hx0, hx1, hsort, hrange⟩ := C109_grid hfl hu hu0 (hrep lo l1) (hrep hi l3) (l1' hi l3) n hn2 (by
      have h1 := mul_le_mul_of_nonneg_left hp3 (by linarith : 0 ≤ (n : K) - 2)
      have e : ((n : K) - 2) * (1 + 4 * u) = (n : K) - 2 + (4 * u * n - 8 * u) := by ring
      rw [e] at h1
      linarith)
    have hgap := gridR_gap hfl hu hu0 hu1 (by rw [elo]; exact h0) (l1' hi l3) n hn2 hx
    have hseg : ∀ x ∈ xs, ∃ j, ∃ hj : j + 1 < N.length, N[j] ≤ x ∧ x ≤ N[j + 1] := fun x hx =>
      segment_exists N x (N.length - 1) (by omega) (by omega) (elo ▸ (hrange x hx).1) (ehi ▸ (hrange x hx).2)
    have hval : ∀ x ∈ xs, ∃ v, ip k (N.map fin) (Y.map fin) (fin x) = .ok (fin v) ∧ ∃ j, ∃ hj : j + 1 < N.length, N[j] ≤ x ∧ x ≤ N[j + 1] ∧
        min Y[j] Y[j + 1] - d ≤ v ∧ v ≤ max Y[j] Y[j + 1] + d := by
      intro x hx
      obtain ⟨j, hj, a, b⟩ := hseg x hx
      obtain ⟨v, hv, hb⟩ := hB k rfl j hj (by omega) x a b
      obtain ⟨b1, b2⟩ := hb ((ehi ▸ (hrange x hx).2).trans hT)
      exact ⟨v, hv, j, hj, a, b, b1, b2⟩
    have hys : ∀ L : List K, (∀ x ∈ L, ∃ v, ip k (N.map fin) (Y.map fin) (fin x) = .ok (fin v) ∧
        ∃ j, ∃ hj : j + 1 < N.length, N[j] ≤ x ∧ x ≤ N[j + 1] ∧ min Y[j] Y[j + 1] - d ≤ v ∧ v ≤ max Y[j] Y[j + 1] + d) →
        ∃ ys : List K, (L.map fin).mapM (ip k (N.map fin) (Y.map fin)) = .ok (ys.map fin) ∧
        List.Forall₂ (fun x y => ∃ j, ∃ hj : j + 1 < N.length, N[j] ≤ x ∧ x ≤ N[j + 1] ∧
          min Y[j] Y[j + 1] - d ≤ y ∧ y ≤ max Y[j] Y[j + 1] + d) L ys := by
      intro L
      induction L with
      | nil => exact fun _ => ⟨[], rfl, List.Forall₂.nil⟩
      | cons x L ih =>
        intro hL
        obtain ⟨v, hv, hvb⟩ := hL x List.mem_cons_self
        obtain ⟨ys, h1, h2⟩ := ih fun y hy => hL y (List.mem_cons_of_mem _ hy)
        refine ⟨v :: ys, ?_, List.Forall₂.cons hvb h2⟩
        rw [List.map_cons, List.mapM_cons, hv, Except.bind_ok, h1, Except.bind_ok]; rfl
    obtain ⟨ys, hy1, hy2⟩ := hys xs hval
    refine ⟨xs, ys, ?_, hy2.length_eq, hsort, ?_, ?_⟩
    · unfold getInterpolatedValuesR
      simp only [hnum, hmin, hmax, Except.bind_ok, hx, hy1]
    · intro i h h'
      exact (List.forall₂_iff_get.1 hy2).2 i h h'
    · intro t ht0 ht1
      have e0 : xs[0]'(by omega) = lo := by
        rw [List.getElem?_eq_getElem (by omega)] at hx0
        exact Option.some.inj hx0
      have e1 : xs[n - 1]'(by omega) = hi := by
        rw [List.getElem?_eq_getElem (by omega)] at hx1
        exact Option.some.inj hx1
      obtain ⟨j, hj, a, b⟩ := segment_exists xs t (n - 1) (by omega) (by omega) (by rw [e0, elo]; exact ht0) (by rw [e1, ehi]; exact ht1)
      refine ⟨j, by omega, ?_⟩
      have hr := range_le N D hg (N.length - 1) (by omega)
      rw [← elo, ← ehi] at hr
      have hcast : ((N.length - 1 : Nat) : K) = (N.length : K) - 1 := by
        rw [Nat.cast_sub (by omega)]; simp
      rw [hcast] at hr
      have hmx : (N.length : K) ≤ n := by exact_mod_cast le_max_right _ _
      have hw : (hi - lo) / ((n : K) - 1) ≤ D := by
        rw [div_le_iff₀ (by linarith only [hn2'])]
        have : ((N.length : K) - 1) * D ≤ ((n : K) - 1) * D := mul_le_mul_of_nonneg_right (by linarith only [hmx]) hD
        linarith only [this, hr]
      have h5 : 5 * u * hi ≤ D := (mul_le_mul_of_nonneg_left (by rw [ehi]; exact hT) (by linarith only [hu0])).trans huT
      have := hgap j hj
      rw [abs_le]
      constructor
      · linarith only [this, a, b, hw, h5]
      · linarith only [a, b, hD]

end

/-- Samples of a rising continuous curve `g` (in any units of length `s` and height `U`), known to `σ` and no farther apart than `D0`: where they
cross the height of `g` at `r0`. -/
theorem crossing_rising {g : ℝ → ℝ} (hg : StrictMonoOn g (Set.Ici 0)) (hgc : ContinuousOn g (Set.Ici 0)) {r0 ε : ℝ} (hr0 : 0 < r0) (hε : 0 < ε) :
    ∃ D0 > 0, ∃ σ > 0, ∀ s > 0, ∀ U > 0, ∀ (xs ys : List ℝ) (hl : xs.length = ys.length), (∀ x ∈ xs, 0 ≤ x) →
      (∀ k (h : k < xs.length), xs[k] ≤ s * (r0 + ε) → |ys[k] - U * g (xs[k] / s)| ≤ U * σ) →
      (∀ t, r0 ≤ t → t ≤ r0 + ε → ∃ k, ∃ h : k < xs.length, |xs[k] - s * t| ≤ s * D0) →
      ∀ v, |v - U * g r0| ≤ U * σ →
      ∃ lo hi d, 0 < d ∧ s * (r0 - ε) ≤ lo ∧ 0 < lo ∧ hi ≤ s * (r0 + ε) ∧
        (∀ k (h : k < xs.length), xs[k] ≤ lo → d ≤ |ys[k] - v|) ∧
        (∀ k (h : k < xs.length), xs[k] ≤ hi → v ≤ ys[k] → 2 * |ys[k] - v| ≤ d) ∧
        ∃ m, ∃ h : m < xs.length, xs[m] ≤ hi ∧ v ≤ ys[m] := by
  set e := min ε (r0 / 2) with he
  have he0 : 0 < e := lt_min hε (by linarith)
  have heε : e ≤ ε := min_le_left _ _
  have her : e ≤ r0 / 2 := min_le_right _ _
  set d1 := g r0 - g (r0 - e) with hd1
  have hd1p : 0 < d1 := sub_pos.2 (hg (Set.mem_Ici.2 (by linarith)) (Set.mem_Ici.2 hr0.le) (by linarith))
  have hcont : ContinuousAt g r0 := hgc.continuousAt (Ici_mem_nhds hr0)
  obtain ⟨ρ, hρ, hρ'⟩ := Metric.continuousAt_iff.1 hcont (d1 / 4) (by linarith)
  set r1 := r0 + min ε (ρ / 2) with hr1
  have hm0 : 0 < min ε (ρ / 2) := lt_min hε (by linarith)
  have hr1ε : r1 ≤ r0 + ε := by rw [hr1]; linarith [min_le_left ε (ρ / 2)]
  have hr01 : r0 < r1 := by rw [hr1]; linarith
  have hg1 : g r1 < g r0 + d1 / 4 := by
    have := @hρ' r1 (by
      rw [Real.dist_eq, hr1, add_sub_cancel_left, abs_of_pos hm0]
      exact lt_of_le_of_lt (min_le_right _ _) (by linarith))
    rw [Real.dist_eq, abs_lt] at this
    linarith [this.2]
  set r2 := r0 + (r1 - r0) / 4 with hr2
  have hd2 : 0 < g r2 - g r0 := sub_pos.2 (hg (Set.mem_Ici.2 hr0.le) (Set.mem_Ici.2 (by linarith)) (by linarith))
  set d2 := g r2 - g r0 with hd2'
  refine ⟨(r1 - r0) / 4, by linarith, min (d1 / 16) (d2 / 2), lt_min (by linarith) (by linarith), ?_⟩
  intro s hs U hU xs ys hl hx0 hnear hdense v hv
  set σ := min (d1 / 16) (d2 / 2) with hσ
  have σ1 : σ ≤ d1 / 16 := min_le_left _ _
  have σ2 : σ ≤ d2 / 2 := min_le_right _ _
  have hv' := abs_le.1 hv
  have hUσ1 : U * σ ≤ U * (d1 / 16) := mul_le_mul_of_nonneg_left σ1 hU.le
  have hUσ2 : U * σ ≤ U * (d2 / 2) := mul_le_mul_of_nonneg_left σ2 hU.le
  have hmono : ∀ x y, 0 ≤ x → x ≤ y → U * g x ≤ U * g y := fun x y h0 hxy =>
    mul_le_mul_of_nonneg_left (hg.monotoneOn (Set.mem_Ici.2 h0) (Set.mem_Ici.2 (h0.trans hxy)) hxy) hU.le
  have ed1 : U * d1 = U * g r0 - U * g (r0 - e) := by rw [hd1]; ring
  have ed2 : U * d2 = U * g r2 - U * g r0 := by rw [hd2']; ring
  have hUd1 : 0 < U * d1 := mul_pos hU hd1p
  have hUg1 : U * g r1 ≤ U * (g r0 + d1 / 4) := mul_le_mul_of_nonneg_left hg1.le hU.le
  refine ⟨s * (r0 - e), s * r1, 7 / 8 * (U * d1), by linarith, mul_le_mul_of_nonneg_left (by linarith) hs.le, mul_pos hs (by linarith),
    mul_le_mul_of_nonneg_left hr1ε hs.le, ?_, ?_, ?_⟩
  · intro k hk hx
    have h1 := abs_le.1 (hnear k hk (hx.trans (mul_le_mul_of_nonneg_left (by linarith) hs.le)))
    have h2 := hmono (xs[k] / s) (r0 - e) (div_nonneg (hx0 _ (List.getElem_mem _)) hs.le) (by rw [div_le_iff₀ hs]; linarith)
    rw [abs_of_nonpos (by linarith [h1.2, hv'.1])]
    linarith [h1.2, hv'.1]
  · intro k hk hx hr
    have h1 := abs_le.1 (hnear k hk (hx.trans (mul_le_mul_of_nonneg_left hr1ε hs.le)))
    have h2 := hmono (xs[k] / s) r1 (div_nonneg (hx0 _ (List.getElem_mem _)) hs.le) (by rw [div_le_iff₀ hs]; linarith)
    rw [abs_of_nonneg (by linarith)]
    linarith [h1.2, hv'.1]
  · obtain ⟨m, hm, hmx⟩ := hdense ((r0 + r1) / 2) (by linarith) (by linarith)
    have h3 := abs_le.1 hmx
    have e3 : s * ((r1 - r0) / 4) = s * r1 - s * ((r0 + r1) / 2) - s * ((r1 - r0) / 4) := by ring
    have hpos : 0 < s * ((r1 - r0) / 4) := mul_pos hs (by linarith)
    have hle : xs[m] ≤ s * r1 := by linarith [h3.2]
    refine ⟨m, hm, hle, ?_⟩
    have h1 := abs_le.1 (hnear m hm (hle.trans (mul_le_mul_of_nonneg_left hr1ε hs.le)))
    have e4 : s * r2 = s * ((r0 + r1) / 2) - s * ((r1 - r0) / 4) := by rw [hr2]; ring
    have h2 := hmono r2 (xs[m] / s) (by linarith) (by
      rw [le_div_iff₀ hs]
      linarith [h3.1])
    linarith [h1.1, hv'.2]

/-- A continuous curve on the half line is uniformly continuous on bounded ranges. -/
theorem curve_modulus {g : ℝ → ℝ} (hgc : ContinuousOn g (Set.Ici 0)) (T : ℝ) {κ : ℝ} (hκ : 0 < κ) :
    ∃ ν > 0, ∀ x y, 0 ≤ x → x ≤ T → 0 ≤ y → y ≤ T → |x - y| ≤ ν → |g x - g y| ≤ κ := by
  have huc : UniformContinuousOn g (Set.Icc 0 T) := isCompact_Icc.uniformContinuousOn_of_continuous (hgc.mono fun x hx => Set.mem_Ici.2 hx.1)
  obtain ⟨ν, hν, h⟩ := Metric.uniformContinuousOn_iff.1 huc κ hκ
  refine ⟨ν / 2, by linarith, fun x y hx hxT hy hyT hxy => ?_⟩
  have := h x ⟨hx, hxT⟩ y ⟨hy, hyT⟩ (by rw [Real.dist_eq]; linarith)
  rw [Real.dist_eq] at this
  exact this.le

/-- Between two data points close to a curve, a calm interpolant is close to the curve. -/
theorem near_of_between {g : ℝ → ℝ} {T κ ν : ℝ} (hmod : ∀ x y, 0 ≤ x → x ≤ T → 0 ≤ y → y ≤ T → |x - y| ≤ ν → |g x - g y| ≤ κ) {s U σ d : ℝ}
    (hs : 0 < s) (hU : 0 < U) {a b x y ya yb : ℝ} (ha : 0 ≤ a) (hax : a ≤ x) (hxb : x ≤ b) (hbT : b ≤ s * T) (hab : b - a ≤ s * ν)
    (h1 : |ya - U * g (a / s)| ≤ U * σ) (h2 : |yb - U * g (b / s)| ≤ U * σ) (h3 : min ya yb - d ≤ y) (h4 : y ≤ max ya yb + d) :
    |y - U * g (x / s)| ≤ U * (κ + σ) + d := by
  have key : ∀ c yc, 0 ≤ c → c ≤ s * T → |c - x| ≤ s * ν → |yc - U * g (c / s)| ≤ U * σ → |yc - U * g (x / s)| ≤ U * (κ + σ) := by
    intro c yc hc hcT hcx hyc
    have h5 : |c / s - x / s| ≤ ν := by
      rw [← sub_div, abs_div, abs_of_pos hs, div_le_iff₀ hs]; linarith
    have h6 := hmod (c / s) (x / s) (div_nonneg hc hs.le) (by rw [div_le_iff₀ hs]; linarith) (div_nonneg (ha.trans hax) hs.le)
      (by rw [div_le_iff₀ hs]; linarith) h5
    have h7 : |U * g (c / s) - U * g (x / s)| ≤ U * κ := by
      rw [← mul_sub, abs_mul, abs_of_pos hU]
      exact mul_le_mul_of_nonneg_left h6 hU.le
    have e : yc - U * g (x / s) = (yc - U * g (c / s)) + (U * g (c / s) - U * g (x / s)) := by ring
    rw [e, mul_add]
    exact (abs_add_le _ _).trans (by linarith)
  have k1 := abs_le.1 (key a ya ha (by linarith) (by rw [abs_le]; constructor <;> linarith) h1)
  have k2 := abs_le.1 (key b yb (by linarith) hbT (by rw [abs_le]; constructor <;> linarith) h2)
  rw [abs_le]
  constructor
  · rcases min_choice ya yb with e | e <;> rw [e] at h3 <;> linarith [k1.1, k2.1]
  · rcases max_choice ya yb with e | e <;> rw [e] at h4 <;> linarith [k1.2, k2.2]

set_option maxHeartbeats 1000000 in
/-- A monotone curve measured to `σ` at nodes, interpolated, sampled and compared with a value, every operation rounded: the radius found is
close to where the curve has that value. -/
theorem crossingR {g : ℝ → ℝ} (asc : Bool) (hg : if asc then StrictMonoOn g (Set.Ici 0) else StrictAntiOn g (Set.Ici 0))
    (hgc : ContinuousOn g (Set.Ici 0)) {r0 ε T : ℝ} (hr0 : 0 < r0) (hε : 0 < ε) (hT : r0 + ε ≤ T) :
    ∃ δ > 0, ∃ σ > 0, ∃ c0 > 0, ∀ s > 0, ∀ U > 0, ∀ (fl : ℝ → ℝ) (u : ℝ), Rounding fl → RelErr u fl → 0 ≤ u → u ≤ c0 →
      ∀ (N Y : List ℝ) (hl : N.length = Y.length) (h2 : 2 ≤ N.length), Incr N → (0 : ℝ) ≤ N[0] → N[0] ≤ s * δ → (∀ x ∈ N, x ≤ s * T) →
      (∀ i (h : i + 1 < N.length), N[i + 1] - N[i] ≤ s * δ) → s * (r0 + ε) ≤ N[N.length - 1] → (∀ x ∈ N, fl x = x) →
      (∀ i (h : i < N.length), |Y[i] - U * g (N[i] / s)| ≤ U * σ) →
      ∀ (ip : InterpFam ℝ) (kind : Option String) (num : Nat), 4 * u * (max num N.length : Nat) ≤ 1 →
      (∀ k, kind = some k → Calm (U * σ) (s * T) (ip k) N Y) →
      ∀ v, |v - U * g r0| ≤ U * σ →
      ∃ xy r, getInterpolatedValuesR fl ip (N.map fin) (Y.map fin) num kind = .ok xy ∧
        radiusAtR fl (fin v) xy asc = .ok (fin (s * r)) ∧ |r - r0| ≤ ε ∧ 0 < r := by
  have hT0 : 0 < T := by linarith
  have hrise : ∃ D0 > 0, ∃ σ > 0, ∀ s > 0, ∀ U > 0, ∀ (xs ys : List ℝ) (hl : xs.length = ys.length), (∀ x ∈ xs, 0 ≤ x) →
      (∀ k (h : k < xs.length), xs[k] ≤ s * (r0 + ε) → |ys[k] - U * g (xs[k] / s)| ≤ U * σ) →
      (∀ t, r0 ≤ t → t ≤ r0 + ε → ∃ k, ∃ h : k < xs.length, |xs[k] - s * t| ≤ s * D0) →
      ∀ v, |v - U * g r0| ≤ U * σ →
      ∃ lo hi d, 0 < d ∧ s * (r0 - ε) ≤ lo ∧ 0 < lo ∧ hi ≤ s * (r0 + ε) ∧
        (∀ k (h : k < xs.length), xs[k] ≤ lo → d ≤ |ys[k] - v|) ∧
        (∀ k (h : k < xs.length), xs[k] ≤ hi → Reaches asc v ys[k] → 2 * |ys[k] - v| ≤ d) ∧
        ∃ m, ∃ h : m < xs.length, xs[m] ≤ hi ∧ Reaches asc v ys[m] := by
    cases asc with
    | true =>
      simpa only [Reaches, if_true] using crossing_rising hg hgc hr0 hε
    | false =>
      simp only [Bool.false_eq_true, if_false] at hg
      have hneg : StrictMonoOn (fun x => -g x) (Set.Ici 0) := fun x hx y hy hxy => neg_lt_neg (hg hx hy hxy)
      obtain ⟨D0, hD0, σ, hσ, h⟩ := crossing_rising hneg hgc.neg hr0 hε
      refine ⟨D0, hD0, σ, hσ, ?_⟩
      intro s hs U hU xs ys hl hx0 hnear hdense v hv
      have eneg : ∀ a b : ℝ, |-a - U * -b| = |a - U * b| := fun a b => by
        rw [show -a - U * -b = -(a - U * b) by ring, abs_neg]
      have eneg2 : ∀ a b : ℝ, |-a - -b| = |a - b| := fun a b => by
        rw [show -a - -b = -(a - b) by ring, abs_neg]
      obtain ⟨lo, hi, d, d0, l1, l2, l3, ha, hb, m, hm, hm1, hm2⟩ := h s hs U hU xs (ys.map fun y => -y) (by simpa using hl) hx0
        (by
          intro k hk hx
          rw [List.getElem_map, eneg]
          exact hnear k hk hx) hdense (-v) (by rw [eneg]; exact hv)
      refine ⟨lo, hi, d, d0, l1, l2, l3, ?_, ?_, m, hm, hm1, ?_⟩
      · intro k hk hx
        have := ha k hk hx
        rwa [List.getElem_map, eneg2] at this
      · intro k hk hx hr
        simp only [Reaches, Bool.false_eq_true, if_false] at hr
        have := hb k hk hx (by rw [List.getElem_map]; exact neg_le_neg hr)
        rwa [List.getElem_map, eneg2] at this
      · rw [List.getElem_map] at hm2
        simp only [Reaches, Bool.false_eq_true, if_false]
        exact neg_le_neg_iff.1 hm2
  obtain ⟨D0, hD0, σ', hσ', hcross⟩ := hrise
  obtain ⟨ν, hν, hmod⟩ := curve_modulus hgc T (show 0 < σ' / 4 by linarith)
  set δ := min (min ν r0) (D0 / 3) with hδ
  have hδ0 : 0 < δ := lt_min (lt_min hν hr0) (by linarith)
  have d1 : δ ≤ ν := (min_le_left _ _).trans (min_le_left _ _)
  have d2 : δ ≤ r0 := (min_le_left _ _).trans (min_le_right _ _)
  have d3 : δ ≤ D0 / 3 := min_le_right _ _
  set c0 := min (1 / 10) (δ / (5 * T)) with hc0
  have c1 : c0 ≤ 1 / 10 := min_le_left _ _
  have c2 : c0 ≤ δ / (5 * T) := min_le_right _ _
  clear_value δ c0
  refine ⟨δ, hδ0, σ' / 4, by linarith, c0, by rw [hc0]; exact lt_min (by norm_num) (by positivity), ?_⟩
  intro s hs U hU fl u hfl hu hu0 huc N Y hl h2 hN h0 hN0 hNT hgap hlast hrep hYv ip kind num hnum hcalm v hv
  have huT : 5 * u * (s * T) ≤ s * δ := by
    have h1 : u * (5 * T) ≤ δ := by
      have := huc.trans c2
      rwa [le_div_iff₀ (by positivity)] at this
    have h2 := mul_le_mul_of_nonneg_left h1 hs.le
    linarith only [h2]
  have hUσ : 0 ≤ U * (σ' / 4) := by positivity
  obtain ⟨xs, ys, hgi, hxy, hsort, hbet, hdense⟩ := samplesR hfl hu hu0 (huc.trans c1) ip kind num hl h2 hN h0 hrep hnum hgap
    (hNT _ (List.getElem_mem _)) huT hcalm hUσ
  have hx0 : ∀ x ∈ xs, 0 ≤ x := by
    intro x hx
    obtain ⟨k, hk, rfl⟩ := List.getElem_of_mem hx
    obtain ⟨j, hj, a, -⟩ := hbet k hk (by omega)
    exact (h0.trans (Incr.le_getElem hN (Nat.zero_le j) (by omega))).trans a
  have hv' : |v - U * g r0| ≤ U * σ' := hv.trans (mul_le_mul_of_nonneg_left (by linarith) hU.le)
  obtain ⟨lo, hi, d, hd, l1, l2, l3, ha, hb, hc⟩ := hcross s hs U hU xs ys hxy hx0
    (by
      intro k hk _
      obtain ⟨j, hj, a, b, e1, e2⟩ := hbet k hk (by omega)
      have := near_of_between hmod hs hU (h0.trans (Incr.le_getElem hN (Nat.zero_le j) (by omega))) a b (hNT _ (List.getElem_mem _))
        ((hgap j hj).trans (mul_le_mul_of_nonneg_left d1 hs.le)) (hYv j (by omega)) (hYv (j + 1) hj) e1 e2
      refine this.trans ?_
      have : 0 < U * σ' := mul_pos hU hσ'
      linarith only [this])
    (by
      intro t ht0 ht1
      obtain ⟨k, hk, h⟩ := hdense (s * t) (hN0.trans (mul_le_mul_of_nonneg_left (by linarith) hs.le))
        ((mul_le_mul_of_nonneg_left ht1 hs.le).trans hlast)
      refine ⟨k, hk, h.trans ?_⟩
      have := mul_le_mul_of_nonneg_left d3 hs.le
      linarith only [this])
    v hv'
  obtain ⟨i, hi', hr, q1, q2⟩ := locateR hfl hu hu0 (by linarith) asc xs ys hxy hsort v lo hi d hd ha hb hc
  refine ⟨_, xs[i] / s, hgi, ?_, ?_, ?_⟩
  · rw [hr]; congr 2; field_simp
  · have p1 : r0 - ε ≤ xs[i] / s := by rw [le_div_iff₀ hs]; linarith
    have p2 : xs[i] / s ≤ r0 + ε := by rw [div_le_iff₀ hs]; linarith
    rw [abs_le]
    constructor <;> linarith
  · exact div_pos (l2.trans q1) hs

end Verif

import Verif.Props.Consistency

/-!
# C136: Petrosian radii of profiles known to some accuracy, in any unit of length
-/

set_option linter.unusedSectionVars false
set_option linter.unusedVariables false

namespace Verif.Props

open F Spec Lemmas Real

variable {I : ℝ → ℝ}

theorem div_near {s a x D : ℝ} (hs : 0 < s) (h : |s * a - x| ≤ s * D) : |a - x / s| ≤ D := by
  have e : s * a - x = s * (a - x / s) := by field_simp
  rw [e, abs_mul, abs_of_pos hs] at h
  exact le_of_mul_le_mul_left h hs

/-- The numbers of a measured profile after `petrosian_list[0] = 1`. -/
theorem profile_numbers {p : List (F ℝ)} {n : Nat} (hl : p.length = n) (hn : 0 < n) {Q : Nat → ℝ → Prop}
    (h : ∀ i, i + 1 < n → ∃ v, p[i + 1]? = some (fin v) ∧ Q i v) :
    ∃ Y : List ℝ, fin 1 :: p.tail = Y.map fin ∧ ∃ hl : n = Y.length, (∀ h : 0 < Y.length, Y[0] = 1) ∧
      ∀ i (h : i + 1 < n), Q i Y[i + 1] := by
  have hne : p ≠ [] := by rintro rfl; simp at hl; omega
  choose! v hv a using h
  let Y : List ℝ := List.ofFn fun i : Fin n => if i.1 = 0 then 1 else v (i.1 - 1)
  have hlY : Y.length = n := by simp [Y]
  refine ⟨Y, ?_, hlY.symm, ?_, ?_⟩
  · apply List.ext_getElem?
    intro i
    cases p with
    | nil => exact absurd rfl hne
    | cons p0 p =>
      cases i with
      | zero =>
        have h0 : 0 < Y.length := by omega
        rw [List.getElem?_map, List.getElem?_eq_getElem h0]
        simp [Y]
      | succ i =>
        simp only [List.tail_cons, List.getElem?_cons_succ]
        by_cases hi : i + 1 < n
        · have := hv i hi
          simp only [List.getElem?_cons_succ] at this
          have h0 : i + 1 < Y.length := by omega
          rw [this, List.getElem?_map, List.getElem?_eq_getElem h0]
          simp [Y]
        · rw [List.getElem?_eq_none (by simp at hl; omega), List.getElem?_eq_none (by simp; omega)]
  · intro h
    simp [Y]
  · intro i h
    have : Y[i + 1] = v i := by simp [Y]
    rw [this]
    exact a i h

set_option maxHeartbeats 1000000 in
/-- **C136, stability.** With any interpolation that overshoots little. For every tolerance `ε` there are a spacing `δ` and an accuracy `σ` such that, for radii spaced by at most `δ` and
a profile whose entries are accurate to `σ`, the radius found by `calculate_petrosian_r` is within `ε` of the true Petrosian radius.
Entries beyond `rP + ε` may be any numbers, entries that should be above `eta + c` only need to be at least `eta + c - σ`, and the upper
end of the bracket of C82 only matters beyond `rP`. The unit of length is free: the radii may be given in pixels of any size, `s` pixels
to the unit in which the galaxy is described. The interpolant may leave the interval of the two data points around the query by `σ`. -/
theorem C136_stable_past (G : Galaxy I) {eta rP : ℝ} (hrP : 0 < rP) (htrue : petroRatio I rP = eta) {ε c : ℝ} (hε : 0 < ε) (hc0 : 0 < c) :
    ∃ δ > 0, ∃ σ > 0, ∀ s > 0, ∀ R, Fine δ R → Covers R (rP + ε) → ∀ p : List (F ℝ), p.length = R.length →
      (∀ i (h : i + 1 < R.length), ∃ v, p[i + 1]? = some (fin v) ∧ (R[i + 1] ≤ rP + ε →
        min (petroRatio I R[i + 1]) (eta + c) - σ ≤ v ∧
          (rP ≤ R[i + 1] → v ≤ I R[i] / (enclosed I 1 R[i + 1] / (π * R[i + 1] ^ 2)) + σ))) →
      ∀ (ip : InterpFam ℝ) (kind : Option String) (num : Nat),
      (∀ k, kind = some k → ∀ Y : List ℝ, fin 1 :: p.tail = Y.map fin →
        CalmPast (eta + c) (s * rP) σ (s * (rP + ε)) (ip k) ((0 :: R.tail).map fun x => s * x) Y) →
      ∃ r, calculatePetrosianR ip (R.map fun x => fin (s * x)) p none (fin eta) kind num = .ok (fin (s * r), nan) ∧ |r - rP| ≤ ε := by
  -- left of the true radius
  obtain ⟨ρ0, hρ0, h0⟩ := Metric.continuousAt_iff.1 (petroRatio_continuousAt G hrP) c hc0
  set e := min ρ0 (min ε (rP / 2)) with he
  have he0 : 0 < e := lt_min hρ0 (lt_min hε (by linarith))
  have heP : e ≤ rP / 2 := (min_le_right _ _).trans (min_le_right _ _)
  have heε : e ≤ ε := (min_le_right _ _).trans (min_le_left _ _)
  have heρ : e ≤ ρ0 := min_le_left _ _
  have hlo : 0 < rP - e / 2 := by linarith
  have hd : 0 < petroRatio I (rP - e / 2) - eta := by
    rw [← htrue]
    exact sub_pos.2 (G.ratioFalls (Set.mem_Ioi.2 hlo) (Set.mem_Ioi.2 hrP) (by linarith))
  set d := petroRatio I (rP - e / 2) - eta with hdd
  have hdc : d ≤ c := by
    have := @h0 (rP - e / 2) (by
      rw [Real.dist_eq, sub_sub_cancel_left, abs_neg, abs_of_pos (by linarith)]
      linarith)
    rw [Real.dist_eq, abs_lt, htrue] at this
    linarith [this.2]
  -- right of the true radius
  obtain ⟨ρ1, hρ1, h1⟩ := Metric.continuousAt_iff.1 (petroRatio_continuousAt G hrP) (d / 4) (by linarith)
  set rp := rP + min e (ρ1 / 2) with hrp
  have hm0 : 0 < min e (ρ1 / 2) := lt_min he0 (by linarith)
  have hrp1 : eta - d / 4 < petroRatio I rp := by
    have := @h1 rp (by
      rw [Real.dist_eq, hrp, add_sub_cancel_left, abs_of_pos hm0]
      exact lt_of_le_of_lt (min_le_right _ _) (by linarith))
    rw [Real.dist_eq, abs_lt, htrue] at this
    linarith [this.1]
  have hrp2 : rp ≤ rP + e := by rw [hrp]; linarith [min_le_left e (ρ1 / 2)]
  set rs := (rP + rp) / 2 with hrs
  have hrs1 : rP < rs := by rw [hrs]; linarith
  have hrs2 : rs < rp := by rw [hrs]; linarith
  have hrs0 : 0 < rs := hrP.trans hrs1
  have hsl : petroRatio I rs < eta := by
    rw [← htrue]
    exact G.ratioFalls (Set.mem_Ioi.2 hrP) (Set.mem_Ioi.2 hrs0) hrs1
  set d' := eta - petroRatio I rs with hd'
  have hd'0 : 0 < d' := by linarith
  obtain ⟨ρ, hρ, h2⟩ := mixRatio_near G hrs0 (show petroRatio I rs < eta - d' / 2 by linarith)
  -- the spacing
  set δ := min (min (e / 8) (ρ / 8)) (min ((rp - rs) / 8) (rs / 8)) with hδ
  have δ1 : δ ≤ e / 8 := (min_le_left _ _).trans (min_le_left _ _)
  have δ2 : δ ≤ ρ / 8 := (min_le_left _ _).trans (min_le_right _ _)
  have δ3 : δ ≤ (rp - rs) / 8 := (min_le_right _ _).trans (min_le_left _ _)
  have δ4 : δ ≤ rs / 8 := (min_le_right _ _).trans (min_le_right _ _)
  have δ0 : 0 < δ := lt_min (lt_min (by linarith) (by linarith)) (lt_min (by linarith) (by linarith))
  clear_value δ
  set σ := min (d / 8) (d' / 4) with hσ
  have σ0 : 0 < σ := lt_min (by linarith) (by linarith)
  have σ1 : σ ≤ d / 8 := min_le_left _ _
  have σ2 : σ ≤ d' / 4 := min_le_right _ _
  clear_value σ d' rs rp d e
  refine ⟨δ, δ0, σ, σ0, ?_⟩
  intro s hs R hR hcov p hpl hpv ip kind num hB
  have h3 := hR.three
  have hpne : p ≠ [] := by rintro rfl; simp at hpl; omega
  obtain ⟨Y, hY, hl, hY0, hYi⟩ := profile_numbers hpl (by omega)
    (Q := fun i v => ∀ h : i + 1 < R.length, R[i + 1] ≤ rP + ε → 
      min (petroRatio I R[i + 1]) (eta + c) - σ ≤ v ∧ (rP ≤ R[i + 1] → v ≤ mixRatio I R[i] R[i + 1] + σ))
    (fun i h => by
      obtain ⟨v, hv, hb⟩ := hpv i h
      exact ⟨v, hv, fun _ => hb⟩)
  obtain ⟨hN, hNl, hNg, hNe⟩ := Fine.zeroed hR
  set N := 0 :: R.tail with hNdef
  have hlN : N.length = Y.length := by omega
  -- the radii in pixels
  set M := N.map fun x => s * x with hMdef
  have hMl : M.length = N.length := by simp [hMdef]
  have hMv : ∀ i (h : i < M.length), M[i] = s * N[i]'(by omega) := by intro i h; simp [hMdef]
  have hM : Incr M := by
    unfold Incr
    rw [hMdef, List.pairwise_map]
    exact hN.imp fun h => mul_lt_mul_of_pos_left h hs
  have hMg : ∀ i (h : i + 1 < M.length), M[i + 1] - M[i] ≤ s * (2 * δ) := by
    intro i h
    rw [hMv _ h, hMv i (by omega), ← mul_sub]
    have h' : i + 1 < N.length := by omega
    exact mul_le_mul_of_nonneg_left (hNg i h') hs.le
  have hlM : M.length = Y.length := by omega
  have hB : ∀ k, kind = some k → CalmPast (eta + c) (s * rP) σ (s * (rP + ε)) (ip k) M Y := fun k hk => hB k hk Y hY
  obtain ⟨xs, ys, hS, hxy⟩ := Sampled.exists_past (num := num) hB (by omega : 2 ≤ M.length) hlM hM
  have hxs := Sampled.sorted hS (by omega) hM
  have hnear : ∀ k (hk : k < xs.length), xs[k] ≤ s * (rP + ε) → ∃ i j, ∃ hi : i < N.length, ∃ hj : j < N.length, |N[i] - xs[k] / s| ≤ 2 * δ ∧
      |N[j] - xs[k] / s| ≤ 2 * δ ∧ min Y[i] (eta + c) - σ ≤ ys[k] ∧ (s * rP ≤ xs[k] → ys[k] ≤ Y[j] + σ) := by
    intro k hk hT
    obtain ⟨i, j, hi, hj, a1, a2, b1, b2⟩ := Sampled.near_past hS hlM (by omega) hM σ0.le hB hMg k hk (by omega) hT
    rw [hMv i hi] at a1
    rw [hMv j hj] at a2
    exact ⟨i, j, by omega, by omega, div_near hs a1, div_near hs a2, b1, b2⟩
  -- values at the nodes
  have hlow : ∀ i (h : i < N.length) t, 0 < t → N[i] ≤ t → t ≤ rP + ε → min (petroRatio I t) (eta + c) - σ ≤ Y[i] := by
    intro i h t ht hi hte
    cases i with
    | zero => rw [hY0 (by omega)]; linarith [(petroRatio_mem G ht).2, min_le_left (petroRatio I t) (eta + c)]
    | succ i =>
      rw [hNe i h (by omega)] at hi
      have := (hYi i (by omega) (by omega) (hi.trans hte)).1
      have hm := G.ratioFalls.antitoneOn (Set.mem_Ioi.2 (hR.pos (i := i + 1) (by omega))) (Set.mem_Ioi.2 ht) hi
      have := min_le_min_right (eta + c) hm
      linarith
  have hN0 : N[0]'(by omega) = 0 := by simp [hNdef]
  have hNlast : rP + ε ≤ N[N.length - 1]'(by omega) := by
    obtain ⟨x, hx, hx'⟩ := hcov
    obtain ⟨i, hi, rfl⟩ := List.getElem_of_mem hx
    have : R[i] ≤ R[R.length - 1]'(by omega) := Incr.le_getElem hR.incr (by omega) (by omega)
    have e2 : N[N.length - 1]'(by omega) = R[R.length - 1]'(by omega) := by
      have := hNe (R.length - 2) (by omega) (by omega)
      have ee : R.length - 2 + 1 = R.length - 1 := by omega
      simp only [ee] at this
      simp only [hNl]
      exact this
    rw [e2]; linarith
  have hdl : ∀ {x t : ℝ}, x ≤ s * t → x / s ≤ t := fun {x t} h => by rw [div_le_iff₀ hs]; linarith
  have hloc := locate false xs ys hxy hxs eta (s * (rP - e)) (s * (rs + 2 * δ)) (3 / 4 * d)
    (by
      intro k hk hx
      obtain ⟨i, j, hi, hj, a1, a2, b1, b2⟩ := hnear k hk (hx.trans (mul_le_mul_of_nonneg_left (by linarith) hs.le))
      have hx := hdl hx
      have : N[i] ≤ rP - e / 2 := by
        have := (abs_le.1 a1).2
        linarith
      have := hlow i hi _ hlo this (by linarith)
      rw [min_eq_left (by linarith)] at this
      have : petroRatio I (rP - e / 2) - σ ≤ min Y[i] (eta + c) := le_min this (by linarith)
      have hy : petroRatio I (rP - e / 2) - σ - σ ≤ ys[k] := by linarith
      rw [abs_of_nonneg (by linarith)]
      linarith)
    (by
      intro k hk hx hr
      simp only [Reaches, Bool.false_eq_true, if_false] at hr
      obtain ⟨i, j, hi, hj, a1, a2, b1, b2⟩ := hnear k hk (hx.trans (mul_le_mul_of_nonneg_left (by linarith) hs.le))
      have hx := hdl hx
      have : N[i] ≤ rp := by
        have := (abs_le.1 a1).2
        linarith
      have := hlow i hi _ (by linarith) this (by linarith)
      have hm : eta - d / 4 ≤ min (petroRatio I rp) (eta + c) := le_min hrp1.le (by linarith)
      have : eta - d / 4 - σ ≤ min Y[i] (eta + c) := le_min (by linarith) (by linarith)
      rw [abs_of_nonpos (by linarith)]
      linarith)
    (by
      obtain ⟨m, hm, hmx⟩ := Sampled.dense hS (by omega) hM hMg (t := s * rs)
        (by rw [hMv 0 (by omega), hN0]; exact mul_le_mul_of_nonneg_left hrs0.le hs.le)
        (by
          rw [hMv _ (by omega)]
          refine mul_le_mul_of_nonneg_left ?_ hs.le
          have : rs ≤ N[N.length - 1]'(by omega) := by linarith
          simpa only [hMl] using this)
      have := abs_le.1 hmx
      have hxm : |rs - xs[m] / s| ≤ 2 * δ := div_near hs (by rw [abs_sub_comm]; exact hmx)
      have hxm := abs_le.1 hxm
      refine ⟨m, hm, by rw [mul_add]; linarith only [this.2], ?_⟩
      simp only [Reaches, Bool.false_eq_true, if_false]
      obtain ⟨i, j, hi, hj, a1, a2, b1, b2⟩ := hnear m hm (by have := mul_le_mul_of_nonneg_left (show rs + 2 * δ ≤ rP + ε by linarith) hs.le; rw [mul_add] at this; linarith only [this, (abs_le.1 hmx).2])
      have a3 := abs_le.1 a2
      refine (b2 ?_).trans ?_
      · have : rP ≤ xs[m] / s := by linarith [hxm.2]
        rw [le_div_iff₀ hs] at this
        linarith
      rw [← le_sub_iff_add_le]
      cases j with
      | zero => exfalso; rw [hN0] at a3; linarith [hxm.1, hxm.2, a3.1]
      | succ j =>
        have hjR : j + 1 < R.length := by omega
        have e2 := hNe j hj hjR
        rw [e2] at a3
        have hb := (hYi j hjR hjR (by linarith [hxm.1, hxm.2, a3.1, a3.2])).2 (by linarith [hxm.1, hxm.2, a3.1, a3.2])
        have hmx := h2 R[j] R[j + 1]
          (by
            have s := hR.step j hjR
            rw [abs_le]
            constructor <;> linarith [hxm.1, hxm.2, a3.1, a3.2])
          (by
            rw [abs_le]
            constructor <;> linarith [hxm.1, hxm.2, a3.1, a3.2])
        linarith)
  obtain ⟨i, hi, hc, l1, l2⟩ := hloc
  refine ⟨xs[i] / s, ?_, ?_⟩
  · have e1 : s * (xs[i] / s) = xs[i] := by field_simp
    have e2 : (R.map fun x => fin (s * x)) = (R.map fun x => s * x).map fin := by simp
    rw [e1, e2]
    refine petrosianR_of_sampled hpne (by simp; omega) (xs := xs) (ys := ys.map fin) ?_ (radiusAt_some hc hi)
    have e3 : (0 :: (R.map fun x => s * x).tail) = M := by simp [hMdef, hNdef]
    rw [e3, hY]; exact hS
  · have q1 : rP - e < xs[i] / s := by rw [lt_div_iff₀ hs]; linarith
    have q2 := hdl l2
    rw [abs_le]
    constructor <;> linarith

/-- The same for interpolants that leave the interval of the two data points around the query by at most `σ`. -/
theorem C136_stable_calm (G : Galaxy I) {eta rP : ℝ} (hrP : 0 < rP) (htrue : petroRatio I rP = eta) {ε c : ℝ} (hε : 0 < ε) (hc0 : 0 < c) :
    ∃ δ > 0, ∃ σ > 0, ∀ s > 0, ∀ R, Fine δ R → Covers R (rP + ε) → ∀ p : List (F ℝ), p.length = R.length →
      (∀ i (h : i + 1 < R.length), ∃ v, p[i + 1]? = some (fin v) ∧ (R[i + 1] ≤ rP + ε →
        min (petroRatio I R[i + 1]) (eta + c) - σ ≤ v ∧
          (rP ≤ R[i + 1] → v ≤ I R[i] / (enclosed I 1 R[i + 1] / (π * R[i + 1] ^ 2)) + σ))) →
      ∀ (ip : InterpFam ℝ) (kind : Option String) (num : Nat),
      (∀ k, kind = some k → ∀ Y : List ℝ, fin 1 :: p.tail = Y.map fin →
        Calm σ (s * (rP + ε)) (ip k) ((0 :: R.tail).map fun x => s * x) Y) →
      ∃ r, calculatePetrosianR ip (R.map fun x => fin (s * x)) p none (fin eta) kind num = .ok (fin (s * r), nan) ∧ |r - rP| ≤ ε := by
  obtain ⟨δ, hδ, σ, hσ, h⟩ := C136_stable_past G hrP htrue hε hc0
  exact ⟨δ, hδ, σ, hσ, fun s hs R hR hcov p hpl hp ip kind num hB => h s hs R hR hcov p hpl hp ip kind num
    fun k hk Y hY => calm_past (hB k hk Y hY) _ _⟩

/-- **C136, stability.** For every tolerance `ε` there are a spacing `δ` and an accuracy `σ` such that, for radii spaced by at most `δ` and
a profile whose entries are accurate to `σ`, the radius found by `calculate_petrosian_r` is within `ε` of the true Petrosian radius.
Entries beyond `rP + ε` may be any numbers, entries that should be above `eta + c` only need to be at least `eta + c - σ`, and the upper
end of the bracket of C82 only matters beyond `rP`. The unit of length is free: the radii may be given in pixels of any size, `s` pixels
to the unit in which the galaxy is described. -/
theorem C136_stable (G : Galaxy I) {eta rP : ℝ} (hrP : 0 < rP) (htrue : petroRatio I rP = eta) {ε c : ℝ} (hε : 0 < ε) (hc0 : 0 < c) :
    ∃ δ > 0, ∃ σ > 0, ∀ s > 0, ∀ R, Fine δ R → Covers R (rP + ε) → ∀ p : List (F ℝ), p.length = R.length →
      (∀ i (h : i + 1 < R.length), ∃ v, p[i + 1]? = some (fin v) ∧ (R[i + 1] ≤ rP + ε →
        min (petroRatio I R[i + 1]) (eta + c) - σ ≤ v ∧
          (rP ≤ R[i + 1] → v ≤ I R[i] / (enclosed I 1 R[i + 1] / (π * R[i + 1] ^ 2)) + σ))) →
      ∀ (ip : InterpFam ℝ) (kind : Option String) (num : Nat), (∀ k, kind = some k → BetweenNodes (ip k)) →
      ∃ r, calculatePetrosianR ip (R.map fun x => fin (s * x)) p none (fin eta) kind num = .ok (fin (s * r), nan) ∧ |r - rP| ≤ ε := by
  obtain ⟨δ, hδ, σ, hσ, h⟩ := C136_stable_calm G hrP htrue hε hc0
  refine ⟨δ, hδ, σ, hσ, fun s hs R hR hcov p hpl hp ip kind num hB => h s hs R hR hcov p hpl hp ip kind num fun k hk Y hY => ?_⟩
  have h3 := hR.three
  obtain ⟨hN, hNl, -, -⟩ := Fine.zeroed hR
  have hlY : Y.length = R.length := by
    have := congrArg List.length hY
    simp at this
    omega
  refine between_calm (hB k hk) hσ.le _ ?_ ?_ ?_
  · simp; omega
  · simp; omega
  · unfold Incr
    rw [List.pairwise_map]
    exact hN.imp fun h => mul_lt_mul_of_pos_left h hs

theorem scaled_le {u a b x : ℝ} (hu : 0 < u) (h : a ≤ b) (hb : u * b ≤ x) : u * a ≤ x := (mul_le_mul_of_nonneg_left h hu.le).trans hb

set_option maxHeartbeats 2000000 in
/-- **C137, stability.** For every tolerance `ε` there are a spacing `δ` and an accuracy `σ` such that, for radii spaced by at most `δ`, a
curve of growth accurate to `σ` up to the radii that matter (further out any numbers) and a Petrosian radius within `δ` of the true one, the
radius found by `fraction_to_r` is within `ε` of the true radius of that fraction. The units of length (`s`) and of flux (`u`) are free.
The interpolant may leave the interval of the two data points around the query by `σ`. -/
theorem C137_stable_calm (G : Galaxy I) {q : ℝ} (hq : 0 < q) {frac eps epsf rP rF : ℝ} (heps : 0 < eps) (hepsf : epsf ≠ 0)
    (hrP : 0 < rP) (hrF : 0 < rF) (htrue : enclosed I q rF = frac / epsf * enclosed I q (eps * rP)) {ε : ℝ} (hε : 0 < ε) :
    ∃ δ > 0, ∃ σ > 0, ∀ s > 0, ∀ u > 0, ∀ R, Fine δ R → Covers R (rF + ε) → Covers R (eps * rP + ε) →
      ∀ Y : List ℝ, ∀ hl : R.length = Y.length,
      (∀ i (h : i < R.length), R[i] ≤ max rF (eps * rP) + ε → |Y[i] - u * enclosed I q R[i]| ≤ u * σ) →
      ∀ rp, |rp - rP| ≤ δ →
      ∀ (ip : InterpFam ℝ) (kind : Option String) (num : Nat) (rpe : Option (F ℝ)), 
      Calm (u * σ) (s * (max rF (eps * rP) + ε)) (ip (kind.getD "cubic")) (R.map fun x => s * x) Y →
      ∃ r, fractionToR ip (fin frac) (R.map fun x => fin (s * x)) (Y.map fin) (fin (s * rp)) none rpe (fin eps) (fin epsf) kind num =
          .ok (fin (s * r), nan) ∧ |r - rF| ≤ ε ∧ 0 < r := by
  have hmono := gal_strictMono G hq
  have hcontAt : ∀ x, 0 < x → ContinuousAt (enclosed I q) x := fun x hx =>
    (gal_cont G q).continuousAt (Ici_mem_nhds hx)
  -- left of the true radius
  set e := min ε (rF / 2) with he
  have he0 : 0 < e := lt_min hε (by linarith)
  have heP : e ≤ rF / 2 := min_le_right _ _
  have heε : e ≤ ε := min_le_left _ _
  have hlo : 0 < rF - e / 2 := by linarith
  set T := enclosed I q rF with hT
  set d1 := T - enclosed I q (rF - e / 2) with hd1
  have hd1p : 0 < d1 := sub_pos.2 (hmono (Set.mem_Ici.2 hlo.le) (Set.mem_Ici.2 hrF.le) (by linarith))
  -- right of the true radius
  obtain ⟨ρ1, hρ1, h1⟩ := Metric.continuousAt_iff.1 (hcontAt rF hrF) (d1 / 2) (by linarith)
  set rq := rF + min e (ρ1 / 2) with hrq
  have hm0 : 0 < min e (ρ1 / 2) := lt_min he0 (by linarith)
  have hrq1 : enclosed I q rq < T + d1 / 2 := by
    have := @h1 rq (by
      rw [Real.dist_eq, hrq, add_sub_cancel_left, abs_of_pos hm0]
      exact lt_of_le_of_lt (min_le_right _ _) (by linarith))
    rw [Real.dist_eq, abs_lt] at this
    linarith [this.2]
  have hrq2 : rq ≤ rF + e := by rw [hrq]; linarith [min_le_left e (ρ1 / 2)]
  set rs := (rF + rq) / 2 with hrs
  have hrs1 : rF < rs := by rw [hrs]; linarith
  have hrs2 : rs < rq := by rw [hrs]; linarith
  set rt := (rF + rs) / 2 with hrt
  have hrt1 : rF < rt := by rw [hrt]; linarith
  have hrt2 : rt < rs := by rw [hrt]; linarith
  set d2 := enclosed I q rt - T with hd2
  have hd2p : 0 < d2 := sub_pos.2 (hmono (Set.mem_Ici.2 hrF.le) (Set.mem_Ici.2 (by linarith)) hrt1)
  -- the flux at epsilon times the Petrosian radius
  set τ := min (d1 / 16) (d2 / 2) with hτ
  have hτ0 : 0 < τ := lt_min (by linarith) (by linarith)
  have hτ1 : τ ≤ d1 / 16 := min_le_left _ _
  have hτ2 : τ ≤ d2 / 2 := min_le_right _ _
  set c := |frac / epsf| with hcdef
  have hc0 : 0 ≤ c := abs_nonneg _
  have hre : 0 < eps * rP := mul_pos heps hrP
  set χ := τ / (c + 1) with hχ
  have hχ0 : 0 < χ := by positivity
  have hχτ : χ ≤ τ := by rw [hχ, div_le_iff₀ (by linarith), mul_add]; linarith only [mul_nonneg hτ0.le hc0]
  obtain ⟨ρ2, hρ2, h2⟩ := Metric.continuousAt_iff.1 (hcontAt (eps * rP) hre) (χ / 2) (by linarith)
  -- the spacing
  set δ := min (min (min (e / 8) (ρ2 / (4 * (eps + 1)))) (min ((rq - rs) / 8) ((rs - rt) / 8)))
    (min (min (ε / (2 * (eps + 1))) (eps * rP / (2 * (eps + 1)))) (ρ2 / 4)) with hδ
  have hep1 : 0 < eps + 1 := by linarith
  have δ0 : 0 < δ := by
    rw [hδ]
    refine lt_min (lt_min (lt_min ?_ ?_) (lt_min ?_ ?_)) (lt_min (lt_min ?_ ?_) ?_)
    · linarith
    · positivity
    · linarith
    · linarith
    · positivity
    · positivity
    · linarith
  have δ1 : δ ≤ e / 8 := ((min_le_left _ _).trans (min_le_left _ _)).trans (min_le_left _ _)
  have δ2' : δ ≤ ρ2 / (4 * (eps + 1)) := ((min_le_left _ _).trans (min_le_left _ _)).trans (min_le_right _ _)
  have δ3 : δ ≤ (rq - rs) / 8 := ((min_le_left _ _).trans (min_le_right _ _)).trans (min_le_left _ _)
  have δ4 : δ ≤ (rs - rt) / 8 := ((min_le_left _ _).trans (min_le_right _ _)).trans (min_le_right _ _)
  have δ5' : δ ≤ ε / (2 * (eps + 1)) := ((min_le_right _ _).trans (min_le_left _ _)).trans (min_le_left _ _)
  have δ6' : δ ≤ eps * rP / (2 * (eps + 1)) := ((min_le_right _ _).trans (min_le_left _ _)).trans (min_le_right _ _)
  have δ7 : δ ≤ ρ2 / 4 := (min_le_right _ _).trans (min_le_right _ _)
  rw [le_div_iff₀ (by positivity)] at δ2' δ5' δ6'
  have hδe : 0 < δ * eps := mul_pos δ0 heps
  have k2 : 4 * (δ * eps) + 4 * δ ≤ ρ2 := by linarith
  have k5 : 2 * (δ * eps) + 2 * δ ≤ ε := by linarith
  have k6 : 2 * (δ * eps) + 2 * δ ≤ eps * rP := by linarith
  clear_value δ
  refine ⟨δ, δ0, χ / 4, by linarith, ?_⟩
  set σ := χ / 4 with hσ
  have hσ0 : 0 < σ := by linarith
  have hστ : σ ≤ τ / 4 := by linarith
  clear_value σ χ c τ d2 rt rs rq d1 T e
  intro s hs u hu R hR hcF hcE Y hl hY rp hrp ip kind num rpe hB
  have hTF : rF + ε ≤ max rF (eps * rP) + ε := by linarith [le_max_left rF (eps * rP)]
  have hTE : eps * rP + ε ≤ max rF (eps * rP) + ε := by linarith [le_max_right rF (eps * rP)]
  set Tm := max rF (eps * rP) + ε with hTm
  clear_value Tm
  have h3 := hR.three
  have hRi := hR.incr
  have hg : ∀ i (h : i + 1 < R.length), R[i + 1] - R[i] ≤ δ := fun i h => (hR.step i h).2
  have hlast : ∀ t, Covers R t → t ≤ R[R.length - 1]'(by omega) := by
    rintro t ⟨x, hx, hx'⟩
    obtain ⟨i, hi, rfl⟩ := List.getElem_of_mem hx
    exact hx'.trans (Incr.le_getElem hRi (by omega) (by omega))
  -- the radii in pixels
  set M := R.map fun x => s * x with hMdef
  have eM : (R.map fun x => fin (s * x)) = M.map fin := by simp [hMdef]
  have hMl : M.length = R.length := by simp [hMdef]
  have hMv : ∀ i (h : i < M.length), M[i] = s * R[i]'(by omega) := by intro i h; simp [hMdef]
  have hM : Incr M := by
    unfold Incr
    rw [hMdef, List.pairwise_map]
    exact hRi.imp fun h => mul_lt_mul_of_pos_left h hs
  have hMg : ∀ i (h : i + 1 < M.length), M[i + 1] - M[i] ≤ s * δ := by
    intro i h
    have h' : i + 1 < R.length := by omega
    rw [hMv _ h, hMv i (by omega), ← mul_sub]
    exact mul_le_mul_of_nonneg_left (hg i h') hs.le
  have hlM : M.length = Y.length := by omega
  have hB' : ∀ k, kind = some k → Calm (u * σ) (s * Tm) (ip k) M Y := by rintro k rfl; exact hB
  -- the values
  have hYlo : ∀ i (h : i < R.length), R[i] ≤ Tm → u * (enclosed I q R[i] - σ) ≤ Y[i] := by
    intro i h hi
    have := (abs_le.1 (hY i h hi)).1
    rw [mul_sub]; linarith
  have hYhi : ∀ i (h : i < R.length), R[i] ≤ Tm → Y[i] ≤ u * (enclosed I q R[i] + σ) := by
    intro i h hi
    have := (abs_le.1 (hY i h hi)).2
    rw [mul_add]; linarith
  -- r_epsilon
  have hrp' := abs_le.1 hrp
  have hree : |rp * eps - eps * rP| ≤ δ * eps := by
    have : rp * eps - eps * rP = (rp - rP) * eps := by ring
    rw [this, abs_mul, abs_of_pos heps]
    exact mul_le_mul_of_nonneg_right hrp heps.le
  have hree' := abs_le.1 hree
  have hin0 : R[0]'(by omega) ≤ rp * eps := by
    have := (hR.first (by omega)).2
    linarith [hree'.1]
  have hin1 : rp * eps ≤ R[R.length - 1]'(by omega) := by
    refine le_trans ?_ (hlast _ hcE)
    linarith [hree'.2]
  have emul : s * rp * eps = s * (rp * eps) := by ring
  obtain ⟨j, hj, s1, s2⟩ := segment_exists R (rp * eps) (R.length - 1) (by omega) (by omega) hin0 hin1
  obtain ⟨ef, hef, hefT⟩ := hB j (by omega) (by omega) (s * (rp * eps))
    (by rw [hMv]; exact mul_le_mul_of_nonneg_left s1 hs.le) (by rw [hMv]; exact mul_le_mul_of_nonneg_left s2 hs.le)
  obtain ⟨ef1, ef2⟩ := hefT (mul_le_mul_of_nonneg_left (by linarith [hree'.2]) hs.le)
  have hgj := hg j hj
  have n1 : |enclosed I q R[j] - enclosed I q (eps * rP)| < χ / 2 := by
    have := @h2 R[j] (by rw [Real.dist_eq, abs_lt]; constructor <;> linarith [hree'.1, hree'.2])
    rw [Real.dist_eq] at this; linarith only [this, hσ]
  have n2 : |enclosed I q R[j + 1] - enclosed I q (eps * rP)| < χ / 2 := by
    have := @h2 R[j + 1] (by rw [Real.dist_eq, abs_lt]; constructor <;> linarith [hree'.1, hree'.2])
    rw [Real.dist_eq] at this; linarith only [this, hσ]
  have n1' := abs_lt.1 n1
  have n2' := abs_lt.1 n2
  have hjT : R[j] ≤ Tm := by linarith [hree'.2]
  have hjT' : R[j + 1] ≤ Tm := by linarith [hree'.2]
  have a1 : u * (enclosed I q (eps * rP) - 3 / 4 * χ) ≤ Y[j] := scaled_le (b := enclosed I q R[j] - σ) hu (by linarith [n1'.1]) (hYlo j (by omega) hjT)
  have a2 : u * (enclosed I q (eps * rP) - 3 / 4 * χ) ≤ Y[j + 1] := scaled_le (b := enclosed I q R[j + 1] - σ) hu (by linarith [n2'.1]) (hYlo (j + 1) hj hjT')
  have a3 : Y[j] ≤ u * (enclosed I q (eps * rP) + 3 / 4 * χ) :=
    (hYhi j (by omega) hjT).trans (mul_le_mul_of_nonneg_left (by linarith [n1'.2]) hu.le)
  have a4 : Y[j + 1] ≤ u * (enclosed I q (eps * rP) + 3 / 4 * χ) :=
    (hYhi (j + 1) hj hjT').trans (mul_le_mul_of_nonneg_left (by linarith [n2'.2]) hu.le)
  have n3 : |ef - u * enclosed I q (eps * rP)| ≤ u * χ := by
    have b1 := (sub_le_sub_right (le_min a1 a2) (u * σ)).trans ef1
    have b2 := ef2.trans (add_le_add_left (max_le a3 a4) (u * σ))
    rw [← mul_sub] at b1
    rw [← mul_add] at b2
    have b3 : u * (enclosed I q (eps * rP) - χ) ≤ u * (enclosed I q (eps * rP) - 3 / 4 * χ - σ) :=
      mul_le_mul_of_nonneg_left (by linarith) hu.le
    have b4 : u * (enclosed I q (eps * rP) + 3 / 4 * χ + σ) ≤ u * (enclosed I q (eps * rP) + χ) :=
      mul_le_mul_of_nonneg_left (by linarith) hu.le
    have b1 := b3.trans b1
    have b2 := b2.trans b4
    rw [mul_sub] at b1
    rw [mul_add] at b2
    rw [abs_le]
    constructor <;> linarith
  set v := ef * (frac / epsf) with hv
  have hvT : |v - u * T| ≤ u * τ := by
    have : v - u * T = (frac / epsf) * (ef - u * enclosed I q (eps * rP)) := by rw [hv, htrue]; ring
    rw [this, abs_mul, ← hcdef]
    have h5 : c * |ef - u * enclosed I q (eps * rP)| ≤ c * (u * χ) := mul_le_mul_of_nonneg_left n3 hc0
    have h6 : c * χ ≤ τ := by
      rw [hχ, mul_div_assoc', div_le_iff₀ (by linarith), mul_add, mul_comm c]
      linarith only [hτ0]
    have h7 : c * (u * χ) ≤ u * τ := by
      have := mul_le_mul_of_nonneg_left h6 hu.le
      linarith
    exact h5.trans h7
  have hvT' := abs_le.1 hvT
  -- the samples
  obtain ⟨xs, ys, hS, hxy⟩ := Sampled.exists_calm (num := num) hB' (by omega : 2 ≤ M.length) hlM hM
  have hxs := Sampled.sorted hS (by omega) hM
  have hnear : ∀ k (hk : k < xs.length), xs[k] ≤ s * Tm → ∃ i j, ∃ hi : i < R.length, ∃ hj : j < R.length, |R[i] - xs[k] / s| ≤ δ ∧
      |R[j] - xs[k] / s| ≤ δ ∧ Y[i] - u * σ ≤ ys[k] ∧ ys[k] ≤ Y[j] + u * σ := by
    intro k hk hT
    obtain ⟨i, j, hi, hj, a1, a2, b1, b2⟩ := Sampled.near_calm hS hlM (by omega) hM (by positivity) hB' hMg k hk (by omega) hT
    rw [hMv i hi] at a1
    rw [hMv j hj] at a2
    exact ⟨i, j, by omega, by omega, div_near hs a1, div_near hs a2, b1, b2⟩
  have hup : ∀ i (h : i < R.length) t, R[i] ≤ t → t ≤ Tm → Y[i] ≤ u * (enclosed I q t + σ) := by
    intro i h t hi ht
    have := (hR.pos h).le
    have hm := hmono.monotoneOn (Set.mem_Ici.2 this) (Set.mem_Ici.2 (this.trans hi)) hi
    exact (hYhi i h (hi.trans ht)).trans (mul_le_mul_of_nonneg_left (by linarith) hu.le)
  have hdn : ∀ i (h : i < R.length) t, 0 ≤ t → t ≤ R[i] → R[i] ≤ Tm → u * (enclosed I q t - σ) ≤ Y[i] := by
    intro i h t ht hi hiT
    have hm := hmono.monotoneOn (Set.mem_Ici.2 ht) (Set.mem_Ici.2 (ht.trans hi)) hi
    exact scaled_le (b := enclosed I q R[i] - σ) hu (by linarith) (hYlo i h hiT)
  have hdl : ∀ {x t : ℝ}, x ≤ s * t → x / s ≤ t := fun {x t} h => by rw [div_le_iff₀ hs]; linarith
  have hloc := locate true xs ys hxy hxs v (s * (rF - e)) (s * (rs + δ)) (u * (3 / 4 * d1))
    (by
      intro k hk hx
      obtain ⟨i, j, hi, hj, a1, a2, b1, b2⟩ := hnear k hk (hx.trans (mul_le_mul_of_nonneg_left (by linarith) hs.le))
      have hx := hdl hx
      have : R[j] ≤ rF - e / 2 := by
        have := (abs_le.1 a2).2
        linarith
      have h8 := hup j hj _ this (by linarith)
      have h9 : u * (3 / 4 * d1) + u * (enclosed I q (rF - e / 2) + σ) + u * σ + u * τ ≤ u * T := by
        rw [← mul_add, ← mul_add, ← mul_add]
        exact mul_le_mul_of_nonneg_left (by linarith) hu.le
      have h10 : 0 ≤ u * (3 / 4 * d1) := by positivity
      rw [abs_of_nonpos (by linarith [hvT'.1])]
      linarith [hvT'.1])
    (by
      intro k hk hx hr
      simp only [Reaches, if_true] at hr
      obtain ⟨i, j, hi, hj, a1, a2, b1, b2⟩ := hnear k hk (hx.trans (mul_le_mul_of_nonneg_left (by linarith) hs.le))
      have hx := hdl hx
      have : R[j] ≤ rq := by
        have := (abs_le.1 a2).2
        linarith
      have h8 := hup j hj _ this (by linarith)
      have h9 : u * (enclosed I q rq + σ) + u * σ + u * τ < u * (3 / 4 * d1) + u * T := by
        rw [← mul_add, ← mul_add, ← mul_add]
        exact mul_lt_mul_of_pos_left (by linarith) hu
      rw [abs_of_nonneg (by linarith)]
      linarith [hvT'.1])
    (by
      obtain ⟨m, hm, hmx⟩ := Sampled.dense hS (by omega) hM hMg (t := s * rs)
        (by
          rw [hMv 0 (by omega)]
          refine mul_le_mul_of_nonneg_left ?_ hs.le
          have := (hR.first (by omega)).2; linarith)
        (by
          rw [hMv _ (by omega)]
          refine mul_le_mul_of_nonneg_left ?_ hs.le
          have := hlast _ hcF
          simp only [hMl]
          linarith)
      have := abs_le.1 hmx
      have hxm : |rs - xs[m] / s| ≤ δ := div_near hs (by rw [abs_sub_comm]; exact hmx)
      have hxm := abs_le.1 hxm
      refine ⟨m, hm, by rw [mul_add]; linarith only [this.2], ?_⟩
      simp only [Reaches, if_true]
      obtain ⟨i, j, hi, hj, a1, a2, b1, b2⟩ := hnear m hm (by have := mul_le_mul_of_nonneg_left (show rs + δ ≤ Tm by linarith) hs.le; rw [mul_add] at this; linarith only [this, (abs_le.1 hmx).2])
      have a3 := abs_le.1 a1
      have h7 : rt ≤ R[i] := by linarith [hxm.1, hxm.2, a3.1]
      have h8 := hdn i hi _ (by linarith) h7 (by linarith [hxm.1, hxm.2, a3.2])
      have h9 : u * T + u * τ + u * σ ≤ u * (enclosed I q rt - σ) := by
        rw [← mul_add, ← mul_add]
        exact mul_le_mul_of_nonneg_left (by linarith) hu.le
      linarith [hvT'.2])
  obtain ⟨i, hi, hc, l1, l2⟩ := hloc
  have q1 : rF - e < xs[i] / s := by rw [lt_div_iff₀ hs]; linarith
  have q2 := hdl l2
  refine ⟨xs[i] / s, ?_, ?_, by linarith⟩
  · have e1 : s * (xs[i] / s) = xs[i] := by field_simp
    rw [eM, e1]
    refine fractionToR_none_ok (by omega) (List.getElem_mem (by omega : M.length - 1 < M.length)) ?_ ?_ (ef := fin ef)
      (q := fin (frac / epsf)) (xs := xs) (ys := ys.map fin) ?_ ?_ hS ?_
    · intro x hx
      obtain ⟨k, hk, rfl⟩ := List.getElem_of_mem hx
      exact Incr.le_getElem hM (by omega) (by omega)
    · rw [fin_mul, lt_fin, decide_eq_false_iff_not, not_lt, emul, hMv _ (by omega)]
      refine mul_le_mul_of_nonneg_left ?_ hs.le
      simpa only [hMl] using hin1
    · rw [fin_mul, emul]; exact hef
    · rw [pyDiv_ok (by simpa using hepsf), fin_div_of_ne _ hepsf]
    · rw [fin_mul]; exact radiusAt_some hc hi
  · rw [abs_le]
    constructor <;> linarith

/-- **C137, stability.** For every tolerance `ε` there are a spacing `δ` and an accuracy `σ` such that, for radii spaced by at most `δ`, a
curve of growth accurate to `σ` up to the radii that matter (further out any numbers) and a Petrosian radius within `δ` of the true one, the
radius found by `fraction_to_r` is within `ε` of the true radius of that fraction. The units of length (`s`) and of flux (`u`) are free. -/
theorem C137_stable (G : Galaxy I) {q : ℝ} (hq : 0 < q) {frac eps epsf rP rF : ℝ} (heps : 0 < eps) (hepsf : epsf ≠ 0)
    (hrP : 0 < rP) (hrF : 0 < rF) (htrue : enclosed I q rF = frac / epsf * enclosed I q (eps * rP)) {ε : ℝ} (hε : 0 < ε) :
    ∃ δ > 0, ∃ σ > 0, ∀ s > 0, ∀ u > 0, ∀ R, Fine δ R → Covers R (rF + ε) → Covers R (eps * rP + ε) →
      ∀ Y : List ℝ, ∀ hl : R.length = Y.length,
      (∀ i (h : i < R.length), R[i] ≤ max rF (eps * rP) + ε → |Y[i] - u * enclosed I q R[i]| ≤ u * σ) →
      ∀ rp, |rp - rP| ≤ δ →
      ∀ (ip : InterpFam ℝ) (kind : Option String) (num : Nat) (rpe : Option (F ℝ)), BetweenNodes (ip (kind.getD "cubic")) →
      ∃ r, fractionToR ip (fin frac) (R.map fun x => fin (s * x)) (Y.map fin) (fin (s * rp)) none rpe (fin eps) (fin epsf) kind num =
          .ok (fin (s * r), nan) ∧ |r - rF| ≤ ε ∧ 0 < r := by
  obtain ⟨δ, hδ, σ, hσ, h⟩ := C137_stable_calm G hq heps hepsf hrP hrF htrue hε
  refine ⟨δ, hδ, σ, hσ, fun s hs u hu R hR hcF hcE Y hl hY rp hrp ip kind num rpe hB => h s hs u hu R hR hcF hcE Y hl hY rp hrp ip kind num rpe ?_⟩
  have h3 := hR.three
  refine between_calm hB (by positivity) _ (by simpa using hl) (by simp; omega) ?_
  unfold Incr
  rw [List.pairwise_map]
  exact hR.incr.imp fun h => mul_lt_mul_of_pos_left h hs

end Verif.Props

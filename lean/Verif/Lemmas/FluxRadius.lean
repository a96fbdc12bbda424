import Verif.Props.CorrectionMore
import Verif.Props.GridColumns
import Verif.Props.RobustRadius

/-!
# The radius of a flux, found by linear interpolation of the curve of growth
-/

set_option linter.unusedSectionVars false

namespace Verif.Props

open F Spec Lemmas

section
variable {K : Type} [Field K] [LinearOrder K] [IsStrictOrderedRing K]

theorem uniqueInsert_entry (v : F K) (i : Nat) (l : List (F K × Nat)) (t : F K × Nat) (h : t ∈ uniqueInsert v i l) : t = (v, i) ∨ t ∈ l := by
  induction l with
  | nil => simpa [uniqueInsert] using h
  | cons u l ih =>
    obtain ⟨u, j⟩ := u
    unfold uniqueInsert at h
    split_ifs at h with h1 h2
    · simpa using h
    · rcases List.mem_cons.1 h with h | h
      · exact Or.inl h
      · exact Or.inr (List.mem_cons_of_mem _ h)
    · rcases List.mem_cons.1 h with h | h
      · exact Or.inr (h ▸ List.mem_cons_self)
      · rcases ih h with h | h
        · exact Or.inl h
        · exact Or.inr (List.mem_cons_of_mem _ h)

/-- Every index of `np.unique` points at its value. -/
theorem uniqueIndex_entry (a : List (F K)) (t : F K × Nat) (h : t ∈ uniqueIndex a) : a[t.2]? = some t.1 := by
  have key : ∀ ps : List (F K × Nat), ∀ t ∈ ps.foldr (fun t acc => uniqueInsert t.1 t.2 acc) [], t ∈ ps := by
    intro ps
    induction ps with
    | nil => simp
    | cons p ps ih =>
      intro t ht
      rcases uniqueInsert_entry _ _ _ _ ht with rfl | ht
      · exact List.mem_cons_self
      · exact List.mem_cons_of_mem _ (ih t ht)
  have := key _ t h
  obtain ⟨v, i⟩ := t
  simpa [List.mem_zipIdx_iff_getElem?] using this

/-- The lists from which the code interpolates the radius of a flux: the fluxes without repetitions, and for each a radius with that
flux. -/
theorem unique_curve (R Y : List K) (hl : R.length = Y.length) : ∃ js : List Nat, ∃ hj : ∀ j ∈ js, j < Y.length,
    (uniqueIndex (Y.map fin)).mapM (fun i => getItem (Y.map fin) i.2) = .ok ((js.attach.map fun j => Y[j.1]'(hj _ j.2)).map fin) ∧
    (uniqueIndex (Y.map fin)).mapM (fun i => getItem (R.map fin) i.2) =
      .ok ((js.attach.map fun j => R[j.1]'(hl ▸ hj _ j.2)).map fin) ∧
    Incr (js.attach.map fun j => Y[j.1]'(hj _ j.2)) ∧ ∀ i (h : i < Y.length), ∃ j ∈ js.attach, Y[j.1]'(hj _ j.2) = Y[i] := by
  set U := uniqueIndex (Y.map fin) with hU
  have hent : ∀ t ∈ U, ∃ h : t.2 < Y.length, t.1 = fin Y[t.2] := by
    intro t ht
    have := uniqueIndex_entry _ t ht
    rw [List.getElem?_map] at this
    obtain ⟨y, hy, hy'⟩ := Option.map_eq_some_iff.1 this
    obtain ⟨h, rfl⟩ := List.getElem?_eq_some_iff.1 hy
    exact ⟨h, hy'.symm⟩
  have hj : ∀ j ∈ U.map Prod.snd, j < Y.length := by
    intro j hj
    obtain ⟨t, ht, rfl⟩ := List.mem_map.1 hj
    exact (hent t ht).1
  obtain ⟨hs, hm⟩ := uniqueIndex_spec (Y.map fin)
  have hatt : ∀ (Z : List K) (hZ : ∀ j ∈ U.map Prod.snd, j < Z.length),
      ((U.map Prod.snd).attach.map fun j => Z[j.1]'(hZ _ j.2)) = U.attach.map fun t => Z[t.1.2]'(hZ _ (List.mem_map_of_mem t.2)) := by
    intro Z hZ
    apply List.ext_getElem <;> simp
  have hY : ((U.map Prod.snd).attach.map fun j => Y[j.1]'(hj _ j.2)).map fin = U.map Prod.fst := by
    rw [hatt Y hj, List.map_map]
    apply List.ext_getElem
    · simp
    · intro i h1 h2
      simp only [List.getElem_map, Function.comp_apply, List.getElem_attach]
      exact ((hent _ (List.getElem_mem _)).2).symm
  have hmap : ∀ (Z : List K) (hZ : ∀ j ∈ U.map Prod.snd, j < Z.length), U.mapM (fun i => getItem (Z.map fin) i.2) =
      (.ok (((U.map Prod.snd).attach.map fun j => Z[j.1]'(hZ _ j.2)).map fin) : Except PyErr (List (F K))) := by
    intro Z hZ
    rw [mapM_ok_of_forall (g := fun t => ((Z.map fin)[t.2]?).getD nan)]
    · rw [hatt Z hZ, List.map_map]
      congr 1
      apply List.ext_getElem
      · simp
      · intro i h1 h2
        have : (U[i]'(by simpa using h1)).2 < Z.length := hZ _ (List.mem_map_of_mem (List.getElem_mem _))
        simp [this]
    · intro t ht
      have : t.2 < Z.length := hZ _ (List.mem_map_of_mem ht)
      simp [getItem, this]
  refine ⟨U.map Prod.snd, hj, hmap Y hj, hmap R (fun j h => hl ▸ hj j h), ?_, ?_⟩
  · have h1 : (((U.map Prod.snd).attach.map fun j => Y[j.1]'(hj _ j.2)).map fin).Pairwise Before := hY ▸ hs
    rw [List.pairwise_map] at h1
    refine h1.imp ?_
    rintro a b (h | ⟨_, h⟩)
    · simpa [F.lt] using h
    · cases h
  · intro i h
    have h1 : fin Y[i] ∈ U.map Prod.fst := (hm _).2 (List.mem_map_of_mem (List.getElem_mem h))
    rw [← hY] at h1
    obtain ⟨y, hy, hy'⟩ := List.mem_map.1 h1
    injection hy' with hy'
    subst hy'
    obtain ⟨j, hj', e⟩ := List.mem_map.1 hy
    exact ⟨j, hj', e⟩

/-- If the flux `t` is between two fluxes of the curve, the radius found for it is between two radii whose fluxes are in the same range. -/
theorem radiusOfFlux_between {ip : InterpFam K} (hB : BetweenNodes (ip "linear")) (R Y : List K) (hl : R.length = Y.length) {t : K} {i0 i1 : Nat}
    (h0 : i0 < Y.length) (h1 : i1 < Y.length) (ht0 : Y[i0] ≤ t) (ht1 : t < Y[i1]) :
    ∃ r j j', ∃ hj : j < Y.length, ∃ hj' : j' < Y.length, RadiusOfFlux ip (R.map fin) (Y.map fin) (fin t) (fin r) ∧
      Y[i0] ≤ Y[j] ∧ Y[j] ≤ Y[i1] ∧ Y[i0] ≤ Y[j'] ∧ Y[j'] ≤ Y[i1] ∧ min R[j] R[j'] ≤ r ∧ r ≤ max R[j] R[j'] := by
  obtain ⟨js, hj, hY, hR, hinc, hmem⟩ := unique_curve R Y hl
  set Z := js.attach.map fun j => Y[j.1]'(hj _ j.2) with hZ
  set Q := js.attach.map fun j => R[j.1]'(hl ▸ hj _ j.2) with hQ
  have hZl : Z.length = js.length := by simp [hZ]
  have hQl : Q.length = js.length := by simp [hQ]
  have hZv : ∀ k (h : k < Z.length), Z[k] = Y[js[k]'(by omega)]'(hj _ (List.getElem_mem _)) := by intro k h; simp [hZ]
  have hQv : ∀ k (h : k < Q.length), Q[k] = R[js[k]'(by omega)]'(hl ▸ hj _ (List.getElem_mem _)) := by intro k h; simp [hQ]
  have hpos : ∀ i (h : i < Y.length), ∃ k, ∃ hk : k < Z.length, Z[k] = Y[i] := by
    intro i h
    obtain ⟨j, hj', e⟩ := hmem i h
    have : Y[i] ∈ Z := by rw [← e, hZ]; exact List.mem_map_of_mem hj'
    obtain ⟨k, hk, e⟩ := List.getElem_of_mem this
    exact ⟨k, hk, e⟩
  obtain ⟨k0, hk0, e0⟩ := hpos i0 h0
  obtain ⟨k1, hk1, e1⟩ := hpos i1 h1
  have hmono : ∀ a b (ha : a < Z.length) (hb : b < Z.length), a ≤ b → Z[a] ≤ Z[b] := by
    intro a b ha hb hab
    rcases hab.lt_or_eq with h | rfl
    · exact (List.pairwise_iff_getElem.1 hinc a b ha hb h).le
    · exact le_rfl
  have hlt : k0 < k1 := by
    by_contra h
    have := hmono k1 k0 hk1 hk0 (by omega)
    rw [e0, e1] at this
    exact absurd (lt_of_le_of_lt ht0 ht1) (not_lt.2 this)
  -- the last node not beyond t
  have key : ∀ d, ∀ k, k0 ≤ k → ∀ hk : k < Z.length, Z[k] ≤ t → k + d = k1 →
      ∃ m, ∃ hm : m + 1 < Z.length, k0 ≤ m ∧ m + 1 ≤ k1 ∧ Z[m] ≤ t ∧ t ≤ Z[m + 1] := by
    intro d
    induction d with
    | zero =>
      intro k _ hk hzk hd
      obtain rfl : k = k1 := by omega
      rw [e1] at hzk
      exact absurd ht1 (not_lt.2 hzk)
    | succ d ih =>
      intro k hk0' hk hzk hd
      have hk' : k + 1 < Z.length := by omega
      by_cases h : Z[k + 1] ≤ t
      · exact ih (k + 1) (by omega) hk' h (by omega)
      · exact ⟨k, hk', hk0', by omega, hzk, (not_le.1 h).le⟩
  obtain ⟨m, hm, m0, m1, m2, m3⟩ := key (k1 - k0) k0 le_rfl hk0 (by rw [e0]; exact ht0) (by omega)
  obtain ⟨r, hr, r1, r2⟩ := hB Z Q (by omega) (by omega) hinc m hm t m2 m3
  have hm' : m + 1 < js.length := by omega
  refine ⟨r, js[m], js[m + 1], hj _ (List.getElem_mem _), hj _ (List.getElem_mem _), ⟨_, _, hY, hR, hr⟩, ?_, ?_, ?_, ?_, ?_, ?_⟩
  · rw [← hZv m (by omega), ← e0]; exact hmono _ _ _ _ m0
  · rw [← hZv m (by omega), ← e1]; exact hmono _ _ _ _ (by omega)
  · rw [← hZv (m + 1) hm, ← e0]; exact hmono _ _ _ _ (by omega)
  · rw [← hZv (m + 1) hm, ← e1]; exact hmono _ _ _ _ m1
  · rw [← hQv m (by omega), ← hQv (m + 1) (by omega)]; exact r1
  · rw [← hQv m (by omega), ← hQv (m + 1) (by omega)]; exact r2

end

/-- Fine radii hit every interval of the length of the spacing. -/
theorem Fine.hit {δ : ℝ} {R : List ℝ} (hR : Fine δ R) {a : ℝ} (ha : 0 ≤ a) (hc : Covers R a) : ∃ i, ∃ h : i < R.length, a ≤ R[i] ∧ R[i] ≤ a + δ := by
  have h3 := hR.three
  have h0 := hR.first (by omega)
  by_cases hfirst : a ≤ R[0]'(by omega)
  · exact ⟨0, by omega, hfirst, by linarith [h0.2]⟩
  · obtain ⟨x, hx, hax⟩ := hc
    obtain ⟨n, hn, rfl⟩ := List.getElem_of_mem hx
    have hn1 : 1 ≤ n := by
      by_contra h
      obtain rfl : n = 0 := by omega
      exact hfirst hax
    obtain ⟨j, hj, h1, h2⟩ := segment_exists R a n hn hn1 (not_le.1 hfirst).le hax
    exact ⟨j + 1, hj, h2, by linarith [(hR.step j hj).2]⟩

variable {I : ℝ → ℝ}

/-- The radius of a flux is stable: for radii spaced by at most `δ` and a non-decreasing curve of growth accurate to `σ` up to the radii that
matter, the radius found for the flux inside `r0` is within `ε` of `r0`. -/
theorem radiusOfFlux_stable (G : Galaxy I) {q : ℝ} (hq : 0 < q) {r0 : ℝ} (hr0 : 0 < r0) {ε : ℝ} (hε : 0 < ε) :
    ∃ δ > 0, ∃ σ > 0, ∀ s > 0, ∀ u > 0, ∀ R, Fine δ R → Covers R (r0 + ε) → ∀ Y : List ℝ, ∀ hl : R.length = Y.length,
      (∀ i j (hi : i < Y.length) (hj : j < Y.length), i ≤ j → Y[i] ≤ Y[j]) →
      (∀ i (h : i < R.length), R[i] ≤ r0 + ε → |Y[i] - u * enclosed I q R[i]| ≤ u * σ) →
      ∀ ip : InterpFam ℝ, BetweenNodes (ip "linear") →
      ∃ r, RadiusOfFlux ip (R.map fun x => fin (s * x)) (Y.map fin) (fin (u * enclosed I q r0)) (fin (s * r)) ∧ |r - r0| ≤ ε := by
  have hmono := gal_strictMono G hq
  set e := min (ε / 4) (r0 / 4) with he
  have he0 : 0 < e := lt_min (by linarith) (by linarith)
  have he1 : e ≤ ε / 4 := min_le_left _ _
  have he2 : e ≤ r0 / 4 := min_le_right _ _
  -- fluxes at seven radii around r0
  have hgap : ∀ x y, 0 ≤ x → x < y → 0 < enclosed I q y - enclosed I q x := fun x y hx hxy =>
    sub_pos.2 (hmono (Set.mem_Ici.2 hx) (Set.mem_Ici.2 (hx.trans hxy.le)) hxy)
  set E := enclosed I q with hE
  have g1 := hgap (r0 - 2 * e) (r0 - e) (by linarith) (by linarith)
  have g2 := hgap (r0 - e / 2) r0 (by linarith) (by linarith)
  have g3 := hgap r0 (r0 + e / 2) hr0.le (by linarith)
  have g4 := hgap (r0 + e) (r0 + 2 * e) (by linarith) (by linarith)
  set d := min (min (E (r0 - e) - E (r0 - 2 * e)) (E r0 - E (r0 - e / 2))) (min (E (r0 + e / 2) - E r0) (E (r0 + 2 * e) - E (r0 + e))) with hd
  have hd0 : 0 < d := lt_min (lt_min g1 g2) (lt_min g3 g4)
  have d1 : d ≤ E (r0 - e) - E (r0 - 2 * e) := (min_le_left _ _).trans (min_le_left _ _)
  have d2 : d ≤ E r0 - E (r0 - e / 2) := (min_le_left _ _).trans (min_le_right _ _)
  have d3 : d ≤ E (r0 + e / 2) - E r0 := (min_le_right _ _).trans (min_le_left _ _)
  have d4 : d ≤ E (r0 + 2 * e) - E (r0 + e) := (min_le_right _ _).trans (min_le_right _ _)
  refine ⟨e / 2, by linarith, d / 4, by linarith, ?_⟩
  intro s hs u hu R hR hc Y hl hYm hY ip hB
  have hcov : ∀ t, t ≤ r0 + ε → Covers R t := by
    intro t ht
    obtain ⟨x, hx, hx'⟩ := hc
    exact ⟨x, hx, ht.trans hx'⟩
  have hlo : ∀ i (h : i < R.length) t, 0 ≤ t → t ≤ R[i] → R[i] ≤ r0 + ε → u * (E t - d / 4) ≤ Y[i] := by
    intro i h t ht hi hiT
    have hm := hmono.monotoneOn (Set.mem_Ici.2 ht) (Set.mem_Ici.2 (ht.trans hi)) hi
    have := (abs_le.1 (hY i h hiT)).1
    have h2 : u * (E t - d / 4) ≤ u * (E R[i] - d / 4) := mul_le_mul_of_nonneg_left (by linarith) hu.le
    rw [mul_sub u (E R[i])] at h2
    linarith
  have hhi : ∀ i (h : i < R.length) t, R[i] ≤ t → t ≤ r0 + ε → Y[i] ≤ u * (E t + d / 4) := by
    intro i h t hi ht
    have h0 := (hR.pos h).le
    have hm := hmono.monotoneOn (Set.mem_Ici.2 h0) (Set.mem_Ici.2 (h0.trans hi)) hi
    have := (abs_le.1 (hY i h (hi.trans ht))).2
    have h2 : u * (E R[i] + d / 4) ≤ u * (E t + d / 4) := mul_le_mul_of_nonneg_left (by linarith) hu.le
    rw [mul_add u (E R[i])] at h2
    linarith
  obtain ⟨i0, hi0, a0, b0⟩ := Fine.hit hR (a := r0 - e) (by linarith) (hcov _ (by linarith))
  obtain ⟨i1, hi1, a1, b1⟩ := Fine.hit hR (a := r0 + e / 2) (by linarith) (hcov _ (by linarith))
  obtain ⟨i2, hi2, a2, b2⟩ := Fine.hit hR (a := r0 + 2 * e) (by linarith) (hcov _ (by linarith))
  have ul : ∀ {a b : ℝ}, a < b → u * a < u * b := fun h => mul_lt_mul_of_pos_left h hu
  have ht0 : Y[i0]'(hl ▸ hi0) ≤ u * E r0 := (hhi i0 hi0 (r0 - e / 2) (by linarith) (by linarith)).trans (ul (by linarith)).le
  have ht1 : u * E r0 < Y[i1]'(hl ▸ hi1) := lt_of_lt_of_le (ul (by linarith)) (hlo i1 hi1 (r0 + e / 2) (by linarith) a1 (by linarith))
  have hYi0 : u * (E (r0 - e) - d / 4) ≤ Y[i0]'(hl ▸ hi0) := hlo i0 hi0 (r0 - e) (by linarith) a0 (by linarith)
  have hYi1 : Y[i1]'(hl ▸ hi1) ≤ u * (E (r0 + e) + d / 4) := hhi i1 hi1 (r0 + e) (by linarith) (by linarith)
  have hYi2 : u * (E (r0 + 2 * e) - d / 4) ≤ Y[i2]'(hl ▸ hi2) := hlo i2 hi2 (r0 + 2 * e) (by linarith) a2 (by linarith)
  -- a radius with a flux in this range is close
  have hclose : ∀ j (hj : j < Y.length), Y[i0]'(hl ▸ hi0) ≤ Y[j] → Y[j] ≤ Y[i1]'(hl ▸ hi1) →
      r0 - 2 * e ≤ R[j]'(hl ▸ hj) ∧ R[j]'(hl ▸ hj) ≤ r0 + 3 * e := by
    intro j hj y0 y1
    constructor
    · by_contra h
      have h' := hhi j (hl ▸ hj) (r0 - 2 * e) (not_le.1 h).le (by linarith)
      have := ul (show E (r0 - 2 * e) + d / 4 < E (r0 - e) - d / 4 by linarith)
      linarith
    · by_contra h
      have hgt := not_le.1 h
      have h2 : i2 ≤ j := by
        by_contra hlt
        have := Incr.le_getElem hR.incr (i := j) (j := i2) (by omega) hi2
        linarith
      have := hYm i2 j (hl ▸ hi2) hj h2
      have := ul (show E (r0 + e) + d / 4 < E (r0 + 2 * e) - d / 4 by linarith)
      linarith
  obtain ⟨r, j, j', hj, hj', hrf, y1, y2, y3, y4, r1, r2⟩ := radiusOfFlux_between hB (R.map fun x => s * x) Y (by simpa using hl)
    (hl ▸ hi0) (hl ▸ hi1) ht0 ht1
  obtain ⟨c1, c2⟩ := hclose j hj y1 y2
  obtain ⟨c3, c4⟩ := hclose j' hj' y3 y4
  simp only [List.getElem_map] at r1 r2
  have e1 : s * (r / s) = r := by field_simp
  refine ⟨r / s, ?_, ?_⟩
  · rw [e1]
    rw [List.map_map] at hrf
    exact hrf
  · have s1 : s * (r0 - 2 * e) ≤ r := (le_min (mul_le_mul_of_nonneg_left c1 hs.le) (mul_le_mul_of_nonneg_left c3 hs.le)).trans r1
    have s2 : r ≤ s * (r0 + 3 * e) := r2.trans (max_le (mul_le_mul_of_nonneg_left c2 hs.le) (mul_le_mul_of_nonneg_left c4 hs.le))
    have s3 : r0 - 2 * e ≤ r / s := by rw [le_div_iff₀ hs]; linarith
    have s4 : r / s ≤ r0 + 3 * e := by rw [div_le_iff₀ hs]; linarith
    rw [abs_le]
    constructor <;> linarith

end Verif.Props

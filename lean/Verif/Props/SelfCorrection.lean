import Verif.Props.Correction
import Verif.Props.CorrectionGrid
import Verif.Props.PetrosianProfile

/-!
# C108: correcting a simulated galaxy with the grid that was made from it
-/

set_option linter.unusedSectionVars false
set_option linter.unusedVariables false

namespace Verif.Props

open F Spec

section
variable {K : Type} [Field K] [LinearOrder K] [IsStrictOrderedRing K] [HasSqrt K] [HasLog10 K]

/-- The profile that `_generate_petrosian_correction` builds from its photometry (default settings). -/
def SimProfile (rList area flux : List (F K)) (p : Petrosian K) : Prop :=
  Petrosian.init rList area flux none none (fin (1 / 5)) (fin 2) (fin (99 / 100)) (fin (99 / 100)) = .ok p

/-- What is in the row of a simulation: the measured triple is that of the profile, and the corrected radius `c_r_99` is `r_total_flux` of
the profile whose `r_epsilon` is the radius at which the (piecewise linear) curve of growth reaches the total flux. -/
theorem simRow_entries {ip : InterpFam K} {n rEff r20 r80 rTotal lTotal totalFlux : F K} {rList area flux row : List (F K)}
    (h : simRow ip n rEff r20 r80 rTotal lTotal totalFlux rList area flux = .ok row) {p : Petrosian K} (hp : SimProfile rList area flux p) :
    ∃ x y z c99 rp m, rowGet gridNames row "n" = .ok n ∧ rowGet gridNames row "p02" = .ok x ∧ rowGet gridNames row "u_r_50" = .ok y ∧
      rowGet gridNames row "u_c2080" = .ok z ∧ rowGet gridNames row "c_r_99" = .ok c99 ∧ Measured ip p x y z ∧ p.rPetrosian ip = .ok rp ∧
      F.eqv rp x = true ∧ (∃ fl rl, (uniqueIndex flux).mapM (fun t => getItem flux t.2) = .ok fl ∧
        (uniqueIndex flux).mapM (fun t => getItem rList t.2) = .ok rl ∧ ip "linear" fl rl totalFlux = .ok m) ∧
      rowGet gridNames row "c_epsilon" = .ok (m / rp) ∧ Petrosian.rTotalFlux ip { p with epsilon := m / rp } = .ok c99 := by
  unfold simRow at h
  obtain ⟨p', hp', h⟩ := bind_eq_ok.1 h
  obtain rfl : p' = p := by
    unfold SimProfile at hp
    rw [hp] at hp'; exact (Except.ok.inj hp').symm
  obtain ⟨ci, _, h⟩ := bind_eq_ok.1 h
  split at h
  · cases h
  obtain ⟨fl, h1, h⟩ := bind_eq_ok.1 h
  obtain ⟨rl, h2, h⟩ := bind_eq_ok.1 h
  obtain ⟨mt, h3, h⟩ := bind_eq_ok.1 h
  obtain ⟨m8, _, h⟩ := bind_eq_ok.1 h
  obtain ⟨rp, h4, h⟩ := bind_eq_ok.1 h
  obtain ⟨pl, h5, h⟩ := bind_eq_ok.1 h
  obtain ⟨p2, h6, h⟩ := bind_eq_ok.1 h
  obtain ⟨p3, h7, h⟩ := bind_eq_ok.1 h
  obtain ⟨p4, h8, h⟩ := bind_eq_ok.1 h
  obtain ⟨p5, h9, h⟩ := bind_eq_ok.1 h
  split at h
  · cases h
  rename_i hassert
  obtain ⟨u50, g1, h⟩ := bind_eq_ok.1 h
  obtain ⟨u20, g2, h⟩ := bind_eq_ok.1 h
  obtain ⟨u80, g3, h⟩ := bind_eq_ok.1 h
  obtain ⟨c50, g4, h⟩ := bind_eq_ok.1 h
  obtain ⟨c20, g5, h⟩ := bind_eq_ok.1 h
  obtain ⟨c80, g6, h⟩ := bind_eq_ok.1 h
  obtain ⟨u99, g7, h⟩ := bind_eq_ok.1 h
  obtain ⟨uc28, g8, h⟩ := bind_eq_ok.1 h
  obtain ⟨uc59, g9, h⟩ := bind_eq_ok.1 h
  obtain ⟨c99, g10, h⟩ := bind_eq_ok.1 h
  obtain ⟨cc28, g11, h⟩ := bind_eq_ok.1 h
  obtain ⟨cc59, g12, h⟩ := bind_eq_ok.1 h
  cases h
  have hpl : pl.1 = p'.petrosianList := by
    unfold SimProfile Petrosian.init at hp
    split_ifs at hp
    obtain ⟨t, ht, hp⟩ := bind_eq_ok.1 hp
    cases hp
    simp only at h5
    rw [ht] at h5
    exact congrArg Prod.fst (Except.ok.inj h5).symm
  rw [hpl] at h6 h7 h8 h9
  refine ⟨p2.1, u50, uc28, c99, rp, mt, rfl, rfl, rfl, rfl, rfl, ?_, h4, by simpa using hassert, ⟨fl, rl, h1, h2, h3⟩, rfl, g10⟩
  exact ⟨⟨p2.2, h6⟩, ⟨p3, h7⟩, ⟨p4, h8⟩, ⟨p5, h9⟩, g1, g8⟩

end

/-- **C108.** Let a grid contain the row of a simulation, let no other row have the same measured triple, and let the triple be finite with
a positive Petrosian radius.  Then the profile of that simulation is matched with its own row: `estimate_n` returns the simulated index, and
the corrected profile has `r_epsilon` equal to the row's `c_r_99`.  That number is `r_total_flux` of the simulated profile when its
`r_epsilon` is set to the radius where the curve of growth reaches `0.99 L_total`. -/
theorem C108_own_row (ip : InterpFam ℝ) (grid : Table ℝ) (er : Bool) (c : Correction ℝ) (hc : Correction.init grid er = .ok c)
    (hnames : grid.names = gridNames) (X Y Z : List ℝ) (hX : grid.col "p02" = .ok (X.map fin)) (hY : grid.col "u_r_50" = .ok (Y.map fin))
    (hZ : grid.col "u_c2080" = .ok (Z.map fin)) (vx : 0 < variance X) (vy : 0 < variance Y) (vz : 0 < variance Z)
    {n rEff r20 r80 rTotal lTotal totalFlux : F ℝ} {rList area flux row : List (F ℝ)}
    (hrow : simRow ip n rEff r20 r80 rTotal lTotal totalFlux rList area flux = .ok row) {p : Petrosian ℝ}
    (hp : SimProfile rList area flux p) (j : Nat) (hj : grid.rows[j]? = some row)
    (huniq : ∀ (k : Nat) (row' : List (F ℝ)), grid.rows[k]? = some row' →
      (∀ key ∈ ["p02", "u_r_50", "u_c2080"], rowGet gridNames row' key = rowGet gridNames row key) → row' = row)
    (x : ℝ) (hx0 : x ≠ 0) (hx : rowGet gridNames row "p02" = .ok (fin x)) (r99 : ℝ) (h99 : rowGet gridNames row "c_r_99" = .ok (fin r99)) :
    c.correctedRow ip p = .ok row ∧ c.estimateN ip p = .ok n ∧
    ∃ q, c.correct ip p = .ok q ∧ q.rEpsilon ip = .ok (fin r99) ∧
    ∃ m e cp, (∃ fl rl, (uniqueIndex flux).mapM (fun t => getItem flux t.2) = .ok fl ∧
        (uniqueIndex flux).mapM (fun t => getItem rList t.2) = .ok rl ∧ ip "linear" fl rl totalFlux = .ok m) ∧
      cp = { p with epsilon := e } ∧ rowGet gridNames row "c_epsilon" = .ok e ∧ cp.rTotalFlux ip = .ok (fin r99) ∧
      (∀ v, m = fin v → cp.rEpsilon ip = .ok (fin v)) := by
  obtain ⟨hj', hjr⟩ := List.getElem?_eq_some_iff.1 hj
  obtain ⟨x', y, z, c99, rp, m, e1, e2, e3, e4, e5, hm, e6, e7, e8, e9, e10⟩ := simRow_entries hrow hp
  obtain rfl : x' = fin x := by rw [hx] at e2; exact (Except.ok.inj e2).symm
  obtain rfl : c99 = fin r99 := by rw [h99] at e5; exact (Except.ok.inj e5).symm
  have hrp : rp = fin x := by
    cases rp with
    | fin v => simp only [eqv_fin, decide_eq_true_eq] at e7; rw [e7]
    | _ => simp [F.eqv] at e7
  subst hrp
  -- the entries of the row are in the columns, which are finite
  have hcol : ∀ {key : String} {L : List ℝ} (h : grid.col key = .ok (L.map fin)) {v : F ℝ}, rowGet gridNames row key = .ok v → ∃ w, v = fin w := by
    intro key L h v hv
    have h1 := col_rowGet h hj'
    rw [hjr, hnames, hv] at h1
    have h2 := Except.ok.inj h1
    rw [List.getElem_map] at h2
    exact ⟨_, h2⟩
  obtain ⟨y', rfl⟩ := hcol hY e3
  obtain ⟨z', rfl⟩ := hcol hZ e4
  have hinr : ∀ {key : String} {L : List ℝ} (h : grid.col key = .ok (L.map fin)) {v : ℝ}, rowGet gridNames row key = .ok (fin v) → InRange L v := by
    intro key L h v hv
    have h1 := col_rowGet h hj'
    rw [hjr, hnames, hv] at h1
    have h2 := Except.ok.inj h1
    rw [List.getElem_map] at h2
    have h3 : v = L[j]'(by have := col_length h; simp at this; omega) := by injection h2
    exact ⟨⟨_, List.getElem_mem _, h3.ge⟩, _, List.getElem_mem _, h3.le⟩
  have key : c.correctedRow ip p = .ok row := by
    obtain ⟨i, -, hi, hri⟩ := correctedRow_nearest ip grid er c hc X Y Z hX hY hZ vx vy vz p x y' z' hm
      (fun _ => ⟨hinr hX e2, hinr hY e3, hinr hZ e4⟩)
    obtain ⟨row', hr', t1, t2, t3⟩ := C27_on_grid ip grid er c hc X Y Z hX hY hZ vx vy vz p x y' z' hm j hj'
      (by rw [hjr, hnames]; exact e2) (by rw [hjr, hnames]; exact e3) (by rw [hjr, hnames]; exact e4)
    rw [hr']
    have hrow' : row' = grid.rows[i] := by rw [hr'] at hri; exact Except.ok.inj hri
    rw [hnames] at t1 t2 t3
    congr 1
    apply huniq i row' (by rw [hrow']; exact List.getElem?_eq_getElem hi)
    intro k hk
    simp only [List.mem_cons, List.not_mem_nil, or_false] at hk
    rcases hk with rfl | rfl | rfl
    · rw [t1, e2]
    · rw [t2, e3]
    · rw [t3, e4]
  have hg : c.grid = grid := (init_ok hc).2.1
  have hset : p.eta = fin (1 / 5) ∧ p.epsilonFraction = fin (99 / 100) := by
    unfold SimProfile Petrosian.init at hp
    split_ifs at hp
    obtain ⟨t, ht, hp⟩ := bind_eq_ok.1 hp
    cases hp
    exact ⟨rfl, rfl⟩
  have hest : c.estimateEpsilon ip p = .ok (fin (r99 / x)) := by
    unfold Correction.estimateEpsilon Correction.epsilonFromRow Correction.radiusKey Correction.etaKey
    rw [key, Except.bind_ok, hg, hnames, hset.1, hset.2]
    have a1 : F.eqv (fin (99 / 100 : ℝ)) (fin (1 / 2)) = false := by rw [eqv_fin]; norm_num
    have a2 : F.eqv (fin (99 / 100 : ℝ)) (fin (4 / 5)) = false := by rw [eqv_fin]; norm_num
    have a3 : F.eqv (fin (99 / 100 : ℝ)) (fin (99 / 100)) = true := by rw [eqv_fin]; norm_num
    have a4 : F.eqv (fin (1 / 5 : ℝ)) (fin (1 / 5)) = true := by rw [eqv_fin]; norm_num
    simp only [a1, a2, a3, a4, if_true, Bool.false_eq_true, if_false, h99, hx, Except.bind_ok]
    rw [F.fin_div_of_ne _ hx0]
  refine ⟨key, ?_, { p with epsilon := fin (r99 / x) }, ?_, ?_, m, m / fin x, { p with epsilon := m / fin x }, e8, rfl, e9, e10, ?_⟩
  · unfold Correction.estimateN
    rw [key, Except.bind_ok, hg, hnames, e1]
  · unfold Correction.correct
    rw [hest, Except.bind_ok]
  · unfold Petrosian.rEpsilon
    have : ({ p with epsilon := fin (r99 / x) } : Petrosian ℝ).rPetrosian ip = p.rPetrosian ip := rfl
    rw [this, e6, Except.bind_ok]
    show Except.ok _ = _
    congr 1
    show fin x * fin (r99 / x) = fin r99
    rw [F.fin_mul]; congr 1; field_simp
  · intro v hv
    subst hv
    unfold Petrosian.rEpsilon
    have : ({ p with epsilon := fin v / fin x } : Petrosian ℝ).rPetrosian ip = p.rPetrosian ip := rfl
    rw [this, e6, Except.bind_ok]
    show Except.ok _ = _
    congr 1
    show fin x * (fin v / fin x) = fin v
    rw [F.fin_div_of_ne _ hx0, F.fin_mul]; congr 1; field_simp

/-! ### An instance of C108 -/

section examples

/-- An interpolator: 1 below 3/2 and 1/10 from there on. -/
noncomputable def stepInterp : Interp ℝ := fun _ _ q => .ok (if F.lt q (fin (3 / 2)) then fin 1 else fin (1 / 10))

theorem stepInterp_petro (p0 : F ℝ) (ps : List (F ℝ)) (eta : ℝ) (h1 : 1 / 10 ≤ eta) (h2 : eta < 11 / 20) :
    calculatePetrosianR (fun _ => stepInterp) [fin 1, fin 2, fin 4999] (p0 :: ps) none (fin eta) = .ok (fin 2, nan) := by
  have hmin : pyMin [fin (0 : ℝ), fin 2, fin 4999] = .ok (fin 0) := by norm_num [pyMin]
  have hmax : pyMax [fin (0 : ℝ), fin 2, fin 4999] = .ok (fin 4999) := by norm_num [pyMax]
  have hl : ∃ l, npLinspace (fin (0 : ℝ)) (fin 4999) 5000 = fin 0 :: fin 1 :: fin 2 :: l := by
    rw [npLinspace_fin _ _ _ (by norm_num)]
    refine ⟨(List.range 4997).map fun i => fin (gridPt 0 4999 5000 (i + 1 + 1 + 1)), ?_⟩
    rw [show List.range 5000 = List.range (4997 + 1 + 1 + 1) from rfl, List.range_succ_eq_map, List.range_succ_eq_map, List.range_succ_eq_map]
    simp only [List.map_cons, List.map_map]
    congr 1
    · simp [gridPt]
    congr 1
    · norm_num [gridPt]
    congr 1
    norm_num [gridPt]
  obtain ⟨l, hl⟩ := hl
  have hm : (npLinspace (fin (0 : ℝ)) (fin 4999) 5000).mapM (stepInterp [fin 0, fin 2, fin 4999] (fin 1 :: ps)) =
      .ok (fin 1 :: fin 1 :: fin (1 / 10) :: l.map fun q => if F.lt q (fin (3 / 2)) then fin 1 else fin (1 / 10)) := by
    rw [mapM_ok_of_forall (f := stepInterp [fin 0, fin 2, fin 4999] (fin 1 :: ps))
      (g := fun q => if F.lt q (fin (3 / 2)) then fin 1 else fin (1 / 10)) (fun _ _ => rfl), hl]
    norm_num
  unfold calculatePetrosianR
  simp only [setItem0, Except.bind_ok, getInterpolatedValues, hmin, hmax]
  rw [if_neg (by simp), hm]
  have n1 : ¬ (1 : ℝ) ≤ eta := by linarith
  have a1 : |1 - eta| = 1 - eta := abs_of_pos (by linarith)
  have a2 : |1 / 10 - eta| = eta - 1 / 10 := by rw [abs_of_nonpos (by linarith)]; ring
  simp only [Except.bind_ok, radiusAt, closestValueIndex, firstWhere, Bool.false_eq_true, if_false, le_fin, decide_eq_true_eq, n1, h1, if_true,
    Option.map_some]
  simp only [zero_add, List.take_succ_cons, List.take_zero, List.map_cons, List.map_nil, hl]
  have hidx : npArgmin [F.abs (fin 1 - fin eta), F.abs (fin 1 - fin eta), F.abs (fin (1 / 10) - fin eta)] = .ok 2 := by
    rw [fin_sub, fin_sub]
    have e1 : F.abs (fin (1 - eta)) = fin (1 - eta) := by rw [F.abs_fin, a1]
    have e2 : F.abs (fin (1 / 10 - eta)) = fin (eta - 1 / 10) := by rw [F.abs_fin, a2]
    rw [e1, e2]
    have : eta - 1 / 10 < 1 - eta := by linarith
    simp only [npArgmin, argminAux, isNaN_fin, le_fin, le_refl, not_le.2 this, decide_true, decide_false, Bool.false_eq_true, if_false, if_true]
  simp only [hidx, Except.bind_ok]
  rfl

theorem stepInterp_frac (flux : List (F ℝ)) (f eps : ℝ) (h0 : 0 ≤ f) (h : f ≤ 99 / 100) (heps : eps ≤ 2) :
    fractionToR (fun _ => stepInterp) (fin f) [fin 1, fin 2, fin 4999] flux (fin 2) none (some nan) (fin eps) (fin (99 / 100)) =
      .ok (fin 1, nan) := by
  have hmin : pyMin [fin (1 : ℝ), fin 2, fin 4999] = .ok (fin 1) := by norm_num [pyMin]
  have hmax : pyMax [fin (1 : ℝ), fin 2, fin 4999] = .ok (fin 4999) := by norm_num [pyMax]
  have hd : pyDiv (fin f) (fin (99 / 100 : ℝ)) = .ok (fin (f / (99 / 100))) := by
    unfold pyDiv
    rw [if_neg (by norm_num), fin_div_of_ne _ (by norm_num)]
  have h1 : F.lt (fin 4999) (fin 2 * fin eps) = false := by
    rw [fin_mul, lt_fin, decide_eq_false_iff_not]; linarith
  have hl : ∃ l, npLinspace (fin (1 : ℝ)) (fin 4999) 5000 = fin 1 :: l := by
    rw [npLinspace_fin _ _ _ (by norm_num)]
    refine ⟨(List.range 4999).map fun i => fin (gridPt 1 4999 5000 (i + 1)), ?_⟩
    rw [show List.range 5000 = List.range (4999 + 1) from rfl, List.range_succ_eq_map]
    simp only [List.map_cons, List.map_map]
    congr 1
    simp [gridPt]
  obtain ⟨l, hl⟩ := hl
  have hm : (npLinspace (fin (1 : ℝ)) (fin 4999) 5000).mapM (stepInterp [fin 1, fin 2, fin 4999] flux) =
      .ok (fin 1 :: l.map fun q => if F.lt q (fin (3 / 2)) then fin 1 else fin (1 / 10)) := by
    rw [mapM_ok_of_forall (f := stepInterp [fin 1, fin 2, fin 4999] flux)
      (g := fun q => if F.lt q (fin (3 / 2)) then fin 1 else fin (1 / 10)) (fun _ _ => rfl), hl]
    norm_num
  have hle : f / (99 / 100) ≤ 1 := by rw [div_le_one (by norm_num)]; exact h
  have hge : 0 ≤ f / (99 / 100) := by positivity
  obtain ⟨e, he, he'⟩ : ∃ e : ℝ, stepInterp [fin 1, fin 2, fin 4999] flux (fin 2 * fin eps) = .ok (fin e) ∧ e ≤ 1 := by
    unfold stepInterp
    split
    · exact ⟨1, rfl, le_rfl⟩
    · exact ⟨1 / 10, rfl, by norm_num⟩
  have h2 : F.le (fin e * fin (f / (99 / 100))) (fin (1 : ℝ)) = true := by
    rw [fin_mul, le_fin, decide_eq_true_eq]; nlinarith
  unfold fractionToR
  simp only [hmax, Except.bind_ok, h1, Bool.false_eq_true, if_false, Option.getD_some, he, hd, getInterpolatedValues, hmin]
  rw [if_neg (by simp), hm]
  simp only [Except.bind_ok, radiusAt, closestValueIndex, firstWhere, h2, if_true, hl]
  simp only [zero_add, List.take_succ_cons, List.take_zero, List.map_cons, List.map_nil, npArgmin, argminAux, Except.bind_ok]
  rfl

/-- The profile of the example simulation. -/
noncomputable def stepP (pl : List (F ℝ)) (eps : F ℝ) : Petrosian ℝ where
  rList := [fin 1, fin 2, fin 4999]
  areaList := [fin 1, fin 2, fin 3]
  fluxList := [fin 1, fin 2, fin 3]
  areaErr := none
  fluxErr := none
  eta := fin (1 / 5)
  epsilon := eps
  epsilonFraction := fin (99 / 100)
  totalFluxFraction := fin (99 / 100)
  interpKind := some "cubic"
  interpNum := 5000
  petrosianList := pl
  petrosianErr := none

theorem stepP_r (pl : List (F ℝ)) (hpl : pl ≠ []) (eps : F ℝ) : (stepP pl eps).rPetrosian (fun _ => stepInterp) = .ok (fin 2) ∧
    (stepP pl eps).rPetrosianErr (fun _ => stepInterp) = .ok nan := by
  obtain ⟨p0, ps, rfl⟩ := List.exists_cons_of_ne_nil hpl
  have := stepInterp_petro p0 ps (1 / 5) (by norm_num) (by norm_num)
  constructor
  · unfold Petrosian.rPetrosian Petrosian.calcPetrosianR
    exact congrArg (Except.map Prod.fst) this
  · unfold Petrosian.rPetrosianErr Petrosian.calcPetrosianR
    exact congrArg (Except.map Prod.snd) this

theorem stepP_frac (pl : List (F ℝ)) (hpl : pl ≠ []) (eps f : ℝ) (h0 : 0 ≤ f) (h : f ≤ 99 / 100) (heps : eps ≤ 2) :
    (stepP pl (fin eps)).calcFractionToR (fun _ => stepInterp) (fin f) = .ok (fin 1, nan) := by
  unfold Petrosian.calcFractionToR
  rw [(stepP_r pl hpl (fin eps)).1, (stepP_r pl hpl (fin eps)).2]
  exact stepInterp_frac _ f eps h0 h heps

theorem stepP_conc (pl : List (F ℝ)) (hpl : pl ≠ []) (eps f g : ℝ) (h0 : 0 ≤ f) (h : f ≤ 99 / 100) (h0' : 0 ≤ g) (h' : g ≤ 99 / 100)
    (heps : eps ≤ 2) :
    (stepP pl (fin eps)).concentrationIndex (fun _ => stepInterp) (fin f) (fin g) = .ok (fin 1, fin 1, fin 0) := by
  unfold Petrosian.concentrationIndex calculateConcentrationIndex
  rw [(stepP_r pl hpl (fin eps)).1, (stepP_r pl hpl (fin eps)).2, Except.bind_ok, Except.bind_ok]
  have e1 := stepInterp_frac (stepP pl (fin eps)).fluxList f eps h0 h heps
  have e2 := stepInterp_frac (stepP pl (fin eps)).fluxList g eps h0' h' heps
  rw [show (stepP pl (fin eps)).rList = [fin 1, fin 2, fin 4999] from rfl, show (stepP pl (fin eps)).fluxErr = none from rfl,
    show (stepP pl (fin eps)).epsilon = fin eps from rfl, show (stepP pl (fin eps)).epsilonFraction = fin (99 / 100) from rfl,
    show (stepP pl (fin eps)).interpKind = some "cubic" from rfl, show (stepP pl (fin eps)).interpNum = 5000 from rfl, e1, e2]
  simp only [Except.bind_ok, isNaN_fin, Bool.or_self, Bool.false_eq_true, if_false]
  rw [fin_div_of_ne _ one_ne_zero]
  norm_num [F.log10, HasLog10.log10]

/-- The row of the example simulation of a Sersic profile with index 4. -/
noncomputable def stepRow : List (F ℝ) :=
  [fin 4, fin 1, fin 1, fin 1, fin 1, fin 1, fin 2, fin 2, fin 2, fin 2, fin 0, fin 0, fin 2, fin (1 / 2), fin (1 / 2), fin 1, fin 1, fin 1, fin 1,
    fin 0, fin 0, fin (1 / 20), fin (1 / 2), fin (1 / 20), fin 1, fin 1, fin 1, fin 1, fin 0, fin 0]

theorem stepSim : ∃ pl, SimProfile [fin 1, fin 2, fin 4999] [fin 1, fin 2, fin 3] [fin 1, fin 2, fin 3] (stepP pl (fin 2)) ∧
    simRow (fun _ => stepInterp) (fin 4) (fin 1) (fin 1) (fin 1) (fin 1) (fin 1) (fin 3) [fin 1, fin 2, fin 4999] [fin 1, fin 2, fin 3]
      [fin 1, fin 2, fin 3] = .ok stepRow := by
  obtain ⟨pl, pe, hp, hlen, -, -, -, h⟩ := calculatePetrosian_ok [fin (1 : ℝ), fin 2, fin 3] [fin 1, fin 2, fin 3] none none (by
    refine ⟨rfl, by simp, fun i hi => ?_, by simp, by simp⟩
    have : i = 0 ∨ i = 1 := by simp at hi; omega
    rcases this with rfl | rfl
    · norm_num [InOrder]
    · norm_num [InOrder])
  obtain rfl : pe = none := by
    rcases h with h | h
    · exact h.2.2
    · exact absurd ⟨rfl, rfl⟩ h.1
  have hne : pl ≠ [] := by rintro rfl; simp at hlen
  have hinit : SimProfile [fin 1, fin 2, fin 4999] [fin 1, fin 2, fin 3] [fin 1, fin 2, fin 3] (stepP pl (fin 2)) := by
    unfold SimProfile Petrosian.init
    simp [hp, Except.bind_ok, stepP]
  refine ⟨pl, hinit, ?_⟩
  unfold simRow
  unfold SimProfile at hinit
  have hl1 : F.lt (fin (3 : ℝ)) (fin (3 / 2)) = false := by norm_num
  have hl2 : F.lt (fin (3 * (4 / 5) : ℝ)) (fin (3 / 2)) = false := by norm_num
  have hu : uniqueIndex [fin (1 : ℝ), fin 2, fin 3] = [(fin 1, 0), (fin 2, 1), (fin 3, 2)] := by
    norm_num [uniqueIndex, uniqueInsert]
  have hd : ∀ x : ℝ, fin x / fin 2 = fin (x / 2) := fun x => fin_div_of_ne _ two_ne_zero
  have hpp : ∀ eta : ℝ, 1 / 10 ≤ eta → eta < 11 / 20 → calculatePetrosianR (fun _ => stepInterp) (stepP pl (fin 2)).rList pl none
      (fin eta) = .ok (fin 2, nan) := by
    obtain ⟨p0, ps, rfl⟩ := List.exists_cons_of_ne_nil hne
    exact fun eta => stepInterp_petro p0 ps eta
  have hcp : ∀ e, ({ stepP pl (fin 2) with epsilon := e } : Petrosian ℝ) = stepP pl e := fun _ => rfl
  have hcal : calculatePetrosian (stepP pl (fin 2)).areaList (stepP pl (fin 2)).fluxList = .ok (pl, none) := hp
  have hf : ∀ eps f : ℝ, 0 ≤ f → f ≤ 99 / 100 → eps ≤ 2 → (stepP pl (fin eps)).fractionFluxToR (fun _ => stepInterp) (fin f) = .ok (fin 1) :=
    fun eps f h1 h2 h3 => by unfold Petrosian.fractionFluxToR; rw [stepP_frac pl hne eps f h1 h2 h3]; rfl
  have ht : ∀ eps : ℝ, eps ≤ 2 → (stepP pl (fin eps)).rTotalFlux (fun _ => stepInterp) = .ok (fin 1) :=
    fun eps h3 => by
      unfold Petrosian.rTotalFlux
      rw [show (stepP pl (fin eps)).totalFluxFraction = fin (99 / 100) from rfl, stepP_frac pl hne eps _ (by norm_num) le_rfl h3]; rfl
  have h28 : ∀ eps : ℝ, eps ≤ 2 → (stepP pl (fin eps)).c2080 (fun _ => stepInterp) = .ok (fin 0) :=
    fun eps h3 => by
      unfold Petrosian.c2080
      rw [stepP_conc pl hne eps _ _ (by norm_num) (by norm_num) (by norm_num) (by norm_num) h3]; rfl
  have h59 : ∀ eps : ℝ, eps ≤ 2 → (stepP pl (fin eps)).c5090 (fun _ => stepInterp) = .ok (fin 0) :=
    fun eps h3 => by
      unfold Petrosian.c5090
      rw [stepP_conc pl hne eps _ _ (by norm_num) (by norm_num) (by norm_num) (by norm_num) h3]; rfl
  have hi1 : stepInterp [fin 1, fin 2, fin 3] [fin 1, fin 2, fin 4999] (fin 3) = .ok (fin (1 / 10)) := by
    unfold stepInterp; rw [hl1]; rfl
  have hi2 : stepInterp [fin 1, fin 2, fin 3] [fin 1, fin 2, fin 4999] (fin (3 * (4 / 5))) = .ok (fin (1 / 10)) := by
    unfold stepInterp; rw [hl2]; rfl
  have e20 : (1 / 10 / 2 : ℝ) = 1 / 20 := by norm_num
  have hg : ∀ (a b c : F ℝ), List.mapM (fun t : F ℝ × Nat => getItem [a, b, c] t.2) [(fin 1, 0), (fin 2, 1), (fin 3, 2)] = .ok [a, b, c] :=
    fun _ _ _ => rfl
  rw [hinit, Except.bind_ok, stepP_conc _ hne _ _ _ (by norm_num) (by norm_num) (by norm_num) (by norm_num) (by norm_num), Except.bind_ok]
  simp only [isNaN_fin, Bool.or_self, Bool.false_eq_true, if_false, hu, hg, Except.bind_ok, fin_mul, hi1, hi2, (stepP_r _ hne (fin 2)).1, hd, e20,
    hcp, hcal]
  rw [hpp _ (by norm_num) (by norm_num), hpp _ (by norm_num) (by norm_num), hpp _ (by norm_num) (by norm_num), hpp _ (by norm_num) (by norm_num)]
  simp only [Except.bind_ok, eqv_fin, decide_true, not_true_eq_false, if_false]
  rw [hf 2 _ (by norm_num) (by norm_num) le_rfl, hf 2 _ (by norm_num) (by norm_num) le_rfl, hf 2 _ (by norm_num) (by norm_num) le_rfl,
    hf (1 / 20) _ (by norm_num) (by norm_num) (by norm_num), hf (1 / 20) _ (by norm_num) (by norm_num) (by norm_num),
    hf (1 / 20) _ (by norm_num) (by norm_num) (by norm_num), ht 2 le_rfl, ht (1 / 20) (by norm_num), h28 2 le_rfl, h28 (1 / 20) (by norm_num),
    h59 2 le_rfl, h59 (1 / 20) (by norm_num)]
  simp only [Except.bind_ok, hd]
  norm_num [stepRow, F.log10, HasLog10.log10, stepP]

/-- A grid with that row and another one. -/
noncomputable def stepGrid : Table ℝ where
  names := gridNames
  rows := [(List.range 30).map fun i => fin ((i : ℝ) + 10), stepRow]

/-- The hypotheses of C108 are met: the simulated index 4 is found, and the corrected `r_epsilon` is 1, not the measured 4. -/
example : ∃ (c : Correction ℝ) (pl : List (F ℝ)), Correction.init stepGrid true = .ok c ∧
    c.estimateN (fun _ => stepInterp) (stepP pl (fin 2)) = .ok (fin 4) ∧ (stepP pl (fin 2)).rEpsilon (fun _ => stepInterp) = .ok (fin 4) ∧
    ∃ q, c.correct (fun _ => stepInterp) (stepP pl (fin 2)) = .ok q ∧ q.rEpsilon (fun _ => stepInterp) = .ok (fin 1) := by
  obtain ⟨pl, h1, h2⟩ := stepSim
  have cX : stepGrid.col "p02" = .ok ([6 + 10, 2].map fin) := rfl
  have cY : stepGrid.col "u_r_50" = .ok ([15 + 10, 1].map fin) := rfl
  have cZ : stepGrid.col "u_c2080" = .ok ([19 + 10, 0].map fin) := rfl
  obtain ⟨c, hc⟩ : ∃ c, Correction.init stepGrid true = .ok c := ⟨_, rfl⟩
  obtain ⟨-, h4, q, h5, h6, -⟩ := C108_own_row (fun _ => stepInterp) stepGrid true c hc rfl _ _ _ cX cY cZ (by norm_num [variance, mean])
    (by norm_num [variance, mean]) (by norm_num [variance, mean]) h2 h1 1 rfl (by
      intro k row' hk h
      match k, hk with
      | 0, hk =>
        have hk : (List.range 30).map (fun i => fin ((i : ℝ) + 10)) = row' := by simpa [stepGrid] using hk
        have := h "p02" (by simp)
        rw [← hk] at this
        have h' : fin ((6 : ℝ) + 10) = fin 2 := by
          have h7 : rowGet gridNames ((List.range 30).map fun i => fin ((i : ℝ) + 10)) "p02" = .ok (fin (((6 : Nat) : ℝ) + 10)) := rfl
          rw [h7] at this
          exact_mod_cast Except.ok.inj this
        injection h' with h'
        norm_num at h'
      | 1, hk => simpa [stepGrid] using hk.symm
      | k + 2, hk => simp [stepGrid] at hk) 2 two_ne_zero rfl 1 rfl
  refine ⟨c, pl, hc, h4, ?_, q, h5, h6⟩
  unfold Petrosian.rEpsilon
  obtain ⟨_, _, _, _, _, _, _, _, _, _, _, _, hrp, _⟩ := simRow_entries h2 h1
  have hpl : pl ≠ [] := by
    rintro rfl
    unfold Petrosian.rPetrosian Petrosian.calcPetrosianR stepP calculatePetrosianR at hrp
    simp [setItem0, bind, Except.bind, Except.map] at hrp
  rw [(stepP_r pl hpl (fin 2)).1, Except.bind_ok]
  show Except.ok (fin 2 * fin 2) = _
  rw [fin_mul]; norm_num

end examples

end Verif.Props

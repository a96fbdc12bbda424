import Verif.Props.SelfCorrection

/-!
# C117: every column of a grid row is what its name says; C118: the two 80 % columns
-/

set_option linter.unusedSectionVars false
set_option linter.unusedVariables false

namespace Verif.Props

open F Spec

section
variable {K : Type} [Field K] [LinearOrder K] [HasSqrt K] [HasLog10 K]

/-- The radius at which the curve of growth, as a piecewise linear function of the flux, reaches the flux `t`. -/
def RadiusOfFlux (ip : InterpFam K) (rList flux : List (F K)) (t r : F K) : Prop :=
  ∃ fl rl, (uniqueIndex flux).mapM (fun i => getItem flux i.2) = .ok fl ∧ (uniqueIndex flux).mapM (fun i => getItem rList i.2) = .ok rl ∧
    ip "linear" fl rl t = .ok r

/-- **C117, no NaN radii.** A simulation whose measured concentration index or whose measured 20 % or 80 % radius is NaN gives no row;
a row means that all three are numbers. -/
theorem C117_guard {ip : InterpFam K} {n rEff r20 r80 rTotal lTotal totalFlux : F K} {rList area flux : List (F K)} {p : Petrosian K}
    (hp : SimProfile rList area flux p) :
    (∀ c a b, p.concentrationIndex ip (fin (1 / 5)) (fin (4 / 5)) = .ok (c, a, b) → c = nan ∨ a = nan ∨ b = nan →
      simRow ip n rEff r20 r80 rTotal lTotal totalFlux rList area flux = .error .exception) ∧
    (∀ row, simRow ip n rEff r20 r80 rTotal lTotal totalFlux rList area flux = .ok row →
      ∃ c a b, p.concentrationIndex ip (fin (1 / 5)) (fin (4 / 5)) = .ok (c, a, b) ∧ c ≠ nan ∧ a ≠ nan ∧ b ≠ nan) := by
  have hnan : ∀ x : F K, x.isNaN = true ↔ x = nan := by
    intro x
    cases x <;> simp [F.isNaN]
  constructor
  · intro c a b hci h
    unfold simRow
    unfold SimProfile at hp
    rw [hp]
    simp only [bind, Except.bind]
    rw [hci]
    simp only
    rw [if_pos]
    rw [Bool.or_eq_true, Bool.or_eq_true, hnan, hnan, hnan]
    tauto
  · intro row h
    unfold simRow at h
    obtain ⟨p', hp', h⟩ := bind_eq_ok.1 h
    obtain rfl : p' = p := by
      unfold SimProfile at hp
      rw [hp] at hp'; exact (Except.ok.inj hp').symm
    obtain ⟨⟨c, a, b⟩, hci, h⟩ := bind_eq_ok.1 h
    split at h
    · cases h
    rename_i hn
    rw [Bool.or_eq_true, Bool.or_eq_true, hnan, hnan, hnan] at hn
    refine ⟨c, a, b, hci, ?_, ?_, ?_⟩ <;> tauto

/-- **C117.** The 30 cells of the row of a simulation, by column name: the Sersic numbers, the Petrosian radii of the measured profile
`p` at eta 0.2, 0.3, 0.4 and 0.5 and their ratios, and the radii, epsilons and concentrations of `p` and of the corrected profile `cp`. -/
theorem C117_columns {ip : InterpFam K} {n rEff r20 r80 rTotal lTotal totalFlux : F K} {rList area flux row : List (F K)}
    (h : simRow ip n rEff r20 r80 rTotal lTotal totalFlux rList area flux = .ok row) {p : Petrosian K} (hp : SimProfile rList area flux p) :
    ∃ rp m m80 p02 p03 p04 p05 : F K, p.rPetrosian ip = .ok rp ∧ RadiusOfFlux ip rList flux totalFlux m ∧
      RadiusOfFlux ip rList flux (totalFlux * fin (4 / 5)) m80 ∧ F.eqv rp p02 = true ∧
      (calculatePetrosianR ip p.rList p.petrosianList none (fin (1 / 5))).map Prod.fst = .ok p02 ∧
      (calculatePetrosianR ip p.rList p.petrosianList none (fin (3 / 10))).map Prod.fst = .ok p03 ∧
      (calculatePetrosianR ip p.rList p.petrosianList none (fin (2 / 5))).map Prod.fst = .ok p04 ∧
      (calculatePetrosianR ip p.rList p.petrosianList none (fin (1 / 2))).map Prod.fst = .ok p05 ∧
      ∃ cp : Petrosian K, cp = { p with epsilon := m / rp } ∧
      ∀ key value, (key, value) ∈
        [("n", .ok n), ("r_eff", .ok rEff), ("sersic_r_20", .ok r20), ("sersic_r_80", .ok r80), ("sersic_r_99", .ok rTotal),
         ("sersic_L_inf", .ok lTotal), ("p02", .ok p02), ("p03", .ok p03), ("p04", .ok p04), ("p05", .ok p05),
         ("p0502", .ok (fin 5 * F.log10 (p02 / p05))), ("p0302", .ok (fin 5 * F.log10 (p02 / p03))),
         ("u_epsilon", .ok (fin 2)), ("u_epsilon_50", (p.fractionFluxToR ip (fin (1 / 2))).map (· / rp)),
         ("u_epsilon_80", (p.fractionFluxToR ip (fin (4 / 5))).map (· / rp)), ("u_r_50", p.rHalfLight ip), ("u_r_99", p.rTotalFlux ip),
         ("u_r_20", p.fractionFluxToR ip (fin (1 / 5))), ("u_r_80", p.fractionFluxToR ip (fin (4 / 5))), ("u_c2080", p.c2080 ip),
         ("u_c5090", p.c5090 ip), ("c_epsilon", .ok (m / rp)), ("c_epsilon_50", (cp.fractionFluxToR ip (fin (1 / 2))).map (· / rp)),
         ("c_epsilon_80", .ok (m80 / rp)), ("c_r_50", cp.rHalfLight ip), ("c_r_99", cp.rTotalFlux ip),
         ("c_r_20", cp.fractionFluxToR ip (fin (1 / 5))), ("c_r_80", cp.fractionFluxToR ip (fin (4 / 5))), ("c_c2080", cp.c2080 ip),
         ("c_c5090", cp.c5090 ip)] →
        rowGet gridNames row key = value := by
  unfold simRow at h
  obtain ⟨p', hp', h⟩ := bind_eq_ok.1 h
  obtain rfl : p' = p := by
    unfold SimProfile at hp
    rw [hp] at hp'; exact (Except.ok.inj hp').symm
  obtain ⟨ci, _, h⟩ := bind_eq_ok.1 h
  split at h
  · cases h
  obtain ⟨fl, h1, h⟩ := bind_eq_ok.1 h
  obtain ⟨rl, h2, h⟩ := bind_eq_ok.1 h
  obtain ⟨mt, h3, h⟩ := bind_eq_ok.1 h
  obtain ⟨m8, h3', h⟩ := bind_eq_ok.1 h
  obtain ⟨rp, h4, h⟩ := bind_eq_ok.1 h
  obtain ⟨pl, h5, h⟩ := bind_eq_ok.1 h
  obtain ⟨p2, h6, h⟩ := bind_eq_ok.1 h
  obtain ⟨p3, h7, h⟩ := bind_eq_ok.1 h
  obtain ⟨p4, h8, h⟩ := bind_eq_ok.1 h
  obtain ⟨p5, h9, h⟩ := bind_eq_ok.1 h
  split at h
  · cases h
  rename_i hassert
  obtain ⟨u50, g1, h⟩ := bind_eq_ok.1 h
  obtain ⟨u20, g2, h⟩ := bind_eq_ok.1 h
  obtain ⟨u80, g3, h⟩ := bind_eq_ok.1 h
  obtain ⟨c50, g4, h⟩ := bind_eq_ok.1 h
  obtain ⟨c20, g5, h⟩ := bind_eq_ok.1 h
  obtain ⟨c80, g6, h⟩ := bind_eq_ok.1 h
  obtain ⟨u99, g7, h⟩ := bind_eq_ok.1 h
  obtain ⟨uc28, g8, h⟩ := bind_eq_ok.1 h
  obtain ⟨uc59, g9, h⟩ := bind_eq_ok.1 h
  obtain ⟨c99, g10, h⟩ := bind_eq_ok.1 h
  obtain ⟨cc28, g11, h⟩ := bind_eq_ok.1 h
  obtain ⟨cc59, g12, h⟩ := bind_eq_ok.1 h
  cases h
  have hpp : pl.1 = p'.petrosianList ∧ p'.epsilon = fin 2 := by
    unfold SimProfile Petrosian.init at hp
    split_ifs at hp
    obtain ⟨t, ht, hp⟩ := bind_eq_ok.1 hp
    cases hp
    simp only at h5
    rw [ht] at h5
    exact ⟨congrArg Prod.fst (Except.ok.inj h5).symm, rfl⟩
  obtain ⟨hpl, heps⟩ := hpp
  rw [hpl] at h6 h7 h8 h9
  refine ⟨rp, mt, m8, p2.1, p3.1, p4.1, p5.1, h4, ⟨fl, rl, h1, h2, h3⟩, ⟨fl, rl, h1, h2, h3'⟩, by simpa using hassert, by rw [h6]; rfl,
    by rw [h7]; rfl, by rw [h8]; rfl, by rw [h9]; rfl, _, rfl, ?_⟩
  intro key value hmem
  have u50' : p'.rHalfLight ip = .ok u50 := g1
  have c50' : Petrosian.rHalfLight ip { p' with epsilon := mt / rp } = .ok c50 := g4
  rw [g1, g2, g3, g4, g5, g6, g7, g8, g9, g10, g11, g12, u50', c50'] at hmem
  rw [heps]
  simp only [List.mem_cons, Prod.mk.injEq, List.not_mem_nil, or_false] at hmem
  rcases hmem with h | h | h | h | h | h | h | h | h | h | h | h | h | h | h | h | h | h | h | h | h | h | h | h | h | h | h | h | h | h <;>
    obtain ⟨rfl, rfl⟩ := h <;> rfl

end

/-- Non-vacuity: the example simulation of C108. -/
example : ∃ pl, ∃ rp m80, (stepP pl (fin 2)).rPetrosian (fun _ => stepInterp) = .ok rp ∧
    rowGet gridNames stepRow "c_epsilon_80" = .ok (m80 / rp) ∧
    rowGet gridNames stepRow "u_r_80" = (stepP pl (fin 2)).fractionFluxToR (fun _ => stepInterp) (fin (4 / 5)) := by
  obtain ⟨pl, h1, h2⟩ := stepSim
  obtain ⟨rp, m, m80, _, _, _, _, h3, _, _, _, _, _, _, _, cp, _, h4⟩ := C117_columns h2 h1
  exact ⟨pl, rp, m80, h3, h4 _ _ (by simp), h4 _ _ (by simp)⟩

/-! ### C118 -/

/-- **C118, partial.** `c_epsilon_50` and both uncorrected epsilons are the radius columns over the Petrosian radius. -/
theorem C118_partial {K : Type} [Field K] [LinearOrder K] [HasSqrt K] [HasLog10 K] {ip : InterpFam K}
    {n rEff r20 r80 rTotal lTotal totalFlux : F K} {rList area flux row : List (F K)}
    (h : simRow ip n rEff r20 r80 rTotal lTotal totalFlux rList area flux = .ok row) {p : Petrosian K} (hp : SimProfile rList area flux p)
    {rp : F K} (hr : p.rPetrosian ip = .ok rp) :
    ∀ ke kr, (ke, kr) ∈ [("u_epsilon_50", "u_r_50"), ("u_epsilon_80", "u_r_80"), ("c_epsilon_50", "c_r_50")] →
      rowGet gridNames row ke = (rowGet gridNames row kr).map (· / rp) := by
  obtain ⟨rp', m, m80, _, _, _, _, h3, _, _, _, _, _, _, _, cp, _, h4⟩ := C117_columns h hp
  obtain rfl : rp' = rp := by rw [hr] at h3; exact (Except.ok.inj h3).symm
  intro ke kr hk
  simp only [List.mem_cons, Prod.mk.injEq, List.not_mem_nil, or_false] at hk
  rcases hk with ⟨rfl, rfl⟩ | ⟨rfl, rfl⟩ | ⟨rfl, rfl⟩
  · rw [h4 "u_epsilon_50" ((p.fractionFluxToR ip (fin (1 / 2))).map (· / rp')) (by simp), h4 "u_r_50" (p.rHalfLight ip) (by simp)]; rfl
  · rw [h4 "u_epsilon_80" ((p.fractionFluxToR ip (fin (4 / 5))).map (· / rp')) (by simp),
      h4 "u_r_80" (p.fractionFluxToR ip (fin (4 / 5))) (by simp)]
  · rw [h4 "c_epsilon_50" ((cp.fractionFluxToR ip (fin (1 / 2))).map (· / rp')) (by simp), h4 "c_r_50" (cp.rHalfLight ip) (by simp)]; rfl

/-- **C118, what `c_r_80` aims at.** When the flux at the corrected `r_epsilon` is `E`, the target flux of `c_r_80` is `80/99 E`; that of
`c_epsilon_80` is 80 % of the total flux.  They differ unless `E` is 99 % of the total flux. -/
theorem C118_targets {K : Type} [Field K] [LinearOrder K] [IsStrictOrderedRing K] (E T : K) :
    E * ((4 / 5) / (99 / 100)) = T * (4 / 5) ↔ E = T * (99 / 100) := by
  constructor <;> intro h <;> linarith

set_option maxRecDepth 20000 in
set_option maxHeartbeats 4000000 in
/-- **C118, violated.** For the curve of growth flux = radius on [1, 5000] and a total flux of 3960 the corrected `r_epsilon` is 3960 and
`c_epsilon_80 * r_petrosian` is 3168, but `c_r_80` is 3200, whatever the Petrosian radius. -/
theorem C118_violated :
    RadiusOfFlux (fun _ => linearInterp) [fin 1, fin 2, fin 5000] [fin 1, fin 2, fin 5000] (fin (3960 : ℚ)) (fin 3960) ∧
    RadiusOfFlux (fun _ => linearInterp) [fin 1, fin 2, fin 5000] [fin 1, fin 2, fin 5000] (fin (3960 : ℚ) * fin (4 / 5)) (fin 3168) ∧
    ∀ rp : ℚ, rp ≠ 0 →
      fractionToR (fun _ => linearInterp) (fin (4 / 5)) [fin 1, fin 2, fin 5000] [fin 1, fin 2, fin 5000] (fin rp) none (some nan)
        (fin 3960 / fin rp) (fin (99 / 100)) = .ok (fin 3200, nan) := by
  refine ⟨⟨_, _, rfl, rfl, ?_⟩, ⟨_, _, rfl, rfl, ?_⟩, ?_⟩
  · decide +kernel
  · decide +kernel
  · intro rp hrp
    have h : fin rp * (fin 3960 / fin rp) = fin (1 : ℚ) * fin 3960 := by
      rw [fin_div_of_ne _ hrp, fin_mul, fin_mul, mul_div_cancel₀ _ hrp, one_mul]
    have key : fractionToR (fun _ => linearInterp) (fin (4 / 5)) [fin 1, fin 2, fin 5000] [fin 1, fin 2, fin 5000] (fin rp) none (some nan)
        (fin 3960 / fin rp) (fin (99 / 100)) =
      fractionToR (fun _ => linearInterp) (fin (4 / 5)) [fin 1, fin 2, fin 5000] [fin 1, fin 2, fin 5000] (fin 1) none (some nan)
        (fin 3960) (fin (99 / 100)) := by
      unfold fractionToR
      simp only [h]
    rw [key]
    decide +kernel

end Verif.Props

import Verif.Model.Plots
import Verif.Props.PetrosianProfile
import Verif.Props.PetrosianQueries
import Verif.Base.Sqrt

/-!
# Properties of `Petrosian.plot`, `plot_cog` and `imshow`
-/

set_option linter.unusedSectionVars false
set_option linter.unnecessarySeqFocus false
set_option linter.unreachableTactic false
set_option linter.unusedTactic false

namespace Verif.Props

open F Spec

variable {K : Type} [Field K] [LinearOrder K] [IsStrictOrderedRing K]

section
variable [HasSqrt K]

/-- An object made by the constructor. -/
def Constructed (p : Petrosian K) : Prop :=
  ∃ R A Y aE fE eta eps epsf tff k n, Petrosian.init R A Y aE fE eta eps epsf tff k n = .ok p

theorem constructed_facts {p : Petrosian K} (h : Constructed p) :
    p.rList.length = p.fluxList.length ∧ (∀ e, p.fluxErr = some e → e.length = p.fluxList.length) ∧
      calculatePetrosian p.areaList p.fluxList p.areaErr p.fluxErr = .ok (p.petrosianList, p.petrosianErr) := by
  obtain ⟨R, A, Y, aE, fE, eta, eps, epsf, tff, k, n, h⟩ := h
  unfold Petrosian.init at h
  split at h; · cases h
  split at h; · cases h
  split at h; · cases h
  split at h; · cases h
  rename_i h1 h2 h3 h4
  simp only [bind_eq_ok] at h
  obtain ⟨⟨pl, pe⟩, hc, h⟩ := h
  injection h with h
  subst h
  refine ⟨by simpa using h2, ?_, hc⟩
  intro e he
  simp only at he
  subst he
  simpa using h3

theorem mem_zipWith' {α β γ : Type} {f : α → β → γ} {a : List α} {b : List β} {v : γ} (h : v ∈ List.zipWith f a b) :
    ∃ x y, v = f x y := by
  rw [List.mem_iff_getElem] at h
  obtain ⟨i, hi, rfl⟩ := h
  exact ⟨_, _, List.getElem_zipWith⟩

theorem abs_mul_sqrt_nonneg (hs : ∀ x : K, 0 ≤ x → 0 ≤ HasSqrt.sqrt x) (a b : F K) : F.lt (F.abs a * F.sqrt b) (fin 0) = false := by
  have key : ∀ x y : F K, F.lt x (fin 0) = false → F.lt y (fin 0) = false → F.lt (x * y) (fin 0) = false := by
    intro x y hx hy
    have hs : ∀ c : K, 0 ≤ c → F.lt (sgnInf c) (fin 0) = false := by
      intro c hc
      unfold sgnInf
      split
      · rfl
      · split
        · rename_i h; exact absurd h (not_lt.2 hc)
        · rfl
    cases x <;> cases y <;> first | rfl | (simp [F.lt] at hx; done) | (simp [F.lt] at hy; done) | skip
    · simp only [F.lt, decide_eq_false_iff_not, not_lt] at hy
      exact hs _ hy
    · simp only [F.lt, decide_eq_false_iff_not, not_lt] at hx
      exact hs _ hx
    · rename_i a b
      simp only [F.lt, decide_eq_false_iff_not, not_lt] at hx hy
      show F.lt (fin (a * b)) (fin 0) = false
      simpa [F.lt] using mul_nonneg hx hy
  apply key
  · cases a with
    | fin x =>
      simp only [F.abs, F.lt, decide_eq_false_iff_not, not_lt]
      split
      · assumption
      · rename_i h; linarith [not_le.1 h]
    | _ => simp [F.abs, F.lt]
  · cases b with
    | fin x =>
      simp only [F.sqrt]
      split
      · simp
      · rename_i h
        simpa [F.lt] using hs x (not_lt.1 h)
    | _ => simp [F.sqrt, F.lt]

/-- Profile errors are never negative. -/
theorem petrosianErr_nonneg (hs : ∀ x : K, 0 ≤ x → 0 ≤ HasSqrt.sqrt x) {area flux : List (F K)} {aE fE : Option (List (F K))}
    {pl pe : List (F K)} (h : calculatePetrosian area flux aE fE = .ok (pl, some pe)) : ∀ v ∈ pe, F.lt v (fin 0) = false := by
  obtain ⟨p', e', hr', -, raw, -, -, hh⟩ := calculatePetrosian_ok _ _ aE fE (accepted_of_ok h)
  rw [h] at hr'
  injection hr' with hr'
  injection hr' with h1 h2
  subst h1 h2
  rcases hh with ⟨_, _, h3⟩ | ⟨_, e', h2, _, h4⟩
  · cases h3
  · injection h2 with h2
    subst h2
    intro v hv
    rw [List.mem_iff_getElem] at hv
    obtain ⟨i, hi, rfl⟩ := hv
    obtain ⟨_, h5⟩ := mapM_getElem h4 i (by rw [← mapM_length h4]; exact hi)
    have hm : pe[i] ∈ petrosianErrRaw area flux pl (aE.getD (area.map fun _ => fin 0)) (fE.getD (flux.map fun _ => fin 0)) := by
      split at h5
      · rename_i v hv
        injection h5 with h5
        rw [← h5]
        exact List.mem_of_getElem? hv
      · cases h5
    unfold petrosianErrRaw at hm
    rw [List.mem_cons] at hm
    rcases hm with hm | hm
    · rw [hm]; simp
    · obtain ⟨x, y, e⟩ := mem_zipWith' hm
      rw [e]
      split
      · exact abs_mul_sqrt_nonneg hs _ _
      · simp [F.lt]

/-! ### C81 -/

variable (ip : InterpFam K)

theorem petro_lengths {p : Petrosian K} (h : Constructed p) : p.petrosianList.length = p.rList.length ∧
    ∀ e, p.petrosianErr = some e → e.length = p.rList.length := by
  obtain ⟨h1, -, hc⟩ := constructed_facts h
  have hl := (accepted_of_ok hc).1
  have h2 := (profile_length _ _ _ _ _ _ hc).1
  refine ⟨by rw [h2, hl, h1], fun e he => ?_⟩
  have h3 := ((C06_errors_shape p.areaList p.fluxList p.areaErr p.fluxErr).1 _ _ hc).2 e he
  rw [h3.1, hl, h1]

theorem plot_pieces (hs : ∀ x : K, 0 ≤ x → 0 ≤ HasSqrt.sqrt x) {p : Petrosian K} (hp : Constructed p) (alpha : Option K) :
    errorbars p.rList p.petrosianList p.petrosianErr = .ok (.errorbars p.rList p.petrosianList p.petrosianErr) ∧
    ∃ b, errorBand alpha p.petrosianErr.isSome p.rList p.petrosianList p.petrosianErr = .ok b ∧
      ∀ it, it ∈ b ↔ ∃ a pe, alpha = some a ∧ 0 < a ∧ p.petrosianErr = some pe ∧
        it = .band p.rList (List.zipWith (· - ·) p.petrosianList pe) (List.zipWith (· + ·) p.petrosianList pe) := by
  obtain ⟨h1, h2, hc⟩ := constructed_facts hp
  obtain ⟨l1, l2⟩ := petro_lengths hp
  have hb : errorbars p.rList p.petrosianList p.petrosianErr = .ok (.errorbars p.rList p.petrosianList p.petrosianErr) := by
    unfold errorbars
    rw [if_neg (by simp [l1]), if_neg]
    cases hpe : p.petrosianErr with
    | none => simp
    | some pe =>
      simp only [Option.any_some, Bool.or_eq_true, not_or, Bool.not_eq_true, decide_eq_false_iff_not, not_not]
      refine ⟨by rw [l2 pe hpe, l1], ?_⟩
      rw [List.any_eq_false]
      intro v hv
      rw [hpe] at hc
      rw [petrosianErr_nonneg hs hc v hv]
      simp
  have hband : ∃ b, errorBand alpha p.petrosianErr.isSome p.rList p.petrosianList p.petrosianErr = .ok b ∧
      ∀ it, it ∈ b ↔ ∃ a pe, alpha = some a ∧ 0 < a ∧ p.petrosianErr = some pe ∧
        it = .band p.rList (List.zipWith (· - ·) p.petrosianList pe) (List.zipWith (· + ·) p.petrosianList pe) := by
    unfold errorBand
    cases hpe : p.petrosianErr with
    | none => exact ⟨[], by simp, by simp⟩
    | some pe =>
      have hl : p.petrosianList.length = pe.length := by rw [l2 pe hpe, l1]
      cases alpha with
      | none => exact ⟨[], by simp, by simp⟩
      | some a =>
        by_cases ha : 0 < a
        · refine ⟨_, by simp [ha, zipOp, hl, bind, Except.bind]; rfl, by simp [ha]⟩
        · exact ⟨[], by simp [ha], by simp [ha]⟩
  exact ⟨hb, hband⟩

/-- **C81, profile plot.** For a constructed object whose Petrosian radius is found with an error that is not negative, `plot` raises
nothing and draws the profile with its errors, the error band (if there are errors and the transparency is positive), the line at `eta`,
the line and marker at the Petrosian radius unless it is NaN, and the zero line. -/
theorem C81_plot (hs : ∀ x : K, 0 ≤ x → 0 ≤ HasSqrt.sqrt x) {p : Petrosian K} (hp : Constructed p) {r e : F K}
    (h : p.calcPetrosianR ip = .ok (r, e)) (he : F.lt e (fin 0) = false) (plotR : Bool) (alpha : Option K) :
    ∃ items, p.plot ip plotR alpha = .ok items ∧
      (∀ x y z, PlotItem.errorbars x y z ∈ items ↔ x = p.rList ∧ y = p.petrosianList ∧ z = p.petrosianErr) ∧
      (∀ x lo hi, PlotItem.band x lo hi ∈ items ↔ ∃ a pe, alpha = some a ∧ 0 < a ∧ p.petrosianErr = some pe ∧ x = p.rList ∧
        lo = List.zipWith (· - ·) p.petrosianList pe ∧ hi = List.zipWith (· + ·) p.petrosianList pe) ∧
      (∀ y, PlotItem.hline y ∈ items ↔ y = fin 0 ∨ plotR = true ∧ y = p.eta) ∧
      (∀ x, PlotItem.vline x ∈ items ↔ plotR = true ∧ r ≠ nan ∧ x = r) ∧
      (∀ x y, PlotItem.point x y ∈ items ↔ plotR = true ∧ r ≠ nan ∧ e = nan ∧ x = r ∧ y = p.eta) ∧
      (∀ x y z, PlotItem.pointErr x y z ∈ items ↔ plotR = true ∧ r ≠ nan ∧ e ≠ nan ∧ x = r ∧ y = p.eta ∧ z = e) := by
  obtain ⟨hb, b, hb1, hb2⟩ := plot_pieces hs hp alpha
  have hr : p.rPetrosian ip = .ok r := by unfold Petrosian.rPetrosian; rw [h]; rfl
  have hre : p.rPetrosianErr ip = .ok e := by unfold Petrosian.rPetrosianErr; rw [h]; rfl
  have hn : ∀ x : F K, x.isNaN = true ↔ x = nan := by intro x; cases x <;> simp [F.isNaN]
  unfold Petrosian.plot
  simp only [hb, hb1, hr, hre, bind, Except.bind]
  cases plotR with
  | false =>
    refine ⟨_, rfl, ?_, ?_, ?_, ?_, ?_, ?_⟩ <;> simp [hb2] <;> aesop
  | true =>
    by_cases hrn : r.isNaN = true
    · simp only [hrn, if_true]
      have := (hn r).1 hrn
      refine ⟨_, rfl, ?_, ?_, ?_, ?_, ?_, ?_⟩ <;> simp [hb2, this] <;> aesop
    · simp only [hrn, if_true, Bool.false_eq_true, if_false]
      have hrn' : r ≠ nan := fun h => hrn ((hn r).2 h)
      by_cases hen : e.isNaN = true
      · have := (hn e).1 hen
        simp only [hen, if_true]
        refine ⟨_, rfl, ?_, ?_, ?_, ?_, ?_, ?_⟩ <;> simp [hb2, this, hrn'] <;> aesop
      · have hen' : e ≠ nan := fun h => hen ((hn e).2 h)
        simp only [hen, he, Bool.false_eq_true, if_false]
        refine ⟨_, rfl, ?_, ?_, ?_, ?_, ?_, ?_⟩ <;> simp [hb2, hrn', hen'] <;> aesop

/-- **C81, negative radius error.** If the error of the Petrosian radius is negative, `plot` raises ValueError. -/
theorem C81_plot_negative (hs : ∀ x : K, 0 ≤ x → 0 ≤ HasSqrt.sqrt x) {p : Petrosian K} (hp : Constructed p) {r e : F K}
    (h : p.calcPetrosianR ip = .ok (r, e)) (hr : r ≠ nan) (he : F.lt e (fin 0) = true) (alpha : Option K) :
    p.plot ip true alpha = .error .valueError := by
  obtain ⟨hb, b, hb1, -⟩ := plot_pieces hs hp alpha
  have hr' : p.rPetrosian ip = .ok r := by unfold Petrosian.rPetrosian; rw [h]; rfl
  have hre : p.rPetrosianErr ip = .ok e := by unfold Petrosian.rPetrosianErr; rw [h]; rfl
  have h1 : r.isNaN = false := by cases r <;> simp_all [F.isNaN]
  have h2 : e.isNaN = false := by cases e <;> simp_all [F.isNaN, F.lt]
  unfold Petrosian.plot
  simp only [hb, hb1, hr', hre, bind, Except.bind, h1, h2, he, if_true, Bool.false_eq_true, if_false]

/-- **C81, curve of growth.** For a constructed object whose flux errors, if any, are not negative and which was not given area errors
alone, `plot_cog` raises nothing if the radii and fluxes it marks can be computed, and draws the curve of growth with its errors and the
half-light and total-flux markers at the radii and fluxes the object reports, unless they are NaN. -/
theorem C81_cog_partial {p : Petrosian K} (hp : Constructed p) (hfe : ∀ fe, p.fluxErr = some fe → ∀ v ∈ fe, F.lt v (fin 0) = false)
    (hae : p.fluxErr = none → p.areaErr = none) {rh fh rt ft : F K} (h1 : p.rHalfLight ip = .ok rh) (h2 : p.halfFlux ip = .ok fh)
    (h3 : p.rTotalFlux ip = .ok rt) (h4 : p.totalFlux ip = .ok ft) (alpha : Option K) :
    ∃ items, p.plotCog ip true alpha = .ok items ∧
      (∀ x y z, PlotItem.errorbars x y z ∈ items ↔ x = p.rList ∧ y = p.fluxList ∧ z = p.fluxErr) ∧
      (∀ x lo hi, PlotItem.band x lo hi ∈ items ↔ ∃ a fe, alpha = some a ∧ 0 < a ∧ p.fluxErr = some fe ∧ x = p.rList ∧
        lo = List.zipWith (· - ·) p.fluxList fe ∧ hi = List.zipWith (· + ·) p.fluxList fe) ∧
      (∀ x y, PlotItem.point x y ∈ items ↔ (rh ≠ nan ∧ fh ≠ nan ∧ x = rh ∧ y = fh) ∨ (rt ≠ nan ∧ ft ≠ nan ∧ x = rt ∧ y = ft)) := by
  obtain ⟨l0, l2, hc⟩ := constructed_facts hp
  have hpe : p.petrosianErr = none ↔ p.areaErr = none ∧ p.fluxErr = none :=
    ((C06_errors_shape p.areaList p.fluxList p.areaErr p.fluxErr).1 _ _ hc).1
  have hb : errorbars p.rList p.fluxList p.fluxErr = .ok (.errorbars p.rList p.fluxList p.fluxErr) := by
    unfold errorbars
    rw [if_neg (by simp [l0]), if_neg]
    cases hf : p.fluxErr with
    | none => simp
    | some fe =>
      simp only [Option.any_some, Bool.or_eq_true, not_or, Bool.not_eq_true, decide_eq_false_iff_not, not_not]
      refine ⟨l2 fe hf, ?_⟩
      rw [List.any_eq_false]
      intro v hv
      rw [hfe fe hf v hv]
      simp
  have hband : ∃ b, errorBand alpha p.petrosianErr.isSome p.rList p.fluxList p.fluxErr = .ok b ∧
      ∀ it, it ∈ b ↔ ∃ a fe, alpha = some a ∧ 0 < a ∧ p.fluxErr = some fe ∧
        it = .band p.rList (List.zipWith (· - ·) p.fluxList fe) (List.zipWith (· + ·) p.fluxList fe) := by
    unfold errorBand
    cases hf : p.fluxErr with
    | none =>
      have : p.petrosianErr = none := hpe.2 ⟨hae hf, hf⟩
      exact ⟨[], by simp [this], by simp⟩
    | some fe =>
      have hl : p.fluxList.length = fe.length := (l2 fe hf).symm
      have hsome : p.petrosianErr.isSome = true := by
        cases h : p.petrosianErr with
        | none => have := (hpe.1 h).2; rw [hf] at this; cases this
        | some _ => rfl
      cases alpha with
      | none => exact ⟨[], by simp, by simp⟩
      | some a =>
        by_cases ha : 0 < a
        · refine ⟨_, by simp [ha, hsome, zipOp, hl, bind, Except.bind]; rfl, by simp [ha]⟩
        · exact ⟨[], by simp [ha], by simp [ha]⟩
  obtain ⟨b, hb1, hb2⟩ := hband
  have hn : ∀ x : F K, x.isNaN = false ↔ x ≠ nan := by intro x; cases x <;> simp [F.isNaN]
  unfold Petrosian.plotCog
  simp only [hb, hb1, h1, h2, h3, h4, bind, Except.bind, if_true]
  refine ⟨_, rfl, ?_, ?_, ?_⟩
  · intro x y z
    split <;> split <;> simp [hb2]
  · intro x lo hi
    split <;> split <;> simp [hb2] <;> aesop
  · intro x y
    simp only [Bool.and_eq_true, Bool.not_eq_true', hn]
    split <;> split <;> simp [hb2] <;> aesop

/-- **C81, curve of growth violated.** An object that was given area errors but no flux errors cannot be plotted with the default
transparency, or any positive one: `flux_list - None` is a TypeError. -/
theorem C81_cog_violated {p : Petrosian K} (hp : Constructed p) {ae : List (F K)} (ha : p.areaErr = some ae) (hf : p.fluxErr = none)
    (plotR : Bool) {alpha : K} (h0 : 0 < alpha) : p.plotCog ip plotR (some alpha) = .error .typeError := by
  obtain ⟨l0, l2, hc⟩ := constructed_facts hp
  have hpe : p.petrosianErr = none ↔ p.areaErr = none ∧ p.fluxErr = none :=
    ((C06_errors_shape p.areaList p.fluxList p.areaErr p.fluxErr).1 _ _ hc).1
  have hsome : p.petrosianErr.isSome = true := by
    cases h : p.petrosianErr with
    | none => have := (hpe.1 h).1; rw [ha] at this; cases this
    | some _ => rfl
  unfold Petrosian.plotCog errorbars errorBand
  simp [l0, hf, hsome, h0, bind, Except.bind]

/-- **C81, apertures.** With a positive elongation `imshow` raises nothing if the four radii can be computed and are not infinite, and
draws exactly the ellipses of the positive ones, with semi-axes `r` and `r / elong`. -/
theorem C81_imshow {p : Petrosian K} {rh rt r20 r80 : F K} (h1 : p.rHalfLight ip = .ok rh) (h2 : p.rTotalFlux ip = .ok rt)
    (h3 : p.fractionFluxToR ip (fin (1 / 5)) = .ok r20) (h4 : p.fractionFluxToR ip (fin (4 / 5)) = .ok r80)
    (hi : pinf ∉ [rh, rt, r20, r80]) (cx cy theta : K) {elong : K} (he : 0 < elong) :
    ∃ l, p.imshow ip cx cy elong theta = .ok l ∧
      ∀ s ap, (s, ap) ∈ l ↔ ∃ r, 0 < r ∧ ap = ⟨cx, cy, r, r / elong, theta⟩ ∧
        (s, fin r) ∈ [("r_half_light", rh), ("r_total_flux", rt), ("r_20", r20), ("r_80", r80)] := by
  have key : ∀ (s : String) (x : F K), x ≠ pinf → ∃ l, (match x with
      | fin r => if 0 < r then (do
          let ap ← radialEllipticalAperture cx cy r elong theta
          .ok [(s, ap)])
        else .ok []
      | pinf => .error .exception
      | _ => .ok [] : Except PyErr (List (String × Ellipse K))) = .ok l ∧
      ∀ s' ap, (s', ap) ∈ l ↔ ∃ r, 0 < r ∧ ap = ⟨cx, cy, r, r / elong, theta⟩ ∧ (s', fin r) = (s, x) := by
    intro s x hx
    cases x with
    | nan => exact ⟨[], rfl, by simp⟩
    | ninf => exact ⟨[], rfl, by simp⟩
    | pinf => exact absurd rfl hx
    | fin r =>
      by_cases hr : 0 < r
      · refine ⟨[(s, ⟨cx, cy, r, r / elong, theta⟩)], ?_, ?_⟩
        · have : ¬ (r ≤ 0 ∨ r / elong ≤ 0) := by
            rw [not_or, not_le, not_le]; exact ⟨hr, div_pos hr he⟩
          simp [hr, radialEllipticalAperture, he.ne', ellipticalAperture, this, bind, Except.bind]
        · intro s' ap
          simp only [List.mem_singleton, Prod.mk.injEq, fin.injEq]
          constructor
          · rintro ⟨rfl, rfl⟩; exact ⟨r, hr, rfl, rfl, rfl⟩
          · rintro ⟨r', -, rfl, rfl, rfl⟩; exact ⟨rfl, rfl⟩
      · refine ⟨[], by simp [hr], ?_⟩
        intro s' ap
        constructor
        · intro h; cases h
        · rintro ⟨r', h', -, h''⟩
          simp only [Prod.mk.injEq, fin.injEq] at h''
          exact absurd (h''.2 ▸ h') hr
  simp only [List.mem_cons, List.not_mem_nil, or_false, not_or] at hi
  obtain ⟨i1, i2, i3, i4⟩ := hi
  obtain ⟨l1, e1, m1⟩ := key "r_half_light" rh (Ne.symm i1)
  obtain ⟨l2, e2, m2⟩ := key "r_total_flux" rt (Ne.symm i2)
  obtain ⟨l3, e3, m3⟩ := key "r_20" r20 (Ne.symm i3)
  obtain ⟨l4, e4, m4⟩ := key "r_80" r80 (Ne.symm i4)
  refine ⟨[l1, l2, l3, l4].flatten, ?_, ?_⟩
  · unfold Petrosian.imshow
    simp only [h1, h2, h3, h4, Except.bind_ok]
    have hm : ∀ f : String × F K → Except PyErr (List (String × Ellipse K)), f ("r_half_light", rh) = .ok l1 →
        f ("r_total_flux", rt) = .ok l2 → f ("r_20", r20) = .ok l3 → f ("r_80", r80) = .ok l4 →
        [("r_half_light", rh), ("r_total_flux", rt), ("r_20", r20), ("r_80", r80)].mapM f = .ok [l1, l2, l3, l4] := by
      intro f a b c d
      simp [List.mapM_cons, a, b, c, d, bind, Except.bind, pure, Except.pure]
    rw [hm _ e1 e2 e3 e4]
    rfl
  · intro s ap
    simp only [List.flatten_cons, List.flatten_nil, List.append_nil, List.mem_append, m1, m2, m3, m4, List.mem_cons, List.not_mem_nil,
      or_false]
    constructor
    · rintro (⟨r, a, b, c⟩ | ⟨r, a, b, c⟩ | ⟨r, a, b, c⟩ | ⟨r, a, b, c⟩)
      · exact ⟨r, a, b, Or.inl c⟩
      · exact ⟨r, a, b, Or.inr (Or.inl c)⟩
      · exact ⟨r, a, b, Or.inr (Or.inr (Or.inl c))⟩
      · exact ⟨r, a, b, Or.inr (Or.inr (Or.inr c))⟩
    · rintro ⟨r, a, b, c | c | c | c⟩
      · exact Or.inl ⟨r, a, b, c⟩
      · exact Or.inr (Or.inl ⟨r, a, b, c⟩)
      · exact Or.inr (Or.inr (Or.inl ⟨r, a, b, c⟩))
      · exact Or.inr (Or.inr (Or.inr ⟨r, a, b, c⟩))

end

/-- An object with area errors only, whose profile is not monotonic. -/
def bumpy : Except PyErr (Petrosian ℚ) :=
  Petrosian.init ([1, 2, 3, 4].map fin) ([1 / 2, 1, 4, 104].map fin) ([17 / 20, 1, 4, 41 / 10].map fin)
    (some ([0, 0, 51 / 25, 0].map fin)) none (fin (1 / 5)) (fin 2) (fin 1) (fin 1) none

/-- **C81, profile plot violated.** A constructed object that cannot be plotted: its radius error is negative. -/
theorem C81_plot_violated (ip : InterpFam ℚ) : ∃ p, bumpy = .ok p ∧ Constructed p ∧
    p.areaErr ≠ none ∧ p.fluxErr = none ∧ p.rPetrosian ip = .ok (fin 2) ∧
    p.rPetrosianErr ip = .ok (fin (-(1 / 2))) ∧ p.plot ip = .error .valueError := by
  have hcp : calculatePetrosian ([1 / 2, 1, 4, 104].map fin : List (F ℚ)) ([17 / 20, 1, 4, 41 / 10].map fin)
      (some ([0, 0, 51 / 25, 0].map fin)) none =
      .ok ([nan, fin (3 / 10), fin 1, fin (26 / 1025)], some [nan, fin 0, fin (17 / 20), fin (663 / 1281250)]) := by decide +kernel
  have hb : ∃ p, bumpy = .ok p ∧ p.rList = [1, 2, 3, 4].map fin ∧ p.petrosianList = [nan, fin (3 / 10), fin 1, fin (26 / 1025)] ∧
      p.petrosianErr = some [nan, fin 0, fin (17 / 20), fin (663 / 1281250)] ∧ p.eta = fin (1 / 5) ∧ p.interpKind = none ∧
      p.interpNum = 5000 ∧ p.areaErr ≠ none ∧ p.fluxErr = none := by
    unfold bumpy Petrosian.init
    rw [hcp]
    exact ⟨_, rfl, rfl, rfl, rfl, rfl, rfl, rfl, by simp, rfl⟩
  obtain ⟨p, h1, h2, h3, h4, h5, h6, h7, h8, h9⟩ := hb
  have hcon : Constructed p := ⟨_, _, _, _, _, _, _, _, _, _, _, h1⟩
  have hc : p.calcPetrosianR ip = .ok (fin 2, fin (-(1 / 2))) := by
    unfold Petrosian.calcPetrosianR
    rw [h2, h3, h4, h5, h6, h7, petrosianR_none_congr ip fun _ => linearInterp]
    decide +kernel
  refine ⟨p, h1, hcon, h8, h9, by unfold Petrosian.rPetrosian; rw [hc]; rfl, by unfold Petrosian.rPetrosianErr; rw [hc]; rfl, ?_⟩
  apply C81_plot_negative ip (fun x hx => ?_) hcon hc (by simp) (by decide +kernel)
  show 0 ≤ if Rat.sqrt x * Rat.sqrt x = x then Rat.sqrt x else 0
  split
  · exact Rat.sqrt_nonneg x
  · exact le_rfl

/-- The same object cannot be drawn by `plot_cog`. -/
example (ip : InterpFam ℚ) : ∃ p, bumpy = .ok p ∧ p.plotCog ip = .error .typeError := by
  obtain ⟨p, h1, hc, h2, h3, -⟩ := C81_plot_violated ip
  obtain ⟨ae, hae⟩ := Option.ne_none_iff_exists'.1 h2
  exact ⟨p, h1, C81_cog_violated ip hc hae h3 true (by norm_num)⟩

/-- A falling profile with flux errors is plotted. -/
example (ip : InterpFam ℚ) : ∃ p : Petrosian ℚ, Petrosian.init ([1, 2, 3, 4].map fin) ([1, 4, 9, 16].map fin) ([8, 20, 24, 25].map fin)
    none none (fin (1 / 5)) (fin 2) (fin 1) (fin 1) none = .ok p ∧ ∃ items, p.plot ip = .ok items ∧ PlotItem.vline (fin 3) ∈ items := by
  have hcp : calculatePetrosian ([1, 4, 9, 16].map fin : List (F ℚ)) ([8, 20, 24, 25].map fin) none none =
      .ok ([nan, fin (4 / 5), fin (3 / 10), fin (16 / 175)], none) := by decide +kernel
  have hb : ∃ p : Petrosian ℚ, Petrosian.init ([1, 2, 3, 4].map fin) ([1, 4, 9, 16].map fin) ([8, 20, 24, 25].map fin)
      none none (fin (1 / 5)) (fin 2) (fin 1) (fin 1) none = .ok p ∧ p.rList = [1, 2, 3, 4].map fin ∧
      p.petrosianList = [nan, fin (4 / 5), fin (3 / 10), fin (16 / 175)] ∧ p.petrosianErr = none ∧ p.eta = fin (1 / 5) ∧
      p.interpKind = none ∧ p.interpNum = 5000 := by
    unfold Petrosian.init
    rw [hcp]
    exact ⟨_, rfl, rfl, rfl, rfl, rfl, rfl, rfl⟩
  obtain ⟨p, h1, h2, h3, h4, h5, h6, h7⟩ := hb
  have hc : p.calcPetrosianR ip = .ok (fin 3, nan) := by
    unfold Petrosian.calcPetrosianR
    rw [h2, h3, h4, h5, h6, h7, petrosianR_none_congr ip fun _ => linearInterp]
    decide +kernel
  have hs : ∀ x : ℚ, 0 ≤ x → 0 ≤ HasSqrt.sqrt x := by
    intro x _
    show 0 ≤ if Rat.sqrt x * Rat.sqrt x = x then Rat.sqrt x else 0
    split
    · exact Rat.sqrt_nonneg x
    · exact le_rfl
  obtain ⟨items, hi, -, -, -, hv, -⟩ := C81_plot ip hs ⟨_, _, _, _, _, _, _, _, _, _, _, h1⟩ hc (by simp) true (some (1 / 5))
  exact ⟨p, h1, items, hi, (hv _).2 ⟨rfl, by simp, rfl⟩⟩

end Verif.Props

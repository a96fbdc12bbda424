import Verif.Props.FitPSFWindow
import Verif.Lemmas.CuspSum
import Verif.Model.Compound

/-!
# C169: fits of several galaxies at once
-/

set_option linter.unusedSectionVars false
set_option linter.unusedVariables false

namespace Verif.Spec

open Verif

/-- The light of several galaxies and the sky. -/
noncomputable def galaxiesAt {k : Nat} (s : Fin k → SersicP) (sky : ℝ) (x y : ℝ) : ℝ := (∑ i, (s i).at_ x y) + sky

/-- The parameters of the galaxies one after the other, and the sky at the end if it is fitted. -/
noncomputable def galaxiesParams {k : Nat} (s : Fin k → SersicP) (hasSky : Bool) (sky : ℝ) : List ℝ :=
  ((List.ofFn s).map SersicP.params).flatten ++ if hasSky then [sky] else []

/-- Bounds for several galaxies: they keep each of them inside the scene, with an index above 1/2. -/
structure GalaxyRange (W H : Nat) {k : Nat} (lo hi : Fin k → SersicP) : Prop where
  scene : ∀ i, SersicP.SceneBounds W H (lo i) (hi i)
  inside : ∀ i, 0 < (lo i).x0 ∧ 0 < (lo i).y0
  index : ∀ i, 1 / 2 < (lo i).n

/-- Bounds that also keep the galaxies apart from each other, in the position or in the index. -/
structure GalaxyBounds (W H : Nat) {k : Nat} (lo hi : Fin k → SersicP) : Prop extends GalaxyRange W H lo hi where
  apart : ∀ i j, i ≠ j → (hi i).x0 < (lo j).x0 ∨ (hi j).x0 < (lo i).x0 ∨ (hi i).y0 < (lo j).y0 ∨ (hi j).y0 < (lo i).y0 ∨
    (hi i).n < (lo j).n ∨ (hi j).n < (lo i).n

end Verif.Spec

namespace Verif.Props

open Verif F Spec Lemmas Filter Topology MeasureTheory PSFModel

/-! ### The sum of the profiles determines them -/

/-- Along a line that passes beside its centre, a Sersic profile is smooth. -/
theorem sersic_line_analytic {s : SersicP} (hr : 0 < s.rEff) (he1 : s.ellip < 1) {x y : ℝ} (hxy : ¬ (x = s.x0 ∧ y = s.y0)) (u v : ℝ) :
    AnalyticAt ℝ (fun t : ℝ => s.at_ (x + t * u) (y + t * v)) 0 := by
  unfold SersicP.at_
  simp only [sersic2D_scaled]
  have hpos : 0 < scaledSq s.rEff (1 - s.ellip) s.theta (x + 0 * u - s.x0) (y + 0 * v - s.y0) := by
    refine scaledSq_pos hr (by linarith) _ ?_
    by_contra hn
    rw [not_or, not_not, not_not, zero_mul, zero_mul, add_zero, add_zero, sub_eq_zero, sub_eq_zero] at hn
    exact hxy hn
  have hq : AnalyticAt ℝ (fun t : ℝ => scaledSq s.rEff (1 - s.ellip) s.theta (x + t * u - s.x0) (y + t * v - s.y0)) 0 := by
    unfold scaledSq
    simp only [div_eq_mul_inv]
    fun_prop
  have hp : AnalyticAt ℝ (fun t : ℝ => s.amplitude * Real.exp (-bn s.n * (Real.exp (Real.log (scaledSq s.rEff (1 - s.ellip) s.theta (x + t * u - s.x0) (y + t * v - s.y0)) *
      (1 / 2 * (1 / s.n))) - 1))) 0 :=
    analyticAt_const.mul ((analyticAt_const.mul (((hq.log hpos).mul analyticAt_const).rexp'.sub analyticAt_const)).rexp')
  refine hp.congr ?_
  filter_upwards [hq.continuousAt.eventually (lt_mem_nhds hpos)] with t ht
  rw [Real.sqrt_eq_rpow, ← Real.rpow_mul (le_of_lt ht), Real.rpow_def_of_pos ht]

/-- Along a line through its centre, it has a cusp. -/
theorem sersic_line_cusp (s : SersicP) (u v t : ℝ) :
    s.at_ (s.x0 + t * u) (s.y0 + t * v) =
      s.amplitude * Real.exp (bn s.n) * Real.exp (-(bn s.n * Real.sqrt (scaledSq s.rEff (1 - s.ellip) s.theta u v) ^ (1 / s.n) * |t| ^ (1 / s.n))) := by
  unfold SersicP.at_
  rw [sersic2D_scaled, mul_assoc, ← Real.exp_add]
  congr 2
  have h1 : scaledSq s.rEff (1 - s.ellip) s.theta (s.x0 + t * u - s.x0) (s.y0 + t * v - s.y0) = t ^ 2 * scaledSq s.rEff (1 - s.ellip) s.theta u v := by
    unfold scaledSq
    rw [add_sub_cancel_left, add_sub_cancel_left]
    ring
  rw [h1, Real.sqrt_mul (sq_nonneg t), Real.sqrt_sq_eq_abs, Real.mul_rpow (abs_nonneg _) (Real.sqrt_nonneg _)]
  ring

section
variable {k : Nat} {p q : Fin k → SersicP} {a b : ℝ → ℝ → ℝ}

/-- The sums of several profiles, plus something smooth, agree near the centre of one of them: then this profile is in both sums. Other profiles may have the same
centre if they have another index. -/
theorem cusp_matched (hp : ∀ i, 0 < (p i).rEff ∧ (p i).ellip < 1 ∧ 1 / 2 < (p i).n)
    (hq : ∀ i, 0 < (q i).rEff ∧ (q i).ellip < 1 ∧ 1 / 2 < (q i).n) {i : Fin k} (hA : (q i).amplitude ≠ 0)
    (hpi : ∀ j, j ≠ i → ¬ ((q i).x0 = (p j).x0 ∧ (q i).y0 = (p j).y0 ∧ (q i).n = (p j).n))
    (hqi : ∀ j, j ≠ i → ¬ ((q i).x0 = (q j).x0 ∧ (q i).y0 = (q j).y0 ∧ (q i).n = (q j).n))
    (ha : ∀ u v : ℝ, AnalyticAt ℝ (fun t : ℝ => a ((q i).x0 + t * u) ((q i).y0 + t * v)) 0)
    (hb : ∀ u v : ℝ, AnalyticAt ℝ (fun t : ℝ => b ((q i).x0 + t * u) ((q i).y0 + t * v)) 0)
    (he : ∀ᶠ z : ℝ × ℝ in 𝓝 ((q i).x0, (q i).y0), (∑ j, (p j).at_ z.1 z.2) + a z.1 z.2 = (∑ j, (q j).at_ z.1 z.2) + b z.1 z.2) :
    ((q i).x0 = (p i).x0 ∧ (q i).y0 = (p i).y0 ∧ (q i).n = (p i).n) ∧ (p i).at_ = (q i).at_ := by
  classical
  have hw : ∀ n : ℝ, 1 / 2 < n → 1 / n < 2 := fun n hn => by
    rw [div_lt_iff₀ (by linarith)]
    linarith
  obtain ⟨s, hsd⟩ : ∃ s : Fin k ⊕ Fin k → SersicP, s = Sum.elim p q := ⟨_, rfl⟩
  obtain ⟨g, hgd⟩ : ∃ g : Fin k ⊕ Fin k → ℝ, g = Sum.elim (fun _ => 1) (fun _ => -1) := ⟨_, rfl⟩
  have hs : ∀ x, 0 < (s x).rEff ∧ (s x).ellip < 1 ∧ 1 / 2 < (s x).n := by
    rintro (j | j)
    · rw [hsd]
      exact hp j
    · rw [hsd]
      exact hq j
  have hother : ∀ x, x ≠ .inl i → x ≠ .inr i → ¬ ((q i).x0 = (s x).x0 ∧ (q i).y0 = (s x).y0 ∧ (q i).n = (s x).n) := by
    rintro (j | j) h1 h2
    · rw [hsd]
      exact hpi j fun h => h1 (by rw [h])
    · rw [hsd]
      exact hqi j fun h => h2 (by rw [h])
  have hA1 : (q i).amplitude * Real.exp (bn (q i).n) ≠ 0 := mul_ne_zero hA (Real.exp_pos _).ne'
  set S : Finset (Fin k ⊕ Fin k) := Finset.univ.filter fun x => (q i).x0 = (s x).x0 ∧ (q i).y0 = (s x).y0 with hS
  have key : ∀ u v : ℝ, (u ≠ 0 ∨ v ≠ 0) → ((q i).x0 = (p i).x0 ∧ (q i).y0 = (p i).y0) ∧
      (p i).amplitude * Real.exp (bn (p i).n) = (q i).amplitude * Real.exp (bn (q i).n) ∧
      bn (p i).n * Real.sqrt (scaledSq (p i).rEff (1 - (p i).ellip) (p i).theta u v) ^ (1 / (p i).n) =
        bn (q i).n * Real.sqrt (scaledSq (q i).rEff (1 - (q i).ellip) (q i).theta u v) ^ (1 / (q i).n) ∧ 1 / (p i).n = 1 / (q i).n := by
    intro u v huv
    have line : ∀ᶠ t : ℝ in 𝓝 0, (∑ j, (p j).at_ ((q i).x0 + t * u) ((q i).y0 + t * v)) + a ((q i).x0 + t * u) ((q i).y0 + t * v) =
        (∑ j, (q j).at_ ((q i).x0 + t * u) ((q i).y0 + t * v)) + b ((q i).x0 + t * u) ((q i).y0 + t * v) := by
      have h1 : Continuous fun t : ℝ => ((q i).x0 + t * u, (q i).y0 + t * v) := by fun_prop
      have h2 := h1.tendsto 0
      simp only [zero_mul, add_zero] at h2
      exact h2.eventually he
    have rest : AnalyticAt ℝ (fun t : ℝ => b ((q i).x0 + t * u) ((q i).y0 + t * v) - a ((q i).x0 + t * u) ((q i).y0 + t * v) -
        ∑ x ∈ Finset.univ.filter (fun x => ¬ ((q i).x0 = (s x).x0 ∧ (q i).y0 = (s x).y0)), g x * (s x).at_ ((q i).x0 + t * u) ((q i).y0 + t * v)) 0 := by
      refine ((hb u v).sub (ha u v)).sub (Finset.analyticAt_fun_sum _ fun x hx => analyticAt_const.mul ?_)
      exact sersic_line_analytic (hs x).1 (hs x).2.1 (Finset.mem_filter.1 hx).2 u v
    have hcan := cusps_cancel (S := S) (A := fun x => g x * ((s x).amplitude * Real.exp (bn (s x).n)))
      (c := fun x => bn (s x).n * Real.sqrt (scaledSq (s x).rEff (1 - (s x).ellip) (s x).theta u v) ^ (1 / (s x).n)) (p := fun x => 1 / (s x).n)
      (fun x _ => by
        obtain ⟨h1, h2, h3⟩ := hs x
        have h4 : 0 < (s x).n := by linarith
        exact ⟨mul_pos (bn_pos h4) (Real.rpow_pos_of_pos (Real.sqrt_pos.2 (scaledSq_pos h1 (by linarith) _ huv)) _), one_div_pos.2 h4, hw _ h3⟩) rest (by
        filter_upwards [line] with t ht
        have h1 : ∑ x, g x * (s x).at_ ((q i).x0 + t * u) ((q i).y0 + t * v) =
            (∑ j, (p j).at_ ((q i).x0 + t * u) ((q i).y0 + t * v)) - ∑ j, (q j).at_ ((q i).x0 + t * u) ((q i).y0 + t * v) := by
          rw [Fintype.sum_sum_type, hsd, hgd]
          simp only [Sum.elim_inl, Sum.elim_inr, one_mul, neg_mul, Finset.sum_neg_distrib]
          ring
        rw [← Finset.sum_filter_add_sum_filter_not Finset.univ fun x => (q i).x0 = (s x).x0 ∧ (q i).y0 = (s x).y0] at h1
        have h2 : ∑ x ∈ S, g x * ((s x).amplitude * Real.exp (bn (s x).n)) *
            Real.exp (-(bn (s x).n * Real.sqrt (scaledSq (s x).rEff (1 - (s x).ellip) (s x).theta u v) ^ (1 / (s x).n) * |t| ^ (1 / (s x).n))) =
            ∑ x ∈ S, g x * (s x).at_ ((q i).x0 + t * u) ((q i).y0 + t * v) := by
          refine Finset.sum_congr rfl fun x hx => ?_
          obtain ⟨c1, c2⟩ := (Finset.mem_filter.1 hx).2
          rw [c1, c2, sersic_line_cusp, mul_assoc]
        rw [h2]
        linarith) (bn (q i).n * Real.sqrt (scaledSq (q i).rEff (1 - (q i).ellip) (q i).theta u v) ^ (1 / (q i).n)) (1 / (q i).n)
    have hinr : Sum.inr i ∈ S := Finset.mem_filter.2 ⟨Finset.mem_univ _, by rw [hsd]; exact ⟨rfl, rfl⟩⟩
    have hzero : ∀ x ∈ S, x ≠ .inl i → x ≠ .inr i → ¬ (bn (s x).n * Real.sqrt (scaledSq (s x).rEff (1 - (s x).ellip) (s x).theta u v) ^ (1 / (s x).n) =
        bn (q i).n * Real.sqrt (scaledSq (q i).rEff (1 - (q i).ellip) (q i).theta u v) ^ (1 / (q i).n) ∧ 1 / (s x).n = 1 / (q i).n) := by
      rintro x hx h1 h2 ⟨-, h3⟩
      obtain ⟨c1, c2⟩ := (Finset.mem_filter.1 hx).2
      rw [one_div, one_div, inv_inj] at h3
      exact hother x h1 h2 ⟨c1, c2, h3.symm⟩
    have hright : (if bn (s (.inr i)).n * Real.sqrt (scaledSq (s (.inr i)).rEff (1 - (s (.inr i)).ellip) (s (.inr i)).theta u v) ^ (1 / (s (.inr i)).n) =
        bn (q i).n * Real.sqrt (scaledSq (q i).rEff (1 - (q i).ellip) (q i).theta u v) ^ (1 / (q i).n) ∧ 1 / (s (.inr i)).n = 1 / (q i).n then
        g (.inr i) * ((s (.inr i)).amplitude * Real.exp (bn (s (.inr i)).n)) else 0) = -((q i).amplitude * Real.exp (bn (q i).n)) := by
      rw [hsd, hgd]
      simp only [Sum.elim_inr, and_self, if_true, neg_mul, one_mul]
    by_cases hin : Sum.inl i ∈ S ∧ bn (p i).n * Real.sqrt (scaledSq (p i).rEff (1 - (p i).ellip) (p i).theta u v) ^ (1 / (p i).n) =
        bn (q i).n * Real.sqrt (scaledSq (q i).rEff (1 - (q i).ellip) (q i).theta u v) ^ (1 / (q i).n) ∧ 1 / (p i).n = 1 / (q i).n
    · obtain ⟨hmem, hc, hn⟩ := hin
      have hcen := (Finset.mem_filter.1 hmem).2
      rw [hsd] at hcen
      refine ⟨hcen, ?_, hc, hn⟩
      rw [Finset.sum_eq_add (Sum.inl i) (Sum.inr i) (by simp) (fun x hx hne => if_neg (hzero x hx hne.1 hne.2)) (fun h => absurd hmem h) (fun h => absurd hinr h),
        hright] at hcan
      have hleft : (if bn (s (.inl i)).n * Real.sqrt (scaledSq (s (.inl i)).rEff (1 - (s (.inl i)).ellip) (s (.inl i)).theta u v) ^ (1 / (s (.inl i)).n) =
          bn (q i).n * Real.sqrt (scaledSq (q i).rEff (1 - (q i).ellip) (q i).theta u v) ^ (1 / (q i).n) ∧ 1 / (s (.inl i)).n = 1 / (q i).n then
          g (.inl i) * ((s (.inl i)).amplitude * Real.exp (bn (s (.inl i)).n)) else 0) = (p i).amplitude * Real.exp (bn (p i).n) := by
        rw [if_pos (by rw [hsd]; exact ⟨hc, hn⟩), hsd, hgd]
        simp only [Sum.elim_inl, one_mul]
      rw [hleft] at hcan
      linarith
    · exfalso
      rw [Finset.sum_eq_single (Sum.inr i) (fun x hx hne => ?_) (fun h => absurd hinr h), hright] at hcan
      · exact hA1 (neg_eq_zero.1 hcan)
      · by_cases hxl : x = Sum.inl i
        · subst hxl
          refine if_neg fun h => hin ⟨hx, ?_⟩
          rw [hsd] at h
          exact h
        · exact if_neg (hzero x hx hxl hne)
  obtain ⟨hcen, -, -, hn⟩ := key 1 0 (Or.inl one_ne_zero)
  rw [one_div, one_div, inv_inj] at hn
  refine ⟨⟨hcen.1, hcen.2, hn.symm⟩, ?_⟩
  funext x y
  by_cases hxy : x - (q i).x0 ≠ 0 ∨ y - (q i).y0 ≠ 0
  · obtain ⟨-, k1, k2, k3⟩ := key _ _ hxy
    have e1 := sersic_line_cusp (p i) (x - (q i).x0) (y - (q i).y0) 1
    have e2 := sersic_line_cusp (q i) (x - (q i).x0) (y - (q i).y0) 1
    rw [← hcen.1, ← hcen.2, k1, k2, k3, ← e2] at e1
    simpa using e1
  · rw [not_or, not_not, not_not, sub_eq_zero, sub_eq_zero] at hxy
    obtain ⟨-, k1, k2, k3⟩ := key 1 0 (Or.inl one_ne_zero)
    have e1 := sersic_line_cusp (p i) 1 0 0
    have e2 := sersic_line_cusp (q i) 1 0 0
    rw [← hcen.1, ← hcen.2, k1, k2, k3, ← e2] at e1
    rw [hxy.1, hxy.2]
    simpa using e1

end

section
variable {W H k : Nat} {lo hi tr : Fin k → SersicP}

theorem between_apart (hb : GalaxyBounds W H lo hi) {i j : Fin k} (hij : i ≠ j) {p q : SersicP} (hp : SersicP.Between (lo i) (hi i) p)
    (hq : SersicP.Between (lo j) (hi j) q) : ¬ (p.x0 = q.x0 ∧ p.y0 = q.y0 ∧ p.n = q.n) := by
  rintro ⟨h1, h2, h3⟩
  obtain ⟨-, -, ⟨a5, a6⟩, ⟨a1, a2⟩, ⟨a3, a4⟩, -⟩ := hp
  obtain ⟨-, -, ⟨b5, b6⟩, ⟨b1, b2⟩, ⟨b3, b4⟩, -⟩ := hq
  rcases hb.apart i j hij with h | h | h | h | h | h <;> linarith

/-- **C169, identification.** Galaxies inside such bounds, and the sky, that give the same scene have the same parameters. -/
theorem C169_identified (hb : GalaxyBounds W H lo hi) (htr : ∀ i, SersicP.Between (lo i) (hi i) (tr i)) (hA : ∀ i, 0 < (tr i).amplitude) {ε : ℝ} (hε : 0 < ε)
    {q : Fin k → SersicP} (hq : ∀ i, SersicP.Between (lo i) (hi i) (q i)) {sky sky' : ℝ} (hW : 0 < W) (hH : 0 < H)
    (he : ∀ u v : ℝ, 0 ≤ u ∧ u < W → 0 ≤ v ∧ v < H → galaxiesAt q sky' u v = galaxiesAt tr sky u v) :
    (∀ i, SersicP.RecoversAll ε (tr i) (q i)) ∧ sky' = sky := by
  have hall : ∀ i, (q i).at_ = (tr i).at_ := by
    intro i
    refine (cusp_matched (a := fun _ _ => sky') (b := fun _ _ => sky) (fun j => ?_) (fun j => ?_) (hA i).ne' (fun j hj => ?_) (fun j hj => ?_) (fun u v => analyticAt_const)
      (fun u v => analyticAt_const) ?_).2
    · have h1 := between_pos (hb.scene j) _ (hq j)
      obtain ⟨⟨c1, -⟩, -, ⟨c2, -⟩, -⟩ := hq j
      exact ⟨h1.1, h1.2.2.2.1, (hb.index j).trans_le c2⟩
    · have h1 := between_pos (hb.scene j) _ (htr j)
      obtain ⟨-, -, ⟨c2, -⟩, -⟩ := htr j
      exact ⟨h1.1, h1.2.2.2.1, (hb.index j).trans_le c2⟩
    · exact between_apart hb (Ne.symm hj) (htr i) (hq j)
    · exact between_apart hb (Ne.symm hj) (htr i) (htr j)
    · obtain ⟨-, -, -, -, ⟨-, h5⟩, ⟨-, h6⟩⟩ := between_pos (hb.scene i) _ (htr i)
      obtain ⟨h1, h2⟩ := hb.inside i
      obtain ⟨-, -, -, ⟨h3, -⟩, ⟨h4, -⟩, -⟩ := htr i
      have o1 : ∀ᶠ z : ℝ × ℝ in 𝓝 ((tr i).x0, (tr i).y0), z.1 ∈ Set.Ioo (0 : ℝ) W :=
        (continuous_fst.tendsto _).eventually (isOpen_Ioo.mem_nhds ⟨by linarith, h5⟩)
      have o2 : ∀ᶠ z : ℝ × ℝ in 𝓝 ((tr i).x0, (tr i).y0), z.2 ∈ Set.Ioo (0 : ℝ) H :=
        (continuous_snd.tendsto _).eventually (isOpen_Ioo.mem_nhds ⟨by linarith, h6⟩)
      filter_upwards [o1, o2] with z z1 z2
      exact he z.1 z.2 ⟨z1.1.le, z1.2⟩ ⟨z2.1.le, z2.2⟩
  refine ⟨fun i => ?_, ?_⟩
  · by_contra hnot
    obtain ⟨u, v, -, -, h1⟩ := sersic_identified (hb.scene i) (htr i) (hA i) hε _ (hq i) hnot
    exact h1 (by rw [hall i])
  · have h1 := he 0 0 ⟨le_rfl, Nat.cast_pos.2 hW⟩ ⟨le_rfl, Nat.cast_pos.2 hH⟩
    unfold galaxiesAt at h1
    simp only [hall] at h1
    linarith

/-! ### The sum of the models -/

theorem compound_galaxies : ∀ (l : List SersicP) (rest : List (SubModel ℝ)) (ps : List ℝ) (x y : ℝ),
    compoundEval (List.replicate l.length sersicSub ++ rest) ((l.map SersicP.params).flatten ++ ps) x y = (l.map fun s => s.at_ x y).sum + compoundEval rest ps x y
  | [], rest, ps, x, y => by simp
  | s :: l, rest, ps, x, y => by
    have ih := compound_galaxies l rest ps x y
    simp only [List.length_cons, List.replicate_succ, List.cons_append, List.map_cons, List.flatten_cons, List.append_assoc, List.sum_cons, compoundEval]
    have h1 : (s.params ++ ((l.map SersicP.params).flatten ++ ps)).take sersicSub.paramNames.length = s.params := rfl
    have h2 : (s.params ++ ((l.map SersicP.params).flatten ++ ps)).drop sersicSub.paramNames.length = (l.map SersicP.params).flatten ++ ps := rfl
    rw [h1, h2, ih, sersicSub_params, add_assoc]

/-- **C169, the sum of the models** with its parameters one after the other is the light of all the galaxies. -/
theorem C169_sum (s : Fin k → SersicP) (hasSky : Bool) (sky : ℝ) :
    (galaxiesSub k hasSky).eval (galaxiesParams s hasSky sky) = galaxiesAt s (if hasSky then sky else 0) := by
  funext x y
  have h1 := compound_galaxies (List.ofFn s) (if hasSky then [constSub] else []) (if hasSky then [sky] else []) x y
  rw [List.length_ofFn] at h1
  have h2 : ((List.ofFn s).map fun s => s.at_ x y).sum = ∑ i, (s i).at_ x y := by
    rw [List.map_ofFn, List.sum_ofFn]
    rfl
  unfold galaxiesAt
  rw [← h2]
  refine h1.trans ?_
  cases hasSky <;> simp [compoundEval, constSub]

/-- On a finer grid. -/
theorem galaxies_zoomed {N : Nat} (hN : 0 < N) (s : Fin k → SersicP) (sky : ℝ) : galaxiesAt (fun i => (s i).zoomIn N) sky = zoomed N (galaxiesAt s sky) := by
  funext x y
  unfold galaxiesAt zoomed
  simp only [zoomIn_at hN]
  rfl

end

/-! ### Consistency -/

section
variable {W H k : Nat} {lo hi tr : Fin k → SersicP} {slo shi sky : ℝ} {hasSky : Bool} {use mask : ℕ → Nat → Nat → Bool} {Ω : ℕ → Type}
  [∀ N, MeasurableSpace (Ω N)] {μ : ∀ N, Measure (Ω N)} [∀ N, IsProbabilityMeasure (μ N)] {X : ∀ N, Nat → Nat → Ω N → ℝ} {v : ℝ} {m : ℕ → Nat → Nat → ℝ}
  {ok : ℕ → (Fin k → SersicP) × ℝ × ℝ → Prop} {fitter : ℕ → (Fin k → SersicP) × ℝ × ℝ → FitData ℝ → Except PyErr ((Fin k → SersicP) × ℝ × ℝ)}
  {R R' : Nat} {M M' : ℕ → PSFModel ℝ} {rot rot' : Img ℝ → ℝ → Img ℝ} {pas pas' : Set ℝ} {τ : ℕ → ℝ}

/-- The parameters inside the bounds, as vectors. -/
def galaxyBox {k : Nat} (lo hi : Fin k → SersicP) (slo shi : ℝ) : Set ((Fin k → ℝ × ℝ × ℝ × ℝ × ℝ × ℝ × ℝ) × ℝ) :=
  (Set.univ.pi fun i => {x | SersicP.Between (lo i) (hi i) (sersicAt x)}) ×ˢ Set.Icc slo shi

theorem mem_galaxyBox {x : (Fin k → ℝ × ℝ × ℝ × ℝ × ℝ × ℝ × ℝ) × ℝ} :
    x ∈ galaxyBox lo hi slo shi ↔ (∀ i, SersicP.Between (lo i) (hi i) (sersicAt (x.1 i))) ∧ slo ≤ x.2 ∧ x.2 ≤ shi := by
  simp [galaxyBox, Set.mem_prod]

theorem galaxyBox_compact (lo hi : Fin k → SersicP) (slo shi : ℝ) : IsCompact (galaxyBox lo hi slo shi) :=
  (isCompact_univ_pi fun i => between_compact (lo i) (hi i)).prod isCompact_Icc

theorem galaxies_scene (hb : GalaxyRange W H lo hi) :
    ContinuousOn (fun z : ((Fin k → ℝ × ℝ × ℝ × ℝ × ℝ × ℝ × ℝ) × ℝ) × ℝ × ℝ => galaxiesAt (fun i => sersicAt (z.1.1 i)) z.1.2 z.2.1 z.2.2)
      (galaxyBox lo hi slo shi ×ˢ Set.univ) := by
  unfold galaxiesAt
  refine ContinuousOn.add (continuousOn_finsetSum _ fun i _ => ?_) (by fun_prop)
  refine (sersic_scene (hb.scene i)).comp (f := fun z : ((Fin k → ℝ × ℝ × ℝ × ℝ × ℝ × ℝ × ℝ) × ℝ) × ℝ × ℝ => (z.1.1 i, z.2)) (by fun_prop) fun z hz => ?_
  exact ⟨(mem_galaxyBox.1 hz.1).1 i, Set.mem_univ _⟩

theorem galaxies_open (tr : Fin k → SersicP) (sky ε : ℝ) :
    IsOpen {x : (Fin k → ℝ × ℝ × ℝ × ℝ × ℝ × ℝ × ℝ) × ℝ | (∀ i, SersicP.RecoversAll ε (tr i) (sersicAt (x.1 i))) ∧ |x.2 - sky| < ε} := by
  have h1 : {x : (Fin k → ℝ × ℝ × ℝ × ℝ × ℝ × ℝ × ℝ) × ℝ | (∀ i, SersicP.RecoversAll ε (tr i) (sersicAt (x.1 i))) ∧ |x.2 - sky| < ε} =
      (⋂ i, (fun x : (Fin k → ℝ × ℝ × ℝ × ℝ × ℝ × ℝ × ℝ) × ℝ => x.1 i) ⁻¹' {x | SersicP.RecoversAll ε (tr i) (sersicAt x)}) ∩
        {x : (Fin k → ℝ × ℝ × ℝ × ℝ × ℝ × ℝ × ℝ) × ℝ | |x.2 - sky| < ε} := by
    ext x
    simp
  rw [h1]
  refine (isOpen_iInter_of_finite fun i => (recoversAll_open (tr i) ε).preimage (by fun_prop)).inter ?_
  exact isOpen_lt (by fun_prop) continuous_const

/-- Images of galaxies through a PSF are close to the galaxies in the mean square. -/
theorem galaxies_data (hb : GalaxyRange W H lo hi) (htr : ∀ i, SersicP.Between (lo i) (hi i) (tr i)) (hnosky : hasSky = false → sky = 0)
    (hsub' : ∀ N, (M' N).sub = galaxiesSub k hasSky) (hset' : ∀ N, PSFSetting R' (M' N) rot' pas') {pa' : ℕ → ℝ} (hpa' : ∀ N, pa' N ∈ pas')
    {idx : ℕ → List (Nat × Nat)} (hidx : ∀ N i j, (i, j) ∈ idx N ↔ i < H * N ∧ j < W * N)
    (hm : ∀ N, 0 < N → ((M' N).evaluate rot' (pixelCoords (idx N)) (galaxiesParams (fun i => (tr i).zoomIn N) hasSky sky) (pa' N)).1 =
      .ok ((idx N).map fun p => m N p.1 p.2)) :
    ∀ σ > 0, ∀ᶠ N : ℕ in atTop, fitDist (H * N) (W * N) (use N) (mask N) none (m N) (pixelsOf (zoomed N (galaxiesAt tr sky))) ≤ σ * (N : ℝ) ^ 2 := by
  have hsurj : ∀ i, ∃ θ, sersicAt θ = tr i := fun i => ⟨_, sersicAt_surj (tr i)⟩
  choose θ hθ using hsurj
  have hmem : (θ, sky) ∈ galaxyBox lo hi sky sky := by
    rw [mem_galaxyBox]
    exact ⟨fun i => by rw [hθ]; exact htr i, le_rfl, le_rfl⟩
  intro σ hσ
  have hs : (if hasSky then sky else 0) = sky := by
    cases h : hasSky
    · simp [hnosky h]
    · simp
  have hfun : (fun i => sersicAt (θ i)) = tr := funext hθ
  have hev : ∀ N, 0 < N → (M' N).sub.eval (galaxiesParams (fun i => (tr i).zoomIn N) hasSky sky) = zoomed N (galaxiesAt (fun i => sersicAt (θ i)) sky) := by
    intro N hN
    rw [hsub', C169_sum, hs, galaxies_zoomed hN, hfun]
  have := C167_data (θ := (θ, sky)) (use := use) (mask := mask) (g := fun x : (Fin k → ℝ × ℝ × ℝ × ℝ × ℝ × ℝ × ℝ) × ℝ => galaxiesAt (fun i => sersicAt (x.1 i)) x.2)
    (galaxyBox_compact lo hi sky sky) (galaxies_scene hb) hmem hset' hpa' hev hidx hm hσ
  have e : galaxiesAt tr sky = galaxiesAt (fun i => sersicAt (θ i)) sky := by rw [hfun]
  rw [e]
  exact this

/-- Sums of Sersic models whose values are close to those of the sum of the profiles, fitted to data that is close to one: the fit has a property that all parameters near
those with the same light have. -/
theorem blurred_recovered {good : (Fin k → SersicP) → ℝ → Prop} {wt : ℕ → Option (Img (F ℝ))} {wa wb : ℝ} {ev : ℕ → (Fin k → SersicP) × ℝ × ℝ → List (ℝ × ℝ) → Except PyErr (List ℝ)}
    (hb : GalaxyRange W H lo hi)
    (hopen : IsOpen {x : (Fin k → ℝ × ℝ × ℝ × ℝ × ℝ × ℝ × ℝ) × ℝ | good (fun i => sersicAt (x.1 i)) x.2})
    (hgood : ∀ (q : Fin k → SersicP) (sky' : ℝ), (∀ i, SersicP.Between (lo i) (hi i) (q i)) →
      (∀ u v : ℝ, 0 ≤ u ∧ u < W → 0 ≤ v ∧ v < H → galaxiesAt q sky' u v = galaxiesAt tr sky u v) → good q sky') (hempty : ∀ N q vals, ev N q [] ≠ .ok vals)
    (hok : ∀ N q, 0 < N → ok N q → (∀ i, SersicP.Between (lo i) (hi i) ((q.1 i).zoomOut N)) ∧ (slo ≤ q.2.1 ∧ q.2.1 ≤ shi))
    (hblur : ∀ᶠ N : ℕ in atTop, ∀ q, ok N q → ∀ idx : List (Nat × Nat), idx ≠ [] → (∀ p, p ∈ idx ↔ p.1 < H * N ∧ p.2 < W * N ∧ use N p.1 p.2 = true) →
      PixelBlur R (ev N q) (galaxiesAt q.1 q.2.1) idx (H * N) (W * N))
    {pa₀ : ℕ → ℝ} (ht : ∀ N, 0 < N → ok N (fun i => (tr i).zoomIn N, sky, pa₀ N))
    (law : ∀ N, NearValuesFitter (ev N) (ok N) (τ N) (fitter N)) (hτ : Tendsto (fun N : ℕ => τ N / (N : ℝ) ^ 2) atTop (𝓝 0))
    (hm : ∀ σ > 0, ∀ᶠ N : ℕ in atTop, fitDist (H * N) (W * N) (use N) (mask N) none (m N) (pixelsOf (zoomed N (galaxiesAt tr sky))) ≤ σ * (N : ℝ) ^ 2)
    (hX : ∀ N, CorrelatedNoise (μ N) (H * N) (W * N) (X N) (m N) v) (hv : 0 ≤ v)
    (hwa : 0 < wa) (hwb : 0 ≤ wb) (hwt : ∀ N, WeightsUpTo (H * N) (W * N) (use N) (mask N) (wt N) wb)
    (hun : Tendsto (fun N : ℕ => (unfitted (H * N) (W * N) (heavy (use N) (wt N) wa) (mask N) : ℝ) / (N : ℝ) ^ 2) atTop (𝓝 0)) :
    Tendsto (fun N : ℕ => μ N {ω | ∃ m₀ fit, fitModel (fitter N) (nanImage (H * N) (W * N) (use N) fun i j => X N i j ω) (mask N) m₀ (wt N) = .ok fit ∧
      ¬ good (fun i => (fit.1 i).zoomOut N) fit.2.1}) atTop (𝓝 0) := by
  obtain ⟨h1, hsky⟩ := hok 1 _ one_pos (ht 1 one_pos)
  have htr : ∀ i, SersicP.Between (lo i) (hi i) (tr i) := fun i => by
    have := h1 i
    rwa [zoomOut_zoomIn one_pos] at this
  choose θ hθ using fun i => (⟨_, sersicAt_surj (tr i)⟩ : ∃ θ, sersicAt θ = tr i)
  obtain ⟨dec, hdec⟩ : ∃ dec : ℕ → (Fin k → SersicP) × ℝ × ℝ → (Fin k → ℝ × ℝ × ℝ × ℝ × ℝ × ℝ × ℝ) × ℝ,
      ∀ N q, (∀ i, sersicAt ((dec N q).1 i) = (q.1 i).zoomOut N) ∧ (dec N q).2 = q.2.1 :=
    ⟨fun N q => (fun i => _, q.2.1), fun N q => ⟨fun i => sersicAt_surj ((q.1 i).zoomOut N), rfl⟩⟩
  have hmem : (θ, sky) ∈ galaxyBox lo hi slo shi := by
    rw [mem_galaxyBox]
    exact ⟨fun i => by rw [hθ]; exact htr i, hsky⟩
  have hfin := blurred_family (R := R) (ev := ev)
    (g := fun x : (Fin k → ℝ × ℝ × ℝ × ℝ × ℝ × ℝ × ℝ) × ℝ => galaxiesAt (fun i => sersicAt (x.1 i)) x.2) (dec := dec)
    (truth := fun N => (fun i => (tr i).zoomIn N, sky, pa₀ N))
    (U := {x : (Fin k → ℝ × ℝ × ℝ × ℝ × ℝ × ℝ × ℝ) × ℝ | good (fun i => sersicAt (x.1 i)) x.2})
    (galaxyBox_compact lo hi slo shi) (galaxies_scene hb) hmem hopen
    (by
      intro x hx hnot
      simp only [hθ]
      by_contra hno
      push Not at hno
      rw [mem_galaxyBox] at hx
      exact hnot (hgood _ _ hx.1 fun u v hu hv => hno u v hu hv))
    hempty
    (by
      intro N q hN hq
      obtain ⟨h2, h3⟩ := hok N q hN hq
      rw [mem_galaxyBox, (hdec N q).2]
      exact ⟨fun i => by rw [(hdec N q).1]; exact h2 i, h3⟩)
    (by
      filter_upwards [hblur, eventually_gt_atTop 0] with N h1 hN q hq idx hne hidx
      have e : zoomed N (galaxiesAt (fun i => sersicAt ((dec N q).1 i)) (dec N q).2) = galaxiesAt q.1 q.2.1 := by
        simp only [(hdec N q).1, (hdec N q).2]
        rw [← galaxies_zoomed hN]
        simp only [zoomIn_zoomOut hN]
      rw [e]
      exact h1 q hq idx hne hidx)
    (fun N hN => ⟨ht N hN, Prod.ext (funext fun i => sersicAt_injective _ _ (by rw [(hdec N _).1, hθ]; exact zoomOut_zoomIn hN _)) (hdec N _).2⟩) law hτ hX hv
    (by
      simp only [hθ]
      exact hm) hwa hwb hwt hun
  simpa only [Set.mem_ofPred_eq, (hdec _ _).1, (hdec _ _).2] using hfin

/-- Sums of Sersic models whose values are close to those of the sum of the profiles, fitted to data that is close to one. -/
theorem blurred_galaxies {wt : ℕ → Option (Img (F ℝ))} {wa wb : ℝ} {ev : ℕ → (Fin k → SersicP) × ℝ × ℝ → List (ℝ × ℝ) → Except PyErr (List ℝ)}
    (hb : GalaxyBounds W H lo hi) (hW : 0 < W) (hH : 0 < H) (hempty : ∀ N q vals, ev N q [] ≠ .ok vals)
    (hok : ∀ N q, 0 < N → ok N q → (∀ i, SersicP.Between (lo i) (hi i) ((q.1 i).zoomOut N)) ∧ (slo ≤ q.2.1 ∧ q.2.1 ≤ shi))
    (hblur : ∀ᶠ N : ℕ in atTop, ∀ q, ok N q → ∀ idx : List (Nat × Nat), idx ≠ [] → (∀ p, p ∈ idx ↔ p.1 < H * N ∧ p.2 < W * N ∧ use N p.1 p.2 = true) →
      PixelBlur R (ev N q) (galaxiesAt q.1 q.2.1) idx (H * N) (W * N))
    {pa₀ : ℕ → ℝ} (ht : ∀ N, 0 < N → ok N (fun i => (tr i).zoomIn N, sky, pa₀ N)) (hA : ∀ i, 0 < (tr i).amplitude)
    (law : ∀ N, NearValuesFitter (ev N) (ok N) (τ N) (fitter N)) (hτ : Tendsto (fun N : ℕ => τ N / (N : ℝ) ^ 2) atTop (𝓝 0))
    (hm : ∀ σ > 0, ∀ᶠ N : ℕ in atTop, fitDist (H * N) (W * N) (use N) (mask N) none (m N) (pixelsOf (zoomed N (galaxiesAt tr sky))) ≤ σ * (N : ℝ) ^ 2)
    (hX : ∀ N, CorrelatedNoise (μ N) (H * N) (W * N) (X N) (m N) v) (hv : 0 ≤ v)
    (hwa : 0 < wa) (hwb : 0 ≤ wb) (hwt : ∀ N, WeightsUpTo (H * N) (W * N) (use N) (mask N) (wt N) wb)
    (hun : Tendsto (fun N : ℕ => (unfitted (H * N) (W * N) (heavy (use N) (wt N) wa) (mask N) : ℝ) / (N : ℝ) ^ 2) atTop (𝓝 0)) {ε : ℝ} (hε : 0 < ε) :
    Tendsto (fun N : ℕ => μ N {ω | ∃ m₀ fit, fitModel (fitter N) (nanImage (H * N) (W * N) (use N) fun i j => X N i j ω) (mask N) m₀ (wt N) = .ok fit ∧
      ¬ ((∀ i, SersicP.RecoversAll ε (tr i) ((fit.1 i).zoomOut N)) ∧ |fit.2.1 - sky| < ε)}) atTop (𝓝 0) := by
  obtain ⟨h1, -⟩ := hok 1 _ one_pos (ht 1 one_pos)
  have htr : ∀ i, SersicP.Between (lo i) (hi i) (tr i) := fun i => by
    have := h1 i
    rwa [zoomOut_zoomIn one_pos] at this
  exact blurred_recovered (good := fun q sky' => (∀ i, SersicP.RecoversAll ε (tr i) (q i)) ∧ |sky' - sky| < ε) hb.toGalaxyRange (galaxies_open tr sky ε)
    (fun q sky' hq he => by
      obtain ⟨h2, h3⟩ := C169_identified hb htr hA hε hq hW hH he
      exact ⟨h2, by rw [h3, sub_self, abs_zero]; exact hε⟩) hempty hok hblur ht law hτ hm hX hv hwa hwb hwt hun

theorem sky_value (hnosky : hasSky = false → slo = 0 ∧ shi = 0) {s : ℝ} (h2 : slo ≤ s) (h3 : s ≤ shi) : (if hasSky then s else 0) = s := by
  cases h : hasSky
  · obtain ⟨h4, h5⟩ := hnosky h
    simp only [Bool.false_eq_true, if_false]
    linarith
  · simp

/-- **C169, several galaxies.** All parameters of a sum of Sersic models and, if it is part of the sum, of the sky, inside a `PSFConvolvedModel2D`, and
the angle of its PSF, are fitted at once to images of that many galaxies with more and more pixels. The bounds keep the galaxies inside the scene and apart from
each other, in the position or in the index (so a bulge and a disk may share the centre), and their indices above 1/2. The mean of the data is the sum of the galaxies through the telescope's PSF, with its own sampling;
the model's PSF and oversampling may be other ones, as long as both PSFs have a bounded size. The fitter may stop before the best fit, and weights may be given, as in
C167. Then the parameters of every galaxy (sizes and positions in units of the scene), and the sky, converge to the true ones in probability. -/
theorem C169_galaxies {wt : ℕ → Option (Img (F ℝ))} {wa wb : ℝ} (hb : GalaxyBounds W H lo hi) (hW : 0 < W) (hH : 0 < H)
    (hnosky : hasSky = false → slo = 0 ∧ shi = 0)
    (hsub : ∀ N, (M N).sub = galaxiesSub k hasSky) (hset : ∀ N, PSFSetting R (M N) rot pas)
    (hok : ∀ N q, 0 < N → ok N q → (∀ i, SersicP.Between (lo i) (hi i) ((q.1 i).zoomOut N)) ∧ (slo ≤ q.2.1 ∧ q.2.1 ≤ shi) ∧ q.2.2 ∈ pas)
    {pa₀ : ℕ → ℝ} (ht : ∀ N, 0 < N → ok N (fun i => (tr i).zoomIn N, sky, pa₀ N)) (hA : ∀ i, 0 < (tr i).amplitude)
    (law : ∀ N, NearValuesFitter (fun q c => ((M N).evaluate rot c (galaxiesParams q.1 hasSky q.2.1) q.2.2).1) (ok N) (τ N) (fitter N))
    (hτ : Tendsto (fun N : ℕ => τ N / (N : ℝ) ^ 2) atTop (𝓝 0))
    (hsub' : ∀ N, (M' N).sub = galaxiesSub k hasSky) (hset' : ∀ N, PSFSetting R' (M' N) rot' pas') {pa' : ℕ → ℝ} (hpa' : ∀ N, pa' N ∈ pas')
    {idx : ℕ → List (Nat × Nat)} (hidx : ∀ N i j, (i, j) ∈ idx N ↔ i < H * N ∧ j < W * N)
    (hm : ∀ N, 0 < N → ((M' N).evaluate rot' (pixelCoords (idx N)) (galaxiesParams (fun i => (tr i).zoomIn N) hasSky sky) (pa' N)).1 =
      .ok ((idx N).map fun p => m N p.1 p.2))
    (hX : ∀ N, CorrelatedNoise (μ N) (H * N) (W * N) (X N) (m N) v) (hv : 0 ≤ v)
    (hwa : 0 < wa) (hwb : 0 ≤ wb) (hwt : ∀ N, WeightsUpTo (H * N) (W * N) (use N) (mask N) (wt N) wb)
    (hun : Tendsto (fun N : ℕ => (unfitted (H * N) (W * N) (heavy (use N) (wt N) wa) (mask N) : ℝ) / (N : ℝ) ^ 2) atTop (𝓝 0)) {ε : ℝ} (hε : 0 < ε) :
    Tendsto (fun N : ℕ => μ N {ω | ∃ m₀ fit, fitModel (fitter N) (nanImage (H * N) (W * N) (use N) fun i j => X N i j ω) (mask N) m₀ (wt N) = .ok fit ∧
      ¬ ((∀ i, SersicP.RecoversAll ε (tr i) ((fit.1 i).zoomOut N)) ∧ |fit.2.1 - sky| < ε)}) atTop (𝓝 0) := by
  obtain ⟨h1, hsky, -⟩ := hok 1 _ one_pos (ht 1 one_pos)
  have htr : ∀ i, SersicP.Between (lo i) (hi i) (tr i) := fun i => by
    have := h1 i
    rwa [zoomOut_zoomIn one_pos] at this
  have hsky0 : hasSky = false → sky = 0 := fun h => by
    have := sky_value hnosky hsky.1 hsky.2
    rw [h] at this
    simpa using this.symm
  refine blurred_galaxies (R := R) hb hW hH (fun N q vals => evaluate_nil _ _ _ _ vals) (fun N q hN hq => ⟨(hok N q hN hq).1, (hok N q hN hq).2.1⟩) ?_ ht hA law hτ
    (galaxies_data hb.toGalaxyRange htr hsky0 hsub' hset' hpa' hidx hm) hX hv hwa hwb hwt hun hε
  refine (eventually_gt_atTop 0).mono fun N hN q hq idx hne hidx => ?_
  obtain ⟨-, hs, hpa⟩ := hok N q hN hq
  have := psf_values (hset N) hne (h := H * N) (w := W * N) (fun p hp => ⟨((hidx p).1 hp).1, ((hidx p).1 hp).2.1⟩) (galaxiesParams q.1 hasSky q.2.1) hpa
  rwa [hsub, C169_sum, sky_value hnosky hs.1 hs.2] at this

end

/-! ### Why the bounds have to keep the galaxies apart -/

theorem galaxies_permuted {k : Nat} (σ : Equiv.Perm (Fin k)) (s : Fin k → SersicP) (sky : ℝ) : galaxiesAt (fun i => s (σ i)) sky = galaxiesAt s sky := by
  funext x y
  unfold galaxiesAt
  rw [Equiv.sum_comp σ fun i => (s i).at_ x y]

/-- **C169, galaxies that may change places.** If two galaxies are exchanged in the list of parameters, all values of the model stay the same. So there is no fitter
that recovers the galaxies in both orders: from the same data it would have to return two different things. -/
theorem C169_exchanged_violated {k : Nat} {s : Fin k → SersicP} {i j : Fin k} {ε : ℝ} (hij : 2 * ε ≤ |(s i).x0 - (s j).x0|) (hasSky : Bool) (sky : ℝ) {M : PSFModel ℝ}
    (hsub : M.sub = galaxiesSub k hasSky) (hno : ∀ x y s f, M.oversample ≠ .window x y s f) (rot : Img ℝ → ℝ → Img ℝ) (c : List (ℝ × ℝ)) (pa : ℝ) :
    M.evaluate rot c (galaxiesParams (fun l => s (Equiv.swap i j l)) hasSky sky) pa = M.evaluate rot c (galaxiesParams s hasSky sky) pa ∧
      ∀ fit : Fin k → SersicP, ¬ ((∀ l, SersicP.RecoversAll ε (s l) (fit l)) ∧ ∀ l, SersicP.RecoversAll ε (s (Equiv.swap i j l)) (fit l)) := by
  constructor
  · have he : M.sub.eval (galaxiesParams (fun l => s (Equiv.swap i j l)) hasSky sky) = M.sub.eval (galaxiesParams s hasSky sky) := by
      rw [hsub, C169_sum, C169_sum, galaxies_permuted (Equiv.swap i j)]
    have hv : ∀ idx iMax jMax grid, M.valuesOn rot idx (galaxiesParams (fun l => s (Equiv.swap i j l)) hasSky sky) pa iMax jMax grid =
        M.valuesOn rot idx (galaxiesParams s hasSky sky) pa iMax jMax grid := by
      intro idx iMax jMax grid
      unfold valuesOn oversampled sample
      simp only [he]
    unfold evaluate
    simp only [hv]
  · rintro fit ⟨h1, h2⟩
    have a1 := (h1 i).2.2.2.1
    have a2 := (h2 i).2.2.2.1
    rw [Equiv.swap_apply_left] at a2
    have h3 : |(s i).x0 - (s j).x0| ≤ |(fit i).x0 - (s i).x0| + |(fit i).x0 - (s j).x0| := by
      rw [abs_sub_comm (fit i).x0 (s i).x0]
      exact abs_sub_le _ _ _
    linarith

/-! ### Examples -/

theorem setting_sub {R : Nat} {M : PSFModel ℝ} {rot : Img ℝ → ℝ → Img ℝ} {pas : Set ℝ} (h : PSFSetting R M rot pas) (sub : SubModel ℝ) :
    PSFSetting R { M with sub := sub } rot pas := ⟨h.cache, h.compatible, h.noWindow, h.kernel⟩

/-- Two galaxies: one with index 4 and one with index 1. -/
noncomputable def pairTruth : Fin 2 → SersicP := ![⟨10, 1 / 5, 4, 1 / 4, 1 / 4, 1 / 2, 1⟩, ⟨3, 1 / 10, 1, 3 / 4, 2 / 3, 0, 0⟩]

noncomputable def pairLo : Fin 2 → SersicP := ![⟨0, 1 / 100, 6 / 10, 1 / 8, 1 / 8, 0, 0⟩, ⟨0, 1 / 100, 6 / 10, 1 / 2, 1 / 2, 0, 0⟩]

noncomputable def pairHi : Fin 2 → SersicP := ![⟨100, 1, 10, 3 / 8, 3 / 8, 99 / 100, 3⟩, ⟨100, 1, 10, 7 / 8, 7 / 8, 99 / 100, 3⟩]

theorem pair_bounds : GalaxyBounds 1 1 pairLo pairHi := by
  refine ⟨⟨fun i => ?_, fun i => ?_, fun i => ?_⟩, fun i j hij => ?_⟩
  · fin_cases i <;> simp only [pairLo, pairHi, Fin.zero_eta, Fin.mk_one, Matrix.cons_val_zero, Matrix.cons_val_one] <;>
      refine ⟨?_, ?_, ?_, ⟨?_, ?_⟩, ⟨?_, ?_⟩, ?_, ?_⟩ <;> norm_num
  · fin_cases i <;> simp [pairLo]
  · fin_cases i <;> simp only [pairLo, Fin.zero_eta, Fin.mk_one, Matrix.cons_val_zero, Matrix.cons_val_one] <;> norm_num
  · fin_cases i <;> fin_cases j <;> simp [pairLo, pairHi] at hij ⊢ <;> norm_num

theorem pair_between : ∀ i, SersicP.Between (pairLo i) (pairHi i) (pairTruth i) := by
  intro i
  fin_cases i <;> simp only [pairLo, pairHi, pairTruth, Fin.zero_eta, Fin.mk_one, Matrix.cons_val_zero, Matrix.cons_val_one] <;>
    refine ⟨⟨?_, ?_⟩, ⟨?_, ?_⟩, ⟨?_, ?_⟩, ⟨?_, ?_⟩, ⟨?_, ?_⟩, ⟨?_, ?_⟩, ?_, ?_⟩ <;> norm_num

/-- Two galaxies and a sky of 7, smeared along the rows, with Gaussian noise of 100 in every pixel, fitted together with the wrong PSF (a cross):
the index of the second galaxy is within 1/10 of 1 and the sky within 1/10 of 7, with a probability that goes to one. -/
example (rot : Img ℝ → ℝ → Img ℝ) (m₀ : (Fin 2 → SersicP) × ℝ × ℝ) : ∃ (m : ℕ → Nat → Nat → ℝ) (fitter : ℕ → (Fin 2 → SersicP) × ℝ × ℝ → FitData ℝ → Except PyErr ((Fin 2 → SersicP) × ℝ × ℝ))
    (fit : ∀ N, (Fin (1 * N) × Fin (1 * N) → ℝ) → (Fin 2 → SersicP) × ℝ × ℝ),
    (∀ N, 0 < N → ({ smearModel with sub := galaxiesSub 2 true }.evaluate rot (pixelCoords (npWhere (1 * N) (1 * N) fun _ _ => true))
      (galaxiesParams (fun i => (pairTruth i).zoomIn N) true 7) 0).1 = .ok ((npWhere (1 * N) (1 * N) fun _ _ => true).map fun p => m N p.1 p.2)) ∧
    (∀ N, 0 < N → ∀ ω, fitModel (fitter N)
      (nanImage (1 * N) (1 * N) (fun _ _ => true) fun i j => gaussImage (1 * N) (1 * N) (m N) (fun _ _ => 100) i j ω) (fun _ _ => false) m₀ none = .ok (fit N ω)) ∧
    Tendsto (fun N => gaussField (1 * N) (1 * N) {ω | ¬ (|((fit N ω).1 1).n - 1| < 1 / 10 ∧ |(fit N ω).2.1 - 7| < 1 / 10)}) atTop (𝓝 0) := by
  set ok : ℕ → (Fin 2 → SersicP) × ℝ × ℝ → Prop := fun N q =>
    (∀ i, SersicP.Between (pairLo i) (pairHi i) ((q.1 i).zoomOut N)) ∧ (0 ≤ q.2.1 ∧ q.2.1 ≤ 1000) ∧ q.2.2 ∈ ({0} : Set ℝ) with hokd
  set ev : (Fin 2 → SersicP) × ℝ × ℝ → List (ℝ × ℝ) → Except PyErr (List ℝ) := fun q c =>
    ({ crossModel with sub := galaxiesSub 2 true }.evaluate rot c (galaxiesParams q.1 true q.2.1) q.2.2).1 with hev
  have hset := setting_sub (cross_setting rot) (galaxiesSub 2 true)
  have hset' := setting_sub (smear_setting rot) (galaxiesSub 2 true)
  have ht : ∀ N, 0 < N → ok N (fun i => (pairTruth i).zoomIn N, 7, 0) := fun N hN =>
    ⟨fun i => by rw [zoomOut_zoomIn hN]; exact pair_between i, by norm_num, rfl⟩
  have hidx : ∀ N i j, (i, j) ∈ npWhere (1 * N) (1 * N) (fun _ _ => true) ↔ i < 1 * N ∧ j < 1 * N := fun N i j => by rw [npWhere_mem]; simp
  have hm : ∀ N, ∃ m : Nat → Nat → ℝ, 0 < N → ({ smearModel with sub := galaxiesSub 2 true }.evaluate rot (pixelCoords (npWhere (1 * N) (1 * N) fun _ _ => true))
      (galaxiesParams (fun i => (pairTruth i).zoomIn N) true 7) 0).1 = .ok ((npWhere (1 * N) (1 * N) fun _ _ => true).map fun p => m p.1 p.2) := by
    intro N
    rcases Nat.eq_zero_or_pos N with h0 | hN
    · exact ⟨fun _ _ => 0, fun h => absurd h (by omega)⟩
    · obtain ⟨V, -, -, -, hV, -⟩ := psf_values hset' (h := 1 * N) (w := 1 * N) (List.ne_nil_of_mem ((hidx N 0 0).2 ⟨by omega, by omega⟩))
        (fun p hp => (hidx N p.1 p.2).1 hp) (galaxiesParams (fun i => (pairTruth i).zoomIn N) true 7) (Set.mem_singleton (0 : ℝ))
      exact ⟨V, fun _ => hV⟩
  choose m hm using hm
  have hex : ∀ N, 0 < N → ∀ ω, ∃ r, fitModel (chosenNearFitter ev (ok N) 1)
      (nanImage (1 * N) (1 * N) (fun _ _ => true) fun i j => gaussImage (1 * N) (1 * N) (m N) (fun _ _ => 100) i j ω) (fun _ _ => false) m₀ none = .ok r := by
    intro N hN ω
    refine C168_exists one_pos _ _ (ht N hN) (fun idx hi => ?_) _ m₀ (by simp)
    obtain ⟨V, -, -, -, hV, -⟩ := psf_values hset (h := 1 * N) (w := 1 * N) (List.ne_nil_of_mem ((hi (0, 0)).2 ⟨by simpa using hN, by simpa using hN, rfl⟩))
      (fun p hp => ⟨((hi p).1 hp).1, ((hi p).1 hp).2.1⟩) (galaxiesParams (fun i => (pairTruth i).zoomIn N) true 7) (Set.mem_singleton (0 : ℝ))
    exact ⟨_, hV⟩
  choose fit hfit using fun N => ok_choice m₀ fun ω => fitModel (chosenNearFitter ev (ok N) 1)
      (nanImage (1 * N) (1 * N) (fun _ _ => true) fun i j => gaussImage (1 * N) (1 * N) (m N) (fun _ _ => 100) i j ω) (fun _ _ => false) m₀ none
  refine ⟨m, fun N => chosenNearFitter ev (ok N) 1, fit, hm, fun N hN ω => hfit N ω (hex N hN ω), ?_⟩
  have hlim := C169_galaxies (W := 1) (H := 1) (use := fun _ _ _ => true) (mask := fun _ _ _ => false) (M := fun _ => { crossModel with sub := galaxiesSub 2 true })
    (M' := fun _ => { smearModel with sub := galaxiesSub 2 true }) (ok := ok) (pa₀ := fun _ => 0) (pa' := fun _ => 0) (rot := rot) (rot' := rot) (tr := pairTruth) (sky := 7)
    (slo := 0) (shi := 1000) (hasSky := true) (fitter := fun N => chosenNearFitter ev (ok N) 1)
    pair_bounds one_pos one_pos (by simp) (fun _ => rfl) (fun _ => hset) (fun N q _ hq => hq) ht
    (fun i => by fin_cases i <;> simp [pairTruth]) (τ := fun _ => 1) (fun N => chosenNearFitter_law _ _ _)
    (tendsto_const_nhds.div_atTop ((tendsto_pow_atTop two_ne_zero).comp tendsto_natCast_atTop_atTop)) (fun _ => rfl) (fun _ => hset') (fun _ => rfl) hidx hm
    (fun N => (gaussian_noise (1 * N) (1 * N) (m N) fun _ _ => 100).correlated (v := 10000) fun _ _ _ _ => by norm_num) (by norm_num)
    one_pos zero_le_one (fun N => weights_none _ _ _ _) (by simp [unfitted, heavy_none]) (show (0 : ℝ) < 1 / 10 by norm_num)
  refine tendsto_of_tendsto_of_tendsto_of_le_of_le' tendsto_const_nhds hlim (Eventually.of_forall fun N => zero_le)
    ((eventually_gt_atTop 0).mono fun N hN => measure_mono ?_)
  intro ω hω
  refine ⟨m₀, fit N ω, hfit N ω (hex N hN ω), fun hr => hω ⟨?_, hr.2⟩⟩
  have := (hr.1 1).2.2.1
  simpa [pairTruth, SersicP.zoomOut] using this

/-- A bulge and a disk with the same centre, told apart by their indices: the bounds of the centre are the same for both. -/
noncomputable def bulgeDisk : Fin 2 → SersicP := ![⟨10, 1 / 10, 4, 1 / 2, 1 / 2, 0, 0⟩, ⟨3, 1 / 5, 1, 1 / 2, 1 / 2, 1 / 2, 1⟩]

noncomputable def bulgeDiskLo : Fin 2 → SersicP := ![⟨0, 1 / 100, 2, 1 / 4, 1 / 4, 0, 0⟩, ⟨0, 1 / 100, 6 / 10, 1 / 4, 1 / 4, 0, 0⟩]

noncomputable def bulgeDiskHi : Fin 2 → SersicP := ![⟨100, 1, 8, 3 / 4, 3 / 4, 99 / 100, 3⟩, ⟨100, 1, 3 / 2, 3 / 4, 3 / 4, 99 / 100, 3⟩]

theorem bulgeDisk_bounds : GalaxyBounds 1 1 bulgeDiskLo bulgeDiskHi := by
  refine ⟨⟨fun i => ?_, fun i => ?_, fun i => ?_⟩, fun i j hij => ?_⟩
  · fin_cases i <;> simp only [bulgeDiskLo, bulgeDiskHi, Fin.zero_eta, Fin.mk_one, Matrix.cons_val_zero, Matrix.cons_val_one] <;>
      refine ⟨?_, ?_, ?_, ⟨?_, ?_⟩, ⟨?_, ?_⟩, ?_, ?_⟩ <;> norm_num
  · fin_cases i <;> simp [bulgeDiskLo]
  · fin_cases i <;> simp only [bulgeDiskLo, Fin.zero_eta, Fin.mk_one, Matrix.cons_val_zero, Matrix.cons_val_one] <;> norm_num
  · fin_cases i <;> fin_cases j <;> simp [bulgeDiskLo, bulgeDiskHi] at hij ⊢ <;> norm_num

theorem bulgeDisk_between : ∀ i, SersicP.Between (bulgeDiskLo i) (bulgeDiskHi i) (bulgeDisk i) := by
  intro i
  fin_cases i <;> simp only [bulgeDiskLo, bulgeDiskHi, bulgeDisk, Fin.zero_eta, Fin.mk_one, Matrix.cons_val_zero, Matrix.cons_val_one] <;>
    refine ⟨⟨?_, ?_⟩, ⟨?_, ?_⟩, ⟨?_, ?_⟩, ⟨?_, ?_⟩, ⟨?_, ?_⟩, ⟨?_, ?_⟩, ?_, ?_⟩ <;> norm_num

/-- No other bulge and disk, and no other sky, give the same light as these. -/
example {q : Fin 2 → SersicP} (hq : ∀ i, SersicP.Between (bulgeDiskLo i) (bulgeDiskHi i) (q i)) {sky : ℝ}
    (he : ∀ u v : ℝ, 0 ≤ u ∧ u < 1 → 0 ≤ v ∧ v < 1 → galaxiesAt q sky u v = galaxiesAt bulgeDisk 7 u v) : (q 0).n = 4 ∧ (q 1).n = 1 ∧ (q 1).rEff = 1 / 5 ∧ sky = 7 := by
  have h : ∀ ε : ℝ, 0 < ε → _ := fun ε hε => C169_identified (ε := ε) bulgeDisk_bounds bulgeDisk_between (fun i => by fin_cases i <;> simp [bulgeDisk]) hε hq one_pos one_pos
    (by simpa using he)
  have lim : ∀ {a b : ℝ}, (∀ ε > 0, |a - b| < ε) → a = b := fun {a b} hab => by
    by_contra hne
    exact lt_irrefl _ (hab _ (abs_pos.2 (sub_ne_zero.2 hne)))
  refine ⟨lim fun ε hε => ?_, lim fun ε hε => ?_, lim fun ε hε => ?_, (h 1 one_pos).2⟩
  · simpa [bulgeDisk] using ((h ε hε).1 0).2.2.1
  · simpa [bulgeDisk] using ((h ε hε).1 1).2.2.1
  · simpa [bulgeDisk] using ((h ε hε).1 1).2.1

/-- The two galaxies exchanged. -/
example (rot : Img ℝ → ℝ → Img ℝ) (fit : Fin 2 → SersicP) :
    ¬ ((∀ l, SersicP.RecoversAll (1 / 10) (pairTruth l) (fit l)) ∧ ∀ l, SersicP.RecoversAll (1 / 10) (pairTruth (Equiv.swap 0 1 l)) (fit l)) :=
  (C169_exchanged_violated (i := 0) (j := 1) (s := pairTruth) (by simp [pairTruth]; norm_num [abs_of_neg]) true 0 (M := { crossModel with sub := galaxiesSub 2 true }) rfl
    (setting_sub (cross_setting rot) _).noWindow rot [] 0).2 fit

end Verif.Props

import Verif.Props.FitRobust

/-!
# Sums of Sersic profiles determine the amplitude of every shape

Two sums of Sersic galaxies with the same light have, for every shape (centre, size, index, ellipticity and angle), the same total amplitude. C174 and C175 rest on it.
-/

set_option linter.unusedSectionVars false
set_option linter.unusedVariables false

namespace Verif.Spec

open Verif

/-- The galaxies differ in the amplitude at most. -/
def SersicP.SameShape (p q : SersicP) : Prop := ({ p with amplitude := 1 } : SersicP).at_ = ({ q with amplitude := 1 } : SersicP).at_

/-- A galaxy inside the scene, with an index above 1/2. -/
def SersicP.OnScene (W H : Nat) (p : SersicP) : Prop :=
  0 < p.rEff ∧ 1 / 2 < p.n ∧ (0 ≤ p.ellip ∧ p.ellip < 1) ∧ (0 < p.x0 ∧ p.x0 < W) ∧ (0 < p.y0 ∧ p.y0 < H)

end Verif.Spec

namespace Verif.Props

open Verif F Spec Lemmas Filter Topology

theorem SameShape.symm {p q : SersicP} (h : SersicP.SameShape p q) : SersicP.SameShape q p := Eq.symm h

theorem SameShape.trans {p q r : SersicP} (h : SersicP.SameShape p q) (h' : SersicP.SameShape q r) : SersicP.SameShape p r := Eq.trans h h'

theorem at_unit (p : SersicP) (x y : ℝ) : p.at_ x y = p.amplitude * ({ p with amplitude := 1 } : SersicP).at_ x y := by
  unfold SersicP.at_ sersic2D
  simp only
  ring

theorem range_onScene {W H k : Nat} {lo hi : Fin k → SersicP} (hb : GalaxyRange W H lo hi) {q : Fin k → SersicP} (hq : ∀ i, SersicP.Between (lo i) (hi i) (q i)) (i : Fin k) :
    SersicP.OnScene W H (q i) := by
  obtain ⟨h1, h2, h3, h4, h5, h6⟩ := between_pos (hb.scene i) _ (hq i)
  obtain ⟨i1, i2⟩ := hb.inside i
  have i3 := hb.index i
  obtain ⟨-, -, ⟨c1, -⟩, ⟨c2, -⟩, ⟨c3, -⟩, -⟩ := hq i
  exact ⟨h1, by linarith, ⟨h3, h4⟩, ⟨by linarith, h5.2⟩, by linarith, h6.2⟩

theorem range_amplitude {W H k : Nat} {lo hi : Fin k → SersicP} (hb : GalaxyRange W H lo hi) {q : Fin k → SersicP} (hq : ∀ i, SersicP.Between (lo i) (hi i) (q i)) (i : Fin k) :
    0 ≤ (q i).amplitude := (hb.scene i).1.trans (hq i).1.1

/-- Galaxies of the same shape have the same parameters except for the amplitude. -/
theorem sameShape_params {W H : Nat} {p q : SersicP} (hp : SersicP.OnScene W H p) (hq : SersicP.OnScene W H q) (h : SersicP.SameShape p q) :
    p.rEff = q.rEff ∧ p.n = q.n ∧ p.x0 = q.x0 ∧ p.y0 = q.y0 ∧ p.ellip = q.ellip ∧ (q.ellip ≠ 0 → ∃ k : ℤ, p.theta = q.theta + k * Real.pi) := by
  obtain ⟨a1, a2, ⟨a3, a4⟩, ⟨a5, a6⟩, a7, a8⟩ := hp
  obtain ⟨b1, b2, ⟨b3, b4⟩, ⟨b5, b6⟩, b7, b8⟩ := hq
  have := sersic_scene_unique (W := W) (H := H) (p := { p with amplitude := 1 }) (q := { q with amplitude := 1 }) a1 (by simp only; linarith) a3 a4 b1 (by simp only; linarith) b3 b4 one_pos
    ⟨a5.le, a6⟩ ⟨a7.le, a8⟩ ⟨b5.le, b6⟩ ⟨b7.le, b8⟩ fun u v _ _ => by rw [h]
  exact this.2

/-- A galaxy of the right shape is recovered except for the amplitude. -/
theorem sameShape_recovers {W H : Nat} {p q : SersicP} (hp : SersicP.OnScene W H p) (hq : SersicP.OnScene W H q) (h : SersicP.SameShape p q) {ε : ℝ} (hε : 0 < ε) {a : ℝ}
    (ha : |a - q.amplitude| < ε) : SersicP.RecoversAll ε q { p with amplitude := a } := by
  obtain ⟨g2, g3, g4, g5, g6, g7⟩ := sameShape_params hp hq h
  refine ⟨ha, ?_, ?_, ?_, ?_, ?_, fun h0 => ?_⟩
  · simp only
    rwa [g2, sub_self, abs_zero]
  · simp only
    rwa [g3, sub_self, abs_zero]
  · simp only
    rwa [g4, sub_self, abs_zero]
  · simp only
    rwa [g5, sub_self, abs_zero]
  · simp only
    rwa [g6, sub_self, abs_zero]
  · obtain ⟨k, hk⟩ := g7 h0
    refine ⟨k, ?_⟩
    simp only
    rwa [hk, sub_self, abs_zero]

/-! ### Directions -/

/-- The quadratic form of a galaxy along the direction `(1, t)` is a polynomial in `t`. -/
theorem scaledSq_poly (r q t : ℝ) : ∃ a b c : ℝ, ∀ u v : ℝ, scaledSq r q t u v = a * u ^ 2 + b * (u * v) + c * v ^ 2 := by
  refine ⟨(Real.cos t / r) ^ 2 + (Real.sin t / (q * r)) ^ 2, 2 * (Real.cos t / r) * (Real.sin t / r) - 2 * (Real.sin t / (q * r)) * (Real.cos t / (q * r)),
    (Real.sin t / r) ^ 2 + (Real.cos t / (q * r)) ^ 2, fun u v => ?_⟩
  unfold scaledSq
  ring

/-- Different quadratic forms agree in finitely many directions only. -/
theorem forms_differ {r q t r' q' t' : ℝ} (h : ∃ u v, scaledSq r q t u v ≠ scaledSq r' q' t' u v) : {s : ℝ | scaledSq r q t 1 s = scaledSq r' q' t' 1 s}.Finite := by
  obtain ⟨a, b, c, h1⟩ := scaledSq_poly r q t
  obtain ⟨a', b', c', h2⟩ := scaledSq_poly r' q' t'
  obtain ⟨A, hA⟩ : ∃ A, A = a - a' := ⟨_, rfl⟩
  obtain ⟨B, hB⟩ : ∃ B, B = b - b' := ⟨_, rfl⟩
  obtain ⟨C, hC⟩ : ∃ C, C = c - c' := ⟨_, rfl⟩
  set P : Polynomial ℝ := Polynomial.C C * Polynomial.X ^ 2 + Polynomial.C B * Polynomial.X + Polynomial.C A with hP
  have hne : P ≠ 0 := by
    intro h0
    have e2 : P.coeff 2 = C := by simp [hP, Polynomial.coeff_X, Polynomial.coeff_C]
    have e1 : P.coeff 1 = B := by simp [hP, Polynomial.coeff_X, Polynomial.coeff_C]
    have e0 : P.coeff 0 = A := by simp [hP]
    rw [h0, Polynomial.coeff_zero] at e2 e1 e0
    obtain ⟨u, v, huv⟩ := h
    refine huv ?_
    rw [h1, h2, show a = a' by linarith, show b = b' by linarith, show c = c' by linarith]
  refine (P.roots.toFinset.finite_toSet).subset fun s hs => ?_
  rw [Set.mem_ofPred_eq, h1, h2] at hs
  rw [Finset.mem_coe, Multiset.mem_toFinset, Polynomial.mem_roots hne, Polynomial.IsRoot.def, hP]
  simp only [Polynomial.eval_add, Polynomial.eval_mul, Polynomial.eval_C, Polynomial.eval_pow, Polynomial.eval_X]
  rw [hA, hB, hC]
  linarith

/-- There is a direction in which none of finitely many other forms agrees with a given one. -/
theorem direction_exists {ι : Type} [Finite ι] (s : ι → SersicP) (p : SersicP) :
    ∃ t : ℝ, ∀ x, scaledSq (s x).rEff (1 - (s x).ellip) (s x).theta 1 t = scaledSq p.rEff (1 - p.ellip) p.theta 1 t →
      ∀ u v, scaledSq (s x).rEff (1 - (s x).ellip) (s x).theta u v = scaledSq p.rEff (1 - p.ellip) p.theta u v := by
  have hfin : (⋃ x : {x // ∃ u v, scaledSq (s x).rEff (1 - (s x).ellip) (s x).theta u v ≠ scaledSq p.rEff (1 - p.ellip) p.theta u v},
      {t : ℝ | scaledSq (s x.1).rEff (1 - (s x.1).ellip) (s x.1).theta 1 t = scaledSq p.rEff (1 - p.ellip) p.theta 1 t}).Finite :=
    Set.finite_iUnion fun x => forms_differ x.2
  obtain ⟨t, ht⟩ := hfin.infinite_compl.nonempty
  refine ⟨t, fun x hx u v => ?_⟩
  by_contra hne
  exact ht (Set.mem_iUnion.2 ⟨⟨x, u, v, hne⟩, hx⟩)

/-! ### The amplitude of a shape -/

/-- If the light of galaxies, each with a factor, adds up to nothing but a smooth function around the centre of the galaxy `p`, then the amplitudes of the galaxies of
the shape of `p` add up to zero. -/
theorem shape_cancels {ι : Type} [Fintype ι] {W H : Nat} {s : ι → SersicP} {g : ι → ℝ} {p : SersicP} (hs : ∀ x, SersicP.OnScene W H (s x)) (hp : SersicP.OnScene W H p)
    {a : ℝ → ℝ → ℝ} (ha : ∀ u v : ℝ, AnalyticAt ℝ (fun t : ℝ => a (p.x0 + t * u) (p.y0 + t * v)) 0)
    (he : ∀ᶠ z : ℝ × ℝ in 𝓝 (p.x0, p.y0), ∑ x, g x * (s x).at_ z.1 z.2 = a z.1 z.2) [DecidablePred fun x => SersicP.SameShape (s x) p] :
    (∑ x, if SersicP.SameShape (s x) p then g x * (s x).amplitude else 0) = 0 := by
  classical
  obtain ⟨d, hd⟩ := direction_exists s p
  have hw : ∀ n : ℝ, 1 / 2 < n → 1 / n < 2 := fun n hn => by
    rw [div_lt_iff₀ (by linarith)]
    linarith
  have hdir : (1 : ℝ) ≠ 0 ∨ d ≠ 0 := Or.inl one_ne_zero
  set S : Finset ι := Finset.univ.filter fun x => p.x0 = (s x).x0 ∧ p.y0 = (s x).y0 with hS
  have line : ∀ᶠ t : ℝ in 𝓝 0, ∑ x, g x * (s x).at_ (p.x0 + t * 1) (p.y0 + t * d) = a (p.x0 + t * 1) (p.y0 + t * d) := by
    have h1 : Continuous fun t : ℝ => (p.x0 + t * 1, p.y0 + t * d) := by fun_prop
    have h2 := h1.tendsto 0
    simp only [zero_mul, add_zero] at h2
    exact h2.eventually he
  have rest : AnalyticAt ℝ (fun t : ℝ => a (p.x0 + t * 1) (p.y0 + t * d) -
      ∑ x ∈ Finset.univ.filter (fun x => ¬ (p.x0 = (s x).x0 ∧ p.y0 = (s x).y0)), g x * (s x).at_ (p.x0 + t * 1) (p.y0 + t * d)) 0 := by
    refine (ha 1 d).sub (Finset.analyticAt_fun_sum _ fun x hx => analyticAt_const.mul ?_)
    exact sersic_line_analytic (hs x).1 (hs x).2.2.1.2 (Finset.mem_filter.1 hx).2 1 d
  have hcan := cusps_cancel (S := S) (A := fun x => g x * ((s x).amplitude * Real.exp (bn (s x).n)))
    (c := fun x => bn (s x).n * Real.sqrt (scaledSq (s x).rEff (1 - (s x).ellip) (s x).theta 1 d) ^ (1 / (s x).n)) (p := fun x => 1 / (s x).n)
    (fun x _ => by
      obtain ⟨h1, h3, ⟨-, h2⟩, -⟩ := hs x
      have h4 : 0 < (s x).n := by linarith
      exact ⟨mul_pos (bn_pos h4) (Real.rpow_pos_of_pos (Real.sqrt_pos.2 (scaledSq_pos h1 (by linarith) _ hdir)) _), one_div_pos.2 h4, hw _ h3⟩) rest (by
      filter_upwards [line] with t ht
      rw [← Finset.sum_filter_add_sum_filter_not Finset.univ fun x => p.x0 = (s x).x0 ∧ p.y0 = (s x).y0] at ht
      have h2 : ∑ x ∈ S, g x * ((s x).amplitude * Real.exp (bn (s x).n)) *
          Real.exp (-(bn (s x).n * Real.sqrt (scaledSq (s x).rEff (1 - (s x).ellip) (s x).theta 1 d) ^ (1 / (s x).n) * |t| ^ (1 / (s x).n))) =
          ∑ x ∈ S, g x * (s x).at_ (p.x0 + t * 1) (p.y0 + t * d) := by
        refine Finset.sum_congr rfl fun x hx => ?_
        obtain ⟨c1, c2⟩ := (Finset.mem_filter.1 hx).2
        rw [c1, c2, sersic_line_cusp, mul_assoc]
      rw [h2]
      linarith) (bn p.n * Real.sqrt (scaledSq p.rEff (1 - p.ellip) p.theta 1 d) ^ (1 / p.n)) (1 / p.n)
  obtain ⟨p1, p2, ⟨p3, p4⟩, -⟩ := id hp
  have hpn : 0 < p.n := by linarith
  have hbn := bn_pos hpn
  -- the condition of the cusps is that of the shape
  have hiff : ∀ x, (p.x0 = (s x).x0 ∧ p.y0 = (s x).y0) ∧ (bn (s x).n * Real.sqrt (scaledSq (s x).rEff (1 - (s x).ellip) (s x).theta 1 d) ^ (1 / (s x).n) =
      bn p.n * Real.sqrt (scaledSq p.rEff (1 - p.ellip) p.theta 1 d) ^ (1 / p.n) ∧ 1 / (s x).n = 1 / p.n) ↔ SersicP.SameShape (s x) p := by
    intro x
    constructor
    · rintro ⟨⟨c1, c2⟩, c3, c4⟩
      rw [one_div, one_div, inv_inj] at c4
      rw [c4] at c3
      have h5 := mul_left_cancel₀ hbn.ne' c3
      have h6 := (Real.rpow_left_inj (Real.sqrt_nonneg _) (Real.sqrt_nonneg _) (one_div_pos.2 hpn).ne').1 h5
      have h7 := (Real.sqrt_inj (scaledSq_nonneg _ _ _ _ _) (scaledSq_nonneg _ _ _ _ _)).1 h6
      have h8 := hd x h7
      unfold SersicP.SameShape
      funext X Y
      have e1 := sersic_line_cusp { s x with amplitude := 1 } (X - p.x0) (Y - p.y0) 1
      have e2 := sersic_line_cusp { p with amplitude := 1 } (X - p.x0) (Y - p.y0) 1
      simp only [← c1, ← c2, c4, h8, one_mul, add_sub_cancel] at e1 e2 ⊢
      rw [e1, e2]
    · intro h
      obtain ⟨-, g3, g4, g5, -⟩ := sameShape_params (hs x) (W := W) (H := H) hp h
      refine ⟨⟨g4.symm, g5.symm⟩, ?_, by rw [g3]⟩
      have e1 := sersic_line_cusp { s x with amplitude := 1 } 1 d 1
      have e2 := sersic_line_cusp { p with amplitude := 1 } 1 d 1
      have h := congrFun (congrFun h (p.x0 + 1 * 1)) (p.y0 + 1 * d)
      simp only [g4, g5] at e1 e2 h
      rw [e1, e2, g3] at h
      simp only [one_mul, abs_one, Real.one_rpow, mul_one] at h
      have h9 := Real.exp_injective (mul_left_cancel₀ (Real.exp_pos _).ne' h)
      rw [g3]
      linarith
  rw [hS, Finset.sum_filter] at hcan
  have h10 : Real.exp (bn p.n) * (∑ x, if SersicP.SameShape (s x) p then g x * (s x).amplitude else 0) = 0 := by
    rw [Finset.mul_sum]
    refine Eq.trans ?_ hcan
    refine Finset.sum_congr rfl fun x _ => ?_
    rw [← ite_and]
    by_cases hx : SersicP.SameShape (s x) p
    · rw [if_pos hx, if_pos ((hiff x).2 hx), show (s x).n = p.n from (sameShape_params (hs x) (W := W) (H := H) hp hx).2.1]
      ring
    · rw [if_neg hx, if_neg fun h => hx ((hiff x).1 h), mul_zero]
  exact (mul_eq_zero.1 h10).resolve_left (Real.exp_pos _).ne'

/-- **The amplitude of every shape.** Two scenes with galaxies and a sky that look the same have the same total amplitude in every shape. -/
theorem shapes_determined {W H k l : Nat} {q : Fin k → SersicP} {tr : Fin l → SersicP} (hq : ∀ j, SersicP.OnScene W H (q j)) (htr : ∀ i, SersicP.OnScene W H (tr i)) {sky sky' : ℝ}
    (he : ∀ u v : ℝ, 0 ≤ u ∧ u < W → 0 ≤ v ∧ v < H → galaxiesAt q sky' u v = galaxiesAt tr sky u v) {p : SersicP} (hp : SersicP.OnScene W H p)
    [DecidableRel SersicP.SameShape] :
    (∑ j, if SersicP.SameShape (q j) p then (q j).amplitude else 0) = ∑ i, if SersicP.SameShape (tr i) p then (tr i).amplitude else 0 := by
  have hcan := shape_cancels (W := W) (H := H) (s := Sum.elim q tr) (g := Sum.elim (fun _ => (1 : ℝ)) fun _ => -1) (p := p) (a := fun _ _ => sky - sky')
    (by
      rintro (j | i)
      · exact hq j
      · exact htr i) hp (fun u v => analyticAt_const) (by
      obtain ⟨-, -, -, ⟨h1, h2⟩, h3, h4⟩ := hp
      have o1 : ∀ᶠ z : ℝ × ℝ in 𝓝 (p.x0, p.y0), z.1 ∈ Set.Ioo (0 : ℝ) W := (continuous_fst.tendsto _).eventually (isOpen_Ioo.mem_nhds ⟨h1, h2⟩)
      have o2 : ∀ᶠ z : ℝ × ℝ in 𝓝 (p.x0, p.y0), z.2 ∈ Set.Ioo (0 : ℝ) H := (continuous_snd.tendsto _).eventually (isOpen_Ioo.mem_nhds ⟨h3, h4⟩)
      filter_upwards [o1, o2] with z z1 z2
      have := he z.1 z.2 ⟨z1.1.le, z1.2⟩ ⟨z2.1.le, z2.2⟩
      unfold galaxiesAt at this
      rw [Fintype.sum_sum_type]
      simp only [Sum.elim_inl, Sum.elim_inr, one_mul, neg_mul, Finset.sum_neg_distrib]
      linarith)
  rw [Fintype.sum_sum_type] at hcan
  simp only [Sum.elim_inl, Sum.elim_inr, one_mul, neg_mul] at hcan
  have h1 : (∑ i, if SersicP.SameShape (tr i) p then -(tr i).amplitude else 0) = -∑ i, if SersicP.SameShape (tr i) p then (tr i).amplitude else 0 := by
    rw [← Finset.sum_neg_distrib]
    refine Finset.sum_congr rfl fun i _ => ?_
    split <;> simp
  rw [h1] at hcan
  linarith

end Verif.Props

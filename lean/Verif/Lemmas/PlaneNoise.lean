import Verif.Lemmas.Noise
import Verif.Lemmas.Fitting

/-!
# The least-squares plane as a weighted sum of the pixels
-/

set_option linter.unusedSectionVars false

namespace Verif.Lemmas

open Verif Spec

variable {S : Finset (Nat × Nat)}

/-- Three of the pixels are not on a line. -/
def SpreadSet (S : Finset (Nat × Nat)) : Prop :=
  ∃ p ∈ S, ∃ q ∈ S, ∃ r ∈ S, ((q.2 : ℝ) - p.2) * ((r.1 : ℝ) - p.1) - ((r.2 : ℝ) - p.2) * ((q.1 : ℝ) - p.1) ≠ 0

theorem sum_orth {e f : Nat × Nat → ℝ} (h1 : ∑ s ∈ S, e s = 0) (h2 : ∑ s ∈ S, f s = 0) (h3 : ∑ s ∈ S, e s * f s = 0)
    (a0 a1 a2 b0 b1 b2 : ℝ) :
    ∑ s ∈ S, (a0 + a1 * e s + a2 * f s) * (b0 + b1 * e s + b2 * f s) =
      a0 * b0 * S.card + a1 * b1 * (∑ s ∈ S, e s ^ 2) + a2 * b2 * ∑ s ∈ S, f s ^ 2 := by
  have e1 : ∀ s, (a0 + a1 * e s + a2 * f s) * (b0 + b1 * e s + b2 * f s) =
      a0 * b0 + (a0 * b1 + a1 * b0) * e s + (a0 * b2 + a2 * b0) * f s + (a1 * b2 + a2 * b1) * (e s * f s) + a1 * b1 * e s ^ 2 +
        a2 * b2 * f s ^ 2 := fun s => by ring
  simp only [e1, Finset.sum_add_distrib, ← Finset.mul_sum, h1, h2, h3, Finset.sum_const, nsmul_eq_mul]
  ring

/-- The value of the least-squares plane at a point is a weighted sum of the pixels, and the weights form a plane: they reproduce planes, and the
weights of the pixels for themselves add up to 3. -/
theorem plane_kernel (hs : SpreadSet S) :
    ∃ H : ℝ → ℝ → Plane ℝ, (∀ (P : Plane ℝ) x y, ∑ s ∈ S, (H x y).at_ s.2 s.1 * P.at_ s.2 s.1 = P.at_ x y) ∧
      ∑ s ∈ S, (H s.2 s.1).at_ s.2 s.1 = 3 := by
  obtain ⟨p, hp, q, hq, r, hr, hd⟩ := hs
  have hN : (S.card : ℝ) ≠ 0 := by
    have : S.card ≠ 0 := Finset.card_ne_zero_of_mem hp
    exact_mod_cast this
  obtain ⟨N, hNdef⟩ : ∃ N : ℝ, N = (S.card : ℝ) := ⟨_, rfl⟩
  rw [← hNdef] at hN
  set mx := (∑ s ∈ S, (s.2 : ℝ)) / N with hmx
  set my := (∑ s ∈ S, (s.1 : ℝ)) / N with hmy
  set e : Nat × Nat → ℝ := fun s => (s.2 : ℝ) - mx with he
  set D2 := ∑ s ∈ S, e s ^ 2 with hD2
  set k := (∑ s ∈ S, (s.1 : ℝ) * e s) / D2 with hk
  set f : Nat × Nat → ℝ := fun s => (s.1 : ℝ) - my - k * e s with hf
  set D3 := ∑ s ∈ S, f s ^ 2 with hD3
  have he0 : ∑ s ∈ S, e s = 0 := by
    simp only [he, Finset.sum_sub_distrib, Finset.sum_const, nsmul_eq_mul, ← hNdef]
    rw [hmx, mul_div_cancel₀ _ hN, sub_self]
  have hf0 : ∑ s ∈ S, f s = 0 := by
    simp only [hf, Finset.sum_sub_distrib, Finset.sum_const, nsmul_eq_mul, ← hNdef, ← Finset.mul_sum, he0]
    rw [hmy, mul_div_cancel₀ _ hN]; ring
  have h2 : D2 ≠ 0 := by
    intro h0
    have hz : ∀ s ∈ S, e s = 0 := fun s hs => by
      have := (Finset.sum_eq_zero_iff_of_nonneg fun s _ => sq_nonneg (e s)).1 h0 s hs
      exact pow_eq_zero_iff (two_ne_zero) |>.1 this
    apply hd
    have a := hz p hp; have b := hz q hq; have c := hz r hr
    simp only [he] at a b c
    have e1 : (q.2 : ℝ) - p.2 = 0 := by linarith
    have e2 : (r.2 : ℝ) - p.2 = 0 := by linarith
    rw [e1, e2]; ring
  have h3 : D3 ≠ 0 := by
    intro h0
    have hz : ∀ s ∈ S, f s = 0 := fun s hs => by
      have := (Finset.sum_eq_zero_iff_of_nonneg fun s _ => sq_nonneg (f s)).1 h0 s hs
      exact pow_eq_zero_iff (two_ne_zero) |>.1 this
    apply hd
    have a := hz p hp; have b := hz q hq; have c := hz r hr
    simp only [hf, he] at a b c
    have e1 : (q.1 : ℝ) - p.1 = k * ((q.2 : ℝ) - p.2) := by linarith
    have e2 : (r.1 : ℝ) - p.1 = k * ((r.2 : ℝ) - p.2) := by linarith
    rw [e1, e2]; ring
  have hef : ∑ s ∈ S, e s * f s = 0 := by
    have : ∀ s, e s * f s = (s.1 : ℝ) * e s - my * e s - k * e s ^ 2 := fun s => by simp only [hf]; ring
    simp only [this, Finset.sum_sub_distrib, ← Finset.mul_sum, he0, ← hD2]
    rw [hk, div_mul_cancel₀ _ h2]; ring
  clear_value D2 D3 k mx my
  have hsum := sum_orth he0 hf0 hef
  rw [← hD2, ← hD3, ← hNdef] at hsum
  let g : ℝ → ℝ → ℝ := fun x y => y - my - k * (x - mx)
  refine ⟨fun x y => ⟨(x - mx) / D2 - k * (g x y / D3), g x y / D3, 1 / N - (x - mx) / D2 * mx + g x y / D3 * (k * mx - my)⟩, ?_, ?_⟩
  · intro P x y
    have e1 : ∀ s : Nat × Nat, ((⟨(x - mx) / D2 - k * (g x y / D3), g x y / D3,
        1 / N - (x - mx) / D2 * mx + g x y / D3 * (k * mx - my)⟩ : Plane ℝ)).at_ s.2 s.1 * P.at_ s.2 s.1 =
        (1 / N + (x - mx) / D2 * e s + g x y / D3 * f s) * ((P.a * mx + P.b * my + P.c) + (P.a + k * P.b) * e s + P.b * f s) := by
      intro s
      simp only [Plane.at_, he, hf]
      ring
    simp only [e1]
    rw [hsum]
    simp only [Plane.at_, g]
    field_simp
    ring
  · have e1 : ∀ s : Nat × Nat, ((⟨((s.2 : ℝ) - mx) / D2 - k * (g s.2 s.1 / D3), g s.2 s.1 / D3,
        1 / N - ((s.2 : ℝ) - mx) / D2 * mx + g s.2 s.1 / D3 * (k * mx - my)⟩ : Plane ℝ)).at_ s.2 s.1 =
        1 / N + 1 / D2 * e s ^ 2 + 1 / D3 * f s ^ 2 := by
      intro s
      simp only [Plane.at_, he, hf, g]
      ring
    simp only [e1, Finset.sum_add_distrib, ← Finset.mul_sum, ← hD2, ← hD3, Finset.sum_const, nsmul_eq_mul, ← hNdef]
    field_simp
    norm_num

/-- Residuals of a least-squares plane are orthogonal to all planes. -/
theorem lsq_normal {p : Plane ℝ} {pts : List (Point ℝ)} (h : IsLsq p pts) (q : Plane ℝ) :
    (pts.map fun d => q.at_ d.x d.y * (p.at_ d.x d.y - d.z)).sum = 0 := by
  set B := (pts.map fun d => q.at_ d.x d.y * (p.at_ d.x d.y - d.z)).sum with hB
  set A := (pts.map fun d => q.at_ d.x d.y ^ 2).sum with hA
  have hA0 : 0 ≤ A := List.sum_nonneg fun x hx => by
    obtain ⟨d, _, rfl⟩ := List.mem_map.1 hx
    exact sq_nonneg _
  have key : ∀ t : ℝ, 0 ≤ t ^ 2 * A + 2 * t * B := by
    intro t
    have h1 := h ⟨p.a + t * q.a, p.b + t * q.b, p.c + t * q.c⟩
    have e : chi2 ⟨p.a + t * q.a, p.b + t * q.b, p.c + t * q.c⟩ pts = chi2 p pts + t ^ 2 * A + 2 * t * B := by
      rw [hA, hB]
      unfold chi2
      clear h1 h hA hB hA0
      clear_value A B
      induction pts with
      | nil => simp
      | cons d l ih =>
        have e0 : (⟨p.a + t * q.a, p.b + t * q.b, p.c + t * q.c⟩ : Plane ℝ).at_ d.x d.y = p.at_ d.x d.y + t * q.at_ d.x d.y := by
          simp only [Plane.at_]; ring
        simp only [List.map_cons, List.sum_cons, ih, e0]
        ring
    linarith
  rcases hA0.eq_or_lt with h0 | h0
  · have a := key 1
    have b := key (-1)
    rw [← h0] at a b
    linarith
  · have a := key (-B / A)
    have e : (-B / A) ^ 2 * A + 2 * (-B / A) * B = -(B ^ 2 / A) := by field_simp; ring
    rw [e] at a
    have : B ^ 2 / A ≤ 0 := by linarith
    rw [div_le_iff₀ h0, zero_mul] at this
    exact pow_eq_zero_iff two_ne_zero |>.1 (le_antisymm this (sq_nonneg B))

end Verif.Lemmas

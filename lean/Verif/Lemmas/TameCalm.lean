import Verif.Lemmas.SplineBound

/-!
# From data that change slowly to interpolants that overshoot little
-/

set_option linter.unusedSectionVars false

namespace Verif

open F Spec

variable {K : Type} [Field K] [LinearOrder K] [IsStrictOrderedRing K]

/-- Nodes that are `m` apart are at most `m` gaps apart. -/
theorem nodes_apart {N : List K} {D : K} (hg : ∀ i (h : i + 1 < N.length), N[i + 1] - N[i] ≤ D) (i : Nat) :
    ∀ m (h : i + m < N.length), N[i + m] ≤ N[i] + m * D := by
  intro m
  induction m with
  | zero => intro h; simp
  | succ m ih =>
    intro h
    have h1 := ih (by omega)
    have h2 := hg (i + m) (by omega)
    have e : i + (m + 1) = i + m + 1 := by omega
    simp only [e]
    push_cast
    linarith

theorem nodes_mono {N : List K} {g D : K} (hg : 0 < g) (hgap : ∀ i (h : i + 1 < N.length), g ≤ N[i + 1] - N[i] ∧ N[i + 1] - N[i] ≤ D) :
    ∀ i j (hij : i ≤ j) (h : j < N.length), N[i]'(by omega) ≤ N[j] := by
  have key : ∀ i m (h : i + m < N.length), N[i] ≤ N[i + m] := by
    intro i m
    induction m with
    | zero => intro h; simp
    | succ m ih =>
      intro h
      have a1 := ih (by omega)
      have a2 := (hgap (i + m) (by omega)).1
      have e : i + (m + 1) = i + m + 1 := by omega
      simp only [e]
      linarith
  intro i j hij h
  obtain ⟨m, rfl⟩ := Nat.exists_eq_add_of_le hij
  exact key i m h

/-- Nodes up to `k + 3` to the right of one below `T` are below `T'`. -/
theorem nodes_right {N : List K} {g ρ T T' : K} (hgap : ∀ i (h : i + 1 < N.length), g ≤ N[i + 1] - N[i] ∧ N[i + 1] - N[i] ≤ ρ * g)
    (hg : 0 < g) (hρ : 0 ≤ ρ) {k : Nat} (hT : T + (k + 3 : K) * (ρ * g) ≤ T') {j : Nat} {hj : j < N.length} (hjT : N[j] ≤ T) {i : Nat}
    (h : i < N.length) (hi : i ≤ j + k + 3) : N[i] ≤ T' := by
  have hD : 0 ≤ ρ * g := mul_nonneg hρ hg.le
  by_cases hle : i ≤ j
  · have h1 := nodes_mono hg hgap i j hle hj
    have : 0 ≤ (k + 3 : K) * (ρ * g) := by positivity
    linarith
  · obtain ⟨m, rfl⟩ := Nat.exists_eq_add_of_le (by omega : j ≤ i)
    have b1 := nodes_apart (fun i h => (hgap i h).2) j m h
    have b2 : (m : K) ≤ k + 3 := by
      have : m ≤ k + 3 := by omega
      exact_mod_cast this
    have b3 := mul_le_mul_of_nonneg_right b2 hD
    linarith

section
variable {ρ ρe C θ : K} {I : Interp K} (hI : Tame ρ ρe C θ I) {N Y : List K} (hl : N.length = Y.length) (hm : 4 ≤ N.length) {g : K} (hg : 0 < g)
  (hρ : 0 ≤ ρ) (hgap : ∀ i (h : i + 1 < N.length), g ≤ N[i + 1] - N[i] ∧ N[i + 1] - N[i] ≤ ρ * g)
  (hfirst : ∀ h : 2 < N.length, N[1] - N[0] ≤ ρe * (N[2] - N[1]))
  (hlast : ∀ k (h : N.length = k + 3), N[k + 2] - N[k + 1] ≤ ρe * (N[k + 1] - N[k]))
  {B : K} (hB : ∀ i (h : i < Y.length), |Y[i]| ≤ B)
include hI hl hm hg hρ hgap hfirst hlast hB

/-- Jumps from bounds. -/
theorem tame_jump (i : Nat) (h : i + 1 < Y.length) : |Y[i + 1] - Y[i]| ≤ 2 * B := by
  have h1 := abs_le.1 (hB i (by omega))
  have h2 := abs_le.1 (hB (i + 1) h)
  rw [abs_le]
  constructor <;> linarith

/-- Data that change by at most `δ1` up to `T'`, and by at most `δ2` from `ρ'` up to `T'`: the interpolant is calm up to a little less than
`T'` if the values near the left end are well above `lo`. -/
theorem tame_past {δ1 δ2 T T' ρ' a d lo : K} (k : Nat) (h1 : ∀ i (h : i + 1 < N.length), N[i + 1] ≤ T' → |Y[i + 1] - Y[i]| ≤ δ1)
    (h2 : ∀ i (h : i + 1 < N.length), ρ' ≤ N[i] → N[i + 1] ≤ T' → |Y[i + 1] - Y[i]| ≤ δ2) (hT : T + (k + 3 : K) * (ρ * g) ≤ T')
    (ha : ρ' + (k + 3 : K) * (ρ * g) ≤ a) (hρ' : N[0] ≤ ρ')
    (hc : ∀ i (h : i < N.length), N[i] ≤ a + ρ * g → lo + C * (δ1 + θ ^ k * (2 * B)) - d ≤ Y[i]) (hd : C * (δ2 + θ ^ k * (2 * B)) ≤ d) :
    CalmPast lo a d T I N Y := by
  have hjump := tame_jump hI hl hm hg hρ hgap hfirst hlast hB
  have hD : 0 ≤ ρ * g := mul_nonneg hρ hg.le
  have hgap' : ∀ i (h : i + 1 < N.length), N[i + 1] - N[i] ≤ ρ * g := fun i h => (hgap i h).2
  have hmono := nodes_mono hg hgap
  have hright : ∀ j (hj : j < N.length), N[j] ≤ T → ∀ i (h : i < N.length), i ≤ j + k + 3 → N[i] ≤ T' :=
    fun j hj hjT i h hi => nodes_right hgap hg hρ hT hjT h hi
  intro j h h' q hq1 hq2
  by_cases hqT : q ≤ T
  · have hjT := hq1.trans hqT
    by_cases hqa : a ≤ q
    · -- away from the left end
      have hjk : k + 2 < j + 1 := by
        by_contra hcon
        have b1 := nodes_apart hgap' 0 (j + 1) (by omega)
        simp only [zero_add] at b1
        have b4 : ((j + 1 : Nat) : K) ≤ k + 2 := by
          have : j + 1 ≤ k + 2 := by omega
          exact_mod_cast this
        have b5 := mul_le_mul_of_nonneg_right b4 hD
        have hD' : 0 < ρ * g := by
          have := hgap 0 (by omega)
          linarith
        linarith
      obtain ⟨v, hv, v1, v2⟩ := hI N Y hl hm g hg hgap hfirst hlast δ2 (2 * B) hjump (j - (k + 2)) (j + k + 2) k
        (by
          intro i hi hLi hiH
          refine h2 i (by omega) ?_ (hright j (by omega) hjT (i + 1) (by omega) (by omega))
          have c1 := hmono (j - (k + 2)) i hLi (by omega)
          have c2 := nodes_apart hgap' (j - (k + 2)) (k + 3) (by omega)
          have e : j - (k + 2) + (k + 3) = j + 1 := by omega
          simp only [e] at c2
          push_cast at c2
          linarith)
        j h q hq1 hq2 (by omega) (by omega) (by right; omega) (by right; omega)
      exact ⟨v, hv, fun _ => ⟨by linarith [min_le_left (min Y[j] Y[j + 1]) lo], fun _ => by linarith⟩⟩
    · obtain ⟨v, hv, v1, v2⟩ := hI N Y hl hm g hg hgap hfirst hlast δ1 (2 * B) hjump 0 (j + k + 2) k
        (fun i hi _ hiH => h1 i (by omega) (hright j (by omega) hjT (i + 1) (by omega) (by omega)))
        j h q hq1 hq2 (by omega) (by omega) (Or.inl rfl) (by right; omega)
      refine ⟨v, hv, fun _ => ⟨?_, fun h => absurd h hqa⟩⟩
      have c1 := hc j (by omega) (by linarith [not_le.1 hqa])
      have c2 := hc (j + 1) h (by linarith [not_le.1 hqa, hgap' j h])
      have := le_min c1 c2
      linarith [min_le_right (min Y[j] Y[j + 1]) lo]
  · obtain ⟨v, hv, -⟩ := hI N Y hl hm g hg hgap hfirst hlast (2 * B) (2 * B) hjump 0 N.length 0
      (fun i hi _ _ => hjump i hi) j h q hq1 hq2 (by omega) (by omega) (Or.inl rfl) (by left; omega)
    exact ⟨v, hv, fun h => absurd h hqT⟩

/-- Data that change by at most `δ` up to `T'`: the interpolant is calm up to a little less than `T'`. -/
theorem tame_calm {δ T T' d : K} (k : Nat) (h1 : ∀ i (h : i + 1 < N.length), N[i + 1] ≤ T' → |Y[i + 1] - Y[i]| ≤ δ)
    (hT : T + (k + 3 : K) * (ρ * g) ≤ T') (hd : C * (δ + θ ^ k * (2 * B)) ≤ d) : Calm d T I N Y := by
  have hjump := tame_jump hI hl hm hg hρ hgap hfirst hlast hB
  have hD : 0 ≤ ρ * g := mul_nonneg hρ hg.le
  have hgap' : ∀ i (h : i + 1 < N.length), N[i + 1] - N[i] ≤ ρ * g := fun i h => (hgap i h).2
  intro j h h' q hq1 hq2
  by_cases hqT : q ≤ T
  · have hjT := hq1.trans hqT
    obtain ⟨v, hv, v1, v2⟩ := hI N Y hl hm g hg hgap hfirst hlast δ (2 * B) hjump 0 (j + k + 2) k
      (fun i hi _ hiH => h1 i (by omega) (nodes_right hgap hg hρ hT hjT (by omega) (by omega)))
      j h q hq1 hq2 (by omega) (by omega) (Or.inl rfl) (by right; omega)
    exact ⟨v, hv, fun _ => ⟨by linarith, by linarith⟩⟩
  · obtain ⟨v, hv, -⟩ := hI N Y hl hm g hg hgap hfirst hlast (2 * B) (2 * B) hjump 0 N.length 0
      (fun i hi _ _ => hjump i hi) j h q hq1 hq2 (by omega) (by omega) (Or.inl rfl) (by left; omega)
    exact ⟨v, hv, fun h => absurd h hqT⟩

end

end Verif

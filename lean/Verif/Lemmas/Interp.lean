import Verif.Model.Utils
import Verif.Lemmas.NumPy
import Verif.Spec.Interp

/-!
# Interpolation: `linear` meets the contract; what `get_interpolated_values` returns
-/

set_option linter.unusedSectionVars false

namespace Verif

open F Spec

variable {K : Type} [Field K] [LinearOrder K] [IsStrictOrderedRing K]

/-! ### python `min`/`max` -/

theorem pyMax_fin {xs : List K} (h : xs ≠ []) :
    ∃ m ∈ xs, pyMax (xs.map fin) = .ok (fin m) ∧ ∀ x ∈ xs, x ≤ m := by
  cases xs with
  | nil => exact absurd rfl h
  | cons a l =>
    have key : ∀ (l : List K) (b : K), ∃ m, (m = b ∨ m ∈ l) ∧
        (l.map fin).foldl (fun m a => if F.lt m a then a else m) (fin b) = fin m ∧ b ≤ m ∧ ∀ x ∈ l, x ≤ m := by
      intro l
      induction l with
      | nil => intro b; exact ⟨b, Or.inl rfl, rfl, le_rfl, by simp⟩
      | cons c l ih =>
        intro b
        simp only [List.map_cons, List.foldl_cons, lt_fin, decide_eq_true_eq]
        by_cases hbc : b < c
        · rw [if_pos hbc]
          obtain ⟨m, hm, h1, h2, h3⟩ := ih c
          refine ⟨m, ?_, h1, hbc.le.trans h2, ?_⟩
          · rcases hm with hm | hm
            · exact Or.inr (by simp [hm])
            · exact Or.inr (by simp [hm])
          · intro x hx
            rcases List.mem_cons.1 hx with hx | hx
            · rw [hx]; exact h2
            · exact h3 x hx
        · rw [if_neg hbc]
          obtain ⟨m, hm, h1, h2, h3⟩ := ih b
          refine ⟨m, ?_, h1, h2, ?_⟩
          · rcases hm with hm | hm
            · exact Or.inl hm
            · exact Or.inr (by simp [hm])
          · intro x hx
            rcases List.mem_cons.1 hx with hx | hx
            · rw [hx]; exact (not_lt.1 hbc).trans h2
            · exact h3 x hx
    obtain ⟨m, hm, h1, h2, h3⟩ := key l a
    refine ⟨m, ?_, ?_, ?_⟩
    · rcases hm with hm | hm
      · simp [hm]
      · simp [hm]
    · simp only [List.map_cons, pyMax, h1]
    · intro x hx
      rcases List.mem_cons.1 hx with hx | hx
      · rw [hx]; exact h2
      · exact h3 x hx

theorem pyMin_fin {xs : List K} (h : xs ≠ []) :
    ∃ m ∈ xs, pyMin (xs.map fin) = .ok (fin m) ∧ ∀ x ∈ xs, m ≤ x := by
  cases xs with
  | nil => exact absurd rfl h
  | cons a l =>
    have key : ∀ (l : List K) (b : K), ∃ m, (m = b ∨ m ∈ l) ∧
        (l.map fin).foldl (fun m a => if F.lt a m then a else m) (fin b) = fin m ∧ m ≤ b ∧ ∀ x ∈ l, m ≤ x := by
      intro l
      induction l with
      | nil => intro b; exact ⟨b, Or.inl rfl, rfl, le_rfl, by simp⟩
      | cons c l ih =>
        intro b
        simp only [List.map_cons, List.foldl_cons, lt_fin, decide_eq_true_eq]
        by_cases hbc : c < b
        · rw [if_pos hbc]
          obtain ⟨m, hm, h1, h2, h3⟩ := ih c
          refine ⟨m, ?_, h1, h2.trans hbc.le, ?_⟩
          · rcases hm with hm | hm
            · exact Or.inr (by simp [hm])
            · exact Or.inr (by simp [hm])
          · intro x hx
            rcases List.mem_cons.1 hx with hx | hx
            · rw [hx]; exact h2
            · exact h3 x hx
        · rw [if_neg hbc]
          obtain ⟨m, hm, h1, h2, h3⟩ := ih b
          refine ⟨m, ?_, h1, h2, ?_⟩
          · rcases hm with hm | hm
            · exact Or.inl hm
            · exact Or.inr (by simp [hm])
          · intro x hx
            rcases List.mem_cons.1 hx with hx | hx
            · rw [hx]; exact h2.trans (not_lt.1 hbc)
            · exact h3 x hx
    obtain ⟨m, hm, h1, h2, h3⟩ := key l a
    refine ⟨m, ?_, ?_, ?_⟩
    · rcases hm with hm | hm
      · simp [hm]
      · simp [hm]
    · simp only [List.map_cons, pyMin, h1]
    · intro x hx
      rcases List.mem_cons.1 hx with hx | hx
      · rw [hx]; exact h2
      · exact h3 x hx

/-! ### linspace -/

theorem npLinspace_fin (lo hi : K) (n : Nat) (hn : 2 ≤ n) :
    npLinspace (fin lo) (fin hi) n = (List.range n).map fun i => fin (gridPt lo hi n i) := by
  unfold npLinspace
  simp only [show 1 < n by omega, true_and, if_true]
  apply List.map_congr_left
  intro i hi'
  rw [List.mem_range] at hi'
  have hc : ((n - 1 : Nat) : K) = (n : K) - 1 := by
    rw [Nat.cast_sub (by omega)]; simp
  have hne : (n : K) - 1 ≠ 0 := by
    rw [← hc]; exact_mod_cast (by omega : n - 1 ≠ 0)
  rw [hc, fin_sub, fin_div_of_ne _ hne]
  unfold gridPt
  split
  · rename_i h
    have : (i : K) = (n : K) - 1 := by
      rw [← hc]; exact_mod_cast (by omega : i = n - 1)
    rw [this]
    congr 1
    field_simp
    ring
  · simp only [fin_mul, fin_add]
    rw [add_comm]

theorem npLinspace_one (lo hi : K) : npLinspace (fin lo) (fin hi) 1 = [fin lo] := by
  simp [npLinspace]

theorem gridPt_zero (lo hi : K) (n : Nat) : gridPt lo hi n 0 = lo := by simp [gridPt]

theorem gridPt_last (lo hi : K) (n : Nat) (hn : 2 ≤ n) : gridPt lo hi n (n - 1) = hi := by
  have hc : ((n - 1 : Nat) : K) = (n : K) - 1 := by
    rw [Nat.cast_sub (by omega)]; simp
  have hne : (n : K) - 1 ≠ 0 := by
    rw [← hc]; exact_mod_cast (by omega : n - 1 ≠ 0)
  unfold gridPt
  rw [hc]; field_simp; ring

theorem gridPt_mono {lo hi : K} (h : lo ≤ hi) (n : Nat) (hn : 2 ≤ n) {i j : Nat} (hij : i ≤ j) :
    gridPt lo hi n i ≤ gridPt lo hi n j := by
  have hpos : (0 : K) ≤ (hi - lo) / ((n : K) - 1) := by
    apply div_nonneg (sub_nonneg.2 h)
    have : (1 : K) ≤ n := by exact_mod_cast (by omega : 1 ≤ n)
    linarith
  unfold gridPt
  have : (i : K) ≤ j := by exact_mod_cast hij
  have := mul_le_mul_of_nonneg_right this hpos
  linarith

theorem gridPt_strictMono {lo hi : K} (h : lo < hi) (n : Nat) (hn : 2 ≤ n) {i j : Nat} (hij : i < j) :
    gridPt lo hi n i < gridPt lo hi n j := by
  have hpos : (0 : K) < (hi - lo) / ((n : K) - 1) := by
    apply div_pos (sub_pos.2 h)
    have : (2 : K) ≤ n := by exact_mod_cast hn
    linarith
  unfold gridPt
  have : (i : K) < j := by exact_mod_cast hij
  have := mul_lt_mul_of_pos_right this hpos
  linarith

theorem gridPt_mem {lo hi : K} (h : lo ≤ hi) (n : Nat) (hn : 2 ≤ n) {i : Nat} (hi' : i < n) :
    lo ≤ gridPt lo hi n i ∧ gridPt lo hi n i ≤ hi := by
  constructor
  · have := gridPt_mono h n hn (Nat.zero_le i)
    rwa [gridPt_zero] at this
  · have := gridPt_mono h n hn (show i ≤ n - 1 by omega)
    rwa [gridPt_last lo hi n hn] at this

/-! ### `get_interpolated_values` on lawful interpolators -/

/-- On finite data with increasing abscissae `get_interpolated_values` returns the uniform grid and the finite interpolated values. -/
theorem getInterpolatedValues_ok (ip : InterpFam K) {k : String} {m : Nat} (hip : Lawful (ip k) m) (xs ys : List K)
    (hl : xs.length = ys.length) (hm : m ≤ xs.length) (h2 : 2 ≤ xs.length) (hx : Incr xs) (num : Nat)
    {lo hi : K} (hlo : lo ∈ xs) (hlo' : ∀ x ∈ xs, lo ≤ x) (hhi : hi ∈ xs) (hhi' : ∀ x ∈ xs, x ≤ hi) :
    ∃ vs : List K, vs.length = max num xs.length ∧
      getInterpolatedValues ip (xs.map fin) (ys.map fin) num (some k) =
        .ok ((List.range (max num xs.length)).map (fun i => fin (gridPt lo hi (max num xs.length) i)), vs.map fin) ∧
      ∀ i (h : i < vs.length),
        ip k (xs.map fin) (ys.map fin) (fin (gridPt lo hi (max num xs.length) i)) = .ok (fin vs[i]) := by
  have hne : xs ≠ [] := by rintro rfl; simp at h2
  obtain ⟨lo', h1, hmin, h1'⟩ := pyMin_fin hne
  obtain ⟨hi', h3, hmax, h3'⟩ := pyMax_fin hne
  have e1 : lo' = lo := le_antisymm (h1' _ hlo) (hlo' _ h1)
  have e2 : hi' = hi := le_antisymm (hhi' _ h3) (h3' _ hhi)
  subst e1 e2
  have hn : (if (xs.map (fin : K → F K)).length > num then (xs.map (fin : K → F K)).length else num) = max num xs.length := by
    simp only [List.length_map]; split <;> omega
  have hn2 : 2 ≤ max num xs.length := by omega
  have hv : ∀ i, ∃ v, i < max num xs.length →
      ip k (xs.map fin) (ys.map fin) (fin (gridPt lo' hi' (max num xs.length) i)) = .ok (fin v) := by
    intro i
    by_cases hi : i < max num xs.length
    · obtain ⟨g1, g2⟩ := gridPt_mem (h1' _ h3) _ hn2 hi
      obtain ⟨v, hv⟩ := hip.total xs ys hl hm hx _ ⟨⟨lo', h1, g1⟩, ⟨hi', h3, g2⟩⟩
      exact ⟨v, fun _ => hv⟩
    · exact ⟨0, fun h => absurd h hi⟩
  choose f hf using hv
  refine ⟨(List.range (max num xs.length)).map f, by simp, ?_, ?_⟩
  · simp only [getInterpolatedValues, hmin, hmax, Except.bind_ok, hn, npLinspace_fin lo' hi' _ hn2]
    rw [mapM_ok_of_forall (g := fun q => match ip k (xs.map fin) (ys.map fin) q with | .ok v => v | .error _ => nan)]
    · simp only [Except.bind_ok, List.map_map]
      congr 2
      apply List.map_congr_left
      intro i hi
      simp only [Function.comp]
      rw [hf i (List.mem_range.1 hi)]
    · intro q hq
      obtain ⟨i, hi, rfl⟩ := List.mem_map.1 hq
      rw [hf i (List.mem_range.1 hi)]
  · intro i h
    simp only [List.getElem_map, List.getElem_range]
    exact hf i (by simpa using h)

end Verif

import Verif.Base.Nearest
import Verif.Lemmas.Interp

/-!
# What `interp1d(kind='nearest')` returns
-/

set_option linter.unusedSectionVars false
set_option linter.unusedVariables false

namespace Verif

open F Spec

theorem takeWhile_spec {α : Type} (p : α → Bool) (l : List α) :
    (∀ j, j < (l.takeWhile p).length → ∃ h : j < l.length, p l[j] = true) ∧
    (∀ h : (l.takeWhile p).length < l.length, p l[(l.takeWhile p).length] = false) ∧ (l.takeWhile p).length ≤ l.length := by
  induction l with
  | nil => simp
  | cons a l ih =>
    by_cases h : p a = true
    · rw [List.takeWhile_cons_of_pos h]
      refine ⟨fun j hj => ?_, fun hj => ?_, ?_⟩
      · cases j with
        | zero => exact ⟨by simp, by simpa using h⟩
        | succ j =>
          obtain ⟨h1, h2⟩ := ih.1 j (by simpa using hj)
          exact ⟨by simpa using h1, by simpa using h2⟩
      · simp only [List.length_cons, List.getElem_cons_succ]
        exact ih.2.1 (by simpa using hj)
      · simpa using ih.2.2
    · rw [List.takeWhile_cons_of_neg h]
      refine ⟨fun j hj => by simp at hj, fun hj => ?_, by simp⟩
      simpa using h

section
variable {K : Type} [Field K] [LinearOrder K] [IsStrictOrderedRing K]

/-- Any map of the values commutes with nearest-neighbour interpolation, for every query. -/
theorem nearest_map (f : F K → F K) (x y : List (F K)) (q : F K) :
    nearestInterp x (y.map f) q = (nearestInterp x y q).map f := by
  have hg : ∀ i : Nat, getItem (y.map f) i = (getItem y i).map f := by
    intro i
    unfold getItem
    rw [List.getElem?_map]
    cases y[i]? <;> rfl
  unfold nearestInterp
  rw [List.length_map]
  by_cases h : x.length ≠ y.length
  · rw [if_pos h, if_pos h]; rfl
  rw [if_neg h, if_neg h]
  cases x.head? with
  | none => rfl
  | some a =>
    cases x.getLast? with
    | none => rfl
    | some b =>
      dsimp only
      rw [hg]
      split_ifs <;> rfl

/-- The result is the value at a nearest radius, the smaller one of two equally near ones. -/
theorem nearest_spec (xs ys : List K) (hl : xs.length = ys.length) (hx : Incr xs) (q : K) (hq : InRange xs q) :
    ∃ k, ∃ h : k < xs.length, nearestInterp (xs.map fin) (ys.map fin) (fin q) = .ok (fin (ys[k]'(hl ▸ h))) ∧
      (∀ j (hj : j < xs.length), |xs[k] - q| ≤ |xs[j] - q|) ∧ ∀ j (hj : j < k), |xs[k] - q| < |xs[j] - q| := by
  have hne : xs ≠ [] := by
    rintro rfl
    obtain ⟨⟨a, ha, _⟩, _⟩ := hq
    simp at ha
  have hpos : 0 < xs.length := List.length_pos_of_ne_nil hne
  have lt_of : ∀ i j (hij : i < j) (hj : j < xs.length), xs[i] < xs[j] := fun i j hij hj =>
    List.pairwise_iff_getElem.1 hx i j (by omega) hj hij
  have le_of : ∀ i j (hij : i ≤ j) (hj : j < xs.length), xs[i] ≤ xs[j] := by
    intro i j hij hj
    rcases Nat.lt_or_ge i j with h | h
    · exact (lt_of i j h hj).le
    · have : i = j := by omega
      subst this; exact le_rfl
  have hlo : xs[0] ≤ q := by
    obtain ⟨⟨a, ha, haq⟩, _⟩ := hq
    obtain ⟨i, hi, rfl⟩ := List.getElem_of_mem ha
    exact (le_of 0 i (Nat.zero_le _) hi).trans haq
  have hhi : q ≤ xs[xs.length - 1] := by
    obtain ⟨_, b, hb, hqb⟩ := hq
    obtain ⟨i, hi, rfl⟩ := List.getElem_of_mem hb
    exact hqb.trans (le_of i _ (by omega) (by omega))
  let mids : List K := List.zipWith (fun u v => u / 2 + v / 2) xs.dropLast xs.tail
  have hmid : List.zipWith (fun u v => u / fin 2 + v / fin 2) (xs.map fin).dropLast (xs.map fin).tail = mids.map fin := by
    rw [← List.map_dropLast, ← List.map_tail, List.zipWith_map, List.map_zipWith]
    congr 1
    funext u v
    rw [fin_div_of_ne _ (by norm_num), fin_div_of_ne _ (by norm_num), fin_add]
  have hml : mids.length = xs.length - 1 := by simp [mids]
  have hmg : ∀ j (h : j < mids.length), mids[j] = xs[j]'(by omega) / 2 + xs[j + 1]'(by omega) / 2 := by
    intro j h
    simp [mids, List.getElem_zipWith, List.getElem_dropLast, List.getElem_tail]
  have htw : ((mids.map fin).takeWhile (fun m => F.lt m (fin q))).length = (mids.takeWhile (fun m => decide (m < q))).length := by
    rw [List.takeWhile_map, List.length_map]
    congr 2
  obtain ⟨t1, t2, t3⟩ := takeWhile_spec (fun m => decide (m < q)) mids
  generalize hi : (mids.takeWhile (fun m => decide (m < q))).length = i at t1 t2 t3 htw
  have hib : i < xs.length := by omega
  have hval : nearestInterp (xs.map fin) (ys.map fin) (fin q) = .ok (fin (ys[i]'(hl ▸ hib))) := by
    unfold nearestInterp
    have hh : (xs.map fin).head? = some (fin xs[0]) := by
      rw [List.head?_map, List.head?_eq_getElem?, List.getElem?_eq_getElem hpos]; rfl
    have hg : (xs.map fin).getLast? = some (fin xs[xs.length - 1]) := by
      rw [List.getLast?_map, List.getLast?_eq_getElem?, List.getElem?_eq_getElem (by omega)]; rfl
    rw [if_neg (by simp [hl]), hh, hg]
    dsimp only
    have hc : (F.lt (fin q) (fin xs[0]) || F.lt (fin xs[xs.length - 1]) (fin q)) = false := by
      simp [hlo, hhi]
    rw [hc, if_neg (by simp), isNaN_fin, if_neg (by simp), hmid, htw]
    unfold getItem
    rw [List.getElem?_map, List.getElem?_eq_getElem (hl ▸ hib)]
    rfl
  have hbelow : ∀ j (hj : j < i), |xs[i] - q| < |xs[j] - q| := by
    intro j hj
    obtain ⟨h1, h2⟩ := t1 (i - 1) (by omega)
    rw [hmg (i - 1) h1] at h2
    simp only [decide_eq_true_eq] at h2
    have e : xs[i - 1 + 1]'(by omega) = xs[i] := by
      congr 1; omega
    rw [e] at h2
    have h3 := le_of j (i - 1) (by omega) (by omega)
    have h4 := lt_of (i - 1) i (by omega) hib
    have h5 : q - xs[j] ≤ |xs[j] - q| := by rw [abs_sub_comm]; exact le_abs_self _
    have h6 : |xs[i] - q| < q - xs[i - 1] := by rw [abs_lt]; constructor <;> linarith
    linarith
  refine ⟨i, hib, hval, fun j hj => ?_, fun j hj => hbelow j hj⟩
  rcases Nat.lt_trichotomy j i with h | h | h
  · exact (hbelow j h).le
  · subst h; exact le_rfl
  · have hm : i < mids.length := by omega
    have h2 := t2 hm
    rw [hmg i hm] at h2
    simp only [decide_eq_false_iff_not, not_lt] at h2
    have h3 := le_of (i + 1) j (by omega) hj
    have h4 := lt_of i (i + 1) (by omega) (by omega)
    have h5 : xs[j] - q ≤ |xs[j] - q| := le_abs_self _
    have h6 : |xs[i] - q| ≤ xs[i + 1] - q := by rw [abs_le]; constructor <;> linarith
    linarith

end
end Verif

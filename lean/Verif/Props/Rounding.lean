import Verif.Lemmas.Rounding
import Verif.Lemmas.Argmin
import Verif.Lemmas.Interp
import Verif.Props.PetrosianRadius

/-!
# C109-C115: the Petrosian code in floating point arithmetic
-/

set_option linter.unusedSectionVars false
set_option linter.unusedVariables false

namespace Verif.Props

open F Spec

section
variable {K : Type} [Field K] [LinearOrder K] [IsStrictOrderedRing K]

@[simp] theorem rnd_fin (fl : K → K) (x : K) : (fin x).rnd fl = fin (fl x) := rfl

theorem rnd_id (x : F K) : x.rnd id = x := by cases x <;> rfl

/-- Without rounding the rounded model is the exact one. -/
theorem rounded_exact : (∀ (a b : F K) n, npLinspaceR id a b n = npLinspace a b n) ∧
    (∀ (v : F K) l g, closestValueIndexR id v l g = closestValueIndex v l g) ∧
    (∀ ip (r p : List (F K)) eta k n, calculatePetrosianRR id ip r p eta k n = (calculatePetrosianR ip r p none eta k n).map Prod.fst) ∧
    (∀ ip f (r y : List (F K)) rp e ef k n,
      fractionToRR id ip f r y rp e ef k n = (fractionToR ip f r y rp none none e ef k n).map Prod.fst) ∧
    (∀ [HasSqrt K] (a f : List (F K)), calculatePetrosianFl id a f = (calculatePetrosian a f).map Prod.fst) := by
  have h1 : ∀ (a b : F K) n, npLinspaceR id a b n = npLinspace a b n := by
    intro a b n
    unfold npLinspaceR npLinspace
    simp only [rnd_id]
  have h2 : ∀ (v : F K) l g, closestValueIndexR id v l g = closestValueIndex v l g := by
    intro v l g
    unfold closestValueIndexR closestValueIndex
    simp only [rnd_id]
    rfl
  have h3 : ∀ ip (x y : List (F K)) n k, getInterpolatedValuesR id ip x y n k = getInterpolatedValues ip x y n k := by
    intro ip x y n k
    unfold getInterpolatedValuesR getInterpolatedValues
    simp only [h1]
    rfl
  have h4 : ∀ (v : F K) xy g, radiusAtR id v xy g = radiusAt v xy g := by
    intro v xy g
    unfold radiusAtR radiusAt
    simp only [h2]
    rfl
  refine ⟨h1, h2, ?_, ?_, ?_⟩
  · intro ip r p eta k n
    unfold calculatePetrosianRR calculatePetrosianR
    simp only [h3, h4]
    cases setItem0 r (fin 0) <;> simp only [bind, Except.bind, Except.map]
    cases setItem0 p (fin 1) <;> simp only [bind, Except.bind, Except.map]
    rename_i r' p'
    cases getInterpolatedValues ip r' p' n k <;> simp only [bind, Except.bind, Except.map]
    rename_i xy
    cases radiusAt eta xy false <;> simp only [bind, Except.bind, Except.map]
  · intro ip f r y rp e ef k n
    unfold fractionToRR fractionToR
    simp only [h3, h4, rnd_id]
    cases pyMax r <;> simp only [bind, Except.bind, Except.map]
    split
    · rfl
    rename_i hi _
    cases ip (k.getD "cubic") r y (rp * e) <;> simp only [bind, Except.bind, Except.map]
    cases pyDiv f ef <;> simp only [bind, Except.bind, Except.map]
    cases getInterpolatedValues ip r y n k <;> simp only [bind, Except.bind, Except.map]
    rename_i E q xy
    cases radiusAt (E * q) xy true <;> simp only [bind, Except.bind, Except.map]
  · intro _ a f
    have hd : ∀ l : List (F K), (npDiff l).map (F.rnd id) = npDiff l := by
      intro l
      conv_rhs => rw [← List.map_id (npDiff l)]
      apply List.map_congr_left
      intro x _; exact rnd_id x
    have hr : petrosianRawR id a f = petrosianRaw a f := by
      unfold petrosianRawR petrosianRaw
      simp only [hd, rnd_id]
    unfold calculatePetrosianFl calculatePetrosian
    rw [hr]
    cases petrosianRaw a f <;> simp only [bind, Except.bind, Except.map]
    rename_i raw
    cases fancyIndex raw (uniqueInverse a) <;> simp [bind, Except.bind, Except.map]

/-! ### C109: the sampling grid -/

theorem Rounding.zero {fl : K → K} (h : Rounding fl) : fl 0 = 0 := by
  have := h.neg 0
  rw [neg_zero] at this
  linarith

theorem Rounding.nonneg {fl : K → K} (h : Rounding fl) {x : K} (hx : 0 ≤ x) : 0 ≤ fl x := by
  rw [← Rounding.zero h]; exact h.mono hx

theorem Rounding.abs {fl : K → K} (h : Rounding fl) (x : K) : |fl x| = fl |x| := by
  rcases le_total 0 x with hx | hx
  · rw [abs_of_nonneg hx, abs_of_nonneg (Rounding.nonneg h hx)]
  · have := Rounding.nonneg h (neg_nonneg.2 hx)
    rw [abs_of_nonpos hx, h.neg]
    rw [h.neg] at this
    exact abs_of_nonpos (by linarith)

theorem relErr_le {u : K} {fl : K → K} (h : RelErr u fl) {x : K} (hx : 0 ≤ x) : fl x ≤ (1 + u) * x ∧ (1 - u) * x ≤ fl x := by
  have := h x
  rw [abs_of_nonneg hx, abs_le] at this
  constructor <;> linarith

/-- **C109, the rounding of the examples.** `rne` rounds to the nearest whole number and a tie to the even one. -/
theorem C109_nearest_even [FloorRing K] (x : K) (n : ℤ) : rne x = n ↔ |x - n| < 1 / 2 ∨ (|x - n| = 1 / 2 ∧ Even n) := by
  have h1 := Int.floor_le x
  have h2 := Int.lt_floor_add_one x
  constructor
  · rintro rfl
    have hn := rne_near x
    rw [abs_sub_comm] at hn
    rcases hn.lt_or_eq with h | h
    · exact Or.inl h
    · refine Or.inr ⟨h, ?_⟩
      revert h
      unfold rne
      split_ifs with c1 c2 c3
      · rw [abs_of_nonneg (by linarith)]; intro h; linarith
      · push_cast
        rw [abs_of_nonpos (by linarith)]; intro h; linarith
      · intro _; exact Int.even_iff.2 c3
      · intro _; exact Int.even_iff.2 (by omega)
  · have key : ∀ n : ℤ, |x - n| ≤ 1 / 2 → n = ⌊x⌋ ∨ n = ⌊x⌋ + 1 := by
      intro n h
      obtain ⟨a, b⟩ := abs_le.1 h
      have e1 : n < ⌊x⌋ + 2 := by
        have : (n : K) < ⌊x⌋ + 2 := by linarith
        exact_mod_cast this
      have e2 : ⌊x⌋ - 1 < n := by
        have : (⌊x⌋ : K) - 1 < n := by linarith
        exact_mod_cast this
      omega
    rintro (h | ⟨h, he⟩)
    · obtain ⟨a, b⟩ := abs_lt.1 h
      rcases key n h.le with rfl | rfl
      · unfold rne
        rw [if_pos b]
      · push_cast at a b
        unfold rne
        rw [if_neg (by linarith), if_pos (by linarith)]
    · rw [Int.even_iff] at he
      rcases key n h.le with rfl | rfl
      · have : x - ⌊x⌋ = 1 / 2 := by rwa [abs_of_nonneg (by linarith)] at h
        unfold rne
        rw [this, if_neg (lt_irrefl _), if_neg (lt_irrefl _), if_pos he]
      · have : x - ⌊x⌋ = 1 / 2 := by
          push_cast at h
          rw [abs_of_nonpos (by linarith)] at h
          linarith
        unfold rne
        rw [this, if_neg (lt_irrefl _), if_neg (lt_irrefl _), if_neg (by omega)]

/-- **C109.** The sampling grid in floating point: it starts at the smallest radius, ends at the largest, is sorted and never leaves the
interval, if the number of samples is small compared to the precision (5000 and 53 bits). -/
theorem C109_grid {fl : K → K} (hfl : Rounding fl) {u : K} (hu : RelErr u fl) (hu0 : 0 ≤ u) {lo hi : K} (hlo : fl lo = lo) (hhi : fl hi = hi)
    (h : lo ≤ hi) (n : Nat) (hn : 2 ≤ n) (hnu : ((n : K) - 2) * (1 + u) ^ 3 ≤ (n : K) - 1) :
    ∃ xs : List K, npLinspaceR fl (fin lo) (fin hi) n = xs.map fin ∧ xs.length = n ∧ xs[0]? = some lo ∧ xs[n - 1]? = some hi ∧
      xs.Pairwise (· ≤ ·) ∧ ∀ x ∈ xs, lo ≤ x ∧ x ≤ hi := by
  have hc : ((n - 1 : Nat) : K) = (n : K) - 1 := by
    rw [Nat.cast_sub (by omega)]; simp
  have hn' : (2 : K) ≤ n := by exact_mod_cast hn
  have hne : (n : K) - 1 ≠ 0 := by linarith
  set s : K := fl (fl (hi - lo) / ((n : K) - 1)) with hs
  let pt : Nat → K := fun i => if 1 < n ∧ i + 1 = n then hi else fl (fl ((i : K) * s) + lo)
  have hs0 : 0 ≤ s := Rounding.nonneg hfl (div_nonneg (Rounding.nonneg hfl (by linarith)) (by linarith))
  have hs1 : s * ((n : K) - 1) ≤ (1 + u) ^ 2 * (hi - lo) := by
    have h1 := (relErr_le hu (x := hi - lo) (by linarith)).1
    have h2 := (relErr_le hu (x := fl (hi - lo) / ((n : K) - 1)) (div_nonneg (Rounding.nonneg hfl (by linarith)) (by linarith))).1
    have h3 : s * ((n : K) - 1) ≤ (1 + u) * fl (hi - lo) := by
      calc s * ((n : K) - 1) ≤ (1 + u) * (fl (hi - lo) / ((n : K) - 1)) * ((n : K) - 1) := mul_le_mul_of_nonneg_right h2 (by linarith)
        _ = _ := by rw [mul_assoc, div_mul_cancel₀ _ hne]
    calc _ ≤ _ := h3
      _ ≤ (1 + u) * ((1 + u) * (hi - lo)) := mul_le_mul_of_nonneg_left h1 (by linarith)
      _ = _ := by ring
  have hbound : ∀ i, i + 1 < n → lo ≤ fl (fl ((i : K) * s) + lo) ∧ fl (fl ((i : K) * s) + lo) ≤ hi := by
    intro i hi'
    have hi0 : (0 : K) ≤ i := Nat.cast_nonneg i
    have hi2 : (i : K) ≤ (n : K) - 2 := by
      have : ((i + 2 : Nat) : K) ≤ n := by exact_mod_cast hi'
      push_cast at this; linarith
    have h1 : 0 ≤ fl ((i : K) * s) := Rounding.nonneg hfl (mul_nonneg hi0 hs0)
    constructor
    · calc lo = fl lo := hlo.symm
        _ ≤ _ := hfl.mono (by linarith)
    · have h2 := (relErr_le hu (mul_nonneg hi0 hs0)).1
      have h3 : fl ((i : K) * s) * ((n : K) - 1) ≤ (hi - lo) * ((n : K) - 1) := by
        calc fl ((i : K) * s) * ((n : K) - 1) ≤ (1 + u) * ((i : K) * s) * ((n : K) - 1) := mul_le_mul_of_nonneg_right h2 (by linarith)
          _ = (1 + u) * (i : K) * (s * ((n : K) - 1)) := by ring
          _ ≤ (1 + u) * (i : K) * ((1 + u) ^ 2 * (hi - lo)) := mul_le_mul_of_nonneg_left hs1 (mul_nonneg (by linarith) hi0)
          _ = ((i : K) * (1 + u) ^ 3) * (hi - lo) := by ring
          _ ≤ (((n : K) - 2) * (1 + u) ^ 3) * (hi - lo) := by
            apply mul_le_mul_of_nonneg_right _ (by linarith)
            exact mul_le_mul_of_nonneg_right hi2 (pow_nonneg (by linarith) 3)
          _ ≤ ((n : K) - 1) * (hi - lo) := mul_le_mul_of_nonneg_right hnu (by linarith)
          _ = _ := by ring
      have h4 := le_of_mul_le_mul_right h3 (by linarith)
      calc _ ≤ fl hi := hfl.mono (by linarith)
        _ = hi := hhi
  have hpt : ∀ i, i < n → lo ≤ pt i ∧ pt i ≤ hi := by
    intro i hi'
    simp only [pt]
    split
    · exact ⟨h, le_rfl⟩
    · exact hbound i (by omega)
  refine ⟨(List.range n).map pt, ?_, by simp, ?_, ?_, ?_, ?_⟩
  · unfold npLinspaceR
    simp only [show 1 < n by omega, true_and, if_true, hc, fin_sub, rnd_fin, List.map_map]
    apply List.map_congr_left
    intro i _
    rw [fin_div_of_ne _ hne, rnd_fin]
    simp only [Function.comp_apply, pt, show 1 < n by omega, true_and]
    split
    · rfl
    · rw [fin_mul, rnd_fin, fin_add, rnd_fin]
  · rw [List.getElem?_map, List.getElem?_range (by omega)]
    simp only [Option.map_some, pt]
    rw [if_neg (by omega), Nat.cast_zero, zero_mul, Rounding.zero hfl, zero_add, hlo]
  · rw [List.getElem?_map, List.getElem?_range (by omega)]
    simp only [Option.map_some, pt]
    rw [if_pos (by omega)]
  · rw [List.pairwise_map]
    refine List.Pairwise.imp_of_mem ?_ (List.pairwise_lt_range (n := n))
    intro i j hi' hj' hij
    rw [List.mem_range] at hi' hj'
    simp only [pt]
    rw [if_neg (by omega : ¬ (1 < n ∧ i + 1 = n))]
    split
    · exact (hbound i (by omega)).2
    · apply hfl.mono
      have : fl ((i : K) * s) ≤ fl ((j : K) * s) := by
        apply hfl.mono
        apply mul_le_mul_of_nonneg_right _ hs0
        exact_mod_cast hij.le
      linarith
  · intro x hx
    obtain ⟨i, hi', rfl⟩ := List.mem_map.1 hx
    exact hpt i (List.mem_range.1 hi')

/-- The default number of samples is far below the limit of binary64. -/
theorem C109_defaults (n : Nat) (hn : 2 ≤ n) (hn' : n ≤ 10 ^ 15) : ((n : K) - 2) * (1 + (2 : K) ^ (-((53 : Nat) : ℤ))) ^ 3 ≤ (n : K) - 1 := by
  have h1 : (n : K) ≤ 10 ^ 15 := by exact_mod_cast hn'
  have h2 : (2 : K) ≤ n := by exact_mod_cast hn
  have e : (2 : K) ^ (-((53 : Nat) : ℤ)) = 1 / 2 ^ 53 := by
    rw [zpow_neg, zpow_natCast, one_div]
  rw [e]
  have h3 : (1 + 1 / 2 ^ 53 : K) ^ 3 ≤ 1 + 1 / 10 ^ 15 := by norm_num
  calc ((n : K) - 2) * (1 + 1 / 2 ^ 53 : K) ^ 3 ≤ ((n : K) - 2) * (1 + 1 / 10 ^ 15) := mul_le_mul_of_nonneg_left h3 (by linarith)
    _ = (n : K) - 2 + ((n : K) - 2) / 10 ^ 15 := by ring
    _ ≤ (n : K) - 2 + 1 := by
      have : ((n : K) - 2) / 10 ^ 15 ≤ 1 := by rw [div_le_one (by positivity)]; linarith
      linarith
    _ = _ := by ring

/-! ### C110: the closest value -/

/-- **C110.** `closest_value_index` in floating point, on finite arrays: it looks at the same first samples as in exact arithmetic, and takes
the first one whose rounded distance is least. -/
theorem C110_closest {fl : K → K} (hfl : Rounding fl) (v : K) (a : List K) (g : Bool) :
    (closestValueIndexR fl (fin v) (a.map fin) g = .ok none ↔ ∀ x ∈ a, ¬ Reaches g v x) ∧
    (∀ i, closestValueIndexR fl (fin v) (a.map fin) g = .ok (some i) ↔
      ∃ k, ∃ hk : k < a.length, ∃ hi : i ≤ k, Reaches g v a[k] ∧ (∀ j (hj : j < k), ¬ Reaches g v a[j]) ∧
        (∀ j (hj : j ≤ k), fl |a[i] - v| ≤ fl |a[j] - v|) ∧ ∀ j (hj : j < i), fl |a[i] - v| < fl |a[j] - v|) ∧
    (∀ err, closestValueIndexR fl (fin v) (a.map fin) g ≠ .error err) := by
  have hdef : closestValueIndexR fl (fin v) (a.map fin) g = (match firstWhere (crossing g (fin v)) (a.map fin) with
      | none => .ok none
      | some idx => npArgmin (((a.map fin).take (idx + 1)).map fun x => F.abs ((x - fin v).rnd fl)) >>= fun i => .ok (some i)) := rfl
  rw [hdef]
  have hcr : ∀ x : K, crossing g (fin v) (fin x) = true ↔ Reaches g v x := fun x => by
    unfold crossing Reaches; split <;> simp
  have hcr' : ∀ x : K, crossing g (fin v) (fin x) = false ↔ ¬ Reaches g v x := fun x => by
    rw [← hcr]; simp
  cases hw : firstWhere (crossing g (fin v)) (a.map fin) with
  | none =>
    have h := firstWhere_eq_none.1 hw
    have h' : ∀ x ∈ a, ¬ Reaches g v x := fun x hx => (hcr' x).1 (h _ (List.mem_map_of_mem hx))
    refine ⟨by simpa using h', fun i => ?_, fun err h => by cases h⟩
    constructor
    · intro h; cases h
    · rintro ⟨k, hk, _, hr, _⟩
      exact absurd hr (h' _ (List.getElem_mem hk))
  | some k =>
    obtain ⟨hk, h2, h3⟩ := firstWhere_eq_some.1 hw
    have hk' : k < a.length := by simpa using hk
    simp only [List.getElem_map] at h2 h3
    have hL : (((a.map fin).take (k + 1)).map fun x => F.abs ((x - fin v).rnd fl)) = ((a.take (k + 1)).map fun x => fin (fl |x - v|)) := by
      rw [← List.map_take, List.map_map]
      apply List.map_congr_left
      intro x _
      simp only [Function.comp_apply, fin_sub, rnd_fin, abs_fin, Rounding.abs hfl]
    have hne : ((a.take (k + 1)).map fun x => fin (fl |x - v|)) ≠ [] := by
      intro h
      have := congrArg List.length h
      simp at this
      subst this; simp at hk
    obtain ⟨r, hr, hr1, hr2, hr3⟩ := npArgmin_spec hne
    have hrk : r ≤ k := by simp at hr1; omega
    simp only [hL, hr, Except.bind_ok]
    have m2 : ∀ j (hj : j ≤ k), fl |a[r] - v| ≤ fl |a[j] - v| := by
      intro j hj
      have := hr2 j (by simp; omega)
      simpa [nle_fin] using this
    have m3 : ∀ j (hj : j < r), fl |a[r] - v| < fl |a[j] - v| := by
      intro j hj
      have := hr3 j hj
      simpa [nle_fin] using this
    have hreach := (hcr _).1 h2
    have hfirst : ∀ j (hj : j < k), ¬ Reaches g v a[j] := fun j hj => (hcr' _).1 (h3 j hj)
    refine ⟨?_, fun i => ?_, fun err h => by cases h⟩
    · constructor
      · intro h; cases h
      · intro h; exact absurd hreach (h _ (List.getElem_mem hk'))
    · constructor
      · intro h
        injection h with h; injection h with h
        subst h
        exact ⟨k, hk', hrk, hreach, hfirst, m2, m3⟩
      · rintro ⟨k', hk2, hi, g1, g2, g3, g4⟩
        have hkk : k' = k := by
          rcases lt_trichotomy k' k with h | h | h
          · exact absurd g1 (hfirst k' h)
          · exact h
          · exact absurd hreach (g2 k h)
        subst hkk
        have : r = i := by
          rcases lt_trichotomy r i with h | h | h
          · exact absurd (m2 i hi) (not_le.2 (g4 r h))
          · exact h
          · exact absurd (g3 r hrk) (not_le.2 (m3 i h))
        rw [this]

/-- The distance of the chosen sample is the least one up to rounding; a sample equal to the value is found exactly. -/
theorem C110_near {fl : K → K} (hfl : Rounding fl) {u : K} (hu : RelErr u fl) (hu0 : 0 ≤ u) (hu1 : u < 1) (v : K) (a : List K) (g : Bool) {i : Nat}
    (h : closestValueIndexR fl (fin v) (a.map fin) g = .ok (some i)) :
    ∃ k, ∃ hk : k < a.length, ∃ hi : i ≤ k, Reaches g v a[k] ∧ (∀ j (hj : j < k), ¬ Reaches g v a[j]) ∧
      (∀ j (hj : j ≤ k), (1 - u) * |a[i] - v| ≤ (1 + u) * |a[j] - v|) ∧ (a[k] = v → a[i] = v) := by
  obtain ⟨k, hk, hi, h1, h2, h3, h4⟩ := ((C110_closest hfl v a g).2.1 i).1 h
  have key : ∀ j (hj : j ≤ k), (1 - u) * |a[i] - v| ≤ (1 + u) * |a[j] - v| := fun j hj =>
    ((relErr_le hu (abs_nonneg _)).2.trans (h3 j hj)).trans (relErr_le hu (abs_nonneg _)).1
  refine ⟨k, hk, hi, h1, h2, key, fun he => ?_⟩
  have := key k le_rfl
  rw [he, sub_self, abs_zero, mul_zero] at this
  have h5 : |a[i] - v| ≤ 0 := by
    by_contra hc
    have : 0 < (1 - u) * |a[i] - v| := mul_pos (by linarith) (not_le.1 hc)
    linarith
  have := abs_nonpos_iff.1 h5
  linarith

/-! ### C111: radii exist and stay in range -/

theorem getInterpolatedValuesR_ok {fl : K → K} (hfl : Rounding fl) {u : K} (hu : RelErr u fl) (hu0 : 0 ≤ u) (ip : InterpFam K) {k : String}
    {m : Nat} (hip : RangeLaw (ip k) m) (R Y : List K) (hl : R.length = Y.length) (hm : m ≤ R.length) (h2 : 2 ≤ R.length) (hR : Incr R)
    (hrep : ∀ x ∈ R, fl x = x) (num : Nat) (hnu : ((max num R.length : Nat) : K) * (1 + u) ^ 3 - 2 * (1 + u) ^ 3 ≤ (max num R.length : Nat) - 1) :
    ∃ xs ys : List K, getInterpolatedValuesR fl ip (R.map fin) (Y.map fin) num (some k) = .ok (xs.map fin, ys.map fin) ∧
      xs.length = ys.length ∧ xs.Pairwise (· ≤ ·) ∧ (∀ x ∈ xs, InRange R x) ∧
      List.Forall₂ (fun x y => ip k (R.map fin) (Y.map fin) (fin x) = .ok (fin y)) xs ys := by
  have hne : R ≠ [] := by rintro rfl; simp at h2
  obtain ⟨lo, l1, hmin, l1'⟩ := pyMin_fin hne
  obtain ⟨hi, l3, hmax, l3'⟩ := pyMax_fin hne
  have hnum : (if (R.map fin).length > num then (R.map fin).length else num) = max num R.length := by
    rw [List.length_map]; split <;> omega
  obtain ⟨xs, hx, hxl, -, -, hsort, hrange⟩ := C109_grid hfl hu hu0 (hrep lo l1) (hrep hi l3) (l1' hi l3) (max num R.length) (by omega)
    (by rw [sub_mul]; exact hnu)
  have hin : ∀ x ∈ xs, InRange R x := fun x hx => ⟨⟨lo, l1, (hrange x hx).1⟩, ⟨hi, l3, (hrange x hx).2⟩⟩
  have hys : ∀ L : List K, (∀ x ∈ L, InRange R x) → ∃ ys : List K, (L.map fin).mapM (ip k (R.map fin) (Y.map fin)) = .ok (ys.map fin) ∧
      List.Forall₂ (fun x y => ip k (R.map fin) (Y.map fin) (fin x) = .ok (fin y)) L ys := by
    intro L
    induction L with
    | nil => exact fun _ => ⟨[], rfl, List.Forall₂.nil⟩
    | cons x L ih =>
      intro hL
      obtain ⟨v, hv⟩ := hip.total R Y hl hm hR x (hL x List.mem_cons_self)
      obtain ⟨ys, h1, h2⟩ := ih fun y hy => hL y (List.mem_cons_of_mem _ hy)
      refine ⟨v :: ys, ?_, List.Forall₂.cons hv h2⟩
      rw [List.map_cons, List.mapM_cons, hv, Except.bind_ok, h1, Except.bind_ok]; rfl
  obtain ⟨ys, hy1, hy2⟩ := hys xs hin
  refine ⟨xs, ys, ?_, hy2.length_eq, hsort, hin, hy2⟩
  unfold getInterpolatedValuesR
  simp only [hnum, hmin, hmax, Except.bind_ok, hx, hy1]

theorem radiusAtR_ok {fl : K → K} (hfl : Rounding fl) (v : K) (xs ys : List K) (hl : xs.length = ys.length) (g : Bool) :
    (radiusAtR fl (fin v) (xs.map fin, ys.map fin) g = .ok nan ∧ ∀ y ∈ ys, ¬ Reaches g v y) ∨
    ∃ i, ∃ hi : i < xs.length, closestValueIndexR fl (fin v) (ys.map fin) g = .ok (some i) ∧
      radiusAtR fl (fin v) (xs.map fin, ys.map fin) g = .ok (fin xs[i]) := by
  unfold radiusAtR
  cases hc : closestValueIndexR fl (fin v) (ys.map fin) g with
  | error e => exact absurd hc ((C110_closest hfl v ys g).2.2 e)
  | ok o =>
    cases o with
    | none => exact Or.inl ⟨rfl, (C110_closest hfl v ys g).1.1 hc⟩
    | some i =>
      obtain ⟨k, hk, hi, -⟩ := ((C110_closest hfl v ys g).2.1 i).1 hc
      have hi' : i < xs.length := by omega
      refine Or.inr ⟨i, hi', rfl, ?_⟩
      simp only [Except.bind_ok]
      unfold getItem
      simp [hi']

/-- **C111.** In floating point `calculate_petrosian_r` (without errors) never raises on increasing positive radii and finite profiles: it
returns NaN exactly if no sampled value is at or below eta, and otherwise a radius between 0 and the largest one, at which the sampled
profile is closest to eta up to rounding. -/
theorem C111_petrosian_r {fl : K → K} (hfl : Rounding fl) {u : K} (hu : RelErr u fl) (hu0 : 0 ≤ u) (hu1 : u < 1) (ip : InterpFam K) {k : String}
    {m : Nat} (hip : RangeLaw (ip k) m) (r0 : F K) (R : List K) (p0 : F K) (P : List K) (hl : R.length = P.length) (hm : m ≤ R.length + 1)
    (h2 : 1 ≤ R.length) (hR : Incr (0 :: R)) (hrep : ∀ x ∈ R, fl x = x) (num : Nat)
    (hnu : ((max num (R.length + 1) : Nat) : K) * (1 + u) ^ 3 - 2 * (1 + u) ^ 3 ≤ (max num (R.length + 1) : Nat) - 1) (eta : K) :
    ∃ r, calculatePetrosianRR fl ip (r0 :: R.map fin) (p0 :: P.map fin) (fin eta) (some k) num = .ok r ∧
    ∃ xs ys : List K, xs.Pairwise (· ≤ ·) ∧ xs.length = ys.length ∧ (∀ x ∈ xs, InRange (0 :: R) x) ∧
      List.Forall₂ (fun x y => ip k ((0 :: R).map fin) ((1 :: P).map fin) (fin x) = .ok (fin y)) xs ys ∧
      ((r = nan ∧ ∀ y ∈ ys, eta < y) ∨
        ∃ i n, ∃ hi : i < xs.length, ∃ hi' : i < ys.length, ∃ hn : n < ys.length, i ≤ n ∧ r = fin xs[i] ∧ ys[n] ≤ eta ∧
          (∀ j (hj : j < n), eta < ys[j]) ∧ ∀ j (hj : j ≤ n), (1 - u) * |ys[i] - eta| ≤ (1 + u) * |ys[j] - eta|) := by
  obtain ⟨xs, ys, hg, hxl, hs, hin, hall⟩ := getInterpolatedValuesR_ok hfl hu hu0 ip hip (0 :: R) (1 :: P) (by simp [hl]) (by simpa using hm)
    (by simp; omega) hR (by
      intro x hx
      rcases List.mem_cons.1 hx with rfl | hx
      · exact Rounding.zero hfl
      · exact hrep x hx) num (by simpa using hnu)
  have hcalc : calculatePetrosianRR fl ip (r0 :: R.map fin) (p0 :: P.map fin) (fin eta) (some k) num =
      radiusAtR fl (fin eta) (xs.map fin, ys.map fin) false := by
    unfold calculatePetrosianRR
    simp only [setItem0, Except.bind_ok]
    have e1 : fin 0 :: R.map fin = (0 :: R).map fin := rfl
    have e2 : fin 1 :: P.map fin = (1 :: P).map fin := rfl
    rw [e1, e2, hg, Except.bind_ok]
  rw [hcalc]
  rcases radiusAtR_ok hfl eta xs ys hxl false with ⟨h1, h3⟩ | ⟨i, hi, hc, h1⟩
  · refine ⟨nan, h1, xs, ys, hs, hxl, hin, hall, Or.inl ⟨rfl, fun y hy => ?_⟩⟩
    have := h3 y hy
    simpa [Reaches] using this
  · obtain ⟨n, hn, hin', g1, g2, g3, -⟩ := C110_near hfl hu hu0 hu1 eta ys false hc
    refine ⟨_, h1, xs, ys, hs, hxl, hin, hall, Or.inr ⟨i, n, hi, by omega, hn, hin', rfl, by simpa [Reaches] using g1, fun j hj => ?_, g3⟩⟩
    have := g2 j hj
    simpa [Reaches] using this

/-- The same for `fraction_to_r`: with `r_epsilon` (rounded) inside the radii it never raises; it returns NaN exactly if no sampled flux
reaches the (rounded) target and otherwise a radius in the measured range. -/
theorem C111_fraction_to_r {fl : K → K} (hfl : Rounding fl) {u : K} (hu : RelErr u fl) (hu0 : 0 ≤ u) (hu1 : u < 1) (ip : InterpFam K) {k : String}
    {m : Nat} (hip : RangeLaw (ip k) m) (R Y : List K) (hl : R.length = Y.length) (hm : m ≤ R.length)
    (h2 : 2 ≤ R.length) (hR : Incr R) (hrep : ∀ x ∈ R, fl x = x) (num : Nat)
    (hnu : ((max num R.length : Nat) : K) * (1 + u) ^ 3 - 2 * (1 + u) ^ 3 ≤ (max num R.length : Nat) - 1) (f rp eps epsf : K) (h0 : epsf ≠ 0)
    (hin : InRange R (fl (rp * eps))) :
    ∃ r E, fractionToRR fl ip (fin f) (R.map fin) (Y.map fin) (fin rp) (fin eps) (fin epsf) (some k) num = .ok r ∧
    ip k (R.map fin) (Y.map fin) (fin (fl (rp * eps))) = .ok (fin E) ∧
    ∃ xs ys : List K, xs.Pairwise (· ≤ ·) ∧ xs.length = ys.length ∧ (∀ x ∈ xs, InRange R x) ∧
      List.Forall₂ (fun x y => ip k (R.map fin) (Y.map fin) (fin x) = .ok (fin y)) xs ys ∧
      ((r = nan ∧ ∀ y ∈ ys, y < fl (E * fl (f / epsf))) ∨
        ∃ i n, ∃ hi : i < xs.length, ∃ hi' : i < ys.length, ∃ hn : n < ys.length, i ≤ n ∧ r = fin xs[i] ∧ fl (E * fl (f / epsf)) ≤ ys[n] ∧
          (∀ j (hj : j < n), ys[j] < fl (E * fl (f / epsf))) ∧
          ∀ j (hj : j ≤ n), (1 - u) * |ys[i] - fl (E * fl (f / epsf))| ≤ (1 + u) * |ys[j] - fl (E * fl (f / epsf))|) := by
  have hne : R ≠ [] := by rintro rfl; simp at h2
  obtain ⟨hi, l3, hmax, l3'⟩ := pyMax_fin hne
  obtain ⟨E, hE⟩ := hip.total R Y hl hm hR _ hin
  obtain ⟨xs, ys, hg, hxl, hs, hin', hall⟩ := getInterpolatedValuesR_ok hfl hu hu0 ip hip R Y hl hm h2 hR hrep num hnu
  have hlt : F.lt (fin hi) (fin (fl (rp * eps))) = false := by
    obtain ⟨x, hx, hx'⟩ := hin.2
    rw [lt_fin, decide_eq_false_iff_not, not_lt]
    exact hx'.trans (l3' x hx)
  have hd : pyDiv (fin f) (fin epsf) = .ok (fin (f / epsf)) := by
    unfold pyDiv
    rw [if_neg (by simpa using h0), fin_div_of_ne _ h0]
  have hcalc : fractionToRR fl ip (fin f) (R.map fin) (Y.map fin) (fin rp) (fin eps) (fin epsf) (some k) num =
      radiusAtR fl (fin (fl (E * fl (f / epsf)))) (xs.map fin, ys.map fin) true := by
    unfold fractionToRR
    simp only [fin_mul, rnd_fin, hmax, Except.bind_ok, hlt, Bool.false_eq_true, if_false, Option.getD_some, hE, hd, hg]
  rw [hcalc]
  rcases radiusAtR_ok hfl (fl (E * fl (f / epsf))) xs ys hxl true with ⟨h1, h3⟩ | ⟨i, hi, hc, h1⟩
  · refine ⟨nan, E, h1, hE, xs, ys, hs, hxl, hin', hall, Or.inl ⟨rfl, fun y hy => ?_⟩⟩
    have := h3 y hy
    simpa [Reaches] using this
  · obtain ⟨n, hn, hin2, g1, g2, g3, -⟩ := C110_near hfl hu hu0 hu1 _ ys true hc
    refine ⟨_, E, h1, hE, xs, ys, hs, hxl, hin', hall, Or.inr ⟨i, n, hi, by omega, hn, hin2, rfl, by simpa [Reaches] using g1, fun j hj => ?_, g3⟩⟩
    have := g2 j hj
    simpa [Reaches] using this

end

end Verif.Props

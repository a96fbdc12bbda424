import Verif.Lemmas.Fraction

/-!
# Behaviour of the searches and interpolations under changes of unit
-/

set_option linter.unusedSectionVars false
set_option linter.unusedVariables false
set_option linter.unusedSimpArgs false

namespace Verif

open F Spec

variable {K : Type} [Field K] [LinearOrder K] [IsStrictOrderedRing K]

theorem sgnInf_pos {c : K} (hc : 0 < c) : (sgnInf c : F K) = pinf := by simp [sgnInf, hc]
theorem sgnInf_neg {c : K} (hc : c < 0) : (sgnInf c : F K) = ninf := by simp [sgnInf, hc, not_lt.2 hc.le]
theorem sgnInf_mul {c : K} (hc : 0 < c) (a : K) : (sgnInf (c * a) : F K) = sgnInf a := by
  rcases lt_trichotomy a 0 with h | h | h
  · rw [sgnInf_neg h, sgnInf_neg (mul_neg_of_pos_of_neg hc h)]
  · subst h; simp
  · rw [sgnInf_pos h, sgnInf_pos (mul_pos hc h)]

@[simp] theorem fin_mul_pinf {c : K} (hc : 0 < c) : (fin c * pinf : F K) = pinf := sgnInf_pos hc
@[simp] theorem fin_mul_ninf {c : K} (hc : 0 < c) : (fin c * ninf : F K) = ninf :=
  sgnInf_neg (by linarith : -c < 0)

theorem fin_mul_sgnInf {c : K} (hc : 0 < c) (a : K) : (fin c * sgnInf a : F K) = sgnInf a := by
  rcases lt_trichotomy a 0 with h | h | h
  · rw [sgnInf_neg h, fin_mul_ninf hc]
  · subst h; simp [sgnInf]
  · rw [sgnInf_pos h, fin_mul_pinf hc]

theorem F.mul_pos_assoc {c : K} (hc : 0 < c) (a b : F K) : fin c * a * b = fin c * (a * b) := by
  cases a with
  | nan => simp
  | fin a =>
    cases b with
    | nan => simp
    | fin b => simp [mul_assoc]
    | pinf =>
      show sgnInf (c * a) = fin c * sgnInf a
      rw [sgnInf_mul hc, fin_mul_sgnInf hc]
    | ninf =>
      show sgnInf (-(c * a)) = fin c * sgnInf (-a)
      rw [← mul_neg, sgnInf_mul hc, fin_mul_sgnInf hc]
  | pinf =>
    rw [fin_mul_pinf hc]
    cases b with
    | nan => simp
    | fin b => exact (fin_mul_sgnInf hc b).symm
    | pinf => exact (fin_mul_pinf hc).symm
    | ninf => exact (fin_mul_ninf hc).symm
  | ninf =>
    rw [fin_mul_ninf hc]
    cases b with
    | nan => simp
    | fin b => exact (fin_mul_sgnInf hc (-b)).symm
    | pinf => exact (fin_mul_ninf hc).symm
    | ninf => exact (fin_mul_pinf hc).symm

theorem F.mul_pos_le {c : K} (hc : 0 < c) (a b : F K) : F.le (fin c * a) (fin c * b) = F.le a b := by
  cases a <;> cases b <;>
    simp [hc, F.le, mul_le_mul_iff_right₀]

theorem F.mul_pos_lt {c : K} (hc : 0 < c) (a b : F K) : F.lt (fin c * a) (fin c * b) = F.lt a b := by
  cases a <;> cases b <;>
    simp [hc, F.lt, mul_lt_mul_iff_right₀]

@[simp] theorem F.mul_pos_isNaN {c : K} (hc : 0 < c) (a : F K) : (fin c * a).isNaN = a.isNaN := by
  cases a <;> simp [hc, F.isNaN]

theorem F.mul_pos_sub {c : K} (hc : 0 < c) (a b : F K) : fin c * a - fin c * b = fin c * (a - b) := by
  cases a with
  | fin a =>
    cases b with
    | fin b => simp [mul_sub]
    | nan => simp
    | pinf => rw [fin_mul_pinf hc]; exact (fin_mul_ninf hc).symm
    | ninf => rw [fin_mul_ninf hc]; exact (fin_mul_pinf hc).symm
  | nan => simp
  | pinf =>
    rw [fin_mul_pinf hc]
    cases b with
    | fin b => exact (fin_mul_pinf hc).symm
    | nan => simp
    | pinf => rw [fin_mul_pinf hc]; exact (mul_nan _).symm
    | ninf => rw [fin_mul_ninf hc]; exact (fin_mul_pinf hc).symm
  | ninf =>
    rw [fin_mul_ninf hc]
    cases b with
    | fin b => exact (fin_mul_ninf hc).symm
    | nan => simp
    | pinf => rw [fin_mul_pinf hc]; exact (fin_mul_ninf hc).symm
    | ninf => rw [fin_mul_ninf hc]; exact (mul_nan _).symm

theorem F.mul_pos_abs {c : K} (hc : 0 < c) (a : F K) : F.abs (fin c * a) = fin c * F.abs a := by
  cases a with
  | fin a => simp [abs_mul, abs_of_pos hc]
  | nan => simp
  | pinf => rw [fin_mul_pinf hc]; exact (fin_mul_pinf hc).symm
  | ninf => rw [fin_mul_ninf hc]; exact (fin_mul_pinf hc).symm

theorem argminAux_smul {c : K} (hc : 0 < c) (best : F K) (bi i : Nat) (l : List (F K)) :
    argminAux (fin c * best) bi i (l.map (fin c * ·)) = argminAux best bi i l := by
  induction l generalizing best bi i with
  | nil => rfl
  | cons x l ih =>
    simp only [List.map_cons, argminAux, F.mul_pos_isNaN hc, F.mul_pos_le hc, ih]

theorem npArgmin_smul {c : K} (hc : 0 < c) (l : List (F K)) : npArgmin (l.map (fin c * ·)) = npArgmin l := by
  cases l with
  | nil => rfl
  | cons x l => simp only [List.map_cons, npArgmin, argminAux_smul hc]

theorem firstWhere_map {α β : Type} (p : β → Bool) (f : α → β) (l : List α) :
    firstWhere p (l.map f) = firstWhere (fun a => p (f a)) l := by
  induction l with
  | nil => rfl
  | cons a l ih => simp only [List.map_cons, firstWhere, ih]

/-- The search does not depend on the unit of the values. -/
theorem closestValueIndex_smul {c : K} (hc : 0 < c) (v : F K) (l : List (F K)) (g : Bool) :
    closestValueIndex (fin c * v) (l.map (fin c * ·)) g = closestValueIndex v l g := by
  unfold closestValueIndex
  rw [firstWhere_map]
  simp only [F.mul_pos_le hc]
  cases firstWhere (fun a => if g = true then F.le v a else F.le a v) l with
  | none => rfl
  | some idx =>
    simp only
    have : List.map (fun a => F.abs (a - fin c * v)) (List.take (idx + 1) (List.map (fun x => fin c * x) l)) =
        (List.map (fun a => F.abs (a - v)) (List.take (idx + 1) l)).map (fin c * ·) := by
      rw [← List.map_take, List.map_map, List.map_map]
      apply List.map_congr_left
      intro a _
      simp only [Function.comp, F.mul_pos_sub hc, F.mul_pos_abs hc]
    rw [this, npArgmin_smul hc]

theorem radiusAt_smul {c : K} (hc : 0 < c) (v : F K) (xs ys : List (F K)) (g : Bool) :
    radiusAt (fin c * v) (xs, ys.map (fin c * ·)) g = radiusAt v (xs, ys) g := by
  unfold radiusAt
  simp only [closestValueIndex_smul hc]

theorem radiusAt_xscale (c : K) (v : F K) (xs ys : List (F K)) (g : Bool) :
    radiusAt v (xs.map (fin c * ·), ys) g = (radiusAt v (xs, ys) g).map (fin c * ·) := by
  unfold radiusAt
  obtain ⟨o, ho⟩ := closestValueIndex_total v ys g
  simp only [ho, Except.bind_ok]
  cases o with
  | none => simp [Except.map]
  | some i =>
    simp only [getItem, List.getElem?_map]
    cases xs[i]? <;> rfl

/-- A query point that the contract speaks about. -/
def Query (q : F K) : Prop := q = nan ∨ ∃ x, q = fin x

/-- Homogeneity in y, including all error cases. -/
theorem lawful_smul_all {I : Interp K} {m : Nat} (hI : Lawful I m) {R Y : List K} (hR : Incr R) {q : F K} (hq : Query q) {c : K}
    (hc : 0 < c) :
    I (R.map fin) ((Y.map (c * ·)).map fin) q = (I (R.map fin) (Y.map fin) q).map (fin c * ·) := by
  by_cases hl : R.length = Y.length
  · by_cases hm : m ≤ R.length
    · rcases hq with rfl | ⟨x, rfl⟩
      · rw [hI.atNaN R _ (by simpa using hl) hm hR, hI.atNaN R _ hl hm hR]; simp [Except.map]
      · have hne : R ≠ [] := by rintro rfl; have := hI.pos; simp at hm; omega
        rcases inRange_or_out hne x with h | h
        · obtain ⟨v, hv⟩ := hI.total R Y hl hm hR x h
          rw [hI.smul R Y hl hm hR x v c hv, hv]; simp [Except.map]
        · rw [hI.outside R _ (by simpa using hl) hm hR x h, hI.outside R Y hl hm hR x h]; rfl
    · rw [hI.few _ _ _ (by simpa using hm), hI.few _ _ _ (by simpa using hm)]; rfl
  · rw [hI.mismatch _ _ _ (by simpa using hl), hI.mismatch _ _ _ (by simpa using hl)]; rfl

theorem outRange_map_mul {xs : List K} {q c : K} (hc : 0 < c) (h : OutRange xs q) : OutRange (xs.map (c * ·)) (c * q) := by
  obtain ⟨hne, h⟩ := h
  refine ⟨by simpa using hne, ?_⟩
  rcases h with h | h
  · left; intro x hx
    obtain ⟨y, hy, rfl⟩ := List.mem_map.1 hx
    exact mul_lt_mul_of_pos_left (h y hy) hc
  · right; intro x hx
    obtain ⟨y, hy, rfl⟩ := List.mem_map.1 hx
    exact mul_lt_mul_of_pos_left (h y hy) hc

/-- Equivariance in x, including all error cases. -/
theorem lawful_xscale_all {I : Interp K} {m : Nat} (hI : Lawful I m) {R Y : List K} (hR : Incr R) {q : F K} (hq : Query q) {c : K}
    (hc : 0 < c) :
    I ((R.map (c * ·)).map fin) (Y.map fin) (fin c * q) = I (R.map fin) (Y.map fin) q := by
  by_cases hl : R.length = Y.length
  · by_cases hm : m ≤ R.length
    · have hR' := incr_map_mul hR hc
      rcases hq with rfl | ⟨x, rfl⟩
      · rw [mul_nan, hI.atNaN (R.map (c * ·)) _ (by simpa using hl) (by simpa using hm) hR', hI.atNaN R _ hl hm hR]
      · have hne : R ≠ [] := by rintro rfl; have := hI.pos; simp at hm; omega
        rw [fin_mul]
        rcases inRange_or_out hne x with h | h
        · obtain ⟨v, hv⟩ := hI.total R Y hl hm hR x h
          rw [hI.xscale R Y hl hm hR x v c hc hv, hv]
        · rw [hI.outside (R.map (c * ·)) _ (by simpa using hl) (by simpa using hm) hR' _ (outRange_map_mul hc h),
            hI.outside R Y hl hm hR x h]
    · rw [hI.few _ _ _ (by simpa using hm), hI.few _ _ _ (by simpa using hm)]
  · rw [hI.mismatch _ _ _ (by simpa using hl), hI.mismatch _ _ _ (by simpa using hl)]

theorem mapM_map_except {α β γ : Type} {ε : Type} (f : α → Except ε β) (g : β → γ) (l : List α) :
    l.mapM (fun a => (f a).map g) = (l.mapM f).map (List.map g) := by
  induction l with
  | nil => rfl
  | cons a l ih =>
    simp only [List.mapM_cons, ih]
    cases f a with
    | error e => rfl
    | ok b =>
      cases l.mapM f with
      | error e => rfl
      | ok bs => rfl

theorem mapM_map_arg {α β γ : Type} {ε : Type} (f : β → Except ε γ) (g : α → β) (l : List α) :
    (l.map g).mapM f = l.mapM (fun a => f (g a)) := by
  induction l with
  | nil => rfl
  | cons a l ih => simp only [List.map_cons, List.mapM_cons, ih]

theorem getInterpolatedValues_smul {ip : InterpFam K} {kind : Option String} {m : Nat}
    (hip : ∀ k, kind = some k → Lawful (ip k) m) (num : Nat) {R Y : List K} (h2 : 2 ≤ R.length) (hR : Incr R) {c : K} (hc : 0 < c) :
    getInterpolatedValues ip (R.map fin) ((Y.map (c * ·)).map fin) num kind =
      (getInterpolatedValues ip (R.map fin) (Y.map fin) num kind).map fun s => (s.1, s.2.map (fin c * ·)) := by
  cases kind with
  | none =>
    simp only [getInterpolatedValues, Except.map, List.map_map]
    rfl
  | some k =>
    have hne : R ≠ [] := by rintro rfl; simp at h2
    obtain ⟨lo, h1, hmin, h1'⟩ := pyMin_fin hne
    obtain ⟨hi, h3, hmax, h3'⟩ := pyMax_fin hne
    simp only [getInterpolatedValues, hmin, hmax, Except.bind_ok]
    generalize hn : (if (R.map (fin : K → F K)).length > num then (R.map (fin : K → F K)).length else num) = n
    have hn2 : 2 ≤ n := by
      subst hn; simp only [List.length_map]; split <;> omega
    rw [npLinspace_fin lo hi n hn2]
    have : List.mapM (ip k (R.map fin) ((Y.map (c * ·)).map fin))
        ((List.range n).map fun i => (fin (gridPt lo hi n i) : F K)) =
        (List.mapM (ip k (R.map fin) (Y.map fin)) ((List.range n).map fun i => (fin (gridPt lo hi n i) : F K))).map
          (List.map (fin c * ·)) := by
      rw [← mapM_map_except]
      apply mapM_congr
      intro a ha
      obtain ⟨i, _, rfl⟩ := List.mem_map.1 ha
      exact lawful_smul_all (hip k rfl) hR (Or.inr ⟨_, rfl⟩) hc
    rw [this]
    cases List.mapM (ip k (R.map fin) (Y.map fin)) ((List.range n).map fun i => (fin (gridPt lo hi n i) : F K)) <;> rfl

theorem getInterpolatedValues_xscale {ip : InterpFam K} {kind : Option String} {m : Nat}
    (hip : ∀ k, kind = some k → Lawful (ip k) m) (num : Nat) {R Y : List K} (h2 : 2 ≤ R.length) (hR : Incr R) {c : K} (hc : 0 < c) :
    getInterpolatedValues ip ((R.map (c * ·)).map fin) (Y.map fin) num kind =
      (getInterpolatedValues ip (R.map fin) (Y.map fin) num kind).map fun s => (s.1.map (fin c * ·), s.2) := by
  cases kind with
  | none =>
    simp only [getInterpolatedValues, Except.map, List.map_map]
    rfl
  | some k =>
    have hne : R ≠ [] := by rintro rfl; simp at h2
    obtain ⟨lo, h1, hmin, h1'⟩ := pyMin_fin hne
    obtain ⟨hi, h3, hmax, h3'⟩ := pyMax_fin hne
    obtain ⟨lo', g1, gmin, g1'⟩ := pyMin_fin (xs := R.map (c * ·)) (by simpa using hne)
    obtain ⟨hi', g3, gmax, g3'⟩ := pyMax_fin (xs := R.map (c * ·)) (by simpa using hne)
    have elo : lo' = c * lo := by
      apply le_antisymm
      · exact g1' _ (List.mem_map_of_mem h1)
      · obtain ⟨y, hy, rfl⟩ := List.mem_map.1 g1
        exact mul_le_mul_of_nonneg_left (h1' y hy) hc.le
    have ehi : hi' = c * hi := by
      apply le_antisymm
      · obtain ⟨y, hy, rfl⟩ := List.mem_map.1 g3
        exact mul_le_mul_of_nonneg_left (h3' y hy) hc.le
      · exact g3' _ (List.mem_map_of_mem h3)
    subst elo ehi
    simp only [getInterpolatedValues, hmin, hmax, gmin, gmax, Except.bind_ok, List.length_map]
    generalize hn : (if R.length > num then R.length else num) = n
    have hn2 : 2 ≤ n := by
      subst hn; split <;> omega
    rw [npLinspace_fin lo hi n hn2, npLinspace_fin _ _ n hn2]
    have hg : ((List.range n).map fun i => (fin (gridPt (c * lo) (c * hi) n i) : F K)) =
        ((List.range n).map fun i => (fin (gridPt lo hi n i) : F K)).map (fin c * ·) := by
      rw [List.map_map]
      apply List.map_congr_left
      intro i _
      simp only [Function.comp, fin_mul, gridPt]
      congr 1; ring
    rw [hg]
    have : List.mapM (ip k ((R.map (c * ·)).map fin) (Y.map fin))
        (((List.range n).map fun i => (fin (gridPt lo hi n i) : F K)).map (fin c * ·)) =
        List.mapM (ip k (R.map fin) (Y.map fin)) ((List.range n).map fun i => (fin (gridPt lo hi n i) : F K)) := by
      rw [mapM_map_arg]
      apply mapM_congr
      intro a ha
      obtain ⟨i, _, rfl⟩ := List.mem_map.1 ha
      exact lawful_xscale_all (hip k rfl) hR (Or.inr ⟨_, rfl⟩) hc
    rw [this]
    cases List.mapM (ip k (R.map fin) (Y.map fin)) ((List.range n).map fun i => (fin (gridPt lo hi n i) : F K)) <;> rfl

/-- `fraction_to_r` does not depend on the flux unit (no error arrays). -/
theorem fractionToR_flux_scale {ip : InterpFam K} {frac : F K} {R Y : List K} {rp : F K} {rpe : Option (F K)} {eps epsf : F K}
    {kind : Option String} {num m : Nat} (hip : Lawful (ip (kind.getD "cubic")) m) (h2 : 2 ≤ R.length) (hR : Incr R)
    (hq : Query (rp * eps)) {c : K} (hc : 0 < c) :
    fractionToR ip frac (R.map fin) ((Y.map (c * ·)).map fin) rp none rpe eps epsf kind num =
      fractionToR ip frac (R.map fin) (Y.map fin) rp none rpe eps epsf kind num := by
  have hne : R ≠ [] := by rintro rfl; simp at h2
  obtain ⟨hi, h3, hmax, h3'⟩ := pyMax_fin hne
  unfold fractionToR
  simp only [hmax, Except.bind_ok]
  by_cases hlt : F.lt (fin hi) (rp * eps) = true
  · rw [if_pos hlt, if_pos hlt]
  rw [if_neg hlt, if_neg hlt, lawful_smul_all hip hR hq hc,
    getInterpolatedValues_smul (by rintro k rfl; exact hip) num h2 hR hc]
  cases ip (kind.getD "cubic") (R.map fin) (Y.map fin) (rp * eps) with
  | error e => rfl
  | ok ef =>
    cases pyDiv frac epsf with
    | error e => rfl
    | ok q =>
      cases getInterpolatedValues ip (R.map fin) (Y.map fin) num kind with
      | error e => rfl
      | ok s => simp only [Except.map, Except.bind_ok, F.mul_pos_assoc hc, radiusAt_smul hc]

/-- `fraction_to_r` follows the radius unit (no error arrays). -/
theorem fractionToR_xscale {ip : InterpFam K} {frac : F K} {R Y : List K} {rp : F K} {rpe rpe' : Option (F K)} {eps epsf : F K}
    {kind : Option String} {num m : Nat} (hip : Lawful (ip (kind.getD "cubic")) m) (h2 : 2 ≤ R.length) (hR : Incr R)
    (hq : Query (rp * eps)) {c : K} (hc : 0 < c) :
    fractionToR ip frac ((R.map (c * ·)).map fin) (Y.map fin) (fin c * rp) none rpe' eps epsf kind num =
      (fractionToR ip frac (R.map fin) (Y.map fin) rp none rpe eps epsf kind num).map fun t => (fin c * t.1, t.2) := by
  have hne : R ≠ [] := by rintro rfl; simp at h2
  obtain ⟨hi, h3, hmax, h3'⟩ := pyMax_fin hne
  obtain ⟨hi', g3, gmax, g3'⟩ := pyMax_fin (xs := R.map (c * ·)) (by simpa using hne)
  have ehi : hi' = c * hi := by
    apply le_antisymm
    · obtain ⟨y, hy, rfl⟩ := List.mem_map.1 g3
      exact mul_le_mul_of_nonneg_left (h3' y hy) hc.le
    · exact g3' _ (List.mem_map_of_mem h3)
  subst ehi
  unfold fractionToR
  simp only [hmax, gmax, Except.bind_ok, F.mul_pos_assoc hc]
  have hlteq : F.lt (fin (c * hi)) (fin c * (rp * eps)) = F.lt (fin hi) (rp * eps) := by
    rw [← fin_mul, F.mul_pos_lt hc]
  rw [hlteq]
  by_cases hlt : F.lt (fin hi) (rp * eps) = true
  · rw [if_pos hlt, if_pos hlt]; simp [Except.map]
  rw [if_neg hlt, if_neg hlt, lawful_xscale_all hip hR hq hc,
    getInterpolatedValues_xscale (by rintro k rfl; exact hip) num h2 hR hc]
  cases ip (kind.getD "cubic") (R.map fin) (Y.map fin) (rp * eps) with
  | error e => rfl
  | ok ef =>
    cases pyDiv frac epsf with
    | error e => rfl
    | ok q =>
      cases getInterpolatedValues ip (R.map fin) (Y.map fin) num kind with
      | error e => rfl
      | ok s =>
        obtain ⟨s1, s2⟩ := s
        simp only [Except.map, Except.bind_ok, radiusAt_xscale]
        cases radiusAt (ef * q) (s1, s2) true <;> rfl

/-- `calculate_petrosian_r` follows the radius unit (finite profile, no errors). -/
theorem calculatePetrosianR_xscale {ip : InterpFam K} {R P : List K} {p0 eta : F K}
    {kind : Option String} {num m : Nat} (hip : Lawful (ip (kind.getD "cubic")) m) (h2 : 2 ≤ R.length) (hR : Incr (0 :: R.tail))
    {c : K} (hc : 0 < c) :
    calculatePetrosianR ip ((R.map (c * ·)).map fin) (p0 :: P.map fin) none eta kind num =
      (calculatePetrosianR ip (R.map fin) (p0 :: P.map fin) none eta kind num).map fun t => (fin c * t.1, t.2) := by
  cases R with
  | nil => simp at h2
  | cons r0 R =>
    unfold calculatePetrosianR
    simp only [List.map_cons, setItem0, Except.bind_ok]
    have e0 : (fin 0 :: R.map fin : List (F K)) = (0 :: R).map fin := by simp
    have e1 : (fin 0 :: (R.map (c * ·)).map fin : List (F K)) = ((0 :: R).map (c * ·)).map fin := by simp
    have e2 : (fin 1 :: P.map fin : List (F K)) = (1 :: P).map fin := by simp
    rw [e0, e1, e2, getInterpolatedValues_xscale (R := 0 :: R) (by rintro k rfl; exact hip) num (by simpa using h2)
      (by simpa using hR) hc]
    cases getInterpolatedValues ip ((0 :: R).map fin) ((1 :: P).map fin) num kind with
    | error e => rfl
    | ok s =>
      obtain ⟨s1, s2⟩ := s
      simp only [Except.map, Except.bind_ok, radiusAt_xscale]
      cases radiusAt eta (s1, s2) false <;> rfl

/-- The radius returned by `calculate_petrosian_r` is NaN or finite. -/
theorem calculatePetrosianR_query {ip : InterpFam K} {R : List K} {P : List (F K)} {err : Option (List (F K))}
    {eta : F K} {kind : Option String} {num : Nat} {r e : F K} (h2 : 2 ≤ R.length)
    (h : calculatePetrosianR ip (R.map fin) P err eta kind num = .ok (r, e)) : Query r := by
  obtain ⟨_, xs, ys, _, hr⟩ := calculatePetrosianR_fst h2 h
  rcases radiusAt_cases hr with ⟨h1, _⟩ | ⟨i, _, hi, h1⟩
  · exact Or.inl h1
  · exact Or.inr ⟨_, h1⟩

theorem Query.mul_fin {q : F K} (h : Query q) (x : K) : Query (q * fin x) := by
  rcases h with rfl | ⟨y, rfl⟩
  · left; simp
  · right; exact ⟨y * x, by simp⟩

end Verif

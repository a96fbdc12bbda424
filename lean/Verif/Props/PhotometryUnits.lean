import Verif.Props.Photometry
import Verif.Model.Petrosian

/-!
# C129: the unit of the image
-/

set_option linter.unusedSectionVars false

namespace Verif.Props

open F Spec

section
variable {K : Type} [Field K] [LinearOrder K] [IsStrictOrderedRing K] [HasSqrt K] [FloorRing K] {ov : Overlap K}

/-- Photometry of a finite image does not raise for one brightness and succeed for another; the flux is the rounded sum. -/
theorem photometry_finite (hov : OverlapLaw ov) (h w : Nat) (f g : Nat → Nat → K) (cx cy : K) (rs : List K) (error : Option (Img (F K)))
    (mask : Option (Img Bool)) (q t : K) (fl ar er : List (F K))
    (hres : radialPhotometry ov ⟨h, w, fun i j => fin (f i j)⟩ cx cy rs error mask q t = .ok (fl, ar, er)) :
    fl = rs.map (fun r => fin (round6 (weightedSum (ov.weight ⟨cx, cy, r, r / q, t⟩) h w (Used mask) f))) ∧
    radialPhotometry ov ⟨h, w, fun i j => fin (g i j)⟩ cx cy rs error mask q t =
      .ok (rs.map (fun r => fin (round6 (weightedSum (ov.weight ⟨cx, cy, r, r / q, t⟩) h w (Used mask) g))), ar, er) := by
  obtain ⟨l, hl, rfl, rfl, rfl⟩ := radialPhotometry_ok.1 hres
  clear hres
  have key : ∀ (r : K) (p : F K × F K × F K),
      photometryAt ov ⟨h, w, fun i j => fin (f i j)⟩ cx cy error (inv mask) q t r = .ok p →
      p.1 = fin (round6 (weightedSum (ov.weight ⟨cx, cy, r, r / q, t⟩) h w (Used mask) f)) ∧
      photometryAt ov ⟨h, w, fun i j => fin (g i j)⟩ cx cy error (inv mask) q t r =
        .ok (fin (round6 (weightedSum (ov.weight ⟨cx, cy, r, r / q, t⟩) h w (Used mask) g)), p.2.1, p.2.2) := by
    rintro r ⟨v, a, e⟩ hp
    obtain ⟨h1, h2, h3, h4, h5, -, h7, h8, h9⟩ := (photometryAt_ok hov).1 hp
    refine ⟨?_, (photometryAt_ok hov).2 ⟨h1, h2, ?_, ?_, h5, ?_, ?_, h8, ?_⟩⟩
    · rw [(C45_linear hov _ h w mask f f 0).1, npRound6_fin] at h7
      exact h7
    · cases error <;> exact h3
    · cases mask <;> exact h4
    · rw [(C45_linear hov _ h w mask g g 0).1]; rfl
    · rw [(C45_linear hov _ h w mask g g 0).1, npRound6_fin]
    · rw [h9]; cases error <;> rfl
  constructor
  · induction hl with
    | nil => rfl
    | @cons r p rs l hp _ ih => simp only [List.map_cons, (key r p hp).1, ih]
  · refine radialPhotometry_ok.2 ⟨List.zipWith (fun r (p : F K × F K × F K) =>
      (fin (round6 (weightedSum (ov.weight ⟨cx, cy, r, r / q, t⟩) h w (Used mask) g)), p.2.1, p.2.2)) rs l, ?_, ?_, ?_, ?_⟩
    · induction hl with
      | nil => exact .nil
      | @cons r p rs l hp _ ih => exact .cons (key r p hp).2 ih
    all_goals
      induction hl with
      | nil => rfl
      | @cons r p rs l hp _ ih => simp only [List.map_cons, List.zipWith_cons_cons, ← ih]

theorem weightedSum_mul (wt : Nat → Nat → K) (h w : Nat) (use : Nat → Nat → Bool) (f : Nat → Nat → K) (c : K) :
    weightedSum wt h w use (fun i j => c * f i j) = c * weightedSum wt h w use f := by
  unfold weightedSum
  rw [Finset.mul_sum]
  apply Finset.sum_congr rfl; intro i _
  rw [Finset.mul_sum]
  apply Finset.sum_congr rfl; intro j _
  split <;> ring

theorem rint_int (n : ℤ) : rint (n : K) = n := by
  unfold rint
  rw [Int.floor_intCast, sub_self, if_pos (by norm_num)]

theorem round6_multiple {x : K} (n : ℤ) (h : x * 10 ^ 6 = n) : round6 x = x := by
  unfold round6
  rw [h, rint_int, ← h, mul_div_assoc, div_self (by norm_num), mul_one]

theorem round6_small {x : K} (h : |x| < 1 / 2 / 10 ^ 6) : round6 x = 0 := by
  have h1 : |x * 10 ^ 6| < 1 / 2 := by
    rw [abs_mul, abs_of_pos (by norm_num : (0 : K) < 10 ^ 6)]
    have := mul_lt_mul_of_pos_right h (by norm_num : (0 : K) < 10 ^ 6)
    have e : (1 / 2 / 10 ^ 6 : K) * 10 ^ 6 = 1 / 2 := by norm_num
    rw [e] at this
    exact this
  have h2 : rint (x * 10 ^ 6) = 0 := by
    rw [abs_lt] at h1
    unfold rint
    by_cases h0 : 0 ≤ x * 10 ^ 6
    · have hfl : ⌊x * 10 ^ 6⌋ = 0 := by rw [Int.floor_eq_iff]; constructor <;> push_cast <;> linarith [h1.1, h1.2]
      rw [hfl, if_pos (by push_cast; linarith [h1.2])]
    · have hfl : ⌊x * 10 ^ 6⌋ = -1 := by rw [Int.floor_eq_iff]; constructor <;> push_cast <;> linarith [h1.1, h1.2]
      rw [hfl, if_neg (by push_cast; linarith [h1.1]), if_pos (by push_cast; linarith [h1.1])]
      norm_num
  unfold round6
  rw [h2]
  simp

/-- **C129, bound.** In another unit of brightness the photometry succeeds with the same areas and errors, and the fluxes are those of the
new unit up to the six-digit rounding. -/
theorem C129_bound_partial (hov : OverlapLaw ov) (h w : Nat) (f : Nat → Nat → K) (cx cy : K) (rs : List K) (error : Option (Img (F K)))
    (mask : Option (Img Bool)) (q t : K) (fl ar er : List (F K)) (c : K) (hc : 0 < c)
    (hres : radialPhotometry ov ⟨h, w, fun i j => fin (f i j)⟩ cx cy rs error mask q t = .ok (fl, ar, er)) :
    ∃ fl', radialPhotometry ov ⟨h, w, fun i j => fin (c * f i j)⟩ cx cy rs error mask q t = .ok (fl', ar, er) ∧
      List.Forall₂ (fun v v' => ∃ x x' : K, v = fin x ∧ v' = fin x' ∧ |x' - c * x| ≤ (1 + c) * (1 / 2 / 10 ^ 6)) fl fl' := by
  obtain ⟨h1, h2⟩ := photometry_finite hov h w f (fun i j => c * f i j) cx cy rs error mask q t fl ar er hres
  refine ⟨_, h2, ?_⟩
  rw [h1, List.forall₂_map_left_iff, List.forall₂_map_right_iff, List.forall₂_same]
  intro r _
  refine ⟨_, _, rfl, rfl, ?_⟩
  rw [weightedSum_mul]
  generalize weightedSum _ h w _ f = S
  have a := abs_round6_sub (c * S)
  have b := abs_round6_sub S
  have e : round6 (c * S) - c * round6 S = (round6 (c * S) - c * S) - c * (round6 S - S) := by ring
  rw [e]
  calc |(round6 (c * S) - c * S) - c * (round6 S - S)| ≤ |round6 (c * S) - c * S| + |c * (round6 S - S)| := abs_sub _ _
    _ ≤ 1 / 2 / 10 ^ 6 + c * (1 / 2 / 10 ^ 6) := by
        rw [abs_mul, abs_of_pos hc]
        exact add_le_add a (mul_le_mul_of_nonneg_left b hc.le)
    _ = (1 + c) * (1 / 2 / 10 ^ 6) := by ring

/-- **C129, whole numbers.** When the sums are whole multiples of 10⁻⁶ (integer counts with `method="center"`, say) and the factor is a
whole number, the fluxes change exactly by the factor. -/
theorem C129_whole_partial (hov : OverlapLaw ov) (h w : Nat) (f : Nat → Nat → K) (cx cy : K) (rs : List K) (error : Option (Img (F K)))
    (mask : Option (Img Bool)) (q t : K) (fl ar er : List (F K)) (c : ℤ)
    (hres : radialPhotometry ov ⟨h, w, fun i j => fin (f i j)⟩ cx cy rs error mask q t = .ok (fl, ar, er))
    (hint : ∀ r ∈ rs, ∃ n : ℤ, weightedSum (ov.weight ⟨cx, cy, r, r / q, t⟩) h w (Used mask) f * 10 ^ 6 = n) :
    radialPhotometry ov ⟨h, w, fun i j => fin (c * f i j)⟩ cx cy rs error mask q t = .ok (fl.map (fin (c : K) * ·), ar, er) := by
  obtain ⟨h1, h2⟩ := photometry_finite hov h w f (fun i j => c * f i j) cx cy rs error mask q t fl ar er hres
  rw [h2, h1, List.map_map]
  congr 2
  apply List.map_congr_left
  intro r hr
  obtain ⟨n, hn⟩ := hint r hr
  simp only [Function.comp]
  rw [weightedSum_mul, round6_multiple n hn, round6_multiple (c * n) (by push_cast; rw [mul_assoc, hn]), fin_mul]

/-- **C129, violated.** For every image there is a unit in which all fluxes are returned as exactly zero, and so in every larger unit. -/
theorem C129_faint_violated (hov : OverlapLaw ov) (h w : Nat) (f : Nat → Nat → K) (cx cy : K) (rs : List K) (error : Option (Img (F K)))
    (mask : Option (Img Bool)) (q t : K) (fl ar er : List (F K))
    (hres : radialPhotometry ov ⟨h, w, fun i j => fin (f i j)⟩ cx cy rs error mask q t = .ok (fl, ar, er)) :
    ∃ c₀ : K, 0 < c₀ ∧ ∀ c, 0 < c → c ≤ c₀ →
      radialPhotometry ov ⟨h, w, fun i j => fin (c * f i j)⟩ cx cy rs error mask q t = .ok (rs.map fun _ => fin 0, ar, er) := by
  obtain ⟨B, hB0, hB⟩ : ∃ B : K, 0 < B ∧ ∀ r ∈ rs, |weightedSum (ov.weight ⟨cx, cy, r, r / q, t⟩) h w (Used mask) f| < B := by
    clear hres
    induction rs with
    | nil => exact ⟨1, one_pos, by simp⟩
    | cons r rs ih =>
      obtain ⟨B, b0, hb⟩ := ih
      refine ⟨max B (|weightedSum (ov.weight ⟨cx, cy, r, r / q, t⟩) h w (Used mask) f| + 1), lt_max_of_lt_left b0, ?_⟩
      intro r' hr'
      rcases List.mem_cons.1 hr' with rfl | hr'
      · exact lt_max_of_lt_right (lt_add_one _)
      · exact lt_max_of_lt_left (hb r' hr')
  refine ⟨1 / 2 / 10 ^ 6 / B, by positivity, fun c hc hle => ?_⟩
  rw [(photometry_finite hov h w f (fun i j => c * f i j) cx cy rs error mask q t fl ar er hres).2]
  congr 2
  apply List.map_congr_left
  intro r hr
  rw [weightedSum_mul, round6_small]
  rw [abs_mul, abs_of_pos hc]
  calc c * |weightedSum (ov.weight ⟨cx, cy, r, r / q, t⟩) h w (Used mask) f| < c * B := mul_lt_mul_of_pos_left (hB r hr) hc
    _ ≤ 1 / 2 / 10 ^ 6 / B * B := mul_le_mul_of_nonneg_right hle hB0.le
    _ = 1 / 2 / 10 ^ 6 := by field_simp

theorem fin_div_zero_zero : fin (0 : K) / fin (0 : K) = nan := by
  show F.div _ _ = _
  simp [F.div, F.sgnInf]

theorem zero_over_zero (a b : K) : (if F.lt (fin 0) (fin a) then fin (0 : K) / fin a else fin 0) / (fin (0 : K) / fin b) = nan := by
  have h0 : ∀ x : K, fin (0 : K) / fin x = fin 0 ∨ fin (0 : K) / fin x = nan := by
    intro x
    by_cases hx : x = 0
    · subst hx; right; exact fin_div_zero_zero
    · left; rw [fin_div_of_ne _ hx, zero_div]
  have h1 : fin (0 : K) / fin 0 = nan := fin_div_zero_zero
  split_ifs with h
  · rcases h0 a with e | e <;> rcases h0 b with e' | e' <;> rw [e, e'] <;> first | exact h1 | rfl
  · rcases h0 b with e' | e' <;> rw [e'] <;> first | exact h1 | rfl

/-- **C129, consequence.** The Petrosian profile of such fluxes is NaN everywhere, whatever the areas. -/
theorem C129_profile (area : List K) (n : Nat) (petro : List (F K)) (err : Option (List (F K)))
    (h : calculatePetrosian (area.map fin) (List.replicate n (fin 0)) = .ok (petro, err)) : ∀ v ∈ petro, v = nan := by
  unfold calculatePetrosian at h
  obtain ⟨raw, hraw, h⟩ := bind_eq_ok.1 h
  obtain ⟨p, hp, h⟩ := bind_eq_ok.1 h
  simp only [Option.isNone_none, Bool.and_self, if_true] at h
  injection h with h
  injection h with h _
  subst h
  have hall : ∀ v ∈ raw, v = nan := by
    unfold petrosianRaw at hraw
    split_ifs at hraw with h1 h2 h3
    injection hraw with hraw
    subst hraw
    intro v hv
    rcases List.mem_cons.1 hv with hv | hv
    · exact hv
    · rw [List.mem_iff_getElem] at hv
      obtain ⟨i, hi, rfl⟩ := hv
      rw [List.getElem_zipWith, List.getElem_zipWith, List.getElem_zipWith]
      have e1 : (npDiff (List.replicate n (fin (0 : K))))[i]'(by simp only [npDiff, List.length_zipWith, List.length_tail, List.length_map, List.length_replicate] at hi ⊢; omega) = fin 0 := by
        simp [npDiff, fin_sub]
      have e2 : (List.replicate n (fin (0 : K))).tail[i]'(by simp only [npDiff, List.length_zipWith, List.length_tail, List.length_map, List.length_replicate] at hi ⊢; omega) = fin 0 := by simp
      rw [e1, e2]
      have e3 : (npDiff (area.map fin))[i]'(by simp only [npDiff, List.length_zipWith, List.length_tail, List.length_map, List.length_replicate] at hi ⊢; omega) =
          fin ((area[i + 1]'(by simp only [npDiff, List.length_zipWith, List.length_tail, List.length_map, List.length_replicate] at hi ⊢; omega)) - area[i]'(by simp only [npDiff, List.length_zipWith, List.length_tail, List.length_map, List.length_replicate] at hi ⊢; omega)) := by simp [npDiff, fin_sub]
      have e4 : (area.map fin).tail[i]'(by simp only [npDiff, List.length_zipWith, List.length_tail, List.length_map, List.length_replicate] at hi ⊢; omega) = fin (area[i + 1]'(by simp only [npDiff, List.length_zipWith, List.length_tail, List.length_map, List.length_replicate] at hi ⊢; omega)) := by simp
      rw [e3, e4]
      exact zero_over_zero _ _
  intro v hv
  rw [List.mem_iff_getElem] at hv
  obtain ⟨j, hj, rfl⟩ := hv
  have hlen := mapM_length hp
  obtain ⟨hj', hjj⟩ := mapM_getElem hp j (by omega)
  generalize (uniqueInverse (area.map fin))[j]'(by omega) = k at hjj
  cases hk : raw[k]? with
  | none => rw [hk] at hjj; cases hjj
  | some v =>
    rw [hk] at hjj
    injection hjj with hjj
    rw [← hjj]
    exact hall v (List.mem_of_getElem? hk)

end

/-- A bright pixel on a level of 1, measured in the unit `c`. -/
def speck (c : ℚ) : Img (F ℚ) := ⟨5, 5, fun i j => fin (if i = 2 ∧ j = 2 then c * 2 else c * 1)⟩

/-- Its profile, measured with three boxes. -/
def speckProfile (c : ℚ) : Except PyErr (List (F ℚ)) := do
  let (fl, ar, _) ← radialPhotometry boxOverlap (speck c) 2 2 [1 / 2, 3 / 2, 5 / 2] none none 1 0
  let (p, _) ← calculatePetrosian ar fl
  .ok p

/-- **C129, witness.** The same image in three units: the same profile in two of them, NaN in the third. -/
theorem C129_witness : speckProfile 1 = .ok [nan, fin (9 / 10), fin (25 / 26)] ∧
    speckProfile 3 = .ok [nan, fin (9 / 10), fin (25 / 26)] ∧ speckProfile (1 / 10 ^ 8) = .ok [nan, nan, nan] := by decide +kernel

end Verif.Props

import Verif.Props.PetrosianRadius
import Verif.Lemmas.Linear

/-!
# C11 on interpolated profiles
-/

set_option linter.unusedSectionVars false

namespace Verif.Props

open F Spec

section
variable {K : Type} [Field K] [LinearOrder K] [IsStrictOrderedRing K]

theorem linK_head {x0 y0 : K} {rest : List (K × K)} (h : ∀ p ∈ rest, x0 < p.1) : linK ((x0, y0) :: rest) x0 = y0 := by
  cases rest with
  | nil => rfl
  | cons p rest =>
    obtain ⟨x1, y1⟩ := p
    simp only [linK, if_pos (h (x1, y1) (by simp)).le, sub_self, mul_zero, zero_add]

/-- Linear interpolation is monotone in the data. -/
theorem linK_mono (xs ys zs : List K) (hy : xs.length = ys.length) (hz : xs.length = zs.length) (hx : Incr xs)
    (hle : ∀ i (h : i < ys.length) (h' : i < zs.length), ys[i] ≤ zs[i]) (q : K) (hq : ∀ x, xs.head? = some x → x ≤ q) :
    linK (xs.zip ys) q ≤ linK (xs.zip zs) q := by
  induction xs generalizing ys zs with
  | nil => simp [linK]
  | cons x0 xs ih =>
    cases ys with
    | nil => simp at hy
    | cons y0 ys =>
    cases zs with
    | nil => simp at hz
    | cons z0 zs =>
      have h0 : y0 ≤ z0 := hle 0 (by simp) (by simp)
      cases xs with
      | nil =>
        cases ys <;> cases zs <;> simp at hy hz
        exact h0
      | cons x1 xs =>
        cases ys with
        | nil => simp at hy
        | cons y1 ys =>
        cases zs with
        | nil => simp at hz
        | cons z1 zs =>
          have hlt : x0 < x1 := (List.pairwise_cons.1 hx).1 x1 (by simp)
          have h1 : y1 ≤ z1 := hle 1 (by simp) (by simp)
          have hq0 : x0 ≤ q := hq x0 rfl
          simp only [List.zip_cons_cons, linK]
          split
          · rename_i hq1
            have hd : 0 < x1 - x0 := sub_pos.2 hlt
            have e : ∀ a b : K, (b - a) / (x1 - x0) * (q - x0) + a = (a * (x1 - q) + b * (q - x0)) / (x1 - x0) := by
              intro a b; field_simp; ring
            rw [e, e]
            apply div_le_div_of_nonneg_right _ hd.le
            exact add_le_add (mul_le_mul_of_nonneg_right h0 (by linarith)) (mul_le_mul_of_nonneg_right h1 (by linarith))
          · rename_i hq1
            have := ih (y1 :: ys) (z1 :: zs) (by simpa using hy) (by simpa using hz) (List.pairwise_cons.1 hx).2
              (fun i h h' => hle (i + 1) (Nat.succ_lt_succ h) (Nat.succ_lt_succ h'))
              (by intro x hx'; simp at hx'; rw [← hx']; exact (not_le.1 hq1).le)
            simpa using this

/-- Linear interpolation of strictly falling data falls strictly. -/
theorem linK_anti (xs ys : List K) (hl : xs.length = ys.length) (hx : Incr xs) (hy : ys.Pairwise (· > ·)) (q q' : K)
    (hq : ∀ x, xs.head? = some x → x ≤ q) (hqq : q < q') (hq' : ∃ x ∈ xs, q' ≤ x) :
    linK (xs.zip ys) q' < linK (xs.zip ys) q := by
  induction xs generalizing ys q with
  | nil => obtain ⟨x, hx, _⟩ := hq'; simp at hx
  | cons x0 xs ih =>
    cases ys with
    | nil => simp at hl
    | cons y0 ys =>
      have hq0 : x0 ≤ q := hq x0 rfl
      cases xs with
      | nil =>
        obtain ⟨x, hx, h⟩ := hq'
        simp at hx; subst hx; linarith
      | cons x1 xs =>
        cases ys with
        | nil => simp at hl
        | cons y1 ys =>
          have hlt : x0 < x1 := (List.pairwise_cons.1 hx).1 x1 (by simp)
          have hylt : y1 < y0 := (List.pairwise_cons.1 hy).1 y1 (by simp)
          have hd : 0 < x1 - x0 := sub_pos.2 hlt
          have hs : (y1 - y0) / (x1 - x0) < 0 := div_neg_of_neg_of_pos (by linarith) hd
          simp only [List.zip_cons_cons, linK]
          have step : ∀ a, (∀ x, (x1 :: xs).head? = some x → x ≤ a) → a < q' → ¬ q' ≤ x1 →
              linK ((x1, y1) :: xs.zip ys) q' < linK ((x1, y1) :: xs.zip ys) a := by
            intro a ha haq hq1
            have := ih (y1 :: ys) (by simpa using hl) (List.pairwise_cons.1 hx).2 (List.pairwise_cons.1 hy).2 a ha haq (by
              obtain ⟨x, hx', h⟩ := hq'
              rcases List.mem_cons.1 hx' with rfl | hx'
              · linarith
              · exact ⟨x, hx', h⟩)
            simpa using this
          by_cases h1 : q' ≤ x1
          · rw [if_pos h1, if_pos (hqq.le.trans h1)]
            have := mul_lt_mul_of_neg_left (sub_lt_sub_right hqq x0) hs
            linarith
          · rw [if_neg h1]
            by_cases h2 : q ≤ x1
            · rw [if_pos h2]
              have a1 := step x1 (by intro x hx'; simp at hx'; exact hx'.symm.le) (not_le.1 h1) h1
              rw [linK_head (x0 := x1) (y0 := y1) (by
                intro p hp
                have := (List.pairwise_cons.1 (List.pairwise_cons.1 hx).2).1 p.1 (List.of_mem_zip hp).1
                exact this)] at a1
              have a2 : y1 ≤ (y1 - y0) / (x1 - x0) * (q - x0) + y0 := by
                have : (y1 - y0) / (x1 - x0) * (x1 - x0) ≤ (y1 - y0) / (x1 - x0) * (q - x0) :=
                  mul_le_mul_of_nonpos_left (by linarith) hs.le
                rw [div_mul_cancel₀ _ hd.ne'] at this
                linarith
              linarith
            · rw [if_neg h2]
              exact step q (by intro x hx'; simp at hx'; rw [← hx']; exact (not_le.1 h2).le) hqq h1

/-- **C11 with interpolation.** For any interpolator: the error of `r_petrosian` is NaN or not negative if the interpolated upper profile
(profile plus error) falls strictly over the radii and lies above the interpolated lower profile. -/
theorem C11_interpolated_partial (ip : InterpFam K) {k : String} {m : Nat} (hip : Lawful (ip k) m) (r0 p0 e0 : F K) (R P E : List K) (eta : K)
    (num : Nat) (h1 : 1 ≤ R.length) (hm : m ≤ R.length + 1) (hP : P.length = R.length) (hE : E.length = R.length) (hR : Incr (0 :: R)) {r e : F K}
    (h : calculatePetrosianR ip (r0 :: R.map fin) (p0 :: P.map fin) (some (e0 :: E.map fin)) (fin eta) (some k) num = .ok (r, e))
    (up lo : K → K)
    (hup : ∀ q, InRange (0 :: R) q → ip k ((0 :: R).map fin) ((1 :: List.zipWith (· + ·) P E).map fin) (fin q) = .ok (fin (up q)))
    (hlo : ∀ q, InRange (0 :: R) q → ip k ((0 :: R).map fin) ((1 :: List.zipWith (· - ·) P E).map fin) (fin q) = .ok (fin (lo q)))
    (hle : ∀ q, InRange (0 :: R) q → lo q ≤ up q)
    (hanti : ∀ q q', InRange (0 :: R) q → InRange (0 :: R) q' → q < q' → up q' < up q) :
    e = nan ∨ ∃ x, e = fin x ∧ 0 ≤ x := by
  have hne : (0 :: R) ≠ ([] : List K) := by simp
  obtain ⟨a, ha, -, ha'⟩ := pyMin_fin hne
  obtain ⟨b, hb, -, hb'⟩ := pyMax_fin hne
  have hab : a < b := by
    have : ∃ x ∈ R, (0 : K) < x := by
      cases R with
      | nil => simp at h1
      | cons x R => exact ⟨x, by simp, (List.pairwise_cons.1 hR).1 x (by simp)⟩
    obtain ⟨x, hx, hx0⟩ := this
    exact lt_of_le_of_lt (ha' 0 (by simp)) (lt_of_lt_of_le hx0 (hb' x (by simp [hx])))
  have hzip : ∀ (f : F K → F K → F K) (g : K → K → K), (∀ a b, f (fin a) (fin b) = fin (g a b)) →
      ∀ a b : List K, List.zipWith f (a.map fin) (b.map fin) = (List.zipWith g a b).map fin := by
    intro f g hfg a b
    rw [List.zipWith_map, List.map_zipWith]
    simp only [hfg]
  have hz1 : zipOp (· + ·) (fin 1 :: P.map fin) (fin 0 :: E.map (fin : K → F K)) = .ok ((1 :: List.zipWith (· + ·) P E).map fin) := by
    unfold zipOp
    rw [if_pos (by simp [hP, hE])]
    have := hzip (· + ·) (· + ·) (fun a b => by simp) (1 :: P) (0 :: E)
    simpa using this
  have hz2 : zipOp (· - ·) (fin 1 :: P.map fin) (fin 0 :: E.map (fin : K → F K)) = .ok ((1 :: List.zipWith (· - ·) P E).map fin) := by
    unfold zipOp
    rw [if_pos (by simp [hP, hE])]
    have := hzip (· - ·) (· - ·) (fun a b => by simp) (1 :: P) (0 :: E)
    simpa using this
  obtain ⟨us, hul, hug, hus⟩ := getInterpolatedValues_ok ip hip (0 :: R) (1 :: List.zipWith (· + ·) P E) (by simp; omega) (by simpa using hm)
    (by simp; omega) hR num ha ha' hb hb'
  obtain ⟨ls, hll, hlg, hls⟩ := getInterpolatedValues_ok ip hip (0 :: R) (1 :: List.zipWith (· - ·) P E) (by simp; omega) (by simpa using hm)
    (by simp; omega) hR num ha ha' hb hb'
  set N := max num (0 :: R).length with hN
  have hN2 : 2 ≤ N := by simp [hN]; omega
  have hin : ∀ i, i < N → InRange (0 :: R) (gridPt a b N i) := by
    intro i hi
    obtain ⟨g1, g2⟩ := gridPt_mem hab.le _ hN2 hi
    exact ⟨⟨a, ha, g1⟩, ⟨b, hb, g2⟩⟩
  have hstrict : ∀ i j, i < j → gridPt a b N i < gridPt a b N j := by
    intro i j hij
    unfold gridPt
    have : 0 < (b - a) / ((N : K) - 1) := div_pos (sub_pos.2 hab) (by
      have : (2 : K) ≤ N := by exact_mod_cast hN2
      linarith)
    have h' : (i : K) < j := by exact_mod_cast hij
    nlinarith
  have husv : ∀ i (hi : i < us.length), us[i] = up (gridPt a b N i) := by
    intro i hi
    have := hus i hi
    rw [hup _ (hin i (by omega))] at this
    injection this with this
    injection this with this
    exact this.symm
  have hlsv : ∀ i (hi : i < ls.length), ls[i] = lo (gridPt a b N i) := by
    intro i hi
    have := hls i hi
    rw [hlo _ (hin i (by omega))] at this
    injection this with this
    injection this with this
    exact this.symm
  unfold calculatePetrosianR at h
  simp only [setItem0, Except.bind_ok, bind_eq_ok] at h
  obtain ⟨xy, hxy, rp, hrp, h⟩ := h
  by_cases hn : rp.isNaN = true
  · rw [if_pos hn] at h; injection h with h; injection h with _ h; exact Or.inl h.symm
  rw [if_neg hn] at h
  have er : (fin 0 :: R.map fin : List (F K)) = (0 :: R).map fin := by simp
  rw [hz1, hz2, er] at h
  simp only [Except.bind_ok] at h
  rw [hug, hlg] at h
  simp only [Except.bind_ok, bind_eq_ok] at h
  obtain ⟨ru, hru, rl, hrl, h⟩ := h
  injection h with h
  injection h with _ h
  have em : (List.range N).map (fun i => fin (gridPt a b N i)) = ((List.range N).map (gridPt a b N)).map fin := by
    rw [List.map_map]; rfl
  rw [em] at hru hrl
  rw [← h]
  rcases radiusAt_cases hru with ⟨g1, _⟩ | ⟨iu, hcu, hiu, g1⟩
  · left; rw [g1]; simp
  rcases radiusAt_cases hrl with ⟨g2, _⟩ | ⟨il, hcl, hil, g2⟩
  · left; rw [g2]; simp
  right
  have hii := closest_upper_ge_lower us ls eta (by rw [hul, hll]) (by
    intro i hi
    rw [husv i hi, hlsv i (by omega)]
    exact hle _ (hin i (by omega))) hcu hcl (by
    intro k hk _ i j hij hjk
    rw [husv i (by omega), husv j (by omega)]
    exact hanti _ _ (hin i (by omega)) (hin j (by omega)) (hstrict i j hij))
  refine ⟨(gridPt a b N iu - gridPt a b N il) / 2, ?_, ?_⟩
  · rw [g1, g2]
    simp only [List.getElem_map, List.getElem_range]
    rw [fin_sub, fin_div_of_ne _ (by norm_num)]
  · apply div_nonneg _ (by norm_num)
    rcases Nat.lt_or_ge il iu with hlt | hge
    · linarith [hstrict il iu hlt]
    · have : il = iu := by omega
      subst this; simp

/-- **C11, linear interpolation.** With `interp_kind="linear"` the error is NaN or not negative whenever the errors are not negative and the
upper profile (1 at the centre, then profile plus error) falls strictly. -/
theorem C11_linear_partial (ip : InterpFam K) (hip : ip "linear" = linearInterp) (r0 p0 e0 : F K) (R P E : List K) (eta : K)
    (num : Nat) (h1 : 1 ≤ R.length) (hP : P.length = R.length) (hE : E.length = R.length) (hR : Incr (0 :: R)) (hE0 : ∀ x ∈ E, 0 ≤ x)
    (hfall : (1 :: List.zipWith (· + ·) P E).Pairwise (· > ·)) {r e : F K}
    (h : calculatePetrosianR ip (r0 :: R.map fin) (p0 :: P.map fin) (some (e0 :: E.map fin)) (fin eta) (some "linear") num = .ok (r, e)) :
    e = nan ∨ ∃ x, e = fin x ∧ 0 ≤ x := by
  have lu : (0 :: R).length = (1 :: List.zipWith (· + ·) P E).length := by simp; omega
  have ll : (0 :: R).length = (1 :: List.zipWith (· - ·) P E).length := by simp; omega
  have hd : ∀ q, InRange (0 :: R) q → ∀ x, (0 :: R).head? = some x → x ≤ q := by
    intro q hq x hx
    simp at hx; subst hx
    obtain ⟨y, hy, hyq⟩ := hq.1
    exact (incr_head_le hR y hy).trans hyq
  refine C11_interpolated_partial ip (by rw [hip]; exact linear_lawful) r0 p0 e0 R P E eta num h1 (by omega) hP hE hR h
    (linK ((0 :: R).zip (1 :: List.zipWith (· + ·) P E))) (linK ((0 :: R).zip (1 :: List.zipWith (· - ·) P E)))
    (fun q hq => by rw [hip]; exact (linearInterp_eq _ _ lu hR (by simp) q).1 hq)
    (fun q hq => by rw [hip]; exact (linearInterp_eq _ _ ll hR (by simp) q).1 hq)
    (fun q hq => linK_mono _ _ _ ll lu hR ?_ q (hd q hq))
    (fun q q' hq hq' hlt => linK_anti _ _ lu hR hfall q q' (hd q hq) hlt hq'.2)
  intro i h h'
  cases i with
  | zero => simp
  | succ i =>
    simp only [List.getElem_cons_succ, List.getElem_zipWith]
    have : 0 ≤ E[i]'(by simp at h; omega) := hE0 _ (List.getElem_mem _)
    linarith

end

/-- Non-vacuity: a falling profile with errors, eight samples; the radius error is positive. -/
example : calculatePetrosianR (fun _ => linearInterp) ([fin 1, fin 2, fin 3, fin 4] : List (F ℚ)) [nan, fin (7 / 10), fin (4 / 10), fin (1 / 10)]
      (some [nan, fin (1 / 10), fin (1 / 10), fin 0]) (fin (11 / 20)) (some "linear") 9 = .ok (fin (5 / 2), fin (1 / 2)) ∧
    ((1 : ℚ) :: List.zipWith (· + ·) [7 / 10, 4 / 10, 1 / 10] [1 / 10, 1 / 10, 0]).Pairwise (· > ·) := by
  decide +kernel

end Verif.Props

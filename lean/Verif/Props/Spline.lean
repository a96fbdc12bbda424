import Verif.Lemmas.Spline
import Verif.Spec.Spline
import Verif.Model.Petrosian
import Verif.Props.PetrosianFluxes

/-!
# C97: the default cubic interpolation
-/

set_option linter.unusedSectionVars false
set_option linter.unusedVariables false

namespace Verif.Props

open F Spec

section
variable {K : Type} [Field K] [LinearOrder K] [IsStrictOrderedRing K]

theorem spline_second {xs ys : List K} (hl : xs.length = ys.length) (hm : 4 ≤ xs.length) (hx : Incr xs) {P : Nat → Cubic K}
    (hP : CubicSpline xs ys P) :
    ∃ M, NotAKnot xs.length (seqOf xs) (seqOf ys) M ∧
      ∀ i, i + 1 < xs.length → ∀ q, segCubic (seqOf xs) (seqOf ys) M i q = (P i).at (q - seqOf xs i) := by
  have eX : ∀ i (h : i < xs.length), xs[i] = seqOf xs i := fun i h => by simp [seqOf, h]
  have eY : ∀ i (h : i < ys.length), ys[i] = seqOf ys i := fun i h => by simp [seqOf, h]
  have hinc := seqOf_incr hx
  have hL : ∀ i, i + 1 < xs.length → (P i).a = seqOf ys i := by
    intro i hi
    have := hP.left i hi (by omega)
    rw [eY] at this
    simpa [Cubic.at] using this
  have hR : ∀ i, i + 1 < xs.length → (P i).at (seqOf xs (i + 1) - seqOf xs i) = seqOf ys (i + 1) := by
    intro i hi
    have := hP.right i hi (by omega)
    rwa [eY, eX, eX] at this
  have hS : ∀ i, i + 2 < xs.length → (P i).slope (seqOf xs (i + 1) - seqOf xs i) = (P (i + 1)).b := by
    intro i hi
    have := hP.slope i hi
    rw [eX, eX] at this
    rw [this]; simp [Cubic.slope]
  have hB : ∀ i, i + 2 < xs.length → (P i).bend (seqOf xs (i + 1) - seqOf xs i) = (P (i + 1)).c := by
    intro i hi
    have := hP.bend i hi
    rw [eX, eX] at this
    rw [this]; simp [Cubic.bend]
  have hF := hP.first
  have hLast := hP.last
  clear eX eY hP
  generalize hn : xs.length = n at *
  let M : Nat → K := fun i => if i + 1 < n then 2 * (P i).c else 2 * (P (i - 1)).bend (seqOf xs i - seqOf xs (i - 1))
  have hMi : ∀ i, i + 1 < n → M i = 2 * (P i).c := fun i hi => by simp [M, hi]
  have hMs : ∀ i, i + 1 < n → M (i + 1) = 2 * (P i).bend (seqOf xs (i + 1) - seqOf xs i) := by
    intro i hi
    by_cases h : i + 2 < n
    · rw [hMi _ (by omega), hB i h]
    · simp [M, show ¬ i + 1 + 1 < n by omega]
  have hd : ∀ i, i + 1 < n → M (i + 1) - M i = 6 * (P i).d * (seqOf xs (i + 1) - seqOf xs i) := by
    intro i hi
    rw [hMs i hi, hMi i hi]
    unfold Cubic.bend
    ring
  have hslope : ∀ i, i + 1 < n → (seqOf ys (i + 1) - seqOf ys i) / (seqOf xs (i + 1) - seqOf xs i) =
      (P i).b + (P i).c * (seqOf xs (i + 1) - seqOf xs i) + (P i).d * (seqOf xs (i + 1) - seqOf xs i) ^ 2 := by
    intro i hi
    have h0 : seqOf xs (i + 1) - seqOf xs i ≠ 0 := (sub_pos.2 (hinc i hi)).ne'
    rw [div_eq_iff h0, ← hR i hi, ← hL i hi]
    unfold Cubic.at
    ring
  refine ⟨M, ⟨fun i hi => ?_, ?_, fun k hk => ?_⟩, fun i hi q => ?_⟩
  · have s1 := hslope i (by omega)
    have s2 := hslope (i + 1) (by omega)
    rw [show i + 1 + 1 = i + 2 from rfl] at s2
    rw [s1, s2, hMi i (by omega), hMi (i + 1) (by omega), show M (i + 2) = M (i + 1 + 1) from rfl, hMs (i + 1) (by omega), ← hS i hi,
      ← hB i hi]
    unfold Cubic.slope Cubic.bend
    have b := hB i hi
    unfold Cubic.bend at b
    rw [show i + 1 + 1 = i + 2 from rfl]
    linear_combination (-2 : K) * (seqOf xs (i + 2) - seqOf xs (i + 1)) * b
  · have a := hd 0 (by omega)
    have b := hd 1 (by omega)
    simp only [zero_add, Nat.reduceAdd] at a b
    rw [a, b, hF]
    ring
  · have a := hd k (by omega)
    have b := hd (k + 1) (by omega)
    rw [show k + 1 + 1 = k + 2 from rfl] at b
    rw [a, b]
    subst hk
    simp only [Nat.add_sub_cancel] at hLast
    rw [hLast, show k + 3 - 2 = k + 1 by omega]
    ring
  · have h0 : seqOf xs (i + 1) - seqOf xs i ≠ 0 := (sub_pos.2 (hinc i hi)).ne'
    have e0 : M (i + 1) = M i + 6 * (P i).d * (seqOf xs (i + 1) - seqOf xs i) := by
      have := hd i hi
      linear_combination this
    have e1 := hMi i hi
    have er := hR i hi
    unfold segCubic
    rw [← er, ← hL i hi, e0, e1]
    unfold Cubic.at
    field_simp
    ring

/-- C97: the value of the default interpolation is that of the not-a-knot cubic spline — of any cubics meeting the definition — on the
segment containing the radius. -/
theorem C97_spline (xs ys : List K) (hl : xs.length = ys.length) (hm : 4 ≤ xs.length) (hx : Incr xs) (P : Nat → Cubic K)
    (hP : CubicSpline xs ys P) (i : Nat) (hi : i + 1 < xs.length) (q : K) (hq : xs[i] ≤ q) (hq' : q ≤ xs[i + 1]) :
    cubicInterp (xs.map fin) (ys.map fin) (fin q) = .ok (fin ((P i).at (q - xs[i]))) := by
  obtain ⟨M, hM, hseg⟩ := spline_second hl hm hx hP
  have eX : ∀ i (h : i < xs.length), xs[i] = seqOf xs i := fun i h => by simp [seqOf, h]
  have hr : InRange xs q := ⟨⟨_, List.getElem_mem _, hq⟩, _, List.getElem_mem _, hq'⟩
  obtain ⟨j, hj⟩ := find_seg_some hm hr hx
  have hj' : j < xs.length - 1 := List.mem_range.1 (List.mem_of_find?_eq_some hj)
  have hp := List.find?_some hj
  simp only [decide_eq_true_eq] at hp
  rw [cubic_value hl hm hx hM, hj]
  dsimp only
  rw [eX, ← hseg i hi]
  rw [eX] at hq hq'
  congr 2
  -- the first segment containing `q` is this one or the one before
  rcases Nat.lt_trichotomy j i with h | h | h
  · rcases Nat.lt_or_ge (j + 1) i with h' | h'
    · exact absurd (hp.2.trans_lt (seqOf_lt hx _ _ h' (by omega))) (not_lt.2 hq)
    · obtain rfl : i = j + 1 := by omega
      have hqe : q = seqOf xs (j + 1) := le_antisymm hp.2 hq
      rw [hqe]
      exact (hM.smooth (seqOf_incr hx) j (by omega)).1
  · rw [h]
  · rcases Nat.lt_or_ge (i + 1) j with h' | h'
    · exact absurd ((seqOf_lt hx _ _ h' (by omega)).trans_le hp.1) (not_lt.2 hq')
    · obtain rfl : j = i + 1 := by omega
      have hqe : q = seqOf xs (i + 1) := le_antisymm hq' hp.1
      rw [hqe]
      exact ((hM.smooth (seqOf_incr hx) i (by omega)).1).symm

/-- C97: such cubics exist for every data set with at least four increasing radii. -/
theorem C97_exists (xs ys : List K) (hl : xs.length = ys.length) (hm : 4 ≤ xs.length) (hx : Incr xs) : ∃ P, CubicSpline xs ys P := by
  obtain ⟨M, hM⟩ := NotAKnot.exists hm (seqOf xs) (seqOf ys) (seqOf_incr hx)
  have eX : ∀ i (h : i < xs.length), xs[i] = seqOf xs i := fun i h => by simp [seqOf, h]
  have eY : ∀ i (h : i < ys.length), ys[i] = seqOf ys i := fun i h => by simp [seqOf, h]
  have hinc := seqOf_incr hx
  have h0 : ∀ i, i + 1 < xs.length → seqOf xs (i + 1) - seqOf xs i ≠ 0 := fun i hi => (sub_pos.2 (hinc i hi)).ne'
  let P : Nat → Cubic K := fun i => ⟨seqOf ys i, segD1 (seqOf xs) (seqOf ys) M i (seqOf xs i), M i / 2, segD3 (seqOf xs) M i / 6⟩
  have hat : ∀ i, i + 1 < xs.length → ∀ q, segCubic (seqOf xs) (seqOf ys) M i q = (P i).at (q - seqOf xs i) := by
    intro i hi q
    rw [segCubic_taylor _ _ _ _ (hinc i hi) (seqOf xs i) q, segCubic_left _ _ _ _ (hinc i hi)]
    have : segD2 (seqOf xs) M i (seqOf xs i) = M i := by
      unfold segD2
      rw [sub_self, mul_zero, add_zero, mul_div_assoc, div_self (h0 i hi), mul_one]
    rw [this]
    rfl
  refine ⟨P, fun i hi hy => ?_, fun i hi hy => ?_, fun i hi => ?_, fun i hi => ?_, ?_, ?_⟩
  · rw [eY, ← segCubic_left (seqOf xs) (seqOf ys) M i (hinc i hi), hat i hi, sub_self]
  · rw [eY, eX, eX, ← segCubic_right (seqOf xs) (seqOf ys) M i (hinc i hi), hat i hi]
  · have s := (hM.smooth hinc i hi).2.1
    rw [eX, eX]
    have : (P (i + 1)).slope 0 = segD1 (seqOf xs) (seqOf ys) M (i + 1) (seqOf xs (i + 1)) := by simp [Cubic.slope, P]
    rw [this, ← s]
    have hne := h0 i (by omega)
    simp only [Cubic.slope, P, segD1, segD3]
    field_simp
    ring
  · rw [eX, eX]
    have hne := h0 i (by omega)
    simp only [Cubic.bend, P, segD3]
    field_simp
    ring
  · simp only [P, segD3]
    rw [(div_eq_div_iff (h0 0 (by omega)) (h0 1 (by omega))).2 hM.first]
  · obtain ⟨k, hk⟩ : ∃ k, xs.length = k + 3 := ⟨xs.length - 3, by omega⟩
    rw [hk, show k + 3 - 3 = k by omega, show k + 3 - 2 = k + 1 by omega]
    simp only [P, segD3]
    rw [(div_eq_div_iff (h0 k (by omega)) (h0 (k + 1) (by omega))).2 (hM.last k hk)]

/-- C97: a curve that is a polynomial of degree at most three is interpolated exactly, for every number and spacing of the radii. -/
theorem C97_exact (xs : List K) (hm : 4 ≤ xs.length) (hx : Incr xs) (p : Cubic K) (q : K) (hq : InRange xs q) :
    cubicInterp (xs.map fin) ((xs.map p.at).map fin) (fin q) = .ok (fin (p.at q)) := by
  obtain ⟨i, hi⟩ := find_seg_some hm hq hx
  have hi' : i < xs.length - 1 := List.mem_range.1 (List.mem_of_find?_eq_some hi)
  have hp := List.find?_some hi
  simp only [decide_eq_true_eq] at hp
  have eX : ∀ i (h : i < xs.length), xs[i] = seqOf xs i := fun i h => by simp [seqOf, h]
  have hP : CubicSpline xs (xs.map p.at)
      (fun i => ⟨p.at (seqOf xs i), p.slope (seqOf xs i), p.bend (seqOf xs i), p.d⟩) := by
    refine ⟨fun i h1 h2 => ?_, fun i h1 h2 => ?_, fun i h => ?_, fun i h => ?_, rfl, rfl⟩
    · rw [List.getElem_map, eX]; simp [Cubic.at]
    · rw [List.getElem_map, eX, eX]; simp only [Cubic.at, Cubic.slope, Cubic.bend]; ring
    · rw [eX, eX]; simp only [Cubic.slope, Cubic.bend]; ring
    · rw [eX, eX]; simp only [Cubic.bend]; ring
  have := C97_spline xs (xs.map p.at) (by simp) hm hx _ hP i (by omega) q (by rw [eX]; exact hp.1) (by rw [eX]; exact hp.2)
  rw [this, eX]
  congr 2
  simp only [Cubic.at, Cubic.slope, Cubic.bend]
  ring

/-- C97: the default interpolation kind meets the contract assumed of an interpolator in C11–C21 and C40, so no assumption about it is left. -/
theorem C97_contract : Lawful (cubicInterp : Interp K) 4 := cubic_lawful

end

section
/-! ### The overshoot of the default interpolation -/

/-- The curve of growth of the witness, a nondecreasing one. -/
def growthCubic : Cubic ℚ := ⟨44 / 7, -61 / 14, 16 / 7, -3 / 14⟩

/-- The Petrosian profile of the witness. -/
def profileCubic : Cubic ℚ := ⟨1, -229 / 200, 343 / 720, -157 / 3600⟩

/-- Where the default interpolation is known in closed form for the witness. -/
noncomputable def witnessCubic (x y : List (F ℚ)) (q : F ℚ) : Except PyErr (F ℚ) :=
  match q with
  | fin a =>
    if x = [1, 2, 3, 8].map fin ∧ y = [4, 5, 8, 8].map fin ∧ 1 ≤ a ∧ a ≤ 8 then .ok (fin (growthCubic.at a))
    else if x = [0, 2, 3, 8].map fin ∧ y = [1, 4 / 15, 27 / 40, 0].map fin ∧ 0 ≤ a ∧ a ≤ 8 then .ok (fin (profileCubic.at a))
    else cubicInterp x y (fin a)
  | q => cubicInterp x y q

theorem witnessCubic_eq : (cubicInterp : Interp ℚ) = witnessCubic := by
  funext x y q
  unfold witnessCubic
  cases q with
  | fin a =>
    dsimp only
    split_ifs with h1 h2
    · obtain ⟨rfl, rfl, h⟩ := h1
      have := C97_exact ([1, 2, 3, 8] : List ℚ) (by decide) (by unfold Incr; decide +kernel) growthCubic a
        ⟨⟨1, by simp, h.1⟩, 8, by simp, h.2⟩
      rwa [show ([1, 2, 3, 8] : List ℚ).map growthCubic.at = [4, 5, 8, 8] by decide +kernel] at this
    · obtain ⟨rfl, rfl, h⟩ := h2
      have := C97_exact ([0, 2, 3, 8] : List ℚ) (by decide) (by unfold Incr; decide +kernel) profileCubic a
        ⟨⟨0, by simp, h.1⟩, 8, by simp, h.2⟩
      rwa [show ([0, 2, 3, 8] : List ℚ).map profileCubic.at = [1, 4 / 15, 27 / 40, 0] by decide +kernel] at this
    · rfl
  | _ => rfl

/-- C97, what fails: with the default parameters and kind `"cubic"` the total flux of a nondecreasing positive curve of growth can exceed
every measured flux (here `10567 / 1024`, above the largest value `8`). -/
theorem C97_violated : ∃ (R A Y : List (F ℚ)) (p : Petrosian ℚ) (r v : ℚ),
    Petrosian.init R A Y none none (fin (1 / 5)) (fin 2) (fin (99 / 100)) (fin (99 / 100)) (some "cubic") 9 = .ok p ∧
    Y.Pairwise (fun a b => F.le a b = true) ∧ (∀ y ∈ Y, F.lt (fin 0) y = true) ∧
    p.rTotalFlux (fun _ => cubicInterp) = .ok (fin r) ∧ p.totalFlux (fun _ => cubicInterp) = .ok (fin v) ∧
    ∀ y ∈ Y, F.lt y (fin v) = true := by
  rw [witnessCubic_eq]
  refine ⟨[1, 2, 3, 8].map fin, [1, 4, 9, 64].map fin, [4, 5, 8, 8].map fin,
    { rList := [1, 2, 3, 8].map fin, areaList := [1, 4, 9, 64].map fin, fluxList := [4, 5, 8, 8].map fin, areaErr := none, fluxErr := none,
      eta := fin (1 / 5), epsilon := fin 2, epsilonFraction := fin (99 / 100), totalFluxFraction := fin (99 / 100),
      interpKind := some "cubic", interpNum := 9, petrosianList := [nan, fin (4 / 15), fin (27 / 40), fin 0], petrosianErr := none },
    29 / 8, 10567 / 1024, ?_, ?_, ?_, ?_, ?_, ?_⟩
  · have h : calculatePetrosian (([1, 4, 9, 64] : List ℚ).map fin) ([4, 5, 8, 8].map fin) none none =
        .ok ([nan, fin (4 / 15), fin (27 / 40), fin 0], none) := by decide +kernel
    unfold Petrosian.init
    rw [h]
    simp [Except.bind_ok]
  · decide +kernel
  · decide +kernel
  · decide +kernel
  · decide +kernel
  · decide +kernel

/-- Non-vacuity of `C97_spline` and `C97_exact`: five unevenly spaced radii and a curve that is no straight line. -/
example : cubicInterp (([1, 2, 4, 5, 7] : List ℚ).map fin) (([1, 8, 64, 125, 343] : List ℚ).map fin) (fin 3) = .ok (fin 27) := by
  have := C97_exact ([1, 2, 4, 5, 7] : List ℚ) (by decide) (by unfold Incr; decide +kernel) ⟨0, 0, 0, 1⟩ 3 ⟨⟨1, by simp, by norm_num⟩, 7, by simp, by norm_num⟩
  rwa [show ([1, 2, 4, 5, 7] : List ℚ).map (Cubic.at ⟨0, 0, 0, 1⟩) = [1, 8, 64, 125, 343] by decide +kernel,
    show (Cubic.at ⟨0, 0, 0, 1⟩ 3 : ℚ) = 27 by decide +kernel] at this

end
end Verif.Props

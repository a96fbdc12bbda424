import Verif.Props.PetrosianProfile
import Verif.Props.Photometry
import Verif.Lemmas.Argmin

/-!
# C187: an additional aperture changes the results only where it is
-/

set_option linter.unusedSectionVars false
set_option linter.unusedVariables false

namespace Verif.Props

open Verif F Spec

section
variable {K : Type} [Field K] [LinearOrder K] [IsStrictOrderedRing K] [HasSqrt K]

/-- The profile of an increasing curve of growth, by positions. -/
theorem profile_entries (A Fl : List K) (hl : A.length = Fl.length) (h3 : 3 ≤ A.length) (hA : A.Pairwise (· < ·)) :
    ∃ p, calculatePetrosian (A.map fin) (Fl.map fin) = .ok (p, none) ∧ p.length = A.length ∧ p[0]? = some nan ∧
      ∀ i a f a' f', A[i]? = some a → Fl[i]? = some f → A[i + 1]? = some a' → Fl[i + 1]? = some f' → p[i + 1]? = some (ratio a f a' f') := by
  have hA' : ∀ i (h : i + 1 < A.length), A[i] < A[i + 1] := fun i h => List.pairwise_iff_getElem.1 hA i (i + 1) (by omega) h (by omega)
  obtain ⟨p, e, h1, h2, h3, h4⟩ := C01_profile_formula A Fl hl h3 hA' none none (by simp) (by simp)
  have he : e = none := by
    unfold calculatePetrosian at h1
    simp only [bind_eq_ok] at h1
    obtain ⟨_, _, _, _, h1⟩ := h1
    simp at h1
    exact h1.2.symm
  subst he
  refine ⟨p, h1, h2, h3, ?_⟩
  intro i a f a' f' ha hf ha' hf'
  obtain ⟨hi, rfl⟩ := List.getElem?_eq_some_iff.1 ha
  obtain ⟨hj, rfl⟩ := List.getElem?_eq_some_iff.1 hf
  obtain ⟨hi', rfl⟩ := List.getElem?_eq_some_iff.1 ha'
  obtain ⟨hj', rfl⟩ := List.getElem?_eq_some_iff.1 hf'
  exact h4 i hi'

/-- Entries of two profiles agree where the two apertures they are made of do. -/
theorem entries_agree {A Fl A' Fl' : List K} {p p' : List (F K)} (hl : A.length = Fl.length) (hl' : A'.length = Fl'.length)
    (hp : p.length = A.length) (hp' : p'.length = A'.length)
    (h : ∀ i a f a' f', A[i]? = some a → Fl[i]? = some f → A[i + 1]? = some a' → Fl[i + 1]? = some f' → p[i + 1]? = some (ratio a f a' f'))
    (h' : ∀ i a f a' f', A'[i]? = some a → Fl'[i]? = some f → A'[i + 1]? = some a' → Fl'[i + 1]? = some f' → p'[i + 1]? = some (ratio a f a' f'))
    (i j : Nat) (h1 : A[i]? = A'[j]?) (h2 : Fl[i]? = Fl'[j]?) (h3 : A[i + 1]? = A'[j + 1]?) (h4 : Fl[i + 1]? = Fl'[j + 1]?) :
    p[i + 1]? = p'[j + 1]? := by
  by_cases hi : i + 1 < A.length
  · have e1 : A[i]? = some A[i] := List.getElem?_eq_getElem (by omega)
    have e2 : Fl[i]? = some Fl[i] := List.getElem?_eq_getElem (by omega)
    have e3 : A[i + 1]? = some A[i + 1] := List.getElem?_eq_getElem (by omega)
    have e4 : Fl[i + 1]? = some Fl[i + 1] := List.getElem?_eq_getElem (by omega)
    rw [h i _ _ _ _ e1 e2 e3 e4, h' j _ _ _ _ (h1 ▸ e1) (h2 ▸ e2) (h3 ▸ e3) (h4 ▸ e4)]
  · have e3 : A[i + 1]? = none := List.getElem?_eq_none (by omega)
    have e3' : A'[j + 1]? = none := h3 ▸ e3
    rw [List.getElem?_eq_none (by omega), List.getElem?_eq_none (by rw [hp']; exact List.getElem?_eq_none_iff.1 e3')]

/-- **C187, inserted aperture.** With one more aperture between two others the entries of the profile before it and from the second after it on stay
as they are. The entry of the ring that it divides was the mean of the two new ones, weighted with the areas of the two parts and with the mean
surface brightnesses that profile entries are relative to. -/
theorem C187_inserted (A₁ F₁ A₂ F₂ : List K) (a₀ f₀ a f a₁ f₁ : K) (hl₁ : A₁.length = F₁.length) (hl₂ : A₂.length = F₂.length)
    (h3 : 1 ≤ A₁.length + A₂.length) (hA : (A₁ ++ a₀ :: a :: a₁ :: A₂).Pairwise (· < ·)) :
    ∃ p p', calculatePetrosian ((A₁ ++ a₀ :: a₁ :: A₂).map fin) ((F₁ ++ f₀ :: f₁ :: F₂).map fin) = .ok (p, none) ∧
      calculatePetrosian ((A₁ ++ a₀ :: a :: a₁ :: A₂).map fin) ((F₁ ++ f₀ :: f :: f₁ :: F₂).map fin) = .ok (p', none) ∧
      (∀ i ≤ A₁.length, p'[i]? = p[i]?) ∧ (∀ i, A₁.length + 2 ≤ i → p'[i + 1]? = p[i]?) ∧
      (0 < a₀ → 0 < f → 0 < f₁ → ∃ v v₁ v₂, p[A₁.length + 1]? = some (fin v) ∧ p'[A₁.length + 1]? = some (fin v₁) ∧
        p'[A₁.length + 2]? = some (fin v₂) ∧
        (a₁ - a₀) * (v * (f₁ / a₁)) = (a - a₀) * (v₁ * (f / a)) + (a₁ - a) * (v₂ * (f₁ / a₁))) := by
  have hsub : (A₁ ++ a₀ :: a₁ :: A₂).Sublist (A₁ ++ a₀ :: a :: a₁ :: A₂) :=
    List.Sublist.append_left (List.Sublist.cons_cons _ (List.sublist_cons_self _ _)) _
  obtain ⟨p, hp, hpl, hp0, hpe⟩ := profile_entries (A₁ ++ a₀ :: a₁ :: A₂) (F₁ ++ f₀ :: f₁ :: F₂) (by simp [hl₁, hl₂]) (by simp; omega)
    (hA.sublist hsub)
  obtain ⟨p', hp', hpl', hp0', hpe'⟩ := profile_entries (A₁ ++ a₀ :: a :: a₁ :: A₂) (F₁ ++ f₀ :: f :: f₁ :: F₂) (by simp [hl₁, hl₂])
    (by simp; omega) hA
  have get : ∀ (L : List K) (M : List K) (i : Nat), (L ++ M)[L.length + i]? = M[i]? := by
    intro L M i
    rw [List.getElem?_append_right (by omega)]
    congr 1
    omega
  have get₁ : ∀ (M : List K) (i : Nat), (F₁ ++ M)[A₁.length + i]? = M[i]? := by intro M i; rw [hl₁]; exact get _ _ _
  refine ⟨p, p', hp, hp', ?_, ?_, ?_⟩
  · intro i hi
    cases i with
    | zero => rw [hp0, hp0']
    | succ i =>
      have key : ∀ (L M N : List K) (x : K) (k : Nat), k ≤ L.length → (L ++ x :: M)[k]? = (L ++ x :: N)[k]? := by
        intro L M N x k hk
        rcases Nat.lt_or_ge k L.length with h | h
        · rw [List.getElem?_append_left h, List.getElem?_append_left h]
        · have : k = L.length := by omega
          subst this
          simp
      exact entries_agree (by simp [hl₁, hl₂]) (by simp [hl₁, hl₂]) hpl' hpl hpe' hpe i i (key _ _ _ _ _ (by omega)) (key _ _ _ _ _ (by omega))
        (key _ _ _ _ _ (by omega)) (key _ _ _ _ _ (by omega))
  · intro i hi
    obtain ⟨k, rfl⟩ : ∃ k, i = A₁.length + (k + 1) + 1 := ⟨i - A₁.length - 2, by omega⟩
    refine entries_agree (by simp [hl₁, hl₂]) (by simp [hl₁, hl₂]) hpl' hpl hpe' hpe (A₁.length + (k + 2)) (A₁.length + (k + 1)) ?_ ?_ ?_ ?_
    · rw [get, get]; rfl
    · rw [get₁, get₁]; rfl
    · rw [Nat.add_assoc A₁.length (k + 2), Nat.add_assoc A₁.length (k + 1), get, get]; rfl
    · rw [Nat.add_assoc A₁.length (k + 2), Nat.add_assoc A₁.length (k + 1), get₁, get₁]; rfl
  · intro ha0 hf hf₁
    have h01 : a₀ < a ∧ a < a₁ := by
      have h := (List.pairwise_append.1 hA).2.1
      rw [List.pairwise_cons, List.pairwise_cons] at h
      exact ⟨h.1 a (by simp), h.2.1 a₁ (by simp)⟩
    have e := hpe (A₁.length + 0) a₀ f₀ a₁ f₁ (by rw [get]; rfl) (by rw [get₁]; rfl) (by rw [Nat.add_assoc, get]; rfl) (by rw [Nat.add_assoc, get₁]; rfl)
    have e1 := hpe' (A₁.length + 0) a₀ f₀ a f (by rw [get]; rfl) (by rw [get₁]; rfl) (by rw [Nat.add_assoc, get]; rfl) (by rw [Nat.add_assoc, get₁]; rfl)
    have e2 := hpe' (A₁.length + 1) a f a₁ f₁ (by rw [get]; rfl) (by rw [get₁]; rfl) (by rw [Nat.add_assoc, get]; rfl) (by rw [Nat.add_assoc, get₁]; rfl)
    have ha : 0 < a := ha0.trans h01.1
    have ha1 : 0 < a₁ := ha.trans h01.2
    have hr : ∀ x y x' y' : K, x < x' → 0 < x' → 0 < y' → ratio x y x' y' = fin ((y' - y) / (x' - x) / (y' / x')) := by
      intro x y x' y' hx hx' hy'
      have n1 : x' ≠ 0 := hx'.ne'
      have n2 : y' / x' ≠ 0 := (div_pos hy' hx').ne'
      have n3 : x' - x ≠ 0 := (sub_pos.2 hx).ne'
      simp [ratio, n1, n2, n3]
    rw [hr _ _ _ _ (h01.1.trans h01.2) ha1 hf₁] at e
    rw [hr _ _ _ _ h01.1 ha hf] at e1
    rw [hr _ _ _ _ h01.2 ha1 hf₁] at e2
    refine ⟨_, _, _, e, e1, e2, ?_⟩
    have n1 : a₁ - a₀ ≠ 0 := (sub_pos.2 (h01.1.trans h01.2)).ne'
    have n2 : a - a₀ ≠ 0 := (sub_pos.2 h01.1).ne'
    have n3 : a₁ - a ≠ 0 := (sub_pos.2 h01.2).ne'
    have n4 : f / a ≠ 0 := (div_pos hf ha).ne'
    have n5 : f₁ / a₁ ≠ 0 := (div_pos hf₁ ha1).ne'
    rw [div_mul_cancel₀ _ n5, div_mul_cancel₀ _ n4, div_mul_cancel₀ _ n5, mul_div_cancel₀ _ n1, mul_div_cancel₀ _ n2, mul_div_cancel₀ _ n3]
    ring

/-- **C187, outer apertures.** Apertures beyond the last one change nothing in the entries up to it. -/
theorem C187_outer (A F₁ B F₂ : List K) (hl : A.length = F₁.length) (hl' : B.length = F₂.length) (h3 : 3 ≤ A.length)
    (hA : (A ++ B).Pairwise (· < ·)) :
    ∃ p p', calculatePetrosian (A.map fin) (F₁.map fin) = .ok (p, none) ∧
      calculatePetrosian ((A ++ B).map fin) ((F₁ ++ F₂).map fin) = .ok (p', none) ∧ p'.take A.length = p := by
  obtain ⟨p, hp, hpl, hp0, hpe⟩ := profile_entries A F₁ hl h3 (hA.sublist (List.sublist_append_left _ _))
  obtain ⟨p', hp', hpl', hp0', hpe'⟩ := profile_entries (A ++ B) (F₁ ++ F₂) (by simp [hl, hl']) (by simp; omega) hA
  refine ⟨p, p', hp, hp', List.ext_getElem? fun i => ?_⟩
  rw [List.getElem?_take]
  by_cases hi : i < A.length
  · rw [if_pos hi]
    cases i with
    | zero => rw [hp0, hp0']
    | succ i =>
      exact entries_agree (by simp [hl, hl']) hl hpl' hpl hpe' hpe i i (List.getElem?_append_left (by omega)) (List.getElem?_append_left (by omega))
        (List.getElem?_append_left (by omega)) (List.getElem?_append_left (by omega))
  · rw [if_neg hi, List.getElem?_eq_none (by omega)]

/-- **C187, inner apertures.** Apertures inside of the first one change nothing but the entry of the first one, which is NaN without them. -/
theorem C187_inner (A F₁ B F₂ : List K) (hl : A.length = F₁.length) (hl' : B.length = F₂.length) (h3 : 3 ≤ A.length)
    (hA : (B ++ A).Pairwise (· < ·)) :
    ∃ p p', calculatePetrosian (A.map fin) (F₁.map fin) = .ok (p, none) ∧
      calculatePetrosian ((B ++ A).map fin) ((F₂ ++ F₁).map fin) = .ok (p', none) ∧ p'.drop (B.length + 1) = p.drop 1 := by
  obtain ⟨p, hp, hpl, hp0, hpe⟩ := profile_entries A F₁ hl h3 (hA.sublist (List.sublist_append_right _ _))
  obtain ⟨p', hp', hpl', hp0', hpe'⟩ := profile_entries (B ++ A) (F₂ ++ F₁) (by simp [hl, hl']) (by simp; omega) hA
  refine ⟨p, p', hp, hp', List.ext_getElem? fun i => ?_⟩
  rw [List.getElem?_drop, List.getElem?_drop, show B.length + 1 + i = (B.length + i) + 1 by omega, Nat.add_comm 1 i]
  have get : ∀ (L M : List K) (n i : Nat), n = L.length → (L ++ M)[n + i]? = M[i]? := by
    rintro L M n i rfl
    rw [List.getElem?_append_right (by omega)]
    congr 1
    omega
  refine entries_agree (by simp [hl, hl']) hl hpl' hpl hpe' hpe _ i (get _ _ _ _ rfl) (get _ _ _ _ hl') ?_ ?_
  · rw [Nat.add_assoc]; exact get _ _ _ _ rfl
  · rw [Nat.add_assoc]; exact get _ _ _ _ hl'

variable [FloorRing K]

theorem mapM_append_ok {α β : Type} {f : α → Except PyErr β} {l l' : List α} {r : List β} :
    (l ++ l').mapM f = .ok r ↔ ∃ s s', l.mapM f = .ok s ∧ l'.mapM f = .ok s' ∧ r = s ++ s' := by
  rw [List.mapM_append]
  simp only [bind_eq_ok]
  constructor
  · rintro ⟨s, hs, s', hs', h⟩
    cases h
    exact ⟨s, s', hs, hs', rfl⟩
  · rintro ⟨s, s', hs, hs', rfl⟩
    exact ⟨s, hs, s', hs', rfl⟩

/-- **C187, photometry.** What is measured in an aperture does not depend on the other radii: the result for a list of radii is the results for its
parts one after the other, whatever the order of the radii. -/
theorem C187_photometry (ov : Overlap K) (image : Img (F K)) (cx cy : K) (rs rs' : List K) (error : Option (Img (F K))) (mask : Option (Img Bool))
    (q t : K) (fl ar er : List (F K)) :
    radialPhotometry ov image cx cy (rs ++ rs') error mask q t = .ok (fl, ar, er) ↔
      ∃ fl₁ ar₁ er₁ fl₂ ar₂ er₂, radialPhotometry ov image cx cy rs error mask q t = .ok (fl₁, ar₁, er₁) ∧
        radialPhotometry ov image cx cy rs' error mask q t = .ok (fl₂, ar₂, er₂) ∧ fl = fl₁ ++ fl₂ ∧ ar = ar₁ ++ ar₂ ∧ er = er₁ ++ er₂ := by
  unfold radialPhotometry
  simp only [bind_eq_ok, mapM_append_ok]
  constructor
  · rintro ⟨_, ⟨s, s', hs, hs', rfl⟩, h⟩
    cases h
    exact ⟨_, _, _, _, _, _, ⟨s, hs, rfl⟩, ⟨s', hs', rfl⟩, by simp, by simp, by simp⟩
  · rintro ⟨_, _, _, _, _, _, ⟨s, hs, h⟩, ⟨s', hs', h'⟩, rfl, rfl, rfl⟩
    cases h
    cases h'
    exact ⟨_, ⟨s, s', hs, hs', rfl⟩, by simp⟩

end

/-- **C187, errors.** An entry of the profile and its error depend on two apertures only: in two curves of growth in which two neighbouring apertures
have the same areas, fluxes and errors, the second of them has the same entry and the same error. -/
theorem C187_errors (A Fl Ae Fe A' Fl' Ae' Fe' : List ℝ) (hl : A.length = Fl.length) (hla : Ae.length = A.length) (hlf : Fe.length = A.length)
    (hl' : A'.length = Fl'.length) (hla' : Ae'.length = A'.length) (hlf' : Fe'.length = A'.length) (h3 : 3 ≤ A.length) (h3' : 3 ≤ A'.length)
    (hA : ∀ i (h : i + 1 < A.length), A[i] < A[i + 1]) (hA' : ∀ i (h : i + 1 < A'.length), A'[i] < A'[i + 1])
    (hA0 : ∀ a ∈ A, 0 < a) (hA0' : ∀ a ∈ A', 0 < a) (hF0 : ∀ f ∈ Fl, f ≠ 0) (hF0' : ∀ f ∈ Fl', f ≠ 0)
    (hdF : ∀ i (h : i + 1 < A.length), Fl[i + 1] ≠ Fl[i]) (hdF' : ∀ i (h : i + 1 < A'.length), Fl'[i + 1] ≠ Fl'[i]) :
    ∃ p e p' e', calculatePetrosian (A.map fin) (Fl.map fin) (some (Ae.map fin)) (some (Fe.map fin)) = .ok (p, some e) ∧
      calculatePetrosian (A'.map fin) (Fl'.map fin) (some (Ae'.map fin)) (some (Fe'.map fin)) = .ok (p', some e') ∧
      ∀ i j (hi : i + 1 < A.length) (hj : j + 1 < A'.length), A[i] = A'[j] → Fl[i] = Fl'[j] → Ae[i] = Ae'[j] → Fe[i] = Fe'[j] →
        A[i + 1] = A'[j + 1] → Fl[i + 1] = Fl'[j + 1] → Ae[i + 1] = Ae'[j + 1] → Fe[i + 1] = Fe'[j + 1] →
        ∃ v s, p[i + 1]? = some v ∧ p'[j + 1]? = some v ∧ e[i + 1]? = some s ∧ e'[j + 1]? = some s := by
  obtain ⟨p, e, h1, -, -, h2⟩ := C06_errors_quadrature A Fl Ae Fe hl h3 hla hlf hA (fun i h => (hA0 _ (List.getElem_mem h)).ne')
    (fun i h => hF0 _ (List.getElem_mem _)) hdF
  obtain ⟨p', e', h1', -, -, h2'⟩ := C06_errors_quadrature A' Fl' Ae' Fe' hl' h3' hla' hlf' hA' (fun i h => (hA0' _ (List.getElem_mem h)).ne')
    (fun i h => hF0' _ (List.getElem_mem _)) hdF'
  refine ⟨p, e, p', e', h1, h1', ?_⟩
  intro i j hi hj q1 q2 q3 q4 q5 q6 q7 q8
  obtain ⟨v, s, a1, a2, -, a3, a4⟩ := h2 i hi
  obtain ⟨v', s', b1, b2, -, b3, b4⟩ := h2' j hj
  have hv : v' = v := by rw [a3, b3, q1, q2, q5, q6]
  have hs : s' = s := by rw [a4, b4, hv, q1, q2, q3, q4, q5, q6, q7, q8]
  subst hv hs
  exact ⟨_, _, a1, b1, a2, b2⟩

/-! ### Radii -/

theorem firstWhere_append {α : Type} (q : α → Bool) (l l' : List α) {k : Nat} (h : firstWhere q l = some k) : firstWhere q (l ++ l') = some k := by
  obtain ⟨hk, h1, h2⟩ := firstWhere_eq_some.1 h
  refine firstWhere_eq_some.2 ⟨by simp; omega, ?_, fun j hj => ?_⟩
  · rw [List.getElem_append_left hk]; exact h1
  · rw [List.getElem_append_left (by omega)]; exact h2 j hj

theorem closestValueIndex_append {K : Type} [Field K] [LinearOrder K] (v : F K) (l l' : List (F K)) (g : Bool) {i : Nat}
    (h : closestValueIndex v l g = .ok (some i)) : closestValueIndex v (l ++ l') g = .ok (some i) := by
  unfold closestValueIndex at *
  cases hf : firstWhere (fun a => if g then F.le v a else F.le a v) l with
  | none => rw [hf] at h; cases h
  | some k =>
    rw [firstWhere_append _ l l' hf]
    rw [hf] at h
    obtain ⟨hk, -⟩ := firstWhere_eq_some.1 hf
    simp only [List.take_append_of_le_length (show k + 1 ≤ l.length by omega)]
    exact h

/-- **C187, radius.** Without interpolation (`interp_kind=None`) a Petrosian radius that was found is not changed by apertures beyond the last one. -/
theorem C187_radius {K : Type} [Field K] [LinearOrder K] [HasSqrt K] (ip : InterpFam K) (R P R' P' : List (F K)) (eta : F K) (num : Nat)
    (hl : P.length = R.length) {r e : F K} (h : calculatePetrosianR ip R P none eta none num = .ok (r, e)) (hr : r ≠ nan) :
    calculatePetrosianR ip (R ++ R') (P ++ P') none eta none num = .ok (r, e) := by
  cases R with
  | nil => cases h
  | cons a R =>
    cases P with
    | nil => cases h
    | cons b P =>
      unfold calculatePetrosianR at *
      simp only [List.cons_append, setItem0, getInterpolatedValues, bind_eq_ok, Except.ok.injEq, exists_eq_left'] at *
      obtain ⟨r₁, h1, h2⟩ := h
      cases h2
      refine ⟨r, ?_, rfl⟩
      unfold radiusAt at *
      simp only [bind_eq_ok] at *
      obtain ⟨o, h1, h2⟩ := h1
      cases o with
      | none => cases h2; exact absurd rfl hr
      | some i =>
        refine ⟨some i, closestValueIndex_append eta (fin 1 :: P) P' false h1, ?_⟩
        have hi := closestValueIndex_lt h1
        simp only [getItem] at *
        rw [← List.cons_append, List.getElem?_append_left (by simp at hi hl ⊢; omega)]
        exact h2

/-- **C187, resampled radius.** With interpolation it is: the radius is one of `interp_num` samples of the whole range, and these move with the last
aperture. -/
theorem C187_radius_violated :
    calculatePetrosianR (fun _ => linearInterp) ([1, 2, 3].map fin : List (F ℚ)) [nan, fin (1 / 2), fin 0] none (fin (1 / 5)) (some "linear") 3 =
        .ok (fin 3, nan) ∧
      calculatePetrosianR (fun _ => linearInterp) ([1, 2, 3, 4].map fin : List (F ℚ)) [nan, fin (1 / 2), fin 0, fin 0] none (fin (1 / 5))
        (some "linear") 3 = .ok (fin (8 / 3), nan) := by
  constructor <;> decide +kernel

/-- A radius found among three apertures, with a fourth one. -/
example : calculatePetrosianR (fun _ => linearInterp) ([fin 1, fin 2, fin 3] ++ [fin 4] : List (F ℚ)) ([nan, fin (1 / 2), fin 0] ++ [fin (1 / 5)]) none
    (fin (1 / 5)) none 5000 = .ok (fin 3, nan) :=
  C187_radius (K := ℚ) (fun _ => linearInterp) [fin 1, fin 2, fin 3] [nan, fin (1 / 2), fin 0] [fin 4] [fin (1 / 5)] (fin (1 / 5)) 5000 rfl
    (by decide +kernel) (by simp)

/-- A fourth aperture in the second ring. -/
example : ∃ p p', calculatePetrosian (([1] ++ 2 :: 4 :: [] : List ℚ).map fin) (([3] ++ 5 :: 6 :: [] : List ℚ).map fin) = .ok (p, none) ∧
    calculatePetrosian (([1] ++ 2 :: 3 :: 4 :: [] : List ℚ).map fin) (([3] ++ 5 :: 11 / 2 :: 6 :: [] : List ℚ).map fin) = .ok (p', none) ∧
    ∀ i ≤ 1, p'[i]? = p[i]? := by
  obtain ⟨p, p', h1, h2, h3, -⟩ := C187_inserted (K := ℚ) [1] [3] [] [] 2 5 3 (11 / 2) 4 6 rfl rfl (by simp) (by norm_num)
  exact ⟨p, p', h1, h2, h3⟩

example : ∃ p p', calculatePetrosian (([1, 2, 4] : List ℚ).map fin) (([3, 5, 6] : List ℚ).map fin) = .ok (p, none) ∧
    calculatePetrosian (([1, 2, 4] ++ [7] : List ℚ).map fin) (([3, 5, 6] ++ [13 / 2] : List ℚ).map fin) = .ok (p', none) ∧ p'.take 3 = p :=
  C187_outer (K := ℚ) [1, 2, 4] [3, 5, 6] [7] [13 / 2] rfl rfl (by simp) (by norm_num)

example : ∃ p p', calculatePetrosian (([1, 2, 4] : List ℚ).map fin) (([3, 5, 6] : List ℚ).map fin) = .ok (p, none) ∧
    calculatePetrosian (([1 / 2] ++ [1, 2, 4] : List ℚ).map fin) (([2] ++ [3, 5, 6] : List ℚ).map fin) = .ok (p', none) ∧ p'.drop 2 = p.drop 1 :=
  C187_inner (K := ℚ) [1, 2, 4] [3, 5, 6] [1 / 2] [2] rfl rfl (by simp) (by norm_num)

example : ∃ p e p' e', calculatePetrosian (([1, 2, 4] : List ℝ).map fin) (([3, 5, 6] : List ℝ).map fin) (some (([0, 0, 0] : List ℝ).map fin))
      (some (([1, 1, 2] : List ℝ).map fin)) = .ok (p, some e) ∧
    calculatePetrosian (([1, 2, 3, 4] : List ℝ).map fin) (([3, 5, 11 / 2, 6] : List ℝ).map fin) (some (([0, 0, 0, 0] : List ℝ).map fin))
      (some (([1, 1, 1, 2] : List ℝ).map fin)) = .ok (p', some e') ∧ p[1]? = p'[1]? ∧ e[1]? = e'[1]? := by
  obtain ⟨p, e, p', e', h1, h2, h⟩ := C187_errors [1, 2, 4] [3, 5, 6] [0, 0, 0] [1, 1, 2] [1, 2, 3, 4] [3, 5, 11 / 2, 6] [0, 0, 0, 0] [1, 1, 1, 2]
    rfl rfl rfl rfl rfl rfl (by simp) (by simp)
    (by intro i h; simp only [List.length_cons, List.length_nil] at h; have h2 : i < 2 := by omega
        interval_cases i <;> norm_num)
    (by intro i h; simp only [List.length_cons, List.length_nil] at h; have h3 : i < 3 := by omega
        interval_cases i <;> norm_num)
    (by norm_num) (by norm_num) (by norm_num) (by norm_num)
    (by intro i h; simp only [List.length_cons, List.length_nil] at h; have h2 : i < 2 := by omega
        interval_cases i <;> norm_num)
    (by intro i h; simp only [List.length_cons, List.length_nil] at h; have h3 : i < 3 := by omega
        interval_cases i <;> norm_num)
  obtain ⟨v, s, a1, a2, a3, a4⟩ := h 0 0 (by simp) (by simp) rfl rfl rfl rfl rfl rfl rfl rfl
  exact ⟨p, e, p', e', h1, h2, by rw [a1, a2], by rw [a3, a4]⟩

end Verif.Props

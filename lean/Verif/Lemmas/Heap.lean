import Verif.Model.Heap
import Verif.Lemmas.PetrosianObj

/-!
# Reasoning about heap programs: a program simulates a pure computation and preserves old arrays
-/

set_option linter.unusedSectionVars false
set_option linter.unusedVariables false
set_option linter.unusedSimpArgs false

namespace Verif

open F HM

section generic
variable {K α β γ δ : Type}

/-- Addresses below `n` keep their contents and allocation only grows. -/
def Frame (n : Nat) (h h' : Heap K) : Prop := h.next ≤ h'.next ∧ ∀ i < n, h'.mem i = h.mem i

theorem Frame.refl (n : Nat) (h : Heap K) : Frame n h h := ⟨le_rfl, fun _ _ => rfl⟩

theorem Frame.trans {n : Nat} {h h' h'' : Heap K} (a : Frame n h h') (b : Frame n h' h'') : Frame n h h'' :=
  ⟨a.1.trans b.1, fun i hi => (b.2 i hi).trans (a.2 i hi)⟩

theorem Frame.mono {n m : Nat} {h h' : Heap K} (a : Frame n h h') (hm : m ≤ n) : Frame m h h' :=
  ⟨a.1, fun i hi => a.2 i (by omega)⟩

/-- `r` is an allocated array with contents `l`. -/
def At (h : Heap K) (r : Nat) (l : List (F K)) : Prop := r < h.next ∧ h.mem r = l

theorem At.frame {h h' : Heap K} {r : Nat} {l : List (F K)} (a : At h r l) (f : Frame h.next h h') : At h' r l :=
  ⟨lt_of_lt_of_le a.1 f.1, (f.2 r a.1).trans a.2⟩

/-- Same for an optional array. -/
def AtO (h : Heap K) : Option Nat → Option (List (F K)) → Prop
  | none, none => True
  | some r, some l => At h r l
  | _, _ => False

theorem AtO.frame {h h' : Heap K} {r : Option Nat} {l : Option (List (F K))} (a : AtO h r l) (f : Frame h.next h h') : AtO h' r l := by
  cases r <;> cases l <;> first | exact a | exact At.frame a f

/-- `m` started in `h` behaves like the pure computation `e` (results related by `R`) and preserves addresses below `n`. -/
def Sim (n : Nat) (h : Heap K) (R : Heap K → α → β → Prop) (m : HM K α) (e : Except PyErr β) : Prop :=
  Frame n h (m h).2 ∧
  match (m h).1, e with
  | .ok a, .ok b => R (m h).2 a b
  | .error x, .error y => x = y
  | _, _ => False

theorem HM.bind_run (m : HM K α) (f : α → HM K β) (h : Heap K) :
    (m >>= f) h = match m h with | (.ok a, h') => f a h' | (.error e, h') => (.error e, h') := rfl

theorem HM.pure_run (a : α) (h : Heap K) : (pure a : HM K α) h = (.ok a, h) := rfl

theorem Sim.bind {n n₁ : Nat} {h : Heap K} {R : Heap K → α → β → Prop} {S : Heap K → γ → δ → Prop} {m : HM K α} {e : Except PyErr β}
    {f : α → HM K γ} {g : β → Except PyErr δ} (h1 : Sim n₁ h R m e) (hn : n ≤ n₁)
    (h2 : ∀ a b h', Frame n₁ h h' → R h' a b → Sim n h' S (f a) (g b)) : Sim n h S (m >>= f) (e >>= g) := by
  obtain ⟨hf, hr⟩ := h1
  unfold Sim
  rw [HM.bind_run]
  rcases hm : m h with ⟨r, h'⟩
  rw [hm] at hf hr
  cases r with
  | error x =>
    cases e with
    | error y => exact ⟨hf.mono hn, hr⟩
    | ok b => exact absurd hr (by simp)
  | ok a =>
    cases e with
    | error y => exact absurd hr (by simp)
    | ok b =>
      obtain ⟨g1, g2⟩ := h2 a b h' hf hr
      exact ⟨(hf.mono hn).trans g1, g2⟩

theorem Sim.bind_left {n n₁ : Nat} {h : Heap K} {R : Heap K → α → β → Prop} {S : Heap K → γ → δ → Prop} {m : HM K α} {b : β}
    {f : α → HM K γ} {e : Except PyErr δ} (h1 : Sim n₁ h R m (.ok b)) (hn : n ≤ n₁)
    (h2 : ∀ a h', Frame n₁ h h' → R h' a b → Sim n h' S (f a) e) : Sim n h S (m >>= f) e := by
  obtain ⟨hf, hr⟩ := h1
  unfold Sim
  rw [HM.bind_run]
  rcases hm : m h with ⟨r, h'⟩
  rw [hm] at hf hr
  cases r with
  | error x => exact absurd hr (by simp)
  | ok a =>
    obtain ⟨g1, g2⟩ := h2 a h' hf hr
    exact ⟨(hf.mono hn).trans g1, g2⟩

theorem Sim.bind_lift {n : Nat} {h : Heap K} {S : Heap K → γ → δ → Prop} {x : Except PyErr α} {f : α → HM K γ}
    {g : α → Except PyErr δ} (h2 : ∀ a, x = .ok a → Sim n h S (f a) (g a)) : Sim n h S (lift x >>= f) (x >>= g) := by
  cases x with
  | error e => exact ⟨Frame.refl _ _, rfl⟩
  | ok a => exact h2 a rfl

theorem Sim.bind_lift_id {n : Nat} {h : Heap K} {S : Heap K → γ → α → Prop} {x : Except PyErr α} {f : α → HM K γ}
    (h2 : ∀ a, x = .ok a → Sim n h S (f a) (.ok a)) : Sim n h S (lift x >>= f) x := by
  cases x with
  | error e => exact ⟨Frame.refl _ _, rfl⟩
  | ok a => exact h2 a rfl

theorem Sim.bind_read {n : Nat} {h : Heap K} {S : Heap K → γ → δ → Prop} {r : Nat} {l : List (F K)} {f : List (F K) → HM K γ}
    {e : Except PyErr δ} (ha : At h r l) (h2 : Sim n h S (f l) e) : Sim n h S (read r >>= f) e := by
  have : (read r >>= f) h = f l h := by
    show f (h.mem r) h = f l h
    rw [ha.2]
  unfold Sim; rw [this]; exact h2

theorem Sim.pure {n : Nat} {h : Heap K} {S : Heap K → γ → δ → Prop} {a : γ} {b : δ} (h2 : S h a b) :
    Sim n h S (Pure.pure a : HM K γ) (.ok b) := ⟨Frame.refl _ _, h2⟩

theorem Sim.lift {n : Nat} {h : Heap K} {e : Except PyErr γ} : Sim n h (fun _ a b => a = b) (lift e : HM K γ) e := by
  refine ⟨Frame.refl _ _, ?_⟩
  cases e <;> rfl

theorem Sim.error {n : Nat} {h : Heap K} {S : Heap K → γ → δ → Prop} {x : PyErr} :
    Sim n h S (HM.lift (.error x) : HM K γ) (.error x : Except PyErr δ) := ⟨Frame.refl _ _, rfl⟩

theorem Sim.mono {n m : Nat} {h : Heap K} {S : Heap K → γ → δ → Prop} {p : HM K γ} {e : Except PyErr δ} (hs : Sim n h S p e)
    (hm : m ≤ n) : Sim m h S p e := ⟨hs.1.mono hm, hs.2⟩

theorem Sim.alloc {h : Heap K} (l : List (F K)) : Sim h.next h (fun h' r b => At h' r b ∧ h.next ≤ r) (alloc l) (.ok l) := by
  refine ⟨⟨by simp [HM.alloc], fun i hi => ?_⟩, ?_⟩
  · simp only [HM.alloc]; rw [if_neg (by omega)]
  · exact ⟨⟨by simp [HM.alloc], by simp [HM.alloc]⟩, le_rfl⟩

theorem Sim.npArray {h : Heap K} {r : Nat} {l : List (F K)} (ha : At h r l) :
    Sim h.next h (fun h' r' b => At h' r' b ∧ h.next ≤ r') (npArray r) (.ok l) := by
  unfold HM.npArray
  exact Sim.bind_read ha (Sim.alloc l)

theorem Sim.npArrayOpt {h : Heap K} {r : Option Nat} {l : Option (List (F K))} (ha : AtO h r l) :
    Sim h.next h (fun h' r' b => AtO h' r' b ∧ ∀ x, r' = some x → h.next ≤ x) (npArrayOpt r) (.ok l) := by
  cases r with
  | none => cases l with
    | none => exact Sim.pure ⟨trivial, by simp⟩
    | some l => exact absurd ha (by simp [AtO])
  | some r => cases l with
    | none => exact absurd ha (by simp [AtO])
    | some l =>
      unfold HM.npArrayOpt
      refine Sim.bind_left (Sim.npArray ha) le_rfl fun a h' hf hr => Sim.pure ⟨hr.1, ?_⟩
      rintro x ⟨⟩; exact hr.2

/-- Writing into an array changes that array only. -/
theorem Sim.write {n : Nat} {h : Heap K} {r : Nat} {l0 : List (F K)} (ha : At h r l0) (hn : n ≤ r) (l : List (F K)) :
    Sim n h (fun h' _ _ => At h' r l ∧ ∀ r' l', r' ≠ r → At h r' l' → At h' r' l') (write r l) (.ok ()) := by
  refine ⟨⟨le_rfl, fun i hi => ?_⟩, ⟨ha.1, ?_⟩, fun r' l' hne ha' => ⟨ha'.1, ?_⟩⟩
  · simp only [HM.write]; rw [if_neg (by omega)]
  · simp [HM.write]
  · simp only [HM.write]; rw [if_neg hne]; exact ha'.2

theorem Sim.set0 {n : Nat} {h : Heap K} {r : Nat} {l : List (F K)} (ha : At h r l) (hn : n ≤ r) (v : F K) :
    Sim n h (fun h' _ l2 => At h' r l2 ∧ ∀ r' l', r' ≠ r → At h r' l' → At h' r' l') (set0 r v) (setItem0 l v) := by
  unfold HM.set0
  refine Sim.bind_read ha ?_
  refine Sim.bind_lift_id fun l2 _ => ?_
  obtain ⟨h1, h2⟩ := Sim.write ha hn l2
  exact ⟨h1, h2⟩

end generic

section programs
variable {K : Type} [Field K] [LinearOrder K] [IsStrictOrderedRing K] (ip : InterpFam K)

theorem Sim.getInterpolatedValuesH {h : Heap K} {x y : Nat} {X Y : List (F K)} (hx : At h x X) (hy : At h y Y) (num : Nat)
    (kind : Option String) :
    Sim h.next h (fun h' a b => At h' a.1 b.1 ∧ At h' a.2 b.2) (getInterpolatedValuesH ip x y num kind)
      (getInterpolatedValues ip X Y num kind) := by
  unfold Verif.getInterpolatedValuesH
  cases kind with
  | none => exact Sim.pure ⟨hx, hy⟩
  | some k =>
    refine Sim.bind_read hx (Sim.bind_read hy ?_)
    refine Sim.bind_lift_id fun t _ => ?_
    refine Sim.bind_left (Sim.alloc t.1) le_rfl fun a h1 f1 ha => ?_
    refine Sim.bind_left (Sim.alloc t.2) f1.1 fun b h2 f2 hb => ?_
    exact Sim.pure ⟨ha.1.frame f2, hb.1⟩

theorem Sim.radiusAtH {h : Heap K} {a : Nat × Nat} {b : List (F K) × List (F K)} (ha : At h a.1 b.1 ∧ At h a.2 b.2) (v : F K) (g : Bool) :
    Sim h.next h (fun _ x y => x = y) (radiusAtH v a g) (radiusAt v b g) := by
  unfold Verif.radiusAtH
  exact Sim.bind_read ha.1 (Sim.bind_read ha.2 Sim.lift)

/-- The two calls in a row. -/
theorem Sim.search {n : Nat} {h : Heap K} {γ δ : Type} {S : Heap K → γ → δ → Prop} {x y : Nat} {X Y : List (F K)} (hx : At h x X)
    (hy : At h y Y) {num : Nat} {kind : Option String} {v : F K} {g : Bool} {f : F K → HM K γ} {f' : F K → Except PyErr δ} (hn : n ≤ h.next)
    (h2 : ∀ r h', Frame h.next h h' → Sim n h' S (f r) (f' r)) :
    Sim n h S (Verif.getInterpolatedValuesH ip x y num kind >>= fun t => Verif.radiusAtH v t g >>= f)
      (getInterpolatedValues ip X Y num kind >>= fun t => radiusAt v t g >>= f') := by
  refine Sim.bind (Sim.getInterpolatedValuesH ip hx hy num kind) hn fun a b h1 f1 hab => ?_
  refine Sim.bind (Sim.radiusAtH hab v g) (hn.trans f1.1) fun r r' h3 f3 e => ?_
  subst e
  exact h2 r h3 (f1.trans (f3.mono f1.1))

theorem Sim.calculatePetrosianRH {h : Heap K} {r p : Nat} {err : Option Nat} {R P : List (F K)} {E : Option (List (F K))}
    (hr : At h r R) (hp : At h p P) (he : AtO h err E) (eta : F K) (kind : Option String) (num : Nat) :
    Sim h.next h (fun _ a b => a = b) (calculatePetrosianRH ip r p err eta kind num) (calculatePetrosianR ip R P E eta kind num) := by
  unfold Verif.calculatePetrosianRH calculatePetrosianR
  refine Sim.bind_left (Sim.npArray hr) le_rfl fun r1 h1 f1 ⟨ar1, br1⟩ => ?_
  refine Sim.bind_left (Sim.npArray (hp.frame f1)) f1.1 fun p1 h2 f2 ⟨ap1, bp1⟩ => ?_
  refine Sim.bind_left (Sim.npArrayOpt ((he.frame f1).frame f2)) (f1.1.trans f2.1) fun e1 h3 f3 ⟨ae1, be1⟩ => ?_
  have rp : r1 ≠ p1 := by have := ar1.1; omega
  have ar3 := (ar1.frame f2).frame f3
  have ap3 := ap1.frame f3
  refine Sim.bind (n₁ := h.next) (Sim.set0 ar3 br1 (fin 0)) le_rfl fun _ R1 h4 f4 ⟨ar4, br4⟩ => ?_
  have ap4 := br4 _ _ rp.symm ap3
  refine Sim.bind (n₁ := h.next) (Sim.set0 ap4 (f1.1.trans bp1) (fin 1)) le_rfl fun _ P1 h5 f5 ⟨ap5, bp5⟩ => ?_
  have ar5 := bp5 _ _ rp ar4
  have hle : h.next ≤ h5.next := f1.1.trans (f2.1.trans (f3.1.trans (f4.1.trans f5.1)))
  refine Sim.search ip ar5 ap5 hle fun rr h6 f6 => ?_
  cases e1 with
  | none =>
    cases E with
    | some E => exact absurd ae1 (by simp [AtO])
    | none => exact Sim.pure rfl
  | some e1 =>
  cases E with
  | none => exact absurd ae1 (by simp [AtO])
  | some E =>
  have b1 := be1 e1 rfl
  have re : r1 ≠ e1 := by have := ar1.1; have := f2.1; omega
  have pe : p1 ≠ e1 := by have := ap1.1; omega
  have ae5 : At h5 e1 E := bp5 _ _ pe.symm (br4 _ _ re.symm ae1)
  by_cases hn : rr.isNaN = true
  · simp only [hn, if_true]; exact Sim.pure rfl
  · simp only [hn, if_false]
    have hle1 : h.next ≤ e1 := f1.1.trans (f2.1.trans b1)
    refine Sim.bind (n₁ := h.next) (Sim.set0 (ae5.frame f6) hle1 (fin 0)) le_rfl fun _ E1 h7 f7 ⟨ae7, be7⟩ => ?_
    have ar7 := be7 _ _ re (ar5.frame f6)
    have ap7 := be7 _ _ pe (ap5.frame f6)
    have hle7 : h.next ≤ h7.next := hle.trans (f6.1.trans f7.1)
    refine Sim.bind_read ap7 (Sim.bind_read ae7 (Sim.bind_lift fun up hup => ?_))
    refine Sim.bind_left (Sim.alloc up) hle7 fun u h8 f8 hu => ?_
    refine Sim.search ip (ar7.frame f8) hu.1 (hle7.trans f8.1) fun rU h9 f9 => ?_
    refine Sim.bind_read ((ap7.frame f8).frame f9) (Sim.bind_read ((ae7.frame f8).frame f9) (Sim.bind_lift fun lo hlo => ?_))
    refine Sim.bind_left (Sim.alloc lo) (hle7.trans (f8.1.trans f9.1)) fun u h10 f10 hu => ?_
    refine Sim.search ip (((ar7.frame f8).frame f9).frame f10) hu.1 (hle7.trans (f8.1.trans (f9.1.trans f10.1))) fun rL h11 f11 => ?_
    exact Sim.pure rfl

theorem Sim.fractionToRH {h : Heap K} {r p : Nat} {err : Option Nat} {R P : List (F K)} {E : Option (List (F K))}
    (hr : At h r R) (hp : At h p P) (he : AtO h err E) (f rp : F K) (rpe : Option (F K)) (eps epsf : F K) (kind : Option String) (num : Nat) :
    Sim h.next h (fun _ a b => a = b) (fractionToRH ip f r p rp err rpe eps epsf kind num)
      (fractionToR ip f R P rp E rpe eps epsf kind num) := by
  unfold Verif.fractionToRH fractionToR
  refine Sim.bind_left (Sim.npArray hr) le_rfl fun r1 h1 f1 ⟨ar1, br1⟩ => ?_
  refine Sim.bind_left (Sim.npArray (hp.frame f1)) f1.1 fun p1 h2 f2 ⟨ap1, bp1⟩ => ?_
  refine Sim.bind_left (Sim.npArrayOpt ((he.frame f1).frame f2)) (f1.1.trans f2.1) fun e1 h3 f3 ⟨ae1, be1⟩ => ?_
  have ar3 := (ar1.frame f2).frame f3
  have ap3 := ap1.frame f3
  have hle : h.next ≤ h3.next := f1.1.trans (f2.1.trans f3.1)
  refine Sim.bind_read ar3 (Sim.bind_lift fun hi hhi => ?_)
  by_cases hlt : F.lt hi (rp * eps) = true
  · simp only [hlt, if_true]; exact Sim.pure rfl
  simp only [hlt, if_false]
  refine Sim.bind_read ar3 (Sim.bind_read ap3 (Sim.bind_lift fun ef _ => Sim.bind_lift fun q _ => ?_))
  refine Sim.search ip ar3 ap3 hle fun rr h6 f6 => ?_
  cases e1 with
  | none =>
    cases E with
    | some E => exact absurd ae1 (by simp [AtO])
    | none => exact Sim.pure rfl
  | some e1 =>
  cases E with
  | none => exact absurd ae1 (by simp [AtO])
  | some E =>
  by_cases hn : rr.isNaN = true
  · simp only [hn, if_true]; exact Sim.pure rfl
  · simp only [hn, if_false]
    have ar6 := ar3.frame f6
    have ap6 := ap3.frame f6
    have ae6 : At h6 e1 E := At.frame ae1 f6
    have hle6 := hle.trans f6.1
    refine Sim.bind_read ap6 (Sim.bind_read ae6 (Sim.bind_lift fun lo hlo => ?_))
    refine Sim.bind_left (Sim.alloc lo) hle6 fun l h7 f7 hl => ?_
    refine Sim.bind_read (ap6.frame f7) (Sim.bind_read (ae6.frame f7) (Sim.bind_lift fun up hup => ?_))
    refine Sim.bind_left (Sim.alloc up) (hle6.trans f7.1) fun u h8 f8 hu => ?_
    have ar8 := (ar6.frame f7).frame f8
    refine Sim.bind_read ar8 (Sim.bind_read (hl.1.frame f8) (Sim.bind_lift fun fl _ => ?_))
    refine Sim.bind_read ar8 (Sim.bind_read hu.1 (Sim.bind_lift fun fu _ => ?_))
    have hle8 := hle6.trans (f7.1.trans f8.1)
    refine Sim.search ip ar8 (hl.1.frame f8) hle8 fun rU h9 f9 => ?_
    refine Sim.search ip (ar8.frame f9) (hu.1.frame f9) (hle8.trans f9.1) fun rL h10 f10 => ?_
    exact Sim.pure rfl

theorem Sim.calculatePetrosianH [HasSqrt K] {h : Heap K} {a p : Nat} {ae fe : Option Nat} {A P : List (F K)} {AE FE : Option (List (F K))}
    (ha : At h a A) (hp : At h p P) (hae : AtO h ae AE) (hfe : AtO h fe FE) :
    Sim h.next h (fun h' x y => (At h' x.1 y.1 ∧ h.next ≤ x.1) ∧ AtO h' x.2 y.2 ∧ ∀ i, x.2 = some i → h.next ≤ i)
      (calculatePetrosianH a p ae fe) (calculatePetrosian A P AE FE) := by
  unfold Verif.calculatePetrosianH calculatePetrosian
  refine Sim.bind_left (Sim.npArray ha) le_rfl fun a1 h1 f1 ⟨aa1, _⟩ => ?_
  refine Sim.bind_left (Sim.npArray (hp.frame f1)) f1.1 fun p1 h2 f2 ⟨ap1, _⟩ => ?_
  refine Sim.bind_read (aa1.frame f2) (Sim.bind_read ap1 (Sim.bind_lift fun raw _ => ?_))
  have hle2 := f1.1.trans f2.1
  refine Sim.bind_left (Sim.alloc _) hle2 fun i h3 f3 ⟨ai, bi⟩ => ?_
  refine Sim.bind_left (Sim.write (n := h2.next) ai bi _) hle2 fun _ h4 f4 ⟨ai4, bi4⟩ => ?_
  have f4' : Frame h2.next h2 h4 := f3.trans f4
  refine Sim.bind_lift fun petro _ => ?_
  refine Sim.bind_left (Sim.alloc petro) (hle2.trans f4'.1) fun q h5 f5 ⟨aq, bq⟩ => ?_
  have hae2 : AtO h2 ae AE := (hae.frame f1).frame f2
  have hfe2 : AtO h2 fe FE := (hfe.frame f1).frame f2
  have f5' : Frame h2.next h2 h5 := f4'.trans (f5.mono f4'.1)
  have hae5 := hae2.frame f5'
  have hfe5 := hfe2.frame f5'
  have bq' : h.next ≤ q := (hle2.trans f4'.1).trans bq
  have hle5 := hle2.trans f5'.1
  have e1 : ae.isNone = AE.isNone := by cases ae <;> cases AE <;> simp_all [AtO]
  have e2 : fe.isNone = FE.isNone := by cases fe <;> cases FE <;> simp_all [AtO]
  rw [e1, e2]
  by_cases hc : (AE.isNone && FE.isNone) = true
  · simp only [hc, if_true]
    exact Sim.pure ⟨⟨aq, bq'⟩, trivial, by simp⟩
  · simp only [hc, if_false, Bool.false_eq_true]
    have keyA : ∀ {h : Heap K} {l : List (F K)} {x : Option Nat} {X : Option (List (F K))}, AtO h x X →
        Sim h.next h (fun h' r b => At h' r b ∧ h.next ≤ r)
          (zerosOr l x)
          (.ok (X.getD (l.map fun _ => fin 0))) := by
      intro h l x X hx
      cases x <;> cases X
      · exact Sim.alloc _
      · exact absurd hx (by simp [AtO])
      · exact absurd hx (by simp [AtO])
      · exact Sim.npArray hx
    refine Sim.bind_left (keyA hae5) hle5 fun u h6 f6 ⟨au, _⟩ => ?_
    refine Sim.bind_left (keyA (hfe5.frame f6)) (hle5.trans f6.1) fun v h7 f7 ⟨av, _⟩ => ?_
    refine Sim.bind_read (au.frame f7) (Sim.bind_read av ?_)
    by_cases c1 : (AE.getD (A.map fun _ => fin 0)).length ≠ A.length
    · rw [if_pos c1, if_pos c1]; exact Sim.error
    rw [if_neg c1, if_neg c1]
    by_cases c2 : (FE.getD (P.map fun _ => fin 0)).length ≠ P.length
    · rw [if_pos c2, if_pos c2]; exact Sim.error
    rw [if_neg c2, if_neg c2]
    refine Sim.bind_read ((aq.frame f6).frame f7) (Sim.bind_lift fun er _ => ?_)
    refine Sim.bind_left (Sim.alloc er) (hle5.trans (f6.1.trans f7.1)) fun w h8 f8 ⟨aw, bw⟩ => ?_
    refine Sim.pure ⟨⟨((aq.frame f6).frame f7).frame f8, bq'⟩, aw, ?_⟩
    rintro x ⟨⟩
    exact (hle5.trans (f6.1.trans f7.1)).trans bw

theorem Sim.calculateConcentrationIndexH [HasLog10 K] {h : Heap K} {r p : Nat} {err : Option Nat} {R P : List (F K)}
    {E : Option (List (F K))} (hr : At h r R) (hp : At h p P) (he : AtO h err E) (f f' rp : F K) (rpe : Option (F K)) (eps epsf : F K)
    (kind : Option String) (num : Nat) :
    Sim h.next h (fun _ a b => a = b) (calculateConcentrationIndexH ip f f' r p rp err rpe eps epsf kind num)
      (calculateConcentrationIndex ip f f' R P rp E rpe eps epsf kind num) := by
  unfold Verif.calculateConcentrationIndexH calculateConcentrationIndex
  refine Sim.bind (Sim.fractionToRH ip hr hp he _ _ _ _ _ _ _) le_rfl fun a b h1 f1 e => ?_
  subst e
  refine Sim.bind (Sim.fractionToRH ip (hr.frame f1) (hp.frame f1) (he.frame f1) _ _ _ _ _ _ _) f1.1 fun b c h2 f2 e => ?_
  subst e
  split <;> exact Sim.pure rfl

/-- The heap object `p` represents the pure object `P`, with all its arrays at addresses from `n` on. -/
structure Rep (n : Nat) (h : Heap K) (p : PetrosianH K) (P : Petrosian K) : Prop where
  r : At h p.rList P.rList ∧ n ≤ p.rList
  a : At h p.areaList P.areaList ∧ n ≤ p.areaList
  f : At h p.fluxList P.fluxList ∧ n ≤ p.fluxList
  ae : AtO h p.areaErr P.areaErr ∧ ∀ i, p.areaErr = some i → n ≤ i
  fe : AtO h p.fluxErr P.fluxErr ∧ ∀ i, p.fluxErr = some i → n ≤ i
  pl : At h p.petrosianList P.petrosianList ∧ n ≤ p.petrosianList
  pe : AtO h p.petrosianErr P.petrosianErr ∧ ∀ i, p.petrosianErr = some i → n ≤ i
  scalars : p.eta = P.eta ∧ p.epsilon = P.epsilon ∧ p.epsilonFraction = P.epsilonFraction ∧
    p.totalFluxFraction = P.totalFluxFraction ∧ p.interpKind = P.interpKind ∧ p.interpNum = P.interpNum

theorem Rep.frame {n : Nat} {h h' : Heap K} {p : PetrosianH K} {P : Petrosian K} (R : Rep n h p P) (f : Frame h.next h h') : Rep n h' p P :=
  ⟨⟨R.r.1.frame f, R.r.2⟩, ⟨R.a.1.frame f, R.a.2⟩, ⟨R.f.1.frame f, R.f.2⟩, ⟨R.ae.1.frame f, R.ae.2⟩, ⟨R.fe.1.frame f, R.fe.2⟩,
    ⟨R.pl.1.frame f, R.pl.2⟩, ⟨R.pe.1.frame f, R.pe.2⟩, R.scalars⟩

theorem Sim.init [HasSqrt K] {h : Heap K} {r a f : Nat} {ae fe : Option Nat} {R A Y : List (F K)} {AE FE : Option (List (F K))}
    (hr : At h r R) (ha : At h a A) (hf : At h f Y) (hae : AtO h ae AE) (hfe : AtO h fe FE) (eta eps epsf tff : F K)
    (kind : Option String) (num : Nat) :
    Sim h.next h (fun h' p P => Rep h.next h' p P) (PetrosianH.init r a f ae fe eta eps epsf tff kind num)
      (Petrosian.init R A Y AE FE eta eps epsf tff kind num) := by
  unfold PetrosianH.init Petrosian.init
  refine Sim.bind_left (Sim.npArray hr) le_rfl fun r1 h1 f1 ⟨ar1, br1⟩ => ?_
  refine Sim.bind_left (Sim.npArray (ha.frame f1)) f1.1 fun a1 h2 f2 ⟨aa1, ba1⟩ => ?_
  refine Sim.bind_left (Sim.npArray ((hf.frame f1).frame f2)) (f1.1.trans f2.1) fun p1 h3 f3 ⟨ap1, bp1⟩ => ?_
  have l3 := f1.1.trans (f2.1.trans f3.1)
  refine Sim.bind_left (Sim.npArrayOpt (((hae.frame f1).frame f2).frame f3)) l3 fun ae1 h4 f4 ⟨aae, bae⟩ => ?_
  refine Sim.bind_left (Sim.npArrayOpt ((((hfe.frame f1).frame f2).frame f3).frame f4)) (l3.trans f4.1) fun fe1 h5 f5 ⟨afe, bfe⟩ => ?_
  have l5 := l3.trans (f4.1.trans f5.1)
  refine Sim.bind_left (n₁ := h.next) (b := ()) (R := fun h' x _ => h' = h5 ∧ x = h5) ⟨Frame.refl _ _, rfl, rfl⟩ le_rfl
    fun hp h6 _ ⟨e1, e2⟩ => ?_
  subst e1 e2
  have ar := (((ar1.frame f2).frame f3).frame f4).frame f5
  have aa := ((aa1.frame f3).frame f4).frame f5
  have ap := (ap1.frame f4).frame f5
  have aae := aae.frame f5
  rw [ar.2, ap.2, aa.2]
  by_cases c1 : ¬ 2 < R.length
  · rw [if_pos c1, if_pos c1]; exact Sim.error
  rw [if_neg c1, if_neg c1]
  by_cases c2 : R.length ≠ Y.length
  · rw [if_pos c2, if_pos c2]; exact Sim.error
  rw [if_neg c2, if_neg c2]
  have hany : ∀ {x : Option Nat} {X : Option (List (F K))} {n : Nat}, AtO hp x X →
      (x.any fun e => (hp.mem e).length ≠ n) = X.any fun e => e.length ≠ n := by
    intro x X n hx
    cases x <;> cases X
    · rfl
    · exact absurd hx (by simp [AtO])
    · exact absurd hx (by simp [AtO])
    · simp only [Option.any_some]; rw [hx.2]
  rw [hany afe, hany aae]
  by_cases c3 : (FE.any fun e => decide (e.length ≠ Y.length)) = true
  · rw [if_pos c3, if_pos c3]; exact Sim.error
  rw [if_neg c3, if_neg c3]
  by_cases c4 : (AE.any fun e => decide (e.length ≠ A.length)) = true
  · rw [if_pos c4, if_pos c4]; exact Sim.error
  rw [if_neg c4, if_neg c4]
  refine Sim.bind (Sim.calculatePetrosianH aa ap aae afe) l5 fun x y h7 f7 ⟨⟨q1, q2⟩, q3, q4⟩ => ?_
  refine Sim.pure ⟨⟨ar.frame f7, br1⟩, ⟨aa.frame f7, f1.1.trans ba1⟩, ⟨ap.frame f7, f1.1.trans (f2.1.trans bp1)⟩,
    ⟨aae.frame f7, fun i hi => l3.trans (bae i hi)⟩, ⟨afe.frame f7, fun i hi => (l3.trans f4.1).trans (bfe i hi)⟩, ⟨q1, l5.trans q2⟩,
    ⟨q3, fun i hi => l5.trans (q4 i hi)⟩, rfl, rfl, rfl, rfl, rfl, rfl⟩

section ask
variable {n : Nat} {h : Heap K} {p : PetrosianH K} {P : Petrosian K}

theorem Sim.calcPetrosianR (hR : Rep n h p P) :
    Sim h.next h (fun _ a b => a = b) (p.calcPetrosianR ip) (P.calcPetrosianR ip) := by
  unfold PetrosianH.calcPetrosianR Petrosian.calcPetrosianR
  obtain ⟨s1, s2, s3, s4, s5, s6⟩ := hR.scalars
  rw [s1, s5, s6]
  exact Sim.calculatePetrosianRH ip hR.r.1 hR.pl.1 hR.pe.1 _ _ _

theorem bind_map_fst {α β γ : Type} (e : Except PyErr (α × β)) (f : α → Except PyErr γ) :
    (e.map Prod.fst >>= f) = (e >>= fun t => f t.1) := by cases e <;> rfl

theorem bind_map_snd {α β γ : Type} (e : Except PyErr (α × β)) (f : β → Except PyErr γ) :
    (e.map Prod.snd >>= f) = (e >>= fun t => f t.2) := by cases e <;> rfl

theorem except_map_eq_bind {α β : Type} (e : Except PyErr α) (f : α → β) : e.map f = (e >>= fun a => .ok (f a)) := by
  cases e <;> rfl

theorem Sim.calcFractionToR (hR : Rep n h p P) (f : F K) :
    Sim h.next h (fun _ a b => a = b) (p.calcFractionToR ip f) (P.calcFractionToR ip f) := by
  unfold PetrosianH.calcFractionToR Petrosian.calcFractionToR Petrosian.rPetrosian Petrosian.rPetrosianErr
  obtain ⟨s1, s2, s3, s4, s5, s6⟩ := hR.scalars
  rw [s2, s3, s5, s6, bind_map_fst]
  refine Sim.bind (Sim.calcPetrosianR ip hR) le_rfl fun a b h1 f1 e => ?_
  subst e
  rw [bind_map_snd]
  refine Sim.bind (Sim.calcPetrosianR ip (hR.frame f1)) f1.1 fun b c h2 f2 e => ?_
  subst e
  have hR2 := (hR.frame f1).frame f2
  exact (Sim.fractionToRH ip hR2.r.1 hR2.f.1 hR2.fe.1 _ _ _ _ _ _ _).mono (f1.1.trans f2.1)

theorem Sim.concentrationIndex [HasLog10 K] (hR : Rep n h p P) (f f' : F K) :
    Sim h.next h (fun _ a b => a = b) (p.concentrationIndex ip f f') (P.concentrationIndex ip f f') := by
  unfold PetrosianH.concentrationIndex Petrosian.concentrationIndex Petrosian.rPetrosian Petrosian.rPetrosianErr
  obtain ⟨s1, s2, s3, s4, s5, s6⟩ := hR.scalars
  rw [s2, s3, s5, s6, bind_map_fst]
  refine Sim.bind (Sim.calcPetrosianR ip hR) le_rfl fun a b h1 f1 e => ?_
  subst e
  rw [bind_map_snd]
  refine Sim.bind (Sim.calcPetrosianR ip (hR.frame f1)) f1.1 fun b c h2 f2 e => ?_
  subst e
  have hR2 := (hR.frame f1).frame f2
  exact (Sim.calculateConcentrationIndexH ip hR2.r.1 hR2.f.1 hR2.fe.1 _ _ _ _ _ _ _ _).mono (f1.1.trans f2.1)

theorem Sim.fluxAt (hR : Rep n h p P) (r : F K) : Sim h.next h (fun _ a b => a = b) (p.fluxAt ip r) (P.fluxAt ip r) := by
  unfold PetrosianH.fluxAt Petrosian.fluxAt
  obtain ⟨s1, s2, s3, s4, s5, s6⟩ := hR.scalars
  rw [s5]
  refine Sim.bind_read hR.r.1 (Sim.bind_lift fun lo _ => Sim.bind_read hR.r.1 (Sim.bind_lift fun hi _ => ?_))
  split
  · exact Sim.bind_read hR.r.1 (Sim.bind_read hR.f.1 Sim.lift)
  · exact Sim.pure rfl

theorem Sim.totalFluxErr [HasSqrt K] (hR : Rep n h p P) :
    Sim h.next h (fun _ a b => a = b) (p.totalFluxErr ip) (P.totalFluxErr ip) := by
  unfold PetrosianH.totalFluxErr Petrosian.totalFluxErr Petrosian.rTotalFlux Petrosian.rTotalFluxErr
  obtain ⟨s1, s2, s3, s4, s5, s6⟩ := hR.scalars
  rw [s4, bind_map_fst]
  refine Sim.bind (Sim.calcFractionToR ip hR _) le_rfl fun a b h1 f1 e => ?_
  subst e
  rw [bind_map_snd]
  refine Sim.bind (Sim.calcFractionToR ip (hR.frame f1) _) f1.1 fun b c h2 f2 e => ?_
  subst e
  have hR2 := (hR.frame f1).frame f2
  have hfe := hR2.fe.1
  cases hp : p.fluxErr with
  | none =>
    cases hP : P.fluxErr with
    | none => exact Sim.pure rfl
    | some l => rw [hp, hP] at hfe; exact absurd hfe (by simp [AtO])
  | some fe =>
    cases hP : P.fluxErr with
    | none => rw [hp, hP] at hfe; exact absurd hfe (by simp [AtO])
    | some l =>
      rw [hp, hP] at hfe
      simp only
      unfold Petrosian.totalFlux Petrosian.rTotalFlux
      rw [bind_map_fst, show ((P.calcFractionToR ip P.totalFluxFraction >>= fun t => P.fluxAt ip t.1) >>=
        fun tf => if tf.isNaN = true then Except.ok nan else do
          let e ← ip "nearest" P.rList l a.1
          Except.ok (F.sqrt (F.sq e + F.sq b.2))) = (P.calcFractionToR ip P.totalFluxFraction >>= fun t => P.fluxAt ip t.1 >>=
        fun tf => if tf.isNaN = true then Except.ok nan else do
          let e ← ip "nearest" P.rList l a.1
          Except.ok (F.sqrt (F.sq e + F.sq b.2))) by cases P.calcFractionToR ip P.totalFluxFraction <;> rfl]
      have l2 := f1.1.trans f2.1
      refine Sim.bind (Sim.calcFractionToR ip hR2 _) l2 fun c d h3 f3 e => ?_
      subst e
      refine Sim.bind (Sim.fluxAt ip (hR2.frame f3) _) (l2.trans f3.1) fun tf d h4 f4 e => ?_
      subst e
      have hR4 := (hR2.frame f3).frame f4
      split
      · exact Sim.pure rfl
      · refine Sim.bind_read hR4.r.1 (Sim.bind_read ((At.frame hfe f3).frame f4) (Sim.bind_lift fun _ _ => Sim.pure rfl))

theorem Sim.ask [HasSqrt K] [HasLog10 K] (hR : Rep n h p P) (q : PQuery K) :
    Sim h.next h (fun _ a b => a = b) (p.ask ip q) (P.ask ip q) := by
  obtain ⟨s1, s2, s3, s4, s5, s6⟩ := hR.scalars
  have kr : ∀ (g : F K × F K → List (F K)), Sim h.next h (fun _ a b => a = b)
      (do let t ← p.calcPetrosianR ip; return g t) ((P.calcPetrosianR ip).map g) := by
    intro g
    rw [except_map_eq_bind]
    refine Sim.bind (Sim.calcPetrosianR ip hR) le_rfl fun a b h1 f1 e => ?_
    subst e; exact Sim.pure rfl
  have kf : ∀ (f : F K) (g : F K × F K → List (F K)), Sim h.next h (fun _ a b => a = b)
      (do let t ← p.calcFractionToR ip f; return g t) ((P.calcFractionToR ip f).map g) := by
    intro f g
    rw [except_map_eq_bind]
    refine Sim.bind (Sim.calcFractionToR ip hR f) le_rfl fun a b h1 f1 e => ?_
    subst e; exact Sim.pure rfl
  have kt : ∀ (f : F K), Sim h.next h (fun _ a b => a = b)
      (do let t ← p.calcFractionToR ip f; let x ← p.fluxAt ip t.1; return [x])
      ((P.calcFractionToR ip f) >>= fun t => (P.fluxAt ip t.1).map ([·])) := by
    intro f
    refine Sim.bind (Sim.calcFractionToR ip hR f) le_rfl fun a b h1 f1 e => ?_
    subst e
    rw [except_map_eq_bind]
    refine Sim.bind (Sim.fluxAt ip (hR.frame f1) _) f1.1 fun a b h1 f1 e => ?_
    subst e; exact Sim.pure rfl
  have mm : ∀ {α β γ : Type} (e : Except PyErr α) (f : α → β) (g : β → γ), (e.map f).map g = e.map (g ∘ f) := by
    intro α β γ e f g; cases e <;> rfl
  have mt : ∀ f : F K, ((P.calcFractionToR ip f).map Prod.fst >>= fun t => P.fluxAt ip t).map ([·]) =
      ((P.calcFractionToR ip f) >>= fun t => (P.fluxAt ip t.1).map ([·])) := by
    intro f; cases P.calcFractionToR ip f <;> rfl
  cases q with
  | rPetrosian => rw [Petrosian.ask, Petrosian.rPetrosian, mm]; exact kr _
  | rPetrosianErr => rw [Petrosian.ask, Petrosian.rPetrosianErr, mm]; exact kr _
  | rEpsilon =>
    have : P.ask ip .rEpsilon = (P.calcPetrosianR ip).map fun t => [t.1 * p.epsilon] := by
      rw [Petrosian.ask, Petrosian.rEpsilon, Petrosian.rPetrosian, s2]
      cases P.calcPetrosianR ip <;> rfl
    rw [this]; exact kr _
  | fraction f => rw [Petrosian.ask, Petrosian.fractionFluxToR, mm]; exact kf f _
  | fractionErr f => rw [Petrosian.ask, Petrosian.fractionFluxToRErr, mm]; exact kf f _
  | rTotalFlux => rw [Petrosian.ask, Petrosian.rTotalFlux, mm, ← s4]; exact kf _ _
  | rTotalFluxErr => rw [Petrosian.ask, Petrosian.rTotalFluxErr, mm, ← s4]; exact kf _ _
  | rHalfLight => rw [Petrosian.ask, Petrosian.rHalfLight, mm]; exact kf _ _
  | rHalfLightErr => rw [Petrosian.ask, Petrosian.rHalfLightErr, mm]; exact kf _ _
  | totalFlux => rw [Petrosian.ask, Petrosian.totalFlux, Petrosian.rTotalFlux, mt, ← s4]; exact kt _
  | halfFlux => rw [Petrosian.ask, Petrosian.halfFlux, Petrosian.rHalfLight, mt]; exact kt _
  | totalFluxErr =>
    rw [Petrosian.ask, except_map_eq_bind]
    refine Sim.bind (Sim.totalFluxErr ip hR) le_rfl fun a b h1 f1 e => ?_
    subst e; exact Sim.pure rfl
  | concentration f1 f2 =>
    rw [Petrosian.ask, except_map_eq_bind]
    refine Sim.bind (Sim.concentrationIndex ip hR f1 f2) le_rfl fun a b h1 f1 e => ?_
    subst e; exact Sim.pure rfl

end ask

end programs
end Verif

import Verif.Model.SharedPsf
import Verif.Props.PSFNorm

/-!
# C181: the PSF of a model and the array of the caller
-/

set_option linter.unusedSectionVars false
set_option linter.unusedSimpArgs false

namespace Verif.Spec

variable {K : Type}

/-- Does a statement set the PSF of wrapper `m`? -/
def SetsPsf (m : Nat) : PsfOp K → Prop
  | .assign n _ => n = m
  | _ => False

/-- Does a statement change the elements of the array at address `a`? -/
def Writes (a : Nat) : PsfOp K → Prop
  | .write b _ => b = a
  | _ => False

/-- The elements of the array at address `a` after a program, if it had the elements `im` before. -/
def elementsAfter (a : Nat) (im : Img K) : List (PsfOp K) → Img K
  | [] => im
  | .write b im' :: ops => elementsAfter a (if b = a then im' else im) ops
  | _ :: ops => elementsAfter a im ops

/-- Wrapper `m` has the PSF array at address `a` with the elements `im`, and its cache is a grid it computed. -/
structure HasPsf [Field K] [LinearOrder K] [IsStrictOrderedRing K] [FloorRing K] (s : PsfMemory K) (m a : Nat) (im : Img K) : Prop where
  object : ∃ o, s.objects[m]? = some o ∧ o.psfAt = some a ∧ Props.CacheOk o.rest
  array : s.arrays[a]? = some im

/-- All elements multiplied by a number: `im * c`. -/
def times [Mul K] (c : K) (im : Img K) : Img K := ⟨im.h, im.w, fun i j => c * im.px i j⟩

end Verif.Spec

namespace Verif.Props

open F Spec PSFModel PsfMemory

variable {K : Type} [Field K] [LinearOrder K] [IsStrictOrderedRing K] [FloorRing K]

/-- The settings of a wrapper without PSF and cache. -/
def settings (M : PSFModel K) : PSFModel K := uncached { M with psf := none }

theorem uncached_of_settings {M M' : PSFModel K} (h : settings M = settings M') (hp : M.psf = M'.psf) : uncached M = uncached M' := by
  unfold settings uncached at h
  unfold uncached
  simp only [PSFModel.mk.injEq] at h ⊢
  exact ⟨h.1, hp, h.2.2.1, h.2.2.2.1, trivial, trivial, trivial, trivial, trivial⟩

theorem cacheOk_view {s : PsfMemory K} {o : PsfObject K} (h : CacheOk o.rest) : CacheOk (s.view o) := h

theorem settings_view (s : PsfMemory K) (o : PsfObject K) : settings (s.view o) = settings o.rest := rfl

theorem settings_of_uncached {M M' : PSFModel K} (h : uncached M = uncached M') : settings M = settings M' := by
  unfold uncached at h
  unfold settings uncached
  simp only [PSFModel.mk.injEq] at h ⊢
  exact ⟨h.1, trivial, h.2.2.1, h.2.2.2.1, trivial, trivial, trivial, trivial, trivial⟩

/-- The object after one statement that does not set its PSF. -/
theorem step_object (s : PsfMemory K) (m : Nat) (op : PsfOp K) (hs : ¬ SetsPsf m op) {o : PsfObject K} (ho : s.objects[m]? = some o)
    (hc : CacheOk o.rest) :
    ∃ o', (s.step op).objects[m]? = some o' ∧ o'.psfAt = o.psfAt ∧ CacheOk o'.rest ∧ settings o'.rest = settings o.rest := by
  have hlt : m < s.objects.length := by
    rcases List.getElem?_eq_some_iff.1 ho with ⟨h, _⟩; exact h
  cases op with
  | array im => exact ⟨o, ho, rfl, hc, rfl⟩
  | write a im => exact ⟨o, ho, rfl, hc, rfl⟩
  | wrap rest a => exact ⟨o, by simpa [step, List.getElem?_append_left hlt] using ho, rfl, hc, rfl⟩
  | assign n a =>
    have hn : n ≠ m := hs
    refine ⟨o, ?_, rfl, hc, rfl⟩
    unfold step
    cases h : s.objects[n]? with
    | none => simpa [h] using ho
    | some o' => simpa [h, List.getElem?_set, hn] using ho
  | copy n =>
    refine ⟨o, ?_, rfl, hc, rfl⟩
    unfold step
    cases h : s.objects[n]? with
    | none => simpa [h] using ho
    | some o' =>
      cases h2 : s.arrayAt o'.psfAt with
      | none => simpa [h, h2, List.getElem?_append_left hlt] using ho
      | some im => simpa [h, h2, List.getElem?_append_left hlt] using ho
  | evaluate n rot coords params pa =>
    by_cases hn : n = m
    · subst hn
      have hu := evaluate_uncached (cacheOk_view (s := s) hc) rot coords params pa
      refine ⟨{ o with rest := ((s.view o).evaluate rot coords params pa).2 }, ?_, rfl, hu.2.1, ?_⟩
      · have e : s.step (.evaluate n rot coords params pa) =
            { s with objects := s.objects.set n { o with rest := ((s.view o).evaluate rot coords params pa).2 } } := by simp [step, ho]
        rw [e]
        simp [hlt]
      · exact (settings_of_uncached hu.2.2).trans (settings_view s o)
    · refine ⟨o, ?_, rfl, hc, rfl⟩
      unfold step
      cases h : s.objects[n]? with
      | none => simpa [h] using ho
      | some o' => simpa [h, List.getElem?_set, hn] using ho

/-- The array after one statement. -/
theorem step_array (s : PsfMemory K) (op : PsfOp K) {a : Nat} {im : Img K} (h : s.arrays[a]? = some im) :
    (s.step op).arrays[a]? = some (elementsAfter a im [op]) := by
  have hlt : a < s.arrays.length := by
    rcases List.getElem?_eq_some_iff.1 h with ⟨h, _⟩; exact h
  cases op with
  | array im' => simpa [step, elementsAfter, List.getElem?_append_left hlt] using h
  | write b im' =>
    by_cases hb : b = a
    · subst hb; simp [step, elementsAfter, hlt]
    · simpa [step, elementsAfter, hb] using h
  | wrap rest a' => simpa [step, elementsAfter] using h
  | assign n a' =>
    cases h2 : s.objects[n]? with
    | none => simpa [step, elementsAfter, h2] using h
    | some o' => simpa [step, elementsAfter, h2] using h
  | copy n =>
    cases h2 : s.objects[n]? with
    | none => simpa [step, elementsAfter, h2] using h
    | some o' =>
      cases h3 : s.arrayAt o'.psfAt with
      | none => simpa [step, elementsAfter, h2, h3] using h
      | some im' => simpa [step, elementsAfter, h2, h3, List.getElem?_append_left hlt] using h
  | evaluate n rot coords params pa =>
    cases h2 : s.objects[n]? with
    | none => simpa [step, elementsAfter, h2] using h
    | some o' => simpa [step, elementsAfter, h2] using h

theorem elementsAfter_cons (a : Nat) (im : Img K) (op : PsfOp K) (ops : List (PsfOp K)) :
    elementsAfter a im (op :: ops) = elementsAfter a (elementsAfter a im [op]) ops := by
  cases op <;> simp [elementsAfter]

theorem elementsAfter_unwritten (a : Nat) (im : Img K) (ops : List (PsfOp K)) (h : ∀ op ∈ ops, ¬ Writes a op) : elementsAfter a im ops = im := by
  induction ops generalizing im with
  | nil => rfl
  | cons op ops ih =>
    have h1 : elementsAfter a im [op] = im := by
      have := h op (by simp)
      cases op <;> simp_all [elementsAfter, Writes]
    rw [elementsAfter_cons, h1, ih im fun o ho => h o (by simp [ho])]

/-- The object and its array after a program that does not set its PSF. -/
theorem run_object (s : PsfMemory K) (m : Nat) (ops : List (PsfOp K)) (hs : ∀ op ∈ ops, ¬ SetsPsf m op) {o : PsfObject K}
    (ho : s.objects[m]? = some o) (hc : CacheOk o.rest) :
    ∃ o', (s.run ops).objects[m]? = some o' ∧ o'.psfAt = o.psfAt ∧ CacheOk o'.rest ∧ settings o'.rest = settings o.rest := by
  induction ops generalizing s o with
  | nil => exact ⟨o, ho, rfl, hc, rfl⟩
  | cons op ops ih =>
    obtain ⟨o1, h1, h2, h3, h4⟩ := step_object s m op (hs op (by simp)) ho hc
    obtain ⟨o2, g1, g2, g3, g4⟩ := ih (s.step op) (fun p hp => hs p (by simp [hp])) h1 h3
    exact ⟨o2, g1, g2.trans h2, g3, g4.trans h4⟩

theorem run_array (s : PsfMemory K) (ops : List (PsfOp K)) {a : Nat} {im : Img K} (h : s.arrays[a]? = some im) :
    (s.run ops).arrays[a]? = some (elementsAfter a im ops) := by
  induction ops generalizing s im with
  | nil => exact h
  | cons op ops ih => rw [elementsAfter_cons]; exact ih (s.step op) (step_array s op h)

/-- **C181, the current elements.** After any program that does not set its PSF a model has the values of a model whose PSF is given the
elements that the array of the caller has *now*: all later assignments to elements of that array act on the model. -/
theorem C181_current (s : PsfMemory K) (m a : Nat) (im : Img K) (h : HasPsf s m a im) (ops : List (PsfOp K))
    (hs : ∀ op ∈ ops, ¬ SetsPsf m op) (rot : Img K → K → Img K) (coords : List (K × K)) (params : List K) (pa : K) :
    ∃ M : PSFModel K, s.object m = some M ∧
      (s.run ops).values m rot coords params pa =
        some ((M.setPsf (some (elementsAfter a im ops))).evaluate rot coords params pa).1 := by
  obtain ⟨⟨o, ho, hoa, hc⟩, ha⟩ := h
  obtain ⟨o', h1, h2, h3, h4⟩ := run_object s m ops hs ho hc
  have h5 := run_array s ops ha
  refine ⟨s.view o, by simp [PsfMemory.object, ho], ?_⟩
  have hM : CacheOk ((s.view o).setPsf (some (elementsAfter a im ops))) := hc
  simp only [values, PsfMemory.object, h1, Option.map_some]
  rw [(evaluate_uncached (cacheOk_view (s := s.run ops) h3) rot coords params pa).1, (evaluate_uncached hM rot coords params pa).1]
  congr 3
  refine uncached_of_settings ?_ ?_
  · rw [settings_view, h4]; rfl
  · simp [view, setPsf, h2, hoa, h5]

/-- **C181, unchanged arrays.** If no statement sets the PSF of a model or changes the elements of its array, the program does not change the
values of the model, whatever it does with other arrays and models. -/
theorem C181_frame (s : PsfMemory K) (m a : Nat) (im : Img K) (h : HasPsf s m a im) (ops : List (PsfOp K))
    (hs : ∀ op ∈ ops, ¬ SetsPsf m op) (hw : ∀ op ∈ ops, ¬ Writes a op) (rot : Img K → K → Img K) (coords : List (K × K)) (params : List K)
    (pa : K) : (s.run ops).values m rot coords params pa = s.values m rot coords params pa := by
  obtain ⟨M, h1, h2⟩ := C181_current s m a im h ops hs rot coords params pa
  obtain ⟨M', h1', h2'⟩ := C181_current s m a im h [] (by simp) rot coords params pa
  rw [h1] at h1'
  cases h1'
  rw [h2, elementsAfter_unwritten a im ops hw]
  exact h2'.symm

/-- **C181, copies.** A copy of a model (also the model that a fit returns) has an array of its own: no program that leaves the PSF of the copy
and that new array alone changes its values, whatever it does with the original, its array and all other arrays. -/
theorem C181_copy (s : PsfMemory K) (m a : Nat) (im : Img K) (h : HasPsf s m a im) (ops : List (PsfOp K))
    (hs : ∀ op ∈ ops, ¬ SetsPsf s.objects.length op) (hw : ∀ op ∈ ops, ¬ Writes s.arrays.length op) (rot : Img K → K → Img K)
    (coords : List (K × K)) (params : List K) (pa : K) :
    (s.run (.copy m :: ops)).values s.objects.length rot coords params pa = s.values m rot coords params pa := by
  obtain ⟨⟨o, ho, hoa, hc⟩, ha⟩ := h
  have hv : s.arrayAt o.psfAt = some im := by simp [arrayAt, hoa, ha]
  have e : s.step (.copy m) = { s with arrays := s.arrays ++ [im], objects := s.objects ++ [⟨some s.arrays.length, o.rest⟩] } := by
    simp [step, ho, hv]
  have hp : HasPsf (s.step (.copy m)) s.objects.length s.arrays.length im := by
    rw [e]
    exact ⟨⟨⟨some s.arrays.length, o.rest⟩, by simp, rfl, hc⟩, by simp⟩
  have hf := C181_frame _ _ _ _ hp ops hs hw rot coords params pa
  have hr : s.run (.copy m :: ops) = (s.step (.copy m)).run ops := rfl
  rw [hr, hf, e]
  simp only [values, PsfMemory.object, ho, Option.map_some, List.getElem?_append_right (le_refl _), Nat.sub_self,
    List.getElem?_cons_zero]
  have ev : ({ s with arrays := s.arrays ++ [im], objects := s.objects ++ [⟨some s.arrays.length, o.rest⟩] } : PsfMemory K).view
      ⟨some s.arrays.length, o.rest⟩ = s.view o := by
    simp [view, hoa, ha]
  rw [ev]

theorem evaluate_times (M : PSFModel K) (hM : CacheOk M) (psf : Img K) (c : K) (rot : Img K → K → Img K) (coords : List (K × K))
    (params : List K) :
    ((M.setPsf (some (times c psf))).evaluate rot coords params 0).1 =
      ((M.setPsf (some psf)).evaluate rot coords params 0).1.map (List.map (c * ·)) := by
  by_cases hc : coords = []
  · rw [evaluate_err hc, evaluate_err hc]; rfl
  · have hx : coords.map (·.1) ≠ [] := by simpa using hc
    have hy : coords.map (·.2) ≠ [] := by simpa using hc
    obtain ⟨a, ha⟩ := min?_some hx
    obtain ⟨b, hb⟩ := max?_some hx
    obtain ⟨c', hc'⟩ := min?_some hy
    obtain ⟨d, hd⟩ := max?_some hy
    rw [evaluate_some ha hb hc' hd, evaluate_some ha hb hc' hd]
    simp only
    have hM1 : CacheOk (M.setPsf (some (times c psf))) := hM
    have hM2 : CacheOk (M.setPsf (some psf)) := hM
    rw [mainGrid_fst hM1, mainGrid_fst hM2]
    have hgf : (M.setPsf (some (times c psf))).gridFactor = (M.setPsf (some psf)).gridFactor := by unfold gridFactor; rfl
    rw [hgf]
    unfold valuesOn
    rw [hgf]
    have h1 : (M.setPsf (some (times c psf))).oversampled = (M.setPsf (some psf)).oversampled := by
      funext a b c d e
      unfold oversampled pasteWindow
      rfl
    rw [h1]
    have hcv : ∀ im : Img K, (M.setPsf (some (times c psf))).convolved rot 0 im = times c ((M.setPsf (some psf)).convolved rot 0 im) := by
      intro im
      have e0 : convolveSame im (times c psf) = times c (convolveSame im psf) := by
        unfold convolveSame times
        congr 1
        funext i j
        simp only [← List.sum_map_mul_left, mul_assoc]
      have e1 : ∀ p, (M.setPsf (some p)).convolved rot 0 im = if 1 < M.psfFactor then
          (blockReduce (convolveSame im p) M.psfFactor).divBy ((M.psfFactor : K) ^ 2) else convolveSame im p := by
        intro p
        unfold convolved setPsf
        simp only [ne_eq, not_true_eq_false, if_false]
        rfl
      rw [e1, e1, e0]
      by_cases hf : 1 < M.psfFactor
      · rw [if_pos hf, if_pos hf]
        unfold blockReduce Img.divBy Img.map times
        congr 1
        funext i j
        simp only [List.sum_map_mul_left, mul_div_assoc]
      · rw [if_neg hf, if_neg hf]
    cases hov : (M.setPsf (some psf)).oversampled params (M.setPsf (some psf)).gridFactor
        (sample (M.setPsf (some psf)).sub params (makeGrid ((max (indexOf b a) (indexOf d c') + 1 : Nat) : Int) (a, c')
          (M.setPsf (some psf)).gridFactor)) (indexOf b a) (indexOf d c') with
    | error e =>
      have : sample (M.setPsf (some (times c psf))).sub = sample (M.setPsf (some psf)).sub := rfl
      rw [this, hov]; rfl
    | ok im =>
      have : sample (M.setPsf (some (times c psf))).sub = sample (M.setPsf (some psf)).sub := rfl
      rw [this, hov]
      simp only [Bind.bind, Except.bind]
      rw [hcv]
      generalize (coords.map fun p => (indexOf p.2 c', indexOf p.1 a)) = idx
      generalize (M.setPsf (some psf)).convolved rot 0 im = img
      induction idx with
      | nil => rfl
      | cons p t ih =>
        rw [List.mapM_cons, List.mapM_cons, ih]
        by_cases hp : p.1 < img.h ∧ p.2 < img.w
        · have q1 : pick img p = .ok (img.px p.1 p.2) := by unfold pick; rw [if_pos hp]
          have q2 : pick (times c img) p = .ok (c * img.px p.1 p.2) := by unfold pick; rw [if_pos (by exact hp)]; rfl
          rw [q1, q2]
          cases t.mapM (pick img) <;> rfl
        · have q1 : pick img p = .error .indexError := by unfold pick; rw [if_neg hp]
          have q2 : pick (times c img) p = .error .indexError := by unfold pick; rw [if_neg (by exact hp)]
          rw [q1, q2]; rfl

theorem total_times (c : K) (im : Img K) : total (times c im) = c * total im := by
  simp [total, times, Finset.mul_sum]

/-- **C181, scaled in place.** `a *= c` for the array of a PSF multiplies all values of every model that was given this array by `c` (at
`psf_pa = 0`), and gives no warning. -/
theorem C181_scaled (s : PsfMemory K) (m a : Nat) (im : Img K) (h : HasPsf s m a im) (c : K) (rot : Img K → K → Img K)
    (coords : List (K × K)) (params : List K) :
    (s.step (.write a (times c im))).values m rot coords params 0 =
        (s.values m rot coords params 0).map (Except.map (List.map (c * ·))) ∧
      (s.step (.write a (times c im))).warnings = s.warnings := by
  refine ⟨?_, rfl⟩
  obtain ⟨M, h1, h2⟩ := C181_current s m a im h [.write a (times c im)] (by simp [SetsPsf]) rot coords params 0
  obtain ⟨M', h1', h2'⟩ := C181_current s m a im h [] (by simp) rot coords params 0
  rw [h1] at h1'
  cases h1'
  have hM : CacheOk M := by
    obtain ⟨⟨o, ho, _, hc⟩, _⟩ := h
    simp only [PsfMemory.object, ho, Option.map_some, Option.some.injEq] at h1
    rw [← h1]; exact hc
  have e1 : s.run [.write a (times c im)] = s.step (.write a (times c im)) := rfl
  have e2 : s.run [] = s := rfl
  rw [e1] at h2
  rw [e2] at h2'
  rw [h2, h2']
  simp only [elementsAfter, if_true, Option.map_some]
  rw [evaluate_times M hM im c]

/-- **C181, violated.** A model whose PSF was accepted without a warning (its total is within 5e-7 of 1) and has a non-zero value, and an
assignment to elements of the caller's array afterwards: the values of the model are others, no warning was given, and the same elements
given to the setter in a new array would have given one. -/
theorem C181_kept_violated (s : PsfMemory K) (m a : Nat) (im : Img K) (h : HasPsf s m a im) (hsum : |total im - 1| ≤ 5 / 10 ^ 7)
    (rot : Img K → K → Img K) (coords : List (K × K)) (params : List K) (vs : List K)
    (hv : s.values m rot coords params 0 = some (.ok vs)) (hne : ∃ v ∈ vs, v ≠ 0) :
    ∃ im' : Img K, (s.step (.write a im')).values m rot coords params 0 ≠ s.values m rot coords params 0 ∧
      (s.step (.write a im')).warnings = s.warnings ∧
      (s.run [.array im', .assign m (some s.arrays.length)]).warnings = s.warnings + 1 := by
  obtain ⟨h1, h2⟩ := C181_scaled s m a im h 2 rot coords params
  refine ⟨times 2 im, ?_, h2, ?_⟩
  · rw [h1, hv]
    intro e
    simp only [Option.map_some, Except.map, Option.some.injEq, Except.ok.injEq] at e
    obtain ⟨v, hmem, hv0⟩ := hne
    have hall : ∀ x ∈ vs, 2 * x = x := by
      have e' : vs.map (2 * ·) = vs.map id := by rw [List.map_id]; exact e
      exact List.map_inj_left.1 e'
    have := hall v hmem
    apply hv0
    linarith
  · obtain ⟨⟨o, ho, _, _⟩, _⟩ := h
    have hw : psfWarns (fin (total (times 2 im))) = true := by
      by_contra hf
      have hf : psfWarns (fin (total (times 2 im))) = false := by simpa using hf
      obtain ⟨x, hx, hle⟩ := (C120_silent_iff _).1 hf
      injection hx with hx
      rw [← hx, total_times] at hle
      rw [abs_le] at hsum hle
      linarith [hsum.1, hle.2]
    have hw' : setterWarnings (some (times 2 im)) = 1 := by
      unfold setterWarnings
      exact if_pos hw
    simp [run, step, ho, arrayAt, hw']

/-- **C181, warnings.** A program warns once for each constructor call and each assignment to `psf` whose array is then not normalised; writing
to arrays, copying and evaluating never warn. -/
theorem C181_warnings (s : PsfMemory K) (op : PsfOp K) :
    (s.step op).warnings = s.warnings + 1 ↔
      ∃ b im, (s.arrays[b]? = some im ∧ ¬ |total im - 1| ≤ 5 / 10 ^ 7) ∧
        ((∃ rest, op = .wrap rest (some b)) ∨ ∃ n, n < s.objects.length ∧ op = .assign n (some b)) := by
  have key : ∀ x : Option Nat, setterWarnings (s.arrayAt x) = 1 ↔ ∃ b im, x = some b ∧ s.arrays[b]? = some im ∧
      ¬ |total im - 1| ≤ 5 / 10 ^ 7 := by
    intro x
    have hw : ∀ im : Img K, setterWarnings (some im) = 1 ↔ ¬ |total im - 1| ≤ 5 / 10 ^ 7 := by
      intro im
      have : (|total im - 1| ≤ 5 / 10 ^ 7) ↔ psfWarns (fin (total im)) = false := by
        rw [C120_silent_iff]
        constructor
        · intro h; exact ⟨_, rfl, h⟩
        · rintro ⟨x, hx, h⟩; injection hx with hx; rw [hx]; exact h
      rw [this]
      unfold setterWarnings
      change (if psfWarns (fin (total im)) then 1 else 0) = 1 ↔ _
      cases psfWarns (fin (total im)) <;> simp
    cases x with
    | none => simp [arrayAt, setterWarnings]
    | some b =>
      cases hb : s.arrays[b]? with
      | none => simp [arrayAt, hb, setterWarnings]
      | some im =>
        have : s.arrayAt (some b) = some im := by simp [arrayAt, hb]
        rw [this, hw]
        constructor
        · intro h; exact ⟨b, im, rfl, hb, h⟩
        · rintro ⟨b', im', hb', hi, h⟩
          cases hb'
          rw [hb] at hi
          cases hi
          exact h
  cases op with
  | array im => simp [step]
  | write a im => simp [step]
  | wrap rest x =>
    simp only [step, Nat.add_left_cancel_iff, key]
    constructor
    · rintro ⟨b, im, rfl, h1, h2⟩; exact ⟨b, im, ⟨h1, h2⟩, .inl ⟨rest, rfl⟩⟩
    · rintro ⟨b, im, ⟨h1, h2⟩, ⟨r, hr⟩ | ⟨n, _, hn⟩⟩
      · cases hr; exact ⟨b, im, rfl, h1, h2⟩
      · cases hn
  | assign n x =>
    cases ho : s.objects[n]? with
    | none =>
      have hl := List.getElem?_eq_none_iff.1 ho
      simp only [step, ho]
      constructor
      · intro h; omega
      · rintro ⟨b, im, _, ⟨r, hr⟩ | ⟨n', hlt, hn⟩⟩
        · cases hr
        · cases hn; omega
    | some o =>
      have hl : n < s.objects.length := (List.getElem?_eq_some_iff.1 ho).1
      simp only [step, ho, Nat.add_left_cancel_iff, key]
      constructor
      · rintro ⟨b, im, rfl, h1, h2⟩; exact ⟨b, im, ⟨h1, h2⟩, .inr ⟨n, hl, rfl⟩⟩
      · rintro ⟨b, im, ⟨h1, h2⟩, ⟨r, hr⟩ | ⟨n', _, hn⟩⟩
        · cases hr
        · cases hn; exact ⟨b, im, rfl, h1, h2⟩
  | copy n =>
    cases ho : s.objects[n]? with
    | none => simp [step, ho]
    | some o => cases h2 : s.arrayAt o.psfAt <;> simp [step, ho, h2]
  | evaluate n rot coords params pa =>
    cases ho : s.objects[n]? <;> simp [step, ho]

/-- A statement warns at most once. -/
theorem C181_one_warning (s : PsfMemory K) (op : PsfOp K) :
    (s.step op).warnings = s.warnings ∨ (s.step op).warnings = s.warnings + 1 := by
  have key : ∀ x : Option (Img K), setterWarnings x = 0 ∨ setterWarnings x = 1 := by
    intro x
    cases x with
    | none => exact .inl rfl
    | some im =>
      unfold setterWarnings
      simp only
      exact (Bool.eq_false_or_eq_true (psfWarns (fin (total im)))).elim (fun h => .inr (if_pos h)) fun h => .inl (if_neg (by
        change ¬ psfWarns (fin (total im)) = true
        simp [h]))
  cases op with
  | array im => exact .inl rfl
  | write a im => exact .inl rfl
  | wrap rest x => rcases key (s.arrayAt x) with h | h <;> simp [step, h]
  | assign n x =>
    cases ho : s.objects[n]? with
    | none => simp [step, ho]
    | some o => rcases key (s.arrayAt x) with h | h <;> simp [step, ho, h]
  | copy n =>
    cases ho : s.objects[n]? with
    | none => simp [step, ho]
    | some o => cases h2 : s.arrayAt o.psfAt <;> simp [step, ho, h2]
  | evaluate n rot coords params pa =>
    cases ho : s.objects[n]? <;> simp [step, ho]

/-- Two models are given one array, one of them is copied, and the array is doubled in place: the values of both models double without a
warning, those of the copy do not; giving the doubled array to a constructor warns. -/
def sharedProgram : PsfMemory ℚ :=
  let sub : SubModel ℚ := ⟨["a"], fun ps x y => ps.getD 0 0 + x + 2 * y⟩
  let rest : PSFModel ℚ := ⟨sub, none, .none, none, true, 0, 0, none, none⟩
  PsfMemory.run ⟨[], [], 0⟩ [.array (Img.ofRows 0 [[1]]), .wrap rest (some 0), .wrap rest (some 0)]

example : let ev := fun (s : PsfMemory ℚ) m => (s.values m (fun im _ => im) [(0, 0), (1, 0), (0, 1), (1, 1)] [1] 0).bind Except.toOption
    let s : PsfMemory ℚ := sharedProgram
    let t : PsfMemory ℚ := s.run [.copy 0, .write 0 (Img.ofRows 0 [[2]])]
    let u : PsfMemory ℚ := t.run [.wrap ⟨⟨["a"], fun ps x y => ps.getD 0 0 + x + 2 * y⟩, none, .none, none, true, 0, 0, none, none⟩ (some 0)]
    s.warnings = 0 ∧ ev s 0 = some [1, 2, 3, 4] ∧ ev s 1 = some [1, 2, 3, 4] ∧ t.warnings = 0 ∧ ev t 0 = some [2, 4, 6, 8] ∧
      ev t 1 = some [2, 4, 6, 8] ∧ ev t 2 = some [1, 2, 3, 4] ∧ u.warnings = 1 := by
  decide +kernel

example : HasPsf sharedProgram 0 0 (Img.ofRows (0 : ℚ) [[1]]) ∧ HasPsf sharedProgram 1 0 (Img.ofRows (0 : ℚ) [[1]]) := by
  refine ⟨⟨⟨_, rfl, rfl, ?_⟩, rfl⟩, ⟨⟨_, rfl, rfl, ?_⟩, rfl⟩⟩ <;> (intro r hr; cases hr)

end Verif.Props

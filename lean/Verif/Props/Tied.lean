import Verif.Model.Tied
import Verif.Props.PSFModel

/-!
# C179: wrapping keeps ties and adds no parameter without effect
-/

set_option linter.unusedSectionVars false
set_option linter.unusedVariables false
set_option linter.unusedSimpArgs false

namespace Verif.Props

open TParams

variable {K : Type}

/-- The tie is a function of the parameters of `m` that are not tied. -/
def Spec.OfUntied (m : TParams K) (t : Tie K) : Prop :=
  ∀ a b : String → Option K, (∀ p ∈ m, p.2.tie = none → a p.1 = b p.1) → t a = t b

/-- Every tie of `m` holds at the values of `r`. -/
def Spec.TiesHold (m r : TParams K) : Prop := ∀ p ∈ m, ∀ t, p.2.tie = some t → r.get p.1 = some (t r.get)

/-! ### astropy -/

theorem get_mem {m : TParams K} (hm : (m.map (·.1)).Nodup) {p : String × TState K} (hp : p ∈ m) : m.get p.1 = some p.2.value := by
  unfold TParams.get
  induction m with
  | nil => cases hp
  | cons q t ih =>
    rw [List.map_cons, List.nodup_cons] at hm
    rcases List.mem_cons.1 hp with e | e
    · subst e; simp
    · have : q.1 ≠ p.1 := fun h => hm.1 (h ▸ List.mem_map_of_mem (f := (·.1)) e)
      rw [List.find?_cons_of_neg (by simpa using this)]
      exact ih hm.2 e

theorem get_congr {a b : TParams K} (h : a.map (fun p => (p.1, p.2.value)) = b.map fun p => (p.1, p.2.value)) : a.get = b.get := by
  funext nm
  unfold TParams.get
  induction a generalizing b with
  | nil => cases b with
    | nil => rfl
    | cons q t => simp at h
  | cons p s ih => cases b with
    | nil => simp at h
    | cons q t =>
      simp only [List.map_cons, List.cons.injEq, Prod.mk.injEq] at h
      by_cases hn : p.1 = nm
      · rw [List.find?_cons_of_pos (by simpa using hn), List.find?_cons_of_pos (by simpa [← h.1.1] using hn)]
        simp [h.1.2]
      · rw [List.find?_cons_of_neg (by simpa using hn), List.find?_cons_of_neg (by simpa [← h.1.1] using hn)]
        exact ih h.2

theorem get_setValue (m : TParams K) (nm nm' : String) (v : K) :
    (m.setValue nm v).get nm' = if nm' = nm then (m.get nm).map fun _ => v else m.get nm' := by
  unfold TParams.setValue TParams.get
  induction m with
  | nil => simp
  | cons p t ih =>
    rw [List.map_cons]
    by_cases h1 : p.1 = nm
    · rw [if_pos h1]
      by_cases h2 : nm' = nm
      · simp [h1, h2]
      · have : ¬ p.1 = nm' := fun h => h2 (h ▸ h1)
        rw [if_neg h2] at ih ⊢
        rw [List.find?_cons_of_neg (by simpa using this), List.find?_cons_of_neg (by simpa using this), ih]
    · rw [if_neg h1]
      by_cases h2 : nm' = nm
      · subst h2
        rw [List.find?_cons_of_neg (by simpa using h1), List.find?_cons_of_neg (by simpa using h1), ih, if_pos rfl]
      · rw [if_neg h2] at ih ⊢
        by_cases h3 : p.1 = nm'
        · rw [List.find?_cons_of_pos (by simpa using h3), List.find?_cons_of_pos (by simpa using h3)]
        · rw [List.find?_cons_of_neg (by simpa using h3), List.find?_cons_of_neg (by simpa using h3), ih]

theorem names_setValue (m : TParams K) (nm : String) (v : K) : (m.setValue nm v).map (·.1) = m.map (·.1) := by
  unfold TParams.setValue
  rw [List.map_map]
  refine List.map_congr_left fun p _ => ?_
  simp only [Function.comp]
  split_ifs <;> rfl

/-- What the loop over the tied parameters does. -/
theorem ties_fold {M : TParams K} (hM : (M.map (·.1)).Nodup) (hT : ∀ p ∈ M, ∀ t, p.2.tie = some t → Spec.OfUntied M t) (l : TParams K)
    (hl : ∀ p ∈ l, p ∈ M) (hn : (l.map (·.1)).Nodup) (acc : TParams K) (hacc : ∀ p ∈ M, p.2.tie = none → acc.get p.1 = M.get p.1)
    (hhas : ∀ p ∈ M, (acc.get p.1).isSome) :
    (∀ p ∈ l, ∀ t, p.2.tie = some t → (l.foldl (fun m p => match p.2.tie with
      | some t => m.setValue p.1 (t m.get)
      | none => m) acc).get p.1 = some (t M.get)) ∧
    ∀ nm, (∀ p ∈ l, p.1 = nm → p.2.tie = none) → (l.foldl (fun m p => match p.2.tie with
      | some t => m.setValue p.1 (t m.get)
      | none => m) acc).get nm = acc.get nm := by
  induction l generalizing acc with
  | nil => exact ⟨fun p hp => (by cases hp), fun nm _ => rfl⟩
  | cons q s ih =>
    rw [List.map_cons, List.nodup_cons] at hn
    have hqM := hl q (by simp)
    rw [List.foldl_cons]
    cases hq : q.2.tie with
    | none =>
      simp only
      obtain ⟨i1, i2⟩ := ih (fun p hp => hl p (by simp [hp])) hn.2 acc hacc hhas
      refine ⟨fun p hp t ht => ?_, fun nm h => i2 nm fun p hp => h p (by simp [hp])⟩
      rcases List.mem_cons.1 hp with e | e
      · rw [e, hq] at ht; cases ht
      · exact i1 p e t ht
    | some t =>
      simp only
      have htv : t acc.get = t M.get := hT q hqM t hq _ _ hacc
      have hne : ∀ p ∈ M, p.2.tie = none → p.1 ≠ q.1 := fun p hp hpn he => by
        have : p = q := List.inj_on_of_nodup_map hM hp hqM he
        rw [this, hq] at hpn; cases hpn
      obtain ⟨i1, i2⟩ := ih (fun p hp => hl p (by simp [hp])) hn.2 (acc.setValue q.1 (t acc.get))
        (fun p hp hpn => by rw [get_setValue, if_neg (hne p hp hpn)]; exact hacc p hp hpn)
        (fun p hp => by
          rw [get_setValue]
          split_ifs with h
          · have := hhas q hqM
            rw [Option.isSome_map]; exact this
          · exact hhas p hp)
      refine ⟨fun p hp t' ht => ?_, fun nm h => ?_⟩
      · rcases List.mem_cons.1 hp with e | e
        · subst e
          rw [hq] at ht
          cases ht
          rw [i2 p.1 fun r hr he => absurd (he ▸ List.mem_map_of_mem (f := (·.1)) hr) hn.1, get_setValue, if_pos rfl]
          obtain ⟨x, hx⟩ := Option.isSome_iff_exists.1 (hhas p hqM)
          rw [hx, htv]; rfl
        · exact i1 p e t' ht
      · rw [i2 nm fun p hp => h p (by simp [hp]), get_setValue, if_neg]
        intro he
        have := h q (by simp) he.symm
        rw [hq] at this; cases this

theorem assignFree_shape (m : TParams K) (v : List K) :
    (m.assignFree v).map (fun p => (p.1, p.2.fixed, p.2.tie)) = m.map fun p => (p.1, p.2.fixed, p.2.tie) := by
  induction m generalizing v with
  | nil => rfl
  | cons p t ih =>
    unfold TParams.assignFree
    split_ifs
    · cases v <;> simp [ih]
    · simp [ih]

theorem shape_names {a b : TParams K} (h : a.map (fun p => (p.1, p.2.fixed, p.2.tie)) = b.map fun p => (p.1, p.2.fixed, p.2.tie)) :
    a.map (·.1) = b.map (·.1) := by
  have := congrArg (List.map (·.1)) h
  simpa [List.map_map, Function.comp_def] using this

theorem shape_mem {a b : TParams K} (h : a.map (fun p => (p.1, p.2.fixed, p.2.tie)) = b.map fun p => (p.1, p.2.fixed, p.2.tie))
    {p : String × TState K} (hp : p ∈ a) : ∃ q ∈ b, q.1 = p.1 ∧ q.2.fixed = p.2.fixed ∧ q.2.tie = p.2.tie := by
  have : (p.1, p.2.fixed, p.2.tie) ∈ b.map fun p => (p.1, p.2.fixed, p.2.tie) := h ▸ List.mem_map_of_mem hp
  obtain ⟨q, hq, e⟩ := List.mem_map.1 this
  simp only [Prod.mk.injEq] at e
  exact ⟨q, hq, e.1, e.2.1, e.2.2⟩

/-- **C179, without a wrapper.** Whatever the optimizer returns, the ties hold for the fitted model. -/
theorem C179_plain (m : TParams K) (hm : (m.map (·.1)).Nodup) (hT : ∀ p ∈ m, ∀ t, p.2.tie = some t → Spec.OfUntied m t) (v : List K) :
    Spec.TiesHold m (m.fitted v) := by
  have hs := assignFree_shape m v
  set M := m.assignFree v with hMdef
  have hM : (M.map (·.1)).Nodup := by rw [shape_names hs]; exact hm
  have hT' : ∀ p ∈ M, ∀ t, p.2.tie = some t → Spec.OfUntied M t := by
    intro p hp t ht a b hab
    obtain ⟨q, hq, -, -, e⟩ := shape_mem hs hp
    refine hT q hq t (e.trans ht) a b fun r hr hrn => ?_
    obtain ⟨r', hr', e1, -, e3⟩ := shape_mem hs.symm hr
    rw [← e1]
    exact hab r' hr' (e3.trans hrn)
  obtain ⟨h1, h2⟩ := ties_fold hM hT' M (fun p hp => hp) hM M (fun _ _ _ => rfl) (fun p hp => by rw [get_mem hM hp]; rfl)
  intro p hp t ht
  obtain ⟨p', hp', e1, -, e3⟩ := shape_mem hs.symm hp
  rw [← e1]
  have hv : t M.get = t (m.fitted v).get := by
    refine hT' p' hp' t (e3.trans ht) _ _ fun r hr hrn => (h2 r.1 fun s hs' he => ?_).symm
    rw [List.inj_on_of_nodup_map hM hs' hr he]; exact hrn
  rw [← hv]
  exact h1 p' hp' t (e3.trans ht)

/-! ### Wrappers -/

theorem assignFree_map (m : TParams K) (w : String → K) :
    m.assignFree (m.freeNames.map w) = m.map fun p => (p.1, { p.2 with value := if isFree p.2 then w p.1 else p.2.value }) := by
  induction m with
  | nil => rfl
  | cons p t ih =>
    unfold TParams.assignFree TParams.freeNames
    unfold TParams.freeNames at ih
    rw [List.map_map] at ih
    by_cases h : isFree p.2
    · rw [if_pos h, List.filter_cons_of_pos (by simpa using h)]
      simp [ih, h]
    · rw [if_neg h, List.filter_cons_of_neg (by simpa using h)]
      simp [ih, h]

theorem applyTies_none {m : TParams K} (h : ∀ p ∈ m, p.2.tie = none) : m.applyTies = m := by
  have key : ∀ (l acc : TParams K), (∀ p ∈ l, p.2.tie = none) → l.foldl (fun m p => match p.2.tie with
      | some t => m.setValue p.1 (t m.get)
      | none => m) acc = acc := by
    intro l
    induction l with
    | nil => intro acc _; rfl
    | cons q s ih =>
      intro acc hl
      rw [List.foldl_cons, hl q (by simp)]
      exact ih acc fun p hp => hl p (by simp [hp])
  exact key m m h

theorem get?_map {V : Type} (m : TParams K) (hm : (m.map (·.1)).Nodup) (f : TState K → V) {p : String × TState K} (hp : p ∈ m) :
    Dict.get? (m.map fun p => (p.1, f p.2)) p.1 = some (f p.2) := by
  unfold Dict.get?
  induction m with
  | nil => cases hp
  | cons q t ih =>
    rw [List.map_cons, List.nodup_cons] at hm
    rcases List.mem_cons.1 hp with e | e
    · subst e; simp
    · have : q.1 ≠ p.1 := fun h => hm.1 (h ▸ List.mem_map_of_mem (f := (·.1)) e)
      rw [List.map_cons, List.find?_cons_of_neg (by simpa using this)]
      exact ih hm.2 e

theorem get?_none {V : Type} (m : TParams K) (f : TState K → V) {nm : String} (h : nm ∉ m.map (·.1)) :
    Dict.get? (m.map fun p => (p.1, f p.2)) nm = none := by
  unfold Dict.get?
  rw [List.find?_eq_none.2, Option.map_none]
  intro e he
  obtain ⟨p, hp, rfl⟩ := List.mem_map.1 he
  simp only [decide_eq_true_eq]
  exact fun hh => h (hh ▸ List.mem_map_of_mem (f := (·.1)) hp)

/-- **C179, the parameters of the fit without a wrapper.** The optimizer gets the parameters that are neither fixed nor tied, in order; they get its values and the fixed ones
that are not tied keep theirs. -/
theorem C179_free (m : TParams K) (hm : (m.map (·.1)).Nodup) (hT : ∀ p ∈ m, ∀ t, p.2.tie = some t → Spec.OfUntied m t) (w : String → K) :
    m.freeNames = (m.filter fun p => !p.2.fixed && p.2.tie.isNone).map (·.1) ∧
    ∀ p ∈ m, p.2.tie = none → (m.fitted (m.freeNames.map w)).get p.1 = some (if p.2.fixed then p.2.value else w p.1) := by
  refine ⟨rfl, fun p hp hpn => ?_⟩
  have hs := assignFree_shape m (m.freeNames.map w)
  have hval := assignFree_map m w
  set M := m.assignFree (m.freeNames.map w) with hMdef
  have hM : (M.map (·.1)).Nodup := by rw [shape_names hs]; exact hm
  have hT' : ∀ p ∈ M, ∀ t, p.2.tie = some t → Spec.OfUntied M t := by
    intro p hp t ht a b hab
    obtain ⟨q, hq, -, -, e⟩ := shape_mem hs hp
    refine hT q hq t (e.trans ht) a b fun r hr hrn => ?_
    obtain ⟨r', hr', e1, -, e3⟩ := shape_mem hs.symm hr
    rw [← e1]
    exact hab r' hr' (e3.trans hrn)
  obtain ⟨-, h2⟩ := ties_fold hM hT' M (fun p hp => hp) hM M (fun _ _ _ => rfl) (fun p hp => by rw [get_mem hM hp]; rfl)
  have hp' : (p.1, { p.2 with value := if isFree p.2 then w p.1 else p.2.value }) ∈ M := by
    rw [hval]
    exact List.mem_map.2 ⟨p, hp, rfl⟩
  have h3 := h2 p.1 fun s hs' he => by
    rw [List.inj_on_of_nodup_map hM hs' hp' he]
    exact hpn
  refine h3.trans ((get_mem hM hp').trans ?_)
  cases hf : p.2.fixed <;> simp [isFree, hf, hpn]

section
variable [Zero K]

/-- The parameters of a wrapper made without keywords: no ties, the flags of the wrapped model, and a free `psf_pa`. -/
theorem wrapTied_own (m : TParams K) (hm : (m.map (·.1)).Nodup) (hpa : "psf_pa" ∉ m.map (·.1)) :
    (wrapTied m none none).own = m.map (fun p => (p.1, ⟨p.2.value, p.2.fixed, none⟩)) ++ [("psf_pa", ⟨0, false, none⟩)] := by
  unfold wrapTied TParams.updateFixed
  simp only
  rw [List.map_append, List.map_map]
  congr 1
  · refine List.map_congr_left fun p hp => ?_
    simp only [Function.comp]
    rw [get?_map m hm (fun s => s.fixed) hp]
    rfl
  · simp only [List.map_cons, List.map_nil]
    rw [get?_none m (fun s => s.fixed) hpa]
    rfl

/-- **C179, the parameters of the fit: violated.** The optimizer of a wrapped model gets all parameters that are not fixed, the tied ones
included, and `psf_pa`. -/
theorem C179_free_violated (m : TParams K) (hm : (m.map (·.1)).Nodup) (hpa : "psf_pa" ∉ m.map (·.1)) :
    (wrapTied m none none).own.freeNames = (m.filter fun p => !p.2.fixed).map (·.1) ++ ["psf_pa"] := by
  rw [wrapTied_own m hm hpa]
  unfold TParams.freeNames
  rw [List.filter_append, List.map_append, List.filter_map, List.map_map]
  congr 1
  congr 1
  refine List.filter_congr fun p _ => ?_
  simp [isFree]

end

section
variable [Field K]

/-- **C179, ties: violated.** For every tie of a parameter that is not fixed there are values that the optimizer can return, for which the tie does
not hold for the `model` of the fitted wrapper. -/
theorem C179_tied_violated (m : TParams K) (hm : (m.map (·.1)).Nodup) (hpa : "psf_pa" ∉ m.map (·.1)) (q : String × TState K) (hq : q ∈ m)
    (hqf : q.2.fixed = false) (t : Tie K) (hqt : q.2.tie = some t) (ht : Spec.OfUntied m t) :
    ∃ v, v.length = (wrapTied m none none).own.freeNames.length ∧ ¬ Spec.TiesHold m ((wrapTied m none none).fitted v).model := by
  classical
  set w : String → K := fun nm => if nm = q.1 then t m.get + 1 else (m.get nm).getD 0 with hw
  refine ⟨(wrapTied m none none).own.freeNames.map w, List.length_map _, fun hold => ?_⟩
  have hown := wrapTied_own m hm hpa
  have hfit : (wrapTied m none none).own.fitted ((wrapTied m none none).own.freeNames.map w) =
      (wrapTied m none none).own.map fun p => (p.1, { p.2 with value := if isFree p.2 then w p.1 else p.2.value }) := by
    unfold TParams.fitted
    rw [assignFree_map, applyTies_none]
    intro p hp
    obtain ⟨r, hr, rfl⟩ := List.mem_map.1 hp
    rw [hown] at hr
    rcases List.mem_append.1 hr with h | h
    · obtain ⟨s, -, rfl⟩ := List.mem_map.1 h; rfl
    · rw [List.mem_singleton.1 h]
  have hget : ∀ p ∈ m, ((wrapTied m none none).fitted ((wrapTied m none none).own.freeNames.map w)).model.get p.1 =
      some (if p.1 = q.1 then t m.get + 1 else p.2.value) := by
    intro p hp
    have ho : ((wrapTied m none none).own.fitted ((wrapTied m none none).own.freeNames.map w)).get p.1 =
        some (if p.1 = q.1 then t m.get + 1 else p.2.value) := by
      rw [hfit, hown, List.map_append, List.map_map]
      have hn : ((m.map ((fun p : String × TState K => (p.1, ({ p.2 with value := if isFree p.2 then w p.1 else p.2.value } : TState K))) ∘
          fun p => (p.1, (⟨p.2.value, p.2.fixed, none⟩ : TState K)))) ++
          [("psf_pa", (0 : K), false, (none : Option (Tie K)))].map (fun e => (e.1, (⟨if isFree (⟨0, false, none⟩ : TState K) then w "psf_pa" else 0, e.2.2.1, e.2.2.2⟩ : TState K)))).map (·.1) =
          m.map (·.1) ++ ["psf_pa"] := by
        rw [List.map_append, List.map_map]; rfl
      have hnd : (m.map (·.1) ++ ["psf_pa"]).Nodup := by
        rw [List.nodup_append]
        refine ⟨hm, List.nodup_singleton _, fun a ha b hb => ?_⟩
        rw [List.mem_singleton.1 hb]
        exact fun e => hpa (e ▸ ha)
      have hmem : (p.1, (⟨if isFree (⟨p.2.value, p.2.fixed, none⟩ : TState K) then w p.1 else p.2.value, p.2.fixed, none⟩ : TState K)) ∈
          (m.map ((fun p : String × TState K => (p.1, ({ p.2 with value := if isFree p.2 then w p.1 else p.2.value } : TState K))) ∘
          fun p => (p.1, (⟨p.2.value, p.2.fixed, none⟩ : TState K)))) ++
          [("psf_pa", (0 : K), false, (none : Option (Tie K)))].map (fun e => (e.1, (⟨if isFree (⟨0, false, none⟩ : TState K) then w "psf_pa" else 0, e.2.2.1, e.2.2.2⟩ : TState K))) :=
        List.mem_append_left _ (List.mem_map.2 ⟨p, hp, rfl⟩)
      have := get_mem (by rw [hn]; exact hnd) hmem
      simp only at this
      refine Eq.trans this ?_
      congr 1
      by_cases he : p.1 = q.1
      · have : p = q := List.inj_on_of_nodup_map hm hp hq he
        subst this
        simp [isFree, hqf, hw]
      · rw [if_neg he]
        split_ifs with hf
        · rw [hw]; simp only; rw [if_neg he, get_mem hm hp]; rfl
        · rfl
    unfold TWrapped.model TWrapped.fitted
    simp only
    have hn : ∀ (d : Dict Bool) (x : TParams K), (x.updateFixed d).get = x.get := fun d x => get_congr (by
      unfold TParams.updateFixed; rw [List.map_map]; rfl)
    rw [hn]
    have hsub : (wrapTied m none none).sub = m := rfl
    rw [hsub]
    have h2 := get_mem (m := m.map fun r => (r.1, { r.2 with value :=
        (((wrapTied m none none).own.fitted ((wrapTied m none none).own.freeNames.map w)).get r.1).getD r.2.value }))
      (by rw [List.map_map]; exact hm) (List.mem_map_of_mem hp)
    simp only at h2
    rw [h2, ho]
    rfl
  have h1 := hold q hq t hqt
  rw [hget q hq, if_pos rfl] at h1
  have h2 : t ((wrapTied m none none).fitted ((wrapTied m none none).own.freeNames.map w)).model.get = t m.get := by
    refine ht _ _ fun p hp hpn => ?_
    rw [hget p hp, if_neg, get_mem hm hp]
    intro he
    rw [List.inj_on_of_nodup_map hm hp hq he, hqt] at hpn
    cases hpn
  rw [h2] at h1
  have := Option.some.inj h1
  exact one_ne_zero (add_eq_left.1 this)

end

/-- **C179, keyword.** Ties given to the wrapper with the keyword `tied`, as functions of parameters that are not tied, hold for the fitted wrapper. -/
theorem C179_keyword_partial [Zero K] (m : TParams K) (hm : (m.map (·.1)).Nodup) (hpa : "psf_pa" ∉ m.map (·.1)) (fixed : Option (Dict Bool))
    (d : Dict (Tie K)) (hd : ∀ nm t, Dict.get? d nm = some t → Spec.OfUntied (wrapTied m fixed (some d)).own t) (v : List K) (nm : String)
    (hnm : nm ∈ m.map (·.1)) (t : Tie K) (ht : Dict.get? d nm = some t) :
    ((wrapTied m fixed (some d)).fitted v).own.get nm = some (t ((wrapTied m fixed (some d)).fitted v).own.get) := by
  have hup : ∀ (e : Dict Bool) (x : TParams K), (x.updateFixed e).map (fun p => (p.1, p.2.tie)) = x.map fun p => (p.1, p.2.tie) := fun e x => by
    unfold TParams.updateFixed; rw [List.map_map]; rfl
  have hties : (wrapTied m fixed (some d)).own.map (fun p => (p.1, p.2.tie)) =
      m.map (fun p => (p.1, Dict.get? d p.1)) ++ [("psf_pa", Dict.get? d "psf_pa")] := by
    unfold wrapTied
    cases fixed with
    | none => simp only; rw [hup, List.map_map, List.map_append, List.map_map]; rfl
    | some f => simp only; rw [hup, List.map_map, List.map_append, List.map_map]; rfl
  have hnames : (wrapTied m fixed (some d)).own.map (·.1) = m.map (·.1) ++ ["psf_pa"] := by
    have := congrArg (List.map (·.1)) hties
    rw [List.map_map, List.map_append, List.map_map] at this
    exact this
  have hnd : ((wrapTied m fixed (some d)).own.map (·.1)).Nodup := by
    rw [hnames, List.nodup_append]
    refine ⟨hm, List.nodup_singleton _, fun a ha b hb => ?_⟩
    rw [List.mem_singleton.1 hb]
    exact fun e => hpa (e ▸ ha)
  have htie : ∀ p ∈ (wrapTied m fixed (some d)).own, p.2.tie = Dict.get? d p.1 := by
    intro p hp
    have : (p.1, p.2.tie) ∈ m.map (fun p => (p.1, Dict.get? d p.1)) ++ [("psf_pa", Dict.get? d "psf_pa")] :=
      hties ▸ List.mem_map_of_mem (f := fun p : String × TState K => (p.1, p.2.tie)) hp
    rcases List.mem_append.1 this with h | h
    · obtain ⟨r, -, e⟩ := List.mem_map.1 h
      simp only [Prod.mk.injEq] at e
      rw [← e.1, ← e.2]
    · have e := List.mem_singleton.1 h
      simp only [Prod.mk.injEq] at e
      rw [e.1, e.2]
  have hold := C179_plain _ hnd (fun p hp t' ht' => hd p.1 t' ((htie p hp).symm.trans ht')) v
  have hnm' : nm ∈ (wrapTied m fixed (some d)).own.map (·.1) := by rw [hnames]; exact List.mem_append_left _ hnm
  obtain ⟨p, hp, rfl⟩ := List.mem_map.1 hnm'
  exact hold p hp t ((htie p hp).trans ht)

/-- **C179, keyword: violated for `model`.** The ties of `model` are those of the model that was wrapped, whatever is given to or changed on the
wrapper. -/
theorem C179_keyword_violated [Zero K] (m : TParams K) (fixed : Option (Dict Bool)) (tied : Option (Dict (Tie K))) (v : List K) :
    ((wrapTied m fixed tied).fitted v).model.map (fun p => (p.1, p.2.tie)) = m.map fun p => (p.1, p.2.tie) := by
  unfold TWrapped.model TWrapped.fitted TParams.updateFixed
  simp only
  rw [List.map_map, List.map_map]
  rfl

/-- **C179, `psf_pa`: violated.** A wrapper without a PSF has the free parameter `psf_pa`, and no value depends on it. -/
theorem C179_psf_pa_violated [Field K] [LinearOrder K] [FloorRing K] (m : TParams K) (hm : (m.map (·.1)).Nodup)
    (hpa : "psf_pa" ∉ m.map (·.1)) (M : PSFModel K) (hpsf : M.psf = none) (rot : Img K → K → Img K) (coords : List (K × K)) (params : List K)
    (pa pa' : K) : "psf_pa" ∈ (wrapTied m none none).own.freeNames ∧
      M.evaluate rot coords params pa = M.evaluate rot coords params pa' := by
  refine ⟨by rw [C179_free_violated m hm hpa]; simp, ?_⟩
  have h : ∀ im, M.convolved rot pa im = M.convolved rot pa' im := fun im => by
    unfold PSFModel.convolved
    rw [hpsf]
  have h2 : ∀ idx iMax jMax grid, M.valuesOn rot idx params pa iMax jMax grid = M.valuesOn rot idx params pa' iMax jMax grid := by
    intro idx iMax jMax grid
    unfold PSFModel.valuesOn
    simp only [h]
  unfold PSFModel.evaluate
  simp only [h2]

/-! ### Cases -/

/-- Two galaxies, the second at the position of the first. -/
def tiedPair : TParams ℚ := [("x_0_0", ⟨3, false, none⟩), ("n_0", ⟨1, true, none⟩), ("x_0_1", ⟨3, false, some fun g => (g "x_0_0").getD 0⟩)]

theorem tiedPair_ofUntied : Spec.OfUntied tiedPair fun g => (g "x_0_0").getD 0 := fun a b h => by
  have := h ("x_0_0", ⟨3, false, none⟩) (by simp [tiedPair]) rfl
  simp only at this ⊢
  rw [this]

example : (tiedPair.map (·.1)).Nodup ∧ "psf_pa" ∉ tiedPair.map (·.1) ∧ tiedPair.freeNames = ["x_0_0"] ∧
    (tiedPair.fitted [5]).get "x_0_1" = some 5 ∧ (wrapTied tiedPair none none).own.freeNames = ["x_0_0", "x_0_1", "psf_pa"] ∧
    ((wrapTied tiedPair none none).fitted [5, 7, 0]).model.get "x_0_1" = some 7 := by
  refine ⟨by decide, by decide, by decide, by decide +kernel, by decide, by decide +kernel⟩

end Verif.Props

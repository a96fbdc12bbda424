import Verif.Props.Tied

/-!
# C182: the wrapped model is kept by reference (petrofit/modeling/models.py:183 `self._model = model`)

The caller's model object and the wrapper's `_model` are one object: a later change of the caller's model is a change of `TWrapped.sub`.
-/

set_option linter.unusedSectionVars false

namespace Verif.Spec

variable {K : Type}

/-- The wrapper after the caller changed its model to `m` (values, `fixed` flags and ties; the names of the parameters stay). -/
def callerSets (w : TWrapped K) (m : TParams K) : TWrapped K := ⟨m, w.own⟩

/-- The parameters of the wrapper are those of the wrapped model and `psf_pa`. -/
structure Wraps (w : TWrapped K) : Prop where
  names : w.own.map (·.1) = w.sub.map (·.1) ++ ["psf_pa"]
  fresh : "psf_pa" ∉ w.sub.map (·.1)

end Verif.Spec

namespace Verif.Props

open TParams Verif.Spec

variable {K : Type}

theorem get_some_of_name {m : TParams K} {nm : String} (h : nm ∈ m.map (·.1)) : ∃ v, m.get nm = some v := by
  unfold TParams.get
  cases hf : m.find? fun p => p.1 = nm with
  | none =>
    obtain ⟨p, hp, rfl⟩ := List.mem_map.1 h
    have := List.find?_eq_none.1 hf p hp
    simp at this
  | some p => exact ⟨p.2.value, rfl⟩

theorem fixed_some_of_name {m : TParams K} {nm : String} (h : nm ∈ m.map (·.1)) (hn : nm ≠ "psf_pa") :
    ∃ b, Dict.get? ((m.map fun p => (p.1, p.2.fixed)).filter fun p => p.1 ≠ "psf_pa") nm = some b := by
  unfold Dict.get?
  cases hf : ((m.map fun p => (p.1, p.2.fixed)).filter fun p => p.1 ≠ "psf_pa").find? fun e => e.1 = nm with
  | none =>
    obtain ⟨p, hp, rfl⟩ := List.mem_map.1 h
    have hm : (p.1, p.2.fixed) ∈ (m.map fun p => (p.1, p.2.fixed)).filter fun p => p.1 ≠ "psf_pa" :=
      List.mem_filter.2 ⟨List.mem_map.2 ⟨p, hp, rfl⟩, by simpa using hn⟩
    have := List.find?_eq_none.1 hf _ hm
    simp at this
  | some e => exact ⟨e.2, rfl⟩

theorem wrapTied_wraps [Zero K] (m : TParams K) (hpa : "psf_pa" ∉ m.map (·.1)) (fixed : Option (Dict Bool)) (tied : Option (Dict (Tie K))) :
    Wraps (wrapTied m fixed tied) := by
  refine ⟨?_, hpa⟩
  unfold wrapTied updateFixed
  cases fixed <;> cases tied <;> simp [Function.comp_def]

/-- **C182, values and fixed flags.** Whatever values, flags and ties the caller gives to the wrapped model afterwards: the parameters of the wrapper
stay, and `wrapper.model` has the same names, values and `fixed` flags as before. -/
theorem C182_kept (w : TWrapped K) (hw : Wraps w) (m : TParams K) (hm : m.map (·.1) = w.sub.map (·.1)) :
    (callerSets w m).own = w.own ∧
      (callerSets w m).model.map (fun p => (p.1, p.2.value, p.2.fixed)) = w.model.map fun p => (p.1, p.2.value, p.2.fixed) := by
  refine ⟨rfl, ?_⟩
  have hin : ∀ nm ∈ w.sub.map (·.1), nm ∈ w.own.map (·.1) ∧ nm ≠ "psf_pa" := fun nm h =>
    ⟨by rw [hw.names]; exact List.mem_append_left _ h, fun e => hw.fresh (e ▸ h)⟩
  unfold TWrapped.model callerSets updateFixed
  simp only [List.map_map, Function.comp_def]
  have key : ∀ s t : TParams K, s.map (·.1) = t.map (·.1) → (∀ nm ∈ t.map (·.1), nm ∈ w.own.map (·.1) ∧ nm ≠ "psf_pa") →
      s.map (fun p => (p.1, (w.own.get p.1).getD p.2.value,
        (Dict.get? ((w.own.map fun p => (p.1, p.2.fixed)).filter fun p => p.1 ≠ "psf_pa") p.1).getD p.2.fixed)) =
      t.map fun p => (p.1, (w.own.get p.1).getD p.2.value,
        (Dict.get? ((w.own.map fun p => (p.1, p.2.fixed)).filter fun p => p.1 ≠ "psf_pa") p.1).getD p.2.fixed) := by
    intro s
    induction s with
    | nil =>
      intro t h _
      cases t with
      | nil => rfl
      | cons q t => simp at h
    | cons p s ih =>
      intro t h hk
      cases t with
      | nil => simp at h
      | cons q t =>
        simp only [List.map_cons, List.cons.injEq] at h
        obtain ⟨v, hv⟩ := get_some_of_name (hk q.1 (by simp)).1
        obtain ⟨b, hb⟩ := fixed_some_of_name (hk q.1 (by simp)).1 (hk q.1 (by simp)).2
        rw [List.map_cons, List.map_cons, ih t h.2 fun nm hn => hk nm (by rw [List.map_cons]; exact List.mem_cons_of_mem _ hn), h.1, hv, hb]
        rfl
  exact key m w.sub hm hin

/-- **C182, ties, violated.** The ties of `wrapper.model` are those that the caller's model has now. -/
theorem C182_ties (w : TWrapped K) (m : TParams K) : (callerSets w m).model.map (fun p => (p.1, p.2.tie)) = m.map fun p => (p.1, p.2.tie) := by
  unfold TWrapped.model callerSets updateFixed
  simp only [List.map_map, Function.comp_def]

/-- **C182, violated.** For every wrapper and every parameter of its model: the caller ties the parameter of its own model (values and flags stay as
they were), and `wrapper.model` is another model than before if the parameter was not tied. -/
theorem C182_ties_violated (w : TWrapped K) (q : String × TState K) (hq : q ∈ w.sub) (hu : q.2.tie = none) (t : Tie K) :
    ∃ m : TParams K, m.map (fun p => (p.1, p.2.value, p.2.fixed)) = w.sub.map (fun p => (p.1, p.2.value, p.2.fixed)) ∧
      (callerSets w m).model ≠ w.model := by
  refine ⟨w.sub.map fun p => (p.1, { p.2 with tie := some t }), by simp [Function.comp_def], fun h => ?_⟩
  have h1 := C182_ties w (w.sub.map fun p => (p.1, { p.2 with tie := some t }))
  have h2 : w.model.map (fun p => (p.1, p.2.tie)) = w.sub.map fun p => (p.1, p.2.tie) := C182_ties w w.sub
  rw [h, h2, List.map_map] at h1
  have h3 := List.map_inj_left.1 h1 q hq
  simp [hu] at h3

/-- Fitting the wrapper after the caller changed its model gives the parameters of the fit before the change. -/
theorem C182_fitted (w : TWrapped K) (m : TParams K) (v : List K) : ((callerSets w m).fitted v).own = (w.fitted v).own := rfl

/-- A wrapped Sersic-like model; the caller then sets its amplitude to 7, frees it and ties the radius to it. -/
example : let m : TParams ℚ := [("amplitude", ⟨1, true, none⟩), ("r_eff", ⟨2, false, none⟩)]
    let w := wrapTied m none none
    let m' : TParams ℚ := [("amplitude", ⟨7, false, none⟩), ("r_eff", ⟨3, false, some fun g => (g "amplitude").getD 0⟩)]
    Wraps w ∧ (callerSets w m').model.map (fun p => (p.1, p.2.value, p.2.fixed, p.2.tie.isSome)) =
        [("amplitude", 1, true, false), ("r_eff", 2, false, true)] ∧
      w.model.map (fun p => (p.1, p.2.value, p.2.fixed, p.2.tie.isSome)) = [("amplitude", 1, true, false), ("r_eff", 2, false, false)] := by
  refine ⟨wrapTied_wraps _ (by decide) none none, by decide +kernel, by decide +kernel⟩

end Verif.Props

import Verif.Spec.Wrapper
import Verif.Props.PSFModel

/-!
# C72, C73: default bounds and wrapped parameters
-/

set_option linter.unusedSectionVars false
set_option linter.unusedVariables false
set_option linter.unusedSimpArgs false

namespace Verif.Props

open Spec

/-! ### Dictionaries -/

section dict
variable {V : Type}

theorem Dict.get?_nil (k : String) : Dict.get? ([] : Dict V) k = none := rfl

theorem Dict.get?_cons (e : String × V) (t : Dict V) (k : String) :
    Dict.get? (e :: t) k = if e.1 = k then some e.2 else Dict.get? t k := by
  unfold Dict.get?
  rw [List.find?_cons]
  by_cases h : e.1 = k <;> simp [h]

theorem Dict.get?_set (d : Dict V) (k : String) (v : V) (k' : String) :
    Dict.get? (Dict.set d k v) k' = if k = k' then some v else Dict.get? d k' := by
  induction d with
  | nil => rw [Dict.set, Dict.get?_cons]
  | cons e t ih =>
    rw [Dict.set]
    by_cases h : e.1 = k
    · rw [if_pos h, Dict.get?_cons, Dict.get?_cons, h]
      split_ifs <;> rfl
    · rw [if_neg h, Dict.get?_cons, Dict.get?_cons, ih]
      by_cases h1 : e.1 = k'
      · rw [if_pos h1, if_pos h1, if_neg (fun hk => h (h1.trans hk.symm))]
      · rw [if_neg h1, if_neg h1]

/-- The keys of a python dictionary are distinct. -/
def Dict.Ok (d : Dict V) : Prop := (d.map (·.1)).Nodup

theorem Dict.get?_update (o : Dict V) (ho : Dict.Ok o) : ∀ (d : Dict V) (k : String),
    Dict.get? (Dict.update d o) k = (Dict.get? o k).or (Dict.get? d k) := by
  induction o with
  | nil => intro d k; rfl
  | cons e t ih =>
    intro d k
    obtain ⟨h1, h2⟩ : e.1 ∉ t.map (·.1) ∧ (t.map (·.1)).Nodup := by
      simpa [Dict.Ok] using ho
    have : Dict.update d (e :: t) = Dict.update (Dict.set d e.1 e.2) t := rfl
    rw [this, ih h2, Dict.get?_set, Dict.get?_cons]
    by_cases h : e.1 = k
    · rw [if_pos h, if_pos h]
      have hn : Dict.get? t k = none := by
        unfold Dict.get?
        rw [Option.map_eq_none_iff, List.find?_eq_none]
        intro x hx
        simp only [decide_eq_true_eq]
        intro hxk
        exact h1 (List.mem_map.2 ⟨x, hx, by rw [hxk, h]⟩)
      rw [hn]
      rfl
    · rw [if_neg h, if_neg h]

end dict

/-! ### C72 -/

/-- No caller has a reference to the two default arguments, all references are in the memory, and the default arguments are empty. -/
structure Sound (s : DictState) : Prop where
  len : 2 ≤ s.heap.length
  refs : ∀ a ∈ s.refs, 2 ≤ a ∧ a < s.heap.length
  zero : s.heap.at 0 = []
  one : s.heap.at 1 = []

theorem at_append_left (h : DictHeap) (l : DictHeap) (a : Nat) (ha : a < h.length) :
    DictHeap.at (h ++ l) a = DictHeap.at h a := by
  unfold DictHeap.at List.getD
  rw [List.getElem?_append_left ha]

theorem at_append_new (h : DictHeap) (d : Dict Bound) : DictHeap.at (h ++ [d]) h.length = d := by
  unfold DictHeap.at List.getD
  rw [List.getElem?_append_right (le_refl _)]
  simp

theorem at_set_ne (h : DictHeap) (d : Dict Bound) {a b : Nat} (hab : a ≠ b) :
    DictHeap.at (List.set h a d) b = DictHeap.at h b := by
  unfold DictHeap.at List.getD
  rw [List.getElem?_set_ne hab]

theorem at_set_eq (h : DictHeap) (d : Dict Bound) {a : Nat} (ha : a < h.length) :
    DictHeap.at (List.set h a d) a = d := by
  unfold DictHeap.at List.getD
  rw [List.getElem?_set_self ha]
  rfl

/-- Calling `get_default_sersic_bounds` only adds the result to the memory. -/
theorem sersic_call (h : DictHeap) (o : Option Nat) :
    ∃ d, getDefaultSersicBounds h o = (h.length, h ++ [d]) := ⟨_, rfl⟩

/-- Calling `get_default_gen_sersic_bounds` only adds the result to the memory. -/
theorem gen_call (h : DictHeap) (o : Option Nat) :
    ∃ d, getDefaultGenSersicBounds h o = (h.length, h ++ [d]) := by
  unfold getDefaultGenSersicBounds
  obtain ⟨d, hd⟩ := sersic_call h none
  rw [hd]
  simp only []
  have : ∀ (h : DictHeap) (d x : Dict Bound), List.set (h ++ [d]) h.length x = h ++ [x] := by
    intro h d x
    rw [List.set_append_right _ _ (le_refl _)]
    simp
  rw [this, this]
  exact ⟨_, rfl⟩

theorem sound_append {s : DictState} (hs : Sound s) (d : Dict Bound) :
    Sound ⟨s.heap ++ [d], s.heap.length :: s.refs⟩ := by
  refine ⟨by simp; linarith [hs.len], ?_, ?_, ?_⟩
  · intro a ha
    simp only [List.mem_cons] at ha
    simp only [List.length_append, List.length_cons, List.length_nil]
    rcases ha with rfl | ha
    · exact ⟨hs.len, by omega⟩
    · have := hs.refs a ha
      omega
  · simp only []
    rw [at_append_left _ _ _ (by linarith [hs.len]), hs.zero]
  · simp only []
    rw [at_append_left _ _ _ (by linarith [hs.len]), hs.one]

theorem sound_step {s : DictState} (hs : Sound s) (op : DictOp) : Sound (s.step op) := by
  cases op with
  | sersic o =>
    simp only [DictState.step]
    split_ifs with h
    · obtain ⟨d, hd⟩ := sersic_call s.heap o
      simp only [hd]
      exact sound_append hs d
    · exact hs
  | gen o =>
    simp only [DictState.step]
    split_ifs with h
    · obtain ⟨d, hd⟩ := gen_call s.heap o
      simp only [hd]
      exact sound_append hs d
    · exact hs
  | new d => exact sound_append hs d
  | write a d =>
    simp only [DictState.step]
    split_ifs with h
    · have ha := hs.refs a h
      refine ⟨by simp; exact hs.len, ?_, ?_, ?_⟩
      · intro b hb
        simpa using hs.refs b hb
      · simp only []
        rw [at_set_ne _ _ (by omega), hs.zero]
      · simp only []
        rw [at_set_ne _ _ (by omega), hs.one]
    · exact hs

theorem sound_run (ops : List DictOp) : Sound (DictState.run ops) := by
  unfold DictState.run
  have : ∀ s, Sound s → Sound (ops.foldl DictState.step s) := by
    induction ops with
    | nil => intro s hs; exact hs
    | cons op t ih => intro s hs; exact ih _ (sound_step hs op)
  refine this _ ⟨le_refl _, ?_, rfl, rfl⟩
  intro a ha
  cases ha

/-- What the override of a call contains. -/
def overrideOf (h : DictHeap) : Option Nat → Dict Bound
  | none => []
  | some a => h.at a

/-- **C72.** After every history of calls and of changes to the dictionaries the caller holds, a call of
`get_default_sersic_bounds` returns a dictionary nobody else has a reference to, in which the keys of the override have the override's
value and all others their default, and changes no other dictionary. -/
theorem C72_sersic (ops : List DictOp) (o : Option Nat)
    (ho : ∀ a ∈ o, a ∈ (DictState.run ops).refs)
    (hok : Dict.Ok (overrideOf (DictState.run ops).heap o)) :
    let s := DictState.run ops
    let r := getDefaultSersicBounds s.heap o
    (∀ k, Dict.get? (r.2.at r.1) k = (Dict.get? (overrideOf s.heap o) k).or (defaultBound k)) ∧
      r.1 ∉ s.refs ∧ ∀ a < s.heap.length, r.2.at a = s.heap.at a := by
  intro s r
  have hs := sound_run ops
  have hov : DictHeap.at s.heap (o.getD 0) = overrideOf s.heap o := by
    cases o with
    | none => exact hs.zero
    | some a => rfl
  refine ⟨?_, ?_, ?_⟩
  · intro k
    have h1 : DictHeap.at r.2 r.1 = Dict.update [
        ("amplitude", (some 0, none)), ("r_eff", (some (1 / 1000), none)), ("n", (some (1 / 10), some 10)),
        ("ellip", (some 0, some (99 / 100))), ("theta", (some (-2 * Real.pi), some (2 * Real.pi)))]
        (overrideOf s.heap o) := by
      rw [← hov]
      exact at_append_new _ _
    rw [h1, Dict.get?_update _ hok]
    congr 1
    simp only [Dict.get?_cons, Dict.get?_nil, defaultBound, @eq_comm _ k]
    have e1 : (1 / 1000 : ℝ) = 0.001 := by norm_num
    have e2 : (1 / 10 : ℝ) = 0.1 := by norm_num
    have e3 : (99 / 100 : ℝ) = 0.99 := by norm_num
    rw [e1, e2, e3, neg_mul]
  · intro h
    exact absurd (hs.refs _ h).2 (lt_irrefl _)
  · intro a ha
    exact at_append_left _ _ _ ha

/-- **C72.** The generalised version adds only `c_0`. -/
theorem C72_gen (ops : List DictOp) (o : Option Nat)
    (ho : ∀ a ∈ o, a ∈ (DictState.run ops).refs)
    (hok : Dict.Ok (overrideOf (DictState.run ops).heap o)) :
    let s := DictState.run ops
    let r := getDefaultGenSersicBounds s.heap o
    (∀ k, Dict.get? (r.2.at r.1) k = (Dict.get? (overrideOf s.heap o) k).or (defaultGenBound k)) ∧
      r.1 ∉ s.refs ∧ ∀ a < s.heap.length, r.2.at a = s.heap.at a := by
  intro s r
  have hs := sound_run ops
  obtain ⟨d, hd⟩ := gen_call s.heap o
  have hr : r = (s.heap.length, s.heap ++ [d]) := hd
  have hlt : ∀ a ∈ o, a < s.heap.length := fun a ha => (hs.refs a (ho a ha)).2
  refine ⟨?_, ?_, ?_⟩
  · intro k
    -- the dictionary made by the inner call
    obtain ⟨h1, -, -⟩ := C72_sersic ops none (fun a ha => by cases ha) (by simp [overrideOf, Dict.Ok])
    simp only [overrideOf, Dict.get?_nil, Option.none_or] at h1
    obtain ⟨d0, hd0⟩ := sersic_call s.heap none
    have h1' : ∀ k, Dict.get? d0 k = defaultBound k := by
      intro k
      have := h1 k
      rw [show getDefaultSersicBounds (DictState.run ops).heap none = _ from hd0] at this
      simp only [] at this
      rwa [show DictHeap.at (s.heap ++ [d0]) (DictState.run ops).heap.length = d0 from at_append_new s.heap d0] at this
    have hset : ∀ (h : DictHeap) (d x : Dict Bound), List.set (h ++ [d]) h.length x = h ++ [x] := by
      intro h d x
      rw [List.set_append_right _ _ (le_refl _)]
      simp
    have hval : DictHeap.at r.2 r.1 =
        Dict.update (Dict.set d0 "c_0" (some 0, some 2)) (overrideOf s.heap o) := by
      change DictHeap.at (getDefaultGenSersicBounds s.heap o).2 (getDefaultGenSersicBounds s.heap o).1 = _
      unfold getDefaultGenSersicBounds
      rw [hd0]
      simp only []
      rw [hset, hset, at_append_new, at_append_new, at_append_new]
      congr 1
      cases o with
      | none =>
        simp only [Option.getD_none, overrideOf]
        rw [at_append_left _ _ _ (by linarith [hs.len]), hs.one]
      | some a =>
        simp only [Option.getD_some, overrideOf]
        exact at_append_left _ _ _ (hlt a rfl)
    rw [hval, Dict.get?_update _ hok, Dict.get?_set, h1']
    unfold defaultGenBound
    congr 1
    simp only [@eq_comm _ k]
  · rw [hr]
    intro h
    exact absurd (hs.refs _ h).2 (lt_irrefl _)
  · intro a ha
    rw [hr]
    exact at_append_left _ _ _ ha

/-- A history in which the caller overrides `n`, spoils the first result, and calls again. -/
example : let s := DictState.run [.new [("n", (some 1, some 2))], .sersic (some 2), .write 3 [], .sersic none]
    (∀ a ∈ some 2, a ∈ s.refs) ∧ Dict.Ok (overrideOf s.heap (some 2)) := by
  simp [DictState.run, DictState.step, DictHeap.start, getDefaultSersicBounds, Dict.Ok, overrideOf, DictHeap.at]

/-! ### C73 -/

section params
variable {K : Type}

theorem modify_names (ps : Params K) (nm : String) (f : ParamState K → ParamState K) :
    (ps.modify nm f).map (·.1) = ps.map (·.1) := by
  unfold Params.modify
  rw [List.map_map]
  apply List.map_congr_left
  intro p _
  simp only [Function.comp]
  split_ifs <;> rfl

/-- Writing a dictionary with distinct keys which is defined on all of the parameters, key by key. -/
theorem foldl_modify {V : Type} (g : V → ParamState K → ParamState K) (d : Dict V) (hd : Dict.Ok d) :
    ∀ ps : Params K, d.foldl (fun ps e => ps.modify e.1 (g e.2)) ps =
      ps.map fun p => (p.1, ((Dict.get? d p.1).map fun v => g v p.2).getD p.2) := by
  induction d with
  | nil =>
    intro ps
    simp [Dict.get?_nil]
  | cons e t ih =>
    intro ps
    obtain ⟨h1, h2⟩ : e.1 ∉ t.map (·.1) ∧ (t.map (·.1)).Nodup := by simpa [Dict.Ok] using hd
    rw [List.foldl_cons, ih h2, Params.modify, List.map_map]
    apply List.map_congr_left
    intro p _
    simp only [Function.comp, Dict.get?_cons]
    by_cases h : e.1 = p.1
    · have hn : Dict.get? t p.1 = none := by
        unfold Dict.get?
        rw [Option.map_eq_none_iff, List.find?_eq_none]
        intro x hx
        simp only [decide_eq_true_eq]
        intro hxk
        exact h1 (List.mem_map.2 ⟨x, hx, by rw [hxk, h]⟩)
      rw [if_pos h.symm, if_pos h, hn]
      rfl
    · rw [if_neg (fun h' => h h'.symm), if_neg h]

theorem Dict.get?_map {V W : Type} (d : Dict V) (f : V → W) (k : String) :
    Dict.get? (d.map fun p => (p.1, f p.2)) k = (Dict.get? d k).map f := by
  induction d with
  | nil => rfl
  | cons e t ih =>
    rw [List.map_cons, Dict.get?_cons, Dict.get?_cons, ih]
    split_ifs <;> rfl

theorem Dict.get?_mem {V : Type} {d : Dict V} (hd : Dict.Ok d) {p : String × V} (hp : p ∈ d) :
    Dict.get? d p.1 = some p.2 := by
  induction d with
  | nil => cases hp
  | cons e t ih =>
    obtain ⟨h1, h2⟩ : e.1 ∉ t.map (·.1) ∧ (t.map (·.1)).Nodup := by simpa [Dict.Ok] using hd
    rw [Dict.get?_cons]
    rcases List.mem_cons.1 hp with rfl | hp
    · rw [if_pos rfl]
    · rw [if_neg, ih h2 hp]
      intro h
      exact h1 (List.mem_map.2 ⟨p, hp, h.symm⟩)

theorem Dict.get?_append {V : Type} (d e : Dict V) (k : String) :
    Dict.get? (d ++ e) k = (Dict.get? d k).or (Dict.get? e k) := by
  induction d with
  | nil => rfl
  | cons x t ih =>
    rw [List.cons_append, Dict.get?_cons, Dict.get?_cons, ih]
    split_ifs <;> rfl

theorem Dict.get?_notMem {V : Type} {d : Dict V} {k : String} (h : k ∉ d.map (·.1)) : Dict.get? d k = none := by
  unfold Dict.get?
  rw [Option.map_eq_none_iff, List.find?_eq_none]
  intro x hx
  simp only [decide_eq_true_eq]
  intro hxk
  exact h (List.mem_map.2 ⟨x, hx, hxk⟩)

theorem Dict.get?_del {V : Type} (d : Dict V) (k k' : String) (h : k' ≠ k) :
    Dict.get? (Dict.del d k) k' = Dict.get? d k' := by
  induction d with
  | nil => rfl
  | cons e t ih =>
    unfold Dict.del at ih ⊢
    rw [List.filter_cons]
    by_cases he : e.1 = k
    · rw [if_neg (by simpa using he), ih, Dict.get?_cons, if_neg]
      rw [he]
      exact fun h' => h h'.symm
    · rw [if_pos (by simpa using he), Dict.get?_cons, Dict.get?_cons, ih]

theorem Dict.Ok.del {V : Type} {d : Dict V} (h : Dict.Ok d) (k : String) : Dict.Ok (Dict.del d k) :=
  h.sublist (List.Sublist.map _ List.filter_sublist)

theorem Params.get?_eq (ps : Params K) (nm : String) : ps.get? nm = Dict.get? ps nm := rfl

/-- The wrapped model's names are distinct and none of them is `psf_pa`. -/
structure GoodNames (m : Params K) : Prop where
  nodup : Dict.Ok m
  noPa : "psf_pa" ∉ m.map (·.1)

variable [Zero K]

/-- The parameters of a fresh wrapper built without `fixed` and `bounds` keywords. -/
theorem wrap_own (m : Params K) (hm : GoodNames m) :
    (wrap m none none).own = m ++ [("psf_pa", ⟨0, false, (none, none)⟩)] := by
  unfold wrap
  simp only []
  have h1 : Dict.Ok m.fixed := by
    unfold Dict.Ok Params.fixed
    rw [List.map_map]
    exact hm.nodup
  have h2 : Dict.Ok m.bounds := by
    unfold Dict.Ok Params.bounds
    rw [List.map_map]
    exact hm.nodup
  unfold Params.updateFixed Params.updateBounds
  rw [foldl_modify (fun v s => { s with fixed := v }) _ h1, foldl_modify (fun v s => { s with bounds := v }) _ h2]
  unfold loadParameters
  rw [List.map_map, List.map_append, List.map_map]
  congr 1
  · conv_rhs => rw [← List.map_id m]
    apply List.map_congr_left
    intro p hp
    have e1 : Dict.get? m.fixed p.1 = some p.2.fixed := by
      unfold Params.fixed
      rw [Dict.get?_map, Dict.get?_mem hm.nodup hp]
      rfl
    have e2 : Dict.get? m.bounds p.1 = some p.2.bounds := by
      unfold Params.bounds
      rw [Dict.get?_map, Dict.get?_mem hm.nodup hp]
      rfl
    simp only [Function.comp, e1, e2]
    rfl
  · have e1 : Dict.get? m.fixed "psf_pa" = none := by
      unfold Params.fixed
      rw [Dict.get?_map, Dict.get?_notMem hm.noPa]
      rfl
    have e2 : Dict.get? m.bounds "psf_pa" = none := by
      unfold Params.bounds
      rw [Dict.get?_map, Dict.get?_notMem hm.noPa]
      rfl
    simp only [List.map_cons, List.map_nil, Function.comp, e1, e2]
    rfl

/-- `wrap` with any keywords keeps names and values. -/
theorem C73_names (m : Params K) (fixed : Option (Dict Bool)) (bounds : Option (Dict (Option K × Option K))) :
    (wrap m fixed bounds).own.map (·.1) = m.map (·.1) ++ ["psf_pa"] := by
  have h0 : (loadParameters m).map (·.1) = m.map (·.1) ++ ["psf_pa"] := by
    unfold loadParameters
    rw [List.map_append, List.map_map]
    rfl
  have hF : ∀ (d : Dict Bool) (ps : Params K), (ps.updateFixed d).map (·.1) = ps.map (·.1) := by
    intro d
    unfold Params.updateFixed
    induction d with
    | nil => intro ps; rfl
    | cons e t ih => intro ps; rw [List.foldl_cons, ih, modify_names]
  have hB : ∀ (d : Dict (Option K × Option K)) (ps : Params K), (ps.updateBounds d).map (·.1) = ps.map (·.1) := by
    intro d
    unfold Params.updateBounds
    induction d with
    | nil => intro ps; rfl
    | cons e t ih => intro ps; rw [List.foldl_cons, ih, modify_names]
  unfold wrap
  cases fixed <;> cases bounds <;> simp only [hF, hB, h0]

/-- The wrapper's parameters are the ones of the sub-model, by name, followed by `psf_pa`. -/
theorem model_eq (w : Wrapped K) (hm : GoodNames w.sub) (hn : w.own.map (·.1) = w.sub.map (·.1) ++ ["psf_pa"]) :
    w.model = some w.own.dropLast := by
  have hok : Dict.Ok w.own := by
    unfold Dict.Ok
    rw [hn]
    refine List.Nodup.append hm.nodup (by simp) ?_
    intro x hx hx'
    simp only [List.mem_singleton] at hx'
    subst hx'
    exact hm.noPa hx
  -- every name of the sub-model is found in the wrapper
  have hfind : ∀ nm ∈ w.sub.map (·.1), ∃ s, Dict.get? w.own nm = some s := by
    intro nm hnm
    have : nm ∈ w.own.map (·.1) := by rw [hn]; exact List.mem_append_left _ hnm
    obtain ⟨p, hp, rfl⟩ := List.mem_map.1 this
    exact ⟨p.2, Dict.get?_mem hok hp⟩
  -- the loop over the values
  have hloop : ∀ (nms : List String), (∀ nm ∈ nms, ∃ s, Dict.get? w.own nm = some s) → ∀ m : Params K,
      (nms.foldlM (fun m nm => do
        let s ← w.own.get? nm
        pure (Params.modify m nm fun t => { t with value := s.value })) m : Option (Params K)) =
      some (m.map fun p => (p.1, if p.1 ∈ nms then
        { p.2 with value := ((Dict.get? w.own p.1).map (·.value)).getD p.2.value } else p.2)) := by
    intro nms
    induction nms with
    | nil =>
      intro _ m
      simp
    | cons nm t ih =>
      intro h m
      obtain ⟨s, hs⟩ := h nm (by simp)
      rw [List.foldlM_cons]
      simp only [Params.get?_eq, hs, Option.bind_eq_bind, Option.bind_some, pure]
      have := ih (fun x hx => h x (by simp [hx])) (Params.modify m nm fun t => { t with value := s.value })
      simp only [Params.get?_eq, Option.bind_eq_bind, pure] at this
      rw [this, Params.modify, List.map_map]
      congr 1
      apply List.map_congr_left
      intro p _
      simp only [Function.comp]
      by_cases hp : p.1 = nm
      · subst hp
        simp [hs]
      · simp [hp]
  unfold Wrapped.model
  rw [hloop _ hfind]
  simp only [Option.bind_eq_bind, Option.bind_some, pure]
  congr 1
  have h1 : Dict.Ok (Dict.del w.own.fixed "psf_pa") := by
    apply Dict.Ok.del
    unfold Dict.Ok Params.fixed
    rw [List.map_map]
    exact hok
  have h2 : Dict.Ok (Dict.del w.own.bounds "psf_pa") := by
    apply Dict.Ok.del
    unfold Dict.Ok Params.bounds
    rw [List.map_map]
    exact hok
  unfold Params.updateFixed Params.updateBounds
  rw [foldl_modify (fun v s => { s with fixed := v }) _ h1, foldl_modify (fun v s => { s with bounds := v }) _ h2]
  rw [List.map_map, List.map_map]
  have h3 : w.own.dropLast = w.own.dropLast.map fun p => (p.1, p.2) := by simp
  -- compare with the wrapper's parameters by name
  have h4 : w.own.dropLast.map (·.1) = w.sub.map (·.1) := by
    rw [List.map_dropLast, hn, List.dropLast_concat]
  have h5 : ∀ p ∈ w.own.dropLast, Dict.get? w.own p.1 = some p.2 := fun p hp =>
    Dict.get?_mem hok (List.mem_of_mem_dropLast hp)
  have h6 : ∀ (a b : Params K), a.map (·.1) = b.map (·.1) → (∀ p ∈ b, Dict.get? w.own p.1 = some p.2) →
      (∀ p ∈ a, p.1 ≠ "psf_pa" ∧ p.1 ∈ w.sub.map (·.1)) →
      a.map ((fun p => (p.1, ((Dict.get? (Dict.del w.own.bounds "psf_pa") p.1).map fun v =>
          (⟨p.2.value, p.2.fixed, v⟩ : ParamState K)).getD p.2)) ∘ ((fun p => (p.1, ((Dict.get? (Dict.del w.own.fixed "psf_pa") p.1).map fun v =>
          (⟨p.2.value, v, p.2.bounds⟩ : ParamState K)).getD p.2)) ∘ fun p => (p.1, if p.1 ∈ w.sub.map (·.1) then
            (⟨((Dict.get? w.own p.1).map (·.value)).getD p.2.value, p.2.fixed, p.2.bounds⟩ : ParamState K) else p.2))) = b := by
    intro a
    induction a with
    | nil =>
      intro b hb _ _
      cases b with
      | nil => rfl
      | cons q t => simp at hb
    | cons p t ih =>
      intro b hb hw hs
      cases b with
      | nil => simp at hb
      | cons q t' =>
        simp only [List.map_cons, List.cons.injEq] at hb
        rw [List.map_cons, ih t' hb.2 (fun p hp => hw p (by simp [hp])) (fun p hp => hs p (by simp [hp]))]
        congr 1
        have hq := hw q (by simp)
        obtain ⟨hpa, hmem⟩ := hs p (by simp)
        rw [← hb.1] at hq
        have e1 : Dict.get? (Dict.del w.own.fixed "psf_pa") p.1 = some q.2.fixed := by
          rw [Dict.get?_del _ _ _ hpa]
          unfold Params.fixed
          rw [Dict.get?_map, hq]
          rfl
        have e2 : Dict.get? (Dict.del w.own.bounds "psf_pa") p.1 = some q.2.bounds := by
          rw [Dict.get?_del _ _ _ hpa]
          unfold Params.bounds
          rw [Dict.get?_map, hq]
          rfl
        simp only [Function.comp, e1, e2, hq, if_pos hmem, Option.map_some, Option.getD_some]
        rw [hb.1]
  refine h6 _ _ h4.symm h5 ?_
  intro p hp
  have : p.1 ∈ w.sub.map (·.1) := List.mem_map_of_mem hp
  exact ⟨fun h => hm.noPa (h ▸ this), this⟩

/-- The invariant of parameter histories. -/
theorem history_own (ops : List (ParamOp K)) : ∀ w : Wrapped K,
    (ops.foldl stepParam w).own = w.own.map (fun p => (p.1, expected p.1 p.2 ops)) ∧
      (ops.foldl stepParam w).sub.map (·.1) = w.sub.map (·.1) := by
  induction ops with
  | nil =>
    intro w
    simp [expected]
  | cons op t ih =>
    intro w
    rw [List.foldl_cons]
    obtain ⟨h1, h2⟩ := ih (stepParam w op)
    rw [h1, h2]
    cases op with
    | onWrapper nm f =>
      refine ⟨?_, rfl⟩
      simp only [stepParam, Params.modify, List.map_map]
      apply List.map_congr_left
      intro p _
      simp only [Function.comp, expected, @eq_comm _ nm]
      by_cases h : p.1 = nm
      · simp [h]
      · simp [h]
    | onSub nm f =>
      refine ⟨?_, modify_names _ _ _⟩
      simp only [stepParam, expected]

/-- **C73.** After every sequence of changes to the wrapper's parameters, interleaved with changes the caller makes to the model that
was wrapped, `.model` has the wrapped model's parameters in their order, each with the value, `fixed` flag and bounds that the changes
on the wrapper give; in particular without changes it is the model that was wrapped. -/
theorem C73_model (m : Params K) (hm : GoodNames m) (ops : List (ParamOp K)) :
    (ops.foldl stepParam (wrap m none none)).model = some (m.map fun p => (p.1, expected p.1 p.2 ops)) := by
  obtain ⟨h1, h2⟩ := history_own ops (wrap m none none)
  have hsub : (wrap m none none).sub = m := rfl
  rw [hsub] at h2
  have hnm : (ops.foldl stepParam (wrap m none none)).own.map (·.1) =
      (ops.foldl stepParam (wrap m none none)).sub.map (·.1) ++ ["psf_pa"] := by
    rw [h1, h2, List.map_map]
    exact C73_names m none none
  rw [model_eq _ ⟨by unfold Dict.Ok; rw [h2]; exact hm.nodup, by rw [h2]; exact hm.noPa⟩ hnm, h1, wrap_own m hm,
    List.map_append, List.map_cons, List.map_nil, List.dropLast_concat]

/-- **C73**, keywords: when the `fixed` keyword is given, the flags of the wrapped model are dropped, the flags of `.model` are those of
the keyword and `False` for names which are not in it. -/
theorem C73_fixed_keyword (m : Params K) (hm : GoodNames m) (d : Dict Bool) (hd : Dict.Ok d) :
    (wrap m (some d) none).model =
      some (m.map fun p => (p.1, { p.2 with fixed := (Dict.get? d p.1).getD false })) := by
  rw [model_eq _ hm (C73_names m _ _)]
  congr 1
  unfold wrap
  simp only []
  have h2 : Dict.Ok m.bounds := by
    unfold Dict.Ok Params.bounds
    rw [List.map_map]
    exact hm.nodup
  unfold Params.updateFixed Params.updateBounds
  rw [foldl_modify (fun v s => { s with fixed := v }) _ hd, foldl_modify (fun v s => { s with bounds := v }) _ h2]
  unfold loadParameters
  rw [List.map_map, List.map_append, List.map_cons, List.map_nil, List.dropLast_concat, List.map_map]
  apply List.map_congr_left
  intro p hp
  have e2 : Dict.get? m.bounds p.1 = some p.2.bounds := by
    unfold Params.bounds
    rw [Dict.get?_map, Dict.get?_mem hm.nodup hp]
    rfl
  simp only [Function.comp, e2]
  cases Dict.get? d p.1 <;> rfl

end params

section evaluate
variable {K : Type} [Field K] [LinearOrder K] [IsStrictOrderedRing K] [FloorRing K]

theorem pixelMean_one (f : K → K → K) (x y : K) : pixelMean f x y 1 = f x y := by
  unfold pixelMean
  simp

/-- **C73**, evaluation: a wrapper without PSF and without oversampling has the values of the wrapped model at the pixel centres. -/
theorem C73_evaluate (S : SubModel K) (M : PSFModel K) (hM : PSFModel.init S none .none .none = .ok M)
    (rot : Img K → K → Img K) (coords : List (K × K)) (x0 y0 : K) (iMax jMax : Nat) (hg : OnGrid coords x0 y0 iMax jMax)
    (hint : ∀ c ∈ coords, ∃ i j : Nat, c = (x0 + i, y0 + j)) (params : List K) (pa : K) :
    (M.evaluate rot coords params pa).1 = .ok (coords.map fun c => S.eval params c.1 c.2) := by
  have e : M = ⟨S, none, .none, none, true, 0, 0, none, none⟩ := by
    have : PSFModel.init S none .none .none = .ok (⟨S, none, .none, none, true, 0, 0, none, none⟩ : PSFModel K) := rfl
    rw [this] at hM
    exact (Except.ok.inj hM).symm
  subst e
  have := C54_evaluate (K := K) ⟨S, none, .none, none, true, 0, 0, none, none⟩ (fun r hr => by cases hr)
    ⟨Nat.one_pos, Nat.one_pos, 1, rfl⟩ rfl (fun x y s f h => by cases h) rot coords x0 y0 iMax jMax hg hint params pa
  rw [this]
  congr 1
  apply List.map_congr_left
  intro c _
  exact pixelMean_one _ _ _

end evaluate

/-- A Sersic like model with a fixed and a bounded parameter, and a history on wrapper and wrapped model. -/
example : (([ParamOp.onWrapper "n" (fun s => { s with value := 7 }), .onSub "amplitude" (fun s => { s with value := 100 }),
    .onWrapper "psf_pa" (fun s => { s with value := 45 }), .onWrapper "x_0" (fun s => { s with fixed := false })] : List (ParamOp ℚ)).foldl stepParam
    (wrap (K := ℚ) [("amplitude", ⟨1, false, (some 0, none)⟩), ("n", ⟨4, false, (none, none)⟩), ("x_0", ⟨3, true, (none, none)⟩)]
      none none)).model =
    some [("amplitude", ⟨1, false, (some 0, none)⟩), ("n", ⟨7, false, (none, none)⟩), ("x_0", ⟨3, false, (none, none)⟩)] := by
  decide +kernel

end Verif.Props

import Verif.Model.Compound
import Verif.Props.Wrapper
import Std.Data.String.ToNat

/-!
# C170: the names of the parameters of a sum of models
-/

set_option linter.unusedSectionVars false

namespace Verif.Spec

open Verif

/-- One list of values for each part of a sum, as many as the part has parameters. -/
def ValuesOf {K : Type} (parts : List (SubModel K)) (vals : List (List K)) : Prop := List.Forall₂ (fun m v => v.length = m.paramNames.length) parts vals

end Verif.Spec

namespace Verif.Props

open Verif Spec

theorem numbered_toList (name : String) (i : Nat) : (s!"{name}_{i}").toList = name.toList ++ '_' :: i.repr.toList := by
  simp [toString]

/-- What comes before and after the last separator. -/
theorem split_last {α : Type} {c : α} : ∀ {a b a' b' : List α}, c ∉ b → c ∉ b' → a ++ c :: b = a' ++ c :: b' → a = a' ∧ b = b'
  | [], b, [], b', hb, hb', h => by simpa using h
  | [], b, x :: a', b', hb, hb', h => by
    simp only [List.nil_append, List.cons_append, List.cons.injEq] at h
    exact absurd (h.2 ▸ by simp) hb
  | x :: a, b, [], b', hb, hb', h => by
    simp only [List.nil_append, List.cons_append, List.cons.injEq] at h
    exact absurd (h.2 ▸ by simp) hb'
  | x :: a, b, y :: a', b', hb, hb', h => by
    simp only [List.cons_append, List.cons.injEq] at h
    obtain ⟨h1, h2⟩ := split_last hb hb' h.2
    exact ⟨by rw [h.1, h1], h2⟩

theorem underscore_repr (i : Nat) : '_' ∉ i.repr.toList := by
  rw [Nat.toList_repr]
  intro h
  have := Nat.isDigit_of_mem_toDigits (by omega) (by omega) h
  exact absurd this (by decide)

theorem numbered_inj {a b : String} {i j : Nat} (h : s!"{a}_{i}" = s!"{b}_{j}") : a = b ∧ i = j := by
  have h1 := congrArg String.toList h
  rw [numbered_toList, numbered_toList] at h1
  obtain ⟨h2, h3⟩ := split_last (underscore_repr i) (underscore_repr j) h1
  exact ⟨String.toList_inj.1 h2, Nat.repr_injective (String.toList_inj.1 h3)⟩

/-- **C170, names.** If the names of the parameters of each part are different, then so are all names of the sum, and none of them is that of the angle of the PSF. -/
theorem C170_names {K : Type} [Zero K] [Add K] {parts : List (SubModel K)} (h : ∀ m ∈ parts, m.paramNames.Nodup) :
    ((compound parts).paramNames ++ ["psf_pa"]).Nodup := by
  have h1 : (compound parts).paramNames.Nodup := by
    unfold compound
    simp only
    rw [List.nodup_flatten]
    constructor
    · intro l hl
      obtain ⟨⟨m, i⟩, hm, rfl⟩ := List.mem_map.1 hl
      exact (h m (List.fst_mem_of_mem_zipIdx hm)).map_on fun a _ b _ hab => (numbered_inj hab).1
    · rw [List.pairwise_map]
      have hp : (parts.zipIdx.map Prod.snd).Nodup := by
        rw [List.zipIdx_map_snd]
        exact List.nodup_range'
      rw [List.Nodup, List.pairwise_map] at hp
      refine hp.imp fun {x y} hxy => ?_
      rw [List.disjoint_left]
      intro s hs hs'
      obtain ⟨a, -, rfl⟩ := List.mem_map.1 hs
      obtain ⟨b, -, hb⟩ := List.mem_map.1 hs'
      exact hxy (numbered_inj hb).2.symm
  refine List.nodup_append.2 ⟨h1, by simp, ?_⟩
  intro a ha b hb hab
  rw [List.mem_singleton] at hb
  subst hb
  subst hab
  unfold compound at ha
  simp only [List.mem_flatten, List.mem_map] at ha
  obtain ⟨l, ⟨⟨m, i⟩, -, rfl⟩, hl⟩ := ha
  obtain ⟨s, -, hs⟩ := List.mem_map.1 hl
  have h2 := congrArg String.toList hs
  rw [numbered_toList] at h2
  have h3 : ("psf_pa" : String).toList = ['p', 's', 'f'] ++ '_' :: ['p', 'a'] := by decide
  rw [h3] at h2
  have h4 := (split_last (underscore_repr i) (by decide) h2).2
  have h5 : 'a' ∈ i.repr.toList := by rw [h4]; simp
  rw [Nat.toList_repr] at h5
  exact absurd (Nat.isDigit_of_mem_toDigits (by omega) (by omega) h5) (by decide)

/-- **C170, the wrapper.** A `PSFConvolvedModel2D` of a sum has all parameters of the parts, with their values, flags and bounds, and its `model` returns them. -/
theorem C170_wrap {K : Type} [Zero K] [Add K] {parts : List (SubModel K)} (h : ∀ m ∈ parts, m.paramNames.Nodup) {m : Params K}
    (hm : m.map (·.1) = (compound parts).paramNames) :
    (wrap m none none).own = m ++ [("psf_pa", ⟨0, false, (none, none)⟩)] ∧ (wrap m none none).model = some m := by
  have h1 := List.nodup_append.1 (C170_names h)
  have hg : GoodNames m := ⟨by unfold Dict.Ok; rw [hm]; exact h1.1, by rw [hm]; exact fun hp => h1.2.2 _ hp _ (List.mem_singleton.2 rfl) rfl⟩
  have h2 := wrap_own m hg
  refine ⟨h2, ?_⟩
  rw [model_eq _ hg (C73_names m none none), h2]
  simp

/-- **C170, values.** The value of a sum is the sum of the values of the parts, each with its own parameters. -/
theorem C170_sum {K : Type} [AddMonoid K] {parts : List (SubModel K)} {vals : List (List K)} (h : ValuesOf parts vals) (x y : K) :
    (compound parts).eval vals.flatten x y = (List.zipWith (fun m v => m.eval v x y) parts vals).sum := by
  show compoundEval parts vals.flatten x y = _
  unfold ValuesOf at h
  induction h with
  | nil => rfl
  | cons h1 h2 ih =>
    simp only [compoundEval, List.flatten_cons, List.zipWith_cons_cons, List.sum_cons]
    rw [← h1, List.take_left', List.drop_left', ih] <;> rfl

theorem idxOf_map_inj {f : String → String} (hf : Function.Injective f) (a : String) : ∀ l : List String, (l.map f).idxOf (f a) = l.idxOf a
  | [] => rfl
  | b :: l => by
    rw [List.map_cons, List.idxOf_cons, List.idxOf_cons, idxOf_map_inj hf a l]
    rcases eq_or_ne b a with rfl | h
    · simp
    · rw [beq_false_of_ne h, beq_false_of_ne fun h' => h (hf h')]

theorem part_index {K : Type} : ∀ {parts : List (SubModel K)} {vals : List (List K)} (o : Nat), ValuesOf parts vals → ∀ {i : Nat} {m : SubModel K} {v : List K},
    parts[i]? = some m → vals[i]? = some v → ∀ {name : String}, name ∈ m.paramNames →
    s!"{name}_{o + i}" ∈ ((parts.zipIdx o).map fun p => p.1.paramNames.map fun name => s!"{name}_{p.2}").flatten ∧
    vals.flatten[((parts.zipIdx o).map fun p => p.1.paramNames.map fun name => s!"{name}_{p.2}").flatten.idxOf s!"{name}_{o + i}"]? = v[m.paramNames.idxOf name]?
  | _, _, o, .nil, i, m, v, hp, hv, name, hn => by simp at hp
  | p :: ps, w :: ws, o, .cons h1 h2, 0, m, v, hp, hv, name, hn => by
    simp only [List.getElem?_cons_zero, Option.some.injEq] at hp hv
    subst hp
    subst hv
    have hmem : s!"{name}_{o}" ∈ p.paramNames.map fun name => s!"{name}_{o}" := List.mem_map.2 ⟨name, hn, rfl⟩
    have hinj : Function.Injective fun name : String => s!"{name}_{o}" := fun a b hab => (numbered_inj hab).1
    have hidx : (p.paramNames.map fun name => s!"{name}_{o}").idxOf s!"{name}_{o}" = p.paramNames.idxOf name := idxOf_map_inj hinj _ _
    simp only [List.zipIdx_cons, List.map_cons, List.flatten_cons, Nat.add_zero]
    refine ⟨List.mem_append_left _ hmem, ?_⟩
    rw [List.idxOf_append_of_mem hmem, hidx, List.getElem?_append_left]
    rw [h1]
    exact List.idxOf_lt_length_iff.2 hn
  | p :: ps, w :: ws, o, .cons h1 h2, i + 1, m, v, hp, hv, name, hn => by
    simp only [List.getElem?_cons_succ] at hp hv
    obtain ⟨g1, g2⟩ := part_index (o + 1) h2 hp hv hn
    have e : o + 1 + i = o + (i + 1) := by omega
    rw [e] at g1 g2
    have hnot : s!"{name}_{o + (i + 1)}" ∉ p.paramNames.map fun name => s!"{name}_{o}" := by
      intro hmem
      obtain ⟨a, -, ha⟩ := List.mem_map.1 hmem
      have := (numbered_inj ha).2
      omega
    simp only [List.zipIdx_cons, List.map_cons, List.flatten_cons]
    refine ⟨List.mem_append_right _ g1, ?_⟩
    rw [List.idxOf_append_of_notMem hnot, List.length_map, List.getElem?_append_right (by omega), ← h1, Nat.add_sub_cancel_left, g2]

/-- **C170, centre of the window.** If the centre of the oversampling window is given by the name of a parameter of one part (`'x_0_2'`), it is the value of that
parameter of that part. -/
theorem C170_center {K : Type} [Zero K] [Add K] {parts : List (SubModel K)} {vals : List (List K)} (h : ValuesOf parts vals) {i : Nat} {m : SubModel K} {v : List K}
    (hp : parts[i]? = some m) (hv : vals[i]? = some v) {name : String} (hn : name ∈ m.paramNames) :
    PSFModel.centerValue (compound parts) vals.flatten (.name s!"{name}_{i}") = PSFModel.centerValue m v (.name name) := by
  obtain ⟨h1, h2⟩ := part_index 0 h hp hv hn
  rw [Nat.zero_add] at h1 h2
  have h1' : s!"{name}_{i}" ∈ (compound parts).paramNames := h1
  have h2' : vals.flatten[(compound parts).paramNames.idxOf s!"{name}_{i}"]? = v[m.paramNames.idxOf name]? := h2
  unfold PSFModel.centerValue
  simp only
  rw [if_pos h1', if_pos hn, h2']

/-- **C170, violated without the number.** `oversample=('x_0', 'y_0', size, factor)`, which is right for a single Sersic model, stops with an AssertionError for a sum of them:
the setter accepts it, but there is no parameter with that name. -/
theorem C170_bare_violated {K : Type} [Zero K] [Add K] {parts : List (SubModel K)} (h : ∀ m ∈ parts, "x" ∉ m.paramNames) {params : List K} :
    PSFModel.centerValue (compound parts) params (.name "x_0") = .error .assertionError := by
  have hnot : "x_0" ∉ (compound parts).paramNames := by
    intro hmem
    unfold compound at hmem
    simp only [List.mem_flatten, List.mem_map] at hmem
    obtain ⟨l, ⟨⟨m, i⟩, hm, rfl⟩, hl⟩ := hmem
    obtain ⟨s, hs, hs'⟩ := List.mem_map.1 hl
    have h0 : "x_0" = s!"{"x"}_{0}" := by decide
    rw [h0] at hs'
    obtain ⟨rfl, -⟩ := numbered_inj hs'
    exact h m (List.fst_mem_of_mem_zipIdx hm) hs
  unfold PSFModel.centerValue
  exact if_neg hnot

/-- Two galaxies and the sky. -/
example : (galaxiesSub 2 true).paramNames = ["amplitude_0", "r_eff_0", "n_0", "x_0_0", "y_0_0", "ellip_0", "theta_0",
    "amplitude_1", "r_eff_1", "n_1", "x_0_1", "y_0_1", "ellip_1", "theta_1", "amplitude_2"] := by
  decide

end Verif.Props

import Verif.Model.Canvas

/-!
# C155: plotting functions draw on the axes they are given
-/

set_option linter.unusedSectionVars false
set_option linter.unusedVariables false

namespace Verif.Spec

/-- The data shown on an axes, in order. -/
def dataShown {K : Type} (l : List (AxCmd K)) : List (PlotItem K) := l.filterMap fun
  | .item p => some p
  | _ => none

/-- How often the ticks were set to point inwards on all sides (minor and major). -/
def framed {K : Type} (l : List (AxCmd K)) : Nat := l.countP fun
  | .ticks "major" => true
  | _ => false

/-- The titles set. -/
def titles {K : Type} (l : List (AxCmd K)) : List String := l.filterMap fun
  | .title s => some s
  | _ => none

/-- The axes `i`; empty for axes that do not exist yet. -/
def onAxes {K : Type} (c : Canvas K) (i : Nat) : List (AxCmd K) := (c.axes[i]?).getD []

/-- The current axes exists. -/
def CurrentOk {K : Type} (c : Canvas K) : Prop := ∀ i, c.current = some i → i < c.axes.length

end Verif.Spec

namespace Verif.Props

open Verif F Spec Canvas

section
variable {K : Type} [Field K] [LinearOrder K]

theorem addTo_length (i : Nat) (l : List (AxCmd K)) (c : Canvas K) : (c.addTo i l).axes.length = c.axes.length := by simp [addTo]

theorem addTo_current (i : Nat) (l : List (AxCmd K)) (c : Canvas K) : (c.addTo i l).current = c.current := rfl

theorem onAxes_addTo (i j : Nat) (l : List (AxCmd K)) (c : Canvas K) (hi : i < c.axes.length) :
    onAxes (c.addTo i l) j = if i = j then onAxes c j ++ l else onAxes c j := by
  unfold onAxes addTo
  simp only [List.getElem?_modify]
  by_cases h : i = j
  · subst h
    simp [hi]
  · simp [h]

theorem dataShown_append (a b : List (AxCmd K)) : dataShown (a ++ b) = dataShown a ++ dataShown b := by simp [dataShown]

theorem framed_append (a b : List (AxCmd K)) : framed (a ++ b) = framed a + framed b := by simp [framed]

theorem titles_append (a b : List (AxCmd K)) : titles (a ++ b) = titles a ++ titles b := by simp [titles]

theorem dataShown_items (l : List (PlotItem K)) : dataShown (l.map .item) = l := by
  induction l with
  | nil => rfl
  | cons a l ih =>
    show a :: dataShown (l.map .item) = a :: l
    rw [ih]

theorem framed_items (l : List (PlotItem K)) : framed (l.map .item) = 0 := by
  induction l with
  | nil => rfl
  | cons a l ih => simpa [framed, List.countP_cons] using ih

theorem titles_items (l : List (PlotItem K)) : titles (l.map .item) = [] := by
  induction l with
  | nil => rfl
  | cons a l ih => simpa [titles] using ih

/-- What `plot` and `plot_cog` do to a canvas. -/
def drawShape (first last : List (AxCmd K)) (ax : Option Nat) (c : Canvas K) : Nat × Canvas K :=
  let (i, c) := c.resolve ax
  (i, ((c.addTo i first).mplTickFrame none true).addTo i last)

/-- The canvas after `plt.gca()`. -/
theorem gca_spec (c : Canvas K) (hc : CurrentOk c) :
    c.gca.1 < c.gca.2.axes.length ∧ c.gca.2.current = some c.gca.1 ∧ (∀ j, onAxes c.gca.2 j = onAxes c j) ∧
      (∀ i, c.current = some i → c.gca = (i, c)) ∧ (c.current = none → c.gca.1 = c.axes.length ∧ c.gca.2.axes.length = c.axes.length + 1) := by
  unfold gca
  cases h : c.current with
  | some i => exact ⟨hc i h, h, fun _ => rfl, fun i' hi' => by simp_all, fun hn => by simp_all⟩
  | none =>
    refine ⟨by simp, rfl, fun j => ?_, fun i hi => by simp_all, fun _ => by simp⟩
    unfold onAxes
    simp only [List.getElem?_append]
    split_ifs with hj
    · rfl
    · rw [List.getElem?_eq_none (by omega : c.axes.length ≤ j)]
      cases j - c.axes.length <;> simp

/-- The commands of a tick frame. -/
def frameCmds : List (AxCmd K) := [.minorticks, .ticks "minor", .ticks "major"]

theorem tickFrame_none (c : Canvas K) : c.mplTickFrame none true = c.gca.2.addTo c.gca.1 frameCmds := rfl

theorem tickFrame_some (c : Canvas K) (i : Nat) : c.mplTickFrame (some i) true = c.addTo i frameCmds := rfl

/-- Axes that are the current ones, or none given. -/
theorem draw_current (first last : List (AxCmd K)) {ax : Option Nat} {c : Canvas K} (hc : CurrentOk c) (hax : ax = none ∨ ax = c.current) :
    let r := drawShape first last ax c
    r.1 = c.gca.1 ∧ (∀ j, j ≠ r.1 → onAxes r.2 j = onAxes c j) ∧ onAxes r.2 r.1 = onAxes c r.1 ++ first ++ frameCmds ++ last ∧
      r.2.current = some r.1 := by
  obtain ⟨g1, g2, g3, g4, g5⟩ := gca_spec c hc
  have hres : c.resolve ax = c.gca := by
    rcases hax with h | h
    · rw [h]; rfl
    · cases hcur : c.current with
      | none => rw [h, hcur]; rfl
      | some i => rw [h, hcur]; exact (g4 i hcur).symm
  simp only [drawShape, hres]
  generalize c.gca = q at g1 g2 g3
  have hq : ∀ l, (q.2.addTo q.1 l).gca = (q.1, q.2.addTo q.1 l) := by
    intro l; unfold gca; rw [addTo_current, g2]
  rw [tickFrame_none, hq]
  refine ⟨trivial, fun j hj => ?_, ?_, g2⟩
  · rw [onAxes_addTo _ _ _ _ (by simpa [addTo_length] using g1), if_neg (Ne.symm hj),
      onAxes_addTo _ _ _ _ (by simpa [addTo_length] using g1), if_neg (Ne.symm hj), onAxes_addTo _ _ _ _ g1, if_neg (Ne.symm hj), g3]
  · rw [onAxes_addTo _ _ _ _ (by simpa [addTo_length] using g1), if_pos rfl,
      onAxes_addTo _ _ _ _ (by simpa [addTo_length] using g1), if_pos rfl, onAxes_addTo _ _ _ _ g1, if_pos rfl, g3]

/-- Axes that are not the current ones. -/
theorem draw_other (first last : List (AxCmd K)) {i : Nat} {c : Canvas K} (hc : CurrentOk c) (hi : i < c.axes.length) (hne : c.current ≠ some i) :
    let r := drawShape first last (some i) c
    r.1 = i ∧ (∀ j, j ≠ i → j ≠ c.gca.1 → onAxes r.2 j = onAxes c j) ∧ onAxes r.2 i = onAxes c i ++ first ++ last ∧
      onAxes r.2 c.gca.1 = onAxes c c.gca.1 ++ frameCmds ∧ c.gca.1 ≠ i ∧ (c.current = none → r.2.axes.length = c.axes.length + 1) := by
  have hc' : CurrentOk (c.addTo i first) := fun j hj => by rw [addTo_length]; exact hc j hj
  obtain ⟨g1, g2, g3, g4, g5⟩ := gca_spec (c.addTo i first) hc'
  have hidx : (c.addTo i first).gca.1 = c.gca.1 := by
    unfold gca; rw [addTo_current]; cases c.current <;> simp [addTo_length]
  have hki : c.gca.1 ≠ i := by
    obtain ⟨-, -, -, h4, h5⟩ := gca_spec c hc
    cases hcur : c.current with
    | none => rw [(h5 hcur).1]; omega
    | some j => rw [h4 j hcur]; rintro rfl; exact hne hcur
  have hlen : i < ((c.addTo i first).gca.2.addTo c.gca.1 frameCmds).axes.length := by
    rw [addTo_length]
    cases hcur : c.current with
    | none => have := (g5 (by rw [addTo_current]; exact hcur)).2; rw [addTo_length] at this; omega
    | some j => rw [g4 j (by rw [addTo_current]; exact hcur)]; simpa [addTo_length] using hi
  simp only [drawShape, resolve, tickFrame_none, hidx]
  rw [hidx] at g1
  refine ⟨trivial, fun j h1 h2 => ?_, ?_, ?_, hki, fun hn => ?_⟩
  · rw [onAxes_addTo _ _ _ _ hlen, if_neg (Ne.symm h1), onAxes_addTo _ _ _ _ g1, if_neg (Ne.symm h2), g3, onAxes_addTo _ _ _ _ hi,
      if_neg (Ne.symm h1)]
  · rw [onAxes_addTo _ _ _ _ hlen, if_pos rfl, onAxes_addTo _ _ _ _ g1, if_neg hki, g3, onAxes_addTo _ _ _ _ hi, if_pos rfl]
  · rw [onAxes_addTo _ _ _ _ hlen, if_neg (Ne.symm hki), onAxes_addTo _ _ _ _ g1, if_pos rfl, g3, onAxes_addTo _ _ _ _ hi, if_neg (Ne.symm hki)]
  · rw [addTo_length, addTo_length, (g5 (by rw [addTo_current]; exact hn)).2, addTo_length]

/-- Commands to one of the axes at the end. -/
theorem add_tail (axs bs : List (List (AxCmd K))) (cur : Option Nat) (a : Nat) (l : List (AxCmd K)) :
    (⟨axs ++ bs, cur⟩ : Canvas K).addTo (axs.length + a) l = ⟨axs ++ bs.modify a (· ++ l), cur⟩ := by
  unfold addTo
  congr 1
  induction axs with
  | nil => simp
  | cons x xs ih =>
    rw [show (x :: xs).length + a = (xs.length + a) + 1 by simp; omega]
    simpa [List.modify] using ih

variable (ip : InterpFam K) (p : Petrosian K)

theorem plotOn_shape (t : String) (u : Option String) (lg : Bool) (ax : Option Nat) (c : Canvas K) {items : List (PlotItem K)}
    (h : p.plot ip = .ok items) : p.plotOn ip t u lg ax c = .ok (drawShape
      (items.map .item ++ [.title t, .xlabel (xLabel u), .ylabel "Petrosian Index $\\eta(r)$"]) ([.xlim 0] ++ if lg then [.legend] else []) ax c) := by
  unfold Petrosian.plotOn
  rw [h]
  rfl

theorem plotCogOn_shape (t : String) (u fu : Option String) (lg : Bool) (ax : Option Nat) (c : Canvas K) {items : List (PlotItem K)}
    (h : p.plotCog ip = .ok items) : p.plotCogOn ip t u fu lg ax c = .ok (drawShape
      (items.map .item ++ [.title t, .xlabel (xLabel u), .ylabel (yLabelCog fu)]) ([.xlim 0, .ylim 0] ++ if lg then [.legend] else []) ax c) := by
  unfold Petrosian.plotCogOn
  rw [h]
  rfl

theorem shown_cmds (items : List (PlotItem K)) (t xl yl : String) (last : List (AxCmd K)) (hlast : dataShown last = [] ∧ framed last = 0 ∧ titles last = []) :
    dataShown (items.map .item ++ [.title t, .xlabel xl, .ylabel yl]) = items ∧ framed (items.map .item ++ [.title t, .xlabel xl, .ylabel yl]) = 0 ∧
      titles (items.map AxCmd.item ++ [.title t, .xlabel xl, .ylabel yl]) = [t] := by
  rw [dataShown_append, framed_append, titles_append, dataShown_items, framed_items, titles_items]
  refine ⟨by simp [dataShown], by simp [framed], by simp [titles]⟩

theorem last_cmds (lg : Bool) (l : List (AxCmd K)) (hl : l = [.xlim 0] ∨ l = [.xlim 0, .ylim 0]) :
    dataShown (l ++ if lg then [.legend] else []) = [] ∧ framed (l ++ if lg then [.legend] else []) = 0 ∧
      titles (l ++ if lg then [.legend] else []) = [] := by
  rcases hl with rfl | rfl <;> cases lg <;> simp [dataShown, framed, titles]

/-- `r` is what drawing data, title and tick frame on one axes of `c` makes, and all other axes are as before. -/
def DrawnAlone (c : Canvas K) (items : List (PlotItem K)) (t : String) (r : Nat × Canvas K) : Prop :=
  (∀ j, j ≠ r.1 → onAxes r.2 j = onAxes c j) ∧ dataShown (onAxes r.2 r.1) = dataShown (onAxes c r.1) ++ items ∧
    titles (onAxes r.2 r.1) = titles (onAxes c r.1) ++ [t] ∧ framed (onAxes r.2 r.1) = framed (onAxes c r.1) + 1

theorem alone_of_draw {items : List (PlotItem K)} {t xl yl : String} {l : List (AxCmd K)} {lg : Bool} (hl : l = [.xlim 0] ∨ l = [.xlim 0, .ylim 0])
    {ax : Option Nat} {c : Canvas K} (hc : CurrentOk c) (hax : ax = none ∨ ax = c.current) :
    DrawnAlone c items t (drawShape (items.map .item ++ [.title t, .xlabel xl, .ylabel yl]) (l ++ if lg then [.legend] else []) ax c) := by
  obtain ⟨h1, h2, h3, h4⟩ := draw_current (items.map .item ++ [.title t, .xlabel xl, .ylabel yl]) (l ++ if lg then [.legend] else []) hc hax
  have hlast := last_cmds (K := K) lg l hl
  obtain ⟨s1, s2, s3⟩ := shown_cmds items t xl yl _ hlast
  refine ⟨h2, ?_, ?_, ?_⟩ <;> rw [h3]
  · rw [dataShown_append, dataShown_append, dataShown_append, s1, hlast.1]; simp [dataShown, frameCmds]
  · rw [titles_append, titles_append, titles_append, s3, hlast.2.2]; simp [titles, frameCmds]
  · rw [framed_append, framed_append, framed_append, s2, hlast.2.1]; simp [framed, frameCmds]

/-- **C155, on the current axes.** Without axes, or with the current ones, `plot` and `plot_cog` draw their data, title and ticks on one axes,
which is the one they return, and touch no other. -/
theorem C155_current_partial {c : Canvas K} (hc : CurrentOk c) {ax : Option Nat} (hax : ax = none ∨ ax = c.current) (t : String)
    (u fu : Option String) (lg : Bool) :
    (∀ items, p.plot ip = .ok items → ∃ r, p.plotOn ip t u lg ax c = .ok r ∧ DrawnAlone c items t r) ∧
    (∀ items, p.plotCog ip = .ok items → ∃ r, p.plotCogOn ip t u fu lg ax c = .ok r ∧ DrawnAlone c items t r) :=
  ⟨fun items h => ⟨_, plotOn_shape ip p t u lg ax c h, alone_of_draw (Or.inl rfl) hc hax⟩,
    fun items h => ⟨_, plotCogOn_shape ip p t u fu lg ax c h, alone_of_draw (Or.inr rfl) hc hax⟩⟩

/-- `r` is what drawing on axes `i` of `c` makes when the tick frame goes to axes `k`. -/
def FrameElsewhere (c : Canvas K) (items : List (PlotItem K)) (t : String) (i k : Nat) (r : Nat × Canvas K) : Prop :=
  r.1 = i ∧ (∀ j, j ≠ i → j ≠ k → onAxes r.2 j = onAxes c j) ∧
    dataShown (onAxes r.2 i) = dataShown (onAxes c i) ++ items ∧ titles (onAxes r.2 i) = titles (onAxes c i) ++ [t] ∧
    framed (onAxes r.2 i) = framed (onAxes c i) ∧ onAxes r.2 k ≠ onAxes c k ∧ framed (onAxes r.2 k) = framed (onAxes c k) + 1 ∧
    dataShown (onAxes r.2 k) = dataShown (onAxes c k)

theorem elsewhere_of_draw {items : List (PlotItem K)} {t xl yl : String} {l : List (AxCmd K)} {lg : Bool} (hl : l = [.xlim 0] ∨ l = [.xlim 0, .ylim 0])
    {i : Nat} {c : Canvas K} (hc : CurrentOk c) (hi : i < c.axes.length) (hne : c.current ≠ some i) :
    FrameElsewhere c items t i c.gca.1
      (drawShape (items.map .item ++ [.title t, .xlabel xl, .ylabel yl]) (l ++ if lg then [.legend] else []) (some i) c) := by
  obtain ⟨h1, h2, h3, h4, h5, h6⟩ := draw_other (items.map .item ++ [.title t, .xlabel xl, .ylabel yl]) (l ++ if lg then [.legend] else []) hc hi hne
  have hlast := last_cmds (K := K) lg l hl
  obtain ⟨s1, s2, s3⟩ := shown_cmds items t xl yl _ hlast
  refine ⟨h1, h2, ?_, ?_, ?_, ?_, ?_, ?_⟩
  · rw [h3, dataShown_append, dataShown_append, s1, hlast.1]; simp
  · rw [h3, titles_append, titles_append, s3, hlast.2.2]; simp
  · rw [h3, framed_append, framed_append, s2, hlast.2.1]; simp
  · rw [h4]; simp [frameCmds]
  · rw [h4, framed_append]; simp [framed, frameCmds]
  · rw [h4, dataShown_append]; simp [dataShown, frameCmds]

/-- **C155, violated.** With axes that are not the current ones, `plot` and `plot_cog` always change a second axes: data and title go to the
given axes, the tick frame to the current one, which is made (an empty figure) when there is none. -/
theorem C155_given_violated {c : Canvas K} (hc : CurrentOk c) {i : Nat} (hi : i < c.axes.length) (hne : c.current ≠ some i) (t : String)
    (u fu : Option String) (lg : Bool) :
    c.gca.1 ≠ i ∧
    (∀ items, p.plot ip = .ok items → ∃ r, p.plotOn ip t u lg (some i) c = .ok r ∧ FrameElsewhere c items t i c.gca.1 r ∧
      (c.current = none → r.2.axes.length = c.axes.length + 1)) ∧
    (∀ items, p.plotCog ip = .ok items → ∃ r, p.plotCogOn ip t u fu lg (some i) c = .ok r ∧ FrameElsewhere c items t i c.gca.1 r ∧
      (c.current = none → r.2.axes.length = c.axes.length + 1)) := by
  refine ⟨(draw_other [] [] hc hi hne).2.2.2.2.1, fun items h => ⟨_, plotOn_shape ip p t u lg _ c h, elsewhere_of_draw (Or.inl rfl) hc hi hne, ?_⟩,
    fun items h => ⟨_, plotCogOn_shape ip p t u fu lg _ c h, elsewhere_of_draw (Or.inr rfl) hc hi hne, ?_⟩⟩
  · exact (draw_other _ _ hc hi hne).2.2.2.2.2
  · exact (draw_other _ _ hc hi hne).2.2.2.2.2

/-- **C155, side by side.** `plot` on the left and `plot_cog` on the right of a new figure with two panels: the left panel never gets the tick
frame, the right one gets it twice. -/
theorem C155_pair_violated {a b : List (PlotItem K)} (ha : p.plot ip = .ok a) (hb : p.plotCog ip = .ok b) (t t' : String) (u fu : Option String) (lg : Bool)
    (c : Canvas K) :
    ∃ r r', p.plotOn ip t u lg (some c.axes.length) (c.newAxes 2) = .ok r ∧
      p.plotCogOn ip t' u fu lg (some (c.axes.length + 1)) r.2 = .ok r' ∧
      dataShown (onAxes r'.2 c.axes.length) = a ∧ framed (onAxes r'.2 c.axes.length) = 0 ∧
      dataShown (onAxes r'.2 (c.axes.length + 1)) = b ∧ framed (onAxes r'.2 (c.axes.length + 1)) = 2 := by
  have hlen : (c.newAxes 2).axes.length = c.axes.length + 2 := by simp [newAxes]
  have hcur : (c.newAxes 2).current = some (c.axes.length + 1) := by simp [newAxes]
  have hc : CurrentOk (c.newAxes 2) := fun i hi => by rw [hcur] at hi; cases hi; omega
  have hgca : (c.newAxes 2).gca.1 = c.axes.length + 1 := by unfold gca; rw [hcur]
  have hnew : ∀ j, c.axes.length ≤ j → onAxes (c.newAxes 2) j = [] := by
    intro j hj
    unfold onAxes newAxes
    simp only [List.getElem?_append_right hj, List.getElem?_replicate]
    split_ifs <;> rfl
  have hx := draw_other (a.map .item ++ [.title t, .xlabel (xLabel u), .ylabel "Petrosian Index $\\eta(r)$"]) ([.xlim 0] ++ if lg then [.legend] else [])
    hc (i := c.axes.length) (by omega) (by rw [hcur]; simp)
  have he := elsewhere_of_draw (items := a) (t := t) (xl := xLabel u) (yl := "Petrosian Index $\\eta(r)$") (lg := lg) (Or.inl rfl) hc (i := c.axes.length)
    (by omega) (by rw [hcur]; simp)
  refine ⟨_, _, plotOn_shape ip p t u lg _ _ ha, plotCogOn_shape ip p t' u fu lg _ _ hb, ?_⟩
  set r := drawShape (a.map .item ++ [.title t, .xlabel (xLabel u), .ylabel "Petrosian Index $\\eta(r)$"]) ([.xlim 0] ++ if lg then [.legend] else [])
    (some c.axes.length) (c.newAxes 2) with hr
  have hrc : r.2.current = some (c.axes.length + 1) := by
    rw [hr]; simp only [drawShape, resolve, tickFrame_none, addTo_current]
    have : ((c.newAxes 2).addTo c.axes.length (a.map .item ++ [.title t, .xlabel (xLabel u), .ylabel "Petrosian Index $\\eta(r)$"])).gca =
        (c.axes.length + 1, (c.newAxes 2).addTo c.axes.length (a.map .item ++ [.title t, .xlabel (xLabel u), .ylabel "Petrosian Index $\\eta(r)$"])) := by
      unfold gca; rw [addTo_current, hcur]
    rw [this]; exact hcur
  have hrl : r.2.axes.length = c.axes.length + 2 := by
    rw [hr]; simp only [drawShape, resolve, tickFrame_none, addTo_length]
    have : ((c.newAxes 2).addTo c.axes.length (a.map .item ++ [.title t, .xlabel (xLabel u), .ylabel "Petrosian Index $\\eta(r)$"])).gca =
        (c.axes.length + 1, (c.newAxes 2).addTo c.axes.length (a.map .item ++ [.title t, .xlabel (xLabel u), .ylabel "Petrosian Index $\\eta(r)$"])) := by
      unfold gca; rw [addTo_current, hcur]
    rw [this, addTo_length, hlen]
  have hrok : CurrentOk r.2 := fun i hi => by rw [hrc] at hi; cases hi; omega
  have hal := alone_of_draw (items := b) (t := t') (xl := xLabel u) (yl := yLabelCog fu) (lg := lg) (Or.inr rfl) hrok
    (ax := some (c.axes.length + 1)) (Or.inr hrc.symm)
  have hidx : (drawShape (b.map AxCmd.item ++ [.title t', .xlabel (xLabel u), .ylabel (yLabelCog fu)]) ([.xlim 0, .ylim 0] ++ if lg then [.legend] else [])
    (some (c.axes.length + 1)) r.2).1 = c.axes.length + 1 := rfl
  obtain ⟨q1, q2, q3, q4⟩ := hal
  rw [hidx] at q1 q2 q4
  obtain ⟨e1, e2, e3, e4, e5, e6, e7, e8⟩ := he
  rw [hgca] at e7 e8
  refine ⟨?_, ?_, ?_, ?_⟩
  · rw [q1 _ (by omega), e3, hnew _ le_rfl]; rfl
  · rw [q1 _ (by omega), e5, hnew _ le_rfl]; rfl
  · rw [q2, e8, hnew _ (by omega)]; rfl
  · rw [q4, e7, hnew _ (by omega)]; rfl

/-- **C155, `plot_fit`.** The three panels are new axes with the data, the model and the residual on the same limits, in this order; each has
the tick frame; a fourth axes is made exactly for a colour bar; everything that was there before is untouched. -/
theorem C155_plot_fit (image model residual : Img (F K)) (lim : F K × F K) (cbar : Bool) (label : String) (c : Canvas K) :
    let r := plotFitOn image model residual lim cbar label c
    r.1 = c.axes.length ∧ (∀ j, j < c.axes.length → onAxes r.2 j = onAxes c j) ∧ r.2.axes.length = c.axes.length + (if cbar then 4 else 3) ∧
      onAxes r.2 r.1 = [.image image lim.1 lim.2, .title "Data", .xlabel "Pixels", .ylabel "Pixels"] ++ frameCmds ∧
      onAxes r.2 (r.1 + 1) = [.image model lim.1 lim.2, .title "Model", .xlabel "Pixels"] ++ frameCmds ++ [.noYTickLabels] ∧
      onAxes r.2 (r.1 + 2) = [.image residual lim.1 lim.2, .title "Residual", .xlabel "Pixels"] ++ frameCmds ++ [.noYTickLabels] ∧
      (cbar = true → onAxes r.2 (r.1 + 3) = [.colorbar label] ∧ r.2.current = some (r.1 + 3)) := by
  have hres : plotFitOn image model residual lim cbar label c = (c.axes.length,
      ⟨c.axes ++ ([[.image image lim.1 lim.2, .title "Data", .xlabel "Pixels", .ylabel "Pixels"] ++ frameCmds,
        [.image model lim.1 lim.2, .title "Model", .xlabel "Pixels"] ++ frameCmds ++ [.noYTickLabels],
        [.image residual lim.1 lim.2, .title "Residual", .xlabel "Pixels"] ++ frameCmds ++ [.noYTickLabels]] ++
        if cbar then [[.colorbar label]] else []), some (c.axes.length + if cbar then 3 else 2)⟩) := by
    obtain ⟨axs, cur⟩ := c
    have n3 : (⟨axs, cur⟩ : Canvas K).newAxes 3 = ⟨axs ++ [[], [], []], some (axs.length + 2)⟩ := rfl
    have n1 : ∀ a b d (cur : Option Nat), (⟨axs ++ [a, b, d], cur⟩ : Canvas K).newAxes 1 = ⟨axs ++ [a, b, d, []], some (axs.length + 3)⟩ := by
      intro a b d cur; simp [newAxes]
    have h0 : ∀ l bs (cur : Option Nat), (⟨axs ++ bs, cur⟩ : Canvas K).addTo axs.length l = ⟨axs ++ bs.modify 0 (· ++ l), cur⟩ := by
      intro l bs cur; simpa using add_tail axs bs cur 0 l
    simp only [plotFitOn, tickFrame_some, n3, h0, add_tail, List.modify]
    cases cbar
    · rfl
    · simp only [if_true]
      simp [n1, add_tail, n3, h0, List.modify, frameCmds]
  simp only [hres]
  refine ⟨trivial, fun j hj => ?_, ?_, ?_, ?_, ?_, ?_⟩
  · unfold onAxes; simp only [List.getElem?_append_left hj]
  · cases cbar <;> simp
  · unfold onAxes; simp
  · unfold onAxes; simp
  · unfold onAxes; simp
  · rintro rfl; unfold onAxes; simp

/-- Non-vacuity: a figure with two panels, of which the left one is not current.  Objects that `plot` accepts are in `Props/Plots.lean`. -/
example : CurrentOk (⟨[[], []], some 1⟩ : Canvas ℚ) ∧ (⟨[[], []], some 1⟩ : Canvas ℚ).current ≠ some 0 :=
  ⟨fun i hi => by cases hi; simp, by simp⟩

end

end Verif.Props

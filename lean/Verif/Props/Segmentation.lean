import Verif.Lemmas.Segmentation
import Verif.Model.Overlap
import Verif.Props.Photometry
import Mathlib.Data.List.Sort
import Mathlib.Tactic.Linarith
import Mathlib.Tactic.Ring
import Mathlib.Tactic.NormNum

/-!
# C47-C52: masks by label, masked images, source photometry, catalog order
-/

set_option linter.unusedSectionVars false
set_option linter.unusedVariables false
set_option linter.unusedSimpArgs false

namespace Verif.Props

open F MM Spec

section
variable {K : Type} [Field K] [LinearOrder K]

/-! ### C47 -/

/-- **C47.** For a label, a catalog entry or a non-empty list (or any list when the background is kept) the mask has the shape of the
segmentation map and is True exactly on the selected pixels. -/
theorem C47_mask_partial (m : Mem K) (s : SegSource) (segm : Img Int) (mb : Bool) (hs : WellTyped s)
    (hne : labelsOf m s ≠ [] ∨ mb = false) :
    ∃ r, (segmMask s segm mb m).1 = .ok (some r) ∧ r.h = segm.h ∧ r.w = segm.w ∧
      ∀ i j, i < segm.h → j < segm.w →
        (r.px i j = true ↔ segm.px i j ∈ labelsOf m s ∨ (mb = false ∧ segm.px i j = 0)) := by
  obtain ⟨r, e, a, b, c⟩ := segmMask_run m s segm mb hs hne
  exact ⟨r, by rw [e], a, b, fun i j _ _ => c i j⟩

/-- **C47, wrong type.** Anything else (tuples, arrays, strings) raises TypeError. -/
theorem C47_type (m : Mem K) (segm : Img Int) (mb : Bool) : (segmMask .other segm mb m).1 = .error .typeError := rfl

/-- **C47, violated for the empty list.** With `mask_background=True` an empty list of sources gives `None` in place of a mask that is
False everywhere, and `masked_segm_image` then raises TypeError. -/
theorem C47_empty_violated (m : Mem K) (r : Nat) (segm : Img Int) (im : Nat) (fill : Option (F K)) (h : m.lists r = []) :
    (segmMask (.list r) segm true m).1 = .ok none ∧
      (maskedSegmImage (.list r) im segm fill true m).1 = .error .typeError := by
  have e : segmMask (.list r) segm true m = (.ok none, m) := by
    simp [segmMask, bind_run, h, maskLoop]
  refine ⟨by rw [e], ?_⟩
  unfold maskedSegmImage
  rw [bind_ok e, bind_ok (getImg_run _ _), bind_ok (newImg_run _ _)]
  rfl

/-- A 2×3 map with two sources. -/
def segm23 : Img Int := Img.ofRows 0 [[0, 1, 2], [1, 2, 0]]

/-- Some memory: list 0 is `[2]`, image 0 has the pixels 10..15. -/
def mem23 : Mem ℚ :=
  ⟨fun k => if k = 0 then [2] else [], fun _ => Img.ofRows nan [[fin 10, fin 11, fin 12], [fin 13, fin 14, fin 15]], 1⟩

example : ((segmMask (.list 0) segm23 true mem23).1.toOption.bind id).map Img.rows =
    some [[false, false, true], [false, true, false]] := by decide +kernel
example : ((segmMask (.label 1) segm23 false mem23).1.toOption.bind id).map Img.rows =
    some [[true, true, false], [true, false, true]] := by decide +kernel

/-! ### C48 -/

theorem segmMask_lists (m : Mem K) (s : SegSource) (segm : Img Int) (mb : Bool) :
    (segmMask s segm mb m).2 = { m with lists := listsAfter m s mb } := by
  cases s with
  | other => rfl
  | label l => cases mb <;> rfl
  | list q => cases mb <;> simp [segmMask, bind_run, append, listsAfter]

theorem maskedSegmImage_lists (m : Mem K) (s : SegSource) (im : Nat) (segm : Img Int) (fill : Option (F K)) (mb : Bool) :
    (maskedSegmImage s im segm fill mb m).2.lists = listsAfter m s mb := by
  unfold maskedSegmImage
  have h := segmMask_lists m s segm mb
  rcases hx : segmMask s segm mb m with ⟨r, m'⟩
  rw [hx] at h
  simp only at h
  subst h
  cases r with
  | error e => rw [bind_err hx]
  | ok mk =>
    rw [bind_ok hx, bind_ok (getImg_run _ _), bind_ok (newImg_run _ _)]
    cases mk with
    | none => rfl
    | some r =>
      simp only
      rw [bind_ok (getImg_run _ _)]
      split
      · rfl
      · rw [bind_ok (setImg_run _ _ _)]; rfl

/-- **C48, what calls do to the caller's list.** After any history of calls of `segm_mask` and `masked_segm_image` (failed calls
included) a list has grown by one 0 for each call that was given that list with `mask_background=False`. -/
theorem C48_list_growth (h : List (SegCall K)) (m : Mem K) (r : Nat) :
    (segHistory m h).lists r = m.lists r ++ List.replicate (h.countP fun c => c.keepsBackground r) 0 := by
  induction h generalizing m with
  | nil => simp [segHistory]
  | cons c t ih =>
    have hstep : (c.exec m).lists r = m.lists r ++ (if c.keepsBackground r then [0] else []) := by
      have key : ∀ (s : SegSource) (mb : Bool) (b : Bool),
          (b = match s with | .list q => !mb && q == r | _ => false) →
          listsAfter m s mb r = m.lists r ++ (if b then [0] else []) := by
        intro s mb b hb
        subst hb
        cases s with
        | other => simp [listsAfter]
        | label l => simp [listsAfter]
        | list q =>
          cases mb with
          | true => simp [listsAfter]
          | false =>
            by_cases hq : r = q
            · subst hq; simp [listsAfter]
            · have hq' : q ≠ r := fun h => hq h.symm
              simp [listsAfter, hq, hq']
      cases c with
      | mask s segm mb =>
        show (segmMask s segm mb m).2.lists r = _
        rw [segmMask_lists]
        exact key s mb _ (by cases s <;> cases mb <;> rfl)
      | image s im segm fill mb =>
        show (maskedSegmImage s im segm fill mb m).2.lists r = _
        rw [maskedSegmImage_lists]
        exact key s mb _ (by cases s <;> cases mb <;> rfl)
    have : segHistory m (c :: t) = segHistory (c.exec m) t := rfl
    rw [this, ih, hstep, List.append_assoc]
    congr 1
    by_cases hk : c.keepsBackground r = true
    · rw [List.countP_cons_of_pos hk, if_pos hk, List.replicate_succ]; rfl
    · rw [List.countP_cons_of_neg hk, if_neg hk]; rfl

/-- **C48, when earlier calls are harmless.** After any history in which the list was not used with `mask_background=False`, or when
the later call itself keeps the background, the later call selects the same pixels as without the history. -/
theorem C48_history_partial (h : List (SegCall K)) (m : Mem K) (s : SegSource) (segm : Img Int) (mb : Bool) (hs : WellTyped s)
    (hne : labelsOf m s ≠ [] ∨ mb = false)
    (hh : mb = false ∨ ∀ r, s = .list r → ∀ c ∈ h, c.keepsBackground r = false) :
    ∃ a b, (segmMask s segm mb (segHistory m h)).1 = .ok (some a) ∧ (segmMask s segm mb m).1 = .ok (some b) ∧ a.Same b := by
  have hl : ∃ k, labelsOf (segHistory m h) s = labelsOf m s ++ List.replicate k 0 ∧ (mb = true → k = 0) := by
    cases s with
    | other => exact ⟨0, rfl, fun _ => rfl⟩
    | label l => exact ⟨0, by simp [labelsOf], fun _ => rfl⟩
    | list r =>
      refine ⟨_, C48_list_growth h m r, fun hm => ?_⟩
      rcases hh with hh | hh
      · rw [hm] at hh; cases hh
      · rw [List.countP_eq_zero]
        intro c hc
        rw [hh r rfl c hc]; simp
  obtain ⟨k, hk, hk0⟩ := hl
  obtain ⟨a, ea, a1, a2, a3⟩ := segmMask_run (segHistory m h) s segm mb hs
    (hne.imp (fun hx hy => hx (by rw [hk] at hy; exact (List.append_eq_nil_iff.1 hy).1)) id)
  obtain ⟨b, eb, b1, b2, b3⟩ := segmMask_run m s segm mb hs hne
  refine ⟨a, b, by rw [ea], by rw [eb], a1.trans b1.symm, a2.trans b2.symm, fun i j _ _ => ?_⟩
  rw [Bool.eq_iff_iff, a3, b3]
  unfold Selected
  rw [hk]
  cases mb with
  | true => rw [hk0 rfl]; simp
  | false =>
    simp only [List.mem_append, List.mem_replicate, true_and]
    tauto

/-- **C48, violated.** A call with `mask_background=False` changes the caller's list, and a later call on that list with
`mask_background=True` then keeps background pixels it would otherwise mask. -/
theorem C48_violated : ∃ (m : Mem ℚ) (segm : Img Int) (r : Nat),
    (segHistory m [.mask (.list r) segm false]).lists r ≠ m.lists r ∧
    ∃ a b, (segmMask (.list r) segm true (segHistory m [.mask (.list r) segm false])).1 = .ok (some a) ∧
      (segmMask (.list r) segm true m).1 = .ok (some b) ∧ a.px 0 0 = true ∧ b.px 0 0 = false := by
  refine ⟨mem23, segm23, 0, by decide +kernel, _, _, rfl, rfl, by decide +kernel, by decide +kernel⟩

/-! ### C49 -/

/-- **C49.** `masked_segm_image` returns a new image of the same shape, equal to the input on the selected pixels and to the fill value
(NaN by default) on the others; every existing image is unchanged. -/
theorem C49_masked (m : Mem K) (s : SegSource) (image : Nat) (segm : Img Int) (fill : Option (F K)) (mb : Bool)
    (hs : WellTyped s) (hne : labelsOf m s ≠ [] ∨ mb = false)
    (hsh : segm.h = (m.imgs image).h ∧ segm.w = (m.imgs image).w) :
    ∃ r m', maskedSegmImage s image segm fill mb m = (.ok r, m') ∧ m.next ≤ r ∧ (∀ k < m.next, m'.imgs k = m.imgs k) ∧
      (m'.imgs r).h = (m.imgs image).h ∧ (m'.imgs r).w = (m.imgs image).w ∧
      ∀ i j, i < (m.imgs image).h → j < (m.imgs image).w →
        (Selected segm (labelsOf m s) mb i j → (m'.imgs r).px i j = (m.imgs image).px i j) ∧
        (¬ Selected segm (labelsOf m s) mb i j → (m'.imgs r).px i j = fill.getD nan) := by
  have e := maskedSegmImage_run m s image segm fill mb hs hne hsh
  refine ⟨_, _, e, le_refl _, fun k hk => by simp [Nat.ne_of_lt hk], ?_, ?_, ?_⟩
  · simp only [if_true]; rfl
  · simp only [if_true]; rfl
  · intro i j _ _
    simp only [if_true, masked]
    exact ⟨fun h => by rw [if_pos h], fun h => by rw [if_neg h]⟩

/-- **C49, shapes.** A segmentation map of another shape is an IndexError. -/
theorem C49_shape (m : Mem K) (s : SegSource) (image : Nat) (segm : Img Int) (fill : Option (F K)) (mb : Bool)
    (hs : WellTyped s) (hne : labelsOf m s ≠ [] ∨ mb = false)
    (hsh : ¬ (segm.h = (m.imgs image).h ∧ segm.w = (m.imgs image).w)) :
    (maskedSegmImage s image segm fill mb m).1 = .error .indexError := by
  obtain ⟨r, e, a, b, c⟩ := segmMask_run m s segm mb hs hne
  unfold maskedSegmImage
  rw [bind_ok e, bind_ok (getImg_run _ _), bind_ok (newImg_run _ _)]
  simp only
  rw [bind_ok (getImg_run _ _)]
  simp only [if_true]
  rw [if_pos (by rw [a, b]; exact hsh)]
  rfl

/-- **C49, idempotence.** Masking the result again with the same arguments gives the same pixels, also when `source` is a list that the
first call has extended. -/
theorem C49_idempotent (m : Mem K) (s : SegSource) (image : Nat) (segm : Img Int) (fill : Option (F K)) (mb : Bool)
    (hs : WellTyped s) (hne : labelsOf m s ≠ [] ∨ mb = false)
    (hsh : segm.h = (m.imgs image).h ∧ segm.w = (m.imgs image).w) :
    ∃ r m' r' m'', maskedSegmImage s image segm fill mb m = (.ok r, m') ∧
      maskedSegmImage s r segm fill mb m' = (.ok r', m'') ∧ (m''.imgs r').Same (m'.imgs r) := by
  have e := maskedSegmImage_run m s image segm fill mb hs hne hsh
  set m' : Mem K := _ with hm'
  have hm'2 : maskedSegmImage s image segm fill mb m = (.ok m.next, m') := e
  have hi : m'.imgs m.next = masked (m.imgs image) segm (labelsOf m s) mb (fill.getD nan) := by simp [hm']
  have hlab : ∃ k, labelsOf m' s = labelsOf m s ++ List.replicate k 0 ∧ (mb = true → k = 0) := by
    cases s with
    | other => exact hs.elim
    | label l => exact ⟨0, by simp [labelsOf], fun _ => rfl⟩
    | list q => cases mb with
      | true => exact ⟨0, by simp [labelsOf, hm', listsAfter], fun _ => rfl⟩
      | false => exact ⟨1, by simp [labelsOf, hm', listsAfter], fun h => by cases h⟩
  obtain ⟨k, hk, hk0⟩ := hlab
  have hne' : labelsOf m' s ≠ [] ∨ mb = false :=
    hne.imp (fun hx hy => hx (by rw [hk] at hy; exact (List.append_eq_nil_iff.1 hy).1)) id
  have hsh' : segm.h = (m'.imgs m.next).h ∧ segm.w = (m'.imgs m.next).w := by rw [hi]; exact hsh
  have e2 := maskedSegmImage_run m' s m.next segm fill mb hs hne' hsh'
  refine ⟨_, _, _, _, hm'2, e2, ?_⟩
  simp only [if_true]
  rw [hi]
  refine ⟨rfl, rfl, fun i j _ _ => ?_⟩
  have hsel : Selected segm (labelsOf m' s) mb i j ↔ Selected segm (labelsOf m s) mb i j := by
    unfold Selected
    rw [hk]
    cases mb with
    | true => rw [hk0 rfl]; simp
    | false => simp only [List.mem_append, List.mem_replicate, true_and]; tauto
  simp only [masked]
  by_cases h : Selected segm (labelsOf m s) mb i j
  · rw [if_pos (hsel.2 h)]
  · rw [if_neg (fun hx => h (hsel.1 hx)), if_neg h]

example : (match maskedSegmImage (.label 2) 0 segm23 none true mem23 with
    | (.ok r, m') => some ((m'.imgs r).rows, (m'.imgs 0).rows)
    | _ => none) = some ([[nan, nan, fin 12], [nan, fin 14, nan]], [[fin 10, fin 11, fin 12], [fin 13, fin 14, fin 15]]) := by
  decide +kernel

/-! ### C52 -/

/-- **C52.** For every `argsort` that meets numpy's contract: `order_cat` returns each catalog index once, and without NaN keys the key
values along it are non-increasing with `reverse=True` and non-decreasing with `reverse=False`; an unknown key is a KeyError. -/
theorem C52_order (argsort : List (F K) → List Nat) (ha : ArgsortLaw argsort) (table : String → Option (List (F K))) (key : String)
    (reverse : Bool) :
    match table key with
    | none => orderCat argsort table key reverse = .error .keyError
    | some col => ∃ l, orderCat argsort table key reverse = .ok l ∧ l.Perm (List.range col.length) ∧
        ((∀ v ∈ col, v.isNaN = false) → l.Pairwise fun i j =>
          if reverse then F.le (col.getD j nan) (col.getD i nan) = true else F.le (col.getD i nan) (col.getD j nan) = true) := by
  unfold orderCat
  cases hk : table key with
  | none => simp
  | some col =>
    refine ⟨_, rfl, ?_, ?_⟩
    · cases reverse with
      | true => exact (List.reverse_perm _).trans (ha.perm col)
      | false => exact ha.perm col
    · intro hn
      have hs : (argsort col).Pairwise fun i j => F.le (col.getD i nan) (col.getD j nan) = true := by
        refine (ha.sorted col).imp_of_mem ?_
        intro i j hi hj h
        have hj' : j < col.length := List.mem_range.1 ((ha.perm col).mem_iff.1 hj)
        have : (col.getD j nan).isNaN = false := by
          simp only [List.getD, List.getElem?_eq_getElem hj', Option.getD_some]; exact hn _ (List.getElem_mem hj')
        unfold npLe at h
        rw [this] at h
        simpa using h
      cases reverse with
      | true => simp only [if_true]; rw [List.pairwise_reverse]; exact hs
      | false => simpa using hs

/-- An `argsort` by insertion sort. -/
def insArgsort (l : List (F K)) : List Nat :=
  (List.range l.length).insertionSort fun i j => npLe (l.getD i nan) (l.getD j nan) = true

theorem npLe_total (a b : F K) : npLe a b = true ∨ npLe b a = true := by
  cases a <;> cases b <;> simp [npLe, F.le, isNaN, le_total]
theorem npLe_trans (a b c : F K) (h1 : npLe a b = true) (h2 : npLe b c = true) : npLe a c = true := by
  cases a <;> cases b <;> cases c <;> simp_all [npLe, F.le, isNaN]
  exact h1.trans h2

theorem insArgsort_law : ArgsortLaw (insArgsort (K := K)) where
  perm := fun l => List.perm_insertionSort _ _
  sorted := fun l => by
    haveI : Std.Total fun i j : Nat => npLe (l.getD i nan) (l.getD j nan) = true := ⟨fun i j => npLe_total _ _⟩
    haveI : IsTrans Nat fun i j : Nat => npLe (l.getD i nan) (l.getD j nan) = true := ⟨fun i j k => npLe_trans _ _ _⟩
    exact List.pairwise_insertionSort _ _

example : orderCat (K := ℚ) insArgsort (fun k => if k = "area" then some [fin 3, fin 9, fin 1, fin 9] else none) =
    .ok [3, 1, 0, 2] := by decide +kernel
/-- With a NaN key the reversed order puts it first. -/
example : orderCat (K := ℚ) insArgsort (fun k => if k = "area" then some [fin 3, nan, fin 1] else none) =
    .ok [1, 0, 2] := by decide +kernel

end

/-! ### C50 -/

section
variable {K : Type} [Field K] [LinearOrder K] [IsStrictOrderedRing K] [HasSqrt K] [FloorRing K] {ov : Overlap K} {lib : BgLib K}

/-- **C50, centring.** Whatever size is requested, the cutout has an even side `n`, the apertures are centred on pixel `(n/2, n/2)` of
it, pixel `(i, j)` of it is pixel `(y + i - n/2, x + j - n/2)` of the image (NaN outside the image, and where masked), and so the centre
is the pixel of the source's maximum. -/
theorem C50_centred (hl : LibExt lib) (m : Mem K) (s : SourceRow K) (image : Nat) (segm : Img Int) (rs : List K)
    (req : Option Nat) (mb : Bool) (sigma : F K) (st : SigmaType) (himg : image < m.next)
    (hsh : segm.h = (m.imgs image).h ∧ segm.w = (m.imgs image).w) (n : Nat) (hn : cutoutSize req rs = .ok n) :
    n % 2 = 0 ∧ (∀ k, req = some k → n = k ∨ n = k + 1) ∧
    ∃ d : Img (F K), d.h = n ∧ d.w = n ∧
      (∀ i j, i < n → j < n → ∀ r c, r + n / 2 = s.y + i → c + n / 2 = s.x + j → r < (m.imgs image).h → c < (m.imgs image).w →
        d.px i j = if segm.px r c = s.label ∨ (mb = false ∧ segm.px r c = 0) then (m.imgs image).px r c else nan) ∧
      (∀ i j, i < n → j < n →
        (¬ ∃ r c, r + n / 2 = s.y + i ∧ c + n / 2 = s.x + j ∧ r < (m.imgs image).h ∧ c < (m.imgs image).w) → d.px i j = nan) ∧
      (0 < n → s.y < (m.imgs image).h → s.x < (m.imgs image).w → segm.px s.y s.x = s.label →
        d.px (n / 2) (n / 2) = (m.imgs image).px s.y s.x) ∧
      (sourcePhotometry ov lib s image segm rs none req false sigma st mb m).1 =
        radialPhotometry ov d ((n / 2 : Nat) : K) ((n / 2 : Nat) : K) rs none (some (d.map fun v => !v.isNaN)) s.elong s.theta := by
  have hev := cutoutSize_even hn
  refine ⟨hev, ?_, ?_⟩
  · intro k hk
    subst hk
    simp only [cutoutSize, bind, Except.bind, Except.ok.injEq] at hn
    split_ifs at hn <;> omega
  obtain ⟨m', fr, e⟩ := sourcePhotometry_run (ov := ov) hl m s image segm rs none req false sigma st mb himg
    (fun e h => by cases h) hsh
  have hhalf : ((n : K) / 2) = ((n / 2 : Nat) : K) := by
    have : n = 2 * (n / 2) := by omega
    conv_lhs => rw [this]
    push_cast; ring
  have hpx : ∀ i j, i < n → j < n → ∀ r c, r + n / 2 = s.y + i → c + n / 2 = s.x + j → r < (m.imgs image).h →
      c < (m.imgs image).w → (window (masked (m.imgs image) segm [s.label] mb nan) s.x s.y n).px i j =
        if segm.px r c = s.label ∨ (mb = false ∧ segm.px r c = 0) then (m.imgs image).px r c else nan := by
    intro i j hi hj r c h1 h2 h3 h4
    have hr : s.y + i - n / 2 = r := by omega
    have hc : s.x + j - n / 2 = c := by omega
    simp only [window]
    rw [if_pos ⟨by omega, by rw [hr]; exact h3, by omega, by rw [hc]; exact h4⟩, hr, hc]
    simp only [masked, Selected, List.mem_singleton]
  refine ⟨window (masked (m.imgs image) segm [s.label] mb nan) s.x s.y n, rfl, rfl, hpx, ?_, ?_, ?_⟩
  · intro i j hi hj hno
    simp only [window]
    rw [if_neg]
    rintro ⟨a, b, c, d⟩
    exact hno ⟨s.y + i - n / 2, s.x + j - n / 2, by omega, by omega, b, d⟩
  · intro hpos hy hx hlab
    rw [hpx (n / 2) (n / 2) (by omega) (by omega) s.y s.x rfl rfl hy hx, if_pos (Or.inl hlab)]
  · rw [e, hn]
    simp only [measured, Bool.false_eq_true, if_false, Option.map_none]
    rw [hhalf]

theorem default_size {rs : List K} {n : Nat} {M : K} (hM : rs.max? = some M) (hpos : 0 < M) (hn : cutoutSize none rs = .ok n) :
    M * 3 ≤ n ∧ 2 ≤ n ∧ n % 2 = 0 ∧ (2 < M * 3 → 4 ≤ n) := by
  have hev := cutoutSize_even hn
  have h1 : (if ⌈M * 3⌉.toNat % 2 = 1 then ⌈M * 3⌉.toNat + 1 else ⌈M * 3⌉.toNat) = n := by
    simpa [cutoutSize, hM, bind, Except.bind] using hn
  have hc : 0 < ⌈M * 3⌉ := Int.ceil_pos.2 (by linarith)
  have hle : M * 3 ≤ (⌈M * 3⌉ : K) := Int.le_ceil _
  have hcast : ((⌈M * 3⌉.toNat : Nat) : K) = (⌈M * 3⌉ : K) := by
    have : ((⌈M * 3⌉.toNat : Nat) : Int) = ⌈M * 3⌉ := Int.toNat_of_nonneg hc.le
    exact_mod_cast this
  have hnge : ⌈M * 3⌉.toNat ≤ n := by rw [← h1]; split_ifs <;> omega
  refine ⟨?_, ?_, hev, fun h2 => ?_⟩
  · calc M * 3 ≤ (⌈M * 3⌉.toNat : K) := by rw [hcast]; exact hle
      _ ≤ n := by exact_mod_cast hnge
  · omega
  · have : 2 < ⌈M * 3⌉ := Int.lt_ceil.2 (by exact_mod_cast h2)
    omega

end

section
open Real

/-- **C50, size.** Over the reals: with the default size, an aperture of axis ratio at least 1 lies within the pixels of the cutout for
every radius of the list, provided the largest radius is at most 1/2 or larger than 2/3. -/
theorem C50_contains_partial {rs : List ℝ} {n : Nat} {M : ℝ} (hM : rs.max? = some M) (hn : cutoutSize none rs = .ok n)
    (hr : M ≤ 1 / 2 ∨ 2 / 3 < M) (q t r : ℝ) (hq : 1 ≤ q) (hmem : r ∈ rs) (hpos : 0 < r) (p : ℝ × ℝ)
    (hp : p ∈ Ellipse.set ⟨(n : ℝ) / 2, (n : ℝ) / 2, r, r / q, t⟩) :
    -1 / 2 < p.1 ∧ p.1 < n - 1 / 2 ∧ -1 / 2 < p.2 ∧ p.2 < n - 1 / 2 := by
  have hrM : r ≤ M := (List.max?_eq_some_iff.1 hM).2 r hmem
  have hMpos : 0 < M := lt_of_lt_of_le hpos hrM
  obtain ⟨h1, h2, h3, h4⟩ := default_size hM hMpos hn
  have hq0 : 0 < q := by linarith
  have hrq : 0 < r / q := div_pos hpos hq0
  have hrq1 : r / q ≤ r := div_le_self hpos.le hq
  obtain ⟨ex, ey⟩ := Ellipse.extent (e := ⟨(n : ℝ) / 2, (n : ℝ) / 2, r, r / q, t⟩) hpos hrq hp
  have hcs := Real.cos_sq_add_sin_sq t
  have bx : Ellipse.xExtent ⟨(n : ℝ) / 2, (n : ℝ) / 2, r, r / q, t⟩ ≤ r := by
    unfold Ellipse.xExtent
    apply Real.sqrt_le_iff.2 ⟨hpos.le, ?_⟩
    have : (r / q) ^ 2 ≤ r ^ 2 := pow_le_pow_left₀ hrq.le hrq1 2
    simp only
    nlinarith [sq_nonneg (Real.sin t), sq_nonneg (Real.cos t)]
  have bY : Ellipse.yExtent ⟨(n : ℝ) / 2, (n : ℝ) / 2, r, r / q, t⟩ ≤ r := by
    unfold Ellipse.yExtent
    apply Real.sqrt_le_iff.2 ⟨hpos.le, ?_⟩
    have : (r / q) ^ 2 ≤ r ^ 2 := pow_le_pow_left₀ hrq.le hrq1 2
    simp only
    nlinarith [sq_nonneg (Real.sin t), sq_nonneg (Real.cos t)]
  have hroom : r ≤ (n : ℝ) / 2 - 1 / 2 := by
    have hn2 : (2 : ℝ) ≤ n := by exact_mod_cast h2
    rcases hr with hr | hr
    · linarith
    · have hn4 : (4 : ℝ) ≤ n := by exact_mod_cast h4 (by linarith)
      by_cases hM1 : M ≤ 1
      · linarith
      · push Not at hM1; linarith
  simp only at ex ey
  rw [abs_lt] at ex ey
  refine ⟨by linarith [ex.1], by linarith [ex.2], by linarith [ey.1], by linarith [ey.2]⟩

/-- **C50, size, violated.** A single radius of 3/5 pixels gets a 2×2 cutout, and the aperture reaches beyond its edge at 3/2. -/
theorem C50_contains_violated : ∃ n, cutoutSize none [(3 / 5 : ℝ)] = .ok n ∧
    ∃ p ∈ Ellipse.set ⟨(n : ℝ) / 2, (n : ℝ) / 2, 3 / 5, 3 / 5 / 1, 0⟩, (n : ℝ) - 1 / 2 < p.1 := by
  have hc : ⌈(3 / 5 : ℝ) * 3⌉ = 2 := by
    rw [Int.ceil_eq_iff]; norm_num
  refine ⟨2, ?_, ((1 : ℝ) + 11 / 20, 1), ?_, by norm_num⟩
  · simp [cutoutSize, bind, Except.bind, hc]
  · simp only [Ellipse.set, Set.mem_setOf_eq, Real.cos_zero, Real.sin_zero]
    norm_num

end

/-! ### C51 -/

section
variable {K : Type} [Field K] [LinearOrder K] [IsStrictOrderedRing K] [HasSqrt K] [FloorRing K] {ov : Overlap K} {lib : BgLib K}

/-- The photometry of the measured image. -/
theorem measured_same (hl : LibExt lib) {a b : Img (F K)} {segm : Img Int} {s : SourceRow K} (hh : a.h = b.h) (hw : a.w = b.w)
    (h : ∀ i j, i < a.h → j < a.w → (segm.px i j = 0 ∨ segm.px i j = s.label) → a.px i j = b.px i j)
    (n : Nat) (bgSub : Bool) (sigma : F K) (st : SigmaType) (mb : Bool) :
    SameRes (measured lib a segm s n bgSub sigma st mb) (measured lib b segm s n bgSub sigma st mb) := by
  have h1 : (window (masked a segm [s.label] mb nan) s.x s.y n).Same (window (masked b segm [s.label] mb nan) s.x s.y n) :=
    window_same (masked_same hh hw fun i j hi hj hs => h i j hi hj (by
      unfold Selected at hs; simp only [List.mem_singleton] at hs; tauto)) _ _ _
  have h2 : (window (masked a segm [0] true nan) s.x s.y n).Same (window (masked b segm [0] true nan) s.x s.y n) :=
    window_same (masked_same hh hw fun i j hi hj hs => h i j hi hj (by
      unfold Selected at hs; simp only [List.mem_singleton] at hs; tauto)) _ _ _
  unfold measured
  cases bgSub with
  | false => simpa [SameRes] using h1
  | true => simpa using backgroundSubtracted_same hl h1 h2 n sigma st

/-- **C51.** Two images that agree on the background and on the source, with whatever difference inside other sources' segments, give
the same fluxes, areas and errors (or the same exception), with and without background subtraction; no existing image or list is
modified. -/
theorem C51_isolation (hl : LibExt lib) (m m' : Mem K) (s : SourceRow K) (image : Nat) (segm : Img Int) (rs : List K)
    (error : Option Nat) (req : Option Nat) (bgSub : Bool) (sigma : F K) (st : SigmaType) (mb : Bool)
    (himg : image < m.next) (himg' : image < m'.next) (herr : ∀ e, error = some e → e < m.next ∧ e < m'.next ∧
      m.imgs e = m'.imgs e)
    (hsh : segm.h = (m.imgs image).h ∧ segm.w = (m.imgs image).w)
    (hsh' : segm.h = (m'.imgs image).h ∧ segm.w = (m'.imgs image).w)
    (h : ∀ i j, i < segm.h → j < segm.w → (segm.px i j = 0 ∨ segm.px i j = s.label) →
      (m.imgs image).px i j = (m'.imgs image).px i j) :
    (sourcePhotometry ov lib s image segm rs error req bgSub sigma st mb m).1 =
      (sourcePhotometry ov lib s image segm rs error req bgSub sigma st mb m').1 ∧
    (sourcePhotometry ov lib s image segm rs error req bgSub sigma st mb m).2.lists = m.lists ∧
    ∀ k < m.next, (sourcePhotometry ov lib s image segm rs error req bgSub sigma st mb m).2.imgs k = m.imgs k := by
  obtain ⟨m1, fr1, e1⟩ := sourcePhotometry_run (ov := ov) hl m s image segm rs error req bgSub sigma st mb himg
    (fun e he => (herr e he).1) hsh
  obtain ⟨m2, fr2, e2⟩ := sourcePhotometry_run (ov := ov) hl m' s image segm rs error req bgSub sigma st mb himg'
    (fun e he => (herr e he).2.1) hsh'
  refine ⟨?_, by rw [e1]; exact fr1.1, by rw [e1]; exact fr1.2⟩
  rw [e1, e2]
  simp only
  cases cutoutSize req rs with
  | error e => rfl
  | ok n =>
    simp only
    have hs := measured_same (lib := lib) hl (s := s) (hsh.1.symm.trans hsh'.1) (hsh.2.symm.trans hsh'.2)
      (fun i j hi hj hx => h i j (hsh.1 ▸ hi) (hsh.2 ▸ hj) hx) n bgSub sigma st mb
    have he : (error.map fun e => window (m.imgs e) s.x s.y n) = error.map fun e => window (m'.imgs e) s.x s.y n := by
      cases error with
      | none => rfl
      | some e => simp only [Option.map_some]; rw [(herr e rfl).2.2]
    rcases hA : measured lib (m.imgs image) segm s n bgSub sigma st mb with ea | da <;>
      rcases hB : measured lib (m'.imgs image) segm s n bgSub sigma st mb with eb | db <;>
      rw [hA, hB] at hs
    · simp only [SameRes] at hs; rw [hs]
    · exact hs.elim
    · exact hs.elim
    · simp only
      rw [he]
      have hs : da.Same db := hs
      refine radialPhotometry_same hs (Same.map' hs _) ⟨rfl, rfl⟩ ?_ _ _ _ _ _
      cases error with
      | none => trivial
      | some e => exact Img.Same.refl _

/-- Numerical libraries for running the code: no clipping, mean 0 and deviation 1, a constant plane of height 1. -/
def toyLib : BgLib ℚ :=
  ⟨fun i _ => i, fun _ => (fin 0, fin 1), fun _ n => .ok ⟨n, n, fun _ _ => fin 1⟩⟩

theorem toyLib_ext : LibExt toyLib := ⟨fun _ _ _ h => h, fun _ _ _ => rfl, fun _ _ _ _ => rfl⟩

/-- A 4×4 image with a source of label 1 around row 2, column 2 and a neighbour of label 2 in the last column. -/
def mem44 (v : F ℚ) : Mem ℚ :=
  ⟨fun _ => [], fun _ => Img.ofRows nan [[fin 1, fin 1, fin 1, v], [fin 1, fin 3, fin 4, v], [fin 1, fin 5, fin 9, v],
    [fin 1, fin 1, fin 1, fin 1]], 1⟩
def segm44 : Img Int := Img.ofRows 0 [[0, 0, 0, 2], [0, 1, 1, 2], [0, 1, 1, 2], [0, 0, 0, 0]]

example : (sourcePhotometry boxOverlap toyLib ⟨1, 2, 2, 1, 0⟩ 0 segm44 [1, 2] none (some 3) false (fin 3) .clip false
    (mem44 (fin 100))).1 = .ok ([fin 24, fin 30], [fin 7, fin 13], [nan, nan]) := by decide +kernel
example : (sourcePhotometry boxOverlap toyLib ⟨1, 2, 2, 1, 0⟩ 0 segm44 [1, 2] none (some 3) false (fin 3) .clip false
    (mem44 (fin (-7)))).1 = .ok ([fin 24, fin 30], [fin 7, fin 13], [nan, nan]) := by decide +kernel

end
end Verif.Props

import Verif.Spec.Drawing
import Verif.Lemmas.Rounding
import Mathlib.Data.Rat.Floor

/-!
# C149: what the drawing and printing helpers show
-/

set_option linter.unusedSectionVars false
set_option linter.unusedVariables false

namespace Verif.Props

open Verif F Spec

section
variable {K : Type} [Field K] [LinearOrder K] [IsStrictOrderedRing K]

/-- **C149, target.** The marker is at the position, the position is the middle of the window, and the window is `size` wide and high. -/
theorem C149_target (h w : Nat) (x y size base : K) :
    let t := plotTarget h w x y (some size) base
    t.x = x ∧ t.y = y ∧ t.window.xlo + t.window.xhi = 2 * x ∧ t.window.ylo + t.window.yhi = 2 * y ∧
    t.window.xhi - t.window.xlo = size ∧ t.window.yhi - t.window.ylo = size := by
  intro t
  refine ⟨rfl, rfl, ?_, ?_, ?_, ?_⟩ <;> simp only [t, plotTarget, Option.getD_some] <;> ring

/-- Pixels in the window. -/
theorem C149_target_shows (h w : Nat) (x y size base : K) (i j : Nat) :
    winShows (plotTarget h w x y (some size) base).window i j ↔ |(j : K) - x| ≤ size / 2 ∧ |(i : K) - y| ≤ size / 2 := by
  simp only [plotTarget, Option.getD_some, winShows, abs_le]
  constructor
  · rintro ⟨a, b, c, d⟩
    exact ⟨⟨by linarith, by linarith⟩, by linarith, by linarith⟩
  · rintro ⟨⟨a, b⟩, c, d⟩
    exact ⟨by linarith, by linarith, by linarith, by linarith⟩

/-- Without `size` the window is as wide and high as the longer side, around the position: the whole image is visible exactly when the position
is near enough to the middle. -/
theorem C149_target_default (h w : Nat) (x y base : K) (hh : 0 < h) (hw : 0 < w) :
    (∀ i j, i < h → j < w → winShows (plotTarget h w x y none base).window i j) ↔
      x ≤ ((max h w : Nat) : K) / 2 ∧ (w : K) - 1 - ((max h w : Nat) : K) / 2 ≤ x ∧
      y ≤ ((max h w : Nat) : K) / 2 ∧ (h : K) - 1 - ((max h w : Nat) : K) / 2 ≤ y := by
  have e : ∀ n : Nat, 0 < n → ((n - 1 : Nat) : K) = (n : K) - 1 := fun n hn => by rw [Nat.cast_sub hn, Nat.cast_one]
  simp only [plotTarget, Option.getD_none, winShows]
  constructor
  · intro H
    obtain ⟨a1, -, a3, -⟩ := H 0 0 hh hw
    obtain ⟨-, b2, -, b4⟩ := H (h - 1) (w - 1) (by omega) (by omega)
    rw [Nat.cast_zero] at a1 a3
    rw [e w hw] at b2
    rw [e h hh] at b4
    exact ⟨by linarith, by linarith, by linarith, by linarith⟩
  · rintro ⟨a, b, c, d⟩ i j hi hj
    have i0 : (0 : K) ≤ i := Nat.cast_nonneg _
    have j0 : (0 : K) ≤ j := Nat.cast_nonneg _
    have i1 : (i : K) + 1 ≤ h := by exact_mod_cast hi
    have j1 : (j : K) + 1 ≤ w := by exact_mod_cast hj
    exact ⟨by linarith, by linarith, by linarith, by linarith⟩

/-- A target in the middle shows everything. -/
theorem C149_target_middle (h w : Nat) (base : K) (hh : 0 < h) (hw : 0 < w) :
    ∀ i j, i < h → j < w → winShows (plotTarget h w (((w : K) - 1) / 2) (((h : K) - 1) / 2) none base).window i j := by
  refine (C149_target_default h w _ _ base hh hw).2 ?_
  have h1 : (h : K) ≤ ((max h w : Nat) : K) := by exact_mod_cast le_max_left h w
  have h2 : (w : K) ≤ ((max h w : Nat) : K) := by exact_mod_cast le_max_right h w
  refine ⟨?_, ?_, ?_, ?_⟩ <;> linarith

/-- **Violated: the default size shows the whole image.** With the target in the corner pixel of a square image with at least three rows the
opposite corner is outside. -/
theorem C149_target_violated (n : Nat) (hn : 3 ≤ n) (base : K) : ¬ winShows (plotTarget n n (0 : K) 0 none base).window (n - 1) (n - 1) := by
  simp only [plotTarget, Option.getD_none, winShows, max_self]
  rintro ⟨-, h, -⟩
  rw [Nat.cast_sub (by omega), Nat.cast_one] at h
  have : (3 : K) ≤ n := by exact_mod_cast hn
  linarith

example : winShows (plotTarget 10 20 (3 : ℚ) 4 (some 6) 2).window 7 1 ∧ ¬ winShows (plotTarget 10 20 (3 : ℚ) 4 (some 6) 2).window 8 1 := by
  rw [C149_target_shows, C149_target_shows]
  norm_num [abs_le]

end

section
variable {A : Type}

/-- **C149, apertures.** Given a list, every aperture is drawn once, in order and in the style of the caller, over the image and under the
title. -/
theorem C149_apertures (image : Bool) (l : List A) (vmin vmax : Option String) (color lw : String) :
    ∃ d, plotApertures image (some l) vmin vmax color lw = .ok d ∧
      d.filterMap (fun | .aperture a c w => some (a, c, w) | _ => none) = l.map (fun a => (a, color, lw)) ∧
      (image = true → d.head? = some (.image vmin vmax "Greys_r")) ∧
      (d.filter fun | .image _ _ _ => true | _ => false).length = (if image then 1 else 0) ∧
      d.getLast? = some (.title "Apertures") ∧ d.length = (if image then 1 else 0) + l.length + 1 := by
  have hmap : ∀ f : DrawCmd A → Option (A × String × String), (∀ a, f (.aperture a color lw) = some (a, color, lw)) →
      (l.map fun a => DrawCmd.aperture a color lw).filterMap f = l.map fun a => (a, color, lw) := by
    intro f hf
    rw [List.filterMap_map]
    induction l with
    | nil => rfl
    | cons a l ih => simp only [List.filterMap_cons, Function.comp, hf, List.map_cons, ← ih]
  have hfil : (l.map fun a => DrawCmd.aperture a color lw).filter (fun | .image _ _ _ => true | _ => false) = [] := by
    rw [List.filter_eq_nil_iff]
    intro d hd
    obtain ⟨a, -, rfl⟩ := List.mem_map.1 hd
    simp
  refine ⟨_, rfl, ?_, ?_, ?_, ?_, ?_⟩
  · cases image <;> simp [List.filterMap_append, hmap]
  · intro h; subst h; simp
  · cases image <;> simp [List.filter_append, hfil]
  · have hc : (image || (some l).isSome || decide (0 < l.length)) = true := by cases image <;> rfl
    rw [if_pos hc, List.getLast?_append_of_ne_nil _ (by simp)]
    rfl
  · cases image <;> simp [Nat.add_comm]

/-- **Violated: `apertures=None` draws the image alone.** The loop raises TypeError before the test for None is reached. -/
theorem C149_apertures_none (image : Bool) (vmin vmax : Option String) (color lw : String) :
    plotApertures (A := A) image none vmin vmax color lw = .error .typeError := rfl

/-- **Violated: the title is set only if there is something to draw.** The condition of the code always holds. -/
theorem C149_title_always (vmin vmax : Option String) (color lw : String) :
    plotApertures (A := A) false (some []) vmin vmax color lw = .ok [.title "Apertures"] := rfl

example : plotApertures true (some [5, 7]) none (some "1") "white" "1.5" =
    .ok [.image none (some "1") "Greys_r", .aperture 5 "white" "1.5", .aperture 7 "white" "1.5", .title "Apertures"] := by rfl

end

section
variable {S : Type}

/-- **C149, segments.** The segments are drawn once and after the image; the generator advances by one draw whatever the arguments. -/
theorem C149_segments (draw : Nat → S → Nat × S) (s : S) (image : Bool) (vmin vmax : Option String) (alpha : String) (title : Option String) :
    (plotSegments draw s image vmin vmax alpha title).2 = (draw 1000000 s).2 ∧
    ∃ pre post, (plotSegments draw s image vmin vmax alpha title).1 = pre ++ .segments (draw 1000000 s).1 alpha :: post ∧
      pre = (if image then [.image vmin vmax "gist_gray"] else []) ∧
      post = (match title with | some t => [.title t] | none => []) ++ [.xlabel "Pixels", .ylabel "Pixels"] := by
  refine ⟨rfl, _, _, ?_, rfl, rfl⟩
  cases title <;> simp [plotSegments]

/-- **Violated: drawing has no effect on results.** After `plot_segments` the global generator gives other numbers, unless a draw leaves its
state alone: for every generator whose second draw differs from its first. -/
theorem C149_segments_state (draw : Nat → S → Nat × S) (s : S) (n : Nat) (hd : (draw n (draw 1000000 s).2).1 ≠ (draw n s).1)
    (image : Bool) (vmin vmax : Option String) (alpha : String) (title : Option String) :
    (draw n (plotSegments draw s image vmin vmax alpha title).2).1 ≠ (draw n s).1 := hd

/-- Two pictures of the same segments have different colours when the draws differ. -/
theorem C149_segments_colours (draw : Nat → S → Nat × S) (s : S) (hd : (draw 1000000 (draw 1000000 s).2).1 ≠ (draw 1000000 s).1)
    (vmin vmax : Option String) (alpha : String) (title : Option String) (image : Bool) :
    let p := plotSegments draw s image vmin vmax alpha title
    (plotSegments draw p.2 image vmin vmax alpha title).1 ≠ p.1 := by
  intro p h
  have h1 : p.1 = (if image then [DrawCmd.image vmin vmax "gist_gray"] else []) ++ [.segments (draw 1000000 s).1 alpha] ++
    (match title with | some t => [.title t] | none => []) ++ [.xlabel "Pixels", .ylabel "Pixels"] := rfl
  have h2 : (plotSegments draw p.2 image vmin vmax alpha title).1 = (if image then [DrawCmd.image vmin vmax "gist_gray"] else []) ++
    [.segments (draw 1000000 (draw 1000000 s).2).1 alpha] ++
    (match title with | some t => [.title t] | none => []) ++ [.xlabel "Pixels", .ylabel "Pixels"] := rfl
  rw [h1, h2] at h
  have h3 := List.append_cancel_right h
  have h4 := List.append_cancel_right h3
  have h5 := List.append_cancel_left h4
  injection h5 with h6
  injection h6 with h7
  exact hd h7

/-- A linear congruential generator. -/
example : (let draw := fun (n s : Nat) => (s % n, (s * 5 + 3) % 2 ^ 16); (draw 10 (plotSegments draw 7 true none none "0.5" none).2).1 ≠ (draw 10 7).1) := by
  refine C149_segments_state (fun (n s : Nat) => (s % n, (s * 5 + 3) % 2 ^ 16)) 7 10 ?_ true none none "0.5" none
  decide

end

section
variable {K : Type} [Field K] [LinearOrder K] [IsStrictOrderedRing K] [FloorRing K]

theorem rne_nonneg {x : K} (hx : 0 ≤ x) : 0 ≤ rne x := (Int.floor_nonneg.2 hx).trans (rne_floor x).1

theorem fixed4_value (x : K) : printedValue (K := K) (fixed4 (fin x)) = some ((if x < 0 then -1 else 1) * ((rne (|x| * 10 ^ 4) : ℤ) : K) / 10 ^ 4) := by
  have h0 : 0 ≤ rne (|x| * 10 ^ 4) := rne_nonneg (by positivity)
  obtain ⟨n, hn⟩ := Int.eq_ofNat_of_zero_le h0
  have hd : ((n / 10 ^ 4 : Nat) : K) * 10 ^ 4 + ((n % 10 ^ 4 : Nat) : K) = n := by exact_mod_cast Nat.div_add_mod' n (10 ^ 4)
  simp only [fixed4, printedValue, hn, Int.toNat_natCast, Int.cast_natCast, decide_eq_true_eq]
  congr 1
  rw [mul_div_assoc]
  congr 1
  rw [← hd]
  field_simp

/-- **C149, printing.** A finite parameter is printed to within half of the fourth decimal, with its sign and four digits after the point. -/
theorem C149_print_value (x : K) :
    ∃ neg whole frac v, fixed4 (fin x) = .number neg whole frac ∧ frac < 10 ^ 4 ∧ (neg = true ↔ x < 0) ∧
      printedValue (fixed4 (fin x)) = some v ∧ |v - x| ≤ 1 / 20000 := by
  refine ⟨_, _, _, _, rfl, Nat.mod_lt _ (by norm_num), by simp, fixed4_value x, ?_⟩
  have h := rne_near (|x| * 10 ^ 4)
  have h10 : (0 : K) < 10 ^ 4 := by positivity
  have key : |((rne (|x| * 10 ^ 4) : ℤ) : K) / 10 ^ 4 - (|x|)| ≤ 1 / 20000 := by
    have e : ((rne (|x| * 10 ^ 4) : ℤ) : K) / 10 ^ 4 - |x| = (((rne (|x| * 10 ^ 4) : ℤ) : K) - |x| * 10 ^ 4) / 10 ^ 4 := by field_simp
    rw [e, abs_div, abs_of_pos h10, div_le_iff₀ h10]
    norm_num at h ⊢
    exact h
  split_ifs with hx
  · rw [abs_of_neg hx] at key ⊢
    rw [show -1 * ((rne (-x * 10 ^ 4) : ℤ) : K) / 10 ^ 4 - x = -(((rne (-x * 10 ^ 4) : ℤ) : K) / 10 ^ 4 - -x) by ring, abs_neg]
    exact key
  · rw [abs_of_nonneg (not_lt.1 hx)] at key ⊢
    rw [one_mul]
    exact key

/-- Printing keeps the order. -/
theorem C149_print_order {x y v w : K} (hxy : x ≤ y) (hv : printedValue (fixed4 (fin x)) = some v) (hw : printedValue (fixed4 (fin y)) = some w) :
    v ≤ w := by
  rw [fixed4_value] at hv hw
  injection hv with hv
  injection hw with hw
  subst hv hw
  have h10 : (0 : K) < 10 ^ 4 := by positivity
  refine div_le_div_of_nonneg_right ?_ h10.le
  have nn : ∀ z : K, (0 : K) ≤ ((rne (|z| * 10 ^ 4) : ℤ) : K) := fun z => by exact_mod_cast rne_nonneg (by positivity)
  split_ifs with h1 h2 h2
  · rw [abs_of_neg h1, abs_of_neg h2]
    have : ((rne (-y * 10 ^ 4) : ℤ) : K) ≤ ((rne (-x * 10 ^ 4) : ℤ) : K) := by
      exact_mod_cast rne_mono (mul_le_mul_of_nonneg_right (neg_le_neg hxy) h10.le)
    linarith
  · linarith [nn x, nn y]
  · linarith
  · rw [abs_of_nonneg (not_lt.1 h1), abs_of_nonneg (not_lt.1 h2), one_mul, one_mul]
    exact_mod_cast rne_mono (mul_le_mul_of_nonneg_right hxy h10.le)

/-- **Violated: a parameter can be read back from its line.** All values up to half of the fourth decimal are printed as zero. -/
theorem C149_print_small {x : K} (hx : |x| ≤ 1 / 20000) : printedValue (K := K) (fixed4 (fin x)) = some 0 := by
  rw [fixed4_value]
  have h10 : (0 : K) < 10 ^ 4 := by positivity
  have h1 : |x| * 10 ^ 4 ≤ 1 / 2 := by
    have := mul_le_mul_of_nonneg_right hx h10.le
    norm_num at this ⊢
    exact this
  have h2 : rne (|x| * 10 ^ 4) = 0 := by
    have hf : ⌊|x| * 10 ^ 4⌋ = 0 := by
      rw [Int.floor_eq_zero_iff]
      exact ⟨by positivity, lt_of_le_of_lt h1 (by norm_num)⟩
    unfold rne
    rw [hf, Int.cast_zero, sub_zero]
    rcases h1.lt_or_eq with h | h
    · rw [if_pos h]
    · rw [h, if_neg (lt_irrefl _), if_neg (lt_irrefl _), if_pos (by norm_num)]
  rw [h2]
  simp

/-- **C149, lines.** With one value per parameter the model is printed completely: one line per parameter, in order, with its own name. -/
theorem C149_print_lines (names : List String) (parameters : List (F K)) (hl : names.length = parameters.length) :
    (printModelParams names parameters).map Prod.snd = names ∧ (printModelParams names parameters).length = names.length ∧
    ∀ i (h : i < names.length), (printModelParams names parameters)[i]? = some (fixed4 (parameters[i]'(by omega)), names[i]) := by
  have hlen : (printModelParams names parameters).length = names.length := by simp [printModelParams, hl]
  refine ⟨?_, hlen, fun i h => ?_⟩
  · unfold printModelParams
    rw [List.map_map]
    have : (Prod.snd ∘ fun p : String × F K => (fixed4 p.2, p.1)) = Prod.fst := rfl
    rw [this, List.map_fst_zip (by omega)]
  · rw [List.getElem?_eq_getElem (by omega)]
    simp [printModelParams]

/-- **Violated: every line shows the value of the named parameter.** For a model with parameter sets (`n_models = 2`) the flat array holds two
values per parameter: the line of the second parameter shows the second value of the first, and half of the values are not printed. -/
theorem C149_print_sets (a b : String) (a1 a2 b1 b2 : F K) :
    printModelParams [a, b] [a1, a2, b1, b2] = [(fixed4 a1, a), (fixed4 a2, b)] := rfl

example : fixed4 (fin (-3.14159 : ℚ)) = .number true 3 1416 ∧ fixed4 (fin (1 / 20000 : ℚ)) = .number false 0 0 ∧
    fixed4 (fin (3 / 20000 : ℚ)) = .number false 0 2 := by
  decide +kernel

end

end Verif.Props

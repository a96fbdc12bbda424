import Verif.Base.Float

/-!
# Two-dimensional arrays
-/

namespace Verif

/-- A two-dimensional numpy array of shape `(h, w)`; `px row col` is meaningful for `row < h`, `col < w`. -/
structure Img (α : Type) where
  h : Nat
  w : Nat
  px : Nat → Nat → α

namespace Img
variable {α β : Type}

/-- Same shape and same pixels. -/
def Same (a b : Img α) : Prop := a.h = b.h ∧ a.w = b.w ∧ ∀ i j, i < a.h → j < a.w → a.px i j = b.px i j

/-- Elementwise function. -/
def map (f : α → β) (a : Img α) : Img β := ⟨a.h, a.w, fun i j => f (a.px i j)⟩

/-- Build a list of rows (for running examples). -/
def rows (a : Img α) : List (List α) := (List.range a.h).map fun i => (List.range a.w).map fun j => a.px i j

/-- The image with the given rows; `d` is used outside. -/
def ofRows (d : α) (l : List (List α)) : Img α :=
  ⟨l.length, (l.headD []).length, fun i j => (l.getD i []).getD j d⟩

theorem Same.refl (a : Img α) : a.Same a := ⟨rfl, rfl, fun _ _ _ _ => rfl⟩
theorem Same.symm {a b : Img α} (h : a.Same b) : b.Same a :=
  ⟨h.1.symm, h.2.1.symm, fun i j hi hj => (h.2.2 i j (h.1 ▸ hi) (h.2.1 ▸ hj)).symm⟩
theorem Same.trans {a b c : Img α} (h : a.Same b) (k : b.Same c) : a.Same c :=
  ⟨h.1.trans k.1, h.2.1.trans k.2.1, fun i j hi hj => (h.2.2 i j hi hj).trans (k.2.2 i j (h.1 ▸ hi) (h.2.1 ▸ hj))⟩

end Img
end Verif

import Mathlib.Data.List.Lex
import Mathlib.Data.Nat.Basic
import Mathlib.Order.Nat

/-!
# The natural order of strings, stated without the code
-/

namespace Verif.Spec

/-- The number written by a string of digits. -/
def decVal : List Char → Nat
  | [] => 0
  | c :: cs => (c.toNat - 48) * 10 ^ cs.length + decVal cs

/-- No digit occurs. -/
def Text (t : List Char) : Prop := ∀ c ∈ t, c.isDigit = false

/-- A number: at least one digit and nothing else. -/
def Digits (d : List Char) : Prop := d ≠ [] ∧ ∀ c ∈ d, c.isDigit = true

/-- A string cut into text, number, text, …, number, text, where only the first and the last text may be empty. -/
inductive Pieces : List (List Char) → Prop
  | last {t : List Char} : Text t → Pieces [t]
  | step {t d u : List Char} {rest : List (List Char)} :
      Text t → Digits d → (u = [] → rest = []) → Pieces (u :: rest) → Pieces (t :: d :: u :: rest)

/-- The key of a piece: the code points of the lower-cased text, or the one-element list with the number. -/
def pieceKey (p : List Char) : List Nat :=
  if p ≠ [] ∧ p.all Char.isDigit then [decVal p] else p.map fun c => c.toLower.toNat

/-- The key of a string cut into pieces; keys are compared lexicographically. -/
def natKey (ps : List (List Char)) : List (List Nat) := ps.map pieceKey

/-- `s` may not come after `t` in the natural order. -/
def NatLE (s t : List Char) : Prop :=
  ∀ ps qs, Pieces ps → ps.flatten = s → Pieces qs → qs.flatten = t → natKey ps ≤ natKey qs

/-- `s` and `t` have the same key. -/
def NatEq (s t : List Char) : Prop :=
  ∀ ps qs, Pieces ps → ps.flatten = s → Pieces qs → qs.flatten = t → natKey ps = natKey qs

end Verif.Spec

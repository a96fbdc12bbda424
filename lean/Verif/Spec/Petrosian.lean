import Verif.Base.Float

/-!
# Specification vocabulary for the Petrosian profile (independent of the model's helpers)
-/

namespace Verif.Spec

open F

variable {K : Type} [Field K] [LinearOrder K]

/-- Two consecutive areas are in order: comparable, not decreasing, and not the same infinity twice. -/
def InOrder (a b : F K) : Prop := F.le a b = true ∧ ¬ (a = b ∧ (a = pinf ∨ a = ninf))

/-- A curve of growth that `calculate_petrosian` must accept. -/
def Accepted (area flux : List (F K)) (areaErr fluxErr : Option (List (F K))) : Prop :=
  area.length = flux.length ∧ 3 ≤ area.length ∧
  (∀ i (h : i + 1 < area.length), InOrder area[i] area[i + 1]) ∧
  (∀ e, areaErr = some e → e.length = area.length) ∧ (∀ e, fluxErr = some e → e.length = flux.length)

/-- The Petrosian ratio at the second of two apertures: surface brightness of the ring between them over the mean surface brightness
of the larger one, with IEEE division. -/
def ratio (a0 f0 a1 f1 : K) : F K := (fin (f1 - f0) / fin (a1 - a0)) / (fin f1 / fin a1)

end Verif.Spec

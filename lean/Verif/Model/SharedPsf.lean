import Verif.Model.PSFModel
import Verif.Model.PSFChecks

/-!
# The PSF array is kept by reference

`PSFConvolvedModel2D.psf` keeps the array it is given (petrofit/modeling/models.py:257-263, `self._psf = psf`); the property returns that
array (models.py:252-255).  The memory has the arrays of the program by address; a wrapper has the address of its PSF, and `evaluate` reads
the array when it is called.  Simplifications: arrays are never freed, and an assignment to elements of an array is an assignment to the whole
array (of any shape).
-/

namespace Verif

variable {K : Type}

/-- A `PSFConvolvedModel2D` object: the address of `_psf` and all other attributes (the `psf` of `rest` is not used). -/
structure PsfObject (K : Type) where
  psfAt : Option Nat
  rest : PSFModel K

/-- The arrays and wrappers of a program by address, and the number of warnings of `psf` setters so far. -/
structure PsfMemory (K : Type) where
  arrays : List (Img K)
  objects : List (PsfObject K)
  warnings : Nat

/-- The statements of a program that concern PSF arrays. -/
inductive PsfOp (K : Type)
  /-- `a = np.array(...)` -/
  | array (im : Img K)
  /-- `a[...] = ...`, `a /= a.sum()`: the array at an address has other elements. -/
  | write (a : Nat) (im : Img K)
  /-- `PSFConvolvedModel2D(model, psf=a)` with the other attributes as in `rest`. -/
  | wrap (rest : PSFModel K) (a : Option Nat)
  /-- `m.psf = a` -/
  | assign (m : Nat) (a : Option Nat)
  /-- `m.copy()`, or the copy of the model that a fitter returns. -/
  | copy (m : Nat)
  /-- `m(x, y)`: the parameters are attributes of `m`; the cached grid may change. -/
  | evaluate (m : Nat) (rot : Img K → K → Img K) (coords : List (K × K)) (params : List K) (psfPa : K)

namespace PsfMemory

/-- The wrapper with the PSF that it has now: petrofit/modeling/models.py:252-255 (the `psf` property). -/
def view (s : PsfMemory K) (o : PsfObject K) : PSFModel K := { o.rest with psf := o.psfAt.bind (s.arrays[·]?) }

/-- The wrapper at an address as it is now. -/
def object (s : PsfMemory K) (m : Nat) : Option (PSFModel K) := s.objects[m]?.map s.view

/-- The array at an address. -/
def arrayAt (s : PsfMemory K) (a : Option Nat) : Option (Img K) := a.bind (s.arrays[·]?)

section
variable [Field K] [LinearOrder K] [IsStrictOrderedRing K] [FloorRing K]

/-- petrofit/modeling/models.py:259-262: the warnings of the `psf` setter (0 or 1). -/
def setterWarnings (psf : Option (Img K)) : Nat :=
  match psf with
  | none => 0
  | some im => if psfWarns (.fin (∑ i ∈ Finset.range im.h, ∑ j ∈ Finset.range im.w, im.px i j)) then 1 else 0

/-- petrofit/modeling/models.py:166-192 (`wrap`: line 182 sets `psf`, line 183 keeps the model), 257-263 (`assign`) and 353-538
(`evaluate`); `copy` is astropy's `Model.copy`, a `copy.deepcopy`: also what `fitter(model, ...)` returns (petrofit/modeling/fitting.py:31-110). -/
def step (s : PsfMemory K) : PsfOp K → PsfMemory K
  | .array im => { s with arrays := s.arrays ++ [im] }
  | .write a im => { s with arrays := s.arrays.set a im }
  | .wrap rest a => { s with objects := s.objects ++ [⟨a, rest⟩], warnings := s.warnings + setterWarnings (s.arrayAt a) }
  | .assign m a =>
    match s.objects[m]? with
    | none => s
    | some o => { s with objects := s.objects.set m { o with psfAt := a }, warnings := s.warnings + setterWarnings (s.arrayAt a) }
  | .copy m =>
    match s.objects[m]? with
    | none => s
    | some o =>
      match s.arrayAt o.psfAt with
      | none => { s with objects := s.objects ++ [⟨none, o.rest⟩] }
      | some im => { s with arrays := s.arrays ++ [im], objects := s.objects ++ [⟨some s.arrays.length, o.rest⟩] }
  | .evaluate m rot coords params pa =>
    match s.objects[m]? with
    | none => s
    | some o => { s with objects := s.objects.set m { o with rest := ((s.view o).evaluate rot coords params pa).2 } }

/-- A program: the statements one after the other. -/
def run (s : PsfMemory K) (ops : List (PsfOp K)) : PsfMemory K := ops.foldl step s

/-- `m(x, y)`: the values. -/
def values (s : PsfMemory K) (m : Nat) (rot : Img K → K → Img K) (coords : List (K × K)) (params : List K) (psfPa : K) :
    Option (Except PyErr (List K)) := (s.object m).map fun M => (M.evaluate rot coords params psfPa).1

end
end PsfMemory
end Verif

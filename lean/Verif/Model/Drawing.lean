import Verif.Base.Float
import Verif.Model.Rounding

/-!
# The small drawing and printing helpers: `plot_target`, `plot_apertures`, `plot_segments`, `print_model_params`
-/

set_option linter.unusedSectionVars false

namespace Verif

open F

/-- The limits of the axes. -/
structure Window (K : Type) where
  xlo : K
  xhi : K
  ylo : K
  yhi : K
deriving Repr, DecidableEq

/-- What `plot_target` puts on the axes: the marker, its size in points, and the limits. -/
structure TargetPlot (K : Type) where
  x : K
  y : K
  marker : K
  window : Window K
deriving Repr, DecidableEq

section
variable {K : Type} [Field K] [LinearOrder K]

/-- petrofit/utils.py:169-208 `plot_target` on an image of `h` rows and `w` columns: `size = max(image.shape)` unless given, a marker of size
`np.mean(image.shape) / 20 * marker_base_size`, and limits `size / 2` on both sides of the position. Colours are left out. -/
def plotTarget (h w : Nat) (x y : K) (size : Option K) (markerBase : K) : TargetPlot K :=
  let size := size.getD ((max h w : Nat) : K)
  ⟨x, y, ((h : K) + w) / 2 / 20 * markerBase, ⟨x - size / 2, x + size / 2, y - size / 2, y + size / 2⟩⟩

end

/-- One call to pyplot. -/
inductive DrawCmd (A : Type) where
  | image (vmin vmax : Option String) (cmap : String)
  | aperture (a : A) (color : String) (lw : String)
  | segments (seed : Nat) (alpha : String)
  | title (s : String)
  | xlabel (s : String)
  | ylabel (s : String)
deriving DecidableEq, Repr

/-- petrofit/photometry.py:15-45 `plot_apertures`. `apertures` is a list of photutils apertures or `None`, over which the `for` loop raises
TypeError (with the image already drawn, which the result does not show). The condition of the title, `image is not None or apertures is not
None or len(apertures) > 0`, is evaluated from the left. -/
def plotApertures {A : Type} (image : Bool) (apertures : Option (List A)) (vmin vmax : Option String) (color lw : String) :
    Except PyErr (List (DrawCmd A)) :=
  let start := if image then [DrawCmd.image vmin vmax "Greys_r"] else []
  match apertures with
  | none => .error .typeError
  | some l =>
    let outlines := l.map fun a => DrawCmd.aperture a color lw
    .ok (start ++ outlines ++ if image || apertures.isSome || decide (0 < l.length) then [DrawCmd.title "Apertures"] else [])

/-- petrofit/segmentation.py:37-53 `plot_segments`: the seed of the colours is drawn from numpy's global generator (`np.random.randint(1000000)`),
whose state is `s` and whose draws below `n` are `draw n`. Returns the calls and the new state. -/
def plotSegments {S : Type} (draw : Nat → S → Nat × S) (s : S) (image : Bool) (vmin vmax : Option String) (alpha : String)
    (title : Option String) : List (DrawCmd Unit) × S :=
  let (seed, s') := draw 1000000 s
  ((if image then [DrawCmd.image vmin vmax "gist_gray"] else []) ++ [DrawCmd.segments seed alpha] ++
    (match title with | some t => [DrawCmd.title t] | none => []) ++ [DrawCmd.xlabel "Pixels", DrawCmd.ylabel "Pixels"], s')

/-- A number printed with four decimals: sign, digits before and the four digits after the point (as a number below 10000). -/
inductive Printed where
  | number (neg : Bool) (whole frac : Nat)
  | text (s : String)
deriving DecidableEq, Repr

section
variable {K : Type} [Field K] [LinearOrder K] [FloorRing K]

/-- python's `'{:0.4f}'.format(x)`: the exact value rounded to four decimals, ties to even; the sign is kept (`-0.0000`, except that the sign of
a negative zero is not in the number model). -/
def fixed4 : F K → Printed
  | .nan => .text "nan"
  | .pinf => .text "inf"
  | .ninf => .text "-inf"
  | .fin x =>
    let n := (rne (|x| * 10 ^ 4)).toNat
    .number (decide (x < 0)) (n / 10 ^ 4) (n % 10 ^ 4)

/-- petrofit/modeling/fitting.py:324-327 `print_model_params`: the lines, `zip` of the names and the flat array `model.parameters`. -/
def printModelParams (names : List String) (parameters : List (F K)) : List (Printed × String) :=
  (names.zip parameters).map fun p => (fixed4 p.2, p.1)

end

end Verif

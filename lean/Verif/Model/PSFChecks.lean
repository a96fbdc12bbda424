import Verif.Model.PSFModel

/-!
# petrofit/modeling/models.py: the check of the PSF and its rotation by right angles
-/

namespace Verif

open F

variable {K : Type} [Field K] [LinearOrder K]

/-- petrofit/modeling/models.py:257-263: does setting a PSF with this sum warn (`np.round(psf.sum(), 6) != 1`)? -/
def psfWarns [FloorRing K] (sum : F K) : Bool := !((npRound6 sum).eqv (fin 1))

/-- petrofit/modeling/models.py:531: `scipy.ndimage.rotate(psf, 90, reshape=False)`.  The output keeps the shape, output pixel `(i, j)`
reads input pixel `(j + (h - w) / 2, (h + w) / 2 - 1 - i)`, and zero outside of the input.  For sizes of equal parity these are whole
pixels and the spline passes through the data. -/
def rotate90 (im : Img K) : Img K :=
  ⟨im.h, im.w, fun i j => im.zeroPad ((j : Int) + ((im.h : Int) - im.w) / 2) (((im.h : Int) + im.w) / 2 - 1 - i)⟩

/-- petrofit/modeling/models.py:531: `scipy.ndimage.rotate(psf, 180, reshape=False)`. -/
def rotate180 (im : Img K) : Img K := ⟨im.h, im.w, fun i j => im.zeroPad ((im.h : Int) - 1 - i) ((im.w : Int) - 1 - j)⟩

end Verif

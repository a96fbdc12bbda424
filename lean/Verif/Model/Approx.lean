import Mathlib.Analysis.SpecialFunctions.Exp

/-!
# petrofit/modeling/models.py: the approximations of `PetroApprox`

The decimal constants are the exact rationals written in the source.
-/

namespace Verif

noncomputable section

/-- `astropy.modeling.models.Polynomial1D` with coefficients `c0, c1, …`, evaluated by Horner's rule. -/
def polynomial1D (c : List ℝ) (x : ℝ) : ℝ := c.foldr (fun a acc => a + x * acc) 0

/-- `astropy.modeling.models.Exponential1D`. -/
def exponential1D (amplitude tau x : ℝ) : ℝ := amplitude * Real.exp (x / tau)

/-- petrofit/modeling/models.py:719-731 `PetroApprox.u2080_to_c2080`. -/
def u2080ToC2080 (u2080 : ℝ) : ℝ :=
  polynomial1D [2.26194802, -3.61130833, 3.8219758, -1.6414660, 0.38059409, -0.0450384, 0.00221922] u2080

/-- petrofit/modeling/models.py:733-745 `PetroApprox.c2080_to_n`. -/
def c2080ToN (c2080 : ℝ) : ℝ :=
  polynomial1D [-0.41844073, 0.20487513, 0.08626531, 0.0106707, -0.00082523, 0.00002486] c2080

/-- petrofit/modeling/models.py:747-759 `PetroApprox.n_to_epsilon`. -/
def nToEpsilon (n : ℝ) : ℝ :=
  polynomial1D [-6.54870813, -2.15040843, -0.28993623, -0.04099376, -0.00046837, -0.00022305] n +
    exponential1D 7.48787292 2.6876055 n

/-- petrofit/modeling/models.py:761-774 `PetroApprox.p0502_to_epsilon`. -/
def p0502ToEpsilon (p0502 : ℝ) : ℝ :=
  polynomial1D [1.09339566, -0.14524911, 0.50361697, -0.1215809, 0.02533795, -0.00196243, 0.00009081] p0502 +
    exponential1D 0.03312881 1.83616642 p0502

end

end Verif

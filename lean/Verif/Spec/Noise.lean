import Mathlib.Probability.Moments.Covariance
import Mathlib.Probability.Moments.Variance

/-!
# Specification vocabulary for noisy images

An image whose pixels are random variables.  Nothing here refers to the model of the code.
-/

namespace Verif.Spec

open MeasureTheory ProbabilityTheory

/-- The pixels of an `h × w` image are random with means `m` and standard deviations `σ`, and no two of them are correlated.  The law of
the noise is otherwise free. -/
structure PixelNoise {Ω : Type} [MeasurableSpace Ω] (μ : Measure Ω) (h w : Nat) (X : Nat → Nat → Ω → ℝ) (m σ : Nat → Nat → ℝ) :
    Prop where
  memLp : ∀ i j, i < h → j < w → MemLp (X i j) 2 μ
  mean : ∀ i j, i < h → j < w → ∫ ω, X i j ω ∂μ = m i j
  var : ∀ i j, i < h → j < w → Var[X i j; μ] = σ i j ^ 2
  uncorrelated : ∀ i j i' j', i < h → j < w → i' < h → j' < w → (i, j) ≠ (i', j') → cov[X i j, X i' j'; μ] = 0

/-- The pixels of an `h × w` image are random with means `m`. They may be correlated: `v` bounds, for each pixel, the sum of the sizes of its
covariances with all pixels, itself included. -/
structure CorrelatedNoise {Ω : Type} [MeasurableSpace Ω] (μ : Measure Ω) (h w : Nat) (X : Nat → Nat → Ω → ℝ) (m : Nat → Nat → ℝ) (v : ℝ) :
    Prop where
  memLp : ∀ i j, i < h → j < w → MemLp (X i j) 2 μ
  mean : ∀ i j, i < h → j < w → ∫ ω, X i j ω ∂μ = m i j
  cov : ∀ i j, i < h → j < w → ∑ p ∈ Finset.range h ×ˢ Finset.range w, |cov[X i j, X p.1 p.2; μ]| ≤ v

end Verif.Spec

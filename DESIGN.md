# DESIGN: a Lean 4 model of PetroFit

Source: `/repo` (PetroFit 0.6.0, python). Model and proofs: `/verif/lean/Verif`. Properties: `properties.jsonl`
(C01, C02, ...). Status per property: `MANIFEST.json`. Mutation log: `seeded/LOG.jsonl`.

## 1. How the model is built

* **Numbers.** A python/numpy float is modelled as `F K`: `nan`, `ninf`, `pinf` or `fin x` with `x : K`, where `K` is any
  linearly ordered field (`ℚ` when we want to run the model, `ℝ` when `sqrt`, `log`, `exp`, `Γ` occur).  All IEEE special cases
  (NaN comparisons are false, `0/0 = NaN`, `x/0 = ±inf`, `0*inf = NaN`, ...) are modelled.  **Not modelled:** overflow
  and underflow, and the sign of zero (a zero denominator is `+0`).  Arithmetic on finite values is exact except in C109–C116, where
  every operation is followed by a rounding function `fl` (`Model/Rounding.lean`): theorems hold for every monotone, odd, idempotent
  `fl` with relative error `u`, and `flBits 53` (binary64, ties to even, unbounded exponent) is proved to be one.
* **Arrays** are `List (F K)`; images are `Img α` (height, width, pixel function).  Every array is float unless a
  definition says otherwise; integer arrays are modelled where they change the result (`Model/PetrosianInt.lean`, C74; C75).
* **Exceptions** are values: `Except PyErr α`.  Branch order follows the source.
* **Mutation** (setters, caches, in-place list/array updates, shallow copies) is modelled by state-passing: an explicit heap of
  lists/arrays where aliasing is the property (C25, C31, C41, C48, C51), an explicit state machine for `PSFConvolvedModel2D`
  and `Petrosian`.
* **Libraries.** numpy functions used by the code are re-implemented (`NumPy.lean`).  Code that is not python source in `/repo`
  is a *parameter* with a stated contract; theorems quantify over every parameter that meets the contract, and a concrete instance
  meeting the contract is proved to exist beside it:
  - `scipy.interpolate.interp1d`: `Interp K` with `Interp.Lawful` (defined on `[min x, max x]`, ValueError outside and for too few
    points, NaN at NaN, reproduces nodes, homogeneous in y, scale-equivariant in x).  `linear`
    and `cubic` (not-a-knot spline: existence, uniqueness) are implemented and proved lawful, `nearest` is implemented.
  - `photutils` overlap fractions: `center` and `subpixel` implemented, `exact` as a Lebesgue measure; the photometry model takes
    any overlap function with values in [0,1] that is monotone in the aperture.
  - `gammaincinv`, `gammainc`, `gamma`: defined over ℝ from Mathlib's `Real.Gamma` and the lower incomplete gamma integral.
  - astropy `match_to_catalog_sky`: nearest unit vector by a k-d tree (parameter, contract `NearestTree`) and the Vincenty separation.
  - `detect_sources`, `deblend_sources`, `SourceCatalog`, least-squares optimisers, `rotate`, WCS, file I/O, matplotlib: opaque.

## 2. Layout

| directory | content |
|---|---|
| `Verif/Base` | floats with NaN/inf, numpy primitives, images |
| `Verif/Model` | the model, one file per python file/class, each definition citing file and lines |
| `Verif/Spec` | small independent specifications used in theorem statements |
| `Verif/Lemmas` | helper lemmas |
| `Verif/Props` | the property theorems, each followed by non-vacuity examples |

## 3. Plan per property

| id | model | proof |
|---|---|---|
| C01 | `calculate_petrosian` incl. `np.unique(return_inverse)` re-indexing | list extensionality; inverse of a strictly increasing list is the identity |
| C02 | same, assertions as error values | case analysis |
| C03 | same | IEEE scale lemmas on `F K` |
| C04 | same | false in general: witness; `_partial` for plateaus at the end |
| C05 | same | field inequalities |
| C06 | same with error branch over ℝ | algebra with sqrt |
| C07 | `closest_value_index` with numpy's NaN-aware argmin | induction on the list |
| C08–C11 | `calculate_petrosian_r` over any lawful interpolator | from C07; C11 false in general: witness; non-negative under falling upper band (discrete, linear, any interpolator: `Props/RadiusErrorLinear.lean`); false for cubic interpolation even when all bands fall at the data (`Props/RadiusErrorCubic.lean`) |
| C12–C14 | `fraction_to_r`, `calculate_concentration_index` | from C07 |
| C15, C16 | `Petrosian` queries | equivariance of every stage |
| C17, C18 | same, exceptions | false: witnesses + partial with the exact guard |
| C19–C23 | `Petrosian` properties | C21–C23 false: witnesses, partial |
| C24 | `Petrosian` as state machine | induction over op list |
| C25, C31 | heap model of arrays/objects | frame lemmas |
| C26–C30 | `PetrosianCorrection` over a table model | argmin lemma; witnesses for degenerate/NaN/`c_r_eff` |
| C32 | `generate_petrosian_sersic_correction`, completion order as a permutation | sorting a permutation of indexed results |
| C33 | `r_list` construction | integer arithmetic |
| C34–C40 | `utils.py` | algebra / lists; natural_sort via parity of the key |
| C41 | `cutout_subtract` with heap | slice arithmetic; aliasing claim false: witness |
| C42–C46 | `photometry.py` over overlap functions (`Model/Overlap.lean`: exact as Lebesgue measure, subpixel, center) | sums over pixels, monotone rounding; C44 false for NaN error maps |
| C47–C52 | `segmentation.py` with a memory model (`Model/Heap.lean`) | pixelwise; C47, C48, C50 false in corner cases: witnesses and exact statements |
| C53–C59 | `PSFConvolvedModel2D`: grid, cache, setters, window, convolution (`Model/PSFModel.lean`) | invariants by induction over histories; C56–C58 false in general: witnesses + partial |
| C60, C61 | `model_to_image`, `_validate_image_size`, astropy's `discretize_model` | arithmetic of ranges; iff over all size arguments |
| C62, C63 | `fit_model`, `fit_background`, `sigma_clip` | lists of kept pixels; least squares planes are unique on non-collinear pixels; clipping breaks equivariance: witness |
| C64–C67 | Sérsic enclosed flux, inverse, ideal Petrosian profile over ℝ (`Model/Profiles.lean`) | incomplete gamma as an integral; existence and uniqueness of `gammaincinv`; calculus |
| C68–C71 | `GenSersic2D`, `Nuker2D`, `CoreSersic2D`, amplitude conversions | algebra of real powers; C69, C70 false: witnesses |
| C72, C73 | mutable default dictionaries; `PSFConvolvedModel2D` parameter wrapper (`Model/Wrapper.lean`) | heap of dictionaries; histories |
| C74 | `calculate_petrosian` on integer arrays | truncation toward zero is an independent spec; witness |
| C75 | `pixel_to_angular` etc. on integer arrays | witness |
| C76 | aperture photometry of a pixel image with exact overlap | the weighted sum is the Lebesgue integral of the step image over the ellipse; area of an ellipse |
| C77, C85–C87 | evaluation at arbitrary coordinates, linearity, translation, frame dependence | formula for arbitrary coordinate extremes (`evaluate_int_any`) |
| C78 | `fit_gaussian2d`, `measure_fwhm`, astropy `Gaussian2D` | value along the rotated axes; the FWHM is characterised by an iff over all points; `C78_start`: the start and the data of the fit |
| C79 | `PetroApprox` polynomials and exponentials | derivative bounded below by a polynomial with positive Bernstein/Taylor coefficients |
| C80 | `plot_fit` (images it returns) | C60 |
| C81 | `Petrosian.plot`, `plot_cog`, `imshow` as lists of things drawn | case analysis; two failure modes proved |
| C82–C84 | measurements of an ideal galaxy (continuous profile) with finer and finer radii | monotone bracketing between nodes, convergence of r_petrosian, fraction radii, fluxes |
| C88 | `correct` applied to its own result | the second lookup reads `r_50` and `C2080` for the changed epsilon; NaN triple, then C29 |
| C89 | `unique_grid_values`, `filter_grid` | `np.unique` model is sorted and complete (`uniqueIndex_spec`); partition by permutation |
| C90 | `read`, `write` with a file store | reduction to C28 |
| C91 | `r_half_light_arcsec`, `r_total_flux_arcsec` | with the pixel scale model of C38 |
| C92 | `_plot_grid`, `plot_correction` | same argmin as `_closest_row` |
| C93 | `make_segments`, `deblend_segments`, `make_catalog` over a photutils contract (`Spec.SegLaw`) | case analysis |
| C94 | `plot_segment_residual` in the array memory model | execution of the model |
| C95, C96 | `get_source_*`, `get_amplitude_at_r` | algebra; case analysis |
| C97 | `interp1d(kind='cubic')` as the not-a-knot spline | linear system for the second derivatives, uniqueness by sign propagation; concrete overshoot |
| C98 | `total_flux_err` with `interp1d(kind='nearest')` | `nearest_spec` |
| C99, C100 | `generate_petrosian_sersic_correction` with files, `n_cpu` and a scheduler | case analysis; `pool_eq_serial`; `C99_defaults` characterises the default lists, `C100_negative` covers `n_cpu` below zero |
| C103, C104 | `r_epsilon`, `r_epsilon_in_range`; two parametrisations of `fraction_to_r` | last sample is the last node; concrete witness |
| C105–C107 | `_generate_petrosian_correction` from Sersic numbers to image and photometry (`Model/Simulation.lean`) | C64–C66, C60 and the exact overlap of C42–C46; C107 false at the largest radius: measure of the overhanging part |
| C108 | grid row of a simulation and the correction of its own profile | nearest row (C26/C27) with a unique triple; concrete two-row grid |
| C117, C118 | `simRow` cell by cell, by column name | read-off; concrete curve of growth for the 80 % columns |
| C119 | whole of `evaluate` with PSF, `psf_oversample` and windows | block means of grid samples are cell means; convolution sums with zero padding |
| C120–C122 | `psf` setter check, right-angle rotations, moments of the convolution | rounding lemma; sum reindexing; shift of weighted sums |
| C123 | `makeRadiusListR`, one rounding per operation | relative error bounds; gaps of size m/n beat the errors when 4nu ≤ 1 |
| C124 | `drR`, `closestRowR`: every operation of `_dr` rounded, `np.std` results arbitrary positive | 'within k roundings' calculus, 11 roundings in the squared distance |
| C125, C126 | `radialPhotometry` with the three overlap methods over ℝ | measure-preserving maps for the exact weights, bijections of subpixels; sums over permuted pixels |
| C127 | `sourcePhotometry` (memory model) against `radialPhotometry` on the whole image | counting pixels of cutout and image correspond |
| C128 | `fitBackground` with fitters that skip or ignore the mask | equality of the data handed over; 12-pixel witness |
| C129 | `radialPhotometry` of a finite image multiplied by a constant, `calculatePetrosian` | the flux is the rounded linear sum; small sums round to 0; 0/0 is NaN; 5×5 witness |
| C130 | the array attributes of a `Petrosian` object as references into the heap of C24/C25 | simulation relation kept under every write; witness by evaluation |
| C131 | `sourcePhotometry` with a least-squares plane fit, against `radialPhotometry` on the whole image without the plane | uniqueness of the least-squares plane (C63), then C127's correspondence of pixels |
| C132 | `sourcePhotometry` with `sigma_type='bound'` against the documented cut | equality of the fitted pixels when the deviation is 1; 4×5 witnesses |
| C133 | `simulate` (`_generate_petrosian_correction`) as a whole | composition of C105, C106, C33 and C117; photometry of finite images |
| C134 | `genSersic2D`, `sersicEnclosed` | change of variables to the unit disc and polar coordinates; for boxy isophotes the distribution of a homogeneous function (`Lemmas/Homogeneous.lean`) |
| C135 | `radialPhotometry` with exact overlaps, `simImage`, `simPhotometry` | C76 (photometry is integration of the step image), distance of step image and profile; mean value theorem for the Sersic profile |
| C136 | `radialPhotometry`, `calculatePetrosian`, `calculatePetrosianR`, `Petrosian.init` on a sampled galaxy | stability of the first crossing under errors of the profile (`Props/RobustRadius.lean`), mean of the light on a ring from C76 and uniform continuity (`Lemmas/RingPhotometry.lean`), both combined in `Props/ImageConvergence.lean` |
| C137 | the same and `fractionToR` | stability of the first sample past a flux, accuracy of the fluxes at high resolution |
| C138 | `simulate` from pixels to row, for growing `r_eff` | one galaxy seen at growing resolution (`Lemmas/SimulationLists.lean`), C136/C137 stability, stability of the radius of a flux (`Lemmas/FluxRadius.lean`), tail bounds of the incomplete gamma function for the reach of the apertures (`Lemmas/GammaTail.lean`); for the cubic spline: accuracy near the centre, away from it and at the edge of the image (`Lemmas/SimulationEntries.lean`), overshoot bounds on the uneven radii (`Lemmas/TameCalm.lean`) |
| C139 | the same, columns `sersic_r_*` and `c_r_*` | limits of the columns compared |
| C140 | `fit_background`, `sigma_clip` | medians, variances and clipping bounds under `a v + b` (`Lemmas/SigmaClip.lean`), uniqueness of least-squares planes |
| C141 | the same | median within one standard deviation of the mean, so one round clips at most `2/sigma²` of the values; majority lemma for the median |
| C142 | `cubicInterp` (`NotAKnot`) | jumps of the slopes at the knots obey a diagonally dominant recursion, whose solution decays geometrically (`Lemmas/SplineBound.lean`); `Spec/Tame.lean` states what is wanted of an interpolant |
| C143 | `makeRadiusList`, `radialPhotometry`, `Petrosian.init`, `rPetrosian`, `fractionFluxToR`, `cubicInterp` | C136 and C137 with interpolants that overshoot (`Gentle`): the Petrosian ratio with value 1 at the centre is uniformly continuous, so neighbouring entries of the measured profile are close and the spline stays close to them (`Props/CubicRadius.lean`) |
| C144 | as C143, and `rTotalFlux`, `totalFlux`, `concentrationIndex` | the interpolated curve of growth is uniformly close to the true one (`C144_curve`, for every `Gentle` interpolation), then continuity of the enclosed light and of the logarithm |
| C145 | `plotLimits` (`nanStd`, python's `max`), `drawPanel` | standard deviations under `a v + b`; Chebyshev's inequality over the pixels |
| C146 | `matchCatalogs` (`skyCoords`, unit vectors, k-d tree as parameter, Vincenty separation) | `Spec/Catalogs.lean` states the angle with `InnerProductGeometry.angle`; Vincenty = arccos of the inner product by quadrants, chord is monotone in the angle |
| C147 | `radial_photometry` with a rounding after every operation and numpy's `pairwise_sum` (`Model/RoundingPhotometry.lean`) | two runs of `pairwise_sum` on related arrays are related (`pairwiseSum_graded`): against the exact sum this gives the error bound, against itself monotonicity, against whole numbers exactness |
| C148 | the rounded photometry of C147, the rounded profile of C112 and the rounded radii of C109 and C110 in a row | error budget: pixels (C136), sums and areas (C147), five roundings per entry (C112), spline overshoot (`GentleR`), gaps of the rounded grid (`gridR_gap`), then a crossing lemma for the grid search (`crossingR`); attained with `flBits p`, dyadic radii and the exact cubic spline rounded at the end |
| C149 | the pyplot calls of `plot_target`, `plot_apertures` and `plot_segments` as lists, the state of the global random generator, `'{:0.4f}'` as exact rounding to four decimals (`Model/Drawing.lean`) | by unfolding; bounds of the rounding to the nearest integer |
| C150 | nothing new: `radialPhotometry` and `calculatePetrosian` applied to an image of random variables (`Spec/Noise.lean`: square integrable, uncorrelated, otherwise any law) | covariance of weighted sums of uncorrelated pixels; weights in [0, 1] and nested; Chebyshev's inequality; derivative of the ratio; independent Gaussian pixels as the case that meets the hypotheses |
| C151 | nothing new: the calls of the documented recipe on an image of random variables | the stability theorems behind C148 (with exact arithmetic) need only that the aperture sums, not the pixels, are near those of the galaxy; Chebyshev's inequality for each aperture with the variance bound of C150 and the area of the aperture, union bound over the apertures |
| C152 | nothing new: `fitBackground` applied to an image of random variables | the reproducing kernel of planes on the used pixels (Gram–Schmidt), normal equations of the least-squares plane; covariances of weighted sums; Gauss–Markov; Markov's inequality |
| C153 | nothing new: `fitModel` with `sersic2D`; the fitter is a function that returns a global least-squares solution (`Spec/SersicFit.lean`) | two power laws that differ by the same amount at three points are equal (Rolle); a quadratic form determines its axes and angle |
| C154 | nothing new: `PSFModel.evaluate` over the reals; the light on a pixel is the iterated integral (`Lemmas/Midpoint.lean`) | midpoint rule from second differences in one and two dimensions, uniform continuity on the pixel; dominated convergence for the small galaxies; windows (`Props/OversamplingWindow.lean`) from C57 and C119 |
| C155 | axes as lists of commands and the current axes of matplotlib (`Model/Canvas.lean`) | effect of a command on every axes |
| C156 | `radialPhotometry` with the three photutils methods for two apertures of different shape | weights are monotone in the set of points and the overlap test in the bounding box; `Inside`/`SameRegion` of ellipses from the quadratic form; rounding to six digits is monotone |
| C157 | `Model/RoundingUtils.lean`: the conversions of utils.py with every operation rounded | relative errors compose (`Near` of products, quotients, roots, roundings); `q - 1` is exact for binary numbers in [1, 2^p]; counterexamples evaluated in 53-bit arithmetic |
| C158 | `Model/RoundingModel.lean`: `np.arange`, `make_grid`, the pixel indices of `evaluate` and `model_to_image` with every operation on coordinates rounded | exactness on multiples of 1/(2H) carried through every step; error bounds per coordinate, `floor` of a number within 0.3 of `k` is `k` or `k - 1`; counterexamples evaluated in 53-bit arithmetic |
| C159 | `convolveSame`, `radialPhotometry`, `modelToImage` of wrapped models | a convolution is a weighted sum of shifted images; a shifted aperture lies in the aperture larger by the reach of the PSF (triangle inequality of the elliptical norm), and weights are monotone; the model image is unfolded on a square grid |
| C160 | `simulate` with PSF, oversampling and windows | `usable_blurs` (`Lemmas/BlurredSimulation.lean`): pixels of the wrapped model lie between values of the profile nearby; the chain of C138 needs only that; C138 for both settings |
| C161 | `makeRadiusList`, `radialPhotometry`, `Petrosian` on averaged pixels; `modelToImage` of wrapped models | `Blurred` images (`Props/ImageConvergence.lean`); integrals against the averages are squeezed by the profile; the stability theorems of C136, C137, C144 |
| C162, C163 | `makeRadiusList`, `radialPhotometry`, `Petrosian` on random images with means through a PSF | `CorrelatedNoise` (`Spec/Noise.lean`); Chebyshev for weighted sums; `HoldsNear` statements about single images (`Props/NoisyImage.lean`, `Props/NoisyFluxes.lean`) turned into probabilities by `noise_event`; `gentle_curve` for the flux at a radius |
| C164 | `fitBackground` without clipping, `modelToImage`, then the recipe | `WellSpread` sky pixels (`Props/NoisySky.lean`); kernel of the least squares fit (C152) bounded by the spread; noise of linearly processed images; `noise_event` |
| C165 | `fitModel` with a best fitter, data with noise | `fitDist`, `SersicP.Recovers` (`Props/FitNoise.lean`); triangle inequality for the minimum; compactness of the parameters that almost reproduce the image (`bn_continuousAt`, `sersic_box`); uniqueness of C153; Markov inequality |
| C166 | `fitModel` with a best fitter, all parameters free, ever finer images with noise | `zoomed`, `unfitted`, `SersicP.SceneBounds`, `SersicP.RecoversAll` (`Props/FitResolution.lean`); compactness induction for separation and for the uniform law of large numbers; Chebyshev and Markov inequalities; `sersic_scene_unique` |
| C167 | `fitModel` with `PSFModel.evaluate` as the model, ever finer noisy images seen through another PSF | `dataCoords`, `valuesChi2`, `BestValuesFitter`, `NearValuesFitter` (`Props/FitPSF.lean`), `Kernel`, `PSFSetting`; `Props/PSFBlur.lean` (values lie near the model values nearby), `psf_close` (mean-square closeness at a rate that is uniform in the parameters), `approximate_family`, then C166 |
| C168 | the same with an oversampling window around the fitted centre | `FrameUsed`, `NearValuesFitter`, `WindowSetting` (`Props/FitPSFWindow.lean`); `C57_window_partial`, `C119_window_partial` give the values, `blurred_sersic` (shared with C167) the limit |
| C169 | consistency of fits of several galaxies and the sky at once | `compound`, `constSub`, `galaxiesSub` (`Model/Compound.lean`); `galaxiesAt`, `GalaxyBounds` (`Props/FitMulti.lean`). Galaxies are told apart by the cusps at their centres: along a line through one, the profiles with other centres are analytic, and cusps `exp(-c|t|^p)` with different `c`, `p` are independent modulo analytic functions (`cusps_independent`, `Lemmas/CuspSum.lean`) |
| C170 | names of the parameters of a sum of models | `ValuesOf` (`Props/CompoundNames.lean`); the number after the last underscore is read back from the name |
| C171 | the same with an oversampling window around one of the galaxies | `Props/FitMultiWindow.lean`; C170 finds the centre, `window_values` (shared with C168) the values, `blurred_galaxies` (shared with C169) the limit |
| C172 | small errors of data and values give small errors of the fit | `Props/FitRobust.lean`; `approximate_robust` chooses the tolerance before the data, the values and the fitter; rounding enters through `ComputedUpTo` |
| C173 | fluxes and radii of fitted parameters are consistent | `Props/FitDerived.lean`; `Lemmas/ShapeContinuous.lean` has the joint continuity of the incomplete gamma function and its inverse |
| C174 | overlapping bounds: galaxies recovered in some order | `Props/FitShapes.lean`, `Props/FitUnordered.lean`; galaxies that share a cusp but not the shape differ in their series along a suitable direction, so the light of each shape is determined (`shapes_determined`); there are only as many fitted galaxies as true ones, so the assignment is a permutation |
| C175 | more fitted galaxies than true ones | `Props/FitExtra.lean`; `shapes_determined` with two different numbers of galaxies: the amplitudes of one shape add up to the true one, and to zero if no true galaxy has the shape |
| C176 | the fitter object returned by `fit_model`, and its options | `Model/FitObjects.lean`, `Props/FitObjects.lean`; classes and instances are different objects, and only instances have `fit_info`; refinement to `fitModel` |
| C177 | images of integers | `Model/IntImages.lean`, `Props/IntImages.lean`; numpy keeps the dtype on assignment and in-place arithmetic: conversion of fill values, wrap-around |
| C178 | undefined values of wrapped models | `Model/NaNImages.lean`, `Props/NaNImages.lean`, `Props/NaNWindow.lean` (oversampling windows); `evaluate` with NaN as `none`, the method of `scipy.signal.convolve` is an arbitrary function of the shapes; refinement to `PSFModel.evaluate` |
| C179 | tied parameters of wrapped models | `Model/Tied.lean`, `Props/Tied.lean`; ties are functions of the values by name; astropy's mapping between optimizer vectors and parameters is modelled |
| C180 | `evaluate` in floating point | `Model/RoundingEvaluate.lean`, `Props/FloatImages.lean`, `Props/FloatFits.lean`, `Props/FloatBits.lean`; errors are followed through the grid, the samples, the window, the convolution and the block means (`NearImg`); the fits are C172 with these errors |
| C181 | the PSF array is shared | `Model/SharedPsf.lean` (memory with arrays and wrappers by address, `step`), `Props/SharedPsf.lean`; invariants over programs, `evaluate` of C57 for the cached grid |
| C182 | the wrapped model is shared | `Model/Tied.lean`, `Props/SharedModel.lean`; the property `model` overwrites values and flags by name for every parameter, never ties |
| C183 | `psf_pa` | `Model/Rotate.lean`, `Props/PsfAngle.lean`; values depend on the angle only through the turned PSF (`evaluate_kernel`); the jump is read off a point source (C119) |
| C184 | continuity in the parameters | `Props/ParamContinuity.lean`; finite sums of C119 and C57; the jump from the exact values on both sides of a pixel edge |
| C185 | steps of the curve of growth | `Props/GrowthSteps.lean`; weighted sums between bounds; continuity by dominated convergence, since the edge of an ellipse has no area; the jump from the pixel at the edge |
| C186 | profiles at most 1 | `Props/FainterOutwards.lean`; mean over an ellipse = mean over the unit ellipse of the scaled image (change of variables), pointwise decreasing; pixel indices move away from the centre along rays; for center a threshold at the edge |
| C187 | refined curves of growth | `Props/Refinement.lean`, `Props/OuterApertures.lean`; entries are local by the formula of C01, linear interpolation is local and falling, `mapM` over a concatenation, secants of a concave flux curve for finer radii |
| C188 | photometry that ends inside of the Petrosian radius | `Props/OutsidePhotometry.lean`; the entries are at least the true ratios (C82), samples lie between entries; witness with the galaxy 1/(1 + r²)² whose entries are exactly 1/(1 + r²) at the previous aperture |
| C101, C102 | errors of `fraction_to_r`, `Petrosian.__init__` | read-off of sampled curves (`radiusAt_readOff`) |
| C109–C114 | profile, sampling and radius search in rounded arithmetic (`Model/Rounding.lean`) | monotonicity of rounding, relative error bounds; binary64 witnesses by evaluation |
| C115 | `_plot_radii`, legend percentages, axis labels | error bounds, evaluation of all 101 percentages in binary64 |
| C116 | concentration index in rounded arithmetic | monotone rounding, `fl 1 = 1` |

No property is considered inexpressible; runtime-only aspects (process pools, files) are named in MANIFEST notes.

## 4. Properties the code violates

Each has a proved counterexample or a proved general failure (theorem names contain `violated` or `counterexample`), and a `_partial`
theorem saying what does hold.

| id | what goes wrong |
|---|---|
| C04 | repeated areas: `np.unique(return_inverse)` re-indexing shifts later entries of the profile |
| C11, C81 | negative `r_petrosian_err` for non-monotonic profiles, and with the default cubic interpolation for falling profiles with falling error bands; `plot` then raises ValueError |
| C17, C18 | queries raise ValueError on accepted data (three points with cubic; radii outside the interpolation range once errors are given) |
| C21 | `total_flux_err` adds a radius error to a flux error |
| C22 | `half_flux_err` always raises AttributeError |
| C23 | `interp_kind=None`: `total_flux`, `half_flux` raise NotImplementedError |
| C29, C30 | NaN measurement gets the first grid row; `epsilon_fraction=0.5` raises KeyError |
| C36 | `natural_sort` raises for digit runs above 4300 digits |
| C38 | anisotropic pixel scales accepted within `allclose` |
| C41 | `cutout_subtract` modifies the caller's image, ignores 1×1 targets |
| C44 | NaN error maps |
| C47, C48 | empty label list returns None; the caller's list grows |
| C50 | default cutout too small for largest radius in (1/2, 2/3] |
| C56–C58 | `oversample=None` with PSF oversampling; window placed by index; window crossing the border raises |
| C63 | sigma clipping is not equivariant |
| C69, C70 | break radius of `Nuker2D` off by √2, of `CoreSersic2D` by r_eff |
| C74, C75 | integer arrays: truncation, ValueError |
| C77, C87 | coordinates snapped to whole pixels; result depends on the other evaluated pixels |
| C78 | `measure_fwhm` always raises with `plot=True`; ignores `theta` |
| C79 | approximations decrease / negative near zero |
| C81 | `plot_cog` raises TypeError with area errors only |
| C88 | `correct` uses the current epsilon; correcting twice can raise AssertionError |
| C89 | rows with NaN in a column are found by no filter value |
| C90 | `enforce_range=False` is lost by `write`/`read` |
| C93 | `make_catalog` raises on an image without sources |
| C97 | default interpolation overshoots: `total_flux` above the largest measured flux |
| C187 | with interpolation `r_petrosian` moves when an aperture far outside is added, because the samples do |
| C188 | the default cubic interpolation reports a Petrosian radius although no entry of the profile reaches `eta` and the true radius is outside of all apertures |
| C99 | an existing output file keeps the old grid although the call returns normally |
| C107 | the largest aperture of every grid simulation overhangs the simulated image |
| C104 | the error of `r_petrosian` is used for `r_epsilon` without the factor `epsilon` |
| C118 | `c_epsilon_80` of the grid aims at 79.2 % of the light, `c_r_80` at 80 % |
| C121 | `psf_pa=90` cuts a non-square PSF: half of the light of a 1×3 PSF is lost, no warning; angles that are not multiples of 90° cut the corners of every PSF, and a flat 2×2 PSF disappears (`Model/Rotate.lean`, `Props/Rotate.lean`) |
| C122 | PSFs of even size shift the model by half a PSF pixel |
| C113, C114 | in double precision the profile changes with the flux unit (factor 3) and a larger flux fraction can have a smaller radius |
| C115 | the legend shows 28 for `total_flux_fraction=0.29`; no x label without a unit |
| C100 | `n_cpu=True` is serial; empty lists work serially and raise in parallel |
| C123 | in doubles `make_radius_list(10.7, 3)` does not end at 10.7 but one unit in the last place beside it |
| C128 | `fit_background(sigma=3, fitter=TRFLSQFitter)` fits the clipped pixels too |
| C129 | an image in a unit such as Jy or erg/s/cm²/Hz: `radial_photometry` rounds fluxes to six decimals, so all fluxes become 0 and the Petrosian profile NaN |
| C130 | `p.flux_list[2] = 20` changes `p.total_flux` but not `p.r_petrosian`; `p.area_list[2] = 20` changes nothing |
| C132 | `sigma_type='bound'` cuts at `sigma` standard deviations although documented as a value, and lifts source pixels below `-sigma` |
| C139 | `sersic_r_20`, `sersic_r_80` of the grid hold 19.8 % and 79.2 % of the light, `c_r_20`, `c_r_80` hold 20 % and 80 % |
| C141 | `sigma_clip` stops after 5 rounds: sources of six strengths leave the weakest one in the background fit |
| C145 | `plot_fit` scales around zero, not around the mean: a constant background puts every data pixel off scale; a `vmin` above 3σ or a negative `vmax` alone cannot be drawn |
| C147 | in binary64 the reported area of a larger aperture can be smaller by a millionth, and the curve of growth is then rejected |
| C149 | default window of `plot_target`; `plot_apertures(image, None)`; title of an empty plot; `plot_segments` advances the global random generator; small values and parameter sets in `print_model_params` |
| C150 | ring errors ignore the shared pixels (too large by any factor); profile errors too small when a ring has negative flux |
| C152 | with the default sigma clipping the fitted background plane is biased under mean-zero noise |
| C153 | inside the default bounds the fitted angle is not determined by the image (theta and theta + pi are both allowed) |
| C155 | `plot(ax=...)` and `plot_cog(ax=...)` set the ticks of the current axes instead of the axes given |
| C157 | from elongations of about 2^53 on, `elong_to_ellip` is not monotone and the way back raises ZeroDivisionError |
| C158 | with a fractional centre `model_to_image` can raise ValueError (size 3, centre 2.1) or repeat a row and a column of a wrapped model (size 3, centre 1.3) |

## 5. Mutation testing

Definitions of the model are edited one at a time in a scratch copy, the modules that contain the theorems of the affected claims (and
what they import) are rebuilt with `sorry` substituted for broken declarations, and the theorems that stop checking are recorded in
`seeded/LOG.jsonl`.  Survivors whose claim is really broken led to tightened statements (field `tightened`).

## 6. Trusted base

Lean 4.33.0 kernel; axioms `propext`, `Classical.choice`, `Quot.sound` only (checked with `#print axioms`); Mathlib; the reading of the
source and of numpy/scipy/astropy/photutils/matplotlib semantics recorded in the comments; exact instead of rounded arithmetic except in
C109–C116, C123, C124 (there: unbounded exponent range).

{"id": "C01", "title": "Petrosian profile is the surface-brightness ratio at every aperture", "statement": "For strictly increasing aperture areas (at least three) and fluxes of the same length, calculate_petrosian returns an array as long as the input whose first entry is NaN and whose i-th entry (i>=1) is ((F[i]-F[i-1])/(A[i]-A[i-1])) / (F[i]/A[i]) evaluated with IEEE division.", "quantifier": "all array lengths >= 3, all strictly increasing finite areas, all finite fluxes (including zero and negative)", "why_tests_cant": "the claim is about every array length and every value, including zero fluxes where IEEE division gives inf/NaN", "anchors": ["petrofit/petrosian/core.py::calculate_petrosian"]}
{"id": "C02", "title": "Invalid curve-of-growth input is always rejected, valid input never is", "statement": "calculate_petrosian raises AssertionError exactly when the two arrays differ in length, have fewer than three points, or the areas are not non-decreasing (a NaN area counts as not non-decreasing) or a supplied error array has the wrong length; otherwise it returns a result and raises nothing.", "quantifier": "all pairs of float arrays of any lengths with NaN/inf entries allowed, all optional error arrays", "why_tests_cant": "an if-and-only-if over all arrays; tests try two bad inputs", "anchors": ["petrofit/petrosian/core.py::calculate_petrosian"]}
{"id": "C03", "title": "Petrosian profile does not depend on flux or area units", "statement": "Multiplying every flux by the same positive constant (or by the same non-zero constant when no flux is zero), or every area by the same positive constant, leaves the array returned by calculate_petrosian unchanged entry by entry.", "quantifier": "all accepted inputs, all non-zero (resp. positive) scale factors", "why_tests_cant": "unit independence is a relation between infinitely many pairs of runs", "anchors": ["petrofit/petrosian/core.py::calculate_petrosian"]}
{"id": "C04", "title": "Repeated aperture areas do not corrupt other entries of the Petrosian profile", "statement": "If some consecutive apertures have the same area (a documented, accepted input), every aperture whose area did grow relative to its predecessor still gets the formula value of its own position.", "quantifier": "all accepted inputs with non-decreasing areas containing repeats anywhere", "why_tests_cant": "depends on where the repeats are; no test has repeated areas", "anchors": ["petrofit/petrosian/core.py::calculate_petrosian"]}
{"id": "C05", "title": "Petrosian profile bounds", "statement": "For positive fluxes and positive, strictly increasing areas: a non-decreasing curve of growth gives only entries >= 0; if the mean surface brightness F/A is non-increasing all entries are <= 1; a uniform source (F = c*A, c != 0) gives exactly 1 in every entry after the first.", "quantifier": "all curves of growth with the stated shape, any length", "why_tests_cant": "inequalities over all real-valued arrays", "anchors": ["petrofit/petrosian/core.py::calculate_petrosian"]}
{"id": "C06", "title": "Petrosian profile errors are first-order quadrature errors", "statement": "The second result of calculate_petrosian is None exactly when both error arrays are None; otherwise it has the input length, starts with NaN, a missing error array behaves exactly like an array of zeros, and (strictly increasing areas, non-zero fluxes and flux steps) entry i equals |eta_i| * sqrt((dF_err/dF)^2 + (dA_err/dA)^2 + (F_err/F)^2 + (A_err/A)^2) and is >= 0.", "quantifier": "all accepted inputs with any combination of error arrays", "why_tests_cant": "closed form over all arrays", "anchors": ["petrofit/petrosian/core.py::calculate_petrosian"]}
{"id": "C07", "title": "closest_value_index picks the best sample up to the first crossing", "statement": "closest_value_index(v, a) returns None exactly when no entry of a is <= v (>= v when growing=True). Otherwise the returned index is not after the first such entry, no entry up to the first such entry is closer to v, and no earlier entry is equally close.", "quantifier": "all finite arrays of any length, all values, both growing modes", "why_tests_cant": "universally quantified minimality and first-index claim", "anchors": ["petrofit/utils.py::closest_value_index"]}
{"id": "C08", "title": "Petrosian radius is a sampled radius inside the data, NaN exactly when the profile never drops to eta", "statement": "calculate_petrosian_r returns either NaN or one of the sampled radii; a non-NaN result is between 0 and the largest radius; it is NaN exactly when no sampled profile value is <= eta.", "quantifier": "all profiles, radii, eta, interpolation kinds that follow the interp1d contract, all interp_num", "why_tests_cant": "holds for every profile and every interpolator", "anchors": ["petrofit/petrosian/core.py::calculate_petrosian_r", "petrofit/utils.py::get_interpolated_values", "petrofit/utils.py::closest_value_index"]}
{"id": "C09", "title": "Petrosian radius decreases when eta increases", "statement": "For the same profile, eta1 <= eta2 implies r_petrosian(eta2) <= r_petrosian(eta1) whenever the latter is not NaN, and r_petrosian(eta2) is then not NaN either. This holds for non-monotonic profiles too.", "quantifier": "all profiles (monotone or not), all pairs of eta, all interpolation kinds following the contract, interp_kind=None included", "why_tests_cant": "a monotonicity law across all pairs of runs", "anchors": ["petrofit/petrosian/core.py::calculate_petrosian_r", "petrofit/petrosian/correction.py::_generate_petrosian_correction (p02..p05)"]}
{"id": "C10", "title": "Petrosian radius brackets the first crossing", "statement": "When the sampled profile is strictly decreasing up to its first sample at or below eta, the returned radius is that sample or the one just before it, so the first crossing of the sampled profile lies within one sampling step of the returned radius.", "quantifier": "all sampled profiles strictly decreasing up to the crossing", "why_tests_cant": "accuracy bound for every profile and grid", "anchors": ["petrofit/petrosian/core.py::calculate_petrosian_r", "petrofit/utils.py::closest_value_index"]}
{"id": "C11", "title": "Petrosian radius error", "statement": "r_petrosian_err is NaN when no profile errors are supplied or the radius is NaN; it is 0 for all-zero profile errors; and it is never negative.", "quantifier": "all profiles and non-negative profile errors", "why_tests_cant": "sign of a difference of two independent searches over arbitrary profiles", "anchors": ["petrofit/petrosian/core.py::calculate_petrosian_r"]}
{"id": "C12", "title": "Radius enclosing a flux fraction stays inside the photometric range", "statement": "fraction_to_r returns NaN or a radius between min(r_list) and max(r_list) that is one of the sampled radii; it is NaN when r_petrosian*epsilon exceeds max(r_list) or r_petrosian is NaN.", "quantifier": "all curves of growth, fractions, epsilon, epsilon_fraction, interpolators following the contract", "why_tests_cant": "universal range claim", "anchors": ["petrofit/petrosian/core.py::fraction_to_r"]}
{"id": "C13", "title": "A larger flux fraction never gives a smaller radius", "statement": "With all other arguments fixed, non-negative flux inside r_epsilon and positive epsilon_fraction, f1 <= f2 implies r(f1) <= r(f2) whenever r(f2) is not NaN, and r(f1) is then not NaN; so r_20 <= r_50 <= r_80 <= r_99 for every profile.", "quantifier": "all curves of growth (monotone or not), all pairs of fractions", "why_tests_cant": "order law over all profiles; tests look at one galaxy", "anchors": ["petrofit/petrosian/core.py::fraction_to_r", "petrofit/petrosian/core.py::Petrosian.fraction_flux_to_r"]}
{"id": "C14", "title": "Concentration index is consistent and non-negative", "statement": "calculate_concentration_index returns either three NaNs or exactly the radii fraction_to_r gives for the two fractions together with 5*log10(r2/r1); when fraction_1 <= fraction_2, radii are positive and the enclosed flux non-negative the index is >= 0, and swapping the two fractions negates it.", "quantifier": "all profiles and fraction pairs", "why_tests_cant": "holds for every profile, not one", "anchors": ["petrofit/petrosian/core.py::calculate_concentration_index", "petrofit/petrosian/core.py::Petrosian.concentration_index", "petrofit/petrosian/core.py::Petrosian.c2080", "petrofit/petrosian/core.py::Petrosian.c5090"]}
{"id": "C15", "title": "Radii and concentrations are independent of the flux unit; total flux follows it", "statement": "Multiplying flux_list by a positive constant c leaves r_petrosian, r_epsilon, r_half_light, r_total_flux, every fraction_flux_to_r and the concentration indices unchanged and multiplies total_flux and half_flux by c.", "quantifier": "all Petrosian objects without error arrays, all c > 0, interpolators linear in y", "why_tests_cant": "relation between all pairs of runs", "anchors": ["petrofit/petrosian/core.py::Petrosian", "petrofit/petrosian/core.py::calculate_petrosian_r", "petrofit/petrosian/core.py::fraction_to_r"]}
{"id": "C16", "title": "Radii scale with the radius unit", "statement": "Multiplying r_list by c > 0 (and area_list by c^2) multiplies r_petrosian, r_half_light, r_total_flux and every fraction radius by c and leaves concentrations and total flux unchanged.", "quantifier": "all Petrosian objects without error arrays, all c > 0, interpolators equivariant in x", "why_tests_cant": "relation between all pairs of runs", "anchors": ["petrofit/petrosian/core.py::Petrosian", "petrofit/petrosian/core.py::calculate_petrosian_r", "petrofit/petrosian/core.py::fraction_to_r"]}
{"id": "C17", "title": "Petrosian queries never crash on accepted data", "statement": "For a Petrosian object that was constructed without an exception, reading r_petrosian, r_half_light, r_total_flux, total_flux, c2080 and fraction_flux_to_r returns a number or NaN and never raises.", "quantifier": "all constructible Petrosian objects, all query properties, all interpolators following the contract", "why_tests_cant": "needs all inputs incl. extreme radii, three-point profiles, error arrays", "anchors": ["petrofit/petrosian/core.py::fraction_to_r", "petrofit/petrosian/core.py::Petrosian.__init__", "petrofit/petrosian/core.py::Petrosian.total_flux"]}
{"id": "C18", "title": "Supplying flux errors does not make radii unavailable", "statement": "If fraction_to_r returns a radius without flux_err, then with flux_err (and r_petrosian_err) it returns the same radius together with an error value or NaN and does not raise.", "quantifier": "all profiles, all error arrays, all r_petrosian_err", "why_tests_cant": "range of r_epsilon +/- its error against r_list for every profile", "anchors": ["petrofit/petrosian/core.py::fraction_to_r"]}
{"id": "C19", "title": "Half-light and total-flux aliases agree", "statement": "r_50 = r_half_light = fraction_flux_to_r(0.5), r_total_flux = fraction_flux_to_r(total_flux_fraction), concentration_index()[0] = fraction_flux_to_r(0.2) and [1] = fraction_flux_to_r(0.8) (unless NaN), c2080 and c5090 are the last entries of the corresponding concentration_index.", "quantifier": "all Petrosian objects in all states reached by attribute assignments", "why_tests_cant": "must hold after any sequence of parameter changes", "anchors": ["petrofit/petrosian/core.py::Petrosian.r_50", "petrofit/petrosian/core.py::Petrosian.r_half_light", "petrofit/petrosian/core.py::Petrosian.fraction_flux_to_r", "petrofit/petrosian/core.py::Petrosian.c2080"]}
{"id": "C20", "title": "total_flux is the curve of growth at r_total_flux, closest to the target flux", "statement": "When r_total_flux is not NaN, total_flux is the interpolated curve of growth at r_total_flux, it equals the sampled flux at that radius, and no sample up to the first one reaching the target flux F(r_epsilon)*total_flux_fraction/epsilon_fraction is closer to the target; otherwise it is NaN. The same holds for half_flux, r_half_light and the fraction 0.5.", "quantifier": "all Petrosian objects with interp_kind set and interpolators following the contract", "why_tests_cant": "universal minimality", "anchors": ["petrofit/petrosian/core.py::Petrosian.total_flux", "petrofit/petrosian/core.py::fraction_to_r"]}
{"id": "C21", "title": "total_flux_err follows the flux unit", "statement": "Multiplying flux_list and flux_err by c > 0 multiplies total_flux_err by c.", "quantifier": "all Petrosian objects with flux errors, all c > 0", "why_tests_cant": "relation between pairs of runs", "anchors": ["petrofit/petrosian/core.py::Petrosian.total_flux_err"]}
{"id": "C22", "title": "half_flux_err is available", "statement": "Reading half_flux_err on a constructed Petrosian object returns a number or NaN, like total_flux_err.", "quantifier": "all constructible Petrosian objects", "why_tests_cant": "never exercised by tests", "anchors": ["petrofit/petrosian/core.py::Petrosian.half_flux_err"]}
{"id": "C23", "title": "interp_kind=None works for every property", "statement": "With interp_kind=None (documented: radii are computed discretely) total_flux and half_flux return a number or NaN.", "quantifier": "all Petrosian objects with interp_kind=None", "why_tests_cant": "option combination not covered", "anchors": ["petrofit/petrosian/core.py::Petrosian.total_flux", "petrofit/petrosian/core.py::calculate_petrosian_r"]}
{"id": "C24", "title": "Petrosian objects have no hidden state", "statement": "After any sequence of assignments to eta, epsilon, epsilon_fraction, total_flux_fraction, interp_kind, interp_num and any sequence of reads, every query equals the query on a freshly constructed object with the current parameter values and the original arrays; r_petrosian depends on eta only, not on epsilon, epsilon_fraction or total_flux_fraction.", "quantifier": "all operation histories of any length", "why_tests_cant": "unbounded histories", "anchors": ["petrofit/petrosian/core.py::Petrosian"]}
{"id": "C25", "title": "Callers' arrays are never modified by Petrosian computations", "statement": "calculate_petrosian, calculate_petrosian_r, fraction_to_r and all Petrosian properties leave the arrays passed in unchanged, and later changes to those arrays do not influence an already constructed Petrosian object.", "quantifier": "all inputs and all interleavings of caller writes and Petrosian reads", "why_tests_cant": "aliasing over all histories", "anchors": ["petrofit/petrosian/core.py::calculate_petrosian_r", "petrofit/petrosian/core.py::fraction_to_r", "petrofit/petrosian/core.py::Petrosian.__init__"]}
{"id": "C26", "title": "Correction picks the nearest grid row", "statement": "estimate_n / estimate_epsilon / correct use a row of the grid whose standardized distance to the measured (r_petrosian(0.2), r_50, C2080) is minimal among all rows, the first such row on ties.", "quantifier": "all grids with non-degenerate columns, all measured triples", "why_tests_cant": "argmin over arbitrary grids", "anchors": ["petrofit/petrosian/correction.py::PetrosianCorrection._dr", "petrofit/petrosian/correction.py::PetrosianCorrection._closest_row"]}
{"id": "C27", "title": "A profile that is on the grid gets its own row back", "statement": "If the measured triple equals the triple of some grid row and the grid columns are not constant, the row used has exactly that triple.", "quantifier": "all non-degenerate grids and all of their rows", "why_tests_cant": "quantifies over all grids", "anchors": ["petrofit/petrosian/correction.py::PetrosianCorrection._closest_row"]}
{"id": "C28", "title": "Out-of-range profiles are rejected under enforce_range", "statement": "With enforce_range=True a measured triple outside the grid's bounding box, or containing NaN, raises AssertionError and no correction is returned; inside the box no assertion is raised.", "quantifier": "all grids, all triples incl. NaN", "why_tests_cant": "boundary and NaN behaviour for every grid", "anchors": ["petrofit/petrosian/correction.py::PetrosianCorrection._validate_input", "petrofit/petrosian/correction.py::PetrosianCorrection._closest_row"]}
{"id": "C29", "title": "No correction is fabricated for an unmeasurable profile", "statement": "With enforce_range=False a profile whose r_petrosian, r_50 or C2080 is NaN does not get a correction taken from an arbitrary row.", "quantifier": "all grids, all triples containing NaN", "why_tests_cant": "NaN ordering of argmin", "anchors": ["petrofit/petrosian/correction.py::PetrosianCorrection._dr", "petrofit/petrosian/correction.py::PetrosianCorrection._closest_row"]}
{"id": "C30", "title": "estimate_epsilon supports exactly the documented settings", "statement": "On a grid with the columns written by generate_petrosian_sersic_correction, estimate_epsilon returns c_r(epsilon_fraction)/r_petrosian(eta) of the chosen row for epsilon_fraction in {0.5, 0.8, 0.99} and eta in {0.2, 0.3, 0.4, 0.5} and raises ValueError for any other setting.", "quantifier": "all generated grids, rows and parameter values", "why_tests_cant": "all setting combinations; 0.5 is never tested", "anchors": ["petrofit/petrosian/correction.py::PetrosianCorrection.estimate_epsilon", "petrofit/petrosian/correction.py::generate_petrosian_sersic_correction (names)"]}
{"id": "C31", "title": "correct() returns a new profile and leaves the input untouched", "statement": "PetrosianCorrection.correct(p) changes neither p nor any of its arrays or parameters; the returned object has the same arrays, eta, fractions and r_petrosian as p and differs only in epsilon, which is the estimated one.", "quantifier": "all profiles, grids and later parameter assignments on either object", "why_tests_cant": "shallow-copy aliasing across all histories", "anchors": ["petrofit/petrosian/correction.py::PetrosianCorrection.correct"]}
{"id": "C32", "title": "Grid generation is independent of scheduling", "statement": "generate_petrosian_sersic_correction returns one row per (n, r_eff) pair, n-major in the order of the input lists, with the same rows for n_cpu=1 and for any n_cpu and any order in which worker processes finish, and with 30 named columns per row.", "quantifier": "all parameter lists and all completion orders", "why_tests_cant": "all schedules", "anchors": ["petrofit/petrosian/correction.py::generate_petrosian_sersic_correction"]}
{"id": "C33", "title": "Simulation radii are valid for the photometry they feed", "statement": "The radius list built for one grid simulation starts at 1, is strictly increasing, and reaches at least floor(max_r)-1, so total radius r_99 is inside it whenever r_99 >= 4.", "quantifier": "all real max_r and r_total_flux", "why_tests_cant": "integer/real boundary cases at 200 and at int() truncation", "anchors": ["petrofit/petrosian/correction.py::_generate_petrosian_correction"]}
{"id": "C34", "title": "Ellipticity and elongation conversions are mutually inverse", "statement": "elong_to_ellip(ellip_to_elong(e)) = e for e != 1 and ellip_to_elong(elong_to_ellip(q)) = q for q != 0; they map [0,1) and [1,inf) onto each other monotonically; e = 1 and q = 0 raise ZeroDivisionError.", "quantifier": "all numbers", "why_tests_cant": "round trip on all reals", "anchors": ["petrofit/utils.py::ellip_to_elong", "petrofit/utils.py::elong_to_ellip"]}
{"id": "C35", "title": "make_radius_list gives n increasing positive radii ending at max_pix", "statement": "For max_pix > 0, make_radius_list(max_pix, n) has n entries, is strictly increasing, evenly spaced, all entries in (0, max_pix], and (n >= 1) ends exactly at max_pix; with log=True and max_pix > 1 (n >= 2) it has n entries, starts at 1, ends at max_pix and has a constant ratio > 1.", "quantifier": "all n and max_pix", "why_tests_cant": "all lengths and endpoints", "anchors": ["petrofit/utils.py::make_radius_list"]}
{"id": "C36", "title": "natural_sort never fails and orders embedded numbers numerically", "statement": "For any list of ASCII strings natural_sort returns a permutation of the input ordered by the alternating text/number key, keeps the input order of items with equal keys, never raises TypeError, is idempotent, and places prefix+a before prefix+b whenever the decimal numbers satisfy a < b, with or without leading zeros.", "quantifier": "all lists of ASCII strings of any length", "why_tests_cant": "comparability of heterogeneous keys for every pair of strings", "anchors": ["petrofit/utils.py::natural_sort"]}
{"id": "C37", "title": "HST flux to AB magnitude is a strictly decreasing logarithmic map", "statement": "hst_flux_to_abmag is NaN exactly for non-positive flux, strictly decreasing for positive flux, a factor 100 in flux is exactly -5 mag, and applying it to an array equals applying it to every element; the caller's array is not modified.", "quantifier": "all fluxes, arrays and positive header values", "why_tests_cant": "functional law on all reals", "anchors": ["petrofit/utils.py::hst_flux_to_abmag"]}
{"id": "C38", "title": "Pixel and angular sizes convert back and forth", "statement": "pixel_to_angular(angular_to_pixel(t, wcs), wcs) equals t expressed in arcsec and angular_to_pixel(pixel_to_angular(p, wcs), wcs) = p for every WCS with equal non-zero pixel scales; WCS with unequal scales are rejected by both.", "quantifier": "all sizes, units, scales", "why_tests_cant": "round trip on all reals and units (the existing test compares without asserting)", "anchors": ["petrofit/utils.py::angular_to_pixel", "petrofit/utils.py::pixel_to_angular"]}
{"id": "C39", "title": "Area-to-radius conversions invert the ellipse area", "statement": "elliptical_area_to_r(area, elong) = (a, b) satisfies pi*a*b = area, a/b = elong, and inverts the area pi*r*r/elong of the aperture made by radial_elliptical_aperture(r, elong); circle_area_to_r is the elong = 1 case.", "quantifier": "all areas >= 0 and elongations > 0", "why_tests_cant": "identity over all reals", "anchors": ["petrofit/utils.py::elliptical_area_to_r", "petrofit/utils.py::circle_area_to_r", "petrofit/photometry.py::radial_elliptical_aperture"]}
{"id": "C40", "title": "get_interpolated_values resamples the whole range without losing points", "statement": "With kind=None the arrays are returned unchanged; otherwise the result has max(num, len(x)) points, starts at min(x), ends at max(x), is strictly increasing and evenly spaced, and every y value is the interpolant at that x; linear interpolation stays within [min(y), max(y)] and reproduces the data at the nodes.", "quantifier": "all data arrays, num and kinds", "why_tests_cant": "all lengths/values", "anchors": ["petrofit/utils.py::get_interpolated_values"]}
{"id": "C41", "title": "cutout_subtract removes exactly the cutout and nothing else", "statement": "For an even-sized target fully inside the image the result is image minus target in the window centred at (x, y) and unchanged elsewhere, and the caller's image is left unmodified (documented: returns a copied array); for windows that do not match the target shape it raises rather than subtracting something else.", "quantifier": "all image and target shapes and positions", "why_tests_cant": "parity, clipping and aliasing cases", "anchors": ["petrofit/utils.py::cutout_subtract"]}
{"id": "C42", "title": "Aperture areas never decrease with radius", "statement": "For a non-decreasing r_list the area array returned by radial_photometry is non-decreasing, for every image shape, mask, elongation, angle and overlap method, hence calculate_petrosian accepts it; for a non-negative image the flux array is non-decreasing too.", "quantifier": "all images, masks, r_lists, geometry and overlap methods", "why_tests_cant": "geometric monotonicity for all inputs", "anchors": ["petrofit/photometry.py::radial_photometry", "petrofit/photometry.py::radial_elliptical_aperture", "petrofit/petrosian/core.py::calculate_petrosian"]}
{"id": "C43", "title": "Masked pixels never contribute", "statement": "radial_photometry results do not change when pixel values or errors under mask=False are replaced by anything, NaN included; the area counts only unmasked pixels; with all-True mask results equal those with mask=None.", "quantifier": "all images, masks and replacement values", "why_tests_cant": "non-interference", "anchors": ["petrofit/photometry.py::radial_photometry"]}
{"id": "C44", "title": "NaN photometry is never returned silently", "statement": "radial_photometry either raises or returns arrays of the length of r_list whose fluxes contain no NaN; it raises when an unmasked pixel with positive overlap is NaN; the error array is all NaN exactly when no error map is given.", "quantifier": "all inputs", "why_tests_cant": "all NaN placements", "anchors": ["petrofit/photometry.py::radial_photometry"]}
{"id": "C45", "title": "Photometry is linear in the image", "statement": "Before rounding, the flux in an aperture is additive and homogeneous in the image, and the area is the flux of a unit image; a uniform image of level c has flux c times area.", "quantifier": "all images, masks and apertures", "why_tests_cant": "linearity for all images", "anchors": ["petrofit/photometry.py::radial_photometry"]}
{"id": "C46", "title": "Aperture and annulus geometry", "statement": "radial_elliptical_aperture(r, elong) has semi-axes r and r/elong and area pi*r^2/elong; radial_elliptical_annulus(r, dr, elong) has inner axes r, r/elong and outer axes r+dr, (r+dr)/elong, and its area is the difference of the two aperture areas.", "quantifier": "all r, dr, elong", "why_tests_cant": "identity on reals involving the library default for b_in", "anchors": ["petrofit/photometry.py::radial_elliptical_aperture", "petrofit/photometry.py::radial_elliptical_annulus"]}
{"id": "C47", "title": "segm_mask selects exactly the requested sources", "statement": "A pixel is True in segm_mask(source, segm, mask_background) exactly when its label is one of the requested labels, or it is background and mask_background is False.", "quantifier": "all segmentation maps, label lists and flags", "why_tests_cant": "all label maps", "anchors": ["petrofit/segmentation.py::segm_mask"]}
{"id": "C48", "title": "segm_mask does not depend on earlier calls", "statement": "Calling segm_mask or masked_segm_image does not change the caller's source list, so the result of any later call with the same list depends only on its own arguments.", "quantifier": "all histories of calls sharing a source list", "why_tests_cant": "histories with aliasing", "anchors": ["petrofit/segmentation.py::segm_mask", "petrofit/segmentation.py::masked_segm_image"]}
{"id": "C49", "title": "masked_segm_image keeps selected pixels and fills the rest without touching the input", "statement": "masked_segm_image returns an image of the same shape equal to the input on selected pixels and to the fill value elsewhere; the input image is unchanged; masking is idempotent.", "quantifier": "all images, segmentation maps, fills", "why_tests_cant": "all pixels/maps", "anchors": ["petrofit/segmentation.py::masked_segm_image"]}
{"id": "C50", "title": "source_photometry is centred on the source peak", "statement": "For every requested or default cutout size (odd sizes included) the cutout is even-sized and the aperture centre used in the cutout is exactly the pixel of the source's peak, and a default-size cutout contains the largest aperture.", "quantifier": "all cutout sizes, positions, r_lists", "why_tests_cant": "parity/rounding for all integers", "anchors": ["petrofit/segmentation.py::source_photometry", "petrofit/segmentation.py::get_source_position"]}
{"id": "C51", "title": "Neighbouring sources do not contaminate source photometry", "statement": "source_photometry's fluxes and areas do not change when pixel values inside other sources' segments are changed arbitrarily (with or without background subtraction), and the caller's image is not modified.", "quantifier": "all images, maps, replacement values", "why_tests_cant": "non-interference", "anchors": ["petrofit/segmentation.py::source_photometry", "petrofit/segmentation.py::masked_segm_image", "petrofit/segmentation.py::segm_mask"]}
{"id": "C52", "title": "order_cat returns a permutation sorted by the key", "statement": "order_cat returns every catalog index exactly once; with reverse=True key values are non-increasing along it, with reverse=False non-decreasing.", "quantifier": "all catalogs and keys", "why_tests_cant": "all lengths", "anchors": ["petrofit/segmentation.py::order_cat"]}
{"id": "C53", "title": "make_grid samples are centred on pixels", "statement": "make_grid(size, origin, factor) has size*factor samples per axis; sample k of an axis is origin + (k+0.5)/factor - 0.5; with factor=1 the samples are the integer pixel positions; the mean of the factor samples belonging to a pixel is exactly the pixel centre.", "quantifier": "all sizes, origins, factors >= 1", "why_tests_cant": "all sizes and factors", "anchors": ["petrofit/modeling/models.py::make_grid"]}
{"id": "C54", "title": "Oversampling is unbiased", "statement": "Block-averaging an oversampled sampling of a model conserves total flux (sum over samples / factor^2 = sum over pixels), is exact for constant and planar models, and never leaves the range of the sampled values.", "quantifier": "all sizes, factors and models", "why_tests_cant": "all functions", "anchors": ["petrofit/modeling/models.py::PSFConvolvedModel2D.evaluate", "petrofit/modeling/models.py::make_grid"]}
{"id": "C55", "title": "The sampling-grid cache is invisible", "statement": "For every history of evaluations on arbitrary coordinate arrays, oversample/psf_oversample/psf changes, cache_grid toggles and clear_cached_grid calls, every evaluation returns what a fresh uncached model with the same settings returns.", "quantifier": "all histories of any length", "why_tests_cant": "unbounded histories of cache states", "anchors": ["petrofit/modeling/models.py::PSFConvolvedModel2D.evaluate", "petrofit/modeling/models.py::PSFConvolvedModel2D.clear_cached_grid", "petrofit/modeling/models.py::PSFConvolvedModel2D.cache_grid"]}
{"id": "C56", "title": "Oversampling settings always stay compatible", "statement": "After any sequence of successful assignments to psf, oversample and psf_oversample the grid factor is a positive multiple of the PSF factor, and rejected assignments leave the settings unchanged.", "quantifier": "all assignment histories", "why_tests_cant": "unbounded histories; setter checks are order dependent", "anchors": ["petrofit/modeling/models.py::PSFConvolvedModel2D.oversample", "petrofit/modeling/models.py::PSFConvolvedModel2D.psf_oversample", "petrofit/modeling/models.py::PSFConvolvedModel2D.psf"]}
{"id": "C57", "title": "Model images depend on coordinates only", "statement": "Evaluating the wrapped model with an oversampling window on a coordinate grid gives, at every pixel inside the window, the mean of the sub-model over that pixel's sub-samples and, outside, the sub-model at the pixel centre, wherever the grid starts.", "quantifier": "all grids, origins, windows", "why_tests_cant": "all window positions and origins", "anchors": ["petrofit/modeling/models.py::PSFConvolvedModel2D.evaluate"]}
{"id": "C58", "title": "An oversampling window may overlap the image border", "statement": "An oversampling window that extends past the image border is clipped to the image and evaluation does not raise.", "quantifier": "all window positions and sizes", "why_tests_cant": "all positions", "anchors": ["petrofit/modeling/models.py::PSFConvolvedModel2D.evaluate"]}
{"id": "C59", "title": "PSF convolution conserves flux and shape", "statement": "Convolution keeps the image shape, a centred unit PSF is the identity, it is linear in the model, and for a PSF summing to 1 the total flux is conserved when the source is further than the PSF half-size from the border.", "quantifier": "all images and PSFs", "why_tests_cant": "all images", "anchors": ["petrofit/modeling/models.py::PSFConvolvedModel2D.evaluate"]}
{"id": "C60", "title": "model_to_image puts coordinates where documented", "statement": "model_to_image(model, size, center) has shape (y_size, x_size); pixel [j, i] is the model at (x_origin+i, y_origin+j); with center=c the pixel [y_size//2, x_size//2] is the model at c; with center=None the origin is (0,0).", "quantifier": "all sizes, centres, models", "why_tests_cant": "all integer parities", "anchors": ["petrofit/modeling/fitting.py::model_to_image", "petrofit/modeling/fitting.py::model_center_to_image_origin", "petrofit/modeling/fitting.py::_validate_image_size"]}
{"id": "C61", "title": "Image sizes are validated", "statement": "_validate_image_size / model_to_image accept exactly whole numbers or length-2 lists/tuples of whole numbers and return them as integers; everything else raises.", "quantifier": "all size arguments", "why_tests_cant": "case analysis over all inputs", "anchors": ["petrofit/modeling/fitting.py::_validate_image_size"]}
{"id": "C62", "title": "Only unmasked pixels are fitted", "statement": "fit_model passes to the fitter exactly the coordinates, values and weights of the non-NaN pixels, each once, with matching order; a weight array of different shape is rejected.", "quantifier": "all images and weights", "why_tests_cant": "all NaN patterns", "anchors": ["petrofit/modeling/fitting.py::fit_model"]}
{"id": "C63", "title": "Background plane fits recover and remove a plane exactly", "statement": "If the background pixels are exactly a plane (and not collinear), the least-squares plane is that plane and subtracting it leaves zero; adding a plane to the image changes the fitted plane by exactly that plane.", "quantifier": "all planes and pixel masks", "why_tests_cant": "all real coefficients and masks", "anchors": ["petrofit/modeling/fitting.py::fit_background", "petrofit/segmentation.py::source_photometry"]}
{"id": "C64", "title": "sersic_enclosed is the integral of the Sersic profile", "statement": "For n, r_eff > 0, sersic_enclosed(r) is the integral of 2*pi*t*I(t)*(1-ellip) over 0<=t<=r where I is the Sersic profile with intensity `amplitude` at r_eff; it is 0 at r=0, strictly increasing, and linear in amplitude.", "quantifier": "all r >= 0 and parameters", "why_tests_cant": "calculus identity", "anchors": ["petrofit/modeling/models.py::sersic_enclosed"]}
{"id": "C65", "title": "Half of the Sersic flux is inside r_eff", "statement": "sersic_enclosed(r_eff) is exactly half of the total flux sersic_enclosed(inf), and sersic_enclosed(r) tends to that total.", "quantifier": "all n, r_eff > 0, amplitudes", "why_tests_cant": "limit statement", "anchors": ["petrofit/modeling/models.py::sersic_enclosed", "petrofit/petrosian/correction.py::_generate_petrosian_correction"]}
{"id": "C66", "title": "sersic_enclosed_inv inverts sersic_enclosed", "statement": "sersic_enclosed_inv(sersic_enclosed(r)) = r for all r >= 0 and sersic_enclosed(sersic_enclosed_inv(f)) = f for all 0 <= f < total.", "quantifier": "all parameters", "why_tests_cant": "round trip on reals", "anchors": ["petrofit/modeling/models.py::sersic_enclosed", "petrofit/modeling/models.py::sersic_enclosed_inv"]}
{"id": "C67", "title": "petrosian_profile is the Petrosian ratio of the Sersic model", "statement": "petrosian_profile(r) equals the Sersic intensity at r divided by sersic_enclosed(r)/(pi r^2); it is in (0,1), strictly decreasing, tends to 1 at r -> 0+ and to 0 at infinity, so every eta in (0,1) is attained at exactly one radius.", "quantifier": "all r > 0, n > 0, r_eff > 0", "why_tests_cant": "analysis over all parameters", "anchors": ["petrofit/modeling/models.py::petrosian_profile"]}
{"id": "C68", "title": "GenSersic2D generalises Sersic2D", "statement": "With c_0 = 0 GenSersic2D equals the elliptical Sersic profile; for any c_0 its value is `amplitude` at distance r_eff along the major axis, amplitude*exp(b_n) at the centre, it is point symmetric, invariant under theta+pi, positive for positive amplitude and decreasing along rays.", "quantifier": "all parameters and points", "why_tests_cant": "identity on reals", "anchors": ["petrofit/modeling/models.py::GenSersic2D.evaluate", "petrofit/modeling/models.py::Ie_to_I0"]}
{"id": "C69", "title": "Nuker2D breaks at r_break", "statement": "Nuker2D is circularly symmetric about (x_0, y_0) and has value `amplitude` at distance r_break from the centre.", "quantifier": "all parameters and points", "why_tests_cant": "identity on reals", "anchors": ["petrofit/modeling/models.py::Nuker2D"]}
{"id": "C70", "title": "CoreSersic2D breaks at r_break", "statement": "CoreSersic2D (Graham et al. 2003) with ellip=0 has value `amplitude` at distance r_break from the centre.", "quantifier": "all parameters", "why_tests_cant": "identity on reals", "anchors": ["petrofit/modeling/models.py::CoreSersic2D"]}
{"id": "C71", "title": "I0/Ie conversions are inverse", "statement": "I0_to_Ie(Ie_to_I0(I, n), n) = I and vice versa, and Ie_to_I0 is the central value of the Sersic profile.", "quantifier": "all intensities and n", "why_tests_cant": "round trip", "anchors": ["petrofit/modeling/models.py::Ie_to_I0", "petrofit/modeling/models.py::I0_to_Ie"]}
{"id": "C72", "title": "Default bounds are fresh and overridable", "statement": "get_default_sersic_bounds(override) contains every default key, keys in override have the override's value, all other keys their default, for any history of calls and caller modifications of returned dictionaries; the generalised version adds only c_0.", "quantifier": "all overrides and histories", "why_tests_cant": "mutable default argument histories", "anchors": ["petrofit/modeling/models.py::get_default_sersic_bounds", "petrofit/modeling/models.py::get_default_gen_sersic_bounds"]}
{"id": "C73", "title": "Wrapping a model keeps its parameters", "statement": "PSFConvolvedModel2D(m) has m's parameters in order followed by psf_pa; .model returns a model with m's parameter values, fixed flags and bounds after any sequence of parameter changes on the wrapper; without PSF and oversampling evaluation equals m at pixel centres.", "quantifier": "all models and parameter histories", "why_tests_cant": "histories", "anchors": ["petrofit/modeling/models.py::PSFConvolvedModel2D._load_parameters", "petrofit/modeling/models.py::PSFConvolvedModel2D.model", "petrofit/modeling/models.py::PSFConvolvedModel2D.evaluate"]}
{"id": "C74", "title": "The Petrosian profile does not depend on the dtype of the areas", "statement": "calculate_petrosian of an integer area array equals calculate_petrosian of the same areas as floats, with and without errors.", "quantifier": "all non-decreasing integer area arrays, fluxes and errors", "why_tests_cant": "tests pass float areas; the failure depends on the dtype, not on the values", "anchors": ["petrofit/petrosian/core.py:70-74", "petrofit/petrosian/core.py:98-115"]}
{"id": "C75", "title": "AB magnitudes of integer arrays", "statement": "hst_flux_to_abmag of an integer array (or list of python ints) equals applying it to every element: NaN where the count is non-positive, finite elsewhere, and never an exception for a complete header.", "quantifier": "all integer arrays and headers", "why_tests_cant": "tests use float images; the failure depends on the dtype together with the presence of a non-positive entry", "anchors": ["petrofit/utils.py:60-75"]}
{"id": "C76", "title": "Exact aperture photometry is integration", "statement": "radial_photometry(method=\"exact\") returns at every radius the integral of the image (as a piecewise constant function on the plane, pixel (i,j) centred at x=j, y=i, masked pixels left out) over the ellipse with semi-axes r and r/q, up to 5e-7; for apertures on the image the area is round(pi r^2/q, 6) and a uniform image of level c gives round(c pi r^2/q, 6).", "quantifier": "all images, centres, angles, ellipticities, radii and masks", "why_tests_cant": "tests compare a handful of apertures with tolerances; the identity is about every ellipse position and angle", "anchors": ["petrofit/photometry.py::radial_photometry", "petrofit/photometry.py::photometry_step", "petrofit/photometry.py::radial_elliptical_aperture"]}
{"id": "C77", "title": "Wrapped models are evaluated at the given coordinates", "statement": "PSFConvolvedModel2D(m) without PSF and oversampling has at every coordinate the value of m there, for every coordinate array.", "quantifier": "all models and coordinate arrays", "why_tests_cant": "tests evaluate on integer pixel grids only", "anchors": ["petrofit/modeling/models.py::PSFConvolvedModel2D.evaluate"]}
{"id": "C78", "title": "measure_fwhm returns the full widths at half maximum of the fitted Gaussian", "statement": "measure_fwhm(image) returns two numbers that are the full widths at half maximum of the Gaussian fitted to all non-NaN pixels, in the x and in the y direction: along each direction through the centre the fitted value is at least half the peak exactly within half of the returned width.", "quantifier": "for every image, every fitter result with positive amplitude and standard deviations, with and without plot", "why_tests_cant": "The relation is a statement about the whole fitted function on a continuum of points; a test image with a round or axis-aligned source cannot see that theta is free, and plot=True opens figures so tests disable it.", "anchors": ["petrofit/modeling/fitting.py:479-580", "petrofit/modeling/fitting.py:300-327"]}
{"id": "C79", "title": "PetroApprox approximations are monotonic and positive", "statement": "A larger concentration never gets a smaller corrected concentration, Sersic index or epsilon from u2080_to_c2080, c2080_to_n and n_to_epsilon, nor a larger P0502 a smaller epsilon; estimated Sersic indices and epsilons are positive.", "quantifier": "for all pairs of real arguments >= 0", "why_tests_cant": "Monotonicity is a statement about all pairs of reals; sampling a polynomial of degree six on a grid cannot exclude a dip between samples.", "anchors": ["petrofit/modeling/models.py:712-774"]}
{"id": "C80", "title": "plot_fit residuals are image minus model, pixel by pixel", "statement": "plot_fit returns a model image and a residual image of the shape of the data image; residual[j, i] = image[j, i] - model(x0 + i, y0 + j) with the origin given by center; model image plus residual is the image at every finite pixel, NaN pixels stay NaN, and the residual is zero exactly where the data equal the model.", "quantifier": "for every image (any shape, NaN and infinite pixels), model, mode and centre", "why_tests_cant": "Shape and index order mistakes are invisible for square or symmetric images, and the claim quantifies over every pixel of every image.", "anchors": ["petrofit/modeling/fitting.py:330-476"]}
{"id": "C81", "title": "Plots of a Petrosian object show its own numbers and never fail", "statement": "For every object accepted by the constructor whose radii can be computed, plot, plot_cog and imshow raise nothing and draw the profile, its errors, and markers at exactly the radii and fluxes the object reports; NaN radii draw nothing.", "quantifier": "for every constructed Petrosian object, with any combination of area and flux errors, every interpolation, every transparency and elongation > 0", "why_tests_cant": "The failing combinations (area errors without flux errors, a negative radius error) depend on the data; tests plot one or two example profiles.", "anchors": ["petrofit/petrosian/core.py:894-1249"]}
{"id": "C82", "title": "The measured Petrosian radius converges", "statement": "For a galaxy whose profile and Petrosian ratio fall outwards, calculate_petrosian at aperture radius r[i+1] lies between the true ratio there and I(r[i]) over the true mean; for every tolerance there is a sampling step such that on every radius list at least that fine and long enough calculate_petrosian_r returns a radius within the tolerance of the true Petrosian radius.", "quantifier": "all galaxies, all fine enough radius lists, every interpolation that stays between nodes and no interpolation", "why_tests_cant": "convergence quantifies over all samplings", "anchors": ["petrofit/petrosian/core.py::calculate_petrosian", "petrofit/petrosian/core.py::calculate_petrosian_r"]}
{"id": "C83", "title": "The fraction radius converges", "statement": "For the same galaxies fraction_to_r returns, on every fine enough radius list, a radius within the tolerance of the true radius enclosing the asked fraction of the epsilon r_petro flux.", "quantifier": "all galaxies, fractions, epsilon, epsilon_fraction, fine enough radius lists and interpolations staying between nodes", "why_tests_cant": "convergence quantifies over all samplings", "anchors": ["petrofit/petrosian/core.py::fraction_to_r"]}
{"id": "C84", "title": "The Petrosian object converges", "statement": "Petrosian(r, area, flux) of exact measurements of such a galaxy gives r_petrosian, r at a fraction, total_flux and the concentration index within any tolerance of the true values once the radii are fine enough; for a Sersic profile with its own epsilon_fraction r_half_light is within the tolerance of r_eff.", "quantifier": "all galaxies (all Sersic n, r_eff, amplitude, ellip) and all fine enough samplings", "why_tests_cant": "convergence quantifies over all samplings", "anchors": ["petrofit/petrosian/core.py::Petrosian", "petrofit/modeling/models.py::sersic_enclosed"]}
{"id": "C85", "title": "PSF-convolved evaluation is linear in the wrapped model", "statement": "For any PSF, psf_pa, oversample (window included), psf_oversample and coordinates, evaluating p*S + q*T gives p times the values of S plus q times the values of T, and it fails for one exactly when it fails for the others.", "quantifier": "all models with the same parameter names, all settings, all coordinates", "why_tests_cant": "linearity over all models and settings", "anchors": ["petrofit/modeling/models.py::PSFConvolvedModel2D.evaluate"]}
{"id": "C86", "title": "Moving model and coordinates together changes nothing", "statement": "Without an oversampling window, evaluating the model moved by any vector on coordinates moved by the same vector gives the same values.", "quantifier": "all models, settings without window, coordinates, vectors", "why_tests_cant": "universal over shifts and settings", "anchors": ["petrofit/modeling/models.py::PSFConvolvedModel2D.evaluate"]}
{"id": "C87", "title": "A model value does not depend on which other pixels are evaluated", "statement": "The value at a coordinate is the same whatever other coordinates are passed along: order, repetitions and omitted pixels (as when fit_model drops masked pixels) do not matter.", "quantifier": "all coordinate arrays and settings", "why_tests_cant": "needs pairs of coordinate arrays; tests evaluate full square grids", "anchors": ["petrofit/modeling/models.py::PSFConvolvedModel2D.evaluate"]}
{"id": "C88", "title": "Correcting twice is correcting once", "statement": "correct(correct(p)) equals correct(p): the correction is determined by the default measurements of the profile, so applying it to an already corrected profile changes nothing and does not fail.", "quantifier": "for every grid, correction setting, interpolator and profile", "why_tests_cant": "Idempotence quantifies over all profiles and grids; a test that corrects each profile once never sees that the second correction reads the already changed epsilon.", "anchors": ["petrofit/petrosian/correction.py:380-391", "petrofit/petrosian/correction.py:461-465"]}
{"id": "C89", "title": "unique_grid_values and filter_grid partition the grid", "statement": "filter_grid(key, value) returns exactly the rows with that value, in order and with all columns; unique_grid_values(key) is the sorted list of the values; filtering by each of them in turn returns every row exactly once; an unknown key raises KeyError.", "quantifier": "for every grid, key and value (NaN and infinities included)", "why_tests_cant": "A partition statement over all grids; example grids have neither repeated nor NaN entries in the tested column.", "anchors": ["petrofit/petrosian/correction.py:407-419"]}
{"id": "C90", "title": "A correction survives writing and reading", "statement": "PetrosianCorrection.read after write gives a correction that answers every query like the original; write creates exactly the named file and never replaces an existing one.", "quantifier": "for every grid, both settings of enforce_range, every file system state and every profile", "why_tests_cant": "The loss only shows for corrections built with enforce_range=False and profiles outside the grid.", "anchors": ["petrofit/petrosian/correction.py:393-405"]}
{"id": "C91", "title": "Angular radii are the pixel radii times the pixel scale", "statement": "r_half_light_arcsec and r_total_flux_arcsec return the corresponding radius in pixels times the pixel scale in arcsec, NaN exactly when the radius is NaN, and angular_to_pixel converts them back; a WCS with unequal scales is rejected only if there is a radius to convert.", "quantifier": "for every profile, interpolator, positive pixel scale and WCS unit", "why_tests_cant": "The unit and NaN cases multiply; tests use one WCS and one measurable profile.", "anchors": ["petrofit/petrosian/core.py:866-882", "petrofit/utils.py:85-107"]}
{"id": "C92", "title": "The correction plot highlights the row that is used", "statement": "plot_correction links the measured point to the grid point of the very row that estimate_n, estimate_epsilon and correct use, with each axis showing the matching pair of columns.", "quantifier": "for every grid, setting and profile for which a row is found", "why_tests_cant": "Plots are checked by eye; that the highlighted row is the used row for all profiles cannot be.", "anchors": ["petrofit/petrosian/correction.py:506-674"]}
{"id": "C93", "title": "make_catalog returns the maps and catalog of its three steps", "statement": "make_catalog detects with the caller's threshold and npixels, deblends that map with the caller's npixels, nlevels and contrast, and catalogues the last map; plotting and the image container do not matter; labelled pixels exceed the threshold and deblended sources lie inside detected ones; an image without sources gives an empty result.", "quantifier": "for every image, threshold, container and combination of settings, for every detection library meeting the photutils documentation", "why_tests_cant": "Argument mix-ups between three library calls with the same parameter names only show for particular images; blank images are not tested.", "anchors": ["petrofit/segmentation.py:289-485"]}
{"id": "C94", "title": "plot_segment_residual does not touch the image", "statement": "plot_segment_residual shows the image with every labelled pixel at zero and every other pixel unchanged, and modifies no array of the caller.", "quantifier": "for every image and segmentation map of the same shape", "why_tests_cant": "A statement about every pixel of every image and about all arrays in memory.", "anchors": ["petrofit/segmentation.py:56-62"]}
{"id": "C95", "title": "Source accessors agree between catalogs and tables", "statement": "get_source_position, get_source_elong, get_source_ellip and get_source_theta give the same numbers for a catalog entry and for its row in the table, theta in radians, and elongation and ellipticity are converted into each other by ellip_to_elong and elong_to_ellip.", "quantifier": "for every source with semi-axes 0 < b <= a and every orientation", "why_tests_cant": "The degree/radian conversion is done in two different ways and agrees or not for all angles at once.", "anchors": ["petrofit/segmentation.py:65-98", "petrofit/utils.py:40-47"]}
{"id": "C96", "title": "get_amplitude_at_r never fails on a number", "statement": "For every numeric radius get_amplitude_at_r returns: the fitted intensity when the isophote fit succeeds and otherwise NaN together with a warning; the container of the image does not matter.", "quantifier": "for every image, geometry, radius and every behaviour of the isophote fit", "why_tests_cant": "Quantifies over every exception the fit can raise.", "anchors": ["petrofit/segmentation.py:101-167"]}
{"id": "C97", "title": "The default interpolation is the interpolating cubic spline and stays sane", "statement": "With the default kind, profile values between measured radii are those of the unique twice continuously differentiable piecewise cubic through the measured points, cubic curves are reproduced exactly, and total_flux never exceeds the largest measured flux of a nondecreasing curve of growth.", "quantifier": "for all radii, fluxes and queries inside the measured range", "why_tests_cant": "Interpolation is only spot-checked on smooth profiles; overshoot needs a sharp bend in the curve of growth.", "anchors": ["petrofit/petrosian/core.py:294-296", "petrofit/petrosian/core.py:780-830", "petrofit/utils.py:110-155"]}
{"id": "C98", "title": "total_flux_err is the flux error of the nearest radius", "statement": "total_flux_err is the square root of the sum of squares of the flux error at the measured radius nearest to r_total_flux (the smaller of two equally near ones) and of the error of r_total_flux; it is NaN when the latter is.", "quantifier": "for every increasing radius list, flux errors and interpolation settings", "why_tests_cant": "The nearest radius changes discontinuously; ties and border radii are not covered by examples.", "anchors": ["petrofit/petrosian/core.py:795-835"]}
{"id": "C99", "title": "A generated grid is the grid that is saved", "statement": "generate_petrosian_sersic_correction returns a table that does not depend on the file system; a failing run leaves all files alone; only the named file can change; after a successful write reading the file gives the returned table; a call that returns has saved its table under the given name.", "quantifier": "for every grid of radii and indices, row generator, file state, overwrite flag and n_cpu", "why_tests_cant": "Quantifies over file states and crash points of the row generator.", "anchors": ["petrofit/petrosian/correction.py:186-340"]}
{"id": "C100", "title": "n_cpu changes only the speed", "statement": "The result of generate_petrosian_sersic_correction is the same for every n_cpu and every completion order of the workers, and processes are started exactly when more than one is requested.", "quantifier": "for every nonempty grid, n_cpu (None, bool, int) and completion order", "why_tests_cant": "Completion orders and the many spellings of n_cpu cannot be enumerated.", "anchors": ["petrofit/petrosian/correction.py:262-300", "petrofit/utils.py:171-230"]}
{"id": "C101", "title": "Errors of fraction radii are half the distance between two read-offs", "statement": "The error of a fraction radius is NaN without flux errors or without a radius; otherwise it is half the distance between the radius where the curve lowered by the flux errors reads the fraction flux plus its error and the radius where the raised curve reads it minus its error, NaN exactly when one is not reached; all-zero errors give zero.", "quantifier": "for every increasing radius list, fluxes, errors, fraction, epsilon and interpolation settings", "why_tests_cant": "Error columns are rarely compared with an independent computation; the NaN cases depend on the data.", "anchors": ["petrofit/petrosian/core.py:222-356"]}
{"id": "C102", "title": "The constructor stores what was given and rejects unequal lengths", "statement": "Petrosian(...) succeeds exactly when area, flux and error lists have acceptable lengths; then radii, areas, fluxes, errors and all settings are stored unchanged and the profile is calculate_petrosian of the stored lists.", "quantifier": "for all inputs", "why_tests_cant": "Swapped or dropped constructor arguments show only in rarely used settings.", "anchors": ["petrofit/petrosian/core.py:476-560"]}
{"id": "C103", "title": "r_epsilon_in_range tells whether the fluxes can be measured", "statement": "r_epsilon is r_petrosian*epsilon (NaN without a Petrosian radius); r_epsilon_in_range is True exactly when it lies between the smallest and largest radius. If it is True, and the flux at r_epsilon is neither negative nor above the last flux, every fraction up to epsilon_fraction has a radius inside the measured range; and if any fraction has a radius it is True.", "quantifier": "for every Petrosian object with increasing finite radii, finite fluxes and any interpolation kind with enough points", "why_tests_cant": "An equivalence between one flag and the availability of a continuum of measurements.", "anchors": ["petrofit/petrosian/core.py:757-765", "petrofit/petrosian/core.py:856-859"]}
{"id": "C104", "title": "Only r_epsilon matters, not how it splits into r_petrosian and epsilon", "statement": "fraction_to_r gives the same radius and error for r_petrosian±err with epsilon=e as for (e*r_petrosian)±(e*err) with epsilon=1.", "quantifier": "for every curve of growth, error arrays, fraction and settings", "why_tests_cant": "A relation between two calls with different parametrisations of the same aperture.", "anchors": ["petrofit/petrosian/core.py:289-319"]}
{"id": "C105", "title": "The simulated galaxies are what the grid says they are", "statement": "A grid simulation for (r_eff, n) has central brightness 100, half of its light inside r_eff, sersic_L_inf the limit of its enclosed flux, and sersic_r_20 < sersic_r_80 < sersic_r_99 enclose 20%, 80% and 100% of 0.99 sersic_L_inf.", "quantifier": "for every n > 0 and r_eff > 0", "why_tests_cant": "Continuum of parameters and a limit at infinite radius.", "anchors": ["petrofit/petrosian/correction.py:32-44", "petrofit/modeling/models.py"]}
{"id": "C106", "title": "The simulated image is the centred profile", "statement": "Without a PSF the image of a simulation is a square of twice the largest radius R and each pixel is the Sersic profile averaged over its sub-samples, at its distance from pixel [R, R]; without oversampling it is the profile at the pixel centre and pixel [R, R] is 100.", "quantifier": "for every n > 0, r_eff > 0, oversample None or positive integer, pixel", "why_tests_cant": "Holds for every pixel of images of unbounded size.", "anchors": ["petrofit/petrosian/correction.py:46-81", "petrofit/modeling/models.py", "petrofit/modeling/fitting.py"]}
{"id": "C107", "title": "The simulated apertures are complete circles on the image", "statement": "Every aperture of a simulation lies on the simulated image, so its area is pi r^2 (rounded to six decimals).", "quantifier": "for every n > 0, r_eff > 0 and every radius of the simulation", "why_tests_cant": "The defect is a fraction of a pixel at one radius, invisible in tolerance-based tests.", "anchors": ["petrofit/petrosian/correction.py:46-86", "petrofit/photometry.py"]}
{"id": "C108", "title": "A grid corrects its own simulations exactly", "statement": "If a grid contains the row of a simulation and no other row has the same (p02, u_r_50, u_c2080), the profile of that simulation is matched with its own row: estimate_n is the simulated n, and the corrected r_epsilon is the r_total_flux of the profile whose r_epsilon is the radius where the curve of growth reaches 0.99 of the total flux.", "quantifier": "for every grid with spread columns, every simulation in it, every interpolator", "why_tests_cant": "Ties generation, lookup and correction of arbitrary grids together.", "anchors": ["petrofit/petrosian/correction.py:90-167", "petrofit/petrosian/correction.py:430-560"]}
{"id": "C109", "title": "Sampling radii stay sorted and in range in floating point", "statement": "The radii at which profiles are sampled start at the smallest measured radius, end at the largest, never decrease and never leave the range, in rounded arithmetic, so that interp1d never raises because of rounding.", "quantifier": "for every range, every rounding with relative error u and every number of samples n with (n-2)(1+u)^3 <= n-1 (n up to 10^15 in double precision)", "why_tests_cant": "Depends on the rounding of every sample for every range.", "anchors": ["petrofit/utils.py:122-151"]}
{"id": "C110", "title": "closest_value_index in floating point", "statement": "The search returns the first position among the entries up to the first one that reaches the value at which the rounded distance is smallest; its distance is the smallest one up to a factor (1+u)/(1-u), and a value that occurs at the crossing is found exactly.", "quantifier": "for every finite array, value, direction and rounding", "why_tests_cant": "Rounded comparisons for all arrays.", "anchors": ["petrofit/utils.py:154-166"]}
{"id": "C111", "title": "Radii in floating point", "statement": "With rounded arithmetic r_petrosian and fraction radii never raise on increasing radii and finite data; they are NaN exactly if no sample reaches the target, and otherwise radii in the measured range where the sampled curve is closest to the target up to a factor (1+u)/(1-u).", "quantifier": "for every rounding, interpolator (with any rounding of its own), profile, eta, fraction", "why_tests_cant": "All inputs, all rounding errors.", "anchors": ["petrofit/petrosian/core.py:127-200", "petrofit/petrosian/core.py:289-315"]}
{"id": "C112", "title": "The Petrosian profile in floating point", "statement": "calculate_petrosian accepts the same finite curves of growth in rounded and in exact arithmetic, and for increasing positive areas and positive fluxes each entry has the sign of the exact Petrosian ratio and agrees with it up to a factor (1+u)^3/(1-u)^2: there is no catastrophic cancellation for given inputs.", "quantifier": "for every curve of growth and rounding", "why_tests_cant": "Error bound over all inputs.", "anchors": ["petrofit/petrosian/core.py:24-84"]}
{"id": "C113", "title": "Units do not matter, in floating point", "statement": "Multiplying all fluxes or all areas by the same positive number leaves the profile unchanged.", "quantifier": "for every curve of growth and every factor", "why_tests_cant": "Bitwise equality for all inputs.", "anchors": ["petrofit/petrosian/core.py:24-84"]}
{"id": "C114", "title": "Larger fractions have larger radii, in floating point", "statement": "The radius that contains a larger fraction of the flux is not smaller; a smaller eta does not have a smaller Petrosian radius.", "quantifier": "for every curve, pair of fractions or etas and rounding", "why_tests_cant": "Ties of rounded distances are rare.", "anchors": ["petrofit/petrosian/core.py:127-200", "petrofit/petrosian/core.py:289-315", "petrofit/utils.py:154-166"]}
{"id": "C115", "title": "Plot labels", "statement": "The legend shows the percentage of the total flux fraction, every radius that is not NaN is drawn, and the axes are labelled.", "quantifier": "for every fraction of k percent, every set of radii, every unit", "why_tests_cant": "Only some percentages are affected.", "anchors": ["petrofit/petrosian/core.py:894-933", "petrofit/petrosian/core.py:1045-1048", "petrofit/petrosian/core.py:1173", "petrofit/petrosian/core.py:1190-1197"]}
{"id": "C116", "title": "Concentration index in floating point", "statement": "The concentration index of two positive radii is a number, at least 0 when the second radius is not smaller, at most 0 when it is not larger, unchanged when both radii are multiplied by a power of two, and NaN when one radius is NaN.", "quantifier": "for every pair of radii and rounding", "why_tests_cant": "All radii.", "anchors": ["petrofit/petrosian/core.py:440-461"]}
{"id": "C117", "title": "Every grid column contains what its name says", "statement": "Each of the 30 cells of the row of a simulation is, under its column name, the quantity of that name: Sersic numbers, Petrosian radii at eta 0.2 to 0.5 and their logarithmic ratios, and epsilons, radii and concentrations of the measured and of the corrected profile.", "quantifier": "for every simulation whose row is produced, every interpolator", "why_tests_cant": "Rows and names are two lists written separately; a swap of two columns changes no test that only checks shapes.", "anchors": ["petrofit/petrosian/correction.py:90-167", "petrofit/petrosian/correction.py:297-328"]}
{"id": "C118", "title": "Epsilon columns and radius columns agree", "statement": "In a grid row u_epsilon_50, u_epsilon_80, c_epsilon_50 and c_epsilon_80 are u_r_50, u_r_80, c_r_50 and c_r_80 over the Petrosian radius.", "quantifier": "for every simulation", "why_tests_cant": "The deviation is one percent of the flux.", "anchors": ["petrofit/petrosian/correction.py:101-112", "petrofit/petrosian/correction.py:129-167"]}
{"id": "C119", "title": "A PSF model image is the oversampled model convolved with the PSF and averaged to pixels", "statement": "The value of a PSFConvolvedModel2D at a coordinate is the mean, over the psf_oversample squared PSF cells of its pixel, of the convolution of the (rotated) PSF with the wrapped model, itself averaged over (oversample/psf_oversample) squared samples per PSF cell; with a window, cells outside it are sampled once at their centre.", "quantifier": "every model, PSF, rotation, oversample and compatible psf_oversample, coordinates, cache state", "why_tests_cant": "Three resolutions and an index convention per step; tests compare single images at one setting.", "anchors": ["petrofit/modeling/models.py:353-538"]}
{"id": "C120", "title": "A PSF set without a warning conserves flux", "statement": "Assigning a PSF warns exactly when its sum is not within 5e-7 of 1 (or not a number); after a silent assignment convolution changes the flux of an image away from the borders by less than a millionth.", "quantifier": "every PSF sum, every image", "why_tests_cant": "The threshold is a rounding to six digits; ties at 5e-7.", "anchors": ["petrofit/modeling/models.py:257-263", "petrofit/modeling/models.py:524-532"]}
{"id": "C121", "title": "Rotating the PSF conserves its flux", "statement": "Setting psf_pa changes the orientation of the PSF and not its sum.", "quantifier": "every PSF and angle, every interpolation that passes through the pixels and keeps constant images", "why_tests_cant": "Tests use square PSFs and angle 0.", "anchors": ["petrofit/modeling/models.py:526-532"]}
{"id": "C122", "title": "A symmetric PSF does not move the source", "statement": "Convolution with a normalised PSF that is symmetric under a half turn keeps flux and centroid of an image away from the borders.", "quantifier": "every image and PSF shape", "why_tests_cant": "All PSFs in the tests have odd sizes.", "anchors": ["petrofit/modeling/models.py:524-532"]}
{"id": "C123", "title": "The radius list in floating point", "statement": "With rounded arithmetic make_radius_list(max_pix, n) still returns n positive, strictly increasing radii, each within a few roundings of i*max_pix/n, and ends at max_pix.", "quantifier": "every positive max_pix, every n up to a quarter of 1/u (2^51 for doubles), every rounding with bounded relative error; doubles as an instance", "why_tests_cant": "Tests use a few hand-picked values where the products are exact.", "anchors": ["petrofit/utils.py:50-57"]}
{"id": "C124", "title": "The correction grid lookup in floating point", "statement": "In rounded arithmetic the row used for the correction is nearest up to a relative error of 1e-14 in the squared distance, and a profile whose triple is in the grid gets a row with exactly this triple.", "quantifier": "every grid, triple and positive column scale (so every rounding of np.std), every rounding with bounded relative error; doubles as an instance", "why_tests_cant": "Rounding can change which of two almost equidistant rows wins; tests see one platform and one grid.", "anchors": ["petrofit/petrosian/correction.py:421-436", "petrofit/petrosian/correction.py:449-454"]}
{"id": "C125", "title": "Photometry does not depend on the orientation of the image", "statement": "radial_photometry of the transposed, mirrored or quarter-turned image (with error map and mask), at the corresponding position and angle, returns the same fluxes, areas and errors or the same exception.", "quantifier": "every image, mask, error map, position, elongation, angle and radius list; photutils methods exact, center and subpixel", "why_tests_cant": "Swapped axes are invisible for square images and centred round sources; all orientations cannot be enumerated.", "anchors": ["petrofit/photometry.py:48-72", "petrofit/photometry.py:108-227"]}
{"id": "C126", "title": "Photometry on a cutout is photometry on the image", "statement": "radial_photometry on a rectangular cutout with shifted position returns exactly what it returns on the full image, as long as the apertures lie within the cutout.", "quantifier": "every image, cutout, mask, error map and radius list", "why_tests_cant": "Offsets by one or a half pixel only show for particular sizes.", "anchors": ["petrofit/photometry.py:108-227"]}
{"id": "C127", "title": "source_photometry is photometry of the full image", "statement": "Without background subtraction source_photometry returns what radial_photometry returns on the full image at the maximum of the source with the pixels of other sources masked, also for sources at the border of the image.", "quantifier": "every image, segmentation map, source, error map and radius list whose apertures fit the cutout; with the default cutout whenever the largest radius is at most 1/2 or above 2/3 and the elongation at least 1", "why_tests_cant": "Cutouts, padding, masks and half-pixel positions interact; tests use one image.", "anchors": ["petrofit/segmentation.py:602-700", "petrofit/photometry.py:108-227"]}
{"id": "C128", "title": "Clipped pixels have no influence on the background, whatever the fitter", "statement": "fit_background with sigma: pixels that are clipped do not influence the result, for each of the documented fitters.", "quantifier": "every image, clipping rule and fitter", "why_tests_cant": "The effect of a few bright pixels on a fit is small and hidden by tolerances.", "anchors": ["petrofit/modeling/fitting.py:248-292", "petrofit/modeling/fitting.py:95-126"]}
{"id": "C129", "title": "The unit of the image does not matter", "statement": "Multiplying an image by a positive number multiplies all fluxes of radial_photometry by it and leaves areas and the Petrosian profile unchanged.", "quantifier": "every finite image, mask, error map, position, elongation, angle, radius list and factor", "why_tests_cant": "Tests use images in one unit (counts or e/s); units such as Jy or erg/s/cm2/Hz are smaller by many orders of magnitude.", "anchors": ["petrofit/photometry.py:197-227", "petrofit/petrosian/core.py:24-84"]}
{"id": "C130", "title": "Writing into an array obtained from a Petrosian object does not make its results inconsistent", "statement": "After any history of parameter assignments, reads and in-place changes of the arrays r_list, area_list, flux_list and their errors obtained from the object, every result is that of an object constructed from the arrays the attributes show.", "quantifier": "every profile, every history and every contents written", "why_tests_cant": "The getters look read-only; tests never write into what they return.", "anchors": ["petrofit/petrosian/core.py:541-562", "petrofit/petrosian/core.py:579-589", "petrofit/petrosian/core.py:662-685"]}
{"id": "C131", "title": "Source photometry with background subtraction measures the image without its sky plane", "statement": "If the background pixels of the cutout that survive clipping lie on a plane, source_photometry(bg_sub=True) returns the photometry of the full image without that plane, at the position of the source with other sources masked; for an image that is a plane plus sources vanishing on the background it is the photometry of the sources alone. With at most 10 background pixels bg_sub has no effect.", "quantifier": "every plane, image, segmentation map, source position (also where the cutout leaves the image), overlap method and clipping rule", "why_tests_cant": "The photometry tests use a single image whose sky is already zero.", "anchors": ["petrofit/segmentation.py:601-720", "petrofit/modeling/fitting.py::fit_background", "petrofit/modeling/fitting.py::model_to_image"]}
{"id": "C132", "title": "sigma_type=\"bound\" cuts at a value", "statement": "With sigma_type=\"bound\", sigma is a value: the plane is fitted to the background pixels within sigma of the mean and subtracted from the source cutout.", "quantifier": "every image and sigma", "why_tests_cant": "No test uses bg_sub with sigma_type=\"bound\".", "anchors": ["petrofit/segmentation.py:541-543", "petrofit/segmentation.py:655-675"]}
{"id": "C133", "title": "A grid row is made from the simulated image of its galaxy, all of it", "statement": "The row for (r_eff, n) is computed from apertures of radii 1 < ... < R, reaching to two pixels of 1.3 sersic_r_99 or beyond, whose fluxes and areas are the overlap-weighted sums over a 2R x 2R image of the Sersic profile around pixel [R, R] (rounded to six decimals), and its Sersic columns are the light to infinity and the radii of 20, 80 and 100 % of 0.99 of it; nothing before the row can raise.", "quantifier": "every n > 0 and r_eff > 0, every interpolator", "why_tests_cant": "Joins model, image, photometry and table; the tests load a finished grid.", "anchors": ["petrofit/petrosian/correction.py:24-184"]}
{"id": "C134", "title": "The two dimensional model holds the light that sersic_enclosed says", "statement": "The integral of GenSersic2D (c_0 = 0) over the ellipse with semi-axes r and r (1 - ellip), at any position and angle, is sersic_enclosed(r); for any boxiness c_0 > -2 the light of the model over the plane is finite, and half of it is inside the isophote with semi major axis r_eff.", "quantifier": "all n > 0, r_eff > 0, ellip < 1, c_0 > -2, amplitudes, centres, angles and radii", "why_tests_cant": "Relates a two dimensional model to a one dimensional formula through integrals over the plane; a test can only sum pixels of one image.", "anchors": ["petrofit/modeling/models.py:540-591", "petrofit/modeling/models.py:653-668"]}
{"id": "C135", "title": "Aperture photometry of a sampled profile measures the light of the profile", "statement": "If an image samples a light distribution at the pixel centres, and the distribution changes by at most L per pixel, every flux of radial_photometry (exact, aperture on the image, no mask) is within L pi r^2 / (sqrt 2 q) + 5e-7 of the light inside the aperture. In particular for n <= 1 the fluxes of every simulation of the correction grid are within 100 (b_n + 1) pi r^2 / (sqrt 2 n r_eff) + 5e-7 of sersic_enclosed(r).", "quantifier": "all light distributions with bounded gradient, apertures on the image; all r_eff and n <= 1 for simulations", "why_tests_cant": "An error bound for all images; the tests compare a few fluxes with tolerances found by trial.", "anchors": ["petrofit/photometry.py::radial_photometry", "petrofit/petrosian/correction.py:24-100"]}
{"id": "C136", "title": "r_petrosian of an image converges to the Petrosian radius of the galaxy", "statement": "Sample a galaxy with any continuous, positive profile that falls outwards, with a Petrosian ratio that falls outwards (every Sersic profile is one), and any ellipticity on the pixels of an image, run radial_photometry with its elongation and build a Petrosian from the result. For every tolerance there are a radius spacing, a resolution and a number of pixels per ring beyond which r_petrosian differs from the Petrosian radius of the galaxy (in galaxy units) by at most the tolerance, for every list of radii, frame, centre and angle. The radius is stable: errors in the Petrosian profile and the radius spacing below a threshold move it by less than the tolerance, even where the inner profile is wrong by a large amount in the upward direction.", "quantifier": "all continuous positive profiles with falling brightness and falling Petrosian ratio, ellipticities in [0, 1), eta with a true radius, tolerances, interpolations that stay between the nodes, centres, angles and frames containing the apertures", "why_tests_cant": "A limit over all images, radii lists and interpolations; tests compare a few simulated galaxies with loose tolerances.", "anchors": ["petrofit/photometry.py::radial_photometry", "petrofit/petrosian/core.py::calculate_petrosian", "petrofit/petrosian/core.py::calculate_petrosian_r"]}
{"id": "C137", "title": "Radii of flux fractions of an image converge to those of the galaxy", "statement": "In the setting of C136, fraction_flux_to_r for any fraction (so r_half_light, r_total_flux, r_20, r_80) computed from the photometry of an image converges to the radius of the galaxy holding that fraction of the light inside epsilon times its Petrosian radius. The map from fluxes and Petrosian radius to the fraction radius is stable under errors of both.", "quantifier": "all continuous positive profiles with falling brightness and falling Petrosian ratio, ellipticities in [0, 1), eta, epsilon, fractions with a true radius, tolerances, interpolations that stay between the nodes, centres, angles and frames containing the apertures", "why_tests_cant": "A limit over all images, radii lists and interpolations; tests compare a few simulated galaxies with loose tolerances.", "anchors": ["petrofit/photometry.py::radial_photometry", "petrofit/petrosian/core.py::fraction_to_r", "petrofit/petrosian/core.py::Petrosian.fraction_flux_to_r"]}
{"id": "C138", "title": "The correction grid converges to the true Sersic numbers", "statement": "Simulate a Sersic galaxy of index n as generate_petrosian_sersic_correction does, with any PSF without negative pixels that sums to 1 and any oversampling, or without. For every tolerance there is an r_eff from which on the simulation gives a row (not the NaN row, no exception), and in units of r_eff p02, p03, p04, p05 are the radii where the Petrosian ratio of the Sersic profile is 0.2 to 0.5, c_r_20, c_r_50, c_r_80 and c_r_99 are the radii of 20, 50, 80 and 99 percent of its light, and c_epsilon is the radius of 99 percent over the Petrosian radius, all within the tolerance.", "quantifier": "all n >= 1/2, tolerances; the cubic spline of scipy (or any interpolation that stays between the nodes, or overshoots in a controlled way) for \"cubic\", any that stays between the nodes for \"linear\"", "why_tests_cant": "A limit over r_eff, for every n and tolerance; tests read a shipped grid.", "anchors": ["petrofit/petrosian/correction.py:18-181", "petrofit/petrosian/core.py", "petrofit/photometry.py"]}
{"id": "C139", "title": "True and corrected radii of the correction grid agree", "statement": "In a row of the grid the corrected radii c_r_20, c_r_80 and c_r_99 approach the true radii sersic_r_20, sersic_r_80 and sersic_r_99 of the same row, up to any fraction of r_eff, as r_eff grows.", "quantifier": "all n >= 1/2; the cubic spline of scipy (or any interpolation that stays between the nodes) for \"cubic\"", "why_tests_cant": "A limit over r_eff; the deviation is one percent of the flux.", "anchors": ["petrofit/petrosian/correction.py:36-45", "petrofit/petrosian/correction.py:129-167"]}
{"id": "C140", "title": "Background fits follow a change of unit and zero point", "statement": "If every pixel of an image is replaced by a * pixel + b (a not 0; b any zero point), sigma clipping masks the same pixels and fit_background returns a times the old plane plus b. The centre used by the clipping is a median: at least half of the values are not above and at least half are not below it.", "quantifier": "all images (NaN and infinite pixels included), a != 0, b, sigma=None or sigma^2 > 2, linear least-squares fitters", "why_tests_cant": "All units and zero points for all images; iterated clipping depends on every pixel.", "anchors": ["petrofit/modeling/fitting.py:248-292"]}
{"id": "C141", "title": "Sigma clipping leaves the background and removes the sources", "statement": "fit_background never clips everything: at least the fraction (1 - 2/sigma^2)^5 of the finite pixels (28 % for sigma=3) stays in the fit. When sources sit on a constant background, the clipping removes them and the fit is exactly that background.", "quantifier": "all images, sigma^2 >= 2; sources in a small fraction of the pixels", "why_tests_cant": "A counting bound for every image; the failing case needs sources of six different strengths.", "anchors": ["petrofit/modeling/fitting.py:248-292"]}
{"id": "C142", "title": "A bad aperture has only local influence on the default interpolation", "statement": "On radii whose gaps differ by a bounded factor, the default cubic interpolation of a profile or curve of growth leaves the interval of the two neighbouring data values by at most a fixed multiple of the largest difference of neighbouring values nearby, plus a term that falls geometrically with the number of apertures to the nearest larger jump. Two curves that agree except at far away apertures are interpolated to nearly the same values.", "quantifier": "all radii lists, data, queries and positions of the bad apertures", "why_tests_cant": "The not-a-knot spline couples every value with every other; the decay must hold for all lengths.", "anchors": ["petrofit/petrosian/core.py:294-296", "petrofit/petrosian/core.py:787", "petrofit/utils.py:122-151"]}
{"id": "C143", "title": "The documented recipe converges to the radii of the galaxy", "statement": "With r_list = make_radius_list(max_pix, n), radial_photometry on these radii and Petrosian with its default cubic interpolation, r_petrosian, r_half_light, r_total_flux and every other fraction radius come as close as desired to the radii of the galaxy when there are enough apertures, the sampling is fine enough and enough pixels lie between neighbouring apertures.", "quantifier": "all galaxy profiles with a falling Petrosian ratio (all Sersic profiles), ellipticities, position angles, frames, sub-pixel centres, eta, epsilon, epsilon_fraction, fractions and tolerances", "why_tests_cant": "A limit statement over all images; tests check a few images at one resolution.", "anchors": ["petrofit/utils.py:50-57", "petrofit/photometry.py:108-216", "petrofit/petrosian/core.py:24-84", "petrofit/petrosian/core.py:240-322", "petrofit/petrosian/core.py:476-589"]}
{"id": "C144", "title": "Total flux and concentration of an image converge to those of the galaxy", "statement": "With the documented recipe (make_radius_list, radial_photometry, Petrosian with cubic interpolation) r_total_flux, total_flux per pixel area and concentration_index for any two fractions get as close as wanted to the values of the light distribution, once there are enough radii and the galaxy is sampled finely enough. The interpolated curve of growth is close to the true one everywhere between the radii.", "quantifier": "every round or elliptical light distribution with positive decreasing profile, every ellipticity and position angle, every eta, epsilon, epsilon_fraction, total flux fraction and pair of fractions whose radii are inside the aperture range, every tolerance", "why_tests_cant": "A test images one galaxy at one resolution and accepts a few per cent; it cannot say that the remaining error goes away, nor for which profiles.", "anchors": ["petrofit/petrosian/core.py:768-790 (r_total_flux, total_flux)", "petrofit/petrosian/core.py:359-460 (calculate_concentration_index)", "petrofit/photometry.py:108-227 (radial_photometry)", "petrofit/utils.py:50-57 (make_radius_list)"]}
{"id": "C145", "title": "plot_fit shows the data on a sensible scale", "statement": "Without vmin and vmax the three panels of plot_fit share the limits -3σ..3σ with σ the larger of the standard deviations of data and model, so they never depend on the zero points of the images and follow the unit. Almost all data and residual pixels lie inside the limits, and given limits draw.", "quantifier": "every image and model image of any size with finite values; every vmin, vmax", "why_tests_cant": "Whether pixels fall off the scale depends on the whole distribution of pixel values; a rendering test looks at one image that was background subtracted.", "anchors": ["petrofit/modeling/fitting.py:432-436", "petrofit/modeling/fitting.py:438-455"]}
{"id": "C146", "title": "match_catalogs finds the nearest source on the sky", "statement": "For every source of the first catalogue match_catalogs returns the index of a source of the second catalogue with the smallest angle on the sky, and that angle. Adding whole turns to right ascensions changes nothing, matching a catalogue to itself gives zero distances (and the identity when positions are distinct), and unusable input (empty second catalogue, unequal lengths, declination outside -90..90) is a ValueError.", "quantifier": "all pairs of catalogues of any lengths and positions, including poles, antipodes and the wrap of right ascension; every nearest-neighbour tree that answers correctly", "why_tests_cant": "Nearest in the tree is nearest by chord of unit vectors; that this is nearest on the sky and that the reported angle is the angle is a statement about all pairs of directions, where tests sample a small field.", "anchors": ["petrofit/utils.py:78-82 (match_catalogs)"]}
{"id": "C147", "title": "Aperture photometry in floating point", "statement": "In floating point radial_photometry returns the weighted sums over the pixels up to the rounding to six decimals and a few dozen relative rounding errors, whatever the size of the image, fails for no finite image on which exact arithmetic succeeds, and its areas never decrease with the radius, so that calculate_petrosian accepts them.", "quantifier": "every finite image, mask, error map, centre, elongation, angle and list of radii, every non-negative pixel weights, every rounding with bounded relative error (binary64 in particular), with the summation order of numpy", "why_tests_cant": "Rounding errors depend on the order in which numpy adds, which changes with the number of pixels; tests compare with a tolerance and see a handful of apertures.", "anchors": ["petrofit/photometry.py:108-227 (radial_photometry)", "petrofit/photometry.py:48-72 (radial_elliptical_aperture)", "petrofit/petrosian/core.py:54-62"]}
{"id": "C148", "title": "The documented recipe converges in floating point", "statement": "For every galaxy the documented recipe (aperture photometry on a pixel image, Petrosian profile, Petrosian radius, radius of a fraction of the flux), carried out with a rounding after every operation, gives radii as close to the true ones as wanted once the apertures are fine, the image is large enough and the rounding is small enough. All steps succeed.", "quantifier": "every strictly falling brightness profile with falling Petrosian ratio, every ellipticity, eta, epsilon, fraction, accuracy, image scale above a threshold, frame, centre, angle, pixel noise below a threshold, overlap method, rounding with small relative error, list of fine and even representable radii, number of grid points, and interpolation kind that overshoots by a bounded multiple of the data steps up to its own rounding", "why_tests_cant": "The result mixes discretisation, rounding to six decimals, summation errors, spline overshoot and a grid search with strict comparisons; a test samples one profile at one scale in one arithmetic.", "anchors": ["petrofit/photometry.py:108-227", "petrofit/petrosian/core.py:24-124 (calculate_petrosian)", "petrofit/petrosian/core.py:127-219 (calculate_petrosian_r)", "petrofit/petrosian/core.py:222-356 (fraction_to_r)", "petrofit/utils.py:75-142"]}
{"id": "C149", "title": "The drawing and printing helpers show what they were given", "statement": "plot_target marks the position in the middle of a window of the requested size, and without a size shows the whole image; plot_apertures draws every aperture once, in order, over the image, accepts no apertures, and sets a title only if something was drawn; plot_segments changes nothing but the figure; print_model_params prints every parameter with its own name and a value that can be told apart from others.", "quantifier": "every image shape, position, size, list of apertures, style, state of the random generator, list of parameters", "why_tests_cant": "Figures are not checked by tests, the state of the global random generator is invisible in them, and printed output is compared for one model.", "anchors": ["petrofit/utils.py:169-208 (plot_target)", "petrofit/photometry.py:15-45 (plot_apertures)", "petrofit/segmentation.py:37-53 (plot_segments)", "petrofit/modeling/fitting.py:324-327 (print_model_params)"]}
{"id": "C150", "title": "Reported photometric and profile errors are honest under pixel noise", "statement": "For an image with uncorrelated pixel noise of any law whose standard deviations are the error map: the expected aperture flux is the flux of the expected image; its variance is at most the square of the error the code computes, with equality for method center; so the returned flux misses the true one by t returned errors with probability at most 1/t². The errors of rings and of the Petrosian profile are the standard deviations of those quantities (to first order).", "quantifier": "every probability space and uncorrelated noise law, mean image, error map, mask, geometry, list of radii, lawful overlap method, t > 0", "why_tests_cant": "Tests use one noiseless image; a statement about the distribution of the result over all noise realisations cannot be sampled.", "anchors": ["petrofit/photometry.py:200-227 (error argument of radial_photometry)", "petrofit/petrosian/core.py:85-121 (calculate_petrosian errors)"]}
{"id": "C151", "title": "The documented recipe is statistically consistent", "statement": "Take a galaxy of any falling profile, sampled with s pixels to the unit of length, plus uncorrelated mean-zero pixel noise with variances at most v, of any law and size. For every tolerance, with enough apertures n, the probability that make_radius_list, radial_photometry and Petrosian with cubic interpolation raise, or return an r_petrosian or a fraction_flux_to_r further than the tolerance from the radius of the galaxy, is at most v K / s², with K independent of noise, frame, place and angle.", "quantifier": "every galaxy profile, ellipticity < 1, angle, place on a frame holding the largest aperture, eta, epsilon, fractions, tolerance, number of apertures beyond a bound, scale beyond a bound, probability space, uncorrelated noise law, interpolation resolution", "why_tests_cant": "Tests run the recipe on a few noiseless or single noisy images; a bound on the probability of a wrong radius over all noise laws, and its rate, cannot be sampled.", "anchors": ["petrofit/utils.py:50-59 (make_radius_list)", "petrofit/photometry.py:108-227 (radial_photometry)", "petrofit/petrosian/core.py:24-356 (calculate_petrosian, calculate_petrosian_r, fraction_to_r)", "petrofit/petrosian/core.py:464-1000 (Petrosian)"]}
{"id": "C152", "title": "A background plane fitted to a noisy image is unbiased, has the least variance and converges", "statement": "fit_background(image, sigma=None) with a plane model, applied to a plane plus uncorrelated pixel noise of any law: the fit returns for every realisation, its expected value at every point is the true plane, no other unbiased weighted sum of the pixels has a smaller variance, the variances at the N fitted pixels add up to 3 sigma², the expected squared residuals are (N-3) sigma², and the mean square error exceeds t² with probability at most 3 sigma²/(N t²). With the default sigma clipping the fit is biased.", "quantifier": "every probability space and uncorrelated noise law, plane, image size, set of NaN pixels that leaves three pixels off a line, lawful linear fitter", "why_tests_cant": "Tests fit one noiseless image; a statement about the distribution of the fit over all noise realisations cannot be sampled.", "anchors": ["petrofit/modeling/fitting.py:248-292 (fit_background)", "petrofit/modeling/fitting.py:87-172 (fit_model)"]}
{"id": "C153", "title": "fit_model recovers the parameters of a noiseless Sersic image", "statement": "For an image that is exactly a Sersic model inside the default bounds: whatever the start, weights, mask and NaN pixels, a best fit returned by fit_model has the values of the image at every pixel with nonzero weight. With the geometry held fixed and three fitted pixels at different elliptical radii the fit is the true model; with the centre held fixed at a pixel, five fitted pixels around it determine amplitude, effective radius, index, ellipticity, and the angle up to half turns. The angle itself is never determined: every best fit inside the default bounds has a twin with another angle.", "quantifier": "every in-bounds Sersic model with positive amplitude, image size, NaN pixels, mask, weights, starting model, and fitter that returns a global least-squares solution", "why_tests_cant": "Uniqueness of the solution of a nonlinear least-squares problem quantifies over a continuum of parameters; a test can only show that one start reached one answer.", "anchors": ["petrofit/modeling/fitting.py:31-126 (fit_model)", "petrofit/modeling/models.py:73-83 (get_default_sersic_bounds)"]}
{"id": "C154", "title": "Oversampling converges to the light on the pixels", "statement": "For every continuous model (every Sersic model is one), coordinates one pixel apart and every tolerance, there is a factor from which on every integer oversample gives at each coordinate the integral of the model over that pixel; with a PSF, the PSF convolved with the integrals over the PSF cells of the image, averaged to pixels. The error with factor k is at most (Lx+Ly)/(4k) for a model that changes by at most Lx, Ly per pixel, and at most (Bx+By)/(24k^2) for second derivatives up to Bx, By, which x^2+y^2 attains. No fixed factor is enough: for every factor there is a small enough galaxy whose sampled value exceeds its light on the pixel by any ratio.", "quantifier": "all continuous models, parameter values, coordinates, PSFs, PSF angles, tolerances, and factors from the threshold on", "why_tests_cant": "A limit statement: tests compare a few factors on a few models, and cannot show that a larger factor always helps nor how large the error is.", "anchors": ["petrofit/modeling/models.py:266-295 (oversample)", "petrofit/modeling/models.py:328-480 (evaluate)"]}
{"id": "C155", "title": "Plotting functions draw on the axes they are given", "statement": "plot and plot_cog of a Petrosian draw data, title and ticks on the axes passed (the current axes if none), return it, and change no other axes. plot_fit makes its own three panels (data, model, residual, with the same limits and tick frame) and a fourth axes exactly for the colour bar, and changes nothing that was there before.", "quantifier": "every Petrosian object, set of axes of any number of figures, current axes, axes passed, labels, images and limits", "why_tests_cant": "Whether another figure was changed depends on the global state of matplotlib when the function is called; tests never look at figures.", "anchors": ["petrofit/petrosian/core.py:992-1063 (plot)", "petrofit/petrosian/core.py:1127-1207 (plot_cog)", "petrofit/utils.py:240-263 (mpl_tick_frame)", "petrofit/modeling/fitting.py:434-476 (plot_fit)"]}
{"id": "C156", "title": "Apertures of different shapes are consistent", "statement": "The photometry with elliptical apertures (elongation q >= 1) lies between that with circular apertures of the semi-minor and of the semi-major axes: flux, area and error are in this order and success carries over outwards; a rounder aperture holds at least as much; the angle of a circular aperture, half turns, and a quarter turn with exchanged axes change nothing; the radii at which elliptical and circular curves of growth reach a flux agree within a factor q.", "quantifier": "every image with finite non-negative used pixels (equalities: every image), mask, error map, position, radius list, elongation and angle; photutils methods exact, center and subpixel", "why_tests_cant": "A test compares a few angles and elongations of one source; an exchanged axis or a degree/radian slip is invisible for round sources.", "anchors": ["petrofit/photometry.py:48-72", "petrofit/photometry.py:108-227"]}
{"id": "C157", "title": "Shape and size conversions in floating point", "statement": "In floating point ellip_to_elong and elong_to_ellip keep their ranges and their order, a round trip changes an ellipticity by at most 5 u and an elongation q by at most 8 u q^2 (u the unit roundoff); pixels survive pixel_to_angular and angular_to_pixel up to 2 u + u^2; elliptical_area_to_r returns an ellipse with the given area up to 15 u, and for elongation one the very number circle_area_to_r returns.", "quantifier": "every rounding with unit roundoff u (binary64 included, no overflow or underflow), every ellipticity in [0,1), elongation >= 1, pixel count, scale and area", "why_tests_cant": "Rounding errors depend on every bit of the input; tests look at a few round values.", "anchors": ["petrofit/utils.py:40-47", "petrofit/utils.py:85-119"]}
{"id": "C158", "title": "Pixels of model images in floating point", "statement": "model_to_image(model, (nx, ny), center=(cx, cy)) returns an ny x nx image whose pixel [j, i] is the value of the model at (cx - nx // 2 + i, cy - ny // 2 + j), also when coordinates are floating-point numbers and the model is wrapped in PSFConvolvedModel2D. For whole and other dyadic centres this holds exactly; for any centre a plain model is evaluated within 6 u R (i + 1) of that point, and a wrapped model at that pixel or a neighbour one index lower.", "quantifier": "every rounding with unit roundoff u (binary64 included), every centre with |centre| + size + 1 <= R, every image size, every model", "why_tests_cant": "Whether a difference of two coordinates falls just below a whole number depends on the last bit; a test with a whole or half centre never sees it.", "anchors": ["petrofit/modeling/fitting.py:168-245", "petrofit/modeling/models.py:97-117", "petrofit/modeling/models.py:353-538"]}
{"id": "C159", "title": "A PSF moves a curve of growth by at most its reach", "statement": "Convolving a non-negative image with a non-negative PSF of total at most 1 that is zero farther than s pixels (s/q for elliptical apertures of elongation q) from its centre pixel gives a curve of growth (radial_photometry) that at every radius r is at most that of the image at r+s. If the PSF has total at least 1 and no light is pushed off the image, the curve of growth of the image at r is at most that of the convolved image at r+s; hence radii at which a flux is reached (half-light, total-flux, percentage radii) agree within s. On square images PSFConvolvedModel2D with a PSF (not oversampled, not rotated) gives, in model_to_image, exactly the convolution of the image without PSF, for any oversampling including windows, so the statement holds for model images.", "quantifier": "all images, PSFs, centres, elongations >= 1, angles, radii lists, and the exact, center and subpixel methods; all wrapped models, parameters, sizes, centres, oversampling settings", "why_tests_cant": "Tests compare one galaxy with one PSF at a handful of radii; a convolution that is off by one pixel, normalised wrongly or applied at the wrong resolution moves light by less than test tolerances and shows up only for asymmetric PSFs or radii not sampled.", "anchors": ["petrofit/modeling/models.py:524-536", "petrofit/modeling/fitting.py:168-245", "petrofit/photometry.py:108-227"]}
{"id": "C160", "title": "The correction grid does not depend on PSF and oversampling for large galaxies", "statement": "Run the simulation of generate_petrosian_sersic_correction for the same Sersic index with two choices of psf, oversample and psf_oversample. For every tolerance there is an r_eff from which on both give a row, the columns p02 to p05, c_r_20, c_r_50, c_r_80 and c_r_99 of the two rows agree up to that fraction of r_eff, and the columns c_epsilon agree up to the tolerance. The default oversample=(\"x_0\", \"y_0\", 10, 50) is such a choice, and so is every PSF without negative pixels that sums to 1, of any size and shape, at any resolution that divides the oversampling factor.", "quantifier": "all n >= 1/2, tolerances, pairs of settings accepted by PSFConvolvedModel2D with a non-negative PSF of sum 1 and an oversampling window that starts on the image; cubic spline and linear interpolation as in scipy", "why_tests_cant": "A limit over r_eff for all PSFs and oversampling windows; tests run one simulation.", "anchors": ["petrofit/petrosian/correction.py:18-181", "petrofit/petrosian/correction.py:184-294", "petrofit/modeling/models.py:166-192", "petrofit/modeling/models.py:353-560"]}
{"id": "C161", "title": "The documented recipe converges whatever the PSF", "statement": "Take an image in which every pixel shows an average of the light of a galaxy over places within a fixed number of pixels, a different average for each pixel if need be: light collected on the area of the pixel, seeing, a PSF that varies over the image. With make_radius_list, radial_photometry and Petrosian with its default interpolation, r_petrosian, every fraction radius (r_half_light, r_total_flux), total_flux and the concentration index come as close as desired to those of the galaxy without PSF, once there are enough apertures and the galaxy is large enough in pixels. The same holds for the images that model_to_image makes of PSFConvolvedModel2D with any PSF without negative pixels and sum 1 and any oversampling, integer or window.", "quantifier": "all galaxy profiles with falling brightness and Petrosian ratio (all Sersic profiles), ellipticities, angles, centres, frames with room for the apertures, eta, epsilon, epsilon_fraction, fractions, tolerances; all families of averages of bounded reach; all wrapped models with such a profile, PSFs, oversampling settings accepted by the constructor with a window inside the image", "why_tests_cant": "A limit over resolutions for all PSFs and galaxies; tests compare one simulated galaxy with a loose tolerance.", "anchors": ["petrofit/utils.py", "petrofit/photometry.py:108-227", "petrofit/petrosian/core.py", "petrofit/modeling/models.py:353-560", "petrofit/modeling/fitting.py:168-245"]}
{"id": "C162", "title": "Noise and PSF together: the documented recipe is statistically consistent", "statement": "Let an image show a galaxy through a PSF of bounded reach, possibly varying over the image, and let its pixels be random with these means, correlated so that the absolute covariances of each pixel with the others sum to at most v. With make_radius_list, radial_photometry and Petrosian with its default interpolation, the probability that the recipe raises or that r_petrosian or a fraction radius misses the value of the galaxy by more than a tolerance is at most v K / s^2, where s is the size of the galaxy in pixels and K does not depend on image, noise or s. It covers exposures with uncorrelated noise that are resampled, smoothed or stacked with a nonnegative kernel. Without randomness, the recipe in floating point arithmetic finds the radii of the galaxy through the PSF up to the tolerance.", "quantifier": "all galaxy profiles with falling brightness and Petrosian ratio, geometries, eta, epsilon, epsilon_fraction, fractions, tolerances; all probability spaces and noise laws with finite variance; all kernels; all roundings of small enough relative error", "why_tests_cant": "A statement about probabilities for all noise laws; a test sees some draws of one law.", "anchors": ["petrofit/utils.py", "petrofit/photometry.py:108-227", "petrofit/petrosian/core.py"]}
{"id": "C163", "title": "Total flux and concentration are statistically consistent", "statement": "On images that show a galaxy through a PSF with correlated noise, as in C162, the probability that the recipe raises, or that r_total_flux, total_flux, or the radii and index of concentration_index miss those of the galaxy by more than a tolerance, is at most v K / s^2.", "quantifier": "all galaxy profiles with falling brightness and Petrosian ratio, geometries, eta, epsilon, epsilon_fraction, total_flux_fraction, pairs of fractions, tolerances; all probability spaces and noise laws with finite variance and bounded sums of covariances; all PSFs of bounded reach", "why_tests_cant": "A statement about probabilities for all noise laws; a test sees some draws of one law.", "anchors": ["petrofit/utils.py", "petrofit/photometry.py:108-227", "petrofit/petrosian/core.py"]}
{"id": "C164", "title": "The sky can be fitted and subtracted", "statement": "An image shows a galaxy through a PSF on a sky plane of any brightness and slope, with noise that may be correlated. fit_background(image, sigma=None) is given the sky pixels (the others are NaN), the fitted plane is made into an image by model_to_image and subtracted. If the sky pixels are spread over the frame (a plane is nowhere on the frame much larger than its root mean square on them) and have little light of the galaxy, then the fit returns for every realisation, and the probability that the documented recipe on the subtracted image raises, or misses r_petrosian, a fraction radius, total_flux or the concentration index of the galaxy by more than a tolerance, is at most v K / s^2, where K does not depend on sky, noise, image or s. Sky pixels placed symmetrically, such as the corners of the frame, are spread well enough.", "quantifier": "all galaxy profiles with falling brightness and Petrosian ratio, geometries, eta, epsilon, epsilon_fraction, fractions, tolerances; all skies that are planes; all probability spaces and noise laws with finite variance and bounded sums of covariances; all PSFs of bounded reach; all sets of sky pixels with the spread; every fitter that solves linear least squares", "why_tests_cant": "A statement about probabilities for all skies and noise laws; a test sees some draws with one sky.", "anchors": ["petrofit/modeling/fitting.py", "petrofit/utils.py", "petrofit/photometry.py:108-227", "petrofit/petrosian/core.py"]}
{"id": "C165", "title": "fit_model is stable under noise", "statement": "The image of the model returned by fit_model is, in the weighted sum of squares over the fitted pixels, at most twice as far (root) from the image of the true model as the data are. For a Sersic model inside the default bounds (amplitude and r_eff unbounded above), with the geometry fixed and three fitted pixels at different radii, or with only the centre fixed and five fitted pixels at and next to it: a best fit exists when the data are close enough to the image of the model; for every eps there is an eta such that data within eta of the image of the model give amplitude, r_eff, n and ellipticity within eps of the true ones, and the angle within eps up to half turns unless the galaxy is round; and with noise of any law the fit is off by more with a probability of at most (weighted noise power)/eta. So the fit is consistent: as the noise goes to zero the parameters converge in probability.", "quantifier": "all families of models (first sentence); all true parameters inside the default bounds with positive amplitude, all image shapes, NaN patterns, masks and weights, all data, all eps, all noise laws with finite second moments, every fitter that returns a global minimum", "why_tests_cant": "There is no upper bound on amplitude and r_eff, so stability is a compactness statement about infinitely many parameters; a test fits some images with one seed.", "anchors": ["petrofit/modeling/fitting.py:31-110", "petrofit/modeling/models.py:73-83", "petrofit/modeling/models.py:581"]}
{"id": "C166", "title": "The Sersic fit with all parameters free is statistically consistent", "statement": "Images of a Sersic galaxy with N times N times (H x W) pixels and noise in every pixel whose size does not depend on N (any law with mean zero and bounded sums of covariances). fit_model fits amplitude, r_eff, n, x_0, y_0, ellip and theta inside bounds that keep the galaxy on the frame. Then a best fit exists for every image, and as N grows the probability that amplitude, n, ellip, r_eff/N, x_0/N, y_0/N, or theta up to half turns (if the galaxy is not round), is off by more than eps goes to zero, whatever pixels are NaN or masked as long as their fraction goes to zero. The same holds for every family of models that is continuous in parameters and position, with parameters from a compact set, where different parameters give different scenes.", "quantifier": "all true parameters inside the bounds with positive amplitude, all bounds with positive r_eff and n, ellip in [0,1) and centre on the frame, all frame shapes, all noise laws with bounded sums of covariances, all NaN and mask patterns of vanishing fraction, every fitter that returns a global minimum, all eps; all identifiable continuous families", "why_tests_cant": "Convergence in probability over all noise laws and all parameters; a test fits some images with one seed.", "anchors": ["petrofit/modeling/fitting.py:31-110", "petrofit/modeling/models.py:73-83", "petrofit/modeling/models.py:581"]}
{"id": "C167", "title": "The Sersic fit with a PSF is statistically consistent, whatever the PSF", "statement": "A Sersic galaxy is imaged through a telescope PSF on N times N times (H x W) pixels with noise in every pixel whose size does not depend on N. fit_model fits a PSFConvolvedModel2D of a Sersic2D to the images: all seven Sersic parameters inside bounds that keep the galaxy on the frame, and psf_pa. The PSF of the model (normalised, not negative, at most R pixels, with any psf_oversample, or none) and its oversampling may differ from the PSF and sampling of the data. As N grows the probability that amplitude, n, ellip, r_eff/N, x_0/N, y_0/N or theta (up to half turns) is off by more than eps goes to zero. This also holds with any weights that are bounded and, but for a vanishing fraction of pixels, bounded away from zero, and for a fitter that stops before the best fit, as long as what it leaves of the sum of squares is small compared with the number of pixels. With psf_pa fixed a best fit exists for every image with a pixel that is not NaN. The same holds for every identifiable continuous family of models inside a PSFConvolvedModel2D.", "quantifier": "all true parameters inside the bounds with positive amplitude, all frame shapes, all PSFs of bounded size for the data and for the model, all integer oversampling factors, all noise laws with bounded sums of covariances, all NaN and mask patterns of vanishing fraction (also those that cut the PSF grid), all such weights (also wrong ones), every fitter that returns an almost best fit, all eps", "why_tests_cant": "Convergence in probability over all noise laws, PSFs and parameters; a test fits some images with one seed and one PSF.", "anchors": ["petrofit/modeling/models.py:353-538", "petrofit/modeling/fitting.py:31-110", "petrofit/modeling/models.py:97-117"]}
{"id": "C168", "title": "The Sersic fit with an oversampling window that follows the centre is statistically consistent", "statement": "As C167, for a PSFConvolvedModel2D with oversample=('x_0', 'y_0', size, factor), with or without a PSF: the window of oversampled pixels moves by whole pixels as the fitter moves the centre, so the values of the model jump. If the bounds keep the centre away from the borders and the first and last row and column of the image each have a pixel that is not NaN, then evaluate has values for all allowed parameters on all large enough images (it raises on small ones, where the window leaves the frame), and all fitted parameters converge to the true ones in probability. A best fit need not exist, but for every tolerance an almost best fit does, and those converge as well, as long as the tolerance is small compared with the number of pixels.", "quantifier": "all true parameters inside the bounds with positive amplitude, all window sizes and factors, all PSFs of bounded size for the data and for the model (or none), all noise laws with bounded sums of covariances, all NaN and mask patterns of vanishing fraction that leave a pixel in each border row and column, all weights as in C167, every fitter that returns an almost best fit, all eps", "why_tests_cant": "Convergence in probability over all noise laws, PSFs and parameters, for models with jumps; a test fits some images with one seed.", "anchors": ["petrofit/modeling/models.py:133-140", "petrofit/modeling/models.py:353-538", "petrofit/modeling/fitting.py:31-110"]}
{"id": "C169", "title": "Fits of several Sersic galaxies and the sky at once are statistically consistent", "statement": "Let the model be the sum of k Sersic2D models and, optionally, a Const2D sky, wrapped in PSFConvolvedModel2D. If the true galaxies have positive amplitude, the bounds keep the centres strictly inside the image, the indices above 1/2, and any two galaxies apart in the centre or in the index (so that a bulge and a disk may share the centre), then two choices of parameters inside the bounds that give the same light belong to the same galaxies in the same order, and all parameters of all galaxies and the sky converge in probability to the true ones as the sampling of the scene is refined, whatever the PSFs, noise laws, weights, masks and NaN pixels. If the bounds do not keep the galaxies apart this fails: exchanging two galaxies gives the same values, so a best fit may return them in the wrong order.", "quantifier": "all k, all true parameters inside the bounds with positive amplitude, all PSFs of bounded size for the data and for the model, all noise laws with bounded sums of covariances, all weights between positive constants, all NaN and mask patterns of vanishing fraction, every fitter that returns an almost best fit, all eps", "why_tests_cant": "Convergence in probability for all numbers of galaxies, noise laws, PSFs and parameters; a test fits one image with one seed.", "anchors": ["petrofit/modeling/models.py:117-222", "petrofit/modeling/models.py:353-538", "petrofit/modeling/fitting.py:31-110", "docs/multi_object.ipynb"]}
{"id": "C170", "title": "Parameter names of a sum of models wrapped in PSFConvolvedModel2D", "statement": "For a sum of astropy models with distinct parameter names, the parameters of the sum are named name_0, name_1, ...; these are distinct and differ from psf_pa, so PSFConvolvedModel2D adds its parameter without hiding any, the wrapper takes over all values, bounds and fixed flags under the same name and gives them back, and evaluating it evaluates each model at its own parameters. An oversampling window centred on 'x_0_i', 'y_0_i' follows model i. The bare names 'x_0', 'y_0' of the documentation of a single model give an AssertionError for a sum.", "quantifier": "all numbers of models, all parameter names without repetition within a model, all values", "why_tests_cant": "All names, including those that end in digits or underscores, and all numbers of models with indices of several digits; a test wraps one or two sums.", "anchors": ["petrofit/modeling/models.py:122", "petrofit/modeling/models.py:166-222", "petrofit/modeling/models.py:353-390", "petrofit/modeling/models.py:439-490"]}
{"id": "C171", "title": "Fits of several galaxies with an oversampling window around one of them are statistically consistent", "statement": "As C169, for a PSFConvolvedModel2D of a sum of models with oversample=('x_0_i', 'y_0_i', size, factor), with or without a PSF: the window follows galaxy i, evaluate has values for all allowed parameters on all large enough images, and the parameters of all galaxies, including those outside the window, and the sky converge in probability to the true ones.", "quantifier": "all numbers of galaxies, all i, all window sizes and factors, and all else as in C169, for images whose first and last row and column each have a pixel that is not NaN", "why_tests_cant": "Convergence in probability for all numbers of galaxies, noise laws, PSFs and parameters, for models with jumps; a test fits one image with one seed.", "anchors": ["petrofit/modeling/models.py:117-222", "petrofit/modeling/models.py:353-538", "petrofit/modeling/fitting.py:31-110"]}
{"id": "C172", "title": "Small errors of the data and of the computed model values give small errors of the fitted parameters", "statement": "As C169, but the mean of the data may differ from the image of the galaxies (neighbours that are not fitted, a sky that is not flat), evaluate may return values with errors (rounding, approximate special functions), and the fitter may stop before the smallest sum of squares. For every eps > 0 and rho > 0 there is a delta > 0 such that, if the mean squared deviation of the data per unit of the scene, every error of a value and the excess of the sum of squares per unit of the scene are at most delta, then all parameters of all galaxies and the sky are within eps of the true ones with probability at least 1 - rho on all large enough images.", "quantifier": "all eps and rho, all deviations, rounding errors and stopping rules up to delta, and all else as in C169 or, with an oversampling window around one of the galaxies, as in C171; delta does not depend on the noise law (only on its bound), the PSFs, the fitter or the deviations themselves", "why_tests_cant": "A statement for all small perturbations of the data and of the floating point evaluation, in the limit of large images; a test perturbs one image.", "anchors": ["petrofit/modeling/models.py:353-538", "petrofit/modeling/fitting.py:31-110", "docs/multi_object.ipynb"]}
{"id": "C173", "title": "Fluxes and radii computed from fitted parameters are consistent", "statement": "For fits that recover the parameters of k Sersic galaxies in probability (C167 to C171): sersic_enclosed at any radius, its limit at large radii (the total flux), sersic_enclosed_inv of any flux below the true total, petrosian_profile at any radius and the radius where it equals eta, each called with the fitted parameters and scaled from pixels to the units of the scene, converge in probability to the values for the true galaxies. The fraction of the total flux in each galaxy (bulge-to-total ratio) converges as well. With small errors of the computed model values, of the data and of the fitter (C172), they are within any given tolerance.", "quantifier": "all numbers of galaxies with positive amplitude, effective radius and index and ellipticity below 1; all radii, fluxes between 0 and the total, all eta; all consistent fits", "why_tests_cant": "Continuity of incomplete gamma functions and their inverses in both arguments, combined with convergence in probability; a test evaluates a few parameter values.", "anchors": ["petrofit/modeling/models.py:653-709", "petrofit/modeling/fitting.py:31-110", "docs/multi_object.ipynb"]}
{"id": "C174", "title": "Fits of several galaxies with overlapping bounds recover the galaxies in some order", "statement": "As C169 (or, with an oversampling window around one of the models, C171), but the bounds of the galaxies may overlap or be the same for all of them. If no two of the true galaxies differ in nothing but the amplitude, the fitted galaxies are, in some order, within eps of the true ones in all parameters, and the sky is within eps of the true sky, with a probability that goes to one as the number of pixels grows. Two galaxies that differ in nothing but the amplitude cannot be recovered in any order: light can be moved between them without changing any value of the model.", "quantifier": "all numbers of galaxies, all bounds inside the scene with indices above 1/2, all PSFs of bounded size, correlated noise of bounded strength, masks, weights and stopping rules as in C169", "why_tests_cant": "A statement about all local arrangements of several galaxies and the limit of large images; a test fits one field with good starting values.", "anchors": ["petrofit/modeling/models.py:353-538", "petrofit/modeling/fitting.py:31-110", "docs/multi_object.ipynb"]}
{"id": "C175", "title": "Fits with more galaxies than there are split or switch off the extra ones", "statement": "As C174, but the number of fitted galaxies need not be the number of true ones: the bounds only have to contain some parameters with the light of the true galaxies, for example the true galaxies and galaxies of amplitude zero. If no two true galaxies differ in the amplitude alone, then, with a probability that goes to one as the number of pixels grows, every fitted galaxy has an amplitude below eps or is within eps of a true galaxy in all parameters other than the amplitude; the amplitudes of the fitted galaxies that belong to the same true galaxy add up to its amplitude within eps; and the sky is within eps of the true sky.", "quantifier": "all numbers of fitted and true galaxies, all bounds inside the scene with amplitudes that are not negative and indices above 1/2, PSFs, noise, masks, weights and stopping rules as in C169, with or without an oversampling window", "why_tests_cant": "A statement about every way of sharing the light among superfluous models and the limit of large images; a test fits one field with the right number of models.", "anchors": ["petrofit/modeling/models.py:353-538", "petrofit/modeling/fitting.py:31-110", "docs/multi_object.ipynb"]}
{"id": "C176", "title": "fit_model returns the fitter it used and passes its options on", "statement": "fit_model and fit_background make an instance of the given fitter class with calc_uncertainties, call it on the pixels of the image, and return the fitted model of that call and the fitter that was used, whose fit_info can be read. maxiter, epsilon, acc and estimate_jacobian reach every iterative fitter.", "quantifier": "all images, masks, weights, models, fitter classes, options, and whatever a call of an instance does", "why_tests_cant": "Whether the returned object is the one that did the fit is a statement about object identity for all fitters; tests use the fitted model only.", "anchors": ["petrofit/modeling/fitting.py:31-126", "petrofit/modeling/fitting.py:248-292"]}
{"id": "C177", "title": "Integer images give the results of the same images as floats", "statement": "masked_segm_image, source_photometry and cutout_subtract give, for an image with an integer dtype, the results for the same image as floats.", "quantifier": "all integer images and dtypes, segmentation maps, sources, fill values, cutouts and positions", "why_tests_cant": "A statement about all dtypes and pixel values; the tests use float images.", "anchors": ["petrofit/segmentation.py:248-286", "petrofit/segmentation.py:488-743", "petrofit/utils.py:211-237"]}
{"id": "C178", "title": "An undefined model value does not spread over the model image", "statement": "When the wrapped model of a PSFConvolvedModel2D is undefined at some points (Nuker2D and CoreSersic2D are NaN at their centre), pixels farther from all of these points than the PSF reaches have the value of the model image without undefined points.", "quantifier": "all wrapped models and undefined points, PSFs, oversampling factors, coordinates on a pixel grid, and decisions of scipy between direct convolution and Fourier transforms", "why_tests_cant": "scipy chooses the convolution method from the shapes; small test images are convolved directly, large ones with Fourier transforms.", "anchors": ["petrofit/modeling/models.py:353-538", "petrofit/modeling/models.py:594-650"]}
{"id": "C179", "title": "Wrapping keeps ties between parameters and adds no parameter without effect", "statement": "Ties between the parameters of a model (astropy's tied constraints) hold after fitting the model wrapped in PSFConvolvedModel2D as they do after fitting the model itself, and are found in .model. The optimizer gets the free parameters of the model, and psf_pa only when the image depends on it.", "quantifier": "all models with distinct parameter names, ties, fixed flags and keywords, and all values an optimizer can return", "why_tests_cant": "Ties may happen to hold for the fits of a test; the claim is about every result of an optimizer.", "anchors": ["petrofit/modeling/models.py:166-241"]}
{"id": "C180", "title": "Model images computed in floating point are accurate, and so are fits with them", "statement": "evaluate of PSFConvolvedModel2D in floating point (grid, sampling, block means, oversampling window, convolution with the rotated PSF, block means to the resolution of the data) raises for the same pixels as in exact arithmetic, and every value differs by at most an explicit bound: it is built from the accuracy of one operation, of np.sum over a block, of the convolution, of the rotated PSF and of the wrapped model at slightly wrong points, and it goes to zero with them. If these accuracies are below some t > 0 the fits of C172 recover all parameters of all galaxies. With model values rounded to the nearest float, pairwise sums and direct convolutions they do so in any number of bits above the logarithm of the image size plus a constant.", "quantifier": "all models, parameters, PSFs, angles, oversampling factors and windows; all image sizes and lists of pixels; all arithmetics with the given accuracies, all L up to 2^53 for binary64", "why_tests_cant": "A bound for every parameter value, PSF and image size, for any order of summation and any convolution algorithm of the given accuracy; tests compare a few images with other computed images.", "anchors": ["petrofit/modeling/models.py:97-117", "petrofit/modeling/models.py:353-538", "petrofit/modeling/fitting.py:31-110"]}
{"id": "C181", "title": "The PSF array of a model is shared with the caller", "statement": "A PSFConvolvedModel2D keeps the array given as psf by reference. After any program (new arrays, assignments to array elements, constructors, psf assignments, copies, evaluations) a model whose psf was not set again evaluates with the elements its array has at the time of the call; it is unchanged if nobody writes to that array, and a copy (also a fitted model) has its own array. A model keeps the PSF it was given: violated, since `psf *= c` multiplies the values of every model with this array by c with no warning, while the setter would have warned. Warnings come exactly from constructors and psf assignments with arrays whose sum is not 1 within 5e-7.", "quantifier": "all programs over any number of arrays and models, all PSFs, parameters, coordinates, rotations and oversampling settings", "why_tests_cant": "Aliasing between caller and model shows only for particular orders of statements; tests use one fresh PSF per model.", "anchors": ["petrofit/modeling/models.py:166-192", "petrofit/modeling/models.py:252-263", "petrofit/modeling/models.py:353-538"]}
{"id": "C182", "title": "A wrapper does not follow later changes of the model it wraps", "statement": "PSFConvolvedModel2D keeps the wrapped model by reference. Whatever the caller does later to the values, fixed flags and ties of its model, the parameters of the wrapper, fits of the wrapper and the names, values and fixed flags of wrapper.model stay as they are. The ties of wrapper.model: violated, they are those that the caller's model has at the time of the call.", "quantifier": "all models with any parameters, flags and ties, all keywords fixed and tied, all later changes that keep the parameter names", "why_tests_cant": "Needs a change of an object after it was handed over; tests build a new model for every wrapper.", "anchors": ["petrofit/modeling/models.py:166-192", "petrofit/modeling/models.py:224-241"]}
{"id": "C183", "title": "Model images are a continuous function of psf_pa and determine it", "statement": "evaluate does not change when psf_pa grows by 360 degrees (180 for PSFs with half-turn symmetry), so a free psf_pa, which has no bounds, is not determined by any image (violated). Values change continuously with psf_pa: violated at the default psf_pa = 0 for every square PSF with a non-zero corner, where a pixel falls from amplitude * psf[0, 0] to zero for arbitrarily small angles and the difference quotient that a fitter takes is unbounded; true for PSFs whose interpolation is continuous and zero on the border.", "quantifier": "all models, square PSFs, angles, coordinates; every interpolation through the pixels that keeps constants (every function at all for the jump)", "why_tests_cant": "A jump between psf_pa = 0 and arbitrarily small angles; tests evaluate a few angles and never compare neighbouring ones.", "anchors": ["petrofit/modeling/models.py:199-222", "petrofit/modeling/models.py:524-532"]}
{"id": "C184", "title": "Model images change continuously with the parameters", "statement": "If the wrapped model depends continuously on its parameters, so do the values of evaluate: proved with and without PSF for every integer oversampling, and for oversampling windows given by numbers. Violated by windows whose centre is a parameter name: when the centre passes the edge of a pixel the window jumps by a pixel, and the pixels it leaves change at once from the mean of f x f samples to the sample at the centre; for (x - x_0)^2 by exactly (1 - 1/f^2)/12, for every size, factor and position.", "quantifier": "all models, PSFs, coordinates and parameters (any topological space of parameters); all window sizes, factors of at least 2 and positions inside of the image", "why_tests_cant": "Continuity compares arbitrarily close parameter values; tests evaluate at a few.", "anchors": ["petrofit/modeling/models.py:353-538", "petrofit/modeling/models.py:453-522"]}
{"id": "C185", "title": "The curve of growth has no jumps and each step is made by the pixels it adds", "statement": "Every flux of radial_photometry lies between the smallest and the largest used pixel of the aperture times the area, and every step between two radii between the smallest and the largest pixel that the larger aperture adds times the area added, up to the rounding to six decimals (all methods, masks, elongations, angles). With method=\"exact\" fluxes and areas are, up to that rounding, continuous functions of centre, radius, elongation and angle. Violated by method=\"center\": at the distance of each pixel the curve of growth of a circle jumps by at least the value of the pixel.", "quantifier": "all images, masks, centres, radii, elongations and angles; every overlap method that meets the contract of C42 for the bounds; all images without negative pixels and all pixels off the centre for the jump", "why_tests_cant": "Continuity compares arbitrarily close apertures; tests measure at a few.", "anchors": ["petrofit/photometry.py:108-227", "petrofit/photometry.py:157-180", "petrofit/photometry.py:48-72"]}
{"id": "C186", "title": "The Petrosian profile of an image that gets fainter outwards never exceeds 1", "statement": "If no light of the image gets brighter on the way outwards from the centre, then radial_photometry(method=\"exact\") with concentric elliptical apertures on the image gives calculate_petrosian arrays it accepts, and no entry of the profile with a positive flux exceeds 1 by more than the rounding of fluxes and areas to six decimals can do (explicit bound). Every source whose brightness falls with the distances along rows and columns (round, or elliptical along the axes, any profile, any position on the pixel grid) is sampled to such an image. With method=\"center\" the same holds for every source whose brightness falls with the elliptical distance of the apertures, at any angle, with any mask and over the edge of the image.", "quantifier": "all image sizes, sources, centres, increasing radii, elongations and angles; for center all masks", "why_tests_cant": "The claim is about all images that get fainter outwards and all apertures; pixels are cut by the apertures in infinitely many ways.", "anchors": ["petrofit/photometry.py:108-227", "petrofit/petrosian/core.py:24-124"]}
{"id": "C187", "title": "An additional aperture changes the results only where it is", "statement": "What radial_photometry reports for a radius does not depend on the other radii. When calculate_petrosian gets one more aperture between two others, all entries of the profile stay the same except that of the ring that is divided; this was the mean of the two new ones, weighted with their areas and the mean surface brightnesses that entries are relative to. Apertures beyond the last one change no entry; apertures inside of the first one change only the entry of the first one (NaN without them). Apertures beyond the one at which r_petrosian was found leave r_petrosian alone. For a source whose surface brightness falls outwards, adding apertures never raises the profile entry of an aperture that was already there.", "quantifier": "all images, overlaps, masks, lists of radii and their parts; all strictly increasing areas, all fluxes, all positions of the additional aperture", "why_tests_cant": "Tests compare single pairs of radius lists; the claim is about every list and every place where an aperture can be added.", "anchors": ["petrofit/photometry.py:108-227", "petrofit/petrosian/core.py:24-124", "petrofit/petrosian/core.py:127-219"]}
{"id": "C188", "title": "No Petrosian radius is reported when the true one is outside of the apertures", "statement": "For a galaxy whose Petrosian ratio falls outwards, measured exactly in any increasing apertures that are all smaller than its Petrosian radius, r_petrosian is NaN. Conversely a radius inside of the apertures is reported whenever the intensity at the last but one aperture is at most eta times the mean intensity in the last one.", "quantifier": "all galaxies, eta, axis ratios, lists of radii (not only closely spaced ones), interpolations and interp_num", "why_tests_cant": "Tests use closely spaced radii that reach beyond the Petrosian radius of a few Sersic models; the claim is about every spacing and about photometry that ends too early.", "anchors": ["petrofit/petrosian/core.py:24-124", "petrofit/petrosian/core.py:127-219", "petrofit/utils.py:122-166"]}

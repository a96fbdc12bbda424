{"claims": [
{"property": "C01", "status": "proved", "theorems": ["Verif.Props.C01_profile_formula"], "note": "Exact IEEE case analysis; rounding not modelled."},
{"property": "C02", "status": "proved", "theorems": ["Verif.Props.C02_validation"], "note": ""},
{"property": "C03", "status": "proved", "theorems": ["Verif.Props.C03_unit_independence"], "note": "Positive factors, or any non-zero flux factor when no flux is zero (signed zeros are not modelled)."},
{"property": "C04", "status": "partial", "theorems": ["Verif.Props.C04_counterexample", "Verif.Props.C04_repeated_areas_partial"], "note": "False of the code: after a repeated area the re-indexing repeats/shifts later entries (witness). Holds up to the first repeated area."},
{"property": "C05", "status": "proved", "theorems": ["Verif.Props.C05_bounds"], "note": ""},
{"property": "C06", "status": "proved", "theorems": ["Verif.Props.C06_errors_shape", "Verif.Props.C06_errors_quadrature"], "note": ""},
{"property": "C07", "status": "proved", "theorems": ["Verif.Props.C07_closest_value_index"], "note": ""},
{"property": "C08", "status": "proved", "theorems": ["Verif.Props.C08_radius_in_range"], "note": "Any interpolator; profile may contain NaN/inf."},
{"property": "C09", "status": "proved", "theorems": ["Verif.Props.C09_antitone_in_eta"], "note": ""},
{"property": "C10", "status": "proved", "theorems": ["Verif.Props.C10_brackets_crossing"], "note": ""},
{"property": "C11", "status": "partial", "theorems": ["Verif.Props.C11_nan_cases", "Verif.Props.C11_zero_errors", "Verif.Props.C11_counterexample", "Verif.Props.C11_nonneg_partial", "Verif.Props.C11_interpolated_partial", "Verif.Props.C11_linear_partial", "Verif.Props.C11_cubic_violated"], "note": "NaN and zero cases proved; \"never negative\" is false of the code: witness with a non-monotone profile, and (C11_cubic_violated) a profile that falls strictly together with both its error bands, for the default cubic interpolation and every num of at least 106. Proved instead: discretely sampled profiles falling up to the crossing; linear interpolation of any profile whose upper band falls strictly; any interpolator whose interpolated upper band falls and stays above the lower band."},
{"property": "C12", "status": "proved", "theorems": ["Verif.Props.C12_fraction_in_range", "Verif.Props.C12_beyond_range", "Verif.Props.C12_nan_radius"], "note": "Any lawful interpolator; radius is NaN or one of the sampled radii."},
{"property": "C13", "status": "proved", "theorems": ["Verif.Props.C13_monotone_in_fraction"], "note": ""},
{"property": "C14", "status": "proved", "theorems": ["Verif.Props.C14_concentration_consistent", "Verif.Props.C14_concentration_sign"], "note": "Sign part over the reals with log10 = ln/ln 10."},
{"property": "C15", "status": "proved", "theorems": ["Verif.Props.C15_flux_unit"], "note": ""},
{"property": "C16", "status": "proved", "theorems": ["Verif.Props.C16_radius_unit"], "note": ""},
{"property": "C17", "status": "partial", "theorems": ["Verif.Props.C17_counterexample_three_points", "Verif.Props.C17_counterexample_range", "Verif.Props.C17_no_crash_partial"], "note": "False of the code: three-point profiles crash every query with the default cubic kind, and r_epsilon below min(r_list) raises ValueError. The partial theorem gives the guard under which no query raises."},
{"property": "C18", "status": "partial", "theorems": ["Verif.Props.C18_counterexample", "Verif.Props.C18_errors_partial"], "note": "False of the code: r_petrosian_err can push the outer radius out of the interpolation range. The partial theorem gives the exact guard."},
{"property": "C19", "status": "proved", "theorems": ["Verif.Props.C19_aliases"], "note": ""},
{"property": "C20", "status": "proved", "theorems": ["Verif.Props.C20_total_flux", "Verif.Props.C20_half_flux"], "note": ""},
{"property": "C21", "status": "partial", "theorems": ["Verif.Props.C21_counterexample", "Verif.Props.C21_scaling_partial"], "note": "False of the code: a radius error is added in quadrature to a flux error. Partial: scaling holds when the radius error is zero, for every flux error list, with nearest interpolation as modelled."},
{"property": "C22", "status": "partial", "theorems": ["Verif.Props.C22_counterexample", "Verif.Props.C22_total_flux_err_partial"], "note": "False of the code: half_flux_err reads attributes that do not exist, so it raises AttributeError on every object."},
{"property": "C23", "status": "partial", "theorems": ["Verif.Props.C23_counterexample", "Verif.Props.C23_witness", "Verif.Props.C23_nan_partial"], "note": "False of the code: whenever the radius exists, interp1d(kind=None) raises NotImplementedError."},
{"property": "C24", "status": "proved", "theorems": ["Verif.Props.C24_no_hidden_state", "Verif.Props.C24_eta_only"], "note": "Histories of assignments, reads and caller writes over a heap of mutable arrays."},
{"property": "C25", "status": "proved", "theorems": ["Verif.Props.C25_functions_frame", "Verif.Props.C25_init_copies", "Verif.Props.C25_caller_arrays"], "note": "Heap model with references; writes through the object's own array attributes are excluded."},
{"property": "C26", "status": "proved", "theorems": ["Verif.Props.C26_nearest_row"], "note": "Over the reals, for every table with finite non-constant columns."},
{"property": "C27", "status": "proved", "theorems": ["Verif.Props.C27_on_grid"], "note": "Over the reals, columns with positive variance."},
{"property": "C28", "status": "proved", "theorems": ["Verif.Props.C28_enforce_range"], "note": "Any ordered field; infinities count as outside."},
{"property": "C29", "status": "partial", "theorems": ["Verif.Props.C29_violated", "Verif.Props.C29_enforced_partial"], "note": "The code violates the property: with enforce_range=False a NaN measurement always yields the first row of the grid (C29_violated). With enforce_range=True an AssertionError is raised."},
{"property": "C30", "status": "partial", "theorems": ["Verif.Props.C30_settings_partial", "Verif.Props.C30_half_violated"], "note": "The code violates the property for epsilon_fraction=0.5 (KeyError, no column c_r_eff); 0.8 and 0.99 and the ValueErrors are proved."},
{"property": "C31", "status": "proved", "theorems": ["Verif.Props.C31_correct", "Verif.Props.C31_correct_raises", "Verif.Props.C31_copies_independent"], "note": "Heap and object store model; histories over any number of profiles and copies."},
{"property": "C32", "status": "proved", "theorems": ["Verif.Props.C32_scheduling", "Verif.Props.C32_failure", "Verif.Props.C32_columns"], "note": "The simulation of one row is a parameter in the scheduling theorems; row length is proved for the modelled row computation."},
{"property": "C33", "status": "proved", "theorems": ["Verif.Props.C33_radii", "Verif.Props.C33_total_radius_inside"], "note": ""},
{"property": "C34", "status": "proved", "theorems": ["Verif.Props.C34_inverse", "Verif.Props.C34_monotone", "Verif.Props.C34_poles"], "note": "python floats; exact arithmetic"},
{"property": "C35", "status": "proved", "theorems": ["Verif.Props.C35_linear", "Verif.Props.C35_log"], "note": "log case over the reals"},
{"property": "C36", "status": "partial", "theorems": ["Verif.Props.C36_natural_sort_partial", "Verif.Props.C36_number_order", "Verif.Props.C36_long_number", "Verif.Props.C36_violated"], "note": "everything claimed holds when no digit run exceeds 4300 digits; beyond that int() raises ValueError (never TypeError), so the unrestricted claim is violated"},
{"property": "C37", "status": "proved", "theorems": ["Verif.Props.C37_scalar", "Verif.Props.C37_array", "Verif.Props.C37_missing"], "note": "python numbers and one-dimensional float arrays; integer arrays are C75"},
{"property": "C38", "status": "partial", "theorems": ["Verif.Props.C38_round_trip_partial", "Verif.Props.C38_rejects", "Verif.Props.C38_violated"], "note": "round trips hold; rejection happens only beyond allclose tolerance, so very fine anisotropic pixels are accepted (witness)"},
{"property": "C39", "status": "proved", "theorems": ["Verif.Props.C39_axes", "Verif.Props.C39_inverts", "Verif.Props.C39_circle"], "note": ""},
{"property": "C40", "status": "proved", "theorems": ["Verif.Props.C40_none", "Verif.Props.C40_grid", "Verif.Props.C40_linear"], "note": "any lawful interpolator, strictly increasing finite abscissae, at least two points"},
{"property": "C41", "status": "partial", "theorems": ["Verif.Props.C41_inside_partial", "Verif.Props.C41_in_place_violated", "Verif.Props.C41_witness", "Verif.Props.C41_mismatch", "Verif.Props.C41_one_pixel_violated"], "note": "window subtraction and rejection proved; the caller image is modified in place and 1x1 targets are silently ignored (violations proved)"},
{"property": "C42", "status": "proved", "theorems": ["Verif.Props.C42_areas", "Verif.Props.C42_fluxes", "Verif.Props.C42_methods"], "note": "for every overlap method meeting the stated contract; the exact, subpixel and center methods are shown to meet it"},
{"property": "C43", "status": "proved", "theorems": ["Verif.Props.C43_masked", "Verif.Props.C43_all_true", "Verif.Props.C43_area"], "note": ""},
{"property": "C44", "status": "partial", "theorems": ["Verif.Props.C44_no_nan", "Verif.Props.C44_raises", "Verif.Props.C44_nan_error_violated"], "note": "all proved except the word exactly: an error map containing NaN also gives NaN errors (proved)"},
{"property": "C45", "status": "proved", "theorems": ["Verif.Props.C45_linear", "Verif.Props.C45_rounded"], "note": "finite images"},
{"property": "C46", "status": "proved", "theorems": ["Verif.Props.C46_aperture", "Verif.Props.C46_annulus", "Verif.Props.C46_annulus_rejects"], "note": ""},
{"property": "C47", "status": "partial", "theorems": ["Verif.Props.C47_mask_partial", "Verif.Props.C47_type", "Verif.Props.C47_empty_violated"], "note": "Exact for labels, catalog entries, non-empty lists and any list with the background kept; an empty list with mask_background=True returns None (proved counterexample)."},
{"property": "C48", "status": "partial", "theorems": ["Verif.Props.C48_list_growth", "Verif.Props.C48_history_partial", "Verif.Props.C48_violated"], "note": "False as stated: the caller's list grows by a 0 per call with mask_background=False; exact growth over all histories, the cases where earlier calls are harmless, and a witness are proved."},
{"property": "C49", "status": "proved", "theorems": ["Verif.Props.C49_masked", "Verif.Props.C49_shape", "Verif.Props.C49_idempotent"], "note": "Float images; memory model with aliasing and deepcopy."},
{"property": "C50", "status": "partial", "theorems": ["Verif.Props.C50_centred", "Verif.Props.C50_contains_partial", "Verif.Props.C50_contains_violated"], "note": "Centring and parity for all sizes; the default cutout contains the largest aperture unless the largest radius is in (1/2, 2/3] pixels, where a witness shows it does not."},
{"property": "C51", "status": "proved", "theorems": ["Verif.Props.C51_isolation"], "note": "sigma clipping, statistics and the plane fit are arbitrary functions of the pixels they are given."},
{"property": "C52", "status": "proved", "theorems": ["Verif.Props.C52_order", "Verif.Props.insArgsort_law"], "note": "For every argsort meeting the numpy contract; order claims need NaN-free keys."},
{"property": "C53", "status": "proved", "theorems": ["Verif.Props.C53_samples", "Verif.Props.C53_pixels", "Verif.Props.C53_centred"], "note": "Every size, origin and factor."},
{"property": "C54", "status": "proved", "theorems": ["Verif.Props.C54_flux", "Verif.Props.C54_plane", "Verif.Props.C54_range", "Verif.Props.C54_evaluate", "Verif.Props.C54_plane_values", "Verif.Props.C54_range_values"], "note": "Block means conserve the total, are exact for planes and stay in range; evaluate returns the pixel means for every pair of fitting factors, so planes exactly and never a value outside the range of the model on the pixel."},
{"property": "C55", "status": "proved", "theorems": ["Verif.Props.C55_cache_invisible", "Verif.Props.C55_init"], "note": "Every history of evaluations, accepted and rejected assignments, cache toggles and clears."},
{"property": "C56", "status": "partial", "theorems": ["Verif.Props.C56_settings_partial", "Verif.Props.C56_init", "Verif.Props.C56_accepted", "Verif.Props.C56_violated", "Verif.Props.C56_stored"], "note": "Proved for every history except while oversample is None; the setter accepts None with psf_oversample=2 and evaluation then raises IndexError (witness proved)."},
{"property": "C57", "status": "partial", "theorems": ["Verif.Props.C57_window_partial", "Verif.Props.C57_origin_violated", "Verif.Props.evaluate_window"], "note": "Proved for grids that start at (0, 0) and contain the window; on other grids the window is placed by index instead of by coordinate (general formula evaluate_window, witness C57_origin_violated). PSF oversampling is 1 here; C119_window_partial covers PSF and psf_oversample > 1."},
{"property": "C58", "status": "partial", "theorems": ["Verif.Props.C58_border_violated", "Verif.Props.C58_negative_slice_violated"], "note": "False in the code: every window that crosses a border raises ValueError; a window far outside can be written into the image."},
{"property": "C59", "status": "proved", "theorems": ["Verif.Props.C59_shape", "Verif.Props.C59_identity", "Verif.Props.C59_evaluate_identity", "Verif.Props.C59_linear", "Verif.Props.C59_flux"], "note": "Direct sum for scipy.signal.convolve(mode=\"same\")."},
{"property": "C60", "status": "proved", "theorems": ["Verif.Props.C60_center", "Verif.Props.C60_middle", "Verif.Props.C60_oversample", "Verif.Props.C60_linear", "Verif.Props.C60_wrapped"], "note": "Every size, centre and model; modes center, oversample and linear_interp of discretize_model, and wrapped PSF models."},
{"property": "C61", "status": "proved", "theorems": ["Verif.Props.C61_sizes", "Verif.Props.C61_rejected"], "note": "An iff over all size arguments."},
{"property": "C62", "status": "proved", "theorems": ["Verif.Props.C62_fitted", "Verif.Props.C62_shape"], "note": "Every image, NaN pattern, mask and weight array."},
{"property": "C63", "status": "partial", "theorems": ["Verif.Props.C63_recovers", "Verif.Props.C63_equivariant", "Verif.Props.C63_subtracted", "Verif.Props.C63_source", "Verif.Props.C63_clipped_violated"], "note": "Recovery and subtraction for all planes and masks; equivariance without sigma clipping. With sigma clipping equivariance is false (witness proved with the default clipping). The fitter is any function that returns a least-squares plane; an instance is proved (Verif.normalFitter_law)."},
{"property": "C64", "status": "proved", "theorems": ["Verif.Props.C64_integral", "Verif.Props.C64_zero", "Verif.Props.C64_increasing", "Verif.Props.C64_linear"], "note": "All r >= 0, n > 0, r_eff > 0, over the reals; scipy special functions are their mathematical definitions."},
{"property": "C65", "status": "proved", "theorems": ["Verif.Props.C65_coefficient", "Verif.Props.C65_half", "Verif.Props.C65_half_limit"], "note": "Also shows that the coefficient b_n the code computes is the unique half-light coefficient."},
{"property": "C66", "status": "proved", "theorems": ["Verif.Props.C66_radius", "Verif.Props.C66_flux"], "note": "Both round trips; gammaincinv is proved to exist and to be unique."},
{"property": "C67", "status": "proved", "theorems": ["Verif.Props.C67_ratio", "Verif.Props.C67_range", "Verif.Props.C67_decreasing", "Verif.Props.C67_centre", "Verif.Props.C67_infinity", "Verif.Props.C67_unique_radius"], "note": "All r > 0. At r = 0 the code computes 0/0 = NaN, which is outside the claim."},
{"property": "C68", "status": "proved", "theorems": ["Verif.Props.C68_sersic", "Verif.Props.C68_effective", "Verif.Props.C68_effective_minor", "Verif.Props.C68_centre", "Verif.Props.C68_symmetric", "Verif.Props.C68_half_turn", "Verif.Props.C68_turn", "Verif.Props.C68_positive", "Verif.Props.C68_decreasing"], "note": "All parameters with c_0 > -2, n, r_eff > 0."},
{"property": "C69", "status": "partial", "theorems": ["Verif.Props.C69_value", "Verif.Props.C69_symmetric", "Verif.Props.C69_break_partial", "Verif.Props.C69_break_violated"], "note": "Circular symmetry holds. The break claim is false: the code uses sqrt(2) times the distance, so the amplitude is reached at r_break/sqrt(2) (witness: 4/9 at r_break for the default parameters)."},
{"property": "C70", "status": "partial", "theorems": ["Verif.Props.C70_value", "Verif.Props.C70_break_partial", "Verif.Props.C70_break_violated"], "note": "False in general: the radius is divided by r_eff twice, so the amplitude is reached at r_break*r_eff. Holds for r_eff = 1."},
{"property": "C71", "status": "proved", "theorems": ["Verif.Props.C71_inverse", "Verif.Props.C71_centre", "Verif.Props.C71_brighter"], "note": ""},
{"property": "C72", "status": "proved", "theorems": ["Verif.Props.C72_sersic", "Verif.Props.C72_gen"], "note": "Memory model with the two mutable default arguments; all histories of calls and caller writes."},
{"property": "C73", "status": "proved", "theorems": ["Verif.Props.C73_names", "Verif.Props.C73_model", "Verif.Props.C73_fixed_keyword", "Verif.Props.C73_evaluate"], "note": "All models whose parameter names are distinct and not psf_pa; histories interleave changes on the wrapper and on the wrapped model. With a fixed keyword the flags of the wrapped model are dropped (C73_fixed_keyword). tied constraints: see C179."},
{"property": "C74", "status": "partial", "theorems": ["Verif.Props.C74_formula", "Verif.Props.C74_violated", "Verif.Props.C74_faint", "Verif.Props.C74_integral_partial", "Verif.Props.C74_errors"], "note": "Violated: the ring brightness is written into an integer array and truncated (C74_formula, witness C74_violated; a source fainter than one count per pixel gets an all-zero profile, C74_faint), and asking for errors always raises ValueError (C74_errors). Equal to the float result when every flux increment is an integer multiple of its area increment and no errors are given."},
{"property": "C75", "status": "partial", "theorems": ["Verif.Props.C75_int_array_violated"], "note": "violated: integer arrays with a non-positive entry raise ValueError"},
{"property": "C76", "status": "proved", "theorems": ["Verif.Props.C76_integral", "Verif.Props.C76_flux", "Verif.Props.C76_uniform"], "note": "Over ℝ with photutils exact overlap as a Lebesgue measure. C76_uniform: no mask, apertures on the frame (onFrame_of_box gives a bounding box test)."},
{"property": "C77", "status": "partial", "theorems": ["Verif.Props.C77_snaps", "Verif.Props.C77_whole_partial", "Verif.Props.C77_violated"], "note": "Violated for coordinates that are not whole pixels apart: they are moved down to whole pixels from the smallest coordinate (C77_snaps is exact, with any integer oversampling; witness C77_violated). Holds for coordinates whole numbers of pixels from the smallest one. Window and PSF: see C57-C59."},
{"property": "C78", "status": "partial", "theorems": ["Verif.Props.C78_axes", "Verif.Props.C78_directions_partial", "Verif.Props.C78_direction_violated", "Verif.Props.C78_default_violated", "Verif.Props.C78_data", "Verif.Props.C78_start"], "note": "Proved along the axes of the fitted Gaussian (directions theta and theta+pi/2), for all fits. The documented x and y directions only hold for theta = 0; proved false for theta = pi/2 with different standard deviations. With the default plot=True the function never returns (plot_fit is called with swapped arguments): proved for all inputs."},
{"property": "C79", "status": "partial", "theorems": ["Verif.Props.C79_index_increasing", "Verif.Props.C79_concentration_increasing_partial", "Verif.Props.C79_epsilon_increasing", "Verif.Props.C79_p0502_increasing_partial", "Verif.Props.C79_chain", "Verif.Props.C79_violated"], "note": "c2080_to_n and n_to_epsilon are strictly increasing on [0, inf); u2080_to_c2080 on [0.8, inf) and p0502_to_epsilon on [0.2, inf); the chain u2080 -> c2080 -> n -> epsilon is increasing and positive from 1.5 on. Proved false below: u2080_to_c2080 falls between 0 and 0.7, p0502_to_epsilon between 0 and 0.05, and c2080_to_n(1) is negative."},
{"property": "C80", "status": "proved", "theorems": ["Verif.Props.C80_residual", "Verif.Props.C80_pieces", "Verif.Props.C80_exact"], "note": "Pixel formula for mode center and any point model; the additive identities for every model, mode and centre; drawing is not modelled."},
{"property": "C81", "status": "partial", "theorems": ["Verif.Props.C81_plot", "Verif.Props.C81_plot_negative", "Verif.Props.C81_plot_violated", "Verif.Props.C81_cog_partial", "Verif.Props.C81_cog_violated", "Verif.Props.C81_imshow"], "note": "plot: proved for all constructed objects unless the radius error is negative, in which case it raises ValueError (constructed witness). plot_cog: proved unless only area errors are given, in which case it always raises TypeError (proved for all such objects). imshow: proved. Labels and colours are not modelled."},
{"property": "C82", "status": "proved", "theorems": ["Verif.Props.C82_bracket", "Verif.Props.C82_radius_converges"], "note": "Exact measurements (areas and fluxes of the continuous profile). interp_kind None and any interpolation that stays between neighbouring nodes (linear, nearest, previous, next); cubic splines may overshoot and are not covered."},
{"property": "C83", "status": "proved", "theorems": ["Verif.Props.C83_fraction_converges"], "note": "Interpolations that stay between neighbouring nodes; radius lists that cover the true radii."},
{"property": "C84", "status": "proved", "theorems": ["Verif.Props.C84_object_radii", "Verif.Props.C84_object_flux", "Verif.Props.C84_concentration", "Verif.Props.C84_sersic"], "note": "As C82 and C83, for the object. total_flux needs interp_kind given."},
{"property": "C85", "status": "proved", "theorems": ["Verif.Props.C85_linear"], "note": "Models with an empty cache (C55 removes the cache)."},
{"property": "C86", "status": "proved", "theorems": ["Verif.Props.C86_translation"], "note": "No window; with a window the origin matters (C57_origin_violated)."},
{"property": "C87", "status": "partial", "theorems": ["Verif.Props.C87_pointwise", "Verif.Props.C87_no_psf_partial", "Verif.Props.C87_violated"], "note": "For every setting the other coordinates matter only through the smallest and largest x and y (C87_pointwise). Without PSF and window they do not matter. Violated with a PSF: leaving out border pixels changes the values of their neighbours (zero padding at the frame of the evaluated pixels)."},
{"property": "C88", "status": "partial", "theorems": ["Verif.Props.C88_fixed_partial", "Verif.Props.C88_violated"], "note": "Proved: the eta=0.2 radius used for the lookup is unaffected, and the second correction is the identity whenever it finds the same row (in particular when the measured triple is unchanged). False in general: whenever the corrected epsilon moves r_epsilon past the last radius the second correction raises AssertionError (proved for all such profiles, with a concrete instance)."},
{"property": "C89", "status": "partial", "theorems": ["Verif.Props.C89_filter", "Verif.Props.C89_partition_partial", "Verif.Props.C89_violated"], "note": "Filter proved for every value; partition proved for columns without NaN. With a NaN in the column unique_grid_values lists NaN but no filter finds its rows (proved)."},
{"property": "C90", "status": "partial", "theorems": ["Verif.Props.C90_files", "Verif.Props.C90_round_trip_partial", "Verif.Props.C90_violated"], "note": "Proved for enforce_range=True, and for enforce_range=False on profiles inside the grid. enforce_range=False is lost: the correction read back raises AssertionError for every profile outside the grid (proved). The table format is assumed to store numbers exactly."},
{"property": "C91", "status": "proved", "theorems": ["Verif.Props.C91_arcsec", "Verif.Props.C91_rejects"], "note": "For every profile whose radius is a number or NaN and every WCS with equal positive scales; rejection for clearly different scales."},
{"property": "C92", "status": "proved", "theorems": ["Verif.Props.C92_same_row"], "note": "Points, colours, targets and links are modelled; marker styles are not."},
{"property": "C93", "status": "partial", "theorems": ["Verif.Props.C93_pipeline", "Verif.Props.C93_footprint", "Verif.Props.C93_violated"], "note": "Wiring and footprint proved for all settings. For an image without sources make_catalog always raises (proved from photutils rejecting None)."},
{"property": "C94", "status": "proved", "theorems": ["Verif.Props.C94_residual"], "note": "Memory model with array objects; same shape assumed."},
{"property": "C95", "status": "proved", "theorems": ["Verif.Props.C95_accessors"], "note": "photutils' definitions of elongation, ellipticity and the unit of orientation are part of the model."},
{"property": "C96", "status": "proved", "theorems": ["Verif.Props.C96_amplitude"], "note": "The isophote fit is an arbitrary function that may raise."},
{"property": "C97", "status": "partial", "theorems": ["Verif.Props.C97_spline", "Verif.Props.C97_exists", "Verif.Props.C97_exact", "Verif.Props.C97_contract", "Verif.Props.C97_violated"], "note": "The not-a-knot spline is proved to exist, to be unique, to reproduce cubics and to satisfy every assumption made of an interpolator elsewhere. The bound on total_flux is false: a nondecreasing positive curve of growth with largest flux 8 gets total_flux 10567/1024 (proved). That scipy computes this spline is trusted."},
{"property": "C98", "status": "proved", "theorems": ["Verif.Props.C98_total_flux_err", "Verif.Props.C98_nan_radius_err"], "note": "For every object with a finite r_total_flux and total_flux. interp1d kind nearest is modelled and its specification proved."},
{"property": "C99", "status": "partial", "theorems": ["Verif.Props.C99_saved", "Verif.Props.C99_violated", "Verif.Props.C99_defaults"], "note": "All but the last part proved. The last is false: write errors are caught and only printed, so with an existing file and overwrite=False the call returns normally, the file keeps the old grid, and reading it back gives the old correction (proved for every old grid)."},
{"property": "C100", "status": "partial", "theorems": ["Verif.Props.C100_n_cpu", "Verif.Props.C100_violated", "Verif.Props.C100_pool", "Verif.Props.C100_negative", "Verif.Props.C100_failing", "Verif.Props.C100_exception_violated"], "note": "Proved for nonempty lists and row generators that succeed. n_cpu=True runs serially although documented, and an empty list works serially but raises ValueError with n_cpu=2 (proved). If the simulation of a pair raises, every n_cpu and completion order gives an exception that some pair raises and leaves the files alone (C100_failing), but which one depends on the completion order (C100_exception_violated). C100_negative: n_cpu below zero."},
{"property": "C101", "status": "proved", "theorems": ["Verif.Props.C101_nan_cases", "Verif.Props.C101_value", "Verif.Props.C101_zero"], "note": "The sampling of the error curves is always cubic with 5000 points whatever the caller chose, and the theorem says so; hence with zero errors the error is zero or, if that cubic curve misses the fraction, NaN. Found by mutation testing: an earlier version left the value unconstrained."},
{"property": "C102", "status": "proved", "theorems": ["Verif.Props.C102_constructor"], "note": "Found by mutation testing."},
{"property": "C103", "status": "proved", "theorems": ["Verif.Props.C103_r_epsilon", "Verif.Props.C103_measurable", "Verif.Props.C103_only_if"], "note": "The availability direction is for objects without flux errors (with them a call may raise, C18). Found by mutation testing."},
{"property": "C104", "status": "partial", "theorems": ["Verif.Props.C104_product_partial", "Verif.Props.C104_violated"], "note": "Radius and exceptions: proved. Error: false, because the error of r_petrosian is used for r_epsilon without the factor epsilon (proved witness)."},
{"property": "C105", "status": "proved", "theorems": ["Verif.Props.C105_truth"], "note": "Over the real numbers, with the incomplete gamma function as an integral."},
{"property": "C106", "status": "proved", "theorems": ["Verif.Props.C106_image", "Verif.Props.C106_pixels"], "note": "No PSF."},
{"property": "C107", "status": "partial", "theorems": ["Verif.Props.C107_inside_partial", "Verif.Props.C107_violated", "Verif.Props.C107_every_simulation"], "note": "All radii but the largest: proved. Largest radius: false for every simulation, because the image is 2R wide and centred on pixel R, so the circle of radius R overhangs two edges by half a pixel; its area is too small by at least 6/25 pixels."},
{"property": "C108", "status": "proved", "theorems": ["Verif.Props.C108_own_row"], "note": "Needs finite grid columns with positive variance and a non-zero Petrosian radius."},
{"property": "C109", "status": "proved", "theorems": ["Verif.Props.C109_grid", "Verif.Props.C109_defaults", "Verif.Props.C109_nearest_even"], "note": "numpy's algorithm: step, arange times step plus start, last entry replaced. Unbounded exponent (no overflow or underflow). C109_nearest_even: the rounding used for the concrete cases is round-half-even."},
{"property": "C110", "status": "proved", "theorems": ["Verif.Props.C110_closest", "Verif.Props.C110_near"], "note": ""},
{"property": "C111", "status": "proved", "theorems": ["Verif.Props.C111_petrosian_r", "Verif.Props.C111_fraction_to_r", "Verif.Props.rounded_exact"], "note": "The interpolator is any function that returns numbers inside the range. rounded_exact: without rounding the model is the exact one."},
{"property": "C112", "status": "proved", "theorems": ["Verif.Props.C112_acceptance", "Verif.Props.C112_accuracy"], "note": "Relative to the floating point inputs."},
{"property": "C113", "status": "partial", "theorems": ["Verif.Props.C113_power_of_two", "Verif.Props.C113_uniform", "Verif.Props.C113_other_factors_violated"], "note": "True bit by bit for powers of two (and a uniform source with such a brightness has exactly 1 everywhere); false for other factors in double precision (witness with factor 3)."},
{"property": "C114", "status": "partial", "theorems": ["Verif.Props.C114_closest_partial", "Verif.Props.C114_fraction_to_r_partial", "Verif.Props.C114_petrosian_r_partial", "Verif.Props.C114_violated"], "note": "Proved up to samples whose distances to the target agree after rounding; C114_violated: in double precision two such samples do reverse the order."},
{"property": "C115", "status": "partial", "theorems": ["Verif.Props.C115_percent_partial", "Verif.Props.C115_percent_exact", "Verif.Props.C115_radii", "Verif.Props.C115_percent_violated", "Verif.Props.C115_axis", "Verif.Props.C115_axis_violated"], "note": "k or k-1 is shown; int(0.29 * 100) is 28 (of the whole percentages exactly 29, 57, 58 are wrong). Without a unit the x axis has no label because the conditional expression covers the whole sum."},
{"property": "C116", "status": "proved", "theorems": ["Verif.Props.C116_sign", "Verif.Props.C116_power_of_two", "Verif.Props.C116_nan"], "note": "log10 is any function with the right sign (the real logarithm is one)."},
{"property": "C117", "status": "proved", "theorems": ["Verif.Props.C117_columns", "Verif.Props.C117_guard", "Verif.Props.C117_first"], "note": "np.round(.,6) comparison of the two Petrosian radii modelled by equality. Repeated fluxes enter with their first radius (C117_first, which determines the indices by firstOccurrences_unique)."},
{"property": "C118", "status": "partial", "theorems": ["Verif.Props.C118_partial", "Verif.Props.C118_violated", "Verif.Props.C118_large"], "note": "True for all but c_epsilon_80, which aims at 80 % of 0.99 L_inf while c_r_80 aims at 80/99 of the flux at the corrected r_epsilon; witness: 3168 against 3200. C118_large: the two differ by a fixed fraction of r_eff in every simulation of a large galaxy with n >= 1/2."},
{"property": "C119", "status": "partial", "theorems": ["Verif.Props.C119_evaluate", "Verif.Props.C119_window_partial"], "note": "Integer oversampling: all coordinate sets (light outside the evaluated square counts as zero). Windows: grids from (0,0) containing the window; elsewhere false, see C57 and C58."},
{"property": "C120", "status": "proved", "theorems": ["Verif.Props.C120_silent_iff", "Verif.Props.C120_flux"], "note": "Exact arithmetic for np.round(sum,6)."},
{"property": "C121", "status": "partial", "theorems": ["Verif.Props.C121_half_turn", "Verif.Props.C121_square_partial", "Verif.Props.C121_two_quarters", "Verif.Props.C121_violated", "Verif.Props.C121_right", "Verif.Props.C121_corners", "Verif.Props.C121_iff", "Verif.Props.C121_flat_violated", "Verif.Props.C121_flat_image_violated", "Verif.Props.C121_dark_violated"], "note": "180 degrees: all PSFs. 90 degrees: square PSFs; false for a 1x3 PSF (reshape=False cuts it, half of the light is lost without a warning). Any angle: for every interpolation through the pixels that keeps constant images (scipy's splines do) the sums of all n x n PSFs are conserved exactly for multiples of 90 degrees (C121_iff); at every other angle the corners are cut, a flat PSF loses at least 4 of its n^2 pixels, and with 2 x 2 pixels the model image is zero everywhere (C121_dark_violated)."},
{"property": "C122", "status": "partial", "theorems": ["Verif.Props.C122_shift", "Verif.Props.C122_odd_partial", "Verif.Props.C122_even_violated", "Verif.Props.C122_rotated"], "note": "Exact formula for the shift of the moments; true for odd sizes; every symmetric PSF of even size moves the source by half a PSF pixel. Turned by any angle (C122_rotated): flux and moments are multiplied by the sum of the turned PSF, so the centroid stays, for odd sizes and interpolations that keep the symmetry."},
{"property": "C123", "status": "partial", "theorems": ["Verif.Props.C123_radius_list", "Verif.Props.C123_double", "Verif.Props.C123_last_violated"], "note": "All but the last clause. In doubles the last radius may differ from max_pix by a few ulp; witness given."},
{"property": "C124", "status": "proved", "theorems": ["Verif.Props.C124_nearest_row", "Verif.Props.C124_on_grid", "Verif.Props.C124_total", "Verif.Props.C124_double"], "note": "Relative-error model of rounding: no overflow or underflow."},
{"property": "C125", "status": "proved", "theorems": ["Verif.Props.C125_transposed", "Verif.Props.C125_mirrored", "Verif.Props.C125_quarter_turn"], "note": "For the three photutils overlap methods as modelled over the reals. Transposition and mirror image generate all eight orientations."},
{"property": "C126", "status": "proved", "theorems": ["Verif.Props.C126_cutout", "Verif.Props.C126_radius"], "note": "For the three photutils overlap methods as modelled over the reals."},
{"property": "C127", "status": "proved", "theorems": ["Verif.Props.C127_full_image", "Verif.Props.C127_default"], "note": "Memory model of C48-C51; photutils methods exact, center and subpixel."},
{"property": "C128", "status": "partial", "theorems": ["Verif.Props.C128_skipped_partial", "Verif.Props.C128_ignored_violated", "Verif.Props.C128_witness"], "note": "True for fitters that skip masked values (LinearLSQFitter, the default). np.where looks at the data and not at the mask, so clipped pixels are handed over with their values; for fitters that do not look at the mask (the documented TRFLSQFitter and LevMarLSQFitter pass the values to scipy) sigma has no effect at all. That these fitters ignore masks is read from astropy and scipy, not modelled."},
{"property": "C129", "status": "partial", "theorems": ["Verif.Props.C129_bound_partial", "Verif.Props.C129_whole_partial", "Verif.Props.C129_faint_violated", "Verif.Props.C129_profile", "Verif.Props.C129_witness"], "note": "The code violates it: fluxes are rounded to six decimals, so for every image there is a unit in which all fluxes are exactly 0 and the profile is NaN everywhere. Proved: areas and errors are unchanged, fluxes scale up to (1 + c)/2 of the last digit, and exactly for integer factors when the sums are whole multiples of 1e-6."},
{"property": "C130", "status": "partial", "theorems": ["Verif.Props.C130_history", "Verif.Props.C130_area_ignored", "Verif.Props.C130_radius_stale", "Verif.Props.C130_scaled_partial", "Verif.Props.C130_violated"], "note": "The code violates it: the getters return the stored arrays, and the profile is computed once in the constructor. Proved exactly for all histories what is answered; area_list has no effect at all, flux_list changes fluxes and fraction radii but never r_petrosian. Holds for in-place multiplication of flux_list by a positive number without errors."},
{"property": "C131", "status": "proved", "theorems": ["Verif.Props.C131_background", "Verif.Props.C131_recovers", "Verif.Props.C131_few", "Verif.Props.C131_other"], "note": "The fitter is any function that returns a least-squares plane of the unmasked pixels (instance: Verif.normalFitter_law); clipping is any rule that sees only the pixels of the cutout."},
{"property": "C132", "status": "partial", "theorems": ["Verif.Props.C132_bound_partial", "Verif.Props.C132_floor", "Verif.Props.C132_violated", "Verif.Props.C132_floor_violated"], "note": "The code violates it: it cuts at sigma standard deviations, and then raises all source pixels below -sigma to -sigma. Proved where the standard deviation is 1 and no pixel falls below -sigma."},
{"property": "C133", "status": "proved", "theorems": ["Verif.Props.C133_row", "Verif.Props.C133_photometry"], "note": "Exact overlap, no PSF, no oversampling; the optimiser-free part of the code in real arithmetic with rounding of the photometry."},
{"property": "C134", "status": "proved", "theorems": ["Verif.Props.C134_isophote", "Verif.Props.C134_boxy", "Verif.Props.C134_total", "Verif.Props.C134_half"], "note": "Real arithmetic; integrals are Lebesgue integrals over the plane."},
{"property": "C135", "status": "proved", "theorems": ["Verif.Props.C135_photometry", "Verif.Props.C135_lipschitz", "Verif.Props.C135_simulated"], "note": "Exact overlap. Above n = 1 the profile has a cusp at the centre and no such bound."},
{"property": "C136", "status": "proved", "theorems": ["Verif.Props.C136_stable", "Verif.Props.C136_stable_calm", "Verif.Props.C136_image", "Verif.Props.C136_attainable", "Verif.Props.C136_gentle"], "note": "Real arithmetic, exact overlap, no mask, no PSF. C136_image: interpolations that stay between neighbouring samples, any radii. C136_gentle: interpolations that overshoot by at most a multiple of the largest jump (cubic splines, C142), radii with gaps that differ by a bounded factor and that do not exceed a fixed length."},
{"property": "C137", "status": "proved", "theorems": ["Verif.Props.C137_stable", "Verif.Props.C137_stable_calm", "Verif.Props.C137_image", "Verif.Props.C137_gentle", "Verif.Props.C137_cubic"], "note": "Real arithmetic, exact overlap, no mask, no PSF. C137_cubic is the default interpolation."},
{"property": "C138", "status": "proved", "theorems": ["Verif.Props.C138_columns", "Verif.Props.C138_radii", "Verif.Props.C138_default"], "note": "Real arithmetic, exact overlap. From the image to the row: pixels, apertures, photometry, Petrosian profile, radii. That the aperture list reaches twice the Petrosian radius is proved for every n >= 1/2. The interpolation may be the not-a-knot cubic spline: its overshoot is bounded on the uneven radii 0, 3, 5, ..., 199, 300, 400, ... of the grid, with rounding noise near the centre and bounded but inaccurate values at the edge of the image (C138_default: cubic spline and linear interpolation as in scipy)."},
{"property": "C139", "status": "partial", "theorems": ["Verif.Props.C139_partial", "Verif.Props.C139_violated", "Verif.Props.C138_default"], "note": "True for the 99 percent columns. False for 20 and 80 percent: sersic_r_20 and sersic_r_80 are computed from 0.99 L_inf, c_r_20 and c_r_80 aim at fractions of L_inf; proved to differ by a fixed fraction of r_eff in every large simulation. C138_default: the same with the cubic spline of scipy."},
{"property": "C140", "status": "proved", "theorems": ["Verif.Props.C140_median", "Verif.Props.C140_mask", "Verif.Props.C140_fit"], "note": "astropy.stats.sigma_clip is part of the model (median, standard deviation, at most 5 rounds). Real arithmetic. Adding a sloped plane is C63 (violated with clipping)."},
{"property": "C141", "status": "partial", "theorems": ["Verif.Props.C141_fraction", "Verif.Props.C141_some", "Verif.Props.C141_removed_partial", "Verif.Props.C141_removed_violated"], "note": "The part that background always remains is proved. Removal of the sources is proved when their strengths lie within a factor C of each other and they cover less than 1/(sigma^2 C^2) of the pixels; false in general, because sigma_clip stops after 5 rounds: six sources of strengths 10 to 10^6 on 30 pixels leave the weakest one in the fit."},
{"property": "C142", "status": "proved", "theorems": ["Verif.Props.C142_overshoot", "Verif.Props.C142_influence", "Verif.Props.C142_dies", "Verif.Props.C142_leaves"], "note": "interp1d(kind=\"cubic\") is the not-a-knot cubic spline (C1 decomposition into segment polynomials, existence and uniqueness proved). C142_leaves: the interpolant does leave the interval of the neighbouring data, so some bound of this kind is needed. Real arithmetic."},
{"property": "C143", "status": "proved", "theorems": ["Verif.Props.C143_recipe"], "note": "Real arithmetic, exact overlap, no mask, no PSF, pixels sampled at their centres; largest aperture on the frame and beyond the radii concerned."},
{"property": "C144", "status": "proved", "theorems": ["Verif.Props.C144_curve", "Verif.Props.C144_total", "Verif.Props.C144_concentration"], "note": "The limit values are those of the light distribution seen through the definitions (petroRatio, enclosed). OnFrame asks that the largest aperture is inside the image."},
{"property": "C145", "status": "partial", "theorems": ["Verif.Props.C145_default", "Verif.Props.C145_units", "Verif.Props.C145_data_partial", "Verif.Props.C145_residual", "Verif.Props.C145_violated", "Verif.Props.C145_order_violated", "Verif.Props.C145_blank"], "note": "The code violates the claim: the limits are symmetric about zero instead of about the mean, so a constant background puts every data pixel off scale; a vmin above 3σ or a negative vmax alone makes drawing fail. C145_data_partial assumes zero mean. The failure of drawing is matplotlib's check vmin <= vmax, modelled as drawPanel."},
{"property": "C146", "status": "proved", "theorems": ["Verif.Props.C146_separation", "Verif.Props.C146_nearest", "Verif.Props.C146_errors", "Verif.Props.C146_turns", "Verif.Props.C146_self", "Verif.Props.C146_forced"], "note": "The k-d tree is a parameter with the law NearestTree (returns an index of least chord). The separation is the Vincenty formula of astropy, proved equal to the angle between the directions."},
{"property": "C147", "status": "partial", "theorems": ["Verif.Props.C147_accuracy", "Verif.Props.C147_returns", "Verif.Props.C147_binary64", "Verif.Props.C147_accepted", "Verif.Props.C147_same_pixels", "Verif.Props.C147_whole", "Verif.Props.C147_ellipse", "Verif.Props.C147_ellipse_accepted", "Verif.Props.C147_violated"], "note": "Areas that decrease: in binary64 a pixel touched with weight 2^-60 changes the order of the additions so that the reported area falls by a millionth and calculate_petrosian rejects the curve (C147_violated; the overlap is a lawful one made for the purpose). They increase when each aperture is larger than the one before by more than the errors (C147_accepted, C147_ellipse_accepted), when the apertures touch the same pixels (C147_same_pixels), and for weights 0 and 1 (C147_whole). The pixel weights are the computed numbers; their error tau against the exact overlap is a parameter. No overflow or underflow."},
{"property": "C148", "status": "proved", "theorems": ["Verif.Props.C148_radius", "Verif.Props.C148_fraction", "Verif.Props.C148_image", "Verif.Props.C148_attained"], "note": "C148_radius and C148_fraction: any profile and curve of growth known to some accuracy; C148_image: from the pixels; C148_attained: the conditions can be met, with the cubic spline rounded at the end and the image rounded to p bits. The thresholds exist and are not computed; binary64 has a fixed relative error, so it reaches an accuracy that depends on the galaxy. The rounded solution of the spline system inside SciPy is a contract (GentleR), no overflow or underflow, radii representable."},
{"property": "C149", "status": "partial", "theorems": ["Verif.Props.C149_target", "Verif.Props.C149_target_shows", "Verif.Props.C149_target_default", "Verif.Props.C149_target_middle", "Verif.Props.C149_target_violated", "Verif.Props.C149_apertures", "Verif.Props.C149_apertures_none", "Verif.Props.C149_title_always", "Verif.Props.C149_segments", "Verif.Props.C149_segments_state", "Verif.Props.C149_segments_colours", "Verif.Props.C149_print_value", "Verif.Props.C149_print_order", "Verif.Props.C149_print_small", "Verif.Props.C149_print_lines", "Verif.Props.C149_print_sets"], "note": "Violated parts, with witnesses: the default window of plot_target does not show the whole image unless the target is near its middle (C149_target_default is exact, C149_target_violated); apertures=None raises TypeError although the code tests for None (C149_apertures_none); the title is set even when nothing is drawn (C149_title_always); plot_segments advances the global generator of numpy, so later random numbers change (C149_segments_state); values below 0.00005 print as zero (C149_print_small) and parameter sets are printed under the wrong names (C149_print_sets)."},
{"property": "C150", "status": "partial", "theorems": ["Verif.Props.C150_error", "Verif.Props.C150_unbiased", "Verif.Props.C150_variance", "Verif.Props.C150_center", "Verif.Props.C150_honest", "Verif.Props.C150_ring", "Verif.Props.C150_ring_violated", "Verif.Props.C150_linear", "Verif.Props.C150_profile", "Verif.Props.C150_profile_violated"], "note": "Violated parts, with witnesses: the error of a ring adds the errors of its two apertures in quadrature although they share their pixels, so it can exceed the standard deviation by any factor (C150_ring_violated); it is never too small (C150_ring). The profile error is never too small to first order while flux and flux difference have the same sign (C150_profile), and too small when the ring flux is negative (C150_profile_violated)."},
{"property": "C151", "status": "proved", "theorems": ["Verif.Props.C151_sums", "Verif.Props.C151_recipe", "Verif.Props.C151_consistent"], "note": "C151_sums is the deterministic core: it bounds the errors of aperture sums, not of pixels. Exact pixel overlap, no mask, no error map, exact arithmetic apart from the six decimals (C148 treats rounded arithmetic)."},
{"property": "C152", "status": "partial", "theorems": ["Verif.Props.C152_unbiased", "Verif.Props.C152_variance", "Verif.Props.C152_best", "Verif.Props.C152_residual", "Verif.Props.C152_consistent", "Verif.Props.C152_clipped_violated"], "note": "Proved without clipping. Violated with the default sigma=3 (C152_clipped_violated): a mean-zero noise law for one pixel gives an expected fit different from the true plane, for every least-squares fitter."},
{"property": "C153", "status": "partial", "theorems": ["Verif.Props.C153_exact", "Verif.Props.C153_radial", "Verif.Props.C153_centre", "Verif.Props.C153_everywhere", "Verif.Props.C153_angle_violated"], "note": "The fitter is assumed to return a global optimum. Violated part, with proof for every image: the default bounds on theta span two full turns, so the fitted angle is never determined by the image (C153_angle_violated). With the centre free, uniqueness is proved for models that agree everywhere (C153_everywhere), not for models that agree at finitely many pixels."},
{"property": "C154", "status": "proved", "theorems": ["Verif.Props.C154_converges", "Verif.Props.C154_psf", "Verif.Props.C154_lipschitz", "Verif.Props.C154_smooth", "Verif.Props.C154_sharp", "Verif.Props.C154_sersic", "Verif.Props.C154_fixed_violated", "Verif.Props.C154_window", "Verif.Props.C154_window_psf", "Verif.Props.C154_window_sersic"], "note": "Exact arithmetic; integer oversampling. C154_fixed_violated is the contrast: a fixed factor has no error bound that holds for all galaxies. Oversampling windows: the pixels in the window converge to their light, those outside stay at the value of the pixel centre (with and without PSF; image starting at zero and window inside, see C57 and C58)."},
{"property": "C155", "status": "partial", "theorems": ["Verif.Props.C155_current_partial", "Verif.Props.C155_plot_fit", "Verif.Props.C155_given_violated", "Verif.Props.C155_pair_violated"], "note": "Holds on the current axes and for plot_fit. Violated, with proof for every canvas: with ax= other than the current axes the tick frame always goes to the current axes (a new empty one if there is none), because mpl_tick_frame is called without ax; side by side the left panel never gets it and the right one gets it twice."},
{"property": "C156", "status": "proved", "theorems": ["Verif.Props.C156_inside_circle", "Verif.Props.C156_contains_circle", "Verif.Props.C156_rounder", "Verif.Props.C156_circle_angle", "Verif.Props.C156_half_turns", "Verif.Props.C156_quarter_turn", "Verif.Props.C156_radii"], "note": "over the reals, with the photutils methods of Model/Overlap.lean"},
{"property": "C157", "status": "partial", "theorems": ["Verif.Props.C157_range", "Verif.Props.C157_ellip", "Verif.Props.C157_elong", "Verif.Props.C157_order_partial", "Verif.Props.C157_pixels", "Verif.Props.C157_area", "Verif.Props.C157_circle", "Verif.Props.C157_huge_violated", "Verif.Props.C157_order_violated"], "note": "Violated for elongations from about 2**53 on: elong_to_ellip is not monotone there, and returns exactly 1 for 2**54, which ellip_to_elong refuses with ZeroDivisionError. The bounds hold for 8 u q <= 1."},
{"property": "C158", "status": "partial", "theorems": ["Verif.Props.C158_dyadic_partial", "Verif.Props.C158_binary64_partial", "Verif.Props.C158_shape_partial", "Verif.Props.C158_wrapped_partial", "Verif.Props.C158_raises_violated", "Verif.Props.C158_columns_violated"], "note": "Exact for centres that are multiples of a power of two (no ValueError, all pixels right). For other centres the property is violated: with size 3, centre 2.1 raises ValueError for every model, and centre 1.3 repeats a column and a row of every wrapped model. Proved for any centre: the shape is right if an image is returned, a plain model is evaluated within 6uR(i+1) of the right point, and a wrapped model raises no IndexError and is off by at most one pixel downwards. Missing: wrapped models with a PSF or oversampling in rounded arithmetic; modes other than center."},
{"property": "C159", "status": "proved", "theorems": ["Verif.Props.C159_upper", "Verif.Props.C159_lower", "Verif.Props.C159_radii", "Verif.Props.C159_model", "Verif.Props.C159_model_growth"], "note": "Images with finite pixels, no mask or error image; PSF at data resolution and not rotated; elongation at least 1."},
{"property": "C160", "status": "proved", "theorems": ["Verif.Props.C160_settings", "Verif.Props.C160_default", "Verif.Props.C160_psf"], "note": "Real arithmetic, exact overlap. Both rows converge to the same numbers of the Sersic profile (C138, now for all such settings): every pixel of the simulated image lies between the profile at radii that differ from its own by the reach of the PSF."},
{"property": "C161", "status": "proved", "theorems": ["Verif.Props.C161_radii", "Verif.Props.C161_total", "Verif.Props.C161_concentration", "Verif.Props.C161_light", "Verif.Props.C161_model"], "note": "Real arithmetic, exact overlap. A blurred image lies between the galaxy at radii that differ by the reach of the PSF, which vanishes in units of the galaxy; C136, C137, C143, C144 are the case without blur. Model images: square, PSF not rotated."},
{"property": "C162", "status": "proved", "theorems": ["Verif.Props.C162_recipe", "Verif.Props.C162_processed", "Verif.Props.C162_consistent", "Verif.Props.C162_floats"], "note": "Real arithmetic, exact overlap for the probabilities (C162_floats: rounded arithmetic, pixels within a small bound). Chebyshev bound on aperture sums; the sums are compared as in C151, which is the case of uncorrelated noise without PSF."},
{"property": "C163", "status": "proved", "theorems": ["Verif.Props.C163_total", "Verif.Props.C163_concentration", "Verif.Props.C163_total_sums", "Verif.Props.C163_concentration_sums"], "note": "Real arithmetic, exact overlap, cubic interpolation. The _sums theorems hold for single images whose aperture sums are close to those of the sampled galaxy."},
{"property": "C164", "status": "proved", "theorems": ["Verif.Props.C164_recipe", "Verif.Props.C164_total", "Verif.Props.C164_concentration", "Verif.Props.C164_spread", "Verif.Props.C164_corners"], "note": "Real arithmetic, exact overlap, sigma=None (with sigma clipping the fit is biased: C152_clipped_violated). Subtraction is a linear map of the pixels; its rows and columns are bounded by the spread, so the subtracted image has correlated noise and C162, C163 apply."},
{"property": "C165", "status": "proved", "theorems": ["Verif.Props.C165_image", "Verif.Props.C165_noise", "Verif.Props.C165_sersic", "Verif.Props.C165_exists", "Verif.Props.C165_radial", "Verif.Props.C165_centre", "Verif.Props.C165_consistent"], "note": "Real arithmetic. The fitter is assumed to return a global minimum of the weighted sum of squares inside the bounds (as in C153). Continuity of b_n in n is proved; large amplitudes and radii are excluded because one pixel would be too bright or two pixels too similar. The centre is held fixed."},
{"property": "C166", "status": "proved", "theorems": ["Verif.Props.C166_family", "Verif.Props.C166_exists", "Verif.Props.C166_sersic", "Verif.Props.C166_sersic_exists"], "note": "Real arithmetic, no weights. The fitter is assumed to return a global minimum of the sum of squares inside the bounds (as in C153, C165); here amplitude and r_eff have upper bounds and r_eff a lower bound in units of the frame, set by the user. Proof: uniform law of large numbers over a compact parameter set, separation of different scenes in proportion to the number of pixels, identifiability from values on the frame only."},
{"property": "C167", "status": "proved", "theorems": ["Verif.Props.C167_data", "Verif.Props.C167_family", "Verif.Props.C167_sersic", "Verif.Props.C167_exists"], "note": "Real arithmetic, integer oversampling (no window). The fitter is assumed to return parameters whose sum of squares, of the values of evaluate at the fitted coordinates, exceeds the smallest one by at most tau, where tau divided by the number of pixels goes to zero. The border effect of the zero-padded convolution, on whatever grid the non-NaN pixels span, is part of the proof: it touches a vanishing fraction of pixels."},
{"property": "C168", "status": "proved", "theorems": ["Verif.Props.C168_values", "Verif.Props.C168_window", "Verif.Props.C168_exists"], "note": "Real arithmetic; without a PSF psf_oversample is None and factor > 1. The fitter is assumed to return parameters whose sum of squares is within tau of the smallest, tau of smaller order than the number of pixels."},
{"property": "C169", "status": "proved", "theorems": ["Verif.Props.C169_identified", "Verif.Props.C169_sum", "Verif.Props.C169_galaxies", "Verif.Props.C169_exchanged_violated"], "note": "Real arithmetic. The fitter is assumed to return parameters whose weighted sum of squares exceeds the smallest one by at most tau, where tau divided by the number of pixels goes to zero. C169_exchanged_violated shows that bounds that tell the galaxies apart are needed."},
{"property": "C170", "status": "proved", "theorems": ["Verif.Props.C170_names", "Verif.Props.C170_wrap", "Verif.Props.C170_sum", "Verif.Props.C170_center", "Verif.Props.C170_bare_violated"], "note": "The naming of the parameters of a CompoundModel is astropy behaviour, modelled from its documentation. C170_bare_violated shows that the bare names are refused."},
{"property": "C171", "status": "proved", "theorems": ["Verif.Props.C171_center", "Verif.Props.C171_values", "Verif.Props.C171_window"], "note": "As C169; without a PSF psf_oversample is None and factor > 1."},
{"property": "C172", "status": "proved", "theorems": ["Verif.Props.C172_family", "Verif.Props.C172_galaxies", "Verif.Props.C172_window"], "note": "Settings as in C169 (C172_galaxies) and as in C171 (C172_window). delta exists but is not computed."},
{"property": "C173", "status": "proved", "theorems": ["Verif.Props.C173_derived", "Verif.Props.C173_fraction", "Verif.Props.C173_tolerance", "Verif.Props.C173_robust"], "note": "C173_robust is for the setting of C172. galaxies_results feeds the conclusion of C169 and C171 into both theorems. Over the reals, as C64 to C67."},
{"property": "C174", "status": "proved", "theorems": ["Verif.Props.C174_identified", "Verif.Props.C174_galaxies", "Verif.Props.C174_window", "Verif.Props.C174_coincident_violated"], "note": "C174_coincident_violated is the part of the claim on coincident galaxies."},
{"property": "C175", "status": "proved", "theorems": ["Verif.Props.C175_identified", "Verif.Props.C175_extras", "Verif.Props.C175_window"], "note": ""},
{"property": "C176", "status": "partial", "theorems": ["Verif.Props.C176_model", "Verif.Props.C176_options", "Verif.Props.C176_options_ignored", "Verif.Props.C176_fitter_violated", "Verif.Props.C176_background"], "note": "The fitted model and the options for TRFLSQFitter, LevMarLSQFitter and LMLSQFitter are as claimed. The returned fitter is violated (C176_fitter_violated): line 126 returns the class, so fit_info, and with it everything calc_uncertainties adds there, is lost. Other iterative fitters (DogBoxLSQFitter) do not get the options (C176_options_ignored)."},
{"property": "C177", "status": "partial", "theorems": ["Verif.Props.C177_masked_partial", "Verif.Props.C177_masked_violated", "Verif.Props.C177_fill_violated", "Verif.Props.C177_source_photometry_violated", "Verif.Props.C177_cutout_partial", "Verif.Props.C177_cutout_floats_violated", "Verif.Props.C177_unsigned_violated"], "note": "Holds for integer fill values (C177_masked_partial) and for integer cutouts whose differences stay in the range of the dtype (C177_cutout_partial). Violated otherwise: the default fill value NaN is a ValueError, so source_photometry never works on an integer image; fractions of fill values are dropped; float cutouts are a TypeError; unsigned integers wrap around."},
{"property": "C178", "status": "partial", "theorems": ["Verif.Props.C178_numbers", "Verif.Props.C178_local_partial", "Verif.Props.C178_window_partial", "Verif.Props.C178_nuker_window_partial", "Verif.Props.C178_fft_violated", "Verif.Props.C178_nuker_violated"], "note": "Holds with direct convolution and without PSF (C178_local_partial; C178_window_partial for oversampling windows inside of the image, where undefined samples of the main grid do no harm), so a window of an even factor gives a Nuker2D values everywhere (C178_nuker_window_partial). Violated when scipy convolves with Fourier transforms: one undefined sample makes every pixel NaN (C178_fft_violated), for instance for a Nuker2D centred on a pixel (C178_nuker_violated). C178_numbers: without undefined values the model used here is the one of C53-C59 and C119, windows included."},
{"property": "C179", "status": "partial", "theorems": ["Verif.Props.C179_plain", "Verif.Props.C179_keyword_partial", "Verif.Props.C179_tied_violated", "Verif.Props.C179_free_violated", "Verif.Props.C179_keyword_violated", "Verif.Props.C179_psf_pa_violated", "Verif.Props.C179_free"], "note": "Violated: the constructor copies fixed and bounds of the wrapped model but not tied (C179_tied_violated, for every tie of a parameter that is not fixed), and tied parameters and psf_pa are handed to the optimizer (C179_free_violated), psf_pa also without a PSF, where nothing depends on it (C179_psf_pa_violated). Ties given to the wrapper with the keyword tied hold for the fitted wrapper (C179_keyword_partial) but are missing in .model (C179_keyword_violated). astropy's fitter_to_model_params is modelled; ties are functions of parameters that are not tied."},
{"property": "C180", "status": "proved", "theorems": ["Verif.Props.C180_accuracy", "Verif.Props.C180_small", "Verif.Props.C180_direct", "Verif.Props.C180_binary64", "Verif.Props.C180_uniform", "Verif.Props.C180_galaxies", "Verif.Props.C180_window", "Verif.Props.C180_sampled", "Verif.Props.C180_run", "Verif.Props.C180_bits_run", "Verif.Props.C180_bits"], "note": "C180_accuracy has the bound imageErr; C180_small makes it small. np.sum, scipy's convolve and rotate and the wrapped model are arbitrary functions of a stated accuracy; pairwise summation with direct convolution in binary64 has it (C180_direct, C180_binary64). Coordinates are pixels of an image (C07 is about others), the cache holds a grid of the right size. Overflow and NaN are not part of this model. C180_bits: for correctly rounded model values and direct convolutions the number of bits only has to exceed the logarithm of the image size by a constant."},
{"property": "C181", "status": "partial", "theorems": ["Verif.Props.C181_current", "Verif.Props.C181_frame", "Verif.Props.C181_copy", "Verif.Props.C181_scaled", "Verif.Props.C181_kept_violated", "Verif.Props.C181_warnings", "Verif.Props.C181_one_warning"], "note": "The code violates independence from the caller's array (C181_kept_violated). Model.copy is taken to be copy.deepcopy (astropy); writing to an array may change its shape here. C181_scaled is for psf_pa = 0 (scipy's rotate is an arbitrary function)."},
{"property": "C182", "status": "partial", "theorems": ["Verif.Props.C182_kept", "Verif.Props.C182_fitted", "Verif.Props.C182_ties", "Verif.Props.C182_ties_violated"], "note": "Violated for ties (C182_ties_violated, for every wrapper and parameter). A change of the caller's model is a change of the wrapped model in the wrapper (TWrapped.sub), as they are one object. Bounds are like the fixed flags and left out as in Model/Tied.lean."},
{"property": "C183", "status": "partial", "theorems": ["Verif.Props.C183_period", "Verif.Props.C183_half_period", "Verif.Props.C183_jump_violated", "Verif.Props.C183_continuous_partial"], "note": "Violated: C183_jump_violated (continuity at the default angle), C183_period (psf_pa not determined). scipy.ndimage.rotate is Model/Rotate.lean: zero outside of the input, any interpolation inside; linear interpolation is proved to be one (bilinear_interpolation). C183_continuous_partial is for integer oversampling."},
{"property": "C184", "status": "partial", "theorems": ["Verif.Props.C184_continuous", "Verif.Props.C184_window_partial", "Verif.Props.C184_named_window_violated"], "note": "Violated by windows that follow a parameter (C184_named_window_violated). C184_window_partial needs a PSF and an image from (0, 0) that contains the window (C57, C58). psf_pa is kept (C183)."},
{"property": "C185", "status": "partial", "theorems": ["Verif.Props.C185_aperture", "Verif.Props.C185_annulus", "Verif.Props.C185_continuous", "Verif.Props.C185_center_violated"], "note": "No jumps: proved for method=\"exact\", violated by method=\"center\" (C185_center_violated, circles). The bounds hold for all methods."},
{"property": "C186", "status": "proved", "theorems": ["Verif.Props.C186_exact", "Verif.Props.C186_sources", "Verif.Props.C186_center"], "note": "roundingExcess is the effect of the rounding to six decimals, in terms of the reported fluxes and areas. Areas of neighbouring radii must differ by more than the rounding."},
{"property": "C187", "status": "partial", "theorems": ["Verif.Props.C187_photometry", "Verif.Props.C187_inserted", "Verif.Props.C187_outer", "Verif.Props.C187_inner", "Verif.Props.C187_errors", "Verif.Props.C187_radius", "Verif.Props.C187_radius_violated", "Verif.Props.C187_radius_partial", "Verif.Props.C187_finer"], "note": "Strictly increasing areas; for repeated areas see C04. C187_errors: the same for the errors, where fluxes and flux differences are not zero. r_petrosian: unchanged without interpolation (C187_radius); violated with interpolation, where the radius is one of interp_num samples of the whole range (C187_radius_violated). C187_radius_partial: with linear interpolation of a falling profile it moves by at most the sum of the two sampling steps."},
{"property": "C188", "status": "partial", "theorems": ["Verif.Props.C188_outside_partial", "Verif.Props.C188_found", "Verif.Props.C188_cubic_violated"], "note": "NaN beyond the apertures: proved without interpolation and for interpolations that stay between neighbouring data points (linear, nearest, ...). Violated by the default cubic splines (C188_cubic_violated): with four apertures up to 7 and the true radius 10 all entries are above eta, but the spline dips below it and a radius of at most 5 is reported. C188_found holds for all interpolations through the data, splines included."}
]}

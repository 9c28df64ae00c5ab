{
 "claims": [
  {
   "property": "C01",
   "status": "proved",
   "theorems": [
    "Micropol.C01_merge_split",
    "Micropol.C01_split_merge",
    "Micropol.C01_odd_rejected"
   ],
   "note": ""
  },
  {
   "property": "C02",
   "status": "proved",
   "theorems": [
    "Micropol.C02_family_pixels",
    "Micropol.C02_partition",
    "Micropol.C02_accessors",
    "Micropol.C02_polarCam"
   ],
   "note": ""
  },
  {
   "property": "C03",
   "status": "proved",
   "theorems": [
    "Micropol.C03_shift",
    "Micropol.C03_shift_unique"
   ],
   "note": ""
  },
  {
   "property": "C04",
   "status": "proved",
   "theorems": [
    "Micropol.C04_shift_add",
    "Micropol.C04_shift_back",
    "Micropol.C04_shift_zero"
   ],
   "note": ""
  },
  {
   "property": "C05",
   "status": "proved",
   "theorems": [
    "Micropol.C05_shift_micropol",
    "Micropol.C05_family",
    "Micropol.C05_shift_stokes"
   ],
   "note": ""
  },
  {
   "property": "C06",
   "status": "proved",
   "theorems": [
    "Micropol.C06_trim"
   ],
   "note": ""
  },
  {
   "property": "C07",
   "status": "partial",
   "theorems": [
    "Micropol.C07_trim2x_partial",
    "Micropol.C07_hangs_on_odd",
    "Micropol.C07_full_claim_false"
   ],
   "note": "Proved for even sides (the only sides a MicropolImage can have); refuted for odd sides: the call never terminates (C07_hangs_on_odd, C07_full_claim_false)."
  },
  {
   "property": "C08",
   "status": "proved",
   "theorems": [
    "Micropol.C08_rebin",
    "Micropol.C08_flux",
    "Micropol.C08_flux_exact"
   ],
   "note": ""
  },
  {
   "property": "C09",
   "status": "proved",
   "theorems": [
    "Micropol.C09_rebin_families",
    "Micropol.C09_flux"
   ],
   "note": ""
  },
  {
   "property": "C10",
   "status": "proved",
   "theorems": [
    "Micropol.C10_rebin_stokes"
   ],
   "note": ""
  },
  {
   "property": "C11",
   "status": "proved",
   "theorems": [
    "Micropol.C11_rejects",
    "Micropol.C11_one",
    "Micropol.C11_total"
   ],
   "note": ""
  },
  {
   "property": "C12",
   "status": "proved",
   "theorems": [
    "Micropol.C12_rebin_rebin",
    "Micropol.C12_rebin_rebin_micropol"
   ],
   "note": ""
  },
  {
   "property": "C13",
   "status": "proved",
   "theorems": [
    "Micropol.C13_mean",
    "Micropol.C13_mean_total"
   ],
   "note": ""
  },
  {
   "property": "C14",
   "status": "proved",
   "theorems": [
    "Micropol.C14_adjacent"
   ],
   "note": ""
  },
  {
   "property": "C15",
   "status": "proved",
   "theorems": [
    "Micropol.C15_keeps_samples",
    "Micropol.C15_bounds",
    "Micropol.C15_linear"
   ],
   "note": ""
  },
  {
   "property": "C16",
   "status": "partial",
   "theorems": [
    "Micropol.C16_options_partial",
    "Micropol.C16_spline_fails"
   ],
   "note": "Proved for every option string except \"spline\"; refuted there: \"spline\" is neither supported nor rejected with ValueError, it always fails with AttributeError (np.float)."
  },
  {
   "property": "C17",
   "status": "proved",
   "theorems": [
    "Micropol.C17_stokes",
    "Micropol.C17_missing_angle",
    "Micropol.C17_relabel"
   ],
   "note": ""
  },
  {
   "property": "C18",
   "status": "proved",
   "theorems": [
    "Micropol.C18_pB",
    "Micropol.C18_AoLP_range",
    "Micropol.C18_polar"
   ],
   "note": ""
  },
  {
   "property": "C19",
   "status": "proved",
   "theorems": [
    "Micropol.C19_total",
    "Micropol.C19_physical",
    "Micropol.C19_bound",
    "Micropol.C19_two_attained"
   ],
   "note": ""
  },
  {
   "property": "C20",
   "status": "proved",
   "theorems": [
    "Micropol.C20_gain_stokes",
    "Micropol.C20_gain_pol"
   ],
   "note": ""
  },
  {
   "property": "C21",
   "status": "proved",
   "theorems": [
    "Micropol.C21_malus"
   ],
   "note": ""
  },
  {
   "property": "C22",
   "status": "proved",
   "theorems": [
    "Micropol.C22_demodulation_inverts"
   ],
   "note": ""
  },
  {
   "property": "C23",
   "status": "proved",
   "theorems": [
    "Micropol.C23_fallback_is_theoretical"
   ],
   "note": ""
  },
  {
   "property": "C24",
   "status": "proved",
   "theorems": [
    "Micropol.C24_flags",
    "Micropol.C24_no_flags"
   ],
   "note": ""
  },
  {
   "property": "C25",
   "status": "partial",
   "theorems": [
    "Micropol.C25_rejects_partial",
    "Micropol.C25_broadcast_accepted",
    "Micropol.C25_full_claim_false"
   ],
   "note": "Rejection proved for every tensor whose sides are not 1 (C25_rejects_partial); refuted for a side equal to 1: numpy broadcasting accepts it silently (C25_broadcast_accepted, C25_full_claim_false)."
  },
  {
   "property": "C26",
   "status": "proved",
   "theorems": [
    "Micropol.C26_demosaicing",
    "Micropol.C26_needs_flags"
   ],
   "note": ""
  },
  {
   "property": "C27",
   "status": "partial",
   "theorems": [
    "Micropol.C27_count",
    "Micropol.C27_complete_partial",
    "Micropol.C27_missing_refused_partial",
    "Micropol.C27_full_claim_false"
   ],
   "note": "Proved for folders in which no two files carry the same digits (C27_complete_partial, C27_missing_refused_partial) and, without restriction, that exactly twelve validly numbered files exist (C27_count); refuted with repeated digits: a missing component is silently 0 (C27_full_claim_false)."
  },
  {
   "property": "C28",
   "status": "proved",
   "theorems": [
    "Micropol.C28_roundtrip",
    "Micropol.C28_maps",
    "Micropol.C28_covariance",
    "Micropol.C28_files",
    "Micropol.C28_overwrite"
   ],
   "note": ""
  },
  {
   "property": "C29",
   "status": "proved",
   "theorems": [
    "Micropol.C29_interrupted",
    "Micropol.C29_flags_lost",
    "Micropol.C29_mixes_calibrations"
   ],
   "note": "Proved for all crash points between file writes into a folder without numbered files. The parenthesised violations are theorems: flags lost (C29_flags_lost), old and new mixed over a previous calibration (C29_mixes_calibrations). Truncated files are not modelled."
  },
  {
   "property": "C30",
   "status": "proved",
   "theorems": [
    "Micropol.C30_layout"
   ],
   "note": ""
  },
  {
   "property": "C31",
   "status": "proved",
   "theorems": [
    "Micropol.C31_grid_independent",
    "Micropol.C31_border",
    "Micropol.C31_odd_rejected"
   ],
   "note": ""
  },
  {
   "property": "C32",
   "status": "proved",
   "theorems": [
    "Micropol.C32_schedule",
    "Micropol.C32_index_bijection",
    "Micropol.C32_position"
   ],
   "note": ""
  },
  {
   "property": "C33",
   "status": "proved",
   "theorems": [
    "Micropol.C33_total",
    "Micropol.C33_fallback",
    "Micropol.C33_fitted",
    "Micropol.C33_flag",
    "Micropol.C33_local"
   ],
   "note": ""
  },
  {
   "property": "C34",
   "status": "partial",
   "theorems": [
    "Micropol.C34_rot90",
    "Micropol.C34_full_turn",
    "Micropol.C34_turns_add",
    "Micropol.C34_nonsquare",
    "Micropol.C34_flip",
    "Micropol.C34_flip_twice",
    "Micropol.C34_flags_not_moved",
    "Micropol.C34_alignment_false"
   ],
   "note": "Turns and flips of the tensor proved for every k and axis whenever the shape allows it, with composition and involution; refuted: the fit flags are not moved (C34_flags_not_moved, C34_alignment_false) and an odd turn of a non-square tensor raises ValueError (C34_nonsquare)."
  },
  {
   "property": "C35",
   "status": "proved",
   "theorems": [
    "Micropol.C35_dark",
    "Micropol.C35_nonneg",
    "Micropol.C35_shape",
    "Micropol.C35_stokes"
   ],
   "note": "C35_stokes is in Props/Edit.lean: after any session of calls and writes."
  },
  {
   "property": "C36",
   "status": "partial",
   "theorems": [
    "Micropol.C36_flat_partial",
    "Micropol.C36_flat_scale",
    "Micropol.C36_uniform_flat",
    "Micropol.C36_determined_partial",
    "Micropol.C36_zero_flat_undetermined"
   ],
   "note": "Proved at every pixel where the flat is not 0; refuted elsewhere: np.divide(where=) without out= leaves uninitialised memory (C36_zero_flat_undetermined)."
  },
  {
   "property": "C37",
   "status": "proved",
   "theorems": [
    "Micropol.C37_ifov",
    "Micropol.C37_range",
    "Micropol.C37_families"
   ],
   "note": ""
  },
  {
   "property": "C38",
   "status": "partial",
   "theorems": [
    "Micropol.C38_clean",
    "Micropol.C38_get_hot_pixels_fails"
   ],
   "note": "Cleaning proved for every shape-preserving filter and every flag map; refuted for the flag map producer: get_hot_pixels always raises AttributeError (C38_get_hot_pixels_fails)."
  },
  {
   "property": "C39",
   "status": "partial",
   "theorems": [
    "Micropol.C39_images",
    "Micropol.C39_numbers",
    "Micropol.C39_div_partial",
    "Micropol.C39_inverse",
    "Micropol.C39_shape_mismatch",
    "Micropol.C39_zero_division_undetermined",
    "Micropol.C39_session_images",
    "Micropol.C39_session_numbers"
   ],
   "note": "+, -, * proved in full; / proved where the divisor is not 0 and refuted elsewhere: the result there is uninitialised memory (C39_zero_division_undetermined)."
  },
  {
   "property": "C40",
   "status": "proved",
   "theorems": [
    "Micropol.C40_images_kept",
    "Micropol.C40_data_kept",
    "Micropol.C40_demosaic",
    "Micropol.C40_history"
   ],
   "note": ""
  },
  {
   "property": "C41",
   "status": "partial",
   "theorems": [
    "Micropol.C41_stokes_kept_partial",
    "Micropol.C41_rotate_overwrites_source",
    "Micropol.C41_mask_changes_original"
   ],
   "note": "Proved for every operation except rotate and mask_occulter; refuted for those two: rotate overwrites the Stokes maps of its source, and masking a copy masks the Stokes maps of the original, because copies share one array (C41_rotate_overwrites_source, C41_mask_changes_original)."
  },
  {
   "property": "C42",
   "status": "proved",
   "theorems": [
    "Micropol.C42_theoretical",
    "Micropol.C42_pixels",
    "Micropol.C42_stale_after_demosaic"
   ],
   "note": "Proved for all histories of the listed operations (with failing calls in between). The parenthesised violation after demosaic is proved too (C42_stale_after_demosaic)."
  },
  {
   "property": "C43",
   "status": "partial",
   "theorems": [
    "Micropol.C43_right_when_set_partial",
    "Micropol.C43_right_when_masked_partial",
    "Micropol.C43_no_resize_partial",
    "Micropol.C43_inherited",
    "Micropol.C43_others_kept",
    "Micropol.C43_shared",
    "Micropol.C43_array_own",
    "Micropol.C43_source_overwritten",
    "Micropol.C43_full_claim_false"
   ],
   "note": "Proved: right after a call that sets pixel data (C43_right_when_set_partial, C43_right_when_masked_partial), for all images of a history without rebin, congrid and clean_hot_pixels (C43_no_resize_partial), exactly which images share a header (C43_shared, C43_array_own, C43_others_kept). Refuted in general: an image and the images made from it share one header (C43_source_overwritten, C43_full_claim_false)."
  },
  {
   "property": "C44",
   "status": "proved",
   "theorems": [
    "Micropol.C44_even",
    "Micropol.C44_split",
    "Micropol.C44_odd_rejected",
    "Micropol.C44_stokes_half",
    "Micropol.C44_no_congrid"
   ],
   "note": "Even sides for all histories of all modelled operations. The factor 2 between data and Stokes shapes assumes that plain demodulation is called with demodulators of the right size."
  },
  {
   "property": "C45",
   "status": "proved",
   "theorems": [
    "Micropol.C45_constructed",
    "Micropol.C45_kept",
    "Micropol.C45_derived"
   ],
   "note": ""
  },
  {
   "property": "C46",
   "status": "partial",
   "theorems": [
    "Micropol.C46_polar_coordinates",
    "Micropol.C46_trunc",
    "Micropol.C46_pixels",
    "Micropol.C46_superpixels",
    "Micropol.C46_odd_rejected",
    "Micropol.C46_centre_filled",
    "Micropol.C46_default_centre",
    "Micropol.C46_default_rho_fails",
    "Micropol.C46_boolean"
   ],
   "note": "Region proved for every centre, radius range, angle range and fill (C46_pixels, C46_superpixels); refuted: the documented default rho=None raises TypeError (C46_default_rho_fails), and the centre pixel is never selected by a ring from radius 0 (C46_centre_filled)."
  },
  {
   "property": "C47",
   "status": "proved",
   "theorems": [
    "Micropol.C47_idempotent",
    "Micropol.C47_rings",
    "Micropol.C47_sectors",
    "Micropol.C47_masks",
    "Micropol.C47_whole_circle"
   ],
   "note": ""
  },
  {
   "property": "C48",
   "status": "proved",
   "theorems": [
    "Micropol.C48_consistent",
    "Micropol.C48_kept_iff",
    "Micropol.C48_fill_zero",
    "Micropol.C48_other_fill"
   ],
   "note": "Proved for every reachable non demosaiced image with half size Stokes maps; the failure for another fill value is proved by a witness (C48_other_fill)."
  },
  {
   "property": "C49",
   "status": "proved",
   "theorems": [
    "Micropol.C49_transparent",
    "Micropol.C49_map_polar_coordinates",
    "Micropol.C49_hit"
   ],
   "note": ""
  },
  {
   "property": "C50",
   "status": "proved",
   "theorems": [
    "Micropol.C50_inverse",
    "Micropol.C50_range",
    "Micropol.C50_injective",
    "Micropol.C50_other_lengths"
   ],
   "note": ""
  },
  {
   "property": "C51",
   "status": "partial",
   "theorems": [
    "Micropol.C51_read_partial",
    "Micropol.C51_dark_pixel_fails",
    "Micropol.C51_full_claim_false",
    "Micropol.C51_sequential_partial",
    "Micropol.C51_short_fails",
    "Micropol.C51_long_fails"
   ],
   "note": "Proved exactly: a file of the right length is read as its sequential decoding iff no chunk ends in a zero byte (C51_sequential_partial, C51_read_partial); refuted otherwise: reading fails with an error (C51_dark_pixel_fails, C51_full_claim_false)."
  },
  {
   "property": "C52",
   "status": "proved",
   "theorems": [
    "Micropol.C52_sum",
    "Micropol.C52_average",
    "Micropol.C52_order",
    "Micropol.C52_single",
    "Micropol.C52_short",
    "Micropol.C52_bad_name",
    "Micropol.C52_others_kept",
    "Micropol.C52_set_mean",
    "Micropol.C52_set_others_kept",
    "Micropol.C52_set_size"
   ],
   "note": ""
  },
  {
   "property": "C53",
   "status": "proved",
   "theorems": [
    "Micropol.C53_modulo",
    "Micropol.C53_roundtrip",
    "Micropol.C53_any_path",
    "Micropol.C53_saved"
   ],
   "note": ""
  },
  {
   "property": "C54",
   "status": "partial",
   "theorems": [
    "Micropol.C54_name_partial",
    "Micropol.C54_dots_wrong",
    "Micropol.C54_dot_example",
    "Micropol.C54_full_claim_false",
    "Micropol.C54_never_lost",
    "Micropol.C54_error_clean",
    "Micropol.C54_destroyed"
   ],
   "note": "Proved when the absolute path has a single dot (C54_name_partial) and, for every path and stopping point, that the data is never lost (C54_never_lost); refuted with another dot: '<path>.fits' is never written (C54_dots_wrong, C54_full_claim_false). C54_destroyed: a name such as a.raw/../b.fits destroys the file."
  },
  {
   "property": "C55",
   "status": "proved",
   "theorems": [
    "Micropol.C55_unique",
    "Micropol.C55_normalised",
    "Micropol.C55_number",
    "Micropol.C55_fixed",
    "Micropol.C55_idempotent"
   ],
   "note": ""
  },
  {
   "property": "C56",
   "status": "proved",
   "theorems": [
    "Micropol.C56_normalised",
    "Micropol.C56_fixed"
   ],
   "note": ""
  },
  {
   "property": "C57",
   "status": "partial",
   "theorems": [
    "Micropol.C57_clamped_partial",
    "Micropol.C57_zero_bound",
    "Micropol.C57_full_claim_false"
   ],
   "note": "Clamping proved for bounds different from 0 (C57_clamped_partial); refuted for a bound equal to 0, which counts as absent (C57_zero_bound, C57_full_claim_false)."
  },
  {
   "property": "C58",
   "status": "proved",
   "theorems": [
    "Micropol.C58_symmetric",
    "Micropol.C58_constant",
    "Micropol.C58_affine",
    "Micropol.C58_empty"
   ],
   "note": ""
  },
  {
   "property": "C59",
   "status": "proved",
   "theorems": [
    "Micropol.C59_data",
    "Micropol.C59_involution",
    "Micropol.C59_rejects",
    "Micropol.C59_header",
    "Micropol.C59_full_frame"
   ],
   "note": ""
  },
  {
   "property": "C60",
   "status": "partial",
   "theorems": [
    "Micropol.C60_truncates",
    "Micropol.C60_points_partial",
    "Micropol.C60_density",
    "Micropol.C60_overshoot",
    "Micropol.C60_equal_points",
    "Micropol.C60_full_claim_false"
   ],
   "note": "Proved: points 0..n run from start to end in unit steps along the longer axis. Refuted: there is always one extra point beyond the end (C60_overshoot), and equal end points raise ValueError (C60_equal_points, C60_full_claim_false)."
  },
  {
   "property": "C61",
   "status": "partial",
   "theorems": [
    "Micropol.C61_polar_inside",
    "Micropol.C61_polar_succeeds",
    "Micropol.C61_polar_border_centre",
    "Micropol.C61_polar_row",
    "Micropol.C61_values_partial",
    "Micropol.C61_interior_end_partial",
    "Micropol.C61_last_column_fails",
    "Micropol.C61_first_column_wraps",
    "Micropol.C61_full_claim_false"
   ],
   "note": "Proved whenever the extra point after the end is a pixel, in particular when the end is not on the border. Refuted at the border: IndexError at the last column, last value wrapped around at the first column (C61_last_column_fails, C61_first_column_wraps, C61_full_claim_false). linear_roi_from_polar: values and pixels for every angle."
  },
  {
   "property": "C62",
   "status": "proved",
   "theorems": [
    "Micropol.C62_flat_lines",
    "Micropol.C62_vertical",
    "Micropol.C62_steep_swapped"
   ],
   "note": ""
  },
  {
   "property": "C63",
   "status": "proved",
   "theorems": [
    "Micropol.C63_pixels",
    "Micropol.C63_ring_normalised",
    "Micropol.C63_affine",
    "Micropol.C63_empty"
   ],
   "note": ""
  },
  {
   "property": "C64",
   "status": "proved",
   "theorems": [
    "Micropol.C64_found",
    "Micropol.C64_missing",
    "Micropol.C64_small"
   ],
   "note": ""
  },
  {
   "property": "C65",
   "status": "partial",
   "theorems": [
    "Micropol.C65_pB",
    "Micropol.C65_DoLP",
    "Micropol.C65_AoLP_partial",
    "Micropol.C65_AoLP_zero_Q"
   ],
   "note": "pB and DoLP errors are the first-order Gaussian propagation of independent Stokes errors. The AoLP error is proved for Q != 0 (C65_AoLP_partial); at Q = 0, U != 0 the derivative exists but the code returns NaN (C65_AoLP_zero_Q)."
  },
  {
   "property": "C66",
   "status": "proved",
   "theorems": [
    "Micropol.C66_stokes",
    "Micropol.C66_homogeneous",
    "Micropol.C66_monotone",
    "Micropol.C66_zero_iff",
    "Micropol.C66_rejects",
    "Micropol.C66_all"
   ],
   "note": ""
  },
  {
   "property": "C67",
   "status": "proved",
   "theorems": [
    "Micropol.C67_average",
    "Micropol.C67_sum",
    "Micropol.C67_dates",
    "Micropol.C67_order",
    "Micropol.C67_empty",
    "Micropol.C67_missing",
    "Micropol.C67_shapes",
    "Micropol.C67_no_time"
   ],
   "note": ""
  },
  {
   "property": "C68",
   "status": "partial",
   "theorems": [
    "Micropol.C68_list_partial",
    "Micropol.C68_sum_name",
    "Micropol.C68_string"
   ],
   "note": "Holds for a list of one name and, with the SUM_ prefix, for several (C68_list_partial, C68_sum_name). For a plain string the file name is its first character: C68_string refutes the full claim for every string of two or more characters."
  },
  {
   "property": "C69",
   "status": "proved",
   "theorems": [
    "Micropol.C69_apply",
    "Micropol.C69_identity"
   ],
   "note": ""
  },
  {
   "property": "C70",
   "status": "proved",
   "theorems": [
    "Micropol.C70_resampled",
    "Micropol.C70_bilinear_unique",
    "Micropol.C70_corners",
    "Micropol.C70_range",
    "Micropol.C70_constant",
    "Micropol.C70_identity",
    "Micropol.C70_families"
   ],
   "note": ""
  },
  {
   "property": "C71",
   "status": "partial",
   "theorems": [
    "Micropol.C71_all_params_partial",
    "Micropol.C71_single_pol_partial",
    "Micropol.C71_param_partial",
    "Micropol.C71_demosaiced_partial",
    "Micropol.C71_angle_names",
    "Micropol.C71_save_as_fits",
    "Micropol.C71_rejects",
    "Micropol.C71_rejects_files",
    "Micropol.C71_demosaiced_rejects",
    "Micropol.C71_single_pol_makes_directory",
    "Micropol.C71_dot_stem"
   ],
   "note": "The files written, their contents, their distinctness and the untouched rest are proved for every stem other than '.' (C71_all_params_partial, C71_single_pol_partial, C71_param_partial, C71_demosaiced_partial) with headers not modelled. Rejection before any file is written: C71_rejects, C71_rejects_files, C71_demosaiced_rejects. Violated parts: save_single_pol_images makes a directory before rejecting (C71_single_pol_makes_directory), save_demosaiced accepts any extension (C71_demosaiced_partial), the stem '.' is lost (C71_dot_stem)."
  },
  {
   "property": "C72",
   "status": "proved",
   "theorems": [
    "Micropol.C72_shot_noise",
    "Micropol.C72_negative",
    "Micropol.C72_monotone",
    "Micropol.C72_bsun",
    "Micropol.C72_bsun_zero"
   ],
   "note": ""
  },
  {
   "property": "C73",
   "status": "partial",
   "theorems": [
    "Micropol.C73_frames_partial",
    "Micropol.C73_order",
    "Micropol.C73_extra_files",
    "Micropol.C73_rejects_orientations",
    "Micropol.C73_rejects_empty",
    "Micropol.C73_empty_dark_fails",
    "Micropol.C73_flat_fails",
    "Micropol.C73_flat_attribute_error",
    "Micropol.C73_zero_signal",
    "Micropol.C73_stack_order"
   ],
   "note": "C73_frames_partial gives every prepared frame and error for all inputs without a flat; C73_order, C73_extra_files, C73_rejects_*. Violated parts: a flat always fails (C73_flat_fails, C73_flat_attribute_error), a zero signal is divided by (C73_zero_signal), a stack must be listed by increasing orientation (C73_stack_order). C73_empty_dark_fails: an empty dark name is not ignored."
  },
  {
   "property": "C74",
   "status": "partial",
   "theorems": [
    "Micropol.C74_well_posed",
    "Micropol.C74_estimated",
    "Micropol.C74_failures",
    "Micropol.C74_dark_majority",
    "Micropol.C74_uniform",
    "Micropol.C74_reference_signal",
    "Micropol.C74_malus_normalization",
    "Micropol.C74_malus_rejects",
    "Micropol.C74_sign_matters"
   ],
   "note": "C74_estimated and C74_failures together determine the signal for every histogram and every answer of the fit (curve_fit is a parameter). Violated in use: C74_dark_majority, C74_sign_matters."
  },
  {
   "property": "C75",
   "status": "proved",
   "theorems": [
    "Micropol.C75_identifiable",
    "Micropol.C75_recovers_sensor"
   ],
   "note": "curve_fit enters as a parameter with the hypothesis FindsExact: it returns an exact solution inside the bounds when there is one. numpy.linalg.pinv is any function satisfying the Penrose equations."
  },
  {
   "property": "C76",
   "status": "partial",
   "theorems": [
    "Micropol.C76_occulted_partial",
    "Micropol.C76_no_occulter",
    "Micropol.C76_centre_missed",
    "Micropol.C76_ideal_behind"
   ],
   "note": "C76_occulted_partial is exact for every superpixel except the centre, which the code misses (C76_centre_missed)."
  },
  {
   "property": "C77",
   "status": "proved",
   "theorems": [
    "Micropol.C77_copy",
    "Micropol.C77_rebin",
    "Micropol.C77_shift",
    "Micropol.C77_hot_pixels",
    "Micropol.C77_dark",
    "Micropol.C77_flat",
    "Micropol.C77_ifov",
    "Micropol.C77_rotate",
    "Micropol.C77_congrid",
    "Micropol.C77_demodulate",
    "Micropol.C77_always_return",
    "Micropol.C77_same_shape_return",
    "Micropol.C77_corrections_return",
    "Micropol.C77_transformations_return",
    "Micropol.C77_theoretical_return",
    "Micropol.C77_demosaic_return"
   ],
   "note": "For arithmetic the pixels are C39_session_images and C39_session_numbers (same sessions). The calls return after any history (C77_*_return); demodulation with flags and congrid need Stokes maps of the right size, which C44_stokes_half gives for images that are neither demosaiced nor made from congrid results, and C77_theoretical_return for sessions without such operations."
  },
  {
   "property": "C78",
   "status": "partial",
   "theorems": [
    "Micropol.C78_any_camera",
    "Micropol.C78_any_camera_default",
    "Micropol.C78_mask",
    "Micropol.C78_circles",
    "Micropol.C78_default_rmax",
    "Micropol.C78_roi",
    "Micropol.C78_roi_circle",
    "Micropol.C78_far_pixels_lost",
    "Micropol.C78_kasi_fails"
   ],
   "note": "C78_mask, C78_circles, C78_default_rmax, C78_roi, C78_roi_circle hold for PolarCam. Violated parts: C78_kasi_fails (AttributeError), C78_far_pixels_lost (pixels beyond 5000 are filled)."
  },
  {
   "property": "C79",
   "status": "proved",
   "theorems": [
    "Micropol.C79_median",
    "Micropol.C79_interval",
    "Micropol.C79_exists",
    "Micropol.C79_half_within",
    "Micropol.C79_rearranged",
    "Micropol.C79_affine",
    "Micropol.C79_empty"
   ],
   "note": "NaN of an empty image is the error notFinite."
  },
  {
   "property": "C80",
   "status": "partial",
   "theorems": [
    "Micropol.C80_kept_partial",
    "Micropol.C80_majority",
    "Micropol.C80_degenerate",
    "Micropol.C80_full_claim_false"
   ],
   "note": "C80_kept_partial is exact when the median distance is not 0; C80_degenerate and C80_full_claim_false show that nothing is rejected otherwise."
  },
  {
   "property": "C81",
   "status": "partial",
   "theorems": [
    "Micropol.C81_otsu_partial",
    "Micropol.C81_between",
    "Micropol.C81_two_levels",
    "Micropol.C81_narrow",
    "Micropol.C81_full_claim_false",
    "Micropol.C81_empty"
   ],
   "note": "C81_otsu_partial: least within-class scatter among the candidates; C81_between, C81_two_levels. Violated: C81_narrow, C81_full_claim_false (image spanning less than 1). scipy.ndimage.median_filter is a parameter."
  },
  {
   "property": "C82",
   "status": "partial",
   "theorems": [
    "Micropol.C82_sizes",
    "Micropol.C82_others_unchanged",
    "Micropol.C82_write",
    "Micropol.C82_images_separate_partial",
    "Micropol.C82_write_other_partial",
    "Micropol.C82_caller_array",
    "Micropol.C82_copies",
    "Micropol.C82_shift",
    "Micropol.C82_rebin",
    "Micropol.C82_arithmetic_images",
    "Micropol.C82_arithmetic_numbers",
    "Micropol.C82_assign",
    "Micropol.C82_assignment_shares",
    "Micropol.C82_full_claim_false"
   ],
   "note": "C82_images_separate_partial and C82_write_other_partial hold for sessions without assignment to image.data; C82_assignment_shares and C82_full_claim_false show the sharing. All other parts hold for every session."
  },
  {
   "property": "C83",
   "status": "partial",
   "theorems": [
    "Micropol.C83_loaded",
    "Micropol.C83_keywords",
    "Micropol.C83_keywords_lost",
    "Micropol.C83_full_claim_false"
   ],
   "note": "C83_loaded and C83_keywords hold for every session; C83_keywords_lost and C83_full_claim_false: images made from images have no keywords but the sizes."
  },
  {
   "property": "C84",
   "status": "partial",
   "theorems": [
    "Micropol.C84_default_fails",
    "Micropol.C84_no_flat_fails",
    "Micropol.C84_empty_dark_fails",
    "Micropol.C84_rejects",
    "Micropol.C84_result",
    "Micropol.C84_order",
    "Micropol.C84_constant",
    "Micropol.C84_ideal_sensor",
    "Micropol.C84_full_claim_false"
   ],
   "note": "Closed form of C and d for even frames with a flat and without occulter (the other calls are proved to fail); pinv is any function satisfying the Penrose conditions on columns and on rank-one matrices. The claim that an ideal sensor is left unchanged is false (C84_ideal_sensor gives the exact distortion)."
  },
  {
   "property": "C85",
   "status": "partial",
   "theorems": [
    "Micropol.C85_identifiable",
    "Micropol.C85_edges",
    "Micropol.C85_circle",
    "Micropol.C85_small",
    "Micropol.C85_empty",
    "Micropol.C85_few_rows",
    "Micropol.C85_no_fit",
    "Micropol.C85_unknown_method",
    "Micropol.C85_algo_rows",
    "Micropol.C85_full_claim_false",
    "Micropol.C85_centre_claim_false"
   ],
   "note": "Proved for images whose middle row and column are exact logistic steps, with a curve_fit that finds exact solutions; the violations are proved with witnesses (C85_full_claim_false, C85_centre_claim_false, C85_unknown_method)."
  },
  {
   "property": "C86",
   "status": "proved",
   "theorems": [
    "Micropol.C86_first",
    "Micropol.C86_none",
    "Micropol.C86_ends",
    "Micropol.C86_gain",
    "Micropol.C86_image"
   ],
   "note": "cv2.medianBlur, cv2.HoughCircles and the conversion of numbers outside 0..255 to uint8 are parameters."
  },
  {
   "property": "C87",
   "status": "partial",
   "theorems": [
    "Micropol.C87_write",
    "Micropol.C87_calls",
    "Micropol.C87_new_partial",
    "Micropol.C87_corrected_partial",
    "Micropol.C87_independence_kept",
    "Micropol.C87_copies_stay_equal",
    "Micropol.C87_refreshed",
    "Micropol.C87_full_claim_false",
    "Micropol.C87_stale"
   ],
   "note": "The violation is proved (C87_full_claim_false, C87_copies_stay_equal, C87_stale). Independence is proved for all other ways to make an image and for corrected images; writes into the arrays of I, Q, U are C108, into demosaiced images C117."
  },
  {
   "property": "C88",
   "status": "partial",
   "theorems": [
    "Micropol.C88_add",
    "Micropol.C88_sub",
    "Micropol.C88_mul",
    "Micropol.C88_sub_then_add",
    "Micropol.C88_sum",
    "Micropol.C88_sum_of_counts",
    "Micropol.C88_dark_partial",
    "Micropol.C88_dark_signed",
    "Micropol.C88_dark_unsigned",
    "Micropol.C88_full_claim_false",
    "Micropol.C88_dark_as_float",
    "Micropol.C88_chen",
    "Micropol.C88_chen_partial",
    "Micropol.C88_chen_full_claim_false"
   ],
   "note": "The violations are proved (C88_dark_unsigned, C88_full_claim_false, C88_chen_full_claim_false). Operands of different types and numbers as second operand: C116."
  },
  {
   "property": "C89",
   "status": "partial",
   "theorems": [
    "Micropol.C89_show",
    "Micropol.C89_show_numbers",
    "Micropol.C89_show_empty",
    "Micropol.C89_pol_params",
    "Micropol.C89_with_pol_params",
    "Micropol.C89_pol_param",
    "Micropol.C89_single_pol",
    "Micropol.C89_demo_partial",
    "Micropol.C89_demo_limits",
    "Micropol.C89_demo_not_demosaiced",
    "Micropol.C89_histogram",
    "Micropol.C89_histogram_all",
    "Micropol.C89_histogram_families",
    "Micropol.C89_histogram_family_totals",
    "Micropol.C89_histogram_not_split",
    "Micropol.C89_histogram_errors",
    "Micropol.C89_full_claim_false"
   ],
   "note": "The violation is proved (C89_demo_limits, C89_full_claim_false). A figure is the list of its panels (array, colour limits, title, unit); matplotlib and further keyword arguments are not modelled."
  },
  {
   "property": "C90",
   "status": "partial",
   "theorems": [
    "Micropol.C90_tile",
    "Micropol.C90_tile_families",
    "Micropol.C90_outliers_unchanged",
    "Micropol.C90_outliers_range",
    "Micropol.C90_outliers_partial",
    "Micropol.C90_spike_stays",
    "Micropol.C90_full_claim_false",
    "Micropol.C90_tensor",
    "Micropol.C90_tensor_axes"
   ],
   "note": "The violations are proved (C90_spike_stays, C90_full_claim_false, C90_tensor_axes). Profiles are one-dimensional arrays of floats; a figure is the list of its panels."
  },
  {
   "property": "C91",
   "status": "partial",
   "theorems": [
    "Micropol.C91_double",
    "Micropol.C91_error_size",
    "Micropol.C91_rebin_exact",
    "Micropol.C91_rebin_micropol_exact",
    "Micropol.C91_stokes_exact",
    "Micropol.C91_dark_exact",
    "Micropol.C91_demosaic_mean_exact",
    "Micropol.C91_demosaic_adjacent_exact",
    "Micropol.C91_ifov_exact",
    "Micropol.C91_sum_exact",
    "Micropol.C91_pipeline",
    "Micropol.C91_rebin_near",
    "Micropol.C91_rebin_micropol_near",
    "Micropol.C91_stokes_near",
    "Micropol.C91_dark_near",
    "Micropol.C91_demodulate_near",
    "Micropol.C91_average_near",
    "Micropol.C91_pB_near",
    "Micropol.C91_dolp_near",
    "Micropol.C91_load",
    "Micropol.C91_average_of_equals",
    "Micropol.C91_full_claim_false",
    "Micropol.C91_average_of_equals_exact"
   ],
   "note": "Averaging identical frames is violated in floating point (C91_average_of_equals, C91_full_claim_false). Rounding without overflow, underflow, NaN; every sum is taken in the order of the loops, np.matmul adds its four products from left to right without fused multiply-add."
  },
  {
   "property": "C92",
   "status": "partial",
   "theorems": [
    "Micropol.C92_stokes",
    "Micropol.C92_rebin",
    "Micropol.C92_rebin_micropol",
    "Micropol.C92_demosaic_mean",
    "Micropol.C92_demosaic_adjacent",
    "Micropol.C92_ifov",
    "Micropol.C92_demodulate",
    "Micropol.C92_demodulate_demosaicing",
    "Micropol.C92_dark",
    "Micropol.C92_flat_data",
    "Micropol.C92_chen",
    "Micropol.C92_shift",
    "Micropol.C92_flat_not_local",
    "Micropol.C92_full_claim_false"
   ],
   "note": "Violated for the flat (C92_flat_not_local, C92_full_claim_false): one bright pixel of the flat changes the whole corrected image through its mean."
  },
  {
   "property": "C93",
   "status": "partial",
   "theorems": [
    "Micropol.C93_rebin",
    "Micropol.C93_rebin_micropol",
    "Micropol.C93_stokes",
    "Micropol.C93_demosaic_mean",
    "Micropol.C93_demosaic_adjacent",
    "Micropol.C93_ifov",
    "Micropol.C93_demodulate",
    "Micropol.C93_demodulate_demosaicing",
    "Micropol.C93_flat",
    "Micropol.C93_chen",
    "Micropol.C93_shift",
    "Micropol.C93_dark_partial",
    "Micropol.C93_full_claim_false"
   ],
   "note": "Violated for dark subtraction because of the clipping (C93_full_claim_false); C93_dark_partial gives the inequality and equality where nothing is clipped. Flat correction at pixels where the flat is not zero."
  },
  {
   "property": "C94",
   "status": "proved",
   "theorems": [
    "Micropol.C94_corrected",
    "Micropol.C94_measurement",
    "Micropol.C94_polarization",
    "Micropol.C94_ideal_polarizers",
    "Micropol.C94_binned",
    "Micropol.C94_calibrated"
   ],
   "note": "Exact arithmetic; noiseless exposures; curve_fit finds exact solutions and pinv is the pseudo-inverse (C94_calibrated, as in C75)."
  },
  {
   "property": "C95",
   "status": "partial",
   "theorems": [
    "Micropol.C95_dark_bin",
    "Micropol.C95_dark_flat",
    "Micropol.C95_dark_shift",
    "Micropol.C95_shift_bin",
    "Micropol.C95_flat_bin_uniform",
    "Micropol.C95_dark_bin_order_matters",
    "Micropol.C95_flat_bin_order_matters"
   ],
   "note": "False for dark and rebin when a pixel lies below the dark (binning first never gives more; equal when no pixel of the bin is below: C95_dark_bin) and for flat and rebin unless the light is uniform (C95_flat_bin_uniform); witnesses C95_dark_bin_order_matters, C95_flat_bin_order_matters. The other exchanges hold without restriction."
  },
  {
   "property": "C96",
   "status": "partial",
   "theorems": [
    "Micropol.C96_value_partial",
    "Micropol.C96_unfitted",
    "Micropol.C96_zero_iff",
    "Micropol.C96_equal_errors",
    "Micropol.C96_units",
    "Micropol.C96_freedom",
    "Micropol.C96_four_frames",
    "Micropol.C96_full_claim_false"
   ],
   "note": "Violated (C96_full_claim_false): the errors are not squared and the degrees of freedom are the frames minus two, three or four depending on the boundaries given (C96_freedom), zero for four frames and default boundaries (C96_four_frames). C96_value_partial gives the value for all calibrations; C96_zero_iff holds; C96_units: the value scales with the unit; C96_unfitted: 0 also where no fit was found."
  },
  {
   "property": "C97",
   "status": "partial",
   "theorems": [
    "Micropol.C97_components",
    "Micropol.C97_refused",
    "Micropol.C97_forgets_turns",
    "Micropol.C97_commutes_partial",
    "Micropol.C97_flags_refused",
    "Micropol.C97_full_claim_false",
    "Micropol.C97_mean_not_enough"
   ],
   "note": "Violated (C97_full_claim_false): the fit flags keep their size, so with the flags that every finished calibration stores the binned image cannot be demodulated at all (C97_flags_refused); without flags the results differ for a tensor that varies inside a block (C97_mean_not_enough). Proved: the components (C97_components), the refusals (C97_refused), lost turns and flips (C97_forgets_turns) and the commutation for flagless, blockwise constant tensors (C97_commutes_partial)."
  },
  {
   "property": "C98",
   "status": "partial",
   "theorems": [
    "Micropol.C98_given",
    "Micropol.C98_given_ignored",
    "Micropol.C98_found",
    "Micropol.C98_not_found",
    "Micropol.C98_small",
    "Micropol.C98_small_given",
    "Micropol.C98_zero_step",
    "Micropol.C98_negative_step",
    "Micropol.C98_covered",
    "Micropol.C98_defaults_partial",
    "Micropol.C98_full_claim_false"
   ],
   "note": "Violated (C98_full_claim_false): a missing argument makes the code search the occulter and forget the given ones as well (C98_given_ignored, C98_found, C98_not_found); images with fewer than 8 rows or columns are then always refused (C98_small) though accepted with all arguments (C98_small_given). Step 0 is refused (C98_zero_step), a negative step silently gives zeros (C98_negative_step). Proved: all arguments given (C98_given), the pixels reached by the default step (C98_covered) and the defaults as they are (C98_defaults_partial)."
  },
  {
   "property": "C99",
   "status": "proved",
   "theorems": [
    "Micropol.C99_mean",
    "Micropol.C99_adjacent",
    "Micropol.C99_returns",
    "Micropol.C99_mean_polarization",
    "Micropol.C99_depolarizes"
   ],
   "note": ""
  },
  {
   "property": "C100",
   "status": "proved",
   "theorems": [
    "Micropol.C100_cone",
    "Micropol.C100_dolp",
    "Micropol.C100_state",
    "Micropol.C100_crossed_pairs",
    "Micropol.C100_stokes",
    "Micropol.C100_dolp_demosaiced",
    "Micropol.C100_state_demosaiced"
   ],
   "note": ""
  },
  {
   "property": "C101",
   "status": "partial",
   "theorems": [
    "Micropol.C101_returns",
    "Micropol.C101_image_partial",
    "Micropol.C101_quarter_partial",
    "Micropol.C101_restored_partial",
    "Micropol.C101_polarization_partial",
    "Micropol.C101_counts",
    "Micropol.C101_zero_rounds",
    "Micropol.C101_light_lost",
    "Micropol.C101_angle_not_turned"
   ],
   "note": "Holds: the result, size and positions for every angle (up to the 16 bit fractions of Pillow), one rule for all families and Stokes maps, values up to 24 digits, quarter turns of squares and half turns, turning back, degree of polarization. Violated by the code, with proved witnesses: rotate(0) changes 2^24+1 (32 bit floats), a quarter turn of an image that is not square loses light, the angle of polarization is not turned. The source's Stokes maps are overwritten (C41)."
  },
  {
   "property": "C102",
   "status": "partial",
   "theorems": [
    "Micropol.C102_stokes_partial",
    "Micropol.C102_depolarizes",
    "Micropol.C102_pixels",
    "Micropol.C102_same_size_partial",
    "Micropol.C102_never_consistent",
    "Micropol.C102_same_size_changes_stokes"
   ],
   "note": "Holds: the maps are resampled (C102_stokes_partial), the maps that belong to the new pixels are resampled too (C102_pixels), the degree of polarization is not raised (C102_depolarizes), pixels are kept at the same size (C102_same_size_partial). Violated: the maps are resampled to the size of the pixel data instead of the superpixels, so they never are the ones of the new pixels (C102_never_consistent), and congrid to the same size changes them (C102_same_size_changes_stokes)."
  },
  {
   "property": "C103",
   "status": "partial",
   "theorems": [
    "Micropol.C103_pixels",
    "Micropol.C103_loads",
    "Micropol.C103_stokes_partial",
    "Micropol.C103_reloaded_stokes",
    "Micropol.C103_crash",
    "Micropol.C103_mean",
    "Micropol.C103_polarizations",
    "Micropol.C103_crash_loses",
    "Micropol.C103_demodulation_lost",
    "Micropol.C103_dictionary_lost"
   ],
   "note": "Holds: pixels (C103_pixels, C103_loads), theoretical I, Q, U with the same dictionary (C103_stokes_partial, C103_reloaded_stokes), no mixture after a crash (C103_crash), means (C103_mean), the four polarization files (C103_polarizations). Violated: a crash in the middle of replacing a file loses the old and the new image (C103_crash_loses); demodulated Stokes vectors (C103_demodulation_lost) and the orientations of the polarizers (C103_dictionary_lost) are not in the file."
  },
  {
   "property": "C104",
   "status": "proved",
   "theorems": [
    "Micropol.C104_construct",
    "Micropol.C104_stepwise",
    "Micropol.C104_files",
    "Micropol.C104_polarization",
    "Micropol.C104_calibrated"
   ],
   "note": "C104_construct, C104_stepwise: the constructor with dark and flat. C104_files, C104_polarization: from files, with any tensor that inverts the sensor. C104_calibrated: with the tensor that calculate_demodulation_tensor wrote (fit and pseudoinverse are trusted to be correct, as in C75). Pixels are real numbers."
  },
  {
   "property": "C105",
   "status": "partial",
   "theorems": [
    "Micropol.C105_any_schedule",
    "Micropol.C105_ends",
    "Micropol.C105_saved_partial",
    "Micropol.C105_alone",
    "Micropol.C105_race",
    "Micropol.C105_full_claim_false"
   ],
   "note": "False as stated: C105_race shows that whenever two calls (not save_as_fits) save to the same directory and it does not exist yet, there is a schedule in which the second dies of FileExistsError and saves nothing, because _make_abs_and_create_dir looks for the directory and then makes it without exist_ok; C105_full_claim_false is a concrete case. C105_any_schedule: this exception is the only thing that can happen, everything else of the claim holds at every moment of every schedule. C105_saved_partial: the full claim when the directories exist or the calls are save_as_fits. C105_ends: every program ends. C105_alone: the actions of one program without the others are those of the method (Model/Save). Different files only; two programs writing the same file and readers of a file that is being written are not modelled."
  },
  {
   "property": "C106",
   "status": "proved",
   "theorems": [
    "Micropol.C106_maps",
    "Micropol.C106_polarization",
    "Micropol.C106_turned_polarizer"
   ],
   "note": "C106_maps: two calibrations of any data. C106_turned_polarizer: end to end for the sensor of C75 (the fit finds an exact law, the response has full rank, entries of the pseudo-inverse within the accepted range). C106_polarization: what the turn does to pB, DoLP and AoLP. Exact arithmetic; numpy's pinv is assumed to satisfy the Moore-Penrose equations at matrices of full rank."
  },
  {
   "property": "C107",
   "status": "partial",
   "theorems": [
    "Micropol.C107_parts_partial",
    "Micropol.C107_first",
    "Micropol.C107_not_older",
    "Micropol.C107_not_newer",
    "Micropol.C107_undisturbed",
    "Micropol.C107_mixes",
    "Micropol.C107_vanishes",
    "Micropol.C107_no_flags",
    "Micropol.C107_full_claim_false"
   ],
   "note": "False as stated: C107_mixes (any part of the components old, the others new, nothing reported; C107_full_claim_false), C107_no_flags (a tensor without its flags), C107_vanishes (FileNotFoundError although old and new calibration are whole). C107_parts_partial: the result always has twelve complete components in their places, each of a calibration that was current when it was read. C107_first: the claim (up to the flags) for the first calibration of a folder. C107_not_older, C107_not_newer: bounds by the moments at which the load begins and ends. C107_undisturbed: the claim when nothing is saved during the load. Tensors with a side of one superpixel are left out of the first four (numpy broadcasts them). One saving program at a time."
  },
  {
   "property": "C108",
   "status": "partial",
   "theorems": [
    "Micropol.C108_write",
    "Micropol.C108_polarization",
    "Micropol.C108_calls",
    "Micropol.C108_new_partial",
    "Micropol.C108_renewed_partial",
    "Micropol.C108_independence_kept",
    "Micropol.C108_shared_stay_equal",
    "Micropol.C108_full_claim_false"
   ],
   "note": "False as stated for plain copies and rotated images, which hold the maps of their source (C108_full_claim_false, C108_shared_stay_equal). C108_write, C108_polarization: what a write does, for all sessions. C108_new_partial, C108_renewed_partial, C108_independence_kept: independence for all other ways to make an image and after demosaicing and corrections in place. C108_calls: C41 in sessions with writes."
  },
  {
   "property": "C109",
   "status": "proved",
   "theorems": [
    "Micropol.C109_pixels",
    "Micropol.C109_outcome",
    "Micropol.C109_forgotten"
   ],
   "note": "C109_pixels, C109_outcome: a session compared with the same session without its map writes. C109_forgotten: maps recomputed by rebin, shift, hot pixel cleaning, arithmetic or a correction. Rotations are PIL's (Model/PilRotate)."
  },
  {
   "property": "C110",
   "status": "partial",
   "theorems": [
    "Micropol.C110_units_partial",
    "Micropol.C110_outcomes_partial",
    "Micropol.C110_polarization_partial",
    "Micropol.C110_rotation",
    "Micropol.C110_full_claim_false"
   ],
   "note": "C110_units_partial, C110_outcomes_partial, C110_polarization_partial: all calls, products and quotients by an image only when the first image was not demosaiced. C110_full_claim_false: the product of a demosaiced image has the I map of its first operand, so its maps do not get the unit of the product. C110_rotation: PIL's rotation qualifies for factors that are powers of 2 (it rounds to single precision)."
  },
  {
   "property": "C111",
   "status": "partial",
   "theorems": [
    "Micropol.C111_filter",
    "Micropol.C111_isolated_partial",
    "Micropol.C111_range",
    "Micropol.C111_first_row",
    "Micropol.C111_neighbours",
    "Micropol.C111_full_claim_false",
    "Micropol.C111_units"
   ],
   "note": "C111_filter: the value is the third smallest of four pixels of the same polarizer (scipy's even window looks up and left only). C111_isolated_partial: an isolated hot pixel becomes the brightest of three neighbours, away from the first row and column of superpixels. C111_first_row, C111_full_claim_false: in the first row and column of superpixels hot pixels stay. C111_neighbours: of two neighbouring hot pixels one stays. C111_range, C111_units hold in full."
  },
  {
   "property": "C112",
   "status": "proved",
   "theorems": [
    "Micropol.C112_rebin",
    "Micropol.C112_shift",
    "Micropol.C112_hot_pixels",
    "Micropol.C112_sum",
    "Micropol.C112_number",
    "Micropol.C112_dark",
    "Micropol.C112_ifov",
    "Micropol.C112_flat",
    "Micropol.C112_demodulate",
    "Micropol.C112_congrid",
    "Micropol.C112_demosaic",
    "Micropol.C112_polarization",
    "Micropol.C112_session_maps",
    "Micropol.C112_session_theoretical",
    "Micropol.C112_rebin_sharp",
    "Micropol.C112_no_bound_without_light"
   ],
   "note": "C112_session_maps: whole sessions with calls of every kind (Spec/StabilityMaps: Noisy lists, call by call, the arithmetic of the bounds e of pixels and demosaiced images and f of Stokes maps, with images that share their Stokes vector after a copy or rotation). C112_session_theoretical is the older version for calls after which I, Q, U are the theoretical ones, with the single bound 2e for the maps; C112_rebin, _shift, _hot_pixels, _sum, _number, _dark, _flat, _ifov, _congrid, _demosaic, _demodulate are single calls at any point of any two sessions; C112_polarization the bound for pB and DoLP. C112_rebin_sharp: the factor b*b is attained. C112_no_bound_without_light: where there is no light DoLP has no bound (0 and 2 for frames arbitrarily close). Hot pixel cleaning is with the filter size of the code and flags without error; the rotation routine is an external function with a stated gain."
  },
  {
   "property": "C113",
   "status": "proved",
   "theorems": [
    "Micropol.C113_pixels",
    "Micropol.C113_maps",
    "Micropol.C113_median",
    "Micropol.C113_two_attained",
    "Micropol.C113_pixel_twice",
    "Micropol.C113_minus"
   ],
   "note": "C113_pixels and C113_maps are the two halves of the claim, C113_median shows that cleaning hot pixels with scipy's filter is such a call. The hypotheses are needed: C113_minus (image - image gives -1 where subtract_dark gives 0), C113_pixel_twice (a dictionary with one pixel for two orientations takes DoLP beyond 2). C113_two_attained: the bound 2 is attained."
  },
  {
   "property": "C114",
   "status": "proved",
   "theorems": [
    "Micropol.C114_pixels",
    "Micropol.C114_median",
    "Micropol.C114_doubles",
    "Micropol.C114_rebin_in_doubles",
    "Micropol.C114_dark_in_doubles",
    "Micropol.C114_sum_in_doubles",
    "Micropol.C114_raw",
    "Micropol.C114_attained",
    "Micropol.C114_division"
   ],
   "note": "C114_pixels is the invariant; C114_median admits scipy's filter; C114_doubles, C114_rebin_in_doubles, C114_dark_in_doubles and C114_sum_in_doubles carry it over to rounded arithmetic (with C91); C114_raw carries it through save_as_raw and convert_rawfile_to_fits (with C53). C114_attained: the bound for binning is reached. C114_division: why divisions are excluded."
  },
  {
   "property": "C115",
   "status": "partial",
   "theorems": [
    "Micropol.C115_trim",
    "Micropol.C115_trim2x_partial",
    "Micropol.C115_text",
    "Micropol.C115_image",
    "Micropol.C115_micropol_partial",
    "Micropol.C115_old_kernel",
    "Micropol.C115_old_kernel_corner",
    "Micropol.C115_jitcongrid",
    "Micropol.C115_timer",
    "Micropol.C115_timer_twice",
    "Micropol.C115_focal_ratio"
   ],
   "note": "C115_trim, C115_text, C115_image, C115_old_kernel(_corner), C115_jitcongrid, C115_timer(_twice) hold in full. C115_trim2x_partial and C115_micropol_partial need even sides: with an odd side the call never returns (C07_hangs_on_odd)."
  },
  {
   "property": "C116",
   "status": "partial",
   "theorems": [
    "Micropol.C116_common",
    "Micropol.C116_number",
    "Micropol.C116_operations",
    "Micropol.C116_floats",
    "Micropol.C116_dark",
    "Micropol.C116_full_claim_false",
    "Micropol.C116_scalar",
    "Micropol.C116_scalar_exact",
    "Micropol.C116_minus_one"
   ],
   "note": "C116_common and C116_number give the type against an independent specification (smallest type holding both), C116_operations, C116_floats, C116_scalar, C116_scalar_exact the pixels, C116_dark the dark subtraction. Violated: C116_full_claim_false, C116_minus_one. numpy 1.26's promotion rules are transcribed (trusted base); integers of more than 53 bits converted to float64 are exact here."
  },
  {
   "property": "C117",
   "status": "partial",
   "theorems": [
    "Micropol.C117_present",
    "Micropol.C117_write",
    "Micropol.C117_writes_elsewhere",
    "Micropol.C117_calls",
    "Micropol.C117_new_partial",
    "Micropol.C117_renewed_partial",
    "Micropol.C117_independence_kept",
    "Micropol.C117_shared_stay_equal",
    "Micropol.C117_refreshed",
    "Micropol.C117_full_claim_false"
   ],
   "note": "False as stated for the copies and results listed (C117_full_claim_false, C117_shared_stay_equal: they stay equal under all writes until one of them is demosaiced or masked). C117_present, C117_write, C117_writes_elsewhere, C117_calls: what writes and calls do, for all sessions. C117_refreshed: the recomputation of I, Q and U. C117_new_partial, C117_renewed_partial, C117_independence_kept: independence for all other ways to make an image and after demosaicing and masking."
  },
  {
   "property": "C118",
   "status": "partial",
   "theorems": [
    "Micropol.C118_array_ends",
    "Micropol.C118_exact_partial",
    "Micropol.C118_ends",
    "Micropol.C118_hangs",
    "Micropol.C118_wrong",
    "Micropol.C118_full_claim_false",
    "Micropol.C118_array_exact_partial",
    "Micropol.C118_array_hangs",
    "Micropol.C118_rounded_is_double"
   ],
   "note": "False as stated for large angles (C118_full_claim_false; C118_hangs and C118_array_hangs for every such angle, C118_wrong). C118_exact_partial: exact for every list of doubles up to 2^55 degrees. C118_ends: in range up to 2^60. C118_array_exact_partial: arrays up to 3/2 np.pi, as differences and halved angles of arctan2 are, exactly. C118_array_ends: arrays up to 2^50 end in range, with an error of at most the squared angle times 2^-53."
  },
  {
   "property": "C119",
   "status": "partial",
   "theorems": [
    "Micropol.C119_ieee",
    "Micropol.C119_sources",
    "Micropol.C119_same_functions",
    "Micropol.C119_stokes",
    "Micropol.C119_maps",
    "Micropol.C119_standard_rebin",
    "Micropol.C119_micropol_rebin",
    "Micropol.C119_demosaic_mean",
    "Micropol.C119_demosaic_adjacent",
    "Micropol.C119_ifov",
    "Micropol.C119_demodulate",
    "Micropol.C119_arithmetic",
    "Micropol.C119_dark_hides",
    "Micropol.C119_flat_spreads",
    "Micropol.C119_flat_clean",
    "Micropol.C119_fix_data_hides",
    "Micropol.C119_full_claim_false"
   ],
   "note": "False as stated for subtract_dark (C119_full_claim_false; C119_dark_hides for every set of NaNs), fix_data (C119_fix_data_hides), the border of correct_ifov (C119_ifov) and DoLP where I is 0 (C119_maps). The exact set of NaN results is proved for the Stokes vector, pB, AoLP, DoLP, both rebins, both demosaics, IFOV, plain demodulation, arithmetic of images and flats (C119_flat_spreads, C119_flat_clean). Negative zero and the demodulation of demosaiced images are not covered."
  },
  {
   "property": "C120",
   "status": "partial",
   "theorems": [
    "Micropol.C120_unnoticed_partial",
    "Micropol.C120_same_outcomes_partial",
    "Micropol.C120_all_unnoticed_partial",
    "Micropol.C120_mask_returns",
    "Micropol.C120_only_headers",
    "Micropol.C120_header_rewritten",
    "Micropol.C120_full_claim_false"
   ],
   "note": "False as stated (C120_full_claim_false, C120_header_rewritten): a constructor whose flat does not fit has rewritten the header it shares. Proved for all other calls and all continuations (C120_unnoticed_partial, C120_same_outcomes_partial, C120_all_unnoticed_partial), under the conditions of Op.Atomic: rotations that return planes of the same shape, congrid on images whose Stokes maps have at least two rows and columns, and for the constructor with both dark and flat a header that states the size of the image. Without the conditions at most headers change (C120_only_headers). Interrupts from outside (KeyboardInterrupt, lack of memory) are not modelled."
  },
  {
   "property": "C121",
   "status": "proved",
   "theorems": [
    "Micropol.C121_as_if_alone",
    "Micropol.C121_same_outcomes",
    "Micropol.C121_order",
    "Micropol.C121_one_after_the_other",
    "Micropol.C121_settings_matter",
    "Micropol.C121_common_matter"
   ],
   "note": "Interleaving at the level of calls (one thread; the library uses none on images). Both provisos are needed: C121_settings_matter, C121_common_matter."
  },
  {
   "property": "C122",
   "status": "partial",
   "theorems": [
    "Micropol.C122_sizes",
    "Micropol.C122_other_files",
    "Micropol.C122_saving_keeps",
    "Micropol.C122_save",
    "Micropol.C122_single",
    "Micropol.C122_param",
    "Micropol.C122_all_params",
    "Micropol.C122_demosaiced",
    "Micropol.C122_single_same",
    "Micropol.C122_all_params_same",
    "Micropol.C122_demosaiced_same",
    "Micropol.C122_images",
    "Micropol.C122_calls_keep",
    "Micropol.C122_derived",
    "Micropol.C122_array",
    "Micropol.C122_written",
    "Micropol.C122_other_families_partial",
    "Micropol.C122_loaded",
    "Micropol.C122_loaded_dates",
    "Micropol.C122_loaded_size",
    "Micropol.C122_round_trip",
    "Micropol.C122_sumof_partial",
    "Micropol.C122_shared_keywords",
    "Micropol.C122_sumof_wrong"
   ],
   "note": "Two sentences do not hold of the code: an image and all images made from it have one header object, so a keyword written to one of them shows in all (C122_shared_keywords; C122_images and C122_other_families_partial tell exactly where it shows), and SUMOF counts files, also if these are sums themselves (C122_sumof_wrong, C122_sumof_partial). The rest is proved. Values are texts and integers; comments of keywords are left out."
  },
  {
   "property": "C123",
   "status": "partial",
   "theorems": [
    "Micropol.C123_values",
    "Micropol.C123_aside",
    "Micropol.C123_write",
    "Micropol.C123_take",
    "Micropol.C123_assign_partial",
    "Micropol.C123_full_claim_false",
    "Micropol.C123_image_kept",
    "Micropol.C123_image_own",
    "Micropol.C123_new_images",
    "Micropol.C123_image_arith",
    "Micropol.C123_untouched",
    "Micropol.C123_convert",
    "Micropol.C123_construct",
    "Micropol.C123_of_micropol",
    "Micropol.C123_of_micropol_false",
    "Micropol.C123_hollow",
    "Micropol.C123_type_errors",
    "Micropol.C123_array_operand"
   ],
   "note": "Two sentences do not hold of the code: Image(MicropolImage) has no pixels and every use of it raises AttributeError until some are assigned (C123_of_micropol, C123_of_micropol_false, C123_hollow), and image.data = array leaves the Stokes maps as they were (C123_full_claim_false, C123_assign_partial). image.data hands out the array itself, so C123_values and C123_aside are about sessions that do not ask for or replace the array of a MicropolImage; C123_write, C123_take and C123_assign_partial tell exactly what shows otherwise. Arrays have two dimensions and at least one element."
  },
  {
   "property": "C124",
   "status": "partial",
   "theorems": [
    "Micropol.C124_prescribed_partial",
    "Micropol.C124_estimated_partial",
    "Micropol.C124_malus",
    "Micropol.C124_bias",
    "Micropol.C124_uniform_frames",
    "Micropol.C124_negative_signal",
    "Micropol.C124_full_claim_false"
   ],
   "note": "Proved for every prescribed signal without negative values and any files (C124_prescribed_partial), and for estimated signals when the reference signal is not the same at all pixels (C124_estimated_partial; about readable files, a fitting routine that works in every unit, and estimates that are not negative). It does not hold otherwise: the histogram of uniform frames is one unit wide in any unit (C124_uniform_frames, C124_full_claim_false), and negative signals count as 1 in any unit (C124_negative_signal)."
  },
  {
   "property": "C125",
   "status": "partial",
   "theorems": [
    "Micropol.C125_local_partial",
    "Micropol.C125_hot_pixel",
    "Micropol.C125_estimated_spreads"
   ],
   "note": "Proved for prescribed signals (C125_local_partial). It does not hold for estimated ones: one hot pixel moves the histogram, and where the rest of the reference signal is uniform the whole calibration ends with IndexError (C125_hot_pixel, C125_estimated_spreads)."
  },
  {
   "property": "C126",
   "status": "proved",
   "theorems": [
    "Micropol.C126_files",
    "Micropol.C126_prebinned",
    "Micropol.C126_uniform"
   ],
   "note": "Equality of the two runs, exceptions and missing files included (C126_prebinned); binned files are what micropolarray_rebin returns (C126_files); data and errors with and without binning (C126_uniform). Files have even sides (with odd ones micropolarray_rebin never ends, C07)."
  },
  {
   "property": "C127",
   "status": "partial",
   "theorems": [
    "Micropol.C127_window_partial",
    "Micropol.C127_occulter_outside"
   ],
   "note": "Proved for prescribed signals and an occulter whose centre is not above or left of the part (C127_window_partial). It does not hold otherwise: coordinates are truncated towards zero, so that an occulter with negative coordinates is moved by a superpixel (C127_occulter_outside), and estimated signals depend on all pixels (C125_estimated_spreads)."
  },
  {
   "property": "C128",
   "status": "partial",
   "theorems": [
    "Micropol.C128_determined",
    "Micropol.C128_again_partial",
    "Micropol.C128_twice_partial",
    "Micropol.C128_demosaic_again",
    "Micropol.C128_mask_again",
    "Micropol.C128_demodulate_again",
    "Micropol.C128_rotate_differs"
   ],
   "note": "Results are determined by the looks of the inputs (C128_determined), so calls can be repeated later (C128_again_partial) or at once (C128_twice_partial). It does not hold for rotate, which overwrites the Stokes maps of the image it is called on: the second rotation differs from the first (C128_rotate_differs). In place: C128_demosaic_again, C128_mask_again; C128_demodulate_again. Headers are not compared: some calls write a header shared with their source (C43)."
  },
  {
   "property": "C129",
   "status": "proved",
   "theorems": [
    "Micropol.C129_darks",
    "Micropol.C129_dark_order",
    "Micropol.C129_dark_again",
    "Micropol.C129_flats",
    "Micropol.C129_flat_order",
    "Micropol.C129_ifov",
    "Micropol.C129_nrgf_twice",
    "Micropol.C129_negative_dark",
    "Micropol.C129_ifov_again"
   ],
   "note": "C129_darks, C129_dark_order, C129_dark_again; C129_flats, C129_flat_order; C129_ifov (ifovWays counts the ways of one direction); C129_nrgf_twice. With negative darks the order matters (C129_negative_dark); a second field of view correction darkens the superpixels near the border (C129_ifov_again)."
  },
  {
   "property": "C130",
   "status": "partial",
   "theorems": [
    "Micropol.C130_local",
    "Micropol.C130_units_partial",
    "Micropol.C130_unit_matters",
    "Micropol.C130_flat_matters"
   ],
   "note": "C130_local is the first sentence in full. The unit matters: the constant 1 in the Stokes vectors is in the unit of the frames, so the matrices differ from unit-free ones by a part that falls as 1/c^2 (C130_units_partial, for every unit c; the unit of the flat alone does not matter), and results in another unit are not the results in the other unit (C130_unit_matters). One bright pixel of the flat changes the matrices of superpixels elsewhere (C130_flat_matters)."
  },
  {
   "property": "C131",
   "status": "proved",
   "theorems": [
    "Micropol.C131_cross",
    "Micropol.C131_turned",
    "Micropol.C131_gain",
    "Micropol.C131_gain_fit",
    "Micropol.C131_threshold",
    "Micropol.C131_upside_down",
    "Micropol.C131_offset_matters"
   ],
   "note": "C131_cross, C131_gain, C131_gain_fit (curve_fit is a parameter), C131_turned, C131_upside_down, C131_threshold. A constant added to all pixels does matter: C131_offset_matters."
  },
  {
   "property": "C132",
   "status": "partial",
   "theorems": [
    "Micropol.C132_roundtrip",
    "Micropol.C132_others",
    "Micropol.C132_written",
    "Micropol.C132_fresh_partial",
    "Micropol.C132_interrupted",
    "Micropol.C132_live",
    "Micropol.C132_sizes",
    "Micropol.C132_calibrated",
    "Micropol.C132_tensor_kept",
    "Micropol.C132_spoils_tensor",
    "Micropol.C132_spoils_at_once",
    "Micropol.C132_taken_for_tensor",
    "Micropol.C132_full_claim_false"
   ],
   "note": "Proved: C132_roundtrip, C132_written, C132_others, C132_calibrated (from the measurements to the calibrated image), C132_fresh_partial and C132_interrupted (no old calibration in the folder), C132_live (exactly what is applied over an old calibration, for every schedule), C132_tensor_kept, C132_sizes (components of another size). False: over an old calibration a mixture of both is applied without notice (C132_full_claim_false); the files make every tensor in the folder unloadable (C132_spoils_tensor, C132_spoils_at_once), and stopped after twelve files they are taken for a tensor (C132_taken_for_tensor)."
  },
  {
   "property": "C133",
   "status": "partial",
   "theorems": [
    "Micropol.C133_split",
    "Micropol.C133_stokes",
    "Micropol.C133_demosaic_mean",
    "Micropol.C133_demosaic_adjacent",
    "Micropol.C133_rebin",
    "Micropol.C133_rebin_micropol",
    "Micropol.C133_demodulate",
    "Micropol.C133_demodulate_demosaicing",
    "Micropol.C133_dark",
    "Micropol.C133_flat_partial",
    "Micropol.C133_ifov",
    "Micropol.C133_chen",
    "Micropol.C133_hot_pixels",
    "Micropol.C133_polarization",
    "Micropol.C133_full_claim_false",
    "Micropol.C133_calibrate"
   ],
   "note": "Exact: C133_split, C133_stokes, C133_polarization, C133_dark, C133_rebin, C133_rebin_micropol, C133_demosaic_mean, C133_demodulate, C133_calibrate (tensor from normalised measurements). Away from the edges: C133_demosaic_adjacent, C133_demodulate_demosaicing, C133_ifov, C133_chen, C133_hot_pixels. False for the flat, which is divided by its own mean: the result has another gain (C133_flat_partial gives the gain, C133_full_claim_false a witness)."
  },
  {
   "property": "C134",
   "status": "proved",
   "theorems": [
    "Micropol.C134_involution",
    "Micropol.C134_split",
    "Micropol.C134_stokes",
    "Micropol.C134_demosaic_mean",
    "Micropol.C134_demosaic_adjacent",
    "Micropol.C134_rebin",
    "Micropol.C134_rebin_micropol",
    "Micropol.C134_demodulate",
    "Micropol.C134_demodulate_demosaicing",
    "Micropol.C134_dark",
    "Micropol.C134_flat",
    "Micropol.C134_ifov",
    "Micropol.C134_chen",
    "Micropol.C134_hot_pixels",
    "Micropol.C134_shift",
    "Micropol.C134_congrid",
    "Micropol.C134_polarization",
    "Micropol.C134_calibrate",
    "Micropol.C134_pinv_exists"
   ],
   "note": "C134_split, C134_stokes, C134_polarization, C134_dark, C134_flat (where the flat is not 0; elsewhere numpy leaves what was in memory), C134_rebin, C134_rebin_micropol, C134_shift, C134_congrid, C134_demosaic_mean, C134_demosaic_adjacent, C134_demodulate, C134_demodulate_demosaicing, C134_hot_pixels, C134_ifov, C134_chen, C134_calibrate (tensor from normalised measurements, np.linalg.pinv assumed to be the Moore-Penrose inverse, which exists: C134_pinv_exists)."
  },
  {
   "property": "C135",
   "status": "proved",
   "theorems": [
    "Micropol.C135_untouched",
    "Micropol.C135_loads_as_before",
    "Micropol.C135_returned",
    "Micropol.C135_debug",
    "Micropol.C135_debug_grid"
   ],
   "note": "C135_untouched, C135_loads_as_before, C135_returned, C135_debug, C135_debug_grid. Interruptions while the files are being written are C29."
  },
  {
   "property": "C136",
   "status": "partial",
   "theorems": [
    "Micropol.C136_figures",
    "Micropol.C136_small",
    "Micropol.C136_one_orientation",
    "Micropol.C136_curves_partial",
    "Micropol.C136_stale"
   ],
   "note": "C136_figures for images of at least 150 by 150 pixels and two different orientations; C136_curves_partial where the four fits succeed. The code violates the rest: C136_stale (the figure of a superpixel that was not fitted shows the curves of another superpixel), C136_small (smaller images: ValueError), C136_one_orientation (no figure)."
  },
  {
   "property": "C137",
   "status": "partial",
   "theorems": [
    "Micropol.C137_files",
    "Micropol.C137_loads_partial",
    "Micropol.C137_same",
    "Micropol.C137_stopped",
    "Micropol.C137_mixed",
    "Micropol.C137_same_files"
   ],
   "note": "C137_files, C137_same, C137_same_files, C137_stopped; C137_loads_partial: each component is that of one of the calibrations, not all of the same one. The code violates that: C137_mixed (two programs, both to their end, leave a tensor that is neither). Writing one file is one action."
  },
  {
   "property": "C138",
   "status": "partial",
   "theorems": [
    "Micropol.C138_failed",
    "Micropol.C138_saved_partial",
    "Micropol.C138_lost",
    "Micropol.C138_empty_name",
    "Micropol.C138_full_claim_false"
   ],
   "note": "C138_failed; C138_saved_partial: folders that are there or whose parent is there and whose name has no extension. In all other cases the calibration is lost: C138_lost, C138_full_claim_false; C138_empty_name. Together C138_saved_partial and C138_lost cover every folder name but the empty one."
  },
  {
   "property": "C139",
   "status": "partial",
   "theorems": [
    "Micropol.C139_failed",
    "Micropol.C139_blocked",
    "Micropol.C139_saved",
    "Micropol.C139_loads_partial",
    "Micropol.C139_brackets",
    "Micropol.C139_not_found",
    "Micropol.C139_star",
    "Micropol.C139_question_mark",
    "Micropol.C139_range",
    "Micropol.C139_negated",
    "Micropol.C139_full_claim_false"
   ],
   "note": "C139_failed, C139_blocked, C139_saved in full; C139_loads_partial for names without *, ? and [. With one character in brackets another folder is listed: C139_brackets, C139_not_found, C139_full_claim_false. Names with other patterns read several folders together: C139_star, C139_question_mark, C139_range, C139_negated."
  },
  {
   "property": "C140",
   "status": "partial",
   "theorems": [
    "Micropol.C140_stays_partial",
    "Micropol.C140_chdir",
    "Micropol.C140_lost",
    "Micropol.C140_mixed",
    "Micropol.C140_full_claim_false"
   ],
   "note": "C140_stays_partial: all histories that leave the files of the calibration alone, if the name is absolute or the current directory is again that of the beginning; names without *, ? and [. Otherwise calibrations are mixed or lost: C140_chdir, C140_lost, C140_mixed, C140_full_claim_false."
  },
  {
   "property": "C141",
   "status": "partial",
   "theorems": [
    "Micropol.C141_one_partial",
    "Micropol.C141_layout",
    "Micropol.C141_torn",
    "Micropol.C141_full_claim_false"
   ],
   "note": "C141_one_partial and C141_layout: if the file of the phases does not change between the accesses. Otherwise it is the dictionary of the phases with each family from its own reading (C141_torn), which need not be that of a calibration (C141_full_claim_false)."
  },
  {
   "property": "C142",
   "status": "partial",
   "theorems": [
    "Micropol.C142_phases",
    "Micropol.C142_predicted_partial",
    "Micropol.C142_border",
    "Micropol.C142_full_claim_false"
   ],
   "note": "C142_predicted_partial: if the grid divides the image, predictions within 7.5 degrees of the four directions. C142_phases: stored phases within 15 degrees of the predicted ones. Otherwise two directions may be exchanged: C142_border, C142_full_claim_false. Assumes that curve_fit returns a phase between its bounds."
  }
 ]
}
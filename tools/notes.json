{
 "C07": {
  "status": "partial",
  "note": "Proved for even sides (the only sides a MicropolImage can have); refuted for odd sides: the call never terminates (C07_hangs_on_odd, C07_full_claim_false)."
 },
 "C16": {
  "status": "partial",
  "note": "Proved for every option string except \"spline\"; refuted there: \"spline\" is neither supported nor rejected with ValueError, it always fails with AttributeError (np.float)."
 },
 "C36": {
  "status": "partial",
  "note": "Proved at every pixel where the flat is not 0; refuted elsewhere: np.divide(where=) without out= leaves uninitialised memory (C36_zero_flat_undetermined)."
 },
 "C38": {
  "status": "partial",
  "note": "Cleaning proved for every shape-preserving filter and every flag map; refuted for the flag map producer: get_hot_pixels always raises AttributeError (C38_get_hot_pixels_fails)."
 },
 "C39": {
  "status": "partial",
  "note": "+, -, * proved in full; / proved where the divisor is not 0 and refuted elsewhere: the result there is uninitialised memory (C39_zero_division_undetermined)."
 },
 "C25": {
  "status": "partial",
  "note": "Rejection proved for every tensor whose sides are not 1 (C25_rejects_partial); refuted for a side equal to 1: numpy broadcasting accepts it silently (C25_broadcast_accepted, C25_full_claim_false)."
 },
 "C27": {
  "status": "partial",
  "note": "Proved for folders in which no two files carry the same digits (C27_complete_partial, C27_missing_refused_partial) and, without restriction, that exactly twelve validly numbered files exist (C27_count); refuted with repeated digits: a missing component is silently 0 (C27_full_claim_false)."
 },
 "C29": {
  "status": "proved",
  "note": "Proved for all crash points between file writes into a folder without numbered files. The parenthesised violations are theorems: flags lost (C29_flags_lost), old and new mixed over a previous calibration (C29_mixes_calibrations). Truncated files are not modelled."
 },
 "C34": {
  "status": "partial",
  "note": "Turns and flips of the tensor proved for every k and axis whenever the shape allows it, with composition and involution; refuted: the fit flags are not moved (C34_flags_not_moved, C34_alignment_false) and an odd turn of a non-square tensor raises ValueError (C34_nonsquare)."
 },
 "C57": {
  "status": "partial",
  "note": "Clamping proved for bounds different from 0 (C57_clamped_partial); refuted for a bound equal to 0, which counts as absent (C57_zero_bound, C57_full_claim_false)."
 },
 "C46": {
  "status": "partial",
  "note": "Region proved for every centre, radius range, angle range and fill (C46_pixels, C46_superpixels); refuted: the documented default rho=None raises TypeError (C46_default_rho_fails), and the centre pixel is never selected by a ring from radius 0 (C46_centre_filled)."
 },
 "C41": {
  "status": "partial",
  "note": "Proved for every operation except rotate and mask_occulter; refuted for those two: rotate overwrites the Stokes maps of its source, and masking a copy masks the Stokes maps of the original, because copies share one array (C41_rotate_overwrites_source, C41_mask_changes_original)."
 },
 "C42": {
  "status": "proved",
  "note": "Proved for all histories of the listed operations (with failing calls in between). The parenthesised violation after demosaic is proved too (C42_stale_after_demosaic)."
 },
 "C44": {
  "status": "proved",
  "note": "Even sides for all histories of all modelled operations. The factor 2 between data and Stokes shapes assumes that plain demodulation is called with demodulators of the right size."
 },
 "C48": {
  "status": "proved",
  "note": "Proved for every reachable non demosaiced image with half size Stokes maps; the failure for another fill value is proved by a witness (C48_other_fill)."
 },
 "C43": {
  "status": "partial",
  "note": "Proved: right after a call that sets pixel data (C43_right_when_set_partial, C43_right_when_masked_partial), for all images of a history without rebin, congrid and clean_hot_pixels (C43_no_resize_partial), exactly which images share a header (C43_shared, C43_array_own, C43_others_kept). Refuted in general: an image and the images made from it share one header (C43_source_overwritten, C43_full_claim_false)."
 },
 "C51": {
  "status": "partial",
  "note": "Proved exactly: a file of the right length is read as its sequential decoding iff no chunk ends in a zero byte (C51_sequential_partial, C51_read_partial); refuted otherwise: reading fails with an error (C51_dark_pixel_fails, C51_full_claim_false)."
 },
 "C54": {
  "status": "partial",
  "note": "Proved when the absolute path has a single dot (C54_name_partial) and, for every path and stopping point, that the data is never lost (C54_never_lost); refuted with another dot: '<path>.fits' is never written (C54_dots_wrong, C54_full_claim_false). C54_destroyed: a name such as a.raw/../b.fits destroys the file."
 },
 "C60": {
  "status": "partial",
  "note": "Proved: points 0..n run from start to end in unit steps along the longer axis. Refuted: there is always one extra point beyond the end (C60_overshoot), and equal end points raise ValueError (C60_equal_points, C60_full_claim_false)."
 },
 "C61": {
  "status": "partial",
  "note": "Proved whenever the extra point after the end is a pixel, in particular when the end is not on the border. Refuted at the border: IndexError at the last column, last value wrapped around at the first column (C61_last_column_fails, C61_first_column_wraps, C61_full_claim_false). linear_roi_from_polar: values and pixels for every angle."
 },
 "C65": {
  "status": "partial",
  "note": "pB and DoLP errors are the first-order Gaussian propagation of independent Stokes errors. The AoLP error is proved for Q != 0 (C65_AoLP_partial); at Q = 0, U != 0 the derivative exists but the code returns NaN (C65_AoLP_zero_Q)."
 },
 "C68": {
  "status": "partial",
  "note": "Holds for a list of one name and, with the SUM_ prefix, for several (C68_list_partial, C68_sum_name). For a plain string the file name is its first character: C68_string refutes the full claim for every string of two or more characters."
 },
 "C71": {
  "status": "partial",
  "note": "The files written, their contents, their distinctness and the untouched rest are proved for every stem other than '.' (C71_all_params_partial, C71_single_pol_partial, C71_param_partial, C71_demosaiced_partial) with headers not modelled. Rejection before any file is written: C71_rejects, C71_rejects_files, C71_demosaiced_rejects. Violated parts: save_single_pol_images makes a directory before rejecting (C71_single_pol_makes_directory), save_demosaiced accepts any extension (C71_demosaiced_partial), the stem '.' is lost (C71_dot_stem)."
 },
 "C73": {
  "status": "partial",
  "note": "C73_frames_partial gives every prepared frame and error for all inputs without a flat; C73_order, C73_extra_files, C73_rejects_*. Violated parts: a flat always fails (C73_flat_fails, C73_flat_attribute_error), a zero signal is divided by (C73_zero_signal), a stack must be listed by increasing orientation (C73_stack_order). C73_empty_dark_fails: an empty dark name is not ignored."
 },
 "C74": {
  "status": "partial",
  "note": "C74_estimated and C74_failures together determine the signal for every histogram and every answer of the fit (curve_fit is a parameter). Violated in use: C74_dark_majority, C74_sign_matters."
 },
 "C75": {
  "status": "proved",
  "note": "curve_fit enters as a parameter with the hypothesis FindsExact: it returns an exact solution inside the bounds when there is one. numpy.linalg.pinv is any function satisfying the Penrose equations."
 },
 "C76": {
  "status": "partial",
  "note": "C76_occulted_partial is exact for every superpixel except the centre, which the code misses (C76_centre_missed)."
 },
 "C78": {
  "status": "partial",
  "note": "C78_mask, C78_circles, C78_default_rmax, C78_roi, C78_roi_circle hold for PolarCam. Violated parts: C78_kasi_fails (AttributeError), C78_far_pixels_lost (pixels beyond 5000 are filled)."
 },
 "C79": {
  "status": "proved",
  "note": "NaN of an empty image is the error notFinite."
 },
 "C80": {
  "status": "partial",
  "note": "C80_kept_partial is exact when the median distance is not 0; C80_degenerate and C80_full_claim_false show that nothing is rejected otherwise."
 },
 "C81": {
  "status": "partial",
  "note": "C81_otsu_partial: least within-class scatter among the candidates; C81_between, C81_two_levels. Violated: C81_narrow, C81_full_claim_false (image spanning less than 1). scipy.ndimage.median_filter is a parameter."
 },
 "C82": {
  "status": "partial",
  "note": "C82_images_separate_partial and C82_write_other_partial hold for sessions without assignment to image.data; C82_assignment_shares and C82_full_claim_false show the sharing. All other parts hold for every session."
 },
 "C83": {
  "status": "partial",
  "note": "C83_loaded and C83_keywords hold for every session; C83_keywords_lost and C83_full_claim_false: images made from images have no keywords but the sizes."
 },
 "C84": {
  "status": "partial",
  "note": "Closed form of C and d for even frames with a flat and without occulter (the other calls are proved to fail); pinv is any function satisfying the Penrose conditions on columns and on rank-one matrices. The claim that an ideal sensor is left unchanged is false (C84_ideal_sensor gives the exact distortion)."
 },
 "C85": {
  "status": "partial",
  "note": "Proved for images whose middle row and column are exact logistic steps, with a curve_fit that finds exact solutions; the violations are proved with witnesses (C85_full_claim_false, C85_centre_claim_false, C85_unknown_method)."
 },
 "C86": {
  "status": "proved",
  "note": "cv2.medianBlur, cv2.HoughCircles and the conversion of numbers outside 0..255 to uint8 are parameters."
 },
 "C87": {
  "status": "partial",
  "note": "The violation is proved (C87_full_claim_false, C87_copies_stay_equal, C87_stale). Independence is proved for all other ways to make an image and for corrected images; writes into the arrays of I, Q, U are C108, into demosaiced images C117."
 },
 "C88": {
  "status": "partial",
  "note": "The violations are proved (C88_dark_unsigned, C88_full_claim_false, C88_chen_full_claim_false). Operands of different types and numbers as second operand: C116."
 },
 "C89": {
  "status": "partial",
  "note": "The violation is proved (C89_demo_limits, C89_full_claim_false). A figure is the list of its panels (array, colour limits, title, unit); matplotlib and further keyword arguments are not modelled."
 },
 "C90": {
  "status": "partial",
  "note": "The violations are proved (C90_spike_stays, C90_full_claim_false, C90_tensor_axes). Profiles are one-dimensional arrays of floats; a figure is the list of its panels."
 },
 "C91": {
  "status": "partial",
  "note": "Averaging identical frames is violated in floating point (C91_average_of_equals, C91_full_claim_false). Rounding without overflow, underflow, NaN; every sum is taken in the order of the loops, np.matmul adds its four products from left to right without fused multiply-add."
 },
 "C92": {
  "status": "partial",
  "note": "Violated for the flat (C92_flat_not_local, C92_full_claim_false): one bright pixel of the flat changes the whole corrected image through its mean."
 },
 "C93": {
  "status": "partial",
  "note": "Violated for dark subtraction because of the clipping (C93_full_claim_false); C93_dark_partial gives the inequality and equality where nothing is clipped. Flat correction at pixels where the flat is not zero."
 },
 "C94": {
  "status": "proved",
  "note": "Exact arithmetic; noiseless exposures; curve_fit finds exact solutions and pinv is the pseudo-inverse (C94_calibrated, as in C75)."
 },
 "C95": {
  "status": "partial",
  "note": "False for dark and rebin when a pixel lies below the dark (binning first never gives more; equal when no pixel of the bin is below: C95_dark_bin) and for flat and rebin unless the light is uniform (C95_flat_bin_uniform); witnesses C95_dark_bin_order_matters, C95_flat_bin_order_matters. The other exchanges hold without restriction."
 },
 "C96": {
  "status": "partial",
  "note": "Violated (C96_full_claim_false): the errors are not squared and the degrees of freedom are the frames minus two, three or four depending on the boundaries given (C96_freedom), zero for four frames and default boundaries (C96_four_frames). C96_value_partial gives the value for all calibrations; C96_zero_iff holds; C96_units: the value scales with the unit; C96_unfitted: 0 also where no fit was found."
 },
 "C97": {
  "status": "partial",
  "note": "Violated (C97_full_claim_false): the fit flags keep their size, so with the flags that every finished calibration stores the binned image cannot be demodulated at all (C97_flags_refused); without flags the results differ for a tensor that varies inside a block (C97_mean_not_enough). Proved: the components (C97_components), the refusals (C97_refused), lost turns and flips (C97_forgets_turns) and the commutation for flagless, blockwise constant tensors (C97_commutes_partial)."
 },
 "C98": {
  "status": "partial",
  "note": "Violated (C98_full_claim_false): a missing argument makes the code search the occulter and forget the given ones as well (C98_given_ignored, C98_found, C98_not_found); images with fewer than 8 rows or columns are then always refused (C98_small) though accepted with all arguments (C98_small_given). Step 0 is refused (C98_zero_step), a negative step silently gives zeros (C98_negative_step). Proved: all arguments given (C98_given), the pixels reached by the default step (C98_covered) and the defaults as they are (C98_defaults_partial)."
 },
 "C77": {
  "status": "proved",
  "note": "For arithmetic the pixels are C39_session_images and C39_session_numbers (same sessions). The calls return after any history (C77_*_return); demodulation with flags and congrid need Stokes maps of the right size, which C44_stokes_half gives for images that are neither demosaiced nor made from congrid results, and C77_theoretical_return for sessions without such operations."
 },
 "C35": {
  "status": "proved",
  "note": "C35_stokes is in Props/Edit.lean: after any session of calls and writes."
 },
 "C101": {
  "status": "partial",
  "note": "Holds: the result, size and positions for every angle (up to the 16 bit fractions of Pillow), one rule for all families and Stokes maps, values up to 24 digits, quarter turns of squares and half turns, turning back, degree of polarization. Violated by the code, with proved witnesses: rotate(0) changes 2^24+1 (32 bit floats), a quarter turn of an image that is not square loses light, the angle of polarization is not turned. The source's Stokes maps are overwritten (C41)."
 },
 "C102": {
  "status": "partial",
  "note": "Holds: the maps are resampled (C102_stokes_partial), the maps that belong to the new pixels are resampled too (C102_pixels), the degree of polarization is not raised (C102_depolarizes), pixels are kept at the same size (C102_same_size_partial). Violated: the maps are resampled to the size of the pixel data instead of the superpixels, so they never are the ones of the new pixels (C102_never_consistent), and congrid to the same size changes them (C102_same_size_changes_stokes)."
 },
 "C103": {
  "status": "partial",
  "note": "Holds: pixels (C103_pixels, C103_loads), theoretical I, Q, U with the same dictionary (C103_stokes_partial, C103_reloaded_stokes), no mixture after a crash (C103_crash), means (C103_mean), the four polarization files (C103_polarizations). Violated: a crash in the middle of replacing a file loses the old and the new image (C103_crash_loses); demodulated Stokes vectors (C103_demodulation_lost) and the orientations of the polarizers (C103_dictionary_lost) are not in the file."
 },
 "C104": {
  "status": "proved",
  "note": "C104_construct, C104_stepwise: the constructor with dark and flat. C104_files, C104_polarization: from files, with any tensor that inverts the sensor. C104_calibrated: with the tensor that calculate_demodulation_tensor wrote (fit and pseudoinverse are trusted to be correct, as in C75). Pixels are real numbers."
 },
 "C105": {
  "status": "partial",
  "note": "False as stated: C105_race shows that whenever two calls (not save_as_fits) save to the same directory and it does not exist yet, there is a schedule in which the second dies of FileExistsError and saves nothing, because _make_abs_and_create_dir looks for the directory and then makes it without exist_ok; C105_full_claim_false is a concrete case. C105_any_schedule: this exception is the only thing that can happen, everything else of the claim holds at every moment of every schedule. C105_saved_partial: the full claim when the directories exist or the calls are save_as_fits. C105_ends: every program ends. C105_alone: the actions of one program without the others are those of the method (Model/Save). Different files only; two programs writing the same file and readers of a file that is being written are not modelled."
 },
 "C106": {
  "status": "proved",
  "note": "C106_maps: two calibrations of any data. C106_turned_polarizer: end to end for the sensor of C75 (the fit finds an exact law, the response has full rank, entries of the pseudo-inverse within the accepted range). C106_polarization: what the turn does to pB, DoLP and AoLP. Exact arithmetic; numpy's pinv is assumed to satisfy the Moore-Penrose equations at matrices of full rank."
 },
 "C107": {
  "status": "partial",
  "note": "False as stated: C107_mixes (any part of the components old, the others new, nothing reported; C107_full_claim_false), C107_no_flags (a tensor without its flags), C107_vanishes (FileNotFoundError although old and new calibration are whole). C107_parts_partial: the result always has twelve complete components in their places, each of a calibration that was current when it was read. C107_first: the claim (up to the flags) for the first calibration of a folder. C107_not_older, C107_not_newer: bounds by the moments at which the load begins and ends. C107_undisturbed: the claim when nothing is saved during the load. Tensors with a side of one superpixel are left out of the first four (numpy broadcasts them). One saving program at a time."
 },
 "C108": {
  "status": "partial",
  "note": "False as stated for plain copies and rotated images, which hold the maps of their source (C108_full_claim_false, C108_shared_stay_equal). C108_write, C108_polarization: what a write does, for all sessions. C108_new_partial, C108_renewed_partial, C108_independence_kept: independence for all other ways to make an image and after demosaicing and corrections in place. C108_calls: C41 in sessions with writes."
 },
 "C109": {
  "status": "proved",
  "note": "C109_pixels, C109_outcome: a session compared with the same session without its map writes. C109_forgotten: maps recomputed by rebin, shift, hot pixel cleaning, arithmetic or a correction. Rotations are PIL's (Model/PilRotate)."
 },
 "C110": {
  "status": "partial",
  "note": "C110_units_partial, C110_outcomes_partial, C110_polarization_partial: all calls, products and quotients by an image only when the first image was not demosaiced. C110_full_claim_false: the product of a demosaiced image has the I map of its first operand, so its maps do not get the unit of the product. C110_rotation: PIL's rotation qualifies for factors that are powers of 2 (it rounds to single precision)."
 },
 "C111": {
  "status": "partial",
  "note": "C111_filter: the value is the third smallest of four pixels of the same polarizer (scipy's even window looks up and left only). C111_isolated_partial: an isolated hot pixel becomes the brightest of three neighbours, away from the first row and column of superpixels. C111_first_row, C111_full_claim_false: in the first row and column of superpixels hot pixels stay. C111_neighbours: of two neighbouring hot pixels one stays. C111_range, C111_units hold in full."
 },
 "C112": {
  "status": "proved",
  "note": "C112_session_maps: whole sessions with calls of every kind (Spec/StabilityMaps: Noisy lists, call by call, the arithmetic of the bounds e of pixels and demosaiced images and f of Stokes maps, with images that share their Stokes vector after a copy or rotation). C112_session_theoretical is the older version for calls after which I, Q, U are the theoretical ones, with the single bound 2e for the maps; C112_rebin, _shift, _hot_pixels, _sum, _number, _dark, _flat, _ifov, _congrid, _demosaic, _demodulate are single calls at any point of any two sessions; C112_polarization the bound for pB and DoLP. C112_rebin_sharp: the factor b*b is attained. C112_no_bound_without_light: where there is no light DoLP has no bound (0 and 2 for frames arbitrarily close). Hot pixel cleaning is with the filter size of the code and flags without error; the rotation routine is an external function with a stated gain."
 },
 "C113": {
  "status": "proved",
  "note": "C113_pixels and C113_maps are the two halves of the claim, C113_median shows that cleaning hot pixels with scipy's filter is such a call. The hypotheses are needed: C113_minus (image - image gives -1 where subtract_dark gives 0), C113_pixel_twice (a dictionary with one pixel for two orientations takes DoLP beyond 2). C113_two_attained: the bound 2 is attained."
 },
 "C114": {
  "status": "proved",
  "note": "C114_pixels is the invariant; C114_median admits scipy's filter; C114_doubles, C114_rebin_in_doubles, C114_dark_in_doubles and C114_sum_in_doubles carry it over to rounded arithmetic (with C91); C114_raw carries it through save_as_raw and convert_rawfile_to_fits (with C53). C114_attained: the bound for binning is reached. C114_division: why divisions are excluded."
 },
 "C115": {
  "status": "partial",
  "note": "C115_trim, C115_text, C115_image, C115_old_kernel(_corner), C115_jitcongrid, C115_timer(_twice) hold in full. C115_trim2x_partial and C115_micropol_partial need even sides: with an odd side the call never returns (C07_hangs_on_odd)."
 },
 "C116": {
  "status": "partial",
  "note": "C116_common and C116_number give the type against an independent specification (smallest type holding both), C116_operations, C116_floats, C116_scalar, C116_scalar_exact the pixels, C116_dark the dark subtraction. Violated: C116_full_claim_false, C116_minus_one. numpy 1.26's promotion rules are transcribed (trusted base); integers of more than 53 bits converted to float64 are exact here."
 },
 "C117": {
  "status": "partial",
  "note": "False as stated for the copies and results listed (C117_full_claim_false, C117_shared_stay_equal: they stay equal under all writes until one of them is demosaiced or masked). C117_present, C117_write, C117_writes_elsewhere, C117_calls: what writes and calls do, for all sessions. C117_refreshed: the recomputation of I, Q and U. C117_new_partial, C117_renewed_partial, C117_independence_kept: independence for all other ways to make an image and after demosaicing and masking."
 },
 "C118": {
  "status": "partial",
  "note": "False as stated for large angles (C118_full_claim_false; C118_hangs and C118_array_hangs for every such angle, C118_wrong). C118_exact_partial: exact for every list of doubles up to 2^55 degrees. C118_ends: in range up to 2^60. C118_array_exact_partial: arrays up to 3/2 np.pi, as differences and halved angles of arctan2 are, exactly. C118_array_ends: arrays up to 2^50 end in range, with an error of at most the squared angle times 2^-53."
 },
 "C119": {
  "status": "partial",
  "note": "False as stated for subtract_dark (C119_full_claim_false; C119_dark_hides for every set of NaNs), fix_data (C119_fix_data_hides), the border of correct_ifov (C119_ifov) and DoLP where I is 0 (C119_maps). The exact set of NaN results is proved for the Stokes vector, pB, AoLP, DoLP, both rebins, both demosaics, IFOV, plain demodulation, arithmetic of images and flats (C119_flat_spreads, C119_flat_clean). Negative zero and the demodulation of demosaiced images are not covered."
 },
 "C120": {
  "status": "partial",
  "note": "False as stated (C120_full_claim_false, C120_header_rewritten): a constructor whose flat does not fit has rewritten the header it shares. Proved for all other calls and all continuations (C120_unnoticed_partial, C120_same_outcomes_partial, C120_all_unnoticed_partial), under the conditions of Op.Atomic: rotations that return planes of the same shape, congrid on images whose Stokes maps have at least two rows and columns, and for the constructor with both dark and flat a header that states the size of the image. Without the conditions at most headers change (C120_only_headers). Interrupts from outside (KeyboardInterrupt, lack of memory) are not modelled."
 },
 "C121": {
  "status": "proved",
  "note": "Interleaving at the level of calls (one thread; the library uses none on images). Both provisos are needed: C121_settings_matter, C121_common_matter."
 },
 "C122": {
  "status": "partial",
  "note": "Two sentences do not hold of the code: an image and all images made from it have one header object, so a keyword written to one of them shows in all (C122_shared_keywords; C122_images and C122_other_families_partial tell exactly where it shows), and SUMOF counts files, also if these are sums themselves (C122_sumof_wrong, C122_sumof_partial). The rest is proved. Values are texts and integers; comments of keywords are left out."
 },
 "C123": {
  "status": "partial",
  "note": "Two sentences do not hold of the code: Image(MicropolImage) has no pixels and every use of it raises AttributeError until some are assigned (C123_of_micropol, C123_of_micropol_false, C123_hollow), and image.data = array leaves the Stokes maps as they were (C123_full_claim_false, C123_assign_partial). image.data hands out the array itself, so C123_values and C123_aside are about sessions that do not ask for or replace the array of a MicropolImage; C123_write, C123_take and C123_assign_partial tell exactly what shows otherwise. Arrays have two dimensions and at least one element."
 },
 "C124": {
  "status": "partial",
  "note": "Proved for every prescribed signal without negative values and any files (C124_prescribed_partial), and for estimated signals when the reference signal is not the same at all pixels (C124_estimated_partial; about readable files, a fitting routine that works in every unit, and estimates that are not negative). It does not hold otherwise: the histogram of uniform frames is one unit wide in any unit (C124_uniform_frames, C124_full_claim_false), and negative signals count as 1 in any unit (C124_negative_signal)."
 },
 "C125": {
  "status": "partial",
  "note": "Proved for prescribed signals (C125_local_partial). It does not hold for estimated ones: one hot pixel moves the histogram, and where the rest of the reference signal is uniform the whole calibration ends with IndexError (C125_hot_pixel, C125_estimated_spreads)."
 },
 "C126": {
  "status": "proved",
  "note": "Equality of the two runs, exceptions and missing files included (C126_prebinned); binned files are what micropolarray_rebin returns (C126_files); data and errors with and without binning (C126_uniform). Files have even sides (with odd ones micropolarray_rebin never ends, C07)."
 },
 "C127": {
  "status": "partial",
  "note": "Proved for prescribed signals and an occulter whose centre is not above or left of the part (C127_window_partial). It does not hold otherwise: coordinates are truncated towards zero, so that an occulter with negative coordinates is moved by a superpixel (C127_occulter_outside), and estimated signals depend on all pixels (C125_estimated_spreads)."
 },
 "C128": {
  "status": "partial",
  "note": "Results are determined by the looks of the inputs (C128_determined), so calls can be repeated later (C128_again_partial) or at once (C128_twice_partial). It does not hold for rotate, which overwrites the Stokes maps of the image it is called on: the second rotation differs from the first (C128_rotate_differs). In place: C128_demosaic_again, C128_mask_again; C128_demodulate_again. Headers are not compared: some calls write a header shared with their source (C43)."
 },
 "C129": {
  "status": "proved",
  "note": "C129_darks, C129_dark_order, C129_dark_again; C129_flats, C129_flat_order; C129_ifov (ifovWays counts the ways of one direction); C129_nrgf_twice. With negative darks the order matters (C129_negative_dark); a second field of view correction darkens the superpixels near the border (C129_ifov_again)."
 },
 "C130": {
  "status": "partial",
  "note": "C130_local is the first sentence in full. The unit matters: the constant 1 in the Stokes vectors is in the unit of the frames, so the matrices differ from unit-free ones by a part that falls as 1/c^2 (C130_units_partial, for every unit c; the unit of the flat alone does not matter), and results in another unit are not the results in the other unit (C130_unit_matters). One bright pixel of the flat changes the matrices of superpixels elsewhere (C130_flat_matters)."
 },
 "C131": {
  "status": "proved",
  "note": "C131_cross, C131_gain, C131_gain_fit (curve_fit is a parameter), C131_turned, C131_upside_down, C131_threshold. A constant added to all pixels does matter: C131_offset_matters."
 },
 "C132": {
  "status": "partial",
  "note": "Proved: C132_roundtrip, C132_written, C132_others, C132_calibrated (from the measurements to the calibrated image), C132_fresh_partial and C132_interrupted (no old calibration in the folder), C132_live (exactly what is applied over an old calibration, for every schedule), C132_tensor_kept, C132_sizes (components of another size). False: over an old calibration a mixture of both is applied without notice (C132_full_claim_false); the files make every tensor in the folder unloadable (C132_spoils_tensor, C132_spoils_at_once), and stopped after twelve files they are taken for a tensor (C132_taken_for_tensor)."
 },
 "C133": {
  "status": "partial",
  "note": "Exact: C133_split, C133_stokes, C133_polarization, C133_dark, C133_rebin, C133_rebin_micropol, C133_demosaic_mean, C133_demodulate, C133_calibrate (tensor from normalised measurements). Away from the edges: C133_demosaic_adjacent, C133_demodulate_demosaicing, C133_ifov, C133_chen, C133_hot_pixels. False for the flat, which is divided by its own mean: the result has another gain (C133_flat_partial gives the gain, C133_full_claim_false a witness)."
 },
 "C134": {
  "status": "proved",
  "note": "C134_split, C134_stokes, C134_polarization, C134_dark, C134_flat (where the flat is not 0; elsewhere numpy leaves what was in memory), C134_rebin, C134_rebin_micropol, C134_shift, C134_congrid, C134_demosaic_mean, C134_demosaic_adjacent, C134_demodulate, C134_demodulate_demosaicing, C134_hot_pixels, C134_ifov, C134_chen, C134_calibrate (tensor from normalised measurements, np.linalg.pinv assumed to be the Moore-Penrose inverse, which exists: C134_pinv_exists)."
 },
 "C135": {
  "status": "proved",
  "note": "C135_untouched, C135_loads_as_before, C135_returned, C135_debug, C135_debug_grid. Interruptions while the files are being written are C29."
 },
 "C136": {
  "status": "partial",
  "note": "C136_figures for images of at least 150 by 150 pixels and two different orientations; C136_curves_partial where the four fits succeed. The code violates the rest: C136_stale (the figure of a superpixel that was not fitted shows the curves of another superpixel), C136_small (smaller images: ValueError), C136_one_orientation (no figure)."
 },
 "C137": {
  "status": "partial",
  "note": "C137_files, C137_same, C137_same_files, C137_stopped; C137_loads_partial: each component is that of one of the calibrations, not all of the same one. The code violates that: C137_mixed (two programs, both to their end, leave a tensor that is neither). Writing one file is one action."
 },
 "C138": {
  "status": "partial",
  "note": "C138_failed; C138_saved_partial: folders that are there or whose parent is there and whose name has no extension. In all other cases the calibration is lost: C138_lost, C138_full_claim_false; C138_empty_name. Together C138_saved_partial and C138_lost cover every folder name but the empty one."
 },
 "C139": {
  "status": "partial",
  "note": "C139_failed, C139_blocked, C139_saved in full; C139_loads_partial for names without *, ? and [. With one character in brackets another folder is listed: C139_brackets, C139_not_found, C139_full_claim_false. Names with other patterns read several folders together: C139_star, C139_question_mark, C139_range, C139_negated."
 },
 "C140": {
  "status": "partial",
  "note": "C140_stays_partial: all histories that leave the files of the calibration alone, if the name is absolute or the current directory is again that of the beginning; names without *, ? and [. Otherwise calibrations are mixed or lost: C140_chdir, C140_lost, C140_mixed, C140_full_claim_false."
 },
 "C141": {
  "status": "partial",
  "note": "C141_one_partial and C141_layout: if the file of the phases does not change between the accesses. Otherwise it is the dictionary of the phases with each family from its own reading (C141_torn), which need not be that of a calibration (C141_full_claim_false)."
 },
 "C142": {
  "status": "partial",
  "note": "C142_predicted_partial: if the grid divides the image, predictions within 7.5 degrees of the four directions. C142_phases: stored phases within 15 degrees of the predicted ones. Otherwise two directions may be exchanged: C142_border, C142_full_claim_false. Assumes that curve_fit returns a phase between its bounds."
 }
}
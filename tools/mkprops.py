#!/usr/bin/env python3
"""Regenerates /verif/properties.jsonl (one JSON object per line)."""
import json
P = []
def p(id, title, statement, quantifier, why, *anchors):
    P.append(dict(id=id, title=title, statement=statement, quantifier=quantifier,
                  why_tests_cant=why, anchors=list(anchors)))
DM="micropolarray/processing/demosaic.py"; SH="micropolarray/processing/shift.py"
RB="micropolarray/processing/rebin.py"; MI="micropolarray/micropol_image.py"; IM="micropolarray/image.py"
DE="micropolarray/processing/demodulation.py"; UT="micropolarray/utils.py"; PF="micropolarray/polarization_functions.py"
CW="micropolarray/processing/chen_wan_liang_calibration.py"; NR="micropolarray/processing/nrgf.py"
CO="micropolarray/processing/convert.py"; LR="micropolarray/processing/linear_roi.py"; CG="micropolarray/processing/congrid.py"
ER="micropolarray/processing/demodulation_errors.py"; IC="micropolarray/processing/image_cleaning.py"; CA="micropolarray/cameras.py"

p("C01","split/merge round trip",
  "For every 2D array with even height and width, merge_polarizations(split_polarizations(d)) returns exactly d; conversely splitting the merge of any four equally shaped sub-images returns those four sub-images in the same order. Splitting an array with an odd height or width raises ValueError and returns nothing.",
  "all array shapes and all pixel values","Tests use one 16x16 constant-per-family pattern; the claim is about every shape and content.",
  f"{DM}:split_polarizations", f"{DM}:merge_polarizations")
p("C02","pixel families are the four parity classes",
  "single_pol_subimages[k] of an h x w image has shape (h/2, w/2) and its element (y, x) is the image pixel (2y + k//2, 2x + k%2); every pixel of the image belongs to exactly one sub-image. pol0/pol45/pol_45/pol90 are the families the angle dictionary assigns to 0/45/-45/90.",
  "all even shapes, all pixels, all angle dictionaries over positions 0..3","Needs every pixel of every shape.",
  f"{DM}:split_polarizations", f"{MI}:MicropolImage.single_pol_subimages", f"{MI}:MicropolImage.pol0")
p("C03","shift moves every pixel exactly and is memory safe",
  "Image.shift(y, x, missing) returns an array of the same shape whose pixel (j, i) is the source pixel (j-y, i-x) when that is inside the source and `missing` otherwise, for every integer y and x, including shifts larger than the image; the compiled loop never reads outside the source (nor wraps to a negative index) and never writes outside the result.",
  "all shapes, all integer shifts, all contents","The numba kernel does no bounds checking, so an out of range read is silent; tests try two shifts of one 4x4 image.",
  f"{SH}:shift", f"{IM}:Image.shift")
p("C04","shifts compose and cancel",
  "Two shifts in the same direction along each axis equal one shift by the sum; a shift followed by its opposite restores every pixel that was not pushed outside the frame and puts `missing` elsewhere; a zero shift is the identity.",
  "all shapes and all integer shift pairs","A law over all pairs of shifts.", f"{SH}:shift")
p("C05","MicropolImage.shift moves whole superpixels",
  "MicropolImage.shift(y, x, missing) yields exactly the data that a plain shift by (2y, 2x) pixels yields, so a pixel never changes polarization family, and the resulting polarization parameters are those of the shifted data (for a non demosaiced image).",
  "all even shapes, all integer shifts","Quantifies over all shapes and shifts.", f"{SH}:shift_micropol", f"{MI}:MicropolImage.shift")
p("C06","trim for plain binning is the largest usable size and terminates",
  "trim_to_match_binning(h, w, b) terminates for every h, w >= 0 and b >= 1 and returns the largest multiples of b not above h and w.",
  "all heights, widths and binnings","Termination and maximality for every size.", f"{RB}:trim_to_match_binning")
p("C07","trim for superpixel binning is the largest usable size and terminates",
  "trim_to_match_2xbinning(h, w, b) terminates for every h, w >= 0 and b >= 1 and returns the largest multiples of 2b not above h and w. (The code violates this: with an odd height or width it never terminates.)",
  "all heights, widths and binnings","A non-terminating run cannot be observed by a test, and the failing sizes are not in the tests.", f"{RB}:trim_to_match_2xbinning", f"{RB}:micropolarray_rebin")
p("C08","plain rebin sums b x b blocks and conserves flux",
  "Image.rebin(b) returns an array of shape (h//b, w//b) whose element (Y, X) is the sum of the b x b block of source pixels starting at (bY, bX); the total of the result equals the total of the source restricted to the trimmed area (all of it when b divides both sides); no read is out of bounds.",
  "all shapes, all binnings b >= 1, all contents","Tests use binning 2 and 4 on one constant pattern.", f"{RB}:standard_rebin", f"{RB}:standard_jitrebin", f"{IM}:Image.rebin")
p("C09","superpixel rebin never mixes polarization families",
  "For an even-shaped image, MicropolImage.rebin(b) gives data whose k-th polarization sub-image is exactly the plain b x b rebin of the k-th polarization sub-image of the source; the result shape is (2*(h//2b), 2*(w//2b)); the compiled loop never reads outside the source; the total over the trimmed area is conserved family by family.",
  "all even shapes, all binnings b >= 1, all contents","Tests use binning 2 and 4 only ('the other will be supposedly fine').", f"{RB}:micropolarray_rebin", f"{RB}:micropolarray_jitrebin", f"{MI}:MicropolImage.rebin")
p("C10","rebinning commutes with Stokes computation",
  "For a non demosaiced, non demodulated image, I, Q and U of image.rebin(b) equal the plain b x b rebin of the image's own I, Q and U.",
  "all even shapes, binnings, contents and angle dictionaries","A law over every image.", f"{MI}:MicropolImage.rebin", f"{MI}:MicropolImage._get_theo_Stokes_vec_components")
p("C11","binning arguments are validated and binning 1 is the identity",
  "rebin(b) raises ValueError for every b <= 0 on both image classes; rebin(1) returns the same data (for MicropolImage on every valid, i.e. even shaped, image); any valid image can be rebinned with any b >= 1 without error, and the result again has even sides.",
  "all shapes and all integers b","Every integer argument.", f"{IM}:Image.rebin", f"{MI}:MicropolImage.rebin")
p("C12","binnings compose",
  "Rebinning by a and then by b equals rebinning once by a*b, for both image classes, on every image (also when trimming occurs).",
  "all shapes, all binnings a, b >= 1","A law over all pairs of binnings, including trimmed sizes.", f"{RB}:standard_rebin", f"{RB}:micropolarray_rebin")
p("C13","mean demosaic spreads a quarter of each family pixel over its superpixel",
  "demosaic(d, 'mean') returns four images of the full shape; image k is constant on every superpixel with value one quarter of that superpixel's family-k pixel; the total of image k equals the total of family k; no access is out of bounds for even shapes.",
  "all even shapes and contents","Tests use one constant pattern.", f"{DM}:demosaicmean", f"{DM}:demosaic")
p("C14","adjacent demosaic is bilinear interpolation with edge replication",
  "demosaic(d, 'adjacent') returns four images of the full shape; for family k, pixel (2Y+a, 2X+b) is the average of the family-k samples at rows Y..Y+a and columns X..X+b where a sample past the last row/column is replaced by the last one; no access is out of bounds.",
  "all even shapes >= 2x2 and contents","Interpolation and edge handling for every pixel; constant test patterns cannot see a wrong neighbour.", f"{DM}:demosaicadjacent", f"{DM}:demosaic")
p("C15","adjacent demosaic keeps samples and never overshoots",
  "In demosaic(d, 'adjacent'), image k keeps every measured family-k sample at the superpixel's upper left pixel, every value lies between the minimum and maximum of family k, a constant family gives a constant image, and the operation is linear in d.",
  "all even shapes and contents","Bounds for every pixel of every image.", f"{DM}:demosaicadjacent", f"{DM}:demosaic")
p("C16","demosaic option handling",
  "demosaic succeeds exactly for the documented options 'mean' and 'adjacent' and raises ValueError for every other string. (The code violates this: 'spline' is accepted and then fails with AttributeError under the pinned numpy.)",
  "all option strings","All strings.", f"{DM}:demosaic")
p("C17","theoretical Stokes vector",
  "For every valid image and angle dictionary, I is half the sum of the four families, Q = family(0) - family(90), U = family(45) - family(-45), each of shape (h/2, w/2); physically relabelling the families and the dictionary together does not change I, Q or U.",
  "all even shapes, contents, angle dictionaries","Tests use two dictionaries on one constant pattern.", f"{MI}:MicropolImage._get_theo_Stokes_vec_components")
p("C18","AoLP/pB polar form",
  "pB is non-negative with pB^2 = Q^2+U^2, AoLP lies in (-pi/2, pi/2], and Q = pB*cos(2 AoLP), U = pB*sin(2 AoLP) for every Stokes vector.",
  "all real Stokes vectors","All reals; tests compare with the same formula.", f"{PF}:AoLP", f"{PF}:pB")
p("C19","DoLP is total and bounded",
  "DoLP never divides by zero: it is 0 where I = 0 and pB/I elsewhere. For non-negative pixel data 0 <= DoLP <= 2 (2 is attained), and DoLP <= 1 whenever I^2 >= Q^2+U^2. The expectation 'DoLP <= 1 for all non-negative data' is false.",
  "all Stokes vectors / all non-negative data","All reals.", f"{PF}:DoLP")
p("C20","polarization angle and degree do not depend on gain",
  "Multiplying the image data by a positive constant multiplies I, Q, U and pB by it and leaves DoLP and AoLP unchanged.",
  "all images and positive gains","All reals.", f"{PF}:AoLP", f"{PF}:DoLP", f"{MI}:MicropolImage.__mul__")
p("C21","ideal Malus data give back the light's parameters",
  "Data in which the four micropolarizers at 0, 45, -45, 90 degrees see fully polarized light of intensity S > 0 and angle theta (Malus with throughput 1 and efficiency 1) give I = S, pB = S, DoLP = 1 and AoLP equal to theta modulo pi. With throughput t and efficiency e: I = t S, DoLP = e.",
  "all S, theta, t, e","All real angles; tests sample a grid and round.", f"{DE}:Malus", f"{MI}:MicropolImage._get_theo_Stokes_vec_components")
p("C22","demodulation inverts the modulation",
  "If a superpixel's four values are produced by its fitted modulation matrix from a Stokes vector (I, Q, U), and that matrix has rank 3, then applying the demodulation matrix that calculate_demodulation_tensor stores for it returns exactly (I, Q, U).",
  "all throughputs, efficiencies, phases of rank 3, all Stokes vectors","All reals, all calibrations.", f"{DE}:compute_demodulation_by_chunk", f"{MI}:MicropolImage._get_Stokes_from_demodulator")
p("C23","fallback demodulation equals the theoretical Stokes vector",
  "For nominal orientations {0,45,-45,90} at any positions, the theoretical demodulation matrix that calibration stores where a fit failed or was occulted gives the same I, Q, U as the theoretical formulas used without demodulation.",
  "all superpixel values, all four-orientation layouts","All values.", f"{DE}:compute_demodulation_by_chunk", f"{MI}:MicropolImage._get_theo_Stokes_vec_components")
p("C24","demodulate uses the tensor exactly where the fit was found",
  "image.demodulate(D) gives at each superpixel S_i = sum_j M_ij * family_j where the fit flag is 1 and the image's previous Stokes value elsewhere; without flags the tensor is used everywhere; the source image is unchanged.",
  "all images, tensors and flag maps","Every flag pattern.", f"{MI}:MicropolImage.demodulate", f"{MI}:MicropolImage._get_Stokes_from_demodulator")
p("C25","demodulate rejects incompatible shapes",
  "demodulate raises ValueError whenever the tensor's shape differs from the image's family shape. (The code violates this when a tensor side is 1, which numpy broadcasts silently.)",
  "all pairs of shapes","All shapes.", f"{MI}:MicropolImage._get_Stokes_from_demodulator")
p("C26","demodulate with demosaicing replicates the tensor per superpixel",
  "demodulate(D, demosaicing=True) gives full-resolution Stokes maps: at pixel (y, x) the tensor and flag of superpixel (y//2, x//2) are applied to the demosaiced values at (y, x), falling back to the theoretical Stokes of the demosaiced images where the flag is not 1; without a flag file it fails.",
  "all images, tensors, flags","Every pixel.", f"{MI}:MicropolImage._get_Stokes_from_demodulator")
p("C27","loading a demodulation folder succeeds only for a complete tensor",
  "If Demodulator(path) succeeds then each of the 12 components M_ij was read from a file of that folder whose name contains the digits ij. (The code violates this: it counts files, so duplicates can stand in for missing components, which are silently zero.) When no two matching files carry the same digits it holds.",
  "all folder contents and listing orders","All folder listings.", f"{DE}:Demodulator._get_demodulation_tensor")
p("C28","saved demodulation tensors load back exactly",
  "After calculate_demodulation_tensor has written its files to a folder, Demodulator(folder) returns exactly the computed tensor and fit flags, for every order in which the directory is listed, also when the folder held a previous calibration.",
  "all tensors, all listing orders, all earlier library-written contents","All listing orders.", f"{DE}:calculate_demodulation_tensor", f"{DE}:Demodulator._get_demodulation_tensor")
p("C29","interrupting calibration output never yields a wrong tensor",
  "If calculate_demodulation_tensor is interrupted between any two file writes into an empty folder, then loading that folder either fails or returns the full tensor of the new calibration. (The flags may then be missing, and over a previous calibration the loaded tensor may mix old and new: both are shown as violations.)",
  "all crash points","Crash points.", f"{DE}:calculate_demodulation_tensor")
p("C30","fitted angle dictionary is a bijection",
  "Demodulator.angle_dic assigns the four nominal angles to four distinct pixel positions whenever the mean fitted phases are within 22.5 degrees (exclusive) of distinct nominal orientations modulo 180 degrees, each angle going to the position fitted nearest to it.",
  "all fitted phases in that range","All reals.", f"{DE}:Demodulator.angle_dic")
p("C31","calibration output does not depend on the processor grid",
  "For every processor grid whose chunk sizes divide the image evenly, all output maps of calculate_demodulation_tensor equal those of a single chunk. When the grid does not divide the image the uncovered border keeps zeros (a zero matrix flagged as not fitted).",
  "all image sizes, grids, data, fit behaviours","All grids; tests use 2x2.", f"{DE}:calculate_demodulation_tensor", f"{DE}:compute_demodulation_by_chunk")
p("C32","parallel completion order is irrelevant",
  "For every order in which the worker processes finish, the merged result is the same and each chunk lands at its own position; the chunk index i + ny*j is a bijection of the grid.",
  "all schedules and grids","Schedules.", f"{DE}:calculate_demodulation_tensor")
p("C33","failed and occulted superpixels fall back exactly",
  "In calibration, a superpixel that is occulted, has an all-zero pixel, or whose fit raises gets exactly the theoretical demodulation matrix, flag 0 and the predicted throughput, efficiency and phases; a superpixel with flag 1 has the pseudo-inverse of its fitted modulation matrix with all entries in [-100, 100]; a superpixel's outcome depends only on its own data.",
  "all data, fit outcomes, occulter maps","All fit outcomes including exceptions.", f"{DE}:compute_demodulation_by_chunk")
p("C34","rotating/flipping a demodulator",
  "Demodulator.rot90(k) rotates each tensor component by k quarter turns (four turns are the identity), flip twice is the identity; both keep tensor and fit flags aligned. (The code violates the alignment: flags are not moved; on non-square tensors an odd quarter turn raises ValueError.)",
  "all tensors, k, axes","All tensors.", f"{DE}:Demodulator.rot90", f"{DE}:Demodulator.flip")
p("C35","dark subtraction clips at zero",
  "subtract_dark(dark) turns every pixel p into max(p - dark, 0) with dark's pixel at the same place, so data are non-negative afterwards, and I, Q, U are recomputed from the new data.",
  "all images and darks of equal shape","All values.", f"{MI}:MicropolImage.subtract_dark")
p("C36","flat correction",
  "correct_flat(flat) divides every pixel by flat/mean(flat): scaling the flat by a positive constant changes nothing, and a uniform non-zero flat leaves the image unchanged; every output pixel is determined by the inputs. (The last part is violated where the flat is 0: the output is uninitialised memory.)",
  "all images and flats","All values.", f"{MI}:MicropolImage.correct_flat")
p("C37","IFOV correction averages within a family and is memory safe",
  "correct_ifov replaces each pixel outside the first two rows/columns by the mean of itself and its upper, left and upper-left neighbours of the same family, sets the first two rows and columns to 0, stays within the range of the four averaged pixels, and never accesses memory out of bounds for even shapes.",
  "all even shapes and contents","numba does not check bounds.", f"{CW}:_ifov_jitcorrect", f"{MI}:MicropolImage.correct_ifov")
p("C38","hot pixel cleaning touches only flagged pixels",
  "clean_hot_pixels(map) leaves every pixel whose map value is not 1 unchanged and replaces every flagged one by the median-filtered value of its own family, whatever the filter returns; get_hot_pixels returns a map usable here. (The last part is violated: get_hot_pixels always raises AttributeError.)",
  "all images, maps and filter behaviours","All maps.", f"{MI}:MicropolImage.clean_hot_pixels", f"{IC}:get_hot_pixels")
p("C39","image arithmetic is pixelwise",
  "a+b, a-b, a*b and a/b on two images of equal shape, or an image and a number, act pixel by pixel on the data, return a new image and leave both operands' data unchanged; (a+b)-b gives back a and for non-zero b (a*b)/b gives back a; division by a zero pixel still gives a determined value. (The last part is violated: uninitialised memory.)",
  "all images and scalars","All values.", f"{IM}:Image.__add__", f"{MI}:MicropolImage.__truediv__")
p("C40","operations never change another image's data",
  "In every history of constructions, copies and operations (rebin, shift, congrid, rotate, demodulate, clean_hot_pixels, arithmetic, demosaic, subtract_dark, correct_flat, correct_ifov, mask_occulter), an operation changes the pixel data of no image other than the receiver of the documented in-place ones, even though copies share memory.",
  "all histories of operations over any number of images","Aliasing over unbounded histories.", f"{MI}:MicropolImage._import_image_parameters", f"{IM}:Image.data")
p("C41","operations never change another image's Stokes parameters",
  "As C40 for I, Q, U. (The code violates this: rotate overwrites the source's Stokes maps, and mask_occulter on a copy also masks the original's, because the Stokes array is shared.) It holds for every history without those two operations.",
  "all histories","Aliasing over unbounded histories.", f"{MI}:MicropolImage.rotate", f"{MI}:MicropolImage.mask_occulter")
p("C42","Stokes parameters always reflect the data",
  "After every history of construction, copy, rebin, shift, arithmetic, dark/flat/IFOV correction and hot pixel cleaning, every image's I, Q, U are the theoretical Stokes maps of its current data. (The code violates this once an image has been demosaiced: later operations keep using the old demosaiced images.)",
  "all histories","Unbounded histories.", f"{MI}:MicropolImage._update_data_and_Stokes", f"{MI}:MicropolImage._get_theo_Stokes_vec_components")
p("C43","header size keywords match the data",
  "After any history each image's header NAXIS1/NAXIS2 equal its data's width/height. (The code violates this: copies share one header object, so rebinning or congridding an image changes the source image's header.) It holds for an image right after it is created or receives new data.",
  "all histories","Aliasing over histories.", f"{IM}:Image.data", f"{MI}:MicropolImage._import_image_parameters")
p("C44","every reachable image can be split into superpixels",
  "In every history starting from successfully constructed images, every image has even height and width, so no library operation ever fails with the odd-pixel ValueError on it, and data shape and Stokes shape stay related by 2 for images that are not demosaiced or congridded, as long as plain demodulations use tensors of the image's size.",
  "all histories","Unbounded histories.", f"{DM}:split_polarizations", f"{MI}:MicropolImage")
p("C45","default angle dictionary",
  "An image built without an angle dictionary uses the one most recently set by set_default_angles, or PolarCam's if none was ever set; changing the default later never changes existing images; a copy keeps its source's dictionary.",
  "all histories of set_default_angles and constructions","Histories of global state.", f"{MI}:set_default_angles", f"{MI}:MicropolImage.__init__")
p("C46","polar region selection",
  "roi_from_polar keeps a pixel exactly when its distance rho from the centre satisfies rho_min < rho <= rho_max and its polar angle is in [theta_min, theta_max), and puts `fill` elsewhere; with include_superpixels the decision is taken on the half-size grid so all four pixels of a superpixel agree; the documented defaults work. (Violated: rho=None raises TypeError; the centre pixel itself is never selected.)",
  "all shapes, centres, radii, angles","All pixels.", f"{NR}:roi_from_polar", f"{NR}:map_polar_coordinates")
p("C47","polar regions compose",
  "Selecting the same region twice equals selecting it once; adjacent rings (a,b] and (b,c] are disjoint and together equal (a,c]; sectors split the same way; the whole circle [0,360) excludes no angle.",
  "all rings, sectors, images","All parameters.", f"{NR}:roi_from_polar")
p("C48","mask_occulter masks data and Stokes consistently",
  "For a non demosaiced image a superpixel is masked in the data exactly when its Stokes pixel is masked; with fill 0 the Stokes maps afterwards equal the theoretical Stokes of the masked data. (With another fill value, or on demosaiced images, it does not hold.)",
  "all even images, positions, radii","All parameters.", f"{MI}:MicropolImage.mask_occulter")
p("C49","the polar coordinate cache is transparent",
  "For every history of calls map_polar_coordinates returns the same value as an uncached computation, and the cache never holds more than 128 entries.",
  "all call histories","Histories.", f"{NR}:map_polar_coordinates")
p("C50","12-bit unpacking",
  "three_bytes_to_two_ints decodes 3n bytes to 2n integers in 0..4095 and is the exact inverse of the documented packing for every list of 12-bit pairs (so it is injective on 3n-byte strings).",
  "all byte strings of length divisible by 3","All byte strings.", f"{CO}:three_bytes_to_two_ints")
p("C51","parallel raw reading equals sequential decoding",
  "nparr_from_binary returns the sequential decoding of the whole file for every file of the right length, regardless of chunking. (The code violates this: storing chunks in a numpy bytes array strips trailing zero bytes, so a file with any chunk ending in a zero byte fails.) It holds for files with no chunk ending in 0.",
  "all file contents","All contents.", f"{CO}:nparr_from_binary")
p("C52","merging raw files",
  "merge_rawfiles_to_fits writes the pixelwise sum of the files ('sum') or sum/n ('average'), independently of the order of the files; a file shorter than height*width*2 bytes raises; an output name not ending in .fits raises before anything is written.",
  "all file lists, contents, sizes","All lists.", f"{CO}:merge_rawfiles_to_fits", f"{CO}:average_rawfiles_to_fits")
p("C53","raw save/convert round trip",
  "Saving integer data with 0 <= v < 65536 via save_as_raw and reading it back with convert_rawfile_to_fits gives the same pixels for every shape; negative values come back increased by 65536.",
  "all shapes and contents","All values.", f"{IM}:Image.save_as_raw", f"{CO}:convert_rawfile_to_fits")
p("C54","converted file name",
  "convert_rawfile_to_fits('<path>.raw') writes '<path>.fits' next to the raw file and removes the raw file only after the fits file was written. (Violated when the path contains another dot: dots become colons.)",
  "all paths","All strings.", f"{CO}:convert_rawfile_to_fits")
p("C55","angle normalisation in degrees",
  "normalize2pi terminates for every list of real angles and returns for each the unique angle in (-90, 90] equal to it modulo 180; it is idempotent.",
  "all real angles","Termination and all reals.", f"{UT}:normalize2pi", f"{PF}:normalize2pi")
p("C56","angle normalisation in radians on arrays",
  "normalize2piarray terminates for every array and returns elementwise the unique angle in (-pi/2, pi/2] equal to the input modulo pi.",
  "all arrays","Termination, all reals.", f"{UT}:normalize2piarray")
p("C57","value clamping when saving",
  "With fixto=[lo, hi] and lo <= hi every saved pixel is the data pixel clamped to [lo, hi]. (Violated when lo or hi is 0: nothing is clamped.)",
  "all data and ranges","All ranges.", f"{UT}:fix_data", f"{IM}:Image.save_as_fits")
p("C58","dispersion helpers",
  "mean_minus_std <= mean <= mean_plus_std, symmetric about the mean, equal to it for constant data; both commute with scaling by a non-negative factor and adding an offset.",
  "all non-empty data and n >= 0","All data.", f"{UT}:mean_minus_std", f"{UT}:mean_plus_std")
p("C59","align_keywords_and_data geometry",
  "For a square even image, align_keywords_and_data sends family pixel (y, x) to (n-1-x, n-1-y) within the same family, applying the data transform twice is the identity, and NAXIS1/NAXIS2/CRPIX describe the new data; for non-square data it raises ValueError.",
  "all square images and centres","All shapes.", f"{UT}:align_keywords_and_data")
p("C60","line rasterisation end points",
  "DDA(start, end) returns a list that starts at start, contains end, moves by at most one pixel per step in each axis, stays within 1 pixel of the ideal line and ends at end. (Violated: it appends one point past the end, and start == end raises.)",
  "all integer end points","All end points.", f"{LR}:DDA")
p("C61","linear_roi reads only inside the image",
  "linear_roi(data, start, end) with both end points inside the image returns data values on the segment and never fails or wraps. (Violated when the overshoot leaves the image.)",
  "all images and end points","All end points.", f"{LR}:linear_roi", f"{LR}:linear_roi_from_polar")
p("C62","bresenham in the first octant",
  "For 0 <= dy <= dx, dx > 0, bresenham returns the dx+1 points x1..x2 with y within half a pixel of the ideal line, starting at start and ending at end.",
  "all first octant segments","All end points.", f"{LR}:bresenham")
p("C63","nrgf normalises each ring",
  "With equal averaging and output sectors, every ring with non-zero deviation has mean 0 and standard deviation 1 after nrgf, other rings and everything outside the processed radii are 0, and adding a constant to the data or scaling it by a positive factor does not change the result.",
  "all images, centres, steps","All data.", f"{NR}:nrgf")
p("C64","occulter search by threshold",
  "find_occulter_position(data,'algo',t) reports on each of the four half-axes the first index i > 5 whose value exceeds t times the mean of all earlier values, raises ValueError if one is missing, and otherwise the centre/radius are the midpoints/half extents (truncated).",
  "all images and thresholds","All data.", f"{NR}:find_occulter_position")
p("C65","error propagation formulas are the Gaussian ones",
  "sigma_pB^2, sigma_DoLP^2 and sigma_AoLP^2 equal the sum over Stokes components of (partial derivative)^2 sigma^2 with the actual derivatives of pB, DoLP and AoLP, wherever these are defined.",
  "all Stokes vectors and errors off the singular set","Calculus identity over all reals.", f"{ER}:get_error_on_pB", f"{ER}:get_error_on_DoLP", f"{ER}:get_error_on_AoLP")
p("C66","Stokes errors",
  "get_error_on_Stokes gives at each superpixel sigma_i = sqrt(sum_j M_ij^2 sigma_j^2): non-negative, homogeneous, monotone in each pixel error, zero iff every contribution is zero.",
  "all tensors and errors","All reals.", f"{ER}:get_error_on_Stokes")
p("C67","averaging fits files",
  "Image(list of n files) has data equal to the pixelwise mean (averageimages) or sum, independently of file order; STRT-OBS/END-OBS are the earliest/latest observation times; an empty list raises NameError.",
  "all file lists","All lists and orders.", f"{IM}:Image._init_image_from_file")
p("C68","file name of a loaded image",
  "Image(name) has filename equal to name. (Violated: for a string it is the string's first character.)",
  "all names","All strings.", f"{IM}:Image._init_image_from_file")
p("C69","Chen-Wang-Liang application",
  "chen_wan_liang_calibration applies at each superpixel C (P - d) and then the IFOV average; with identity matrices and zero offsets it equals the IFOV correction alone.",
  "all data and matrices","All values.", f"{CW}:chen_wan_liang_calibration")
p("C70","congrid interpolation",
  "congrid(a, dims) has the requested shape, keeps the four corner values, never leaves the range of a, preserves constants, and is the identity for unchanged dims (sides >= 2). MicropolImage.congrid does this per family, for every even target size >= 4.",
  "all arrays, all target sizes >= 2","All sizes.", f"{CG}:congrid", f"{MI}:MicropolImage.congrid")
p("C71","saved parameter files never overwrite each other",
  "save_all_pol_params_as_fits, save_single_pol_images and save_demosaiced_images_as_fits write 6/4/4 distinct files all derived from the given stem, with the content of the corresponding parameter; a name without .fits is rejected before any file is written.",
  "all file names","All strings.", f"{MI}:MicropolImage.save_all_pol_params_as_fits", f"{MI}:MicropolImage.save_single_pol_images", f"{MI}:MicropolImage.save_demosaiced_images_as_fits")
p("C72","shot noise and solar brightness units",
  "sigma_DN(x) is the Poisson noise of a pixel with gain 6.93: (gain*sigma)^2 = gain*x, increasing in x while the relative noise decreases. get_Bsun_units gives the factor f with (diffuser/texp_diffuser*texp_image)*f = 0.28*1.083e-5, for all exposures; zero signal or exposure raises ZeroDivisionError.",
  "all pixel values, signals and exposure times","All reals.", "micropolarray/utils.py:sigma_DN", "micropolarray/utils.py:get_Bsun_units")
p("C73","calibration frames are binned, dark corrected and normalised",
  "calculate_demodulation_tensor fits frame k (in order of polarizer orientation) = max(0, binned file - binned dark) / signal with error sqrt(frame/gain)/signal, where the signal is the caller's number (times binning^2), image or stack; independent of the order in which files are listed; missing files, too few orientations and a flat are handled as documented. (Violated: a flat always raises AttributeError, a zero signal is divided by, a stack is matched with the sorted frames.)",
  "all file contents, sizes, binnings, darks, signals and orders","All images, all permutations of the files.", "micropolarray/processing/demodulation.py:calculate_demodulation_tensor")
p("C74","automatic normalising signal of a calibration",
  "Without a prescribed signal, the one used is the same for every pixel and frame and is centre + 4 width of the gaussian fitted to the 1000-bin histogram of half the sum of the four reference frames, within ten bins of the fullest bin; when no such window exists or the fit fails, the call raises. (Violated in use: frames more than half dark cannot be calibrated; the estimate depends on the sign the fit happens to give to the width.)",
  "all frames and fit results","All histograms.", "micropolarray/processing/demodulation.py:calculate_demodulation_tensor", "micropolarray/utils.py:get_malus_normalization")
p("C75","calibration recovers an ideal sensor end to end",
  "If the frames are what micropolarizers with throughput t, efficiency e and phase phi inside the fit bounds transmit at three or more directions of the polarizer, and the least squares routine finds an exact solution when there is one, then the calibration stores exactly t, e, phi, and the stored tensor demodulates every image taken by this sensor to the Stokes vector of the scene.",
  "all sensors, scenes, sets of directions, binnings","Identifiability over all reals.", "micropolarray/processing/demodulation.py:calculate_demodulation_tensor", "micropolarray/processing/demodulation.py:compute_demodulation_by_chunk", "micropolarray/processing/demodulation.py:Malus")
p("C76","occulted superpixels of a calibration",
  "The superpixels treated as occulted are exactly those within the given radius of the given centre (both divided by the binning and by two), and there the ideal matrix, flag 0 and the predicted parameters are stored whatever the frames contain. (Violated: the centre itself is not treated as occulted.)",
  "all occulters, sizes, binnings, frames","All positions.", "micropolarray/processing/demodulation.py:calculate_demodulation_tensor", "micropolarray/processing/demodulation.py:compute_demodulation_by_chunk")
p("C77","methods of images compute what the functions compute, at any point of a session",
  "After any history of calls, the image returned (or changed in place) by copy, rebin, shift, clean_hot_pixels, arithmetic, subtract_dark, correct_flat, correct_ifov, rotate, congrid, demodulate has exactly the pixels (and for demodulate the Stokes vectors) the operation is documented to give, computed from the pixels the operands had just before the call; and the calls with fitting operands do return.",
  "all histories, images, arguments","All histories.", f"{MI}:MicropolImage", f"{MI}:MicropolImage.rebin", f"{MI}:MicropolImage.shift", f"{MI}:MicropolImage.subtract_dark", f"{MI}:MicropolImage.correct_flat", f"{MI}:MicropolImage.demodulate")
p("C78","occulter mask and region of a camera",
  "For PolarCam, occulter_mask(overoccult, rmax) is a boolean array of the sensor size, true exactly on the superpixels of the ring between the occulter radius plus overoccult and rmax (default: the largest circle on the sensor), and occulter_roi replaces the occulter by the fill value and leaves every other pixel unchanged. (Violated: Kasi raises AttributeError; pixels beyond about 5000 pixels are filled too.)",
  "all overoccults, radii, images","All radii and sizes.", "micropolarray/cameras.py:Camera.occulter_mask", "micropolarray/cameras.py:Camera.occulter_roi", "micropolarray/cameras.py:PolarCam", "micropolarray/cameras.py:Kasi")
p("C79","median intervals",
  "median_minus_std/median_plus_std(data, n) are the median of all pixels -/+ n times the median absolute distance from it; for n = 1 at least half of the pixels lie between them; they depend only on the multiset of values and follow changes of unit and offset.",
  "all images, all n","All images and rearrangements.", f"{UT}:median_minus_std", f"{UT}:median_plus_std")
p("C80","outlier rejection",
  "reject_outliers(data, m) keeps, in order, exactly the values nearer to the median than m median distances, and for m > 1 never rejects more than half of them. (Violated when more than half of the values agree: nothing is rejected.)",
  "all arrays, all m","All lists.", "micropolarray/processing/image_cleaning.py:reject_outliers")
p("C81","automatic threshold",
  "auto_threshold(data) is the Otsu threshold of the median filtered data: among all candidates of the grid it has the least within-class scatter, equivalently the greatest between-class scatter, and an image of two levels is separated. (Violated for images spanning less than 1, whose candidates start above the maximum.)",
  "all images, all filters","All images.", "micropolarray/processing/image_cleaning.py:auto_threshold")
p("C82","images are independent of each other and of the caller's arrays",
  "In any session with Image objects: NAXIS1/NAXIS2/height/width always state the shape of the pixels; constructing, copying, shift, rebin and the operators change nothing that exists and return the documented pixels, computed from the pixels at the time of the call; writing pixels of the caller's array or of one image never changes another image. (Violated by image.data = array, which shares the array.)",
  "all histories of construction, methods, in-place writes and assignments","All histories and aliasing patterns.", f"{IM}:Image", f"{IM}:Image.data", f"{IM}:Image.shift", f"{IM}:Image.rebin")
p("C83","header keywords of an image",
  "Keywords of an image change only when that image's keywords are written, whatever else happens in the session, and images made from an image keep its keywords. (Violated: copies, shift, rebin and operators return images with the size keywords only.)",
  "all histories","All histories.", f"{IM}:Image", f"{IM}:Image.rebin", f"{IM}:Image.data")
p("C84","matrices of the Chen-Wang-Liang calibration",
  "calculate_chen_wan_lian_calibration rejects lists of different lengths and lists without the reference orientations, does not depend on the order of the files, and otherwise writes for every superpixel matrices C and offsets d, the means over the frames, that turn frames that all agree into the response of ideal micropolarizers, and that leave the frames of an ideal sensor as they are. (Violated: the defaults occulter=True and flat_filename=None always fail, and on an ideal sensor the polarized part comes out four times too small.)",
  "all file systems, lists, sizes and pixel values, every correct pinv","All real-valued frames and all orders of files.", "micropolarray/processing/chen_wan_liang_calibration.py:calculate_chen_wan_lian_calibration", "micropolarray/processing/chen_wan_liang_calibration.py:_build_S_input")
p("C85","occulter position from fitted edges",
  "find_occulter_position(data) (method 'sigmoid') returns the centre and the radius of the occulter whose edges show as smooth steps along the middle row and column: the edges are determined by the pixels, and the result is their truncated middle and mean half distance; too small images, failed fits and unknown methods are errors. (Violated: the upper and left edges are counted one pixel too far in, the radius of an off-centre round occulter is too small by any amount, an unknown method returns (0, 0, 0).)",
  "all images with exact logistic edges, all positions, every fit that finds exact solutions","All images and edge positions.", f"{NR}:find_occulter_position", f"{NR}:sigmoid")
p("C86","occulter position from the Hough transform",
  "find_occulter_hough returns y, x, r of the only circle found at the smallest accumulator threshold 10, 15, 20, ... with at most one circle, fails if there is none, runs forever exactly if every threshold gives several circles, and does not depend on the gain of the image; the detector gets the image scaled to 0..255.",
  "all images, gains and detectors","All detectors and numbers of retries.", f"{NR}:find_occulter_hough")
p("C87","writing pixels of an image changes that image only",
  "In a session of calls and of writes image.data[y, x] = v, a write sets that pixel of that image, indices from the end included, and nothing outside it; it changes no other image, no I, Q, U, header or dictionary; and calls change no pixels except of the image an in place method is called on. The next rebin, shift, hot pixel cleaning, arithmetic or correction computes I, Q and U from the written pixels. (Violated: a plain copy and the result of demodulate share the pixels of the image they come from, so that a write to one is a write to the other; I, Q and U of the written image are stale.)",
  "all sessions of calls and writes, of any length, all images, positions and values","All sessions.", f"{IM}:Image.data", f"{MI}:MicropolImage.__init__", f"{MI}:MicropolImage._import_image_parameters")
p("C88","images of integers compute as images of the same numbers",
  "For images made from arrays of an integer type, a sum, difference or product of two images is exact where the type can hold the exact result and otherwise differs from it by a multiple of 2^bits; sums of any number of images are exact when the total fits; subtracting a dark gives max(p - d, 0) and the Chen-Wang-Liang calibration gives the values it gives for floats. (Violated: with unsigned types a pixel below the dark becomes p - d + 2^bits instead of 0, and the calibration of integer data truncates every corrected value.)",
  "all integer types, all images of these types, all numbers of summed images, all calibration matrices","All values, and all numbers of images.", f"{MI}:MicropolImage.subtract_dark", f"{MI}:MicropolImage.__add__", f"{IM}:Image.__add__", f"{CW}:chen_wan_liang_calibration")
p("C89","figures and histograms show what their titles say",
  "show draws the image between its extremes or the given limits; show_pol_params draws I, Q, U, pB, AoLP, DoLP in this order with titles and units, each between its mean minus and plus its standard deviation; show_single_pol_images draws the pixels of 0, 45, 90 and -45 degrees under their titles; show_demo_images draws each demosaiced image under the orientation of its position, within the given limits; show_histogram counts every pixel of the range in exactly one bin, and with a fixed range the histograms of the four families add up to the one of the image, bin by bin. (Violated: show_demo_images with vmin or vmax given always raises UnboundLocalError.)",
  "all images, Stokes maps, orientation dictionaries, limits, numbers of bins and ranges","All images and all bins.", f"{IM}:Image.show", f"{IM}:Image.show_histogram", f"{MI}:MicropolImage.show_pol_params", f"{MI}:MicropolImage.show_with_pol_params", f"{MI}:MicropolImage.show_single_pol_images", f"{MI}:MicropolImage.show_demo_images", f"{MI}:MicropolImage.show_pol_param", f"{MI}:MicropolImage.show_histogram")
p("C90","helpers: doubling an array, removing outliers of a profile, showing a tensor",
  "tile_double repeats every pixel in a 2x2 block, so the result taken as a mosaic has the array as each of its four families; remove_outliers_simple keeps the number of samples, brings in no value outside the range of the samples, changes nothing when no sample is far from the median of its neighbours, replaces outliers and keeps the other samples; Demodulator.show draws M_ij in row i and column j between the given limits and returns the figure and the array of axes. (Violated: remove_outliers_simple never removes a single spike on a constant background, whatever its height, place and the number of neighbours, and changes samples that are no outliers; Demodulator.show returns only the last of the axes.)",
  "all arrays, all profiles and numbers of neighbours, all spikes, all tensors and limits","All profiles of all lengths and all heights of the spike.", f"{NR}:tile_double", "micropolarray/processing/image_cleaning.py:remove_outliers_simple", "micropolarray/processing/demodulation.py:Demodulator.show")
p("C91","floating point: what is exact and how large the error can be",
  "In double precision, frames of whole numbers (camera counts) go through dark subtraction, rebinning, Stokes maps, demosaicing, field-of-view correction and the summing of files without any rounding error as long as the sums stay below 2^53; in particular the chain dark subtraction - rebinning - Stokes maps of a 16-bit camera is exact. For any numbers the error of a rebinned pixel, a Stokes map, a demodulated map, an averaged pixel, the polarized brightness and the degree of polarization is bounded by the number of roundings times 2^-53 relative to the sum of the absolute values, and a pixel is clipped by dark subtraction exactly when it is in exact arithmetic. Averaging identical frames gives that frame. (The last is violated: every frame is divided by the number of frames first, so seven frames of value 3 average to a number below 3.)",
  "all images of all sizes, all binnings, all layouts, all tensors and flags, all numbers of frames, all roundings that keep 53-digit numbers and change others by at most 2^-53","Rounding errors depend on the values and on the order of the additions; a test sees single values.", f"{RB}", f"{MI}:_get_theo_Stokes_vec_components", f"{MI}:subtract_dark", f"{MI}:demodulate", f"{IM}:_init_image_from_file", "micropolarray/polarization_functions.py:pB", "micropolarray/polarization_functions.py:DoLP")
p("C92","a bad pixel spoils only what is computed from it",
  "If two data sets agree except at some pixels, their results agree except where those pixels are used: Stokes maps differ only in the superpixels of the pixels (Q only for the 0 and 90 degree pixels, U only for the 45 and -45 degree ones), rebinned images only in the blocks of the pixels (of the same orientation for the polarization camera), demosaiced images only in the superpixel (mean) or the interpolated neighbourhood (adjacent), demodulated maps only in the superpixels of the pixels where the fit was found, dark-subtracted and flat-corrected images only at the pixels of the data, field-of-view and Chen-Wang-Liang corrected images only within one superpixel below and to the right, shifted images at the shifted pixels. A changed pixel of the flat or of the dark changes the result only at that pixel. (The last is violated for the flat: it is divided by its mean, so every pixel changes.)",
  "all pairs of images of all sizes, all sets of pixels, all binnings, layouts, tensors, flags, shifts","It compares two runs for every set of changed pixels; a test compares a few.", f"{RB}", f"{MI}:_get_theo_Stokes_vec_components", f"{MI}:subtract_dark", f"{MI}:correct_flat", f"{MI}:correct_ifov", f"{MI}:demodulate", f"{MI}:demosaic", f"{MI}:shift")
p("C93","averaging frames and processing them can be exchanged",
  "If an image is a weighted sum of frames (a sum, an average, a difference), its rebinned images, Stokes maps, demosaiced images, demodulated maps, field-of-view correction, flat correction with one flat and shift are the same weighted sum of the results of the frames; for weights of sum 1 also its Chen-Wang-Liang correction and its dark subtraction are. (The last is violated: dark subtraction clips at zero, so the dark-subtracted average is at most, and in general less than, the average of the dark-subtracted frames; they agree where no frame is below the dark.)",
  "all numbers of frames, weights, image sizes, binnings, layouts, tensors, flags, flats and shifts","It quantifies over all sets of frames and weights; a test adds two frames.", f"{RB}", f"{MI}:_get_theo_Stokes_vec_components", f"{MI}:subtract_dark", f"{MI}:correct_flat", f"{MI}:correct_ifov", f"{MI}:demodulate", f"{MI}:demosaic", f"{MI}:shift")
p("C94","from the exposure to the polarization of the light",
  "An exposure of any scene by a sensor with any positive pixel gains, any dark counts and any micropolarizers, dark subtracted, flat corrected and demodulated with a tensor that inverts the micropolarizers, shows at every superpixel the Stokes vector of the scene times the mean gain; the degree and the angle of polarization are those of the light exactly, the polarized brightness times the mean gain. With ideal polarizers the Stokes maps of the corrected exposure do so without a tensor. Binned before the demodulation, the exposure shows the sum of the Stokes vectors of the binned superpixels. The tensor that a calibration with frames behind a rotating polarizer computes for the sensor is such a tensor.",
  "all scenes, image sizes, gains, dark frames, flat brightnesses, micropolarizers of full rank, binnings","It is the composition of all steps for every scene and every sensor; a test has one simulated scene.", f"{MI}:subtract_dark", f"{MI}:correct_flat", f"{MI}:demodulate", f"{MI}:_get_theo_Stokes_vec_components", f"{RB}", "micropolarray/polarization_functions.py:DoLP", "micropolarray/polarization_functions.py:AoLP", "micropolarray/processing/demodulation.py:calculate_demodulation_tensor")
p("C95","order of the corrections",
  "Processing steps may be exchanged: dark subtraction and division by a positive flat (the dark divided by the same flat), dark subtraction and shift (image and dark shifted alike), shift by whole bins and rebinning when the bins fill the image, dark subtraction and rebinning, and flat correction and rebinning.",
  "all images, darks, flats, binnings and shifts of compatible sizes","Two pipelines agree on most frames a test would contain and differ on those with a single pixel below the dark.", f"{MI}:subtract_dark", f"{MI}:correct_flat", f"{MI}:shift", f"{MI}:rebin", f"{RB}")
p("C96","reduced chi square of a calibration",
  "The reduced chi square map that a calibration writes holds, for every pixel of a fitted superpixel, the sum over the frames of the squared distance from the fitted curve in units of the error, divided by the number of frames minus the three fitted parameters. It is zero exactly for a curve through all samples and does not depend on the unit of the signal.",
  "all frames, errors, orientations, boundaries, fit results, processor grids","The map is only a quality indicator: a wrong weight changes no image and no other file.", "micropolarray/processing/demodulation.py:compute_demodulation_by_chunk", "micropolarray/processing/demodulation.py:Malus", "micropolarray/processing/demodulation.py:calculate_demodulation_tensor")
p("C97","binning a demodulation tensor",
  "Binning a demodulator gives a demodulator whose components are the block means of the stored tensor and with which a binned image can be demodulated: the result is the binned result of demodulating the full image. It always starts again from the stored folder, so turns and flips made before are lost; sizes that would become odd are refused.",
  "all demodulators, folders, binnings, images, previous Stokes vectors","Any test uses one tensor and one image: a uniform tensor without fit flags passes, while every stored calibration fails.", "micropolarray/processing/demodulation.py:Demodulator.rebin", "micropolarray/processing/rebin.py:standard_rebin", "micropolarray/micropol_image.py:MicropolImage.demodulate")
p("C98","optional arguments of the ring filter",
  "Called without a centre the ring filter works around the middle of the image, called without a radius it starts at radius 0, and the arguments that are given are respected. A step that is not positive is refused. With the default step exactly the pixels beyond the radius and within the largest whole distance are normalised.",
  "all images, fits, subsets of given arguments, steps of either sign, sectors","Any test calls it with some subset of the arguments on one image; that a given centre is ignored as soon as the radius is missing shows only when the two calls are compared.", "micropolarray/processing/nrgf.py:nrgf", "micropolarray/processing/nrgf.py:find_occulter_position")
p("C99","polarization of demosaiced images",
  "image.demosaic('mean') or image.demosaic('adjacent'), at any point of a session, returns the same image with the same pixels and with I, Q, U of the size of the data, computed from the pixels whatever happened before. 'mean' puts a quarter of the Stokes vector of a superpixel on each of its pixels, so degree and angle of polarization and the totals are kept; 'adjacent' interpolates the Stokes maps of the superpixels bilinearly and keeps them at upper left pixels. Neither raises the degree of polarization above that of the superpixels. Every other mode raises an exception.",
  "all histories, images, dictionaries, mode strings, bounds M","A test demosaics one image; that interpolation can never invent polarization is an inequality over all images.", "micropolarray/micropol_image.py:MicropolImage.demosaic", "micropolarray/processing/demosaic.py:demosaic", "micropolarray/polarization_functions.py:DoLP")
p("C100","adding light never creates polarization",
  "In every session whose calls only copy, rebin, shift (filling with 0), add, scale (by numbers that are not negative), correct for the field of view, demosaic or demodulate images, every condition on superpixels that is kept by adding and scaling light and that all given arrays meet is met by every image. As long as no image is demodulated, also I, Q, U of every image, demosaiced or not, are place by place those of a superpixel that meets the condition; in particular the degree of polarization of no image exceeds the largest one of the given arrays and light of one state of polarization stays in that state. In all such sessions crossed pairs of pixels that agree in intensity keep agreeing.",
  "all such histories of any length, all arrays, layouts, bounds M, states of polarization","An invariant of all histories; a test follows one.", "micropolarray/micropol_image.py:MicropolImage", "micropolarray/processing/rebin.py:micropolarray_jitrebin", "micropolarray/processing/shift.py:shift_micropol", "micropolarray/polarization_functions.py:DoLP")
p("C101","turning images",
  "image.rotate(angle), at any point of a session and for any angle, returns an image of the same size that shows the picture turned counterclockwise by angle about its centre: each superpixel, with its four readings and its I, Q, U, is taken as a whole from the place that the turn brings there, and is 0 where that place lies outside; no value changes, so pixels and Stokes maps still belong together, and degree of polarization moves with the picture; quarter turns lose nothing, and turning back restores the image; the angle of polarization turns with the picture.",
  "all histories, images, angles, layouts","A test turns one image by a few angles; the claim is about every angle, size, history and every pixel value.", "micropolarray/micropol_image.py:MicropolImage.rotate", "micropolarray/polarization_functions.py:AoLP", "micropolarray/polarization_functions.py:DoLP")
p("C102","polarization of resampled images",
  "image.congrid(newy, newx), at any point of a session, returns an image whose I, Q, U are those of the source resampled, and are the ones computed from its new pixels; the degree of polarization nowhere exceeds the largest one of the source; congrid to the size the image already has changes nothing.",
  "all histories, images of at least 4 pixels a side, target sizes of at least 4, layouts, bounds M","A test resamples one image; the inequality and the agreement range over all images and sizes.", "micropolarray/micropol_image.py:MicropolImage.congrid", "micropolarray/processing/congrid.py:congrid", "micropolarray/polarization_functions.py:DoLP")
p("C103","images on the disk",
  "An image saved with save_as_fits(name) is found by every later MicropolImage(name): whatever calls, saves to other files, loads, program ends and crashes came in between, the pixels are the saved ones (within fixto) and I, Q, U are those of the saved image. If the program dies during a save, the file afterwards is the complete old one or the complete new one. A list of files gives the mean of their pixels and of their I, Q, U. The four files of save_single_pol_images merge to the image.",
  "all histories of calls, saves, loads, restarts and crashes at every moment of a save, all names, images, dictionaries, limits","Histories and crash points are unbounded; a test saves and loads once.", "micropolarray/image.py:Image.save_as_fits", "micropolarray/image.py:Image._init_image_from_file", "micropolarray/micropol_image.py:MicropolImage.__init__", "micropolarray/micropol_image.py:MicropolImage.save_single_pol_images")
p("C104","a measurement from files",
  "MicropolImage(array, dark=..., flat=...) gives the same image as the constructor followed by subtract_dark and correct_flat: max(pixel - dark, 0) divided by the flat of mean 1. A program that loads dark, flat and any number of exposures from files, corrects their mean and demodulates it with a calibration that was written to a folder, possibly over an older one, shows at every calibrated superpixel the Stokes vector of the light times the mean gain, hence its degree and angle of polarization; whatever programs, crashes and calls came before.",
  "all histories of programs, all scenes, numbers of exposures, sensors, gains, darks, flats, folder listings, worker schedules","The claim joins calibration, files, restarts and the image methods; tests check each on one example.", "micropolarray/micropol_image.py:MicropolImage.__init__", "micropolarray/micropol_image.py:MicropolImage.demodulate", "micropolarray/processing/demodulation.py:calculate_demodulation_tensor", "micropolarray/processing/demodulation.py:Demodulator", "micropolarray/image.py:Image._init_image_from_file")
p("C105","saving from several programs at once",
  "Several programs (or threads) call the saving methods at the same time; each call would succeed alone and they save different files. Whatever the order in which their actions on the disk are interleaved, and wherever each is stopped: no other file is touched, the files of each call are always in a state that the call passes through when it is alone, every program ends, and at the end all calls have succeeded and all files are complete.",
  "all numbers of programs, all calls, all disks, all schedules (also unfair ones: a program that gets no more turns has crashed)","The failing schedules have windows of microseconds; tests run calls one after another.", "micropolarray/utils.py:_make_abs_and_create_dir", "micropolarray/image.py:Image.save_as_fits", "micropolarray/micropol_image.py:MicropolImage.save_single_pol_images", "micropolarray/micropol_image.py:MicropolImage.save_param_as_fits", "micropolarray/micropol_image.py:MicropolImage.save_all_pol_params_as_fits", "micropolarray/micropol_image.py:MicropolImage.save_demosaiced_images_as_fits")
p("C106","zero of the polarizer angles",
  "Calibrating with the same frames while all polarizer orientations are counted from another zero (d degrees more, phases predicted accordingly) shifts the stored phases by d and nothing else, for a sensor that follows the calibration law and is found by the fit; and whenever two calibrations found the same throughputs and efficiencies and phases d apart at a superpixel, then for every image the two demodulated Stokes vectors there have the same I, and (Q, U) turned by 2d. Polarized brightness and degree of polarization are then the same and the angle of polarization is d more, up to half turns.",
  "all calibrations and grids, all angles d, all images and all superpixels that were fitted","The angle, the sensor and the image are real numbers of any value; tests would have to try them all.", "micropolarray/polarization_functions.py:AoLP", "micropolarray/processing/demodulation.py:calculate_demodulation_tensor", "micropolarray/processing/demodulation.py:compute_demodulation_by_chunk", "micropolarray/processing/demodulation.py:Malus", "micropolarray/micropol_image.py:MicropolImage.demodulate")
p("C107","loading a calibration while calibrations are being saved",
  "One program saves calibrations to a folder one after the other; another one loads the folder. Whatever the saving program does between the accesses of the load, a load that succeeds has the tensor and the flags of one calibration, the one that is being saved or the last one before; it never has parts of an older one, and between two saves it always succeeds.",
  "all sequences of calibrations, all folders without other numbered files, all orders of the directory, all interleavings of the actions of the two programs (also with a saving program that dies)","The moments between two file accesses cannot be chosen in a test.", "micropolarray/processing/demodulation.py:Demodulator._get_demodulation_tensor", "micropolarray/processing/demodulation.py:calculate_demodulation_tensor")
p("C108","writing into the Stokes maps of an image",
  "image.I.data[y, x] = v (also Q, U) sets that value of that map of that image and nothing else: no pixel, no other map, no map of another image. pB, AoLP and DoLP follow at that place only. The maps of different images are independent.",
  "all sessions of calls, pixel writes and map writes, all images of a session, all indices and values","Which images hold the same arrays depends on the whole history of the session.", "micropolarray/micropol_image.py:MicropolImage.I", "micropolarray/micropol_image.py:MicropolImage._import_image_parameters", "micropolarray/micropol_image.py:MicropolImage.rotate")
p("C109","Stokes maps have no influence on pixels",
  "What a user writes into I, Q or U never shows in the pixels, headers, dictionaries or demosaiced images of any image, nor in which later call succeeds, returns what, or raises what; and the next call that computes the maps from the pixels gives the maps as if nothing had been written.",
  "all sessions of calls, pixel writes and map writes (rotations by any angle), all images","An influence could appear after any number of further calls.", "micropolarray/micropol_image.py:MicropolImage", "micropolarray/micropol_image.py:MicropolImage.demodulate", "micropolarray/micropol_image.py:MicropolImage.rotate")
p("C110","The same session in other units",
  "If every image of a session is recorded in another unit (counts, photons, counts per second, with any positive factor per image) and numbers are written in these units, each call succeeds, returns and raises the same, and every image has the same pixels, Stokes maps, polarized brightness and demosaiced images in the new unit, with the same degree and angle of polarization.",
  "all sessions of calls that make sense dimensionally, all positive factors, all images","A threshold or a constant hidden in any call could break the proportionality for some factor.", "micropolarray/micropol_image.py:MicropolImage", "micropolarray/polarization_functions.py:DoLP")
p("C111","cleaning hot pixels with the filter of the code",
  "clean_hot_pixels replaces every flagged pixel by a value taken from pixels of the same polarizer near it, so that a flagged pixel brighter than all its neighbours is no longer there, everywhere in the image; it never leaves the range of the image's values and changes nothing else.",
  "all sessions, images and maps of hot pixels, all pixels","Whether a pixel is cleaned depends on its position and on all its neighbours.", "micropolarray/micropol_image.py:MicropolImage.clean_hot_pixels")
p("C112","errors of pixels grow as an error analysis by hand says",
  "If two sessions make the same calls on arrays that differ by at most so much at every pixel, they raise and return the same, give the same names to the same images, with the same dictionaries and flags, and the results differ by no more than an error analysis by hand predicts: copies, shifts, hot pixel cleaning with the same flags, resampling, masks, demosaicing and IFOV correction keep the bound, sums, differences and dark subtraction add the bounds, products and quotients of images and flat fields known up to a fraction follow the product and quotient rules, rebin(b) multiplies by b*b, a number c multiplies by |c|, a rotation by the gain of the rotation routine and demodulation by that of its matrices; I, Q and U computed from pixels differ by at most twice the bound, pB by sqrt(2) times and, where there is light, DoLP by (sqrt(2)+DoLP)/I times the bound of I, Q, U. No call has a hidden threshold.",
  "all pairs of sessions of any length with the same calls of any kind, all bounds","A threshold or a branch on a value makes the result jump for special inputs only, and errors compose over the history.", "micropolarray/micropol_image.py:MicropolImage", "micropolarray/processing/rebin.py:micropolarray_rebin", "micropolarray/processing/congrid.py:congrid", "micropolarray/processing/demosaic.py:demosaic", "micropolarray/processing/demodulation.py:demodulate")
p("C113","counts stay counts",
  "If the arrays given to a session, and the fill values, factors and summands of its calls, are not negative and no image is subtracted with '-' (dark frames may be subtracted, hot pixels cleaned, flats and field of view corrected, images binned, shifted, resampled, rotated, masked, demosaiced, demodulated, added, multiplied and divided), no pixel of any image or demosaiced image is ever negative. If moreover no image is demodulated or rotated and the dictionaries name four different pixels, every image has an intensity that is not negative, |Q| + |U| <= 2 I, and a degree of polarization between 0 and 2.",
  "all such sessions of any length, all images in them","An invariant of all histories, kept by every call including those that fail half way; a test follows one.", "micropolarray/micropol_image.py:MicropolImage", "micropolarray/processing/rebin.py:micropolarray_rebin", "micropolarray/processing/shift.py:shift", "micropolarray/processing/demosaic.py:demosaic", "micropolarray/polarization_functions.py:DoLP")
p("C114","whole numbers stay whole numbers of known size",
  "In a session whose arrays, fill values, factors and summands are whole numbers from 0 on and whose calls copy, bin, shift, rotate, mask, demosaic, demodulate, clean hot pixels, subtract darks, add and multiply (no division, resampling, flat or field-of-view correction), every pixel of every image is a whole number from 0 to a bound that follows from the calls: times b*b for a binning by b, doubled by a sum of images, unchanged by all calls that only move or subtract. If the bound is at most 2^53, computing in double precision gives exactly these pixels; if it is below 2^15, an image saved as a raw file of 16-bit numbers and converted to FITS has all its pixels there. The bound for binning is reached.",
  "all such sessions of any length, all images in them, all roundings that keep 53-digit numbers, all file systems and paths with one dot","An invariant of all histories; a test follows one, on one machine.", "micropolarray/micropol_image.py:MicropolImage", "micropolarray/processing/rebin.py:micropolarray_rebin", "micropolarray/image.py:save_as_raw", "micropolarray/processing/convert.py:convert_rawfile_to_fits")
p("C115","trimming before binning is announced, and truthfully",
  "When an image or array is binned and the binning does not divide its sides, exactly one line is printed. It contains the sides before and the sides of the part that is binned (binning times the sides of the result); the four numbers can be read off the line. If nothing is cut off, or verbose is off in trim_to_match_binning, nothing is printed. The superseded kernel micropolarray_jitrebin_old, given the sides of the array, does the same as micropolarray_rebin in all cases, and given smaller even sides it bins the corner. micropolarray_jitcongrid never looks at the pixels. A function under the timer decorator returns or raises the same with the same effects, and prints one line more exactly if it returns.",
  "all sizes, all binnings from 1 on, all images; for the old kernel all binnings; all functions, worlds and clocks for the decorator","Sizes, binnings and decorated functions are unbounded.", "micropolarray/processing/rebin.py:trim_to_match_2xbinning", "micropolarray/processing/rebin.py:trim_to_match_binning", "micropolarray/processing/rebin.py:print_trimming_info", "micropolarray/processing/rebin.py:micropolarray_jitrebin_old", "micropolarray/processing/congrid.py:micropolarray_jitcongrid", "micropolarray/utils.py:timer", "micropolarray/cameras.py:Antarticor")
p("C116","images of different number types",
  "The sum, difference and product of images of two integer types, or of an image of integers and a Python integer, are computed in the smallest integer type that holds all numbers of both (with a sign exactly if an operand has one). Each pixel is the exact result up to a multiple of 2^bits of that type, and is the exact result exactly when the type holds it; if one operand holds floats, or no integer type holds both, nothing is dropped. So subtract_dark of counts gives the difference clipped at 0 as soon as one of the two types has a sign. (The code violates the expectation that this holds for all types: without signs 99 - 100 gives 65535 also across types, and image - 1 differs from image + (-1).)",
  "all pairs of the eight integer types of numpy, all Python integers, all images of these types","Types, numbers and pixels are too many to list; overflow needs particular values.", "micropolarray/image.py:__add__", "micropolarray/image.py:__sub__", "micropolarray/image.py:__mul__", "micropolarray/micropol_image.py:__add__", "micropolarray/micropol_image.py:__sub__", "micropolarray/micropol_image.py:__mul__", "micropolarray/micropol_image.py:subtract_dark")
p("C117","writing into the demosaiced images of an image",
  "image.demosaiced_images[q][y, x] = v sets that value of that demosaiced image and nothing else: no pixel, no Stokes map, no demosaiced image of another image; without demosaiced images, or outside them, nothing changes. An image has demosaiced images exactly if it says it is demosaiced. Corrections and transformations of a demosaiced image take I, Q and U from the demosaiced images as they are then. The demosaiced images of different images are independent. (The code violates the last part: every copy, and the results of rebin, congrid, rotate, shift, hot pixel cleaning, demodulation without demosaicing and arithmetic with an image, share them with the original.)",
  "all sessions of calls and writes into pixels, Stokes maps and demosaiced images, all images of a session, all indices and values","Which images hold the same list depends on the whole history of the session.", "micropolarray/micropol_image.py:MicropolImage.demosaic", "micropolarray/micropol_image.py:MicropolImage._import_image_parameters", "micropolarray/micropol_image.py:MicropolImage.mask_occulter", "micropolarray/micropol_image.py:MicropolImage._get_theo_Stokes_vec_components")
p("C118","angle normalisation in floating point",
  "normalize2pi of a list of floats, and normalize2piarray of an array of floats, end and return for each angle the representative in (-90, 90] degrees (modulo 180), or in (-np.pi/2, np.pi/2] (modulo the float np.pi), without rounding error. (The code violates this for large angles: from 2^62 degrees on the loops never end, because subtracting 180 gives the same float again, and 2^55 + 184 degrees give a wrong angle.) It holds for degrees up to 2^55 in size and for arrays with pixels up to 3/2 np.pi in size; up to 2^60 degrees the result is at least in range.",
  "all lists and arrays of doubles, roundings to 53 digits","Rounding errors accumulate over a number of turns that depends on the angle.", "micropolarray/utils.py:normalize2pi", "micropolarray/utils.py:normalize2piarray", "micropolarray/polarization_functions.py:normalize2pi")
p("C119","not-a-number pixels",
  "A pixel that is NaN (in the image, the dark, the flat or the other operand) makes NaN of exactly those results that are computed from it: the Stokes components of its superpixel that use it (I always, Q if it is the 0 or 90 degree pixel, U if it is the 45 or -45 degree pixel) and the pB, AoLP and DoLP from them, the rebinned pixel of its block (and family), the demosaiced pixels interpolated from it, the four pixels IFOV correction averages it into, the demodulated Stokes vector of its superpixel, and the pixel itself in sums, differences, products and quotients; it is never replaced by an ordinary number, and all other results are what they would be without it. (The code violates this: subtract_dark turns NaNs into 0, fix_data turns them into the lower bound, IFOV correction sets the first superpixel row and column to 0, and DoLP is 0 where I is 0 although Q or U is NaN. One NaN in a flat makes the whole corrected image NaN, because the mean is.)",
  "all images, all sets of NaN pixels, all numbers with a NaN that absorbs under the four operations (floating point with any rounding and overflow in particular), all orders of summation in the mean","Tests put a NaN at one or two places and look at one or two results.", "micropolarray/micropol_image.py:MicropolImage.subtract_dark", "micropolarray/micropol_image.py:MicropolImage.correct_flat", "micropolarray/micropol_image.py:MicropolImage.demodulate", "micropolarray/processing/demosaic.py:demosaic", "micropolarray/processing/rebin.py:micropolarray_rebin", "micropolarray/polarization_functions.py:DoLP", "micropolarray/utils.py:fix_data")
p("C120","calls that raise change nothing",
  "If a call on images raises (a dark, flat or operand of another shape, an unknown demosaic mode, a demodulator of the wrong size, a binning of 0, an undefined variable, ...), the session goes on as if the call had not been made: all images show the same pixel data, Stokes maps, header, dictionary, demosaiced images and flags as before, every later call returns or raises as it would have, and this for any number of such calls. (The code violates this: MicropolImage(image, dark=dark, flat=flat) with a flat of another shape has by then subtracted the dark from its copy and set the size keywords of the header object it shares with the given image. Every other call that raises changes nothing.)",
  "all histories of calls on images, all calls that raise at the end of them, and all continuations of the session","Tests check that an exception is raised; whether anything has been left behind shows only in what the user does next.", "micropolarray/micropol_image.py:MicropolImage.__init__", "micropolarray/micropol_image.py:MicropolImage.subtract_dark", "micropolarray/micropol_image.py:MicropolImage.correct_flat", "micropolarray/micropol_image.py:MicropolImage.demodulate", "micropolarray/micropol_image.py:MicropolImage.mask_occulter", "micropolarray/micropol_image.py:MicropolImage.congrid")
p("C121","work on different images does not interfere",
  "A program that works on several groups of images (several exposures or cameras), each call naming images of one group only, gets for each group what it gets by making only the calls for that group: the same pixel data, Stokes maps, headers, dictionaries, demosaiced images and flags, and each call returns or raises the same. So the groups can be worked on in turn, one after the other, or interleaved in any way. The groups may use common images as darks, flats and other arguments, as long as they call no methods of these; set_default_angles is a setting of the whole process and counts for all groups.",
  "all numbers of groups, all common images, and all sequences and interleavings of calls for the groups","Tests work on one image at a time; interference would need a particular interleaving of calls on images that share a buffer, a header or a default.", "micropolarray/micropol_image.py:MicropolImage.__init__", "micropolarray/micropol_image.py:set_default_angles", "micropolarray/micropol_image.py:MicropolImage.subtract_dark", "micropolarray/micropol_image.py:MicropolImage.rotate", "micropolarray/image.py:Image")
p("C122","keywords of images and of saved files",
  "A FITS file written by any of the saving methods states the size of the array in it and has the keywords of the image it was saved from, whatever happened before; save_single_pol_images and save_demosaiced_images_as_fits add POL with the orientation of the pixels in the file, save_param_as_fits and save_all_pol_params_as_fits add PARAM and UNITS. Saving changes no image, no keyword and no other file. An image loaded from a file has the keywords that the saved image had, and states its size; loaded from several files it has those of the first one, with SUMOF the number of files and STRT-OBS, END-OBS the earliest and latest date. An image made from another one has its keywords, one made from an array has none, and calls change no keyword of an existing image. A keyword written to an image shows in that image only; SUMOF is the number of exposures in the image.",
  "all sessions of calls, keyword writes, saves and loads, all images, keywords, values and files","Which images share a header depends on the whole history of the session; tests look at one image and one file.", "micropolarray/image.py:Image.save_as_fits", "micropolarray/image.py:Image._init_image_from_file", "micropolarray/micropol_image.py:MicropolImage.save_single_pol_images", "micropolarray/micropol_image.py:MicropolImage.save_param_as_fits", "micropolarray/micropol_image.py:MicropolImage.save_all_pol_params_as_fits", "micropolarray/micropol_image.py:MicropolImage.save_demosaiced_images_as_fits", "micropolarray/micropol_image.py:MicropolImage.__init__")
p("C123","images of both classes, arrays and numbers together",
  "A session uses MicropolImages, Images, arrays and numbers together. A constructor copies the array it is given: later writes into that array, or into the array of an Image, do not change an image; a MicropolImage shows what it would show if every statement had been given the values of its operands. An Image that a constructor, shift, rebin or an operator returned keeps its pixels until its array is asked for or replaced. MicropolImage(Image) is MicropolImage(array with its pixels); Image(MicropolImage) has the pixels of the image. image op array is a new image with the result at every pixel, the dictionary and keywords of the image, and its own Stokes maps. Operands of different classes and plain values on the left raise TypeError and change nothing. image.data = array sets the pixels, the size keywords and the polarization information derived from them.",
  "all sessions of statements with both classes, arrays and numbers; all shapes, pixels, indices and operators","Which objects hold the same array depends on the whole history; tests look at one object after one statement.", "micropolarray/image.py:Image.__init__", "micropolarray/image.py:Image.data", "micropolarray/image.py:Image.shift", "micropolarray/image.py:Image.rebin", "micropolarray/image.py:Image.__add__", "micropolarray/image.py:Image.__truediv__", "micropolarray/micropol_image.py:MicropolImage.__init__", "micropolarray/micropol_image.py:MicropolImage.__add__", "micropolarray/micropol_image.py:MicropolImage.__truediv__")
p("C124","the unit of the calibration frames does not matter",
  "If frames, dark and prescribed signal of calculate_demodulation_tensor are all given in another unit (all pixel values times the same positive number) and the gain to match, the result is the same: the same normalised data and errors, the same maps, or the same exception. get_malus_normalization returns the signal in the unit of its images. With a dark, an image added to all files (a bias) changes nothing.",
  "all files, sizes, binnings, units, arguments and ways to give the normalising signal","A test has one set of files in one unit; constants hidden in thresholds, histograms and clamps only show when the unit changes.", "micropolarray/processing/demodulation.py:calculate_demodulation_tensor", "micropolarray/utils.py:get_malus_normalization", "micropolarray/processing/rebin.py:micropolarray_rebin")
p("C125","a bad pixel of a calibration frame spoils its own superpixel only",
  "The maps that calculate_demodulation_tensor computes for a superpixel depend on the pixels that are binned into it, in the frames, the dark and the prescribed signal, and on nothing else in the files; the number of chunks and the order of the workers do not matter either.",
  "all files, sizes, binnings, prescribed signals, grids, schedules and superpixels","Frames differ in any of their pixels, in any of the files; a test changes a few of them.", "micropolarray/processing/demodulation.py:calculate_demodulation_tensor", "micropolarray/processing/demodulation.py:compute_demodulation_by_chunk")
p("C126","calibrating with a binning equals calibrating binned files",
  "calculate_demodulation_tensor with binning b*b' does exactly what it does with binning b' on files (frames, dark, signal images) that were binned by b with micropolarray_rebin, with the occulter in binned pixels and a number given as signal times b*b: the same maps or the same exception. A number given as signal refers to one unbinned pixel: where the superpixels added into one are equal, the normalised data do not depend on the binning and their errors are b times smaller.",
  "all files, sizes, binnings, occulters and ways to give the normalising signal","A test has one size and one binning; trimming, truncated coordinates and factors of b only show for others.", "micropolarray/processing/demodulation.py:calculate_demodulation_tensor", "micropolarray/processing/rebin.py:micropolarray_rebin")
p("C127","calibrating a part of the detector",
  "If all calibration files (and the prescribed signal) are cut to the same part of the detector, starting at a multiple of 2*binning pixels, and the occulter is counted from there, calculate_demodulation_tensor succeeds as for the whole detector and gives each superpixel the same result.",
  "all files, sizes, binnings, parts, occulters, prescribed signals, grids, schedules and superpixels","There are many parts of a detector and places of an occulter; a test has a few.", "micropolarray/processing/demodulation.py:calculate_demodulation_tensor", "micropolarray/processing/demodulation.py:compute_demodulation_by_chunk")
p("C128","making a call again",
  "What a call returns (or raises) is determined by what the images it is given look like - pixels, Stokes maps, angles, flags, demosaiced images - whatever else happened in the session. A call that returns a new image can be repeated, at once or later, and gives an image that looks the same, as long as nobody changed the images it is given. Demosaicing an image in the same way twice and masking the same occulter twice changes nothing the second time, in any image; demodulating the demodulated image with the same demodulator gives it again.",
  "all histories of calls, all calls in between that leave the inputs alone, all calls with all arguments","Hidden state (class defaults, shared arrays, flags) shows only after particular histories; a test makes each call once on a fresh image.", "micropolarray/micropol_image.py:MicropolImage", "micropolarray/micropol_image.py:MicropolImage.demosaic", "micropolarray/micropol_image.py:MicropolImage.mask_occulter", "micropolarray/micropol_image.py:MicropolImage.demodulate", "micropolarray/micropol_image.py:MicropolImage.rotate")
p("C129","corrections made more than once",
  "Several darks without negative pixels, subtracted in place one after the other, subtract their sum, in whatever order; one dark subtracted n times is subtracted n times (no flag prevents it). Several flats multiply by the product of their means and divide by the product of their pixels, in whatever order, wherever none of them is 0. n field of view corrections give, in every pixel, the mean over the 4^n ways to go n times up, left, both or neither within the family, where ways that reach the first row or column before the last step count 0. The ring filter applied to its own result changes nothing when the averaging sector lies in the filtered one.",
  "all histories of calls, all lists of darks and flats, all numbers of repetitions, all images and sectors","Repetition counts and orders are unbounded; a test makes one or two corrections.", "micropolarray/micropol_image.py:MicropolImage.subtract_dark", "micropolarray/micropol_image.py:MicropolImage.correct_flat", "micropolarray/micropol_image.py:MicropolImage.correct_ifov", "micropolarray/processing/chen_wan_liang_calibration.py:_ifov_jitcorrect", "micropolarray/processing/nrgf.py:nrgf")
p("C130","what a Chen-Wang-Liang calibration depends on",
  "The matrices and offsets written for a superpixel depend on the pixels of that superpixel in the frames, the dark and the flat only, besides the greatest value of the flat: they are the same for files of another size in which the superpixel lies elsewhere. They do not depend on the unit of the frames, nor (without a dark) of the flat.",
  "all frames, darks and flats, all sizes, all superpixels, all units","Sizes, files and units are unbounded; a test calibrates one set of files.", "micropolarray/processing/chen_wan_liang_calibration.py:calculate_chen_wan_lian_calibration", "micropolarray/processing/chen_wan_liang_calibration.py:_build_S_input")
p("C131","what the search of the occulter depends on",
  "find_occulter_position looks at the middle row and the middle column only. The threshold method gives the same answer (or the same refusal) for the same image with another gain, and so does the fit of four edges with a fitting routine that works in every unit. For the image with rows and columns exchanged the coordinates found are exchanged and the radius is the same. For an image upside down (even number of rows, both middle rows equal) the row found is the mirrored one up to the truncation of half a pixel, column and radius are the same. Without negative pixels an occulter found with one threshold is found with every smaller one, and not larger.",
  "all images, gains, thresholds and methods","All images and thresholds; a test looks at one picture.", f"{NR}:find_occulter_position", f"{NR}:sigmoid")
p("C132","the files of a Chen-Wang-Liang calibration",
  "A calibration that calculate_chen_wan_lian_calibration saved is applied by chen_wan_liang_calibration as it was calculated, whatever was in the folder before; other files are not touched. An image that is calibrated while the seventeen files are being written, or after the writing was stopped anywhere, is calibrated with one calibration (the old or the new one) or refused. A demodulation tensor and a Chen-Wang-Liang calibration saved to the same folder do not disturb each other.",
  "all calibrations, images, previous contents of the folder, crash points and interleavings of the reads with the writes","All interleavings and crash points; a test saves once and loads once.", f"{CW}:calculate_chen_wan_lian_calibration", f"{CW}:chen_wan_liang_calibration", f"{DE}:Demodulator")
p("C133","working on a part of the image",
  "Working on a part of an image that consists of whole superpixels, with the same parts of dark, flat, flags, matrices and tensor, gives the part of what working on the whole image gives: Stokes maps and polarization, dark, flat, binning (if the part begins at a bin), both demosaics, demodulation, calibration of the tensor, IFOV correction, hot pixels and the Chen-Wang-Liang calibration (the last ones, which use neighbouring superpixels, away from the edges of the part).",
  "all images, sizes, positions of the part and pixel values","All images and parts; a test cuts one image once.", f"{MI}:MicropolImage.subtract_dark", f"{MI}:MicropolImage.correct_flat", f"{MI}:MicropolImage.demodulate", f"{MI}:MicropolImage.rebin", f"{DM}:demosaic", f"{CW}:chen_wan_liang_calibration")
p("C134","rows and columns are treated alike",
  "Exchanging the rows and columns of an image, and of dark, flat, flags, tensor, matrices and previous maps, with the places of the micropolarizers exchanged accordingly, exchanges the rows and columns of every result and changes nothing else, to the last row and column: Stokes maps and polarization, dark, flat, binning, shifts, resizing, both demosaics, demodulation with and without demosaicing, hot pixels, IFOV correction, Chen-Wang-Liang calibration and calibration of the tensor.",
  "all images, sizes, layouts of micropolarizers and pixel values","All images; a test with a square image or a symmetric one cannot tell rows from columns.", f"{MI}:MicropolImage.demodulate", f"{MI}:MicropolImage.rebin", f"{MI}:MicropolImage.shift", f"{DM}:demosaic", f"{CW}:chen_wan_liang_calibration")
p("C135","a calibration that does not return leaves the earlier one alone",
  "A call of calculate_demodulation_tensor that raises or exits, at whatever stage and for whatever reason, has not written, removed or changed any file of the output folder, so that the calibration that was there loads as before; at most the missing folder has been made. A call that returns leaves a folder from which Demodulator loads the matrices and flags it computed. With DEBUG=True the call never returns and never touches a file, and procs_grid has no effect.",
  "all input files, arguments, processor grids, schedules, earlier contents of the output folder and behaviours of the fit","All ways to fail; a test fails in one place.", f"{DE}:calculate_demodulation_tensor", f"{DE}:Demodulator.__init__")
p("C136","the figures of debug mode",
  "With DEBUG=True calculate_demodulation_tensor shows one figure for each superpixel of rows and columns 100 to 149 that is not behind the occulter, row by row, each with the measured points of that superpixel and the curves fitted to them, and then exits.",
  "all images, occulters, orientations and behaviours of the fit","All images; with good pixels only, the curves are always right.", f"{DE}:calculate_demodulation_tensor", f"{DE}:compute_demodulation_by_chunk")
p("C137","several programs save calibrations to one folder",
  "Programs that save calibrations to the same folder at the same time, interleaved in any way and stopped anywhere, leave only whole files of one of the calibrations; files with other names stay. Programs that calibrate with the same files, each with its own grid, do not disturb each other: as soon as one has come to its end the folder loads as if it had been alone. Whatever has come to its end, the folder loads as one of the calibrations.",
  "all numbers of programs, calibrations, interleavings, points at which programs are stopped, earlier contents of the folder and directory orders","All interleavings.", f"{DE}:calculate_demodulation_tensor", f"{DE}:Demodulator.__init__")
p("C138","the folder of a Chen-Wang-Liang calibration",
  "calculate_chen_wan_lian_calibration(..., output_dir) either raises and leaves the disk as it was, or it writes the seventeen files to output_dir, which it makes if it is not there, and touches no other file at any moment; chen_wan_liang_calibration(image, output_dir) then applies this calibration, from whatever current directory and by whatever name (relative, absolute, with dots) the folder is called. (The code violates this: if output_dir is not there and its name has an extension, like cal.1, or the folder above it is missing, the calibration is calculated and then lost with FileNotFoundError; with the empty name it is saved to the current directory and looked for in the root directory.)",
  "all arguments, disks, current directories, names of folders, and images","All folder names and disk contents.", f"{CW}:calculate_chen_wan_lian_calibration", f"{CW}:chen_wan_liang_calibration", f"{UT}:_make_abs_and_create_dir")
p("C139","the folder of a demodulation tensor on the disk",
  "calculate_demodulation_tensor(..., output_dir) either raises and leaves all files as they were, or it writes its twenty-six files to output_dir and its subfolder, which it makes with all folders above them, and touches no other file at any moment; Demodulator(output_dir) then gives this tensor and its flags, from whatever current directory, by whatever name (relative, absolute, with dots, with any characters) the folder is called, and in whatever order its files are listed. (The code violates the last part: the name is put unescaped into a glob pattern, so a calibration saved to cal[1] is looked for in cal1, and Demodulator raises FileNotFoundError or gives the tensor of the other folder.)",
  "all arguments, disks, current directories, names of folders, and directory orders","All folder names and disk contents.", f"{DE}:calculate_demodulation_tensor", f"{DE}:Demodulator")
p("C140","a Demodulator stays with one calibration",
  "The tensor mij, the maps eff, tk, phi and the covariance Cij of a Demodulator are those of one calibration, whatever happens after the object was made: the program changes its current directory, files elsewhere change, other calibrations are saved. (The code violates this: only the tensor and the flags are read when the object is made, the rest is read again at every access by the name that was given. After os.chdir a relative name gives FileNotFoundError or the maps of another calibration; after another calibration was saved to the folder the maps are the new ones and the tensor is the old one.)",
  "all calibrations, disks, current directories, names of folders, histories of os.chdir and changes of files, and directory orders","All histories of a session and of other programs.", f"{DE}:Demodulator")
p("C141","the angle dictionary while calibrations are being saved",
  "Demodulator.angle_dic is the dictionary of one calibration that was in the folder while it was calculated, whatever other programs save meanwhile. (The code violates this: it reads phases.fits four times, once for each family of pixels, so a calibration saved between the accesses gives a dictionary of mixed phases, in which two directions may have the same pixel.)",
  "all phases, all states of the disk at the four accesses, all histories of changes of files, and all orders of the set of pixels left over","All schedules of another program that saves to the folder.", f"{DE}:Demodulator")
p("C142","the angle dictionary of a calibration is the layout that was predicted",
  "Whatever the frames of a calibration show, the angle dictionary of the phases it saves has for each of the four directions the pixel for which micropol_phases_previsions predicted this direction. (The code violates this if the grid of processors does not divide the image: the phases of the border stay zero and enter the means, and in an image of 10x10 pixels with the default grid 4x4 the pixels of 45 and 90 degrees are exchanged.)",
  "all frames, arguments of a calibration, occulted and dark pixels, results of fits within their bounds, failing fits, grids and orders of the workers, and all layouts","All frames and results of the fitting library.", f"{DE}:Demodulator", f"{DE}:calculate_demodulation_tensor", f"{DE}:compute_demodulation_by_chunk")
with open("/verif/properties.jsonl","w") as f:
    for x in P: f.write(json.dumps(x)+"\n")
print(len(P))

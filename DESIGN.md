# Formal model of micropolarray: design

## 1. What is modelled, and how

The library is numerical Python (numpy + numba).  The model is a shallow embedding in Lean 4: every
modelled Python function is a Lean function with the same branches, every exception is a value.

* `Verif/Basic/Py.lean`: `PyErr` (one constructor per exception class that the modelled code can raise,
  plus `oob` for an unchecked out-of-bounds access in a numba kernel and `hang` for fuel exhaustion) and
  `Py α := Except PyErr α`.
* `Verif/Basic/Img.lean`: `Img α` = 2D array with explicit shape.  `Img.read`/`Img.write` are *checked*:
  an access outside the array is an error (`oob`), a negative index wraps as in Python/numba.
  A theorem whose conclusion is `= .ok …` therefore contains memory safety.
* `Verif/Basic/Loop.lean`: `for i in range(..)` loops as monadic folds, with an invariant rule.
  numba kernels are modelled as the nested loops they are, with mutable result arrays.
* `while` loops: a step function with fuel; termination = "some fuel suffices", non-termination =
  "no fuel suffices".
* Objects: `Verif/Model/Heap.lean` has a heap of arrays / headers / image objects addressed by references,
  so that aliasing between copies (`MicropolImage(image)`) is visible.  Histories are lists of operations.

Layout: `Verif/Basic/*` infrastructure, `Verif/Model/*` model of the code (every definition cites file and
lines), `Verif/Spec/*` small independent specifications, `Verif/Lemmas/*` helper lemmas, `Verif/Props/*`
the property theorems with a non-vacuity `example` beside each.

## 2. Trusted base

1. Lean 4.33.0's kernel; theorems depend at most on `propext`, `Classical.choice`, `Quot.sound`.
   No axioms are added; no compiled-code tactics are used.
2. The faithfulness of the transcription Python -> Lean, cited line by line.
3. **Exact arithmetic.** Pixel values live in an arbitrary linearly ordered field `K` (or `ℝ` where
   square roots and trigonometry occur, or `Int`/`Nat` for raw bytes).  IEEE rounding, NaN, infinities,
   and numpy integer dtypes' overflow are not modelled, except `int16` in raw files, the operations of C88, the rounding of C91 and C118 and the NaN of C119 (negative zero is left out there).
4. **External calls are parameters** quantified over: `scipy.optimize.curve_fit`, `scipy.ndimage.median_filter` (except in C111, where `Model/MedianFilter.lean` transcribes scipy 1.13.0),
   PIL `rotate` (except in C101, where `Model/PilRotate.lean` transcribes what Pillow 10.3.0 does), `glob.glob` order, the operating system's scheduler and file system contents.
   `np.linalg.pinv` is any function satisfying the four Penrose equations.  Memory returned uninitialised by
   `np.divide(..., where=...)` without `out=` is an adversarial parameter.
5. numpy facts used in the transcription: slicing, broadcasting of equal or size-1 axes, row-major reshape,
   `np.rot90`/`np.flip` index maps; numpy 1.26 (the pinned version) has no `np.float`.

6. Assumptions of single layers, each stated again in the header of its model file:
   * *Rounded arithmetic* (C91): every operation is the exact one followed by a rounding that keeps numbers of 53 binary digits
     and changes others by at most `2^-53` of themselves; no overflow, underflow, infinity, NaN, no fused multiply-add; sums are
     taken in the order written (`np.sum(axis=0)` over four planes and `np.matmul` over four products from left to right).
   * *Demodulation calibration*: `curve_fit` and the chi-square are parameters that receive exactly what the code passes (C96 fixes the chi-square to the
     code's expression where its divisor is not zero);
     `multiprocessing.Pool.map` returns results in order and raises if a worker raises.
     C142 assumes that a fit returns a phase between its bounds if the first guess is (`KeepsPhaseBounds`).  For C141 each reading of `phases.fits` is atomic.
   * *Folders*: a folder is a finite map from names to matrices; a truncated file is not modelled; the FITS round trip of a
     matrix is the identity; set iteration order and `glob` order are parameters.
   * *Files* (`Convert`, `Save`, `Load`): no symbolic links, no permissions; `..` is resolved by text; `writeto(overwrite=True)`
     is remove, create, complete, and the machine may stop between any two of them; numpy byte strings lose trailing zeros.
     `strptime` is a parameter.  The keywords of the headers written by the saving methods are modelled for C122 only (`Model/Keywords`): `fits.PrimaryHDU` is taken to copy the header it is given and to state the sizes of the data; keywords have texts or integers as values and are read back as written; their comments and the other structural keywords are left out.  For C103 a load finds arbitrary date keywords in the headers on the disk.  For C105 each action of a saving method on the disk (looking for a path, making one directory, removing, creating and completing a file) is atomic; programs save different files.  For C107 listing the folder, reading a file, and removing, creating and completing a file are atomic, incomplete files cannot be opened, and one program saves at a time.
   * *Objects*: a heap of data / Stokes / header cells with references; numpy in-place operations write the cell, rebinding
     replaces the reference.
   * *Base class*: a failing call leaves only unreachable objects behind; other header keywords are a map from names to texts.
   * *Angles*: `np.arctan2` is `Complex.arg`; `lru_cache` returns the identical array object for equal arguments.
   * *Lines*: accumulated floating point sums are exact sums; NaN to int is `ValueError`.
   * *Errors*: a NaN or infinite pixel of an error map is `none`.
   * *Preparation of calibration frames*: fits files are 2D arrays found by name; `np.histogram` is the counting of half open
     bins (the last one closed); the gaussian fit is a parameter (`GaussFit`) that gets the bins the code selects; C75 assumes
     `FindsExact`: the Malus fit returns an exact solution within the bounds when there is one.
   * *Chen-Wang-Liang matrices*: `np.linalg.pinv` satisfies the Penrose conditions on columns and on rank-one matrices
     (`ChenEnv.PinvCorrect`), the only ones the code passes; its rounding cut-off for small singular values is not modelled.
   * *Occulter*: `curve_fit` of the sigmoid returns an exact solution if there is one (`SigmoidFit.FindsExact`, C85 only); OpenCV's
     median blur and circle detector are arbitrary functions.
   * *Writes*: users write single pixels through `image.data` (C82, C87) and single values of I, Q, U through `image.I.data` and so on
     (C108; one statement, no `PolParam` is kept for later), and single values of demosaiced images (C117).
   * *Integers*: numpy arithmetic on two arrays of one integer type drops the bits that do not fit; arrays of two types, or an array and a Python integer, are first converted as numpy 1.26 does (`promoteInt`, `scalarType`, C116); the conversion of a float
     stored into an integer array is a parameter (truncation towards zero where the result is used, C88).
   * *congrid*: the degenerate sizes that divide by zero are an error (`notFinite`); `interp1d` is modelled as piecewise linear.

Not modelled: matplotlib (the figures of the image classes are lists of panels, C89; that of a tensor in C90), logging and progress bars,
printed text other than that of C115, code after a `return`, the inside of OpenCV and SciPy, fits header cards other than those in the properties.

## 3. Plan per property

(*V* = the code violates the property as users expect it; we prove the negation by a concrete witness, and the
part that does hold as a `_partial` theorem.)

| Id | Model | Proof |
|----|-------|-------|
| C01, C02 | `split`, `merge` on `Img` | pixel extensionality, parity arithmetic |
| C03, C04, C05 | kernel loops of `shift`, `shift_micropol` | loop invariants -> closed pixel form; case analysis |
| C06 | while loops of `trim_to_match_binning` | fuel induction, multiples |
| C07 *V* | same for 2x | fuel induction for even sides; for odd sides "every fuel is insufficient" |
| C08, C09 | four/six-fold nested loops | nested invariants -> block sums; sum re-indexing for flux |
| C10, C12 | algebra on closed forms | re-indexing of finite sums |
| C11 | wrappers `Image.rebin`, `MicropolImage.rebin` | case split |
| C13, C14, C15 | loops of `demosaicmean`, `demosaicadjacent` | invariants -> closed form, bounds |
| C16 *V* | `demosaic` dispatcher | case split; witness "spline" |
| C17 | `theoStokes` | unfolding + independent spec; relabelling lemma |
| C18-C21 | `AoLP`, `pB`, `DoLP`, `Malus` over ℝ | `Complex.arg`, trigonometric identities |
| C19 *V* in part | | witness (1,0,0,0) |
| C22, C23 | modulation matrix, Penrose pinv | rank 3 -> left inverse; uniqueness of pinv |
| C24, C25 *V*, C26 | `demodulate` with numpy broadcasting | pixel extensionality; broadcasting witness |
| C27 *V*, C28, C29 | folder as name -> content map, listing order a permutation | induction on write list / load loop |
| C30 | `angle_dic` loop | case analysis over permutations and reals |
| C31, C32, C33 | chunk splitting, worker, merge | index bijection, permutation invariance of writes |
| C34 *V* | `rot90`, `flip` | index maps |
| C35, C36 *V*, C37, C38, C39 *V* | pixelwise definitions, IFOV loops | field arithmetic, loop invariants |
| C40-C44 | heap model, operation histories | invariants by induction on histories; witnesses for *V* (C41, C42, C43) |
| C45 | global default state machine | induction on histories |
| C46 *V*, C47, C48, C49 | polar ROI over ℝ with abstract rho/theta maps | set algebra; induction on call histories |
| C50-C54 (*V* C51, C54) | byte lists, string splitting | div/mod arithmetic, list induction |
| C55, C56 | while loops over ℝ | Archimedean fuel bound |
| C57 *V* | `fix_data` | order lemmas |
| C58 | mean/std over finite families, ℝ | finite sum algebra |
| C59 | rot90/flip per family | index maps |
| C60 *V*, C61 *V*, C62 | DDA and bresenham loops | loop invariants |
| C63, C64 | nrgf ring loop, threshold search | finite sums; list induction |
| C65, C66 | closed formulas over ℝ | `HasDerivAt` |
| C67, C68 *V* | file averaging loop | fold induction, permutation invariance |
| C69, C70 | apply loop, linear interpolation | loop invariants, convexity |
| C71 *V* | path text, directories, sequence of writes | string injectivity, induction over the writes |
| C72 | `sigma_DN`, `get_Bsun_units` | real algebra |
| C73 *V*, C76 *V* | `calculate_demodulation_tensor` up to the fit | sorting by orientation, closed pixel forms of binning and subtraction |
| C74 *V* | histogram, fullest bin, window, gaussian | counting over pixels; uniqueness of the first fullest bin |
| C75 | the whole calibration with an exact fit | trigonometric identifiability, Penrose left inverse |
| C77 | heap model against the array level functions | value semantics of each call, C44 for the shapes |
| C78 *V* | cameras with their occulter; polar region of superpixels | closed form of C46/C47, distances up to the truncation |
| C79, C80 *V*, C81 *V* | medians of sorted lists; Otsu variance over candidates | uniqueness of sorted permutations, counting; scatter decomposition |
| C82 *V*, C83 *V* | sessions with `Image`: arrays, headers, images, the caller's variables | invariants over histories; witnesses of sharing and of lost keywords |
| C84 *V* | all of `calculate_chen_wan_lian_calibration`; `pinv` a parameter | uniqueness of the pseudo-inverse, explicit pseudo-inverse of rank-one matrices, tile loops; exact distortion of an ideal sensor |
| C85 *V* | `find_occulter_position`, all methods; `curve_fit` a parameter | four points determine the middle of a logistic curve (cross ratio); exact result for edges and circles; witnesses of the bias and of the short radius |
| C86 | `find_occulter_hough`; OpenCV's functions parameters | while loop to the first threshold; scaling of maxima and floors |
| C87 *V* | sessions of calls and of writes into `image.data`; the array held by each image | invariant on array references: different arrays stay different, equal ones stay equal until corrected in place |
| C88 *V* | images of integers: numpy arithmetic modulo `2^bits`; the dark and the Chen-Wang-Liang calibration on them | range and congruence characterise the stored number; induction on the list of summed images |
| C89 *V* | a figure as the list of its panels; numpy histograms with `bins` and `range` | unfolding for the panels; sums over half open bins and over the families for the histograms |
| C90 *V* | `tile_double` as a strided view in row-major order; `remove_outliers_simple` as a fold over the samples; `Demodulator.show` as its panels and the value of `ax` | index arithmetic; invariants of the fold; medians by counting |
| C91 *V* | the definitions of the rebinning, Stokes, demosaic, demodulation and correction models at a type of numbers whose operations round (`Fl R`); the rounding of IEEE 754 doubles as one instance | closed forms in the order of the loops; induction over the sums; rounding of 53-digit numbers |
| C92 *V* | two runs of the operations of C03, C08, C09, C13, C14, C17, C24, C26, C35-C37, C69 on images that differ at given pixels | the pixel formulas of those properties, compared pixel by pixel; concrete flat for the violation |
| C93 *V* | the operations of C92 on a weighted sum of `n` frames | the pixel formulas are linear; interchange of finite sums; concrete frames for the violation |
| C94 | the models of C35, C36, C24, C09, C17, C18-C19 and C75 one after the other on an exposure `gain * (R light) + dark` | the pixel formulas composed; the flat's mean cancels the gains; C75 for the tensor |
| C95 | the models of C35, C36, C05 and C09 composed in both orders | pixel formulas; `max` and sums; division of a shifted bin; two witnesses for the exchanges that fail |
| C96 | `reducedChisq`, the expression of demodulation.py:913-920; the environment of `calibrate` computes it | C33_fitted at a superpixel; sums of squares; a calibration of five frames as witness |
| C97 | `Demodulator.rebin` with the folder of C27–C29; images binned as in C09, demodulated as in C24 | loop invariant over the twelve components; block sums; saved calibrations as witnesses |
| C98 | `nrgfCall`: the test for missing arguments, the search of C85, the loop of C63 and the downward loop | case analysis on the missing arguments; induction over the downward loop; the image of C85 as witness |
| C99 | the session model with `demosaic`, `theoStokes` of the demosaiced images, `DoLP` | linearity of both demosaicing rules; triangle inequality for (Q, U) |
| C100 | the session model; conditions are arbitrary convex cones of superpixel values | invariant of the session by induction over the calls; three instances |
| C101 | the session model with `rotate`; Pillow's `fromarray`/`rotate` with its transpositions, fixed point affine transformation and 32 bit floats (`Model/PilRotate.lean`) | positions compared with the exact turn about the centre; rounding to 24 digits; the three claims that fail have witnesses |
| C102 | the session model with `congrid`, `DoLP` | one bilinear position for all maps; blends of light; sizes contradict consistency |
| C103 | programs with a disk: session calls, `save_as_fits`, loads, restarts, crashes in a save | states of a save differ in one file; the memory is always that of some session, so C42, C44 apply; C67, C93 for means |
| C104 | `calculate_demodulation_tensor` with its folder, then loads of dark, flat, exposures and `demodulate` in any program | the memory of a program is that of a session; C75, C28, C94 composed; mean of exposures by linearity |
| C105 | the saving methods cut into single actions on the disk (look, mkdir, remove, create, finish), `n` programs and a schedule | refinement (alone = Model/Save); invariant of the stage of every program by induction on the schedule; a measure for ending; the race by an explicit schedule |
| C106 | the calibration run of C75 called with turned orientations; the demodulation of any image with both results | uniqueness of the projection on the common range of the two response matrices, then linear algebra with cos² + sin² = 1 |
| C107 | the saving of calibrations cut into actions (remove, create, finish), the load with one moment for each access | where a complete file comes from, by induction on the sequence of calibrations; the loop of C27 on the files as they were read; the violations by explicit moments |
| C108 *V* | sessions of C87 with writes into `image.I.data`, `image.Q.data`, `image.U.data`; the Stokes vector held by each image | as C87, on the references of the Stokes vectors |
| C109 | sessions of C108 run twice, with and without the map writes | relational invariant: the two heaps are equal up to the values of the maps; every call keeps it because success and shapes never depend on these values |
| C110 | sessions run twice, the second with all arrays and numbers multiplied by the factor of their unit (Spec/Units) | relational Hoare triples: the heaps are equal up to the factor of each live object; every pixel operation is homogeneous of degree 1. Violation: products of demosaiced images |
| C111 *V* | `scipy.ndimage.median_filter(size=2)` transcribed (`Model/MedianFilter.lean`), sessions of C77 | sorting of four numbers by counting; window indices with reflection |
| C112 *V* | sessions of C77; error bounds by name and call (`Spec/Stability.lean`, `Spec/StabilityMaps.lean`: pixels and Stokes maps, all calls) | single calls from the pixel formulas of C77/C99; induction over the two sessions in lockstep: same names, same aliasing, same sharing of Stokes vectors, same outcomes; the quotient rule for uncertain flats and divisors |
| C113 *V* | sessions of C77, calls restricted by `Op.AddsNoNegative`, `Op.MapsFromPixels` (`Spec/Light.lean`) | an invariant of the whole heap (objects hold arrays without negative numbers, Stokes vectors in the cone, good dictionaries), kept by every statement of every call by a small program logic (`KeepsLit`) |
| C114 *V* | sessions of C77 with calls restricted by `Op.CountsTo` (`Spec/Counts.lean`), rounded arithmetic of C91, raw files of C53 | invariant of the views of all images (`inv_step_on`), generic pixel predicates through the array functions (`AllPx`, `OkP`) |
| C115 *V* | binning with the flag `trimmed` and printed lines, the old kernel, `timer`, `Antarticor` (`Model/Printed.lean`) | simulation of the flagged loop by the plain one, digits contain no blanks; the old kernel unfolds to the new one |
| C116 *V* | numpy's promotion of integer types and Python integers (`Model/MixedInteger.lean`), pixels with their type | containment of types reduced to bits and sign; extremal numbers of each type; then C88's arithmetic of one type |
| C117 *V* | sessions of C108 with writes into `image.demosaiced_images[q]`; each image holds the identity and the contents of its list (`demosaicedList`, `Heap.freshList`, `Heap.setList`) | invariant: equal identities have equal contents, identity 0 is `None`; new lists differ from all old ones; then as C108 |
| C118 *V* | the loops of C55 and C56 at the rounded numbers of C91 | the loops run in step with the exact ones as long as every value has 53 digits (differences of near numbers have, Sterbenz); from 2^62 on rounding absorbs 180; rounding does not cross numbers of 53 digits |
| C119 *V* | the definitions of C01, C05, C07, C11, C14, C17, C23 at numbers with infinities and NaN (`Model/NotANumber.lean`) | a relation "equal, but NaN at the positions S" that every operation keeps with the union of the positions; closed forms of the kernels; any bracketing and order for the mean |
| C120 *V* | the heap and the calls of C40 with exceptions as values | a simulation between two heaps that relates the images of a session, what they show and what they share, and is kept by every call (`Lemmas/Memory`, `MemoryOps`); a call that raises leaves an extension of the heap (`Lemmas/Failed`); induction over the rest of the session |
| C121 | the heap and the calls of C40, made for several groups with their own variables in one memory | every object belongs to one group or is common, and objects of different owners share no Stokes vector or header: an invariant kept by every call (`Lemmas/Apart`, `ApartOps`), under which the simulation of C120 between the program and the calls for one group survives calls for the others (`Lemmas/Groups`) |
| C122 | the heap and the calls of C40, keywords per header object, files with sizes and keywords, the five saving methods and loading (`Model/Keywords`) | two images have the same header object exactly if they belong to the same family (an invariant of sessions: derived images share the header, C43; images from arrays and files get a fresh one, by `conf_exec` of C121), so the keywords refine a description without references; the files by computation of each method; the false sentences by sessions |
| C123 | the heap and the calls of C40 with variables for arrays and `Image`s over the same store of arrays; reading and replacing `data`, both constructors, `shift`, `rebin` and the operators of `Image`, all operand types (`Model/Classes`) | an invariant of sessions tells which variables can hold which arrays (`Sources`, `OwnArrays`, `OwnBase`); sessions with values by the simulation of C119; single statements by computation; the false sentences by sessions |
| C124 | `prepare` and `calculateDemodulationTensor` (`Model/Prepare`), `getMalusNormalization` | relation between the two runs through every step, errors included; histogram and fit scale with the unit; witnesses for uniform frames and negative signals |
| C125 | the same | prepared data computed from the files (C73), then the locality of the chunks (C33); a hot pixel moves all others into the first bin of the histogram |
| C126 | `prepare` and `calculateDemodulationTensor` (`Model/Prepare`) | relation between the two runs through every step, errors included; binnings compose (C12) |
| C127 | the same | prepared data of the part computed from the files, truncated centre of the occulter, then the locality of the chunks (C33); witness for an occulter outside |
| C128 | sessions (`Model/Object`) | value of a call as a function of the views of its operands; frame of the calls in between; idempotence of the three calls on views; witness for `rotate` |
| C129 | sessions (`Model/Object`), `nrgf` | induction over the list of darks or flats and over the number of corrections, one step being the theorem of C77; Pascal's rule for the weights; mean 0 and deviation 1 of a filtered ring |
| C130 | `calculateChen` | from the closed form of C84: the cleaned superpixels of the two calls are equal, or multiples of each other; violations: an ideal sensor of two superpixels, intensities 1 and 2, flat with one bright pixel |
| C131 | `findOcculterPosition` | the four half profiles of the changed image are those of the image, exchanged or scaled; first jump of a list under scaling and under a larger threshold |
| C132 | `chenWrites`, `chenFolderAfter`, `readChen`, `applyChen` (with the broadcast of the components), `chenSaveUntil` | state of file number m after k actions by induction over the list of writes; reads as loops over four; C27, C69, C84 for the rest |
| C133 | the functions of C17, C35, C36, C08, C09, C13, C14, C24, C26, C37, C38, C69 | closed forms of the results for the image and for the part, compared pixel by pixel |
| C134 | the functions of C17, C35, C36, C03, C08, C09, C13, C14, C24, C26, C37, C38, C69, C70 | closed forms of the results for the image and the exchanged image, compared pixel by pixel; sums exchanged; the third of four numbers does not depend on their order; for the tensor the closed form of C33 and the uniqueness of pseudo-inverses |
| C135 | calculate_demodulation_tensor with its output folder, failing anywhere before the writing, and with DEBUG | cases on where the call fails; C28 for a call that returns |
| C136 | the loop over superpixels with DEBUG, as the list of figures with points and curves | induction over the superpixels of the window |
| C137 | the file operations of any number of savers in one folder, interleaved | the last write under each name decides; the loader of C27 and C28 on the result; C31 for the grids |
| C138 | the call with the disk: reading, calculation, _make_abs_and_create_dir, seventeen writes; applying by name | path lemmas of C71 (components, .., extension); writeMany; C132 for what is read |
| C139 | the call with the disk: making the folder, calculation, twenty-six writes; `glob.glob` with its patterns (`*`, `?`, `[...]`, hidden names) for loading by name | path lemmas of C71 and C138; writeMany; C28 for what is loaded; induction on patterns |
| C140 | the object (name, tensor, flags), a session with `os.chdir` and changes of files, eff/tk/phi/Cij read at access | induction on histories; C139 for the saved files; C28 for the covariance tensor |
| C141 | `angle_dic` from four readings of `phases.fits`, each in its own state of the disk | C30 for the layout; families of pixels of the mixed phases; a concrete schedule refutes the full claim |
| C142 | the phases a calibration stores, `angle_dic` of them | fitted or predicted (C33), means of near values, C30; border of zeros (C31) for the counterexample |

Everything listed is expressible in the model.

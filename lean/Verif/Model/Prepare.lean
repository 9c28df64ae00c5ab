import Verif.Model.Calibration
import Verif.Model.Rebin
import Verif.Model.Roi
import Verif.Model.Folder
import Mathlib.Data.List.Sort
import Mathlib.Data.List.Lex
import Mathlib.Data.Char

/-!
# Model of the first half of `calculate_demodulation_tensor`: from file names to normalised data

Simplifications: pixel values are reals; a division by zero or the square root of a negative number, for which numpy gives NaN or
infinity without an exception, is the outcome `notFinite`; `DEBUG` is false; making the output directory is left to the model of
saving.  `scipy.optimize.curve_fit` is a parameter.  A FITS file is a 2D array.
-/

set_option autoImplicit false

namespace Micropol

noncomputable section

open Classical

/-- What the caller passes as `normalizing_S`: nothing, a number, an image, a stack of images.
Models: processing/demodulation.py:280, :417, :472-486. -/
inductive NormArg where
  | missing
  | number (s : ℝ)
  | image (A : Img ℝ)
  | series (L : List (Img ℝ))

/-- `normalizing_S is None`.
Models: processing/demodulation.py:417. -/
def NormArg.IsNone (s : NormArg) : Prop := s = .missing

/-- Arguments of `calculate_demodulation_tensor` used before the parallel part.  `occulter = none` stands for `None` and for
an empty list.
Models: processing/demodulation.py:269-284. -/
structure CalibArgs where
  orientations : List ℝ
  filenames : List Name
  previsions : Fin 4 → ℝ
  gain : ℝ
  binning : Int
  occulter : Option (ℝ × ℝ × ℝ)
  dark : Option Name
  flat : Option Name
  normS : NormArg
  tkBoundary : Option (Fin 3 → ℝ)
  effBoundary : Option (Fin 3 → ℝ)

/-- `fits.open(name)[0].data` as floats.
Models: processing/demodulation.py:333, :368, :373, :396. -/
def openFits (fs : Name → Option (Img ℝ)) (name : Name) : Py (Img ℝ) :=
  match fs name with
  | none => .error .fileNotFoundError
  | some d => .ok d

/-! ## Sorting the pairs -/

/-- Python's `<=` on pairs of a number and a string.
Models: processing/demodulation.py:326-328. -/
def pairLe (a b : ℝ × Name) : Prop := a.1 < b.1 ∨ (a.1 = b.1 ∧ a.2 ≤ b.2)

/-- `sorted(zip(polarizer_orientations, filenames_list))`: `zip` stops at the shorter list.
Models: processing/demodulation.py:326-328. -/
def sortedPairs (orientations : List ℝ) (filenames : List Name) : List (ℝ × Name) :=
  (orientations.zip filenames).insertionSort pairLe

/-- `np.all(np.isin(l, orientations))`.
Models: processing/demodulation.py:319-320, :421. -/
def allIn (l orientations : List ℝ) : Prop := ∀ a ∈ l, a ∈ orientations

/-- The two sets of reference orientations.
Models: processing/demodulation.py:317. -/
def normMinus : List ℝ := [0, 45, 90, -45]
/-- Models: processing/demodulation.py:317. -/
def normPlus : List ℝ := [0, 45, 90, 135]

/-! ## The occulter -/

/-- `if np.any(flag[y:y+2, x:x+2]): flag[y:y+2, x:x+2] = 1` for one superpixel (slices stop at the border).
Models: processing/demodulation.py:360-362. -/
def flagSuper (F : Img ℝ) (sy sx : Nat) : Img ℝ :=
  if ∃ i j, i < 2 ∧ j < 2 ∧ sy + i < F.h ∧ sx + j < F.w ∧ F.px (sy + i) (sx + j) ≠ 0 then
    Img.ofFn F.h F.w (fun y x => if sy ≤ y ∧ y < sy + 2 ∧ sx ≤ x ∧ x < sx + 2 then 1 else F.px y x)
  else F

/-- The map of occulted pixels for data of the given size.
Models: processing/demodulation.py:341-364. -/
def occulterFlag (h w : Nat) (occulter : Option (ℝ × ℝ × ℝ)) (binning : Int) : Py (Img ℝ) :=
  match occulter with
  | none => .ok (Img.zeros h w)
  | some (oy, ox, r) => do
    let oy' : ℝ := pyInt (oy / binning)
    let ox' : ℝ := pyInt (ox / binning)
    let r' : ℝ := pyInt (r / binning)
    let F ← roiFromPolar (Img.const h w 1) (some (oy', ox')) (some (0, r')) (0, 360) 0 true
    forRange 0 F.h 2 F fun sy F => forRange 0 F.w 2 F fun sx F => .ok (flagSuper F sy.toNat sx.toNat)

/-! ## Reading and correcting the frames -/

/-- An elementwise operation whose result is written over the first operand: the broadcast shape must be the shape of `A`.
Models: numpy's `-=` and `out=` as used by processing/demodulation.py:404, :425, :521, :523. -/
def npInto {α β : Type} [Zero α] [Zero β] (f : α → β → α) (A : Img α) (B : Img β) : Py (Img α) := do
  let R ← npBin f A B
  if R.h = A.h ∧ R.w = A.w then .ok R else .error .valueError

/-- The dark as used by the loop.  `if dark_filename:` skips an empty name, `is not None` does not.
Models: processing/demodulation.py:366-370, :403. -/
def readDark (fs : Name → Option (Img ℝ)) (dark : Option Name) (binning : Int) : Py (Option (Img ℝ)) :=
  match dark with
  | none => .ok none
  | some [] => .ok none
  | some name => do
    let d ← openFits fs name
    let d ← micropolarrayRebin d binning
    pure (some d)

/-- Reading the flat: `np.float` does not exist in the pinned numpy (1.26.4).
Models: processing/demodulation.py:371-374 (an empty name skips it; line 409 then needs `normalized_flat`, which is unbound). -/
def readFlat (fs : Name → Option (Img ℝ)) (flat : Option Name) : Py Unit :=
  match flat with
  | none => .ok ()
  | some [] => .ok ()
  | some name => do
    let _ ← openFits fs name
    .error .attributeError

/-- One turn of the loop over the files.
Models: processing/demodulation.py:395-414. -/
def readFrame (fs : Name → Option (Img ℝ)) (a : CalibArgs) (dark : Option (Img ℝ)) (name : Name) : Py (Img ℝ) := do
  let d ← openFits fs name
  let d ← micropolarrayRebin d a.binning
  let d ← match a.dark with
    | none => pure d
    | some _ =>
      match dark with
      | none => .error .unboundLocalError
      | some dk => do
        let s ← npInto (fun u v : ℝ => u - v) d dk
        pure (s.map (fun v => if v ≥ 0 then v else 0))
  match a.flat with
  | none => pure d
  | some _ => .error .unboundLocalError

/-- `np.array(list of arrays)`: shapes must agree.
Models: processing/demodulation.py:415. -/
def stackFrames (L : List (Img ℝ)) (h w : Nat) : Py (List (Img ℝ)) :=
  if ∀ A ∈ L, A.h = h ∧ A.w = w then .ok L else .error .valueError

/-! ## The automatic normalisation -/

/-- `norm_S_angle_list`: the last of the two sets that is available.
Models: processing/demodulation.py:420-422. -/
def chooseNorm (orientations : List ℝ) : Py (List ℝ) :=
  if allIn normPlus orientations then .ok normPlus
  else if allIn normMinus orientations then .ok normMinus
  else .error .unboundLocalError

/-- `S_max`.
Models: processing/demodulation.py:419, :423-425. -/
def sMax (h w : Nat) (norm : List ℝ) (frames : List (ℝ × Img ℝ)) : Py (Img ℝ) :=
  forList frames (Img.zeros h w) fun f S =>
    if f.1 ∈ norm then npInto (fun u v : ℝ => u + 1 / 2 * v) S f.2 else .ok S

/-- All pixels, row by row.
Models: processing/demodulation.py:428; utils.py:255. -/
def pixelList (A : Img ℝ) : List ℝ := (List.range A.h).flatMap (fun y => (List.range A.w).map (fun x => A.px y x))

/-- Lower and upper end of the histogram.
Models: numpy's `histogram` (`_get_outer_edges`) as used by processing/demodulation.py:428 and utils.py:255. -/
def histRange (l : List ℝ) : ℝ × ℝ :=
  match l with
  | [] => (0, 1)
  | p :: l =>
    let lo := l.foldl min p
    let hi := l.foldl max p
    if lo = hi then (lo - 1 / 2, hi + 1 / 2) else (lo, hi)

/-- The 1001 edges.
Models: numpy's `histogram` as used by processing/demodulation.py:428 and utils.py:255. -/
def histEdge (l : List ℝ) (i : Nat) : ℝ := (histRange l).1 + i * (((histRange l).2 - (histRange l).1) / 1000)

/-- The counts: bins are half open, the last one is closed.
Models: numpy's `histogram` as used by processing/demodulation.py:428 and utils.py:255. -/
def histCount (l : List ℝ) (i : Nat) : Nat :=
  l.countP (fun v => decide (histEdge l i ≤ v ∧ (v < histEdge l (i + 1) ∨ (i = 999 ∧ v ≤ histEdge l (i + 1)))))

/-- `np.where(histo[0] == np.max(histo[0]))[0][0]`: the first of the fullest bins.
Models: processing/demodulation.py:429-430, utils.py:256-257. -/
def peakBin (l : List ℝ) : Nat :=
  ((List.range 1000).find? (fun i => (List.range 1000).all (fun j => decide (histCount l j ≤ histCount l i)))).getD 0

/-- `a[start:stop]` for a list, with Python's treatment of negative numbers.
Models: the slices in processing/demodulation.py:448-449; utils.py:267-268. -/
def pySlice {α : Type} (a : List α) (start stop : Int) : List α :=
  let clip : Int → Nat := fun i => (if i < 0 then max (i + a.length) 0 else min i a.length).toNat
  (a.take (clip stop)).drop (clip start)

/-- Fit of a gaussian: abscissae, ordinates and first guess to the three parameters; `none` = `RuntimeError`.
Models: the call in processing/demodulation.py:462-467. -/
abbrev GaussFit := List ℝ → List ℝ → (Fin 3 → ℝ) → Option (Fin 3 → ℝ)

/-- From the image `S_max` to the normalising signal: a gaussian is fitted to the histogram around its highest bin.  `curve_fit`
raises `ValueError` when the two lists differ in length.
Models: processing/demodulation.py:427-468, utils.py:253-286. -/
def gaussPeak (fit : GaussFit) (S : Img ℝ) : Py ℝ := do
  let l := pixelList S
  let index : Int := peakBin l
  let xs := pySlice ((List.range 1001).map (histEdge l)) (index - 10) (index + 10)
  let ys := pySlice ((List.range 1000).map (fun i => (histCount l i : ℝ))) (index - 10) (index + 10)
  let total := ys.sum
  let ys := ys.map (fun v => v / total)
  let xs := xs.map (fun v => v + (xs.getD 1 0 - xs.getD 0 0) / 2)
  let y0 ← match ys[ys.length / 2]? with
    | some v => pure v
    | none => .error .indexError
  let x0 ← match xs[xs.length / 2]? with
    | some v => pure v
    | none => .error .indexError
  let x1 ← match xs[xs.length / 2 + 5]? with
    | some v => pure v
    | none => .error .indexError
  if xs.length ≠ ys.length then .error .valueError
  else match fit xs ys ![y0, x0, x1 - x0] with
    | none => .error .runtimeError
    | some p => pure (p 1 + 4 * p 2)

/-- `get_malus_normalization(images)` (without the plot, which ends the program).
Models: utils.py:250-286, :307. -/
def getMalusNormalization (fit : GaussFit) (L : List (Img ℝ)) : Py ℝ :=
  match L with
  | [] => .error .indexError
  | A :: L => do
    let L ← stackFrames (A :: L) A.h A.w
    gaussPeak fit (Img.ofFn A.h A.w (fun y x => 1 / 2 * (L.map (fun B => B.px y x)).sum))

/-! ## Normalisation -/

/-- The normalising signal of each of the `n` frames, and `np.where(S >= 0, S, 1)`.  A stack must have `n` images or one.
Models: processing/demodulation.py:417-425, :468-489. -/
def normPlanes (fit : GaussFit) (a : CalibArgs) (orientations : List ℝ) (h w : Nat) (frames : List (Img ℝ)) :
    Py (Nat → Img ℝ) := do
  let planes : Nat → Img ℝ ← match a.normS with
    | .missing => do
      let norm ← chooseNorm orientations
      let S ← sMax h w norm (orientations.zip frames)
      let s ← gaussPeak fit S
      pure (fun _ => Img.const 1 1 s)
    | .number s => pure (fun _ => Img.const h w (s * (a.binning * a.binning)))
    | .image A => do
      let A ← micropolarrayRebin A a.binning
      pure (fun _ => A)
    | .series L => do
      let L ← L.mapM (fun A => micropolarrayRebin A a.binning)
      if L.length = frames.length then pure (fun k => L.getD k (Img.zeros 0 0))
      else if L.length = 1 then pure (fun _ => L.getD 0 (Img.zeros 0 0))
      else .error .valueError
  pure (fun k => (planes k).map (fun v => if v ≥ 0 then v else 1))

/-- `np.divide(frame, S, out=frame)`; a zero would give NaN or infinity.
Models: processing/demodulation.py:521. -/
def normalise (frame S : Img ℝ) : Py (Img ℝ) := do
  let R ← npInto (fun u v : ℝ => u / v) frame S
  if ∃ y x, y < S.h ∧ x < S.w ∧ S.px y x = 0 then .error .notFinite else .ok R

/-- `np.sqrt(np.divide(frame, S * gain))`.
Models: processing/demodulation.py:522-524. -/
def frameError (gain : ℝ) (frame S : Img ℝ) : Py (Img ℝ) := do
  let R ← npInto (fun u v : ℝ => u / (v * gain)) frame S
  if gain = 0 ∨ ∃ y x, y < R.h ∧ x < R.w ∧ R.px y x < 0 then .error .notFinite else .ok (R.map Real.sqrt)

/-- `calculate_demodulation_tensor` up to the point where the data is cut into chunks.
Models: processing/demodulation.py:309-489, :521-524, :591-603. -/
def prepare (fs : Name → Option (Img ℝ)) (fit : GaussFit) (a : CalibArgs) : Py ChunkInput :=
  if a.normS.IsNone ∧ ¬ allIn normMinus a.orientations ∧
      ¬ allIn normPlus a.orientations then .error .valueError
  else match sortedPairs a.orientations a.filenames with
  | [] => .error .valueError
  | p :: ps => do
    let pairs := p :: ps
    let first ← openFits fs p.2
    let first ← micropolarrayRebin first a.binning
    let h := first.h
    let w := first.w
    let occ ← occulterFlag h w a.occulter a.binning
    let dark ← readDark fs a.dark a.binning
    readFlat fs a.flat
    let frames ← pairs.mapM (fun q => readFrame fs a dark q.2)
    let frames ← stackFrames frames h w
    let S ← normPlanes fit a (pairs.map Prod.fst) h w frames
    let data ← (List.range pairs.length).mapM (fun k => normalise (frames.getD k (Img.zeros 0 0)) (S k))
    let errors ← (List.range pairs.length).mapM (fun k => frameError a.gain (data.getD k (Img.zeros 0 0)) (S k))
    pure { n := pairs.length
           height := h
           width := w
           data := fun k => data.getD k.val (Img.zeros 0 0)
           errors := fun k => errors.getD k.val (Img.zeros 0 0)
           occulter := occ
           orientations := fun k => (pairs.map Prod.fst).getD k.val 0
           previsions := fun k => deg2rad (a.previsions k)
           tkBoundary := a.tkBoundary
           effBoundary := a.effBoundary }

/-- `calculate_demodulation_tensor` up to the writing of the files.
Models: processing/demodulation.py:269-711. -/
def calculateDemodulationTensor (fs : Name → Option (Img ℝ)) (fit : GaussFit) (env : CalibEnv) (a : CalibArgs)
    (ny nx : Nat) (schedule : List Nat) : Py CalibMaps := do
  let inp ← prepare fs fit a
  calibrate env inp ny nx schedule

end

end Micropol

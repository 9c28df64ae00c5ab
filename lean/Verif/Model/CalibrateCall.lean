import Verif.Model.Measurement

/-!
# Model of a call of `calculate_demodulation_tensor` with its output folder, also when it fails, and of `DEBUG=True`

Simplifications: those of `Model/Prepare`, `Model/Calibration` and `Model/Folder`.  The parent folders can be made and the files can be
written.  The input files are not in the output folder.  Of a figure only what identifies it, the points and the curves are kept, not
the colours and labels.
-/

set_option autoImplicit false

namespace Micropol

noncomputable section

open Classical

/-- A figure that is shown in debug mode: the superpixel named in its title, the points and the Malus parameters of the four curves.
Models: processing/demodulation.py:926-958. -/
structure FitFigure where
  y : Nat
  x : Nat
  points : Fin 4 → List ℝ
  curves : Fin 4 → Fin 3 → ℝ

/-- The figure of the superpixel at `(y, x)`, with the content of `superpix_params` at that moment.
Models: processing/demodulation.py:927-958. -/
def fitFigure (inp : ChunkInput) (y x : Nat) (loc : FitLocals) : FitFigure where
  y := y
  x := x
  points := fun k => List.ofFn (fun p => superPx (inp.data p) y x k)
  curves := loc.params

/-- The window that is fitted in debug mode, row by row.
Models: processing/demodulation.py:852-858, :872, :875. -/
def debugWindow : List (Int × Int) :=
  (pyRange 100 150 2).flatMap (fun y => (pyRange 100 150 2).map (fun x => (y, x)))

/-- The loop over the superpixels in debug mode: the figures that are shown and the result.  A superpixel below the occulter has no
figure.  `np.arange(min, max, (max - min) / 100)` raises `ValueError` when all orientations are the same.
Models: processing/demodulation.py:872-1057 with `DEBUG=True`. -/
def debugLoop (env : CalibEnv) (inp : ChunkInput) : List (Int × Int) → ChunkState → List FitFigure × Py ChunkState
  | [], st => ([], .ok st)
  | (y, x) :: rest, st =>
    match superpixelBody env inp y x st with
    | .error e => ([], .error e)
    | .ok st' =>
      if ∃ k, superPx inp.occulter y.toNat x.toNat k ≠ 0 then debugLoop env inp rest st'
      else if ∀ p q, inp.orientations p = inp.orientations q then ([], .error .valueError)
      else
        let r := debugLoop env inp rest st'
        (fitFigure inp y.toNat x.toNat st'.locals :: r.1, r.2)

/-- The parallel part in debug mode: one chunk, whatever the grid.  The maps are put together but not used.
Models: processing/demodulation.py:491-711 with `DEBUG=True`. -/
def calibrateDebug (env : CalibEnv) (inp : ChunkInput) : List FitFigure × Py ChunkState :=
  if inp.width % 2 ≠ 0 ∨ inp.height % 2 ≠ 0 then ([], .error .valueError)
  else debugLoop env inp debugWindow inp.initState

/-- What there is at `output_dir`.
Models: processing/demodulation.py:311-313. -/
inductive OutputDir where
  | missing
  | file
  | folder (f : CalibFolder ℝ)

/-- How the call ends.
Models: processing/demodulation.py:313 (`FileExistsError`), :713-715 (`sys.exit()`), :758. -/
inductive CallEnd where
  | returned
  | raised (e : PyErr)
  | fileExists
  | exited
  deriving DecidableEq

/-- The outcome of the call: the output folder, how it ended, the figures that were shown.
Models: processing/demodulation.py:269-758. -/
structure CallResult where
  dir : OutputDir
  ending : CallEnd
  figures : List FitFigure

/-- The folder after lines 311-313, `none` if they raise.
Models: processing/demodulation.py:311-313. -/
def OutputDir.make : OutputDir → Option (CalibFolder ℝ)
  | .missing => some ⟨[], none⟩
  | .file => none
  | .folder f => some f

/-- `calculate_demodulation_tensor(...)`.
Models: processing/demodulation.py:269-758. -/
def calibrationCall (fs : Name → Option (Img ℝ)) (fit : GaussFit) (env : CalibEnv) (a : CalibArgs) (ny nx : Nat) (schedule : List Nat)
    (debug : Bool) (d : OutputDir) : CallResult :=
  match d.make with
  | none => ⟨d, .fileExists, []⟩
  | some f =>
    match debug with
    | false =>
      match calculateDemodulationTensor fs fit env a ny nx schedule with
      | .error e => ⟨.folder f, .raised e, []⟩
      | .ok maps => ⟨.folder (saveCalibration maps.output f), .returned, []⟩
    | true =>
      match prepare fs fit a with
      | .error e => ⟨.folder f, .raised e, []⟩
      | .ok inp =>
        match (calibrateDebug env inp).2 with
        | .error e => ⟨.folder f, .raised e, (calibrateDebug env inp).1⟩
        | .ok _ => ⟨.folder f, .exited, (calibrateDebug env inp).1⟩

end

end Micropol

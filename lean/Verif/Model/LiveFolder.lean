import Verif.Model.Folder

/-!
# Model of a calibration folder that is loaded while calibrations are saved to it

One program saves calibrations to a folder, one after the other; another one constructs a `Demodulator` from the same folder.  Between
two accesses of the loading program the saving program may do any number of actions.

Simplifications: those of `Model/Folder`, except that files may be incomplete.  `hdu.writeto(name, overwrite=True)` is three actions: the
old file is removed, an incomplete file appears, the file is complete.  Listing the folder is one action, and so is reading a file
(astropy removes a file before writing it again, so that a file that is open keeps its contents).  An incomplete file cannot be opened
(astropy: `OSError`; here `FileNotFoundError`).  The actions on the subfolder `covariance_tensor` are left out: the constructor does
not look into it.
-/

set_option autoImplicit false

namespace Micropol

section
variable {K : Type} [Field K]

/-- A file while others are writing.
Models: processing/demodulation.py:725, :754. -/
inductive LiveFile (K : Type) [Zero K] where
  | incomplete
  | complete (d : Img K)

/-- The files of the folder by name; `none` if there is no such file.
Models: processing/demodulation.py:152, :725, :754. -/
abbrev LiveFolder (K : Type) [Zero K] := Name → Option (LiveFile K)

/-- One action of the program that saves.
Models: processing/demodulation.py:725, :754. -/
inductive FolderAct (K : Type) [Zero K] where
  | remove (n : Name)
  | create (n : Name)
  | finish (n : Name) (d : Img K)

/-- What the action does.
Models: processing/demodulation.py:725, :754. -/
def FolderAct.run (f : LiveFolder K) : FolderAct K → LiveFolder K
  | .remove n => fun q => if q = n then none else f q
  | .create n => fun q => if q = n then some .incomplete else f q
  | .finish n d => fun q => if q = n then some (.complete d) else f q

/-- The actions of one `writeto` (of the operations on the subfolder there are none to be seen).
Models: processing/demodulation.py:725, :754. -/
def FileOp.acts : FileOp K → List (FolderAct K)
  | .top n d => [.remove n, .create n, .finish n d]
  | .mkCov => []
  | .cov _ _ => []

/-- All actions at the end of `calculate_demodulation_tensor`.
Models: processing/demodulation.py:721-755. -/
def calibActs (o : CalibOutput K) : List (FolderAct K) := (saveOps o).flatMap FileOp.acts

/-- The folder after the first `k` actions of a program that saves the calibrations `os` one after the other.
Models: processing/demodulation.py:721-755, stopped anywhere. -/
def folderAfter (f : LiveFolder K) (os : List (CalibOutput K)) (k : Nat) : LiveFolder K :=
  ((os.flatMap calibActs).take k).foldl FolderAct.run f

/-- `fits.open(name)` and reading the data.
Models: processing/demodulation.py:158-159, :182-183, :185-186. -/
def readLive (f : LiveFolder K) (n : Name) : Py (Img K) :=
  match f n with
  | some (.complete d) => .ok d
  | _ => .error .fileNotFoundError

/-- One turn of the loading loop; only numbered files and the flags are opened.
Models: processing/demodulation.py:173-186. -/
def liveBody (h w : Nat) (f : LiveFolder K) (n : Name) (st : LoadState K 3 4) : Py (LoadState K 3 4) :=
  if (twoDigits n).isSome ∨ n = flagName then readLive f n >>= fun d => loadBody 3 4 h w (n, d) st
  else .ok st

/-- The loading loop; `f m` is the folder when the `m`-th name is looked at.
Models: processing/demodulation.py:173-186. -/
def liveLoop (h w : Nat) (f : Nat → LiveFolder K) : List Name → LoadState K 3 4 → Py (LoadState K 3 4)
  | [], st => .ok st
  | n :: rest, st => liveBody h w (f 0) n st >>= fun st1 => liveLoop h w (fun m => f (m + 1)) rest st1

/-- `Demodulator(path)` of an existing folder: `names` is what `glob` returned; `f 0` is the folder when the sample is read, `f (m + 1)`
when the `m`-th name is looked at.
Models: processing/demodulation.py:148-193. -/
def loadLive (names : List Name) (f : Nat → LiveFolder K) : Py (Demodulator K) :=
  if names.isEmpty then .error .fileNotFoundError
  else match names.find? (fun n => (twoDigits n).isSome) with
    | none => .error .unboundLocalError
    | some n => do
      let sample ← readLive (f 0) n
      let st ← liveLoop sample.h sample.w (fun m => f (m + 1)) names ⟨fun _ _ => Img.zeros sample.h sample.w, none, 0⟩
      if st.found ≠ 12 then .error .valueError
      else .ok ⟨st.tensor, st.flags⟩

end

end Micropol

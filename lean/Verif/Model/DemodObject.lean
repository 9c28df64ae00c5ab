import Verif.Model.Glob

/-!
# Model of a `Demodulator` object in a session

The tensor and the flags are read when the object is made; `eff`, `tk`, `phi` and `Cij` are read from the disk at every access, by the
name that was given, in the current directory of that moment.

Simplifications: those of `Model/Glob`; there are no directories in the subfolder `covariance_tensor`; a file that is not there and one
that is not complete give the same error.
-/

set_option autoImplicit false

namespace Micropol

noncomputable section

/-- The current directory and the disk.
Models: the state that processing/demodulation.py:43-103 reads. -/
structure DiskState where
  cwd : List Name
  fs : FileSystem

/-- What may happen between two accesses: `os.chdir`, or a file gets a new content or is removed, by this or another program.
Models: the state that processing/demodulation.py:43-103 reads. -/
inductive DiskStep where
  | chdir (cwd : List Name)
  | change (path : Name) (content : Option Content)

open Classical in
/-- Models: the state that processing/demodulation.py:43-103 reads. -/
def DiskState.step (s : DiskState) : DiskStep → DiskState
  | .chdir cwd => { s with cwd := cwd }
  | .change p c => { s with fs := { s.fs with file := fun q => if q = p then c else s.fs.file q } }

/-- Models: the state that processing/demodulation.py:43-103 reads. -/
def DiskState.after (s : DiskState) (l : List DiskStep) : DiskState := l.foldl DiskState.step s

/-- A `Demodulator`: the name of its folder, and what was read when it was made.
Models: processing/demodulation.py:36-41. -/
structure DemodObject where
  path : Name
  tensor : Demodulator ℝ

/-- `Demodulator(path)` when `glob` gives the listing `L`.
Models: processing/demodulation.py:36-41. -/
def DiskState.demodulator (s : DiskState) (path : Name) (L : Listing ℝ) : Py DemodObject := do
  let t ← demodulatorAt s.cwd s.fs path L
  .ok ⟨path, t⟩

/-- `fits.open(os.path.join(path, name))[0].data`.
Models: processing/demodulation.py:81-103. -/
def DemodObject.readMap (d : DemodObject) (s : DiskState) (name : Name) : Py (Img ℝ) := readLive (s.fs.folderAt s.cwd d.path) name

/-- Models: processing/demodulation.py:81-87. -/
def DemodObject.eff (d : DemodObject) (s : DiskState) : Py (Img ℝ) := d.readMap s "efficiences.fits".toList

/-- Models: processing/demodulation.py:89-95. -/
def DemodObject.tk (d : DemodObject) (s : DiskState) : Py (Img ℝ) := d.readMap s "transmittancies.fits".toList

/-- Models: processing/demodulation.py:97-103. -/
def DemodObject.phi (d : DemodObject) (s : DiskState) : Py (Img ℝ) := d.readMap s "phases.fits".toList

/-- `L` is a listing that `glob.glob(os.path.join(path, "covariance_tensor", "*"))` may give.
Models: processing/demodulation.py:45-47. -/
def IsCovListing (cwd : List Name) (fs : FileSystem) (dir : Name) (L : Listing ℝ) : Prop :=
  ∃ P : List (List Name × Name), P.Nodup ∧
    (∀ q n, (q, n) ∈ P ↔ GlobFolder (dir ++ '/' :: covFolder) q ∧ (∀ x ∈ q, x ≠ [] ∧ x ≠ ['.'] ∧ '/' ∉ x) ∧ '/' ∉ n ∧ n ≠ [] ∧
      n.head? ≠ some '.' ∧ fs.file (globPath cwd (dir ++ '/' :: covFolder) q n) ≠ none) ∧
    List.Forall₂ (fun (qn : List Name × Name) (e : Name × Img ℝ) =>
      e.1 = qn.2 ∧ fs.file (globPath cwd (dir ++ '/' :: covFolder) qn.1 qn.2) = some (.fits e.2)) P L

/-- `Cij` when `glob` gives the listing `L`.
Models: processing/demodulation.py:43-79. -/
def DemodObject.Cij (_ : DemodObject) (L : Listing ℝ) : Py (Option (Fin 3 → Fin 3 → Img ℝ)) := loadCovariance (some L)

end

end Micropol

import Verif.Model.Load
import Verif.Model.Save
import Verif.Model.Object

/-!
# Model of programs that save and load images

A session of image operations (`Verif/Model/Object.lean`) with a disk: images are written with `save_as_fits` and read with
`MicropolImage(filenames)`; the program may end, or die at any moment of a save, and be started again.

Simplifications: besides those of `Model/Load`, `Model/Save` and `Model/Object`, the headers on the disk are not stored.  Instead a
load finds arbitrary date keywords (`dates`), which are the only ones that it interprets.  The current directory is the same for all
programs.  A file that is not a complete FITS file cannot be opened (astropy: `OSError`; here `FileNotFoundError`).
-/

set_option autoImplicit false

namespace Micropol

noncomputable section

/-- The date keywords that `fits.open` finds in the header of the file with a name.
Models: image.py:72-83. -/
abbrev FoundDates := Name → Option Name × Option Name

/-- `fits.open(name)`: the primary HDU of the file; relative names belong to the current directory.
Models: image.py:53-58. -/
def fitsOpen (cwd : List Name) (fs : FileSystem) (dates : FoundDates) (name : Name) : Option FitsFile :=
  match fs.file (abspath cwd name) with
  | some (.fits d) => some ⟨some d, (dates name).1, (dates name).2⟩
  | _ => none

/-- The memory of the running program, and the disk.
Models: a program with calls of micropol_image.py:74-1080 and image.py:178-208. -/
structure Program where
  mem : State
  files : FileSystem

/-- What happens: a call of the session; `save_as_fits` on the image in variable `i`; the constructor with file names; the end of the
program and the start of the next one; a program that dies in a save, in its `moment`-th state.
Models: micropol_image.py:74-1080; image.py:178-208. -/
inductive DiskOp where
  | call (o : Op)
  | save (i : Nat) (name : Name) (fixto : Option (ℝ × ℝ))
  | load (arg : LoadArg) (dic : Option AngleDic) (dark flat : Option Nat) (average : Bool) (dates : FoundDates) (junk : Nat → Nat → ℝ)
  | restart
  | crash (i : Nat) (name : Name) (fixto : Option (ℝ × ℝ)) (moment : Nat)

/-- The states of the disk during `images[i].save_as_fits(name, fixto)`.
Models: image.py:178-208. -/
def saving (cwd : List Name) (p : Program) (i : Nat) (name : Name) (fixto : Option (ℝ × ℝ)) : Trace :=
  match p.mem.images[i]? with
  | none => ⟨.error .nameError, [p.files]⟩
  | some k => saveAsFits cwd p.files (p.mem.heap.dataOf k) fixto name

/-- `MicropolImage(filenames, angle_dic, dark, flat, averageimages)`: the dictionary is chosen first, also if the files cannot be
loaded; with the pixels of the files all goes on as for an array.
Models: micropol_image.py:74-112; image.py:26-33. -/
def loadObj (cwd : List Name) (c : Clock) (p : Program) (arg : LoadArg) (dic : Option AngleDic) (dark flat : Option Nat) (average : Bool)
    (dates : FoundDates) (junk : Nat → Nat → ℝ) : State :=
  match loadImage (fitsOpen cwd p.files dates) c arg average with
  | .ok r => step p.mem (.fromArray r.data dic dark flat junk)
  | .error _ => ⟨(resolveDic dic p.mem.heap).2, p.mem.images⟩

/-- One event.
Models: micropol_image.py:74-1080; image.py:178-208. -/
def diskStep (cwd : List Name) (c : Clock) (p : Program) : DiskOp → Program
  | .call o => ⟨step p.mem o, p.files⟩
  | .save i name fixto => ⟨p.mem, ((saving cwd p i name fixto).states.getLast?).getD p.files⟩
  | .load arg dic dark flat average dates junk => ⟨loadObj cwd c p arg dic dark flat average dates junk, p.files⟩
  | .restart => ⟨initState, p.files⟩
  | .crash i name fixto moment => ⟨initState, ((saving cwd p i name fixto).states[moment]?).getD p.files⟩

/-- A whole history of programs, starting with the disk `fs`.
Models: micropol_image.py:74-1080; image.py:178-208. -/
def diskRun (cwd : List Name) (c : Clock) (fs : FileSystem) (ops : List DiskOp) : Program :=
  ops.foldl (diskStep cwd c) ⟨initState, fs⟩

end

end Micropol

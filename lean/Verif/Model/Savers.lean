import Verif.Model.Save

/-!
# Model of programs that save at the same time

The saving methods of `Verif/Model/Save.lean`, cut into the single actions on the disk, so that several programs (or threads) can
take turns.  That a call which is not interrupted by others does what `Verif/Model/Save.lean` says is proved (`C105_alone`).

Simplifications: those of `Model/Save`; `mkdir(parents=True)` makes the missing directories from the top, one per action (pathlib
tries the last one first, goes up and comes down again; the failed attempts change nothing; the root is its own parent); writing a FITS file is three actions
(the old file is removed, an incomplete file appears, the file is complete).
-/

set_option autoImplicit false

namespace Micropol

noncomputable section

/-- A call of one of the saving methods, with what it uses of the image.
Models: micropol_image.py:649-801; image.py:178-208. -/
inductive SaveCall where
  | singlePol (data : Img ℝ) (dic : AngleDic) (fixto : Option (ℝ × ℝ)) (filename : Name)
  | param (S : Fin 3 → Img ℝ) (id : Name) (fixto : Option (ℝ × ℝ)) (filename : Name)
  | allParams (S : Fin 3 → Img ℝ) (filename : Name)
  | demosaiced (images : Option (Fin 4 → Img ℝ)) (entries : List (Int × Int)) (fixto : Option (ℝ × ℝ)) (filename : Name)
  | asFits (data : Img ℝ) (fixto : Option (ℝ × ℝ)) (filename : Name)

/-- The call when no other program is running.
Models: micropol_image.py:649-801; image.py:178-208. -/
def SaveCall.alone (cwd : List Name) (fs : FileSystem) : SaveCall → Trace
  | .singlePol data dic fixto filename => saveSinglePol cwd fs data dic fixto filename
  | .param S id fixto filename => saveParam cwd fs S id fixto filename
  | .allParams S filename => saveAllParams cwd fs S filename
  | .demosaiced images entries fixto filename => saveDemosaiced cwd fs images entries fixto filename
  | .asFits data fixto filename => saveAsFits cwd fs data fixto filename

/-- One action on the disk: `if not exists()` (which skips the following actions if the path exists), `os.mkdir`, an exception, and
the three actions of writing a file.
Models: utils.py:41-45; image.py:195, :207; micropol_image.py:684, :732, :763, :800. -/
inductive Act where
  | look (l : List Name) (skip : Nat)
  | mkdir (l : List Name) (existOk : Bool)
  | raise (e : PyErr)
  | clear (dir p : Name)
  | create (p : Name)
  | finish (p : Name) (d : Img ℝ)

open Classical in
/-- What an action does to the disk, and what the program has to do afterwards; `rest` is what comes after the action.
Models: utils.py:41-45; image.py:195, :207; micropol_image.py:684, :732, :763, :800. -/
def Act.run (fs : FileSystem) (rest : List Act) : Act → FileSystem × Py (List Act)
  | .look l skip => (fs, .ok (if fs.there (pathString l) then rest.drop skip else rest))
  | .mkdir l existOk =>
    if fs.file (pathString l) ≠ none ∨ (fs.dir (pathString l) ∧ existOk = false) ∨ ¬ fs.dir (pathString l.dropLast) then
      (fs, .error .fileNotFoundError)
    else ({ fs with dir := fun q => fs.dir q ∨ q = pathString l }, .ok rest)
  | .raise e => (fs, .error e)
  | .clear dir p => if fs.dir dir then (fs.put p none, .ok rest) else (fs, .error .fileNotFoundError)
  | .create p => (fs.put p (some .incomplete), .ok rest)
  | .finish p d => (fs.put p (some (.fits d)), .ok rest)

/-- `Path(p).mkdir(parents=True, exist_ok=existOk)`: the directories above may exist.
Models: utils.py:42; image.py:195. -/
def mkdirActs (l : List Name) (existOk : Bool) : List Act := l.inits.map (fun a => .mkdir a (existOk || decide (a.length < l.length)))

/-- `_make_abs_and_create_dir(filename)`.
Models: utils.py:34-46. -/
def makeDirActs (cwd : List Name) (filename : Name) : List Act :=
  let path := absComponents cwd filename
  if pathSuffix (pathString path) ≠ [] then
    let l := resolveDots path.dropLast
    .look l (mkdirActs l false).length :: mkdirActs l false
  else [.look (resolveDots path) 1, .mkdir (resolveDots path) false]

/-- Several calls of `hdu.writeto(name, overwrite=True)`.
Models: micropol_image.py:684, :732, :763, :800; image.py:207. -/
def writeActs (l : List (Name × Img ℝ)) : List Act :=
  l.flatMap (fun f => [.clear (dirName [] f.1) (abspath [] f.1), .create (abspath [] f.1), .finish (abspath [] f.1) f.2])

/-- The end of a function: an exception or nothing.
Models: micropol_image.py:787. -/
def endActs : Py Unit → List Act
  | .error e => [.raise e]
  | .ok _ => []

/-- The actions of a call.
Models: micropol_image.py:649-801; image.py:178-208. -/
def SaveCall.acts (cwd : List Name) : SaveCall → List Act
  | .singlePol data dic fixto filename =>
    match (do
        let p0 ← polFamily data dic 0
        let p45 ← polFamily data dic 45
        let p90 ← polFamily data dic 90
        let pm45 ← polFamily data dic (-45)
        pure [(['0'], p0), (['4', '5'], p45), (['9', '0'], p90), (['-', '4', '5'], pm45)] : Py (List (Name × Img ℝ))) with
    | .error e => [.raise e]
    | .ok pols =>
      let path := absComponents cwd filename
      makeDirActs cwd filename ++
        if pathSuffix (pathString path) ≠ fitsExt then [.raise .valueError]
        else writeActs (pols.map (fun p => (groupName path ++ ['P', 'O', 'L'] ++ p.1 ++ fitsExt, fixTo fixto p.2)))
  | .param S id fixto filename =>
    match getParam S id with
    | .error e => [.raise e]
    | .ok d =>
      let path := absComponents cwd filename
      makeDirActs cwd filename ++
        if pathSuffix (pathString path) ≠ fitsExt then [.raise .valueError]
        else writeActs [(pathString (path.dropLast ++ [pathStem path ++ ['_'] ++ id ++ fitsExt]), fixTo fixto d)]
  | .allParams S filename =>
    if pathSuffix filename ≠ fitsExt then [.raise .valueError]
    else
      makeDirActs cwd filename ++
        match polparamList S with
        | .error e => [.raise e]
        | .ok params => writeActs (params.map (fun p => (groupName (absComponents cwd filename) ++ ['_'] ++ p.1 ++ fitsExt, p.2)))
  | .demosaiced images entries fixto filename =>
    match images with
    | none => [.raise .valueError]
    | some im =>
      if pathSuffix filename = [] then [.raise .valueError]
      else
        let r := demosaicedFiles entries (groupName (absComponents cwd filename)) fixto 0 [im 0, im 1, im 2, im 3]
        makeDirActs cwd filename ++ (writeActs r.1 ++ endActs r.2)
  | .asFits data fixto filename =>
    if pathSuffix filename ≠ fitsExt then [.raise .valueError]
    else
      mkdirActs (resolveDots (absComponents cwd filename).dropLast) true ++
        writeActs [(absoluteName cwd filename, fixTo fixto data)]

/-- A program: what it still has to do (nothing: it has ended), or the exception that ended it.
Models: a run of micropol_image.py:649-801 or image.py:178-208. -/
abbrev Proc := Py (List Act)

/-- The next action of a program.
Models: a run of micropol_image.py:649-801 or image.py:178-208. -/
def stepProc (fs : FileSystem) : Proc → FileSystem × Proc
  | .ok (a :: rest) => a.run fs rest
  | p => (fs, p)

/-- The disk and the programs.
Models: several runs of micropol_image.py:649-801 and image.py:178-208. -/
structure Savers (n : Nat) where
  disk : FileSystem
  proc : Fin n → Proc

/-- It is the turn of program `j`.
Models: several runs of micropol_image.py:649-801 and image.py:178-208. -/
def turn {n : Nat} (s : Savers n) (j : Fin n) : Savers n :=
  ⟨(stepProc s.disk (s.proc j)).1, Function.update s.proc j (stepProc s.disk (s.proc j)).2⟩

/-- The programs take turns in the order of the schedule.
Models: several runs of micropol_image.py:649-801 and image.py:178-208. -/
def runSavers {n : Nat} (cwd : List Name) (fs : FileSystem) (calls : Fin n → SaveCall) (sched : List (Fin n)) : Savers n :=
  sched.foldl turn ⟨fs, fun j => .ok ((calls j).acts cwd)⟩

end

end Micropol

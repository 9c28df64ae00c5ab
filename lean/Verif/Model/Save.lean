import Verif.Model.Convert
import Verif.Model.Stokes
import Verif.Model.PolFunctions
import Verif.Model.Utils

/-!
# Model of the methods that save images as FITS files

Simplifications: the headers of the written files are not modelled here (see `Model/Keywords`); `..` in a path is resolved by the text of the path (no
symbolic links); writing onto a directory is not modelled; all the failures of the operating system are reported as
`FileNotFoundError` (Python: `FileNotFoundError`, `FileExistsError`, `NotADirectoryError`, all of them `OSError`).
-/

set_option autoImplicit false

namespace Micropol

noncomputable section

/-- `Path(p).exists()`.
Models: utils.py:41, :44. -/
def FileSystem.there (fs : FileSystem) (p : Name) : Prop := fs.dir p ∨ fs.file p ≠ none

open Classical in
/-- `Path(p).mkdir(parents=True)` for a directory given by its components: it and all the directories above it are made; fails
if one of them is a file.
Models: utils.py:42; image.py:195. -/
def FileSystem.mkParents (fs : FileSystem) (l : List Name) : Py FileSystem :=
  if ∃ a, a <+: l ∧ fs.file (pathString a) ≠ none then .error .fileNotFoundError
  else .ok { fs with dir := fun q => fs.dir q ∨ ∃ a, a <+: l ∧ q = pathString a }

open Classical in
/-- `Path(p).mkdir()`: the directory above must exist.
Models: utils.py:45. -/
def FileSystem.mkOne (fs : FileSystem) (l : List Name) : Py FileSystem :=
  if fs.dir (pathString l.dropLast) then .ok { fs with dir := fun q => fs.dir q ∨ q = pathString l }
  else .error .fileNotFoundError

open Classical in
/-- `_make_abs_and_create_dir(filename)`: the components of the absolute path, and the new state of the files.
Models: utils.py:34-46. -/
def makeAbsAndCreateDir (cwd : List Name) (fs : FileSystem) (filename : Name) : Py (List Name × FileSystem) :=
  let path := absComponents cwd filename
  if pathSuffix (pathString path) ≠ [] then
    if fs.there (pathString (resolveDots path.dropLast)) then .ok (path, fs)
    else do
      let fs' ← fs.mkParents (resolveDots path.dropLast)
      pure (path, fs')
  else
    if fs.there (pathString (resolveDots path)) then .ok (path, fs)
    else do
      let fs' ← fs.mkOne (resolveDots path)
      pure (path, fs')

/-- `Path(p).stem` for a path given by its components.
Models: micropol_image.py:665, :722, :747, :785. -/
def pathStem (path : List Name) : Name :=
  let name := (path.getLast?).getD []
  name.take (name.length - (pathSuffix (pathString path)).length)

/-- `str(filepath.joinpath(filepath.parent, filepath.stem))`: the absolute `parent` replaces `filepath`, and a stem `.` adds
nothing.
Models: micropol_image.py:665, :747, :785. -/
def groupName (path : List Name) : Name := pathString (path.dropLast ++ components (pathStem path))

/-- Several calls of `hdu.writeto(name, overwrite=True)`, one after the other.
Models: micropol_image.py:684, :763, :800. -/
def writeMany (fs : FileSystem) : List (Name × Img ℝ) → Trace
  | [] => ⟨.ok (), [fs]⟩
  | (p, d) :: l =>
    match writeFits fs (dirName [] p) (abspath [] p) d with
    | .error e => ⟨.error e, [fs]⟩
    | .ok steps =>
      let t := writeMany (fs.put (abspath [] p) (some (.fits d))) l
      ⟨t.result, fs :: steps.dropLast ++ t.states⟩

/-- `fix_data(data, *fixto) if fixto else data`.
Models: micropol_image.py:669-672, :710-713, :789-792; image.py:197-200. -/
def fixTo (fixto : Option (ℝ × ℝ)) (d : Img ℝ) : Img ℝ :=
  match fixto with
  | none => d
  | some (a, b) => fixData d a b

/-- `image.save_single_pol_images(filename, fixto)` for the image with the given data and orientations.
Models: micropol_image.py:649-685. -/
def saveSinglePol (cwd : List Name) (fs : FileSystem) (data : Img ℝ) (dic : AngleDic) (fixto : Option (ℝ × ℝ)) (filename : Name) : Trace :=
  match (do
      let p0 ← polFamily data dic 0
      let p45 ← polFamily data dic 45
      let p90 ← polFamily data dic 90
      let pm45 ← polFamily data dic (-45)
      pure [(['0'], p0), (['4', '5'], p45), (['9', '0'], p90), (['-', '4', '5'], pm45)] : Py (List (Name × Img ℝ))) with
  | .error e => ⟨.error e, [fs]⟩
  | .ok pols =>
    match makeAbsAndCreateDir cwd fs filename with
    | .error e => ⟨.error e, [fs]⟩
    | .ok (path, fs') =>
      if pathSuffix (pathString path) ≠ fitsExt then ⟨.error .valueError, [fs, fs']⟩
      else
        let t := writeMany fs' (pols.map (fun p => (groupName path ++ ['P', 'O', 'L'] ++ p.1 ++ fitsExt, fixTo fixto p.2)))
        ⟨t.result, fs :: t.states⟩

/-- The six parameters of an image with the given Stokes maps, with their identifiers.
Models: micropol_image.py:139-183. -/
def polparamList (S : Fin 3 → Img ℝ) : Py (List (Name × Img ℝ)) := do
  let dolp ← DoLP S
  pure [(['I'], S 0), (['Q'], S 1), (['U'], S 2), (['p', 'B'], pB S), (['A', 'o', 'L', 'P'], AoLP S), (['D', 'o', 'L', 'P'], dolp)]

/-- `getattr(image, polparam)` for the six parameters; another name raises `AttributeError` (further attributes of the image,
such as `pol0`, are not modelled here).
Models: micropol_image.py:139-179, :703. -/
def getParam (S : Fin 3 → Img ℝ) (param : Name) : Py (Img ℝ) :=
  if param = ['I'] then .ok (S 0)
  else if param = ['Q'] then .ok (S 1)
  else if param = ['U'] then .ok (S 2)
  else if param = ['p', 'B'] then .ok (pB S)
  else if param = ['A', 'o', 'L', 'P'] then .ok (AoLP S)
  else if param = ['D', 'o', 'L', 'P'] then DoLP S
  else .error .attributeError

/-- `image.save_param_as_fits(polparam, filename, fixto)`; the identifier of a parameter is its name.
Models: micropol_image.py:687-732. -/
def saveParam (cwd : List Name) (fs : FileSystem) (S : Fin 3 → Img ℝ) (param : Name) (fixto : Option (ℝ × ℝ)) (filename : Name) : Trace :=
  match getParam S param with
  | .error e => ⟨.error e, [fs]⟩
  | .ok d =>
    match makeAbsAndCreateDir cwd fs filename with
    | .error e => ⟨.error e, [fs]⟩
    | .ok (path, fs') =>
      if pathSuffix (pathString path) ≠ fitsExt then ⟨.error .valueError, [fs, fs']⟩
      else
        let t := writeMany fs' [(pathString (path.dropLast ++ [pathStem path ++ ['_'] ++ param ++ fitsExt]), fixTo fixto d)]
        ⟨t.result, fs :: t.states⟩

/-- `image.save_all_pol_params_as_fits(filename)`; `fix_data` of the six parameters is false.
Models: micropol_image.py:734-764. -/
def saveAllParams (cwd : List Name) (fs : FileSystem) (S : Fin 3 → Img ℝ) (filename : Name) : Trace :=
  if pathSuffix filename ≠ fitsExt then ⟨.error .valueError, [fs]⟩
  else match makeAbsAndCreateDir cwd fs filename with
    | .error e => ⟨.error e, [fs]⟩
    | .ok (path, fs') =>
      match polparamList S with
      | .error e => ⟨.error e, [fs, fs']⟩
      | .ok params =>
        let t := writeMany fs' (params.map (fun p => (groupName path ++ ['_'] ++ p.1 ++ fitsExt, p.2)))
        ⟨t.result, fs :: t.states⟩

/-- Decimal digits of a number: `str(n)`.
Models: micropol_image.py:799. -/
def natStr (n : Nat) : Name := if n = 0 then ['0'] else ((Nat.digits 10 n).reverse).map Nat.digitChar

/-- `str(k)`.
Models: micropol_image.py:799. -/
def intStr (k : Int) : Name := if k < 0 then '-' :: natStr k.natAbs else natStr k.natAbs

/-- The name of the position `i`: the first key of the dictionary (in its order) with the value `i`.
Models: micropol_image.py:787. -/
def polId (entries : List (Int × Int)) (i : Int) : Py Int :=
  match entries.find? (fun e => e.2 == i) with
  | some e => .ok e.1
  | none => .error .valueError

/-- The writes of `save_demosaiced_images_as_fits` from position `i` on, up to the first position without a name.
Models: micropol_image.py:786-800. -/
def demosaicedFiles (entries : List (Int × Int)) (group : Name) (fixto : Option (ℝ × ℝ)) : Int → List (Img ℝ) → List (Name × Img ℝ) × Py Unit
  | _, [] => ([], .ok ())
  | i, d :: l =>
    match polId entries i with
    | .error e => ([], .error e)
    | .ok a =>
      let r := demosaicedFiles entries group fixto (i + 1) l
      ((group ++ ['_', 'P', 'O', 'L'] ++ intStr a ++ fitsExt, fixTo fixto d) :: r.1, r.2)

/-- `image.save_demosaiced_images_as_fits(filename, fixto)`; `images` is `none` for an image that is not demosaiced, `entries`
are the entries of `angle_dic`.
Models: micropol_image.py:766-801. -/
def saveDemosaiced (cwd : List Name) (fs : FileSystem) (images : Option (Fin 4 → Img ℝ)) (entries : List (Int × Int))
    (fixto : Option (ℝ × ℝ)) (filename : Name) : Trace :=
  match images with
  | none => ⟨.error .valueError, [fs]⟩
  | some im =>
    if pathSuffix filename = [] then ⟨.error .valueError, [fs]⟩
    else match makeAbsAndCreateDir cwd fs filename with
      | .error e => ⟨.error e, [fs]⟩
      | .ok (path, fs') =>
        let r := demosaicedFiles entries (groupName path) fixto 0 [im 0, im 1, im 2, im 3]
        let t := writeMany fs' r.1
        ⟨t.result >>= fun _ => r.2, fs :: t.states⟩

/-- `image.save_as_fits(filename, fixto)`; `mkdir(parents=True, exist_ok=True)` fails if a file is in the way.
Models: image.py:178-208. -/
def saveAsFits (cwd : List Name) (fs : FileSystem) (data : Img ℝ) (fixto : Option (ℝ × ℝ)) (filename : Name) : Trace :=
  if pathSuffix filename ≠ fitsExt then ⟨.error .valueError, [fs]⟩
  else match fs.mkParents (resolveDots (absComponents cwd filename).dropLast) with
    | .error e => ⟨.error e, [fs]⟩
    | .ok fs' =>
      let t := writeMany fs' [(absoluteName cwd filename, fixTo fixto data)]
      ⟨t.result, fs :: t.states⟩

end

end Micropol

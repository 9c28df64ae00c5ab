import Verif.Basic.Loop
import Verif.Basic.Img
import Verif.Model.Folder
import Mathlib.Data.Nat.Digits.Defs
import Mathlib.Data.Real.Basic

/-!
# Model of processing/convert.py and of `Image.save_as_raw`

Bytes are natural numbers below 256.  Characters `'0'`, `'1'` of Python's binary notation are the numbers 0, 1.
Not modelled: the `CREATED` keyword of written headers, progress bars, log messages, symbolic links, file permissions.
-/

set_option autoImplicit false

namespace Micropol

noncomputable section

/-! ## 12 bit numbers -/

/-- `bin(j)[2:].zfill(8)`.
Models: processing/convert.py:23 (`bin(0)[2:]` is `'0'`, here `[]`: the same after `zfill`). -/
def bin8 (j : Nat) : List Nat :=
  let s := (Nat.digits 2 j).reverse
  List.replicate (8 - s.length) 0 ++ s

/-- `int(s, 2)`, `ValueError` for the empty string.
Models: processing/convert.py:24-25. -/
def int2 (s : List Nat) : Py Nat :=
  if s = [] then .error .valueError else .ok (s.foldl (fun a b => 2 * a + b) 0)

/-- `newarr[position] = v` for a one dimensional array and `position ≥ 0`.
Models: processing/convert.py:24-25. -/
def setAt (arr : List Nat) (position v : Nat) : Py (List Nat) :=
  if position < arr.length then .ok (arr.set position v) else .error .indexError

/-- One turn of the loop.
Models: processing/convert.py:23-26. -/
def unpackBody (content : List Nat) (i : Nat) (st : List Nat × Nat) : Py (List Nat × Nat) := do
  let binsum := (((content.drop i).take 3).map bin8).flatten
  let a ← int2 ((binsum.drop 0).take 12)
  let arr ← setAt st.1 st.2 a
  let b ← int2 ((binsum.drop 16).take 8 ++ (binsum.drop 12).take 4)
  let arr ← setAt arr (st.2 + 1) b
  pure (arr, st.2 + 2)

/-- `three_bytes_to_two_ints(filecontent)`; `range(0, n, 3)` has `⌈n/3⌉` elements.
Models: processing/convert.py:14-27. -/
def threeBytesToTwoInts (content : List Nat) : Py (List Nat) := do
  let st ← forList ((List.range ((content.length + 2) / 3)).map (fun k => 3 * k))
    (List.replicate (content.length * 2 / 3) 0, 0) (unpackBody content)
  pure st.1

/-! ## PolarCam binary files -/

/-- An element of a numpy array of byte strings: trailing zero bytes are dropped when it is read back.
Models: `np.array([bytes, ...])` and its iteration in processing/convert.py:57-61. -/
def stripNul (b : List Nat) : List Nat := (b.reverse.dropWhile (fun v => v == 0)).reverse

/-- `filecontent[i * size : (i + 1) * size]`.
Models: processing/convert.py:58. -/
def chunk (content : List Nat) (size i : Nat) : List Nat := (content.drop (i * size)).take size

/-- `nparr_from_binary` for an image side and a number of chunks.  `Pool.map` returns the results in the order of the
chunks and raises if one of them does; `np.array(result)` of unequal lengths and `reshape` to a wrong size raise
`ValueError`.
Models: processing/convert.py:48-63. -/
def nparrFromBinaryN (dim chunks : Nat) (content : List Nat) : Py (Img ℝ) :=
  if content.length % chunks ≠ 0 ∨ content.length / chunks % 3 ≠ 0 then .error .valueError
  else do
    let size := content.length / chunks
    let result ← forList (List.range chunks) ([] : List (List Nat)) (fun i acc => do
      let r ← threeBytesToTwoInts (stripNul (chunk content size i))
      pure (acc ++ [r]))
    if ∃ r ∈ result, ∃ s ∈ result, r.length ≠ s.length then .error .valueError
    else if result.flatten.length ≠ dim * dim then .error .valueError
    else .ok (Img.ofFn dim dim (fun y x => ((result.flatten.getD (y * dim + x) 0 : Nat) : ℝ)))

/-- `nparr_from_binary(filename)` for the content of the file.
Models: processing/convert.py:30-63. -/
def nparrFromBinary (content : List Nat) : Py (Img ℝ) := nparrFromBinaryN 1952 32 content

/-! ## Paths and files -/

/-- `s.split(c)`.
Models: processing/convert.py:75, :160, :207. -/
def splitChar (c : Char) : Name → List Name
  | [] => [[]]
  | a :: s =>
    if a = c then [] :: splitChar c s
    else match splitChar c s with
      | [] => [[a]]
      | x :: xs => (a :: x) :: xs

/-- `c.join(l)`.
Models: processing/convert.py:207. -/
def joinChar (c : Char) : List Name → Name
  | [] => []
  | [x] => x
  | x :: y :: l => x ++ c :: joinChar c (y :: l)

/-- Components of a path; empty ones and `.` are dropped.
Models: paths as used by processing/convert.py:74, :159, :206 and image.py:220. -/
def components (p : Name) : List Name := (splitChar '/' p).filter (fun x => x ≠ [] ∧ x ≠ ['.'])

/-- Components of the absolute path, `..` kept (`Path(p).absolute()`); `cwd` are the components of the current
directory.
Models: processing/convert.py:159. -/
def absComponents (cwd : List Name) (p : Name) : List Name :=
  if p.head? = some '/' then components p else cwd ++ components p

/-- Remove each `..` with the component before it.
Models: `os.path.abspath` in processing/convert.py:74, :206. -/
def resolveDots (l : List Name) : List Name :=
  (l.foldl (fun acc x => if x = ['.', '.'] then acc.tail else x :: acc) []).reverse

/-- The string of an absolute path.
Models: processing/convert.py:74, :159, :206. -/
def pathString (l : List Name) : Name := '/' :: joinChar '/' l

/-- `str(Path(p).absolute())`.
Models: processing/convert.py:159. -/
def absoluteName (cwd : List Name) (p : Name) : Name := pathString (absComponents cwd p)

/-- `os.path.abspath(p)`.
Models: processing/convert.py:74, :206. -/
def abspath (cwd : List Name) (p : Name) : Name := pathString (resolveDots (absComponents cwd p))

/-- Directory part of a canonical absolute path.
Models: the directory of the file written by processing/convert.py:93, :183, :208. -/
def dirName (cwd : List Name) (p : Name) : Name := pathString (resolveDots (absComponents cwd p)).dropLast

/-- Content of a file: bytes, a complete FITS file with its image, or one that is being written.
Models: the files read and written by processing/convert.py:48, :93, :169, :183, :202, :208. -/
inductive Content where
  | raw (bytes : List Nat)
  | fits (data : Img ℝ)
  | incomplete

/-- Files and directories, by canonical absolute path.
Models: what processing/convert.py:48, :93, :169, :183, :202, :208, :212 act on. -/
structure FileSystem where
  file : Name → Option Content
  dir : Name → Prop

/-- Models: processing/convert.py:93, :183, :208, :212. -/
def FileSystem.put (fs : FileSystem) (p : Name) (c : Option Content) : FileSystem :=
  { fs with file := fun q => if q = p then c else fs.file q }

/-- `open(p, "rb").read()`; only raw files are modelled.
Models: processing/convert.py:48-49, :169-170, :202-203. -/
def FileSystem.readRaw (fs : FileSystem) (p : Name) : Py (List Nat) :=
  match fs.file p with
  | some (.raw b) => .ok b
  | _ => .error .fileNotFoundError

/-- `np.ndarray(shape=(h, w), dtype="<u2", buffer=b)`: `TypeError` if the buffer is too small.
Models: processing/convert.py:171, :204. -/
def u2Array (h w : Nat) (b : List Nat) : Py (Img ℝ) :=
  if b.length < 2 * (h * w) then .error .typeError
  else .ok (Img.ofFn h w (fun y x =>
    ((b.getD (2 * (y * w + x)) 0 + 256 * b.getD (2 * (y * w + x) + 1) 0 : Nat) : ℝ)))

/-- The result of a program that works on files: outcome, and the successive states of the file system (the first one is
the initial state, the last one the final one).  The machine may stop in any of them.
Models: runs of processing/convert.py:66-93, :144-183, :186-212. -/
structure Trace where
  result : Py Unit
  states : List FileSystem

open Classical in
/-- `hdu.writeto(p, overwrite=True)`: an existing file is removed, then the new one is written; fails if the directory
does not exist.  States after each step.
Models: processing/convert.py:93, :183, :208. -/
def writeFits (fs : FileSystem) (dir p : Name) (data : Img ℝ) : Py (List FileSystem) :=
  if fs.dir dir then .ok [fs.put p none, fs.put p (some .incomplete), fs.put p (some (.fits data))]
  else .error .fileNotFoundError

/-- The name of the new file; `os.path.pathsep` is `:`.
Models: processing/convert.py:207. -/
def newRawName (abs : Name) : Name := joinChar ':' (splitChar '.' abs).dropLast ++ fitsExt

/-- Models: processing/convert.py:200. -/
def rawExt : Name := ['.', 'r', 'a', 'w']

/-- `convert_rawfile_to_fits(filename, height, width, remove_old)`.
Models: processing/convert.py:186-212. -/
def convertRawfile (cwd : List Name) (fs : FileSystem) (filename : Name) (h w : Nat) (removeOld : Bool) : Trace :=
  if ¬ rawExt <:+: filename then ⟨.error .valueError, [fs]⟩
  else match fs.readRaw (abspath cwd filename) >>= u2Array h w with
    | .error e => ⟨.error e, [fs]⟩
    | .ok data =>
      let abs := abspath cwd filename
      let new := newRawName abs
      match writeFits fs (dirName [] new) new data with
      | .error e => ⟨.error e, [fs]⟩
      | .ok l =>
        let written := fs.put new (some (.fits data))
        if removeOld then ⟨.ok (), fs :: l ++ [written.put abs none]⟩ else ⟨.ok (), fs :: l⟩

/-! ## Merging raw files -/

/-- A list of names, or something else (one name).
Models: processing/convert.py:77-80, :162-165. -/
inductive FilesArg where
  | list (l : List Name)
  | single (n : Name)

/-- Models: processing/convert.py:77-80, :162-165. -/
def FilesArg.names : FilesArg → List Name
  | .list l => l
  | .single n => [n]

/-- `arr += data`.
Models: processing/convert.py:169-172. -/
def mergeBody (cwd : List Name) (fs : FileSystem) (h w : Nat) (n : Name) (arr : Img ℝ) : Py (Img ℝ) := do
  let b ← fs.readRaw (abspath cwd n)
  let d ← u2Array h w b
  pure (Img.ofFn h w (fun y x => arr.px y x + d.px y x))

/-- `merge_rawfiles_to_fits(filenames, new_filename, height, width, mode)`; `average_rawfiles_to_fits` calls it with
`mode = "average"`.  The mean of no files (0/0) is reported as `notFinite`.
Models: processing/convert.py:96-116, :144-183. -/
def mergeRawfiles (cwd : List Name) (fs : FileSystem) (files : FilesArg) (newName : Name) (h w : Nat) (mode : String) : Trace :=
  if (splitChar '.' (absoluteName cwd newName)).getLast? ≠ some ['f', 'i', 't', 's'] then ⟨.error .valueError, [fs]⟩
  else match forList files.names (Img.zeros h w) (mergeBody cwd fs h w) with
    | .error e => ⟨.error e, [fs]⟩
    | .ok arr =>
      if mode = "average" ∧ files.names.length = 0 then ⟨.error .notFinite, [fs]⟩
      else
        let arr := if mode = "average" then arr.map (fun v => v / (files.names.length : ℝ)) else arr
        match writeFits fs (dirName cwd newName) (abspath cwd newName) arr with
        | .error e => ⟨.error e, [fs]⟩
        | .ok l => ⟨.ok (), fs :: l⟩

/-- `average_rawfiles_to_fits`.
Models: processing/convert.py:96-116. -/
def averageRawfiles (cwd : List Name) (fs : FileSystem) (files : FilesArg) (newName : Name) (h w : Nat) : Trace :=
  mergeRawfiles cwd fs files newName h w "average"

/-- `arr += nparr_from_binary(filename) / images_n`: the shapes must agree.
Models: processing/convert.py:84. -/
def convertSetBody (cwd : List Name) (fs : FileSystem) (n : Nat) (name : Name) (arr : Img ℝ) : Py (Img ℝ) := do
  let b ← fs.readRaw (abspath cwd name)
  let d ← nparrFromBinary b
  if arr.h = d.h ∧ arr.w = d.w then pure (Img.ofFn arr.h arr.w (fun y x => arr.px y x + d.px y x / (n : ℝ)))
  else .error .valueError

/-- `convert_set(filenames, new_filename, height, width)`.
Models: processing/convert.py:66-93. -/
def convertSet (cwd : List Name) (fs : FileSystem) (files : FilesArg) (newName : Name) (h w : Nat) : Trace :=
  if (splitChar '.' (abspath cwd newName)).getLast? ≠ some ['f', 'i', 't', 's'] then ⟨.error .valueError, [fs]⟩
  else match forList files.names (Img.zeros h w) (convertSetBody cwd fs files.names.length) with
    | .error e => ⟨.error e, [fs]⟩
    | .ok arr =>
      match writeFits fs (dirName cwd newName) (abspath cwd newName) arr with
      | .error e => ⟨.error e, [fs]⟩
      | .ok l => ⟨.ok (), fs :: l⟩

/-! ## Saving raw files -/

/-- `Path(p).suffix`.
Models: image.py:189, :220; micropol_image.py:663, :705, :744, :782; utils.py:40. -/
def pathSuffix (p : Name) : Name :=
  match (components p).getLast? with
  | none => []
  | some name =>
    let ext := name.reverse.takeWhile (fun c => c ≠ '.')
    -- position of the last dot
    if ext.length = name.length ∨ ext = [] ∨ ext.length + 1 = name.length then [] else '.' :: ext.reverse

/-- `data.astype("int16")` as two little endian bytes, for an integer pixel (numpy wraps modulo 2¹⁶).
Models: image.py:222. -/
def int16Bytes (v : Int) : List Nat := [(v % 65536).toNat % 256, (v % 65536).toNat / 256]

open Classical in
/-- `image.save_as_raw(filename)` for integer data.
Models: image.py:210-222. -/
def saveAsRaw (cwd : List Name) (fs : FileSystem) (data : Img Int) (filename : Name) : Py FileSystem :=
  if pathSuffix filename ≠ rawExt then .error .valueError
  else if fs.dir (dirName cwd filename) then
    .ok (fs.put (abspath cwd filename) (some (.raw ((List.range data.h).flatMap (fun y =>
      (List.range data.w).flatMap (fun x => int16Bytes (data.px y x)))))))
  else .error .fileNotFoundError

end

end Micropol

import Verif.Model.CalibrateCall
import Verif.Model.ChenCall

/-!
# Model of the folder of a demodulation tensor on the disk

`calculate_demodulation_tensor` writes to the folder of the given name; `Demodulator` lists it with `glob.glob(name + "/*.fits")`, where
the name of the folder is part of the pattern.

Simplifications: those of `Model/Save` (`..` in a path is resolved by its text; the failures of the operating system are
`FileNotFoundError`); a relative name is replaced by the absolute one; every listed file is a complete FITS file with one image; no
directory has a name with the extension `.fits`.
-/

set_option autoImplicit false

namespace Micropol

noncomputable section

/-! ## `glob` -/

/-- `glob.has_magic(s)`.
Models: `glob.glob` in processing/demodulation.py:152. -/
def hasMagic (s : Name) : Bool := s.any fun c => c == '*' || c == '?' || c == '['

/-- An item of a pattern: `*`, `?`, a character, or the ranges of `[...]` (negated by `!`).
Models: `fnmatch.translate`, called by `glob.glob` in processing/demodulation.py:152. -/
inductive PatItem where
  | star
  | one
  | lit (c : Char)
  | cls (negated : Bool) (ranges : List (Char × Char))
  deriving DecidableEq

/-- The text up to the next `]`, and the text after it.
Models: `fnmatch.translate`, called by `glob.glob` in processing/demodulation.py:152. -/
def upToBracket : Name → Option (Name × Name)
  | [] => none
  | c :: s => if c = ']' then some ([], s) else (upToBracket s).map fun r => (c :: r.1, r.2)

/-- The ranges between the brackets.
Models: `fnmatch.translate`, called by `glob.glob` in processing/demodulation.py:152. -/
def classRanges : Name → List (Char × Char)
  | a :: '-' :: b :: s => (a, b) :: classRanges s
  | a :: s => (a, a) :: classRanges s
  | [] => []

/-- What follows `[`: negated or not, the text between the brackets (a first `]` belongs to it), the rest; `none` if there is no closing
bracket.
Models: `fnmatch.translate`, called by `glob.glob` in processing/demodulation.py:152. -/
def bracketText (s : Name) : Option (Bool × Name × Name) :=
  let neg := s.head? == some '!'
  let s := if neg then s.tail else s
  match s with
  | ']' :: r => (upToBracket r).map fun q => (neg, ']' :: q.1, q.2)
  | r => (upToBracket r).map fun q => (neg, q.1, q.2)

/-- The items of a pattern; the first argument is not less than its length.
Models: `fnmatch.translate`, called by `glob.glob` in processing/demodulation.py:152. -/
def patItems : Nat → Name → List PatItem
  | 0, _ => []
  | _, [] => []
  | n + 1, c :: s =>
    if c = '*' then .star :: patItems n s
    else if c = '?' then .one :: patItems n s
    else if c = '[' then
      match bracketText s with
      | none => .lit '[' :: patItems n s
      | some (neg, text, rest) => .cls neg (classRanges text) :: patItems n rest
    else .lit c :: patItems n s

/-- Does the text match the items?
Models: `fnmatch.filter`, called by `glob.glob` in processing/demodulation.py:152. -/
def itemsMatch : List PatItem → Name → Bool
  | [], s => s.isEmpty
  | .star :: p, [] => itemsMatch p []
  | .star :: p, c :: s => itemsMatch p (c :: s) || itemsMatch (.star :: p) s
  | .one :: _, [] => false
  | .one :: p, _ :: s => itemsMatch p s
  | .lit _ :: _, [] => false
  | .lit d :: p, c :: s => c == d && itemsMatch p s
  | .cls _ _ :: _, [] => false
  | .cls neg ranges :: p, c :: s => (neg != ranges.any fun r => decide (r.1 ≤ c ∧ c ≤ r.2)) && itemsMatch p s
termination_by p s => (s.length, p.length)

/-- Does a name in a directory match this component of the pattern?  One without special characters is compared; a hidden name matches
only a pattern that begins with a dot.
Models: `glob._iglob`, `glob._glob1`, `glob._glob0`, called by processing/demodulation.py:152. -/
def compMatch (pattern name : Name) : Bool :=
  if hasMagic pattern then
    (name.head? != some '.' || pattern.head? == some '.') && itemsMatch (patItems pattern.length pattern) name
  else name == pattern

/-- The directory in which the search for a relative name begins.
Models: processing/demodulation.py:152. -/
def globBase (cwd : List Name) (dir : Name) : List Name := if dir.head? = some '/' then [] else cwd

/-- The folders that the pattern `dir` may stand for, as lists of components below the base.
Models: `glob.glob` in processing/demodulation.py:152. -/
def GlobFolder (dir : Name) (q : List Name) : Prop := List.Forall₂ (fun p n => compMatch p n = true) (components dir) q

/-- The path of the file `n` in such a folder.
Models: `glob.glob` in processing/demodulation.py:152. -/
def globPath (cwd : List Name) (dir : Name) (q : List Name) (n : Name) : Name :=
  pathString (resolveDots (globBase cwd dir ++ q) ++ [n])

/-- `L` is a listing that `glob.glob(dir + "/*.fits")` may give, with the contents of the files: all files that match, each once, in any
order.  A folder with a special character in its name is found only if it is a directory.
Models: processing/demodulation.py:152. -/
def IsGlobListing (cwd : List Name) (fs : FileSystem) (dir : Name) (L : Listing ℝ) : Prop :=
  ∃ P : List (List Name × Name), P.Nodup ∧
    (∀ q n, (q, n) ∈ P ↔ GlobFolder dir q ∧ (∀ x ∈ q, x ≠ [] ∧ x ≠ ['.'] ∧ '/' ∉ x) ∧ '/' ∉ n ∧ isFits n = true ∧
      fs.file (globPath cwd dir q n) ≠ none) ∧
    List.Forall₂ (fun (qn : List Name × Name) (e : Name × Img ℝ) =>
      e.1 = qn.2 ∧ fs.file (globPath cwd dir qn.1 qn.2) = some (.fits e.2)) P L

open Classical in
/-- `Demodulator(dir)` when `glob` gives the listing `L`.
Models: processing/demodulation.py:149-193. -/
def demodulatorAt (cwd : List Name) (fs : FileSystem) (dir : Name) (L : Listing ℝ) : Py (Demodulator ℝ) :=
  if dir ≠ [] ∧ fs.there (abspath cwd dir) then loadDemodulator (some L) else .error .fileNotFoundError

/-! ## Saving -/

/-- The subfolder.
Models: processing/demodulation.py:728. -/
def covFolder : Name := "covariance_tensor".toList

/-- The files that are written before the subfolder is made.
Models: processing/demodulation.py:723-726. -/
def tensorWrites (o : CalibOutput ℝ) (out : Name) : List (Name × Img ℝ) :=
  (saveOps o).take 12 |>.filterMap fun
    | .top n d => some (out ++ '/' :: n, d)
    | _ => none

/-- The files that are written after it.
Models: processing/demodulation.py:731-754. -/
def laterWrites (o : CalibOutput ℝ) (out : Name) : List (Name × Img ℝ) :=
  (saveOps o).drop 13 |>.filterMap fun
    | .top n d => some (out ++ '/' :: n, d)
    | .cov n d => some (out ++ '/' :: covFolder ++ '/' :: n, d)
    | _ => none

/-- The end of `calculate_demodulation_tensor`.
Models: processing/demodulation.py:722-754. -/
def saveTensorAt (fs : FileSystem) (out : Name) (o : CalibOutput ℝ) : Trace :=
  let t := writeMany fs (tensorWrites o out)
  match t.result with
  | .error e => ⟨.error e, t.states⟩
  | .ok () =>
    match (t.states.getLastD fs).mkParents (resolveDots (absComponents [] (out ++ '/' :: covFolder))) with
    | .error e => ⟨.error e, t.states⟩
    | .ok fs' =>
      let t' := writeMany fs' (laterWrites o out)
      ⟨t'.result, t.states ++ t'.states⟩

open Classical in
/-- `output_path.mkdir(parents=True)` unless it is a directory.
Models: processing/demodulation.py:311-313. -/
def makeOutput (cwd : List Name) (fs : FileSystem) (dir : Name) : Py FileSystem :=
  if fs.dir (abspath cwd dir) then .ok fs else fs.mkParents (resolveDots (absComponents cwd dir))

/-- `calculate_demodulation_tensor(..., output_dir)` on the disk, without `DEBUG`.
Models: processing/demodulation.py:269-758. -/
def demodCall (fit : GaussFit) (env : CalibEnv) (a : CalibArgs) (ny nx : Nat) (schedule : List Nat) (cwd : List Name) (fs : FileSystem)
    (dir : Name) : Trace :=
  match makeOutput cwd fs dir with
  | .error e => ⟨.error e, [fs]⟩
  | .ok fs' =>
    match calculateDemodulationTensor (fs'.images cwd) fit env a ny nx schedule with
    | .error e => ⟨.error e, [fs, fs']⟩
    | .ok maps =>
      let t := saveTensorAt fs' (absoluteName cwd dir) maps.output
      ⟨t.result, fs :: t.states⟩

end

end Micropol

import Verif.Model.Keywords
import Verif.Spec.Object

/-!
# Vocabulary for the keywords of images and files

What a user expects of keywords, told without references: `described` goes through a session and notes for each image its family
(an image made from an array or from files starts one, an image made from another image belongs to the family of that one) and its
keywords.
-/

set_option autoImplicit false

namespace Micropol

noncomputable section

/-- The images of the session, in the order in which they were returned. -/
def Archive.images (s : Archive) : List Nat := s.mem.images

/-- The keywords of the images, in the order in which they were returned. -/
def Archive.keywords (s : Archive) : List Cards := s.images.map s.cardsOf

/-- The file states the size of the array in it. -/
def Hdu.Right (f : Hdu) : Prop := f.naxis1 = f.data.w ∧ f.naxis2 = f.data.h

/-- The file has the array `d`, states its size, and has the keywords `c`, except for those of `extra`, which have the values listed. -/
def Hdu.Is (f : Hdu) (d : Img ℝ) (c : Cards) (extra : List (Keyword × CardValue)) : Prop :=
  f.data = d ∧ f.Right ∧ (∀ e ∈ extra, f.cards e.1 = some e.2) ∧ ∀ k, k ∉ extra.map Prod.fst → f.cards k = c k

/-- The six parameters, with their titles and units (the angle is in radians, the degree of polarization has no unit). -/
def paramTable : List (Name × Name × Name) :=
  [("I".toList, "Stokes I".toList, "DN".toList), ("Q".toList, "Stokes Q".toList, "DN".toList),
    ("U".toList, "Stokes U".toList, "DN".toList), ("pB".toList, "Polarized brightness".toList, "DN".toList),
    ("AoLP".toList, "Angle of Linear Polarization".toList, "rad".toList),
    ("DoLP".toList, "Degree of Linear Polarization".toList, "".toList)]

/-- The number of exposures in a file or an image, by its keywords: `SUMOF`, or one. -/
def exposures (c : Cards) : Int :=
  match c .sumOf with
  | some (.number n) => n
  | _ => 1

/-- The family of an image and its keywords. -/
structure Described where
  family : Nat
  cards : Cards

/-- The statement saves. -/
def Stmt.isSave : Stmt → Bool
  | .save .. | .saveSingle .. | .saveParam .. | .saveAll .. | .saveDemosaiced .. => true
  | _ => false

/-- The statement writes a keyword. -/
def Stmt.isSet : Stmt → Bool
  | .setCard .. => true
  | _ => false

/-- The keywords an image loaded from several files should have: those of the first file, the number of files, and the dates, given
as the loader found them. -/
def LoadedFrom (first c : Cards) (files : Nat) : Prop :=
  (c .sumOf = if files > 1 then some (.number files) else first .sumOf) ∧
  (∀ k, k ≠ .sumOf → k ≠ .strtObs → k ≠ .endObs → c k = first k) ∧
  (files ≤ 1 → c = first)

/-- One statement, when it takes the session from `s` to `t`. -/
def describe (s t : Archive) (ds : List Described) (st : Stmt) : List Described :=
  if t.images.length = s.images.length then
    match st with
    | .setCard i key v =>
      match ds[i]? with
      | none => ds
      | some d => ds.map fun e => if e.family = d.family then ⟨e.family, e.cards.set key v⟩ else e
    | _ => ds
  else
    match st with
    | .call o =>
      match o.source.bind (ds[·]?) with
      | some d => ds ++ [d]
      | none => ds ++ [⟨ds.length, fun _ => none⟩]
    | .load .. => ds ++ [⟨ds.length, (t.keywords.getLast?).getD fun _ => none⟩]
    | _ => ds

/-- The images of a session from `s` on. -/
def describedFrom (clock : Clock) : Archive → List Described → List Stmt → List Described
  | _, ds, [] => ds
  | s, ds, st :: l => describedFrom clock (s.stmt clock st) (describe s (s.stmt clock st) ds st) l

/-- The images of a session that finds the files `disk`. -/
def described (clock : Clock) (disk : Name → Option Hdu) (l : List Stmt) : List Described :=
  describedFrom clock (archive clock disk []) [] l

end

end Micropol

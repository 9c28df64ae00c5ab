import Verif.Model.Load
import Verif.Model.Save
import Verif.Model.Object

/-!
# Model of the keywords of images and of the files they are saved to

A session of image operations (`Verif/Model/Object.lean`) in which the user also writes keywords (`image.header["OBSERVER"] = "X"`),
saves with the five saving methods and loads files.  The header of an image is an object that other images may refer to (the
reference is the one of `Model/Object`, where only the sizes are stored); here it also has keywords.

Simplifications: file names are absolute and their folders exist (what becomes of other names is `Model/Save`; `group` is what the
methods make of the name they are given, `groupName`); every save is completed.  Comments of keywords and the structural keywords
other than the sizes (`SIMPLE`, `BITPIX`, `EXTEND`, ...) are left out.
-/

set_option autoImplicit false

namespace Micropol

noncomputable section

open Classical

/-- The value of a keyword.
Models: micropol_image.py:668, :708-709, :788; image.py:93-106. -/
inductive CardValue where
  | text (s : Name)
  | number (n : Int)
  deriving DecidableEq

/-- Keywords: those the code uses, and all others.
Models: micropol_image.py:668, :708-709, :788; image.py:74-106. -/
inductive Keyword where
  | pol | param | units | sumOf | strtObs | endObs | dateObs | timeObs
  | other (name : Name)
  deriving DecidableEq

/-- The keywords of a header other than the sizes.
Models: `fits.Header` as used in image.py:58, :93-106 and micropol_image.py:667-709. -/
abbrev Cards := Keyword → Option CardValue

/-- `header[key] = value`.
Models: micropol_image.py:668, :708-709, :788; image.py:93-106. -/
def Cards.set (c : Cards) (key : Keyword) (v : CardValue) : Cards := fun k => if k = key then some v else c k

/-- What is in a FITS file: the array, the sizes stated, the other keywords.
Models: image.py:53-58, :201-208. -/
structure Hdu where
  data : Img ℝ
  naxis1 : Nat
  naxis2 : Nat
  cards : Cards

/-- `fits.PrimaryHDU(data=data, header=header)`: a copy of the header in which the sizes are those of the data (astropy).
Models: image.py:201-206; micropol_image.py:673-678, :714-719, :756-761, :793-798. -/
def primaryHdu (d : Img ℝ) (c : Cards) : Hdu := ⟨d, d.w, d.h, c⟩

/-- The files of `save_single_pol_images`: the identifiers are texts.
Models: micropol_image.py:660, :665-684. -/
def singleHdus (data : Img ℝ) (dic : AngleDic) (c : Cards) (fixto : Option (ℝ × ℝ)) (group : Name) : Py (List (Name × Hdu)) := do
  let p0 ← polFamily data dic 0
  let p45 ← polFamily data dic 45
  let p90 ← polFamily data dic 90
  let pm45 ← polFamily data dic (-45)
  pure ([((['0'] : Name), p0), (['4', '5'], p45), (['9', '0'], p90), (['-', '4', '5'], pm45)].map fun p =>
    (group ++ ['P', 'O', 'L'] ++ p.1 ++ fitsExt, primaryHdu (fixTo fixto p.2) (c.set .pol (.text p.1))))

/-- The title and the unit of a parameter.
Models: micropol_image.py:139-179. -/
def paramTexts (param : Name) : Name × Name :=
  if param = ['I'] then ("Stokes I".toList, "DN".toList)
  else if param = ['Q'] then ("Stokes Q".toList, "DN".toList)
  else if param = ['U'] then ("Stokes U".toList, "DN".toList)
  else if param = ['p', 'B'] then ("Polarized brightness".toList, "DN".toList)
  else if param = ['A', 'o', 'L', 'P'] then ("Angle of Linear Polarization".toList, "rad".toList)
  else ("Degree of Linear Polarization".toList, [])

/-- The header of a file with a parameter.
Models: micropol_image.py:707-709, :749-751. -/
def paramCards (c : Cards) (param : Name) : Cards :=
  (c.set .param (.text (paramTexts param).1)).set .units (.text (paramTexts param).2)

/-- The file of `save_param_as_fits`.
Models: micropol_image.py:703-730. -/
def paramHdus (S : Fin 3 → Img ℝ) (c : Cards) (param : Name) (fixto : Option (ℝ × ℝ)) (group : Name) : Py (List (Name × Hdu)) := do
  let d ← getParam S param
  pure [(group ++ ['_'] ++ param ++ fitsExt, primaryHdu (fixTo fixto d) (paramCards c param))]

/-- The files of `save_all_pol_params_as_fits`.
Models: micropol_image.py:748-763. -/
def allParamHdus (S : Fin 3 → Img ℝ) (c : Cards) (group : Name) : Py (List (Name × Hdu)) := do
  let params ← polparamList S
  pure (params.map fun p => (group ++ ['_'] ++ p.1 ++ fitsExt, primaryHdu p.2 (paramCards c p.1)))

/-- The files of `save_demosaiced_images_as_fits` from position `i` on, up to the first position without a name; one copy of the
header is used for all of them, its `POL` is overwritten each time.
Models: micropol_image.py:780, :786-800. -/
def demosaicedHdus (entries : List (Int × Int)) (c : Cards) (group : Name) (fixto : Option (ℝ × ℝ)) :
    Int → List (Img ℝ) → List (Name × Hdu) × Py Unit
  | _, [] => ([], .ok ())
  | i, d :: l =>
    match polId entries i with
    | .error e => ([], .error e)
    | .ok a =>
      let c := c.set .pol (.number a)
      let r := demosaicedHdus entries c group fixto (i + 1) l
      ((group ++ ['_', 'P', 'O', 'L'] ++ intStr a ++ fitsExt, primaryHdu (fixTo fixto d) c) :: r.1, r.2)

/-- What `fits.open` finds.  (`DATE-OBS` that is a number: `.split` raises `AttributeError`; here the load fails with another
error.  The same for `TIME-OBS`.)
Models: image.py:53-83. -/
def Hdu.opened (f : Hdu) : FitsFile :=
  match f.cards .dateObs with
  | some (.number _) => ⟨none, none, none⟩
  | some (.text d) => ⟨some f.data, some d, match f.cards .timeObs with | some (.text t) => some t | _ => none⟩
  | none => ⟨some f.data, none, none⟩

/-- The keywords of a loaded image: those of the first file, and for several files their number and the dates of the first and the
last one.
Models: image.py:58, :92-106. -/
def loadedCards (first : Cards) (r : LoadedImage) : Cards :=
  let c := match r.sumOf with | some n => first.set .sumOf (.number n) | none => first
  let c := match r.strtObs with | some t => c.set .strtObs (.text t) | none => c
  match r.endObs with | some t => c.set .endObs (.text t) | none => c

/-- The memory of the program, the keywords of the headers in it, and the files.
Models: a program with calls of micropol_image.py:59-1080 and image.py:178-208. -/
structure Archive where
  mem : State
  cards : Nat → Cards
  disk : Name → Option Hdu

/-- The keywords of the image with reference `k`: `image.header`.
Models: image.py:58, :129; micropol_image.py:125. -/
def Archive.cardsOf (s : Archive) (k : Nat) : Cards := s.cards (s.mem.heap.objs.cell k).header

/-- Statements: calls; `image.header[key] = value`; the five saving methods; `MicropolImage(filenames)`.
Models: micropol_image.py:59-1080; image.py:39-111, :178-208. -/
inductive Stmt where
  | call (o : Op)
  | setCard (i : Nat) (key : Keyword) (v : CardValue)
  | save (i : Nat) (name : Name) (fixto : Option (ℝ × ℝ))
  | saveSingle (i : Nat) (group : Name) (fixto : Option (ℝ × ℝ))
  | saveParam (i : Nat) (param : Name) (group : Name) (fixto : Option (ℝ × ℝ))
  | saveAll (i : Nat) (group : Name)
  | saveDemosaiced (i : Nat) (entries : List (Int × Int)) (group : Name) (fixto : Option (ℝ × ℝ))
  | load (arg : LoadArg) (average : Bool) (dic : Option AngleDic) (dark flat : Option Nat) (junk : Nat → Nat → ℝ)

/-- `hdu.writeto(name, overwrite=True)` for one file after the other.
Models: image.py:207; micropol_image.py:684, :730, :763, :800. -/
def writeHdus (disk : Name → Option Hdu) (l : List (Name × Hdu)) : Name → Option Hdu :=
  l.foldl (fun d f => fun n => if n = f.1 then some f.2 else d n) disk

/-- The files written by a saving method of image `k`.
Models: image.py:178-208; micropol_image.py:649-801. -/
def Stmt.writes (s : Archive) : Stmt → List (Name × Hdu)
  | .save i name fixto =>
    match s.mem.images[i]? with
    | none => []
    | some k => [(name, primaryHdu (fixTo fixto (s.mem.heap.dataOf k)) (s.cardsOf k))]
  | .saveSingle i group fixto =>
    match s.mem.images[i]? with
    | none => []
    | some k => ((singleHdus (s.mem.heap.dataOf k) (s.mem.heap.dicOf k) (s.cardsOf k) fixto group).toOption).getD []
  | .saveParam i param group fixto =>
    match s.mem.images[i]? with
    | none => []
    | some k => ((paramHdus (s.mem.heap.stokesOf k).planes (s.cardsOf k) param fixto group).toOption).getD []
  | .saveAll i group =>
    match s.mem.images[i]? with
    | none => []
    | some k => ((allParamHdus (s.mem.heap.stokesOf k).planes (s.cardsOf k) group).toOption).getD []
  | .saveDemosaiced i entries group fixto =>
    match s.mem.images[i]? with
    | none => []
    | some k =>
      match (s.mem.heap.objs.cell k).isDemosaiced, (s.mem.heap.objs.cell k).demosaicedImages with
      | true, some im => (demosaicedHdus entries (s.cardsOf k) group fixto 0 [im 0, im 1, im 2, im 3]).1
      | _, _ => []
  | _ => []

/-- The image that a construction returned, if it did: its header is a new one, with the given keywords.
Models: image.py:58, :128-129. -/
def Archive.constructed (s : Archive) (t : State) (c : Cards) : Archive :=
  match t.images.drop s.mem.images.length with
  | n :: _ => ⟨t, Function.update s.cards (t.heap.objs.cell n).header c, s.disk⟩
  | [] => ⟨t, s.cards, s.disk⟩

/-- One statement.  Exceptions are caught by the user.  Calls other than the constructor from an array write no keyword but the
sizes.
Models: micropol_image.py:59-1080; image.py:39-111, :178-208. -/
def Archive.stmt (clock : Clock) (s : Archive) (st : Stmt) : Archive :=
  match st with
  | .call (.fromArray d dic dark flat junk) => s.constructed (step s.mem (.fromArray d dic dark flat junk)) fun _ => none
  | .call o => ⟨step s.mem o, s.cards, s.disk⟩
  | .setCard i key v =>
    match s.mem.images[i]? with
    | none => s
    | some k => ⟨s.mem, Function.update s.cards (s.mem.heap.objs.cell k).header ((s.cardsOf k).set key v), s.disk⟩
  | .load arg average dic dark flat junk =>
    match loadImage (fun n => (s.disk n).map Hdu.opened) clock arg average, arg.names.head?.bind s.disk with
    | .ok r, some f => s.constructed (step s.mem (.fromArray r.data dic dark flat junk)) (loadedCards f.cards r)
    | _, _ => ⟨⟨(resolveDic dic s.mem.heap).2, s.mem.images⟩, s.cards, s.disk⟩
  | st => ⟨s.mem, s.cards, writeHdus s.disk (st.writes s)⟩

/-- A session that finds the files `disk`.
Models: sequences of the above (micropol_image.py:59-1080; image.py:39-208). -/
def archive (clock : Clock) (disk : Name → Option Hdu) (l : List Stmt) : Archive :=
  l.foldl (Archive.stmt clock) ⟨initState, fun _ _ => none, disk⟩

end

end Micropol

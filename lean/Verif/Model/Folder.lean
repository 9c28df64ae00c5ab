import Verif.Model.Demodulate

/-!
# Model of the calibration folder: writing it (`calculate_demodulation_tensor`) and loading it (`Demodulator`)

Names are lists of characters.  A folder is the list of its files in directory order; the files hold 2D arrays (a FITS
round trip of a float64 array is exact).  Not modelled: unreadable or truncated files, FITS files without 2D data,
special characters of `glob` in the folder's own path.
-/

set_option autoImplicit false

namespace Micropol

abbrev Name := List Char

section
variable {K : Type} [Field K]

abbrev Listing (K : Type) [Zero K] := List (Name × Img K)

/-- Models: processing/demodulation.py:152. -/
def fitsExt : Name := ['.', 'f', 'i', 't', 's']

/-- Does `glob("*.fits")` return this name?  (`*` does not match a leading dot.)
Models: processing/demodulation.py:152. -/
def isFits (n : Name) : Bool := n.head? != some '.' && fitsExt.isSuffixOf n

/-- Value of a digit `[0-9]`.
Models: the pattern `[0-9]` in processing/demodulation.py:66, :157, :175. -/
def digitVal (c : Char) : Option Nat :=
  if 48 ≤ c.toNat ∧ c.toNat ≤ 57 then some (c.toNat - 48) else none

/-- The two digits found by `re.search("[0-9]{2}", name)` (leftmost match).
Models: processing/demodulation.py:66, :157, :175-181. -/
def twoDigits : Name → Option (Nat × Nat)
  | a :: b :: rest =>
    match digitVal a, digitVal b with
    | some i, some j => some (i, j)
    | _, _ => twoDigits (b :: rest)
  | _ => none

/-- `fit_found_flag.fits`.
Models: processing/demodulation.py:184, :749. -/
def flagName : Name := ['f', 'i', 't', '_', 'f', 'o', 'u', 'n', 'd', '_', 'f', 'l', 'a', 'g'] ++ fitsExt

/-- `M[i, j] = data` for one `h × w` plane: numpy broadcasts `data` to the shape of the plane.
Models: processing/demodulation.py:74, :183. -/
def assignPlane (h w : Nat) (data : Img K) : Py (Img K) :=
  if (data.h = h ∨ data.h = 1) ∧ (data.w = w ∨ data.w = 1) then
    .ok (Img.ofFn h w (fun y x => data.px (bidx data.h y) (bidx data.w x)))
  else .error .valueError

/-- Variables of the loading loop.
Models: processing/demodulation.py:162-173; processing/demodulation.py:54-64. -/
structure LoadState (K : Type) [Zero K] (rows cols : Nat) where
  tensor : Fin rows → Fin cols → Img K
  flags : Option (Img K)
  found : Nat

/-- The part of a loop turn that stores a numbered file.
Models: processing/demodulation.py:175-184 (`rows = 3`, `cols = 4`) and :66-75 (`rows = cols = 3`). -/
def loadDigits (rows cols h w : Nat) (e : Name × Img K) (st : LoadState K rows cols) : Py (LoadState K rows cols) :=
  match twoDigits e.1 with
  | none => .ok st
  | some (i, j) =>
    if hij : i < rows ∧ j < cols then
      assignPlane h w e.2 >>= fun p => .ok { st with
        tensor := fun a b => if a = ⟨i, hij.1⟩ ∧ b = ⟨j, hij.2⟩ then p else st.tensor a b
        found := st.found + 1 }
    else .error .indexError

/-- One turn of the loading loop.
Models: processing/demodulation.py:174-186 (`rows = 3`, `cols = 4`) and :65-75 (`rows = cols = 3`, where no flag file
exists and the flags are not used). -/
def loadBody (rows cols h w : Nat) (e : Name × Img K) (st : LoadState K rows cols) : Py (LoadState K rows cols) :=
  loadDigits rows cols h w e st >>= fun st1 =>
    if e.1 = flagName then .ok { st1 with flags := some e.2 } else .ok st1

/-- `Demodulator(path)`; the folder is `none` when the path does not exist.
Models: processing/demodulation.py:134-193. -/
def loadDemodulator (folder : Option (Listing K)) : Py (Demodulator K) :=
  match folder with
  | none => .error .fileNotFoundError
  | some files =>
    let names := files.filter (fun e => isFits e.1)
    if names.isEmpty then .error .fileNotFoundError
    else match names.find? (fun e => (twoDigits e.1).isSome) with
      | none => .error .unboundLocalError
      | some sample => do
        let h := sample.2.h
        let w := sample.2.w
        let st ← forList names (⟨fun _ _ => Img.zeros h w, none, 0⟩ : LoadState K 3 4) (loadBody 3 4 h w)
        if st.found ≠ 12 then .error .valueError
        else .ok ⟨st.tensor, st.flags⟩

/-- The property `Cij`: `None` without covariance files; here `glob("*")` matches every name without a leading dot and
the sample is the first file.
Models: processing/demodulation.py:43-79. -/
def loadCovariance (folder : Option (Listing K)) : Py (Option (Fin 3 → Fin 3 → Img K)) :=
  match (folder.getD []).filter (fun e => e.1.head? != some '.') with
  | [] => .ok none
  | sample :: rest => do
    let h := sample.2.h
    let w := sample.2.w
    let st ← forList (sample :: rest) (⟨fun _ _ => Img.zeros h w, none, 0⟩ : LoadState K 3 3) (loadBody 3 3 h w)
    if st.found ≠ 9 then .error .valueError
    else .ok (some st.tensor)

/-! ## Writing -/

/-- A folder with its subfolder `covariance_tensor`.
Models: processing/demodulation.py:45-47, :152, :722-754. -/
structure CalibFolder (K : Type) [Zero K] where
  top : Listing K
  cov : Option (Listing K)

/-- `hdu.writeto(name, overwrite=True)`.
Models: processing/demodulation.py:754. -/
def putFile (files : Listing K) (n : Name) (data : Img K) : Listing K :=
  if n ∈ files.map Prod.fst then files.map (fun e => if e.1 = n then (n, data) else e) else files ++ [(n, data)]

/-- Models: processing/demodulation.py:722-754. -/
inductive FileOp (K : Type) [Zero K] where
  | top (n : Name) (data : Img K)
  | mkCov
  | cov (n : Name) (data : Img K)

/-- Effect of one file operation (`mkdir(exist_ok=True)`; a write into a missing subfolder cannot happen: `mkCov` comes
first).
Models: processing/demodulation.py:722-754. -/
def FileOp.run (f : CalibFolder K) : FileOp K → CalibFolder K
  | .top n data => { f with top := putFile f.top n data }
  | .mkCov => { f with cov := some (f.cov.getD []) }
  | .cov n data => { f with cov := some (putFile (f.cov.getD []) n data) }

/-- Models: the names in processing/demodulation.py:722-754. -/
def digitChar (i : Nat) : Char := Char.ofNat (48 + i)

/-- `Mij.fits`
Models: the names in processing/demodulation.py:722-754. -/
def mName (i j : Nat) : Name := ['M', digitChar i, digitChar j] ++ fitsExt
/-- `Cij.fits`
Models: the names in processing/demodulation.py:722-754. -/
def cName (i j : Nat) : Name := ['C', digitChar i, digitChar j] ++ fitsExt
/-- Models: processing/demodulation.py:92, :746. -/
def tkName : Name := ['t', 'r', 'a', 'n', 's', 'm', 'i', 't', 't', 'a', 'n', 'c', 'i', 'e', 's'] ++ fitsExt
/-- Models: processing/demodulation.py:84, :747. -/
def effName : Name := ['e', 'f', 'f', 'i', 'c', 'i', 'e', 'n', 'c', 'e', 's'] ++ fitsExt
/-- Models: processing/demodulation.py:100, :748. -/
def phaseName : Name := ['p', 'h', 'a', 's', 'e', 's'] ++ fitsExt
/-- Models: processing/demodulation.py:722-754. -/
def chiName : Name := ['r', 'e', 'd', 'u', 'c', 'e', 'd', '_', 'c', 'h', 'i', 's', 'q', 'u', 'a', 'r', 'e'] ++ fitsExt

/-- What a calibration saves.
Models: processing/demodulation.py:722-754. -/
structure CalibOutput (K : Type) [Zero K] where
  mij : Fin 3 → Fin 4 → Img K
  cov : Fin 3 → Fin 3 → Img K
  tk : Img K
  eff : Img K
  phase : Img K
  fitFound : Img K
  chisq : Img K

/-- The file operations at the end of `calculate_demodulation_tensor`, in order.
Models: processing/demodulation.py:722-754. -/
def saveOps (o : CalibOutput K) : List (FileOp K) :=
  [.top (mName 0 0) (o.mij 0 0), .top (mName 0 1) (o.mij 0 1), .top (mName 0 2) (o.mij 0 2),
   .top (mName 0 3) (o.mij 0 3), .top (mName 1 0) (o.mij 1 0), .top (mName 1 1) (o.mij 1 1),
   .top (mName 1 2) (o.mij 1 2), .top (mName 1 3) (o.mij 1 3), .top (mName 2 0) (o.mij 2 0),
   .top (mName 2 1) (o.mij 2 1), .top (mName 2 2) (o.mij 2 2), .top (mName 2 3) (o.mij 2 3),
   .mkCov,
   .cov (cName 0 0) (o.cov 0 0), .cov (cName 0 1) (o.cov 0 1), .cov (cName 0 2) (o.cov 0 2),
   .cov (cName 1 0) (o.cov 1 0), .cov (cName 1 1) (o.cov 1 1), .cov (cName 1 2) (o.cov 1 2),
   .cov (cName 2 0) (o.cov 2 0), .cov (cName 2 1) (o.cov 2 1), .cov (cName 2 2) (o.cov 2 2),
   .top tkName o.tk, .top effName o.eff, .top phaseName o.phase, .top flagName o.fitFound, .cov chiName o.chisq]

/-- The folder after the first `k` operations (an interruption between two of them).
Models: processing/demodulation.py:722-754, stopped between two of the operations. -/
def saveUntil (o : CalibOutput K) (k : Nat) (f : CalibFolder K) : CalibFolder K :=
  ((saveOps o).take k).foldl FileOp.run f

/-- The folder after the whole save.
Models: processing/demodulation.py:722-754. -/
def saveCalibration (o : CalibOutput K) (f : CalibFolder K) : CalibFolder K := (saveOps o).foldl FileOp.run f

/-- `fits.open(os.path.join(path, name))` for the properties `eff`, `tk`, `phi`.
Models: processing/demodulation.py:81-103. -/
def readFile (folder : Listing K) (n : Name) : Py (Img K) :=
  match folder.find? (fun e => e.1 = n) with
  | none => .error .fileNotFoundError
  | some e => .ok e.2

end

end Micropol

import Verif.Model.NumPy
import Verif.Model.Convert
import Verif.Basic.Loop
import Mathlib.Data.Real.Basic
import Mathlib.Data.List.Sort

/-!
# Model of `Image(filename or list of filenames)`

Simplifications: dates are natural numbers (seconds); `datetime.strptime` is a parameter (`Clock`) that returns `none` where
Python raises `ValueError`; header values other than the ones used here are not modelled; `hul.verify("fix")` does not change
what is used.  A file is what `fits.open` finds under its name; other failures of `fits.open` are not modelled.
-/

set_option autoImplicit false

namespace Micropol

noncomputable section

/-- The primary HDU of a FITS file: the image (`None` if there is none) and the two date keywords.
Models: image.py:53-58, :72-83. -/
structure FitsFile where
  data : Option (Img ℝ)
  dateObs : Option Name
  timeObs : Option Name

/-- `datetime.strptime` with the two formats used, and `str` of a date.
Models: image.py:73-76, :78-83, :100, :104. -/
structure Clock where
  standard : Name → Option Nat
  antarticor : Name → Option Nat
  str : Nat → Name

/-- The result of loading. `first` is the file whose header is kept.
Models: image.py:58, :90-111. -/
structure LoadedImage where
  data : Img ℝ
  filename : Name
  first : FitsFile
  sumOf : Option Nat
  strtObs : Option Name
  endObs : Option Name

/-- What the caller passes: one name or a list.
Models: image.py:40. -/
abbrev LoadArg := FilesArg

/-- `s.split(".")[0]`.
Models: image.py:74, :81. -/
def beforeDot (s : Name) : Name := ((splitChar '.' s).head?).getD []

/-- The date of one file, `none` for the 0 that stands for no date.
Models: image.py:72-85.  `KeyError` of the second lookup, raised while the `ValueError` is being handled, is not caught. -/
def fileDate (c : Clock) (f : FitsFile) : Py (Option Nat) :=
  match f.dateObs with
  | none => .ok none
  | some d =>
    match c.standard (beforeDot d) with
    | some t => .ok (some t)
    | none =>
      match f.timeObs with
      | none => .error .keyError
      | some t =>
        match c.antarticor (d ++ ['-'] ++ beforeDot t) with
        | some t => .ok (some t)
        | none => .error .valueError

/-- State of the loop: `combined_data`, `self.header`, the dates.
Models: image.py:45-48. -/
structure OpenState where
  combined : Option (Img ℝ)
  header : Option FitsFile
  dates : List (Option Nat)

/-- `hul[0].data / n`; `None / n` raises `TypeError`.
Models: image.py:55-57, :67. -/
def scaledData (f : FitsFile) (n : Nat) : Py (Img ℝ) :=
  match f.data with
  | none => .error .typeError
  | some d => .ok (d.map (fun v => v / (n : ℝ)))

/-- One turn of the loop.
Models: image.py:48-85. -/
def openBody (fs : Name → Option FitsFile) (c : Clock) (names : List Name) (divisor : Nat) (name : Name) (st : OpenState) :
    Py OpenState :=
  if rawExt ∈ names then .error .nameError
  else match fs name with
    | none => .error .fileNotFoundError
    | some f => do
      let d ← scaledData f divisor
      let combined ← match st.combined with
        | none => pure d
        | some s => npBin (fun a b => a + b) s d
      let t ← fileDate c f
      pure { combined := some combined, header := some (st.header.getD f), dates := st.dates ++ [t] }

/-- `filenames[0].split(os.path.sep)`, `"SUM_"` put before the last part.
Models: image.py:107-109. -/
def sumName (n : Name) : Name :=
  let parts := splitChar '/' n
  joinChar '/' (parts.dropLast ++ [['S', 'U', 'M', '_'] ++ (parts.getLast?).getD []])

/-- `Image._init_image_from_file(filenames, averageimages)`.
Models: image.py:39-111. -/
def loadImage (fs : Name → Option FitsFile) (c : Clock) (arg : LoadArg) (average : Bool) : Py LoadedImage := do
  let names := arg.names
  let n := names.length
  if n = 0 then .error .nameError
  else do
    let st ← forList names { combined := none, header := none, dates := [] } (openBody fs c names (1 + average.toNat * (n - 1)))
    let dates := st.dates.filterMap id
    match st.combined, st.header with
    | some data, some header =>
      if n > 1 then
        let sorted := dates.mergeSort (fun a b => decide (a ≤ b))
        let first := match arg with
          | .list l => l.head?.getD []
          | .single s => s.take 1
        pure { data := data, filename := sumName first, first := header, sumOf := some n,
               strtObs := sorted.head?.map c.str, endObs := sorted.getLast?.map c.str }
      else
        let first := match arg with
          | .list l => l.head?.getD []
          | .single s => s.take 1
        pure { data := data, filename := first, first := header, sumOf := none, strtObs := none, endObs := none }
    | _, _ => .error .unboundLocalError

end

end Micropol

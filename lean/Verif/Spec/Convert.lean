import Verif.Model.Convert

/-!
# Vocabulary for raw files
-/

set_option autoImplicit false

namespace Micropol

/-- The documented packing of two 12 bit numbers into three bytes: the first number takes byte 0 and the high half of
byte 1; the second one takes byte 2 (its 8 high bits) and the low half of byte 1 (its 4 low bits). -/
def packPair (p : Nat × Nat) : List Nat := [p.1 / 16, p.1 % 16 * 16 + p.2 % 16, p.2 / 16]

/-- The packed file of a list of pairs. -/
def pack (l : List (Nat × Nat)) : List Nat := l.flatMap packPair

/-- The numbers in order. -/
def unpair (l : List (Nat × Nat)) : List Nat := l.flatMap (fun p => [p.1, p.2])

/-- All bytes. -/
def IsBytes (l : List Nat) : Prop := ∀ b ∈ l, b < 256

/-- The two bytes of a 16 bit little endian number. -/
def u2Bytes (v : Nat) : List Nat := [v % 256, v / 256]

/-- A proper path component: not empty, not `.` or `..`, no slash. -/
def GoodComp (x : Name) : Prop := x ≠ [] ∧ x ≠ ['.'] ∧ x ≠ ['.', '.'] ∧ '/' ∉ x

/-- The 16 bit number at row `y`, column `x` of a raw file of width `w`. -/
def u2At (w : Nat) (b : List Nat) (y x : Nat) : Nat := b.getD (2 * (y * w + x)) 0 + 256 * b.getD (2 * (y * w + x) + 1) 0

/-- The PolarCam file of an image of 1952 × 1952 numbers, row after row, two neighbours in a row packed together. -/
def polarcamFile (v : Nat → Nat → Nat) : List Nat :=
  pack ((List.range (1952 * 976)).map (fun k => (v (k / 976) (2 * (k % 976)), v (k / 976) (2 * (k % 976) + 1))))

/-- The last state of a run. -/
def Trace.Final (t : Trace) (s : FileSystem) : Prop := t.states.getLast? = some s

/-- A run succeeded: in the end the file `name` is the complete FITS file of `img`, every other file is as before. -/
def Trace.Wrote (t : Trace) (fs : FileSystem) (name : Name) (img : Img ℝ) : Prop :=
  t.result = .ok () ∧ ∃ s, t.Final s ∧ s.file name = some (.fits img) ∧ ∀ q, q ≠ name → s.file q = fs.file q

/-- A run failed with the error `e`, and no state differs from the first one. -/
def Trace.FailedClean (t : Trace) (fs : FileSystem) (e : PyErr) : Prop := t.result = .error e ∧ t.states = [fs]

end Micropol

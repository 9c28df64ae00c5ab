import Verif.Model.Classes
import Verif.Spec.Failed

/-! # Vocabulary for sessions with images of both classes and arrays -/

set_option autoImplicit false

namespace Micropol

noncomputable section

namespace Mixed

/-- The values of the array in variable `k`. -/
def arrayValue (s : Mixed) (k : Nat) : Option (Img ℝ) := (s.held[k]?).map s.heap.datas.cell

/-- The pixels of the `Image` in variable `j` (`none`: no such variable, or an object without pixels). -/
def basePixels (s : Mixed) (j : Nat) : Option (Img ℝ) := (s.bases[j]?).join.map s.heap.datas.cell

/-- Variable `j` holds an `Image` without pixels. -/
def Hollow (s : Mixed) (j : Nat) : Prop := s.bases[j]? = some none

/-- The statement raises `e`. -/
def Raises (s : Mixed) (t : MixStmt) (e : PyErr) : Prop := (s.exec t).1 = .error e

/-- The statement raises nothing. -/
def Works (s : Mixed) (t : MixStmt) : Prop := (s.exec t).1 = .ok ()

end Mixed

/-- Statements that do not hand out or replace the array of a `MicropolImage`: all but `v = image.data` and `image.data = v`. -/
def MixStmt.Closed : MixStmt → Prop
  | .take _ => False
  | .assign _ _ => False
  | _ => True

/-- What a statement does to `MicropolImage`s, its array arguments given by their values: a call, or `image op A`. -/
inductive ValueStmt where
  | call (o : Op)
  | arithArray (op : Arith) (i : Nat) (A : Img ℝ) (junk : Nat → Nat → ℝ)

/-- The statement with the values that its variables have now; `none` if no `MicropolImage` is involved or a variable is missing. -/
def MixStmt.value (s : Mixed) : MixStmt → Option ValueStmt
  | .call o => some (.call o)
  | .construct k dic dark flat junk => (s.arrayValue k).map fun A => .call (.fromArray A dic dark flat junk)
  | .convert j dic dark flat junk => (s.basePixels j).map fun A => .call (.fromArray A dic dark flat junk)
  | .arith op (.micropol i) (.image (.micropol j)) junk => some (.call (.arithImage op i j junk))
  | .arith op (.micropol i) (.plain (.number c)) junk => some (.call (.arithNumber op i c junk))
  | .arith op (.micropol i) (.plain (.array k)) junk => (s.arrayValue k).map fun A => .arithArray op i A junk
  | _ => none

/-- A session that consists of `image op A` in the state `s`. -/
def State.arithArray (s : State) (op : Arith) (i : Nat) (A : Img ℝ) (junk : Nat → Nat → ℝ) : Py Unit × State :=
  match (named s.images i >>= fun i => arithArrayObj op junk i A) s.heap with
  | (.ok n, h) => (.ok (), ⟨h, s.images ++ [n]⟩)
  | (.error e, h) => (.error e, ⟨h, s.images⟩)

/-- One statement with values, on a session of `MicropolImage`s only. -/
def ValueStmt.run (s : State) : ValueStmt → Py Unit × State
  | .call o => ((exec s.images o s.heap).1.map fun _ => (), step s o)
  | .arithArray op i A junk => s.arithArray op i A junk

/-- A session of `MicropolImage`s only. -/
def runValues (vs : List ValueStmt) : State := vs.foldl (fun s v => (v.run s).2) initState

/-- The statements of a session that starts in `s`, each with the values its variables have when it is reached. -/
def valuesFrom (s : Mixed) : List MixStmt → List ValueStmt
  | [] => []
  | t :: ts => (t.value s).toList ++ valuesFrom (s.step t) ts

/-- `B` is `A` with `c` at the Python index `[y, x]`. -/
def Img.WrittenAt (A : Img ℝ) (y x : Int) (c : ℝ) (B : Img ℝ) : Prop :=
  ∃ a b : Nat, a < A.h ∧ b < A.w ∧ (y = a ∨ y = a - A.h) ∧ (x = b ∨ x = b - A.w) ∧ B.SameShape A ∧
    B.px a b = c ∧ ∀ p q, ¬ (p = a ∧ q = b) → B.px p q = A.px p q

end

end Micropol

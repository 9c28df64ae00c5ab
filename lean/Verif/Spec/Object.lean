import Verif.Model.Object

/-!
# Vocabulary for histories of image operations

Which variable an operation works on, and which operations are documented to change it.
-/

set_option autoImplicit false

namespace Micropol

/-- The image an operation is called on (`self`); for a copy, the image copied. -/
def Op.source : Op → Option Nat
  | .setDefault _ => none
  | .fromArray _ _ _ _ _ => none
  | .fromImage i _ _ _ _ => some i
  | .rebin i _ => some i
  | .congrid i _ _ => some i
  | .rotate i _ => some i
  | .demodulate i _ _ => some i
  | .shift i _ _ _ => some i
  | .cleanHotPixels i _ _ => some i
  | .arithImage _ i _ _ => some i
  | .arithNumber _ i _ _ => some i
  | .demosaic i _ => some i
  | .subtractDark i _ => some i
  | .correctFlat i _ _ => some i
  | .correctIfov i => some i
  | .maskOcculter i _ _ _ _ _ => some i

/-- The operations documented to work in place. -/
def Op.inPlace : Op → Bool
  | .demosaic _ _ => true
  | .subtractDark _ _ => true
  | .correctFlat _ _ _ => true
  | .correctIfov _ => true
  | .maskOcculter _ _ _ _ _ _ => true
  | _ => false

/-- The image object `k` is the one the operation is called on. -/
def Op.CalledOn (o : Op) (s : State) (k : Nat) : Prop := ∃ i, o.source = some i ∧ s.images[i]? = some k

/-- Pixel data, Stokes maps, header and dictionary of an image object, as a user sees them. -/
noncomputable def State.data (s : State) (k : Nat) : Img ℝ := s.heap.dataOf k
noncomputable def State.stokes (s : State) (k : Nat) : Fin 3 → Img ℝ := (s.heap.stokesOf k).planes
noncomputable def State.header (s : State) (k : Nat) : Header := s.heap.headerOf k
noncomputable def State.dic (s : State) (k : Nat) : AngleDic := s.heap.dicOf k
noncomputable def State.isDemosaiced (s : State) (k : Nat) : Bool := (s.heap.objs.cell k).isDemosaiced

/-- Construction, copy, rebin, shift, hot pixel cleaning, arithmetic, dark, flat and IFOV correction (and the choice of the
default dictionary): the operations after which I, Q, U are meant to be the theoretical ones. -/
def Op.theoretical : Op → Bool
  | .setDefault _ => true
  | .fromArray _ _ _ _ _ => true
  | .fromImage _ _ _ _ _ => true
  | .rebin _ _ => true
  | .shift _ _ _ _ => true
  | .cleanHotPixels _ _ _ => true
  | .arithImage _ _ _ _ => true
  | .arithNumber _ _ _ _ => true
  | .subtractDark _ _ => true
  | .correctFlat _ _ _ => true
  | .correctIfov _ => true
  | .congrid _ _ _ => false
  | .rotate _ _ => false
  | .demodulate _ _ _ => false
  | .demosaic _ _ => false
  | .maskOcculter _ _ _ _ _ _ => false

/-- The operations that give the image they return (or, in place, are called on) pixel data of its own. -/
def Op.setsData : Op → Bool
  | .setDefault _ => false
  | .fromArray _ _ _ _ _ => true
  | .fromImage _ _ dark flat _ => dark.isSome || flat.isSome
  | .rebin _ _ => true
  | .congrid _ _ _ => true
  | .rotate _ _ => true
  | .demodulate _ _ _ => false
  | .shift _ _ _ _ => true
  | .cleanHotPixels _ _ _ => true
  | .arithImage _ _ _ _ => true
  | .arithNumber _ _ _ _ => false
  | .demosaic _ _ => false
  | .subtractDark _ _ => true
  | .correctFlat _ _ _ => true
  | .correctIfov _ => true
  | .maskOcculter _ _ _ _ _ _ => true

/-- The operations whose result may have another size than the image they are called on. -/
def Op.resizes : Op → Bool
  | .rebin _ _ => true
  | .congrid _ _ _ => true
  | .cleanHotPixels _ _ _ => true
  | _ => false

/-- The demodulator was computed for images of this size. -/
def Demodulator.Fits (D : Demodulator ℝ) (d : Img ℝ) : Prop :=
  (∀ i j, (D.mij i j).h = d.h / 2 ∧ (D.mij i j).w = d.w / 2) ∧
  ∀ f, D.fitFoundFlags = some f → f.h = d.h / 2 ∧ f.w = d.w / 2

/-- Plain demodulation only with demodulators of the right size. -/
def Sized (s : State) (o : Op) : Prop :=
  ∀ i D k, o = .demodulate i D false → s.images[i]? = some k → D.Fits (s.data k)

/-- Image `k` was made by `congrid`, or derived (in any number of steps) from one that was. -/
inductive Congridded : List Op → Nat → Prop
  | born {ops : List Op} {i ny nx n : Nat} (h : (step (runOps ops) (.congrid i ny nx)).images = (runOps ops).images ++ [n]) :
      Congridded (ops ++ [.congrid i ny nx]) n
  | derived {ops : List Op} {o : Op} {r n : Nat} (hr : o.CalledOn (runOps ops) r) (hc : Congridded ops r)
      (h : (step (runOps ops) o).images = (runOps ops).images ++ [n]) : Congridded (ops ++ [o]) n
  | kept {ops : List Op} {o : Op} {k : Nat} (hc : Congridded ops k) : Congridded (ops ++ [o]) k

/-- The operator applied to two numbers. -/
noncomputable def Arith.apply : Arith → ℝ → ℝ → ℝ
  | .add, a, b => a + b
  | .sub, a, b => a - b
  | .mul, a, b => a * b
  | .div, a, b => a / b

/-- The result is determined: no division by zero. -/
def Arith.Defined : Arith → ℝ → Prop
  | .div, b => b ≠ 0
  | _, _ => True

/-- The pixels of one family: row parity `a`, column parity `b`. -/
noncomputable def Img.family (A : Img ℝ) (a b : Nat) : Img ℝ :=
  Img.ofFn (A.h / 2) (A.w / 2) fun y x => A.px (2 * y + a) (2 * x + b)

/-- The call `o`, made after the history `ops`, returns image `n`. -/
def Returns (ops : List Op) (o : Op) (n : Nat) : Prop := (runOps (ops ++ [o])).images = (runOps ops).images ++ [n]

/-- Every call of the history satisfies `A` in the state in which it is made. -/
def AllAlong (A : State → Op → Prop) (ops : List Op) : Prop :=
  ∀ pre o post, ops = pre ++ o :: post → A (runOps pre) o

open Classical in
/-- The dictionary most recently passed to `set_default_angles` (`none`: never called, or called with `None`). -/
noncomputable def lastDefault : List Op → Option AngleDic
  | [] => none
  | .setDefault d :: ops =>
    if ∃ e, Op.setDefault e ∈ ops then lastDefault ops else d
  | _ :: ops => lastDefault ops

end Micropol

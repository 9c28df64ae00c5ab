import Verif.Spec.Object

/-! # Vocabulary: the same session in other units

Counts, seconds or photons: an image can be recorded in one unit or in another.  `u p` is the factor between the two units of the
image with name `p` (names are positions, as in `Op`).  `Rescaled u s o o'` says that the call `o'` is the call `o` written in the
other units: arrays and numbers are multiplied by the factor of their unit, everything else is the same, and the call makes sense
dimensionally (a dark frame has the unit of the image it is subtracted from, and so on).  `s` is the state before the call.
Products and quotients are only considered when the first image has no demosaiced images.
-/

set_option autoImplicit false

namespace Micropol

noncomputable section

/-- The array in a unit that is `c` times smaller. -/
def inUnit (c : ℝ) (A : Img ℝ) : Img ℝ := A.map (c * ·)

/-- Content of uninitialised memory, in the other unit. -/
def junkInUnit (c : ℝ) (junk : Nat → Nat → ℝ) : Nat → Nat → ℝ := fun y x => c * junk y x

/-- An operation on planes that commutes with the change of unit. -/
def Homogeneous (c : ℝ) (f : Img ℝ → Py (Img ℝ)) : Prop :=
  ∀ A, f (inUnit c A) = (f A).map (inUnit c)

/-- `o'` is `o` in the other units. -/
inductive Rescaled (u : Nat → ℝ) (s : State) : Op → Op → Prop
  | setDefault (dic : Option AngleDic) : Rescaled u s (.setDefault dic) (.setDefault dic)
  | fromArray (d : Img ℝ) (dic : Option AngleDic) (dark flat : Option Nat) (junk : Nat → Nat → ℝ)
      (hdark : ∀ k, dark = some k → u k = u s.images.length) :
      Rescaled u s (.fromArray d dic dark flat junk)
        (.fromArray (inUnit (u s.images.length) d) dic dark flat (junkInUnit (u s.images.length) junk))
  | fromImage (i : Nat) (dic : Option AngleDic) (dark flat : Option Nat) (junk : Nat → Nat → ℝ)
      (hu : u s.images.length = u i) (hdark : ∀ k, dark = some k → u k = u i) :
      Rescaled u s (.fromImage i dic dark flat junk) (.fromImage i dic dark flat (junkInUnit (u i) junk))
  | rebin (i : Nat) (b : Int) (hu : u s.images.length = u i) : Rescaled u s (.rebin i b) (.rebin i b)
  | congrid (i ny nx : Nat) (hu : u s.images.length = u i) : Rescaled u s (.congrid i ny nx) (.congrid i ny nx)
  | rotate (i : Nat) (rot : Img ℝ → Py (Img ℝ)) (hu : u s.images.length = u i) (hom : Homogeneous (u i) rot) : Rescaled u s (.rotate i rot) (.rotate i rot)
  | demodulate (i : Nat) (D : Demodulator ℝ) (dem : Bool) (hu : u s.images.length = u i) :
      Rescaled u s (.demodulate i D dem) (.demodulate i D dem)
  | shift (i : Nat) (y x : Int) (missing : ℝ) (hu : u s.images.length = u i) :
      Rescaled u s (.shift i y x missing) (.shift i y x (u i * missing))
  | cleanHotPixels (i flags : Nat) (median : Img ℝ → Img ℝ) (hu : u s.images.length = u i) (hflags : u flags = 1)
      (hom : ∀ A, median (inUnit (u i) A) = inUnit (u i) (median A)) :
      Rescaled u s (.cleanHotPixels i flags median) (.cleanHotPixels i flags median)
  | addImage (i j : Nat) (junk junk' : Nat → Nat → ℝ) (hu : u s.images.length = u i) (hj : u j = u i) :
      Rescaled u s (.arithImage .add i j junk) (.arithImage .add i j junk')
  | subImage (i j : Nat) (junk junk' : Nat → Nat → ℝ) (hu : u s.images.length = u i) (hj : u j = u i) :
      Rescaled u s (.arithImage .sub i j junk) (.arithImage .sub i j junk')
  | mulImage (i j : Nat) (junk junk' : Nat → Nat → ℝ) (hu : u s.images.length = u i * u j)
      (hdem : ∀ k, s.images[i]? = some k → (s.heap.objs.cell k).demosaicedImages = none) :
      Rescaled u s (.arithImage .mul i j junk) (.arithImage .mul i j junk')
  | divImage (i j : Nat) (junk : Nat → Nat → ℝ) (hu : u s.images.length = u i / u j)
      (hdem : ∀ k, s.images[i]? = some k → (s.heap.objs.cell k).demosaicedImages = none) :
      Rescaled u s (.arithImage .div i j junk) (.arithImage .div i j (junkInUnit (u i / u j) junk))
  | addNumber (i : Nat) (c : ℝ) (junk junk' : Nat → Nat → ℝ) (hu : u s.images.length = u i) :
      Rescaled u s (.arithNumber .add i c junk) (.arithNumber .add i (u i * c) junk')
  | subNumber (i : Nat) (c : ℝ) (junk junk' : Nat → Nat → ℝ) (hu : u s.images.length = u i) :
      Rescaled u s (.arithNumber .sub i c junk) (.arithNumber .sub i (u i * c) junk')
  | mulNumber (i : Nat) (c v : ℝ) (junk junk' : Nat → Nat → ℝ) (hu : u s.images.length = u i * v) :
      Rescaled u s (.arithNumber .mul i c junk) (.arithNumber .mul i (v * c) junk')
  | divNumber (i : Nat) (c v : ℝ) (junk : Nat → Nat → ℝ) (hv : v ≠ 0) (hu : u s.images.length = u i / v) :
      Rescaled u s (.arithNumber .div i c junk) (.arithNumber .div i (v * c) (junkInUnit (u i / v) junk))
  | demosaic (i : Nat) (mode : String) (hu : u s.images.length = u i) : Rescaled u s (.demosaic i mode) (.demosaic i mode)
  | subtractDark (i dark : Nat) (hu : u s.images.length = u i) (hdark : u dark = u i) :
      Rescaled u s (.subtractDark i dark) (.subtractDark i dark)
  | correctFlat (i flat : Nat) (junk : Nat → Nat → ℝ) (hu : u s.images.length = u i) :
      Rescaled u s (.correctFlat i flat junk) (.correctFlat i flat (junkInUnit (u i) junk))
  | correctIfov (i : Nat) (hu : u s.images.length = u i) : Rescaled u s (.correctIfov i) (.correctIfov i)
  | maskOcculter (i : Nat) (y x r over fill : ℝ) :
      Rescaled u s (.maskOcculter i y x r over fill) (.maskOcculter i y x r over (u i * fill))

/-- Two sessions, call by call: the calls of the second are those of the first in the other units. -/
def RescaledSession (u : Nat → ℝ) (l : List (Op × Op)) : Prop :=
  ∀ k o o', l[k]? = some (o, o') → Rescaled u (runOps ((l.take k).map Prod.fst)) o o'

/-- What the user sees of the two sessions is the same, up to the units. -/
def SameUpToUnits (u : Nat → ℝ) (s t : State) : Prop :=
  t.images = s.images ∧
  ∀ p k, s.images[p]? = some k →
    t.data k = inUnit (u p) (s.data k) ∧
    (∀ q, t.stokes k q = inUnit (u p) (s.stokes k q)) ∧
    t.header k = s.header k ∧ t.dic k = s.dic k ∧
    t.heap.objs.cell k = { s.heap.objs.cell k with
      demosaicedImages := (s.heap.objs.cell k).demosaicedImages.map fun d f => inUnit (u p) (d f) }

end

end Micropol

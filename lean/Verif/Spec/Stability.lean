import Verif.Spec.Object
import Verif.Spec.Shape
import Verif.Model.MedianFilter

/-! # Vocabulary: errors of pixels and how calls may enlarge them

`PxWithin ε A B` : two arrays of the same shape differ by at most `ε` at every pixel.  Two sessions make the same calls, on arrays that
differ a little.  `e p` is a bound for the difference between the images that the two sessions know under name `p` (names are
positions, as in `Op`).  `Perturbed s e e' o o'` says that `o` and `o'` are the same call, up to the array it is given, and that the
bounds `e'` are what an error analysis by hand would write down after the call: the errors of a sum add up, binning multiplies by
the number of pixels summed, and so on.  `s` is the state of the first session before the call.
-/

set_option autoImplicit false

namespace Micropol

noncomputable section

/-- The arrays have the same shape and differ by at most `ε` at every pixel. -/
def PxWithin (ε : ℝ) (A B : Img ℝ) : Prop :=
  A.SameShape B ∧ ∀ y x, y < A.h → x < A.w → |A.px y x - B.px y x| ≤ ε

/-- The bounds after a call are at least as large for the images that exist already. -/
def Kept (s : State) (e e' : Nat → ℝ) : Prop := ∀ p, p < s.images.length → e p ≤ e' p

/-- The same call in both sessions, and what it does to the errors. -/
inductive Perturbed (s : State) (e e' : Nat → ℝ) : Op → Op → Prop
  | setDefault (dic : Option AngleDic) (he : Kept s e e') : Perturbed s e e' (.setDefault dic) (.setDefault dic)
  | fromArray (d d' : Img ℝ) (dic : Option AngleDic) (junk junk' : Nat → Nat → ℝ) (he : Kept s e e')
      (hn : PxWithin (e' s.images.length) d d') :
      Perturbed s e e' (.fromArray d dic none none junk) (.fromArray d' dic none none junk')
  | fromImage (i : Nat) (dic : Option AngleDic) (junk junk' : Nat → Nat → ℝ) (hi : i < s.images.length) (he : Kept s e e')
      (hn : e i ≤ e' s.images.length) :
      Perturbed s e e' (.fromImage i dic none none junk) (.fromImage i dic none none junk')
  | rebin (i : Nat) (b : Int) (hi : i < s.images.length) (hb : 1 ≤ b) (he : Kept s e e')
      (hn : (b : ℝ) ^ 2 * e i ≤ e' s.images.length) : Perturbed s e e' (.rebin i b) (.rebin i b)
  | shift (i : Nat) (y x : Int) (missing : ℝ) (hi : i < s.images.length) (he : Kept s e e') (hn : e i ≤ e' s.images.length) :
      Perturbed s e e' (.shift i y x missing) (.shift i y x missing)
  | cleanHotPixels (i flags : Nat) (hi : i < s.images.length) (hf : flags < s.images.length) (he : Kept s e e')
      (exact : e flags = 0)
      (shape : ∀ k l, s.images[i]? = some k → s.images[flags]? = some l → (s.data k).SameShape (s.data l))
      (hn : e i ≤ e' s.images.length) :
      Perturbed s e e' (.cleanHotPixels i flags (medianFilter 2)) (.cleanHotPixels i flags (medianFilter 2))
  | addImage (i j : Nat) (junk junk' : Nat → Nat → ℝ) (hi : i < s.images.length) (hj : j < s.images.length) (he : Kept s e e')
      (hn : e i + e j ≤ e' s.images.length) : Perturbed s e e' (.arithImage .add i j junk) (.arithImage .add i j junk')
  | subImage (i j : Nat) (junk junk' : Nat → Nat → ℝ) (hi : i < s.images.length) (hj : j < s.images.length) (he : Kept s e e')
      (hn : e i + e j ≤ e' s.images.length) : Perturbed s e e' (.arithImage .sub i j junk) (.arithImage .sub i j junk')
  | addNumber (i : Nat) (c : ℝ) (junk junk' : Nat → Nat → ℝ) (hi : i < s.images.length) (he : Kept s e e')
      (hn : e i ≤ e' s.images.length) : Perturbed s e e' (.arithNumber .add i c junk) (.arithNumber .add i c junk')
  | subNumber (i : Nat) (c : ℝ) (junk junk' : Nat → Nat → ℝ) (hi : i < s.images.length) (he : Kept s e e')
      (hn : e i ≤ e' s.images.length) : Perturbed s e e' (.arithNumber .sub i c junk) (.arithNumber .sub i c junk')
  | mulNumber (i : Nat) (c : ℝ) (junk junk' : Nat → Nat → ℝ) (hi : i < s.images.length) (he : Kept s e e')
      (hn : |c| * e i ≤ e' s.images.length) : Perturbed s e e' (.arithNumber .mul i c junk) (.arithNumber .mul i c junk')
  | divNumber (i : Nat) (c : ℝ) (junk junk' : Nat → Nat → ℝ) (hc : c ≠ 0) (hi : i < s.images.length) (he : Kept s e e')
      (hn : e i / |c| ≤ e' s.images.length) : Perturbed s e e' (.arithNumber .div i c junk) (.arithNumber .div i c junk')
  | subtractDark (i dark : Nat) (hi : i < s.images.length) (hj : dark < s.images.length) (he : Kept s e e')
      (hp : ∀ p, p < s.images.length → s.images[p]? = s.images[i]? → e i + e dark ≤ e' p)
      (hn : e i + e dark ≤ e' s.images.length) : Perturbed s e e' (.subtractDark i dark) (.subtractDark i dark)
  | correctIfov (i : Nat) (hi : i < s.images.length) (he : Kept s e e')
      (hp : ∀ p, p < s.images.length → s.images[p]? = s.images[i]? → e i ≤ e' p)
      (hn : e i ≤ e' s.images.length) : Perturbed s e e' (.correctIfov i) (.correctIfov i)

/-- Two sessions, call by call, with the bounds `e k` before call number `k`. -/
def PerturbedSession (e : Nat → Nat → ℝ) (l : List (Op × Op)) : Prop :=
  (∀ k p, 0 ≤ e k p) ∧
  ∀ k o o', l[k]? = some (o, o') → Perturbed (runOps ((l.take k).map Prod.fst)) (e k) (e (k + 1)) o o'

end

end Micropol

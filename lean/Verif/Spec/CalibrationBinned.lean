import Verif.Spec.Prepare

/-! # Specification of calibration files that were binned beforehand -/

set_option autoImplicit false

namespace Micropol

noncomputable section

/-- Both sides are even. -/
def EvenSides (A : Img ℝ) : Prop := A.h % 2 = 0 ∧ A.w % 2 = 0

/-- The image with every `b x b` superpixels added into one. -/
def superBinned (b : Nat) (A : Img ℝ) : Img ℝ := Img.ofFn (2 * (A.h / (2 * b))) (2 * (A.w / (2 * b))) (familySum A b)

/-- The same files, each of them binned. -/
def filesBinned (b : Nat) (fs : Name → Option (Img ℝ)) : Name → Option (Img ℝ) := fun n => (fs n).map (superBinned b)

/-- The prescribed signal of binned frames: a number is the signal of one pixel, and a binned pixel collects `b * b` of them. -/
def signalBinned (b : Nat) : NormArg → NormArg
  | .missing => .missing
  | .number s => .number (s * (b * b))
  | .image A => .image (superBinned b A)
  | .series L => .series (L.map (superBinned b))

/-- The images given as signal have even sides. -/
def SignalEven : NormArg → Prop
  | .missing => True
  | .number _ => True
  | .image A => EvenSides A
  | .series L => ∀ A ∈ L, EvenSides A

/-- The occulter in pixels of the binned frames. -/
def occulterBinned (b : Nat) (o : Option (ℝ × ℝ × ℝ)) : Option (ℝ × ℝ × ℝ) := o.map fun p => (p.1 / b, p.2.1 / b, p.2.2 / b)

/-- The arguments for files binned by `b`, when a binning of `b'` is left to the calibration. -/
def argsBinned (b b' : Nat) (a : CalibArgs) : CalibArgs :=
  { a with binning := b', occulter := occulterBinned b a.occulter, normS := signalBinned b a.normS }

/-- The `b x b` superpixels that are added into one are all the same. -/
def UniformBlocks (b : Nat) (A : Img ℝ) : Prop :=
  ∀ Y X i j u v, Y < A.h / (2 * b) → X < A.w / (2 * b) → i < 2 → j < 2 → u < b → v < b →
    A.px (2 * (b * Y + u) + i) (2 * (b * X + v) + j) = A.px (2 * (b * Y) + i) (2 * (b * X) + j)

end

end Micropol

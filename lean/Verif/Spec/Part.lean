import Verif.Model.Demodulate
import Verif.Model.Calibration

/-! # Vocabulary for parts of images -/

set_option autoImplicit false

namespace Micropol

/-- The part of `h` rows and `w` columns that starts at pixel `(y₀, x₀)`. -/
def Img.part {α : Type} [Zero α] (A : Img α) (y₀ x₀ h w : Nat) : Img α := Img.ofFn h w fun y x => A.px (y₀ + y) (x₀ + x)

/-- A part that consists of whole superpixels of an image of whole superpixels. -/
structure Img.WholePart {α : Type} [Zero α] (A : Img α) (y₀ x₀ h w : Nat) : Prop where
  rows : A.h % 2 = 0
  cols : A.w % 2 = 0
  top : y₀ % 2 = 0
  left : x₀ % 2 = 0
  height : h % 2 = 0
  width : w % 2 = 0
  below : y₀ + h ≤ A.h
  right : x₀ + w ≤ A.w

/-- The part of a tensor that belongs to superpixels `(Y₀ + Y, X₀ + X)`, `Y < H`, `X < W`. -/
def Demodulator.part {K : Type} [Zero K] (D : Demodulator K) (Y₀ X₀ H W : Nat) : Demodulator K :=
  ⟨fun i j => (D.mij i j).part Y₀ X₀ H W, D.fitFoundFlags.map fun F => F.part Y₀ X₀ H W⟩

noncomputable section

/-- The measurements of a calibration on a part of the sensor. -/
def ChunkInput.part (inp : ChunkInput) (y₀ x₀ h w : Nat) : ChunkInput :=
  { inp with
    height := h
    width := w
    data := fun p => (inp.data p).part y₀ x₀ h w
    errors := fun p => (inp.errors p).part y₀ x₀ h w
    occulter := inp.occulter.part y₀ x₀ h w }

/-- The maps of a calibration on a part of the sensor. -/
def CalibMaps.part (m : CalibMaps) (y₀ x₀ h w : Nat) : CalibMaps where
  mij := fun i j => (m.mij i j).part (y₀ / 2) (x₀ / 2) (h / 2) (w / 2)
  fitFound := m.fitFound.part (y₀ / 2) (x₀ / 2) (h / 2) (w / 2)
  cov := fun a b => (m.cov a b).part y₀ x₀ h w
  tk := m.tk.part y₀ x₀ h w
  eff := m.eff.part y₀ x₀ h w
  phase := m.phase.part y₀ x₀ h w
  chisq := m.chisq.part y₀ x₀ h w

end

end Micropol

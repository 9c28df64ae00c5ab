import Verif.Model.Object
import Verif.Model.PilRotate

/-! # Vocabulary for images of counts -/

set_option autoImplicit false

namespace Micropol

/-- `v` is one of the whole numbers `0, 1, …, M`. -/
def IsCount (M : ℕ) (v : ℝ) : Prop := ∃ n : ℕ, n ≤ M ∧ v = n

/-- All pixels are whole numbers from 0 to `M`. -/
def Img.Counts (M : ℕ) (A : Img ℝ) : Prop := ∀ y x, y < A.h → x < A.w → IsCount M (A.px y x)

/-- Calls that make counts up to `M'` of counts up to `M`: no division, no resampling to other sizes, no averaging over neighbours, darks
subtracted by `subtract_dark` only. -/
def Op.CountsTo (M M' : ℕ) : Op → Prop
  | .setDefault _ => True
  | .fromArray d _ _ flat _ => d.Counts M' ∧ flat = none
  | .fromImage _ _ _ flat _ => flat = none
  | .rebin _ b => b.toNat * b.toNat * M ≤ M'
  | .congrid _ _ _ => False
  | .rotate _ rot => (∃ angle, rot = pilRotate angle) ∧ M ≤ 2 ^ 24
  | .demodulate _ _ _ => True
  | .shift _ _ _ missing => IsCount M' missing
  | .cleanHotPixels _ _ median => ∀ A : Img ℝ, A.Counts M → (median A).Counts M'
  | .arithImage .add _ _ _ => M + M ≤ M'
  | .arithImage .mul _ _ _ => M * M ≤ M'
  | .arithImage .sub _ _ _ => False
  | .arithImage .div _ _ _ => False
  | .arithNumber .add _ c _ => ∃ n : ℕ, c = n ∧ M + n ≤ M'
  | .arithNumber .mul _ c _ => ∃ n : ℕ, c = n ∧ M * n ≤ M'
  | .arithNumber .sub _ _ _ => False
  | .arithNumber .div _ _ _ => False
  | .demosaic _ _ => True
  | .subtractDark _ _ => True
  | .correctFlat _ _ _ => False
  | .correctIfov _ => False
  | .maskOcculter _ _ _ _ _ fill => IsCount M' fill

/-- A session of such calls; `M` grows with the calls. -/
inductive CountSession : List Op → ℕ → Prop
  | start (M : ℕ) : CountSession [] M
  | call {ops : List Op} {M M' : ℕ} {o : Op} : CountSession ops M → M ≤ M' → o.CountsTo M M' → CountSession (ops ++ [o]) M'

end Micropol

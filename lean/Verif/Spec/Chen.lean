import Verif.Model.ChenCalculate
import Verif.Spec.Shape
import Mathlib.LinearAlgebra.Matrix.ToLin

/-! # Specification of the Chen-Wang-Liang calibration matrices -/

set_option autoImplicit false

namespace Micropol

noncomputable section

open Classical Finset

/-- The four Penrose conditions for matrices of any size. -/
def IsMoorePenrose {m n : Nat} (M : Matrix (Fin m) (Fin n) ℝ) (P : Matrix (Fin n) (Fin m) ℝ) : Prop :=
  M * P * M = M ∧ P * M * P = P ∧ (M * P).transpose = M * P ∧ (P * M).transpose = P * M

/-- `np.linalg.pinv` does its work on columns and on products of a column and a row. -/
def ChenEnv.PinvCorrect (env : ChenEnv) : Prop :=
  (∀ S : Fin 4 → ℝ, IsMoorePenrose (Matrix.of fun k (_ : Fin 1) => S k) (Matrix.of fun _ k => env.pinvColumn S k)) ∧
  ∀ (u : Fin 4 → ℝ) (v : Fin 3 → ℝ), ∃ P, env.pinv (fun k m => u k * v m) = some P ∧
    IsMoorePenrose (Matrix.of fun k m => u k * v m) (Matrix.of P)

/-- The flat used for division: less the dark, with 1 where nothing is left. -/
def litFlat (F : Img ℝ) (D : Option (Img ℝ)) (y x : Nat) : ℝ :=
  match D with
  | none => F.px y x
  | some D => if 0 < F.px y x - D.px y x then F.px y x - D.px y x else 1

/-- A pixel of a frame: less the dark, never negative, divided by the flat relative to the greatest value `M` of the flat (where that
is not 0). -/
def cleanPixel (A : Img ℝ) (D : Option (Img ℝ)) (F : Img ℝ) (M : ℝ) (y x : Nat) : ℝ :=
  let v := match D with
    | none => A.px y x
    | some D => max 0 (A.px y x - D.px y x)
  if litFlat F D y x = 0 then v else v / (litFlat F D y x / M)

/-- The four values of superpixel `(Y, X)` in a frame. -/
def cleanSuper (A : Img ℝ) (D : Option (Img ℝ)) (F : Img ℝ) (M : ℝ) (Y X : Nat) (k : Fin 4) : ℝ :=
  cleanPixel A D F M (2 * Y + k.val / 2) (2 * X + k.val % 2)

/-- Measured Stokes parameters of a superpixel with micropolarizers of 0, 45, -45, 90 degrees at the given positions. -/
def measured (pos : Fin 4 → Fin 4) (p : Fin 4 → ℝ) : Fin 3 → ℝ :=
  ![p (pos 0) + p (pos 3), p (pos 0) - p (pos 3), p (pos 1) - p (pos 2)]

/-- Response of ideal micropolarizers at the given angles (in degrees) to Stokes parameters `s`. -/
def idealResponse (angles : Fin 4 → ℝ) (s : Fin 3 → ℝ) (k : Fin 4) : ℝ :=
  (s 0 + Real.cos (2 * (angles k * (Real.pi / 180))) * s 1 + Real.sin (2 * (angles k * (Real.pi / 180))) * s 2) / 2

/-- Light of intensity `I` behind a polarizer at `t` degrees. -/
def polarized (I t : ℝ) : Fin 3 → ℝ := ![I, I * Real.cos (2 * (t * (Real.pi / 180))), I * Real.sin (2 * (t * (Real.pi / 180)))]

/-- Square of the length. -/
def sqLen {n : Nat} (v : Fin n → ℝ) : ℝ := ∑ k, v k * v k

/-- What one frame contributes to the matrix: nothing for a superpixel without signal or without measured Stokes parameters, otherwise
the matrix of rank 1 that sends `p` to the ideal response to the measured Stokes parameters, times `(|s|² + 1) / |s|²`. -/
def frameMatrix (angles : Fin 4 → ℝ) (pos : Fin 4 → Fin 4) (p : Fin 4 → ℝ) (i j : Fin 4) : ℝ :=
  if measured pos p = 0 then 0
  else (sqLen (measured pos p) + 1) / sqLen (measured pos p) * (idealResponse angles (measured pos p) i * p j / sqLen p)

/-- What one frame contributes to the offsets. -/
def frameOffset (pos : Fin 4 → Fin 4) (p : Fin 4 → ℝ) (j : Fin 4) : ℝ := p j / (sqLen (measured pos p) + 1)

/-- The arguments name files that exist and have the same even size `H × W`; the reference orientations are there, there is no occulter,
there is a flat; `pos` gives the positions of the micropolarizers of 0, 45, -45, 90 degrees, and `M` is the greatest value of the flat. -/
structure ChenReadable (fs : Name → Option (Img ℝ)) (a : ChenArgs) (H W : Nat) (A : Name → Img ℝ) (D : Option (Img ℝ)) (F : Img ℝ)
    (M : ℝ) (pos : Fin 4 → Fin 4) : Prop where
  len : a.orientations.length = a.filenames.length
  reference : (0 : ℝ) ∈ a.orientations ∧ (45 : ℝ) ∈ a.orientations ∧ (90 : ℝ) ∈ a.orientations ∧ (-45 : ℝ) ∈ a.orientations
  noOcculter : a.occulter = false
  even : H % 2 = 0 ∧ W % 2 = 0
  frames : ∀ n ∈ a.filenames, fs n = some (A n) ∧ (A n).HasShape H W
  dark : (a.dark = none ∧ D = none) ∨ ∃ n d, n ≠ [] ∧ a.dark = some n ∧ fs n = some d ∧ D = some d ∧ d.HasShape H W
  flat : ∃ n, n ≠ [] ∧ a.flat = some n ∧ fs n = some F ∧ F.HasShape H W
  greatest : (∃ y x, y < H ∧ x < W ∧ litFlat F D y x = M) ∧ ∀ y x, y < H → x < W → litFlat F D y x ≤ M
  notDark : M ≠ 0
  positions : a.previsions (pos 0) = 0 ∧ a.previsions (pos 1) = 45 ∧ a.previsions (pos 2) = -45 ∧ a.previsions (pos 3) = 90

end

end Micropol

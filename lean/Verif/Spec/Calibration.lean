import Verif.Model.Calibration
import Mathlib.LinearAlgebra.Matrix.ToLin

/-! # Specification of the calibration outcome of a superpixel -/

set_option autoImplicit false

namespace Micropol

noncomputable section

/-- The four Penrose conditions: `P` is the Moore-Penrose inverse of `M`. -/
def IsPseudoInverse (M : Matrix (Fin 4) (Fin 3) ℝ) (P : Matrix (Fin 3) (Fin 4) ℝ) : Prop :=
  M * P * M = M ∧ P * M * P = P ∧ (M * P).transpose = M * P ∧ (P * M).transpose = P * M

/-- Rank 3: different Stokes vectors give different superpixels. -/
def FullRank (M : Matrix (Fin 4) (Fin 3) ℝ) : Prop := Function.Injective M.mulVec

/-- `np.linalg.pinv` as documented: the Moore-Penrose inverse (needed for matrices of full rank only). -/
def CalibEnv.PinvCorrect (env : CalibEnv) : Prop :=
  ∀ M : Fin 4 → Fin 3 → ℝ, FullRank (Matrix.of M) → IsPseudoInverse (Matrix.of M) (Matrix.of (env.pinv M))

/-- Response of four micropolarizers with throughput `t`, efficiency `e`, phase `φ` (radians):
`t/2 * (I + e cos(2φ) Q + e sin(2φ) U)`. -/
def responseMatrix (t e φ : Fin 4 → ℝ) : Fin 4 → Fin 3 → ℝ :=
  fun k => ![t k / 2, t k * e k * Real.cos (2 * φ k) / 2, t k * e k * Real.sin (2 * φ k) / 2]

/-- Response of ideal micropolarizers. -/
def idealMatrix (φ : Fin 4 → ℝ) : Fin 4 → Fin 3 → ℝ := responseMatrix (fun _ => 1) (fun _ => 1) φ

/-- Row and column of pixel `k` of superpixel `(Y, X)`. -/
def rowOf (Y : Nat) (k : Fin 4) : Nat := 2 * Y + k.val / 2
def colOf (X : Nat) (k : Fin 4) : Nat := 2 * X + k.val % 2

/-- First guess (index 0), lower (1) and upper (2) bound for a throughput or an efficiency. -/
def boundsOr (b : Option (Fin 3 → ℝ)) : Fin 3 → ℝ := b.getD ![0.5, 0.1, 1 - 1e-6]

/-- What is fitted for pixel `k` of superpixel `(Y, X)`: its values over the polarizer orientations (in radians),
its errors with 0 replaced by 1e-5, first guess and bounds for throughput, efficiency and phase (±15°). -/
def fitRequest (inp : ChunkInput) (Y X : Nat) (k : Fin 4) : FitCall where
  n := inp.n
  xdata := fun p => inp.orientations p * Real.pi / 180
  ydata := fun p => (inp.data p).px (rowOf Y k) (colOf X k)
  p0 := ![boundsOr inp.tkBoundary 0, boundsOr inp.effBoundary 0, inp.previsions k]
  sigma := fun p => open Classical in
    if (inp.errors p).px (rowOf Y k) (colOf X k) = 0 then 1e-5 else (inp.errors p).px (rowOf Y k) (colOf X k)
  lower := ![boundsOr inp.tkBoundary 1, boundsOr inp.effBoundary 1, inp.previsions k - Real.pi / 12]
  upper := ![boundsOr inp.tkBoundary 2, boundsOr inp.effBoundary 2, inp.previsions k + Real.pi / 12]

/-- Degrees of freedom: number of images minus number of parameters (two when both boundaries are prescribed, one more
for each default). -/
def freedom (inp : ChunkInput) : Int :=
  match inp.tkBoundary, inp.effBoundary with
  | none, none => (inp.n : Int) - 4
  | none, some _ => (inp.n : Int) - 3
  | some _, none => (inp.n : Int) - 3
  | some _, some _ => (inp.n : Int) - 2

/-- Some pixel of the superpixel is behind the occulter. -/
def Occulted (inp : ChunkInput) (Y X : Nat) : Prop := ∃ k, inp.occulter.px (rowOf Y k) (colOf X k) ≠ 0

/-- Pixel `k` is zero in all images. -/
def Dark (inp : ChunkInput) (Y X : Nat) (k : Fin 4) : Prop := ∀ p, (inp.data p).px (rowOf Y k) (colOf X k) = 0

/-- The fit of pixel `k` raises an exception. -/
def FitRaises (env : CalibEnv) (inp : ChunkInput) (Y X : Nat) (k : Fin 4) : Prop :=
  env.curveFit (fitRequest inp Y X k) = none

/-- A processor grid the code accepts, and an order in which its workers finish. -/
structure ValidGrid (inp : ChunkInput) (ny nx : Nat) (schedule : List Nat) : Prop where
  ny_pos : 0 < ny
  nx_pos : 0 < nx
  even_y : inp.height / ny % 2 = 0
  even_x : inp.width / nx % 2 = 0
  order : schedule.Perm (List.range (ny * nx))

/-- The grid leaves no border. -/
def Divides (inp : ChunkInput) (ny nx : Nat) : Prop := inp.height % ny = 0 ∧ inp.width % nx = 0

/-- Superpixel `(Y, X)` belongs to some chunk. -/
def Covered (inp : ChunkInput) (ny nx Y X : Nat) : Prop :=
  2 * Y < ny * (inp.height / ny) ∧ 2 * X < nx * (inp.width / nx)

end

end Micropol

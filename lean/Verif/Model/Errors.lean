import Verif.Model.Demodulate
import Verif.Model.PolFunctions

/-!
# Model of `micropolarray/processing/demodulation_errors.py`, over ℝ

A value that numpy computes with a division by zero is NaN or infinite: `none` here, pixel by pixel.
-/

set_option autoImplicit false

namespace Micropol

/-- A numpy float: `none` stands for NaN and the infinities.
Models: the results of processing/demodulation_errors.py:52, :61, :74, :85. -/
def NanReal : Type := Option ℝ

instance : Zero NanReal := ⟨some (0 : ℝ)⟩

noncomputable section

/-- `get_error_on_Stokes(image_error, demodulator)`.
Models: processing/demodulation_errors.py:25-52.  The fit flags are not used by the code. -/
def errorOnStokes (imageError : Img ℝ) (D : Demodulator ℝ) : Py (Fin 3 → Img ℝ) := do
  let pols ← splitPolarizations imageError
  let var ← matmulPols (fun i j => Img.zipWith (fun a b => a * b) (D.mij i j) (D.mij i j))
    (fun k => Img.zipWith (fun a b => a * b) (pols k) (pols k))
  pure (fun i => (var i).map Real.sqrt)

/-- Elementwise function of the six planes of `S` and `sigma_S`; the two arrays broadcast against each other.
Models: processing/demodulation_errors.py:56-59, :65-72, :78-83. -/
def elementwise6 (f : ℝ → ℝ → ℝ → ℝ → ℝ → ℝ → NanReal) (S sigma : Fin 3 → Img ℝ) : Py (Img NanReal) := do
  let h ← bdim (S 0).h (sigma 0).h
  let w ← bdim (S 0).w (sigma 0).w
  let s (i : Fin 3) (y x : Nat) : ℝ := (S i).px (bidx (S 0).h y) (bidx (S 0).w x)
  let e (i : Fin 3) (y x : Nat) : ℝ := (sigma i).px (bidx (sigma 0).h y) (bidx (sigma 0).w x)
  pure (Img.ofFn h w (fun y x => f (s 0 y x) (s 1 y x) (s 2 y x) (e 0 y x) (e 1 y x) (e 2 y x)))

/-- `get_error_on_pB(S, sigma_S)` at one pixel.
Models: processing/demodulation_errors.py:55-61. -/
def pBError (_I Q U _sI sQ sU : ℝ) : NanReal :=
  if Q * Q + U * U = 0 then none
  else some (Real.sqrt ((Q * Q * sQ * sQ + U * U * sU * sU) / (Q * Q + U * U)))

/-- `get_error_on_DoLP(S, sigma_S)` at one pixel.
Models: processing/demodulation_errors.py:64-74. -/
def dolpError (I Q U sI sQ sU : ℝ) : NanReal :=
  let p := Real.sqrt (Q * Q + U * U)
  if (I * p) * (I * p) = 0 ∨ I * I = 0 then none
  else some (Real.sqrt ((Q * Q * sQ * sQ + U * U * sU * sU) / ((I * p) * (I * p)) + (p / (I * I)) * (p / (I * I)) * sI * sI))

/-- `get_error_on_AoLP(S, sigma_S)` at one pixel.
Models: processing/demodulation_errors.py:77-85. -/
def aolpError (_I Q U _sI sQ sU : ℝ) : NanReal :=
  if Q * Q = 0 ∨ 4 * Q * Q * (1 + (U * U / (Q * Q))) * (1 + (U * U / (Q * Q))) = 0 then none
  else some (Real.sqrt ((sU * sU + sQ * sQ * U * U / (Q * Q)) /
    (4 * Q * Q * (1 + (U * U / (Q * Q))) * (1 + (U * U / (Q * Q))))))

/-- `get_error_on_pB(S, sigma_S)`. Models: processing/demodulation_errors.py:55-61. -/
def errorOnPB (S sigma : Fin 3 → Img ℝ) : Py (Img NanReal) := elementwise6 pBError S sigma

/-- `get_error_on_DoLP(S, sigma_S)`. Models: processing/demodulation_errors.py:64-74. -/
def errorOnDoLP (S sigma : Fin 3 → Img ℝ) : Py (Img NanReal) := elementwise6 dolpError S sigma

/-- `get_error_on_AoLP(S, sigma_S)`. Models: processing/demodulation_errors.py:77-85. -/
def errorOnAoLP (S sigma : Fin 3 → Img ℝ) : Py (Img NanReal) := elementwise6 aolpError S sigma

/-- The four attributes of `MicropolImageError(image, image_error, demodulator)`; `stokes` is `image.Stokes_vec`.
Models: processing/demodulation_errors.py:13-22. -/
structure ImageErrors where
  sigmaS : Fin 3 → Img ℝ
  sigmaPB : Img NanReal
  sigmaDoLP : Img NanReal
  sigmaAoLP : Img NanReal

/-- `MicropolImageError.__init__`.
Models: processing/demodulation_errors.py:14-22. -/
def imageErrors (stokes : Fin 3 → Img ℝ) (imageError : Img ℝ) (D : Demodulator ℝ) : Py ImageErrors := do
  let s ← errorOnStokes imageError D
  let a ← errorOnPB stokes s
  let b ← errorOnDoLP stokes s
  let c ← errorOnAoLP stokes s
  pure ⟨s, a, b, c⟩

end

end Micropol

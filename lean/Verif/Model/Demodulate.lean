import Verif.Model.NumPy
import Verif.Model.Stokes

/-!
# Model of demodulation with a given tensor: `MicropolImage.demodulate` (pixel level)
-/

set_option autoImplicit false

namespace Micropol

section
variable {K : Type} [Zero K] [One K] [Add K] [Sub K] [Mul K] [Div K] [OfNat K 2] [OfNat K 4] [DecidableEq K]

/-- The part of a `Demodulator` object that demodulation uses: the tensor (twelve planes of a single 4D array, so of
one shape) and the optional fit flags.
Models: processing/demodulation.py:41. -/
structure Demodulator (K : Type) [Zero K] where
  mij : Fin 3 → Fin 4 → Img K
  fitFoundFlags : Option (Img K)

/-- `np.matmul(mij, np.expand_dims(pols, 0), axes=[(-4,-3),(-3,-4),(-4,-3)])[:, 0]`: at every position the 3x4
matrix times the four values; the two position axes broadcast.
Models: micropol_image.py:364-372. -/
def matmulPols (mij : Fin 3 → Fin 4 → Img K) (pols : Fin 4 → Img K) : Py (Fin 3 → Img K) := do
  let h ← bdim (mij 0 0).h (pols 0).h
  let w ← bdim (mij 0 0).w (pols 0).w
  let m (i : Fin 3) (j : Fin 4) (y x : Nat) : K := (mij i j).px (bidx (mij 0 0).h y) (bidx (mij 0 0).w x)
  let p (j : Fin 4) (y x : Nat) : K := (pols j).px (bidx (pols 0).h y) (bidx (pols 0).w x)
  pure (fun i => Img.ofFn h w (fun y x =>
    m i 0 y x * p 0 y x + m i 1 y x * p 1 y x + m i 2 y x * p 2 y x + m i 3 y x * p 3 y x))

/-- `np.where(flags == 1.0, S, theo_S)` on three planes.
Models: micropol_image.py:377. -/
def whereFlags (flags : Img K) (S theoS : Fin 3 → Img K) : Py (Fin 3 → Img K) := do
  let mask := flags.map (fun v => decide (v = 1))
  let s0 ← npWhere mask (S 0) (theoS 0)
  let s1 ← npWhere mask (S 1) (theoS 1)
  let s2 ← npWhere mask (S 2) (theoS 2)
  pure ![s0, s1, s2]

/-- `merge_polarizations` of four copies of one array.
Models: micropol_image.py:320-322, :323-325. -/
def repeatPerSuperpixel (A : Img K) : Py (Img K) := mergePolarizations (fun _ => A)

/-- Stokes vector of `image.demodulate(D, demosaicing=False)`; `data`, `stokes` are the image's data and previous
Stokes vector.
Models: micropol_image.py:303, :327-328, :364-379. -/
def demodulatePlain (data : Img K) (stokes : Fin 3 → Img K) (D : Demodulator K) : Py (Fin 3 → Img K) := do
  let pols ← splitPolarizations data
  let S ← matmulPols D.mij pols
  match D.fitFoundFlags with
  | some flags => whereFlags flags S stokes
  | none => pure S

/-- Stokes vector of `image.demodulate(D, demosaicing=True)`.
Models: micropol_image.py:303-325, :364-379 with `self.demosaic()` (:806-821), which replaces the Stokes vector by
the theoretical one of the demosaiced images.  `None.astype` raises `AttributeError`. -/
def demodulateDemosaicing (data : Img K) (dic : AngleDic) (D : Demodulator K) : Py (Fin 3 → Img K) := do
  let demosaiced ← demosaic data "adjacent"
  let stokes ← theoStokes demosaiced dic
  let m00 ← repeatPerSuperpixel (D.mij 0 0)
  let m01 ← repeatPerSuperpixel (D.mij 0 1)
  let m02 ← repeatPerSuperpixel (D.mij 0 2)
  let m03 ← repeatPerSuperpixel (D.mij 0 3)
  let m10 ← repeatPerSuperpixel (D.mij 1 0)
  let m11 ← repeatPerSuperpixel (D.mij 1 1)
  let m12 ← repeatPerSuperpixel (D.mij 1 2)
  let m13 ← repeatPerSuperpixel (D.mij 1 3)
  let m20 ← repeatPerSuperpixel (D.mij 2 0)
  let m21 ← repeatPerSuperpixel (D.mij 2 1)
  let m22 ← repeatPerSuperpixel (D.mij 2 2)
  let m23 ← repeatPerSuperpixel (D.mij 2 3)
  match D.fitFoundFlags with
  | none => .error .attributeError
  | some f => do
    let flags ← repeatPerSuperpixel f
    let S ← matmulPols ![![m00, m01, m02, m03], ![m10, m11, m12, m13], ![m20, m21, m22, m23]] demosaiced
    whereFlags flags S stokes

end

end Micropol

import Verif.Model.Stokes
import Mathlib.Analysis.SpecialFunctions.Complex.Arg
import Mathlib.Analysis.Real.Sqrt

/-!
# Model of `micropolarray/polarization_functions.py` and of the Malus function, over ℝ

`np.arctan2(y, x)` is the argument of the complex number `x + iy`, which lies in `(-π, π]` and is 0 at the
origin.  (IEEE signed zeros, for which numpy can also return `-π`, are not modelled: exact arithmetic.)
-/

set_option autoImplicit false

namespace Micropol

/-- `np.arctan2(y, x)`.
Models: polarization_functions.py:14-30. -/
noncomputable def arctan2 (y x : ℝ) : ℝ := Complex.arg ⟨x, y⟩

/-- `AoLP(Stokes_vec_components)`.
Models: polarization_functions.py:14-30 (the code after the first `return` is dead). -/
noncomputable def AoLP (S : Fin 3 → Img ℝ) : Img ℝ :=
  Img.zipWith (fun u q => 0.5 * arctan2 (1.0 * u) (1.0 * q)) (S 2) (S 1)

/-- `pB(Stokes_vec_components)`.
Models: polarization_functions.py:59-62. -/
noncomputable def pB (S : Fin 3 → Img ℝ) : Img ℝ :=
  Img.zipWith (fun q u => Real.sqrt ((q * q) + (u * u))) (S 1) (S 2)

/-- `np.divide(a, b, where=mask, out=out)`.
Models: the call of polarization_functions.py:53-55.  Where the mask is false the old content of `out` stays;
a division by zero that is actually carried out is an error here (numpy would give NaN or infinity). -/
noncomputable def npDivideWhere (a b : Img ℝ) (mask : Img Bool) (out : Img ℝ) : Py (Img ℝ) :=
  open Classical in
  if ∃ y x, y < out.h ∧ x < out.w ∧ mask.px y x = true ∧ b.px y x = 0 then .error .notFinite
  else .ok (Img.ofFn out.h out.w (fun y x => if mask.px y x then a.px y x / b.px y x else out.px y x))

/-- `DoLP(Stokes_vec_components)`.
Models: polarization_functions.py:47-56. -/
noncomputable def DoLP (S : Fin 3 → Img ℝ) : Py (Img ℝ) :=
  open Classical in
  npDivideWhere (Img.zipWith (fun q u => Real.sqrt ((q * q) + (u * u))) (S 1) (S 2)) (S 0)
    (Img.map (fun i => decide (i ≠ 0)) (S 0)) (Img.zeros (S 0).h (S 0).w)

/-- `Malus(angle, throughput, efficiency, phase)`.
Models: processing/demodulation.py:1062-1068. -/
noncomputable def Malus (angle throughput efficiency phase : ℝ) : ℝ :=
  let modulatedEfficiency := efficiency *
    (Real.cos (2.0 * phase) * Real.cos (2.0 * angle) + Real.sin (2.0 * phase) * Real.sin (2.0 * angle))
  0.5 * throughput * (1.0 + modulatedEfficiency)

end Micropol

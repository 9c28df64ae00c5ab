import Verif.Model.Demosaic
import Mathlib.Data.Fin.VecNotation

/-!
# Model of the theoretical Stokes vector and of the polarization family accessors

`micropolarray/micropol_image.py`, `micropolarray/cameras.py`.
-/

set_option autoImplicit false

namespace Micropol

/-- A micropolarizer orientation dictionary `{angle in degrees : position in the superpixel}`.
Models: the dictionaries of cameras.py:58, :70-75 and micropol_image.py:56.  A Python dict with integer keys and
values is a partial function; the order of its entries is never used. -/
abbrev AngleDic := Int → Option Int

/-- `angle_dic[a]`.
Models: the subscripts of micropol_image.py:193, :203, :213, :223, :278-279. -/
def AngleDic.get (d : AngleDic) (a : Int) : Py Int :=
  match d a with
  | some p => .ok p
  | none => .error .keyError

/-- `PolarCam().angle_dic` (and `Kasi().angle_dic`).
Models: cameras.py:58, :70-75. -/
def polarCamAngles : AngleDic := fun a =>
  if a = 0 then some 0 else if a = 45 then some 1 else if a = -45 then some 2 else if a = 90 then some 3 else none

section
variable {K : Type}

/-- Subscript `subimages[p]` of an array with four planes (negative subscripts wrap, others raise).
Models: the subscripts of micropol_image.py:193, :203, :213, :223, :278-279. -/
def sub4 {β : Type} (s : Fin 4 → β) (p : Int) : Py β :=
  match Img.resolve 4 p with
  | some k => if h : k < 4 then .ok (s ⟨k, h⟩) else .error .indexError
  | none => .error .indexError

/-- `image.pol0`, `pol45`, `pol_45`, `pol90` (`angle` = 0, 45, -45, 90): the sub-image of that orientation.
Models: micropol_image.py:185-227. -/
def polFamily [Zero K] (data : Img K) (dic : AngleDic) (angle : Int) : Py (Img K) := do
  let subimages ← splitPolarizations data
  let p ← dic.get angle
  sub4 subimages p

variable [Zero K] [One K] [Add K] [Sub K] [Mul K] [Div K] [OfNat K 2]

/-- Elementwise combination of two arrays of one shape.
Models: numpy's `-` in micropol_image.py:278-279 on planes of one array (equal shapes, no broadcasting). -/
def Img.zipWith {α β γ : Type} [Zero α] [Zero β] [Zero γ] (f : α → β → γ) (A : Img α) (B : Img β) : Img γ :=
  Img.ofFn A.h A.w (fun y x => f (A.px y x) (B.px y x))

/-- `_get_theo_Stokes_vec_components` once `subimages` has been chosen.
Models: micropol_image.py:277-282. -/
def theoStokes (subimages : Fin 4 → Img K) (dic : AngleDic) : Py (Fin 3 → Img K) := do
  let I : Img K := Img.ofFn (subimages 0).h (subimages 0).w (fun y x =>
    (1 / 2) * ((subimages 0).px y x + (subimages 1).px y x + (subimages 2).px y x + (subimages 3).px y x))
  let p0 ← dic.get 0
  let s0 ← sub4 subimages p0
  let p90 ← dic.get 90
  let s90 ← sub4 subimages p90
  let p45 ← dic.get 45
  let s45 ← sub4 subimages p45
  let pm45 ← dic.get (-45)
  let sm45 ← sub4 subimages pm45
  pure ![I, Img.zipWith (· - ·) s0 s90, Img.zipWith (· - ·) s45 sm45]

/-- Stokes vector of an image that is not demosaiced: what `MicropolImage(data, angle_dic)` computes.
Models: micropol_image.py:273-282 with `_is_demosaiced` false. -/
def dataStokes (data : Img K) (dic : AngleDic) : Py (Fin 3 → Img K) := do
  let subimages ← splitPolarizations data
  theoStokes subimages dic

end

end Micropol

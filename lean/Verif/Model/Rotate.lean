import Verif.Model.Folder
import Verif.Model.Rebin

/-!
# Quarter turns and flips: `np.rot90`, `np.flip`, `Demodulator.rot90/flip/rebin`, `align_keywords_and_data`
-/

set_option autoImplicit false

namespace Micropol

section
variable {K : Type} [Field K]

/-- `np.rot90(A, k)` (counterclockwise; numpy's own case distinction on `k % 4`).  numpy: `k = 1` is
`transpose(flip(m, 1))`, `k = 2` is `flip(flip(m, 0), 1)`, `k = 3` is `flip(transpose(m), 1)`.
Models: processing/demodulation.py:261; utils.py:176. -/
def npRot90 (A : Img K) (k : Int) : Img K :=
  if k % 4 = 0 then A
  else if k % 4 = 1 then Img.ofFn A.w A.h (fun y x => A.px x (A.w - 1 - y))
  else if k % 4 = 2 then Img.ofFn A.h A.w (fun y x => A.px (A.h - 1 - y) (A.w - 1 - x))
  else Img.ofFn A.w A.h (fun y x => A.px (A.h - 1 - x) y)

/-- `np.flip(A, axis)`; `none` flips both axes; axes outside -2..1 raise `AxisError` (a `ValueError`).
Models: processing/demodulation.py:266; utils.py:177. -/
def npFlip (A : Img K) (axis : Option Int) : Py (Img K) :=
  match axis with
  | none => .ok (Img.ofFn A.h A.w (fun y x => A.px (A.h - 1 - y) (A.w - 1 - x)))
  | some a =>
    if a = 0 ∨ a = -2 then .ok (Img.ofFn A.h A.w (fun y x => A.px (A.h - 1 - y) x))
    else if a = 1 ∨ a = -1 then .ok (Img.ofFn A.h A.w (fun y x => A.px y (A.w - 1 - x)))
    else .error .valueError

/-- `mij[i, j] = f(mij[i, j])` for all twelve planes in order; the first failing assignment raises (all planes have
one shape, so then nothing has been changed).
Models: processing/demodulation.py:259-261, :264-266. -/
def mapPlanes (f : Img K → Py (Img K)) (mij : Fin 3 → Fin 4 → Img K) : Py (Fin 3 → Fin 4 → Img K) :=
  forRange 0 3 1 mij fun i m => forRange 0 4 1 m fun j m =>
    if hij : i.toNat < 3 ∧ j.toNat < 4 then
      f (m ⟨i.toNat, hij.1⟩ ⟨j.toNat, hij.2⟩) >>= fun r =>
      assignPlane (m ⟨i.toNat, hij.1⟩ ⟨j.toNat, hij.2⟩).h (m ⟨i.toNat, hij.1⟩ ⟨j.toNat, hij.2⟩).w r >>= fun p =>
      .ok (fun a b => if a = ⟨i.toNat, hij.1⟩ ∧ b = ⟨j.toNat, hij.2⟩ then p else m a b)
    else .error .indexError

/-- `demodulator.rot90(k)`: the demodulator afterwards.
Models: processing/demodulation.py:257-261. -/
def Demodulator.rot90 (D : Demodulator K) (k : Int) : Py (Demodulator K) :=
  mapPlanes (fun A => .ok (npRot90 A k)) D.mij >>= fun m => .ok { D with mij := m }

/-- `demodulator.flip(axis)`: the demodulator afterwards.
Models: processing/demodulation.py:263-266. -/
def Demodulator.flip (D : Demodulator K) (axis : Option Int) : Py (Demodulator K) :=
  mapPlanes (fun A => npFlip A axis) D.mij >>= fun m => .ok { D with mij := m }

/-- `demodulator.rebin(binning)` for a positive binning: reads the folder again and averages each component over
`binning × binning` blocks; the fit flags are those of the folder, not binned.
Models: processing/demodulation.py:231-255 (a zero binning raises `ZeroDivisionError`; negative ones are left out). -/
noncomputable def Demodulator.rebin (D : Demodulator K) (folder : Option (Listing K)) (binning : Nat) :
    Py (Demodulator K) :=
  if binning = 0 then .error .zeroDivisionError
  else if (D.mij 0 0).h / binning % 2 ≠ 0 ∨ (D.mij 0 0).w / binning % 2 ≠ 0 then .error .valueError
  else
    loadDemodulator folder >>= fun N =>
    mapTo (N.mij 0 0).h (N.mij 0 0).w binning N.mij >>= fun m => .ok { N with mij := m }
where
  mapTo (h w binning : Nat) (mij : Fin 3 → Fin 4 → Img K) : Py (Fin 3 → Fin 4 → Img K) :=
    forRange 0 3 1 (fun _ _ => Img.zeros (h / binning) (w / binning)) fun i m => forRange 0 4 1 m fun j m =>
      if hij : i.toNat < 3 ∧ j.toNat < 4 then
        standardRebin (mij ⟨i.toNat, hij.1⟩ ⟨j.toNat, hij.2⟩) (binning : Int) >>= fun r =>
        assignPlane (h / binning) (w / binning) (r.map (fun v => v / ((binning : K) * (binning : K)))) >>= fun p =>
        .ok (fun a b => if a = ⟨i.toNat, hij.1⟩ ∧ b = ⟨j.toNat, hij.2⟩ then p else m a b)
      else .error .indexError

/-- The part of a FITS header that `align_keywords_and_data` computes (it also sets constant keywords, and joins
`DATE-OBS` with `TIME-OBS`).
Models: utils.py:180-214. -/
structure AlignHeader (K : Type) where
  naxis1 : Int
  naxis2 : Int
  cdelt1 : K
  cdelt2 : K
  crpix1 : Int
  crpix2 : Int
  dateObs : List Char

/-- What happens to one family: `single_pol_images[i] = np.rot90(single_pol_images[i], k=-1)`, then
`single_pol_images[i] = np.flip(single_pol_images[i], axis=0)` (both assign into a plane of fixed shape).
Models: utils.py:176-177. -/
def alignFamily (A : Img K) : Py (Img K) :=
  assignPlane A.h A.w (npRot90 A (-1)) >>= fun B => npFlip B (some 0) >>= fun C => assignPlane A.h A.w C

/-- Data returned by `align_keywords_and_data`: each family is turned clockwise and flipped upside down.
Models: utils.py:172-178. -/
def alignData (data : Img K) : Py (Img K) := do
  let s ← splitPolarizations data
  let s0 ← alignFamily (s 0)
  let s1 ← alignFamily (s 1)
  let s2 ← alignFamily (s 2)
  let s3 ← alignFamily (s 3)
  mergePolarizations ![s0, s1, s2, s3]

end

/-- `align_keywords_and_data(header, data, (y, x), platescale, binning)`; `trunc` is Python's `int(·)`.
Models: utils.py:159-216. -/
def alignKeywordsAndData {K : Type} [Field K] (trunc : K → Int) (dateObs timeObs : List Char) (data : Img K)
    (y x platescale : K) (binning : Int) : Py (AlignHeader K × Img K) := do
  let data ← alignData data
  let height : Int := data.h
  let width : Int := data.w
  let platescale := if binning > 1 then platescale * (binning : K) else platescale
  let sunX := trunc ((width : K) * (x / 1952))
  let sunY := trunc ((height : K) * (y / 1952))
  pure ({ naxis1 := height, naxis2 := width, cdelt1 := platescale, cdelt2 := platescale,
          crpix1 := height - sunY, crpix2 := width - sunX, dateObs := dateObs ++ ['T'] ++ timeObs }, data)

end Micropol

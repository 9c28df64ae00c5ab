import Verif.Lemmas.ObjectDefault
import Verif.Lemmas.Folder
import Verif.Props.Roi

/-! # Rewriting of Stokes planes, and masks -/

set_option autoImplicit false

namespace Micropol

open Classical

noncomputable section

theorem rewritePlaneV_ok {f : Img ℝ → Py (Img ℝ)} {sv : StokesVec} {k : Fin 3} {P : Img ℝ} (hf : f (sv.planes k) = .ok P)
    (hh : P.h = (sv.planes k).h) (hw : P.w = (sv.planes k).w) :
    rewritePlaneV f k sv = .ok ⟨fun j => if j = k then P else sv.planes j, sv.isList⟩ := by
  unfold rewritePlaneV setPlaneV
  rw [hf, Py.ok_bind]
  split
  · rfl
  · rw [assignPlane_same ⟨hh, hw⟩]
    rfl

/-- If all three results fit, all three planes are replaced. -/
theorem rewriteV_ok {f : Img ℝ → Py (Img ℝ)} {sv : StokesVec} {P : Fin 3 → Img ℝ} (hf : ∀ k, f (sv.planes k) = .ok (P k))
    (hh : ∀ k, (P k).h = (sv.planes k).h) (hw : ∀ k, (P k).w = (sv.planes k).w) :
    rewriteV f sv = (.ok (), ⟨P, sv.isList⟩) := by
  unfold rewriteV
  rw [rewritePlaneV_ok (hf 0) (hh 0) (hw 0)]
  dsimp only
  rw [rewritePlaneV_ok (k := 1) (P := P 1) (by exact hf 1) (by exact hh 1) (by exact hw 1)]
  dsimp only
  rw [rewritePlaneV_ok (k := 2) (P := P 2) (by exact hf 2) (by exact hh 2) (by exact hw 2)]
  dsimp only
  congr 2
  funext j
  fin_cases j <;> rfl

/-- The superpixels outside the occulter: centre and radius are halved and truncated. -/
def OutsideOcculter (h w : Nat) (y x r : ℝ) (Y X : Nat) : Prop :=
  InRegion (((pyInt (y / 2) : ℤ) : ℝ), ((pyInt (x / 2) : ℤ) : ℝ)) (((pyInt (r / 2) : ℤ) : ℝ), ((max h w : Nat) : ℝ)) (0, 360)
    (Y : ℝ) (X : ℝ)

theorem occulterRoi_data {A : Img ℝ} (hh : A.h % 2 = 0) (hw : A.w % 2 = 0) (y x r fill : ℝ) :
    ∃ B, occulterRoi A y x r fill true = .ok B ∧
      IsSelection A (fun Y X => OutsideOcculter A.h A.w y x r (Y / 2) (X / 2)) fill B := by
  refine C46_superpixels A hh hw (y, x) (r, 2 * ((max A.h A.w : Nat) : ℝ)) (0, 360) fill _ _ _ ((max A.h A.w : Nat) : ℤ)
    (pyInt_trunc _) (pyInt_trunc _) (pyInt_trunc _) ?_
  have e : (2 * ((max A.h A.w : Nat) : ℝ)) / 2 = ((max A.h A.w : Nat) : ℝ) := by ring
  show IsTrunc ((2 * ((max A.h A.w : Nat) : ℝ)) / 2) _
  rw [e]
  have h0 : (0 : ℝ) ≤ ((max A.h A.w : Nat) : ℝ) := Nat.cast_nonneg _
  refine ⟨?_, ?_, ?_⟩
  · rw [Int.cast_natCast]
  · rw [Int.cast_natCast, abs_of_nonneg h0]
    linarith
  · rw [Int.cast_natCast]
    exact mul_nonneg h0 h0

theorem occulterRoi_stokes {A : Img ℝ} {h w : Nat} (hh : h % 2 = 0) (hw : w % 2 = 0) (hA : A.h = h / 2) (hA' : A.w = w / 2)
    (y x r fill : ℝ) :
    ∃ B, occulterRoi A ((pyInt (y / 2) : ℤ) : ℝ) ((pyInt (x / 2) : ℤ) : ℝ) ((pyInt (r / 2) : ℤ) : ℝ) fill false = .ok B ∧
      IsSelection A (fun Y X => OutsideOcculter h w y x r Y X) fill B := by
  have e : (2 * ((max A.h A.w : Nat) : ℝ)) = ((max h w : Nat) : ℝ) := by
    have : 2 * max A.h A.w = max h w := by rw [hA, hA']; omega
    exact_mod_cast this
  unfold occulterRoi OutsideOcculter
  rw [e]
  exact C46_pixels A _ _ _ fill

/-- `mask_occulter` on an image that is not demosaiced and whose Stokes maps have half the size. -/
theorem maskOcculterV_plain {v : ImgView} (hd : v.isDemosaiced = false) (hh : v.data.h % 2 = 0) (hw : v.data.w % 2 = 0)
    (hs : ∀ k, (v.stokes.planes k).h = v.data.h / 2 ∧ (v.stokes.planes k).w = v.data.w / 2) (y x r over fill : ℝ) :
    ∃ d' S', maskOcculterV y x r over fill v = (.ok (), { v with data := d', stokes := ⟨S', v.stokes.isList⟩ }) ∧
      IsSelection v.data (fun Y X => OutsideOcculter v.data.h v.data.w y x (r + over) (Y / 2) (X / 2)) fill d' ∧
      ∀ k, IsSelection (v.stokes.planes k) (fun Y X => OutsideOcculter v.data.h v.data.w y x (r + over) Y X) fill (S' k) := by
  obtain ⟨d', e1, e2⟩ := occulterRoi_data hh hw y x (r + over) fill
  choose S' g1 g2 using fun k => occulterRoi_stokes hh hw (hs k).1 (hs k).2 y x (r + over) fill
  refine ⟨d', S', ?_, e2, g2⟩
  have hrew := rewriteV_ok (sv := v.stokes) (f := fun A => occulterRoi A ((pyInt (y / 2) : ℤ) : ℝ) ((pyInt (x / 2) : ℤ) : ℝ)
    ((pyInt ((r + over) / 2) : ℤ) : ℝ) fill false) g1 (fun k => (g2 k).1) (fun k => (g2 k).2.1)
  unfold maskOcculterV
  rw [e1]
  unfold withVal maskDemosaicedV
  dsimp only
  rw [hd]
  unfold andThen rewriteStokesV
  dsimp only
  rw [hrew]
  simp

end

end Micropol

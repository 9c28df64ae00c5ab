import Verif.Model.Corrections
import Verif.Lemmas.NumPy
import Verif.Lemmas.Demosaic
import Verif.Basic.Tile

/-! Closed forms of the correction kernels. -/

set_option autoImplicit false

namespace Micropol

variable {K : Type} [Zero K] [One K] [Add K] [Mul K] [Div K] [OfNat K 4]

/-- IFOV corrected image in closed form. -/
def ifovClosed (d : Img K) : Img K := Img.ofFn d.h d.w (fun y x =>
  if 2 ≤ y ∧ 2 ≤ x then (1 / 4) * (d.px (y - 2) (x - 2) + d.px (y - 2) x + d.px y (x - 2) + d.px y x) else 0)

theorem ifov_ok (d : Img K) (hh : d.h % 2 = 0) (hw : d.w % 2 = 0) :
    ifovJitcorrect d d.h d.w = .ok (ifovClosed d) := by
  unfold ifovJitcorrect
  have key := tileLoop (α := K) 2 2 2 ((d.h - 2) / 2) ((d.w - 2) / 2) (b := d.h) (d := d.w)
    (Img.zeros d.h d.w)
    (fun y x => (1 / 4) * (d.px (y - 2) (x - 2) + d.px (y - 2) x + d.px y (x - 2) + d.px y x))
    (body := fun superY superX corrected => forRange 0 2 1 corrected fun i corrected =>
        forRange 0 2 1 corrected fun j corrected => do
          let a ← d.read (superY + j - 2) (superX + i - 2)
          let b ← d.read (superY + j - 2) (superX + i)
          let c ← d.read (superY + j) (superX + i - 2)
          let e ← d.read (superY + j) (superX + i)
          corrected.write (superY + j) (superX + i) ((1 / 4) * (a + b + c + e)))
    (by omega) (by omega) ?_
  · simp only [Nat.cast_ofNat] at key
    rw [key]
    congr 1
    refine Img.ext_px rfl rfl ?_
    intro y x (hy : y < d.h) (hx : x < d.w)
    rw [Img.patch_px _ _ _ _ _ _ (by exact hy) (by exact hx)]
    unfold ifovClosed
    rw [Img.ofFn_px hy hx]
    by_cases hc : 2 ≤ y ∧ 2 ≤ x
    · rw [if_pos hc, if_pos (by omega)]
    · rw [if_neg hc, if_neg (by omega)]
      exact Img.ofFn_px hy hx
  · intro Y X A hY hX hAh hAw _
    simp only [Img.zeros, Img.const, Img.ofFn_h, Img.ofFn_w] at hAh hAw
    have rd : ∀ (j i : Nat) (u v : Int), (u = 0 ∨ u = 2) → (v = 0 ∨ v = 2) → j < 2 → i < 2 →
        d.read (((2 + Y * 2 : Nat) : Int) + j - u) (((2 + X * 2 : Nat) : Int) + i - v)
        = .ok (d.px (2 + Y * 2 + j - u.toNat) (2 + X * 2 + i - v.toNat)) := by
      intro j i u v hu hv hj hi
      refine Img.readE_ok ?_ ?_ ?_ ?_ <;> rcases hu with rfl | rfl <;> rcases hv with rfl | rfl <;> simp <;> omega
    have step : ∀ (j i : Nat) (B : Img K), j < 2 → i < 2 → B.h = d.h → B.w = d.w →
        (do
          let a ← d.read (((2 + Y * 2 : Nat) : Int) + (j : Int) - 2) (((2 + X * 2 : Nat) : Int) + (i : Int) - 2)
          let b ← d.read (((2 + Y * 2 : Nat) : Int) + (j : Int) - 2) (((2 + X * 2 : Nat) : Int) + (i : Int))
          let c ← d.read (((2 + Y * 2 : Nat) : Int) + (j : Int)) (((2 + X * 2 : Nat) : Int) + (i : Int) - 2)
          let e ← d.read (((2 + Y * 2 : Nat) : Int) + (j : Int)) (((2 + X * 2 : Nat) : Int) + (i : Int))
          B.write (((2 + Y * 2 : Nat) : Int) + (j : Int)) (((2 + X * 2 : Nat) : Int) + (i : Int))
            ((1 / 4) * (a + b + c + e)))
        = .ok (B.setPx (2 + Y * 2 + j) (2 + X * 2 + i) ((fun y x => (1 / 4) * (d.px (y - 2) (x - 2)
            + d.px (y - 2) x + d.px y (x - 2) + d.px y x)) (2 + Y * 2 + j) (2 + X * 2 + i))) := by
      intro j i B hj hi hBh hBw
      have r00 := rd j i 2 2 (by simp) (by simp) hj hi
      have r01 := rd j i 2 0 (by simp) (by simp) hj hi
      have r10 := rd j i 0 2 (by simp) (by simp) hj hi
      have r11 := rd j i 0 0 (by simp) (by simp) hj hi
      simp only [Int.sub_zero, Int.toNat_zero, Nat.sub_zero, show (2 : Int).toNat = 2 from rfl] at r00 r01 r10 r11
      rw [r00, Py.ok_bind, r01, Py.ok_bind, r10, Py.ok_bind, r11, Py.ok_bind,
        Img.write_ok (y := 2 + Y * 2 + j) (x := 2 + X * 2 + i) (by push_cast; rfl) (by push_cast; rfl)
          (by omega) (by omega)]
    have s00 := step 0 0 A (by decide) (by decide) hAh hAw
    simp only [forRange_zero_two]
    have n0 : ((0 : Nat) : Int) = 0 := rfl
    have n1 : ((1 : Nat) : Int) = 1 := rfl
    have s10 := fun B h w => step 1 0 B (by decide) (by decide) h w
    have s01 := fun B h w => step 0 1 B (by decide) (by decide) h w
    have s11 := fun B h w => step 1 1 B (by decide) (by decide) h w
    rw [n0] at s00 s10 s01
    rw [n1] at s10 s01 s11
    rw [s00, Py.ok_bind, s10 _ (by simpa using hAh) (by simpa using hAw), Py.ok_bind,
      s01 _ (by simpa using hAh) (by simpa using hAw), Py.ok_bind,
      s11 _ (by simpa using hAh) (by simpa using hAw)]
    congr 1
    simp only [Nat.add_zero]
    exact setPx4_eq_patch A (2 + Y * 2) (2 + X * 2) (fun y x => (1 / 4) * (d.px (y - 2) (x - 2)
            + d.px (y - 2) x + d.px y (x - 2) + d.px y x))

end Micropol

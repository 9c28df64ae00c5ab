import Verif.Model.Shift
import Verif.Basic.Tile
import Verif.Lemmas.Split

/-! Closed form of the shift kernel. -/

set_option autoImplicit false

namespace Micropol

variable {α : Type} [Zero α]

/-- Shifted array in closed form. -/
def shiftClosed (d : Img α) (y x : Int) (m : α) : Img α :=
  Img.ofFn d.h d.w (fun j i =>
    if 0 ≤ (j : Int) - y ∧ (j : Int) - y < d.h ∧ 0 ≤ (i : Int) - x ∧ (i : Int) - x < d.w
    then d.px ((j : Int) - y).toNat ((i : Int) - x).toNat else m)

@[simp] theorem shiftClosed_h (d : Img α) (y x : Int) (m : α) : (shiftClosed d y x m).h = d.h := rfl
@[simp] theorem shiftClosed_w (d : Img α) (y x : Int) (m : α) : (shiftClosed d y x m).w = d.w := rfl

theorem shiftKernel_ok (d : Img α) (y x : Int) (m : α) :
    shiftKernel d y x m = .ok (shiftClosed d y x m) := by
  unfold shiftKernel
  obtain ⟨a, ha⟩ : ∃ a : Nat, (if y > 0 then y else 0) = (a : Int) := ⟨y.toNat, by split <;> omega⟩
  obtain ⟨c, hc⟩ : ∃ c : Nat, (if x > 0 then x else 0) = (c : Int) := ⟨x.toNat, by split <;> omega⟩
  have hy' : (if y < 0 then |y| else 0) = (a : Int) - y := by
    split at ha <;> split <;> first | omega | (rw [abs_of_neg (by assumption)]; omega)
  have hx' : (if x < 0 then |x| else 0) = (c : Int) - x := by
    split at hc <;> split <;> first | omega | (rw [abs_of_neg (by assumption)]; omega)
  have ha0 : y ≤ a := by split at ha <;> omega
  have hc0 : x ≤ c := by split at hc <;> omega
  have ha1 : (a : Int) = 0 ∨ (a : Int) = y := by split at ha <;> omega
  have hc1 : (c : Int) = 0 ∨ (c : Int) = x := by split at hc <;> omega
  rw [ha, hc, hy', hx']
  have key := tileLoop (α := α) 1 a c
    (((d.h : Int) - ((a : Int) - y)) - a + (1 : Nat) - 1).toNat
    (((d.w : Int) - ((c : Int) - x)) - c + (1 : Nat) - 1).toNat
    (b := (d.h : Int) - ((a : Int) - y)) (d := (d.w : Int) - ((c : Int) - x))
    (Img.const d.h d.w m)
    (fun j i => d.px ((j : Int) - y).toNat ((i : Int) - x).toNat)
    (body := fun j i newdata => (do
          let v ← d.read (j - y) (i - x)
          newdata.write j i v))
    (by simp) (by simp) ?_
  · rw [key]
    congr 1
    refine Img.ext_px rfl rfl ?_
    intro j i (hj : j < d.h) (hi : i < d.w)
    rw [Img.patch_px _ _ _ _ _ _ (by simpa [Img.const] using hj) (by simpa [Img.const] using hi)]
    unfold shiftClosed Img.const
    rw [Img.ofFn_px hj hi, Img.ofFn_px hj hi]
    by_cases h1 : 0 ≤ (j : Int) - y ∧ (j : Int) - y < d.h ∧ 0 ≤ (i : Int) - x ∧ (i : Int) - x < d.w
    · rw [if_pos h1, if_pos (by omega)]
    · rw [if_neg h1, if_neg (by omega)]
  · intro Y X A hY hX hAh hAw _
    simp only [Nat.mul_one] at *
    simp only [Img.const, Img.ofFn_h, Img.ofFn_w] at hAh hAw
    have e1 : d.read (((a + Y : Nat) : Int) - y) (((c + X : Nat) : Int) - x)
        = .ok (d.px (((a + Y : Nat) : Int) - y).toNat (((c + X : Nat) : Int) - x).toNat) :=
      Img.readE_ok (by omega) (by omega) (by omega) (by omega)
    rw [e1, Py.ok_bind, Img.write_ok rfl rfl (by omega) (by omega)]
    rw [Img.setPx_eq_patch A (a + Y) (c + X) (fun j i => d.px ((j : Int) - y).toNat ((i : Int) - x).toNat)]

theorem shiftClosed_px (d : Img α) (y x : Int) (m : α) {j i : Nat} (hj : j < d.h) (hi : i < d.w) :
    (shiftClosed d y x m).px j i =
    if 0 ≤ (j : Int) - y ∧ (j : Int) - y < d.h ∧ 0 ≤ (i : Int) - x ∧ (i : Int) - x < d.w
    then d.px ((j : Int) - y).toNat ((i : Int) - x).toNat else m := Img.ofFn_px hj hi

theorem shiftMicropol_ok (d : Img α) (hh : d.h % 2 = 0) (hw : d.w % 2 = 0) (y x : Int) (m : α) :
    shiftMicropol d y x m = .ok (shiftClosed d (2 * y) (2 * x) m) := by
  unfold shiftMicropol
  rw [split_ok hh hw, Py.ok_bind]
  simp only [shiftKernel_ok, Py.ok_bind]
  rw [vec4_eta (fun k : Fin 4 => shiftClosed (Img.ofFn (d.h / 2) (d.w / 2)
        (fun y x => d.px (2 * y + k.val / 2) (2 * x + k.val % 2))) y x m)]
  rw [merge_ok (h := d.h / 2) (w := d.w / 2) (fun _ => rfl) (fun _ => rfl)]
  congr 1
  refine Img.ext_px (by simp only [Img.ofFn_h, shiftClosed]; omega)
    (by simp only [Img.ofFn_w, shiftClosed]; omega) ?_
  intro j i hj hi
  simp only [Img.ofFn_h, Img.ofFn_w] at hj hi
  rw [Img.ofFn_px hj hi, shiftClosed_px _ _ _ _ (by imglt) (by imglt),
    shiftClosed_px _ _ _ _ (by imglt) (by imglt)]
  simp only [Img.ofFn_h, Img.ofFn_w, famIdx_val_div, famIdx_val_mod]
  by_cases h1 : 0 ≤ (j : Int) - 2 * y ∧ (j : Int) - 2 * y < d.h ∧ 0 ≤ (i : Int) - 2 * x ∧
      (i : Int) - 2 * x < d.w
  · rw [if_pos h1, if_pos (by omega), Img.ofFn_px (by omega) (by omega)]
    congr 1 <;> omega
  · rw [if_neg h1, if_neg (by omega)]

end Micropol

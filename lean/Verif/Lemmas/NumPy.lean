import Verif.Model.NumPy
import Mathlib.Tactic.Common

/-! Broadcasting of equally shaped arrays. -/

set_option autoImplicit false

namespace Micropol

variable {α β γ : Type} [Zero α] [Zero β] [Zero γ]

theorem bdim_self (a : Nat) : bdim a a = .ok a := by simp [bdim]

theorem bidx_of_lt {side i : Nat} (h : i < side) : bidx side i = i := by
  unfold bidx
  split <;> omega

theorem npBinAt_ok {f : Nat → Nat → α → β → γ} {A : Img α} {B : Img β} (hh : A.h = B.h) (hw : A.w = B.w) :
    npBinAt f A B = .ok (Img.ofFn A.h A.w (fun y x => f y x (A.px y x) (B.px y x))) := by
  unfold npBinAt
  rw [← hh, ← hw, bdim_self, bdim_self, Py.ok_bind, Py.ok_bind, Py.pure_eq]
  congr 1
  refine Img.ofFn_congr ?_
  intro y x hy hx
  rw [bidx_of_lt hy, bidx_of_lt hx]

theorem npBin_ok {f : α → β → γ} {A : Img α} {B : Img β} (hh : A.h = B.h) (hw : A.w = B.w) :
    npBin f A B = .ok (Img.ofFn A.h A.w (fun y x => f (A.px y x) (B.px y x))) := npBinAt_ok hh hw

theorem bdim_even {a b : Nat} (ha : a % 2 = 0) (hb : b % 2 = 0) (hab : a ≠ b) :
    bdim a b = .error .valueError := by
  unfold bdim
  rw [if_neg hab, if_neg (by omega), if_neg (by omega)]

/-- Two different even shapes never broadcast. -/
theorem npBinAt_error {f : Nat → Nat → α → β → γ} {A : Img α} {B : Img β} (ha : A.h % 2 = 0) (ha' : A.w % 2 = 0)
    (hb : B.h % 2 = 0) (hb' : B.w % 2 = 0) (hne : A.h ≠ B.h ∨ A.w ≠ B.w) :
    npBinAt f A B = .error .valueError := by
  unfold npBinAt
  by_cases h : A.h = B.h
  · have hw : A.w ≠ B.w := by rcases hne with h' | h' <;> [exact absurd h h'; exact h']
    rw [h, bdim_self, Py.ok_bind, bdim_even ha' hb' hw, Py.error_bind]
  · rw [bdim_even ha hb h, Py.error_bind]

theorem npWhere_ok {M : Img Bool} {A B : Img α} (h1 : A.h = B.h) (w1 : A.w = B.w) (h2 : M.h = B.h)
    (w2 : M.w = B.w) : npWhere M A B
      = .ok (Img.ofFn B.h B.w (fun y x => if M.px y x then A.px y x else B.px y x)) := by
  unfold npWhere
  rw [h1, w1, bdim_self, bdim_self, Py.ok_bind, Py.ok_bind, h2, w2, bdim_self, bdim_self, Py.ok_bind, Py.ok_bind,
    Py.pure_eq]
  congr 1
  refine Img.ofFn_congr ?_
  intro y x hy hx
  rw [bidx_of_lt hy, bidx_of_lt hx]

end Micropol

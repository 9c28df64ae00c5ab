import Verif.Lemmas.Shift
import Verif.Spec.Shift
import Mathlib.Algebra.Order.Ring.Int
import Mathlib.Tactic.NormNum

/-!
# C03, C04, C05: shifting images
-/

set_option autoImplicit false

namespace Micropol

variable {α : Type} [Zero α]

/-- C03: for every shape, content and integer shift the kernel returns (no access outside the arrays) and the
result is the shifted image. -/
theorem C03_shift (d : Img α) (y x : Int) (m : α) :
    ∃ r, shiftKernel d y x m = .ok r ∧ IsShiftOf d r y x m := by
  refine ⟨_, shiftKernel_ok d y x m, rfl, rfl, ?_, ?_⟩
  · intro j i j' i' hj hi hj' hi' e1 e2
    rw [shiftClosed_px _ _ _ _ hj hi, if_pos (by omega)]
    congr 1 <;> omega
  · intro j i hj hi hn
    rw [shiftClosed_px _ _ _ _ hj hi, if_neg]
    intro hc
    exact hn ⟨((j : Int) - y).toNat, ((i : Int) - x).toNat, by omega, by omega, by omega, by omega⟩

/-- C03: a shifted image is unique, so `C03_shift` determines the result completely. -/
theorem C03_shift_unique (d r r' : Img α) (y x : Int) (m : α) (h : IsShiftOf d r y x m)
    (h' : IsShiftOf d r' y x m) : r = r' := by
  refine Img.ext_px (h.1.trans h'.1.symm) (h.2.1.trans h'.2.1.symm) ?_
  intro j i hj hi
  rw [h.1] at hj
  rw [h.2.1] at hi
  by_cases hc : ∃ j' i' : Nat, j' < d.h ∧ i' < d.w ∧ (j : Int) = j' + y ∧ (i : Int) = i' + x
  · obtain ⟨j', i', h1, h2, h3, h4⟩ := hc
    rw [h.2.2.1 j i j' i' hj hi h1 h2 h3 h4, h'.2.2.1 j i j' i' hj hi h1 h2 h3 h4]
  · rw [h.2.2.2 j i hj hi hc, h'.2.2.2 j i hj hi hc]

/-- C04: shifts in the same direction add up. -/
theorem C04_shift_add (d : Img α) (y₁ x₁ y₂ x₂ : Int) (m : α) (hy : 0 ≤ y₁ * y₂) (hx : 0 ≤ x₁ * x₂) :
    (shiftKernel d y₁ x₁ m >>= fun r => shiftKernel r y₂ x₂ m) = shiftKernel d (y₁ + y₂) (x₁ + x₂) m := by
  have hy' : (0 ≤ y₁ ∧ 0 ≤ y₂) ∨ (y₁ ≤ 0 ∧ y₂ ≤ 0) := by
    by_contra hc
    rcases (by omega : (y₁ > 0 ∧ y₂ < 0) ∨ (y₁ < 0 ∧ y₂ > 0)) with h | h
    · have := mul_neg_of_pos_of_neg h.1 h.2; omega
    · have := mul_neg_of_neg_of_pos h.1 h.2; omega
  have hx' : (0 ≤ x₁ ∧ 0 ≤ x₂) ∨ (x₁ ≤ 0 ∧ x₂ ≤ 0) := by
    by_contra hc
    rcases (by omega : (x₁ > 0 ∧ x₂ < 0) ∨ (x₁ < 0 ∧ x₂ > 0)) with h | h
    · have := mul_neg_of_pos_of_neg h.1 h.2; omega
    · have := mul_neg_of_neg_of_pos h.1 h.2; omega
  simp only [shiftKernel_ok, Py.ok_bind]
  congr 1
  refine Img.ext_px rfl rfl ?_
  intro j i (hj : j < d.h) (hi : i < d.w)
  rw [shiftClosed_px _ _ _ _ (by simpa [shiftClosed] using hj) (by simpa [shiftClosed] using hi),
    shiftClosed_px _ _ _ _ hj hi]
  have e1 : (shiftClosed d y₁ x₁ m).h = d.h := rfl
  have e2 : (shiftClosed d y₁ x₁ m).w = d.w := rfl
  rw [e1, e2]
  by_cases h1 : 0 ≤ (j : Int) - y₂ ∧ (j : Int) - y₂ < d.h ∧ 0 ≤ (i : Int) - x₂ ∧ (i : Int) - x₂ < d.w
  · rw [if_pos h1, shiftClosed_px _ _ _ _ (by omega) (by omega)]
    by_cases h2 : 0 ≤ (j : Int) - (y₁ + y₂) ∧ (j : Int) - (y₁ + y₂) < d.h ∧
        0 ≤ (i : Int) - (x₁ + x₂) ∧ (i : Int) - (x₁ + x₂) < d.w
    · rw [if_pos h2, if_pos (by omega)]
      congr 1 <;> omega
    · rw [if_neg h2, if_neg (by omega)]
  · rw [if_neg h1, if_neg (by omega)]

/-- C04: shifting forth and back restores exactly the pixels that stayed inside the frame. -/
theorem C04_shift_back (d : Img α) (y x : Int) (m : α) :
    ∃ r, (shiftKernel d y x m >>= fun r => shiftKernel r (-y) (-x) m) = .ok r ∧ r.h = d.h ∧ r.w = d.w ∧
    ∀ j i : Nat, j < d.h → i < d.w →
      r.px j i = if 0 ≤ (j : Int) + y ∧ (j : Int) + y < d.h ∧ 0 ≤ (i : Int) + x ∧ (i : Int) + x < d.w
        then d.px j i else m := by
  simp only [shiftKernel_ok, Py.ok_bind]
  refine ⟨_, rfl, rfl, rfl, ?_⟩
  intro j i hj hi
  rw [shiftClosed_px _ _ _ _ (by simpa [shiftClosed] using hj) (by simpa [shiftClosed] using hi)]
  have e1 : (shiftClosed d y x m).h = d.h := rfl
  have e2 : (shiftClosed d y x m).w = d.w := rfl
  rw [e1, e2]
  by_cases h1 : 0 ≤ (j : Int) + y ∧ (j : Int) + y < d.h ∧ 0 ≤ (i : Int) + x ∧ (i : Int) + x < d.w
  · rw [if_pos h1, if_pos (by omega), shiftClosed_px _ _ _ _ (by omega) (by omega), if_pos (by omega)]
    congr 1 <;> omega
  · rw [if_neg h1, if_neg (by omega)]

/-- C04: the zero shift is the identity. -/
theorem C04_shift_zero (d : Img α) (m : α) : shiftKernel d 0 0 m = .ok d := by
  rw [shiftKernel_ok]
  congr 1
  refine Img.ext_px rfl rfl ?_
  intro j i (hj : j < d.h) (hi : i < d.w)
  rw [shiftClosed_px _ _ _ _ hj hi, if_pos (by omega)]
  simp

/-- C05: the superpixel shift is the plain shift by twice the amount (data level). -/
theorem C05_shift_micropol (d : Img α) (hh : d.h % 2 = 0) (hw : d.w % 2 = 0) (y x : Int) (m : α) :
    shiftMicropol d y x m = shiftKernel d (2 * y) (2 * x) m := by
  rw [shiftMicropol_ok d hh hw, shiftKernel_ok]

/-- C05: each family of the shifted image is the shifted family (so no pixel changes family). -/
theorem C05_family (d : Img α) (hh : d.h % 2 = 0) (hw : d.w % 2 = 0) (y x : Int) (m : α) :
    ∃ r s s', shiftMicropol d y x m = .ok r ∧ splitPolarizations d = .ok s ∧
      splitPolarizations r = .ok s' ∧ ∀ k, IsShiftOf (s k) (s' k) y x m := by
  have hr : (shiftClosed d (2 * y) (2 * x) m).h % 2 = 0 := hh
  have hr' : (shiftClosed d (2 * y) (2 * x) m).w % 2 = 0 := hw
  refine ⟨_, _, _, shiftMicropol_ok d hh hw y x m, split_ok hh hw, split_ok hr hr', ?_⟩
  intro k
  have hk := k.isLt
  refine ⟨rfl, rfl, ?_, ?_⟩
  · intro j i j' i' hj hi hj' hi' e1 e2
    simp only [Img.ofFn_h, Img.ofFn_w] at hj hi hj' hi'
    rw [Img.ofFn_px (by exact hj) (by exact hi), Img.ofFn_px hj' hi', shiftClosed_px _ _ _ _ (by omega) (by omega),
      if_pos (by omega)]
    congr 1 <;> omega
  · intro j i hj hi hn
    simp only [Img.ofFn_h, Img.ofFn_w] at hj hi hn
    rw [Img.ofFn_px (by exact hj) (by exact hi), shiftClosed_px _ _ _ _ (by omega) (by omega), if_neg]
    intro hc
    exact hn ⟨((j : Int) - y).toNat, ((i : Int) - x).toNat, by omega, by omega, by omega, by omega⟩

/-! Non-vacuity -/

def exShift : Img Int := Img.ofFn 4 4 (fun y x => 4 * y + x + 1)

example : (0 : Int) ≤ (-1) * (-2) ∧ (0 : Int) ≤ 3 * 5 := by decide
example : ∃ r, shiftKernel exShift 1 (-2) 7 = .ok r ∧ r.px 1 0 = 3 ∧ r.px 0 0 = 7 ∧ r.px 3 3 = 7 :=
  ⟨_, shiftKernel_ok _ _ _ _, by decide, by decide, by decide⟩
example : exShift.h % 2 = 0 ∧ exShift.w % 2 = 0 := by decide

end Micropol

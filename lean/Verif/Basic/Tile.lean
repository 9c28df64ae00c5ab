import Verif.Basic.Img
import Verif.Basic.Loop

/-!
# Nested loops that fill an array tile by tile

`tileLoop` is the workhorse for the numba kernels: two nested loops with step `s` whose body rewrites exactly
the `s × s` tile it visits.
-/

set_option autoImplicit false

namespace Micropol

variable {α : Type} [Zero α]

/-- `A` with the rectangle `[y0, y1) × [x0, x1)` replaced by the values of `f`. -/
def Img.patch (A : Img α) (y0 y1 x0 x1 : Nat) (f : Nat → Nat → α) : Img α :=
  Img.ofFn A.h A.w (fun y x => if y0 ≤ y ∧ y < y1 ∧ x0 ≤ x ∧ x < x1 then f y x else A.px y x)

@[simp] theorem Img.patch_h (A : Img α) (y0 y1 x0 x1 : Nat) (f : Nat → Nat → α) :
    (A.patch y0 y1 x0 x1 f).h = A.h := rfl
@[simp] theorem Img.patch_w (A : Img α) (y0 y1 x0 x1 : Nat) (f : Nat → Nat → α) :
    (A.patch y0 y1 x0 x1 f).w = A.w := rfl

theorem Img.patch_px (A : Img α) (y0 y1 x0 x1 : Nat) (f : Nat → Nat → α) {y x : Nat}
    (hy : y < A.h) (hx : x < A.w) :
    (A.patch y0 y1 x0 x1 f).px y x =
      if y0 ≤ y ∧ y < y1 ∧ x0 ≤ x ∧ x < x1 then f y x else A.px y x := Img.ofFn_px hy hx

theorem Img.patch_empty_x (A : Img α) (y0 y1 x0 : Nat) (f : Nat → Nat → α) :
    A.patch y0 y1 x0 x0 f = A := by
  refine Img.ext_px rfl rfl ?_
  intro y x (hy : y < A.h) (hx : x < A.w)
  rw [Img.patch_px _ _ _ _ _ _ hy hx, if_neg (by omega)]

theorem Img.patch_empty_y (A : Img α) (y0 x0 x1 : Nat) (f : Nat → Nat → α) :
    A.patch y0 y0 x0 x1 f = A := by
  refine Img.ext_px rfl rfl ?_
  intro y x (hy : y < A.h) (hx : x < A.w)
  rw [Img.patch_px _ _ _ _ _ _ hy hx, if_neg (by omega)]

theorem Img.patch_patch_x (A : Img α) (y0 y1 x0 x1 x2 : Nat) (f : Nat → Nat → α) (h01 : x0 ≤ x1)
    (h12 : x1 ≤ x2) : (A.patch y0 y1 x0 x1 f).patch y0 y1 x1 x2 f = A.patch y0 y1 x0 x2 f := by
  refine Img.ext_px rfl rfl ?_
  intro y x (hy : y < A.h) (hx : x < A.w)
  rw [Img.patch_px _ _ _ _ _ _ (by simpa using hy) (by simpa using hx), Img.patch_px _ _ _ _ _ _ hy hx,
    Img.patch_px _ _ _ _ _ _ hy hx]
  split_ifs <;> first | rfl | omega

theorem Img.patch_patch_y (A : Img α) (y0 y1 y2 x0 x1 : Nat) (f : Nat → Nat → α) (h01 : y0 ≤ y1)
    (h12 : y1 ≤ y2) : (A.patch y0 y1 x0 x1 f).patch y1 y2 x0 x1 f = A.patch y0 y2 x0 x1 f := by
  refine Img.ext_px rfl rfl ?_
  intro y x (hy : y < A.h) (hx : x < A.w)
  rw [Img.patch_px _ _ _ _ _ _ (by simpa using hy) (by simpa using hx), Img.patch_px _ _ _ _ _ _ hy hx,
    Img.patch_px _ _ _ _ _ _ hy hx]
  split_ifs <;> first | rfl | omega

theorem Img.setPx_eq_patch (A : Img α) (y x : Nat) (f : Nat → Nat → α) :
    A.setPx y x (f y x) = A.patch y (y + 1) x (x + 1) f := by
  refine Img.ext_px rfl rfl ?_
  intro y' x' (hy : y' < A.h) (hx : x' < A.w)
  rw [Img.patch_px _ _ _ _ _ _ hy hx]
  unfold Img.setPx
  rw [Img.ofFn_px hy hx]
  by_cases h : y' = y ∧ x' = x
  · rw [if_pos h, if_pos (by omega), h.1, h.2]
  · rw [if_neg h, if_neg (by omega)]

/-- Rule for
```
for y in range(a, b, s):
    for x in range(c, d, s):
        <rewrite the tile at (y, x)>
```
The body may rely on the tile still having its initial content. -/
theorem tileLoop (s a c NY NX : Nat) {b d : Int} (old : Img α) (f : Nat → Nat → α)
    {body : Int → Int → Img α → Py (Img α)}
    (hNY : ((b - (a : Int) + s - 1) / s).toNat = NY)
    (hNX : ((d - (c : Int) + s - 1) / s).toNat = NX)
    (hbody : ∀ Y X A, Y < NY → X < NX → A.h = old.h → A.w = old.w →
      (∀ y x, y < old.h → x < old.w → a + Y * s ≤ y → c + X * s ≤ x → A.px y x = old.px y x) →
      body ((a + Y * s : Nat) : Int) ((c + X * s : Nat) : Int) A =
        .ok (A.patch (a + Y * s) (a + Y * s + s) (c + X * s) (c + X * s + s) f)) :
    forRange (a : Int) b s old (fun y A => forRange (c : Int) d s A (fun x A => body y x A))
      = .ok (old.patch a (a + NY * s) c (c + NX * s) f) := by
  refine forRange_eq NY (fun Y => old.patch a (a + Y * s) c (c + NX * s) f) hNY ?_ rfl ?_
  · simp only [Nat.zero_mul, Nat.add_zero]
    rw [Img.patch_empty_y]
  · intro Y hY
    have e1 : a + (Y + 1) * s = a + Y * s + s := by ring
    show _ = Except.ok (old.patch a (a + (Y + 1) * s) c (c + NX * s) f)
    rw [e1, ← Img.patch_patch_y old a (a + Y * s) (a + Y * s + s) _ _ _ (by omega) (by omega)]
    set B := old.patch a (a + Y * s) c (c + NX * s) f with hB
    refine forRange_eq NX (fun X => B.patch (a + Y * s) (a + Y * s + s) c (c + X * s) f) hNX ?_ rfl ?_
    · simp only [Nat.zero_mul, Nat.add_zero]
      rw [Img.patch_empty_x]
    · intro X hX
      have e2 : c + (X + 1) * s = c + X * s + s := by ring
      show _ = Except.ok (B.patch (a + Y * s) (a + Y * s + s) c (c + (X + 1) * s) f)
      rw [e2, ← Img.patch_patch_x B _ _ c (c + X * s) (c + X * s + s) _ (by omega) (by omega)]
      have := hbody Y X (B.patch (a + Y * s) (a + Y * s + s) c (c + X * s) f) hY hX rfl rfl ?_
      · rw [← this]
        push_cast
        rfl
      · intro y x hy hx hya hxc
        rw [Img.patch_px _ _ _ _ _ _ (by simpa [hB] using hy) (by simpa [hB] using hx),
          if_neg (by omega), hB, Img.patch_px _ _ _ _ _ _ hy hx, if_neg (by omega)]

end Micropol

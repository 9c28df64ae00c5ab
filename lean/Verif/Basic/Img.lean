import Verif.Basic.Py
import Mathlib.Algebra.Group.Defs
import Mathlib.Tactic.SplitIfs

/-!
# Two-dimensional arrays

`Img α` is a numpy array of shape `(h, w)`.  The field `px` is total on `Nat × Nat`, but outside the shape
it is forced to be `0` (`out`), so two images are equal exactly when their shapes and the pixels inside the
shape are equal.  The junk value is never observable by the modelled code: all element accesses of the code
are the *checked* ones (`read`, `write`, `readNp`) below.
-/

set_option autoImplicit false

namespace Micropol

instance : Zero Bool := ⟨false⟩

structure Img (α : Type) [Zero α] where
  h : Nat
  w : Nat
  px : Nat → Nat → α
  out : ∀ y x, ¬ (y < h ∧ x < w) → px y x = 0

namespace Img

variable {α : Type} [Zero α] {β : Type} [Zero β]

theorem ext_px {A B : Img α} (hh : A.h = B.h) (hw : A.w = B.w)
    (hp : ∀ y x, y < A.h → x < A.w → A.px y x = B.px y x) : A = B := by
  obtain ⟨h, w, p, o⟩ := A
  obtain ⟨h', w', p', o'⟩ := B
  simp only at hh hw hp
  subst hh hw
  have : p = p' := by
    funext y x
    by_cases hc : y < h ∧ x < w
    · exact hp y x hc.1 hc.2
    · rw [o y x hc, o' y x hc]
  subst this
  rfl

/-- Array of the given shape with element `(y, x)` equal to `f y x`. -/
def ofFn (h w : Nat) (f : Nat → Nat → α) : Img α where
  h := h
  w := w
  px y x := if y < h ∧ x < w then f y x else 0
  out y x hc := by simp [hc]

@[simp] theorem ofFn_h (h w : Nat) (f : Nat → Nat → α) : (ofFn h w f).h = h := rfl
@[simp] theorem ofFn_w (h w : Nat) (f : Nat → Nat → α) : (ofFn h w f).w = w := rfl

theorem ofFn_px' (h w : Nat) (f : Nat → Nat → α) (y x : Nat) :
    (ofFn h w f).px y x = if y < h ∧ x < w then f y x else 0 := rfl

theorem ofFn_px {h w : Nat} {f : Nat → Nat → α} {y x : Nat} (hy : y < h) (hx : x < w) :
    (ofFn h w f).px y x = f y x := by simp [ofFn_px', hy, hx]

theorem ofFn_congr {h w : Nat} {f g : Nat → Nat → α}
    (hfg : ∀ y x, y < h → x < w → f y x = g y x) : ofFn h w f = ofFn h w g := by
  refine ext_px rfl rfl ?_
  intro y x hy hx
  simp only [ofFn_h, ofFn_w] at hy hx
  rw [ofFn_px hy hx, ofFn_px hy hx, hfg y x hy hx]

theorem ofFn_self (A : Img α) : ofFn A.h A.w A.px = A := by
  refine ext_px rfl rfl ?_
  intro y x hy hx
  exact ofFn_px hy hx

theorem eq_ofFn {A : Img α} {h w : Nat} {f : Nat → Nat → α} (hh : A.h = h) (hw : A.w = w)
    (hp : ∀ y x, y < h → x < w → A.px y x = f y x) : A = ofFn h w f := by
  refine ext_px hh hw ?_
  intro y x hy hx
  rw [ofFn_px (hh ▸ hy) (hw ▸ hx)]
  exact hp y x (hh ▸ hy) (hw ▸ hx)

/-- Constant array (`c * np.ones((h, w))`). -/
def const (h w : Nat) (c : α) : Img α := ofFn h w (fun _ _ => c)

/-- `np.zeros((h, w))`. -/
def zeros (h w : Nat) : Img α := const h w 0

/-- Elementwise application of a function to an array. -/
def map (f : α → β) (A : Img α) : Img β := ofFn A.h A.w (fun y x => f (A.px y x))

@[simp] theorem map_h (f : α → β) (A : Img α) : (A.map f).h = A.h := rfl
@[simp] theorem map_w (f : α → β) (A : Img α) : (A.map f).w = A.w := rfl
theorem map_px (f : α → β) (A : Img α) {y x : Nat} (hy : y < A.h) (hx : x < A.w) :
    (A.map f).px y x = f (A.px y x) := ofFn_px hy hx

/-! ## Checked element access -/

/-- Resolution of a Python/numba index: negative indices wrap once, anything outside is `none`. -/
def resolve (n : Nat) (i : Int) : Option Nat :=
  if 0 ≤ i then (if i < n then some i.toNat else none)
  else (if 0 ≤ i + n then some (i + n).toNat else none)

theorem resolve_of_lt {n : Nat} {k : Nat} (hk : k < n) : resolve n (k : Int) = some k := by
  simp [resolve, hk]

/-- Element read `A[i, j]`; `e` is the outcome of an access outside the array. -/
def readE (e : PyErr) (A : Img α) (i j : Int) : Py α :=
  match resolve A.h i, resolve A.w j with
  | some y, some x => .ok (A.px y x)
  | _, _ => .error e

/-- Read inside a numba kernel (unchecked: outside is undefined behaviour). -/
abbrev read (A : Img α) (i j : Int) : Py α := readE .oob A i j

/-- Read from interpreted code (numpy raises `IndexError`). -/
abbrev readNp (A : Img α) (i j : Int) : Py α := readE .indexError A i j

/-- The array with element `(y, x)` replaced. -/
def setPx (A : Img α) (y x : Nat) (v : α) : Img α :=
  ofFn A.h A.w (fun y' x' => if y' = y ∧ x' = x then v else A.px y' x')

/-- Element write `A[i, j] = v` inside a numba kernel. -/
def write (A : Img α) (i j : Int) (v : α) : Py (Img α) :=
  match resolve A.h i, resolve A.w j with
  | some y, some x => .ok (A.setPx y x v)
  | _, _ => .error .oob

theorem readE_ok {e : PyErr} {A : Img α} {i j : Int} {y x : Nat} (hi : i = y) (hj : j = x)
    (hy : y < A.h) (hx : x < A.w) : A.readE e i j = .ok (A.px y x) := by
  subst hi hj
  simp [readE, resolve_of_lt hy, resolve_of_lt hx]

theorem write_ok {A : Img α} {i j : Int} {y x : Nat} {v : α} (hi : i = y) (hj : j = x)
    (hy : y < A.h) (hx : x < A.w) : A.write i j v = .ok (A.setPx y x v) := by
  subst hi hj
  simp [write, resolve_of_lt hy, resolve_of_lt hx]

end Img

/-- Discharges "index inside the array" side goals. -/
macro "imglt" : tactic => `(tactic| first
  | assumption
  | omega
  | (simp only [Img.ofFn_h, Img.ofFn_w, Img.map_h, Img.map_w] at *; omega))

end Micropol

import Verif.Model.Demosaic
import Mathlib.Tactic.FinCases
import Mathlib.Data.Fintype.Basic
import Mathlib.Data.Fin.VecNotation

/-! Closed forms for `split_polarizations` and `merge_polarizations`. -/

set_option autoImplicit false

namespace Micropol

variable {α : Type} [Zero α]

theorem vec4_eta {β : Type} (f : Fin 4 → β) : ![f 0, f 1, f 2, f 3] = f := by
  funext k; fin_cases k <;> rfl

/-- Family (0..3) of the pixel `(y, x)`. -/
def famIdx (y x : Nat) : Fin 4 := ⟨2 * (y % 2) + x % 2, by omega⟩

theorem split_ok {d : Img α} (hh : d.h % 2 = 0) (hw : d.w % 2 = 0) :
    splitPolarizations d = .ok (fun k => Img.ofFn (d.h / 2) (d.w / 2)
      (fun y x => d.px (2 * y + k.val / 2) (2 * x + k.val % 2))) := by
  unfold splitPolarizations
  rw [if_neg (by omega)]
  congr 1
  funext k
  unfold Img.stride2
  have h1 : (d.h - k.val / 2 + 1) / 2 = d.h / 2 := by have := k.isLt; omega
  have h2 : (d.w - k.val % 2 + 1) / 2 = d.w / 2 := by have := k.isLt; omega
  rw [h1, h2]

theorem split_error {d : Img α} (h : d.h % 2 ≠ 0 ∨ d.w % 2 ≠ 0) :
    splitPolarizations d = .error .valueError := by
  unfold splitPolarizations
  rw [if_pos h]

theorem split_even {d : Img α} {s : Fin 4 → Img α} (h : splitPolarizations d = .ok s) :
    d.h % 2 = 0 ∧ d.w % 2 = 0 := by
  unfold splitPolarizations at h
  split at h
  · cases h
  · omega

/-- Result of a strided slice assignment. -/
def Img.strideSet (A : Img α) (j i : Nat) (sub : Img α) : Img α :=
  Img.ofFn A.h A.w (fun y x =>
      if j ≤ y ∧ (y - j) % 2 = 0 ∧ i ≤ x ∧ (x - i) % 2 = 0 then sub.px ((y - j) / 2) ((x - i) / 2)
      else A.px y x)

@[simp] theorem Img.strideSet_h (A : Img α) (j i : Nat) (sub : Img α) : (A.strideSet j i sub).h = A.h := rfl
@[simp] theorem Img.strideSet_w (A : Img α) (j i : Nat) (sub : Img α) : (A.strideSet j i sub).w = A.w := rfl

theorem Img.strideSet_px (A : Img α) (j i : Nat) (sub : Img α) {y x : Nat} (hy : y < A.h) (hx : x < A.w) :
    (A.strideSet j i sub).px y x =
      if j ≤ y ∧ (y - j) % 2 = 0 ∧ i ≤ x ∧ (x - i) % 2 = 0 then sub.px ((y - j) / 2) ((x - i) / 2)
      else A.px y x := Img.ofFn_px hy hx

theorem Img.assignStride2_ok {A : Img α} {j i : Nat} {sub : Img α}
    (h1 : sub.h = (A.h - j + 1) / 2) (h2 : sub.w = (A.w - i + 1) / 2) :
    A.assignStride2 j i sub = .ok (A.strideSet j i sub) := by
  unfold Img.assignStride2
  rw [if_pos ⟨h1, h2⟩]
  rfl

theorem merge_ok {s : Fin 4 → Img α} {h w : Nat} (hh : ∀ k, (s k).h = h) (hw : ∀ k, (s k).w = w) :
    mergePolarizations s = .ok (Img.ofFn (2 * h) (2 * w)
      (fun y x => (s (famIdx y x)).px (y / 2) (x / 2))) := by
  unfold mergePolarizations
  have z1 : (Img.zeros ((s 0).h * 2) ((s 0).w * 2) : Img α).h = 2 * h := by
    simp [Img.zeros, Img.const, hh, Nat.mul_comm]
  have z2 : (Img.zeros ((s 0).h * 2) ((s 0).w * 2) : Img α).w = 2 * w := by
    simp [Img.zeros, Img.const, hw, Nat.mul_comm]
  generalize (Img.zeros ((s 0).h * 2) ((s 0).w * 2) : Img α) = Z at z1 z2
  dsimp only
  rw [Img.assignStride2_ok (by rw [z1, hh]; omega) (by rw [z2, hw]; omega), Py.ok_bind,
    Img.assignStride2_ok (by rw [Img.strideSet_h, z1, hh]; omega) (by rw [Img.strideSet_w, z2, hw]; omega),
    Py.ok_bind,
    Img.assignStride2_ok (by simp only [Img.strideSet_h, z1, hh]; omega)
      (by simp only [Img.strideSet_w, z2, hw]; omega),
    Py.ok_bind,
    Img.assignStride2_ok (by simp only [Img.strideSet_h, z1, hh]; omega)
      (by simp only [Img.strideSet_w, z2, hw]; omega)]
  congr 1
  refine Img.eq_ofFn (by simp [z1]) (by simp [z2]) ?_
  intro y x hy hx
  rw [← z1] at hy
  rw [← z2] at hx
  rw [Img.strideSet_px _ _ _ _ (by simpa using hy) (by simpa using hx),
    Img.strideSet_px _ _ _ _ (by simpa using hy) (by simpa using hx),
    Img.strideSet_px _ _ _ _ (by simpa using hy) (by simpa using hx), Img.strideSet_px _ _ _ _ hy hx]
  rcases Nat.mod_two_eq_zero_or_one y with hy2 | hy2 <;>
    rcases Nat.mod_two_eq_zero_or_one x with hx2 | hx2
  · have e : famIdx y x = 0 := by ext; simp [famIdx, hy2, hx2]
    rw [if_neg (by omega), if_neg (by omega), if_neg (by omega), if_pos (by omega), e]; rfl
  · have e : famIdx y x = 1 := by ext; simp [famIdx, hy2, hx2]
    have e3 : (x - 1) / 2 = x / 2 := by omega
    rw [if_neg (by omega), if_neg (by omega), if_pos (by omega), e, e3]; rfl
  · have e : famIdx y x = 2 := by ext; simp [famIdx, hy2, hx2]
    have e3 : (y - 1) / 2 = y / 2 := by omega
    rw [if_neg (by omega), if_pos (by omega), e, e3]; rfl
  · have e : famIdx y x = 3 := by ext; simp [famIdx, hy2, hx2]
    have e3 : (x - 1) / 2 = x / 2 := by omega
    have e4 : (y - 1) / 2 = y / 2 := by omega
    rw [if_pos (by omega), e, e3, e4]

theorem famIdx_val_div (y x : Nat) : (famIdx y x).val / 2 = y % 2 := by simp only [famIdx]; omega
theorem famIdx_val_mod (y x : Nat) : (famIdx y x).val % 2 = x % 2 := by simp only [famIdx]; omega

theorem famIdx_of (k : Fin 4) (y x : Nat) :
    famIdx (2 * y + k.val / 2) (2 * x + k.val % 2) = k := by
  ext
  simp only [famIdx]
  have := k.isLt
  omega

end Micropol

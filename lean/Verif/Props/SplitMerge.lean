import Verif.Lemmas.Split

/-!
# C01, C02: splitting into polarization families and merging back
-/

set_option autoImplicit false

namespace Micropol

variable {α : Type} [Zero α]

/-- C01: merging the split image gives the image back, for every array with even sides. -/
theorem C01_merge_split (d : Img α) (hh : d.h % 2 = 0) (hw : d.w % 2 = 0) :
    (splitPolarizations d >>= mergePolarizations) = .ok d := by
  rw [split_ok hh hw, Py.ok_bind, merge_ok (h := d.h / 2) (w := d.w / 2) (fun _ => rfl) (fun _ => rfl)]
  congr 1
  refine Img.ext_px (by simp only [Img.ofFn_h]; omega) (by simp only [Img.ofFn_w]; omega) ?_
  intro y x hy hx
  simp only [Img.ofFn_h, Img.ofFn_w] at hy hx
  rw [Img.ofFn_px hy hx, Img.ofFn_px (by omega) (by omega), famIdx_val_div, famIdx_val_mod]
  congr 1 <;> omega

/-- C01: splitting a merged image gives the four sub-images back, in order. -/
theorem C01_split_merge (s : Fin 4 → Img α) (hh : ∀ k, (s k).h = (s 0).h)
    (hw : ∀ k, (s k).w = (s 0).w) :
    (mergePolarizations s >>= splitPolarizations) = .ok s := by
  rw [merge_ok hh hw, Py.ok_bind, split_ok (by simp) (by simp)]
  congr 1
  funext k
  refine Img.ext_px (by simp [hh k]) (by simp [hw k]) ?_
  intro y x hy hx
  simp only [Img.ofFn_h, Img.ofFn_w] at hy hx
  have := k.isLt
  rw [Img.ofFn_px (by imglt) (by imglt), Img.ofFn_px (by omega) (by omega), famIdx_of]
  congr 1 <;> omega

/-- C01: an odd side is rejected, and only an odd side. -/
theorem C01_odd_rejected (d : Img α) :
    splitPolarizations d = .error .valueError ↔ (d.h % 2 = 1 ∨ d.w % 2 = 1) := by
  constructor
  · intro h
    by_contra hc
    rw [split_ok (by omega) (by omega)] at h
    cases h
  · intro h
    exact split_error (by omega)

/-- C02: what the `k`-th sub-image contains. -/
theorem C02_family_pixels (d : Img α) (s : Fin 4 → Img α) (h : splitPolarizations d = .ok s) (k : Fin 4) :
    (s k).h = d.h / 2 ∧ (s k).w = d.w / 2 ∧
    ∀ y x, y < d.h / 2 → x < d.w / 2 → (s k).px y x = d.px (2 * y + k.val / 2) (2 * x + k.val % 2) := by
  obtain ⟨hh, hw⟩ := split_even h
  rw [split_ok hh hw] at h
  injection h with h
  subst h
  exact ⟨rfl, rfl, fun y x hy hx => Img.ofFn_px hy hx⟩

/-- C02: every pixel of the image is in exactly one place of exactly one family. -/
theorem C02_partition (d : Img α) (hh : d.h % 2 = 0) (hw : d.w % 2 = 0) (r c : Nat) (hr : r < d.h)
    (hc : c < d.w) :
    ∃! p : Fin 4 × Nat × Nat, p.2.1 < d.h / 2 ∧ p.2.2 < d.w / 2 ∧
      r = 2 * p.2.1 + p.1.val / 2 ∧ c = 2 * p.2.2 + p.1.val % 2 := by
  refine ⟨(famIdx r c, r / 2, c / 2), ?_, ?_⟩
  · refine ⟨?_, ?_, ?_, ?_⟩ <;> simp only [famIdx_val_div, famIdx_val_mod] <;> omega
  · rintro ⟨k, y, x⟩ ⟨h1, h2, h3, h4⟩
    simp only at h1 h2 h3 h4
    have := k.isLt
    have e1 : k = famIdx r c := by rw [h3, h4, famIdx_of]
    have e2 : y = r / 2 := by omega
    have e3 : x = c / 2 := by omega
    rw [e1, e2, e3]

/-! Non-vacuity: a concrete 2×4 image. -/

def exImg24 : Img Int := Img.ofFn 2 4 (fun y x => 10 * y + x)

example : exImg24.h % 2 = 0 ∧ exImg24.w % 2 = 0 := by decide
example : ∃ s, splitPolarizations exImg24 = .ok s ∧ (s 3).px 0 1 = 13 ∧ (s 0).px 0 1 = 2 :=
  ⟨_, split_ok (by decide) (by decide), by decide, by decide⟩
example : splitPolarizations (Img.ofFn 3 4 (fun _ _ => (1 : Int))) = .error .valueError :=
  (C01_odd_rejected _).2 (by decide)
example : ∀ k : Fin 4, ((fun _ => exImg24 : Fin 4 → Img Int) k).h = exImg24.h := fun _ => rfl

end Micropol

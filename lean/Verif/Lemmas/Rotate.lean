import Verif.Model.Rotate
import Verif.Lemmas.Folder
import Verif.Lemmas.Split
import Verif.Spec.Rotate
import Mathlib.Logic.Function.Iterate

/-! # Auxiliary facts about quarter turns and flips -/

set_option autoImplicit false

namespace Micropol

variable {K : Type} [Field K]

theorem npRot90_congr (A : Img K) {k l : Int} (h : k % 4 = l % 4) : npRot90 A k = npRot90 A l := by
  unfold npRot90
  rw [h]

theorem quarterTurn_rot (A : Img K) (k : Int) : (npRot90 A k).quarterTurn = npRot90 A (k + 1) := by
  have hk : k % 4 = 0 ∨ k % 4 = 1 ∨ k % 4 = 2 ∨ k % 4 = 3 := by omega
  unfold npRot90 Img.quarterTurn
  rcases hk with hk | hk | hk | hk
  · rw [if_pos hk, if_neg (by omega), if_pos (by omega)]
  · rw [if_neg (by omega), if_pos hk, if_neg (by omega), if_neg (by omega), if_pos (by omega)]
    refine Img.ext_px rfl rfl ?_
    intro y x (hy : y < A.h) (hx : x < A.w)
    rw [Img.ofFn_px (by exact hy) (by exact hx), Img.ofFn_px hy hx, Img.ofFn_px hx (by exact (by simp; omega))]
    simp only [Img.ofFn_w]
  · rw [if_neg (by omega), if_neg (by omega), if_pos hk, if_neg (by omega), if_neg (by omega), if_neg (by omega)]
    refine Img.ext_px rfl rfl ?_
    intro y x (hy : y < A.w) (hx : x < A.h)
    rw [Img.ofFn_px (by exact hy) (by exact hx), Img.ofFn_px hy hx, Img.ofFn_px hx (by exact (by simp; omega))]
    simp only [Img.ofFn_w]
    congr 1
    omega
  · rw [if_neg (by omega), if_neg (by omega), if_neg (by omega), if_pos (by omega)]
    refine Img.ext_px rfl rfl ?_
    intro y x (hy : y < A.h) (hx : x < A.w)
    rw [Img.ofFn_px (by exact hy) (by exact hx), Img.ofFn_px hx (by exact (by simp; omega))]
    simp only [Img.ofFn_w]
    congr 1
    omega

theorem npRot90_iterate (A : Img K) (n : Nat) : npRot90 A n = Img.quarterTurn^[n] A := by
  induction n with
  | zero => rfl
  | succ n ih =>
    rw [Function.iterate_succ_apply', ← ih, quarterTurn_rot]
    push_cast
    rfl

theorem npRot90_shape_even (A : Img K) {k : Int} (hk : k % 2 = 0) : (npRot90 A k).h = A.h ∧ (npRot90 A k).w = A.w := by
  unfold npRot90
  have : k % 4 = 0 ∨ k % 4 = 2 := by omega
  rcases this with h | h
  · rw [if_pos h]; exact ⟨rfl, rfl⟩
  · rw [if_neg (by omega), if_neg (by omega), if_pos h]; exact ⟨rfl, rfl⟩

theorem npRot90_shape_odd (A : Img K) {k : Int} (hk : k % 2 ≠ 0) : (npRot90 A k).h = A.w ∧ (npRot90 A k).w = A.h := by
  unfold npRot90
  have : k % 4 = 1 ∨ k % 4 = 3 := by omega
  rcases this with h | h
  · rw [if_neg (by omega), if_pos h]; exact ⟨rfl, rfl⟩
  · rw [if_neg (by omega), if_neg (by omega), if_neg (by omega)]; exact ⟨rfl, rfl⟩

theorem mapPlanes_ok {f : Img K → Py (Img K)} {g : Img K → Img K} {mij : Fin 3 → Fin 4 → Img K}
    (hf : ∀ i j, f (mij i j) = .ok (g (mij i j)))
    (hs : ∀ i j, (g (mij i j)).HasShape (mij i j).h (mij i j).w) :
    mapPlanes f mij = .ok (fun i j => g (mij i j)) := by
  unfold mapPlanes
  refine forRange_eq 3 (fun n a b => if a.val < n then g (mij a b) else mij a b) (by decide) ?_ ?_ ?_
  · funext a b; simp
  · funext a b; simp
  · intro i hi
    refine forRange_eq 4 (fun n a b => if a.val < i ∨ (a.val = i ∧ b.val < n) then g (mij a b) else mij a b)
      (by decide) ?_ ?_ ?_
    · funext a b; simp
    · funext a b
      have : (a.val < i ∨ (a.val = i ∧ b.val < 4)) ↔ a.val < i + 1 := by
        have := b.isLt; omega
      simp only [this]
    · intro j hj
      have hi' : ((0 : Int) + (i : Int) * ((1 : Nat) : Int)).toNat = i := by simp
      have hj' : ((0 : Int) + (j : Int) * ((1 : Nat) : Int)).toNat = j := by simp
      rw [dif_pos (by rw [hi', hj']; exact ⟨hi, hj⟩)]
      simp only [hi', hj']
      rw [if_neg (by simp), hf ⟨i, hi⟩ ⟨j, hj⟩, Py.ok_bind, assignPlane_same (hs ⟨i, hi⟩ ⟨j, hj⟩), Py.ok_bind]
      congr 1
      funext a b
      by_cases hab : a = ⟨i, hi⟩ ∧ b = ⟨j, hj⟩
      · obtain ⟨rfl, rfl⟩ := hab
        rw [if_pos ⟨rfl, rfl⟩, if_pos (by simp)]
      · rw [if_neg hab]
        have : (a.val < i ∨ (a.val = i ∧ b.val < j)) ↔ (a.val < i ∨ (a.val = i ∧ b.val < j + 1)) := by
          constructor
          · omega
          · rintro (h | ⟨h1, h2⟩)
            · exact Or.inl h
            · right
              refine ⟨h1, ?_⟩
              have : b.val ≠ j := fun h => hab ⟨Fin.ext h1, Fin.ext h⟩
              omega
        simp only [this]

theorem forRange_first_error {σ : Type} {a b : Int} {step : Nat} {s : σ} {body : Int → σ → Py σ} {e : PyErr}
    (hab : 0 < ((b - a + step - 1) / step).toNat) (h : body a s = .error e) : forRange a b step s body = .error e := by
  unfold forRange pyRange
  obtain ⟨n, hn⟩ : ∃ n, ((b - a + step - 1) / step).toNat = n + 1 := ⟨_, (Nat.succ_pred_eq_of_pos hab).symm⟩
  rw [hn, List.range_succ_eq_map, List.map_cons, List.foldlM_cons]
  rw [show a + ((0 : Nat) : Int) * (step : Int) = a by simp, h]
  rfl

/-- The first plane decides about errors. -/
theorem mapPlanes_error {f : Img K → Py (Img K)} {mij : Fin 3 → Fin 4 → Img K} {e : PyErr}
    (h : (f (mij 0 0) >>= fun r => assignPlane (mij 0 0).h (mij 0 0).w r) = .error e) :
    mapPlanes f mij = .error e := by
  have h' : f (mij 0 0) = .error e ∨ ∃ r, f (mij 0 0) = .ok r ∧ assignPlane (mij 0 0).h (mij 0 0).w r = .error e := by
    cases hf : f (mij 0 0) with
    | error e' => rw [hf] at h; exact Or.inl h
    | ok r => rw [hf] at h; exact Or.inr ⟨r, rfl, h⟩
  unfold mapPlanes
  refine forRange_first_error (by decide) (forRange_first_error (by decide) ?_)
  rw [dif_pos (by decide)]
  rcases h' with h1 | ⟨r, h1, h2⟩
  · rw [show f (mij ⟨(0 : Int).toNat, _⟩ ⟨(0 : Int).toNat, _⟩) = .error e from h1]
    rfl
  · rw [show f (mij ⟨(0 : Int).toNat, _⟩ ⟨(0 : Int).toNat, _⟩) = .ok r from h1, Py.ok_bind,
      show assignPlane (mij ⟨(0 : Int).toNat, _⟩ ⟨(0 : Int).toNat, _⟩).h (mij ⟨(0 : Int).toNat, _⟩
        ⟨(0 : Int).toNat, _⟩).w r = .error e from h2]
    rfl

theorem assignPlane_transposed {h w : Nat} {A : Img K} (hh : A.h = w) (hw : A.w = h) (hne : h ≠ w) :
    assignPlane h w A = .error .valueError := by
  unfold assignPlane
  rw [if_neg]
  rintro ⟨h1, h2⟩
  omega

/-- One family of a square image. -/
theorem alignFamily_ok {A : Img K} {m : Nat} (hA : A.HasShape m m) :
    alignFamily A = .ok (Img.ofFn m m (fun y x => A.px (m - 1 - x) (m - 1 - y))) := by
  obtain ⟨hh, hw⟩ := hA
  unfold alignFamily
  have hs := npRot90_shape_odd A (k := -1) (by decide)
  rw [assignPlane_same (by rw [hh, hw]; exact ⟨hs.1.trans hw, hs.2.trans hh⟩), Py.ok_bind]
  unfold npFlip
  dsimp only
  rw [if_pos (Or.inl rfl), Py.ok_bind, assignPlane_same ⟨by rw [Img.ofFn_h, hs.1, hh, hw], by rw [Img.ofFn_w, hs.2, hh, hw]⟩]
  congr 1
  refine Img.ext_px (by rw [Img.ofFn_h, hs.1, hw]; rfl) (by rw [Img.ofFn_w, hs.2, hh]; rfl) ?_
  intro y x hy hx
  rw [Img.ofFn_h, hs.1, hw] at hy
  rw [Img.ofFn_w, hs.2, hh] at hx
  rw [Img.ofFn_px (by rw [hs.1, hw]; exact hy) (by rw [hs.2, hh]; exact hx), Img.ofFn_px hy hx, hs.1, hw]
  unfold npRot90
  rw [if_neg (by decide), if_neg (by decide), if_neg (by decide), Img.ofFn_px (by omega) (by omega), hh]

theorem alignFamily_error {A : Img K} (h : A.h ≠ A.w) : alignFamily A = .error .valueError := by
  unfold alignFamily
  have hs := npRot90_shape_odd A (k := -1) (by decide)
  rw [assignPlane_transposed hs.1 hs.2 h]
  rfl

end Micropol

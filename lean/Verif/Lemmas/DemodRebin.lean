import Verif.Lemmas.Rotate
import Verif.Lemmas.Rebin
import Verif.Lemmas.Demodulate
import Verif.Spec.DemodRebin

/-! # Auxiliary facts about `Demodulator.rebin` -/

set_option autoImplicit false

namespace Micropol

variable {K : Type} [Field K]

/-- The averaged component. -/
def binnedMean (A : Img K) (b : Nat) : Img K :=
  (Img.ofFn (A.h / b) (A.w / b) (fun Y X => blockSum A (b * Y) (b * X) 1 b)).map (fun v => v / ((b : K) * (b : K)))

theorem mapTo_ok {h w b : Nat} (hb : 0 < b) {mij : Fin 3 → Fin 4 → Img K} (hm : ∀ i j, (mij i j).HasShape h w) :
    Demodulator.rebin.mapTo h w b mij = .ok (fun i j => binnedMean (mij i j) b) := by
  unfold Demodulator.rebin.mapTo
  have hs : ∀ i j, (binnedMean (mij i j) b).HasShape (h / b) (w / b) := fun i j =>
    ⟨by show (mij i j).h / b = _; rw [(hm i j).1], by show (mij i j).w / b = _; rw [(hm i j).2]⟩
  refine forRange_eq 3 (fun n a c => if a.val < n then binnedMean (mij a c) b else Img.zeros (h / b) (w / b))
    (by decide) ?_ ?_ ?_
  · funext a c; simp
  · funext a c; simp
  · intro i hi
    refine forRange_eq 4 (fun n a c => if a.val < i ∨ (a.val = i ∧ c.val < n) then binnedMean (mij a c) b
      else Img.zeros (h / b) (w / b)) (by decide) ?_ ?_ ?_
    · funext a c; simp
    · funext a c
      have : (a.val < i ∨ (a.val = i ∧ c.val < 4)) ↔ a.val < i + 1 := by
        have := c.isLt; omega
      simp only [this]
    · intro j hj
      have hi' : ((0 : Int) + (i : Int) * ((1 : Nat) : Int)).toNat = i := by simp
      have hj' : ((0 : Int) + (j : Int) * ((1 : Nat) : Int)).toNat = j := by simp
      rw [dif_pos (by rw [hi', hj']; exact ⟨hi, hj⟩)]
      simp only [hi', hj']
      rw [standardRebin_ok _ b hb, Py.ok_bind]
      have := assignPlane_same (hs ⟨i, hi⟩ ⟨j, hj⟩)
      unfold binnedMean at this
      rw [this, Py.ok_bind]
      congr 1
      funext a c
      by_cases hab : a = ⟨i, hi⟩ ∧ c = ⟨j, hj⟩
      · obtain ⟨rfl, rfl⟩ := hab
        rw [if_pos ⟨rfl, rfl⟩, if_pos (by simp)]
        rfl
      · rw [if_neg hab]
        have : (a.val < i ∨ (a.val = i ∧ c.val < j)) ↔ (a.val < i ∨ (a.val = i ∧ c.val < j + 1)) := by
          constructor
          · omega
          · rintro (h | ⟨h1, h2⟩)
            · exact Or.inl h
            · right
              refine ⟨h1, ?_⟩
              have : c.val ≠ j := fun h => hab ⟨Fin.ext h1, Fin.ext h⟩
              omega
        simp only [this]

theorem binnedMean_spec (A : Img K) (b : Nat) : IsBlockMeanOf A (binnedMean A b) b := by
  refine ⟨rfl, rfl, ?_⟩
  intro Y X hY hX
  unfold binnedMean
  rw [Img.map_px _ _ (by exact hY) (by exact hX), Img.ofFn_px (by exact hY) (by exact hX)]
  unfold blockSum
  simp only [Nat.mul_one]

end Micropol

import Verif.Model.AngleDic
import Verif.Lemmas.Utils

/-! # Auxiliary facts about the fitted angle dictionary -/

set_option autoImplicit false

namespace Micropol

theorem nearest_fold (t : ℝ) (l : List ℝ) : ∀ a : ℝ,
    let m := l.foldl (fun best x => if |x - t| < |best - t| then x else best) a
    m ∈ a :: l ∧ ∀ x ∈ a :: l, |m - t| ≤ |x - t| := by
  induction l with
  | nil => intro a; simp
  | cons b l ih =>
    intro a
    dsimp only [List.foldl_cons]
    by_cases h : |b - t| < |a - t|
    · rw [if_pos h]
      obtain ⟨h1, h2⟩ := ih b
      refine ⟨List.mem_cons_of_mem _ h1, ?_⟩
      intro x hx
      rcases List.mem_cons.1 hx with rfl | hx
      · exact (h2 b (by simp)).trans h.le
      · exact h2 x hx
    · rw [if_neg h]
      obtain ⟨h1, h2⟩ := ih a
      refine ⟨?_, ?_⟩
      · rcases List.mem_cons.1 h1 with h1 | h1
        · rw [h1]; simp
        · exact List.mem_cons_of_mem _ (List.mem_cons_of_mem _ h1)
      · intro x hx
        rcases List.mem_cons.1 hx with rfl | hx
        · exact h2 _ (by simp)
        · rcases List.mem_cons.1 hx with rfl | hx
          · exact (h2 a (by simp)).trans (not_lt.1 h)
          · exact h2 x (List.mem_cons_of_mem _ hx)

/-- The index found has minimal distance. -/
theorem nearestIndex_spec (r : Fin 4 → ℝ) (t : ℝ) :
    ∃ j : Fin 4, nearestIndex (List.ofFn r) t = .ok j.val ∧ ∀ k, |r j - t| ≤ |r k - t| := by
  have hl : List.ofFn r = r 0 :: [r 1, r 2, r 3] := by
    simp [List.ofFn_succ]
  obtain ⟨h1, h2⟩ := nearest_fold t [r 1, r 2, r 3] (r 0)
  rw [← hl] at h1 h2
  generalize hm : [r 1, r 2, r 3].foldl (fun best x => if |x - t| < |best - t| then x else best) (r 0) = m at h1 h2
  have hi : (List.ofFn r).idxOf m < (List.ofFn r).length := List.idxOf_lt_length_of_mem h1
  have hi4 : (List.ofFn r).idxOf m < 4 := by simpa using hi
  have hj : r ⟨_, hi4⟩ = m := by
    have := List.getElem_idxOf hi
    rw [List.getElem_ofFn] at this
    exact this
  refine ⟨⟨_, hi4⟩, ?_, ?_⟩
  · show _ = Except.ok ((List.ofFn r).idxOf m)
    rw [← hm]
    conv_lhs => rw [hl]
    unfold nearestIndex
    dsimp only
    rw [hl]
  · intro k
    rw [hj]
    exact h2 _ (by rw [List.mem_ofFn]; exact ⟨k, rfl⟩)

theorem nearestIndex_unique (r : Fin 4 → ℝ) (t : ℝ) (p : Fin 4) (h : ∀ k, k ≠ p → |r p - t| < |r k - t|) :
    nearestIndex (List.ofFn r) t = .ok p.val := by
  obtain ⟨j, h1, h2⟩ := nearestIndex_spec r t
  have : j = p := by
    by_contra hne
    exact absurd (h j hne) (not_lt.2 (h2 p))
  rw [h1, this]

end Micropol

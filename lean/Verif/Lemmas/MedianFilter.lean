import Verif.Model.MedianFilter
import Verif.Spec.HotPixels
import Mathlib.Tactic.Linarith
import Mathlib.Tactic.NormNum
import Mathlib.Tactic.Ring

/-! # Lemmas about the median filter -/

set_option autoImplicit false

namespace Micropol

theorem reflectIndex_inside {n i : Nat} (h : i < n) : reflectIndex n i = i := by
  unfold reflectIndex
  rw [Int.emod_eq_of_lt (by omega) (by omega), if_pos (by omega)]
  rfl

theorem reflectIndex_before {n : Nat} (h : 0 < n) : reflectIndex n (-1) = 0 := by
  unfold reflectIndex
  have : (-1 : ℤ) % (2 * n) = 2 * n - 1 := by
    rw [← Int.add_mul_emod_self_left (-1) (2 * n) 1, Int.emod_eq_of_lt (by omega) (by omega)]
    ring
  rw [this, if_neg (by omega)]
  omega

/-- The neighbour before, or the pixel itself on the edge. -/
def before (y : Nat) : Nat := y - 1

theorem reflectIndex_before' {n y : Nat} (h : y < n) : reflectIndex n ((y : ℤ) - 1) = before y := by
  unfold before
  cases y with
  | zero => exact reflectIndex_before h
  | succ y =>
    rw [show ((y + 1 : Nat) : ℤ) - 1 = (y : ℤ) by push_cast; ring, reflectIndex_inside (by omega)]
    rfl

theorem filterWindow_two (A : Img ℝ) {y x : Nat} (hy : y < A.h) (hx : x < A.w) : filterWindow 2 A y x =
    [A.px (before y) (before x), A.px (before y) x, A.px y (before x), A.px y x] := by
  have r2 : List.range 2 = [0, 1] := rfl
  unfold filterWindow
  simp only [r2, List.flatMap_cons, List.flatMap_nil, List.map_cons, List.map_nil, List.cons_append, List.nil_append, List.append_nil]
  have ey : reflectIndex A.h ((y : ℤ) + (0 : Nat) - (2 / 2 : Nat)) = before y := by
    rw [← reflectIndex_before' hy]; congr 1
  have ex : reflectIndex A.w ((x : ℤ) + (0 : Nat) - (2 / 2 : Nat)) = before x := by
    rw [← reflectIndex_before' hx]; congr 1
  have ey1 : reflectIndex A.h ((y : ℤ) + (1 : Nat) - (2 / 2 : Nat)) = y := by
    rw [show (y : ℤ) + (1 : Nat) - (2 / 2 : Nat) = (y : ℤ) by norm_num, reflectIndex_inside hy]
  have ex1 : reflectIndex A.w ((x : ℤ) + (1 : Nat) - (2 / 2 : Nat)) = x := by
    rw [show (x : ℤ) + (1 : Nat) - (2 / 2 : Nat) = (x : ℤ) by norm_num, reflectIndex_inside hx]
  rw [ey, ex, ey1, ex1]

theorem ofRank_two (a b c d : ℝ) : ThirdOf (ofRank 2 [a, b, c, d]) a b c d := by
  classical
  have hp := List.perm_insertionSort (fun a b : ℝ => a ≤ b) [a, b, c, d]
  have hs := List.pairwise_insertionSort (fun a b : ℝ => a ≤ b) [a, b, c, d]
  have hl := hp.length_eq
  obtain ⟨L, hL⟩ : ∃ L, L = List.insertionSort (fun a b : ℝ => a ≤ b) [a, b, c, d] := ⟨_, rfl⟩
  have hv : ofRank 2 [a, b, c, d] = L.getD 2 0 := by
    unfold ofRank
    rw [hL]
  rw [← hL] at hp hs hl
  rw [hv]
  match L, hl with
  | [p, q, v, s], _ =>
    refine ⟨p, q, s, hp, ?_, ?_, ?_⟩
    · exact List.rel_of_pairwise_cons hs (by simp)
    · exact List.rel_of_pairwise_cons hs.of_cons (by simp)
    · exact List.rel_of_pairwise_cons hs.of_cons.of_cons (by simp)

open Classical in
theorem ThirdOf.le_of {v a b c d t : ℝ} (h : ThirdOf v a b c d) (ht : [a, b, c, d].countP (fun z => decide (t < z)) ≤ 1) : v ≤ t := by
  obtain ⟨p, q, s, hp, -, -, h3⟩ := h
  by_contra hv
  rw [← hp.countP_eq] at ht
  have h1 : t < v := not_le.1 hv
  have h2 : t < s := lt_of_lt_of_le h1 h3
  simp only [List.countP_cons, h1, h2, decide_true, if_true, List.countP_nil] at ht
  omega

open Classical in
theorem ThirdOf.ge_of {v a b c d t : ℝ} (h : ThirdOf v a b c d) (ht : [a, b, c, d].countP (fun z => decide (z < t)) ≤ 2) : t ≤ v := by
  obtain ⟨p, q, s, hp, h1, h2, -⟩ := h
  by_contra hv
  rw [← hp.countP_eq] at ht
  have k1 : v < t := not_le.1 hv
  have k2 : q < t := lt_of_le_of_lt h2 k1
  have k3 : p < t := lt_of_le_of_lt h1 k2
  simp only [List.countP_cons, k1, k2, k3, decide_true, if_true, List.countP_nil] at ht
  omega

theorem ThirdOf.mem {v a b c d : ℝ} (h : ThirdOf v a b c d) : v = a ∨ v = b ∨ v = c ∨ v = d := by
  obtain ⟨p, q, s, hp, -⟩ := h
  have : v ∈ [a, b, c, d] := hp.mem_iff.1 (by simp)
  simpa using this

/-- If the last is the largest, the third smallest is the largest of the other three. -/
theorem ThirdOf.largest_last {v a b c d : ℝ} (h : ThirdOf v a b c d) (ha : a ≤ d) (hb : b ≤ d) (hc : c ≤ d) :
    v = max a (max b c) := by
  classical
  obtain ⟨m, hm⟩ : ∃ m, m = max a (max b c) := ⟨_, rfl⟩
  have k1 : a ≤ m := hm ▸ le_max_left _ _
  have k2 : b ≤ m := hm ▸ le_trans (le_max_left _ _) (le_max_right _ _)
  have k3 : c ≤ m := hm ▸ le_trans (le_max_right _ _) (le_max_right _ _)
  have k4 : m ≤ d := hm ▸ max_le ha (max_le hb hc)
  have k5 : m = a ∨ m = b ∨ m = c := by
    rcases max_choice a (max b c) with e | e
    · exact Or.inl (hm.trans e)
    · rcases max_choice b c with e' | e'
      · exact Or.inr (Or.inl (hm.trans (e.trans e')))
      · exact Or.inr (Or.inr (hm.trans (e.trans e')))
  rw [← hm]
  apply le_antisymm
  · refine h.le_of ?_
    simp only [List.countP_cons, List.countP_nil, decide_eq_true_eq]
    split_ifs <;> first | omega | (exfalso; linarith)
  · refine h.ge_of ?_
    simp only [List.countP_cons, List.countP_nil, decide_eq_true_eq]
    rcases k5 with e | e | e <;> split_ifs <;> first | omega | (exfalso; linarith)

/-- If the numbers come in two equal pairs, the third smallest is the larger one. -/
theorem ThirdOf.pairs {v a b c d : ℝ} (h : ThirdOf v a b c d) (hp : (a = c ∧ b = d) ∨ (a = b ∧ c = d)) : v = max a d := by
  classical
  rcases le_total a d with hab | hab
  · rw [max_eq_right hab]
    apply le_antisymm
    · refine h.le_of ?_
      simp only [List.countP_cons, List.countP_nil, decide_eq_true_eq]
      rcases hp with ⟨e, e'⟩ | ⟨e, e'⟩ <;> split_ifs <;> first | omega | (exfalso; linarith)
    · refine h.ge_of ?_
      simp only [List.countP_cons, List.countP_nil, decide_eq_true_eq]
      rcases hp with ⟨e, e'⟩ | ⟨e, e'⟩ <;> split_ifs <;> first | omega | (exfalso; linarith)
  · rw [max_eq_left hab]
    apply le_antisymm
    · refine h.le_of ?_
      simp only [List.countP_cons, List.countP_nil, decide_eq_true_eq]
      rcases hp with ⟨e, e'⟩ | ⟨e, e'⟩ <;> split_ifs <;> first | omega | (exfalso; linarith)
    · refine h.ge_of ?_
      simp only [List.countP_cons, List.countP_nil, decide_eq_true_eq]
      rcases hp with ⟨e, e'⟩ | ⟨e, e'⟩ <;> split_ifs <;> first | omega | (exfalso; linarith)

/-- Where two of the four are large, so is the third smallest. -/
theorem ThirdOf.two_large {v a b c d t : ℝ} (h : ThirdOf v a b c d) (hd : t ≤ d) (ho : t ≤ a ∨ t ≤ b ∨ t ≤ c) : t ≤ v := by
  classical
  refine h.ge_of ?_
  simp only [List.countP_cons, List.countP_nil, decide_eq_true_eq]
  rcases ho with e | e | e <;> split_ifs <;> first | omega | (exfalso; linarith)

end Micropol

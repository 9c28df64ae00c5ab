import Verif.Lemmas.Statistics
import Mathlib.Order.Bounds.Basic
import Mathlib.Tactic.NormNum
import Mathlib.Tactic.IntervalCases

/-!
# Robust statistics

* C79: `median_minus_std`, `median_plus_std`.
* C80: `reject_outliers`.
* C81: `auto_threshold`.
-/

set_option autoImplicit false

namespace Micropol

noncomputable section

open Classical

/-! ## C79 -/

/-- C79: every non empty list of values has exactly one median. -/
theorem C79_median (l : List ℝ) (hl : l ≠ []) : ∃ m, IsMedian l m ∧ ∀ m', IsMedian l m' → m' = m := by
  obtain ⟨m, -, hm⟩ := npMedian_ok hl
  exact ⟨m, hm, fun m' h => median_unique h hm⟩

/-- C79: the two functions return the median of all pixels minus and plus `n` times the median distance from it. -/
theorem C79_interval (A : Img ℝ) (m d n : ℝ) (h : IsMedianDeviation (pixelValues A) m d) :
    medianMinusStd A n = .ok (m - n * d) ∧ medianPlusStd A n = .ok (m + n * d) := by
  have h1 := npMedian_eq h.1
  have h2 := npMedian_eq h.2
  unfold medianMinusStd medianPlusStd
  rw [pixelValues_eq, h1, Py.ok_bind, Py.ok_bind, ravel_map, pixelValues_eq, h2]
  exact ⟨rfl, rfl⟩

/-- C79: both exist whenever there is a pixel, and the median distance is not negative. -/
theorem C79_exists (A : Img ℝ) (hh : 0 < A.h) (hw : 0 < A.w) :
    ∃ m d, IsMedianDeviation (pixelValues A) m d ∧ 0 ≤ d := by
  obtain ⟨m, -, hm⟩ := npMedian_ok (pixelValues_nonempty hh hw)
  obtain ⟨d, -, hd⟩ := npMedian_ok (l := (pixelValues A).map (fun v => |v - m|)) (by
    intro h
    exact pixelValues_nonempty hh hw (List.map_eq_nil_iff.1 h))
  refine ⟨m, d, ⟨hm, hd⟩, median_mono_nonneg hd ?_⟩
  intro v hv
  obtain ⟨u, -, rfl⟩ := List.mem_map.1 hv
  exact abs_nonneg _

/-- C79: at least half of the pixels lie between the two values. -/
theorem C79_half_within (A : Img ℝ) (hh : 0 < A.h) (hw : 0 < A.w) :
    ∃ lo hi, medianMinusStd A 1 = .ok lo ∧ medianPlusStd A 1 = .ok hi ∧
      A.h * A.w ≤ 2 * (pixelValues A).countP (fun v => decide (lo ≤ v ∧ v ≤ hi)) := by
  obtain ⟨m, d, h, -⟩ := C79_exists A hh hw
  obtain ⟨h1, h2⟩ := C79_interval A m d 1 h
  refine ⟨_, _, h1, h2, ?_⟩
  have h3 := median_lower h.2
  rw [List.length_map, pixelValues_length, List.countP_map] at h3
  refine h3.trans (Nat.mul_le_mul_left 2 ?_)
  refine List.countP_mono_left ?_
  intro v _ hv
  simp only [Function.comp, decide_eq_true_eq] at hv ⊢
  rw [abs_le] at hv
  constructor <;> linarith

/-- C79: only the values count, not where they are; and the values follow changes of unit and offset. -/
theorem C79_rearranged (A B : Img ℝ) (h : (pixelValues A).Perm (pixelValues B)) (n : ℝ) :
    medianMinusStd A n = medianMinusStd B n ∧ medianPlusStd A n = medianPlusStd B n := by
  by_cases hA : pixelValues A = []
  · have hB : pixelValues B = [] := by
      rw [hA] at h
      exact List.nil_perm.1 h
    unfold medianMinusStd medianPlusStd npMedian
    rw [pixelValues_eq, pixelValues_eq, if_pos hA, if_pos hB]
    exact ⟨rfl, rfl⟩
  · obtain ⟨m, -, hm⟩ := npMedian_ok hA
    obtain ⟨d, -, hd⟩ := npMedian_ok (l := (pixelValues A).map (fun v => |v - m|)) (by
      intro h
      exact hA (List.map_eq_nil_iff.1 h))
    obtain ⟨a1, a2⟩ := C79_interval A m d n ⟨hm, hd⟩
    obtain ⟨b1, b2⟩ := C79_interval B m d n ⟨median_perm h hm, median_perm (h.map _) hd⟩
    rw [a1, a2, b1, b2]
    exact ⟨rfl, rfl⟩

theorem C79_affine (A : Img ℝ) (n a b lo hi : ℝ) (ha : 0 ≤ a) (hlo : medianMinusStd A n = .ok lo)
    (hhi : medianPlusStd A n = .ok hi) :
    medianMinusStd (A.map (fun v => a * v + b)) n = .ok (a * lo + b) ∧
    medianPlusStd (A.map (fun v => a * v + b)) n = .ok (a * hi + b) := by
  have hne : pixelValues A ≠ [] := by
    intro h
    unfold medianMinusStd npMedian at hlo
    rw [pixelValues_eq, if_pos h] at hlo
    cases hlo
  obtain ⟨m, -, hm⟩ := npMedian_ok hne
  obtain ⟨d, -, hd⟩ := npMedian_ok (l := (pixelValues A).map (fun v => |v - m|)) (by
    intro h
    exact hne (List.map_eq_nil_iff.1 h))
  obtain ⟨a1, a2⟩ := C79_interval A m d n ⟨hm, hd⟩
  rw [a1] at hlo
  rw [a2] at hhi
  injection hlo with hlo
  injection hhi with hhi
  have hv : pixelValues (A.map (fun v => a * v + b)) = (pixelValues A).map (fun v => a * v + b) := ravel_map A _
  have hm' : IsMedian (pixelValues (A.map (fun v => a * v + b))) (a * m + b) := by
    rw [hv]
    exact median_affine hm ha
  have hd' : IsMedian ((pixelValues (A.map (fun v => a * v + b))).map (fun v => |v - (a * m + b)|)) (a * d) := by
    have := median_affine hd (a := a) (b := 0) ha
    rw [add_zero] at this
    rw [hv, List.map_map]
    rw [List.map_map] at this
    have e : ((fun v => a * v + 0) ∘ fun v => |v - m|) = ((fun v => |v - (a * m + b)|) ∘ fun v => a * v + b) := by
      funext v
      simp only [Function.comp]
      rw [show a * v + b - (a * m + b) = a * (v - m) by ring, abs_mul, abs_of_nonneg ha]
      ring
    rw [e] at this
    exact this
  obtain ⟨b1, b2⟩ := C79_interval _ _ _ n ⟨hm', hd'⟩
  rw [b1, b2, ← hlo, ← hhi]
  constructor
  · congr 1
    ring
  · congr 1
    ring

/-- C79: an empty image has none (NaN). -/
theorem C79_empty (A : Img ℝ) (h : A.h = 0 ∨ A.w = 0) (n : ℝ) :
    medianMinusStd A n = .error .notFinite ∧ medianPlusStd A n = .error .notFinite := by
  have h0 : ravel A = [] := by
    apply List.length_eq_zero_iff.1
    rw [pixelValues_eq, pixelValues_length]
    rcases h with h | h <;> rw [h] <;> simp
  unfold medianMinusStd medianPlusStd npMedian
  rw [if_pos h0]
  exact ⟨rfl, rfl⟩

/-- Pixels 1, 2, 3, 100: the median is 5/2 and the median distance 1. -/
theorem four_pixels : IsMedianDeviation [1, 2, 3, 100] (5 / 2) 1 := by
  constructor
  · refine ⟨[1, 2, 3, 100], List.Perm.refl _, ?_, 2, 3, rfl, rfl, by norm_num⟩
    norm_num
  · refine ⟨[1 / 2, 1 / 2, 3 / 2, 195 / 2], ?_, ?_, 1 / 2, 3 / 2, rfl, rfl, by norm_num⟩
    · have e : ([1, 2, 3, 100] : List ℝ).map (fun v => |v - 5 / 2|) = [3 / 2, 1 / 2, 1 / 2, 195 / 2] := by
        simp only [List.map_cons, List.map_nil]
        norm_num [abs_of_nonneg, abs_of_neg]
      rw [e]
      exact ((List.Perm.swap _ _ _).cons _).trans (List.Perm.swap _ _ _)
    · norm_num

example : medianPlusStd (Img.ofFn 1 4 (fun _ x => ([1, 2, 3, 100] : List ℝ).getD x 0)) 3 = .ok (11 / 2) := by
  have := (C79_interval (Img.ofFn 1 4 (fun _ x => ([1, 2, 3, 100] : List ℝ).getD x 0)) (5 / 2) 1 3 four_pixels).2
  rw [this]
  norm_num

/-! ## C80 -/

theorem zip_filter_map (l : List ℝ) (f : ℝ → ℝ) (p : ℝ → Bool) :
    ((l.zip (l.map f)).filter (fun q => p q.2)).map Prod.fst = l.filter (fun v => p (f v)) := by
  induction l with
  | nil => rfl
  | cons a l ih =>
    simp only [List.map_cons, List.zip_cons_cons, List.filter_cons]
    split_ifs with h
    · rw [List.map_cons, ih]
    · exact ih

/-- C80: when the median distance `d` from the median `c` is not 0, the values kept are exactly those nearer than `m * d` to the
median, in their original order. -/
theorem C80_kept_partial (l : List ℝ) (m c d : ℝ) (h : IsMedianDeviation l c d) (hd : d ≠ 0) :
    rejectOutliers l m = .ok (l.filter (fun v => decide (|v - c| < m * d))) := by
  have hpos : 0 < d := by
    refine lt_of_le_of_ne (median_mono_nonneg h.2 ?_) (Ne.symm hd)
    intro v hv
    obtain ⟨u, -, rfl⟩ := List.mem_map.1 hv
    exact abs_nonneg _
  unfold rejectOutliers
  rw [if_neg (median_nonempty h.1), npMedian_eq h.1, Py.ok_bind]
  dsimp only
  rw [npMedian_eq h.2, Py.ok_bind, if_pos hd, List.map_map]
  rw [Py.pure_eq, zip_filter_map l _ (fun v => decide (v < m))]
  congr 1
  refine List.filter_congr ?_
  intro v _
  simp only [Function.comp, decide_eq_decide]
  exact div_lt_iff₀ hpos

/-- C80: nothing is added or reordered, and for `m > 1` at least half of the values are kept, whatever they are. -/
theorem C80_majority (l : List ℝ) (m : ℝ) :
    ∃ r, rejectOutliers l m = .ok r ∧ r.Sublist l ∧ (1 < m → l.length ≤ 2 * r.length) := by
  by_cases hl : l = []
  · subst hl
    exact ⟨[], by unfold rejectOutliers; rw [if_pos rfl], List.Sublist.refl _, fun _ => by simp⟩
  · obtain ⟨c, -, hc⟩ := npMedian_ok hl
    obtain ⟨d, -, hd⟩ := npMedian_ok (l := l.map (fun v => |v - c|)) (by
      intro h
      exact hl (List.map_eq_nil_iff.1 h))
    have hnn : 0 ≤ d := by
      refine median_mono_nonneg hd ?_
      intro v hv
      obtain ⟨u, -, rfl⟩ := List.mem_map.1 hv
      exact abs_nonneg _
    by_cases h0 : d = 0
    · unfold rejectOutliers
      rw [if_neg hl, npMedian_eq hc, Py.ok_bind]
      dsimp only
      rw [npMedian_eq hd, Py.ok_bind, if_neg (by simp [h0])]
      have e : List.replicate (l.map (fun v => |v - c|)).length (0 : ℝ) = l.map (fun _ => 0) := by
        rw [List.length_map, List.map_const']
      rw [e, Py.pure_eq, zip_filter_map l _ (fun v => decide (v < m))]
      refine ⟨_, rfl, List.filter_sublist, ?_⟩
      intro hm
      have : l.filter (fun _ => decide ((0 : ℝ) < m)) = l := by
        rw [List.filter_eq_self]
        intro v _
        simp only [decide_eq_true_eq]
        linarith
      rw [this]
      omega
    · refine ⟨_, C80_kept_partial l m c d ⟨hc, hd⟩ h0, List.filter_sublist, ?_⟩
      intro hm
      have h3 := median_lower hd
      rw [List.length_map, List.countP_map] at h3
      refine h3.trans (Nat.mul_le_mul_left 2 ?_)
      rw [← List.countP_eq_length_filter]
      refine List.countP_mono_left ?_
      intro v _ hv
      simp only [Function.comp, decide_eq_true_eq] at hv ⊢
      have : 0 < d := lt_of_le_of_ne hnn (Ne.symm h0)
      nlinarith

/-- C80 violated when more than half of the values agree: nothing is rejected, however far from the rest. -/
theorem C80_degenerate (l : List ℝ) (m c : ℝ) (hm : 0 < m) (h : IsMedianDeviation l c 0) : rejectOutliers l m = .ok l := by
  unfold rejectOutliers
  rw [if_neg (median_nonempty h.1), npMedian_eq h.1, Py.ok_bind]
  dsimp only
  rw [npMedian_eq h.2, Py.ok_bind, if_neg (by simp)]
  have e : List.replicate (l.map (fun v => |v - c|)).length (0 : ℝ) = l.map (fun _ => 0) := by
    rw [List.length_map, List.map_const']
  rw [e, Py.pure_eq, zip_filter_map l _ (fun v => decide (v < m))]
  congr 1
  rw [List.filter_eq_self]
  intro v _
  simpa using hm

/-- C80: so the claim that every kept value is nearer than `m` median distances to the median is false. -/
theorem C80_full_claim_false :
    ¬ ∀ (l : List ℝ) (m c d : ℝ) (r : List ℝ), IsMedianDeviation l c d → rejectOutliers l m = .ok r →
      ∀ v ∈ r, |v - c| ≤ m * d := by
  intro h
  have hd : IsMedianDeviation [5, 5, 1000] 5 0 := by
    constructor
    · refine ⟨[5, 5, 1000], List.Perm.refl _, by norm_num, 5, 5, rfl, rfl, by norm_num⟩
    · refine ⟨[0, 0, 995], ?_, by norm_num, 0, 0, rfl, rfl, by norm_num⟩
      have e : ([5, 5, 1000] : List ℝ).map (fun v => |v - 5|) = [0, 0, 995] := by
        simp only [List.map_cons, List.map_nil]
        norm_num
      rw [e]
  have := h [5, 5, 1000] 2 5 0 _ hd (C80_degenerate _ 2 5 (by norm_num) hd) 1000 (by simp)
  norm_num at this

example : rejectOutliers [1, 2, 3, 100] 2 = .ok [1, 2, 3] := by
  rw [C80_kept_partial [1, 2, 3, 100] 2 (5 / 2) 1 four_pixels (by norm_num)]
  congr 1
  simp only [List.filter_cons, List.filter_nil]
  norm_num [abs_of_nonneg, abs_of_neg]

/-! ## C81 -/

theorem within_eq (l : List ℝ) (t : ℝ) : otsuIntraclassVariance l t = withinClasses l t / (l.length : ℝ) := by
  unfold otsuIntraclassVariance withinClasses upper lower
  rw [classTerm_eq, classTerm_eq, add_div]

/-- C81: on an image (after the median filter) with at least two pixels, from `lo` to `hi`, the threshold is one of up to 1000
equally spaced numbers from `lo + 1` to `hi`, and among them it minimises the scatter within the two classes and maximises the
scatter between them. -/
theorem C81_otsu_partial (filter : Img ℝ → Img ℝ) (A : Img ℝ) (h2 : 2 ≤ (filter A).h * (filter A).w) (lo hi : ℝ)
    (hlo : IsLeast {v | v ∈ pixelValues (filter A)} lo) (hhi : IsGreatest {v | v ∈ pixelValues (filter A)} hi) :
    ∃ t, autoThreshold filter A = .ok t ∧
      IsStep (lo + 1) hi (min ((filter A).h * (filter A).w) 1000) t ∧
      ∀ c, IsStep (lo + 1) hi (min ((filter A).h * (filter A).w) 1000) c →
        withinClasses (pixelValues (filter A)) t ≤ withinClasses (pixelValues (filter A)) c ∧
        betweenClasses (pixelValues (filter A)) c ≤ betweenClasses (pixelValues (filter A)) t := by
  have hlen := pixelValues_length (filter A)
  unfold autoThreshold
  rw [pixelValues_eq]
  rw [← hlen] at h2 ⊢
  revert h2 hlo hhi
  generalize pixelValues (filter A) = l
  intro h2 hlo hhi
  match l, h2, hlo, hhi with
  | p :: l, h2, hlo, hhi =>
    dsimp only
    obtain ⟨m1, m2⟩ := foldl_min_spec l p
    obtain ⟨x1, x2⟩ := foldl_max_spec l p
    have e1 : l.foldl min p = lo := le_antisymm (m2 lo hlo.1) (hlo.2 m1)
    have e2 : l.foldl max p = hi := le_antisymm (hhi.2 x1) (x2 hi hhi.1)
    rw [e1, e2]
    have hmem := linspace_mem (a := lo + 1) (b := hi) (n := min (p :: l).length 1000) (by omega)
    generalize linspace (lo + 1) hi (min (p :: l).length 1000) = cs at hmem
    match cs with
    | [] =>
      exfalso
      have := (hmem (lo + 1)).2 ⟨0, by omega, by simp⟩
      simp at this
    | c :: cs =>
      obtain ⟨k1, k2⟩ := foldl_minBy (otsuIntraclassVariance (p :: l)) cs c
      refine ⟨_, rfl, (hmem _).1 k1, ?_⟩
      intro v hv
      have h3 := k2 v ((hmem v).2 hv)
      have hpos : (0 : ℝ) < ((p :: l).length : ℝ) := by
        have : 0 < (p :: l).length := by simp
        exact_mod_cast this
      rw [within_eq, within_eq, div_le_div_iff_of_pos_right hpos] at h3
      refine ⟨h3, ?_⟩
      have s1 := scatter_split (p :: l) v
      have s2 := scatter_split (p :: l) (cs.foldl (fun best v => if otsuIntraclassVariance (p :: l) v <
        otsuIntraclassVariance (p :: l) best then v else best) c)
      nlinarith

/-- C81: where the image spans at least 1, the threshold lies between `lo + 1` and `hi`; both classes then have members. -/
theorem C81_between (filter : Img ℝ → Img ℝ) (A : Img ℝ) (h2 : 2 ≤ (filter A).h * (filter A).w) (lo hi : ℝ)
    (hlo : IsLeast {v | v ∈ pixelValues (filter A)} lo) (hhi : IsGreatest {v | v ∈ pixelValues (filter A)} hi)
    (hspan : lo + 1 ≤ hi) :
    ∃ t, autoThreshold filter A = .ok t ∧ lo < t ∧ t ≤ hi := by
  obtain ⟨t, ht, ⟨i, hi', hs⟩, -⟩ := C81_otsu_partial filter A h2 lo hi hlo hhi
  refine ⟨t, ht, ?_⟩
  have hn : (2 : ℝ) ≤ (min ((filter A).h * (filter A).w) 1000 : Nat) := by
    have : 2 ≤ min ((filter A).h * (filter A).w) 1000 := by omega
    exact_mod_cast this
  have hin : (i : ℝ) ≤ (min ((filter A).h * (filter A).w) 1000 : Nat) - 1 := by
    have : i + 1 ≤ min ((filter A).h * (filter A).w) 1000 := hi'
    have : ((i + 1 : Nat) : ℝ) ≤ (min ((filter A).h * (filter A).w) 1000 : Nat) := by exact_mod_cast this
    push_cast at this ⊢
    linarith
  generalize ((min ((filter A).h * (filter A).w) 1000 : Nat) : ℝ) = n at *
  have hi0 : (0 : ℝ) ≤ i := Nat.cast_nonneg i
  have hn0 : 0 < n - 1 := by linarith
  have g1 : (lo + 1) * (n - 1) ≤ t * (n - 1) := by
    rw [hs]
    nlinarith
  have g2 : t * (n - 1) ≤ hi * (n - 1) := by
    rw [hs]
    nlinarith
  have g3 := le_of_mul_le_mul_right g1 hn0
  have g4 := le_of_mul_le_mul_right g2 hn0
  exact ⟨by linarith, g4⟩

/-- C81: an image of two levels at least 1 apart is separated exactly. -/
theorem C81_two_levels (filter : Img ℝ → Img ℝ) (A : Img ℝ) (a b : ℝ) (hab : a + 1 ≤ b)
    (ha : a ∈ pixelValues (filter A)) (hb : b ∈ pixelValues (filter A)) (hall : ∀ v ∈ pixelValues (filter A), v = a ∨ v = b) :
    ∃ t, autoThreshold filter A = .ok t ∧ ∀ v ∈ pixelValues (filter A), (v = b ↔ t ≤ v) ∧ (v = a ↔ v < t) := by
  have h2 : 2 ≤ (filter A).h * (filter A).w := by
    rw [← pixelValues_length]
    match hl : pixelValues (filter A), ha, hb with
    | [], ha, _ => simp at ha
    | [v], ha, hb =>
      simp at ha hb
      linarith
    | _ :: _ :: _, _, _ => simp
  obtain ⟨t, ht, h3, h4⟩ := C81_between filter A h2 a b
    ⟨ha, fun v hv => by rcases hall v hv with rfl | rfl <;> linarith⟩
    ⟨hb, fun v hv => by rcases hall v hv with rfl | rfl <;> linarith⟩ hab
  refine ⟨t, ht, ?_⟩
  intro v hv
  rcases hall v hv with rfl | rfl
  · refine ⟨⟨fun h => by linarith, fun h => by linarith⟩, ⟨fun _ => h3, fun _ => rfl⟩⟩
  · refine ⟨⟨fun _ => h4, fun _ => rfl⟩, ⟨fun h => by linarith, fun h => by linarith⟩⟩

/-- C81 violated for images that span less than 1 (for instance normalised ones): no value but the largest is above the
threshold. -/
theorem C81_narrow (filter : Img ℝ → Img ℝ) (A : Img ℝ) (h2 : 2 ≤ (filter A).h * (filter A).w) (lo hi : ℝ)
    (hlo : IsLeast {v | v ∈ pixelValues (filter A)} lo) (hhi : IsGreatest {v | v ∈ pixelValues (filter A)} hi)
    (hspan : hi < lo + 1) :
    ∃ t, autoThreshold filter A = .ok t ∧ ∀ v ∈ pixelValues (filter A), t ≤ v → v = hi := by
  obtain ⟨t, ht, ⟨i, hi', hs⟩, -⟩ := C81_otsu_partial filter A h2 lo hi hlo hhi
  refine ⟨t, ht, ?_⟩
  have hn : (2 : ℝ) ≤ (min ((filter A).h * (filter A).w) 1000 : Nat) := by
    have : 2 ≤ min ((filter A).h * (filter A).w) 1000 := by omega
    exact_mod_cast this
  have hin : (i : ℝ) ≤ (min ((filter A).h * (filter A).w) 1000 : Nat) - 1 := by
    have : i + 1 ≤ min ((filter A).h * (filter A).w) 1000 := hi'
    have : ((i + 1 : Nat) : ℝ) ≤ (min ((filter A).h * (filter A).w) 1000 : Nat) := by exact_mod_cast this
    push_cast at this ⊢
    linarith
  generalize ((min ((filter A).h * (filter A).w) 1000 : Nat) : ℝ) = n at *
  have hn0 : 0 < n - 1 := by linarith
  have g2 : hi * (n - 1) ≤ t * (n - 1) := by
    rw [hs]
    nlinarith
  have g4 := le_of_mul_le_mul_right g2 hn0
  intro v hv hle
  exact le_antisymm (hhi.2 hv) (g4.trans hle)

/-- C81: so the threshold is not always one that minimises the scatter within the classes: for pixels 0, 0, 4/10, 5/10 (left as
they are by the filter) the threshold 4/10 does better. -/
theorem C81_full_claim_false :
    ¬ ∀ (filter : Img ℝ → Img ℝ) (A : Img ℝ) (t c : ℝ), autoThreshold filter A = .ok t →
      withinClasses (pixelValues (filter A)) t ≤ withinClasses (pixelValues (filter A)) c := by
  intro h
  obtain ⟨A, hA⟩ : ∃ A : Img ℝ, A = Img.ofFn 1 4 (fun _ x => ([0, 0, 4 / 10, 5 / 10] : List ℝ).getD x 0) := ⟨_, rfl⟩
  have hv : pixelValues A = [0, 0, 4 / 10, 5 / 10] := by
    rw [hA]
    rfl
  have hsz : 2 ≤ (id A).h * (id A).w := by
    rw [hA]
    decide
  obtain ⟨t, ht, hn⟩ := C81_narrow id A hsz 0 (5 / 10)
    (by
      show IsLeast {v | v ∈ pixelValues A} 0
      rw [hv]
      refine ⟨by simp, ?_⟩
      intro v hv
      simp at hv
      rcases hv with rfl | rfl | rfl <;> norm_num)
    (by
      show IsGreatest {v | v ∈ pixelValues A} _
      rw [hv]
      refine ⟨by simp, ?_⟩
      intro v hv
      simp at hv
      rcases hv with rfl | rfl | rfl <;> norm_num) (by norm_num)
  have h4 := h id A t (4 / 10) ht
  have hn' : ∀ v ∈ pixelValues A, t ≤ v → v = 5 / 10 := hn
  have h4' : withinClasses (pixelValues A) t ≤ withinClasses (pixelValues A) (4 / 10) := h4
  rw [hv] at hn' h4'
  have e0 : ¬ t ≤ 0 := fun h => by
    have := hn' 0 (by simp) h
    norm_num at this
  have e4 : ¬ t ≤ 4 / 10 := fun h => by
    have := hn' (4 / 10) (by simp) h
    norm_num at this
  have l0 : (0 : ℝ) < t := not_le.1 e0
  have l4 : (4 / 10 : ℝ) < t := not_le.1 e4
  have r : withinClasses [0, 0, 4 / 10, 5 / 10] (4 / 10) = 5 / 1000 := by
    unfold withinClasses upper lower scatter
    norm_num
  rw [r] at h4'
  unfold withinClasses upper lower scatter at h4'
  by_cases e5 : t ≤ 5 / 10
  · have l5 : ¬ (5 / 10 : ℝ) < t := not_lt.2 e5
    simp only [List.filter_cons, List.filter_nil, e0, e4, e5, l0, l4, l5, decide_true, decide_false, if_true, Bool.false_eq_true,
      if_false, List.map_cons, List.map_nil, List.sum_cons, List.sum_nil, List.length_cons, List.length_nil] at h4'
    norm_num at h4'
  · have l5 : (5 / 10 : ℝ) < t := not_le.1 e5
    simp only [List.filter_cons, List.filter_nil, e0, e4, e5, l0, l4, l5, decide_true, decide_false, if_true, Bool.false_eq_true,
      if_false, List.map_cons, List.map_nil, List.sum_cons, List.sum_nil, List.length_cons, List.length_nil] at h4'
    norm_num at h4'

/-- C81: an image without pixels raises `ValueError`. -/
theorem C81_empty (filter : Img ℝ → Img ℝ) (A : Img ℝ) (h : (filter A).h = 0 ∨ (filter A).w = 0) :
    autoThreshold filter A = .error .valueError := by
  have h0 : ravel (filter A) = [] := by
    apply List.length_eq_zero_iff.1
    rw [pixelValues_eq, pixelValues_length]
    rcases h with h | h <;> rw [h] <;> simp
  unfold autoThreshold
  rw [h0]

/-- A 1 x 4 image with levels 10 and 50 is separated. -/
example : ∃ t, autoThreshold id (Img.ofFn 1 4 (fun _ x => ([10, 50, 10, 50] : List ℝ).getD x 0)) = .ok t ∧ 10 < t ∧ t ≤ 50 := by
  have hv : pixelValues (id (Img.ofFn 1 4 (fun _ x => ([10, 50, 10, 50] : List ℝ).getD x 0))) = [10, 50, 10, 50] := rfl
  obtain ⟨t, ht, h⟩ := C81_two_levels id (Img.ofFn 1 4 (fun _ x => ([10, 50, 10, 50] : List ℝ).getD x 0)) 10 50 (by norm_num)
    (by rw [hv]; simp) (by rw [hv]; simp) (by
      rw [hv]
      intro v hv
      simp at hv
      rcases hv with rfl | rfl | rfl | rfl <;> norm_num)
  rw [hv] at h
  exact ⟨t, ht, (h 10 (by simp)).2.1 rfl, (h 50 (by simp)).1.1 rfl⟩

end

end Micropol

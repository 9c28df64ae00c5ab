import Verif.Model.Helpers
import Verif.Spec.Statistics
import Verif.Spec.Shape
import Verif.Lemmas.Statistics
import Verif.Lemmas.Split
import Mathlib.Algebra.Order.BigOperators.Group.List
import Mathlib.Tactic.FinCases
import Mathlib.Tactic.Linarith
import Mathlib.Tactic.NormNum

/-!
# C90: doubling an array, removing outliers
-/

set_option autoImplicit false

namespace Micropol

/-! ## `tile_double` -/

section
variable {α : Type} [Zero α]

/-- C90: `tile_double` doubles both sides and repeats every pixel in a 2x2 block. -/
theorem C90_tile (a : Img α) :
    (tileDouble a).h = 2 * a.h ∧ (tileDouble a).w = 2 * a.w ∧
    ∀ y x, y < a.h → x < a.w → ∀ p q, p < 2 → q < 2 → (tileDouble a).px (2 * y + p) (2 * x + q) = a.px y x := by
  refine ⟨rfl, rfl, ?_⟩
  intro y x hy hx p q hp hq
  unfold tileDouble tileElement
  rw [Img.ofFn_px (by omega) (by omega)]
  have hw : 0 < a.w := by omega
  have e0 : ((2 * y + p) * (2 * a.w) + (2 * x + q)) / 2 = (2 * y + p) * a.w + x := by
    rw [show (2 * y + p) * (2 * a.w) + (2 * x + q) = 2 * ((2 * y + p) * a.w + x) + q by ring]
    omega
  rw [e0]
  have e1 : ((2 * y + p) * a.w + x) / a.w = 2 * y + p := by
    rw [Nat.add_comm, Nat.add_mul_div_right _ _ hw, Nat.div_eq_of_lt hx, Nat.zero_add]
  have e2 : ((2 * y + p) * a.w + x) % a.w = x := by
    rw [Nat.add_comm, Nat.add_mul_mod_self_right, Nat.mod_eq_of_lt hx]
  rw [e1, e2]
  congr 1
  omega

/-- C90: the doubled array, taken as a mosaic, has the array itself as each of its four families. -/
theorem C90_tile_families (a : Img α) : splitPolarizations (tileDouble a) = .ok (fun _ => a) := by
  rw [split_ok (by show (2 * a.h) % 2 = 0; omega) (by show (2 * a.w) % 2 = 0; omega)]
  congr 1
  funext k
  refine Img.ext_px (by show 2 * a.h / 2 = a.h; omega) (by show 2 * a.w / 2 = a.w; omega) ?_
  intro y x hy hx
  have hy' : y < 2 * a.h / 2 := hy
  have hx' : x < 2 * a.w / 2 := hx
  refine (Img.ofFn_px (by exact hy') (by exact hx')).trans ?_
  have := k.isLt
  exact (C90_tile a).2.2 y x (by omega) (by omega) _ _ (by omega) (by omega)

end

/-! ## `remove_outliers_simple` -/

open Classical

theorem foldl_keeps {P : List ℝ → Prop} (n : Nat) (f : List ℝ → Nat → List ℝ) (l : List ℝ) (h0 : P l)
    (hs : ∀ l i, i < n → P l → P (f l i)) : P ((List.range n).foldl f l) := by
  induction n with
  | zero => exact h0
  | succ n ih =>
    rw [List.range_succ, List.foldl_append]
    exact hs _ n (by omega) (ih (fun l i hi => hs l i (by omega)))

theorem outlierStep_cases (n : Nat) (l : List ℝ) (i : Nat) :
    outlierStep n l i = l ∨ ∃ m, IsMedian (pySlice l ((i : Int) - n) (i + n)) m ∧ outlierStep n l i = l.set i m := by
  unfold outlierStep
  dsimp only
  by_cases hw : pySlice l ((i : Int) - n) (i + n) = []
  · left
    rw [hw]
    simp [npMedian]
  · obtain ⟨m, e, hm⟩ := npMedian_ok hw
    rw [e]
    dsimp only
    obtain ⟨s, e', -⟩ := npMedian_ok (l := (pySlice l ((i : Int) - n) (i + n)).map (fun v => |v - m|)) (by simpa using hw)
    rw [e']
    dsimp only
    split
    · exact Or.inr ⟨m, hm, rfl⟩
    · exact Or.inl rfl

theorem inner_length (l : List ℝ) (n : Nat) (hn : 0 < n) : (pySlice l n (-n)).length = l.length - 2 * n := by
  unfold pySlice
  simp only [List.length_drop, List.length_take]
  split <;> split <;> omega

theorem inner_zero (l : List ℝ) : (pySlice l (0 : Nat) (-(0 : Nat))).length = 0 := by
  unfold pySlice
  simp

/-- The window of an index below `n` is empty. -/
theorem window_start {l : List ℝ} {n i : Nat} (hi : i < n) (hl : 2 * n ≤ l.length) :
    pySlice l ((i : Int) - n) (i + n) = [] := by
  unfold pySlice
  dsimp only
  rw [List.drop_eq_nil_iff, List.length_take]
  split <;> split <;> omega

/-- The window of the other indices: the `2 n` samples from `i - n` on. -/
theorem window_mid {l : List ℝ} {n i : Nat} (hi : n ≤ i) (hl : i + n ≤ l.length) :
    pySlice l ((i : Int) - n) (i + n) = (l.take (i + n)).drop (i - n) := by
  unfold pySlice
  dsimp only
  rw [if_neg (by omega), if_neg (by omega)]
  congr 2 <;> omega

theorem step_start {l : List ℝ} {n i : Nat} (hi : i < n) (hl : 2 * n ≤ l.length) : outlierStep n l i = l := by
  unfold outlierStep
  rw [window_start hi hl]
  simp [npMedian]

/-- C90: the number of samples does not change; the first `n` and the last `2 n` samples are never changed. -/
theorem C90_outliers_unchanged (l : List ℝ) (n : Nat) :
    (removeOutliersSimple l n).length = l.length ∧
    ∀ i, i < n ∨ l.length < i + 2 * n + 1 → (removeOutliersSimple l n)[i]? = l[i]? := by
  unfold removeOutliersSimple
  by_cases h0 : n = 0
  · subst h0
    rw [inner_zero]
    exact ⟨rfl, fun _ _ => rfl⟩
  · rw [inner_length l n (by omega)]
    refine foldl_keeps (P := fun r => r.length = l.length ∧ ∀ i, i < n ∨ l.length < i + 2 * n + 1 → r[i]? = l[i]?) _ _ _
      ⟨rfl, fun _ _ => rfl⟩ ?_
    rintro r i hi ⟨h1, h2⟩
    by_cases hin : i < n
    · rw [step_start hin (by omega)]
      exact ⟨h1, h2⟩
    · rcases outlierStep_cases n r i with e | ⟨m, -, e⟩
      · rw [e]; exact ⟨h1, h2⟩
      · rw [e]
        refine ⟨by rw [List.length_set, h1], ?_⟩
        intro j hj
        rw [List.getElem?_set_ne (by omega)]
        exact h2 j hj

theorem median_between {l : List ℝ} {m lo hi : ℝ} (h : IsMedian l m) (hb : ∀ v ∈ l, lo ≤ v ∧ v ≤ hi) : lo ≤ m ∧ m ≤ hi := by
  obtain ⟨s, hp, -, a, b, ha, hb', rfl⟩ := h
  have h1 := hb a (hp.mem_iff.1 (List.mem_of_getElem? ha))
  have h2 := hb b (hp.mem_iff.1 (List.mem_of_getElem? hb'))
  constructor <;> linarith [h1.1, h1.2, h2.1, h2.2]

/-- C90: no value outside the range of the samples appears. -/
theorem C90_outliers_range (l : List ℝ) (n : Nat) (lo hi : ℝ) (hl : ∀ v ∈ l, lo ≤ v ∧ v ≤ hi) :
    ∀ v ∈ removeOutliersSimple l n, lo ≤ v ∧ v ≤ hi := by
  unfold removeOutliersSimple
  refine foldl_keeps (P := fun r => ∀ v ∈ r, lo ≤ v ∧ v ≤ hi) _ _ _ hl ?_
  intro r i _ h
  rcases outlierStep_cases n r i with e | ⟨m, hm, e⟩
  · rw [e]; exact h
  · rw [e]
    intro v hv
    rcases List.mem_or_eq_of_mem_set hv with hv | rfl
    · exact h v hv
    · refine median_between hm (fun w hw => h w ?_)
      unfold pySlice at hw
      exact List.mem_of_mem_take (List.mem_of_mem_drop hw)

/-- C90: if every sample lies within three median deviations of the median of the window that precedes it by `n` samples, nothing
changes.  Missing from the full claim: samples that are far away are replaced (false, see below). -/
theorem C90_outliers_partial (l : List ℝ) (n : Nat)
    (h : ∀ i, n ≤ i → i + 2 * n < l.length → ∀ m d, IsMedianDeviation ((l.take (i + n)).drop (i - n)) m d →
      ∀ e, l[i + n]? = some e → |e - m| ≤ 3 * d) :
    removeOutliersSimple l n = l := by
  unfold removeOutliersSimple
  by_cases h0 : n = 0
  · subst h0
    rw [inner_zero]
    rfl
  rw [inner_length l n (by omega)]
  refine foldl_keeps (P := fun r => r = l) _ _ _ rfl ?_
  rintro r i hi rfl
  by_cases hin : i < n
  · exact step_start hin (by omega)
  unfold outlierStep
  dsimp only
  rw [window_mid (by omega) (by omega)]
  have hne : (r.take (i + n)).drop (i - n) ≠ [] := by
    intro hc
    have := congrArg List.length hc
    rw [List.length_drop, List.length_take, List.length_nil] at this
    omega
  obtain ⟨m, e, hm⟩ := npMedian_ok hne
  rw [e]
  dsimp only
  obtain ⟨s, e', hs⟩ := npMedian_ok (l := ((r.take (i + n)).drop (i - n)).map (fun v => |v - m|)) (by simpa using hne)
  rw [e']
  dsimp only
  have hlt : i + n < r.length := by omega
  have he : r[i + n]? = some (r.getD (n + i) 0) := by
    rw [List.getD_eq_getElem?_getD, Nat.add_comm n i, List.getElem?_eq_getElem hlt, Option.getD_some]
  have := abs_le.1 (h i (by omega) (by omega) m s ⟨hm, hs⟩ _ he)
  rw [if_neg]
  rintro (hc | hc) <;> linarith [this.1, this.2]

/-- The median is `c` if fewer than half of the values are below and fewer than half above `c`. -/
theorem median_of_counts {l : List ℝ} {c : ℝ} (h1 : 2 * l.countP (fun v => decide (v < c)) < l.length)
    (h2 : 2 * l.countP (fun v => decide (c < v)) < l.length) : IsMedian l c := by
  have hl : l ≠ [] := by rintro rfl; simp at h1
  obtain ⟨m, -, s, hp, hs, a, b, ha, hb, hm⟩ := npMedian_ok hl
  obtain ⟨g1, ea⟩ := List.getElem?_eq_some_iff.1 ha
  obtain ⟨g2, eb⟩ := List.getElem?_eq_some_iff.1 hb
  rw [← hp.countP_eq, ← hp.length_eq] at h1 h2
  have mono : ∀ i j (hi : i < s.length) (hj : j < s.length), i ≤ j → s[i] ≤ s[j] := by
    intro i j hi hj hij
    rcases Nat.lt_or_ge i j with hc | hc
    · exact List.pairwise_iff_getElem.1 hs _ _ hi hj hc
    · have : i = j := by omega
      simp only [this, le_refl]
  have hac : c ≤ a := by
    by_contra hn
    push Not at hn
    have hsub : (s.take ((s.length - 1) / 2 + 1)).countP (fun v => decide (v < c)) ≤ s.countP (fun v => decide (v < c)) :=
      (List.take_sublist _ _).countP_le
    have hall : (s.take ((s.length - 1) / 2 + 1)).countP (fun v => decide (v < c)) =
        (s.take ((s.length - 1) / 2 + 1)).length := by
      rw [List.countP_eq_length]
      intro v hv
      obtain ⟨i, hi, rfl⟩ := List.getElem_of_mem hv
      rw [List.length_take] at hi
      rw [List.getElem_take]
      have := mono i ((s.length - 1) / 2) (by omega) g1 (by omega)
      simp only [decide_eq_true_eq]
      linarith
    rw [List.length_take] at hall
    omega
  have hbc : b ≤ c := by
    by_contra hn
    push Not at hn
    have hsub : (s.drop (s.length / 2)).countP (fun v => decide (c < v)) ≤ s.countP (fun v => decide (c < v)) :=
      (List.drop_sublist _ _).countP_le
    have hall : (s.drop (s.length / 2)).countP (fun v => decide (c < v)) = (s.drop (s.length / 2)).length := by
      rw [List.countP_eq_length]
      intro v hv
      obtain ⟨i, hi, rfl⟩ := List.getElem_of_mem hv
      rw [List.length_drop] at hi
      rw [List.getElem_drop]
      have := mono (s.length / 2) (s.length / 2 + i) g2 (by omega) (by omega)
      simp only [decide_eq_true_eq]
      linarith
    rw [List.length_drop] at hall
    omega
  have hab : a ≤ b := by rw [← ea, ← eb]; exact mono _ _ g1 g2 (by omega)
  have e1 : a = c := by linarith
  have e2 : b = c := by linarith
  exact ⟨s, hp, hs, a, b, ha, hb, by rw [e1, e2]; ring⟩

/-- C90, violation: a single spike on a constant background is never removed, whatever its height and place and whatever the number
of neighbours. -/
theorem C90_spike_stays (before after n : Nat) (c v : ℝ) :
    removeOutliersSimple (List.replicate before c ++ v :: List.replicate after c) n =
      List.replicate before c ++ v :: List.replicate after c := by
  obtain ⟨l, hl⟩ : ∃ l, l = List.replicate before c ++ v :: List.replicate after c := ⟨_, rfl⟩
  rw [← hl]
  have hlen : l.length = before + 1 + after := by rw [hl]; simp; omega
  have hget : ∀ i, i < l.length → l[i]? = some (if i = before then v else c) := by
    intro i hi
    rw [hl, List.getElem?_append]
    rw [List.length_replicate]
    split
    · rename_i h
      rw [List.getElem?_replicate, if_pos h, if_neg (by omega)]
    · rename_i h
      rw [List.getElem?_cons]
      split
      · rw [if_pos (by omega)]
      · rw [List.getElem?_replicate, if_pos (by omega), if_neg (by omega)]
  unfold removeOutliersSimple
  by_cases h0 : n = 0
  · subst h0
    rw [inner_zero]
    rfl
  rw [inner_length l n (by omega)]
  refine foldl_keeps (P := fun r => r = l) _ _ _ rfl ?_
  rintro r i hi rfl
  by_cases hin : i < n
  · exact step_start hin (by omega)
  -- writing the background over itself
  have hset : i ≠ before → r.set i c = r := by
    intro hne
    refine List.ext_getElem? (fun j => ?_)
    by_cases hj : i = j
    · subst hj
      rw [List.getElem?_set_self (by omega), hget i (by omega), if_neg hne]
    · rw [List.getElem?_set_ne hj]
  have helem : r.getD (n + i) 0 = if n + i = before then v else c := by
    rw [List.getD_eq_getElem?_getD, hget (n + i) (by omega), Option.getD_some]
  have hwin := window_mid (l := r) (n := n) (i := i) (by omega) (by omega)
  obtain ⟨w, hw⟩ : ∃ w, w = (r.take (i + n)).drop (i - n) := ⟨_, rfl⟩
  rw [← hw] at hwin
  have hwlen : w.length = 2 * n := by
    rw [hw, List.length_drop, List.length_take]
    omega
  have hwget : ∀ j, j < 2 * n → w[j]? = some (if i - n + j = before then v else c) := by
    intro j hj
    rw [hw, List.getElem?_drop, List.getElem?_take, if_pos (by omega), hget _ (by omega)]
  have hwmem : ∀ u ∈ w, u = c ∨ u = v := by
    intro u hu
    obtain ⟨j, hj, rfl⟩ := List.getElem_of_mem hu
    have := hwget j (by omega)
    rw [List.getElem?_eq_getElem hj] at this
    have := Option.some.inj this
    rw [this]
    split
    · exact Or.inr rfl
    · exact Or.inl rfl
  unfold outlierStep
  dsimp only
  rw [hwin]
  by_cases hp : i - n ≤ before ∧ before < i + n
  · -- the spike is in the window, the element is background
    rw [helem, if_neg (by omega)]
    suffices h : ∀ m s, IsMedianDeviation w m s → ¬ (c < m - 3 * s ∨ c > m + 3 * s) by
      have hne : w ≠ [] := by rintro rfl; simp at hwlen; omega
      obtain ⟨m, e, hm⟩ := npMedian_ok hne
      rw [e]
      dsimp only
      obtain ⟨s, e', hs⟩ := npMedian_ok (l := w.map (fun v => |v - m|)) (by simpa using hne)
      rw [e']
      dsimp only
      rw [if_neg (h m s ⟨hm, hs⟩)]
    intro m s hms
    have hs0 : 0 ≤ s := median_mono_nonneg hms.2 (by
      intro u hu
      obtain ⟨u', -, rfl⟩ := List.mem_map.1 hu
      exact abs_nonneg _)
    by_cases hn1 : n = 1
    · -- two samples
      subst hn1
      have w0 := hwget 0 (by omega)
      have w1 := hwget 1 (by omega)
      obtain ⟨a, b, rfl⟩ : ∃ a b, w = [a, b] := by
        match w, hwlen with
        | [a, b], _ => exact ⟨a, b, rfl⟩
      simp only [List.getElem?_cons_zero, Option.some.injEq] at w0
      simp only [List.getElem?_cons_succ, List.getElem?_cons_zero, Option.some.injEq] at w1
      have hmed : IsMedian [a, b] ((a + b) / 2) := by
        rcases le_total a b with hab | hab
        · exact ⟨[a, b], List.Perm.refl _, by simpa using hab, a, b, by simp, by simp, rfl⟩
        · exact ⟨[b, a], List.Perm.swap _ _ _, by simpa using hab, b, a, by simp, by simp, by ring⟩
      have em := median_unique hms.1 hmed
      subst em
      have hd : IsMedian ([a, b].map (fun v => |v - (a + b) / 2|)) (|a - b| / 2) := by
        have ha : |a - (a + b) / 2| = |a - b| / 2 := by
          rw [show a - (a + b) / 2 = (a - b) / 2 by ring, abs_div, abs_of_pos (by norm_num : (0 : ℝ) < 2)]
        have hb : |b - (a + b) / 2| = |a - b| / 2 := by
          rw [show b - (a + b) / 2 = -((a - b) / 2) by ring, abs_neg, abs_div, abs_of_pos (by norm_num : (0 : ℝ) < 2)]
        simp only [List.map_cons, List.map_nil, ha, hb]
        exact ⟨_, List.Perm.refl _, by simp, |a - b| / 2, |a - b| / 2, by simp, by simp, by ring⟩
      have es := median_unique hms.2 hd
      subst es
      have hc : a = c ∨ b = c := by
        by_cases hb : before = i - 1
        · right; rw [w1, if_neg (by omega)]
        · left; rw [w0, if_neg (by omega)]
      have habs := abs_le.1 (le_refl |a - b|)
      rcases hc with rfl | rfl <;> rintro (h | h) <;> linarith [habs.1, habs.2]
    · -- four samples or more: the median is the background
      have hcount : ∀ q : ℝ → Bool, q c = false → w.countP q ≤ 1 := by
        intro q hq
        by_contra hcon
        have hw' : w = (w.take (before - (i - n))) ++ (w.drop (before - (i - n))) := (List.take_append_drop _ _).symm
        rw [hw', List.countP_append] at hcon
        have z1 : (w.take (before - (i - n))).countP q = 0 := by
          rw [List.countP_eq_zero]
          intro u hu
          obtain ⟨j, hj, rfl⟩ := List.getElem_of_mem hu
          rw [List.length_take] at hj
          rw [List.getElem_take]
          have := hwget j (by omega)
          rw [List.getElem?_eq_getElem (by omega)] at this
          rw [Option.some.inj this, if_neg (by omega), hq]
          simp
        have z2 : (w.drop (before - (i - n))).countP q ≤ 1 := by
          rw [List.drop_eq_getElem_cons (by omega), List.countP_cons]
          have : (w.drop (before - (i - n) + 1)).countP q = 0 := by
            rw [List.countP_eq_zero]
            intro u hu
            obtain ⟨j, hj, rfl⟩ := List.getElem_of_mem hu
            rw [List.length_drop] at hj
            rw [List.getElem_drop]
            have := hwget (before - (i - n) + 1 + j) (by omega)
            rw [List.getElem?_eq_getElem (by omega)] at this
            rw [Option.some.inj this, if_neg (by omega), hq]
            simp
          rw [this]
          split <;> omega
        omega
      have hmed : IsMedian w c := by
        refine median_of_counts ?_ ?_
        · have := hcount (fun v => decide (v < c)) (by simp)
          omega
        · have := hcount (fun v => decide (c < v)) (by simp)
          omega
      have em := median_unique hms.1 hmed
      subst em
      rintro (h | h) <;> linarith
  · -- the window is background
    have hall : ∀ u ∈ w, u = c := by
      intro u hu
      obtain ⟨j, hj, rfl⟩ := List.getElem_of_mem hu
      have := hwget j (by omega)
      rw [List.getElem?_eq_getElem hj] at this
      rw [Option.some.inj this, if_neg (by omega)]
    have hmed : IsMedian w c := by
      refine median_of_counts ?_ ?_ <;> rw [List.countP_eq_zero.2] <;>
        first
        | omega
        | (intro u hu; rw [hall u hu]; simp)
    rw [npMedian_eq hmed]
    dsimp only
    have hdev : ∃ s, npMedian (w.map (fun v => |v - c|)) = .ok s := by
      obtain ⟨s, e, -⟩ := npMedian_ok (l := w.map (fun v => |v - c|)) (by simpa using median_nonempty hmed)
      exact ⟨s, e⟩
    obtain ⟨s, e⟩ := hdev
    rw [e]
    dsimp only
    split
    · exact hset (by omega)
    · rfl

/-- C90: the full claim, that samples far from the median of their neighbours are replaced and others kept, fails both ways: with
the default two neighbours the sample 100 stays and the sample 2 becomes 3/2. -/
theorem C90_full_claim_false :
    removeOutliersSimple [0, 1, 2, 3, 100, 5, 6] 2 = [0, 1, 3 / 2, 3, 100, 5, 6] := by
  have hlen : (pySlice ([0, 1, 2, 3, 100, 5, 6] : List ℝ) ((2 : Nat) : Int) (-((2 : Nat) : Int))).length = 3 := by
    rw [inner_length _ 2 (by omega)]
    rfl
  unfold removeOutliersSimple
  rw [hlen]
  show outlierStep 2 (outlierStep 2 (outlierStep 2 _ 0) 1) 2 = _
  rw [step_start (i := 0) (by omega) (by simp), step_start (i := 1) (by omega) (by simp)]
  unfold outlierStep
  rw [window_mid (by omega) (by simp)]
  have e0 : List.drop (2 - 2) (List.take (2 + 2) ([0, 1, 2, 3, 100, 5, 6] : List ℝ)) = [0, 1, 2, 3] := rfl
  rw [e0]
  have e1 : npMedian [0, 1, 2, 3] = .ok (3 / 2) :=
    npMedian_eq ⟨[0, 1, 2, 3], List.Perm.refl _, by norm_num, 1, 2, by simp, by simp, by norm_num⟩
  have e2 : npMedian (([0, 1, 2, 3] : List ℝ).map (fun v => |v - 3 / 2|)) = .ok 1 := by
    have h : ([0, 1, 2, 3] : List ℝ).map (fun v => |v - 3 / 2|) = [3 / 2, 1 / 2, 1 / 2, 3 / 2] := by
      simp only [List.map_cons, List.map_nil]
      norm_num [abs_div]
    rw [h]
    refine npMedian_eq ⟨[1 / 2, 1 / 2, 3 / 2, 3 / 2], ?_, by norm_num, 1 / 2, 3 / 2, by simp, by simp, by norm_num⟩
    exact (List.perm_append_comm (l₁ := [1 / 2, 1 / 2]) (l₂ := [3 / 2])).append_right [3 / 2]
  dsimp only
  rw [e1]
  dsimp only
  rw [e2]
  dsimp only
  rw [if_pos]
  · rfl
  · right
    show (100 : ℝ) > _
    norm_num

/-! ## `Demodulator.show` -/

/-- C90: panel `4 i + j` of the figure of a tensor shows `M_ij` between the given limits under the title `M_ij`; there are twelve. -/
theorem C90_tensor (D : Demodulator ℝ) (vmin vmax : ℝ) :
    (showTensor D vmin vmax).1.length = 12 ∧
    ∀ (i : Fin 3) (j : Fin 4), ∃ p, (showTensor D vmin vmax).1[4 * i.val + j.val]? = some p ∧
      p.data = D.mij i j ∧ p.vmin = some vmin ∧ p.vmax = some vmax ∧
      p.title = "M$_" ++ toString i.val ++ "$$_" ++ toString j.val ++ "$" := by
  refine ⟨rfl, ?_⟩
  intro i j
  refine ⟨tensorPanel D vmin vmax i j, ?_, rfl, rfl, rfl, ?_⟩
  · fin_cases i <;> fin_cases j <;> rfl
  · fin_cases i <;> fin_cases j <;> rfl

/-- C90, violation: the second value returned is the last of the twelve axes, not the array of axes that the documentation promises. -/
theorem C90_tensor_axes (D : Demodulator ℝ) (vmin vmax : ℝ) : (showTensor D vmin vmax).2 = .one 11 := rfl

/-! Non-vacuity -/

/-- A constant array meets the hypothesis of `C90_outliers_partial`. -/
example : removeOutliersSimple (List.replicate 9 7) 2 = List.replicate 9 7 := by
  refine C90_outliers_partial _ _ ?_
  intro i h1 h2 m d hmd e he
  rw [List.length_replicate] at h2
  rw [List.getElem?_replicate, if_pos (by omega), Option.some.injEq] at he
  rw [List.take_replicate, List.drop_replicate] at hmd
  have hm := median_between hmd.1 (lo := 7) (hi := 7) (fun v hv => by rw [List.eq_of_mem_replicate hv]; simp)
  have hd := median_mono_nonneg hmd.2 (fun v hv => by obtain ⟨u, -, rfl⟩ := List.mem_map.1 hv; exact abs_nonneg _)
  have : m = 7 := le_antisymm hm.2 hm.1
  rw [this, ← he, sub_self, abs_zero]
  linarith

example : (tileDouble (Img.ofFn 2 3 (fun y x => 10 * y + x))).px 3 4 = 12 := by decide

end Micropol

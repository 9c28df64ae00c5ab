import Verif.Spec.Normalisation
import Verif.Lemmas.Prepare
import Mathlib.Tactic.Linarith
import Mathlib.Tactic.FieldSimp
import Mathlib.Tactic.Ring

/-! # Lemmas about the histogram and the automatic normalisation -/

set_option autoImplicit false
set_option linter.unusedSectionVars false

namespace Micropol

noncomputable section

open Classical Finset

theorem foldl_min_least (l : List ℝ) (p : ℝ) : l.foldl min p ∈ p :: l ∧ ∀ v ∈ p :: l, l.foldl min p ≤ v := by
  induction l generalizing p with
  | nil => simp
  | cons c l ih =>
    obtain ⟨h1, h2⟩ := ih (min p c)
    refine ⟨?_, ?_⟩
    · show l.foldl min (min p c) ∈ _
      rcases List.mem_cons.1 h1 with h | h
      · rw [h]
        rcases min_choice p c with h | h <;> rw [h] <;> simp
      · simp [h]
    · intro v hv
      show l.foldl min (min p c) ≤ v
      have h0 := h2 (min p c) (by simp)
      rcases List.mem_cons.1 hv with rfl | hv
      · exact h0.trans (min_le_left _ _)
      · rcases List.mem_cons.1 hv with rfl | hv
        · exact h0.trans (min_le_right _ _)
        · exact h2 v (by simp [hv])

theorem foldl_max_greatest (l : List ℝ) (p : ℝ) : l.foldl max p ∈ p :: l ∧ ∀ v ∈ p :: l, v ≤ l.foldl max p := by
  induction l generalizing p with
  | nil => simp
  | cons c l ih =>
    obtain ⟨h1, h2⟩ := ih (max p c)
    refine ⟨?_, ?_⟩
    · show l.foldl max (max p c) ∈ _
      rcases List.mem_cons.1 h1 with h | h
      · rw [h]
        rcases max_choice p c with h | h <;> rw [h] <;> simp
      · simp [h]
    · intro v hv
      show v ≤ l.foldl max (max p c)
      have h0 := h2 (max p c) (by simp)
      rcases List.mem_cons.1 hv with rfl | hv
      · exact (le_max_left _ _).trans h0
      · rcases List.mem_cons.1 hv with rfl | hv
        · exact (le_max_right _ _).trans h0
        · exact h2 v (by simp [hv])

theorem mem_pixelList {A : Img ℝ} {v : ℝ} : v ∈ pixelList A ↔ ∃ y x, y < A.h ∧ x < A.w ∧ v = A.px y x := by
  unfold pixelList
  simp only [List.mem_flatMap, List.mem_map, List.mem_range]
  constructor
  · rintro ⟨y, hy, x, hx, rfl⟩
    exact ⟨y, x, hy, hx, rfl⟩
  · rintro ⟨y, x, hy, hx, rfl⟩
    exact ⟨y, hy, x, hx, rfl⟩

theorem countP_pixelList (A : Img ℝ) (p : ℝ → Bool) :
    (pixelList A).countP p = ((range A.h ×ˢ range A.w).filter (fun q => p (A.px q.1 q.2) = true)).card := by
  have e : pixelList A = (List.range A.h ×ˢ List.range A.w).map (fun q => A.px q.1 q.2) := by
    unfold pixelList
    show _ = (List.product _ _).map _
    unfold List.product
    rw [List.map_flatMap]
    congr 1
    funext y
    rw [List.map_map]
    rfl
  rw [e, List.countP_map, Finset.card_def, Finset.filter_val, ← Multiset.countP_eq_card_filter]
  show _ = Multiset.countP _ ((↑(List.range A.h) : Multiset Nat) ×ˢ (↑(List.range A.w) : Multiset Nat))
  rw [Multiset.coe_product, Multiset.coe_countP]
  refine List.countP_congr fun q _ => ?_
  simp

section
variable {T : Nat → Nat → ℝ} {h w : Nat} {lo hi : ℝ}

theorem histRange_eq (hE : Extremes T h w lo hi) :
    histRange (pixelList (Img.ofFn h w T)) = if lo = hi then (lo - 1 / 2, hi + 1 / 2) else (lo, hi) := by
  have hm : ∀ v, v ∈ pixelList (Img.ofFn h w T) ↔ v ∈ {v | ∃ y x, y < h ∧ x < w ∧ v = T y x} := by
    intro v
    rw [mem_pixelList]
    constructor
    · rintro ⟨y, x, hy, hx, rfl⟩
      exact ⟨y, x, hy, hx, Img.ofFn_px hy hx⟩
    · rintro ⟨y, x, hy, hx, rfl⟩
      exact ⟨y, x, hy, hx, (Img.ofFn_px hy hx).symm⟩
  match hl : pixelList (Img.ofFn h w T) with
  | [] =>
    have := (hm lo).2 hE.least.1
    rw [hl] at this
    cases this
  | p :: l =>
    rw [hl] at hm
    unfold histRange
    dsimp only
    obtain ⟨a1, a2⟩ := foldl_min_least l p
    obtain ⟨b1, b2⟩ := foldl_max_greatest l p
    have e1 : l.foldl min p = lo :=
      le_antisymm (a2 lo ((hm lo).2 hE.least.1)) (hE.least.2 ((hm _).1 a1))
    have e2 : l.foldl max p = hi :=
      le_antisymm (hE.greatest.2 ((hm _).1 b1)) (b2 hi ((hm hi).2 hE.greatest.1))
    rw [e1, e2]

theorem histEdge_eq (hE : Extremes T h w lo hi) (i : Nat) :
    histEdge (pixelList (Img.ofFn h w T)) i = binStart lo hi i := by
  unfold histEdge binStart
  rw [histRange_eq hE]
  split
  · rename_i e
    rw [e]
    ring
  · ring

theorem histCount_eq (hE : Extremes T h w lo hi) (i : Nat) :
    histCount (pixelList (Img.ofFn h w T)) i = binCount T h w lo hi i := by
  unfold histCount binCount
  rw [countP_pixelList]
  congr 1
  refine Finset.filter_congr fun q hq => ?_
  obtain ⟨hy, hx⟩ := Finset.mem_product.1 hq
  have hy := Finset.mem_range.1 hy
  have hx := Finset.mem_range.1 hx
  rw [decide_eq_true_iff, Img.ofFn_px (by exact hy) (by exact hx), histEdge_eq hE, histEdge_eq hE]
  constructor
  · rintro ⟨h1, h2 | ⟨h2, h3⟩⟩
    · exact ⟨h1, Or.inl h2⟩
    · rcases lt_or_eq_of_le h3 with h3 | h3
      · exact ⟨h1, Or.inl h3⟩
      · refine ⟨h1, Or.inr ⟨h2, ?_⟩⟩
        rw [h3, h2]
  · rintro ⟨h1, h2 | ⟨h2, h3⟩⟩
    · exact ⟨h1, Or.inl h2⟩
    · refine ⟨h1, Or.inr ⟨h2, ?_⟩⟩
      rw [h3, h2]

theorem peakBin_eq (hE : Extremes T h w lo hi) {m : Nat} (hm : FullestBin T h w lo hi m) :
    peakBin (pixelList (Img.ofFn h w T)) = m := by
  obtain ⟨h1, h2, h3⟩ := hm
  unfold peakBin
  rw [show (List.range 1000).find? (fun i => (List.range 1000).all (fun j =>
    decide (histCount (pixelList (Img.ofFn h w T)) j ≤ histCount (pixelList (Img.ofFn h w T)) i))) = some m from ?_]
  · rfl
  rw [List.find?_range_eq_some]
  refine ⟨?_, List.mem_range.2 h1, ?_⟩
  · rw [List.all_eq_true]
    intro j hj
    rw [decide_eq_true_iff, histCount_eq hE, histCount_eq hE]
    exact h2 j (List.mem_range.1 hj)
  · intro j hj
    rw [Bool.not_eq_true', ← Bool.not_eq_true, List.all_eq_true]
    intro hall
    have := hall m (List.mem_range.2 h1)
    rw [decide_eq_true_iff, histCount_eq hE, histCount_eq hE] at this
    have := h3 j hj
    omega

theorem pySlice_range {α : Type} (f : Nat → α) {n m : Nat} (hm : 10 ≤ m) (hn : m + 10 ≤ n) :
    pySlice ((List.range n).map f) ((m : Int) - 10) ((m : Int) + 10) = (List.range 20).map (fun i => f (m - 10 + i)) := by
  unfold pySlice
  dsimp only
  rw [List.length_map, List.length_range]
  have e1 : (if (m : Int) + 10 < 0 then max ((m : Int) + 10 + n) 0 else min ((m : Int) + 10) n).toNat = m + 10 := by
    rw [if_neg (by omega)]; omega
  have e2 : (if (m : Int) - 10 < 0 then max ((m : Int) - 10 + n) 0 else min ((m : Int) - 10) n).toNat = m - 10 := by
    rw [if_neg (by omega)]; omega
  rw [e1, e2]
  apply List.ext_getElem
  · simp; omega
  · intro i h1 h2
    simp

theorem pySlice_low {α : Type} (l : List α) {m : Nat} (hm : m < 10) (hl : 20 ≤ l.length) :
    pySlice l ((m : Int) - 10) ((m : Int) + 10) = [] := by
  unfold pySlice
  dsimp only
  have e1 : (if (m : Int) + 10 < 0 then max ((m : Int) + 10 + l.length) 0 else min ((m : Int) + 10) l.length).toNat = m + 10 := by
    rw [if_neg (by omega)]; omega
  have e2 : (if (m : Int) - 10 < 0 then max ((m : Int) - 10 + l.length) 0 else min ((m : Int) - 10) l.length).toNat =
      l.length + m - 10 := by
    rw [if_pos (by omega)]; omega
  rw [e1, e2]
  apply List.drop_eq_nil_of_le
  rw [List.length_take]
  omega

theorem pySlice_high_length {α : Type} (l : List α) {m : Nat} (hm : 10 ≤ m) (hl : l.length ≤ m + 10) (hl' : m - 10 ≤ l.length) :
    (pySlice l ((m : Int) - 10) ((m : Int) + 10)).length = l.length - (m - 10) := by
  unfold pySlice
  dsimp only
  have e1 : (if (m : Int) + 10 < 0 then max ((m : Int) + 10 + l.length) 0 else min ((m : Int) + 10) l.length).toNat = l.length := by
    rw [if_neg (by omega)]; omega
  have e2 : (if (m : Int) - 10 < 0 then max ((m : Int) - 10 + l.length) 0 else min ((m : Int) - 10) l.length).toNat = m - 10 := by
    rw [if_neg (by omega)]; omega
  rw [e1, e2, List.length_drop, List.length_take]
  omega

theorem binStart_step (lo hi : ℝ) (i j : Nat) :
    binStart lo hi (i + 1) - binStart lo hi i = binStart lo hi (j + 1) - binStart lo hi j := by
  unfold binStart
  split
  · push_cast; ring
  · push_cast; ring

/-- The usual case: the fullest bin is not near an end. -/
theorem gaussPeak_mid (fit : GaussFit) (hE : Extremes T h w lo hi) {m : Nat} (hm : FullestBin T h w lo hi m) (h10 : 10 ≤ m)
    (h990 : m ≤ 990) :
    gaussPeak fit (Img.ofFn h w T) =
      match fit (fitCentres lo hi m) (fitShares T h w lo hi m) (firstGuess T h w lo hi m) with
      | none => .error .runtimeError
      | some p => .ok (p 1 + 4 * p 2) := by
  unfold gaussPeak
  dsimp only
  rw [peakBin_eq hE hm, pySlice_range _ h10 (by omega), pySlice_range _ h10 (by omega)]
  have ey : ((List.range 20).map (fun i => ((histCount (pixelList (Img.ofFn h w T)) (m - 10 + i) : Nat) : ℝ))) =
      (List.range 20).map (fun i => (binCount T h w lo hi (m - 10 + i) : ℝ)) := by
    refine List.map_congr_left fun i _ => ?_
    rw [histCount_eq hE]
  have ex : ((List.range 20).map (fun i => histEdge (pixelList (Img.ofFn h w T)) (m - 10 + i))) =
      (List.range 20).map (fun i => binStart lo hi (m - 10 + i)) := by
    refine List.map_congr_left fun i _ => ?_
    rw [histEdge_eq hE]
  rw [ey, ex]
  have es : ((List.range 20).map (fun i => (binCount T h w lo hi (m - 10 + i) : ℝ))).sum =
      ∑ j ∈ range 20, (binCount T h w lo hi (m - 10 + j) : ℝ) := by
    rw [← List.sum_toFinset _ List.nodup_range, List.toFinset_range]
  rw [es]
  have eys : ((List.range 20).map (fun i => (binCount T h w lo hi (m - 10 + i) : ℝ))).map
      (fun v => v / ∑ j ∈ range 20, (binCount T h w lo hi (m - 10 + j) : ℝ)) = fitShares T h w lo hi m := by
    rw [List.map_map]
    rfl
  have exs : ((List.range 20).map (fun i => binStart lo hi (m - 10 + i))).map
      (fun v => v + (((List.range 20).map (fun i => binStart lo hi (m - 10 + i))).getD 1 0 -
        ((List.range 20).map (fun i => binStart lo hi (m - 10 + i))).getD 0 0) / 2) = fitCentres lo hi m := by
    rw [List.map_map]
    unfold fitCentres
    refine List.map_congr_left fun i _ => ?_
    show binStart lo hi (m - 10 + i) + (binStart lo hi (m - 10 + 1) - binStart lo hi (m - 10)) / 2 = _
    have := binStart_step lo hi (m - 10 + i) (m - 10)
    linarith
  rw [eys, exs]
  have ly : (fitShares T h w lo hi m).length = 20 := by unfold fitShares; rw [List.length_map, List.length_range]
  have lx : (fitCentres lo hi m).length = 20 := by unfold fitCentres; rw [List.length_map, List.length_range]
  have gx : ∀ i, i < 20 → (fitCentres lo hi m)[i]? =
      some ((binStart lo hi (m - 10 + i) + binStart lo hi (m - 10 + i + 1)) / 2) := by
    intro i hi'
    unfold fitCentres
    rw [List.getElem?_map, List.getElem?_range hi']
    rfl
  have gy : (fitShares T h w lo hi m)[10]? = some ((binCount T h w lo hi m : ℝ) /
      ∑ j ∈ range 20, (binCount T h w lo hi (m - 10 + j) : ℝ)) := by
    unfold fitShares
    rw [List.getElem?_map, List.getElem?_range (by norm_num)]
    rw [Option.map_some, show m - 10 + 10 = m by omega]
  rw [ly, lx, show 20 / 2 = 10 from rfl, gy, gx 10 (by norm_num), gx (10 + 5) (by norm_num)]
  simp only [Py.pure_eq, Py.ok_bind]
  rw [if_neg (by simp)]
  have eg : (![(binCount T h w lo hi m : ℝ) / ∑ j ∈ range 20, (binCount T h w lo hi (m - 10 + j) : ℝ),
      (binStart lo hi (m - 10 + 10) + binStart lo hi (m - 10 + 10 + 1)) / 2,
      (binStart lo hi (m - 10 + (10 + 5)) + binStart lo hi (m - 10 + (10 + 5) + 1)) / 2 -
        (binStart lo hi (m - 10 + 10) + binStart lo hi (m - 10 + 10 + 1)) / 2] : Fin 3 → ℝ) = firstGuess T h w lo hi m := by
    unfold firstGuess
    have hs := binStart_step lo hi (m + 5) m
    rw [show m - 10 + 10 = m by omega, show m - 10 + (10 + 5) = m + 5 by omega]
    congr 2
    funext i
    fin_cases i
    show (binStart lo hi (m + 5) + binStart lo hi (m + 5 + 1)) / 2 - (binStart lo hi m + binStart lo hi (m + 1)) / 2 =
      binStart lo hi (m + 5) - binStart lo hi m
    linarith
  rw [eg]
  rfl

theorem gaussPeak_low (fit : GaussFit) (hE : Extremes T h w lo hi) {m : Nat} (hm : FullestBin T h w lo hi m) (h10 : m < 10) :
    gaussPeak fit (Img.ofFn h w T) = .error .indexError := by
  unfold gaussPeak
  dsimp only
  rw [peakBin_eq hE hm, pySlice_low _ h10 (by simp), pySlice_low _ h10 (by simp)]
  rfl

theorem gaussPeak_high (fit : GaussFit) (hE : Extremes T h w lo hi) {m : Nat} (hm : FullestBin T h w lo hi m) (h990 : 990 < m) :
    gaussPeak fit (Img.ofFn h w T) = .error .valueError := by
  have hm1 := hm.1
  unfold gaussPeak
  dsimp only
  rw [peakBin_eq hE hm]
  obtain ⟨xs, hxs⟩ : ∃ xs, xs = pySlice ((List.range 1001).map (histEdge (pixelList (Img.ofFn h w T)))) ((m : Int) - 10)
    ((m : Int) + 10) := ⟨_, rfl⟩
  obtain ⟨ys, hys⟩ : ∃ ys, ys = pySlice ((List.range 1000).map (fun i => ((histCount (pixelList (Img.ofFn h w T)) i : Nat) : ℝ)))
    ((m : Int) - 10) ((m : Int) + 10) := ⟨_, rfl⟩
  have lx : xs.length = 1001 - (m - 10) := by
    rw [hxs, pySlice_high_length _ (by omega) (by simp; omega) (by simp; omega)]
    simp
  have ly : ys.length = 1000 - (m - 10) := by
    rw [hys, pySlice_high_length _ (by omega) (by simp; omega) (by simp; omega)]
    simp
  rw [← hxs, ← hys]
  obtain ⟨xs', hxs'⟩ : ∃ xs', xs' = xs.map (fun v => v + (xs.getD 1 0 - xs.getD 0 0) / 2) := ⟨_, rfl⟩
  obtain ⟨ys', hys'⟩ : ∃ ys', ys' = ys.map (fun v => v / ys.sum) := ⟨_, rfl⟩
  have lx' : xs'.length = 1001 - (m - 10) := by rw [hxs', List.length_map, lx]
  have ly' : ys'.length = 1000 - (m - 10) := by rw [hys', List.length_map, ly]
  rw [← hxs', ← hys', List.getElem?_eq_getElem (l := ys') (by omega), List.getElem?_eq_getElem (l := xs') (by omega),
    List.getElem?_eq_getElem (l := xs') (i := xs'.length / 2 + 5) (by omega)]
  simp only [Py.pure_eq, Py.ok_bind]
  rw [if_pos (by omega)]

end

section
variable {fs : Name → Option (Img ℝ)} {fit : GaussFit} {a : CalibArgs} {b H W : Nat} {F : Name → Img ℝ}
  {D : Option (Img ℝ)}

theorem chooseNorm_eq {available R : List ℝ} (h : References available R) : chooseNorm available = .ok R := by
  unfold chooseNorm
  rcases h with ⟨rfl, h⟩ | ⟨rfl, h, hn⟩
  · rw [if_pos (show allIn normPlus available from h)]; rfl
  · rw [if_neg, if_pos (show allIn normMinus available from h)]
    · rfl
    · intro hc
      exact hn (hc 135 (by simp [normPlus]))

theorem sMax_fold (R : List ℝ) {h w : Nat} (l : List (ℝ × Name)) (g : Nat → Nat → ℝ) :
    forList ((l.map Prod.fst).zip (l.map (fun q => litImg (F q.2) D b h w))) (Img.ofFn h w g) (fun f S =>
      if f.1 ∈ R then npInto (fun u v : ℝ => u + 1 / 2 * v) S f.2 else .ok S) =
    .ok (Img.ofFn h w (fun y x => g y x + halfSum R l F D b y x)) := by
  induction l generalizing g with
  | nil =>
    show Except.ok _ = _
    congr 1
    refine Img.ofFn_congr fun y x _ _ => ?_
    simp [halfSum]
  | cons q l ih =>
    unfold forList at ih ⊢
    rw [List.map_cons, List.map_cons, List.zip_cons_cons, List.foldlM_cons]
    have hstep : (if (q.1, litImg (F q.2) D b h w).1 ∈ R then npInto (fun u v : ℝ => u + 1 / 2 * v) (Img.ofFn h w g)
        (q.1, litImg (F q.2) D b h w).2 else .ok (Img.ofFn h w g)) =
        .ok (Img.ofFn h w (fun y x => g y x + if q.1 ∈ R then lit (F q.2) D b y x / 2 else 0)) := by
      dsimp only
      split
      · rw [npInto_ok (by rfl) (by rfl)]
        congr 1
        refine Img.ofFn_congr fun y x hy hx => ?_
        rw [show (Img.ofFn h w g).px y x = g y x from Img.ofFn_px hy hx,
          show (litImg (F q.2) D b h w).px y x = lit (F q.2) D b y x from Img.ofFn_px hy hx]
        ring
      · congr 1
        refine Img.ofFn_congr fun y x hy hx => ?_
        ring
    refine (congrArg (fun z => z >>= _) hstep).trans ?_
    rw [Py.ok_bind, ih]
    congr 1
    refine Img.ofFn_congr fun y x hy hx => ?_
    unfold halfSum
    rw [List.map_cons, List.sum_cons]
    ring

theorem sMax_eq (R : List ℝ) {h w : Nat} (l : List (ℝ × Name)) :
    sMax h w R ((l.map Prod.fst).zip (l.map (fun q => litImg (F q.2) D b h w))) = .ok (Img.ofFn h w (halfSum R l F D b)) := by
  unfold sMax
  have := sMax_fold (F := F) (D := D) (b := b) R (h := h) (w := w) l (fun _ _ => 0)
  rw [show Img.zeros h w = Img.ofFn h w (fun _ _ => (0 : ℝ)) from rfl, this]
  congr 1
  refine Img.ofFn_congr fun y x _ _ => ?_
  rw [zero_add]

theorem references_sorted {L : List (ℝ × Name)} (hR : Readable fs a b H W F D) (hL : SortedList a L) {R : List ℝ}
    (h : References a.orientations R) : References (L.map Prod.fst) R := by
  have hm : ∀ o, o ∈ L.map Prod.fst ↔ o ∈ a.orientations := by
    intro o
    rw [(hL.1.map Prod.fst).mem_iff, List.map_fst_zip (by rw [hR.len])]
  rcases h with ⟨e, h⟩ | ⟨e, h, hn⟩
  · exact Or.inl ⟨e, fun o ho => (hm o).2 (h o ho)⟩
  · exact Or.inr ⟨e, fun o ho => (hm o).2 (h o ho), fun hc => hn ((hm _).1 hc)⟩

theorem references_check {R : List ℝ} (h : References a.orientations R) :
    ¬ (a.normS.IsNone ∧ ¬ allIn normMinus a.orientations ∧ ¬ allIn normPlus a.orientations) := by
  rintro ⟨-, h1, h2⟩
  rcases h with ⟨rfl, h⟩ | ⟨rfl, h, -⟩
  · exact h2 h
  · exact h1 h

theorem normPlanes_auto (hR : Readable fs a b H W F D) {L : List (ℝ × Name)} (hL : SortedList a L) (hn : a.normS = .missing)
    {R : List ℝ} (h : References a.orientations R) {h' w' : Nat} :
    normPlanes fit a (L.map Prod.fst) h' w' (L.map (fun q => litImg (F q.2) D b h' w')) =
      (gaussPeak fit (Img.ofFn h' w' (halfSum R L F D b)) >>= fun s =>
        .ok (fun _ => (Img.const 1 1 s).map (fun v => if v ≥ 0 then v else 1))) := by
  unfold normPlanes
  rw [hn]
  dsimp only
  rw [chooseNorm_eq (references_sorted hR hL h), Py.ok_bind, sMax_eq, Py.ok_bind]
  cases gaussPeak fit (Img.ofFn h' w' (halfSum R L F D b)) with
  | error _ => rfl
  | ok _ => rfl

end

end

end Micropol

import Verif.Lemmas.Normalisation
import Verif.Props.CalibrationRun

/-!
# C74: the automatic normalisation

Without a prescribed signal the calibration estimates it: half the sum of the frames at the four reference orientations, a
histogram of it, and a gaussian fitted around the fullest bin.
-/

set_option autoImplicit false
set_option linter.unusedSectionVars false

namespace Micropol

noncomputable section

open Classical Finset

section
variable {T : Nat → Nat → ℝ} {h w : Nat} {lo hi : ℝ}

/-- C74: the specification is well posed: an image with a pixel has extremes and exactly one first fullest bin. -/
theorem C74_well_posed (hh : 0 < h) (hw : 0 < w) :
    ∃ lo hi, Extremes T h w lo hi ∧ ∃ m, FullestBin T h w lo hi m ∧ ∀ m', FullestBin T h w lo hi m' → m' = m := by
  obtain ⟨s, hs⟩ : ∃ s : Finset ℝ, s = (range h ×ˢ range w).image (fun q => T q.1 q.2) := ⟨_, rfl⟩
  have hne : s.Nonempty := by
    rw [hs]
    exact ⟨T 0 0, mem_image.2 ⟨(0, 0), mem_product.2 ⟨mem_range.2 hh, mem_range.2 hw⟩, rfl⟩⟩
  have hmem : ∀ v, v ∈ s ↔ v ∈ {v | ∃ y x, y < h ∧ x < w ∧ v = T y x} := by
    intro v
    rw [hs, mem_image]
    constructor
    · rintro ⟨q, hq, rfl⟩
      obtain ⟨h1, h2⟩ := mem_product.1 hq
      exact ⟨q.1, q.2, mem_range.1 h1, mem_range.1 h2, rfl⟩
    · rintro ⟨y, x, hy, hx, rfl⟩
      exact ⟨(y, x), mem_product.2 ⟨mem_range.2 hy, mem_range.2 hx⟩, rfl⟩
  refine ⟨s.min' hne, s.max' hne, ⟨⟨(hmem _).1 (s.min'_mem hne), fun v hv => s.min'_le v ((hmem v).2 hv)⟩,
    ⟨(hmem _).1 (s.max'_mem hne), fun v hv => s.le_max' v ((hmem v).2 hv)⟩⟩, ?_⟩
  obtain ⟨c, hc⟩ : ∃ c : Nat → Nat, c = binCount T h w (s.min' hne) (s.max' hne) := ⟨_, rfl⟩
  have hex : ∃ m, m < 1000 ∧ ∀ j, j < 1000 → c j ≤ c m := by
    obtain ⟨m, hm, hmax⟩ := Finset.exists_max_image (range 1000) c ⟨0, by simp⟩
    exact ⟨m, mem_range.1 hm, fun j hj => hmax j (mem_range.2 hj)⟩
  have hspec := Nat.find_spec hex
  have hmin : ∀ j, j < Nat.find hex → c j < c (Nat.find hex) := by
    intro j hj
    by_contra hcon
    exact Nat.find_min hex hj ⟨by omega, fun i hi => (hspec.2 i hi).trans (by omega)⟩
  refine ⟨Nat.find hex, ⟨hspec.1, ?_, ?_⟩, ?_⟩
  · rw [← hc]; exact hspec.2
  · rw [← hc]; exact hmin
  · intro m' ⟨g1, g2, g3⟩
    rw [← hc] at g2 g3
    rcases lt_trichotomy m' (Nat.find hex) with hl | he | hl
    · have := hmin m' hl
      have := g2 _ hspec.1
      omega
    · exact he
    · have := g3 _ hl
      have := hspec.2 m' g1
      omega

/-- A bin that holds more than half of the values is the fullest. -/
theorem fullest_of_majority {m : Nat} (hm : m < 1000) (hmaj : h * w < 2 * binCount T h w lo hi m) (hlt : lo ≤ hi) :
    FullestBin T h w lo hi m := by
  have hmono : ∀ i j : Nat, i ≤ j → binStart lo hi i ≤ binStart lo hi j := by
    intro i j hij
    have hij' : (i : ℝ) ≤ j := by exact_mod_cast hij
    unfold binStart
    split
    · linarith
    · have := mul_le_mul_of_nonneg_left hij' (sub_nonneg.2 hlt)
      linarith
  have hother : ∀ j, j < 1000 → j ≠ m → binCount T h w lo hi j + binCount T h w lo hi m ≤ h * w := by
    intro j hj hjm
    unfold binCount
    rw [← card_union_of_disjoint]
    · refine (card_le_card (union_subset (filter_subset _ _) (filter_subset _ _))).trans ?_
      rw [card_product, card_range, card_range]
    · rw [disjoint_left]
      intro q hq hq'
      obtain ⟨-, a1, a2⟩ := mem_filter.1 hq
      obtain ⟨-, b1, b2⟩ := mem_filter.1 hq'
      rcases Nat.lt_or_gt_of_ne hjm with hl | hl
      · rcases a2 with a2 | ⟨a2, -⟩
        · have := hmono (j + 1) m hl
          linarith
        · omega
      · rcases b2 with b2 | ⟨b2, -⟩
        · have := hmono (m + 1) j hl
          linarith
        · omega
  refine ⟨hm, fun j hj => ?_, fun j hj => ?_⟩
  · by_cases he : j = m
    · rw [he]
    · have := hother j hj he
      omega
  · have := hother j (by omega) (by omega)
    omega

end

section
variable {fs : Name → Option (Img ℝ)} {fit : GaussFit} {a : CalibArgs} {b H W : Nat} {F : Name → Img ℝ}
  {D : Option (Img ℝ)} {R : List ℝ} {L : List (ℝ × Name)} {lo hi : ℝ} {m : Nat}

/-- C74: if the fullest bin is not within ten bins of an end, the signal is the centre of the fitted gaussian plus four times its
width (or 1 if this is negative), the same for all pixels and frames. -/
theorem C74_estimated (hR : Readable fs a b H W F D) (hn : a.normS = .missing) (href : References a.orientations R)
    (hL : SortedList a L) (hE : Extremes (halfSum R L F D b) (2 * (H / (2 * b))) (2 * (W / (2 * b))) lo hi)
    (hm : FullestBin (halfSum R L F D b) (2 * (H / (2 * b))) (2 * (W / (2 * b))) lo hi m) (h10 : 10 ≤ m) (h990 : m ≤ 990)
    {p : Fin 3 → ℝ}
    (hfit : fit (fitCentres lo hi m) (fitShares (halfSum R L F D b) (2 * (H / (2 * b))) (2 * (W / (2 * b))) lo hi m)
      (firstGuess (halfSum R L F D b) (2 * (H / (2 * b))) (2 * (W / (2 * b))) lo hi m) = some p)
    (hp : p 1 + 4 * p 2 ≠ 0) (hgain : 0 < a.gain)
    (hpos : ∀ n ∈ a.filenames, ∀ y x, y < 2 * (H / (2 * b)) → x < 2 * (W / (2 * b)) → 0 ≤ lit (F n) D b y x) :
    ∃ inp, prepare fs fit a = .ok inp ∧ inp.n = L.length ∧ inp.height = 2 * (H / (2 * b)) ∧
      inp.width = 2 * (W / (2 * b)) ∧
      ∀ (k : Fin inp.n) (hk : k.val < L.length),
        inp.orientations k = L[k.val].1 ∧
        ∀ y x, y < inp.height → x < inp.width →
          (inp.data k).px y x = lit (F L[k.val].2) D b y x / atLeast (p 1 + 4 * p 2) ∧
          (inp.errors k).px y x = Real.sqrt (lit (F L[k.val].2) D b y x / a.gain) / atLeast (p 1 + 4 * p 2) := by
  have hs := atLeast_pos hp
  have hP := normPlanes_auto (fit := fit) hR hL hn href (h' := 2 * (H / (2 * b))) (w' := 2 * (W / (2 * b)))
  rw [gaussPeak_mid fit hE hm h10 h990, hfit] at hP
  dsimp only at hP
  rw [Py.ok_bind] at hP
  obtain ⟨O, -, e⟩ := prepare_ok (fit := fit) (S := fun _ _ _ => atLeast (p 1 + 4 * p 2)) hR hL (references_check href) hP
    (fun k _ => Or.inr ⟨_, hs, by
      refine Img.ext_px rfl rfl fun y x hy hx => ?_
      rw [Img.map_px _ _ (by exact hy) (by exact hx), clean_eq]
      rw [show (Img.const 1 1 (p 1 + 4 * p 2)).px y x = p 1 + 4 * p 2 from Img.ofFn_px hy hx,
        show (Img.const 1 1 (atLeast (p 1 + 4 * p 2))).px y x = atLeast (p 1 + 4 * p 2) from Img.ofFn_px hy hx],
      fun _ _ _ _ => rfl⟩) hgain hpos
  refine ⟨_, e, rfl, rfl, rfl, fun k hk => ⟨rfl, fun y x hy hx => ?_⟩⟩
  refine ⟨Img.ofFn_px hy hx, ?_⟩
  have : ((prepared a F D b (2 * (H / (2 * b))) (2 * (W / (2 * b))) L O (fun _ _ _ => atLeast (p 1 + 4 * p 2))).errors k).px
      y x = Real.sqrt (lit (F L[k.val].2) D b y x / atLeast (p 1 + 4 * p 2) / (atLeast (p 1 + 4 * p 2) * a.gain)) :=
    Img.ofFn_px hy hx
  rw [this, show lit (F L[k.val].2) D b y x / atLeast (p 1 + 4 * p 2) / (atLeast (p 1 + 4 * p 2) * a.gain) =
    lit (F L[k.val].2) D b y x / a.gain / (atLeast (p 1 + 4 * p 2)) ^ 2 by field_simp, Real.sqrt_div' _ (by positivity),
    Real.sqrt_sq hs.le]

/-- C74: in the other cases there is no calibration: the fullest bin is one of the first ten (`IndexError`), one of the last nine
(`ValueError`), or the fit does not converge (`RuntimeError`). -/
theorem C74_failures (hR : Readable fs a b H W F D) (hn : a.normS = .missing) (href : References a.orientations R)
    (hL : SortedList a L) (hE : Extremes (halfSum R L F D b) (2 * (H / (2 * b))) (2 * (W / (2 * b))) lo hi)
    (hm : FullestBin (halfSum R L F D b) (2 * (H / (2 * b))) (2 * (W / (2 * b))) lo hi m) :
    (m < 10 → prepare fs fit a = .error .indexError) ∧
    (990 < m → prepare fs fit a = .error .valueError) ∧
    (10 ≤ m → m ≤ 990 →
      fit (fitCentres lo hi m) (fitShares (halfSum R L F D b) (2 * (H / (2 * b))) (2 * (W / (2 * b))) lo hi m)
        (firstGuess (halfSum R L F D b) (2 * (H / (2 * b))) (2 * (W / (2 * b))) lo hi m) = none →
      prepare fs fit a = .error .runtimeError) := by
  have hP := normPlanes_auto (fit := fit) hR hL hn href (h' := 2 * (H / (2 * b))) (w' := 2 * (W / (2 * b)))
  obtain ⟨O, -, e⟩ := prepare_reduce (fit := fit) hR hL (references_check href)
  refine ⟨fun h => ?_, fun h => ?_, fun h1 h2 hf => ?_⟩
  · rw [gaussPeak_low fit hE hm h] at hP
    rw [e, hP]
    rfl
  · rw [gaussPeak_high fit hE hm h] at hP
    rw [e, hP]
    rfl
  · rw [gaussPeak_mid fit hE hm h1 h2, hf] at hP
    rw [e, hP]
    rfl

/-- C74, violation: frames in which more than half of the pixels share the smallest reference signal (as behind a large occulter, at
zero) cannot be calibrated without a prescribed signal: `IndexError`. -/
theorem C74_dark_majority (hR : Readable fs a b H W F D) (hn : a.normS = .missing) (href : References a.orientations R)
    (hL : SortedList a L) (hE : Extremes (halfSum R L F D b) (2 * (H / (2 * b))) (2 * (W / (2 * b))) lo hi) (hlt : lo < hi)
    (hmaj : (2 * (H / (2 * b))) * (2 * (W / (2 * b))) <
      2 * ((range (2 * (H / (2 * b))) ×ˢ range (2 * (W / (2 * b)))).filter
        (fun q => halfSum R L F D b q.1 q.2 = lo)).card) :
    prepare fs fit a = .error .indexError := by
  have hfull : FullestBin (halfSum R L F D b) (2 * (H / (2 * b))) (2 * (W / (2 * b))) lo hi 0 := by
    refine fullest_of_majority (by norm_num) (lt_of_lt_of_le hmaj ?_) hlt.le
    refine Nat.mul_le_mul_left _ (card_le_card fun q hq => ?_)
    obtain ⟨h1, h2⟩ := mem_filter.1 hq
    refine mem_filter.2 ⟨h1, ?_, Or.inl ?_⟩
    · rw [h2]
      unfold binStart
      rw [if_neg hlt.ne]
      simp
    · rw [h2]
      unfold binStart
      rw [if_neg hlt.ne]
      have : 0 < hi - lo := sub_pos.2 hlt
      have : lo < lo + (hi - lo) * ((0 + 1 : Nat) : ℝ) / 1000 := by
        push_cast
        have : 0 < (hi - lo) * (0 + 1) / 1000 := by positivity
        linarith
      exact this
  exact (C74_failures (fit := fit) hR hn href hL hE hfull).1 (by norm_num)

/-- C74: a perfectly uniform reference signal `c` falls into bin 500, so the fit is attempted. -/
theorem C74_uniform {T : Nat → Nat → ℝ} {h w : Nat} {c : ℝ} (hh : 0 < h) (hw : 0 < w)
    (hT : ∀ y x, y < h → x < w → T y x = c) : Extremes T h w c c ∧ FullestBin T h w c c 500 := by
  refine ⟨⟨⟨⟨0, 0, hh, hw, (hT 0 0 hh hw).symm⟩, ?_⟩, ⟨⟨0, 0, hh, hw, (hT 0 0 hh hw).symm⟩, ?_⟩⟩, ?_⟩
  · rintro v ⟨y, x, hy, hx, rfl⟩
    rw [hT y x hy hx]
  · rintro v ⟨y, x, hy, hx, rfl⟩
    rw [hT y x hy hx]
  · refine fullest_of_majority (by norm_num) ?_ le_rfl
    have : binCount T h w c c 500 = h * w := by
      unfold binCount
      rw [filter_true_of_mem, card_product, card_range, card_range]
      intro q hq
      obtain ⟨h1, h2⟩ := mem_product.1 hq
      rw [hT q.1 q.2 (mem_range.1 h1) (mem_range.1 h2)]
      unfold binStart
      rw [if_pos rfl, if_pos rfl]
      constructor
      · push_cast; linarith
      · left; push_cast; linarith
    rw [this]
    have := Nat.mul_pos hh hw
    omega

/-- C74: what is estimated: when the frames at the four reference orientations (one frame each) follow the Malus law with signal `s`,
half their sum is the throughput times the signal, whatever the efficiency and the phase. -/
theorem C74_reference_signal (href : References a.orientations R) (hL : SortedList a L) (hlen : a.orientations.length = a.filenames.length)
    (hnodup : a.orientations.Nodup) {y x : Nat} {s t e φ : ℝ}
    (hlaw : ∀ q ∈ L, q.1 ∈ R → lit (F q.2) D b y x = s * transmitted t e φ (q.1 * Real.pi / 180)) :
    halfSum R L F D b y x = t * s := by
  have hperm : (L.map Prod.fst).Perm a.orientations := by
    have := hL.1.map Prod.fst
    rwa [List.map_fst_zip (by omega)] at this
  have hnd : (L.map Prod.fst).Nodup := hperm.nodup_iff.2 hnodup
  have e1 : halfSum R L F D b y x =
      ((L.map Prod.fst).map (fun o => if o ∈ R then s * transmitted t e φ (o * Real.pi / 180) / 2 else 0)).sum := by
    unfold halfSum
    rw [List.map_map]
    congr 1
    refine List.map_congr_left fun q hq => ?_
    show _ = if q.1 ∈ R then _ else _
    split
    · rename_i hqR
      rw [hlaw q hq hqR]
    · rfl
  rw [e1, ← List.sum_toFinset _ hnd, ← Finset.sum_filter]
  have hRav : ∀ o ∈ R, o ∈ a.orientations := by
    rcases href with ⟨-, h⟩ | ⟨-, h, -⟩ <;> exact h
  have e2 : (L.map Prod.fst).toFinset.filter (fun o => o ∈ R) = R.toFinset := by
    ext o
    rw [mem_filter, List.mem_toFinset, List.mem_toFinset, hperm.mem_iff]
    exact ⟨fun h => h.2, fun h => ⟨hRav o h, h⟩⟩
  rw [e2]
  have key : ∀ o4 : ℝ, (o4 = 135 ∨ o4 = -45) → R = [0, 45, 90, o4] →
      ∑ o ∈ R.toFinset, s * transmitted t e φ (o * Real.pi / 180) / 2 = t * s := by
    intro o4 ho hRe
    have hnd4 : ([0, 45, 90, o4] : List ℝ).Nodup := by
      rcases ho with rfl | rfl <;> norm_num
    rw [hRe, List.sum_toFinset _ hnd4]
    simp only [List.map_cons, List.map_nil, List.sum_cons, List.sum_nil]
    unfold transmitted
    have c0 : Real.cos (2 * (0 * Real.pi / 180 - φ)) = Real.cos (2 * φ) := by
      rw [show 2 * (0 * Real.pi / 180 - φ) = -(2 * φ) by ring, Real.cos_neg]
    have c45 : Real.cos (2 * (45 * Real.pi / 180 - φ)) = Real.sin (2 * φ) := by
      rw [show 2 * (45 * Real.pi / 180 - φ) = Real.pi / 2 - 2 * φ by ring, Real.cos_pi_div_two_sub]
    have c90 : Real.cos (2 * (90 * Real.pi / 180 - φ)) = -Real.cos (2 * φ) := by
      rw [show 2 * (90 * Real.pi / 180 - φ) = Real.pi - 2 * φ by ring, Real.cos_pi_sub]
    have c4 : Real.cos (2 * (o4 * Real.pi / 180 - φ)) = -Real.sin (2 * φ) := by
      rcases ho with rfl | rfl
      · rw [show 2 * (135 * Real.pi / 180 - φ) = (Real.pi / 2 - 2 * φ) + Real.pi by ring, Real.cos_add_pi,
          Real.cos_pi_div_two_sub]
      · rw [show 2 * (-45 * Real.pi / 180 - φ) = -(Real.pi / 2 + 2 * φ) by ring, Real.cos_neg, add_comm, Real.cos_add_pi_div_two]
    rw [c0, c45, c90, c4]
    ring
  rcases href with ⟨h, -⟩ | ⟨h, -, -⟩
  · exact key 135 (Or.inl rfl) h
  · exact key (-45) (Or.inr rfl) h

/-- C74: `get_malus_normalization` estimates the signal of its images in the same way, from half their sum. -/
theorem C74_malus_normalization {images : List (Img ℝ)} {h w : Nat} (hne : images ≠ [])
    (hshape : ∀ A ∈ images, A.HasShape h w) {T : Nat → Nat → ℝ}
    (hT : ∀ y x, T y x = (images.map (fun A => A.px y x)).sum / 2) (hE : Extremes T h w lo hi) (hm : FullestBin T h w lo hi m) :
    (m < 10 → getMalusNormalization fit images = .error .indexError) ∧
    (990 < m → getMalusNormalization fit images = .error .valueError) ∧
    (10 ≤ m → m ≤ 990 →
      (fit (fitCentres lo hi m) (fitShares T h w lo hi m) (firstGuess T h w lo hi m) = none →
        getMalusNormalization fit images = .error .runtimeError) ∧
      ∀ p, fit (fitCentres lo hi m) (fitShares T h w lo hi m) (firstGuess T h w lo hi m) = some p →
        getMalusNormalization fit images = .ok (p 1 + 4 * p 2)) := by
  have e : getMalusNormalization fit images = gaussPeak fit (Img.ofFn h w T) := by
    match images, hne, hshape, hT with
    | A :: l, _, hshape, hT =>
      unfold getMalusNormalization
      dsimp only
      obtain ⟨h1, h2⟩ := hshape A (by simp)
      have hs : stackFrames (A :: l) A.h A.w = .ok (A :: l) := by
        unfold stackFrames
        rw [if_pos]
        intro B hB
        obtain ⟨g1, g2⟩ := hshape B hB
        rw [g1, g2, h1, h2]
        exact ⟨rfl, rfl⟩
      rw [hs, Py.ok_bind, h1, h2]
      congr 1
      refine Img.ofFn_congr fun y x _ _ => ?_
      rw [hT]
      ring
  rw [e]
  refine ⟨fun h => gaussPeak_low fit hE hm h, fun h => gaussPeak_high fit hE hm h, fun h1 h2 => ⟨fun hf => ?_, fun p hf => ?_⟩⟩
  · rw [gaussPeak_mid fit hE hm h1 h2, hf]
  · rw [gaussPeak_mid fit hE hm h1 h2, hf]

/-- C74: without images, or with images of different shapes, it raises. -/
theorem C74_malus_rejects {A B : Img ℝ} {l : List (Img ℝ)} (hB : B ∈ l) (hAB : ¬ (B.h = A.h ∧ B.w = A.w)) :
    getMalusNormalization fit [] = .error .indexError ∧ getMalusNormalization fit (A :: l) = .error .valueError := by
  refine ⟨rfl, ?_⟩
  unfold getMalusNormalization stackFrames
  dsimp only
  rw [if_neg]
  · rfl
  · intro hc
    exact hAB (hc B (by simp [hB]))

/-- C74, violation: the curve that is fitted depends on the square of the width only, but the estimate does not: two parameter
sets for the same curve, which are equally good answers of the fit, give different signals. -/
theorem C74_sign_matters {images : List (Img ℝ)} {h w : Nat} (hne : images ≠ []) (hshape : ∀ A ∈ images, A.HasShape h w)
    {T : Nat → Nat → ℝ} (hT : ∀ y x, T y x = (images.map (fun A => A.px y x)).sum / 2) (hE : Extremes T h w lo hi)
    (hm : FullestBin T h w lo hi m) (h10 : 10 ≤ m) (h990 : m ≤ 990) (n c σ : ℝ) (hσ : σ ≠ 0) :
    (∀ x, n * Real.exp (-(x - c) ^ 2 / (4 * σ ^ 2)) = n * Real.exp (-(x - c) ^ 2 / (4 * (-σ) ^ 2))) ∧
    getMalusNormalization (fun _ _ _ => some ![n, c, σ]) images ≠
      getMalusNormalization (fun _ _ _ => some ![n, c, -σ]) images := by
  refine ⟨fun x => by rw [neg_sq], ?_⟩
  have g1 := ((C74_malus_normalization (fit := fun _ _ _ => some ![n, c, σ]) hne hshape hT hE hm).2.2 h10 h990).2 _ rfl
  have g2 := ((C74_malus_normalization (fit := fun _ _ _ => some ![n, c, -σ]) hne hshape hT hE hm).2.2 h10 h990).2 _ rfl
  rw [g1, g2]
  intro hc
  injection hc with hc
  have hc : c + 4 * σ = c + 4 * (-σ) := hc
  apply hσ
  linarith

end

/-! ## Examples -/

/-- Frames at 0, 45, 90 and 135 degrees and no prescribed signal. -/
def autoArgs : CalibArgs := { runArgs with
  orientations := [0, 45, 90, 135], filenames := [['a'], ['b'], ['c'], ['d']], normS := .missing }

theorem auto_readable (A : Img ℝ) {h w : Nat} (hA : A.HasShape h w) (hh : h % 2 = 0) (hw : w % 2 = 0) :
    Readable (fun _ => some A) autoArgs 1 h w (fun _ => A) none :=
  ⟨rfl, le_refl 1, ⟨hh, hw⟩, fun _ _ => ⟨rfl, hA⟩, Or.inl ⟨rfl, rfl⟩, rfl, rfl, by simp [autoArgs]⟩

theorem auto_references : References autoArgs.orientations [0, 45, 90, 135] := Or.inl ⟨rfl, fun _ h => h⟩

theorem auto_sorted : SortedList autoArgs [(0, ['a']), (45, ['b']), (90, ['c']), (135, ['d'])] := by
  constructor
  · exact List.Perm.refl _
  · norm_num

theorem auto_half (A : Img ℝ) {y x : Nat} :
    halfSum [0, 45, 90, 135] [(0, ['a']), (45, ['b']), (90, ['c']), (135, ['d'])] (fun _ => A) none 1 y x =
      2 * familySum A 1 y x := by
  unfold halfSum lit
  simp
  ring

/-- Uniform frames: the hypotheses of `C74_estimated` hold; the data is divided by the estimate 3 + 4 * 1/4. -/
example : ∃ inp, prepare (fun _ => some (Img.const 2 2 4)) (fun _ _ _ => some ![1, 3, 1 / 4]) autoArgs = .ok inp ∧
    inp.height = 2 ∧ ∀ k, (inp.data k).px 0 0 = 1 := by
  have hfam : ∀ y x, y < 2 → x < 2 → familySum (Img.const 2 2 (4 : ℝ)) 1 y x = 4 := by
    intro y x hy hx
    unfold familySum
    rw [sum_range_one, sum_range_one]
    exact Img.ofFn_px (by omega) (by omega)
  obtain ⟨hE, hm⟩ := C74_uniform (T := halfSum [0, 45, 90, 135] [(0, ['a']), (45, ['b']), (90, ['c']), (135, ['d'])]
    (fun _ => Img.const 2 2 4) none 1) (h := 2) (w := 2) (c := 8) (by norm_num) (by norm_num) (fun y x hy hx => by
      rw [auto_half, hfam y x hy hx]; norm_num)
  obtain ⟨inp, h1, h2, h3, h4, h5⟩ := C74_estimated (b := 1) (H := 2) (W := 2) (fit := fun _ _ _ => some ![1, 3, 1 / 4])
    (auto_readable (Img.const 2 2 4) ⟨rfl, rfl⟩ rfl rfl) rfl auto_references auto_sorted hE hm (by norm_num) (by norm_num) rfl
    (by show (3 : ℝ) + 4 * (1 / 4) ≠ 0; norm_num) (by norm_num [autoArgs, runArgs]) (fun n _ y x hy hx => by
      unfold lit
      dsimp only
      rw [hfam y x hy hx]
      norm_num)
  refine ⟨inp, h1, h3, fun k => ?_⟩
  rw [((h5 k (lt_of_lt_of_eq k.isLt h2)).2 0 0 (by rw [h3]; norm_num) (by rw [h4]; norm_num)).1]
  unfold lit
  dsimp only
  rw [hfam 0 0 (by norm_num) (by norm_num)]
  show (4 : ℝ) / atLeast (3 + 4 * (1 / 4)) = 1
  unfold atLeast
  norm_num

/-- One bright pixel in a dark image: `C74_dark_majority` applies. -/
example : prepare (fun _ => some (Img.ofFn 2 2 (fun y x => if y = 0 ∧ x = 0 then 5 else 0)))
    (fun _ _ _ => some ![1, 3, 1 / 4]) autoArgs = .error .indexError := by
  obtain ⟨A, hA⟩ : ∃ A : Img ℝ, A = Img.ofFn 2 2 (fun y x => if y = 0 ∧ x = 0 then 5 else 0) := ⟨_, rfl⟩
  have hfam : ∀ y x, y < 2 → x < 2 → familySum A 1 y x = if y = 0 ∧ x = 0 then 5 else 0 := by
    intro y x hy hx
    unfold familySum
    rw [sum_range_one, sum_range_one, show 2 * (1 * (y / 2) + 0) + y % 2 = y by omega,
      show 2 * (1 * (x / 2) + 0) + x % 2 = x by omega, hA]
    exact Img.ofFn_px hy hx
  rw [← hA]
  refine C74_dark_majority (b := 1) (H := 2) (W := 2) (lo := 0) (hi := 10)
    (auto_readable A (by rw [hA]; exact ⟨rfl, rfl⟩) rfl rfl) rfl auto_references auto_sorted ?_ (by norm_num) ?_
  · refine ⟨⟨⟨1, 1, by norm_num, by norm_num, ?_⟩, ?_⟩, ⟨⟨0, 0, by norm_num, by norm_num, ?_⟩, ?_⟩⟩
    · rw [auto_half, hfam 1 1 (by norm_num) (by norm_num)]; norm_num
    · rintro v ⟨y, x, hy, hx, rfl⟩
      rw [auto_half, hfam y x hy hx]
      split <;> norm_num
    · rw [auto_half, hfam 0 0 (by norm_num) (by norm_num)]; norm_num
    · rintro v ⟨y, x, hy, hx, rfl⟩
      rw [auto_half, hfam y x hy hx]
      split <;> norm_num
  · have : ({(0, 1), (1, 0), (1, 1)} : Finset (Nat × Nat)) ⊆
        (range (2 * (2 / (2 * 1))) ×ˢ range (2 * (2 / (2 * 1)))).filter (fun q =>
          halfSum [0, 45, 90, 135] [(0, ['a']), (45, ['b']), (90, ['c']), (135, ['d'])] (fun _ => A) none 1 q.1 q.2 = 0) := by
      intro q hq
      simp only [mem_insert, mem_singleton] at hq
      rw [mem_filter, auto_half]
      rcases hq with rfl | rfl | rfl
      · exact ⟨by decide, by rw [hfam 0 1 (by norm_num) (by norm_num)]; norm_num⟩
      · exact ⟨by decide, by rw [hfam 1 0 (by norm_num) (by norm_num)]; norm_num⟩
      · exact ⟨by decide, by rw [hfam 1 1 (by norm_num) (by norm_num)]; norm_num⟩
    have := card_le_card this
    have h3 : ({(0, 1), (1, 0), (1, 1)} : Finset (Nat × Nat)).card = 3 := by decide
    omega

end

end Micropol

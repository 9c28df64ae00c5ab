import Verif.Lemmas.CalibrationUnits
import Verif.Props.Normalisation

/-!
# C124: the unit of the calibration frames does not matter

Frames, dark and prescribed signal may be given in any unit (counts, electrons, counts per second), with the gain to match; a bias
common to frames and dark cancels.
-/

set_option autoImplicit false
set_option linter.unusedSectionVars false

namespace Micropol

noncomputable section

open Classical Finset

attribute [local irreducible] gaussPeak

section
variable {c : ℝ} {fs : Name → Option (Img ℝ)} {fit : GaussFit} {a : CalibArgs} {b H W : Nat} {F : Name → Img ℝ}
  {D : Option (Img ℝ)} {R : List ℝ} {L : List (ℝ × Name)}

/-- C124: with a prescribed signal that is nowhere negative, the normalised frames, their errors and the maps (or the exception) are
the same in every unit, whatever the files contain. -/
theorem C124_prescribed_partial (hc : 0 < c) (hn : PrescribedNonneg a.normS) :
    prepare (filesInUnit c fs) fit (argsInUnit c a) = prepare fs fit a ∧
    ∀ env ny nx schedule, calculateDemodulationTensor (filesInUnit c fs) fit env (argsInUnit c a) ny nx schedule =
      calculateDemodulationTensor fs fit env a ny nx schedule := by
  have e := prepare_unit (fs := fs) (fit := fit) hc hn
  refine ⟨e.symm, fun env ny nx schedule => ?_⟩
  unfold calculateDemodulationTensor
  rw [e]

theorem inUnit_at (A : Img ℝ) (y x : Nat) : (inUnit c A).px y x = c * A.px y x := (sca_map A).px y x

theorem familySum_inUnit (A : Img ℝ) (b y x : Nat) : familySum (inUnit c A) b y x = c * familySum A b y x := by
  unfold familySum
  simp only [inUnit_at, mul_sum]

theorem lit_inUnit (hc : 0 < c) (A : Img ℝ) (D : Option (Img ℝ)) (b y x : Nat) :
    lit (inUnit c A) (D.map (inUnit c)) b y x = c * lit A D b y x := by
  cases D with
  | none => exact familySum_inUnit A b y x
  | some d =>
    show max 0 (familySum (inUnit c A) b y x - familySum (inUnit c d) b y x) = c * max 0 (familySum A b y x - familySum d b y x)
    rw [familySum_inUnit, familySum_inUnit, ← mul_sub, mul_max_of_nonneg _ _ hc.le, mul_zero]

theorem Readable.inUnit (hR : Readable fs a b H W F D) :
    Readable (filesInUnit c fs) (argsInUnit c a) b H W (fun n => Micropol.inUnit c (F n)) (D.map (Micropol.inUnit c)) where
  binning := hR.binning
  pos := hR.pos
  even := hR.even
  frames := fun n hn => by
    obtain ⟨h1, h2⟩ := hR.frames n hn
    refine ⟨?_, h2⟩
    unfold filesInUnit
    rw [h1]
    rfl
  dark := by
    rcases hR.dark with ⟨h1, h2⟩ | ⟨n, d, h0, h1, h2, h3, h4⟩
    · exact Or.inl ⟨h1, by rw [h2]; rfl⟩
    · refine Or.inr ⟨n, Micropol.inUnit c d, h0, h1, ?_, by rw [h3]; rfl, h4⟩
      unfold filesInUnit
      rw [h2]
      rfl
  flat := hR.flat
  len := hR.len
  some_file := hR.some_file

/-- C124: without a prescribed signal the same holds, provided that half the sum of the reference frames is not the same at all
pixels, and that the fitting routine does its work in every unit and gives no negative estimate. -/
theorem C124_estimated_partial (hc : 0 < c) (hR : Readable fs a b H W F D) (hn : a.normS = .missing)
    (href : References a.orientations R) (hL : SortedList a L) (hfit : FitUnitFree c fit) (hpos : FitNonneg fit)
    (hne : ∃ y x y' x', (y < 2 * (H / (2 * b)) ∧ x < 2 * (W / (2 * b))) ∧ (y' < 2 * (H / (2 * b)) ∧ x' < 2 * (W / (2 * b))) ∧
      halfSum R L F D b y x ≠ halfSum R L F D b y' x') :
    prepare (filesInUnit c fs) fit (argsInUnit c a) = prepare fs fit a ∧
    ∀ env ny nx schedule, calculateDemodulationTensor (filesInUnit c fs) fit env (argsInUnit c a) ny nx schedule =
      calculateDemodulationTensor fs fit env a ny nx schedule := by
  have e : prepare fs fit a = prepare (filesInUnit c fs) fit (argsInUnit c a) := by
    have hR' := hR.inUnit (c := c)
    have hL' : SortedList (argsInUnit c a) L := hL
    have hn' : (argsInUnit c a).normS = .missing := by
      show signalInUnit c a.normS = _
      rw [hn]
      rfl
    have href' : References (argsInUnit c a).orientations R := href
    obtain ⟨O, hO, e1⟩ := prepare_reduce (fit := fit) hR hL (references_check href)
    obtain ⟨O', hO', e2⟩ := prepare_reduce (fit := fit) hR' hL' (references_check href')
    have hOO : O = O' := by
      have : (Except.ok O : Py (Img ℝ)) = .ok O' := hO.symm.trans hO'
      injection this
    subst hOO
    rw [e1, e2, normPlanes_auto hR hL hn href, normPlanes_auto hR' hL' hn' href']
    have hS : Sca c (Img.ofFn (2 * (H / (2 * b))) (2 * (W / (2 * b))) (halfSum R L F D b))
        (Img.ofFn (2 * (H / (2 * b))) (2 * (W / (2 * b)))
          (halfSum R L (fun n => Micropol.inUnit c (F n)) (D.map (Micropol.inUnit c)) b)) := by
      refine Sca.ofFn fun y x _ _ => ?_
      unfold halfSum
      rw [← List.sum_map_mul_left]
      congr 1
      refine List.map_congr_left fun q _ => ?_
      split
      · rw [lit_inUnit hc]
        ring
      · rw [mul_zero]
    have hdiff : ∃ y x y' x', (y < 2 * (H / (2 * b)) ∧ x < 2 * (W / (2 * b))) ∧ (y' < 2 * (H / (2 * b)) ∧ x' < 2 * (W / (2 * b))) ∧
        (Img.ofFn (2 * (H / (2 * b))) (2 * (W / (2 * b))) (halfSum R L F D b)).px y x ≠
        (Img.ofFn (2 * (H / (2 * b))) (2 * (W / (2 * b))) (halfSum R L F D b)).px y' x' := by
      obtain ⟨y, x, y', x', h1, h2, h3⟩ := hne
      refine ⟨y, x, y', x', h1, h2, ?_⟩
      rwa [Img.ofFn_px h1.1 h1.2, Img.ofFn_px h2.1 h2.2]
    have hpk := PyRel.withOk (gaussPeak_unit hc hfit hS hdiff) (gaussPeak_nonneg hpos _)
    have hfr : List.Forall₂ (Sca c) (L.map (fun q => litImg (F q.2) D b (2 * (H / (2 * b))) (2 * (W / (2 * b)))))
        (L.map (fun q => litImg (Micropol.inUnit c (F q.2)) (D.map (Micropol.inUnit c)) b (2 * (H / (2 * b))) (2 * (W / (2 * b))))) := by
      clear * - hc
      induction L with
      | nil => exact .nil
      | cons q L ih => exact .cons (Sca.ofFn fun y x _ _ => lit_inUnit hc _ _ _ _ _) ih
    refine PyRel.eq (PyRel.bind (R := ScPlanes c) (PyRel.bind hpk fun s t hst => ?_) fun P Q hP => ?_)
    · intro k
      have hts : t = c * s := hst.1
      rw [hts]
      exact (Scp.const hst.2 1 1).clean hc
    · rw [tail_unit hc a.gain L.length hfr hP]
      exact PyRel.refl _
  refine ⟨e.symm, fun env ny nx schedule => ?_⟩
  unfold calculateDemodulationTensor
  rw [e]

/-- C124: `get_malus_normalization` returns the signal in the unit of its images. -/
theorem C124_malus {images : List (Img ℝ)} {h w : Nat} (hc : 0 < c) (hshape : ∀ A ∈ images, A.HasShape h w)
    (hfit : FitUnitFree c fit)
    (hne : ∃ y x y' x', (y < h ∧ x < w) ∧ (y' < h ∧ x' < w) ∧
      (images.map (fun A => A.px y x)).sum ≠ (images.map (fun A => A.px y' x')).sum) :
    getMalusNormalization fit (images.map (inUnit c)) = (getMalusNormalization fit images).map (c * ·) := by
  have key : ∀ (x y : Py ℝ), PyRel (ScN c) x y → y = x.map (c * ·) := by
    intro x y h
    cases x <;> cases y <;> first | cases h; rfl | cases h
  refine key _ _ ?_
  match images, hshape, hne with
  | [], _, hne =>
    obtain ⟨y, x, y', x', -, -, h⟩ := hne
    exact absurd rfl h
  | A :: l, hshape, hne =>
    obtain ⟨hA1, hA2⟩ := hshape A (by simp)
    have hs : stackFrames (A :: l) A.h A.w = .ok (A :: l) := by
      unfold stackFrames
      rw [if_pos]
      intro B hB
      obtain ⟨g1, g2⟩ := hshape B hB
      exact ⟨g1.trans hA1.symm, g2.trans hA2.symm⟩
    have hs' : stackFrames (inUnit c A :: l.map (inUnit c)) A.h A.w = .ok (inUnit c A :: l.map (inUnit c)) := by
      unfold stackFrames
      rw [if_pos]
      intro B hB
      obtain ⟨C, hC, rfl⟩ := List.mem_map.1 (show B ∈ (A :: l).map (inUnit c) from hB)
      obtain ⟨g1, g2⟩ := hshape C hC
      exact ⟨g1.trans hA1.symm, g2.trans hA2.symm⟩
    show PyRel _ (stackFrames (A :: l) A.h A.w >>= _) (stackFrames (inUnit c A :: l.map (inUnit c)) A.h A.w >>= _)
    rw [hs, hs', Py.ok_bind, Py.ok_bind]
    have hS : Sca c (Img.ofFn A.h A.w fun y x => 1 / 2 * ((A :: l).map fun B => B.px y x).sum)
        (Img.ofFn A.h A.w fun y x => 1 / 2 * ((inUnit c A :: l.map (inUnit c)).map fun B => B.px y x).sum) := by
      refine Sca.ofFn fun y x _ _ => ?_
      rw [← List.map_cons, List.map_map]
      have : ((fun B : Img ℝ => B.px y x) ∘ inUnit c) = fun B => c * B.px y x := funext fun B => inUnit_at B y x
      rw [this, List.sum_map_mul_left]
      ring
    have hdiff : ∃ y x y' x', (y < A.h ∧ x < A.w) ∧ (y' < A.h ∧ x' < A.w) ∧
        (Img.ofFn A.h A.w fun y x => 1 / 2 * ((A :: l).map fun B => B.px y x).sum).px y x ≠
        (Img.ofFn A.h A.w fun y x => 1 / 2 * ((A :: l).map fun B => B.px y x).sum).px y' x' := by
      obtain ⟨y, x, y', x', h1, h2, h3⟩ := hne
      refine ⟨y, x, y', x', ?_, ?_, ?_⟩
      · show y < A.h ∧ x < A.w
        rwa [hA1, hA2]
      · show y' < A.h ∧ x' < A.w
        rwa [hA1, hA2]
      · rw [Img.ofFn_px (by omega) (by omega), Img.ofFn_px (by omega) (by omega)]
        intro he
        exact h3 (by linarith)
    exact gaussPeak_unit hc hfit hS hdiff

theorem familySum_plus {A B : Img ℝ} (b y x : Nat) : familySum (Img.ofFn A.h A.w fun y x => A.px y x + B.px y x) b y x =
    familySum A b y x + familySum (Img.ofFn A.h A.w B.px) b y x := by
  unfold familySum
  rw [← sum_add_distrib]
  refine sum_congr rfl fun u _ => ?_
  rw [← sum_add_distrib]
  refine sum_congr rfl fun v _ => ?_
  rw [Img.ofFn_px', Img.ofFn_px']
  split
  · rfl
  · rename_i hcon
    rw [A.out _ _ hcon, add_zero]

/-- C124: with a dark, the same image added to all files changes nothing, whatever the normalisation. -/
theorem C124_bias {d B : Img ℝ} (hR : Readable fs a b H W F (some d)) :
    prepare (filesPlus B fs) fit a = prepare fs fit a ∧
    ∀ env ny nx schedule, calculateDemodulationTensor (filesPlus B fs) fit env a ny nx schedule =
      calculateDemodulationTensor fs fit env a ny nx schedule := by
  have e : prepare (filesPlus B fs) fit a = prepare fs fit a := by
    by_cases hcheck : a.normS.IsNone ∧ ¬ allIn normMinus a.orientations ∧ ¬ allIn normPlus a.orientations
    · unfold prepare
      rw [if_pos hcheck, if_pos hcheck]
    have hL := sortedPairs_sorted a
    obtain ⟨n, d', h0, h1, h2, h3, h4⟩ : ∃ n d', n ≠ [] ∧ a.dark = some n ∧ fs n = some d' ∧ some d = some d' ∧ d'.HasShape H W := by
      rcases hR.dark with ⟨-, h⟩ | h
      · cases h
      · exact h
    cases h3
    have hR' : Readable (filesPlus B fs) a b H W (fun n => Img.ofFn (F n).h (F n).w fun y x => (F n).px y x + B.px y x)
        (some (Img.ofFn d.h d.w fun y x => d.px y x + B.px y x)) := by
      refine ⟨hR.binning, hR.pos, hR.even, fun m hm => ?_, Or.inr ⟨n, _, h0, h1, ?_, rfl, h4⟩, hR.flat, hR.len, hR.some_file⟩
      · obtain ⟨g1, g2⟩ := hR.frames m hm
        refine ⟨?_, g2⟩
        unfold filesPlus
        rw [g1]
        rfl
      · unfold filesPlus
        rw [h2]
        rfl
    obtain ⟨O, hO, e1⟩ := prepare_reduce (fit := fit) hR hL hcheck
    obtain ⟨O', hO', e2⟩ := prepare_reduce (fit := fit) hR' hL hcheck
    have hOO : O = O' := by
      have : (Except.ok O : Py (Img ℝ)) = .ok O' := hO.symm.trans hO'
      injection this
    subst hOO
    have hfr : (sortedPairs a.orientations a.filenames).map (fun q => litImg (Img.ofFn (F q.2).h (F q.2).w fun y x => (F q.2).px y x + B.px y x)
          (some (Img.ofFn d.h d.w fun y x => d.px y x + B.px y x)) b (2 * (H / (2 * b))) (2 * (W / (2 * b)))) =
        (sortedPairs a.orientations a.filenames).map (fun q => litImg (F q.2) (some d) b (2 * (H / (2 * b))) (2 * (W / (2 * b)))) := by
      refine List.map_congr_left fun q hq => Img.ofFn_congr fun y x _ _ => ?_
      obtain ⟨-, g2⟩ := hR.frames q.2 (hR.mem hL hq)
      show max 0 (familySum _ b y x - familySum _ b y x) = max 0 (familySum _ b y x - familySum _ b y x)
      rw [familySum_plus, familySum_plus, g2.1, g2.2, h4.1, h4.2, add_sub_add_right_eq_sub]
    rw [e1, e2, hfr]
  refine ⟨e, fun env ny nx schedule => ?_⟩
  unfold calculateDemodulationTensor
  rw [e]

end

/-! ## Violations -/

/-- Uniform frames. -/
def flatFiles : Name → Option (Img ℝ) := fun _ => some (Img.const 2 2 4)

theorem family_flat (v : ℝ) {y x : Nat} (hy : y < 2) (hx : x < 2) : familySum (Img.const 2 2 v) 1 y x = v := by
  unfold familySum
  rw [sum_range_one, sum_range_one]
  exact Img.ofFn_px (by omega) (by omega)

/-- A gaussian fit that returns its first guess: the same in every unit, never negative if the guess is not. -/
def guessFit : GaussFit := fun _ _ p => some p

theorem guessFit_unitFree (c : ℝ) : FitUnitFree c guessFit := fun _ _ _ _ _ => rfl

/-- The estimate from uniform frames `v` with this fit. -/
theorem flat_data (v : ℝ) (hv : 0 < v) (g : ℝ) (hg : 0 < g) :
    ∃ inp, prepare (fun _ => some (Img.const 2 2 v)) guessFit { autoArgs with gain := g } = .ok inp ∧ inp.n = 4 ∧
      ∀ k, (inp.data k).px 0 0 = v / (2 * v + 41 / 2000) := by
  have hhalf : ∀ y x, y < 2 → x < 2 → halfSum [0, 45, 90, 135] [(0, ['a']), (45, ['b']), (90, ['c']), (135, ['d'])]
      (fun _ => Img.const 2 2 v) none 1 y x = 2 * v := by
    intro y x hy hx
    rw [auto_half, family_flat v hy hx]
  obtain ⟨hE, hm⟩ := C74_uniform (T := halfSum [0, 45, 90, 135] [(0, ['a']), (45, ['b']), (90, ['c']), (135, ['d'])]
    (fun _ => Img.const 2 2 v) none 1) (h := 2) (w := 2) (c := 2 * v) (by norm_num) (by norm_num) hhalf
  have hest : (firstGuess (halfSum [0, 45, 90, 135] [(0, ['a']), (45, ['b']), (90, ['c']), (135, ['d'])]
      (fun _ => Img.const 2 2 v) none 1) 2 2 (2 * v) (2 * v) 500 1 +
      4 * firstGuess (halfSum [0, 45, 90, 135] [(0, ['a']), (45, ['b']), (90, ['c']), (135, ['d'])]
      (fun _ => Img.const 2 2 v) none 1) 2 2 (2 * v) (2 * v) 500 2) = 2 * v + 41 / 2000 := by
    show (binStart _ _ 500 + binStart _ _ (500 + 1)) / 2 + 4 * (binStart _ _ (500 + 5) - binStart _ _ 500) = _
    unfold binStart
    rw [if_pos rfl, if_pos rfl, if_pos rfl]
    push_cast
    ring
  have hR : Readable (fun _ => some (Img.const 2 2 v)) { autoArgs with gain := g } 1 2 2 (fun _ => Img.const 2 2 v) none := by
    have h := auto_readable (Img.const 2 2 v) (h := 2) (w := 2) ⟨rfl, rfl⟩ rfl rfl
    exact ⟨h.binning, h.pos, h.even, h.frames, h.dark, h.flat, h.len, h.some_file⟩
  obtain ⟨inp, h1, h2, h3, h4, h5⟩ := C74_estimated (b := 1) (H := 2) (W := 2) (fit := guessFit) hR rfl auto_references auto_sorted
    hE hm (by norm_num) (by norm_num) rfl
    (by rw [hest]; positivity) hg (fun n _ y x hy hx => by
      unfold lit
      dsimp only
      rw [family_flat v hy hx]
      exact hv.le)
  refine ⟨inp, h1, h2, fun k => ?_⟩
  rw [((h5 k (lt_of_lt_of_eq k.isLt h2)).2 0 0 (by rw [h3]; norm_num) (by rw [h4]; norm_num)).1]
  rw [hest]
  unfold lit atLeast
  dsimp only
  rw [family_flat v (by norm_num) (by norm_num), if_neg (by push Not; positivity)]

theorem flatFiles_unit (c : ℝ) : filesInUnit c flatFiles = fun _ => some (Img.const 2 2 (c * 4)) := by
  funext n
  show some (inUnit c (Img.const 2 2 4)) = _
  congr 1
  exact (Img.eq_ofFn rfl rfl fun y x hy hx => by
    rw [inUnit_at]
    congr 1
    exact Img.ofFn_px hy hx)

/-- C124, violation: uniform frames and no prescribed signal.  The histogram is then one unit wide in any unit, and so is the estimate. -/
theorem C124_uniform_frames : FitUnitFree 2 guessFit ∧
    ∃ inp inp', prepare flatFiles guessFit autoArgs = .ok inp ∧
      prepare (filesInUnit 2 flatFiles) guessFit (argsInUnit 2 autoArgs) = .ok inp' ∧ inp ≠ inp' := by
  refine ⟨guessFit_unitFree 2, ?_⟩
  obtain ⟨inp, h1, h2, h3⟩ := flat_data 4 (by norm_num) 3 (by norm_num)
  obtain ⟨inp', g1, g2, g3⟩ := flat_data (2 * 4) (by norm_num) (3 / 2) (by norm_num)
  refine ⟨inp, inp', h1, ?_, fun he => ?_⟩
  · rw [flatFiles_unit]
    exact g1
  · subst he
    have e1 := h3 ⟨0, by rw [h2]; norm_num⟩
    have e2 := g3 ⟨0, by rw [h2]; norm_num⟩
    rw [e1] at e2
    norm_num at e2

/-- C124, violation: a negative prescribed signal counts as 1 in any unit. -/
theorem C124_negative_signal (fit : GaussFit) :
    ∃ inp inp', prepare flatFiles fit { runArgs with normS := .number (-1) } = .ok inp ∧
      prepare (filesInUnit 2 flatFiles) fit (argsInUnit 2 { runArgs with normS := .number (-1) }) = .ok inp' ∧ inp ≠ inp' := by
  have key : ∀ (v g s : ℝ), 0 < v → 0 < g → s < 0 → ∃ inp, prepare (fun _ => some (Img.const 2 2 v)) fit
      { runArgs with gain := g, normS := .number s } = .ok inp ∧ inp.n = 3 ∧ ∀ k, (inp.data k).px 0 0 = v := by
    intro v g s hv hg hs
    have hR : Readable (fun _ => some (Img.const 2 2 v)) { runArgs with gain := g, normS := .number s } 1 2 2
        (fun _ => Img.const 2 2 v) none :=
      ⟨rfl, le_refl 1, ⟨rfl, rfl⟩, fun _ _ => ⟨rfl, rfl, rfl⟩, Or.inl ⟨rfl, rfl⟩, rfl, rfl, by simp [runArgs]⟩
    have hL := sortedPairs_sorted { runArgs with gain := g, normS := .number s }
    obtain ⟨inp, h1, h2, h3, h4, -, -, -, h5⟩ := C73_frames_partial (fit := fit) (S := fun _ _ _ => 1) hR
      (Or.inl ⟨s, rfl, hs.ne, fun _ _ _ => by unfold atLeast; rw [if_pos (by push_cast; linarith)]⟩) hg
      (fun n _ y x hy hx => by
        unfold lit
        dsimp only
        rw [family_flat v hy hx]
        exact hv.le) hL
    have hl := hR.length hL
    refine ⟨inp, h1, h2.trans hl, fun k => ?_⟩
    rw [((h5 k (lt_of_lt_of_eq k.isLt h2)).2.2.2 0 0 (by rw [h3]; norm_num) (by rw [h4]; norm_num)).1]
    unfold lit
    dsimp only
    rw [family_flat v (by norm_num) (by norm_num), div_one]
  obtain ⟨inp, h1, h2, h3⟩ := key 4 3 (-1) (by norm_num) (by norm_num) (by norm_num)
  obtain ⟨inp', g1, g2, g3⟩ := key (2 * 4) (3 / 2) (2 * -1) (by norm_num) (by norm_num) (by norm_num)
  refine ⟨inp, inp', h1, ?_, fun he => ?_⟩
  · rw [flatFiles_unit]
    exact g1
  · subst he
    have e1 := h3 ⟨0, by rw [h2]; norm_num⟩
    have e2 := g3 ⟨0, by rw [h2]; norm_num⟩
    rw [e1] at e2
    norm_num at e2

/-- C124 as it should be: no condition on the signal or the frames. -/
theorem C124_full_claim_false :
    ¬ ∀ (c : ℝ) (fs : Name → Option (Img ℝ)) (fit : GaussFit) (a : CalibArgs), 0 < c → FitUnitFree c fit →
      prepare (filesInUnit c fs) fit (argsInUnit c a) = prepare fs fit a := by
  intro h
  obtain ⟨hf, inp, inp', h1, h2, h3⟩ := C124_uniform_frames
  have := h 2 flatFiles guessFit autoArgs (by norm_num) hf
  rw [h1, h2] at this
  injection this with this
  exact h3 this.symm

/-! ## Examples -/

/-- The arguments of a run meet the hypothesis, in electrons (3 for a count). -/
example (fit : GaussFit) : prepare (filesInUnit 3 runFiles) fit (argsInUnit 3 runArgs) = prepare runFiles fit runArgs :=
  (C124_prescribed_partial (a := runArgs) (by norm_num) (show (0 : ℝ) ≤ 2 by norm_num)).1

/-- A fit for which the hypotheses of `C124_estimated_partial` hold: the width in units of the position is fixed. -/
example : FitUnitFree 5 (fun xs _ p => some ![p 0, |xs.getD 0 0|, |xs.getD 0 0|]) ∧
    FitNonneg (fun xs _ p => some ![p 0, |xs.getD 0 0|, |xs.getD 0 0|]) := by
  constructor
  · intro xs ys u v w
    have : (xs.map ((5 : ℝ) * ·)).getD 0 0 = 5 * xs.getD 0 0 := by cases xs <;> simp
    show some _ = some _
    rw [this, abs_mul, abs_of_pos (by norm_num : (0 : ℝ) < 5)]
    rfl
  · intro xs ys p0 p h
    injection h with h
    rw [← h]
    show 0 ≤ |xs.getD 0 0| + 4 * |xs.getD 0 0|
    positivity

/-- Frames with one bright pixel meet the other hypotheses. -/
example : ∃ A : Img ℝ, Readable (fun _ => some A) autoArgs 1 2 2 (fun _ => A) none ∧
    ∃ y x y' x', (y < 2 * (2 / (2 * 1)) ∧ x < 2 * (2 / (2 * 1))) ∧ (y' < 2 * (2 / (2 * 1)) ∧ x' < 2 * (2 / (2 * 1))) ∧
      halfSum [0, 45, 90, 135] [(0, ['a']), (45, ['b']), (90, ['c']), (135, ['d'])] (fun _ => A) none 1 y x ≠
      halfSum [0, 45, 90, 135] [(0, ['a']), (45, ['b']), (90, ['c']), (135, ['d'])] (fun _ => A) none 1 y' x' := by
  refine ⟨Img.ofFn 2 2 (fun y x => if y = 0 ∧ x = 0 then 5 else 0), auto_readable _ ⟨rfl, rfl⟩ rfl rfl, 0, 0, 1, 1,
    ⟨by norm_num, by norm_num⟩, ⟨by norm_num, by norm_num⟩, ?_⟩
  rw [auto_half, auto_half]
  unfold familySum
  simp only [sum_range_one]
  rw [Img.ofFn_px (by norm_num) (by norm_num), Img.ofFn_px (by norm_num) (by norm_num)]
  norm_num

/-- A bias of 100 counts in frames and dark. -/
example (fit : GaussFit) : prepare (filesPlus (Img.const 2 2 100) flatFiles) fit { runArgs with dark := some ['d'] } =
    prepare flatFiles fit { runArgs with dark := some ['d'] } :=
  (C124_bias (b := 1) (H := 2) (W := 2) (F := fun _ => Img.const 2 2 4) (d := Img.const 2 2 4)
    ⟨rfl, le_refl 1, ⟨rfl, rfl⟩, fun _ _ => ⟨rfl, rfl, rfl⟩,
      Or.inr ⟨['d'], Img.const 2 2 4, by simp, rfl, rfl, rfl, rfl, rfl⟩, rfl, rfl, by simp [runArgs]⟩).1

end

end Micropol

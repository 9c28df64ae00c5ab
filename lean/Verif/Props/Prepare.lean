import Verif.Lemmas.Prepare
import Verif.Props.Calibration
import Mathlib.Tactic.Positivity
import Mathlib.Tactic.FieldSimp
import Mathlib.Tactic.NormNum

/-!
# C73, C76: from calibration files to normalised frames

`prepare` is everything `calculate_demodulation_tensor` does before it cuts the data into chunks.
-/

set_option autoImplicit false
set_option linter.unusedSectionVars false

namespace Micropol

noncomputable section

open Classical Finset

section
variable {fs : Name → Option (Img ℝ)} {fit : GaussFit} {a : CalibArgs} {b H W : Nat} {F : Name → Img ℝ}
  {D : Option (Img ℝ)} {S : Nat → Nat → Nat → ℝ}

theorem atLeast_pos {v : ℝ} (h : v ≠ 0) : 0 < atLeast v := by
  unfold atLeast
  split
  · norm_num
  · rename_i hn; exact lt_of_le_of_ne (not_lt.1 hn) h.symm

theorem clean_eq (v : ℝ) : (if v ≥ 0 then v else 1) = atLeast v := by
  unfold atLeast
  by_cases h : v < 0
  · rw [if_neg (not_le.2 h), if_pos h]
  · rw [if_pos (not_lt.1 h), if_neg h]

theorem prescribed_planes (hR : Readable fs a b H W F D) {L : List (ℝ × Name)} (hL : SortedList a L)
    (hS : Prescribes a a.filenames.length b H W S) :
    ¬ (a.normS.IsNone ∧ ¬ allIn normMinus a.orientations ∧ ¬ allIn normPlus a.orientations) ∧
    ∃ P, normPlanes fit a (L.map Prod.fst) (2 * (H / (2 * b))) (2 * (W / (2 * b)))
        (L.map (fun q => litImg (F q.2) D b (2 * (H / (2 * b))) (2 * (W / (2 * b))))) = .ok P ∧
      ∀ k, k < L.length → Stands (P k) (2 * (H / (2 * b))) (2 * (W / (2 * b))) (S k) := by
  have hlen := hR.length hL
  have hb : (0 : ℝ) < b := by exact_mod_cast hR.pos
  rcases hS with ⟨s, e, hs, hv⟩ | ⟨A, e, hA, hv⟩ | ⟨l, e, hl, hA, hv⟩
  · refine ⟨fun h => (by have := h.1; unfold NormArg.IsNone at this; rw [e] at this; cases this), ?_⟩
    unfold normPlanes
    rw [e]
    refine ⟨_, rfl, fun k _ => Or.inl ⟨⟨rfl, rfl⟩, fun y x hy hx => ?_⟩⟩
    rw [Img.map_px _ _ (by exact hy) (by exact hx), clean_eq, hv,
      show (Img.const (2 * (H / (2 * b))) (2 * (W / (2 * b))) (s * ((a.binning : ℝ) * (a.binning : ℝ)))).px y x =
        s * ((a.binning : ℝ) * (a.binning : ℝ)) from Img.ofFn_px hy hx, hR.binning]
    refine ⟨by congr 1; push_cast; ring, atLeast_pos ?_⟩
    exact mul_ne_zero (mul_ne_zero hs hb.ne') hb.ne'
  · refine ⟨fun h => (by have := h.1; unfold NormArg.IsNone at this; rw [e] at this; cases this), ?_⟩
    unfold normPlanes
    rw [e]
    dsimp only
    rw [hR.rebin hA]
    have hs := famImg_shape (b := b) hA
    refine ⟨_, rfl, fun k _ => Or.inl ⟨hs, fun y x hy hx => ?_⟩⟩
    rw [Img.map_px _ _ (by rw [hs.1]; exact hy) (by rw [hs.2]; exact hx), clean_eq, famImg_px hA hy hx]
    obtain ⟨g1, g2⟩ := hv k y x hy hx
    rw [g2]
    exact ⟨rfl, atLeast_pos g1⟩
  · refine ⟨fun h => (by have := h.1; unfold NormArg.IsNone at this; rw [e] at this; cases this), ?_⟩
    unfold normPlanes
    rw [e]
    dsimp only
    rw [mapM_ok (g := fun A => famImg A b) (fun A hAm => hR.rebin (hA A hAm)), Py.ok_bind,
      if_pos (by rw [List.length_map, List.length_map, hl, hlen])]
    refine ⟨_, rfl, fun k hk => Or.inl ?_⟩
    have hk' : k < l.length := by rw [hl, ← hlen]; exact hk
    dsimp only
    rw [getD_map_lt hk']
    have hs := famImg_shape (b := b) (hA _ (List.getElem_mem hk'))
    refine ⟨hs, fun y x hy hx => ?_⟩
    rw [Img.map_px _ _ (by rw [hs.1]; exact hy) (by rw [hs.2]; exact hx), clean_eq,
      famImg_px (hA _ (List.getElem_mem hk')) hy hx]
    obtain ⟨g1, g2⟩ := hv k hk' y x hy hx
    rw [g2]
    exact ⟨rfl, atLeast_pos g1⟩

theorem Prescribes.pos (hR : Readable fs a b H W F D) (hS : Prescribes a a.filenames.length b H W S) {k y x : Nat}
    (hk : k < a.filenames.length) (hy : y < 2 * (H / (2 * b))) (hx : x < 2 * (W / (2 * b))) : 0 < S k y x := by
  have hb : (0 : ℝ) < b := by exact_mod_cast hR.pos
  rcases hS with ⟨s, -, hs, hv⟩ | ⟨A, -, -, hv⟩ | ⟨l, -, hl, -, hv⟩
  · rw [hv]; exact atLeast_pos (mul_ne_zero (mul_ne_zero hs hb.ne') hb.ne')
  · obtain ⟨g1, g2⟩ := hv k y x hy hx
    rw [g2]; exact atLeast_pos g1
  · obtain ⟨g1, g2⟩ := hv k (by rw [hl]; exact hk) y x hy hx
    rw [g2]; exact atLeast_pos g1

theorem sorted_exists (a : CalibArgs) : ∃ L, SortedList a L := ⟨_, sortedPairs_sorted a⟩

/-- C73 (partial: no flat, see `C73_flat_fails`; a stack of normalising images must be listed by increasing orientation, see
`C73_stack_order`; the signal is prescribed, for the automatic one see C74): frame `k` in order of orientation is the file binned
within its families, minus the dark binned likewise (never below zero), divided by the prescribed signal; its error is the shot
noise `sqrt(signal / gain)` divided by the same. -/
theorem C73_frames_partial (hR : Readable fs a b H W F D) (hS : Prescribes a a.filenames.length b H W S)
    (hgain : 0 < a.gain)
    (hpos : ∀ n ∈ a.filenames, ∀ y x, y < 2 * (H / (2 * b)) → x < 2 * (W / (2 * b)) → 0 ≤ lit (F n) D b y x)
    {L : List (ℝ × Name)} (hL : SortedList a L) :
    ∃ inp, prepare fs fit a = .ok inp ∧ inp.n = L.length ∧ inp.height = 2 * (H / (2 * b)) ∧
      inp.width = 2 * (W / (2 * b)) ∧ inp.tkBoundary = a.tkBoundary ∧ inp.effBoundary = a.effBoundary ∧
      (∀ k, inp.previsions k = a.previsions k * Real.pi / 180) ∧
      ∀ (k : Fin inp.n) (hk : k.val < L.length),
        inp.orientations k = L[k.val].1 ∧
        (inp.data k).HasShape inp.height inp.width ∧ (inp.errors k).HasShape inp.height inp.width ∧
        ∀ y x, y < inp.height → x < inp.width →
          (inp.data k).px y x = lit (F L[k.val].2) D b y x / S k y x ∧
          (inp.errors k).px y x = Real.sqrt (lit (F L[k.val].2) D b y x / a.gain) / S k y x := by
  obtain ⟨hc, P, hP, hst⟩ := prescribed_planes (fit := fit) hR hL hS
  obtain ⟨O, -, e⟩ := prepare_ok hR hL hc hP hst hgain hpos
  refine ⟨_, e, rfl, rfl, rfl, rfl, rfl, fun k => ?_, fun k hk => ⟨rfl, ⟨rfl, rfl⟩, ⟨rfl, rfl⟩, fun y x hy hx => ?_⟩⟩
  · show a.previsions k * (Real.pi / 180) = _
    ring
  · have hp : 0 < S k y x := hS.pos hR (by rw [← hR.length hL]; exact hk) hy hx
    refine ⟨Img.ofFn_px hy hx, ?_⟩
    have : ((prepared a F D b (2 * (H / (2 * b))) (2 * (W / (2 * b))) L O S).errors k).px y x =
        Real.sqrt (lit (F L[k.val].2) D b y x / S k y x / (S k y x * a.gain)) := Img.ofFn_px hy hx
    rw [this, show lit (F L[k.val].2) D b y x / S k y x / (S k y x * a.gain) =
      lit (F L[k.val].2) D b y x / a.gain / (S k y x) ^ 2 by field_simp, Real.sqrt_div' _ (by positivity),
      Real.sqrt_sq hp.le]

/-- C73: the result does not depend on the order in which orientations and files are listed. -/
theorem C73_order (o' : List ℝ) (f' : List Name) (hlen : a.orientations.length = a.filenames.length)
    (hlen' : o'.length = f'.length) (hperm : (o'.zip f').Perm (a.orientations.zip a.filenames)) :
    prepare fs fit { a with orientations := o', filenames := f' } = prepare fs fit a := by
  have e1 : sortedPairs o' f' = sortedPairs a.orientations a.filenames :=
    List.Perm.eq_of_pairwise' (r := pairLe) (List.pairwise_insertionSort pairLe _) (List.pairwise_insertionSort pairLe _)
      ((List.perm_insertionSort pairLe _).trans (hperm.trans (List.perm_insertionSort pairLe _).symm))
  have e2 : ∀ v, v ∈ o' ↔ v ∈ a.orientations := by
    intro v
    have hm := (hperm.map Prod.fst).mem_iff (a := v)
    rw [List.map_fst_zip (by omega), List.map_fst_zip (by omega)] at hm
    exact hm
  have e3 : ∀ l, allIn l o' = allIn l a.orientations := by
    intro l
    unfold allIn
    simp only [e2]
  unfold prepare
  dsimp only
  rw [e1, e3, e3]
  rfl

/-- C73: files for which there is no orientation are ignored without a message. -/
theorem C73_extra_files (extra : List Name) (hlen : a.orientations.length = a.filenames.length) :
    prepare fs fit { a with filenames := a.filenames ++ extra } = prepare fs fit a := by
  have e : a.orientations.zip (a.filenames ++ extra) = a.orientations.zip a.filenames := by
    have := List.zip_append (r₁ := []) (r₂ := extra) hlen
    rw [List.append_nil, List.zip_nil_left, List.append_nil] at this
    exact this
  unfold prepare sortedPairs
  dsimp only
  rw [e]
  rfl

/-- C73: without a prescribed signal, the orientations 0, 45, 90 and one of -45, 135 are required. -/
theorem C73_rejects_orientations (hm : a.normS = .missing)
    (h : ¬ (((0 : ℝ) ∈ a.orientations ∧ (45 : ℝ) ∈ a.orientations ∧ (90 : ℝ) ∈ a.orientations) ∧
      ((-45 : ℝ) ∈ a.orientations ∨ (135 : ℝ) ∈ a.orientations))) :
    prepare fs fit a = .error .valueError := by
  unfold prepare
  rw [if_pos]
  refine ⟨hm, fun hc => h ?_, fun hc => h ?_⟩
  · exact ⟨⟨hc _ (by simp [normMinus]), hc _ (by simp [normMinus]), hc _ (by simp [normMinus])⟩,
      Or.inl (hc _ (by simp [normMinus]))⟩
  · exact ⟨⟨hc _ (by simp [normPlus]), hc _ (by simp [normPlus]), hc _ (by simp [normPlus])⟩,
      Or.inr (hc _ (by simp [normPlus]))⟩

/-- C73: no files, no calibration. -/
theorem C73_rejects_empty (h : a.filenames = [] ∨ a.orientations = []) : prepare fs fit a = .error .valueError := by
  have e : sortedPairs a.orientations a.filenames = [] := by
    unfold sortedPairs
    rcases h with h | h
    · rw [h, List.zip_nil_right]; rfl
    · rw [h]; rfl
  unfold prepare
  split
  · rfl
  · rw [e]

theorem mapM_has_error {α β : Type} {f : α → Py β} {l : List α} {x : α} (hx : x ∈ l) (h : ∀ v, f x ≠ .ok v) :
    ∀ v, l.mapM f ≠ .ok v := by
  induction l with
  | nil => cases hx
  | cons c l ih =>
    intro v hv
    rw [List.mapM_cons] at hv
    obtain ⟨u, hu, hv⟩ := Py.bind_eq_ok.1 hv
    obtain ⟨us, hus, hv⟩ := Py.bind_eq_ok.1 hv
    rcases List.mem_cons.1 hx with rfl | hx
    · exact h u hu
    · exact ih hx us hus

/-- C73, violation: an empty name for the dark is not read but still expected; the calibration always fails. -/
theorem C73_empty_dark_fails (h : a.dark = some []) : ∀ inp, prepare fs fit a ≠ .ok inp := by
  intro inp he
  unfold prepare at he
  split at he
  · cases he
  · split at he
    · cases he
    · rename_i p ps hp
      dsimp only at he
      obtain ⟨_, _, he⟩ := Py.bind_eq_ok.1 he
      obtain ⟨_, _, he⟩ := Py.bind_eq_ok.1 he
      obtain ⟨_, _, he⟩ := Py.bind_eq_ok.1 he
      obtain ⟨dk, hdk, he⟩ := Py.bind_eq_ok.1 he
      obtain ⟨_, _, he⟩ := Py.bind_eq_ok.1 he
      obtain ⟨_, hf, _⟩ := Py.bind_eq_ok.1 he
      have e : dk = none := by
        unfold readDark at hdk
        rw [h] at hdk
        cases hdk
        rfl
      subst e
      refine mapM_has_error (f := fun q : ℝ × Name => readFrame fs a none q.2) (x := p) (by simp) ?_ _ hf
      intro v hv
      unfold readFrame at hv
      rw [h] at hv
      obtain ⟨_, _, hv⟩ := Py.bind_eq_ok.1 hv
      obtain ⟨_, _, hv⟩ := Py.bind_eq_ok.1 hv
      cases hv

/-- C73, violation: a flat can never be used; the documented argument always makes the calibration fail. -/
theorem C73_flat_fails (h : a.flat ≠ none) : ∀ inp, prepare fs fit a ≠ .ok inp := by
  intro inp he
  unfold prepare at he
  split at he
  · cases he
  · split at he
    · cases he
    · rename_i p ps hp
      dsimp only at he
      obtain ⟨_, _, he⟩ := Py.bind_eq_ok.1 he
      obtain ⟨_, _, he⟩ := Py.bind_eq_ok.1 he
      obtain ⟨_, _, he⟩ := Py.bind_eq_ok.1 he
      obtain ⟨dk, _, he⟩ := Py.bind_eq_ok.1 he
      obtain ⟨_, _, he⟩ := Py.bind_eq_ok.1 he
      obtain ⟨_, hf, _⟩ := Py.bind_eq_ok.1 he
      refine mapM_has_error (f := fun q : ℝ × Name => readFrame fs a dk q.2) (x := p) (by simp) ?_ _ hf
      intro v hv
      unfold readFrame at hv
      obtain ⟨_, _, hv⟩ := Py.bind_eq_ok.1 hv
      obtain ⟨_, _, hv⟩ := Py.bind_eq_ok.1 hv
      match hfl : a.flat, h with
      | some n, _ =>
        rw [hfl] at hv
        dsimp only at hv
        split at hv
        · obtain ⟨_, _, hv⟩ := Py.bind_eq_ok.1 hv
          cases hv
        · split at hv
          · obtain ⟨_, _, hv⟩ := Py.bind_eq_ok.1 hv
            cases hv
          · obtain ⟨_, _, hv⟩ := Py.bind_eq_ok.1 hv
            obtain ⟨_, _, hv⟩ := Py.bind_eq_ok.1 hv
            cases hv

/-- C73, violation: with otherwise good files, an existing flat raises `AttributeError` (`np.float` does not exist in the pinned
numpy). -/
theorem C73_flat_attribute_error {flat : Img ℝ} {name : Name} (hne : name ≠ []) (hfs : fs name = some flat)
    (hR : Readable fs { a with flat := none } b H W F D) (hn : a.normS ≠ .missing) (hfl : a.flat = some name) :
    prepare fs fit a = .error .attributeError := by
  obtain ⟨L, hL⟩ := sorted_exists { a with flat := none }
  have hcheck : ¬ (a.normS.IsNone ∧ ¬ allIn normMinus a.orientations ∧ ¬ allIn normPlus a.orientations) := fun h => hn h.1
  obtain ⟨O, hO⟩ := occulterFlag_exists (h := 2 * (H / (2 * b))) (w := 2 * (W / (2 * b))) (by omega) (by omega) a.occulter
    a.binning
  have hlen := hR.length hL
  unfold prepare
  rw [if_neg hcheck]
  have e1 : sortedPairs a.orientations a.filenames = L := (sortedPairs_sorted { a with flat := none }).unique hL
  rw [e1]
  match L, hL, hlen with
  | [], _, hlen => exact absurd (List.eq_nil_of_length_eq_zero hlen.symm) hR.some_file
  | p :: ps, hL, _ =>
    dsimp only
    obtain ⟨h1, h2⟩ := hR.frames p.2 (hR.mem hL (by simp))
    have hop : openFits fs p.2 = .ok (F p.2) := by unfold openFits; rw [h1]
    have hs := famImg_shape (b := b) h2
    have hrb : micropolarrayRebin (F p.2) a.binning = .ok (famImg (F p.2) b) := hR.rebin h2
    have hdk : readDark fs a.dark a.binning = .ok (D.map (fun d => famImg d b)) := readDark_ok (a := { a with flat := none }) hR
    rw [hop, Py.ok_bind, hrb, Py.ok_bind, hs.1, hs.2, hO, Py.ok_bind, hdk, Py.ok_bind]
    have hrf : readFlat fs a.flat = .error .attributeError := by
      rw [hfl]
      match name, hne with
      | c :: cs, _ =>
        unfold readFlat openFits
        dsimp only
        rw [hfs]
        rfl
    rw [hrf]
    rfl

/-- C73, violation: a zero signal is not replaced ("correct S=0 error" tests `>= 0`): the data is divided by zero. -/
theorem C73_zero_signal (hR : Readable fs a b H W F D) (hm : a.normS = .number 0) (hH : 2 * b ≤ H) (hW : 2 * b ≤ W) :
    prepare fs fit a = .error .notFinite := by
  obtain ⟨L, hL⟩ := sorted_exists a
  obtain ⟨O, hO, e⟩ := prepare_reduce (fit := fit) hR hL
    (fun h => by have := h.1; unfold NormArg.IsNone at this; rw [hm] at this; cases this)
  have hb := hR.pos
  have h1 : 0 < 2 * (H / (2 * b)) := by have := Nat.div_pos hH (by omega : 0 < 2 * b); omega
  have h2 : 0 < 2 * (W / (2 * b)) := by have := Nat.div_pos hW (by omega : 0 < 2 * b); omega
  rw [e]
  unfold normPlanes
  rw [hm]
  simp only [Py.pure_eq, Py.ok_bind]
  have hlen := hR.length hL
  have hn : ∃ m, L.length = m + 1 := by
    refine ⟨L.length - 1, ?_⟩
    have : 0 < a.filenames.length := List.length_pos_of_ne_nil hR.some_file
    omega
  obtain ⟨m, hmL⟩ := hn
  rw [hmL, List.range_succ_eq_map, List.mapM_cons]
  obtain ⟨h, hh⟩ : ∃ h, h = 2 * (H / (2 * b)) := ⟨_, rfl⟩
  obtain ⟨w, hw⟩ : ∃ w, w = 2 * (W / (2 * b)) := ⟨_, rfl⟩
  rw [← hh] at h1
  rw [← hw] at h2
  rw [← hh, ← hw]
  rw [getD_map_lt (by omega)]
  unfold normalise
  rw [npInto_ok (by rfl) (by rfl), Py.ok_bind, if_pos]
  · rfl
  · refine ⟨0, 0, h1, h2, ?_⟩
    rw [Img.map_px _ _ (by exact h1) (by exact h2)]
    rw [show (Img.const h w ((0 : ℝ) * ((a.binning : ℝ) * (a.binning : ℝ)))).px 0 0 = 0 * ((a.binning : ℝ) * (a.binning : ℝ))
      from Img.ofFn_px h1 h2]
    simp

/-- C73, violation: the images of a stack are matched with the frames after sorting, not with the files they are listed with: of
two files listed by decreasing orientation, each is divided by the signal of the other. -/
theorem C73_stack_order {n1 n2 : Name} {A1 A2 : Img ℝ} {o1 o2 : ℝ} (ho : o2 < o1) (hf : a.filenames = [n1, n2])
    (hor : a.orientations = [o1, o2]) (hn : a.normS = .series [A1, A2]) (hR : Readable fs a b H W F D)
    (hA1 : A1.HasShape H W) (hA2 : A2.HasShape H W)
    (hpos : ∀ y x, y < 2 * (H / (2 * b)) → x < 2 * (W / (2 * b)) →
      0 < familySum A1 b y x ∧ 0 < familySum A2 b y x ∧ 0 ≤ lit (F n1) D b y x ∧ 0 ≤ lit (F n2) D b y x)
    (hgain : 0 < a.gain) :
    ∃ inp, prepare fs fit a = .ok inp ∧ inp.n = 2 ∧
      ∀ k : Fin inp.n, ∀ y x, y < 2 * (H / (2 * b)) → x < 2 * (W / (2 * b)) →
        (inp.orientations k = o1 → (inp.data k).px y x = lit (F n1) D b y x / familySum A2 b y x) ∧
        (inp.orientations k = o2 → (inp.data k).px y x = lit (F n2) D b y x / familySum A1 b y x) := by
  have hL : SortedList a [(o2, n2), (o1, n1)] := by
    refine ⟨?_, ?_⟩
    · rw [hf, hor]; exact List.Perm.swap _ _ _
    · simp [ho]
  have hat : ∀ {v : ℝ}, 0 < v → atLeast v = v := fun h => by unfold atLeast; rw [if_neg (not_lt.2 h.le)]
  have hS : Prescribes a a.filenames.length b H W (fun k => familySum (if k = 0 then A1 else A2) b) := by
    refine Or.inr (Or.inr ⟨[A1, A2], hn, by rw [hf]; rfl, ?_, ?_⟩)
    · intro A hA
      rcases List.mem_pair.1 hA with rfl | rfl
      · exact hA1
      · exact hA2
    · intro k hk y x hy hx
      obtain ⟨g1, g2, -⟩ := hpos y x hy hx
      rcases (show k = 0 ∨ k = 1 by simp at hk; omega) with rfl | rfl
      · exact ⟨g1.ne', (hat g1).symm⟩
      · exact ⟨g2.ne', (hat g2).symm⟩
  obtain ⟨inp, e1, e2, e3, e4, -, -, -, e5⟩ := C73_frames_partial (fit := fit) hR hS hgain (by
    rw [hf]
    intro n hn y x hy hx
    obtain ⟨-, -, g3, g4⟩ := hpos y x hy hx
    rcases List.mem_pair.1 hn with rfl | rfl
    · exact g3
    · exact g4) hL
  refine ⟨inp, e1, e2, fun k y x hy hx => ?_⟩
  have hk2 : k.val < 2 := lt_of_lt_of_eq k.isLt e2
  obtain ⟨g1, -, -, g2⟩ := e5 k hk2
  obtain ⟨g2, -⟩ := g2 y x (by rw [e3]; exact hy) (by rw [e4]; exact hx)
  rcases (show k.val = 0 ∨ k.val = 1 by omega) with h0 | h0
  · simp only [h0] at g1 g2
    refine ⟨fun h => ?_, fun _ => by rw [g2]; rfl⟩
    rw [g1] at h
    exact absurd h (ne_of_lt ho)
  · simp only [h0] at g1 g2
    refine ⟨fun _ => by rw [g2]; rfl, fun h => ?_⟩
    rw [g1] at h
    exact absurd h (ne_of_gt ho)

/-! ## C76 -/

/-- What `prepare` passes on unchanged. -/
theorem prepare_keeps {inp : ChunkInput} (hp : prepare fs fit a = .ok inp) :
    (inp.previsions = fun k => deg2rad (a.previsions k)) ∧ inp.tkBoundary = a.tkBoundary ∧
      inp.effBoundary = a.effBoundary := by
  unfold prepare at hp
  split at hp
  · cases hp
  · split at hp
    · cases hp
    · dsimp only at hp
      obtain ⟨_, -, hp⟩ := Py.bind_eq_ok.1 hp
      obtain ⟨_, -, hp⟩ := Py.bind_eq_ok.1 hp
      obtain ⟨_, -, hp⟩ := Py.bind_eq_ok.1 hp
      obtain ⟨_, -, hp⟩ := Py.bind_eq_ok.1 hp
      obtain ⟨_, -, hp⟩ := Py.bind_eq_ok.1 hp
      obtain ⟨_, -, hp⟩ := Py.bind_eq_ok.1 hp
      obtain ⟨_, -, hp⟩ := Py.bind_eq_ok.1 hp
      obtain ⟨_, -, hp⟩ := Py.bind_eq_ok.1 hp
      obtain ⟨_, -, hp⟩ := Py.bind_eq_ok.1 hp
      obtain ⟨_, -, hp⟩ := Py.bind_eq_ok.1 hp
      injection hp with hp
      subst hp
      exact ⟨rfl, rfl, rfl⟩

/-- A grid that cuts the image into chunks of whole superpixels. -/
theorem grid_divides {inp : ChunkInput} {ny nx : Nat} {schedule : List Nat} (hny : 0 < ny) (hnx : 0 < nx)
    (h1 : inp.height % (2 * ny) = 0) (h2 : inp.width % (2 * nx) = 0) (hord : schedule.Perm (List.range (ny * nx))) :
    ValidGrid inp ny nx schedule ∧
      ∀ {Y X : Nat}, 2 * Y < inp.height → 2 * X < inp.width → Covered inp ny nx Y X := by
  have key : ∀ {h n : Nat}, 0 < n → h % (2 * n) = 0 → h / n % 2 = 0 ∧ n * (h / n) = h := by
    intro h n hn hh
    obtain ⟨q, rfl⟩ := Nat.dvd_of_mod_eq_zero hh
    rw [show 2 * n * q = n * (2 * q) by ring, Nat.mul_div_cancel_left _ hn]
    exact ⟨by omega, rfl⟩
  refine ⟨⟨hny, hnx, (key hny h1).1, (key hnx h2).1, hord⟩, fun hY hX => ?_⟩
  unfold Covered
  rw [(key hny h1).2, (key hnx h2).2]
  exact ⟨hY, hX⟩


theorem pyInt_div (n : Nat) {b : Nat} (hb : 1 ≤ b) : pyInt ((n : ℝ) / (b : ℝ)) = ((n / b : Nat) : ℤ) := by
  have hb' : (0 : ℝ) < b := by exact_mod_cast hb
  refine (trunc_unique ?_ (pyInt_trunc _)).symm
  have h0 : (0 : ℝ) ≤ (n : ℝ) / b := by positivity
  have h1 : (0 : ℝ) ≤ (((n / b : Nat) : ℤ) : ℝ) := by positivity
  refine ⟨?_, ?_, mul_nonneg h1 h0⟩
  · rw [abs_of_nonneg h0, abs_of_nonneg h1]
    exact_mod_cast Nat.cast_div_le
  · rw [abs_of_nonneg h0, abs_of_nonneg h1, div_lt_iff₀ hb']
    have : n < (n / b + 1) * b := by
      have := Nat.lt_div_mul_add (a := n) (b := b) (by omega)
      rw [Nat.add_mul, Nat.one_mul]
      exact this
    exact_mod_cast this

theorem circle_iff (cy cx r Y X : Nat) :
    InRegion ((cy : ℝ), (cx : ℝ)) ((0 : ℝ), (r : ℝ)) (0, 360) (Y : ℝ) (X : ℝ) ↔
      ((Y : ℤ) - cy) ^ 2 + ((X : ℤ) - cx) ^ 2 ≤ (r : ℤ) ^ 2 ∧ ¬ (Y = cy ∧ X = cx) := by
  rw [region_iff]
  dsimp only
  obtain ⟨g1, g2⟩ := pyMod_range (Complex.arg ⟨(X : ℝ) - cx, (Y : ℝ) - cy⟩ * 180 / Real.pi + 360) (b := 360) (by norm_num)
  have hc : (((Y : ℤ) - cy) ^ 2 + ((X : ℤ) - cx) ^ 2 ≤ (r : ℤ) ^ 2) ↔
      ((X : ℝ) - cx) ^ 2 + ((Y : ℝ) - cy) ^ 2 ≤ (r : ℝ) ^ 2 := by
    rw [add_comm]
    exact_mod_cast Iff.rfl
  have hz : ((X : ℝ) - cx) ^ 2 + ((Y : ℝ) - cy) ^ 2 > 0 ↔ ¬ (Y = cy ∧ X = cx) := by
    constructor
    · rintro h ⟨rfl, rfl⟩
      simp at h
    · intro h
      by_contra hn
      have e1 : ((X : ℝ) - cx) ^ 2 = 0 := le_antisymm (by nlinarith [sq_nonneg ((Y : ℝ) - cy)]) (sq_nonneg _)
      have e2 : ((Y : ℝ) - cy) ^ 2 = 0 := le_antisymm (by nlinarith [sq_nonneg ((X : ℝ) - cx)]) (sq_nonneg _)
      rw [sq_eq_zero_iff, sub_eq_zero] at e1 e2
      exact h ⟨by exact_mod_cast e2, by exact_mod_cast e1⟩
  rw [hc, ← hz, gt_iff_lt, Real.sqrt_pos, Real.sqrt_le_left (by positivity)]
  constructor
  · rintro ⟨⟨h1, h2⟩, -⟩
    exact ⟨h2, h1⟩
  · rintro ⟨h1, h2⟩
    exact ⟨⟨h2, h1⟩, g1, g2⟩

/-- Success of `prepare` for readable files, whatever the normalisation. -/
theorem prepare_occulter (hR : Readable fs a b H W F D) {inp : ChunkInput} (hp : prepare fs fit a = .ok inp) :
    occulterFlag (2 * (H / (2 * b))) (2 * (W / (2 * b))) a.occulter a.binning = .ok inp.occulter ∧
      inp.height = 2 * (H / (2 * b)) ∧ inp.width = 2 * (W / (2 * b)) := by
  obtain ⟨L, hL⟩ := sorted_exists a
  by_cases hc : a.normS.IsNone ∧ ¬ allIn normMinus a.orientations ∧ ¬ allIn normPlus a.orientations
  · unfold prepare at hp
    rw [if_pos hc] at hp
    cases hp
  · obtain ⟨O, hO, e⟩ := prepare_reduce (fit := fit) hR hL hc
    rw [e] at hp
    obtain ⟨_, -, hp⟩ := Py.bind_eq_ok.1 hp
    obtain ⟨_, -, hp⟩ := Py.bind_eq_ok.1 hp
    obtain ⟨_, -, hp⟩ := Py.bind_eq_ok.1 hp
    injection hp with hp
    subst hp
    exact ⟨hO, rfl, rfl⟩

/-- C76 (partial: the superpixel at the centre itself is missed, see `C76_centre_missed`): the superpixels treated as occulted are
exactly those, other than the centre, whose distance from the centre of the occulter is at most its radius; centre and radius are
those of the unbinned image (in pixels), divided by the binning and then by two, without fractional parts. -/
theorem C76_occulted_partial (hR : Readable fs a b H W F D) {oy ox r : Nat}
    (ho : a.occulter = some ((oy : ℝ), (ox : ℝ), (r : ℝ))) {inp : ChunkInput} (hp : prepare fs fit a = .ok inp)
    {Y X : Nat} (hY : Y < H / (2 * b)) (hX : X < W / (2 * b)) :
    Occulted inp Y X ↔
      ((Y : ℤ) - (oy / b / 2 : Nat)) ^ 2 + ((X : ℤ) - (ox / b / 2 : Nat)) ^ 2 ≤ ((r / b / 2 : Nat) : ℤ) ^ 2 ∧
      ¬ (Y = oy / b / 2 ∧ X = ox / b / 2) := by
  obtain ⟨hO, -, -⟩ := prepare_occulter hR hp
  rw [ho, occulterFlag_ok (by omega) (by omega), hR.binning] at hO
  have e : ∀ n : Nat, pyInt (((pyInt ((n : ℝ) / ((b : ℤ) : ℝ)) : ℤ) : ℝ) / 2) = ((n / b / 2 : Nat) : ℤ) := by
    intro n
    rw [Int.cast_natCast, pyInt_div n hR.pos]
    exact pyInt_div (n / b) (b := 2) (by norm_num)
  rw [e, e, e] at hO
  injection hO with hO
  rw [← circle_iff]
  unfold Occulted
  have hpx : ∀ k : Fin 4, inp.occulter.px (rowOf Y k) (colOf X k) =
      if InRegion (((oy / b / 2 : Nat) : ℝ), ((ox / b / 2 : Nat) : ℝ)) ((0 : ℝ), ((r / b / 2 : Nat) : ℝ)) (0, 360)
        (Y : ℝ) (X : ℝ) then 1 else 0 := by
    intro k
    have hk := k.isLt
    rw [← hO, Img.ofFn_px (by unfold rowOf; omega) (by unfold colOf; omega),
      show rowOf Y k / 2 = Y by unfold rowOf; omega, show colOf X k / 2 = X by unfold colOf; omega]
    simp only [Int.cast_natCast]
  constructor
  · rintro ⟨k, hk⟩
    rw [hpx k] at hk
    by_contra hc
    rw [if_neg hc] at hk
    exact hk rfl
  · intro h
    refine ⟨0, ?_⟩
    rw [hpx 0, if_pos h]
    norm_num

/-- C76: without an occulter nothing is occulted. -/
theorem C76_no_occulter (hR : Readable fs a b H W F D) (ho : a.occulter = none) {inp : ChunkInput}
    (hp : prepare fs fit a = .ok inp) {Y X : Nat} (hY : Y < H / (2 * b)) (hX : X < W / (2 * b)) : ¬ Occulted inp Y X := by
  obtain ⟨hO, -, -⟩ := prepare_occulter hR hp
  rw [ho] at hO
  injection hO with hO
  rintro ⟨k, hk⟩
  apply hk
  have := k.isLt
  rw [← hO]
  exact Img.ofFn_px (by unfold rowOf; omega) (by unfold colOf; omega)

/-- C76, violation: the superpixel at the centre of the occulter, however large, is not treated as occulted. -/
theorem C76_centre_missed (hR : Readable fs a b H W F D) {oy ox r : Nat}
    (ho : a.occulter = some ((oy : ℝ), (ox : ℝ), (r : ℝ))) {inp : ChunkInput} (hp : prepare fs fit a = .ok inp)
    (hY : oy / b / 2 < H / (2 * b)) (hX : ox / b / 2 < W / (2 * b)) : ¬ Occulted inp (oy / b / 2) (ox / b / 2) := by
  rw [C76_occulted_partial hR ho hp hY hX]
  exact fun h => h.2 ⟨rfl, rfl⟩

/-- C76: behind the occulter the calibration stores the ideal matrix, the flag 0 and the predicted parameters, whatever the frames
contain there. -/
theorem C76_ideal_behind (hR : Readable fs a b H W F D) {oy ox r : Nat}
    (ho : a.occulter = some ((oy : ℝ), (ox : ℝ), (r : ℝ))) {env : CalibEnv} {ny nx : Nat} {schedule : List Nat}
    (hny : 0 < ny) (hnx : 0 < nx) (h1 : 2 * (H / (2 * b)) % (2 * ny) = 0) (h2 : 2 * (W / (2 * b)) % (2 * nx) = 0)
    (hord : schedule.Perm (List.range (ny * nx))) {maps : CalibMaps}
    (hm : calculateDemodulationTensor fs fit env a ny nx schedule = .ok maps)
    {Y X : Nat} (hY : Y < H / (2 * b)) (hX : X < W / (2 * b))
    (hin : ((Y : ℤ) - (oy / b / 2 : Nat)) ^ 2 + ((X : ℤ) - (ox / b / 2 : Nat)) ^ 2 ≤ ((r / b / 2 : Nat) : ℤ) ^ 2)
    (hne : ¬ (Y = oy / b / 2 ∧ X = ox / b / 2)) :
    (∀ i j, (maps.mij i j).px Y X = env.pinv (idealMatrix (fun k => a.previsions k * Real.pi / 180)) i j) ∧
    maps.fitFound.px Y X = 0 ∧
    ∀ k, maps.tk.px (rowOf Y k) (colOf X k) = boundsOr a.tkBoundary 0 ∧
      maps.eff.px (rowOf Y k) (colOf X k) = boundsOr a.effBoundary 0 ∧
      maps.phase.px (rowOf Y k) (colOf X k) = a.previsions k := by
  unfold calculateDemodulationTensor at hm
  obtain ⟨inp, hp, hm⟩ := Py.bind_eq_ok.1 hm
  obtain ⟨-, e1, e2⟩ := prepare_occulter hR hp
  obtain ⟨hg, hc⟩ := grid_divides (inp := inp) hny hnx (by rw [e1]; exact h1) (by rw [e2]; exact h2) hord
  obtain ⟨k1, k2, k3⟩ := prepare_keeps hp
  have hcov := hc (Y := Y) (X := X) (by rw [e1]; omega) (by rw [e2]; omega)
  obtain ⟨m1, m2, m3⟩ := C33_fallback hg hm hcov (Or.inl ((C76_occulted_partial hR ho hp hY hX).2 ⟨hin, hne⟩))
  have e3 : inp.previsions = fun k => a.previsions k * Real.pi / 180 := by
    rw [k1]
    funext k
    unfold deg2rad
    ring
  rw [e3] at m1 m3
  rw [k2, k3] at m3
  refine ⟨m1, m2, fun k => ?_⟩
  obtain ⟨q1, q2, q3⟩ := m3 k
  refine ⟨q1, q2, ?_⟩
  rw [q3]
  have := Real.pi_ne_zero
  field_simp

end

end

end Micropol

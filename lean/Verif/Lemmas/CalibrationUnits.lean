import Verif.Spec.CalibrationUnits
import Verif.Lemmas.UnitsData
import Verif.Lemmas.Normalisation
import Verif.Lemmas.LightData

/-! # The preparation of calibration frames in another unit -/

set_option autoImplicit false
set_option linter.unusedSectionVars false

namespace Micropol

noncomputable section

open Classical

theorem PyRel.mapM {α β γ : Type} {R : β → γ → Prop} {f : α → Py β} {g : α → Py γ} :
    ∀ (l : List α), (∀ a ∈ l, PyRel R (f a) (g a)) → PyRel (List.Forall₂ R) (l.mapM f) (l.mapM g)
  | [], _ => List.Forall₂.nil
  | a :: l, h => by
    rw [List.mapM_cons, List.mapM_cons]
    refine PyRel.bind (h a (by simp)) fun u v huv => PyRel.bind (PyRel.mapM l fun b hb => h b (by simp [hb])) fun us vs hs => ?_
    exact List.Forall₂.cons huv hs

theorem PyRel.mapM₂ {α α' β γ : Type} {Q : α → α' → Prop} {R : β → γ → Prop} {f : α → Py β} {g : α' → Py γ}
    (h : ∀ a a', Q a a' → PyRel R (f a) (g a')) :
    ∀ {l : List α} {l' : List α'}, List.Forall₂ Q l l' → PyRel (List.Forall₂ R) (l.mapM f) (l'.mapM g)
  | _, _, .nil => List.Forall₂.nil
  | _, _, .cons hq hl => by
    rw [List.mapM_cons, List.mapM_cons]
    exact PyRel.bind (h _ _ hq) fun u v huv => PyRel.bind (PyRel.mapM₂ h hl) fun us vs hs => List.Forall₂.cons huv hs

theorem forall₂_getD {α β : Type} {R : α → β → Prop} {d : α} {d' : β} (hd : R d d') :
    ∀ {l : List α} {l' : List β}, List.Forall₂ R l l' → ∀ k, R (l.getD k d) (l'.getD k d')
  | _, _, .nil, _ => by simpa using hd
  | _, _, .cons h _, 0 => by simpa using h
  | _, _, .cons _ hl, k + 1 => by simpa using forall₂_getD hd hl k

theorem forall₂_eq {α : Type} {l l' : List α} (h : List.Forall₂ Eq l l') : l = l' := by
  induction h with
  | nil => rfl
  | cons h _ ih => rw [h, ih]

variable {c : ℝ} {fs : Name → Option (Img ℝ)} {fit : GaussFit} {a : CalibArgs}

theorem Sca.one {A B : Img ℝ} (h : Sca 1 A B) : A = B :=
  Img.ext_px h.h.symm h.w.symm fun y x _ _ => by rw [h.px, one_mul]

theorem sca_npInto {p q r : ℝ} {A A' B B' : Img ℝ} {f g : ℝ → ℝ → ℝ} (hf : ∀ u v, g (p * u) (q * v) = r * f u v)
    (hA : Sca p A A') (hB : Sca q B B') : PyRel (Sca r) (npInto f A B) (npInto g A' B') := by
  unfold npInto npBin
  refine PyRel.bind (sca_npBinAt (fun _ _ => hf) hA hB) fun R R' hR => ?_
  rw [hR.h, hR.w, hA.h, hA.w]
  split
  · exact hR
  · rfl

theorem sca_openFits (n : Name) : PyRel (Sca c) (openFits fs n) (openFits (filesInUnit c fs) n) := by
  unfold openFits filesInUnit
  cases fs n with
  | none => rfl
  | some A => exact sca_map A

/-- Both without an array, or with related arrays. -/
def ScaOpt (c : ℝ) : Option (Img ℝ) → Option (Img ℝ) → Prop
  | none, none => True
  | some A, some B => Sca c A B
  | _, _ => False

theorem sca_readDark (d : Option Name) (b : Int) : PyRel (ScaOpt c) (readDark fs d b) (readDark (filesInUnit c fs) d b) := by
  unfold readDark
  split
  · trivial
  · trivial
  · exact PyRel.bind (sca_openFits _) fun A B hA => PyRel.bind (sca_rebin hA b) fun A B hA => hA

theorem sca_readFrame (hc : 0 < c) {D D' : Option (Img ℝ)} (hD : ScaOpt c D D') (n : Name) :
    PyRel (Sca c) (readFrame fs a D n) (readFrame (filesInUnit c fs) (argsInUnit c a) D' n) := by
  unfold readFrame
  refine PyRel.bind (sca_openFits n) fun A B hA => PyRel.bind (sca_rebin hA a.binning) fun A B hA => ?_
  have hclamp : ∀ v : ℝ, (if c * v ≥ 0 then c * v else 0) = c * (if v ≥ 0 then v else 0) := by
    intro v
    by_cases hv : v ≥ 0
    · rw [if_pos hv, if_pos (mul_nonneg hc.le hv)]
    · rw [if_neg hv, if_neg (by have := mul_neg_of_pos_of_neg hc (not_le.1 hv); exact not_le.2 this), mul_zero]
  have hlast : ∀ A B : Img ℝ, Sca c A B → PyRel (Sca c) (match a.flat with | none => pure A | some _ => .error .unboundLocalError)
      (match a.flat with | none => pure B | some _ => .error .unboundLocalError) := by
    intro A B hA
    cases a.flat with
    | none => exact hA
    | some _ => rfl
  dsimp only [argsInUnit]
  cases a.dark with
  | none => exact hlast A B hA
  | some m =>
    dsimp only
    match D, D', hD with
    | none, none, _ => rfl
    | some E, some E', hE =>
      dsimp only
      exact PyRel.bind (sca_npInto (r := c) (fun u v => by ring) hA hE) fun R R' hR => hlast _ _ (hR.map hclamp)

theorem sca_stack {L L' : List (Img ℝ)} (hL : List.Forall₂ (Sca c) L L') (h w : Nat) :
    PyRel (List.Forall₂ (Sca c)) (stackFrames L h w) (stackFrames L' h w) := by
  have hiff : (∀ A ∈ L, A.h = h ∧ A.w = w) ↔ ∀ A ∈ L', A.h = h ∧ A.w = w := by
    induction hL with
    | nil => simp
    | cons hA _ ih => simp only [List.forall_mem_cons, ih, hA.h, hA.w]
  unfold stackFrames
  by_cases hs : ∀ A ∈ L, A.h = h ∧ A.w = w
  · rw [if_pos hs, if_pos (hiff.1 hs)]
    exact hL
  · rw [if_neg hs, if_neg (fun k => hs (hiff.2 k))]
    rfl

/-! ## Prescribed signals -/

/-- Related arrays without negative pixels. -/
def Scp (c : ℝ) (A B : Img ℝ) : Prop := Sca c A B ∧ ∀ y x, 0 ≤ A.px y x

theorem PyRel.withOk {α β : Type} {R : α → β → Prop} {P : α → Prop} {x : Py α} {y : Py β} (h : PyRel R x y) (hx : OkP P x) :
    PyRel (fun u v => R u v ∧ P u) x y := by
  cases x with
  | error e =>
    cases y with
    | error e' => exact h
    | ok b => cases h
  | ok a =>
    cases y with
    | error e' => cases h
    | ok b => exact ⟨h, hx a rfl⟩

theorem scp_rebin {A B : Img ℝ} (hA : Scp c A B) (b : Int) : PyRel (Scp c) (micropolarrayRebin A b) (micropolarrayRebin B b) :=
  (sca_rebin hA.1 b).withOk (ok_rebin hA.2 b)

theorem Scp.clean {A B : Img ℝ} (hA : Scp c A B) (hc : 0 < c) :
    Sca c (A.map fun v => if v ≥ 0 then v else 1) (B.map fun v => if v ≥ 0 then v else 1) := by
  refine Sca.ofFn' hA.1.h hA.1.w fun y x _ _ => ?_
  show (if _ then _ else _) = c * (if _ then _ else _)
  rw [hA.1.px, if_pos (hA.2 y x), if_pos (mul_nonneg hc.le (hA.2 y x))]

theorem Scp.const {s : ℝ} (hs : 0 ≤ s) (h w : Nat) : Scp c (Img.const h w s) (Img.const h w (c * s)) := by
  refine ⟨Sca.const rfl, fun y x => ?_⟩
  rw [Img.const, Img.ofFn_px']
  split
  · exact hs
  · exact le_rfl

/-- The planes of the normalising signal, in the two units. -/
def ScPlanes (c : ℝ) (P Q : Nat → Img ℝ) : Prop := ∀ k, Sca c (P k) (Q k)

theorem sca_planes (hc : 0 < c) (hn : PrescribedNonneg a.normS) (ors : List ℝ) (h w : Nat) {L L' : List (Img ℝ)}
    (hL : List.Forall₂ (Sca c) L L') :
    PyRel (ScPlanes c) (normPlanes fit a ors h w L) (normPlanes fit (argsInUnit c a) ors h w L') := by
  have hfin : ∀ P Q : Nat → Img ℝ, (∀ k, Scp c (P k) (Q k)) → ScPlanes c (fun k => (P k).map fun v => if v ≥ 0 then v else 1)
      (fun k => (Q k).map fun v => if v ≥ 0 then v else 1) := fun P Q hPQ k => (hPQ k).clean hc
  unfold normPlanes
  dsimp only [argsInUnit]
  cases hs : a.normS with
  | missing => rw [hs] at hn; exact hn.elim
  | number s =>
    rw [hs] at hn
    dsimp only [signalInUnit]
    refine hfin _ _ fun k => ?_
    rw [mul_assoc c]
    exact Scp.const (mul_nonneg hn (mul_self_nonneg _)) h w
  | image A =>
    rw [hs] at hn
    dsimp only [signalInUnit]
    exact PyRel.bind (scp_rebin ⟨sca_map A, hn⟩ a.binning) fun A B hA => hfin _ _ fun _ => hA
  | series M =>
    rw [hs] at hn
    dsimp only [signalInUnit]
    have hM : List.Forall₂ (Scp c) M (M.map (inUnit c)) := by
      have hn : ∀ A ∈ M, ∀ y x, 0 ≤ A.px y x := hn
      clear hs
      clear * - hn
      induction M with
      | nil => exact .nil
      | cons A M ih => exact .cons ⟨sca_map A, hn A (by simp)⟩ (ih fun B hB => hn B (by simp [hB]))
    refine PyRel.bind (PyRel.mapM₂ (f := fun A => micropolarrayRebin A a.binning) (g := fun A => micropolarrayRebin A a.binning)
      (fun A B hA => scp_rebin hA a.binning) hM) fun K K' hK => ?_
    have hz : Scp c (Img.zeros 0 0) (Img.zeros 0 0) := ⟨Sca.zeros 0 0, lit_zeros⟩
    rw [← hK.length_eq, ← hL.length_eq]
    split
    · exact hfin _ _ fun k => forall₂_getD hz hK k
    · split
      · exact hfin _ _ fun _ => forall₂_getD hz hK 0
      · rfl

/-! ## Normalised data and errors -/

theorem sca_normalise (hc : 0 < c) {A A' S S' : Img ℝ} (hA : Sca c A A') (hS : Sca c S S') : normalise A S = normalise A' S' := by
  refine PyRel.eq ?_
  unfold normalise
  refine PyRel.bind (sca_npInto (r := 1) (fun u v => by rw [one_mul, mul_div_mul_left _ _ hc.ne']) hA hS) fun R R' hR => ?_
  have hR := hR.one
  subst hR
  simp only [hS.h, hS.w, hS.px, mul_eq_zero, hc.ne', false_or]
  split <;> rfl

theorem sca_frameError (hc : 0 < c) (g : ℝ) (A : Img ℝ) {S S' : Img ℝ} (hS : Sca c S S') :
    frameError g A S = frameError (g / c) A S' := by
  refine PyRel.eq ?_
  unfold frameError
  have hA : Sca 1 A A := ⟨rfl, rfl, fun _ _ => (one_mul _).symm⟩
  refine PyRel.bind (sca_npInto (r := 1) (fun u v => ?_) hA hS) fun R R' hR => ?_
  · rw [one_mul, one_mul, show c * v * (g / c) = v * g by field_simp]
  · have hR := hR.one
    subst hR
    simp only [div_eq_zero_iff, hc.ne', or_false]
    split <;> rfl

/-- The last part of the preparation does not depend on the unit. -/
theorem tail_unit (hc : 0 < c) (g : ℝ) (n : Nat) {L L' : List (Img ℝ)} (hL : List.Forall₂ (Sca c) L L') {P Q : Nat → Img ℝ}
    (hP : ScPlanes c P Q) {α : Type} (f : List (Img ℝ) → List (Img ℝ) → Py α) :
    ((List.range n).mapM (fun k => normalise (L.getD k (Img.zeros 0 0)) (P k)) >>= fun data =>
      (List.range n).mapM (fun k => frameError g (data.getD k (Img.zeros 0 0)) (P k)) >>= fun errors => f data errors) =
    ((List.range n).mapM (fun k => normalise (L'.getD k (Img.zeros 0 0)) (Q k)) >>= fun data =>
      (List.range n).mapM (fun k => frameError (g / c) (data.getD k (Img.zeros 0 0)) (Q k)) >>= fun errors => f data errors) := by
  have h1 : (fun k => normalise (L.getD k (Img.zeros 0 0)) (P k)) = fun k => normalise (L'.getD k (Img.zeros 0 0)) (Q k) :=
    funext fun k => sca_normalise hc (forall₂_getD (Sca.zeros 0 0) hL k) (hP k)
  have h2 : ∀ data : List (Img ℝ), (fun k => frameError g (data.getD k (Img.zeros 0 0)) (P k)) =
      fun k => frameError (g / c) (data.getD k (Img.zeros 0 0)) (Q k) :=
    fun data => funext fun k => sca_frameError hc g _ (hP k)
  rw [h1]
  simp only [h2]

theorem readFlat_unit (f : Option Name) : readFlat fs f = readFlat (filesInUnit c fs) f := by
  unfold readFlat openFits filesInUnit
  split
  · rfl
  · rfl
  · cases fs _ <;> rfl

theorem prepare_unit (hc : 0 < c) (hn : PrescribedNonneg a.normS) :
    prepare fs fit a = prepare (filesInUnit c fs) fit (argsInUnit c a) := by
  have hne : a.normS ≠ .missing := by
    intro h
    rw [h] at hn
    exact hn
  have hne' : (argsInUnit c a).normS ≠ .missing := by
    intro h
    apply hne
    revert h
    show signalInUnit c a.normS = .missing → _
    cases a.normS <;> simp [signalInUnit]
  unfold prepare
  rw [if_neg (fun h => hne h.1), if_neg (fun h => hne' h.1)]
  show _ = (match sortedPairs a.orientations a.filenames with | [] => _ | p :: ps => _)
  cases sortedPairs a.orientations a.filenames with
  | nil => rfl
  | cons p ps =>
    refine PyRel.eq (PyRel.bind (sca_openFits p.2) fun A B hA => PyRel.bind (sca_rebin hA a.binning) fun A B hA => ?_)
    rw [hA.h, hA.w]
    refine PyRel.binds fun occ => PyRel.bind (sca_readDark a.dark a.binning) fun D D' hD => ?_
    rw [readFlat_unit (c := c)]
    refine PyRel.binds fun _ => ?_
    refine PyRel.bind (PyRel.mapM (p :: ps) fun q _ => sca_readFrame hc hD q.2) fun L L' hL => ?_
    refine PyRel.bind (sca_stack hL A.h A.w) fun L L' hL => ?_
    refine PyRel.bind (sca_planes hc hn _ A.h A.w hL) fun P Q hP => ?_
    rw [tail_unit hc a.gain (p :: ps).length hL hP]
    exact PyRel.refl _

/-! ## Estimated signals -/

theorem pixelList_unit {A B : Img ℝ} (hA : Sca c A B) : pixelList B = (pixelList A).map (c * ·) := by
  unfold pixelList
  rw [hA.h, hA.w, List.map_flatMap]
  simp only [List.map_map, hA.px]
  rfl

theorem foldl_unit {op : ℝ → ℝ → ℝ} (hop : ∀ u v, op (c * u) (c * v) = c * op u v) :
    ∀ (l : List ℝ) (p : ℝ), (l.map (c * ·)).foldl op (c * p) = c * l.foldl op p
  | [], _ => rfl
  | v :: l, p => by
    rw [List.map_cons, List.foldl_cons, List.foldl_cons, hop, foldl_unit hop l]

theorem histRange_unit (hc : 0 < c) {l : List ℝ} (hne : ∃ u ∈ l, ∃ v ∈ l, u ≠ v) :
    histRange (l.map (c * ·)) = (c * (histRange l).1, c * (histRange l).2) := by
  cases l with
  | nil => obtain ⟨u, hu, _⟩ := hne; cases hu
  | cons p l =>
    have hmin := foldl_unit (c := c) (op := min) (fun u v => (mul_min_of_nonneg u v hc.le).symm) l p
    have hmax := foldl_unit (c := c) (op := max) (fun u v => (mul_max_of_nonneg u v hc.le).symm) l p
    have hlo : ∀ (l : List ℝ) (p : ℝ), l.foldl min p ≤ p ∧ ∀ v ∈ l, l.foldl min p ≤ v := by
      intro l
      induction l with
      | nil => intro p; exact ⟨le_rfl, by simp⟩
      | cons v l ih =>
        intro p
        obtain ⟨h1, h2⟩ := ih (min p v)
        refine ⟨h1.trans (min_le_left _ _), fun u hu => ?_⟩
        rcases List.mem_cons.1 hu with rfl | hu
        · exact h1.trans (min_le_right _ _)
        · exact h2 u hu
    have hhi : ∀ (l : List ℝ) (p : ℝ), p ≤ l.foldl max p ∧ ∀ v ∈ l, v ≤ l.foldl max p := by
      intro l
      induction l with
      | nil => intro p; exact ⟨le_rfl, by simp⟩
      | cons v l ih =>
        intro p
        obtain ⟨h1, h2⟩ := ih (max p v)
        refine ⟨(le_max_left _ _).trans h1, fun u hu => ?_⟩
        rcases List.mem_cons.1 hu with rfl | hu
        · exact (le_max_right _ _).trans h1
        · exact h2 u hu
    have hlt : l.foldl min p ≠ l.foldl max p := by
      intro he
      obtain ⟨u, hu, v, hv, huv⟩ := hne
      have all : ∀ t ∈ p :: l, t = l.foldl min p := by
        intro t ht
        rcases List.mem_cons.1 ht with rfl | ht
        · exact le_antisymm (((hhi l t).1).trans he.ge) (hlo l t).1
        · exact le_antisymm (((hhi l p).2 t ht).trans he.ge) ((hlo l p).2 t ht)
      exact huv ((all u hu).trans (all v hv).symm)
    rw [List.map_cons]
    unfold histRange
    dsimp only
    rw [hmin, hmax, if_neg hlt, if_neg (fun h => hlt (mul_left_cancel₀ hc.ne' h))]

theorem histEdge_unit (hc : 0 < c) {l : List ℝ} (hne : ∃ u ∈ l, ∃ v ∈ l, u ≠ v) (i : Nat) :
    histEdge (l.map (c * ·)) i = c * histEdge l i := by
  unfold histEdge
  rw [histRange_unit hc hne]
  ring

theorem histCount_unit (hc : 0 < c) {l : List ℝ} (hne : ∃ u ∈ l, ∃ v ∈ l, u ≠ v) (i : Nat) :
    histCount (l.map (c * ·)) i = histCount l i := by
  unfold histCount
  rw [histEdge_unit hc hne, histEdge_unit hc hne, List.countP_map]
  congr 1
  funext v
  simp only [Function.comp, mul_le_mul_iff_right₀ hc, mul_lt_mul_iff_right₀ hc]

theorem peakBin_unit (hc : 0 < c) {l : List ℝ} (hne : ∃ u ∈ l, ∃ v ∈ l, u ≠ v) : peakBin (l.map (c * ·)) = peakBin l := by
  unfold peakBin
  simp only [histCount_unit hc hne]

theorem pySlice_map {α β : Type} (f : α → β) (l : List α) (i j : Int) : pySlice (l.map f) i j = (pySlice l i j).map f := by
  unfold pySlice
  simp only [List.length_map, List.map_drop, List.map_take]

/-- What is done with the slices of the histogram. -/
def peakFit (fit : GaussFit) (xs ys : List ℝ) : Py ℝ := do
  let y0 ← match ys[ys.length / 2]? with
    | some v => pure v
    | none => .error .indexError
  let x0 ← match xs[xs.length / 2]? with
    | some v => pure v
    | none => .error .indexError
  let x1 ← match xs[xs.length / 2 + 5]? with
    | some v => pure v
    | none => .error .indexError
  if xs.length ≠ ys.length then .error .valueError
  else match fit xs ys ![y0, x0, x1 - x0] with
    | none => .error .runtimeError
    | some p => pure (p 1 + 4 * p 2)

/-- Bin centres from left edges. -/
def midBins (xs : List ℝ) : List ℝ := xs.map fun v => v + (xs.getD 1 0 - xs.getD 0 0) / 2

theorem gaussPeak_eq (fit : GaussFit) (A : Img ℝ) : gaussPeak fit A =
    peakFit fit (midBins (pySlice ((List.range 1001).map (histEdge (pixelList A))) ((peakBin (pixelList A) : Int) - 10)
        ((peakBin (pixelList A) : Int) + 10)))
      ((pySlice ((List.range 1000).map fun i => (histCount (pixelList A) i : ℝ)) ((peakBin (pixelList A) : Int) - 10)
        ((peakBin (pixelList A) : Int) + 10)).map fun v => v /
          (pySlice ((List.range 1000).map fun i => (histCount (pixelList A) i : ℝ)) ((peakBin (pixelList A) : Int) - 10)
            ((peakBin (pixelList A) : Int) + 10)).sum) := by
  unfold gaussPeak peakFit midBins
  generalize List.range 1001 = r
  generalize List.range 1000 = t
  dsimp only
  generalize pySlice (List.map (histEdge (pixelList A)) r) _ _ = xs
  generalize pySlice (List.map (fun i => (histCount (pixelList A) i : ℝ)) t) _ _ = ys
  generalize List.map (fun v => v + (xs.getD 1 0 - xs.getD 0 0) / 2) xs = ws
  generalize List.map (fun v => v / ys.sum) ys = zs
  cases zs[zs.length / 2]? with
  | none => rfl
  | some y0 =>
    cases ws[ws.length / 2]? with
    | none => rfl
    | some x0 => cases ws[ws.length / 2 + 5]? <;> rfl

theorem midBins_unit (xs : List ℝ) : midBins (xs.map (c * ·)) = (midBins xs).map (c * ·) := by
  have hg : ∀ i, (xs.map (c * ·)).getD i 0 = c * xs.getD i 0 := by
    intro i
    rw [List.getD_eq_getElem?_getD, List.getD_eq_getElem?_getD, List.getElem?_map]
    cases xs[i]? with
    | none => simp
    | some v => rfl
  unfold midBins
  rw [hg, hg, List.map_map, List.map_map]
  refine List.map_congr_left fun v _ => ?_
  show c * v + (c * xs.getD 1 0 - c * xs.getD 0 0) / 2 = c * (v + (xs.getD 1 0 - xs.getD 0 0) / 2)
  ring

theorem peakFit_unit (hfit : FitUnitFree c fit) (ws zs : List ℝ) :
    PyRel (ScN c) (peakFit fit ws zs) (peakFit fit (ws.map (c * ·)) zs) := by
  unfold peakFit
  simp only [List.length_map, List.getElem?_map]
  cases zs[zs.length / 2]? with
  | none => rfl
  | some y0 =>
    cases ws[ws.length / 2]? with
    | none => rfl
    | some x0 =>
      cases ws[ws.length / 2 + 5]? with
      | none => rfl
      | some x1 =>
        simp only [Option.map_some, Py.pure_eq, Py.ok_bind]
        split
        · rfl
        · rw [show c * x1 - c * x0 = c * (x1 - x0) by ring, hfit]
          cases fit ws zs ![y0, x0, x1 - x0] with
          | none => rfl
          | some p =>
            show c * p 1 + 4 * (c * p 2) = c * (p 1 + 4 * p 2)
            ring

theorem peakFit_nonneg (hfit : FitNonneg fit) (ws zs : List ℝ) : OkP (0 ≤ ·) (peakFit fit ws zs) := by
  unfold peakFit
  cases zs[zs.length / 2]? with
  | none => exact OkP.error
  | some y0 =>
    cases ws[ws.length / 2]? with
    | none => exact OkP.error
    | some x0 =>
      cases ws[ws.length / 2 + 5]? with
      | none => exact OkP.error
      | some x1 =>
        simp only [Py.pure_eq, Py.ok_bind]
        split
        · exact OkP.error
        · cases hf : fit ws zs ![y0, x0, x1 - x0] with
          | none => exact OkP.error
          | some p => exact OkP.ok (hfit _ _ _ _ hf)

theorem gaussPeak_unit (hc : 0 < c) (hfit : FitUnitFree c fit) {A B : Img ℝ} (hA : Sca c A B)
    (hne : ∃ y x y' x', (y < A.h ∧ x < A.w) ∧ (y' < A.h ∧ x' < A.w) ∧ A.px y x ≠ A.px y' x') :
    PyRel (ScN c) (gaussPeak fit A) (gaussPeak fit B) := by
  have hl : ∃ u ∈ pixelList A, ∃ v ∈ pixelList A, u ≠ v := by
    obtain ⟨y, x, y', x', ⟨h1, h2⟩, ⟨h3, h4⟩, h5⟩ := hne
    exact ⟨_, mem_pixelList.2 ⟨y, x, h1, h2, rfl⟩, _, mem_pixelList.2 ⟨y', x', h3, h4, rfl⟩, h5⟩
  have he : (List.range 1001).map (histEdge ((pixelList A).map (c * ·))) = ((List.range 1001).map (histEdge (pixelList A))).map (c * ·) := by
    rw [List.map_map]
    exact List.map_congr_left fun i _ => histEdge_unit hc hl i
  rw [gaussPeak_eq, gaussPeak_eq, pixelList_unit hA, peakBin_unit hc hl, he]
  simp only [histCount_unit hc hl]
  rw [pySlice_map (c * ·), midBins_unit]
  exact peakFit_unit hfit _ _

theorem gaussPeak_nonneg (hfit : FitNonneg fit) (A : Img ℝ) : OkP (0 ≤ ·) (gaussPeak fit A) := by
  rw [gaussPeak_eq]
  exact peakFit_nonneg hfit _ _

end

end Micropol

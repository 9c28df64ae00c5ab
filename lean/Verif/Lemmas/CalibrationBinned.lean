import Verif.Spec.CalibrationBinned
import Verif.Lemmas.CalibrationUnits
import Verif.Props.Rebin

/-! # The preparation of calibration frames that were binned beforehand -/

set_option autoImplicit false
set_option linter.unusedSectionVars false

namespace Micropol

noncomputable section

open Classical

variable {b b' : Nat} {fs : Name → Option (Img ℝ)} {fit : GaussFit} {a : CalibArgs}

theorem superBinned_rebin (hb : 1 ≤ b) {A : Img ℝ} (hA : EvenSides A) : micropolarrayRebin A (b : Int) = .ok (superBinned b A) :=
  rebin_fam A hb hA.1 hA.2

theorem rebin_superBinned (hb : 1 ≤ b) (hb' : 1 ≤ b') {A : Img ℝ} (hA : EvenSides A) :
    micropolarrayRebin A ((b * b' : Nat) : Int) = micropolarrayRebin (superBinned b A) (b' : Int) := by
  have h := C12_rebin_rebin_micropol A b b' hb hb' hA.1 hA.2
  have hab := Nat.mul_pos hb hb'
  unfold micropolRebinData at h
  rw [if_neg (by omega), superBinned_rebin hb hA, Py.ok_bind, if_neg (by omega), if_neg (by omega)] at h
  exact h.symm

/-- `B` is the binned version of `A`. -/
def Bnd (b : Nat) (A B : Img ℝ) : Prop := EvenSides A ∧ B = superBinned b A

theorem bnd_openFits (hfs : ∀ n A, fs n = some A → EvenSides A) (n : Name) :
    PyRel (Bnd b) (openFits fs n) (openFits (filesBinned b fs) n) := by
  unfold openFits filesBinned
  cases h : fs n with
  | none => rfl
  | some A => exact ⟨hfs n A h, rfl⟩

theorem bnd_rebin (hb : 1 ≤ b) (hb' : 1 ≤ b') {A B : Img ℝ} (h : Bnd b A B) :
    PyRel Eq (micropolarrayRebin A ((b * b' : Nat) : Int)) (micropolarrayRebin B (b' : Int)) := by
  rw [rebin_superBinned hb hb' h.1, h.2]
  exact PyRel.refl _

theorem bnd_readDark (hb : 1 ≤ b) (hb' : 1 ≤ b') (hfs : ∀ n A, fs n = some A → EvenSides A) (d : Option Name) :
    readDark fs d ((b * b' : Nat) : Int) = readDark (filesBinned b fs) d (b' : Int) := by
  unfold readDark
  split
  · rfl
  · rfl
  · exact PyRel.eq (PyRel.bind (bnd_openFits hfs _) fun A B hA => PyRel.bind (bnd_rebin hb hb' hA) fun A B hA => by
      cases hA; exact PyRel.refl _)

theorem bnd_readFrame (hb : 1 ≤ b) (hb' : 1 ≤ b') (hfs : ∀ n A, fs n = some A → EvenSides A)
    (ha : a.binning = ((b * b' : Nat) : Int)) (D : Option (Img ℝ)) (n : Name) :
    readFrame fs a D n = readFrame (filesBinned b fs) (argsBinned b b' a) D n := by
  unfold readFrame
  refine PyRel.eq (PyRel.bind (bnd_openFits hfs n) fun A B hA => ?_)
  rw [ha]
  refine PyRel.bind (bnd_rebin hb hb' hA) fun A B hA => ?_
  cases hA
  exact PyRel.refl _

theorem bnd_readFlat (hfs : ∀ n A, fs n = some A → EvenSides A) (f : Option Name) :
    readFlat fs f = readFlat (filesBinned b fs) f := by
  unfold readFlat
  split
  · rfl
  · rfl
  · exact PyRel.eq (PyRel.bind (bnd_openFits (b := b) hfs _) fun A B _ => PyRel.refl _)

theorem bnd_occulter (hb : 1 ≤ b) (h w : Nat) (o : Option (ℝ × ℝ × ℝ)) :
    occulterFlag h w o ((b * b' : Nat) : Int) = occulterFlag h w (occulterBinned b o) (b' : Int) := by
  unfold occulterFlag occulterBinned
  cases o with
  | none => rfl
  | some p =>
    obtain ⟨y, x, r⟩ := p
    have e : ∀ v : ℝ, v / (((b * b' : Nat) : Int) : ℝ) = v / b / ((b' : Int) : ℝ) := by
      intro v
      push_cast
      rw [div_div]
    dsimp only [Option.map_some]
    rw [e, e, e]

theorem bnd_mapM (hb : 1 ≤ b) (hb' : 1 ≤ b') : ∀ (L : List (Img ℝ)), (∀ A ∈ L, EvenSides A) →
    L.mapM (fun A => micropolarrayRebin A ((b * b' : Nat) : Int)) = (L.map (superBinned b)).mapM (fun A => micropolarrayRebin A (b' : Int))
  | [], _ => rfl
  | A :: L, h => by
    rw [List.map_cons, List.mapM_cons, List.mapM_cons, rebin_superBinned hb hb' (h A (by simp)),
      bnd_mapM hb hb' L fun B hB => h B (by simp [hB])]

theorem bnd_planes (hb : 1 ≤ b) (hb' : 1 ≤ b') (ha : a.binning = ((b * b' : Nat) : Int)) (hs : SignalEven a.normS) (ors : List ℝ)
    (h w : Nat) (L : List (Img ℝ)) :
    normPlanes fit a ors h w L = normPlanes fit (argsBinned b b' a) ors h w L := by
  unfold normPlanes
  dsimp only [argsBinned]
  rw [ha]
  cases hn : a.normS with
  | missing => rfl
  | number s =>
    dsimp only [signalBinned]
    have e : s * ((((b * b' : Nat) : Int) : ℝ) * (((b * b' : Nat) : Int) : ℝ)) = s * ((b : ℝ) * b) * (((b' : Int) : ℝ) * ((b' : Int) : ℝ)) := by
      push_cast
      ring
    rw [e]
  | image A =>
    rw [hn] at hs
    dsimp only [signalBinned]
    rw [rebin_superBinned hb hb' hs]
  | series M =>
    rw [hn] at hs
    dsimp only [signalBinned]
    rw [bnd_mapM hb hb' M hs]

theorem prepare_binned (hb : 1 ≤ b) (hb' : 1 ≤ b') (hfs : ∀ n A, fs n = some A → EvenSides A)
    (ha : a.binning = ((b * b' : Nat) : Int)) (hs : SignalEven a.normS) :
    prepare fs fit a = prepare (filesBinned b fs) fit (argsBinned b b' a) := by
  have hnone : (argsBinned b b' a).normS.IsNone ↔ a.normS.IsNone := by
    show signalBinned b a.normS = .missing ↔ a.normS = .missing
    cases a.normS <;> simp [signalBinned]
  unfold prepare
  rw [hnone]
  show (if _ then _ else _) = (if a.normS.IsNone ∧ ¬ allIn normMinus a.orientations ∧ ¬ allIn normPlus a.orientations then _ else
    (match sortedPairs a.orientations a.filenames with | [] => _ | p :: ps => _))
  split
  · rfl
  cases sortedPairs a.orientations a.filenames with
  | nil => rfl
  | cons p ps =>
    refine PyRel.eq (PyRel.bind (bnd_openFits (b := b) hfs p.2) fun A B hA => ?_)
    have e1 : ∀ D, (fun (q : ℝ × Name) => readFrame fs a D q.2) = fun q => readFrame (filesBinned b fs) (argsBinned b b' a) D q.2 :=
      fun D => funext fun q => bnd_readFrame hb hb' hfs ha D q.2
    have e2 : ∀ ors h w L, normPlanes fit a ors h w L = normPlanes fit (argsBinned b b' a) ors h w L :=
      bnd_planes hb hb' ha hs
    simp only [e1, e2]
    rw [ha]
    refine PyRel.bind (bnd_rebin hb hb' hA) fun A B hA => ?_
    cases hA
    rw [bnd_occulter hb, bnd_readDark hb hb' hfs, bnd_readFlat (b := b) hfs]
    exact PyRel.refl _

end

end Micropol

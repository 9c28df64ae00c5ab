import Verif.Lemmas.CalibrationBinned
import Verif.Props.CalibrationLocal

/-!
# C126: binning in the calibration and binning of the files

It does not matter whether the calibration bins the frames or gets them binned.
-/

set_option autoImplicit false
set_option linter.unusedSectionVars false

namespace Micropol

noncomputable section

open Classical Finset

section
variable {fs : Name → Option (Img ℝ)} {fit : GaussFit} {a : CalibArgs} {b b' H W : Nat} {F : Name → Img ℝ} {D : Option (Img ℝ)}

/-- C126: what `micropolarray_rebin` makes of a file. -/
theorem C126_files (hb : 1 ≤ b) {A : Img ℝ} (hA : EvenSides A) :
    micropolarrayRebin A (b : Int) = .ok (superBinned b A) ∧ EvenSides (superBinned b A) := by
  refine ⟨superBinned_rebin hb hA, ?_, ?_⟩
  · show 2 * (A.h / (2 * b)) % 2 = 0
    omega
  · show 2 * (A.w / (2 * b)) % 2 = 0
    omega

/-- C126: a calibration with binning `b * b'` does the same as one with binning `b'` of files that were binned by `b`: the same
maps or the same exception, whatever files exist and however the signal is given. -/
theorem C126_prebinned (hb : 1 ≤ b) (hb' : 1 ≤ b') (hfs : ∀ n A, fs n = some A → EvenSides A)
    (ha : a.binning = ((b * b' : Nat) : Int)) (hs : SignalEven a.normS) :
    prepare (filesBinned b fs) fit (argsBinned b b' a) = prepare fs fit a ∧
    ∀ env ny nx schedule, calculateDemodulationTensor (filesBinned b fs) fit env (argsBinned b b' a) ny nx schedule =
      calculateDemodulationTensor fs fit env a ny nx schedule := by
  have e := prepare_binned (fit := fit) hb hb' hfs ha hs
  refine ⟨e.symm, fun env ny nx schedule => ?_⟩
  unfold calculateDemodulationTensor
  rw [e]

theorem familySum_uniform {A : Img ℝ} (hA : A.HasShape H W) (hu : UniformBlocks b A) {Y X i j : Nat} (hY : Y < H / (2 * b))
    (hX : X < W / (2 * b)) (hi : i < 2) (hj : j < 2) :
    familySum A b (2 * Y + i) (2 * X + j) = b * b * familySum A 1 (2 * (b * Y) + i) (2 * (b * X) + j) := by
  have e1 : (2 * Y + i) / 2 = Y := by omega
  have e2 : (2 * X + j) / 2 = X := by omega
  have e3 : (2 * Y + i) % 2 = i := by omega
  have e4 : (2 * X + j) % 2 = j := by omega
  have f1 : (2 * (b * Y) + i) / 2 = b * Y := by omega
  have f2 : (2 * (b * X) + j) / 2 = b * X := by omega
  have f3 : (2 * (b * Y) + i) % 2 = i := by omega
  have f4 : (2 * (b * X) + j) % 2 = j := by omega
  unfold familySum
  rw [e1, e2, e3, e4, f1, f2, f3, f4]
  have : ∀ u ∈ range b, (∑ v ∈ range b, A.px (2 * (b * Y + u) + i) (2 * (b * X + v) + j)) =
      ∑ _v ∈ range b, A.px (2 * (b * Y) + i) (2 * (b * X) + j) := by
    intro u hu'
    refine sum_congr rfl fun v hv => ?_
    exact hu Y X i j u v (by rw [hA.1]; exact hY) (by rw [hA.2]; exact hX) hi hj (mem_range.1 hu') (mem_range.1 hv)
  rw [sum_congr rfl this]
  simp
  ring

theorem lit_uniform {A : Img ℝ} (hA : A.HasShape H W) (hu : UniformBlocks b A)
    (hD : ∀ d, D = some d → d.HasShape H W ∧ UniformBlocks b d) {Y X i j : Nat} (hY : Y < H / (2 * b))
    (hX : X < W / (2 * b)) (hi : i < 2) (hj : j < 2) :
    lit A D b (2 * Y + i) (2 * X + j) = b * b * lit A D 1 (2 * (b * Y) + i) (2 * (b * X) + j) := by
  unfold lit
  cases D with
  | none => exact familySum_uniform hA hu hY hX hi hj
  | some d =>
    obtain ⟨h1, h2⟩ := hD d rfl
    dsimp only
    rw [familySum_uniform hA hu hY hX hi hj, familySum_uniform h1 h2 hY hX hi hj, ← mul_sub,
      show (0 : ℝ) = (b : ℝ) * b * 0 by ring, ← mul_max_of_nonneg _ _ (by positivity)]
    simp

/-- C126: the number given as signal is that of one unbinned pixel: where the superpixels added into one are the same, the
normalised data is the same with and without binning, and its errors are `b` times smaller with it. -/
theorem C126_uniform {s : ℝ} (hR : Readable fs a b H W F D) (hn : a.normS = .number s) (hs : 0 < s) (hgain : 0 < a.gain)
    (hu : ∀ n ∈ a.filenames, UniformBlocks b (F n)) (hD : ∀ d, D = some d → UniformBlocks b d)
    (hpos : ∀ n ∈ a.filenames, ∀ y x, y < H → x < W → 0 ≤ lit (F n) D 1 y x) :
    ∃ inp inp₁, prepare fs fit a = .ok inp ∧ prepare fs fit { a with binning := 1 } = .ok inp₁ ∧
      inp.n = inp₁.n ∧ inp₁.height = H ∧ inp₁.width = W ∧ inp.height = 2 * (H / (2 * b)) ∧ inp.width = 2 * (W / (2 * b)) ∧
      ∀ (k : Fin inp.n) (k₁ : Fin inp₁.n), k.val = k₁.val → ∀ Y X i j, Y < H / (2 * b) → X < W / (2 * b) → i < 2 → j < 2 →
        (inp.data k).px (2 * Y + i) (2 * X + j) = (inp₁.data k₁).px (2 * (b * Y) + i) (2 * (b * X) + j) ∧
        (inp.errors k).px (2 * Y + i) (2 * X + j) = (inp₁.errors k₁).px (2 * (b * Y) + i) (2 * (b * X) + j) / b := by
  have hb := hR.pos
  have hb0 : (0 : ℝ) < b := by exact_mod_cast hb
  have hR₁ : Readable fs { a with binning := 1 } 1 H W F D := ⟨rfl, le_rfl, hR.even, hR.frames, hR.dark, hR.flat, hR.len, hR.some_file⟩
  have hDs : ∀ d, D = some d → d.HasShape H W ∧ UniformBlocks b d := by
    intro d hd
    refine ⟨?_, hD d hd⟩
    rcases hR.dark with ⟨_, h⟩ | ⟨n, e, -, -, -, h, hsh⟩
    · rw [h] at hd; cases hd
    · rw [h] at hd; cases hd; exact hsh
  have hH : 2 * (H / (2 * 1)) = H := by have := hR.even.1; omega
  have hW : 2 * (W / (2 * 1)) = W := by have := hR.even.2; omega
  have hin : ∀ Y n : Nat, Y < n / (2 * b) → 2 * (b * Y) + 1 < n := by
    intro Y n hY
    have := (Nat.lt_div_iff_mul_lt (by omega : 0 < 2 * b)).1 hY
    have h2 : b * (Y + 1) = b * Y + b := by ring
    have h3 : (2 * b) * (Y + 1) ≤ n := by
      calc (2 * b) * (Y + 1) ≤ (2 * b) * (n / (2 * b)) := Nat.mul_le_mul_left _ hY
        _ ≤ n := Nat.mul_div_le _ _
    have h4 : (2 * b) * (Y + 1) = 2 * (b * Y) + 2 * b := by ring
    omega
  have hlit : ∀ n ∈ a.filenames, ∀ Y X i j, Y < H / (2 * b) → X < W / (2 * b) → i < 2 → j < 2 →
      lit (F n) D b (2 * Y + i) (2 * X + j) = b * b * lit (F n) D 1 (2 * (b * Y) + i) (2 * (b * X) + j) :=
    fun n hn Y X i j hY hX hi hj => lit_uniform (hR.frames n hn).2 (hu n hn) hDs hY hX hi hj
  have hS : Prescribes a a.filenames.length b H W (fun _ _ _ => s * b * b) :=
    Or.inl ⟨s, hn, hs.ne', fun _ _ _ => by unfold atLeast; rw [if_neg (by have : 0 < s * b * b := by positivity
                                                                          linarith)]⟩
  have hS₁ : Prescribes { a with binning := 1 } a.filenames.length 1 H W (fun _ _ _ => s) :=
    Or.inl ⟨s, hn, hs.ne', fun _ _ _ => by unfold atLeast; rw [if_neg (by push_cast; linarith)]; push_cast; ring⟩
  have hL := sortedPairs_sorted a
  have hL₁ : SortedList { a with binning := 1 } (sortedPairs a.orientations a.filenames) := hL
  obtain ⟨inp, e, en, eh, ew, -, -, -, ev⟩ := C73_frames_partial (fit := fit) hR hS hgain (fun n hn y x hy hx => by
    have h := hlit n hn (y / 2) (x / 2) (y % 2) (x % 2) (by omega) (by omega) (by omega) (by omega)
    rw [show 2 * (y / 2) + y % 2 = y by omega, show 2 * (x / 2) + x % 2 = x by omega] at h
    rw [h]
    have g1 := hin (y / 2) H (by omega)
    have g2 := hin (x / 2) W (by omega)
    exact mul_nonneg (by positivity) (hpos n hn _ _ (by omega) (by omega))) hL
  obtain ⟨inp₁, e₁, en₁, eh₁, ew₁, -, -, -, ev₁⟩ := C73_frames_partial (fit := fit) hR₁ hS₁ hgain (fun n hn y x hy hx =>
    hpos n hn y x (by omega) (by omega)) hL₁
  refine ⟨inp, inp₁, e, e₁, by rw [en, en₁], by rw [eh₁, hH], by rw [ew₁, hW], eh, ew, ?_⟩
  intro k k₁ hk Y X i j hY hX hi hj
  have hkl : k.val < (sortedPairs a.orientations a.filenames).length := by rw [← en]; exact k.isLt
  have g1 := hin Y H hY
  have g2 := hin X W hX
  obtain ⟨v1, v2⟩ := (ev k hkl).2.2.2 (2 * Y + i) (2 * X + j) (by rw [eh]; omega) (by rw [ew]; omega)
  obtain ⟨w1, w2⟩ := (ev₁ k₁ (by rw [← hk]; exact hkl)).2.2.2 (2 * (b * Y) + i) (2 * (b * X) + j) (by rw [eh₁, hH]; omega)
    (by rw [ew₁, hW]; omega)
  have hl := hlit _ (hR.mem hL (List.getElem_mem hkl)) Y X i j hY hX hi hj
  have ek : (sortedPairs a.orientations a.filenames)[k₁.val]'(by rw [← hk]; exact hkl) = (sortedPairs a.orientations a.filenames)[k.val] := by
    simp only [hk]
  rw [ek] at w1 w2
  rw [v1, w1, v2, w2, hl]
  constructor
  · field_simp
  · dsimp only
    rw [show (b : ℝ) * b * lit (F (sortedPairs a.orientations a.filenames)[k.val].2) D 1 (2 * (b * Y) + i) (2 * (b * X) + j) / a.gain =
      (b : ℝ) ^ 2 * (lit (F (sortedPairs a.orientations a.filenames)[k.val].2) D 1 (2 * (b * Y) + i) (2 * (b * X) + j) / a.gain) by ring,
      Real.sqrt_mul (by positivity), Real.sqrt_sq hb0.le]
    field_simp

/-- The hypotheses of the theorems can be met: files of 8 x 8 pixels, a dark that exists and one frame that does not. -/
example : ∃ (fs : Name → Option (Img ℝ)) (a : CalibArgs), (∀ n A, fs n = some A → EvenSides A) ∧
    a.binning = ((2 * 2 : Nat) : Int) ∧ SignalEven a.normS ∧ a.dark ≠ none ∧ a.occulter ≠ none :=
  ⟨fun n => if n = ['z'] then none else some (Img.const 8 8 1),
    ⟨[0, 45], [['a'], ['z']], fun _ => 0, 1, 4, some (4, 4, 2), some ['d'], none, .image (Img.const 8 8 5), none, none⟩, by
      intro n A h
      dsimp only at h
      split at h
      · cases h
      · cases h; exact ⟨rfl, rfl⟩, rfl, ⟨rfl, rfl⟩, by simp, by simp⟩

example : UniformBlocks 2 (Img.ofFn 8 8 fun y x => ((y / 4 + 10 * (x / 4) + 100 * (y % 2) : Nat) : ℝ)) := by
  intro Y X i j u v hY hX hi hj hu hv
  simp only [Img.ofFn_h, Img.ofFn_w] at hY hX
  rw [Img.ofFn_px (by omega) (by omega), Img.ofFn_px (by omega) (by omega)]
  congr 1
  omega

end

end

end Micropol

import Verif.Spec.CalibrationLocal
import Verif.Props.CalibrationUnits

/-!
# C125: a bad pixel of a calibration frame spoils its own superpixel only

From the files to the maps: what is computed for a superpixel depends on the pixels that are binned into it.
-/

set_option autoImplicit false
set_option linter.unusedSectionVars false

namespace Micropol

noncomputable section

open Classical Finset

section
variable {fs fs' : Name → Option (Img ℝ)} {fit fit' : GaussFit} {env : CalibEnv} {a : CalibArgs} {b H W : Nat} {F F' : Name → Img ℝ}
  {D D' : Option (Img ℝ)} {S S' : Nat → Nat → Nat → ℝ} {Y X : Nat}

theorem familySum_block {A B : Img ℝ} (h : SameBlock A B b Y X) (k : Fin 4) :
    familySum A b (rowOf Y k) (colOf X k) = familySum B b (rowOf Y k) (colOf X k) := by
  unfold familySum
  refine sum_congr rfl fun u hu => sum_congr rfl fun v hv => ?_
  have hu := mem_range.1 hu
  have hv := mem_range.1 hv
  have e1 : rowOf Y k / 2 = Y := by unfold rowOf; omega
  have e2 : colOf X k / 2 = X := by unfold colOf; omega
  rw [e1, e2]
  have m1 : rowOf Y k % 2 < 2 := Nat.mod_lt _ (by norm_num)
  have m2 : colOf X k % 2 < 2 := Nat.mod_lt _ (by norm_num)
  have k1 : 2 * b * Y = 2 * (b * Y) := by ring
  have k2 : 2 * b * (Y + 1) = 2 * (b * Y) + 2 * b := by ring
  have k3 : 2 * b * X = 2 * (b * X) := by ring
  have k4 : 2 * b * (X + 1) = 2 * (b * X) + 2 * b := by ring
  refine h _ _ ?_ ?_ ?_ ?_
  · rw [k1]; omega
  · rw [k2]; omega
  · rw [k3]; omega
  · rw [k4]; omega

theorem lit_block {A B : Img ℝ} (h : SameBlock A B b Y X) (hD : SameDark D D' b Y X) (k : Fin 4) :
    lit A D b (rowOf Y k) (colOf X k) = lit B D' b (rowOf Y k) (colOf X k) := by
  rcases hD with ⟨rfl, rfl⟩ | ⟨d, e, rfl, rfl, hd⟩
  · exact familySum_block h k
  · unfold lit
    dsimp only
    rw [familySum_block h, familySum_block hd]

/-- C125: two calibrations with the same arguments except for the contents of the files, the dark and the prescribed signal, each
on any grid and in any order of its workers, succeed and give the same result at a superpixel if frames, darks and signals agree there. -/
theorem C125_local_partial (s' : NormArg) (dark' : Option Name)
    (hR : Readable fs a b H W F D) (hR' : Readable fs' { a with normS := s', dark := dark' } b H W F' D')
    (hS : Prescribes a a.filenames.length b H W S)
    (hS' : Prescribes { a with normS := s', dark := dark' } a.filenames.length b H W S') (hgain : 0 < a.gain)
    (hpos : ∀ n ∈ a.filenames, ∀ y x, y < 2 * (H / (2 * b)) → x < 2 * (W / (2 * b)) → 0 ≤ lit (F n) D b y x)
    (hpos' : ∀ n ∈ a.filenames, ∀ y x, y < 2 * (H / (2 * b)) → x < 2 * (W / (2 * b)) → 0 ≤ lit (F' n) D' b y x)
    (hF : ∀ n ∈ a.filenames, SameBlock (F n) (F' n) b Y X) (hD : SameDark D D' b Y X)
    (hSS : ∀ k, k < a.filenames.length → ∀ i j, i < 2 → j < 2 → S k (2 * Y + i) (2 * X + j) = S' k (2 * Y + i) (2 * X + j))
    {ny nx ny' nx' : Nat} {schedule schedule' : List Nat}
    (hg : EvenChunks (2 * (H / (2 * b))) (2 * (W / (2 * b))) ny nx schedule)
    (hg' : EvenChunks (2 * (H / (2 * b))) (2 * (W / (2 * b))) ny' nx' schedule')
    (hc : 2 * Y < ny * (2 * (H / (2 * b)) / ny) ∧ 2 * X < nx * (2 * (W / (2 * b)) / nx))
    (hc' : 2 * Y < ny' * (2 * (H / (2 * b)) / ny') ∧ 2 * X < nx' * (2 * (W / (2 * b)) / nx')) :
    ∃ maps maps', calculateDemodulationTensor fs fit env a ny nx schedule = .ok maps ∧
      calculateDemodulationTensor fs' fit' env { a with normS := s', dark := dark' } ny' nx' schedule' = .ok maps' ∧
      SameOutcome maps maps' Y X := by
  have hL := sortedPairs_sorted a
  have hL' : SortedList { a with normS := s', dark := dark' } (sortedPairs a.orientations a.filenames) := hL
  have hlen := hR.length hL
  obtain ⟨hch, P, hP, hst⟩ := prescribed_planes (fit := fit) hR hL hS
  obtain ⟨O, hO, e⟩ := prepare_ok hR hL hch hP hst hgain hpos
  obtain ⟨hch', P', hP', hst'⟩ := prescribed_planes (fit := fit') hR' hL' hS'
  obtain ⟨O', hO', e'⟩ := prepare_ok hR' hL' hch' hP' hst' hgain hpos'
  have hOO : O = O' := by
    have : (Except.ok O : Py (Img ℝ)) = .ok O' := hO.symm.trans hO'
    injection this
  subst hOO
  unfold calculateDemodulationTensor
  rw [e, e', Py.ok_bind, Py.ok_bind]
  obtain ⟨maps, hm⟩ := C33_total (env := env)
    (inp := prepared a F D b (2 * (H / (2 * b))) (2 * (W / (2 * b))) (sortedPairs a.orientations a.filenames) O S)
    ⟨hg.ny_pos, hg.nx_pos, hg.even_y, hg.even_x, hg.order⟩
  obtain ⟨maps', hm'⟩ := C33_total (env := env) (inp := prepared { a with normS := s', dark := dark' } F' D' b (2 * (H / (2 * b)))
    (2 * (W / (2 * b))) (sortedPairs a.orientations a.filenames) O S') ⟨hg'.ny_pos, hg'.nx_pos, hg'.even_y, hg'.even_x, hg'.order⟩
  refine ⟨maps, maps', hm, hm', ?_⟩
  have hbY : 2 * Y < 2 * (H / (2 * b)) := hc.1.trans_le (Nat.mul_div_le _ _)
  have hbX : 2 * X < 2 * (W / (2 * b)) := hc.2.trans_le (Nat.mul_div_le _ _)
  have hval : ∀ (p : Fin (sortedPairs a.orientations a.filenames).length) (k : Fin 4),
      lit (F (sortedPairs a.orientations a.filenames)[p].2) D b (rowOf Y k) (colOf X k) =
        lit (F' (sortedPairs a.orientations a.filenames)[p].2) D' b (rowOf Y k) (colOf X k) ∧
      S p (rowOf Y k) (colOf X k) = S' p (rowOf Y k) (colOf X k) := by
    intro p k
    refine ⟨lit_block (hF _ (hR.mem hL (List.getElem_mem _))) hD k, ?_⟩
    exact hSS p (by rw [← hlen]; exact p.isLt) (k.val / 2) (k.val % 2) (by omega) (by omega)
  have key := C33_local (inp := prepared a F D b (2 * (H / (2 * b))) (2 * (W / (2 * b))) (sortedPairs a.orientations a.filenames) O S)
    ⟨hg.ny_pos, hg.nx_pos, hg.even_y, hg.even_x, hg.order⟩ hm hc (2 * (H / (2 * b))) (2 * (W / (2 * b)))
    (prepared { a with normS := s', dark := dark' } F' D' b (2 * (H / (2 * b))) (2 * (W / (2 * b)))
      (sortedPairs a.orientations a.filenames) O S').data
    (prepared { a with normS := s', dark := dark' } F' D' b (2 * (H / (2 * b))) (2 * (W / (2 * b)))
      (sortedPairs a.orientations a.filenames) O S').errors O
    ⟨hg'.ny_pos, hg'.nx_pos, hg'.even_y, hg'.even_x, hg'.order⟩ hm' (Y' := Y) (X' := X) hc'
    (fun p k => by
      have hy : rowOf Y k < 2 * (H / (2 * b)) := by unfold rowOf; omega
      have hx : colOf X k < 2 * (W / (2 * b)) := by unfold colOf; omega
      show (Img.ofFn _ _ _).px _ _ = (Img.ofFn _ _ _).px _ _
      rw [Img.ofFn_px hy hx, Img.ofFn_px hy hx, (hval p k).1, (hval p k).2])
    (fun p k => by
      have hy : rowOf Y k < 2 * (H / (2 * b)) := by unfold rowOf; omega
      have hx : colOf X k < 2 * (W / (2 * b)) := by unfold colOf; omega
      show (Img.ofFn _ _ _).px _ _ = (Img.ofFn _ _ _).px _ _
      rw [Img.ofFn_px hy hx, Img.ofFn_px hy hx, (hval p k).1, (hval p k).2])
    (fun k => rfl)
  obtain ⟨g1, g2, g3⟩ := key
  have hk : ∀ i j, i < 2 → j < 2 → ∃ k : Fin 4, rowOf Y k = 2 * Y + i ∧ colOf X k = 2 * X + j := by
    intro i j hi hj
    refine ⟨⟨2 * i + j, by omega⟩, ?_, ?_⟩
    · show 2 * Y + (2 * i + j) / 2 = _
      omega
    · show 2 * X + (2 * i + j) % 2 = _
      omega
  refine ⟨g1, g2, fun i j hi hj => ?_, fun i j hi hj => ?_, fun i j hi hj => ?_, fun i j hi hj => ?_, fun i j hi hj => ?_⟩ <;>
    obtain ⟨k, k1, k2⟩ := hk i j hi hj <;> rw [← k1, ← k2]
  · exact (g3 k).1
  · exact (g3 k).2.1
  · exact (g3 k).2.2.1
  · exact (g3 k).2.2.2.1
  · exact (g3 k).2.2.2.2

/-- C125, violation: with an estimated signal one hot pixel can spoil the whole calibration: if the reference signal is the same
everywhere except at one pixel, where it is larger, there is no calibration at all (`IndexError`). -/
theorem C125_hot_pixel {R : List ℝ} {L : List (ℝ × Name)} {s : ℝ} {y₀ x₀ : Nat} (hR : Readable fs a b H W F D)
    (hn : a.normS = .missing) (href : References a.orientations R) (hL : SortedList a L)
    (hy₀ : y₀ < 2 * (H / (2 * b))) (hx₀ : x₀ < 2 * (W / (2 * b))) (hhot : s < halfSum R L F D b y₀ x₀)
    (hrest : ∀ y x, y < 2 * (H / (2 * b)) → x < 2 * (W / (2 * b)) → (y, x) ≠ (y₀, x₀) → halfSum R L F D b y x = s) :
    prepare fs fit a = .error .indexError ∧
    ∀ env ny nx schedule, calculateDemodulationTensor fs fit env a ny nx schedule = .error .indexError := by
  have e : prepare fs fit a = .error .indexError := by
    obtain ⟨y₁, x₁, h1, h2, h3⟩ : ∃ y₁ x₁, y₁ < 2 * (H / (2 * b)) ∧ x₁ < 2 * (W / (2 * b)) ∧ (y₁, x₁) ≠ (y₀, x₀) := by
      by_cases h0 : y₀ = 0
      · exact ⟨1, x₀, by omega, hx₀, fun h => by injection h; omega⟩
      · exact ⟨0, x₀, by omega, hx₀, fun h => by injection h; omega⟩
    refine C74_dark_majority (lo := s) (hi := halfSum R L F D b y₀ x₀) hR hn href hL ?_ hhot ?_
    · refine ⟨⟨⟨y₁, x₁, h1, h2, (hrest y₁ x₁ h1 h2 h3).symm⟩, ?_⟩, ⟨⟨y₀, x₀, hy₀, hx₀, rfl⟩, ?_⟩⟩
      · rintro v ⟨y, x, hy, hx, rfl⟩
        by_cases h : (y, x) = (y₀, x₀)
        · cases h
          exact hhot.le
        · exact (hrest y x hy hx h).ge
      · rintro v ⟨y, x, hy, hx, rfl⟩
        by_cases h : (y, x) = (y₀, x₀)
        · cases h
          exact le_rfl
        · rw [hrest y x hy hx h]
          exact hhot.le
    · have hsub : ((range (2 * (H / (2 * b))) ×ˢ range (2 * (W / (2 * b)))).erase (y₀, x₀)) ⊆
          (range (2 * (H / (2 * b))) ×ˢ range (2 * (W / (2 * b)))).filter (fun q => halfSum R L F D b q.1 q.2 = s) := by
        intro q hq
        obtain ⟨q1, q2⟩ := mem_erase.1 hq
        obtain ⟨q3, q4⟩ := mem_product.1 q2
        exact mem_filter.2 ⟨q2, hrest q.1 q.2 (mem_range.1 q3) (mem_range.1 q4) q1⟩
      have hcard := card_le_card hsub
      rw [card_erase_of_mem (mem_product.2 ⟨mem_range.2 hy₀, mem_range.2 hx₀⟩), card_product, card_range, card_range] at hcard
      have h4 : 4 ≤ 2 * (H / (2 * b)) * (2 * (W / (2 * b))) := by
        have : 2 ≤ 2 * (H / (2 * b)) := by omega
        have : 2 ≤ 2 * (W / (2 * b)) := by omega
        calc 4 = 2 * 2 := rfl
          _ ≤ _ := Nat.mul_le_mul ‹_› ‹_›
      omega
  refine ⟨e, fun env ny nx schedule => ?_⟩
  unfold calculateDemodulationTensor
  rw [e]
  rfl

end

/-! ## Violation: the whole calibration is lost -/

/-- Uniform frames of two superpixels, but for a pixel in the second one. -/
def hotFrame (v : ℝ) : Img ℝ := Img.ofFn 4 2 fun y x => if y = 2 ∧ x = 0 then v else 4

theorem hot_family (v : ℝ) {y x : Nat} (hy : y < 4) (hx : x < 2) : familySum (hotFrame v) 1 y x = if y = 2 ∧ x = 0 then v else 4 := by
  unfold familySum
  rw [sum_range_one, sum_range_one, show 2 * (1 * (y / 2) + 0) + y % 2 = y by omega,
    show 2 * (1 * (x / 2) + 0) + x % 2 = x by omega]
  exact Img.ofFn_px hy hx

/-- C125 without a condition on the normalisation is false: the two sets of frames agree in the first superpixel, the first set is
prepared, and the second one, with a hot pixel in the other superpixel, ends with an exception. -/
theorem C125_estimated_spreads : SameBlock (hotFrame 4) (hotFrame 5) 1 0 0 ∧
    (∃ inp, prepare (fun _ => some (hotFrame 4)) guessFit autoArgs = .ok inp ∧ inp.height = 4 ∧ inp.width = 2) ∧
    prepare (fun _ => some (hotFrame 5)) guessFit autoArgs = .error .indexError := by
  refine ⟨fun y x _ hy _ hx => ?_, ?_, ?_⟩
  · unfold hotFrame
    rw [Img.ofFn_px (by omega) (by omega), Img.ofFn_px (by omega) (by omega), if_neg (by omega), if_neg (by omega)]
  · have hfam : ∀ y x, y < 4 → x < 2 → familySum (hotFrame 4) 1 y x = 4 := by
      intro y x hy hx
      rw [hot_family 4 hy hx]
      split <;> rfl
    obtain ⟨hE, hm⟩ := C74_uniform (T := halfSum [0, 45, 90, 135] [(0, ['a']), (45, ['b']), (90, ['c']), (135, ['d'])]
      (fun _ => hotFrame 4) none 1) (h := 4) (w := 2) (c := 8) (by norm_num) (by norm_num) (fun y x hy hx => by
        rw [auto_half, hfam y x hy hx]; norm_num)
    obtain ⟨inp, h1, -, h3, h4, -⟩ := C74_estimated (b := 1) (H := 4) (W := 2) (fit := guessFit)
      (auto_readable (hotFrame 4) ⟨rfl, rfl⟩ rfl rfl) rfl auto_references auto_sorted hE hm (by norm_num) (by norm_num) rfl
      (by
        show (binStart 8 8 500 + binStart 8 8 (500 + 1)) / 2 + 4 * (binStart 8 8 (500 + 5) - binStart 8 8 500) ≠ 0
        unfold binStart
        norm_num) (by norm_num [autoArgs, runArgs]) (fun n _ y x hy hx => by
        unfold lit
        dsimp only
        rw [hfam y x hy hx]
        norm_num)
    exact ⟨inp, h1, h3, h4⟩
  · exact (C125_hot_pixel (fit := guessFit) (b := 1) (H := 4) (W := 2) (s := 8) (y₀ := 2) (x₀ := 0)
      (auto_readable (hotFrame 5) ⟨rfl, rfl⟩ rfl rfl) rfl auto_references auto_sorted (by norm_num) (by norm_num)
      (by rw [auto_half, hot_family 5 (by norm_num) (by norm_num)]; norm_num) (fun y x hy hx hne => by
        rw [auto_half, hot_family 5 hy hx, if_neg (fun hc => hne (by rw [hc.1, hc.2]))]
        norm_num)).1

/-! ## Example -/

theorem hot_readable (v : ℝ) : Readable (fun _ => some (hotFrame v)) runArgs 1 4 2 (fun _ => hotFrame v) none :=
  ⟨rfl, le_refl 1, ⟨rfl, rfl⟩, fun _ _ => ⟨rfl, rfl, rfl⟩, Or.inl ⟨rfl, rfl⟩, rfl, rfl, by simp [runArgs]⟩

theorem hot_nonneg {v : ℝ} (hv : 0 ≤ v) : ∀ n ∈ runArgs.filenames, ∀ y x, y < 2 * (4 / (2 * 1)) → x < 2 * (2 / (2 * 1)) →
    0 ≤ lit ((fun _ => hotFrame v) n) none 1 y x := by
  intro n _ y x hy hx
  unfold lit
  dsimp only
  rw [hot_family v hy hx]
  split
  · exact hv
  · norm_num

theorem hot_prescribes : Prescribes runArgs runArgs.filenames.length 1 4 2 (fun _ _ _ => 2) :=
  Or.inl ⟨2, rfl, by norm_num, fun _ _ _ => by unfold atLeast; norm_num⟩

/-- With a prescribed signal the hot pixel does not matter for the other superpixel, even with another number of chunks. -/
example (fit : GaussFit) (env : CalibEnv) : ∃ maps maps',
    calculateDemodulationTensor (fun _ => some (hotFrame 4)) fit env runArgs 1 1 [0] = .ok maps ∧
    calculateDemodulationTensor (fun _ => some (hotFrame 5)) fit env runArgs 2 1 [1, 0] = .ok maps' ∧
    SameOutcome maps maps' 0 0 := by
  exact C125_local_partial (ny := 1) (nx := 1) (ny' := 2) (nx' := 1) (schedule := [0]) (schedule' := [1, 0]) (a := runArgs) (b := 1) (H := 4) (W := 2) (.number 2) none (hot_readable 4) (hot_readable 5) hot_prescribes
    hot_prescribes (by norm_num [runArgs]) (hot_nonneg (by norm_num)) (hot_nonneg (by norm_num))
    (fun _ _ => C125_estimated_spreads.1) (Or.inl ⟨rfl, rfl⟩) (fun _ _ _ _ _ _ => rfl)
    ⟨by norm_num, by norm_num, by norm_num, by norm_num, List.Perm.refl _⟩
    ⟨by norm_num, by norm_num, by norm_num, by norm_num, by decide⟩ ⟨by norm_num, by norm_num⟩ ⟨by norm_num, by norm_num⟩
end

end Micropol

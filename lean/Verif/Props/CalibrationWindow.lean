import Verif.Spec.CalibrationWindow
import Verif.Props.CalibrationLocal

/-!
# C127: calibrating a part of the detector

The calibration of a part of the frames is the part of the calibration.
-/

set_option autoImplicit false
set_option linter.unusedSectionVars false

namespace Micropol

noncomputable section

open Classical Finset

section
variable {fs : Name → Option (Img ℝ)} {fit fit' : GaussFit} {env : CalibEnv} {a : CalibArgs} {b H W h w r c : Nat} {F : Name → Img ℝ}
  {D : Option (Img ℝ)} {S : Nat → Nat → Nat → ℝ}

theorem window_bound {n y u b : Nat} (hy : y < 2 * (n / (2 * b))) (hu : u < b) : 2 * (b * (y / 2) + u) + y % 2 < n := by
  have h1 : y / 2 + 1 ≤ n / (2 * b) := by omega
  have h2 : (2 * b) * (y / 2 + 1) ≤ n := (Nat.mul_le_mul_left _ h1).trans (Nat.mul_div_le _ _)
  have h3 : (2 * b) * (y / 2 + 1) = 2 * (b * (y / 2)) + 2 * b := by ring
  omega

theorem window_sides {n m r b : Nat} (hb : 1 ≤ b) (hm : 2 * b * r + m ≤ n) : r + m / (2 * b) ≤ n / (2 * b) := by
  rw [Nat.le_div_iff_mul_le (by omega)]
  calc (r + m / (2 * b)) * (2 * b) = 2 * b * r + (2 * b) * (m / (2 * b)) := by ring
    _ ≤ 2 * b * r + m := Nat.add_le_add_left (Nat.mul_div_le _ _) _
    _ ≤ n := hm

theorem familySum_window (A : Img ℝ) {y x : Nat} (hy : y < 2 * (h / (2 * b))) (hx : x < 2 * (w / (2 * b))) :
    familySum (window (2 * b * r) (2 * b * c) h w A) b y x = familySum A b (2 * r + y) (2 * c + x) := by
  unfold familySum window
  refine sum_congr rfl fun u hu => sum_congr rfl fun v hv => ?_
  rw [Img.ofFn_px (window_bound hy (mem_range.1 hu)) (window_bound hx (mem_range.1 hv)),
    show (2 * r + y) / 2 = r + y / 2 by omega, show (2 * c + x) / 2 = c + x / 2 by omega,
    show (2 * r + y) % 2 = y % 2 by omega, show (2 * c + x) % 2 = x % 2 by omega]
  congr 1 <;> ring

theorem lit_window (A : Img ℝ) {y x : Nat} (hy : y < 2 * (h / (2 * b))) (hx : x < 2 * (w / (2 * b))) :
    lit (window (2 * b * r) (2 * b * c) h w A) (D.map (window (2 * b * r) (2 * b * c) h w)) b y x = lit A D b (2 * r + y) (2 * c + x) := by
  unfold lit
  cases D with
  | none => exact familySum_window A hy hx
  | some d =>
    dsimp only [Option.map_some]
    rw [familySum_window A hy hx, familySum_window d hy hx]

theorem readable_window (hR : Readable fs a b H W F D) (hh : h % 2 = 0) (hw : w % 2 = 0) (y₀ x₀ : Nat) :
    Readable (filesWindow y₀ x₀ h w fs) (argsWindow y₀ x₀ h w a) b h w (fun n => window y₀ x₀ h w (F n))
      (D.map (window y₀ x₀ h w)) := by
  refine ⟨hR.binning, hR.pos, ⟨hh, hw⟩, fun n hn => ⟨?_, rfl, rfl⟩, ?_, hR.flat, hR.len, hR.some_file⟩
  · show (fs n).map _ = _
    rw [(hR.frames n hn).1]
    rfl
  · rcases hR.dark with ⟨h1, h2⟩ | ⟨n, d, h1, h2, h3, h4, -⟩
    · exact Or.inl ⟨h1, by rw [h2]; rfl⟩
    · refine Or.inr ⟨n, window y₀ x₀ h w d, h1, h2, ?_, by rw [h4]; rfl, rfl, rfl⟩
      show (fs n).map _ = _
      rw [h3]
      rfl

theorem prescribes_window {n : Nat} (hb : 1 ≤ b) (hS : Prescribes a n b H W S) (hr : 2 * b * r + h ≤ H) (hc : 2 * b * c + w ≤ W) :
    Prescribes (argsWindow (2 * b * r) (2 * b * c) h w a) n b h w (fun k y x => S k (2 * r + y) (2 * c + x)) := by
  have g1 := window_sides hb hr
  have g2 := window_sides hb hc
  rcases hS with ⟨s, h1, h2, h3⟩ | ⟨A, h1, h2, h3⟩ | ⟨L, h1, h2, h3, h4⟩
  · refine Or.inl ⟨s, ?_, h2, fun k y x => h3 k _ _⟩
    show signalWindow _ _ _ _ a.normS = _
    rw [h1]
    rfl
  · refine Or.inr (Or.inl ⟨window (2 * b * r) (2 * b * c) h w A, ?_, ⟨rfl, rfl⟩, fun k y x hy hx => ?_⟩)
    · show signalWindow _ _ _ _ a.normS = _
      rw [h1]
      rfl
    · rw [familySum_window A hy hx]
      exact h3 k _ _ (by omega) (by omega)
  · refine Or.inr (Or.inr ⟨L.map (window (2 * b * r) (2 * b * c) h w), ?_, by simpa using h2, ?_, fun k hk y x hy hx => ?_⟩)
    · show signalWindow _ _ _ _ a.normS = _
      rw [h1]
      rfl
    · intro B hB
      obtain ⟨A, -, rfl⟩ := List.mem_map.1 hB
      exact ⟨rfl, rfl⟩
    · have hk' : k < L.length := by simpa using hk
      rw [List.getElem_map, familySum_window L[k] hy hx]
      exact h4 k hk' _ _ (by omega) (by omega)

theorem pyInt_sub_nat {v : ℝ} {n : Nat} (h : (n : ℝ) ≤ v) : pyInt (v - n) = pyInt v - n := by
  unfold pyInt
  rw [if_pos (by linarith), if_pos (by have : (0 : ℝ) ≤ n := Nat.cast_nonneg n
                                       linarith)]
  exact Int.floor_sub_natCast v n

/-- The centre of the occulter, in superpixels of the part. -/
theorem centre_window (hb : 1 ≤ b) {v : ℝ} (hv : ((2 * b * r : Nat) : ℝ) ≤ v) :
    pyInt (((pyInt ((v - ((2 * b * r : Nat) : ℝ)) / ((b : Int) : ℝ)) : ℤ) : ℝ) / 2) =
      pyInt (((pyInt (v / ((b : Int) : ℝ)) : ℤ) : ℝ) / 2) - r := by
  have hb0 : (0 : ℝ) < b := by exact_mod_cast hb
  have e1 : (v - ((2 * b * r : Nat) : ℝ)) / ((b : Int) : ℝ) = v / ((b : Int) : ℝ) - ((2 * r : Nat) : ℝ) := by
    push_cast
    field_simp
  have h1 : ((2 * r : Nat) : ℝ) ≤ v / ((b : Int) : ℝ) := by
    push_cast at hv ⊢
    rw [le_div_iff₀ hb0]
    linarith
  rw [e1, pyInt_sub_nat h1]
  have h2 : ((2 * r : Nat) : ℤ) ≤ pyInt (v / ((b : Int) : ℝ)) := by
    unfold pyInt
    rw [if_pos ((Nat.cast_nonneg _).trans h1)]
    exact Int.le_floor.2 (by push_cast at h1 ⊢; exact h1)
  have h3 : (r : ℝ) ≤ ((pyInt (v / ((b : Int) : ℝ)) : ℤ) : ℝ) / 2 := by
    have : (((2 * r : Nat) : ℤ) : ℝ) ≤ ((pyInt (v / ((b : Int) : ℝ)) : ℤ) : ℝ) := by exact_mod_cast h2
    rw [Int.cast_natCast, Nat.cast_mul, Nat.cast_ofNat] at this
    linarith
  rw [show ((pyInt (v / ((b : Int) : ℝ)) - ((2 * r : Nat) : ℤ) : ℤ) : ℝ) / 2 = ((pyInt (v / ((b : Int) : ℝ)) : ℤ) : ℝ) / 2 - (r : ℝ) by
    push_cast; ring, pyInt_sub_nat h3]

theorem occulter_window (hb : 1 ≤ b) (ha : a.binning = (b : Int)) (hin : CentreWithin (2 * b * r) (2 * b * c) a)
    {h' w' h'' w'' : Nat} (e1 : h' % 2 = 0) (e2 : w' % 2 = 0) (e3 : h'' % 2 = 0) (e4 : w'' % 2 = 0) {O O' : Img ℝ}
    (hO : occulterFlag h' w' a.occulter a.binning = .ok O)
    (hO' : occulterFlag h'' w'' (argsWindow (2 * b * r) (2 * b * c) h w a).occulter a.binning = .ok O') {y x : Nat}
    (hy : 2 * r + y < h') (hx : 2 * c + x < w') (hy' : y < h'') (hx' : x < w'') : O'.px y x = O.px (2 * r + y) (2 * c + x) := by
  change occulterFlag h'' w'' (a.occulter.map _) a.binning = .ok O' at hO'
  cases ho : a.occulter with
  | none =>
    rw [ho] at hO hO'
    injection hO with hO
    injection hO' with hO'
    subst hO
    subst hO'
    unfold Img.zeros Img.const
    rw [Img.ofFn_px hy' hx', Img.ofFn_px hy hx]
  | some p =>
    obtain ⟨oy, ox, rad⟩ := p
    obtain ⟨i1, i2⟩ := hin oy ox rad ho
    rw [ho, ha] at hO hO'
    dsimp only [Option.map_some] at hO'
    rw [occulterFlag_ok e1 e2] at hO
    rw [occulterFlag_ok e3 e4] at hO'
    injection hO with hO
    injection hO' with hO'
    subst hO
    subst hO'
    rw [Img.ofFn_px hy' hx', Img.ofFn_px hy hx, centre_window hb i1, centre_window hb i2,
      show (2 * r + y) / 2 = r + y / 2 by omega, show (2 * c + x) / 2 = c + x / 2 by omega]
    have : ∀ (cy cx : ℤ) (q : ℝ × ℝ), InRegion (((cy - r : ℤ) : ℝ), ((cx - c : ℤ) : ℝ)) q (0, 360) ((y / 2 : Nat) : ℝ) ((x / 2 : Nat) : ℝ) ↔
        InRegion ((cy : ℝ), (cx : ℝ)) q (0, 360) ((r + y / 2 : Nat) : ℝ) ((c + x / 2 : Nat) : ℝ) := by
      intro cy cx q
      unfold InRegion
      have k1 : ((y / 2 : Nat) : ℝ) - ((cy - r : ℤ) : ℝ) = ((r + y / 2 : Nat) : ℝ) - (cy : ℝ) := by
        rw [Nat.cast_add]; push_cast; ring
      have k2 : ((x / 2 : Nat) : ℝ) - ((cx - c : ℤ) : ℝ) = ((c + x / 2 : Nat) : ℝ) - (cx : ℝ) := by
        rw [Nat.cast_add]; push_cast; ring
      dsimp only
      rw [k1, k2]
    simp only [this]

/-- C127 (partial: for prescribed signals, and an occulter whose centre is not above or left of the part; see
`C127_occulter_outside` and `C125_estimated_spreads`): both calibrations succeed, on any grids and in any order of their workers,
and every superpixel of the part gets what it gets in the calibration of the whole detector. -/
theorem C127_window_partial (hR : Readable fs a b H W F D) (hS : Prescribes a a.filenames.length b H W S) (hgain : 0 < a.gain)
    (hpos : ∀ n ∈ a.filenames, ∀ y x, y < 2 * (H / (2 * b)) → x < 2 * (W / (2 * b)) → 0 ≤ lit (F n) D b y x)
    (hh : h % 2 = 0) (hw : w % 2 = 0) (hr : 2 * b * r + h ≤ H) (hc : 2 * b * c + w ≤ W)
    (hin : CentreWithin (2 * b * r) (2 * b * c) a) {ny nx ny' nx' : Nat} {schedule schedule' : List Nat}
    (hg : EvenChunks (2 * (H / (2 * b))) (2 * (W / (2 * b))) ny nx schedule)
    (hg' : EvenChunks (2 * (h / (2 * b))) (2 * (w / (2 * b))) ny' nx' schedule') :
    ∃ maps maps', calculateDemodulationTensor fs fit env a ny nx schedule = .ok maps ∧
      calculateDemodulationTensor (filesWindow (2 * b * r) (2 * b * c) h w fs) fit' env (argsWindow (2 * b * r) (2 * b * c) h w a)
        ny' nx' schedule' = .ok maps' ∧
      ∀ Y X, 2 * (r + Y) < ny * (2 * (H / (2 * b)) / ny) → 2 * (c + X) < nx * (2 * (W / (2 * b)) / nx) →
        2 * Y < ny' * (2 * (h / (2 * b)) / ny') → 2 * X < nx' * (2 * (w / (2 * b)) / nx') →
        SameOutcomeAt maps (r + Y) (c + X) maps' Y X := by
  have hb := hR.pos
  have g1 := window_sides hb hr
  have g2 := window_sides hb hc
  have hR' := readable_window hR hh hw (2 * b * r) (2 * b * c)
  have hS' : Prescribes (argsWindow (2 * b * r) (2 * b * c) h w a) (argsWindow (2 * b * r) (2 * b * c) h w a).filenames.length b h w
      (fun k y x => S k (2 * r + y) (2 * c + x)) := prescribes_window hb hS hr hc
  have hpos' : ∀ n ∈ (argsWindow (2 * b * r) (2 * b * c) h w a).filenames, ∀ y x, y < 2 * (h / (2 * b)) → x < 2 * (w / (2 * b)) →
      0 ≤ lit (window (2 * b * r) (2 * b * c) h w (F n)) (D.map (window (2 * b * r) (2 * b * c) h w)) b y x := by
    intro n hn y x hy hx
    rw [lit_window (F n) hy hx]
    exact hpos n hn _ _ (by omega) (by omega)
  have hL := sortedPairs_sorted a
  have hL' : SortedList (argsWindow (2 * b * r) (2 * b * c) h w a) (sortedPairs a.orientations a.filenames) := hL
  obtain ⟨hch, P, hP, hst⟩ := prescribed_planes (fit := fit) hR hL hS
  obtain ⟨O, hO, e⟩ := prepare_ok hR hL hch hP hst hgain hpos
  obtain ⟨hch', P', hP', hst'⟩ := prescribed_planes (fit := fit') hR' hL' hS'
  obtain ⟨O', hO', e'⟩ := prepare_ok hR' hL' hch' hP' hst' hgain hpos'
  unfold calculateDemodulationTensor
  rw [e, e', Py.ok_bind, Py.ok_bind]
  have v : ValidGrid (prepared a F D b (2 * (H / (2 * b))) (2 * (W / (2 * b))) (sortedPairs a.orientations a.filenames) O S)
      ny nx schedule := ⟨hg.ny_pos, hg.nx_pos, hg.even_y, hg.even_x, hg.order⟩
  have v' : ValidGrid (prepared (argsWindow (2 * b * r) (2 * b * c) h w a) (fun n => window (2 * b * r) (2 * b * c) h w (F n))
      (D.map (window (2 * b * r) (2 * b * c) h w)) b (2 * (h / (2 * b))) (2 * (w / (2 * b))) (sortedPairs a.orientations a.filenames) O'
      (fun k y x => S k (2 * r + y) (2 * c + x))) ny' nx' schedule' := ⟨hg'.ny_pos, hg'.nx_pos, hg'.even_y, hg'.even_x, hg'.order⟩
  obtain ⟨maps, hm⟩ := C33_total (env := env) v
  obtain ⟨maps', hm'⟩ := C33_total (env := env) v'
  refine ⟨maps, maps', hm, hm', fun Y X c1 c2 c3 c4 => ?_⟩
  have hbY : 2 * (r + Y) < 2 * (H / (2 * b)) := c1.trans_le (Nat.mul_div_le _ _)
  have hbX : 2 * (c + X) < 2 * (W / (2 * b)) := c2.trans_le (Nat.mul_div_le _ _)
  have hbY' : 2 * Y < 2 * (h / (2 * b)) := c3.trans_le (Nat.mul_div_le _ _)
  have hbX' : 2 * X < 2 * (w / (2 * b)) := c4.trans_le (Nat.mul_div_le _ _)
  have er : ∀ k : Fin 4, rowOf (r + Y) k = 2 * r + rowOf Y k := fun k => by unfold rowOf; omega
  have ec : ∀ k : Fin 4, colOf (c + X) k = 2 * c + colOf X k := fun k => by unfold colOf; omega
  have b1 : ∀ k : Fin 4, rowOf (r + Y) k < 2 * (H / (2 * b)) := fun k => by unfold rowOf; omega
  have b2 : ∀ k : Fin 4, colOf (c + X) k < 2 * (W / (2 * b)) := fun k => by unfold colOf; omega
  have b3 : ∀ k : Fin 4, rowOf Y k < 2 * (h / (2 * b)) := fun k => by unfold rowOf; omega
  have b4 : ∀ k : Fin 4, colOf X k < 2 * (w / (2 * b)) := fun k => by unfold colOf; omega
  have key := C33_local (inp := prepared a F D b (2 * (H / (2 * b))) (2 * (W / (2 * b))) (sortedPairs a.orientations a.filenames) O S)
    v hm (Y := r + Y) (X := c + X) ⟨c1, c2⟩ (2 * (h / (2 * b))) (2 * (w / (2 * b)))
    (prepared (argsWindow (2 * b * r) (2 * b * c) h w a) (fun n => window (2 * b * r) (2 * b * c) h w (F n))
      (D.map (window (2 * b * r) (2 * b * c) h w)) b (2 * (h / (2 * b))) (2 * (w / (2 * b))) (sortedPairs a.orientations a.filenames) O'
      (fun k y x => S k (2 * r + y) (2 * c + x))).data
    (prepared (argsWindow (2 * b * r) (2 * b * c) h w a) (fun n => window (2 * b * r) (2 * b * c) h w (F n))
      (D.map (window (2 * b * r) (2 * b * c) h w)) b (2 * (h / (2 * b))) (2 * (w / (2 * b))) (sortedPairs a.orientations a.filenames) O'
      (fun k y x => S k (2 * r + y) (2 * c + x))).errors O'
    v' hm' (Y' := Y) (X' := X) ⟨c3, c4⟩
    (fun p k => by
      show (Img.ofFn _ _ _).px _ _ = (Img.ofFn _ _ _).px _ _
      rw [Img.ofFn_px (b1 k) (b2 k), Img.ofFn_px (b3 k) (b4 k), lit_window _ (b3 k) (b4 k), er, ec])
    (fun p k => by
      show (Img.ofFn _ _ _).px _ _ = (Img.ofFn _ _ _).px _ _
      rw [Img.ofFn_px (b1 k) (b2 k), Img.ofFn_px (b3 k) (b4 k), lit_window _ (b3 k) (b4 k), er, ec]
      rfl)
    (fun k => by
      show O'.px _ _ = O.px _ _
      rw [er, ec]
      exact occulter_window hb hR.binning hin (by omega) (by omega) (by omega) (by omega) hO hO' (by rw [← er]; exact b1 k)
        (by rw [← ec]; exact b2 k) (b3 k) (b4 k))
  obtain ⟨q1, q2, q3⟩ := key
  have hk : ∀ i j, i < 2 → j < 2 → ∃ k : Fin 4, (∀ Y, rowOf Y k = 2 * Y + i) ∧ ∀ X, colOf X k = 2 * X + j := by
    intro i j hi hj
    refine ⟨⟨2 * i + j, by omega⟩, fun Y => ?_, fun X => ?_⟩
    · show 2 * Y + (2 * i + j) / 2 = _
      omega
    · show 2 * X + (2 * i + j) % 2 = _
      omega
  refine ⟨q1, q2, fun i j hi hj => ?_, fun i j hi hj => ?_, fun i j hi hj => ?_, fun i j hi hj => ?_, fun i j hi hj => ?_⟩ <;>
    obtain ⟨k, k1, k2⟩ := hk i j hi hj <;> simp only [← k1, ← k2]
  · exact (q3 k).1
  · exact (q3 k).2.1
  · exact (q3 k).2.2.1
  · exact (q3 k).2.2.2.1
  · exact (q3 k).2.2.2.2

/-- One frame of 8 x 8 pixels, and an occulter near its first pixel. -/
def cornerArgs : CalibArgs :=
  ⟨[0], [['a']], fun _ => 0, 1, 1, some (((1 : Nat) : ℝ), ((1 : Nat) : ℝ), ((4 : Nat) : ℝ)), none, none, .number 1, none, none⟩

def cornerFiles : Name → Option (Img ℝ) := fun _ => some (Img.const 8 8 1)

theorem corner_readable : Readable cornerFiles cornerArgs 1 8 8 (fun _ => Img.const 8 8 1) none :=
  ⟨rfl, le_rfl, ⟨rfl, rfl⟩, fun _ _ => ⟨rfl, rfl, rfl⟩, Or.inl ⟨rfl, rfl⟩, rfl, rfl, by simp [cornerArgs]⟩

theorem corner_prescribes : Prescribes cornerArgs cornerArgs.filenames.length 1 8 8 (fun _ _ _ => 1) :=
  Or.inl ⟨1, rfl, one_ne_zero, fun _ _ _ => by unfold atLeast; rw [if_neg (by norm_num)]; norm_num⟩

theorem corner_lit : ∀ n ∈ cornerArgs.filenames, ∀ y x, y < 2 * (8 / (2 * 1)) → x < 2 * (8 / (2 * 1)) →
    0 ≤ lit ((fun _ : Name => Img.const 8 8 (1 : ℝ)) n) none 1 y x := by
  intro n _ y x hy hx
  unfold lit familySum
  refine sum_nonneg fun u _ => sum_nonneg fun v _ => ?_
  exact lit_const (by norm_num) _ _

/-- C127, violation: when the centre of the occulter is above or left of the part, the occulter is moved: here the superpixel
`(2, 2)` of the detector is not occulted, but the calibration of the part that starts at pixel `(2, 2)` treats it, now `(1, 1)`,
as occulted. -/
theorem C127_occulter_outside : ∃ inp inp', prepare cornerFiles fit cornerArgs = .ok inp ∧
    prepare (filesWindow 2 2 6 6 cornerFiles) fit (argsWindow 2 2 6 6 cornerArgs) = .ok inp' ∧
    ¬ Occulted inp 2 2 ∧ Occulted inp' 1 1 := by
  have hR' := readable_window corner_readable (h := 6) (w := 6) rfl rfl 2 2
  have hS' := prescribes_window (r := 1) (c := 1) (h := 6) (w := 6) le_rfl corner_prescribes (by norm_num) (by norm_num)
  have hL := sortedPairs_sorted cornerArgs
  obtain ⟨inp, e, -⟩ := C73_frames_partial (fit := fit) corner_readable corner_prescribes (by norm_num [cornerArgs]) corner_lit hL
  obtain ⟨inp', e', -⟩ := C73_frames_partial (fit := fit) hR' hS' (by norm_num [cornerArgs, argsWindow]) (by
    intro n hn y x hy hx
    rw [show (2 : Nat) = 2 * 1 * 1 from rfl]
    rw [lit_window _ (by simpa using hy) (by simpa using hx)]
    exact corner_lit n hn _ _ (by omega) (by omega)) (sortedPairs_sorted _)
  refine ⟨inp, inp', e, e', ?_, ?_⟩
  · rw [C76_occulted_partial corner_readable rfl e (by norm_num) (by norm_num)]
    norm_num
  · obtain ⟨hO, -, -⟩ := prepare_occulter hR' e'
    change occulterFlag _ _ (some (((1 : Nat) : ℝ) - ((2 : Nat) : ℝ), ((1 : Nat) : ℝ) - ((2 : Nat) : ℝ), ((4 : Nat) : ℝ))) 1 = _ at hO
    rw [occulterFlag_ok (by norm_num) (by norm_num)] at hO
    have p1 : pyInt (((pyInt ((((1 : Nat) : ℝ) - ((2 : Nat) : ℝ)) / ((1 : Int) : ℝ)) : ℤ) : ℝ) / 2) = ((0 : Nat) : ℤ) := by
      have t : pyInt ((((1 : Nat) : ℝ) - ((2 : Nat) : ℝ)) / ((1 : Int) : ℝ)) = -1 := by
        unfold pyInt
        rw [if_neg (by norm_num), Int.ceil_eq_iff]
        norm_num
      rw [t]
      unfold pyInt
      rw [if_neg (by norm_num), Int.ceil_eq_iff]
      norm_num
    have p2 : pyInt (((pyInt ((((4 : Nat) : ℝ)) / ((1 : Int) : ℝ)) : ℤ) : ℝ) / 2) = ((2 : Nat) : ℤ) := by
      have t : pyInt ((((4 : Nat) : ℝ)) / ((1 : Int) : ℝ)) = 4 := by
        unfold pyInt
        rw [if_pos (by norm_num), Int.floor_eq_iff]
        norm_num
      rw [t]
      unfold pyInt
      rw [if_pos (by norm_num), Int.floor_eq_iff]
      norm_num
    rw [p1, p2] at hO
    injection hO with hO
    refine ⟨0, ?_⟩
    rw [← hO, Img.ofFn_px (by unfold rowOf; norm_num) (by unfold colOf; norm_num), if_pos]
    · norm_num
    · rw [show rowOf 1 0 / 2 = 1 from rfl, show colOf 1 0 / 2 = 1 from rfl]
      simp only [Int.cast_natCast]
      exact (circle_iff 0 0 2 1 1).2 (by norm_num)

/-- The hypotheses of C127 can be met: the last 4 x 4 pixels of the detector, in one chunk, with the occulter moved there. -/
example : ∃ a : CalibArgs, Readable cornerFiles a 1 8 8 (fun _ => Img.const 8 8 1) none ∧
    Prescribes a a.filenames.length 1 8 8 (fun _ _ _ => 1) ∧ 0 < a.gain ∧ a.occulter ≠ none ∧
    CentreWithin (2 * 1 * 2) (2 * 1 * 2) a ∧ EvenChunks (2 * (8 / (2 * 1))) (2 * (8 / (2 * 1))) 2 2 [3, 1, 0, 2] ∧
    EvenChunks (2 * (4 / (2 * 1))) (2 * (4 / (2 * 1))) 1 1 [0] := by
  refine ⟨{ cornerArgs with occulter := some (5, 6, 2) }, ⟨rfl, le_rfl, ⟨rfl, rfl⟩, fun _ _ => ⟨rfl, rfl, rfl⟩, Or.inl ⟨rfl, rfl⟩,
    rfl, rfl, by simp [cornerArgs]⟩, corner_prescribes, by norm_num [cornerArgs], by simp, ?_,
    ⟨by norm_num, by norm_num, rfl, rfl, by decide⟩, ⟨by norm_num, by norm_num, rfl, rfl, by decide⟩⟩
  intro oy ox r h
  simp only [Option.some.injEq, Prod.mk.injEq] at h
  obtain ⟨rfl, rfl, rfl⟩ := h
  norm_num

end

end

end Micropol

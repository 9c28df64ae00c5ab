import Verif.Props.ChenCalculate
import Verif.Props.OtherUnits

/-!
# C130: what a Chen-Wang-Liang calibration depends on

The matrices of a superpixel and the pixels of that superpixel; the unit of the frames.
-/

set_option autoImplicit false
set_option linter.unusedSectionVars false

namespace Micropol

noncomputable section

open Classical Finset

section

variable {env : ChenEnv} {fs fs' : Name → Option (Img ℝ)} {a : ChenArgs} {H W H' W' : Nat} {A A' : Name → Img ℝ}
  {D D' : Option (Img ℝ)} {F F' : Img ℝ} {M M' : ℝ} {pos pos' : Fin 4 → Fin 4}

theorem ChenReadable.pos_unique (h : ChenReadable fs a H W A D F M pos) (h' : ChenReadable fs' a H' W' A' D' F' M' pos') :
    pos' = pos := by
  funext l
  have e : a.previsions (pos' l) = a.previsions (pos l) := by
    obtain ⟨p0, p1, p2, p3⟩ := h.positions
    obtain ⟨q0, q1, q2, q3⟩ := h'.positions
    fin_cases l
    · exact q0.trans p0.symm
    · exact q1.trans p1.symm
    · exact q2.trans p2.symm
    · exact q3.trans p3.symm
  have := h'.angle l
  rw [e, h.angle l] at this
  injection this with this
  exact this.symm

/-- Both calls have a dark, or none has. -/
theorem ChenReadable.darks (h : ChenReadable fs a H W A D F M pos) (h' : ChenReadable fs' a H' W' A' D' F' M' pos') :
    (D = none ∧ D' = none) ∨ ∃ d d', D = some d ∧ D' = some d' := by
  rcases h.dark with ⟨h1, h2⟩ | ⟨n, d, -, h1, -, h2, -⟩ <;> rcases h'.dark with ⟨g1, g2⟩ | ⟨m, d', -, g1, -, g2, -⟩
  · exact Or.inl ⟨h2, g2⟩
  · rw [h1] at g1; cases g1
  · rw [h1] at g1; cases g1
  · exact Or.inr ⟨d, d', h2, g2⟩

/-- C130: the matrices and offsets of a superpixel depend on the pixels of that superpixel only (in the frames, the dark and the
flat), besides the greatest value of the flat.  The two calls may have files of different sizes, and the superpixel may be at
different places in them. -/
theorem C130_local (he : env.PinvCorrect) (h : ChenReadable fs a H W A D F M pos) (h' : ChenReadable fs' a H' W' A' D' F' M pos')
    {Y X Y' X' : Nat} (hY : Y < H / 2) (hX : X < W / 2) (hY' : Y' < H' / 2) (hX' : X' < W' / 2)
    (hA : ∀ n ∈ a.filenames, ∀ k, (A' n).superpixel Y' X' k = (A n).superpixel Y X k)
    (hF : ∀ k, F'.superpixel Y' X' k = F.superpixel Y X k)
    (hD : ∀ d d', D = some d → D' = some d' → ∀ k, d'.superpixel Y' X' k = d.superpixel Y X k) :
    ∃ C d C' d', calculateChen env fs a = .ok (C, d) ∧ calculateChen env fs' a = .ok (C', d') ∧
      ∀ k, d'.superpixel Y' X' k = d.superpixel Y X k ∧ ∀ i j, (C' i j).superpixel Y' X' k = (C i j).superpixel Y X k := by
  have hp := h.pos_unique h'
  subst hp
  obtain ⟨C, d, hr, -, -, hv⟩ := C84_result he h
  obtain ⟨C', d', hr', -, -, hv'⟩ := C84_result he h'
  have hc : ∀ n ∈ a.filenames, cleanSuper (A' n) D' F' M Y' X' = cleanSuper (A n) D F M Y X := by
    intro n hn
    funext k
    have e1 := hA n hn k
    have e2 := hF k
    unfold Img.superpixel at e1 e2
    unfold cleanSuper cleanPixel litFlat
    rcases h.darks h' with ⟨h1, h2⟩ | ⟨d, d', h1, h2⟩
    · subst h1 h2
      dsimp only
      rw [e1, e2]
    · have e3 := hD d d' h1 h2 k
      unfold Img.superpixel at e3
      subst h1 h2
      simp only [e1, e2, e3]
  refine ⟨C, d, C', d', hr, hr', fun k => ⟨?_, fun i j => ?_⟩⟩
  · rw [(hv Y X hY hX 0 0 k).2, (hv' Y' X' hY' hX' 0 0 k).2]
    congr 2
    exact List.map_congr_left fun n hn => by rw [hc n hn]
  · rw [(hv Y X hY hX i j k).1, (hv' Y' X' hY' hX' i j k).1]
    congr 2
    exact List.map_congr_left fun n hn => by rw [hc n hn]

theorem clean_units (h : ChenReadable fs a H W A D F M pos) (h' : ChenReadable fs' a H W A' D' F' M' pos') {c : ℝ} (hc : 0 < c)
    (hA : ∀ n ∈ a.filenames, A' n = inUnit c (A n))
    (hDF : (D = none ∧ D' = none ∧ ∃ e, 0 < e ∧ F' = inUnit e F) ∨ ∃ d, D = some d ∧ D' = some (inUnit c d) ∧ F' = inUnit c F ∧
      ∀ y x, y < H → x < W → d.px y x < F.px y x) {Y X : Nat} (hY : Y < H / 2) (hX : X < W / 2) {n : Name} (hn : n ∈ a.filenames)
    (k : Fin 4) : cleanSuper (A' n) D' F' M' Y X k = c * cleanSuper (A n) D F M Y X k := by
  have hk := k.isLt
  obtain ⟨e, he, hlit⟩ : ∃ e, 0 < e ∧ ∀ y x, y < H → x < W → litFlat F' D' y x = e * litFlat F D y x := by
    rcases hDF with ⟨rfl, rfl, e, he, rfl⟩ | ⟨d, rfl, rfl, rfl, hlt⟩
    · exact ⟨e, he, fun y x _ _ => inUnit_px e F y x⟩
    · refine ⟨c, hc, fun y x hy hx => ?_⟩
      have := hlt y x hy hx
      unfold litFlat
      dsimp only
      rw [inUnit_px, inUnit_px, if_pos (sub_pos.2 this), if_pos (by rw [← mul_sub]; exact mul_pos hc (sub_pos.2 this)), mul_sub]
  have hM : M' = e * M := by
    obtain ⟨⟨y, x, hy, hx, e1⟩, m1⟩ := h.greatest
    obtain ⟨⟨y', x', hy', hx', e2⟩, m2⟩ := h'.greatest
    refine le_antisymm ?_ ?_
    · rw [← e2, hlit y' x' hy' hx']
      exact mul_le_mul_of_nonneg_left (m1 y' x' hy' hx') he.le
    · rw [← e1, ← hlit y x hy hx]
      exact m2 y x hy hx
  unfold cleanSuper
  have hy : 2 * Y + k.val / 2 < H := by omega
  have hx : 2 * X + k.val % 2 < W := by omega
  have key : ∀ v v' : ℝ, v' = c * v → (if litFlat F' D' (2 * Y + k.val / 2) (2 * X + k.val % 2) = 0 then v'
      else v' / (litFlat F' D' (2 * Y + k.val / 2) (2 * X + k.val % 2) / M')) =
      c * (if litFlat F D (2 * Y + k.val / 2) (2 * X + k.val % 2) = 0 then v
      else v / (litFlat F D (2 * Y + k.val / 2) (2 * X + k.val % 2) / M)) := by
    intro v v' hv
    rw [hlit _ _ hy hx, hM]
    by_cases hz : litFlat F D (2 * Y + k.val / 2) (2 * X + k.val % 2) = 0
    · rw [hz, mul_zero, if_pos rfl, if_pos rfl, hv]
    · rw [if_neg hz, if_neg (mul_ne_zero he.ne' hz), mul_div_mul_left _ _ he.ne', hv, mul_div_assoc]
  unfold cleanPixel
  rw [hA n hn]
  rcases hDF with ⟨rfl, rfl, -⟩ | ⟨d, rfl, rfl, -⟩
  · exact key _ _ (inUnit_px c (A n) _ _)
  · refine key _ _ ?_
    dsimp only
    rw [inUnit_px, inUnit_px, ← mul_sub, mul_max_of_nonneg _ _ hc.le, mul_zero]

theorem measured_mul (pos : Fin 4 → Fin 4) (c : ℝ) (p : Fin 4 → ℝ) : measured pos (fun k => c * p k) = fun m => c * measured pos p m := by
  funext m
  unfold measured
  fin_cases m
  · show c * p (pos 0) + c * p (pos 3) = c * (p (pos 0) + p (pos 3)); ring
  · show c * p (pos 0) - c * p (pos 3) = c * (p (pos 0) - p (pos 3)); ring
  · show c * p (pos 1) - c * p (pos 2) = c * (p (pos 1) - p (pos 2)); ring

theorem sqLen_mul {n : Nat} (c : ℝ) (v : Fin n → ℝ) : sqLen (fun k => c * v k) = c ^ 2 * sqLen v := by
  unfold sqLen
  rw [mul_sum]
  exact sum_congr rfl fun k _ => by ring

theorem ideal_mul (angles : Fin 4 → ℝ) (c : ℝ) (s : Fin 3 → ℝ) (i : Fin 4) :
    idealResponse angles (fun m => c * s m) i = c * idealResponse angles s i := by
  unfold idealResponse
  ring

/-- The part of a matrix that does not depend on the unit. -/
def unitFree (angles : Fin 4 → ℝ) (pos : Fin 4 → Fin 4) (p : Fin 4 → ℝ) (i j : Fin 4) : ℝ :=
  if measured pos p = 0 then 0 else idealResponse angles (measured pos p) i * p j / sqLen p

theorem frameMatrix_unit (angles : Fin 4 → ℝ) (pos : Fin 4 → Fin 4) (p : Fin 4 → ℝ) (i j : Fin 4) {c : ℝ} (hc : 0 < c) :
    frameMatrix angles pos (fun k => c * p k) i j =
      unitFree angles pos p i j + (frameMatrix angles pos p i j - unitFree angles pos p i j) / c ^ 2 := by
  unfold frameMatrix unitFree
  rw [measured_mul]
  by_cases hs : measured pos p = 0
  · rw [if_pos hs, if_pos hs, if_pos (by rw [hs]; funext m; exact mul_zero c)]
    simp
  · have hs' : (fun m => c * measured pos p m) ≠ 0 := fun h0 => hs (by
      funext m
      have := congrFun h0 m
      exact (mul_eq_zero.1 this).resolve_left hc.ne')
    have hp : p ≠ 0 := by
      intro h0
      apply hs
      rw [h0]
      funext m
      fin_cases m <;> simp [measured]
    have p1 := sqLen_pos hp
    have p2 := sqLen_pos hs
    rw [if_neg hs, if_neg hs, if_neg hs', sqLen_mul, sqLen_mul, ideal_mul]
    field_simp
    ring

theorem list_sum_affine {α : Type} (l : List α) (f g : α → ℝ) (t : ℝ) :
    (l.map fun n => g n + (f n - g n) / t).sum = (l.map g).sum + ((l.map f).sum - (l.map g).sum) / t := by
  induction l with
  | nil => simp
  | cons n l ih =>
    simp only [List.map_cons, List.sum_cons]
    rw [ih]
    ring

/-- C130: frames (and darks) in a unit `c` times smaller.  There are matrices `L`, the same for all units, from which the matrices
written differ by a part that falls as `1 / c²`: the larger the numbers, the less the unit matters.  Without a dark the unit of the
flat does not matter at all; with a dark the flat is in the same unit and nowhere below the dark. -/
theorem C130_units_partial (he : env.PinvCorrect) (h : ChenReadable fs a H W A D F M pos) :
    ∃ C d, calculateChen env fs a = .ok (C, d) ∧ ∃ L : Fin 4 → Fin 4 → Nat → Nat → ℝ,
      ∀ (c : ℝ) (fs' : Name → Option (Img ℝ)) (A' : Name → Img ℝ) (D' : Option (Img ℝ)) (F' : Img ℝ) (M' : ℝ) (pos' : Fin 4 → Fin 4),
        0 < c → ChenReadable fs' a H W A' D' F' M' pos' → (∀ n ∈ a.filenames, A' n = inUnit c (A n)) →
        ((D = none ∧ D' = none ∧ ∃ e, 0 < e ∧ F' = inUnit e F) ∨ ∃ d, D = some d ∧ D' = some (inUnit c d) ∧ F' = inUnit c F ∧
          ∀ y x, y < H → x < W → d.px y x < F.px y x) →
        ∃ C' d', calculateChen env fs' a = .ok (C', d') ∧ ∀ i j Y X, Y < H / 2 → X < W / 2 → ∀ k,
          (C' i j).superpixel Y X k = L i j Y X + ((C i j).superpixel Y X k - L i j Y X) / c ^ 2 := by
  obtain ⟨C, d, hr, -, -, hv⟩ := C84_result he h
  refine ⟨C, d, hr, fun i j Y X => (a.filenames.map fun n => unitFree a.previsions pos (cleanSuper (A n) D F M Y X) i j).sum /
    a.filenames.length, ?_⟩
  intro c fs' A' D' F' M' pos' hc h' hA hDF
  have hp := h.pos_unique h'
  subst hp
  obtain ⟨C', d', hr', -, -, hv'⟩ := C84_result he h'
  refine ⟨C', d', hr', fun i j Y X hY hX k => ?_⟩
  rw [(hv Y X hY hX i j k).1, (hv' Y X hY hX i j k).1]
  have : ∀ n ∈ a.filenames, frameMatrix a.previsions pos' (cleanSuper (A' n) D' F' M' Y X) i j =
      unitFree a.previsions pos' (cleanSuper (A n) D F M Y X) i j +
        (frameMatrix a.previsions pos' (cleanSuper (A n) D F M Y X) i j -
          unitFree a.previsions pos' (cleanSuper (A n) D F M Y X) i j) / c ^ 2 := by
    intro n hn
    rw [← frameMatrix_unit a.previsions pos' _ i j hc]
    congr 1
    funext k
    exact clean_units h h' hc hA hDF hY hX hn k
  rw [List.map_congr_left this, list_sum_affine]
  ring

end

/-! ## Violations -/

/-- Four frames of an ideal sensor with two superpixels, illuminated with intensity `I`. -/
def wideFrames (I : ℝ) (n : Name) : Img ℝ :=
  Img.ofFn 2 4 (fun y x => idealResponse ![0, 45, -45, 90] (polarized I (exChenAngle n)) (famIdx y x))

/-- The files: the frames and a flat. -/
def wideFs (I : ℝ) (F : Img ℝ) (n : Name) : Option (Img ℝ) := if n = ['f'] then some F else some (wideFrames I n)

theorem wide_readable {I : ℝ} {F : Img ℝ} (hF : F.HasShape 2 4) {M : ℝ} (hM : M ≠ 0) (h1 : ∃ y x, y < 2 ∧ x < 4 ∧ F.px y x = M)
    (h2 : ∀ y x, y < 2 → x < 4 → F.px y x ≤ M) : ChenReadable (wideFs I F) exChenArgs 2 4 (wideFrames I) none F M id where
  len := rfl
  reference := exChen_readable.reference
  noOcculter := rfl
  even := ⟨rfl, rfl⟩
  frames := by
    intro n hn
    refine ⟨?_, rfl, rfl⟩
    unfold wideFs
    rw [if_neg]
    rintro rfl
    revert hn
    decide
  dark := Or.inl ⟨rfl, rfl⟩
  flat := ⟨['f'], by decide, rfl, rfl, hF⟩
  greatest := ⟨h1, h2⟩
  notDark := hM
  positions := ⟨rfl, rfl, rfl, rfl⟩

theorem wide_super {I : ℝ} {F : Img ℝ} {M : ℝ} (h1 : ∀ y x, y < 2 → x < 2 → F.px y x = 1) (n : Name) :
    cleanSuper (wideFrames I n) none F M 0 0 = idealResponse exChenArgs.previsions (polarized (I * M) (exChenAngle n)) := by
  funext k
  have hk := k.isLt
  have e : litFlat F none (2 * 0 + k.val / 2) (2 * 0 + k.val % 2) = 1 := h1 _ _ (by omega) (by omega)
  unfold cleanSuper cleanPixel
  dsimp only
  rw [e, if_neg one_ne_zero]
  unfold wideFrames
  rw [Img.ofFn_px (by omega) (by omega), famIdx_of]
  unfold idealResponse polarized
  show _ = (I * M + _ * (I * M * _) + _ * (I * M * _)) / 2
  simp only [Matrix.cons_val_zero, Matrix.cons_val_one, Matrix.cons_val_two, Matrix.head_cons, Matrix.tail_cons]
  rw [one_div, div_inv_eq_mul]
  show (I + _ * (I * _) + _ * (I * _)) / 2 * M = _
  simp only [exChenArgs]
  ring

/-- What the calibration makes of a dark superpixel. -/
theorem wide_dark {I : ℝ} {F : Img ℝ} {M : ℝ} (hI : 0 < I * M) (hF : F.HasShape 2 4) (hM : M ≠ 0)
    (g1 : ∃ y x, y < 2 ∧ x < 4 ∧ F.px y x = M) (g2 : ∀ y x, y < 2 → x < 4 → F.px y x ≤ M)
    (h1 : ∀ y x, y < 2 → x < 2 → F.px y x = 1) :
    ∃ C d, calculateChen exChenEnv (wideFs I F) exChenArgs = .ok (C, d) ∧
      ∑ j, (C 0 j).px 0 0 * (0 - d.superpixel 0 0 j) = -(1 / (6 * (I * M))) := by
  obtain ⟨C, d, hr, hall⟩ := C84_ideal_sensor exChenEnv_correct (wide_readable (I := I) hF hM g1 g2) (Y := 0) (X := 0) (by norm_num)
    (by norm_num) hI (n0 := ['a']) (n1 := ['b']) (n2 := ['c']) (n3 := ['d']) rfl (by rw [wide_super h1]; rfl)
    (by rw [wide_super h1]; rfl) (by rw [wide_super h1]; rfl) (by rw [wide_super h1]; rfl) ![0, 0, 0]
  refine ⟨C, d, hr, ?_⟩
  have e := hall 0
  have id0 : ∀ S, idealResponse exChenArgs.previsions S 0 = (S 0 + S 1) / 2 := fun S => (exChen_readable.ideal S).1
  have zero : ∀ j, idealResponse exChenArgs.previsions ![0, 0, 0] j = 0 := fun j => by
    unfold idealResponse
    simp
  simp only [zero] at e
  refine e.trans ((id0 _).trans ?_)
  show ((2 * (I * M) ^ 2 + 1) / (3 * (I * M) ^ 2) * 0 - 1 / (3 * (I * M)) + (2 * (I * M) ^ 2 + 1) / (3 * (I * M) ^ 2) * 0 / 4) / 2 = _
  rw [mul_zero, zero_sub, zero_div, add_zero, neg_div, div_div]
  congr 2
  ring

/-- A flat of ones, and one with a bright pixel far from the first superpixel. -/
def chenBrightFlat : Img ℝ := Img.ofFn 2 4 fun y x => if y = 0 ∧ x = 3 then 2 else 1

theorem wide_ones (I : ℝ) (hI : 0 < I) : ∃ C d, calculateChen exChenEnv (wideFs I (Img.const 2 4 1)) exChenArgs = .ok (C, d) ∧
    ∑ j, (C 0 j).px 0 0 * (0 - d.superpixel 0 0 j) = -(1 / (6 * I)) := by
  have := wide_dark (I := I) (F := Img.const 2 4 1) (M := 1) (by rw [mul_one]; exact hI) ⟨rfl, rfl⟩ one_ne_zero
    ⟨0, 0, by decide, by decide, Img.ofFn_px (by decide) (by decide)⟩ (fun y x hy hx => (Img.ofFn_px hy hx).le)
    (fun y x hy hx => Img.ofFn_px (by omega) (by omega))
  rwa [mul_one] at this

/-- C130, violation: the unit of the frames matters.  Frames of twice the numbers should give matrices whose results are twice as
large; what they make of a dark superpixel is half as large instead. -/
theorem C130_unit_matters : ∃ C d C' d', calculateChen exChenEnv (wideFs 1 (Img.const 2 4 1)) exChenArgs = .ok (C, d) ∧
    calculateChen exChenEnv (wideFs 2 (Img.const 2 4 1)) exChenArgs = .ok (C', d') ∧
    (∀ n, wideFrames 2 n = inUnit 2 (wideFrames 1 n)) ∧
    ∑ j, (C' 0 j).px 0 0 * (2 * 0 - d'.superpixel 0 0 j) ≠ 2 * ∑ j, (C 0 j).px 0 0 * (0 - d.superpixel 0 0 j) := by
  obtain ⟨C, d, hr, e⟩ := wide_ones 1 one_pos
  obtain ⟨C', d', hr', e'⟩ := wide_ones 2 two_pos
  refine ⟨C, d, C', d', hr, hr', fun n => ?_, ?_⟩
  · refine Img.ext_px rfl rfl fun y x hy hx => ?_
    rw [inUnit_px]
    unfold wideFrames
    rw [Img.ofFn_px (h := 2) (w := 4) hy hx, Img.ofFn_px (h := 2) (w := 4) hy hx, ← ideal_mul]
    congr 1
    funext m
    unfold polarized
    fin_cases m <;> simp
  · rw [mul_zero, e, e']
    norm_num

/-- C130, violation: one bright pixel of the flat changes the matrices of a superpixel elsewhere. -/
theorem C130_flat_matters : ∃ C d C' d', calculateChen exChenEnv (wideFs 1 (Img.const 2 4 1)) exChenArgs = .ok (C, d) ∧
    calculateChen exChenEnv (wideFs 1 chenBrightFlat) exChenArgs = .ok (C', d') ∧
    (∀ y x, y < 2 → x < 3 → chenBrightFlat.px y x = (Img.const 2 4 (1 : ℝ)).px y x) ∧
    ¬ ∀ j, (C' 0 j).px 0 0 = (C 0 j).px 0 0 ∧ d'.superpixel 0 0 j = d.superpixel 0 0 j := by
  obtain ⟨C, d, hr, e⟩ := wide_ones 1 one_pos
  have px : ∀ y x, y < 2 → x < 4 → chenBrightFlat.px y x = if y = 0 ∧ x = 3 then 2 else 1 := fun y x hy hx => Img.ofFn_px hy hx
  obtain ⟨C', d', hr', e'⟩ := wide_dark (I := 1) (F := chenBrightFlat) (M := 2) (by norm_num) ⟨rfl, rfl⟩ two_ne_zero
    ⟨0, 3, by decide, by decide, by rw [px _ _ (by decide) (by decide)]; norm_num⟩
    (fun y x hy hx => by rw [px y x hy hx]; split <;> norm_num)
    (fun y x hy hx => by rw [px y x hy (by omega), if_neg (by omega)])
  refine ⟨C, d, C', d', hr, hr', fun y x hy hx => ?_, fun hall => ?_⟩
  · rw [px y x hy (by omega), if_neg (by omega)]
    exact (Img.ofFn_px (f := fun _ _ => (1 : ℝ)) hy (by omega)).symm
  · have : ∑ j, (C' 0 j).px 0 0 * (0 - d'.superpixel 0 0 j) = ∑ j, (C 0 j).px 0 0 * (0 - d.superpixel 0 0 j) :=
      sum_congr rfl fun j _ => by rw [(hall j).1, (hall j).2]
    rw [e, e'] at this
    norm_num at this

/-- The hypotheses of `C130_local` are met: the first superpixels of files of sizes 2x4 and 2x2. -/
example : ChenReadable (wideFs 1 (Img.const 2 4 1)) exChenArgs 2 4 (wideFrames 1) none (Img.const 2 4 1) 1 id ∧
    ChenReadable exChenFs exChenArgs 2 2 exChenFrames none (Img.const 2 2 1) 1 id ∧
    ∀ n, ∀ k, (exChenFrames n).superpixel 0 0 k = (wideFrames 1 n).superpixel 0 0 k := by
  refine ⟨wide_readable ⟨rfl, rfl⟩ one_ne_zero ⟨0, 0, by decide, by decide, Img.ofFn_px (by decide) (by decide)⟩
    (fun y x hy hx => (Img.ofFn_px hy hx).le), exChen_readable, fun n k => ?_⟩
  have := k.isLt
  unfold Img.superpixel exChenFrames wideFrames
  rw [Img.ofFn_px (by omega) (by omega), Img.ofFn_px (by omega) (by omega)]

/-- The hypotheses of `C130_units_partial` are met: the same frames with twice the numbers, and a flat of threes. -/
example : ChenReadable (wideFs 2 (Img.const 2 4 3)) exChenArgs 2 4 (wideFrames 2) none (Img.const 2 4 3) 3 id ∧
    (Img.const 2 4 (3 : ℝ)) = inUnit 3 (Img.const 2 4 1) := by
  refine ⟨wide_readable ⟨rfl, rfl⟩ three_ne_zero ⟨0, 0, by decide, by decide, Img.ofFn_px (by decide) (by decide)⟩
    (fun y x hy hx => (Img.ofFn_px hy hx).le), Img.ext_px rfl rfl fun y x hy hx => ?_⟩
  rw [inUnit_px]
  unfold Img.const
  rw [Img.ofFn_px (h := 2) (w := 4) hy hx, Img.ofFn_px (h := 2) (w := 4) hy hx, mul_one]

end

end Micropol

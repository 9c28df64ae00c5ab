import Verif.Lemmas.NotANumber
import Verif.Props.Polarization
import Verif.Props.Corrections
import Verif.Model.Utils

/-!
# C119  "Not a number" pixels

A pixel that is not a number (NaN: lost in transmission, masked, 0/0 of an earlier division) makes NaN of exactly those results that
are computed from it.  The theorems hold for all numbers with a value `n` that follows the rules `IsNaN`; `C119_ieee` shows that the
NaN of floating point does.
-/

set_option autoImplicit false
set_option linter.unusedSectionVars false

namespace Micropol

/-- The NaN of floating point follows the rules, whatever the rounding and wherever overflow begins; it is not `>= 0`, not `>` and not
`<` anything; its square root is itself. -/
theorem C119_ieee (round : ℝ → Option ℝ) :
    IsNaN (Fp.nan : Fp round) ∧ (∀ a : Fp round, ¬ (Fp.nan : Fp round) ≥ a) ∧ (∀ a : Fp round, ¬ (Fp.nan : Fp round) > a) ∧
      (∀ a : Fp round, ¬ (Fp.nan : Fp round) < a) ∧ Fp.sqrt (Fp.nan : Fp round) = Fp.nan := by
  refine ⟨⟨fun a => ?_, fun a => ?_, fun a => ?_, fun a => ?_, fun a => ?_, fun a => ?_, fun a => ?_, fun a => ?_, ?_, ?_⟩,
    ?_, ?_, ?_, rfl⟩
  · cases a <;> rfl
  · cases a <;> rfl
  · cases a <;> rfl
  · cases a <;> rfl
  · cases a <;> rfl
  · cases a <;> rfl
  · cases a <;> rfl
  · cases a <;> rfl
  · exact fun h => by cases (show (Fp.nan : Fp round) = .num 0 from h)
  · exact fun h => by cases (show (Fp.nan : Fp round) = .num 1 from h)
  · intro a h
    have h' : Fp.le a (Fp.nan : Fp round) := h
    cases a <;> exact h'
  · intro a h
    have h' : Fp.le a (Fp.nan : Fp round) := h.1
    cases a <;> exact h'
  · intro a h
    exact h.1

/-- Where NaN comes from: 0/0, infinity/infinity, infinity - infinity, 0 times infinity and roots of negative numbers; a number other
than 0 divided by 0 is the infinity of its sign; every other operation on numbers is the rounded exact one, or an infinity on overflow. -/
theorem C119_sources (round : ℝ → Option ℝ) (a b : ℝ) (s : Bool) :
    (Fp.num 0 / Fp.num 0 : Fp round) = .nan ∧ (Fp.inf s / Fp.inf s : Fp round) = .nan ∧ (Fp.inf s - Fp.inf s : Fp round) = .nan ∧
      (Fp.num 0 * Fp.inf s : Fp round) = .nan ∧ (a < 0 → Fp.sqrt (Fp.num a : Fp round) = .nan) ∧
      (0 < a → (Fp.num a / Fp.num 0 : Fp round) = .inf false) ∧ (a < 0 → (Fp.num a / Fp.num 0 : Fp round) = .inf true) ∧
      (∀ v, round (a + b) = some v → (Fp.num a + Fp.num b : Fp round) = .num v) ∧
      (∀ v, round (a - b) = some v → (Fp.num a - Fp.num b : Fp round) = .num v) ∧
      (∀ v, round (a * b) = some v → (Fp.num a * Fp.num b : Fp round) = .num v) ∧
      (∀ v, b ≠ 0 → round (a / b) = some v → (Fp.num a / Fp.num b : Fp round) = .num v) ∧
      (∀ v, 0 ≤ a → round (Real.sqrt a) = some v → Fp.sqrt (Fp.num a : Fp round) = .num v) ∧
      (round (a * b) = none → a * b < 0 → (Fp.num a * Fp.num b : Fp round) = .inf true) ∧
      (round (a * b) = none → 0 ≤ a * b → (Fp.num a * Fp.num b : Fp round) = .inf false) := by
  have of : ∀ {x v : ℝ}, round x = some v → (Fp.ofReal x : Fp round) = .num v := fun h => by unfold Fp.ofReal; rw [h]
  have ofn : ∀ {x : ℝ}, round x = none → (Fp.ofReal x : Fp round) = .inf (decide (x < 0)) := fun h => by unfold Fp.ofReal; rw [h]
  refine ⟨?_, rfl, ?_, ?_, fun h => ?_, fun h => ?_, fun h => ?_, fun v h => of h, fun v h => ?_, fun v h => of h, fun v hb h => ?_,
    fun v ha h => ?_, fun h h0 => ?_, fun h h0 => ?_⟩
  · show (if (0 : ℝ) = 0 then (if (0 : ℝ) = 0 then Fp.nan else _) else _ : Fp round) = .nan
    rw [if_pos rfl, if_pos rfl]
  · show (if s = !s then Fp.inf s else Fp.nan : Fp round) = .nan
    rw [if_neg (by cases s <;> decide)]
  · show (if (0 : ℝ) = 0 then Fp.nan else _ : Fp round) = .nan
    rw [if_pos rfl]
  · show (if a < 0 then Fp.nan else _ : Fp round) = .nan
    rw [if_pos h]
  · show (if (0 : ℝ) = 0 then (if a = 0 then Fp.nan else .inf (decide (a < 0))) else _ : Fp round) = _
    rw [if_pos rfl, if_neg h.ne', decide_eq_false (not_lt.2 h.le)]
  · show (if (0 : ℝ) = 0 then (if a = 0 then Fp.nan else .inf (decide (a < 0))) else _ : Fp round) = _
    rw [if_pos rfl, if_neg h.ne, decide_eq_true h]
  · exact of (x := a + -b) (by rw [← sub_eq_add_neg]; exact h)
  · show (if b = 0 then _ else Fp.ofReal (a / b) : Fp round) = _
    rw [if_neg hb]
    exact of h
  · show (if a < 0 then Fp.nan else Fp.ofReal (Real.sqrt a) : Fp round) = _
    rw [if_neg (not_lt.2 ha)]
    exact of h
  · exact (ofn h).trans (by rw [decide_eq_true h0])
  · exact (ofn h).trans (by rw [decide_eq_false (not_lt.2 h0)])

/-- The functions of this property are those of the other properties: for real numbers they are `pB`, `DoLP`, `AoLP`, `fix_data` and
`correct_flat`. -/
theorem C119_same_functions (S : Fin 3 → Img ℝ) (hS : ∀ q, (S q).SameShape (S 0)) (data flat : Img ℝ) (lo hi : ℝ) (junk : Nat → Nat → ℝ) :
    pBWith Real.sqrt S = pB S ∧ DoLP S = .ok (dolpWith Real.sqrt S) ∧ aolpWith (1 / 2) arctan2 S = AoLP S ∧
      fixDataWith data lo hi = fixData data lo hi ∧
      (flat.h ≠ 0 → flat.w ≠ 0 → flat.mean ≠ 0 → correctFlatWith List.sum junk data flat = correctFlatData junk data flat) := by
  refine ⟨rfl, ?_, ?_, ?_, fun h1 h2 hm => ?_⟩
  · obtain ⟨D, hD, d1, d2, hpx⟩ := C19_total S hS
    rw [hD]
    refine congrArg _ (Img.ext_px d1 d2 fun y x hy hx => ?_)
    rw [d1] at hy
    rw [d2] at hx
    unfold dolpWith
    rw [Img.zipWith_px _ _ _ hy hx]
    show D.px y x = if (S 0).px y x ≠ 0 then (pB S).px y x / (S 0).px y x else 0
    split
    · rename_i h0; exact (hpx y x hy hx).2 h0
    · rename_i h0; exact (hpx y x hy hx).1 (not_not.1 h0)
  · unfold aolpWith AoLP
    norm_num
  · unfold fixDataWith fixData
    rfl
  · have hsum : ∀ (f : Nat → ℝ) (m : Nat), ((List.range m).map f).sum = ∑ i ∈ Finset.range m, f i := fun f m => rfl
    unfold correctFlatData
    rw [npMean_ok flat h1 h2, Py.ok_bind, if_neg hm]
    have hall : flat.pixels.sum = ∑ y ∈ Finset.range flat.h, ∑ x ∈ Finset.range flat.w, flat.px y x := by
      unfold Img.pixels
      rw [List.flatMap_def, List.sum_flatten, List.map_map, hsum]
      exact Finset.sum_congr rfl fun y _ => hsum _ _
    unfold correctFlatWith
    rw [hall]
    rfl

section
variable {K : Type} [Zero K] [One K] [Add K] [Sub K] [Mul K] [Div K] [OfNat K 2] [OfNat K 4] {n : K}

/-- Stokes vector: I is NaN exactly where one of the four pixels of the superpixel is, Q where the 0 or 90 degree pixel is, U where the
45 or -45 degree pixel is; everything else is as without the NaNs. -/
theorem C119_stokes (hn : IsNaN n) {L : Layout} {dic : AngleDic} (hL : L.Describes dic) {S : Nat → Nat → Prop} {A A' : Img K}
    (hA : Spoiled n S A A') (hh : A.h % 2 = 0) (hw : A.w % 2 = 0) :
    ∃ r r', dataStokes A dic = .ok r ∧ dataStokes A' dic = .ok r' ∧
      Spoiled n (fun y x => ∃ k : Fin 4, S (2 * y + k.val / 2) (2 * x + k.val % 2)) (r 0) (r' 0) ∧
      Spoiled n (fun y x => S (2 * y + L.p0.val / 2) (2 * x + L.p0.val % 2) ∨ S (2 * y + L.p90.val / 2) (2 * x + L.p90.val % 2))
        (r 1) (r' 1) ∧
      Spoiled n (fun y x => S (2 * y + L.p45.val / 2) (2 * x + L.p45.val % 2) ∨ S (2 * y + L.pm45.val / 2) (2 * x + L.pm45.val % 2))
        (r 2) (r' 2) := by
  obtain ⟨⟨sh, sw⟩, hpx⟩ := hA
  unfold dataStokes
  rw [split_ok hh hw, split_ok (by omega) (by omega), sh, sw]
  simp only [Py.ok_bind]
  have hs : ∀ y x, y < A.h / 2 → x < A.w / 2 → ∀ k : Fin 4, Spo n (S (2 * y + k.val / 2) (2 * x + k.val % 2))
      (((fun k : Fin 4 => Img.ofFn (A.h / 2) (A.w / 2) (fun y x => A.px (2 * y + k.val / 2) (2 * x + k.val % 2))) k).px y x)
      (((fun k : Fin 4 => Img.ofFn (A.h / 2) (A.w / 2) (fun y x => A'.px (2 * y + k.val / 2) (2 * x + k.val % 2))) k).px y x) := by
    intro y x hy hx k
    dsimp only
    rw [Img.ofFn_px hy hx, Img.ofFn_px hy hx]
    have := k.isLt
    exact hpx _ _ (by omega) (by omega)
  have sh1 : ∀ k : Fin 4, ((fun k : Fin 4 => Img.ofFn (A.h / 2) (A.w / 2)
      (fun y x => A.px (2 * y + k.val / 2) (2 * x + k.val % 2))) k).h = A.h / 2 ∧ ((fun k : Fin 4 => Img.ofFn (A.h / 2) (A.w / 2)
      (fun y x => A.px (2 * y + k.val / 2) (2 * x + k.val % 2))) k).w = A.w / 2 := fun k => ⟨rfl, rfl⟩
  have sh2 : ∀ k : Fin 4, ((fun k : Fin 4 => Img.ofFn (A.h / 2) (A.w / 2)
      (fun y x => A'.px (2 * y + k.val / 2) (2 * x + k.val % 2))) k).h = A.h / 2 ∧ ((fun k : Fin 4 => Img.ofFn (A.h / 2) (A.w / 2)
      (fun y x => A'.px (2 * y + k.val / 2) (2 * x + k.val % 2))) k).w = A.w / 2 := fun k => ⟨rfl, rfl⟩
  generalize (fun k : Fin 4 => Img.ofFn (A.h / 2) (A.w / 2) (fun y x => A.px (2 * y + k.val / 2) (2 * x + k.val % 2))) = s at *
  generalize (fun k : Fin 4 => Img.ofFn (A.h / 2) (A.w / 2) (fun y x => A'.px (2 * y + k.val / 2) (2 * x + k.val % 2))) = s' at *
  rw [theoStokes_ok _ hL, theoStokes_ok _ hL]
  refine ⟨_, _, rfl, rfl, ⟨⟨?_, ?_⟩, ?_⟩, ⟨⟨?_, ?_⟩, ?_⟩, ⟨⟨?_, ?_⟩, ?_⟩⟩
  · exact (sh2 0).1.trans (sh1 0).1.symm
  · exact (sh2 0).2.trans (sh1 0).2.symm
  · intro y x (hy : y < (s 0).h) (hx : x < (s 0).w)
    have hy' := hy
    have hx' := hx
    rw [(sh1 0).1] at hy'
    rw [(sh1 0).2] at hx'
    have h := hs y x hy' hx'
    show Spo n _ ((Img.ofFn (s 0).h (s 0).w _).px y x) ((Img.ofFn (s' 0).h (s' 0).w _).px y x)
    rw [Img.ofFn_px hy hx, Img.ofFn_px (by rw [(sh2 0).1]; exact hy') (by rw [(sh2 0).2]; exact hx')]
    refine ((Spo.const _).mul hn ((((h 0).add hn (h 1)).add hn (h 2)).add hn (h 3))).congr ?_
    constructor
    · rintro (h | ((h | h) | h) | h)
      · exact h.elim
      · exact ⟨0, h⟩
      · exact ⟨1, h⟩
      · exact ⟨2, h⟩
      · exact ⟨3, h⟩
    · rintro ⟨k, h⟩
      fin_cases k
      · exact Or.inr (Or.inl (Or.inl (Or.inl h)))
      · exact Or.inr (Or.inl (Or.inl (Or.inr h)))
      · exact Or.inr (Or.inl (Or.inr h))
      · exact Or.inr (Or.inr h)
  · exact (sh2 L.p0).1.trans (sh1 L.p0).1.symm
  · exact (sh2 L.p0).2.trans (sh1 L.p0).2.symm
  · intro y x (hy : y < (s L.p0).h) (hx : x < (s L.p0).w)
    have hy' := hy
    have hx' := hx
    rw [(sh1 _).1] at hy'
    rw [(sh1 _).2] at hx'
    have h := hs y x hy' hx'
    show Spo n _ ((Img.zipWith (· - ·) (s L.p0) (s L.p90)).px y x) ((Img.zipWith (· - ·) (s' L.p0) (s' L.p90)).px y x)
    rw [Img.zipWith_px _ _ _ hy hx, Img.zipWith_px _ _ _ (by rw [(sh2 _).1]; exact hy') (by rw [(sh2 _).2]; exact hx')]
    exact (h L.p0).sub hn (h L.p90)
  · exact (sh2 L.p45).1.trans (sh1 L.p45).1.symm
  · exact (sh2 L.p45).2.trans (sh1 L.p45).2.symm
  · intro y x (hy : y < (s L.p45).h) (hx : x < (s L.p45).w)
    have hy' := hy
    have hx' := hx
    rw [(sh1 _).1] at hy'
    rw [(sh1 _).2] at hx'
    have h := hs y x hy' hx'
    show Spo n _ ((Img.zipWith (· - ·) (s L.p45) (s L.pm45)).px y x) ((Img.zipWith (· - ·) (s' L.p45) (s' L.pm45)).px y x)
    rw [Img.zipWith_px _ _ _ hy hx, Img.zipWith_px _ _ _ (by rw [(sh2 _).1]; exact hy') (by rw [(sh2 _).2]; exact hx')]
    exact (h L.p45).sub hn (h L.pm45)

/-- pB, DoLP and AoLP computed from a Stokes vector with NaNs: pB and AoLP are NaN exactly where Q or U is; DoLP is NaN where one of the
three is, except that a NaN in Q or U is hidden where I is 0 (DoLP is then set to 0). -/
theorem C119_maps (hn : IsNaN n) [DecidableEq K] (sqrt : K → K) (hsq : sqrt n = n) (half : K) (arctan2 : K → K → K)
    (ht : ∀ a, arctan2 n a = n ∧ arctan2 a n = n) {SI SQ SU : Nat → Nat → Prop} {r r' : Fin 3 → Img K} (h0 : Spoiled n SI (r 0) (r' 0))
    (h1 : Spoiled n SQ (r 1) (r' 1)) (h2 : Spoiled n SU (r 2) (r' 2)) (s1 : (r 1).SameShape (r 0)) (s2 : (r 2).SameShape (r 0)) :
    Spoiled n (fun y x => SQ y x ∨ SU y x) (pBWith sqrt r) (pBWith sqrt r') ∧
      Spoiled n (fun y x => SQ y x ∨ SU y x) (aolpWith half arctan2 r) (aolpWith half arctan2 r') ∧
      Spoiled n (fun y x => SI y x ∨ (r 0).px y x ≠ 0 ∧ (SQ y x ∨ SU y x)) (dolpWith sqrt r) (dolpWith sqrt r') := by
  obtain ⟨⟨a0, b0⟩, p0⟩ := h0
  obtain ⟨⟨a1, b1⟩, p1⟩ := h1
  obtain ⟨⟨a2, b2⟩, p2⟩ := h2
  obtain ⟨c1, d1⟩ := s1
  obtain ⟨c2, d2⟩ := s2
  have hpB : ∀ y x, y < (r 1).h → x < (r 1).w → Spo n (SQ y x ∨ SU y x) ((pBWith sqrt r).px y x) ((pBWith sqrt r').px y x) := by
    intro y x hy hx
    unfold pBWith
    rw [Img.zipWith_px _ _ _ hy hx, Img.zipWith_px _ _ _ (by omega) (by omega)]
    have hq : Spo n (SQ y x) _ _ := p1 y x hy hx
    have hu : Spo n (SU y x) _ _ := p2 y x (by omega) (by omega)
    have := (hq.mul hn hq).add hn (hu.mul hn hu)
    constructor
    · intro h
      rw [this.1 (by tauto), hsq]
    · intro h
      rw [this.2 (by tauto)]
  refine ⟨⟨⟨a1, b1⟩, ?_⟩, ⟨⟨a2, b2⟩, ?_⟩, ⟨⟨a0, b0⟩, ?_⟩⟩
  · exact hpB
  · intro y x (hy : y < (r 2).h) (hx : x < (r 2).w)
    unfold aolpWith
    rw [Img.zipWith_px _ _ _ hy hx, Img.zipWith_px _ _ _ (by omega) (by omega)]
    have hq : Spo n (SQ y x) _ _ := p1 y x (by omega) (by omega)
    have hu : Spo n (SU y x) _ _ := p2 y x hy hx
    refine ((Spo.const half).mul hn (((Spo.const 1).mul hn hu).op (f := arctan2) (fun a => (ht a).1) (fun a => (ht a).2)
      ((Spo.const 1).mul hn hq))).congr ?_
    tauto
  · intro y x (hy : y < (r 0).h) (hx : x < (r 0).w)
    have hp := hpB y x (by omega) (by omega)
    have hi : Spo n (SI y x) _ _ := p0 y x hy hx
    unfold dolpWith
    rw [Img.zipWith_px _ _ _ hy hx, Img.zipWith_px _ _ _ (by omega) (by omega)]
    constructor
    · rintro (h | ⟨h, h'⟩)
      · rw [hi.1 h, if_pos hn.ne_zero, hn.div_right]
      · by_cases hs : SI y x
        · rw [hi.1 hs, if_pos hn.ne_zero, hn.div_right]
        · rw [hi.2 hs, if_pos h, hp.1 h', hn.div_left]
    · intro h
      have hs : ¬ SI y x := fun hs => h (Or.inl hs)
      rw [hi.2 hs]
      by_cases hz : (r 0).px y x = 0
      · rw [if_neg (not_not.2 hz), if_neg (not_not.2 hz)]
      · rw [if_pos hz, if_pos hz, hp.2 (fun h' => h (Or.inr ⟨hz, h'⟩))]

/-- `rebin` of a plain image: a new pixel is NaN exactly if its block contains one. -/
theorem C119_standard_rebin (hn : IsNaN n) {S : Nat → Nat → Prop} {A A' : Img K} (hA : Spoiled n S A A') (b : Nat) (hb : 0 < b) :
    ∃ r r', standardRebin A b = .ok r ∧ standardRebin A' b = .ok r' ∧
      Spoiled n (fun Y X => ∃ y x, y / b = Y ∧ x / b = X ∧ S y x) r r' := by
  rw [standardRebin_fold A b hb, standardRebin_fold A' b hb, hA.1.1, hA.1.2]
  refine ⟨_, _, rfl, rfl, ⟨rfl, rfl⟩, ?_⟩
  intro Y X (hY : Y < A.h / b) (hX : X < A.w / b)
  have iY : ∀ u, u < b → b * Y + u < A.h := fun u hu => by
    have : b * (Y + 1) ≤ b * (A.h / b) := Nat.mul_le_mul_left _ hY
    have := Nat.mul_div_le A.h b
    rw [Nat.mul_add] at *
    omega
  have iX : ∀ u, u < b → b * X + u < A.w := fun u hu => by
    have : b * (X + 1) ≤ b * (A.w / b) := Nat.mul_le_mul_left _ hX
    have := Nat.mul_div_le A.w b
    rw [Nat.mul_add] at *
    omega
  rw [Img.ofFn_px hY hX, Img.ofFn_px hY hX]
  refine (Spo.blockFold hn hA (b * Y) (b * X) 1 b (fun u hu => by have := iY u hu; omega) (fun v hv => by have := iX v hv; omega)).congr ?_
  constructor
  · rintro ⟨u, v, hu, hv, h⟩
    refine ⟨_, _, ?_, ?_, h⟩
    · rw [Nat.mul_one, Nat.mul_add_div hb, Nat.div_eq_of_lt hu, Nat.add_zero]
    · rw [Nat.mul_one, Nat.mul_add_div hb, Nat.div_eq_of_lt hv, Nat.add_zero]
  · rintro ⟨y, x, rfl, rfl, h⟩
    refine ⟨y % b, x % b, Nat.mod_lt _ hb, Nat.mod_lt _ hb, ?_⟩
    rw [Nat.mul_one, Nat.mul_one, Nat.div_add_mod, Nat.div_add_mod]
    exact h

/-- `rebin` of a micropolarizer image: a new pixel is NaN exactly if its block of superpixels contains a NaN of its family. -/
theorem C119_micropol_rebin (hn : IsNaN n) {S : Nat → Nat → Prop} {A A' : Img K} (hA : Spoiled n S A A') (hh : A.h % 2 = 0)
    (hw : A.w % 2 = 0) (b : Nat) (hb : 0 < b) :
    ∃ r r', micropolarrayRebin A b = .ok r ∧ micropolarrayRebin A' b = .ok r' ∧
      Spoiled n (fun Y X => ∃ y x, y / (2 * b) = Y / 2 ∧ x / (2 * b) = X / 2 ∧ y % 2 = Y % 2 ∧ x % 2 = X % 2 ∧ S y x) r r' := by
  have fits : ∀ N Y u : Nat, Y < 2 * (N / (2 * b)) → u < b → 2 * b * (Y / 2) + Y % 2 + u * 2 < N := by
    intro N Y u hY hu
    have h1 : Y / 2 + 1 ≤ N / (2 * b) := by omega
    have h2 : 2 * b * (Y / 2 + 1) ≤ 2 * b * (N / (2 * b)) := Nat.mul_le_mul_left _ h1
    have h3 := Nat.mul_div_le N (2 * b)
    have h4 : 2 * b * (Y / 2 + 1) = 2 * b * (Y / 2) + 2 * b := by ring
    omega
  have back : ∀ Y y : Nat, y / (2 * b) = Y / 2 → y % 2 = Y % 2 → ∃ u, u < b ∧ 2 * b * (Y / 2) + Y % 2 + u * 2 = y := by
    intro Y y h h'
    have h1 := Nat.div_add_mod y (2 * b)
    have h2 := Nat.mod_lt y (show 0 < 2 * b by omega)
    have h3 : y % (2 * b) % 2 = y % 2 := Nat.mod_mod_of_dvd _ ⟨b, rfl⟩
    rw [h] at h1
    exact ⟨y % (2 * b) / 2, by omega, by omega⟩
  have forth : ∀ Y u : Nat, u < b → (2 * b * (Y / 2) + Y % 2 + u * 2) / (2 * b) = Y / 2 ∧ (2 * b * (Y / 2) + Y % 2 + u * 2) % 2 = Y % 2 := by
    intro Y u hu
    constructor
    · rw [Nat.add_assoc, Nat.mul_add_div (by omega), Nat.div_eq_of_lt (show Y % 2 + u * 2 < 2 * b by omega), Nat.add_zero]
    · rw [Nat.add_mul_mod_self_right, Nat.add_mod, Nat.mul_assoc, Nat.mul_mod_right, Nat.zero_add, Nat.mod_mod, Nat.mod_mod]
  rw [micropolarrayRebin_fold A b hb hh hw, micropolarrayRebin_fold A' b hb (by rw [hA.1.1]; exact hh) (by rw [hA.1.2]; exact hw), hA.1.1, hA.1.2]
  refine ⟨_, _, rfl, rfl, ⟨rfl, rfl⟩, ?_⟩
  intro Y X (hY : Y < 2 * (A.h / (2 * b))) (hX : X < 2 * (A.w / (2 * b)))
  rw [Img.ofFn_px hY hX, Img.ofFn_px hY hX]
  refine (Spo.blockFold hn hA (2 * b * (Y / 2) + Y % 2) (2 * b * (X / 2) + X % 2) 2 b (fun u hu => fits _ _ _ hY hu)
    (fun v hv => fits _ _ _ hX hv)).congr ?_
  constructor
  · rintro ⟨u, v, hu, hv, h⟩
    exact ⟨_, _, (forth Y u hu).1, (forth X v hv).1, (forth Y u hu).2, (forth X v hv).2, h⟩
  · rintro ⟨y, x, h1, h2, h3, h4, h⟩
    obtain ⟨u, hu, rfl⟩ := back Y y h1 h3
    obtain ⟨v, hv, rfl⟩ := back X x h2 h4
    exact ⟨u, v, hu, hv, h⟩

/-- Demosaicing by means: the family-`k` image is NaN on a superpixel exactly if the superpixel's pixel of family `k` is. -/
theorem C119_demosaic_mean (hn : IsNaN n) {S : Nat → Nat → Prop} {A A' : Img K} (hA : Spoiled n S A A') (hh : A.h % 2 = 0)
    (hw : A.w % 2 = 0) :
    ∃ r r', demosaicmean A = .ok r ∧ demosaicmean A' = .ok r' ∧
      ∀ k : Fin 4, Spoiled n (fun y x => S (2 * (y / 2) + k.val / 2) (2 * (x / 2) + k.val % 2)) (r k) (r' k) := by
  obtain ⟨⟨sh, sw⟩, hpx⟩ := hA
  rw [demosaicmean_ok A hh hw, demosaicmean_ok A' (by omega) (by omega), sh, sw]
  refine ⟨_, _, rfl, rfl, fun k => ⟨⟨rfl, rfl⟩, ?_⟩⟩
  intro y x (hy : y < A.h) (hx : x < A.w)
  rw [Img.ofFn_px hy hx, Img.ofFn_px hy hx]
  have := k.isLt
  have h : Spo n _ _ _ := hpx (2 * (y / 2) + k.val / 2) (2 * (x / 2) + k.val % 2) (by omega) (by omega)
  exact (h.mul hn (Spo.const (1 / 4))).congr (by tauto)

/-- Demosaicing by neighbours: a pixel of the family-`k` image is NaN exactly if one of the pixels it is interpolated from is: the pixel
of its own superpixel, for odd rows the one of the next superpixel below, for odd columns the one of the next on the right (where they
exist). -/
theorem C119_demosaic_adjacent (hn : IsNaN n) {S : Nat → Nat → Prop} {A A' : Img K} (hA : Spoiled n S A A') (hh : A.h % 2 = 0)
    (hw : A.w % 2 = 0) :
    ∃ r r', demosaic A "adjacent" = .ok r ∧ demosaic A' "adjacent" = .ok r' ∧
      ∀ k : Fin 4, Spoiled n (fun y x => ∃ u v,
        (u = 2 * (y / 2) + k.val / 2 ∨ y % 2 = 1 ∧ u = 2 * (y / 2) + k.val / 2 + 2 ∧ u < A.h) ∧
        (v = 2 * (x / 2) + k.val % 2 ∨ x % 2 = 1 ∧ v = 2 * (x / 2) + k.val % 2 + 2 ∧ v < A.w) ∧ S u v) (r k) (r' k) := by
  obtain ⟨⟨sh, sw⟩, hpx⟩ := hA
  obtain ⟨r, hr, h⟩ := demosaic_adjacent_ok A hh hw
  obtain ⟨r', hr', h'⟩ := demosaic_adjacent_ok A' (by omega) (by omega)
  refine ⟨r, r', hr, hr', fun k => ⟨⟨?_, ?_⟩, ?_⟩⟩
  · rw [(h k).1, (h' k).1, sh]
  · rw [(h k).2.1, (h' k).2.1, sw]
  intro y x hy hx
  rw [(h k).1] at hy
  rw [(h k).2.1] at hx
  have hk := k.isLt
  show Spo n _ _ _
  rw [(h k).2.2 y x hy hx, (h' k).2.2 y x (by omega) (by omega)]
  have red : ∀ Y X, Y < A.h + 2 → X < A.w + 2 → Spo n (S (if Y < A.h then Y else Y - 2) (if X < A.w then X else X - 2))
      ((hstackLast2 (vstackLast2 A)).px Y X) ((hstackLast2 (vstackLast2 A')).px Y X) := by
    intro Y X hY hX
    rw [stacked_px A (by omega) (by omega) hY hX, stacked_px A' (by omega) (by omega) (by omega) (by omega), sh, sw]
    exact hpx _ _ (by split <;> omega) (by split <;> omega)
  obtain ⟨Y, eY⟩ : ∃ Y, Y = 2 * (y / 2) + k.val / 2 := ⟨_, rfl⟩
  obtain ⟨X, eX⟩ : ∃ X, X = 2 * (x / 2) + k.val % 2 := ⟨_, rfl⟩
  have lY : Y < A.h := by omega
  have lX : X < A.w := by omega
  have r00 := red Y X (by omega) (by omega)
  have r01 := red Y (X + 2) (by omega) (by omega)
  have r10 := red (Y + 2) X (by omega) (by omega)
  have r11 := red (Y + 2) (X + 2) (by omega) (by omega)
  rw [if_pos lY] at r00 r01
  rw [if_pos lX] at r00 r10
  have nY : (if Y + 2 < A.h then Y + 2 else Y + 2 - 2) = Y ∨ (if Y + 2 < A.h then Y + 2 else Y + 2 - 2) = Y + 2 ∧ Y + 2 < A.h := by
    split <;> omega
  have nX : (if X + 2 < A.w then X + 2 else X + 2 - 2) = X ∨ (if X + 2 < A.w then X + 2 else X + 2 - 2) = X + 2 ∧ X + 2 < A.w := by
    split <;> omega
  have mY : Y + 2 < A.h → (if Y + 2 < A.h then Y + 2 else Y + 2 - 2) = Y + 2 := fun h => if_pos h
  have mX : X + 2 < A.w → (if X + 2 < A.w then X + 2 else X + 2 - 2) = X + 2 := fun h => if_pos h
  generalize (if Y + 2 < A.h then Y + 2 else Y + 2 - 2) = Y2 at *
  generalize (if X + 2 < A.w then X + 2 else X + 2 - 2) = X2 at *
  unfold adjacentVal
  dsimp only
  rw [← eY, ← eX]
  by_cases py : y % 2 = 0 <;> by_cases px : x % 2 = 0
  · rw [if_pos py, if_pos py, if_pos px, if_pos px]
    refine r00.congr ⟨fun h => ⟨Y, X, Or.inl rfl, Or.inl rfl, h⟩, ?_⟩
    rintro ⟨u, v, rfl | hu, rfl | hv, h⟩
    · exact h
    all_goals omega
  · rw [if_pos py, if_pos py, if_neg px, if_neg px]
    refine ((Spo.const _).mul hn (r00.add hn r01)).congr ⟨?_, ?_⟩
    · rintro (h | h | h)
      · exact h.elim
      · exact ⟨Y, X, Or.inl rfl, Or.inl rfl, h⟩
      · exact ⟨Y, X2, Or.inl rfl, by omega, h⟩
    · rintro ⟨u, v, rfl | hu, rfl | ⟨_, rfl, hv⟩, h⟩
      · exact Or.inr (Or.inl h)
      · rw [mX hv]; exact Or.inr (Or.inr h)
      all_goals omega
  · rw [if_neg py, if_neg py, if_pos px, if_pos px]
    refine ((Spo.const _).mul hn (r00.add hn r10)).congr ⟨?_, ?_⟩
    · rintro (h | h | h)
      · exact h.elim
      · exact ⟨Y, X, Or.inl rfl, Or.inl rfl, h⟩
      · exact ⟨Y2, X, by omega, Or.inl rfl, h⟩
    · rintro ⟨u, v, rfl | ⟨_, rfl, hu⟩, rfl | hv, h⟩
      · exact Or.inr (Or.inl h)
      · omega
      · rw [mY hu]; exact Or.inr (Or.inr h)
      · omega
  · rw [if_neg py, if_neg py, if_neg px, if_neg px]
    refine ((((r00.add hn r10).add hn r01).add hn r11).mul hn (Spo.const _)).congr ⟨?_, ?_⟩
    · rintro ((((h | h) | h) | h) | h)
      · exact ⟨Y, X, Or.inl rfl, Or.inl rfl, h⟩
      · exact ⟨Y2, X, by omega, Or.inl rfl, h⟩
      · exact ⟨Y, X2, Or.inl rfl, by omega, h⟩
      · exact ⟨Y2, X2, by omega, by omega, h⟩
      · exact h.elim
    · rintro ⟨u, v, rfl | ⟨_, rfl, hu⟩, rfl | ⟨_, rfl, hv⟩, h⟩
      · exact Or.inl (Or.inl (Or.inl (Or.inl h)))
      · rw [mX hv]; exact Or.inl (Or.inl (Or.inr h))
      · rw [mY hu]; exact Or.inl (Or.inl (Or.inl (Or.inr h)))
      · rw [mX hv, mY hu]; exact Or.inl (Or.inr h)

/-- `correct_ifov()`: a pixel outside the first superpixel row and column is NaN exactly if itself or its predecessor of the same family
above, on the left or diagonally is; the first superpixel row and column are 0, even where there were NaNs. -/
theorem C119_ifov (hn : IsNaN n) {S : Nat → Nat → Prop} {A A' : Img K} (hA : Spoiled n S A A') (hh : A.h % 2 = 0) (hw : A.w % 2 = 0) :
    ∃ r r', correctIfovData A = .ok r ∧ correctIfovData A' = .ok r' ∧
      Spoiled n (fun y x => 2 ≤ y ∧ 2 ≤ x ∧ (S y x ∨ S (y - 2) x ∨ S y (x - 2) ∨ S (y - 2) (x - 2))) r r' ∧
      ∀ y x, y < 2 ∨ x < 2 → y < A.h → x < A.w → r'.px y x = 0 := by
  obtain ⟨⟨sh, sw⟩, hpx⟩ := hA
  unfold correctIfovData
  rw [ifov_ok A hh hw, ifov_ok A' (by omega) (by omega)]
  refine ⟨_, _, rfl, rfl, ⟨⟨sh, sw⟩, ?_⟩, ?_⟩
  · intro y x (hy : y < A.h) (hx : x < A.w)
    show Spo n _ _ _
    unfold ifovClosed
    rw [Img.ofFn_px hy hx, Img.ofFn_px (by omega) (by omega)]
    by_cases h : 2 ≤ y ∧ 2 ≤ x
    · rw [if_pos h, if_pos h]
      have h1 : Spo n _ _ _ := hpx (y - 2) (x - 2) (by omega) (by omega)
      have h2 : Spo n _ _ _ := hpx (y - 2) x (by omega) (by omega)
      have h3 : Spo n _ _ _ := hpx y (x - 2) (by omega) (by omega)
      have h4 : Spo n _ _ _ := hpx y x (by omega) (by omega)
      exact ((Spo.const (1 / 4)).mul hn (((h1.add hn h2).add hn h3).add hn h4)).congr (by tauto)
    · rw [if_neg h, if_neg h]
      exact (Spo.const 0).congr (by tauto)
  · intro y x h hy hx
    unfold ifovClosed
    rw [Img.ofFn_px (by omega) (by omega), if_neg (by omega)]

/-- Plain demodulation: each demodulated Stokes component is NaN at a superpixel exactly if one of its four pixels is; at superpixels
without a fit the previous Stokes vector, with its NaNs, is kept. -/
theorem C119_demodulate (hn : IsNaN n) [DecidableEq K] {S : Nat → Nat → Prop} {A A' : Img K} (hA : Spoiled n S A A') (hh : A.h % 2 = 0)
    (hw : A.w % 2 = 0) {T : Fin 3 → Nat → Nat → Prop} {s s' : Fin 3 → Img K} (hs : ∀ i, Spoiled n (T i) (s i) (s' i))
    (hsh : ∀ i, (s i).h = A.h / 2 ∧ (s i).w = A.w / 2) (D : Demodulator K) (hD : (D.mij 0 0).h = A.h / 2 ∧ (D.mij 0 0).w = A.w / 2)
    (hf : ∀ f, D.fitFoundFlags = some f → f.h = A.h / 2 ∧ f.w = A.w / 2) :
    ∃ r r', demodulatePlain A s D = .ok r ∧ demodulatePlain A' s' D = .ok r' ∧
      ∀ i, Spoiled n (fun y x =>
        (∀ f, D.fitFoundFlags = some f → f.px y x = 1) ∧ (∃ k : Fin 4, S (2 * y + k.val / 2) (2 * x + k.val % 2)) ∨
        (∃ f, D.fitFoundFlags = some f ∧ f.px y x ≠ 1) ∧ T i y x) (r i) (r' i) := by
  obtain ⟨⟨sh, sw⟩, hpx⟩ := hA
  have hm : ∀ y x, y < A.h / 2 → x < A.w / 2 → ∀ m : Fin 4 → K,
      Spo n (∃ k : Fin 4, S (2 * y + k.val / 2) (2 * x + k.val % 2))
        (m 0 * A.px (2 * y + 0 / 2) (2 * x + 0 % 2) + m 1 * A.px (2 * y + 1 / 2) (2 * x + 1 % 2) +
          m 2 * A.px (2 * y + 2 / 2) (2 * x + 2 % 2) + m 3 * A.px (2 * y + 3 / 2) (2 * x + 3 % 2))
        (m 0 * A'.px (2 * y + 0 / 2) (2 * x + 0 % 2) + m 1 * A'.px (2 * y + 1 / 2) (2 * x + 1 % 2) +
          m 2 * A'.px (2 * y + 2 / 2) (2 * x + 2 % 2) + m 3 * A'.px (2 * y + 3 / 2) (2 * x + 3 % 2)) := by
    intro y x hy hx m
    have h0 : Spo n _ _ _ := hpx (2 * y + 0 / 2) (2 * x + 0 % 2) (by omega) (by omega)
    have h1 : Spo n _ _ _ := hpx (2 * y + 1 / 2) (2 * x + 1 % 2) (by omega) (by omega)
    have h2 : Spo n _ _ _ := hpx (2 * y + 2 / 2) (2 * x + 2 % 2) (by omega) (by omega)
    have h3 : Spo n _ _ _ := hpx (2 * y + 3 / 2) (2 * x + 3 % 2) (by omega) (by omega)
    refine (((((Spo.const (m 0)).mul hn h0).add hn ((Spo.const (m 1)).mul hn h1)).add hn ((Spo.const (m 2)).mul hn h2)).add hn
      ((Spo.const (m 3)).mul hn h3)).congr ?_
    constructor
    · rintro ((((h | h) | h | h) | h | h) | h | h)
      · exact h.elim
      · exact ⟨0, h⟩
      · exact h.elim
      · exact ⟨1, h⟩
      · exact h.elim
      · exact ⟨2, h⟩
      · exact h.elim
      · exact ⟨3, h⟩
    · rintro ⟨k, h⟩
      fin_cases k
      · exact Or.inl (Or.inl (Or.inl (Or.inr h)))
      · exact Or.inl (Or.inl (Or.inr (Or.inr h)))
      · exact Or.inl (Or.inr (Or.inr h))
      · exact Or.inr (Or.inr h)
  unfold demodulatePlain
  rw [split_ok hh hw, split_ok (by omega) (by omega), sh, sw]
  simp only [Py.ok_bind]
  rw [matmulPols_four (h := A.h / 2) (w := A.w / 2) hD ⟨rfl, rfl⟩, matmulPols_four (h := A.h / 2) (w := A.w / 2) hD ⟨rfl, rfl⟩]
  simp only [Py.ok_bind]
  cases hff : D.fitFoundFlags with
  | none =>
    refine ⟨_, _, rfl, rfl, fun i => ⟨⟨rfl, rfl⟩, ?_⟩⟩
    intro y x (hy : y < A.h / 2) (hx : x < A.w / 2)
    show Spo n _ _ _
    repeat rw [Img.ofFn_px hy hx]
    refine (hm y x hy hx (fun k => (D.mij i k).px y x)).congr ⟨fun h => Or.inl ⟨fun f h => (by cases h), h⟩, ?_⟩
    rintro (⟨_, h⟩ | ⟨⟨f, h, _⟩, _⟩)
    · exact h
    · cases h
  | some f =>
    dsimp only
    rw [whereFlags_ok (h := A.h / 2) (w := A.w / 2) (hf f hff) (fun i => ⟨rfl, rfl⟩) hsh,
      whereFlags_ok (h := A.h / 2) (w := A.w / 2) (hf f hff) (fun i => ⟨rfl, rfl⟩)
        (fun i => ⟨(hs i).1.1.trans (hsh i).1, (hs i).1.2.trans (hsh i).2⟩)]
    refine ⟨_, _, rfl, rfl, fun i => ⟨⟨rfl, rfl⟩, ?_⟩⟩
    intro y x (hy : y < A.h / 2) (hx : x < A.w / 2)
    show Spo n _ _ _
    repeat rw [Img.ofFn_px hy hx]
    by_cases h1 : f.px y x = 1
    · rw [if_pos h1, if_pos h1]
      refine (hm y x hy hx (fun k => (D.mij i k).px y x)).congr
        ⟨fun h => Or.inl ⟨fun f' h' => (by cases h'; exact h1), h⟩, ?_⟩
      rintro (⟨_, h⟩ | ⟨⟨f', h', h''⟩, _⟩)
      · exact h
      · cases h'
        exact (h'' h1).elim
    · rw [if_neg h1, if_neg h1]
      have ht : Spo n _ _ _ := (hs i).2 y x (by rw [(hsh i).1]; exact hy) (by rw [(hsh i).2]; exact hx)
      refine ht.congr ⟨fun h => Or.inr ⟨⟨f, rfl, h1⟩, h⟩, ?_⟩
      rintro (⟨h, _⟩ | ⟨_, h⟩)
      · exact (h1 (h f rfl)).elim
      · exact h

/-- Arithmetic of two images: a pixel of the sum, difference or product is NaN exactly if it is in one of the two images; a pixel of the
quotient if the divisor is NaN, or the dividend is and the divisor is not 0 (there the result is whatever was in memory). -/
theorem C119_arithmetic (hn : IsNaN n) [DecidableEq K] {S T : Nat → Nat → Prop} {A A' B B' : Img K} (hA : Spoiled n S A A')
    (hB : Spoiled n T B B') (hAB : B.SameShape A) (junk : Nat → Nat → K) :
    (∃ r r', addData A (.image B) = .ok r ∧ addData A' (.image B') = .ok r' ∧ Spoiled n (fun y x => S y x ∨ T y x) r r') ∧
    (∃ r r', subData A (.image B) = .ok r ∧ subData A' (.image B') = .ok r' ∧ Spoiled n (fun y x => S y x ∨ T y x) r r') ∧
    (∃ r r', mulData A (.image B) = .ok r ∧ mulData A' (.image B') = .ok r' ∧ Spoiled n (fun y x => S y x ∨ T y x) r r') ∧
    (∃ r r', divData junk A (.image B) = .ok r ∧ divData junk A' (.image B') = .ok r' ∧
      Spoiled n (fun y x => T y x ∨ B.px y x ≠ 0 ∧ S y x) r r') := by
  obtain ⟨⟨sh, sw⟩, hpx⟩ := hA
  obtain ⟨⟨th, tw⟩, hpx'⟩ := hB
  obtain ⟨e1, e2⟩ := hAB
  have bin : ∀ (f : K → K → K), (∀ a, f n a = n) → (∀ a, f a n = n) →
      ∃ r r', npBin f A B = .ok r ∧ npBin f A' B' = .ok r' ∧ Spoiled n (fun y x => S y x ∨ T y x) r r' := by
    intro f hl hr
    rw [npBin_ok (f := f) (A := A) (B := B) e1.symm e2.symm, npBin_ok (f := f) (A := A') (B := B') (by omega) (by omega), sh, sw]
    refine ⟨_, _, rfl, rfl, ⟨rfl, rfl⟩, ?_⟩
    intro y x (hy : y < A.h) (hx : x < A.w)
    show Spo n _ _ _
    rw [Img.ofFn_px hy hx, Img.ofFn_px hy hx]
    have h1 : Spo n _ _ _ := hpx y x hy hx
    have h2 : Spo n _ _ _ := hpx' y x (by omega) (by omega)
    exact h1.op hl hr h2
  refine ⟨bin _ hn.add_left hn.add_right, bin _ hn.sub_left hn.sub_right, bin _ hn.mul_left hn.mul_right, ?_⟩
  unfold divData npDivideNoOut
  dsimp only
  rw [npBinAt_ok (A := A) (B := B) e1.symm e2.symm, npBinAt_ok (A := A') (B := B') (by omega) (by omega), sh, sw]
  refine ⟨_, _, rfl, rfl, ⟨rfl, rfl⟩, ?_⟩
  intro y x (hy : y < A.h) (hx : x < A.w)
  show Spo n _ _ _
  rw [Img.ofFn_px hy hx, Img.ofFn_px hy hx]
  have h1 : Spo n _ _ _ := hpx y x hy hx
  have h2 : Spo n _ _ _ := hpx' y x (by omega) (by omega)
  constructor
  · rintro (h | ⟨h, h'⟩)
    · rw [h2.1 h, if_pos hn.ne_zero, hn.div_right]
    · by_cases ht : T y x
      · rw [h2.1 ht, if_pos hn.ne_zero, hn.div_right]
      · rw [h2.2 ht, if_pos h, h1.1 h', hn.div_left]
  · intro h
    rw [h2.2 (fun ht => h (Or.inl ht))]
    by_cases hz : B.px y x = 0
    · rw [if_neg (not_not.2 hz), if_neg (not_not.2 hz)]
    · rw [if_pos hz, if_pos hz, h1.2 (fun hs => h (Or.inr ⟨hz, hs⟩))]

/-- Violation: `subtract_dark` turns every NaN of the image and of the dark into the ordinary number 0. -/
theorem C119_dark_hides [LE K] [DecidableLE K] (hn : IsNaN n) (hge : ¬ n ≥ 0) {S T : Nat → Nat → Prop} {A A' B B' : Img K}
    (hA : Spoiled n S A A') (hB : Spoiled n T B B') (hAB : B.SameShape A) :
    ∃ r r', subtractDarkData A B = .ok r ∧ subtractDarkData A' B' = .ok r' ∧ r'.SameShape r ∧
      ∀ y x, y < A.h → x < A.w → (S y x ∨ T y x → r'.px y x = 0) ∧ (¬ (S y x ∨ T y x) → r'.px y x = r.px y x) := by
  obtain ⟨⟨sh, sw⟩, hpx⟩ := hA
  obtain ⟨⟨th, tw⟩, hpx'⟩ := hB
  obtain ⟨e1, e2⟩ := hAB
  unfold subtractDarkData
  rw [npBin_ok (A := A) (B := B) e1.symm e2.symm, npBin_ok (A := A') (B := B') (by omega) (by omega), sh, sw]
  refine ⟨_, _, rfl, rfl, ⟨rfl, rfl⟩, ?_⟩
  intro y x hy hx
  rw [Img.map_px _ _ (by exact hy) (by exact hx), Img.map_px _ _ (by exact hy) (by exact hx), Img.ofFn_px hy hx, Img.ofFn_px hy hx]
  have h1 : Spo n _ _ _ := hpx y x hy hx
  have h2 : Spo n _ _ _ := hpx' y x (by omega) (by omega)
  have h := h1.sub hn h2
  exact ⟨fun hs => by rw [h.1 hs, if_neg hge], fun hs => by rw [h.2 hs]⟩

/-- One NaN in a flat makes every pixel of the corrected image NaN, in whatever order numpy adds the pixels for the mean. -/
theorem C119_flat_spreads [DecidableEq K] [NatCast K] (hn : IsNaN n) (sumAll : List K → K) (hs : ∀ l, l ≠ [] → AddsUp l (sumAll l))
    (junk : Nat → Nat → K) (A flat : Img K) (hAB : flat.SameShape A) {y0 x0 : Nat} (hy0 : y0 < flat.h) (hx0 : x0 < flat.w)
    (h0 : flat.px y0 x0 = n) :
    ∃ r, correctFlatWith sumAll junk A flat = .ok r ∧ r.SameShape A ∧ ∀ y x, y < A.h → x < A.w → r.px y x = n := by
  obtain ⟨e1, e2⟩ := hAB
  have hmem : n ∈ flat.pixels := h0 ▸ Img.mem_pixels hy0 hx0
  have hsum : sumAll flat.pixels = n := (hs _ (List.ne_nil_of_mem hmem)).nan hn hmem
  unfold correctFlatWith npDivideNoOut
  dsimp only
  rw [npBinAt_ok (by exact e1.symm) (by exact e2.symm), hsum, hn.div_left]
  refine ⟨_, rfl, ⟨rfl, rfl⟩, ?_⟩
  intro y x hy hx
  rw [Img.ofFn_px hy hx, Img.map_px _ _ (by omega) (by omega), hn.div_right, if_pos hn.ne_zero, hn.div_right]

/-- A flat without NaNs whose mean is not one either: the corrected pixel is NaN exactly if the pixel is (where the normalised flat is
not 0). -/
theorem C119_flat_clean [DecidableEq K] [NatCast K] (hn : IsNaN n) (sumAll : List K → K) (junk : Nat → Nat → K)
    {S : Nat → Nat → Prop} {A A' flat : Img K} (hA : Spoiled n S A A') (hAB : flat.SameShape A) :
    ∃ r r', correctFlatWith sumAll junk A flat = .ok r ∧ correctFlatWith sumAll junk A' flat = .ok r' ∧
      Spoiled n (fun y x => S y x ∧ flat.px y x / (sumAll flat.pixels / ((flat.h * flat.w : Nat) : K)) ≠ 0) r r' := by
  obtain ⟨⟨sh, sw⟩, hpx⟩ := hA
  obtain ⟨e1, e2⟩ := hAB
  unfold correctFlatWith npDivideNoOut
  dsimp only
  rw [npBinAt_ok (A := A) (by exact e1.symm) (by exact e2.symm),
    npBinAt_ok (A := A') (by rw [Img.map_h]; omega) (by rw [Img.map_w]; omega), sh, sw]
  refine ⟨_, _, rfl, rfl, ⟨rfl, rfl⟩, ?_⟩
  intro y x (hy : y < A.h) (hx : x < A.w)
  show Spo n _ _ _
  rw [Img.ofFn_px hy hx, Img.ofFn_px hy hx, Img.map_px _ _ (by omega) (by omega)]
  have h1 : Spo n _ _ _ := hpx y x hy hx
  dsimp only
  generalize flat.px y x / (sumAll flat.pixels / ((flat.h * flat.w : Nat) : K)) = c
  by_cases hc : c = 0
  · rw [if_neg (not_not.2 hc), if_neg (not_not.2 hc)]
    exact (Spo.const _).congr (by tauto)
  · rw [if_pos hc, if_pos hc]
    exact (h1.div hn (Spo.const c)).congr (by tauto)

/-- Violation: `fix_data(data, min, max)` turns a NaN into the ordinary number `min`, for `0 ≠ min < max ≠ 0`. -/
theorem C119_fix_data_hides [DecidableEq K] [LT K] [DecidableLT K] (hlt : ∀ a, ¬ n > a) {A : Img K} {y x : Nat} (hy : y < A.h)
    (hx : x < A.w) (h : A.px y x = n) {min max : K} (hmin : min ≠ 0) (hmax : max ≠ 0) (hmm : min < max) :
    (fixDataWith A min max).px y x = min := by
  unfold fixDataWith
  rw [if_neg (not_not.2 ⟨hmin, hmax⟩)]
  dsimp only
  rw [Img.map_px _ _ (by exact hy) (by exact hx), Img.map_px _ _ hy hx, h, if_neg (hlt _), if_pos hmm]

end

/-- The full claim, that NaNs of the image stay visible through every correction, is false: in floating point, with any rounding, an
image that is NaN everywhere is all 0 after `subtract_dark`, whatever the dark. -/
theorem C119_full_claim_false (round : ℝ → Option ℝ) {A dark : Img (Fp round)} (hAB : dark.SameShape A)
    (hall : ∀ y x, y < A.h → x < A.w → A.px y x = .nan) :
    ∃ r, subtractDarkData A dark = .ok r ∧ r.SameShape A ∧ ∀ y x, y < A.h → x < A.w → r.px y x = 0 := by
  obtain ⟨hn, hge, _⟩ := C119_ieee round
  obtain ⟨r, r', h, h', hsh, hpx⟩ := C119_dark_hides (n := (Fp.nan : Fp round)) hn (hge 0) (S := fun _ _ => True)
    (T := fun _ _ => False) (A := A) (A' := A) (B := dark) (B' := dark)
    ⟨⟨rfl, rfl⟩, fun y x hy hx => ⟨fun _ => hall y x hy hx, fun _ => rfl⟩⟩
    ⟨⟨rfl, rfl⟩, fun y x hy hx => ⟨False.elim, fun _ => rfl⟩⟩ hAB
  refine ⟨r', h', ?_, fun y x hy hx => (hpx y x hy hx).1 (Or.inl trivial)⟩
  have hs : r.SameShape A := by
    unfold subtractDarkData at h
    rw [npBin_ok (A := A) (B := dark) hAB.1.symm hAB.2.symm] at h
    cases h
    exact ⟨rfl, rfl⟩
  exact ⟨hsh.1.trans hs.1, hsh.2.trans hs.2⟩

/-- Non-vacuity: in floating point without rounding and overflow, a 4x4 image with one NaN at (1, 2); the Stokes vector has I and U NaN at
superpixel (0, 1) only and Q NaN nowhere, for the default arrangement. -/
example : ∃ (A' : Img (Fp some)) (r : Fin 3 → Img (Fp some)) (dic : AngleDic),
    A'.px 1 2 = .nan ∧ dataStokes A' dic = .ok r ∧ (r 0).px 0 1 = .nan ∧ (r 1).px 0 1 ≠ .nan ∧ (r 2).px 0 1 = .nan ∧
      (r 0).px 1 1 ≠ .nan := by
  have hn := (C119_ieee (some : ℝ → Option ℝ)).1
  let A : Img (Fp some) := Img.ofFn 4 4 (fun _ _ => .num 1)
  let A' : Img (Fp some) := Img.ofFn 4 4 (fun y x => if y = 1 ∧ x = 2 then .nan else .num 1)
  let dic : AngleDic := fun a => if a = 0 then some 1 else if a = 45 then some 0 else if a = -45 then some 2 else if a = 90 then some 3 else none
  have hL : (⟨1, 0, 2, 3⟩ : Layout).Describes dic := ⟨rfl, rfl, rfl, rfl⟩
  have hA : Spoiled (.nan : Fp some) (fun y x => y = 1 ∧ x = 2) A A' := by
    refine ⟨⟨rfl, rfl⟩, ?_⟩
    intro y x (hy : y < 4) (hx : x < 4)
    refine ⟨fun h => ?_, fun h => ?_⟩
    · show (Img.ofFn 4 4 _).px y x = _
      rw [Img.ofFn_px hy hx, if_pos h]
    · show (Img.ofFn 4 4 _).px y x = (Img.ofFn 4 4 _).px y x
      rw [Img.ofFn_px hy hx, Img.ofFn_px hy hx, if_neg h]
  obtain ⟨r, r', h, h', h0, h1, h2⟩ := C119_stokes hn hL hA (show 4 % 2 = 0 by decide) (show 4 % 2 = 0 by decide)
  obtain ⟨s, hs, clean⟩ : ∃ s : Fin 4 → Img (Fp some), (∀ k, (s k).h = 2 ∧ (s k).w = 2 ∧
      ∀ y x, y < 2 → x < 2 → (s k).px y x = .num 1) ∧ r = stokesClosed s ⟨1, 0, 2, 3⟩ := by
    refine ⟨fun k => Img.ofFn (A.h / 2) (A.w / 2) (fun y x => A.px (2 * y + k.val / 2) (2 * x + k.val % 2)),
      fun k => ⟨show 4 / 2 = 2 by decide, show 4 / 2 = 2 by decide, ?_⟩, ?_⟩
    · intro y x hy hx
      have := k.isLt
      have e4 : A.h = 4 := rfl
      have e4' : A.w = 4 := rfl
      exact (Img.ofFn_px (by rw [e4]; omega) (by rw [e4']; omega)).trans (Img.ofFn_px (by omega) (by omega))
    · have e : dataStokes A dic = .ok (stokesClosed (fun k => Img.ofFn (A.h / 2) (A.w / 2)
          (fun y x => A.px (2 * y + k.val / 2) (2 * x + k.val % 2))) ⟨1, 0, 2, 3⟩) := by
        unfold dataStokes
        rw [split_ok (show 4 % 2 = 0 by decide) (show 4 % 2 = 0 by decide), Py.ok_bind]
        exact theoStokes_ok (fun k : Fin 4 => Img.ofFn (A.h / 2) (A.w / 2)
          (fun y x => A.px (2 * y + k.val / 2) (2 * x + k.val % 2))) hL
      rw [h] at e
      exact Except.ok.inj e
  have sh : ∀ i, (r i).h = 2 ∧ (r i).w = 2 := by
    intro i
    rw [clean]
    fin_cases i
    · exact ⟨(hs 0).1, (hs 0).2.1⟩
    · exact ⟨(hs 1).1, (hs 1).2.1⟩
    · exact ⟨(hs 0).1, (hs 0).2.1⟩
  refine ⟨A', r', dic, ?_, h', ?_, ?_, ?_, ?_⟩
  · exact ((hA.2 1 2 (by decide) (by decide)).1 ⟨rfl, rfl⟩)
  · exact (h0.2 0 1 (by rw [(sh 0).1]; decide) (by rw [(sh 0).2]; decide)).1 ⟨2, rfl, rfl⟩
  · rw [(h1.2 0 1 (by rw [(sh 1).1]; decide) (by rw [(sh 1).2]; decide)).2 (by decide), clean]
    show (Img.zipWith (· - ·) (s 1) (s 3)).px 0 1 ≠ _
    rw [Img.zipWith_px _ _ _ (by rw [(hs 1).1]; decide) (by rw [(hs 1).2.1]; decide), (hs 1).2.2 0 1 (by decide) (by decide),
      (hs 3).2.2 0 1 (by decide) (by decide)]
    exact fun h => by cases h
  · exact (h2.2 0 1 (by rw [(sh 2).1]; decide) (by rw [(sh 2).2]; decide)).1 (Or.inr ⟨rfl, rfl⟩)
  · rw [(h0.2 1 1 (by rw [(sh 0).1]; decide) (by rw [(sh 0).2]; decide)).2 (by decide), clean]
    show (Img.ofFn (s 0).h (s 0).w _).px 1 1 ≠ _
    rw [Img.ofFn_px (by rw [(hs 0).1]; decide) (by rw [(hs 0).2.1]; decide), (hs 0).2.2 1 1 (by decide) (by decide),
      (hs 1).2.2 1 1 (by decide) (by decide), (hs 2).2.2 1 1 (by decide) (by decide), (hs 3).2.2 1 1 (by decide) (by decide)]
    intro h
    have e : ((1 : Fp some) / 2 * (.num 1 + .num 1 + .num 1 + .num 1)) = .num (1 / 2 * (1 + 1 + 1 + 1)) := by
      show Fp.mul (Fp.div (.num 1) (.num 2)) (Fp.add (Fp.add (Fp.add (.num 1) (.num 1)) (.num 1)) (.num 1)) = _
      simp [Fp.mul, Fp.div, Fp.add, Fp.ofReal]
    rw [e] at h
    cases h

/-- Non-vacuity of the rules on sums: adding a list from the left is one of the orders `AddsUp` admits. -/
example {K : Type} [Add K] (a b c : K) : AddsUp [a, b, c] (a + b + c) :=
  ((AddsUp.single a).plus (.single b)).plus (.single c)

end Micropol

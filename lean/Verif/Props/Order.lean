import Verif.Spec.Order
import Verif.Props.Superposition
import Verif.Props.Shift
import Verif.Props.Corrections
import Verif.Lemmas.Shift
import Mathlib.Tactic.FieldSimp

/-!
# C95: the order of the corrections

When two processing steps may be exchanged, and when they may not.
-/

set_option autoImplicit false
set_option linter.unusedSectionVars false

namespace Micropol

open Finset

section
variable {K : Type} [Field K]

/-- The superpixel rebin in closed form. -/
def binned (A : Img K) (b : Nat) : Img K :=
  Img.ofFn (2 * (A.h / (2 * b))) (2 * (A.w / (2 * b)))
    (fun Y X => ∑ u ∈ range b, ∑ v ∈ range b, A.px (2 * (b * (Y / 2) + u) + Y % 2) (2 * (b * (X / 2) + v) + X % 2))

theorem micropolRebin_binned (A : Img K) {b : Nat} (hb : 1 ≤ b) (hh : A.h % 2 = 0) (hw : A.w % 2 = 0) :
    micropolRebinData A b = .ok (binned A b) := by
  unfold micropolRebinData
  rw [if_neg (by omega), micropolarrayRebin_ok A b hb hh hw]
  congr 1
  refine Img.ofFn_congr ?_
  intro Y X _ _
  unfold blockSum
  refine sum_congr rfl (fun u _ => sum_congr rfl (fun v _ => ?_))
  congr 1 <;> ring

theorem binned_px (A : Img K) {b Y X : Nat} (hY : Y < 2 * (A.h / (2 * b))) (hX : X < 2 * (A.w / (2 * b))) :
    (binned A b).px Y X =
      ∑ u ∈ range b, ∑ v ∈ range b, A.px (2 * (b * (Y / 2) + u) + Y % 2) (2 * (b * (X / 2) + v) + X % 2) :=
  Img.ofFn_px hY hX

end

section
variable {K : Type} [Field K] [LinearOrder K] [IsStrictOrderedRing K]

/-- C95: subtracting a dark and rebinning.  Binning first (image and dark) never gives more light than subtracting first, and gives the
same in every binned pixel none of whose pixels is below the dark. -/
theorem C95_dark_bin (A D : Img K) (hs : A.SameShape D) (hh : A.h % 2 = 0) (hw : A.w % 2 = 0) {b : Nat} (hb : 1 ≤ b) :
    ∃ r rb Ab Db rb', subtractDarkData A D = .ok r ∧ micropolRebinData r b = .ok rb ∧
      micropolRebinData A b = .ok Ab ∧ micropolRebinData D b = .ok Db ∧ subtractDarkData Ab Db = .ok rb' ∧
      rb'.AtMost rb ∧
      (∀ Y X, Y < rb.h → X < rb.w →
        (∀ u v, u < b → v < b → D.px (2 * (b * (Y / 2) + u) + Y % 2) (2 * (b * (X / 2) + v) + X % 2) ≤
          A.px (2 * (b * (Y / 2) + u) + Y % 2) (2 * (b * (X / 2) + v) + X % 2)) → rb'.px Y X = rb.px Y X) ∧
      ((∀ y x, y < A.h → x < A.w → D.px y x ≤ A.px y x) → rb' = rb) := by
  obtain ⟨r, hr, rs, rp⟩ := C35_dark A D hs
  have hAb := micropolRebin_binned A hb hh hw
  have hDb := micropolRebin_binned D hb (by rw [← hs.1]; exact hh) (by rw [← hs.2]; exact hw)
  have hrb := micropolRebin_binned r hb (by rw [rs.1]; exact hh) (by rw [rs.2]; exact hw)
  obtain ⟨rb', hrb', ss, sp⟩ := C35_dark (binned A b) (binned D b)
    ⟨by show 2 * (A.h / (2 * b)) = 2 * (D.h / (2 * b)); rw [hs.1], by show 2 * (A.w / (2 * b)) = 2 * (D.w / (2 * b)); rw [hs.2]⟩
  have eh : (binned r b).h = 2 * (A.h / (2 * b)) := by show 2 * (r.h / (2 * b)) = _; rw [rs.1]
  have ew : (binned r b).w = 2 * (A.w / (2 * b)) := by show 2 * (r.w / (2 * b)) = _; rw [rs.2]
  have px' : ∀ Y X, Y < 2 * (A.h / (2 * b)) → X < 2 * (A.w / (2 * b)) → rb'.px Y X =
      max (∑ u ∈ range b, ∑ v ∈ range b, (A.px (2 * (b * (Y / 2) + u) + Y % 2) (2 * (b * (X / 2) + v) + X % 2) -
        D.px (2 * (b * (Y / 2) + u) + Y % 2) (2 * (b * (X / 2) + v) + X % 2))) 0 := by
    intro Y X hY hX
    rw [sp Y X hY hX, binned_px A hY hX, binned_px D (by rw [← hs.1]; exact hY) (by rw [← hs.2]; exact hX)]
    simp only [sum_sub_distrib]
  have px : ∀ Y X, Y < 2 * (A.h / (2 * b)) → X < 2 * (A.w / (2 * b)) → (binned r b).px Y X =
      ∑ u ∈ range b, ∑ v ∈ range b, max (A.px (2 * (b * (Y / 2) + u) + Y % 2) (2 * (b * (X / 2) + v) + X % 2) -
        D.px (2 * (b * (Y / 2) + u) + Y % 2) (2 * (b * (X / 2) + v) + X % 2)) 0 := by
    intro Y X hY hX
    rw [binned_px r (by rw [rs.1]; exact hY) (by rw [rs.2]; exact hX)]
    exact sum_congr rfl (fun u hu => sum_congr rfl (fun v hv =>
      rp _ _ (superIndex_lt hY u (mem_range.1 hu)) (superIndex_lt hX v (mem_range.1 hv))))
  have eq : ∀ Y X, Y < (binned r b).h → X < (binned r b).w →
        (∀ u v, u < b → v < b → D.px (2 * (b * (Y / 2) + u) + Y % 2) (2 * (b * (X / 2) + v) + X % 2) ≤
          A.px (2 * (b * (Y / 2) + u) + Y % 2) (2 * (b * (X / 2) + v) + X % 2)) → rb'.px Y X = (binned r b).px Y X := by
    intro Y X hY hX hle
    rw [eh] at hY
    rw [ew] at hX
    rw [px' Y X hY hX, px Y X hY hX, max_eq_left]
    · exact sum_congr rfl (fun u hu => sum_congr rfl (fun v hv =>
        (max_eq_left (sub_nonneg.2 (hle u v (mem_range.1 hu) (mem_range.1 hv)))).symm))
    · exact sum_nonneg (fun u hu => sum_nonneg (fun v hv => sub_nonneg.2 (hle u v (mem_range.1 hu) (mem_range.1 hv))))
  have sh : rb'.h = (binned r b).h := by rw [ss.1, eh]; rfl
  have sw : rb'.w = (binned r b).w := by rw [ss.2, ew]; rfl
  refine ⟨r, _, _, _, rb', hr, hrb, hAb, hDb, hrb', ⟨sh, sw, ?_⟩, eq, ?_⟩
  · intro Y X hY hX
    rw [sh, eh] at hY
    rw [sw, ew] at hX
    rw [px' Y X hY hX, px Y X hY hX]
    refine max_le ?_ (sum_nonneg (fun u _ => sum_nonneg (fun v _ => le_max_right _ _)))
    exact sum_le_sum (fun u _ => sum_le_sum (fun v _ => le_max_left _ _))
  · intro hle
    refine Img.ext_px sh sw ?_
    intro Y X hY hX
    rw [sh] at hY
    rw [sw] at hX
    refine eq Y X hY hX (fun u v hu hv => hle _ _ ?_ ?_)
    · exact superIndex_lt (by rw [eh] at hY; exact hY) u hu
    · exact superIndex_lt (by rw [ew] at hX; exact hX) v hv

/-- C95: subtracting a dark and dividing by a positive flat may be exchanged, the dark being divided by the same flat. -/
theorem C95_dark_flat (junk junk' junk'' : Nat → Nat → K) (A D F : Img K) (hs : A.SameShape D) (hf : A.SameShape F) (hh : A.h ≠ 0)
    (hw : A.w ≠ 0) (hpos : ∀ y x, y < F.h → x < F.w → 0 < F.px y x) :
    ∃ r rf Af Df, subtractDarkData A D = .ok r ∧ correctFlatData junk r F = .ok rf ∧
      correctFlatData junk' A F = .ok Af ∧ correctFlatData junk'' D F = .ok Df ∧ subtractDarkData Af Df = .ok rf := by
  have hm : 0 < F.mean := by
    unfold Img.mean Img.total Img.totalOn
    refine div_pos (sum_pos (fun y hy => sum_pos (fun x hx => hpos y x (mem_range.1 hy) (mem_range.1 hx)) ?_) ?_) ?_
    · exact ⟨0, mem_range.2 (by rw [← hf.2]; omega)⟩
    · exact ⟨0, mem_range.2 (by rw [← hf.1]; omega)⟩
    · rw [Nat.cast_pos, ← hf.1, ← hf.2]
      exact Nat.mul_pos (by omega) (by omega)
  obtain ⟨r, hr, rs, rp⟩ := C35_dark A D hs
  obtain ⟨rf, hrf, s1, p1⟩ := C36_flat_partial junk r F ⟨rs.1.trans hf.1, rs.2.trans hf.2⟩ (by rw [rs.1]; exact hh) (by rw [rs.2]; exact hw)
    hm.ne'
  obtain ⟨Af, hAf, s2, p2⟩ := C36_flat_partial junk' A F hf hh hw hm.ne'
  obtain ⟨Df, hDf, s3, p3⟩ := C36_flat_partial junk'' D F ⟨hs.1.symm.trans hf.1, hs.2.symm.trans hf.2⟩ (by rw [← hs.1]; exact hh)
    (by rw [← hs.2]; exact hw) hm.ne'
  obtain ⟨rf', hrf', s4, p4⟩ := C35_dark Af Df ⟨by rw [s2.1, s3.1, hs.1], by rw [s2.2, s3.2, hs.2]⟩
  refine ⟨r, rf, Af, Df, hr, hrf, hAf, hDf, ?_⟩
  rw [hrf']
  congr 1
  refine Img.ext_px (by rw [s4.1, s2.1, s1.1, rs.1]) (by rw [s4.2, s2.2, s1.2, rs.2]) ?_
  intro y x hy hx
  rw [s4.1, s2.1] at hy
  rw [s4.2, s2.2] at hx
  have h0 := hpos y x (by rw [← hf.1]; exact hy) (by rw [← hf.2]; exact hx)
  rw [p4 y x (by rw [s2.1]; exact hy) (by rw [s2.2]; exact hx), p2 y x hy hx h0.ne',
    p3 y x (by rw [← hs.1]; exact hy) (by rw [← hs.2]; exact hx) h0.ne',
    p1 y x (by rw [rs.1]; exact hy) (by rw [rs.2]; exact hx) h0.ne', rp y x hy hx]
  have hg : 0 ≤ F.mean / F.px y x := (div_pos hm h0).le
  have e1 : A.px y x * F.mean / F.px y x - D.px y x * F.mean / F.px y x = (A.px y x - D.px y x) * (F.mean / F.px y x) := by ring
  rw [e1, mul_div_assoc, max_mul_of_nonneg _ _ hg, zero_mul]

/-- C95: shifting and subtracting a dark may be exchanged, image and dark being shifted alike. -/
theorem C95_dark_shift (A D : Img K) (hs : A.SameShape D) (hh : A.h % 2 = 0) (hw : A.w % 2 = 0) (y x : Int) :
    ∃ r rs As Ds, subtractDarkData A D = .ok r ∧ shiftMicropol r y x 0 = .ok rs ∧ shiftMicropol A y x 0 = .ok As ∧
      shiftMicropol D y x 0 = .ok Ds ∧ subtractDarkData As Ds = .ok rs := by
  obtain ⟨r, hr, ss, rp⟩ := C35_dark A D hs
  obtain ⟨t, ht, ts, tp⟩ := C35_dark (shiftClosed A (2 * y) (2 * x) 0) (shiftClosed D (2 * y) (2 * x) 0) ⟨hs.1, hs.2⟩
  refine ⟨r, _, _, _, hr, shiftMicropol_ok r (by rw [ss.1]; exact hh) (by rw [ss.2]; exact hw) y x 0, shiftMicropol_ok A hh hw y x 0,
    shiftMicropol_ok D (by rw [← hs.1]; exact hh) (by rw [← hs.2]; exact hw) y x 0, ?_⟩
  rw [ht]
  congr 1
  refine Img.ext_px (by rw [ts.1]; exact ss.1.symm) (by rw [ts.2]; exact ss.2.symm) ?_
  intro j i hj hi
  rw [ts.1, shiftClosed_h] at hj
  rw [ts.2, shiftClosed_w] at hi
  rw [tp j i hj hi, shiftClosed_px _ _ _ _ hj hi, shiftClosed_px _ _ _ _ (by rw [← hs.1]; exact hj) (by rw [← hs.2]; exact hi),
    shiftClosed_px _ _ _ _ (by rw [ss.1]; exact hj) (by rw [ss.2]; exact hi), ← hs.1, ← hs.2, ss.1, ss.2]
  split
  · rw [rp _ _ (by omega) (by omega)]
  · rw [sub_zero, max_self]

end

section
variable {K : Type} [Field K]

/-- C95: shifting by whole bins and rebinning may be exchanged when the bins fill the image. -/
theorem C95_shift_bin (A : Img K) {b : Nat} (hb : 1 ≤ b) (hh : 2 * b ∣ A.h) (hw : 2 * b ∣ A.w) (y x : Int) :
    ∃ s sb Ab, shiftMicropol A (b * y) (b * x) 0 = .ok s ∧ micropolRebinData s b = .ok sb ∧ micropolRebinData A b = .ok Ab ∧
      shiftMicropol Ab y x 0 = .ok sb := by
  obtain ⟨H, hH⟩ := hh
  obtain ⟨W, hW⟩ := hw
  have e2 : A.h % 2 = 0 := by rw [hH, Nat.mul_assoc]; exact Nat.mul_mod_right _ _
  have e3 : A.w % 2 = 0 := by rw [hW, Nat.mul_assoc]; exact Nat.mul_mod_right _ _
  have q1 : A.h / (2 * b) = H := by rw [hH]; exact Nat.mul_div_cancel_left _ (by omega)
  have q2 : A.w / (2 * b) = W := by rw [hW]; exact Nat.mul_div_cancel_left _ (by omega)
  refine ⟨_, _, _, shiftMicropol_ok A e2 e3 (b * y) (b * x) 0, micropolRebin_binned _ hb e2 e3, micropolRebin_binned A hb e2 e3, ?_⟩
  rw [shiftMicropol_ok (binned A b) (by show 2 * _ % 2 = 0; omega) (by show 2 * _ % 2 = 0; omega)]
  congr 1
  refine Img.ext_px rfl rfl ?_
  intro Y X hY hX
  have hY' : Y < 2 * (A.h / (2 * b)) := hY
  have hX' : X < 2 * (A.w / (2 * b)) := hX
  rw [shiftClosed_px _ _ _ _ hY' hX', binned_px (shiftClosed A (2 * (b * y)) (2 * (b * x)) 0) hY' hX']
  -- one axis: a pixel of the bin comes from the image exactly when the bin does
  have key : ∀ (n N Y : Nat) (y : Int), n = 2 * b * N → Y < 2 * N → ∀ u, u < b →
      (((0 ≤ (Y : Int) - 2 * y ∧ (Y : Int) - 2 * y < (2 * N : Nat)) ↔
        (0 ≤ ((2 * (b * (Y / 2) + u) + Y % 2 : Nat) : Int) - 2 * (b * y) ∧
          ((2 * (b * (Y / 2) + u) + Y % 2 : Nat) : Int) - 2 * (b * y) < n)) ∧
      ((0 ≤ (Y : Int) - 2 * y) → 2 * (b * (((Y : Int) - 2 * y).toNat / 2) + u) + ((Y : Int) - 2 * y).toNat % 2 =
        (((2 * (b * (Y / 2) + u) + Y % 2 : Nat) : Int) - 2 * (b * y)).toNat)) := by
    intro n N Y y hn hY u hu
    obtain ⟨q, r, hr, rfl⟩ : ∃ q r, r < 2 ∧ Y = 2 * q + r := ⟨Y / 2, Y % 2, by omega, by omega⟩
    have d1 : (2 * q + r) / 2 = q := by omega
    have d2 : (2 * q + r) % 2 = r := by omega
    rw [d1, d2]
    have c1 : ((2 * (b * q + u) + r : Nat) : Int) - 2 * (b * y) = 2 * (b * ((q : Int) - y) + u) + r := by push_cast; ring
    have c2 : ((2 * q + r : Nat) : Int) - 2 * y = 2 * ((q : Int) - y) + r := by push_cast; ring
    rw [c1, c2, hn]
    obtain ⟨z, hz⟩ : ∃ z : Int, z = (q : Int) - y := ⟨_, rfl⟩
    rw [← hz]
    have hb' : (1 : Int) ≤ b := by exact_mod_cast hb
    have hu' : (u : Int) < b := by exact_mod_cast hu
    have g1 : 0 ≤ z → 0 ≤ (b : Int) * z := fun h => mul_nonneg (by omega) h
    have g2 : z < 0 → (b : Int) * z ≤ -b := fun h => by nlinarith
    have g3 : z < N → (b : Int) * z ≤ b * N - b := fun h => by nlinarith
    have g4 : (N : Int) ≤ z → (b : Int) * N ≤ b * z := fun h => mul_le_mul_of_nonneg_left h (by omega)
    constructor
    · have c3 : ((2 * b * N : Nat) : Int) = 2 * (b * N) := by push_cast; ring
      rw [c3]
      push_cast
      by_cases h1 : 0 ≤ z
      · have := g1 h1
        by_cases h2 : z < N
        · have := g3 h2
          constructor <;> intro _ <;> constructor <;> omega
        · have := g4 (by omega)
          constructor <;> intro _ <;> omega
      · have := g2 (by omega)
        constructor <;> intro _ <;> omega
    · intro h0
      obtain ⟨w, rfl⟩ : ∃ w : Nat, z = w := ⟨z.toNat, by omega⟩
      have c4 : (2 * (w : Int) + r).toNat = 2 * w + r := by omega
      have c5 : (2 * ((b : Int) * w + u) + r).toNat = 2 * (b * w + u) + r := by
        have : (2 * ((b : Int) * w + u) + r) = ((2 * (b * w + u) + r : Nat) : Int) := by push_cast; ring
        rw [this, Int.toNat_natCast]
      rw [c4, c5]
      have d3 : (2 * w + r) / 2 = w := by omega
      have d4 : (2 * w + r) % 2 = r := by omega
      rw [d3, d4]
  rw [q1] at hY'
  rw [q2] at hX'
  have bh : (binned A b).h = 2 * H := by show 2 * (A.h / (2 * b)) = _; rw [q1]
  have bw : (binned A b).w = 2 * W := by show 2 * (A.w / (2 * b)) = _; rw [q2]
  rw [bh, bw]
  split
  · rename_i hc
    rw [binned_px A (by rw [q1]; omega) (by rw [q2]; omega)]
    refine sum_congr rfl (fun u hu => sum_congr rfl (fun v hv => ?_))
    have k1 := key A.h H Y y hH hY' u (mem_range.1 hu)
    have k2 := key A.w W X x hW hX' v (mem_range.1 hv)
    have m1 := k1.1.1 ⟨hc.1, hc.2.1⟩
    have m2 := k2.1.1 ⟨hc.2.2.1, hc.2.2.2⟩
    rw [shiftClosed_px _ _ _ _ (superIndex_lt (by rw [q1]; exact hY') u (mem_range.1 hu))
      (superIndex_lt (by rw [q2]; exact hX') v (mem_range.1 hv)), if_pos ⟨m1.1, m1.2, m2.1, m2.2⟩, k1.2 hc.1, k2.2 hc.2.2.1]
  · rename_i hc
    symm
    refine sum_eq_zero (fun u hu => sum_eq_zero (fun v hv => ?_))
    have k1 := key A.h H Y y hH hY' u (mem_range.1 hu)
    have k2 := key A.w W X x hW hX' v (mem_range.1 hv)
    rw [shiftClosed_px _ _ _ _ (superIndex_lt (by rw [q1]; exact hY') u (mem_range.1 hu))
      (superIndex_lt (by rw [q2]; exact hX') v (mem_range.1 hv)), if_neg]
    intro m
    have n1 := k1.1.2 ⟨m.1, m.2.1⟩
    have n2 := k2.1.2 ⟨m.2.2.1, m.2.2.2⟩
    exact hc ⟨n1.1, n1.2, n2.1, n2.2⟩

end

section
variable {K : Type} [Field K] [LinearOrder K] [IsStrictOrderedRing K]

theorem sum_super (b H : Nat) (f : Nat → K) :
    ∑ Y ∈ range (2 * H), ∑ u ∈ range b, f (2 * (b * (Y / 2) + u) + Y % 2) = ∑ y ∈ range (2 * b * H), f y := by
  rw [← sum_range_blocks H 2, Nat.mul_assoc, ← sum_range_blocks (b * H) 2 f, ← sum_range_blocks H b]
  refine sum_congr rfl (fun q _ => ?_)
  rw [sum_comm]
  refine sum_congr rfl (fun u _ => sum_congr rfl (fun r hr => ?_))
  have hr := mem_range.1 hr
  have d1 : (2 * q + r) / 2 = q := by omega
  have d2 : (2 * q + r) % 2 = r := by omega
  rw [d1, d2]

theorem total_binned (A : Img K) {b : Nat} (hb : 1 ≤ b) (hh : 2 * b ∣ A.h) (hw : 2 * b ∣ A.w) : (binned A b).total = A.total := by
  obtain ⟨H, hH⟩ := hh
  obtain ⟨W, hW⟩ := hw
  have q1 : A.h / (2 * b) = H := by rw [hH]; exact Nat.mul_div_cancel_left _ (by omega)
  have q2 : A.w / (2 * b) = W := by rw [hW]; exact Nat.mul_div_cancel_left _ (by omega)
  unfold Img.total Img.totalOn
  have bh : (binned A b).h = 2 * H := by show 2 * (A.h / (2 * b)) = _; rw [q1]
  have bw : (binned A b).w = 2 * W := by show 2 * (A.w / (2 * b)) = _; rw [q2]
  rw [bh, bw, hH, hW, ← sum_super b H]
  refine sum_congr rfl (fun Y hY => ?_)
  have hY := mem_range.1 hY
  rw [sum_congr rfl (fun X hX => binned_px A (by rw [q1]; exact hY) (by rw [q2]; exact mem_range.1 hX)), sum_comm]
  refine sum_congr rfl (fun u _ => ?_)
  exact sum_super b W (fun x => A.px (2 * (b * (Y / 2) + u) + Y % 2) x)

/-- C95: an exposure of uniform light (a multiple `c` of the flat) is made uniform, and to the same value, by dividing by the flat and
rebinning and by rebinning both and dividing. -/
theorem C95_flat_bin_uniform (junk junk' : Nat → Nat → K) (A F : Img K) (c : K) (hs : A.SameShape F)
    (hc : ∀ y x, y < A.h → x < A.w → A.px y x = c * F.px y x) {b : Nat} (hb : 1 ≤ b) (hh : 2 * b ∣ A.h) (hw : 2 * b ∣ A.w)
    (hh0 : A.h ≠ 0) (hw0 : A.w ≠ 0) (hpos : ∀ y x, y < F.h → x < F.w → 0 < F.px y x) :
    ∃ r rb Ab Fb, correctFlatData junk A F = .ok r ∧ micropolRebinData r b = .ok rb ∧ micropolRebinData A b = .ok Ab ∧
      micropolRebinData F b = .ok Fb ∧ correctFlatData junk' Ab Fb = .ok rb ∧
      ∀ y x, y < rb.h → x < rb.w → rb.px y x = (b * b : Nat) * (c * F.mean) := by
  have hFh : 2 * b ∣ F.h := by rw [← hs.1]; exact hh
  have hFw : 2 * b ∣ F.w := by rw [← hs.2]; exact hw
  have ev : ∀ n, 2 * b ∣ n → n % 2 = 0 := by
    rintro n ⟨k, rfl⟩
    rw [Nat.mul_assoc]; exact Nat.mul_mod_right _ _
  have hm : 0 < F.mean := by
    unfold Img.mean Img.total Img.totalOn
    refine div_pos (sum_pos (fun y hy => sum_pos (fun x hx => hpos y x (mem_range.1 hy) (mem_range.1 hx)) ?_) ?_) ?_
    · exact ⟨0, mem_range.2 (by rw [← hs.2]; omega)⟩
    · exact ⟨0, mem_range.2 (by rw [← hs.1]; omega)⟩
    · rw [Nat.cast_pos, ← hs.1, ← hs.2]
      exact Nat.mul_pos (by omega) (by omega)
  have hb0 : ((b * b : Nat) : K) ≠ 0 := by
    rw [Nat.cast_ne_zero]
    exact Nat.mul_ne_zero (by omega) (by omega)
  obtain ⟨H, hH⟩ := hh
  obtain ⟨W, hW⟩ := hw
  have q1 : A.h / (2 * b) = H := by rw [hH]; exact Nat.mul_div_cancel_left _ (by omega)
  have q2 : A.w / (2 * b) = W := by rw [hW]; exact Nat.mul_div_cancel_left _ (by omega)
  have hH0 : H ≠ 0 := by rintro rfl; exact hh0 (by rw [hH]; rfl)
  have hW0 : W ≠ 0 := by rintro rfl; exact hw0 (by rw [hW]; rfl)
  -- the mean of the binned flat
  have hmb : (binned F b).mean = (b * b : Nat) * F.mean := by
    unfold Img.mean
    rw [total_binned F hb hFh hFw]
    have bh : (binned F b).h = 2 * H := by show 2 * (F.h / (2 * b)) = _; rw [← hs.1, q1]
    have bw : (binned F b).w = 2 * W := by show 2 * (F.w / (2 * b)) = _; rw [← hs.2, q2]
    rw [bh, bw, ← hs.1, ← hs.2, hH, hW]
    have hHK : (H : K) ≠ 0 := Nat.cast_ne_zero.2 hH0
    have hWK : (W : K) ≠ 0 := Nat.cast_ne_zero.2 hW0
    have hbK : (b : K) ≠ 0 := Nat.cast_ne_zero.2 (by omega)
    push_cast
    field_simp
  obtain ⟨r, hr, rs, rp⟩ := C36_flat_partial junk A F hs hh0 hw0 hm.ne'
  have pr : ∀ y x, y < A.h → x < A.w → r.px y x = c * F.mean := by
    intro y x hy hx
    have h0 := hpos y x (by rw [← hs.1]; exact hy) (by rw [← hs.2]; exact hx)
    rw [rp y x hy hx h0.ne', hc y x hy hx]
    have := h0.ne'
    field_simp
  have prb : ∀ Y X, Y < 2 * (A.h / (2 * b)) → X < 2 * (A.w / (2 * b)) → (binned r b).px Y X = (b * b : Nat) * (c * F.mean) := by
    intro Y X hY hX
    rw [binned_px r (by rw [rs.1]; exact hY) (by rw [rs.2]; exact hX),
      sum_congr rfl (fun u hu => sum_congr rfl (fun v hv =>
        pr _ _ (superIndex_lt hY u (mem_range.1 hu)) (superIndex_lt hX v (mem_range.1 hv))))]
    simp only [sum_const, card_range, nsmul_eq_mul]
    push_cast
    ring
  have pFb : ∀ Y X, Y < 2 * (A.h / (2 * b)) → X < 2 * (A.w / (2 * b)) → 0 < (binned F b).px Y X := by
    intro Y X hY hX
    rw [hs.1] at hY
    rw [hs.2] at hX
    rw [binned_px F hY hX]
    refine sum_pos (fun u hu => sum_pos (fun v hv => hpos _ _ (superIndex_lt hY u (mem_range.1 hu))
      (superIndex_lt hX v (mem_range.1 hv))) ⟨0, mem_range.2 (by omega)⟩) ⟨0, mem_range.2 (by omega)⟩
  have pAb : ∀ Y X, Y < 2 * (A.h / (2 * b)) → X < 2 * (A.w / (2 * b)) → (binned A b).px Y X = c * (binned F b).px Y X := by
    intro Y X hY hX
    rw [binned_px A hY hX, binned_px F (by rw [← hs.1]; exact hY) (by rw [← hs.2]; exact hX), mul_sum]
    refine sum_congr rfl (fun u hu => ?_)
    rw [mul_sum]
    exact sum_congr rfl (fun v hv => hc _ _ (superIndex_lt hY u (mem_range.1 hu)) (superIndex_lt hX v (mem_range.1 hv)))
  obtain ⟨t, ht, ts, tp⟩ := C36_flat_partial junk' (binned A b) (binned F b)
    ⟨by show 2 * (A.h / (2 * b)) = 2 * (F.h / (2 * b)); rw [hs.1], by show 2 * (A.w / (2 * b)) = 2 * (F.w / (2 * b)); rw [hs.2]⟩
    (by show 2 * (A.h / (2 * b)) ≠ 0; omega) (by show 2 * (A.w / (2 * b)) ≠ 0; omega) (by rw [hmb]; exact mul_ne_zero hb0 hm.ne')
  have hA2 : A.h % 2 = 0 := ev _ ⟨H, hH⟩
  have hA3 : A.w % 2 = 0 := ev _ ⟨W, hW⟩
  have eh : (binned r b).h = 2 * (A.h / (2 * b)) := by show 2 * (r.h / (2 * b)) = _; rw [rs.1]
  have ew : (binned r b).w = 2 * (A.w / (2 * b)) := by show 2 * (r.w / (2 * b)) = _; rw [rs.2]
  refine ⟨r, binned r b, binned A b, binned F b, hr, micropolRebin_binned r hb (by rw [rs.1]; exact hA2) (by rw [rs.2]; exact hA3),
    micropolRebin_binned A hb hA2 hA3, micropolRebin_binned F hb (ev _ hFh) (ev _ hFw), ?_, ?_⟩
  · rw [ht]
    congr 1
    refine Img.ext_px (by rw [ts.1, eh]; rfl) (by rw [ts.2, ew]; rfl) ?_
    intro Y X hY hX
    rw [ts.1] at hY
    rw [ts.2] at hX
    have hY' : Y < 2 * (A.h / (2 * b)) := hY
    have hX' : X < 2 * (A.w / (2 * b)) := hX
    have h0 := (pFb Y X hY' hX').ne'
    rw [tp Y X hY hX h0, pAb Y X hY' hX', prb Y X hY' hX', hmb]
    field_simp
  · intro Y X hY hX
    exact prb Y X (by rw [eh] at hY; exact hY) (by rw [ew] at hX; exact hX)

end

/-! ## Where the order matters -/

/-- A 4 x 4 image with `a` in its left half and `c` in its right half. -/
def exHalves (a c : ℚ) : Img ℚ := Img.ofFn 4 4 (fun _ x => if x < 2 then a else c)

theorem exHalves_px (a c : ℚ) {y x : Nat} (hy : y < 4) (hx : x < 4) : (exHalves a c).px y x = if x < 2 then a else c :=
  Img.ofFn_px hy hx

theorem exHalves_bh (a c : ℚ) : (binned (exHalves a c) 2).h = 2 := by
  show 2 * (4 / (2 * 2)) = 2
  norm_num

theorem exHalves_bw (a c : ℚ) : (binned (exHalves a c) 2).w = 2 := by
  show 2 * (4 / (2 * 2)) = 2
  norm_num

theorem exHalves_bs (a c a' c' : ℚ) : (binned (exHalves a c) 2).SameShape (binned (exHalves a' c') 2) :=
  ⟨by rw [exHalves_bh, exHalves_bh], by rw [exHalves_bw, exHalves_bw]⟩

theorem exHalves_rebin (a c : ℚ) : micropolRebinData (exHalves a c) 2 = .ok (binned (exHalves a c) 2) :=
  micropolRebin_binned (exHalves a c) (b := 2) (by decide) (by show 4 % 2 = 0; norm_num) (by show 4 % 2 = 0; norm_num)

theorem exHalves_binned (a c : ℚ) {y x : Nat} (hy : y < 2) (hx : x < 2) : (binned (exHalves a c) 2).px y x = 2 * a + 2 * c := by
  have h1 := exHalves_bh a c
  have h2 := exHalves_bw a c
  rw [binned_px (exHalves a c) (by rw [← h1] at hy; exact hy) (by rw [← h2] at hx; exact hx)]
  simp only [sum_range_succ, sum_range_zero]
  rw [exHalves_px _ _ (by omega) (by omega), exHalves_px _ _ (by omega) (by omega), exHalves_px _ _ (by omega) (by omega),
    exHalves_px _ _ (by omega) (by omega)]
  rw [if_pos (by omega), if_neg (by omega)]
  ring

/-- C95: the full claim is false: darks and bins may not be exchanged when some pixel lies below the dark. -/
theorem C95_dark_bin_order_matters : ¬ ∀ (A D r rb Ab Db rb' : Img ℚ), A.SameShape D → subtractDarkData A D = .ok r →
    micropolRebinData r 2 = .ok rb → micropolRebinData A 2 = .ok Ab → micropolRebinData D 2 = .ok Db → subtractDarkData Ab Db = .ok rb' →
    rb' = rb := by
  intro hall
  obtain ⟨r, hr, rs, rp⟩ := C35_dark (exHalves 0 4) (exHalves 2 2) ⟨rfl, rfl⟩
  obtain ⟨t, ht, ts, tp⟩ := C35_dark (binned (exHalves 0 4) 2) (binned (exHalves 2 2) 2) (exHalves_bs _ _ _ _)
  have hrh : r = exHalves 0 2 := by
    refine Img.ext_px rs.1 rs.2 ?_
    intro y x hy hx
    rw [rs.1] at hy
    rw [rs.2] at hx
    rw [rp y x hy hx, exHalves_px _ _ hy hx, exHalves_px _ _ hy hx, exHalves_px _ _ hy hx]
    split <;> norm_num
  have e := hall (exHalves 0 4) (exHalves 2 2) r (binned (exHalves 0 2) 2) _ _ t ⟨rfl, rfl⟩ hr (by rw [hrh]; exact exHalves_rebin _ _)
    (exHalves_rebin _ _) (exHalves_rebin _ _) ht
  have e0 := congrArg (fun B => Img.px B 0 0) e
  rw [exHalves_binned _ _ (by decide) (by decide), tp 0 0 (by rw [exHalves_bh]; decide) (by rw [exHalves_bw]; decide), exHalves_binned _ _ (by decide) (by decide),
    exHalves_binned _ _ (by decide) (by decide)] at e0
  norm_num at e0

theorem exHalves_mean (a c : ℚ) : (exHalves a c).mean = (a + c) / 2 := by
  have e : ∀ y x, y < 4 → x < 4 → (exHalves a c).px y x = if x < 2 then a else c := fun y x hy hx => exHalves_px a c hy hx
  unfold Img.mean Img.total Img.totalOn
  have h4 : (exHalves a c).h = 4 := rfl
  have w4 : (exHalves a c).w = 4 := rfl
  rw [h4, w4, sum_congr rfl (fun y hy => sum_congr rfl (fun x hx => e y x (mem_range.1 hy) (mem_range.1 hx)))]
  norm_num [sum_range_succ]
  ring

/-- C95: flats and bins may not be exchanged when the light is not uniform. -/
theorem C95_flat_bin_order_matters : ¬ ∀ (junk : Nat → Nat → ℚ) (A F r rb Ab Fb rb' : Img ℚ), A.SameShape F →
    (∀ y x, y < F.h → x < F.w → 0 < F.px y x) → correctFlatData junk A F = .ok r →
    micropolRebinData r 2 = .ok rb → micropolRebinData A 2 = .ok Ab → micropolRebinData F 2 = .ok Fb →
    correctFlatData junk Ab Fb = .ok rb' → rb' = rb := by
  intro hall
  have hm : (exHalves 1 3).mean = 2 := by rw [exHalves_mean]; norm_num
  have hmb8 : (binned (exHalves 1 3) 2).mean = 8 := by
    unfold Img.mean Img.total Img.totalOn
    rw [exHalves_bh, exHalves_bw, sum_congr rfl (fun y hy => sum_congr rfl (fun x hx =>
      exHalves_binned 1 3 (mem_range.1 hy) (mem_range.1 hx)))]
    norm_num [sum_range_succ]
  have hmb : (binned (exHalves 1 3) 2).mean ≠ 0 := by rw [hmb8]; norm_num
  obtain ⟨r, hr, rs, rp⟩ := C36_flat_partial (fun _ _ => 0) (exHalves 1 0) (exHalves 1 3) ⟨rfl, rfl⟩ (by decide) (by decide)
    (by rw [hm]; norm_num)
  obtain ⟨t, ht, ts, tp⟩ := C36_flat_partial (fun _ _ => 0) (binned (exHalves 1 0) 2) (binned (exHalves 1 3) 2) (exHalves_bs _ _ _ _)
    (by rw [exHalves_bh]; decide) (by rw [exHalves_bw]; decide) hmb
  have hrh : r = exHalves 2 0 := by
    refine Img.ext_px rs.1 rs.2 ?_
    intro y x hy hx
    rw [rs.1] at hy
    rw [rs.2] at hx
    rw [rp y x hy hx (by rw [exHalves_px _ _ hy hx]; split <;> norm_num), hm, exHalves_px _ _ hy hx, exHalves_px _ _ hy hx,
      exHalves_px _ _ hy hx]
    split <;> norm_num
  have e := hall (fun _ _ => 0) (exHalves 1 0) (exHalves 1 3) r (binned (exHalves 2 0) 2) _ _ t ⟨rfl, rfl⟩
    (fun y x hy hx => by rw [exHalves_px _ _ hy hx]; split <;> norm_num) hr
    (by rw [hrh]; exact exHalves_rebin _ _)
    (exHalves_rebin _ _) (exHalves_rebin _ _) ht
  have hb1 := exHalves_binned 1 3 (y := 0) (x := 0) (by decide) (by decide)
  have e0 := congrArg (fun B => Img.px B 0 0) e
  rw [exHalves_binned _ _ (by decide) (by decide), tp 0 0 (by rw [exHalves_bh]; decide) (by rw [exHalves_bw]; decide) (by rw [hb1]; norm_num), hmb8, hb1,
    exHalves_binned _ _ (by decide) (by decide)] at e0
  norm_num at e0

/-- Hypotheses of the theorems above on concrete frames: a positive flat, an exposure of uniform light of strength 5, bins of 2. -/
example : (exHalves 5 15).SameShape (exHalves 1 3) ∧ (exHalves 5 15).h % 2 = 0 ∧ (exHalves 5 15).w % 2 = 0 ∧
    2 * 2 ∣ (exHalves 5 15).h ∧ 2 * 2 ∣ (exHalves 5 15).w ∧
    (∀ y x, y < (exHalves 5 15).h → x < (exHalves 5 15).w → (exHalves 5 15).px y x = 5 * (exHalves 1 3).px y x) ∧
    (∀ y x, y < (exHalves 1 3).h → x < (exHalves 1 3).w → 0 < (exHalves 1 3).px y x) := by
  refine ⟨⟨rfl, rfl⟩, rfl, rfl, ⟨1, rfl⟩, ⟨1, rfl⟩, ?_, ?_⟩
  · intro y x hy hx
    rw [exHalves_px _ _ hy hx, exHalves_px _ _ hy hx]
    split <;> norm_num
  · intro y x hy hx
    rw [exHalves_px _ _ hy hx]
    split <;> norm_num

end Micropol

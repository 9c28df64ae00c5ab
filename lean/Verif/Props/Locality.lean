import Verif.Spec.Locality
import Verif.Props.Stokes
import Verif.Props.Demosaic
import Verif.Props.Rebin
import Verif.Props.Demodulate
import Verif.Props.Corrections
import Verif.Props.Shift

/-!
# C92: a bad pixel spoils only what is computed from it

Two runs are compared: on data `A` and on data `B` that differs from `A` only in the pixels `P` (a hot pixel, a cosmic ray, a
dust grain).  The theorems say where the results can differ.
-/

set_option autoImplicit false
set_option linter.unusedSectionVars false

namespace Micropol

theorem index_lt {n b Y : Nat} (hY : Y < n / b) (u : Nat) (hu : u < b) : b * Y + u < n := by
  have h1 : b * (Y + 1) ≤ b * (n / b) := Nat.mul_le_mul_left b hY
  have h2 := Nat.mul_div_le n b
  rw [Nat.mul_add, Nat.mul_one] at h1
  omega

theorem superIndex_lt {n b Y : Nat} (hY : Y < 2 * (n / (2 * b))) (u : Nat) (hu : u < b) : 2 * (b * (Y / 2) + u) + Y % 2 < n := by
  have h1 : Y / 2 < n / (2 * b) := by omega
  have h2 := index_lt h1 (2 * u + 1) (by omega)
  have h3 : 2 * b * (Y / 2) = 2 * (b * (Y / 2)) := by ring
  omega

section
variable {K : Type} [Field K]

/-- C92: the intensity of a superpixel can change only if one of its four pixels did; Q only if the 0° or the 90° pixel did, U only
if the 45° or the -45° pixel did. -/
theorem C92_stokes {A B : Img K} {P : Nat → Nat → Prop} (h : A.DiffersOnlyAt B P) (hh : A.h % 2 = 0) (hw : A.w % 2 = 0)
    {L : Layout} {dic : AngleDic} (hL : L.Describes dic) :
    ∃ S T, dataStokes A dic = .ok S ∧ dataStokes B dic = .ok T ∧
      (S 0).DiffersOnlyAt (T 0) (fun Y X => ∃ k : Fin 4, P (2 * Y + k.val / 2) (2 * X + k.val % 2)) ∧
      (S 1).DiffersOnlyAt (T 1) (fun Y X => P (2 * Y + L.p0.val / 2) (2 * X + L.p0.val % 2) ∨
        P (2 * Y + L.p90.val / 2) (2 * X + L.p90.val % 2)) ∧
      (S 2).DiffersOnlyAt (T 2) (fun Y X => P (2 * Y + L.p45.val / 2) (2 * X + L.p45.val % 2) ∨
        P (2 * Y + L.pm45.val / 2) (2 * X + L.pm45.val % 2)) := by
  obtain ⟨S, hS, sh, sp⟩ := C17_stokes A hh hw L dic hL
  obtain ⟨T, hT, th, tp⟩ := C17_stokes B (by rw [← h.1]; exact hh) (by rw [← h.2.1]; exact hw) L dic hL
  have sz : ∀ i, (S i).h = (T i).h ∧ (S i).w = (T i).w := by
    intro i
    rw [(sh i).1, (sh i).2, (th i).1, (th i).2, h.1, h.2.1]
    exact ⟨rfl, rfl⟩
  have px : ∀ (k : Fin 4) (Y X : Nat), Y < A.h / 2 → X < A.w / 2 → ¬ P (2 * Y + k.val / 2) (2 * X + k.val % 2) →
      A.px (2 * Y + k.val / 2) (2 * X + k.val % 2) = B.px (2 * Y + k.val / 2) (2 * X + k.val % 2) := by
    intro k Y X hY hX hP
    have := k.isLt
    exact h.2.2 _ _ (by omega) (by omega) hP
  refine ⟨S, T, hS, hT, ⟨(sz 0).1, (sz 0).2, ?_⟩, ⟨(sz 1).1, (sz 1).2, ?_⟩, ⟨(sz 2).1, (sz 2).2, ?_⟩⟩
  · intro Y X hY hX hP
    rw [(sh 0).1] at hY
    rw [(sh 0).2] at hX
    push Not at hP
    rw [(sp Y X hY hX).1, (tp Y X (by rw [← h.1]; exact hY) (by rw [← h.2.1]; exact hX)).1]
    dsimp only
    rw [px 0 Y X hY hX (hP 0), px 1 Y X hY hX (hP 1), px 2 Y X hY hX (hP 2), px 3 Y X hY hX (hP 3)]
  · intro Y X hY hX hP
    rw [(sh 1).1] at hY
    rw [(sh 1).2] at hX
    push Not at hP
    rw [(sp Y X hY hX).2.1, (tp Y X (by rw [← h.1]; exact hY) (by rw [← h.2.1]; exact hX)).2.1]
    dsimp only
    rw [px _ Y X hY hX hP.1, px _ Y X hY hX hP.2]
  · intro Y X hY hX hP
    rw [(sh 2).1] at hY
    rw [(sh 2).2] at hX
    push Not at hP
    rw [(sp Y X hY hX).2.2, (tp Y X (by rw [← h.1]; exact hY) (by rw [← h.2.1]; exact hX)).2.2]
    dsimp only
    rw [px _ Y X hY hX hP.1, px _ Y X hY hX hP.2]

/-- C92: rebinning: a pixel of the result can change only if one of the pixels of its block did. -/
theorem C92_rebin {A B : Img K} {P : Nat → Nat → Prop} (h : A.DiffersOnlyAt B P) {b : Nat} (hb : 1 ≤ b) :
    ∃ r s, imageRebinData A b = .ok r ∧ imageRebinData B b = .ok s ∧
      r.DiffersOnlyAt s (fun Y X => ∃ u v, u < b ∧ v < b ∧ P (b * Y + u) (b * X + v)) := by
  obtain ⟨r, hr, r1, r2, r3⟩ := C08_rebin A b hb
  obtain ⟨s, hs, s1, s2, s3⟩ := C08_rebin B b hb
  refine ⟨r, s, hr, hs, by rw [r1, s1, h.1], by rw [r2, s2, h.2.1], ?_⟩
  intro Y X hY hX hP
  push Not at hP
  rw [r1] at hY
  rw [r2] at hX
  rw [r3 Y X (by rw [r1]; exact hY) (by rw [r2]; exact hX), s3 Y X (by rw [s1, ← h.1]; exact hY) (by rw [s2, ← h.2.1]; exact hX)]
  have i1 := index_lt hY
  have i2 := index_lt hX
  refine Finset.sum_congr rfl (fun u hu => Finset.sum_congr rfl (fun v hv => ?_))
  have hu := Finset.mem_range.1 hu
  have hv := Finset.mem_range.1 hv
  exact h.2.2 _ _ (i1 u hu) (i2 v hv) (hP u v hu hv)

/-- C92: the rebinning that keeps the polarizations apart: only if one of the pixels of its block *of the same orientation* did. -/
theorem C92_rebin_micropol {A B : Img K} {P : Nat → Nat → Prop} (h : A.DiffersOnlyAt B P) (hh : A.h % 2 = 0) (hw : A.w % 2 = 0)
    {b : Nat} (hb : 1 ≤ b) :
    ∃ r s, micropolRebinData A b = .ok r ∧ micropolRebinData B b = .ok s ∧
      r.DiffersOnlyAt s (fun Y X => ∃ u v, u < b ∧ v < b ∧ P (2 * (b * (Y / 2) + u) + Y % 2) (2 * (b * (X / 2) + v) + X % 2)) := by
  have hhB : B.h % 2 = 0 := by rw [← h.1]; exact hh
  have hwB : B.w % 2 = 0 := by rw [← h.2.1]; exact hw
  unfold micropolRebinData
  rw [if_neg (by omega), if_neg (by omega), micropolarrayRebin_ok A b hb hh hw, micropolarrayRebin_ok B b hb hhB hwB]
  refine ⟨_, _, rfl, rfl, by simp only [Img.ofFn_h]; rw [h.1], by simp only [Img.ofFn_w]; rw [h.2.1], ?_⟩
  intro Y X hY hX hP
  push Not at hP
  simp only [Img.ofFn_h] at hY
  simp only [Img.ofFn_w] at hX
  rw [Img.ofFn_px hY hX, Img.ofFn_px (by rw [← h.1]; exact hY) (by rw [← h.2.1]; exact hX)]
  unfold blockSum
  refine Finset.sum_congr rfl (fun u hu => Finset.sum_congr rfl (fun v hv => ?_))
  have hu := Finset.mem_range.1 hu
  have hv := Finset.mem_range.1 hv
  have i1 := superIndex_lt hY u hu
  have i2 := superIndex_lt hX v hv
  have e1 : 2 * b * (Y / 2) + Y % 2 + u * 2 = 2 * (b * (Y / 2) + u) + Y % 2 := by ring
  have e2 : 2 * b * (X / 2) + X % 2 + v * 2 = 2 * (b * (X / 2) + v) + X % 2 := by ring
  rw [e1, e2]
  exact h.2.2 _ _ i1 i2 (hP u v hu hv)

/-- C92: 'mean' demosaicing: a pixel of a family image can change only if the pixel of that family in the same superpixel did. -/
theorem C92_demosaic_mean {A B : Img K} {P : Nat → Nat → Prop} (h : A.DiffersOnlyAt B P) (hh : A.h % 2 = 0) (hw : A.w % 2 = 0) :
    ∃ r s, demosaic A "mean" = .ok r ∧ demosaic B "mean" = .ok s ∧
      ∀ k : Fin 4, (r k).DiffersOnlyAt (s k) (fun y x => P (2 * (y / 2) + k.val / 2) (2 * (x / 2) + k.val % 2)) := by
  have hhB : B.h % 2 = 0 := by rw [← h.1]; exact hh
  have hwB : B.w % 2 = 0 := by rw [← h.2.1]; exact hw
  unfold demosaic
  rw [if_pos rfl, if_pos rfl]
  refine ⟨_, _, demosaicmean_ok A hh hw, demosaicmean_ok B hhB hwB, fun k => ⟨h.1, h.2.1, ?_⟩⟩
  intro y x (hy : y < A.h) (hx : x < A.w) hP
  have := k.isLt
  rw [Img.ofFn_px hy hx, Img.ofFn_px (by rw [← h.1]; exact hy) (by rw [← h.2.1]; exact hx), h.2.2 _ _ (by omega) (by omega) hP]

/-- C92: 'adjacent' demosaicing: a pixel of a family image can change only if the pixel of that family did in the same superpixel or, for
the interpolated pixels, in the next superpixel below or to the right. -/
theorem C92_demosaic_adjacent [CharZero K] {A B : Img K} {P : Nat → Nat → Prop} (h : A.DiffersOnlyAt B P) (hh : A.h % 2 = 0)
    (hw : A.w % 2 = 0) :
    ∃ r s, demosaic A "adjacent" = .ok r ∧ demosaic B "adjacent" = .ok s ∧
      ∀ k : Fin 4, (r k).DiffersOnlyAt (s k) (fun y x => ∃ a b, a ≤ y % 2 ∧ b ≤ x % 2 ∧
        P (2 * min (y / 2 + a) (A.h / 2 - 1) + k.val / 2) (2 * min (x / 2 + b) (A.w / 2 - 1) + k.val % 2)) := by
  have hhB : B.h % 2 = 0 := by rw [← h.1]; exact hh
  have hwB : B.w % 2 = 0 := by rw [← h.2.1]; exact hw
  obtain ⟨r, hr, rp⟩ := C14_adjacent A _ (split_ok hh hw)
  obtain ⟨s, hs, sp⟩ := C14_adjacent B _ (split_ok hhB hwB)
  refine ⟨r, s, hr, hs, fun k => ⟨by rw [(rp k).1, (sp k).1, h.1], by rw [(rp k).2.1, (sp k).2.1, h.2.1], ?_⟩⟩
  intro y x hy hx hP
  rw [(rp k).1] at hy
  rw [(rp k).2.1] at hx
  push Not at hP
  have hk := k.isLt
  have e1 := (rp k).2.2 (y / 2) (x / 2) (y % 2) (x % 2) (by omega) (by omega) (by omega) (by omega)
  have e2 := (sp k).2.2 (y / 2) (x / 2) (y % 2) (x % 2) (by rw [← h.1]; omega) (by rw [← h.2.1]; omega) (by omega) (by omega)
  rw [Nat.div_add_mod, Nat.div_add_mod] at e1 e2
  rw [e1, e2]
  unfold bilinear
  congr 1
  refine Finset.sum_congr rfl (fun a ha => Finset.sum_congr rfl (fun b hb => ?_))
  have ha := Finset.mem_range.1 ha
  have hb := Finset.mem_range.1 hb
  simp only [Img.ofFn_h, Img.ofFn_w]
  rw [← h.1, ← h.2.1, Img.ofFn_px (by omega) (by omega), Img.ofFn_px (by omega) (by omega)]
  exact h.2.2 _ _ (by omega) (by omega) (hP a b (by omega) (by omega))

/-- C92: field-of-view correction: only if the pixel itself or its neighbours two pixels above and to the left did. -/
theorem C92_ifov [LinearOrder K] [IsStrictOrderedRing K] {A B : Img K} {P : Nat → Nat → Prop} (h : A.DiffersOnlyAt B P) (hh : A.h % 2 = 0) (hw : A.w % 2 = 0) :
    ∃ r s, correctIfovData A = .ok r ∧ correctIfovData B = .ok s ∧
      r.DiffersOnlyAt s (fun y x => 2 ≤ y ∧ 2 ≤ x ∧ ∃ a b, a ≤ 1 ∧ b ≤ 1 ∧ P (y - 2 * a) (x - 2 * b)) := by
  have hhB : B.h % 2 = 0 := by rw [← h.1]; exact hh
  have hwB : B.w % 2 = 0 := by rw [← h.2.1]; exact hw
  obtain ⟨r, hr, rs, rp⟩ := C37_ifov A hh hw
  obtain ⟨s, hs, ss, sp⟩ := C37_ifov B hhB hwB
  refine ⟨r, s, hr, hs, by rw [rs.1, ss.1, h.1], by rw [rs.2, ss.2, h.2.1], ?_⟩
  intro y x hy hx hP
  rw [rs.1] at hy
  rw [rs.2] at hx
  have p1 := rp y x hy hx
  have p2 := sp y x (by rw [← h.1]; exact hy) (by rw [← h.2.1]; exact hx)
  by_cases hc : 2 ≤ y ∧ 2 ≤ x
  · push Not at hP
    have q := hP hc.1 hc.2
    rw [p1.2 hc.1 hc.2, p2.2 hc.1 hc.2]
    have q00 := h.2.2 y x hy hx (q 0 0 (by omega) (by omega))
    have q10 := h.2.2 (y - 2) x (by omega) hx (q 1 0 (by omega) (by omega))
    have q01 := h.2.2 y (x - 2) hy (by omega) (q 0 1 (by omega) (by omega))
    have q11 := h.2.2 (y - 2) (x - 2) (by omega) (by omega) (q 1 1 (by omega) (by omega))
    rw [q00, q10, q01, q11]
  · rw [p1.1 (by omega), p2.1 (by omega)]

/-- C92: demodulation: a superpixel can change only if one of its four pixels did or, where the fit failed, its old value did. -/
theorem C92_demodulate [DecidableEq K] {A B : Img K} {P Q : Nat → Nat → Prop} (h : A.DiffersOnlyAt B P) (hh : A.h % 2 = 0)
    (hw : A.w % 2 = 0) {S0 T0 : Fin 3 → Img K} (h0 : ∀ i, (S0 i).DiffersOnlyAt (T0 i) Q)
    (hs0 : ∀ i, (S0 i).HasShape (A.h / 2) (A.w / 2)) {D : Demodulator K} (hD : D.HasShape (A.h / 2) (A.w / 2)) {flags : Img K}
    (hf : D.fitFoundFlags = some flags) (hfs : flags.HasShape (A.h / 2) (A.w / 2)) :
    ∃ S T, demodulatePlain A S0 D = .ok S ∧ demodulatePlain B T0 D = .ok T ∧
      ∀ i, (S i).DiffersOnlyAt (T i) (fun Y X => if flags.px Y X = 1 then ∃ k : Fin 4, P (2 * Y + k.val / 2) (2 * X + k.val % 2)
        else Q Y X) := by
  have hhB : B.h % 2 = 0 := by rw [← h.1]; exact hh
  have hwB : B.w % 2 = 0 := by rw [← h.2.1]; exact hw
  obtain ⟨S, hS, sp⟩ := C24_flags A _ (split_ok hh hw) S0 hs0 D hD flags hf hfs
  obtain ⟨T, hT, tp⟩ := C24_flags B _ (split_ok hhB hwB) T0 (by
    intro i
    rw [← h.1, ← h.2.1]
    exact ⟨(h0 i).1.symm.trans (hs0 i).1, (h0 i).2.1.symm.trans (hs0 i).2⟩) D (by rw [← h.1, ← h.2.1]; exact hD) flags hf
    (by rw [← h.1, ← h.2.1]; exact hfs)
  refine ⟨S, T, hS, hT, fun i => ⟨by rw [(sp i).1.1, (tp i).1.1, h.1], by rw [(sp i).1.2, (tp i).1.2, h.2.1], ?_⟩⟩
  intro Y X hY hX hP
  rw [(sp i).1.1] at hY
  rw [(sp i).1.2] at hX
  rw [(sp i).2 Y X hY hX, (tp i).2 Y X (by rw [← h.1]; exact hY) (by rw [← h.2.1]; exact hX)]
  by_cases h1 : flags.px Y X = 1
  · simp only [if_pos h1] at hP
    rw [if_pos h1, if_pos h1]
    push Not at hP
    refine Finset.sum_congr rfl (fun k _ => ?_)
    have hk := k.isLt
    rw [Img.ofFn_px hY hX, Img.ofFn_px (by rw [← h.1]; exact hY) (by rw [← h.2.1]; exact hX), h.2.2 _ _ (by omega) (by omega) (hP k)]
  · simp only [if_neg h1] at hP
    rw [if_neg h1, if_neg h1]
    exact (h0 i).2.2 Y X (by rw [(hs0 i).1]; exact hY) (by rw [(hs0 i).2]; exact hX) hP

/-- C92: demodulation with demosaicing: only if a pixel of the same superpixel or of the next ones below and to the right did. -/
theorem C92_demodulate_demosaicing [CharZero K] [DecidableEq K] {A B : Img K} {P : Nat → Nat → Prop} (h : A.DiffersOnlyAt B P)
    (hh : A.h % 2 = 0) (hw : A.w % 2 = 0) {L : Layout} {dic : AngleDic} (hL : L.Describes dic) {D : Demodulator K}
    (hD : D.HasShape (A.h / 2) (A.w / 2)) {flags : Img K}
    (hf : D.fitFoundFlags = some flags) (hfs : flags.HasShape (A.h / 2) (A.w / 2)) :
    ∃ S T, demodulateDemosaicing A dic D = .ok S ∧ demodulateDemosaicing B dic D = .ok T ∧
      ∀ i, (S i).DiffersOnlyAt (T i) (fun y x => ∃ (k : Fin 4) (a b : Nat), a ≤ y % 2 ∧ b ≤ x % 2 ∧
        P (2 * min (y / 2 + a) (A.h / 2 - 1) + k.val / 2) (2 * min (x / 2 + b) (A.w / 2 - 1) + k.val % 2)) := by
  have hhB : B.h % 2 = 0 := by rw [← h.1]; exact hh
  have hwB : B.w % 2 = 0 := by rw [← h.2.1]; exact hw
  obtain ⟨r, s, er, es, dif⟩ := C92_demosaic_adjacent h hh hw
  obtain ⟨r', U, S, er', hU, hS, sp⟩ := C26_demosaicing A hh hw dic L hL D hD flags hf hfs
  obtain ⟨s', V, T, es', hV, hT, tp⟩ := C26_demosaicing B hhB hwB dic L hL D (by rw [← h.1, ← h.2.1]; exact hD) flags hf
    (by rw [← h.1, ← h.2.1]; exact hfs)
  rw [er] at er'
  injection er' with er'
  subst er'
  rw [es] at es'
  injection es' with es'
  subst es'
  refine ⟨S, T, hS, hT, fun i => ⟨by rw [(sp i).1.1, (tp i).1.1, h.1], by rw [(sp i).1.2, (tp i).1.2, h.2.1], ?_⟩⟩
  intro y x hy hx hP
  rw [(sp i).1.1] at hy
  rw [(sp i).1.2] at hx
  have rs : ∀ k, (r k).h = A.h ∧ (r k).w = A.w := by
    obtain ⟨r', e, h'⟩ := demosaic_adjacent_ok A hh hw
    rw [er] at e
    injection e with e
    subst e
    exact fun k => ⟨(h' k).1, (h' k).2.1⟩
  have ss : ∀ k, (s k).h = A.h ∧ (s k).w = A.w := fun k => ⟨by rw [← (dif k).1]; exact (rs k).1, by rw [← (dif k).2.1]; exact (rs k).2⟩
  have px : ∀ k, (r k).px y x = (s k).px y x := fun k =>
    (dif k).2.2 y x (by rw [(rs k).1]; exact hy) (by rw [(rs k).2]; exact hx)
      (fun ⟨a, b, h1, h2, h3⟩ => hP ⟨k, a, b, h1, h2, h3⟩)
  rw [(sp i).2 y x hy hx, (tp i).2 y x (by rw [← h.1]; exact hy) (by rw [← h.2.1]; exact hx)]
  have hUV : (U i).px y x = (V i).px y x := by
    have u := hU.2 y x (by rw [(rs 0).1]; exact hy) (by rw [(rs 0).2]; exact hx)
    have v := hV.2 y x (by rw [(ss 0).1]; exact hy) (by rw [(ss 0).2]; exact hx)
    fin_cases i
    · show (U 0).px y x = (V 0).px y x
      rw [u.1, v.1]
      congr 1
      exact Finset.sum_congr rfl (fun k _ => px k)
    · show (U 1).px y x = (V 1).px y x
      rw [u.2.1, v.2.1, px, px]
    · show (U 2).px y x = (V 2).px y x
      rw [u.2.2, v.2.2, px, px]
  split
  · exact Finset.sum_congr rfl (fun k _ => by rw [px k])
  · exact hUV

/-- C92: dark subtraction: only the pixel itself, of the data or of the dark frame. -/
theorem C92_dark [LinearOrder K] {A B C D : Img K} {P Q : Nat → Nat → Prop} (h : A.DiffersOnlyAt B P) (h' : C.DiffersOnlyAt D Q)
    (hs : A.SameShape C) : ∃ r s, subtractDarkData A C = .ok r ∧ subtractDarkData B D = .ok s ∧
      r.DiffersOnlyAt s (fun y x => P y x ∨ Q y x) := by
  unfold subtractDarkData
  rw [npBin_ok hs.1 hs.2, npBin_ok (by rw [← h.1, ← h'.1]; exact hs.1) (by rw [← h.2.1, ← h'.2.1]; exact hs.2)]
  simp only [Py.ok_bind, Py.pure_eq]
  refine ⟨_, _, rfl, rfl, h.1, h.2.1, ?_⟩
  intro y x (hy : y < A.h) (hx : x < A.w) hP
  push Not at hP
  have hyB : y < B.h := by rw [← h.1]; exact hy
  have hxB : x < B.w := by rw [← h.2.1]; exact hx
  rw [Img.map_px _ _ (by exact hy) (by exact hx), Img.map_px _ _ (by exact hyB) (by exact hxB), Img.ofFn_px (by exact hy) (by exact hx),
    Img.ofFn_px (by exact hyB) (by exact hxB), h.2.2 y x hy hx hP.1, h'.2.2 y x (by rw [← hs.1]; exact hy) (by rw [← hs.2]; exact hx) hP.2]

/-- C92: flat field correction: only the pixel itself, of the data. -/
theorem C92_flat_data [LinearOrder K] [IsStrictOrderedRing K] {A B F : Img K} {P : Nat → Nat → Prop} (h : A.DiffersOnlyAt B P) (junk : Nat → Nat → K)
    (hs : A.SameShape F) (hh : A.h ≠ 0) (hw : A.w ≠ 0) (hm : F.mean ≠ 0) :
    ∃ r s, correctFlatData junk A F = .ok r ∧ correctFlatData junk B F = .ok s ∧ r.DiffersOnlyAt s P := by
  refine ⟨_, _, correctFlat_ok junk A F hs hh hw hm, correctFlat_ok junk B F ⟨h.1.symm.trans hs.1, h.2.1.symm.trans hs.2⟩
    (by rw [← h.1]; exact hh) (by rw [← h.2.1]; exact hw) hm, h.1, h.2.1, ?_⟩
  intro y x (hy : y < A.h) (hx : x < A.w) hP
  rw [Img.ofFn_px hy hx, Img.ofFn_px (by rw [← h.1]; exact hy) (by rw [← h.2.1]; exact hx), h.2.2 y x hy hx hP]

/-- C92: the correction of Chen, Wang and Liang: only if a pixel did in the same superpixel or in those above and to the left. -/
theorem C92_chen [LinearOrder K] [IsStrictOrderedRing K] {A B : Img K} {P : Nat → Nat → Prop} (h : A.DiffersOnlyAt B P) (hh : A.h % 2 = 0) (hw : A.w % 2 = 0)
    {C : Fin 4 → Fin 4 → Img K} {d : Img K} (hC : ∀ i j, (C i j).SameShape A) (hd : A.SameShape d) :
    ∃ r s, chenWanLiang C d A = .ok r ∧ chenWanLiang C d B = .ok s ∧
      r.DiffersOnlyAt s (fun y x => ∃ (k : Fin 4) (a b : Nat), a ≤ 1 ∧ b ≤ 1 ∧
        P (2 * (y / 2 - a) + k.val / 2) (2 * (x / 2 - b) + k.val % 2)) := by
  have hhB : B.h % 2 = 0 := by rw [← h.1]; exact hh
  have hwB : B.w % 2 = 0 := by rw [← h.2.1]; exact hw
  obtain ⟨m, ms, em, mp⟩ := C69_apply C d A hh hw hC hd
  obtain ⟨n, ns, en, np⟩ := C69_apply C d B hhB hwB (fun i j => ⟨(hC i j).1.trans h.1, (hC i j).2.trans h.2.1⟩)
    ⟨h.1.symm.trans hd.1, h.2.1.symm.trans hd.2⟩
  have hmn : m.DiffersOnlyAt n (fun y x => ∃ k : Fin 4, P (2 * (y / 2) + k.val / 2) (2 * (x / 2) + k.val % 2)) := by
    refine ⟨by rw [ms.1, ns.1, h.1], by rw [ms.2, ns.2, h.2.1], ?_⟩
    intro y x hy hx hP
    push Not at hP
    rw [ms.1] at hy
    rw [ms.2] at hx
    have e1 := mp (y / 2) (x / 2) (famIdx y x) (by omega) (by omega)
    have e2 := np (y / 2) (x / 2) (famIdx y x) (by rw [← h.1]; omega) (by rw [← h.2.1]; omega)
    unfold Img.superpixel at e1 e2
    rw [famIdx_val_div, famIdx_val_mod, Nat.div_add_mod, Nat.div_add_mod] at e1 e2
    rw [e1, e2]
    refine Finset.sum_congr rfl (fun k _ => ?_)
    have hk := k.isLt
    rw [h.2.2 _ _ (by omega) (by omega) (hP k)]
  obtain ⟨r, s, hr, hs, dif⟩ := C92_ifov hmn (by rw [ms.1]; exact hh) (by rw [ms.2]; exact hw)
  refine ⟨r, s, by rw [em]; exact hr, by rw [en]; exact hs, dif.1, dif.2.1, ?_⟩
  intro y x hy hx hP
  refine dif.2.2 y x hy hx ?_
  rintro ⟨h1, h2, a, b, ha, hb, k, hk⟩
  refine hP ⟨k, a, b, ha, hb, ?_⟩
  have e1 : (y - 2 * a) / 2 = y / 2 - a := by omega
  have e2 : (x - 2 * b) / 2 = x / 2 - b := by omega
  rw [e1, e2] at hk
  exact hk

end

/-- C92: shifting moves the spoiled pixels along. -/
theorem C92_shift {α : Type} [Zero α] {A B : Img α} {P : Nat → Nat → Prop} (h : A.DiffersOnlyAt B P) (y x : Int) (m : α) :
    ∃ r s, shiftKernel A y x m = .ok r ∧ shiftKernel B y x m = .ok s ∧
      r.DiffersOnlyAt s (fun j i => ∃ j' i' : Nat, (j : Int) = j' + y ∧ (i : Int) = i' + x ∧ P j' i') := by
  obtain ⟨r, hr, r1, r2, r3, r4⟩ := C03_shift A y x m
  obtain ⟨s, hs, s1, s2, s3, s4⟩ := C03_shift B y x m
  refine ⟨r, s, hr, hs, by rw [r1, s1, h.1], by rw [r2, s2, h.2.1], ?_⟩
  intro j i hj hi hP
  rw [r1] at hj
  rw [r2] at hi
  by_cases hc : ∃ j' i' : Nat, j' < A.h ∧ i' < A.w ∧ (j : Int) = j' + y ∧ (i : Int) = i' + x
  · obtain ⟨j', i', hj', hi', e1, e2⟩ := hc
    rw [r3 j i j' i' hj hi hj' hi' e1 e2, s3 j i j' i' (by rw [← h.1]; exact hj) (by rw [← h.2.1]; exact hi) (by rw [← h.1]; exact hj')
      (by rw [← h.2.1]; exact hi') e1 e2]
    exact h.2.2 _ _ hj' hi' (fun hp => hP ⟨j', i', e1, e2, hp⟩)
  · rw [r4 j i hj hi hc, s4 j i (by rw [← h.1]; exact hj) (by rw [← h.2.1]; exact hi) (by rw [← h.1, ← h.2.1]; exact hc)]

/-! ## What is not local -/

/-- A flat with one brighter pixel. -/
def brightFlat : Img ℚ := Img.ofFn 2 2 (fun y x => if y = 1 ∧ x = 1 then 5 else 1)

theorem brightFlat_mean : brightFlat.mean = 2 := by
  unfold Img.mean Img.total Img.totalOn brightFlat
  simp [Finset.sum_range_succ, Img.ofFn_px']
  norm_num

/-- C92: a bad pixel of the *flat* changes all pixels of the corrected image, because the flat is divided by its mean. -/
theorem C92_flat_not_local : ∃ (A F G r s : Img ℚ), A.HasShape 2 2 ∧ F.DiffersOnlyAt G (fun y x => y = 1 ∧ x = 1) ∧
    correctFlatData (fun _ _ => 0) A F = .ok r ∧ correctFlatData (fun _ _ => 0) A G = .ok s ∧
    ∀ y x, y < 2 → x < 2 → r.px y x ≠ s.px y x := by
  have hm : (Img.const 2 2 (1 : ℚ)).mean = 1 := by
    unfold Img.mean Img.total Img.totalOn
    have e : ∀ y x, y < 2 → x < 2 → (Img.const 2 2 (1 : ℚ)).px y x = 1 := fun y x hy hx => Img.ofFn_px hy hx
    show (∑ y ∈ Finset.range 2, ∑ x ∈ Finset.range 2, (Img.const 2 2 (1 : ℚ)).px y x) / (((2 * 2 : ℕ)) : ℚ) = 1
    simp [Finset.sum_range_succ, e]
    norm_num
  refine ⟨Img.const 2 2 1, Img.const 2 2 1, brightFlat, _, _, ⟨rfl, rfl⟩, ⟨rfl, rfl, ?_⟩, correctFlat_ok _ _ _ ⟨rfl, rfl⟩ (by decide) (by decide)
    (by rw [hm]; norm_num), correctFlat_ok _ _ _ ⟨rfl, rfl⟩ (by decide) (by decide) (by rw [brightFlat_mean]; norm_num), ?_⟩
  · intro y x hy hx hP
    unfold brightFlat
    rw [Img.ofFn_px (by exact hy) (by exact hx), if_neg hP]
    exact Img.ofFn_px hy hx
  · intro y x hy hx
    rw [Img.ofFn_px (by exact hy) (by exact hx), Img.ofFn_px (by exact hy) (by exact hx), hm, brightFlat_mean]
    have e1 : (Img.const 2 2 (1 : ℚ)).px y x = 1 := Img.ofFn_px hy hx
    have e2 : brightFlat.px y x = if y = 1 ∧ x = 1 then 5 else 1 := Img.ofFn_px hy hx
    rw [e1, e2]
    by_cases hc : y = 1 ∧ x = 1
    · rw [if_pos hc]
      norm_num
    · rw [if_neg hc]
      norm_num

/-- C92: so "every result depends only on the pixels of its neighbourhood" is false of the flat correction. -/
theorem C92_full_claim_false : ¬ ∀ (A F G r s : Img ℚ) (P : Nat → Nat → Prop), F.DiffersOnlyAt G P →
    correctFlatData (fun _ _ => 0) A F = .ok r → correctFlatData (fun _ _ => 0) A G = .ok s →
    ∀ y x, y < A.h → x < A.w → ¬ P y x → r.px y x = s.px y x := by
  intro h
  obtain ⟨A, F, G, r, s, hA, h1, h2, h3, h4⟩ := C92_flat_not_local
  exact h4 0 0 (by decide) (by decide) (h A F G r s _ h1 h2 h3 0 0 (by rw [hA.1]; decide) (by rw [hA.2]; decide) (by decide))

/-- Two images that differ in one pixel. -/
example : (Img.ofFn 4 6 (fun y x => (y + x : ℚ))).DiffersOnlyAt (Img.ofFn 4 6 (fun y x => if y = 2 ∧ x = 3 then 4095 else (y + x : ℚ)))
    (fun y x => y = 2 ∧ x = 3) := by
  refine ⟨rfl, rfl, ?_⟩
  intro y x hy hx hP
  rw [Img.ofFn_px (by exact hy) (by exact hx), Img.ofFn_px (by exact hy) (by exact hx), if_neg hP]

end Micropol

import Verif.Spec.Transposed
import Verif.Props.Locality
import Verif.Props.HotPixels
import Verif.Props.Polarization
import Verif.Props.Shift
import Verif.Props.Congrid
import Verif.Lemmas.Stability

/-!
# C134: rows and columns are treated alike

Exchanging the rows and columns of an image (and of dark, flat, flags, tensor and matrices, with the places of the micropolarizers
exchanged accordingly) exchanges the rows and columns of the results, and changes nothing else.
-/

set_option autoImplicit false
set_option linter.unusedSectionVars false

namespace Micropol

theorem transposed_px {α : Type} [Zero α] (A : Img α) (y x : Nat) : A.transposed.px y x = A.px x y := by
  by_cases h : y < A.w ∧ x < A.h
  · exact Img.ofFn_px h.1 h.2
  · rw [A.transposed.out y x h, A.out x y (fun hc => h ⟨hc.2, hc.1⟩)]

theorem mate_div (k : Fin 4) : (mate k).val / 2 = k.val % 2 := by fin_cases k <;> rfl
theorem mate_mod (k : Fin 4) : (mate k).val % 2 = k.val / 2 := by fin_cases k <;> rfl
theorem mate_mate (k : Fin 4) : mate (mate k) = k := by fin_cases k <;> rfl

theorem sum_mate {M : Type} [AddCommMonoid M] (f : Fin 4 → M) : ∑ k, f (mate k) = ∑ k, f k :=
  Fintype.sum_equiv (Function.Involutive.toPerm mate mate_mate) _ _ fun _ => rfl

section
variable {K : Type} [Field K] {A : Img K}

/-- C134: exchanging twice gives the image. -/
theorem C134_involution : A.transposed.transposed = A :=
  Img.ext_px rfl rfl fun y x _ _ => by rw [transposed_px, transposed_px]

/-- C134: the families of pixels, with the two off the diagonal of the superpixel exchanged. -/
theorem C134_split (hh : A.h % 2 = 0) (hw : A.w % 2 = 0) :
    ∃ s t, splitPolarizations A = .ok s ∧ splitPolarizations A.transposed = .ok t ∧ ∀ k, t k = (s (mate k)).transposed := by
  refine ⟨_, _, split_ok hh hw, split_ok (d := A.transposed) hw hh, fun k => Img.ext_px rfl rfl ?_⟩
  intro Y X (hY : Y < A.w / 2) (hX : X < A.h / 2)
  rw [transposed_px, Img.ofFn_px (by exact hY) (by exact hX), Img.ofFn_px hX hY, transposed_px, mate_div, mate_mod]

/-- C134: the Stokes maps. -/
theorem C134_stokes (hh : A.h % 2 = 0) (hw : A.w % 2 = 0) {L : Layout} {dic dic' : AngleDic} (hL : L.Describes dic)
    (hL' : L.transposed.Describes dic') :
    ∃ S T, dataStokes A dic = .ok S ∧ dataStokes A.transposed dic' = .ok T ∧ ∀ i, T i = (S i).transposed := by
  obtain ⟨S, hS, sh, sp⟩ := C17_stokes A hh hw L dic hL
  obtain ⟨T, hT, th, tp⟩ := C17_stokes A.transposed hw hh L.transposed dic' hL'
  refine ⟨S, T, hS, hT, fun i => Img.ext_px ((th i).1.trans (sh i).2.symm) ((th i).2.trans (sh i).1.symm) ?_⟩
  intro Y X hY hX
  rw [(th i).1] at hY
  rw [(th i).2] at hX
  obtain ⟨t0, t1, t2⟩ := tp Y X hY hX
  obtain ⟨s0, s1, s2⟩ := sp X Y hX hY
  simp only [transposed_px] at t0 t1 t2
  have e : ∀ k, A.px (2 * X + (mate k).val % 2) (2 * Y + (mate k).val / 2) = A.px (2 * X + k.val / 2) (2 * Y + k.val % 2) := fun k => by
    rw [mate_div, mate_mod]
  rw [transposed_px]
  match i with
  | 0 =>
    refine t0.trans (Eq.trans ?_ s0.symm)
    show (A.px (2 * X + 0) (2 * Y + 0) + A.px (2 * X + 1) (2 * Y + 0) + A.px (2 * X + 0) (2 * Y + 1) + A.px (2 * X + 1) (2 * Y + 1)) / 2 =
      (A.px (2 * X + 0) (2 * Y + 0) + A.px (2 * X + 0) (2 * Y + 1) + A.px (2 * X + 1) (2 * Y + 0) + A.px (2 * X + 1) (2 * Y + 1)) / 2
    ring
  | 1 =>
    refine t1.trans (Eq.trans ?_ s1.symm)
    rw [show L.transposed.p0 = mate L.p0 from rfl, show L.transposed.p90 = mate L.p90 from rfl, e, e]
  | 2 =>
    refine t2.trans (Eq.trans ?_ s2.symm)
    rw [show L.transposed.p45 = mate L.p45 from rfl, show L.transposed.pm45 = mate L.pm45 from rfl, e, e]

/-- C134: demosaicing by averages. -/
theorem C134_demosaic_mean (hh : A.h % 2 = 0) (hw : A.w % 2 = 0) :
    ∃ r s, demosaic A "mean" = .ok r ∧ demosaic A.transposed "mean" = .ok s ∧ ∀ k, s k = (r (mate k)).transposed := by
  unfold demosaic
  rw [if_pos rfl, if_pos rfl]
  refine ⟨_, _, demosaicmean_ok A hh hw, demosaicmean_ok A.transposed hw hh, fun k => Img.ext_px rfl rfl ?_⟩
  intro y x (hy : y < A.w) (hx : x < A.h)
  rw [transposed_px, Img.ofFn_px (by exact hy) (by exact hx), Img.ofFn_px hx hy, transposed_px, mate_div, mate_mod]

theorem bilinear_transposed (s : Img K) (Y X a b : Nat) : bilinear s.transposed Y X a b = bilinear s X Y b a := by
  unfold bilinear
  rw [Finset.sum_comm, Nat.mul_comm (b + 1) (a + 1)]
  congr 1
  exact Finset.sum_congr rfl fun u _ => Finset.sum_congr rfl fun v _ => transposed_px _ _ _

/-- C134: demosaicing by interpolation, to the edges. -/
theorem C134_demosaic_adjacent [CharZero K] (hh : A.h % 2 = 0) (hw : A.w % 2 = 0) :
    ∃ r s, demosaic A "adjacent" = .ok r ∧ demosaic A.transposed "adjacent" = .ok s ∧ ∀ k, s k = (r (mate k)).transposed := by
  obtain ⟨s, t, hs, ht, hst⟩ := C134_split hh hw
  obtain ⟨r, hr, rp⟩ := C14_adjacent A s hs
  obtain ⟨q, hq, qp⟩ := C14_adjacent A.transposed t ht
  refine ⟨r, q, hr, hq, fun k => Img.ext_px ((qp k).1.trans (rp (mate k)).2.1.symm) ((qp k).2.1.trans (rp (mate k)).1.symm) ?_⟩
  intro y x hy hx
  rw [(qp k).1] at hy
  rw [(qp k).2.1] at hx
  have hy : y < A.w := hy
  have hx : x < A.h := hx
  have e1 := (qp k).2.2 (y / 2) (x / 2) (y % 2) (x % 2) (show y / 2 < A.w / 2 by omega) (show x / 2 < A.h / 2 by omega) (by omega) (by omega)
  have e2 := (rp (mate k)).2.2 (x / 2) (y / 2) (x % 2) (y % 2) (by omega) (by omega) (by omega) (by omega)
  rw [Nat.div_add_mod, Nat.div_add_mod] at e1 e2
  rw [transposed_px, e1, e2, hst, bilinear_transposed]

/-- C134: binning. -/
theorem C134_rebin {b : Nat} (hb : 1 ≤ b) :
    ∃ r s, imageRebinData A b = .ok r ∧ imageRebinData A.transposed b = .ok s ∧ s = r.transposed := by
  obtain ⟨r, hr, r1, r2, r3⟩ := C08_rebin A b hb
  obtain ⟨s, hs, s1, s2, s3⟩ := C08_rebin A.transposed b hb
  refine ⟨r, s, hr, hs, Img.ext_px (s1.trans r2.symm) (s2.trans r1.symm) ?_⟩
  intro Y X hY hX
  rw [transposed_px, s3 Y X hY hX, r3 X Y (by rw [r1]; rw [s2] at hX; exact hX) (by rw [r2]; rw [s1] at hY; exact hY), Finset.sum_comm]
  exact Finset.sum_congr rfl fun u _ => Finset.sum_congr rfl fun v _ => transposed_px _ _ _

/-- C134: binning of superpixels. -/
theorem C134_rebin_micropol (hh : A.h % 2 = 0) (hw : A.w % 2 = 0) {b : Nat} (hb : 1 ≤ b) :
    ∃ r s, micropolRebinData A b = .ok r ∧ micropolRebinData A.transposed b = .ok s ∧ s = r.transposed := by
  unfold micropolRebinData
  rw [if_neg (by omega), if_neg (by omega), micropolarrayRebin_ok A b hb hh hw, micropolarrayRebin_ok A.transposed b hb hw hh]
  refine ⟨_, _, rfl, rfl, Img.ext_px rfl rfl ?_⟩
  intro Y X (hY : Y < 2 * (A.w / (2 * b))) (hX : X < 2 * (A.h / (2 * b)))
  rw [transposed_px, Img.ofFn_px (by exact hY) (by exact hX), Img.ofFn_px hX hY]
  unfold blockSum
  rw [Finset.sum_comm]
  exact Finset.sum_congr rfl fun u _ => Finset.sum_congr rfl fun v _ => transposed_px _ _ _

/-- C134: demodulation, with or without flags, over the previous maps. -/
theorem C134_demodulate [DecidableEq K] (hh : A.h % 2 = 0) (hw : A.w % 2 = 0) {prev : Fin 3 → Img K}
    (hprev : ∀ i, (prev i).HasShape (A.h / 2) (A.w / 2)) {D : Demodulator K} (hD : D.HasShape (A.h / 2) (A.w / 2))
    (hF : ∀ F, D.fitFoundFlags = some F → F.HasShape (A.h / 2) (A.w / 2)) :
    ∃ S T, demodulatePlain A prev D = .ok S ∧
      demodulatePlain A.transposed (fun i => (prev i).transposed) D.transposed = .ok T ∧ ∀ i, T i = (S i).transposed := by
  obtain ⟨s, t, hs, ht, hst⟩ := C134_split hh hw
  have hDp : D.transposed.HasShape (A.transposed.h / 2) (A.transposed.w / 2) := fun i j => ⟨(hD i (mate j)).2, (hD i (mate j)).1⟩
  have hsum : ∀ i (Y X : Nat), ∑ j, (D.transposed.mij i j).px Y X * (t j).px Y X = ∑ j, (D.mij i j).px X Y * (s j).px X Y := by
    intro i Y X
    rw [← sum_mate fun j => (D.mij i j).px X Y * (s j).px X Y]
    refine Finset.sum_congr rfl fun j _ => ?_
    rw [hst, transposed_px]
    show ((D.mij i (mate j)).transposed).px Y X * _ = _
    rw [transposed_px]
  cases hfl : D.fitFoundFlags with
  | none =>
    obtain ⟨S, hS, sp⟩ := C24_no_flags A s hs prev D hD hfl
    obtain ⟨T, hT, tp⟩ := C24_no_flags A.transposed t ht (fun i => (prev i).transposed) D.transposed hDp
      (show D.fitFoundFlags.map _ = none by rw [hfl]; rfl)
    refine ⟨S, T, hS, hT, fun i => Img.ext_px ((tp i).1.1.trans (sp i).1.2.symm) ((tp i).1.2.trans (sp i).1.1.symm) ?_⟩
    intro Y X hY hX
    rw [(tp i).1.1] at hY
    rw [(tp i).1.2] at hX
    rw [transposed_px, (tp i).2 Y X hY hX, (sp i).2 X Y hX hY, hsum]
  | some F =>
    obtain ⟨S, hS, sp⟩ := C24_flags A s hs prev hprev D hD F hfl (hF F hfl)
    obtain ⟨T, hT, tp⟩ := C24_flags A.transposed t ht (fun i => (prev i).transposed)
      (fun i => ⟨(hprev i).2, (hprev i).1⟩) D.transposed hDp F.transposed (show D.fitFoundFlags.map _ = _ by rw [hfl]; rfl)
      ⟨(hF F hfl).2, (hF F hfl).1⟩
    refine ⟨S, T, hS, hT, fun i => Img.ext_px ((tp i).1.1.trans (sp i).1.2.symm) ((tp i).1.2.trans (sp i).1.1.symm) ?_⟩
    intro Y X hY hX
    rw [(tp i).1.1] at hY
    rw [(tp i).1.2] at hX
    rw [transposed_px, (tp i).2 Y X hY hX, (sp i).2 X Y hX hY, hsum, transposed_px, transposed_px]

/-- C134: demodulation with demosaicing. -/
theorem C134_demodulate_demosaicing [CharZero K] [DecidableEq K] (hh : A.h % 2 = 0) (hw : A.w % 2 = 0) {L : Layout} {dic dic' : AngleDic}
    (hL : L.Describes dic) (hL' : L.transposed.Describes dic') {D : Demodulator K} (hD : D.HasShape (A.h / 2) (A.w / 2)) {F : Img K}
    (hf : D.fitFoundFlags = some F) (hF : F.HasShape (A.h / 2) (A.w / 2)) :
    ∃ S T, demodulateDemosaicing A dic D = .ok S ∧ demodulateDemosaicing A.transposed dic' D.transposed = .ok T ∧
      ∀ i, T i = (S i).transposed := by
  obtain ⟨r, s, hr, hs, hrs⟩ := C134_demosaic_adjacent hh hw
  obtain ⟨r', U, S, hr', hU, hS, sp⟩ := C26_demosaicing A hh hw dic L hL D hD F hf hF
  obtain ⟨s', V, T, hs', hV, hT, tp⟩ := C26_demosaicing A.transposed hw hh dic' L.transposed hL' D.transposed
    (fun i j => ⟨(hD i (mate j)).2, (hD i (mate j)).1⟩) F.transposed (show D.fitFoundFlags.map _ = _ by rw [hf]; rfl) ⟨hF.2, hF.1⟩
  obtain rfl : r = r' := by rw [hr] at hr'; injection hr'
  obtain rfl : s = s' := by rw [hs] at hs'; injection hs'
  obtain ⟨q, hq, qp⟩ := C14_adjacent A _ (split_ok hh hw)
  obtain rfl : r = q := by rw [hr] at hq; injection hq
  refine ⟨S, T, hS, hT, fun i => Img.ext_px ((tp i).1.1.trans (sp i).1.2.symm) ((tp i).1.2.trans (sp i).1.1.symm) ?_⟩
  intro y x hy hx
  rw [(tp i).1.1] at hy
  rw [(tp i).1.2] at hx
  have hy : y < A.w := hy
  have hx : x < A.h := hx
  have hv : ∀ k, (s k).px y x = (r (mate k)).px x y := fun k => by rw [hrs, transposed_px]
  have hVU : (V i).px y x = (U i).px x y := by
    have a := hV.2 y x (by rw [hrs]; show y < (r _).w; rw [(qp _).2.1]; exact hy) (by rw [hrs]; show x < (r _).h; rw [(qp _).1]; exact hx)
    have b := hU.2 x y (by rw [(qp 0).1]; exact hx) (by rw [(qp 0).2.1]; exact hy)
    simp only [hv] at a
    rw [sum_mate fun k => (r k).px x y] at a
    have m : ∀ k, mate (mate k) = k := mate_mate
    simp only [Layout.transposed, m] at a
    match i with
    | 0 => exact a.1.trans b.1.symm
    | 1 => exact a.2.1.trans b.2.1.symm
    | 2 => exact a.2.2.trans b.2.2.symm
  rw [transposed_px, (tp i).2 y x hy hx, (sp i).2 x y hx hy, transposed_px, hVU]
  congr 1
  rw [← sum_mate fun j => (D.mij i j).px (x / 2) (y / 2) * (r j).px x y]
  refine Finset.sum_congr rfl fun j _ => ?_
  rw [hv]
  show ((D.mij i (mate j)).transposed).px _ _ * _ = _
  rw [transposed_px]

end

section
variable {K : Type} [Field K] [LinearOrder K] [IsStrictOrderedRing K] {A : Img K}

/-- C134: the dark. -/
theorem C134_dark {D : Img K} (hs : A.SameShape D) :
    ∃ r s, subtractDarkData A D = .ok r ∧ subtractDarkData A.transposed D.transposed = .ok s ∧ s = r.transposed := by
  obtain ⟨r, hr, rs, rp⟩ := C35_dark A D hs
  obtain ⟨s, hs', ss, sp⟩ := C35_dark A.transposed D.transposed ⟨hs.2, hs.1⟩
  refine ⟨r, s, hr, hs', Img.ext_px (ss.1.trans rs.2.symm) (ss.2.trans rs.1.symm) ?_⟩
  intro y x hy hx
  rw [ss.1] at hy
  rw [ss.2] at hx
  rw [transposed_px, sp y x hy hx, rp x y hx hy, transposed_px, transposed_px]

theorem mean_transposed (F : Img K) : F.transposed.mean = F.mean := by
  unfold Img.mean Img.total Img.totalOn
  rw [Finset.sum_comm]
  show (∑ y ∈ Finset.range F.h, ∑ x ∈ Finset.range F.w, F.transposed.px x y) / ((F.w * F.h : ℕ) : K) = _
  rw [Nat.mul_comm F.w F.h]
  congr 1
  exact Finset.sum_congr rfl fun u _ => Finset.sum_congr rfl fun v _ => transposed_px _ _ _

/-- C134: the flat, wherever it is not 0. -/
theorem C134_flat {F : Img K} (junk junk' : Nat → Nat → K) (hs : A.SameShape F) (hh : A.h ≠ 0) (hw : A.w ≠ 0) (hm : F.mean ≠ 0) :
    ∃ r s, correctFlatData junk A F = .ok r ∧ correctFlatData junk' A.transposed F.transposed = .ok s ∧
      s.SameShape r.transposed ∧ ∀ y x, y < A.w → x < A.h → F.px x y ≠ 0 → s.px y x = r.px x y := by
  refine ⟨_, _, correctFlat_ok junk A F hs hh hw hm,
    correctFlat_ok junk' A.transposed F.transposed ⟨hs.2, hs.1⟩ hw hh (by rw [mean_transposed]; exact hm), ⟨rfl, rfl⟩, ?_⟩
  intro y x hy hx hF
  rw [Img.ofFn_px (by exact hy) (by exact hx), Img.ofFn_px hx hy, mean_transposed, transposed_px, transposed_px,
    if_pos (div_ne_zero hF hm), if_pos (div_ne_zero hF hm)]

/-- C134: the IFOV correction. -/
theorem C134_ifov (hh : A.h % 2 = 0) (hw : A.w % 2 = 0) :
    ∃ r s, correctIfovData A = .ok r ∧ correctIfovData A.transposed = .ok s ∧ s = r.transposed := by
  obtain ⟨r, hr, rs, rp⟩ := C37_ifov A hh hw
  obtain ⟨s, hs, ss, sp⟩ := C37_ifov A.transposed hw hh
  refine ⟨r, s, hr, hs, Img.ext_px (ss.1.trans rs.2.symm) (ss.2.trans rs.1.symm) ?_⟩
  intro y x hy hx
  rw [ss.1] at hy
  rw [ss.2] at hx
  obtain ⟨s1, s2⟩ := sp y x hy hx
  obtain ⟨r1, r2⟩ := rp x y hx hy
  rw [transposed_px]
  by_cases hb : 2 ≤ y ∧ 2 ≤ x
  · rw [s2 hb.1 hb.2, r2 hb.2 hb.1, transposed_px, transposed_px, transposed_px, transposed_px]
    ring
  · rw [s1 (by omega), r1 (by omega)]

/-- C134: the Chen-Wang-Liang calibration, with the rows and columns of the matrices in the new order. -/
theorem C134_chen (hh : A.h % 2 = 0) (hw : A.w % 2 = 0) {C : Fin 4 → Fin 4 → Img K} {d : Img K} (hC : ∀ i j, (C i j).SameShape A)
    (hd : A.SameShape d) :
    ∃ r s, chenWanLiang C d A = .ok r ∧
      chenWanLiang (fun i j => (C (mate i) (mate j)).transposed) d.transposed A.transposed = .ok s ∧ s = r.transposed := by
  obtain ⟨m, ms, em, mp⟩ := C69_apply C d A hh hw hC hd
  obtain ⟨n, ns, en, np⟩ := C69_apply (fun i j => (C (mate i) (mate j)).transposed) d.transposed A.transposed hw hh
    (fun i j => ⟨(hC (mate i) (mate j)).2, (hC (mate i) (mate j)).1⟩) ⟨hd.2, hd.1⟩
  have hn : n = m.transposed := by
    refine Img.ext_px (ns.1.trans ms.2.symm) (ns.2.trans ms.1.symm) ?_
    intro y x hy hx
    rw [ns.1] at hy
    rw [ns.2] at hx
    have hy : y < A.w := hy
    have hx : x < A.h := hx
    have e1 := np (y / 2) (x / 2) (famIdx y x) (show y / 2 < A.w / 2 by omega) (show x / 2 < A.h / 2 by omega)
    have e2 := mp (x / 2) (y / 2) (mate (famIdx y x)) (by omega) (by omega)
    unfold Img.superpixel at e1 e2
    rw [mate_div, mate_mod, famIdx_val_div, famIdx_val_mod, Nat.div_add_mod, Nat.div_add_mod] at e2
    rw [famIdx_val_div, famIdx_val_mod, Nat.div_add_mod, Nat.div_add_mod] at e1
    rw [transposed_px, e1, e2, ← sum_mate fun j => (C (mate (famIdx y x)) j).px (2 * (x / 2)) (2 * (y / 2)) *
      (A.px (2 * (x / 2) + j.val / 2) (2 * (y / 2) + j.val % 2) - d.px (2 * (x / 2) + j.val / 2) (2 * (y / 2) + j.val % 2))]
    refine Finset.sum_congr rfl fun j _ => ?_
    rw [transposed_px, transposed_px, transposed_px, mate_div, mate_mod]
  obtain ⟨r, s, hr, hs, hrs⟩ := C134_ifov (A := m) (by rw [ms.1]; exact hh) (by rw [ms.2]; exact hw)
  exact ⟨r, s, by rw [em, hr], by rw [en, hn, hs], hrs⟩

end

theorem third_unique {v v' a b c d : ℝ} (h : ThirdOf v a b c d) (h' : ThirdOf v' a b c d) : v = v' := by
  have h1 := h.le_add h' (ε := 0) (by linarith) (by linarith) (by linarith) (by linarith)
  have h2 := h'.le_add h (ε := 0) (by linarith) (by linarith) (by linarith) (by linarith)
  linarith

theorem medianFilter_transposed (A : Img ℝ) : medianFilter 2 A.transposed = (medianFilter 2 A).transposed := by
  refine Img.ext_px rfl rfl ?_
  intro y x (hy : y < A.w) (hx : x < A.h)
  rw [transposed_px]
  unfold medianFilter
  rw [Img.ofFn_px (by exact hy) (by exact hx), Img.ofFn_px hx hy, filterWindow_two _ (by exact hy) (by exact hx), filterWindow_two _ hx hy]
  simp only [transposed_px]
  refine third_unique (ofRank_two _ _ _ _) ?_
  obtain ⟨p, q, s, hp, k⟩ := ofRank_two (A.px (before x) (before y)) (A.px (before x) y) (A.px x (before y)) (A.px x y)
  exact ⟨p, q, s, hp.trans (List.Perm.cons _ (List.Perm.swap _ _ _)), k⟩

/-- C134: hot pixels, with the filter of the code. -/
theorem C134_hot_pixels {A F : Img ℝ} (hh : A.h % 2 = 0) (hw : A.w % 2 = 0) (hs : A.SameShape F) :
    ∃ r s, cleanHotPixelsData (medianFilter 2) A F = .ok r ∧
      cleanHotPixelsData (medianFilter 2) A.transposed F.transposed = .ok s ∧ s = r.transposed := by
  obtain ⟨u, v, hu, hv, huv⟩ := C134_split hh hw
  obtain ⟨r, hr, rs, rp⟩ := C38_clean (medianFilter 2) (medianFilter_shape 2) A F u hu hs
  obtain ⟨s, hs', ss, sp⟩ := C38_clean (medianFilter 2) (medianFilter_shape 2) A.transposed F.transposed v hv ⟨hs.2, hs.1⟩
  refine ⟨r, s, hr, hs', Img.ext_px (ss.1.trans rs.2.symm) (ss.2.trans rs.1.symm) ?_⟩
  intro y x hy hx
  rw [ss.1] at hy
  rw [ss.2] at hx
  have hy : y < A.w := hy
  have hx : x < A.h := hx
  have e1 := sp (y / 2) (x / 2) (famIdx y x) (show y / 2 < A.w / 2 by omega) (show x / 2 < A.h / 2 by omega)
  have e2 := rp (x / 2) (y / 2) (mate (famIdx y x)) (by omega) (by omega)
  dsimp only at e1 e2
  rw [mate_div, mate_mod, famIdx_val_div, famIdx_val_mod, Nat.div_add_mod, Nat.div_add_mod] at e2
  rw [famIdx_val_div, famIdx_val_mod, Nat.div_add_mod, Nat.div_add_mod] at e1
  rw [transposed_px, transposed_px] at e1
  rw [transposed_px]
  by_cases hF : F.px x y = 1
  · rw [e1.2 hF, e2.2 hF, huv, medianFilter_transposed, transposed_px]
  · rw [e1.1 hF, e2.1 hF]

/-- C134: shifting by `y` rows and `x` columns, of the exchanged image by `x` rows and `y` columns. -/
theorem C134_shift {α : Type} [Zero α] (A : Img α) (y x : Int) (m : α) :
    ∃ r s, shiftKernel A y x m = .ok r ∧ shiftKernel A.transposed x y m = .ok s ∧ s = r.transposed := by
  obtain ⟨r, hr, r1, r2, r3, r4⟩ := C03_shift A y x m
  obtain ⟨s, hs, s1, s2, s3, s4⟩ := C03_shift A.transposed x y m
  refine ⟨r, s, hr, hs, Img.ext_px (s1.trans r2.symm) (s2.trans r1.symm) ?_⟩
  intro j i hj hi
  rw [s1] at hj
  rw [s2] at hi
  rw [transposed_px]
  by_cases hc : ∃ j' i' : Nat, j' < A.w ∧ i' < A.h ∧ (j : Int) = j' + x ∧ (i : Int) = i' + y
  · obtain ⟨j', i', hj', hi', e1, e2⟩ := hc
    rw [s3 j i j' i' hj hi hj' hi' e1 e2, r3 i j i' j' hi hj hi' hj' e2 e1, transposed_px]
  · rw [s4 j i hj hi hc, r4 i j hi hj fun ⟨i', j', a, b, c, d⟩ => hc ⟨j', i', b, a, d, c⟩]

theorem isBilinear_transposed {A : Img ℝ} {u w v : ℝ} (h : IsBilinear A u w v) : IsBilinear A.transposed w u v := by
  obtain ⟨y, x, s, t, hy, hx, s0, s1, t0, t1, hu, hw, rfl⟩ := h
  refine ⟨x, y, t, s, hx, hy, t0, t1, s0, s1, hw, hu, ?_⟩
  simp only [transposed_px]
  ring

/-- C134: resizing to `h` rows and `w` columns, of the exchanged image to `w` rows and `h` columns. -/
theorem C134_congrid (A : Img ℝ) (h w : Nat) (hA : 2 ≤ A.h ∧ 2 ≤ A.w) (hh : 2 ≤ h) (hw : 2 ≤ w) :
    ∃ r s, congrid A h w = .ok r ∧ congrid A.transposed w h = .ok s ∧ s = r.transposed := by
  obtain ⟨r, hr, r1, r2, r3⟩ := C70_resampled A h w hA hh hw
  obtain ⟨s, hs, s1, s2, s3⟩ := C70_resampled A.transposed w h ⟨hA.2, hA.1⟩ hw hh
  refine ⟨r, s, hr, hs, Img.ext_px (s1.trans r2.symm) (s2.trans r1.symm) ?_⟩
  intro Y X hY hX
  rw [s1] at hY
  rw [s2] at hX
  rw [transposed_px]
  exact C70_bilinear_unique (s3 Y X hY hX) (isBilinear_transposed (r3 X Y hX hY))

/-- C134: polarized brightness, angle and degree. -/
theorem C134_polarization {S : Fin 3 → Img ℝ} (hS : SameShape S) :
    pB (fun i => (S i).transposed) = (pB S).transposed ∧ AoLP (fun i => (S i).transposed) = (AoLP S).transposed ∧
    ∃ D E, DoLP S = .ok D ∧ DoLP (fun i => (S i).transposed) = .ok E ∧ E = D.transposed := by
  have hP : SameShape (fun i => (S i).transposed) := fun i => ⟨(hS i).2, (hS i).1⟩
  have hpb : ∀ Y X, Y < (S 0).w → X < (S 0).h → (pB (fun i => (S i).transposed)).px Y X = (pB S).px X Y := by
    intro Y X hY hX
    rw [pB_px hP hY hX, pB_px hS hX hY, transposed_px, transposed_px]
  refine ⟨Img.ext_px rfl rfl ?_, Img.ext_px rfl rfl ?_, ?_⟩
  · intro Y X hY hX
    have hY : Y < (S 1).w := hY
    have hX : X < (S 1).h := hX
    rw [(hS 1).2] at hY
    rw [(hS 1).1] at hX
    rw [transposed_px, hpb Y X hY hX]
  · intro Y X hY hX
    have hY : Y < (S 2).w := hY
    have hX : X < (S 2).h := hX
    rw [(hS 2).2] at hY
    rw [(hS 2).1] at hX
    rw [transposed_px, AoLP_px hP hY hX, AoLP_px hS hX hY, transposed_px, transposed_px]
  · obtain ⟨D, hD, d1, d2, dp⟩ := C19_total S hS
    obtain ⟨E, hE, e1, e2, ep⟩ := C19_total _ hP
    refine ⟨D, E, hD, hE, Img.ext_px (e1.trans d2.symm) (e2.trans d1.symm) ?_⟩
    intro Y X hY hX
    rw [e1] at hY
    rw [e2] at hX
    obtain ⟨a1, a2⟩ := dp X Y hX hY
    obtain ⟨b1, b2⟩ := ep Y X hY hX
    rw [transposed_px] at b1 b2 ⊢
    by_cases h0 : (S 0).px X Y = 0
    · rw [b1 h0, a1 h0]
    · rw [b2 h0, a2 h0, hpb Y X hY hX]

/-! ## The hypotheses are met -/

/-- The places of the micropolarizers of the usual sensor (45° upper right, -45° lower left) and of the exchanged one. -/
example : (Layout.mk 0 1 2 3).transposed = ⟨0, 2, 1, 3⟩ := rfl

/-- Dictionaries of the two sensors. -/
example : (Layout.mk 0 1 2 3).Describes (fun a => if a = 0 then some 0 else if a = 45 then some 1 else if a = -45 then some 2
      else if a = 90 then some 3 else none) ∧
    (Layout.mk 0 1 2 3).transposed.Describes (fun a => if a = 0 then some 0 else if a = 45 then some 2 else if a = -45 then some 1
      else if a = 90 then some 3 else none) := ⟨⟨rfl, rfl, rfl, rfl⟩, ⟨rfl, rfl, rfl, rfl⟩⟩

/-- The last row of an exchanged image is the last column. -/
example : (Img.ofFn 2 4 fun y x => (10 * y + x : ℚ)).transposed.px 3 1 = 13 := by
  rw [transposed_px, Img.ofFn_px (by omega) (by omega)]
  norm_num

end Micropol

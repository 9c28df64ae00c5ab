import Verif.Lemmas.Stokes
import Verif.Lemmas.Shift
import Verif.Props.Rebin
import Verif.Props.Shift
import Verif.Props.SplitMerge
import Mathlib.Algebra.BigOperators.Field
import Mathlib.Tactic.FieldSimp
import Mathlib.Tactic.NormNum

/-!
# C02 (accessors), C05 (Stokes), C10, C17: theoretical Stokes maps
-/

set_option autoImplicit false

namespace Micropol

open Finset

/-- C02: `pol0`, `pol45`, `pol_45`, `pol90` are the families the dictionary assigns to those angles. -/
theorem C02_accessors {α : Type} [Zero α] (d : Img α) (s : Fin 4 → Img α) (hs : splitPolarizations d = .ok s)
    (L : Layout) (dic : AngleDic) (hL : L.Describes dic) :
    polFamily d dic 0 = .ok (s L.p0) ∧ polFamily d dic 45 = .ok (s L.p45) ∧
    polFamily d dic (-45) = .ok (s L.pm45) ∧ polFamily d dic 90 = .ok (s L.p90) := by
  obtain ⟨h0, h45, hm45, h90⟩ := hL
  unfold polFamily
  simp only [hs, Py.ok_bind, get_ok h0, get_ok h45, get_ok hm45, get_ok h90, sub4_ok, and_self]

/-- C02: PolarCam's dictionary puts 0, 45, -45, 90 at positions 0, 1, 2, 3. -/
theorem C02_polarCam : Layout.Describes ⟨0, 1, 2, 3⟩ polarCamAngles ∧ Layout.Proper ⟨0, 1, 2, 3⟩ := by
  refine ⟨⟨rfl, rfl, rfl, rfl⟩, ?_⟩
  unfold Layout.Proper
  decide

variable {K : Type} [Field K]

/-- C17: for every even image and every dictionary over positions 0..3 the Stokes maps exist, have half the size,
and are half the sum / 0°−90° / 45°−(−45°) of the families. -/
theorem C17_stokes (d : Img K) (hh : d.h % 2 = 0) (hw : d.w % 2 = 0) (L : Layout) (dic : AngleDic)
    (hL : L.Describes dic) :
    ∃ S, dataStokes d dic = .ok S ∧ (∀ i, (S i).h = d.h / 2 ∧ (S i).w = d.w / 2) ∧
      ∀ y x, y < d.h / 2 → x < d.w / 2 →
        let v (k : Fin 4) := d.px (2 * y + k.val / 2) (2 * x + k.val % 2)
        (S 0).px y x = (v 0 + v 1 + v 2 + v 3) / 2 ∧
        (S 1).px y x = v L.p0 - v L.p90 ∧
        (S 2).px y x = v L.p45 - v L.pm45 := by
  obtain ⟨s, S, hs, hS, hspec⟩ := dataStokes_ok hh hw hL
  have hf := C02_family_pixels d s hs
  refine ⟨S, hS, ?_, ?_⟩
  · intro i
    rw [(hspec.1 i).1, (hspec.1 i).2]
    exact ⟨(hf 0).1, (hf 0).2.1⟩
  · intro y x hy hx
    obtain ⟨e0, e1, e2⟩ := hspec.2 y x (by rw [(hf 0).1]; exact hy) (by rw [(hf 0).2.1]; exact hx)
    rw [Fin.sum_univ_four] at e0
    simp only [(hf _).2.2 y x hy hx] at e0 e1 e2
    exact ⟨e0, e1, e2⟩

/-- C17: a dictionary without one of the four orientations is a `KeyError`, whichever is missing (the positions it has being
positions of the superpixel). -/
theorem C17_missing_angle (d : Img K) (hh : d.h % 2 = 0) (hw : d.w % 2 = 0) (dic : AngleDic) {a : Int}
    (ha : a ∈ [0, 45, -45, 90]) (h : dic a = none) (hval : ∀ b p, dic b = some p → 0 ≤ p ∧ p < 4) :
    dataStokes d dic = .error .keyError := by
  have hsub : ∀ (s : Fin 4 → Img K) (b p : Int), dic b = some p → ∃ A, sub4 s p = .ok A := by
    intro s b p hb
    obtain ⟨h0, h4⟩ := hval b p hb
    obtain ⟨k, rfl⟩ := Int.eq_ofNat_of_zero_le h0
    exact ⟨_, sub4_ok s ⟨k, by omega⟩⟩
  unfold dataStokes theoStokes
  obtain ⟨s, hs⟩ : ∃ s, splitPolarizations d = .ok s := ⟨_, split_ok hh hw⟩
  rw [hs, Py.ok_bind]
  cases h0 : dic 0 with
  | none => simp only [AngleDic.get, h0, Py.error_bind]
  | some p0 =>
    obtain ⟨A0, e0⟩ := hsub s _ _ h0
    simp only [AngleDic.get, h0, Py.ok_bind, e0]
    cases h90 : dic 90 with
    | none => simp only [Py.error_bind]
    | some p90 =>
      obtain ⟨A90, e90⟩ := hsub s _ _ h90
      simp only [Py.ok_bind, e90]
      cases h45 : dic 45 with
      | none => simp only [Py.error_bind]
      | some p45 =>
        obtain ⟨A45, e45⟩ := hsub s _ _ h45
        simp only [Py.ok_bind, e45]
        cases hm45 : dic (-45) with
        | none => simp only [Py.error_bind]
        | some pm45 =>
          exfalso
          simp only [List.mem_cons, List.not_mem_nil, or_false] at ha
          rcases ha with rfl | rfl | rfl | rfl <;> simp_all

/-- C17: moving the families around in the superpixel by any permutation `σ` and relabelling the dictionary in the
same way leaves the Stokes maps unchanged. -/
theorem C17_relabel (d d' : Img K) (s s' : Fin 4 → Img K) (σ : Equiv.Perm (Fin 4)) (L L' : Layout)
    (dic dic' : AngleDic) (hs : splitPolarizations d = .ok s) (hs' : splitPolarizations d' = .ok s')
    (hmove : ∀ k, s' (σ k) = s k) (hL : L.Describes dic) (hL' : L'.Describes dic')
    (hrel : L' = ⟨σ L.p0, σ L.p45, σ L.pm45, σ L.p90⟩) :
    dataStokes d' dic' = dataStokes d dic := by
  obtain ⟨hh, hw⟩ := split_even hs
  obtain ⟨hh', hw'⟩ := split_even hs'
  obtain ⟨t, S, e1, e2, e3⟩ := dataStokes_ok hh hw hL
  rw [hs] at e1; injection e1 with e1; subst e1
  obtain ⟨t', S', e1', e2', e3'⟩ := dataStokes_ok hh' hw' hL'
  rw [hs'] at e1'; injection e1' with e1'; subst e1'
  rw [e2, e2']
  congr 1
  have shp : ∀ k, (s k).h = d.h / 2 ∧ (s k).w = d.w / 2 := fun k =>
    ⟨(C02_family_pixels d s hs k).1, (C02_family_pixels d s hs k).2.1⟩
  have shp0 : (s' 0).h = (s 0).h ∧ (s' 0).w = (s 0).w := by
    have := hmove (σ.symm 0)
    rw [Equiv.apply_symm_apply] at this
    rw [this, (shp _).1, (shp _).2, (shp 0).1, (shp 0).2]
    exact ⟨rfl, rfl⟩
  refine IsStokesOf.unique (s := s) (L := L) ?_ e3
  subst hrel
  refine ⟨fun i => ⟨(e3'.1 i).1.trans shp0.1, (e3'.1 i).2.trans shp0.2⟩, ?_⟩
  intro y x hy hx
  obtain ⟨a, b, c⟩ := e3'.2 y x (by rw [shp0.1]; exact hy) (by rw [shp0.2]; exact hx)
  refine ⟨?_, ?_, ?_⟩
  · rw [a]
    congr 1
    rw [← Equiv.sum_comp σ (fun k => (s' k).px y x)]
    simp only [hmove]
  · rw [b]; simp only [hmove]
  · rw [c]; simp only [hmove]

/-- C10: the Stokes maps of the rebinned image are the plain rebinnings of the image's Stokes maps. -/
theorem C10_rebin_stokes (d : Img K) (b : Nat) (hb : 1 ≤ b) (hh : d.h % 2 = 0) (hw : d.w % 2 = 0)
    (L : Layout) (dic : AngleDic) (hL : L.Describes dic) :
    ∃ r S S', micropolRebinData d b = .ok r ∧ dataStokes d dic = .ok S ∧ dataStokes r dic = .ok S' ∧
      ∀ i, imageRebinData (S i) b = .ok (S' i) := by
  obtain ⟨r, s, s', e1, e2, e3, hrh, hrw, hbin⟩ := C09_rebin_families d b hb hh hw
  obtain ⟨t, S, f1, f2, f3⟩ := dataStokes_ok hh hw hL
  rw [e2] at f1; injection f1 with f1; subst f1
  obtain ⟨t', S', g1, g2, g3⟩ := dataStokes_ok (d := r) (by omega) (by omega) hL
  rw [e3] at g1; injection g1 with g1; subst g1
  refine ⟨r, S, S', e1, f2, g2, ?_⟩
  intro i
  obtain ⟨R, hR, hR1, hR2, hR3⟩ := C08_rebin (S i) b hb
  rw [hR]
  congr 1
  obtain ⟨q1, q2, q3⟩ := hbin 0
  have shS := f3.1 i
  have shS' := g3.1 i
  refine Img.ext_px (by rw [hR1, shS.1, shS'.1, q1]) (by rw [hR2, shS.2, shS'.2, q2]) ?_
  intro Y X hY hX
  rw [hR3 Y X hY hX]
  rw [hR1, shS.1] at hY
  rw [hR2, shS.2] at hX
  obtain ⟨z0, z1, z2⟩ := g3.2 Y X (by rw [q1]; exact hY) (by rw [q2]; exact hX)
  have hin : ∀ (n N u : Nat), N < n / b → u < b → b * N + u < n := by
    intro n N u hN hu
    calc b * N + u < b * N + b := by omega
      _ = (N + 1) * b := by ring
      _ ≤ n / b * b := Nat.mul_le_mul_right b (by omega)
      _ ≤ n := Nat.div_mul_le_self _ _
  have big : ∀ u ∈ range b, ∀ v ∈ range b, _ := fun u hu v hv =>
    f3.2 (b * Y + u) (b * X + v) (hin _ _ _ hY (mem_range.1 hu)) (hin _ _ _ hX (mem_range.1 hv))
  have eh : ∀ k, (s' k).h = (s 0).h / b := by
    intro k
    rw [(hbin k).1, (C02_family_pixels d s e2 k).1, (C02_family_pixels d s e2 0).1]
  have ew : ∀ k, (s' k).w = (s 0).w / b := by
    intro k
    rw [(hbin k).2.1, (C02_family_pixels d s e2 k).2.1, (C02_family_pixels d s e2 0).2.1]
  have hb' : ∀ k, (s' k).px Y X = ∑ u ∈ range b, ∑ v ∈ range b, (s k).px (b * Y + u) (b * X + v) := by
    intro k
    exact (hbin k).2.2 Y X (by rw [eh]; exact hY) (by rw [ew]; exact hX)
  fin_cases i
  · show ∑ u ∈ range b, ∑ v ∈ range b, (S 0).px (b * Y + u) (b * X + v) = (S' 0).px Y X
    rw [z0, sum_congr rfl (fun u hu => sum_congr rfl (fun v hv => (big u hu v hv).1))]
    have e : ∑ k, (s' k).px Y X
        = ∑ u ∈ range b, ∑ v ∈ range b, ∑ k, (s k).px (b * Y + u) (b * X + v) := by
      simp only [hb']
      rw [sum_comm]
      exact sum_congr rfl (fun u _ => sum_comm)
    rw [e, sum_div]
    exact sum_congr rfl (fun u _ => (sum_div _ _ _).symm)
  · show ∑ u ∈ range b, ∑ v ∈ range b, (S 1).px (b * Y + u) (b * X + v) = (S' 1).px Y X
    rw [z1, sum_congr rfl (fun u hu => sum_congr rfl (fun v hv => (big u hu v hv).2.1))]
    simp only [hb', sum_sub_distrib]
  · show ∑ u ∈ range b, ∑ v ∈ range b, (S 2).px (b * Y + u) (b * X + v) = (S' 2).px Y X
    rw [z2, sum_congr rfl (fun u hu => sum_congr rfl (fun v hv => (big u hu v hv).2.2))]
    simp only [hb', sum_sub_distrib]

/-- C05: the Stokes maps of the shifted image are the Stokes maps shifted by (y, x) superpixels; where nothing was
shifted in, I is that of four pixels of value `m` (namely `2 m`) and Q, U are 0. -/
theorem C05_shift_stokes (h2 : (2 : K) ≠ 0) (d : Img K) (hh : d.h % 2 = 0) (hw : d.w % 2 = 0)
    (L : Layout) (dic : AngleDic)
    (hL : L.Describes dic) (y x : Int) (m : K) :
    ∃ r S S', shiftMicropol d y x m = .ok r ∧ dataStokes d dic = .ok S ∧ dataStokes r dic = .ok S' ∧
      IsShiftOf (S 0) (S' 0) y x (2 * m) ∧ IsShiftOf (S 1) (S' 1) y x 0 ∧ IsShiftOf (S 2) (S' 2) y x 0 := by
  obtain ⟨S, f2, f3, f4⟩ := C17_stokes d hh hw L dic hL
  obtain ⟨S', g2, g3, g4⟩ := C17_stokes (shiftClosed d (2 * y) (2 * x) m) hh hw L dic hL
  refine ⟨_, S, S', shiftMicropol_ok d hh hw y x m, f2, g2, ?_⟩
  simp only [shiftClosed_h, shiftClosed_w] at g3 g4
  have hin : ∀ j i j' i' : Nat, j < d.h / 2 → i < d.w / 2 → j' < d.h / 2 → i' < d.w / 2 →
      (j : Int) = j' + y → (i : Int) = i' + x → ∀ k : Fin 4,
      (shiftClosed d (2 * y) (2 * x) m).px (2 * j + k.val / 2) (2 * i + k.val % 2)
        = d.px (2 * j' + k.val / 2) (2 * i' + k.val % 2) := by
    intro j i j' i' hj hi hj' hi' ej ei k
    have := k.isLt
    rw [shiftClosed_px _ _ _ _ (by omega) (by omega), if_pos (by omega)]
    congr 1 <;> omega
  have hout : ∀ j i : Nat, j < d.h / 2 → i < d.w / 2 →
      (¬ ∃ j' i' : Nat, j' < d.h / 2 ∧ i' < d.w / 2 ∧ (j : Int) = j' + y ∧ (i : Int) = i' + x) → ∀ k : Fin 4,
      (shiftClosed d (2 * y) (2 * x) m).px (2 * j + k.val / 2) (2 * i + k.val % 2) = m := by
    intro j i hj hi hne k
    have := k.isLt
    rw [shiftClosed_px _ _ _ _ (by omega) (by omega), if_neg]
    intro hc
    exact hne ⟨((j : Int) - y).toNat, ((i : Int) - x).toNat, by omega, by omega, by omega, by omega⟩
  refine ⟨⟨?_, ?_, ?_, ?_⟩, ⟨?_, ?_, ?_, ?_⟩, ⟨?_, ?_, ?_, ?_⟩⟩
  · rw [(g3 0).1, (f3 0).1]
  · rw [(g3 0).2, (f3 0).2]
  · rw [(f3 0).1, (f3 0).2]
    intro j i j' i' hj hi hj' hi' ej ei
    rw [(g4 j i hj hi).1, (f4 j' i' hj' hi').1]
    simp only [hin j i j' i' hj hi hj' hi' ej ei]
  · rw [(f3 0).1, (f3 0).2]
    intro j i hj hi hne
    rw [(g4 j i hj hi).1]
    simp only [hout j i hj hi hne]
    field_simp
    ring
  · rw [(g3 1).1, (f3 1).1]
  · rw [(g3 1).2, (f3 1).2]
  · rw [(f3 1).1, (f3 1).2]
    intro j i j' i' hj hi hj' hi' ej ei
    rw [(g4 j i hj hi).2.1, (f4 j' i' hj' hi').2.1]
    simp only [hin j i j' i' hj hi hj' hi' ej ei]
  · rw [(f3 1).1, (f3 1).2]
    intro j i hj hi hne
    rw [(g4 j i hj hi).2.1]
    simp only [hout j i hj hi hne, sub_self]
  · rw [(g3 2).1, (f3 2).1]
  · rw [(g3 2).2, (f3 2).2]
  · rw [(f3 2).1, (f3 2).2]
    intro j i j' i' hj hi hj' hi' ej ei
    rw [(g4 j i hj hi).2.2, (f4 j' i' hj' hi').2.2]
    simp only [hin j i j' i' hj hi hj' hi' ej ei]
  · rw [(f3 2).1, (f3 2).2]
    intro j i hj hi hne
    rw [(g4 j i hj hi).2.2]
    simp only [hout j i hj hi hne, sub_self]

/-! Non-vacuity: a 4×4 rational image with PolarCam's dictionary, and a proper relabelling. -/

def exStokes : Img Rat := Img.ofFn 4 4 (fun y x => 10 * y + x)

example : exStokes.h % 2 = 0 ∧ exStokes.w % 2 = 0 ∧ Layout.Describes ⟨0, 1, 2, 3⟩ polarCamAngles :=
  ⟨by decide, by decide, C02_polarCam.1⟩
example : ∃ S, dataStokes exStokes polarCamAngles = .ok S ∧ (S 0).px 0 0 = 11 ∧ (S 1).px 1 1 = -11 := by
  obtain ⟨S, h1, -, h3⟩ := C17_stokes exStokes (by decide) (by decide) _ _ C02_polarCam.1
  refine ⟨S, h1, ?_, ?_⟩
  · rw [(h3 0 0 (by decide) (by decide)).1]
    norm_num [exStokes, Img.ofFn_px']
  · rw [(h3 1 1 (by decide) (by decide)).2.1]
    norm_num [exStokes, Img.ofFn_px']
/-- A dictionary in which only the 45 degrees are missing. -/
example : dataStokes exStokes (fun a => if a = 0 then some 0 else if a = 90 then some 3 else if a = -45 then some 2 else none) =
    .error .keyError := by
  refine C17_missing_angle exStokes (by decide) (by decide) _ (a := 45) (by decide) (by decide) ?_
  intro b p h
  split_ifs at h <;> cases h <;> decide
/-- Rotating the superpixel: a non-trivial permutation meets the hypotheses of `C17_relabel`. -/
example (s : Fin 4 → Img Rat) (h : ∀ k, (s k).h = (s 0).h) (w : ∀ k, (s k).w = (s 0).w) :
    ∃ d d' s', mergePolarizations s = .ok d ∧ mergePolarizations s' = .ok d' ∧
      splitPolarizations d = .ok s ∧ splitPolarizations d' = .ok s' ∧ ∀ k, s' (Equiv.swap (0 : Fin 4) 3 k) = s k := by
  have e1 := C01_split_merge s h w
  have e2 := C01_split_merge (fun k => s ((Equiv.swap (0 : Fin 4) 3).symm k)) (fun k => (h _).trans (h _).symm)
    (fun k => (w _).trans (w _).symm)
  rw [Py.bind_eq_ok] at e1 e2
  obtain ⟨d, a1, a2⟩ := e1
  obtain ⟨d', b1, b2⟩ := e2
  exact ⟨d, d', _, a1, b1, a2, b2, fun k => by rw [Equiv.symm_apply_apply]⟩

end Micropol

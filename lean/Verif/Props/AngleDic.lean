import Verif.Lemmas.AngleDic
import Verif.Spec.AngleDic
import Verif.Spec.Shape
import Mathlib.Tactic.NormNum

/-!
# The fitted angle dictionary

* C30: `Demodulator.angle_dic`.
-/

set_option autoImplicit false

namespace Micropol

/-- A representative in (-90, 90] of an angle near 0, 45 or -45 is itself near it. -/
theorem near_inner {nominal p r : ℝ} (hn : |nominal| ≤ 45) (h : NearNominal nominal p) (h1 : -90 < r) (h2 : r ≤ 90)
    (k : ℤ) (hk : r = p + 180 * k) : |r - nominal| < 22.5 := by
  obtain ⟨n, hn'⟩ := h
  rw [abs_lt] at hn'
  rw [abs_le] at hn
  have e1 : (180 : ℝ) * ((n : ℝ) + k) < 180 * 1 := by norm_num at hn' ⊢; linarith
  have e2 : (180 : ℝ) * (-1) < 180 * ((n : ℝ) + k) := by norm_num at hn' ⊢; linarith
  have f1 : ((n + k : ℤ) : ℝ) < ((1 : ℤ) : ℝ) := by push_cast; exact lt_of_mul_lt_mul_left e1 (by norm_num)
  have f2 : ((-1 : ℤ) : ℝ) < ((n + k : ℤ) : ℝ) := by push_cast; exact lt_of_mul_lt_mul_left e2 (by norm_num)
  have g1 := Int.cast_lt.1 f1
  have g2 := Int.cast_lt.1 f2
  have : n + k = 0 := by omega
  have hc : (n : ℝ) + k = 0 := by exact_mod_cast this
  rw [abs_lt]
  norm_num at hn' ⊢
  constructor <;> linarith

/-- A representative in (-90, 90] of an angle near 90 is near 90 or near -90. -/
theorem near_outer {p r : ℝ} (h : NearNominal 90 p) (h1 : -90 < r) (h2 : r ≤ 90)
    (k : ℤ) (hk : r = p + 180 * k) : 67.5 < r ∨ r < -67.5 := by
  obtain ⟨n, hn'⟩ := h
  rw [abs_lt] at hn'
  norm_num at hn' ⊢
  rcases lt_or_ge (n + k) 0 with hc | hc
  · right
    have : (n : ℝ) + k ≤ -1 := by exact_mod_cast (show n + k ≤ -1 by omega)
    linarith
  · left
    have : (0 : ℝ) ≤ (n : ℝ) + k := by exact_mod_cast hc
    linarith

/-- C30: if the mean phases of the four families approach the nominal angles according to a layout with four
different positions, the dictionary is exactly that layout, whatever the order in which a set lists its elements. -/
theorem C30_layout (pick : Finset Nat → Nat) (hpick : ∀ s : Finset Nat, s.Nonempty → pick s ∈ s) (phi : Img ℝ)
    (m n : Nat) (hm : 0 < m) (hn : 0 < n) (hphi : phi.HasShape (2 * m) (2 * n)) (L : Layout) (hL : L.Proper)
    (hfit : L.Fits (placeMean phi m n)) :
    demodAngleDic pick phi = .ok [(0, L.p0.val), (45, L.p45.val), (-45, L.pm45.val), (90, L.p90.val)] := by
  obtain ⟨hh, hw⟩ := hphi
  have hmean : ∀ k : Fin 4, npMean (phi.stride2 (k.val / 2) (k.val % 2)) = .ok (placeMean phi m n k) := by
    intro k
    have e1 : (phi.h - k.val / 2 + 1) / 2 = m := by omega
    have e2 : (phi.w - k.val % 2 + 1) / 2 = n := by omega
    have eh : (phi.stride2 (k.val / 2) (k.val % 2)).h = m := e1
    have ew : (phi.stride2 (k.val / 2) (k.val % 2)).w = n := e2
    rw [npMean_real (by rw [eh]; exact hm) (by rw [ew]; exact hn), eh, ew]
    unfold placeMean
    congr 2
    refine Finset.sum_congr rfl ?_
    intro y hy
    refine Finset.sum_congr rfl ?_
    intro x hx
    rw [Finset.mem_range] at hy hx
    exact Img.ofFn_px (by omega) (by omega)
  choose g hg using normalizeAngle_ok
  obtain ⟨r, hr⟩ : ∃ r : Fin 4 → ℝ, r = fun k => g (placeMean phi m n k) := ⟨_, rfl⟩
  have hnorm : normalize2pi (.list [placeMean phi m n 0, placeMean phi m n 1, placeMean phi m n 2,
      placeMean phi m n 3]) = .ok (List.ofFn r) := by
    show List.mapM normalizeAngle _ = _
    rw [mapM_ok (fun a _ => (hg a).1), hr]
    simp [List.ofFn_succ]
  have m0 : npMean (phi.stride2 0 0) = .ok (placeMean phi m n 0) := hmean 0
  have m1 : npMean (phi.stride2 0 1) = .ok (placeMean phi m n 1) := hmean 1
  have m2 : npMean (phi.stride2 1 0) = .ok (placeMean phi m n 2) := hmean 2
  have m3 : npMean (phi.stride2 1 1) = .ok (placeMean phi m n 3) := hmean 3
  unfold demodAngleDic
  rw [m0, Py.ok_bind, m1, Py.ok_bind, m2, Py.ok_bind, m3, Py.ok_bind, hnorm, Py.ok_bind]
  obtain ⟨hf0, hf45, hfm45, hf90⟩ := hfit
  have hrange : ∀ k, -90 < r k ∧ r k ≤ 90 := by
    intro k; rw [hr]; exact ⟨(hg _).2.1, (hg _).2.2.1⟩
  have hrep : ∀ k, ∃ z : ℤ, r k = placeMean phi m n k + 180 * z := by
    intro k; rw [hr]; exact (hg _).2.2.2
  have n0 : |r L.p0 - 0| < 22.5 := by
    obtain ⟨z, hz⟩ := hrep L.p0
    exact near_inner (by norm_num) hf0 (hrange _).1 (hrange _).2 z hz
  have n45 : |r L.p45 - 45| < 22.5 := by
    obtain ⟨z, hz⟩ := hrep L.p45
    exact near_inner (by norm_num) hf45 (hrange _).1 (hrange _).2 z hz
  have nm45 : |r L.pm45 - (-45)| < 22.5 := by
    obtain ⟨z, hz⟩ := hrep L.pm45
    exact near_inner (by norm_num) hfm45 (hrange _).1 (hrange _).2 z hz
  have n90 : 67.5 < r L.p90 ∨ r L.p90 < -67.5 := by
    obtain ⟨z, hz⟩ := hrep L.p90
    exact near_outer hf90 (hrange _).1 (hrange _).2 z hz
  have hlo := (hrange L.p90).1
  have hhi := (hrange L.p90).2
  obtain ⟨d1, d2, d3, d4, d5, d6⟩ := hL
  have hcover : ∀ k : Fin 4, k = L.p0 ∨ k = L.p45 ∨ k = L.pm45 ∨ k = L.p90 := by
    intro k
    simp only [Fin.ext_iff, ne_eq] at *
    omega
  rw [abs_lt] at n0 n45 nm45
  norm_num at n0 n45 nm45 n90
  have i0 : nearestIndex (List.ofFn r) 0 = .ok L.p0.val := by
    apply nearestIndex_unique
    intro k hk
    have : |r L.p0 - 0| < 22.5 := by rw [abs_lt]; norm_num; exact n0
    refine this.trans ?_
    rcases hcover k with rfl | rfl | rfl | rfl
    · exact absurd rfl hk
    · rw [lt_abs]; norm_num; left; linarith
    · rw [lt_abs]; norm_num; right; linarith
    · rw [lt_abs]; norm_num
      rcases n90 with h | h
      · left; linarith
      · right; linarith
  have i45 : nearestIndex (List.ofFn r) 45 = .ok L.p45.val := by
    apply nearestIndex_unique
    intro k hk
    have : |r L.p45 - 45| < 22.5 := by rw [abs_lt]; norm_num; constructor <;> linarith
    refine this.trans ?_
    rcases hcover k with rfl | rfl | rfl | rfl
    · rw [lt_abs]; norm_num; right; linarith
    · exact absurd rfl hk
    · rw [lt_abs]; norm_num; right; linarith
    · rw [lt_abs]; norm_num
      rcases n90 with h | h
      · left; linarith
      · right; linarith
  have im45 : nearestIndex (List.ofFn r) (-45) = .ok L.pm45.val := by
    apply nearestIndex_unique
    intro k hk
    have : |r L.pm45 - (-45)| < 22.5 := by rw [abs_lt]; norm_num; constructor <;> linarith
    refine this.trans ?_
    rcases hcover k with rfl | rfl | rfl | rfl
    · rw [lt_abs]; norm_num; left; linarith
    · rw [lt_abs]; norm_num; left; linarith
    · exact absurd rfl hk
    · rw [lt_abs]; norm_num
      rcases n90 with h | h
      · left; linarith
      · right; linarith
  obtain ⟨j, hj1, hj2⟩ := nearestIndex_spec r 90
  unfold angleDicOf
  rw [i0, Py.ok_bind, i45, Py.ok_bind, im45, Py.ok_bind, hj1, Py.ok_bind]
  rcases n90 with h | h
  · have hj : j = L.p90 := by
      rcases hcover j with rfl | rfl | rfl | h'
      · have := hj2 L.p90
        rw [abs_of_nonpos (by linarith : r L.p90 - 90 ≤ 0), abs_le] at this
        linarith [this.1]
      · have := hj2 L.p90
        rw [abs_of_nonpos (by linarith : r L.p90 - 90 ≤ 0), abs_le] at this
        linarith [this.1]
      · have := hj2 L.p90
        rw [abs_of_nonpos (by linarith : r L.p90 - 90 ≤ 0), abs_le] at this
        linarith [this.1]
      · exact h'
    have hleft : Finset.range 4 \ {L.p0.val, L.p45.val, L.pm45.val, j.val} = ∅ := by
      ext q
      have hq := hcover
      simp only [Finset.mem_sdiff, Finset.mem_range, Finset.mem_insert, Finset.mem_singleton, Finset.notMem_empty,
        iff_false]
      rintro ⟨hq4, hq'⟩
      rcases hcover ⟨q, hq4⟩ with h' | h' | h' | h' <;> rw [hj, ← h'] at hq' <;> simp at hq'
    simp only [hleft, Finset.not_nonempty_empty, if_false]
    rw [hj]
    rfl
  · have hj : j ≠ L.p90 := by
      rintro rfl
      have := hj2 L.p45
      rw [abs_of_neg (by linarith : r L.p90 - 90 < 0), le_abs] at this
      rcases this with h' | h' <;> linarith
    have hleft : Finset.range 4 \ {L.p0.val, L.p45.val, L.pm45.val, j.val} = {L.p90.val} := by
      ext q
      simp only [Finset.mem_sdiff, Finset.mem_range, Finset.mem_insert, Finset.mem_singleton]
      constructor
      · rintro ⟨hq4, hq'⟩
        rcases hcover ⟨q, hq4⟩ with h' | h' | h' | h'
        · rw [← h'] at hq'; simp at hq'
        · rw [← h'] at hq'; simp at hq'
        · rw [← h'] at hq'; simp at hq'
        · rw [← h']
      · rintro rfl
        refine ⟨L.p90.isLt, ?_⟩
        simp only [← Fin.ext_iff]
        rintro (h' | h' | h' | h')
        · exact d3 h'.symm
        · exact d5 h'.symm
        · exact d6 h'.symm
        · exact hj h'.symm
    have hp := hpick {L.p90.val} (Finset.singleton_nonempty _)
    rw [Finset.mem_singleton] at hp
    simp only [hleft, Finset.singleton_nonempty, if_true, hp]
    rfl

/-- A 2x2 phase map with fitted phases 3, 130, 50 and -80 degrees: the third family was fitted beyond 90. -/
noncomputable def demoPhases : Img ℝ := Img.ofFn 2 2 (fun y x => if y = 0 then (if x = 0 then 3 else 130) else (if x = 0 then 50 else -80))

/-- C30: non-trivial instance. -/
example : demodAngleDic (fun s => if h : s.Nonempty then s.min' h else 0) demoPhases
    = .ok [(0, 0), (45, 2), (-45, 1), (90, 3)] := by
  have := C30_layout (fun s => if h : s.Nonempty then s.min' h else 0) (by
    intro s hs; simp only [hs, dif_pos]; exact s.min'_mem hs) demoPhases 1 1 (by decide) (by decide) ⟨rfl, rfl⟩ ⟨0, 2, 1, 3⟩
    ⟨by decide, by decide, by decide, by decide, by decide, by decide⟩
    ⟨⟨0, by norm_num [placeMean, demoPhases, Img.ofFn_px', abs_lt]⟩,
     ⟨0, by norm_num [placeMean, demoPhases, Img.ofFn_px', abs_lt]⟩,
     ⟨1, by norm_num [placeMean, demoPhases, Img.ofFn_px', abs_lt]⟩,
     ⟨-1, by norm_num [placeMean, demoPhases, Img.ofFn_px', abs_lt]⟩⟩
  exact this

end Micropol

import Verif.Lemmas.Congrid
import Verif.Lemmas.Split
import Verif.Spec.Shape

/-!
# Resampling

* C70: `congrid` and `MicropolImage.congrid`.
-/

set_option autoImplicit false

namespace Micropol

/-- C70: `congrid` is bilinear resampling with coinciding corners, for all sides of at least 2 pixels. -/
theorem C70_resampled (A : Img ℝ) (h w : Nat) (hA : 2 ≤ A.h ∧ 2 ≤ A.w) (hh : 2 ≤ h) (hw : 2 ≤ w) :
    ∃ B, congrid A h w = .ok B ∧ IsResampled A h w B := by
  obtain ⟨B, hB, e1, e2, e3⟩ := congrid_px A h w hA (by omega) (by omega)
  refine ⟨B, hB, e1, e2, ?_⟩
  intro Y X hY hX
  obtain ⟨y, s, hy, s0, s1, hs⟩ := position_exists A.h h Y hA.1 hh hY
  obtain ⟨x, t, hx, t0, t1, ht⟩ := position_exists A.w w X hA.2 hw hX
  refine ⟨y, x, s, t, hy, hx, s0, s1, t0, t1, hs, ht, ?_⟩
  rw [e3 Y X hY hX, div_mul_eq_mul_div, div_mul_eq_mul_div, hs, ht, interpLinear_at _ _ y s hy s0 s1]
  rw [interpLinear_at _ _ x t hx t0 t1, interpLinear_at _ _ x t hx t0 t1]

/-- Interpolating between two samples, the pair (sample, fraction) may be chosen in either way at a sample. -/
theorem frac_unique {i j : Nat} {s t : ℝ} (hs0 : 0 ≤ s) (hs1 : s ≤ 1) (ht0 : 0 ≤ t) (ht1 : t ≤ 1)
    (h : (i : ℝ) + s = j + t) (f : Nat → ℝ) :
    (1 - s) * f i + s * f (i + 1) = (1 - t) * f j + t * f (j + 1) := by
  rcases lt_trichotomy i j with hij | rfl | hij
  · have : (i : ℝ) + 1 ≤ j := by exact_mod_cast hij
    have e1 : s = 1 := by linarith
    have e2 : t = 0 := by linarith
    have e3 : j = i + 1 := by
      have : (j : ℝ) = (i : ℝ) + 1 := by linarith
      exact_mod_cast this
    subst e1 e2 e3
    ring
  · have : s = t := by linarith
    rw [this]
  · have : (j : ℝ) + 1 ≤ i := by exact_mod_cast hij
    have e1 : t = 1 := by linarith
    have e2 : s = 0 := by linarith
    have e3 : i = j + 1 := by
      have : (i : ℝ) = (j : ℝ) + 1 := by linarith
      exact_mod_cast this
    subst e1 e2 e3
    ring

/-- C70: the specification determines the value. -/
theorem C70_bilinear_unique {A : Img ℝ} {u w v v' : ℝ} (h : IsBilinear A u w v) (h' : IsBilinear A u w v') : v = v' := by
  obtain ⟨y, x, s, t, -, -, s0, s1, t0, t1, hu, hw, rfl⟩ := h
  obtain ⟨y', x', s', t', -, -, s0', s1', t0', t1', hu', hw', rfl⟩ := h'
  have e1 := fun r => frac_unique t0 t1 t0' t1' (hw.symm.trans hw') (fun k => A.px r k)
  have e2 := frac_unique s0 s1 s0' s1' (hu.symm.trans hu') (fun r => (1 - t') * A.px r x' + t' * A.px r (x' + 1))
  have e3 := e1 y
  have e4 := e1 (y + 1)

  rw [e3, e4, e2]

theorem bilinear_at {A : Img ℝ} {y x : Nat} (hy : y < A.h) (hx : x < A.w) (hA : 2 ≤ A.h ∧ 2 ≤ A.w) :
    IsBilinear A y x (A.px y x) := by
  have pick : ∀ (n k : Nat), 2 ≤ n → k < n → ∃ (i : Nat) (t : ℝ), i + 1 < n ∧ 0 ≤ t ∧ t ≤ 1 ∧ (k : ℝ) = i + t ∧
      ∀ f : Nat → ℝ, f k = (1 - t) * f i + t * f (i + 1) := by
    intro n k hn hk
    by_cases hl : k + 1 < n
    · exact ⟨k, 0, hl, le_rfl, by norm_num, by ring, fun f => by ring⟩
    · refine ⟨k - 1, 1, by omega, by norm_num, le_rfl, ?_, ?_⟩
      · have : ((k - 1 : ℕ) : ℝ) = (k : ℝ) - 1 := by push_cast [Nat.cast_sub (show 1 ≤ k by omega)]; ring
        rw [this]; ring
      · intro f
        rw [show k - 1 + 1 = k by omega]; ring
  obtain ⟨i, s, hi, s0, s1, hs, fs⟩ := pick A.h y hA.1 hy
  obtain ⟨j, t, hj, t0, t1, ht, ft⟩ := pick A.w x hA.2 hx
  refine ⟨i, j, s, t, hi, hj, s0, s1, t0, t1, hs, ht, ?_⟩
  rw [fs (fun r => A.px r x), ft (fun c => A.px i c), ft (fun c => A.px (i + 1) c)]

/-- C70: the four corner values are kept. -/
theorem C70_corners (A : Img ℝ) (h w : Nat) (hA : 2 ≤ A.h ∧ 2 ≤ A.w) (hh : 2 ≤ h) (hw : 2 ≤ w) (B : Img ℝ)
    (hB : congrid A h w = .ok B) :
    B.px 0 0 = A.px 0 0 ∧ B.px 0 (w - 1) = A.px 0 (A.w - 1) ∧ B.px (h - 1) 0 = A.px (A.h - 1) 0 ∧
    B.px (h - 1) (w - 1) = A.px (A.h - 1) (A.w - 1) := by
  obtain ⟨B', hB', -, -, e⟩ := C70_resampled A h w hA hh hw
  rw [hB] at hB'
  injection hB' with hB'
  subst hB'
  have last : ∀ n m : Nat, 2 ≤ n → 2 ≤ m → ((n : ℝ) - 1) * ((m - 1 : ℕ) : ℝ) / ((m : ℝ) - 1) = ((n - 1 : ℕ) : ℝ) := by
    intro n m hn hm
    have hm1 : ((m : ℝ) - 1) ≠ 0 := by
      have : (2 : ℝ) ≤ m := by exact_mod_cast hm
      linarith
    push_cast [Nat.cast_sub (show 1 ≤ m by omega), Nat.cast_sub (show 1 ≤ n by omega)]
    field_simp
  have first : ∀ n m : Nat, ((n : ℝ) - 1) * ((0 : ℕ) : ℝ) / ((m : ℝ) - 1) = ((0 : ℕ) : ℝ) := by
    intro n m; simp
  refine ⟨?_, ?_, ?_, ?_⟩
  · have := e 0 0 (by omega) (by omega)
    rw [first, first] at this
    exact C70_bilinear_unique this (bilinear_at (by omega) (by omega) hA)
  · have := e 0 (w - 1) (by omega) (by omega)
    rw [first, last _ _ hA.2 hw] at this
    exact C70_bilinear_unique this (bilinear_at (by omega) (by omega) hA)
  · have := e (h - 1) 0 (by omega) (by omega)
    rw [first, last _ _ hA.1 hh] at this
    exact C70_bilinear_unique this (bilinear_at (by omega) (by omega) hA)
  · have := e (h - 1) (w - 1) (by omega) (by omega)
    rw [last _ _ hA.1 hh, last _ _ hA.2 hw] at this
    exact C70_bilinear_unique this (bilinear_at (by omega) (by omega) hA)

/-- C70: resampling never leaves the range of the data; in particular constants are preserved. -/
theorem C70_range (A : Img ℝ) (h w : Nat) (hA : 2 ≤ A.h ∧ 2 ≤ A.w) (hh : 2 ≤ h) (hw : 2 ≤ w) (B : Img ℝ)
    (hB : congrid A h w = .ok B) (lo hi : ℝ) (hr : ∀ y x, y < A.h → x < A.w → lo ≤ A.px y x ∧ A.px y x ≤ hi) :
    ∀ y x, y < h → x < w → lo ≤ B.px y x ∧ B.px y x ≤ hi := by
  obtain ⟨B', hB', -, -, e⟩ := C70_resampled A h w hA hh hw
  rw [hB] at hB'
  injection hB' with hB'
  subst hB'
  intro Y X hY hX
  obtain ⟨y, x, s, t, hy, hx, s0, s1, t0, t1, -, -, hv⟩ := e Y X hY hX
  have conv : ∀ (t a b lo hi : ℝ), 0 ≤ t → t ≤ 1 → lo ≤ a → a ≤ hi → lo ≤ b → b ≤ hi →
      lo ≤ (1 - t) * a + t * b ∧ (1 - t) * a + t * b ≤ hi := by
    intro t a b lo hi h0 h1 ha1 ha2 hb1 hb2
    constructor <;> nlinarith
  have r1 := hr y x (by omega) (by omega)
  have r2 := hr y (x + 1) (by omega) hx
  have r3 := hr (y + 1) x hy (by omega)
  have r4 := hr (y + 1) (x + 1) hy hx
  have c1 := conv t _ _ lo hi t0 t1 r1.1 r1.2 r2.1 r2.2
  have c2 := conv t _ _ lo hi t0 t1 r3.1 r3.2 r4.1 r4.2
  rw [hv]
  exact conv s _ _ lo hi s0 s1 c1.1 c1.2 c2.1 c2.2

/-- C70: constants are preserved. -/
theorem C70_constant (H W h w : Nat) (c : ℝ) (hA : 2 ≤ H ∧ 2 ≤ W) (hh : 2 ≤ h) (hw : 2 ≤ w) :
    congrid (Img.const H W c) h w = .ok (Img.const h w c) := by
  obtain ⟨B, hB, e1, e2, -⟩ := C70_resampled (Img.const H W c) h w hA hh hw
  rw [hB]
  congr 1
  refine Img.ext_px e1 e2 ?_
  intro y x hy hx
  rw [e1] at hy
  rw [e2] at hx
  have := C70_range (Img.const H W c) h w hA hh hw B hB c c (by
    intro y x hy hx
    have : (Img.const H W c).px y x = c := Img.ofFn_px hy hx
    rw [this]; exact ⟨le_rfl, le_rfl⟩) y x hy hx
  have e : (Img.const h w c).px y x = c := Img.ofFn_px hy hx
  rw [e]
  exact le_antisymm this.2 this.1

/-- C70: unchanged dimensions leave the data unchanged. -/
theorem C70_identity (A : Img ℝ) (hA : 2 ≤ A.h ∧ 2 ≤ A.w) : congrid A A.h A.w = .ok A := by
  obtain ⟨B, hB, e1, e2, e⟩ := C70_resampled A A.h A.w hA hA.1 hA.2
  rw [hB]
  congr 1
  refine Img.ext_px e1 e2 ?_
  intro y x hy hx
  rw [e1] at hy
  rw [e2] at hx
  have := e y x hy hx
  have f : ∀ n k : Nat, 2 ≤ n → ((n : ℝ) - 1) * k / ((n : ℝ) - 1) = k := by
    intro n k hn
    have hn1 : ((n : ℝ) - 1) ≠ 0 := by
      have : (2 : ℝ) ≤ n := by exact_mod_cast hn
      linarith
    field_simp
  rw [f _ _ hA.1, f _ _ hA.2] at this
  exact C70_bilinear_unique this (bilinear_at hy hx hA)

/-- C70: `MicropolImage.congrid` resamples the four families separately; odd dimensions are rounded down. -/
theorem C70_families (A : Img ℝ) (hh : A.h % 2 = 0) (hw : A.w % 2 = 0) (hA : 4 ≤ A.h ∧ 4 ≤ A.w) (newY newX : Nat)
    (hY : 4 ≤ newY) (hX : 4 ≤ newX) :
    ∃ B, congridData A newY newX = .ok B ∧ B.HasShape (2 * (newY / 2)) (2 * (newX / 2)) ∧
      ∀ a b, a < 2 → b < 2 →
        IsResampled (Img.ofFn (A.h / 2) (A.w / 2) (fun y x => A.px (2 * y + a) (2 * x + b))) (newY / 2) (newX / 2)
          (Img.ofFn (newY / 2) (newX / 2) (fun y x => B.px (2 * y + a) (2 * x + b))) := by
  unfold congridData
  dsimp only
  rw [split_ok hh hw, Py.ok_bind,
    show (if newY % 2 = 1 then newY - 1 else newY) / 2 = newY / 2 by split <;> omega,
    show (if newX % 2 = 1 then newX - 1 else newX) / 2 = newX / 2 by split <;> omega]
  have key : ∀ k : Fin 4, ∃ B, congrid (Img.ofFn (A.h / 2) (A.w / 2)
      (fun y x => A.px (2 * y + k.val / 2) (2 * x + k.val % 2))) (newY / 2) (newX / 2) = .ok B ∧
      IsResampled (Img.ofFn (A.h / 2) (A.w / 2) (fun y x => A.px (2 * y + k.val / 2) (2 * x + k.val % 2))) (newY / 2)
        (newX / 2) B := by
    intro k
    exact C70_resampled _ _ _ ⟨by rw [Img.ofFn_h]; omega, by rw [Img.ofFn_w]; omega⟩ (by omega) (by omega)
  choose c hc1 hc2 using key
  rw [hc1 0, Py.ok_bind, hc1 1, Py.ok_bind, hc1 2, Py.ok_bind, hc1 3, Py.ok_bind]
  have hv : (![c 0, c 1, c 2, c 3] : Fin 4 → Img ℝ) = c := vec4_eta c
  rw [hv, merge_ok (h := newY / 2) (w := newX / 2) (fun k => (hc2 k).1) (fun k => (hc2 k).2.1)]
  refine ⟨_, rfl, ⟨rfl, rfl⟩, ?_⟩
  intro a b ha hb
  have hk : ∃ k : Fin 4, k.val / 2 = a ∧ k.val % 2 = b := ⟨⟨2 * a + b, by omega⟩, by dsimp; omega, by dsimp; omega⟩
  obtain ⟨k, rfl, rfl⟩ := hk
  have : Img.ofFn (newY / 2) (newX / 2) (fun y x => (Img.ofFn (2 * (newY / 2)) (2 * (newX / 2))
      (fun y x => (c (famIdx y x)).px (y / 2) (x / 2))).px (2 * y + k.val / 2) (2 * x + k.val % 2)) = c k := by
    symm
    refine Img.eq_ofFn (hc2 k).1 (hc2 k).2.1 ?_
    intro y x hy hx
    rw [Img.ofFn_px (by omega) (by omega), show famIdx (2 * y + k.val / 2) (2 * x + k.val % 2) = k from famIdx_of k y x,
      show (2 * y + k.val / 2) / 2 = y by omega, show (2 * x + k.val % 2) / 2 = x by omega]
  rw [this]
  exact hc2 k

/-- A 2x3 image resampled to 3x5: the new middle row and the new even columns are means. -/
example : ∃ B, congrid (Img.ofFn 2 3 (fun y x => (10 * y + x : ℝ))) 3 5 = .ok B ∧ B.px 1 1 = 5.5 := by
  obtain ⟨B, hB, -, -, e⟩ := C70_resampled (Img.ofFn 2 3 (fun y x => (10 * y + x : ℝ))) 3 5 ⟨by decide, by decide⟩
    (by decide) (by decide)
  refine ⟨B, hB, C70_bilinear_unique (e 1 1 (by decide) (by decide)) ?_⟩
  refine ⟨0, 0, 1 / 2, 1 / 2, by decide, by decide, by norm_num, by norm_num, by norm_num, by norm_num, ?_, ?_, ?_⟩
  · norm_num
  · norm_num
  · norm_num [Img.ofFn_px']

end Micropol

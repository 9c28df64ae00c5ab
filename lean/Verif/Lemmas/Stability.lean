import Verif.Spec.Stability
import Verif.Lemmas.MedianFilter
import Verif.Props.ObjectPixels
import Verif.Props.HotPixels
import Mathlib.Tactic.Linarith

/-! # Differences of pixels through single operations -/

set_option autoImplicit false

namespace Micropol

open Finset

theorem PxWithin.mono {ε δ : ℝ} {A B : Img ℝ} (h : PxWithin ε A B) (hε : ε ≤ δ) : PxWithin δ A B :=
  ⟨h.1, fun y x hy hx => (h.2 y x hy hx).trans hε⟩

theorem PxWithin.zero {A B : Img ℝ} (h : PxWithin 0 A B) {y x : Nat} (hy : y < A.h) (hx : x < A.w) : A.px y x = B.px y x :=
  sub_eq_zero.1 (abs_eq_zero.1 (le_antisymm (h.2 y x hy hx) (abs_nonneg _)))

theorem abs_sum_sub_le {ι : Type} (s : Finset ι) (f g : ι → ℝ) (ε : ℝ) (h : ∀ i ∈ s, |f i - g i| ≤ ε) :
    |∑ i ∈ s, f i - ∑ i ∈ s, g i| ≤ s.card * ε := by
  rw [← sum_sub_distrib]
  refine (abs_sum_le_sum_abs _ _).trans ?_
  refine (sum_le_sum h).trans ?_
  rw [sum_const, nsmul_eq_mul]

theorem familySum_within {ε : ℝ} {A B : Img ℝ} (h : PxWithin ε A B) {m y x : Nat} (hy : y < 2 * (A.h / (2 * m)))
    (hx : x < 2 * (A.w / (2 * m))) : |familySum A m y x - familySum B m y x| ≤ (m : ℝ) ^ 2 * ε := by
  unfold familySum
  have key : ∀ (H y u : Nat), y < 2 * (H / (2 * m)) → u < m → 2 * (m * (y / 2) + u) + y % 2 < H := by
    intro H y u hy hu
    have h1 : y / 2 + 1 ≤ H / (2 * m) := by omega
    have h2 : (2 * m) * (y / 2 + 1) ≤ H := (Nat.mul_le_mul_left _ h1).trans (Nat.mul_div_le _ _)
    have h3 : (2 * m) * (y / 2 + 1) = 2 * (m * (y / 2)) + 2 * m := by ring
    omega
  have := abs_sum_sub_le (range m) (fun u => ∑ v ∈ range m, A.px (2 * (m * (y / 2) + u) + y % 2) (2 * (m * (x / 2) + v) + x % 2))
    (fun u => ∑ v ∈ range m, B.px (2 * (m * (y / 2) + u) + y % 2) (2 * (m * (x / 2) + v) + x % 2)) (m * ε) (by
      intro u hu
      have := abs_sum_sub_le (range m) (fun v => A.px (2 * (m * (y / 2) + u) + y % 2) (2 * (m * (x / 2) + v) + x % 2))
        (fun v => B.px (2 * (m * (y / 2) + u) + y % 2) (2 * (m * (x / 2) + v) + x % 2)) ε (by
          intro v hv
          exact h.2 _ _ (key _ _ _ hy (mem_range.1 hu)) (key _ _ _ hx (mem_range.1 hv)))
      rwa [card_range] at this)
  rw [card_range] at this
  calc _ ≤ _ := this
    _ = _ := by ring

theorem shift_within {ε : ℝ} {A B C D : Img ℝ} {y x : Int} {m : ℝ} (hε : 0 ≤ ε) (h : PxWithin ε A B) (hC : IsShiftOf A C y x m)
    (hD : IsShiftOf B D y x m) : PxWithin ε C D := by
  obtain ⟨c1, c2, c3, c4⟩ := hC
  obtain ⟨d1, d2, d3, d4⟩ := hD
  obtain ⟨⟨s1, s2⟩, h⟩ := h
  refine ⟨⟨by rw [c1, d1, s1], by rw [c2, d2, s2]⟩, fun j i hj hi => ?_⟩
  rw [c1] at hj
  rw [c2] at hi
  by_cases hc : ∃ j' i' : Nat, j' < A.h ∧ i' < A.w ∧ (j : Int) = j' + y ∧ (i : Int) = i' + x
  · obtain ⟨j', i', hj', hi', e1, e2⟩ := hc
    rw [c3 j i j' i' hj hi hj' hi' e1 e2, d3 j i j' i' (s1 ▸ hj) (s2 ▸ hi) (s1 ▸ hj') (s2 ▸ hi') e1 e2]
    exact h _ _ hj' hi'
  · rw [c4 j i hj hi hc, d4 j i (s1 ▸ hj) (s2 ▸ hi) (by rw [← s1, ← s2]; exact hc), sub_self, abs_zero]
    exact hε

/-- The third smallest of four numbers moves by at most as much as the numbers. -/
theorem ThirdOf.le_add {v v' a b c d a' b' c' d' ε : ℝ} (h : ThirdOf v a b c d) (h' : ThirdOf v' a' b' c' d') (ha : a ≤ a' + ε)
    (hb : b ≤ b' + ε) (hc : c ≤ c' + ε) (hd : d ≤ d' + ε) : v ≤ v' + ε := by
  refine h.le_of ?_
  have h1 : [a, b, c, d].countP (fun z => decide (v' + ε < z)) ≤ [a', b', c', d'].countP (fun z => decide (v' < z)) := by
    simp only [List.countP_cons, List.countP_nil, decide_eq_true_eq]
    split_ifs <;> first | omega | (exfalso; linarith)
  refine h1.trans ?_
  obtain ⟨p, q, s, hp, k1, k2, k3⟩ := h'
  rw [← hp.countP_eq]
  simp only [List.countP_cons, List.countP_nil, decide_eq_true_eq]
  split_ifs <;> first | omega | (exfalso; linarith)

theorem median_within {ε : ℝ} {A B : Img ℝ} (h : PxWithin ε A B) {y x : Nat} (hy : y < A.h) (hx : x < A.w) :
    |(medianFilter 2 A).px y x - (medianFilter 2 B).px y x| ≤ ε := by
  have hyB : y < B.h := h.1.1 ▸ hy
  have hxB : x < B.w := h.1.2 ▸ hx
  have eA : ThirdOf ((medianFilter 2 A).px y x) (A.px (before y) (before x)) (A.px (before y) x) (A.px y (before x)) (A.px y x) := by
    unfold medianFilter
    rw [Img.ofFn_px hy hx, filterWindow_two A hy hx]
    exact ofRank_two _ _ _ _
  have eB : ThirdOf ((medianFilter 2 B).px y x) (B.px (before y) (before x)) (B.px (before y) x) (B.px y (before x)) (B.px y x) := by
    unfold medianFilter
    rw [Img.ofFn_px hyB hxB, filterWindow_two B hyB hxB]
    exact ofRank_two _ _ _ _
  have by' : before y < A.h := by unfold before; omega
  have bx' : before x < A.w := by unfold before; omega
  have k1 := abs_le.1 (h.2 _ _ by' bx')
  have k2 := abs_le.1 (h.2 _ _ by' hx)
  have k3 := abs_le.1 (h.2 _ _ hy bx')
  have k4 := abs_le.1 (h.2 _ _ hy hx)
  rw [abs_le]
  constructor
  · have := eB.le_add (ε := ε) eA (by linarith [k1.1]) (by linarith [k2.1]) (by linarith [k3.1]) (by linarith [k4.1])
    linarith
  · have := eA.le_add (ε := ε) eB (by linarith [k1.2]) (by linarith [k2.2]) (by linarith [k3.2]) (by linarith [k4.2])
    linarith

theorem family_within {ε : ℝ} {A B : Img ℝ} (hA : EvenImg A) (h : PxWithin ε A B) {a b : Nat} (ha : a < 2) (hb : b < 2) :
    PxWithin ε (A.family a b) (B.family a b) := by
  refine ⟨⟨?_, ?_⟩, fun y x hy hx => ?_⟩
  · show A.h / 2 = B.h / 2
    rw [h.1.1]
  · show A.w / 2 = B.w / 2
    rw [h.1.2]
  · have hy' : y < A.h / 2 := hy
    have hx' : x < A.w / 2 := hx
    unfold Img.family
    rw [Img.ofFn_px hy' hx', Img.ofFn_px (h.1.1 ▸ hy') (h.1.2 ▸ hx')]
    exact h.2 _ _ (by omega) (by omega)

theorem PxWithin.zipSub {ε : ℝ} {A B A' B' : Img ℝ} (hA : PxWithin ε A A') (hB : PxWithin ε B B') (hs : A.SameShape B) :
    PxWithin (2 * ε) (Img.zipWith (· - ·) A B) (Img.zipWith (· - ·) A' B') := by
  refine ⟨⟨hA.1.1, hA.1.2⟩, fun y x hy hx => ?_⟩
  have hy' : y < A.h := hy
  have hx' : x < A.w := hx
  rw [Img.zipWith_px _ _ _ hy' hx', Img.zipWith_px _ _ _ (hA.1.1 ▸ hy') (hA.1.2 ▸ hx')]
  have k1 := abs_le.1 (hA.2 _ _ hy' hx')
  have k2 := abs_le.1 (hB.2 _ _ (hs.1 ▸ hy') (hs.2 ▸ hx'))
  rw [abs_le]
  constructor <;> linarith [k1.1, k1.2, k2.1, k2.2]

/-- Theoretical Stokes maps of pixels that differ by at most `ε` differ by at most `2 ε`. -/
theorem stokes_within {ε : ℝ} {s t : Fin 4 → Img ℝ} (L : Layout) (h : ∀ q, PxWithin ε (s q) (t q))
    (hs : ∀ p q, (s p).SameShape (s q)) (q : Fin 3) : PxWithin (2 * ε) (stokesClosed s L q) (stokesClosed t L q) := by
  fin_cases q
  · refine ⟨⟨(h 0).1.1, (h 0).1.2⟩, fun y x hy hx => ?_⟩
    have hy' : y < (s 0).h := hy
    have hx' : x < (s 0).w := hx
    have k : ∀ q, -ε ≤ (s q).px y x - (t q).px y x ∧ (s q).px y x - (t q).px y x ≤ ε := fun q =>
      abs_le.1 ((h q).2 _ _ ((hs 0 q).1 ▸ hy') ((hs 0 q).2 ▸ hx'))
    show |(Img.ofFn _ _ _).px y x - (Img.ofFn _ _ _).px y x| ≤ _
    rw [Img.ofFn_px hy' hx', Img.ofFn_px ((h 0).1.1 ▸ hy') ((h 0).1.2 ▸ hx'), abs_le]
    constructor <;> linarith [(k 0).1, (k 0).2, (k 1).1, (k 1).2, (k 2).1, (k 2).2, (k 3).1, (k 3).2]
  · exact (h L.p0).zipSub (h L.p90) (hs _ _)
  · exact (h L.p45).zipSub (h L.pm45) (hs _ _)

theorem dataStokes_within {ε : ℝ} {A B : Img ℝ} {dic : AngleDic} {S T : Fin 3 → Img ℝ} (h : PxWithin ε A B)
    (hS : dataStokes A dic = .ok S) (hT : dataStokes B dic = .ok T) (q : Fin 3) : PxWithin (2 * ε) (S q) (T q) := by
  obtain ⟨L, hL⟩ := dataStokes_layout hS
  obtain ⟨a1, a2⟩ := dataStokes_even hS
  obtain ⟨b1, b2⟩ := dataStokes_even hT
  unfold dataStokes at hS hT
  rw [split_ok a1 a2, Py.ok_bind, hL] at hS
  rw [split_ok b1 b2, Py.ok_bind, hL] at hT
  injection hS with hS
  injection hT with hT
  subst hS hT
  refine stokes_within L (fun q => ?_) (fun p q => ⟨rfl, rfl⟩) q
  have := family_within ⟨a1, a2⟩ h (a := q.val / 2) (b := q.val % 2) (by omega) (by omega)
  exact this

end Micropol

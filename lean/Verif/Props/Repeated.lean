import Verif.Spec.Repeated
import Verif.Props.StabilitySession
import Verif.Props.Nrgf
import Mathlib.Algebra.BigOperators.Intervals

/-!
# C129: corrections made more than once

What several darks, several flats, several field of view corrections and a second ring filter do.
-/

set_option autoImplicit false
set_option linter.unusedSectionVars false

namespace Micropol

open Finset

/-- After a call in place, names mean what they meant and other images have the pixels they had. -/
theorem placed_rest {ops : List Op} {o : Op} {i k : Nat} (hsrc : o.source = some i)
    (hk : (runOps ops).images[i]? = some k) (hn : Returns ops o k) :
    (∀ j l : Nat, (runOps ops).images[j]? = some l → (runOps (ops ++ [o])).images[j]? = some l) ∧
    ∀ l ∈ (runOps ops).images, l ≠ k → (runOps (ops ++ [o])).data l = (runOps ops).data l := by
  refine ⟨fun j l hl => ?_, fun l hl hne => ?_⟩
  · unfold Returns at hn
    rw [hn, List.getElem?_append_left (List.getElem?_eq_some_iff.1 hl).1]
    exact hl
  · rw [runOps_snoc]
    refine C40_data_kept ops o l hl ?_
    rintro ⟨-, j, hj, hjl⟩
    rw [hsrc] at hj
    injection hj with hj
    subst hj
    rw [hk] at hjl
    injection hjl with hjl
    exact hne hjl.symm

/-! ## Several darks -/

/-- C129: subtracting darks without negative pixels one after the other, in place, subtracts their sum: every call returns the
image, and every pixel ends as itself minus the sum of the pixels of the darks, or 0 when that is negative. -/
theorem C129_darks (ops : List Op) (i k : Nat) (hk : (runOps ops).images[i]? = some k) (ds : List (Nat × Nat))
    (hd : ∀ q ∈ ds, (runOps ops).images[q.1]? = some q.2 ∧ q.2 ≠ k ∧ ((runOps ops).data k).SameShape ((runOps ops).data q.2) ∧
      ∀ y x, 0 ≤ ((runOps ops).data q.2).px y x) :
    let A := (runOps ops).data k
    let C := (runOps (ops ++ darkCalls i ds)).data k
    (runOps (ops ++ darkCalls i ds)).images = (runOps ops).images ++ List.replicate ds.length k ∧ C.SameShape A ∧
      (ds = [] → C = A) ∧
      ∀ y x, ds ≠ [] → y < A.h → x < A.w →
        C.px y x = max (A.px y x - (ds.map fun q => ((runOps ops).data q.2).px y x).sum) 0 := by
  intro A C
  suffices h : (runOps (ops ++ darkCalls i ds)).images = (runOps ops).images ++ List.replicate ds.length k ∧ C.SameShape A ∧
      (∀ j l : Nat, (runOps ops).images[j]? = some l → (runOps (ops ++ darkCalls i ds)).images[j]? = some l) ∧
      (∀ l ∈ (runOps ops).images, l ≠ k → (runOps (ops ++ darkCalls i ds)).data l = (runOps ops).data l) ∧
      (ds = [] → C = A) ∧
      ∀ y x, ds ≠ [] → y < A.h → x < A.w →
        C.px y x = max (A.px y x - (ds.map fun q => ((runOps ops).data q.2).px y x).sum) 0 from
    ⟨h.1, h.2.1, h.2.2.2.2⟩
  induction ds using List.reverseRecOn with
  | nil =>
    have e : ops ++ darkCalls i [] = ops := List.append_nil ops
    show (runOps (ops ++ darkCalls i [])).images = _ ∧ ((runOps (ops ++ darkCalls i [])).data k).SameShape A ∧ _
    simp only [C, e]
    exact ⟨by simp, ⟨rfl, rfl⟩, fun _ _ h => h, fun _ _ _ => trivial, fun _ => rfl, fun _ _ h => absurd rfl h⟩
  | append_singleton ds q ih =>
    obtain ⟨h1, h2, h3, h4, h5, h6⟩ := ih fun p hp => hd p (List.mem_append_left _ hp)
    obtain ⟨q1, q2, q3, q4⟩ := hd q (List.mem_append_right _ (List.mem_singleton.2 rfl))
    set ops' := ops ++ darkCalls i ds with hops
    have e : ops ++ darkCalls i (ds ++ [q]) = ops' ++ [.subtractDark i q.1] := by
      rw [hops]
      unfold darkCalls
      rw [List.map_append, List.append_assoc]
      rfl
    have hk' := h3 i k hk
    have hl' := h3 q.1 q.2 q1
    have hdat := h4 q.2 (List.mem_of_getElem? q1) q2
    have hs : ((runOps ops').data k).SameShape ((runOps ops').data q.2) := by
      rw [hdat]
      exact ⟨h2.1.trans q3.1, h2.2.trans q3.2⟩
    obtain ⟨n, hn⟩ := (C77_same_shape_return ops' i q.1 k q.2 hk' hl').2.2 hs
    obtain ⟨rfl, -, c1, c2⟩ := C77_dark ops' i q.1 k q.2 n hk' hl' hn
    obtain ⟨r1, r2⟩ := placed_rest (o := .subtractDark i q.1) rfl hk' hn
    have hC : C = (runOps (ops' ++ [.subtractDark i q.1])).data n := by simp only [C, e]
    rw [e, hC]
    refine ⟨?_, ⟨c1.1.trans h2.1, c1.2.trans h2.2⟩, fun j l hj => r1 j l (h3 j l hj), fun l hl hne => ?_,
      fun h => absurd h (by simp), fun y x _ hy hx => ?_⟩
    · unfold Returns at hn
      rw [hn, h1, List.append_assoc, List.length_append, List.length_singleton, List.replicate_succ']
    · rw [r2 l (by rw [h1]; exact List.mem_append_left _ hl) hne, h4 l hl hne]
    · rw [c2 y x (by rw [h2.1]; exact hy) (by rw [h2.2]; exact hx), hdat, List.map_append, List.sum_append, List.map_singleton,
        List.sum_singleton]
      by_cases hds : ds = []
      · rw [h5 hds, hds]
        simp only [List.map_nil, List.sum_nil, zero_add]
      · rw [h6 y x hds hy hx]
        have := q4 y x
        rcases le_total (A.px y x - (ds.map fun q => ((runOps ops).data q.2).px y x).sum) 0 with h | h
        · rw [max_eq_right h, max_eq_right (by linarith), max_eq_right (by linarith)]
        · rw [max_eq_left h, sub_sub]

/-- C129: the order of darks without negative pixels does not matter. -/
theorem C129_dark_order (ops : List Op) (i k : Nat) (hk : (runOps ops).images[i]? = some k) (ds ds' : List (Nat × Nat))
    (hp : ds.Perm ds')
    (hd : ∀ q ∈ ds, (runOps ops).images[q.1]? = some q.2 ∧ q.2 ≠ k ∧ ((runOps ops).data k).SameShape ((runOps ops).data q.2) ∧
      ∀ y x, 0 ≤ ((runOps ops).data q.2).px y x) :
    (runOps (ops ++ darkCalls i ds')).data k = (runOps (ops ++ darkCalls i ds)).data k := by
  obtain ⟨-, a1, a2, a3⟩ := C129_darks ops i k hk ds hd
  obtain ⟨-, b1, b2, b3⟩ := C129_darks ops i k hk ds' fun q hq => hd q (hp.mem_iff.2 hq)
  by_cases h : ds = []
  · have h' : ds' = [] := by rw [h] at hp; exact List.nil_perm.1 hp
    rw [a2 h, b2 h']
  · have h' : ds' ≠ [] := fun h' => h (by rw [h'] at hp; exact List.perm_nil.1 hp)
    refine Img.ext_px (b1.1.trans a1.1.symm) (b1.2.trans a1.2.symm) ?_
    intro y x hy hx
    rw [b1.1] at hy
    rw [b1.2] at hx
    rw [a3 y x h hy hx, b3 y x h' hy hx, (hp.map _).sum_eq]

/-- C129: a dark subtracted `n` times has been subtracted `n` times: the flag that marks the image does not prevent it. -/
theorem C129_dark_again (ops : List Op) (i j k l n : Nat) (hk : (runOps ops).images[i]? = some k)
    (hl : (runOps ops).images[j]? = some l) (hne : l ≠ k) (hs : ((runOps ops).data k).SameShape ((runOps ops).data l))
    (h0 : ∀ y x, 0 ≤ ((runOps ops).data l).px y x) (y x : Nat) (hy : y < ((runOps ops).data k).h) (hx : x < ((runOps ops).data k).w)
    (hn : 1 ≤ n) :
    ((runOps (ops ++ List.replicate n (.subtractDark i j))).data k).px y x =
      max (((runOps ops).data k).px y x - n * ((runOps ops).data l).px y x) 0 := by
  have h := (C129_darks ops i k hk (List.replicate n (j, l)) fun q hq => by
    rw [List.eq_of_mem_replicate hq]
    exact ⟨hl, hne, hs, h0⟩).2.2.2 y x (by intro h; rw [List.replicate_eq_nil_iff] at h; omega) hy hx
  unfold darkCalls at h
  rw [List.map_replicate, List.map_replicate, List.sum_replicate, nsmul_eq_mul] at h
  exact h

/-! ## Several flats -/

/-- C129: correcting with several flats, one after the other, in place, multiplies by the product of their means and divides by
the product of their pixels, wherever none of them is 0. -/
theorem C129_flats (ops : List Op) (i k : Nat) (hk : (runOps ops).images[i]? = some k)
    (hh : ((runOps ops).data k).h ≠ 0) (hw : ((runOps ops).data k).w ≠ 0) (fs : List (Nat × Nat × (Nat → Nat → ℝ)))
    (hf : ∀ q ∈ fs, (runOps ops).images[q.1]? = some q.2.1 ∧ q.2.1 ≠ k ∧
      ((runOps ops).data k).SameShape ((runOps ops).data q.2.1) ∧ ((runOps ops).data q.2.1).mean ≠ 0) :
    let A := (runOps ops).data k
    let C := (runOps (ops ++ flatCalls i fs)).data k
    (runOps (ops ++ flatCalls i fs)).images = (runOps ops).images ++ List.replicate fs.length k ∧ C.SameShape A ∧
      ∀ y x, y < A.h → x < A.w → (∀ q ∈ fs, ((runOps ops).data q.2.1).px y x ≠ 0) →
        C.px y x = A.px y x * (fs.map fun q => ((runOps ops).data q.2.1).mean).prod /
          (fs.map fun q => ((runOps ops).data q.2.1).px y x).prod := by
  intro A C
  suffices h : (runOps (ops ++ flatCalls i fs)).images = (runOps ops).images ++ List.replicate fs.length k ∧ C.SameShape A ∧
      (∀ j l : Nat, (runOps ops).images[j]? = some l → (runOps (ops ++ flatCalls i fs)).images[j]? = some l) ∧
      (∀ l ∈ (runOps ops).images, l ≠ k → (runOps (ops ++ flatCalls i fs)).data l = (runOps ops).data l) ∧
      ∀ y x, y < A.h → x < A.w → (∀ q ∈ fs, ((runOps ops).data q.2.1).px y x ≠ 0) →
        C.px y x = A.px y x * (fs.map fun q => ((runOps ops).data q.2.1).mean).prod /
          (fs.map fun q => ((runOps ops).data q.2.1).px y x).prod from
    ⟨h.1, h.2.1, h.2.2.2.2⟩
  induction fs using List.reverseRecOn with
  | nil =>
    have e : ops ++ flatCalls i [] = ops := List.append_nil ops
    simp only [C, e]
    exact ⟨by simp, ⟨rfl, rfl⟩, fun _ _ h => h, fun _ _ _ => trivial, fun y x _ _ _ => by simp [A]⟩
  | append_singleton fs q ih =>
    obtain ⟨h1, h2, h3, h4, h6⟩ := ih fun p hp => hf p (List.mem_append_left _ hp)
    obtain ⟨q1, q2, q3, q4⟩ := hf q (List.mem_append_right _ (List.mem_singleton.2 rfl))
    set ops' := ops ++ flatCalls i fs with hops
    have e : ops ++ flatCalls i (fs ++ [q]) = ops' ++ [.correctFlat i q.1 q.2.2] := by
      rw [hops]
      unfold flatCalls
      rw [List.map_append, List.append_assoc]
      rfl
    have hk' := h3 i k hk
    have hl' := h3 q.1 q.2.1 q1
    have hdat := h4 q.2.1 (List.mem_of_getElem? q1) q2
    have hs : ((runOps ops').data k).SameShape ((runOps ops').data q.2.1) := by
      rw [hdat]
      exact ⟨h2.1.trans q3.1, h2.2.trans q3.2⟩
    obtain ⟨n, hn⟩ := (C77_corrections_return ops' i q.1 k q.2.1 hk' hl' hs).1 (by rw [h2.1]; exact hh) (by rw [h2.2]; exact hw)
      (by rw [hdat]; exact q4) q.2.2
    obtain ⟨rfl, -, c1, c2⟩ := C77_flat ops' i q.1 k q.2.1 n q.2.2 hk' hl' hn
    obtain ⟨r1, r2⟩ := placed_rest (o := .correctFlat i q.1 q.2.2) rfl hk' hn
    have hC : C = (runOps (ops' ++ [.correctFlat i q.1 q.2.2])).data n := by simp only [C, e]
    rw [e, hC]
    refine ⟨?_, ⟨c1.1.trans h2.1, c1.2.trans h2.2⟩, fun j l hj => r1 j l (h3 j l hj), fun l hl hne => ?_,
      fun y x hy hx hz => ?_⟩
    · unfold Returns at hn
      rw [hn, h1, List.append_assoc, List.length_append, List.length_singleton, List.replicate_succ']
    · rw [r2 l (by rw [h1]; exact List.mem_append_left _ hl) hne, h4 l hl hne]
    · have hq := hz q (List.mem_append_right _ (List.mem_singleton.2 rfl))
      rw [c2 y x (by rw [h2.1]; exact hy) (by rw [h2.2]; exact hx) (by rw [hdat]; exact q4) (by rw [hdat]; exact hq), hdat,
        h6 y x hy hx fun p hp => hz p (List.mem_append_left _ hp), List.map_append, List.prod_append, List.map_singleton,
        List.prod_singleton, List.map_append, List.prod_append, List.map_singleton, List.prod_singleton, div_mul_eq_mul_div,
        div_div, mul_assoc]

/-- C129: the order of flats does not matter where none of them is 0. -/
theorem C129_flat_order (ops : List Op) (i k : Nat) (hk : (runOps ops).images[i]? = some k)
    (hh : ((runOps ops).data k).h ≠ 0) (hw : ((runOps ops).data k).w ≠ 0) (fs fs' : List (Nat × Nat × (Nat → Nat → ℝ)))
    (hp : fs.Perm fs')
    (hf : ∀ q ∈ fs, (runOps ops).images[q.1]? = some q.2.1 ∧ q.2.1 ≠ k ∧
      ((runOps ops).data k).SameShape ((runOps ops).data q.2.1) ∧ ((runOps ops).data q.2.1).mean ≠ 0)
    (y x : Nat) (hy : y < ((runOps ops).data k).h) (hx : x < ((runOps ops).data k).w)
    (hz : ∀ q ∈ fs, ((runOps ops).data q.2.1).px y x ≠ 0) :
    ((runOps (ops ++ flatCalls i fs')).data k).px y x = ((runOps (ops ++ flatCalls i fs)).data k).px y x := by
  rw [(C129_flats ops i k hk hh hw fs hf).2.2 y x hy hx hz,
    (C129_flats ops i k hk hh hw fs' fun q hq => hf q (hp.mem_iff.2 hq)).2.2 y x hy hx fun q hq => hz q (hp.mem_iff.2 hq),
    (hp.map _).prod_eq, (hp.map (fun q => ((runOps ops).data q.2.1).px y x)).prod_eq]

/-! ## Several field of view corrections -/

theorem ifovWays_one (Y a : Nat) : ifovWays 1 (Y + 1) a = if a = 0 then 1 else if a = 1 then 1 else 0 := by
  unfold ifovWays
  rcases a with - | - | a
  · simp
  · rcases Y with - | Y <;> simp
  · rw [if_neg (show ¬ a + 1 + 1 = 0 by omega), if_neg (show ¬ a + 1 + 1 = 1 by omega)]
    split
    · exact Nat.choose_eq_zero_of_lt (by omega)
    · split
      · exact Nat.choose_eq_zero_of_lt (by omega)
      · rfl

theorem ifovWays_zero (n Y : Nat) : ifovWays n (Y + 1) 0 = 1 := by
  unfold ifovWays
  simp

theorem ifovWays_succ (n : Nat) (hn : 1 ≤ n) (Y a : Nat) (ha : a ≤ Y) :
    ifovWays (n + 1) (Y + 1) (a + 1) = ifovWays n (Y + 1) (a + 1) + ifovWays n Y a := by
  obtain ⟨m, rfl⟩ : ∃ m, n = m + 1 := ⟨n - 1, by omega⟩
  unfold ifovWays
  by_cases h : a < Y
  · rw [if_pos (by omega), if_pos (by omega), if_pos h, Nat.choose_succ_succ]
    exact Nat.add_comm _ _
  · have : a = Y := by omega
    subst this
    have h1 : ¬ a + 1 < a + 1 := by omega
    have h2 : a + 1 = a + 1 ∧ 1 ≤ a + 1 := ⟨rfl, by omega⟩
    rw [if_neg h1, if_neg h1, if_neg h, if_pos h2, if_pos h2]
    rcases a with - | a
    · simp
    · rw [if_pos ⟨rfl, by omega⟩]
      show (m + 1).choose (a + 1) = m.choose (a + 1) + m.choose a
      rw [Nat.choose_succ_succ]
      exact Nat.add_comm _ _

/-- The weighted sum along one direction. -/
noncomputable def ifovSum (n Y : Nat) (g : Nat → ℝ) : ℝ := ∑ a ∈ range (Y + 1), (ifovWays n Y a : ℝ) * g (Y - a)

theorem ifovSum_succ (n : Nat) (hn : 1 ≤ n) (Y : Nat) (g : Nat → ℝ) :
    ifovSum (n + 1) (Y + 1) g = ifovSum n (Y + 1) g + ifovSum n Y g := by
  unfold ifovSum
  rw [sum_range_succ' _ (Y + 1), sum_range_succ' _ (Y + 1), ifovWays_zero (n + 1), ifovWays_zero n]
  have : ∀ a ∈ range (Y + 1), (ifovWays (n + 1) (Y + 1) (a + 1) : ℝ) * g (Y + 1 - (a + 1)) =
      (ifovWays n (Y + 1) (a + 1) : ℝ) * g (Y + 1 - (a + 1)) + (ifovWays n Y a : ℝ) * g (Y - a) := by
    intro a ha
    rw [ifovWays_succ n hn Y a (by have := mem_range.1 ha; omega), show Y + 1 - (a + 1) = Y - a by omega]
    push_cast
    ring
  rw [sum_congr rfl this, sum_add_distrib]
  ring

theorem ifovSum_one (Y : Nat) (g : Nat → ℝ) : ifovSum 1 (Y + 1) g = g (Y + 1) + g Y := by
  unfold ifovSum
  rw [sum_range_succ', sum_range_succ']
  have : ∀ a ∈ range Y, (ifovWays 1 (Y + 1) (a + 1 + 1) : ℝ) * g (Y + 1 - (a + 1 + 1)) = 0 := by
    intro a _
    rw [ifovWays_one, if_neg (by omega), if_neg (by omega)]
    simp
  rw [sum_congr rfl this, sum_const_zero, ifovWays_one, ifovWays_one]
  simp
  ring

theorem ifovSum_row0 (n : Nat) (g : Nat → ℝ) : ifovSum n 0 g = 0 := by
  simp [ifovSum, ifovWays]

theorem ifovSum_add (n Y : Nat) (f g : Nat → ℝ) : ifovSum n Y (fun y => f y + g y) = ifovSum n Y f + ifovSum n Y g := by
  unfold ifovSum
  simp only [mul_add, sum_add_distrib]

theorem ifovSum_zero (n Y : Nat) : ifovSum n Y (fun _ => 0) = 0 := by
  unfold ifovSum
  simp

/-- C129: what `n ≥ 1` field of view corrections in place make of an image.  The superpixel in row `Y` and column `X` becomes the
mean over the `4^n` ways to go `n` times up, left, both or neither, where the ways that reach the first row or column before the last
step count 0; families are never mixed. -/
theorem C129_ifov (ops : List Op) (i k : Nat) (hk : (runOps ops).images[i]? = some k) (n : Nat) (hn : 1 ≤ n) :
    let A := (runOps ops).data k
    let C := (runOps (ops ++ List.replicate n (.correctIfov i))).data k
    (runOps (ops ++ List.replicate n (.correctIfov i))).images = (runOps ops).images ++ List.replicate n k ∧ C.SameShape A ∧
      ∀ Y X p q, p < 2 → q < 2 → 2 * Y + p < A.h → 2 * X + q < A.w →
        C.px (2 * Y + p) (2 * X + q) = (∑ a ∈ range (Y + 1), ∑ b ∈ range (X + 1),
          ((ifovWays n Y a * ifovWays n X b : Nat) : ℝ) * A.px (2 * (Y - a) + p) (2 * (X - b) + q)) / 4 ^ n := by
  intro A C
  have form : ∀ (n Y X p q : Nat), ∑ a ∈ range (Y + 1), ∑ b ∈ range (X + 1),
      ((ifovWays n Y a * ifovWays n X b : Nat) : ℝ) * A.px (2 * (Y - a) + p) (2 * (X - b) + q) =
      ifovSum n Y fun y => ifovSum n X fun x => A.px (2 * y + p) (2 * x + q) := by
    intro n Y X p q
    unfold ifovSum
    refine sum_congr rfl fun a _ => ?_
    rw [mul_sum]
    refine sum_congr rfl fun b _ => ?_
    push_cast
    ring
  simp only [form]
  induction n, hn using Nat.le_induction with
  | base =>
    obtain ⟨m, hm⟩ := (C77_always_return ops i k hk).2.2.1
    obtain ⟨rfl, c1, c2⟩ := C77_ifov ops i k m hk hm
    have hC : C = (runOps (ops ++ [.correctIfov i])).data m := rfl
    refine ⟨hm, hC ▸ c1, fun Y X p q hp hq hy hx => ?_⟩
    rw [hC]
    obtain ⟨z, s⟩ := c2 (2 * Y + p) (2 * X + q) hy hx
    rcases Y with - | Y
    · rw [ifovSum_row0, zero_div]
      exact z (by omega)
    · rcases X with - | X
      · simp only [ifovSum_row0]
        rw [ifovSum_zero, zero_div]
        exact z (by omega)
      · rw [ifovSum_one, ifovSum_one, ifovSum_one,
          s (by omega) (by omega), show 2 * (Y + 1) + p - 2 = 2 * Y + p by omega, show 2 * (X + 1) + q - 2 = 2 * X + q by omega]
        simp only [A]
        ring
  | succ n hn ih =>
    obtain ⟨h1, h2, h3⟩ := ih
    set ops' := ops ++ List.replicate n (.correctIfov i) with hops
    have e : ops ++ List.replicate (n + 1) (.correctIfov i) = ops' ++ [.correctIfov i] := by
      rw [hops, List.replicate_succ', List.append_assoc]
    have hk' : (runOps ops').images[i]? = some k := by
      rw [h1, List.getElem?_append_left (List.getElem?_eq_some_iff.1 hk).1]
      exact hk
    obtain ⟨m, hm⟩ := (C77_always_return ops' i k hk').2.2.1
    obtain ⟨rfl, c1, c2⟩ := C77_ifov ops' i k m hk' hm
    have hC : C = (runOps (ops' ++ [.correctIfov i])).data m := by simp only [C, e]
    rw [e, hC]
    refine ⟨?_, ⟨c1.1.trans h2.1, c1.2.trans h2.2⟩, fun Y X p q hp hq hy hx => ?_⟩
    · unfold Returns at hm
      rw [hm, h1, List.append_assoc, ← List.replicate_succ']
    · obtain ⟨z, s⟩ := c2 (2 * Y + p) (2 * X + q) (by rw [h2.1]; exact hy) (by rw [h2.2]; exact hx)
      rcases Y with - | Y
      · rw [ifovSum_row0, zero_div]
        exact z (by omega)
      · rcases X with - | X
        · simp only [ifovSum_row0]
          rw [ifovSum_zero, zero_div]
          exact z (by omega)
        · rw [s (by omega) (by omega), show 2 * (Y + 1) + p - 2 = 2 * Y + p by omega,
            show 2 * (X + 1) + q - 2 = 2 * X + q by omega, h3 (Y + 1) (X + 1) p q hp hq hy hx,
            h3 Y (X + 1) p q hp hq (by omega) hx, h3 (Y + 1) X p q hp hq hy (by omega), h3 Y X p q hp hq (by omega) (by omega),
            ifovSum_succ n hn Y]
          simp only [ifovSum_succ n hn X]
          rw [ifovSum_add, ifovSum_add, pow_succ]
          field_simp
          ring

/-! ## The ring filter twice -/

/-- The farthest pixel exists. -/
theorem greatest_distance_exists {h w : Nat} (hh : 0 < h) (hw : 0 < w) (c : ℝ × ℝ) : ∃ M, IsFarthest h w c M := by
  obtain ⟨q, hq, hmax⟩ := Finset.exists_max_image (range h ×ˢ range w)
    (fun q => ((q.1 : ℝ) - c.1) ^ 2 + ((q.2 : ℝ) - c.2) ^ 2) ⟨(0, 0), by simp [hh, hw]⟩
  simp only [Finset.mem_product, Finset.mem_range] at hq hmax
  have hs : Real.sqrt (((q.1 : ℝ) - c.1) ^ 2 + ((q.2 : ℝ) - c.2) ^ 2) ^ 2
      = ((q.1 : ℝ) - c.1) ^ 2 + ((q.2 : ℝ) - c.2) ^ 2 := Real.sq_sqrt (by positivity)
  refine ⟨_, ⟨q.1, q.2, hq.1, hq.2, Real.sqrt_nonneg _, hs⟩, ?_⟩
  intro y x hy hx
  rw [hs]
  exact hmax (y, x) ⟨hy, hx⟩

/-- C129: the ring filter applied to its own result, with the same arguments, changes nothing, provided the sector whose mean and
deviation are used lies in the sector that is filtered (by default both are the full circle). -/
theorem C129_nrgf_twice (A B : Img ℝ) (yc xc : ℝ) (rmin : Int) (step : Nat) (tm tout : ℝ × ℝ) (h1 : tout.1 ≤ tm.1)
    (h2 : tm.2 ≤ tout.2) (hB : nrgf A yc xc rmin step tm tout = .ok B) : nrgf B yc xc rmin step tm tout = .ok B := by
  by_cases he : A.h = 0 ∨ A.w = 0
  · rw [C63_empty A he] at hB
    cases hB
  push Not at he
  obtain ⟨M, hM⟩ := greatest_distance_exists (Nat.pos_of_ne_zero he.1) (Nat.pos_of_ne_zero he.2) ((pyInt yc : ℤ), (pyInt xc : ℤ))
  have hstep : 0 < step := by
    rcases Nat.eq_zero_or_pos step with h | h
    · exfalso
      unfold nrgf at hB
      dsimp only at hB
      rw [rhoMax_ok hM, Py.ok_bind, if_pos h] at hB
      cases hB
    · exact h
  obtain ⟨B', hB', a1, a2, a3, a4⟩ := nrgf_spec A yc xc rmin step hstep tm tout M hM
  rw [hB] at hB'
  injection hB' with hB'
  subst hB'
  obtain ⟨C, hC, b1, b2, b3, b4⟩ := nrgf_spec B yc xc rmin step hstep tm tout M (by rw [a1, a2]; exact hM)
  rw [hC]
  congr 1
  refine Img.ext_px b1 b2 ?_
  intro y x hy hx
  rw [b1] at hy
  rw [b2] at hx
  have hy' : y < A.h := a1 ▸ hy
  have hx' : x < A.w := a2 ▸ hx
  by_cases hr : ∃ k : Nat, rmin + k * step < pyInt M ∧ InRegion ((pyInt yc : ℤ), (pyInt xc : ℤ))
    (((rmin + k * step : Int) : ℝ), ((rmin + k * step : Int) : ℝ) + (step : ℝ)) tout y x
  · obtain ⟨k, hk, hr⟩ := hr
    rw [b3 k hk y x hy hx hr, a3 k hk y x hy' hx' hr, a1, a2]
    set S := regionPixels A.h A.w ((pyInt yc : ℤ), (pyInt xc : ℤ))
      (((rmin + k * step : Int) : ℝ), ((rmin + k * step : Int) : ℝ) + (step : ℝ)) tm with hS
    have hin : ∀ q ∈ S, B.px q.1 q.2 = ringValue S A.px (A.px q.1 q.2) := by
      intro q hq
      rw [hS] at hq
      unfold regionPixels at hq
      simp only [Finset.mem_filter, Finset.mem_product, Finset.mem_range] at hq
      refine a3 k hk q.1 q.2 hq.1.1 hq.1.2 ?_
      obtain ⟨ρ, φ, g1, g2, g3, g4, g5⟩ := hq.2
      exact ⟨ρ, φ, g1, g2, g3, le_trans h1 g4, lt_of_lt_of_le g5 h2⟩
    by_cases hS' : S.Nonempty
    · obtain ⟨μ, σ, hμ, hσ⟩ := isStd_exists hS' A.px
      rcases hσ.1.eq_or_lt with h0 | h0
      · have z : ∀ τ, IsStd S A.px τ → τ = 0 := fun τ hτ => by rw [isStd_unique hτ hσ, h0]
        have z' : ∀ q ∈ S, B.px q.1 q.2 = 0 * A.px q.1 q.2 + 0 := fun q hq => by
          rw [hin q hq, ringValue_zero z, zero_mul, add_zero]
        rw [ringValue_zero z, ringValue_zero]
        intro τ hτ
        rw [isStd_unique hτ (isStd_affine le_rfl z' hσ), zero_mul]
      · have z : ∀ q ∈ S, B.px q.1 q.2 = (1 / σ) * A.px q.1 q.2 + (-μ / σ) := fun q hq => by
          rw [hin q hq, ringValue_pos hμ hσ h0]
          ring
        have m' := isMean_affine z hμ
        have s' := isStd_affine (by positivity) z hσ
        rw [ringValue_pos hμ hσ h0, ringValue_pos m' s' (by rw [one_div, inv_mul_cancel₀ h0.ne']; exact one_pos)]
        field_simp
        ring
    · have z : ∀ f : Nat → Nat → ℝ, ∀ σ, IsStd S f σ → σ = 0 := fun f σ hσ => by
        obtain ⟨-, μ, hμ, -⟩ := hσ
        exact absurd hμ.1 hS'
      rw [ringValue_zero (z _), ringValue_zero (z _)]
  · push Not at hr
    rw [b4 y x hy hx hr, a4 y x hy' hx' hr]

/-! ## Examples and violations -/

/-- Three frames in one session. -/
theorem three_frames (m : Nat) (u v w : ℝ) : ∃ k l : Nat, k ≠ 0 ∧ l ≠ 0 ∧
    let ops := [frameCall m u, frameCall m v, frameCall m w]
    (runOps ops).images = [0, k, l] ∧ (runOps ops).data 0 = evenFrame m u ∧ (runOps ops).data k = evenFrame m v ∧
      (runOps ops).data l = evenFrame m w := by
  obtain ⟨r0, d0⟩ := frame_run [] rfl m u
  have e0 : (runOps [frameCall m u]).images = [0] := r0
  have d0' : (runOps [frameCall m u]).data 0 = evenFrame m u := d0
  obtain ⟨r1, d1⟩ := frame_run [frameCall m u] (by unfold frameCall; rfl) m v
  have v1 := (runOps_valid [frameCall m u]).2 0 (by rw [e0]; exact List.mem_singleton.2 rfl)
  generalize hz : (runOps [frameCall m u]).heap.objs.size = k at r1 d1 v1
  have e1 : (runOps [frameCall m u, frameCall m v]).images = [0, k] := by
    have : (runOps ([frameCall m u] ++ [frameCall m v])).images = _ := r1
    rw [e0] at this
    exact this
  have keep : ∀ (ops : List Op) (a : ℝ) (n : Nat), n ∈ (runOps ops).images →
      (runOps (ops ++ [frameCall m a])).data n = (runOps ops).data n := fun ops a n hn => by
    rw [runOps_snoc]
    exact C40_data_kept ops (frameCall m a) n hn fun h => absurd h.1 (by unfold frameCall; exact Bool.false_ne_true)
  obtain ⟨r2, d2⟩ := frame_run [frameCall m u, frameCall m v] (by unfold frameCall; rfl) m w
  have v2 := (runOps_valid [frameCall m u, frameCall m v]).2 k (by rw [e1]; simp)
  generalize hz2 : (runOps [frameCall m u, frameCall m v]).heap.objs.size = l at r2 d2 v2
  have k0 : k ≠ 0 := by omega
  refine ⟨k, l, k0, by omega, ?_, ?_, ?_, d2⟩
  · have : (runOps ([frameCall m u, frameCall m v] ++ [frameCall m w])).images = _ := r2
    rw [e1] at this
    exact this
  · have a := keep [frameCall m u, frameCall m v] w 0 (by rw [e1]; simp)
    have b := keep [frameCall m u] v 0 (by rw [e0]; simp)
    exact a.trans (b.trans d0')
  · have a := keep [frameCall m u, frameCall m v] w k (by rw [e1]; simp)
    exact a.trans d1

theorem evenFrame_px {m : Nat} {v : ℝ} {y x : Nat} (hy : y < 2 * m) (hx : x < 2 * m) : (evenFrame m v).px y x = v :=
  Img.ofFn_px hy hx

theorem evenFrame_nonneg {m : Nat} {v : ℝ} (hv : 0 ≤ v) (y x : Nat) : 0 ≤ (evenFrame m v).px y x := by
  by_cases h : y < 2 * m ∧ x < 2 * m
  · rw [evenFrame_px h.1 h.2]
    exact hv
  · exact ((evenFrame m v).out y x (by show ¬ (y < 2 * m ∧ x < 2 * m); exact h)).ge

/-- Ten counts minus darks of three and of four, and minus three times four. -/
example : ∃ ops : List Op, ∃ k l : Nat, (runOps ops).images[0]? = some 0 ∧
    ((runOps (ops ++ darkCalls 0 [(1, k), (2, l)])).data 0).px 0 0 = 3 ∧
    ((runOps (ops ++ List.replicate 3 (.subtractDark 0 2))).data 0).px 0 0 = 0 := by
  obtain ⟨k, l, hk, hl, hi, d0, d1, d2⟩ := three_frames 2 10 3 4
  refine ⟨_, k, l, by rw [hi]; rfl, ?_, ?_⟩
  · rw [(C129_darks _ 0 0 (by rw [hi]; rfl) [(1, k), (2, l)] ?_).2.2.2 0 0 (by simp) (by rw [d0]; show 0 < 2 * 2; decide)
      (by rw [d0]; show 0 < 2 * 2; decide)]
    · simp only [List.map_cons, List.map_nil, List.sum_cons, List.sum_nil, d0, d1, d2]
      rw [evenFrame_px (by decide) (by decide), evenFrame_px (by decide) (by decide), evenFrame_px (by decide) (by decide)]
      norm_num
    · intro q hq
      simp only [List.mem_cons, List.not_mem_nil, or_false] at hq
      rcases hq with rfl | rfl
      · refine ⟨by rw [hi]; rfl, hk, ?_, ?_⟩
        · rw [d0, d1]; exact ⟨rfl, rfl⟩
        · rw [d1]; exact evenFrame_nonneg (by norm_num)
      · refine ⟨by rw [hi]; rfl, hl, ?_, ?_⟩
        · rw [d0, d2]; exact ⟨rfl, rfl⟩
        · rw [d2]; exact evenFrame_nonneg (by norm_num)
  · rw [C129_dark_again _ 0 2 0 l 3 (by rw [hi]; rfl) (by rw [hi]; rfl) hl (by rw [d0, d2]; exact ⟨rfl, rfl⟩)
      (by rw [d2]; exact evenFrame_nonneg (by norm_num)) 0 0 (by rw [d0]; show 0 < 2 * 2; decide)
      (by rw [d0]; show 0 < 2 * 2; decide) (by decide), d0, d2, evenFrame_px (by decide) (by decide),
      evenFrame_px (by decide) (by decide)]
    norm_num

/-- The hypotheses on flats are met by uniform frames of three and of four counts. -/
example : ∃ ops : List Op, ∃ k l : Nat, (runOps ops).images[0]? = some 0 ∧
    ((runOps (ops ++ flatCalls 0 [(1, k, fun _ _ => 0), (2, l, fun _ _ => 7)])).data 0).px 0 0 = 10 := by
  obtain ⟨k, l, hk, hl, hi, d0, d1, d2⟩ := three_frames 2 10 3 4
  have mean : ∀ v : ℝ, (evenFrame 2 v).mean = v := fun v => by
    unfold Img.mean Img.total Img.totalOn evenFrame
    simp only [Img.const, Img.ofFn_h, Img.ofFn_w, Nat.reduceMul, sum_range_succ, range_zero, sum_empty, Img.ofFn_px']
    norm_num
    ring
  refine ⟨_, k, l, by rw [hi]; rfl, ?_⟩
  rw [(C129_flats _ 0 0 (by rw [hi]; rfl) (by rw [d0]; show 2 * 2 ≠ 0; decide) (by rw [d0]; show 2 * 2 ≠ 0; decide)
    [(1, k, fun _ _ => 0), (2, l, fun _ _ => 7)] ?_).2.2 0 0 (by rw [d0]; show 0 < 2 * 2; decide)
      (by rw [d0]; show 0 < 2 * 2; decide) ?_]
  · simp only [List.map_cons, List.map_nil, List.prod_cons, List.prod_nil, d0, d1, d2, mean]
    rw [evenFrame_px (by decide) (by decide), evenFrame_px (by decide) (by decide), evenFrame_px (by decide) (by decide)]
    norm_num
  · intro q hq
    simp only [List.mem_cons, List.not_mem_nil, or_false] at hq
    rcases hq with rfl | rfl
    · exact ⟨by rw [hi]; rfl, hk, by rw [d0, d1]; exact ⟨rfl, rfl⟩, by rw [d1, mean]; norm_num⟩
    · exact ⟨by rw [hi]; rfl, hl, by rw [d0, d2]; exact ⟨rfl, rfl⟩, by rw [d2, mean]; norm_num⟩
  · intro q hq
    simp only [List.mem_cons, List.not_mem_nil, or_false] at hq
    rcases hq with rfl | rfl
    · rw [d1, evenFrame_px (by decide) (by decide)]; norm_num
    · rw [d2, evenFrame_px (by decide) (by decide)]; norm_num

/-- C129: with negative darks the order matters (a frame of 0 counts, darks of 1 and of -1). -/
theorem C129_negative_dark : ∃ (ops : List Op) (k l : Nat), (runOps ops).images = [0, k, l] ∧ k ≠ 0 ∧ l ≠ 0 ∧
    (runOps (ops ++ darkCalls 0 [(1, k), (2, l)])).data 0 ≠ (runOps (ops ++ darkCalls 0 [(2, l), (1, k)])).data 0 := by
  obtain ⟨k, l, hk, hl, hi, d0, d1, d2⟩ := three_frames 2 0 1 (-1)
  refine ⟨_, k, l, hi, hk, hl, ?_⟩
  set ops := [frameCall 2 0, frameCall 2 1, frameCall 2 (-1)] with hops
  have two : ∀ (j j' a b : Nat) (u v : ℝ), (runOps ops).images[j]? = some a → (runOps ops).images[j']? = some b → a ≠ 0 → b ≠ 0 →
      (runOps ops).data a = evenFrame 2 u → (runOps ops).data b = evenFrame 2 v →
      ((runOps (ops ++ [.subtractDark 0 j, .subtractDark 0 j'])).data 0).px 0 0 = max (max (0 - u) 0 - v) 0 := by
    intro j j' a b u v ha hb a0 b0 da db
    have h0 : (runOps ops).images[0]? = some 0 := by rw [hi]; rfl
    obtain ⟨n, hn⟩ := (C77_same_shape_return ops 0 j 0 a h0 ha).2.2 (by rw [d0, da]; exact ⟨rfl, rfl⟩)
    obtain ⟨rfl, -, c1, c2⟩ := C77_dark ops 0 j 0 a n h0 ha hn
    obtain ⟨r1, r2⟩ := placed_rest (o := .subtractDark 0 j) rfl h0 hn
    have db' := (r2 b (List.mem_of_getElem? hb) b0).trans db
    obtain ⟨n', hn'⟩ := (C77_same_shape_return (ops ++ [.subtractDark 0 j]) 0 j' 0 b (r1 _ _ h0) (r1 _ _ hb)).2.2 (by
      rw [db']
      exact ⟨c1.1.trans (by rw [d0]; rfl), c1.2.trans (by rw [d0]; rfl)⟩)
    obtain ⟨rfl, -, e1, e2⟩ := C77_dark (ops ++ [.subtractDark 0 j]) 0 j' 0 b n' (r1 _ _ h0) (r1 _ _ hb) hn'
    rw [show ops ++ [Op.subtractDark 0 j, .subtractDark 0 j'] = ops ++ [Op.subtractDark 0 j] ++ [Op.subtractDark 0 j'] by simp,
      e2 0 0 (by rw [c1.1, d0]; show 0 < 2 * 2; decide) (by rw [c1.2, d0]; show 0 < 2 * 2; decide), db',
      c2 0 0 (by rw [d0]; show 0 < 2 * 2; decide) (by rw [d0]; show 0 < 2 * 2; decide), d0, da,
      evenFrame_px (by decide) (by decide), evenFrame_px (by decide) (by decide), evenFrame_px (by decide) (by decide)]
  intro h
  have h' := congrArg (fun A => A.px 0 0) h
  have a := two 1 2 k l 1 (-1) (by rw [hi]; rfl) (by rw [hi]; rfl) hk hl d1 d2
  have b := two 2 1 l k (-1) 1 (by rw [hi]; rfl) (by rw [hi]; rfl) hl hk d2 d1
  simp only [darkCalls, List.map_cons, List.map_nil] at h'
  rw [a, b] at h'
  norm_num at h'

/-- C129: a second field of view correction is not harmless: in a uniform frame of 1 count it leaves a quarter of a count in the
superpixel next to the border, where one correction leaves 1. -/
theorem C129_ifov_again : ∃ ops : List Op, (runOps ops).images = [0] ∧
    ((runOps (ops ++ [.correctIfov 0])).data 0).px 2 2 = 1 ∧
    ((runOps (ops ++ [.correctIfov 0, .correctIfov 0])).data 0).px 2 2 = 1 / 4 := by
  obtain ⟨r0, d0⟩ := frame_run [] rfl 2 1
  have e0 : (runOps [frameCall 2 1]).images = [0] := r0
  have d0' : (runOps [frameCall 2 1]).data 0 = evenFrame 2 1 := d0
  have px : ∀ y x, y < 4 → x < 4 → ((runOps [frameCall 2 1]).data 0).px y x = 1 := fun y x hy hx => by
    rw [d0']
    exact evenFrame_px hy hx
  have h1 := (C129_ifov [frameCall 2 1] 0 0 (by rw [e0]; rfl) 1 (by decide)).2.2 1 1 0 0 (by decide) (by decide)
    (by rw [d0']; show 2 * 1 + 0 < 2 * 2; decide) (by rw [d0']; show 2 * 1 + 0 < 2 * 2; decide)
  have h2 := (C129_ifov [frameCall 2 1] 0 0 (by rw [e0]; rfl) 2 (by decide)).2.2 1 1 0 0 (by decide) (by decide)
    (by rw [d0']; show 2 * 1 + 0 < 2 * 2; decide) (by rw [d0']; show 2 * 1 + 0 < 2 * 2; decide)
  refine ⟨_, e0, ?_, ?_⟩
  · refine h1.trans ?_
    simp only [sum_range_succ, range_zero, sum_empty]
    rw [px _ _ (by decide) (by decide), px _ _ (by decide) (by decide), px _ _ (by decide) (by decide),
      px _ _ (by decide) (by decide)]
    norm_num [ifovWays]
  · refine h2.trans ?_
    simp only [sum_range_succ, range_zero, sum_empty]
    rw [px _ _ (by decide) (by decide), px _ _ (by decide) (by decide), px _ _ (by decide) (by decide),
      px _ _ (by decide) (by decide)]
    norm_num [ifovWays]

/-- Every image that is not empty has a filtered image, which the filter then leaves alone. -/
example (A : Img ℝ) (hh : 0 < A.h) (hw : 0 < A.w) : ∃ B, nrgf A 3 4 1 2 (10, 90) (0, 360) = .ok B ∧
    nrgf B 3 4 1 2 (10, 90) (0, 360) = .ok B := by
  obtain ⟨M, hM⟩ := greatest_distance_exists hh hw ((pyInt 3 : ℤ), (pyInt 4 : ℤ))
  obtain ⟨B, hB, -⟩ := nrgf_spec A 3 4 1 2 (by decide) (10, 90) (0, 360) M hM
  exact ⟨B, hB, C129_nrgf_twice A B 3 4 1 2 _ _ (by norm_num) (by norm_num) hB⟩

end Micropol

import Verif.Lemmas.MedianFilter
import Verif.Props.ObjectPixels
import Verif.Props.OtherUnits
import Mathlib.Data.List.GetD

/-!
# C111: hot pixel cleaning with the filter of the code

`clean_hot_pixels` with the median filter that the code calls, at any point of a session.
-/

set_option autoImplicit false

namespace Micropol

open Classical

theorem medianFilter_shape (size : Nat) (A : Img ℝ) : (medianFilter size A).SameShape A := ⟨rfl, rfl⟩

theorem medianFilter_family (A : Img ℝ) (hA : EvenImg A) {y x : Nat} (hy : y < A.h) (hx : x < A.w) :
    ThirdOf ((medianFilter 2 (A.family (y % 2) (x % 2))).px (y / 2) (x / 2)) (A.px (prevSame y) (prevSame x)) (A.px (prevSame y) x)
      (A.px y (prevSame x)) (A.px y x) := by
  obtain ⟨hh, hw⟩ := hA
  have hy' : y / 2 < (A.family (y % 2) (x % 2)).h := show y / 2 < A.h / 2 by omega
  have hx' : x / 2 < (A.family (y % 2) (x % 2)).w := show x / 2 < A.w / 2 by omega
  unfold medianFilter
  rw [Img.ofFn_px hy' hx', filterWindow_two _ hy' hx']
  have e : ∀ a b, a < A.h / 2 → b < A.w / 2 → (A.family (y % 2) (x % 2)).px a b = A.px (2 * a + y % 2) (2 * b + x % 2) :=
    fun a b ha hb => Img.ofFn_px ha hb
  have ey : 2 * before (y / 2) + y % 2 = prevSame y := by unfold before prevSame; split <;> omega
  have ex : 2 * before (x / 2) + x % 2 = prevSame x := by unfold before prevSame; split <;> omega
  have by' : before (y / 2) < A.h / 2 := by unfold before; omega
  have bx' : before (x / 2) < A.w / 2 := by unfold before; omega
  rw [e _ _ by' bx', e _ _ by' hx', e _ _ hy' bx', e _ _ hy' hx', ey, ex, show 2 * (y / 2) + y % 2 = y by omega,
    show 2 * (x / 2) + x % 2 = x by omega]
  exact ofRank_two _ _ _ _

/-- C111: a flagged pixel becomes the third smallest of four pixels of its own polarizer: itself and those of the superpixels above, to
the left, and above to the left (in the first row or column of superpixels the pixel itself stands for the missing ones).  Other pixels
stay. -/
theorem C111_filter (ops : List Op) (i j k l n : Nat) (hk : (runOps ops).images[i]? = some k)
    (hl : (runOps ops).images[j]? = some l) (hs : ((runOps ops).data k).SameShape ((runOps ops).data l))
    (hn : Returns ops (.cleanHotPixels i j (medianFilter 2)) n) :
    let A := (runOps ops).data k
    let F := (runOps ops).data l
    let C := (runOps (ops ++ [.cleanHotPixels i j (medianFilter 2)])).data n
    C.SameShape A ∧ ∀ y x, y < A.h → x < A.w → (F.px y x ≠ 1 → C.px y x = A.px y x) ∧
      (F.px y x = 1 → ThirdOf (C.px y x) (A.px (prevSame y) (prevSame x)) (A.px (prevSame y) x) (A.px y (prevSame x)) (A.px y x)) := by
  intro A F C
  obtain ⟨h1, h2⟩ := C77_hot_pixels ops i j k l n (medianFilter 2) (medianFilter_shape 2) hk hl hs hn
  refine ⟨h1, fun y x hy hx => ?_⟩
  have := h2 y x hy hx
  constructor
  · intro h
    rw [if_neg h] at this
    exact this
  · intro h
    rw [if_pos h] at this
    show ThirdOf ((runOps (ops ++ [.cleanHotPixels i j (medianFilter 2)])).data n |>.px y x) _ _ _ _
    rw [this]
    exact medianFilter_family A (even_named hk) hy hx

/-- C111: away from the first row and column of superpixels, a flagged pixel that is at least as bright as the three others of the
window becomes the brightest of these three.  (Partial: see `C111_first_row`, `C111_full_claim_false`.) -/
theorem C111_isolated_partial (ops : List Op) (i j k l n : Nat) (hk : (runOps ops).images[i]? = some k)
    (hl : (runOps ops).images[j]? = some l) (hs : ((runOps ops).data k).SameShape ((runOps ops).data l))
    (hn : Returns ops (.cleanHotPixels i j (medianFilter 2)) n) :
    let A := (runOps ops).data k
    let F := (runOps ops).data l
    let C := (runOps (ops ++ [.cleanHotPixels i j (medianFilter 2)])).data n
    ∀ y x, 2 ≤ y → 2 ≤ x → y < A.h → x < A.w → F.px y x = 1 →
      A.px (y - 2) (x - 2) ≤ A.px y x → A.px (y - 2) x ≤ A.px y x → A.px y (x - 2) ≤ A.px y x →
      C.px y x = max (A.px (y - 2) (x - 2)) (max (A.px (y - 2) x) (A.px y (x - 2))) := by
  intro A F C y x h2y h2x hy hx hf ha hb hc
  have := ((C111_filter ops i j k l n hk hl hs hn).2 y x hy hx).2 hf
  rw [show prevSame y = y - 2 from if_pos h2y, show prevSame x = x - 2 from if_pos h2x] at this
  exact this.largest_last ha hb hc

/-- C111: the cleaned pixel is one of the four, so cleaning never goes outside the range of the image. -/
theorem C111_range (ops : List Op) (i j k l n : Nat) (hk : (runOps ops).images[i]? = some k)
    (hl : (runOps ops).images[j]? = some l) (hs : ((runOps ops).data k).SameShape ((runOps ops).data l))
    (hn : Returns ops (.cleanHotPixels i j (medianFilter 2)) n) (lo hi : ℝ)
    (hr : ∀ y x, y < ((runOps ops).data k).h → x < ((runOps ops).data k).w →
      lo ≤ ((runOps ops).data k).px y x ∧ ((runOps ops).data k).px y x ≤ hi) :
    let C := (runOps (ops ++ [.cleanHotPixels i j (medianFilter 2)])).data n
    ∀ y x, y < C.h → x < C.w → lo ≤ C.px y x ∧ C.px y x ≤ hi := by
  intro C y x hy hx
  obtain ⟨⟨hh, hw⟩, h⟩ := C111_filter ops i j k l n hk hl hs hn
  have hy' : y < ((runOps ops).data k).h := hh ▸ hy
  have hx' : x < ((runOps ops).data k).w := hw ▸ hx
  obtain ⟨h0, h1⟩ := h y x hy' hx'
  have py : prevSame y < ((runOps ops).data k).h := by unfold prevSame; split <;> omega
  have px : prevSame x < ((runOps ops).data k).w := by unfold prevSame; split <;> omega
  by_cases hf : ((runOps ops).data l).px y x = 1
  · show lo ≤ ((runOps (ops ++ [.cleanHotPixels i j (medianFilter 2)])).data n).px y x ∧
      ((runOps (ops ++ [.cleanHotPixels i j (medianFilter 2)])).data n).px y x ≤ hi
    rcases (h1 hf).mem with e | e | e | e <;> rw [e]
    · exact hr _ _ py px
    · exact hr _ _ py hx'
    · exact hr _ _ hy' px
    · exact hr _ _ hy' hx'
  · show lo ≤ ((runOps (ops ++ [.cleanHotPixels i j (medianFilter 2)])).data n).px y x ∧
      ((runOps (ops ++ [.cleanHotPixels i j (medianFilter 2)])).data n).px y x ≤ hi
    rw [h0 hf]
    exact hr _ _ hy' hx'

/-- C111, violation 1: in the first row or column of superpixels a flagged pixel becomes the brighter one of itself and its neighbour.
So it never gets darker: hot pixels stay there. -/
theorem C111_first_row (ops : List Op) (i j k l n : Nat) (hk : (runOps ops).images[i]? = some k)
    (hl : (runOps ops).images[j]? = some l) (hs : ((runOps ops).data k).SameShape ((runOps ops).data l))
    (hn : Returns ops (.cleanHotPixels i j (medianFilter 2)) n) :
    let A := (runOps ops).data k
    let F := (runOps ops).data l
    let C := (runOps (ops ++ [.cleanHotPixels i j (medianFilter 2)])).data n
    ∀ y x, y < A.h → x < A.w → F.px y x = 1 →
      (y < 2 → C.px y x = max (A.px y (prevSame x)) (A.px y x)) ∧ (x < 2 → C.px y x = max (A.px (prevSame y) x) (A.px y x)) := by
  intro A F C y x hy hx hf
  have h := ((C111_filter ops i j k l n hk hl hs hn).2 y x hy hx).2 hf
  constructor
  · intro h2
    rw [show prevSame y = y from if_neg (by omega)] at h
    exact h.pairs (Or.inl ⟨rfl, rfl⟩)
  · intro h2
    rw [show prevSame x = x from if_neg (by omega)] at h
    exact h.pairs (Or.inr ⟨rfl, rfl⟩)

/-- C111, violation 2: two hot pixels of a polarizer in neighbouring superpixels: the one after the other stays as bright as the
less bright one. -/
theorem C111_neighbours (ops : List Op) (i j k l n : Nat) (hk : (runOps ops).images[i]? = some k)
    (hl : (runOps ops).images[j]? = some l) (hs : ((runOps ops).data k).SameShape ((runOps ops).data l))
    (hn : Returns ops (.cleanHotPixels i j (medianFilter 2)) n) (hot : ℝ) :
    let A := (runOps ops).data k
    let F := (runOps ops).data l
    let C := (runOps (ops ++ [.cleanHotPixels i j (medianFilter 2)])).data n
    ∀ y x, 2 ≤ y → 2 ≤ x → y < A.h → x < A.w → F.px y x = 1 → hot ≤ A.px y x →
      (hot ≤ A.px (y - 2) (x - 2) ∨ hot ≤ A.px (y - 2) x ∨ hot ≤ A.px y (x - 2)) → hot ≤ C.px y x := by
  intro A F C y x h2y h2x hy hx hf hd ho
  have := ((C111_filter ops i j k l n hk hl hs hn).2 y x hy hx).2 hf
  rw [show prevSame y = y - 2 from if_pos h2y, show prevSame x = x - 2 from if_pos h2x] at this
  exact this.two_large hd ho

/-- 4 by 4 pixels, one of them hot; used as its own map of hot pixels. -/
noncomputable def oneHot (Y X : Nat) : Img ℝ := Img.ofFn 4 4 fun y x => if y = Y ∧ x = X then 1 else 0

theorem oneHot_run (Y X : Nat) : ∃ n, Returns [.fromArray (oneHot Y X) none none none fun _ _ => 0] (.cleanHotPixels 0 0 (medianFilter 2)) n ∧
    (runOps [.fromArray (oneHot Y X) none none none fun _ _ => 0]).images[0]? = some 0 ∧
    (runOps [.fromArray (oneHot Y X) none none none fun _ _ => 0]).data 0 = oneHot Y X := by
  obtain ⟨-, S, -, hS, -⟩ := dataStokes_ok (d := oneHot Y X) (show 4 % 2 = 0 from rfl) (show 4 % 2 = 0 from rfl) C02_polarCam.1
  have hrun : runOps [.fromArray (oneHot Y X) none none none fun _ _ => 0] = ⟨arrayHeap (oneHot Y X) S none initState.heap, [0]⟩ :=
    (runOps_snoc [] _).trans (step_fromArray (s := initState) _ none (fun _ _ => 0) hS)
  have hi : (runOps [.fromArray (oneHot Y X) none none none fun _ _ => 0]).images[0]? = some 0 := by rw [hrun]; rfl
  obtain ⟨n, hn⟩ := (C77_corrections_return [.fromArray (oneHot Y X) none none none fun _ _ => 0]
    0 0 0 0 hi hi ⟨rfl, rfl⟩).2 (medianFilter 2) (medianFilter_shape 2)
  refine ⟨n, hn, hi, ?_⟩
  rw [hrun]
  exact congrArg ImgView.data (arrayHeap_view (oneHot Y X) S none initState.heap)

/-- C111, violation: a hot pixel of the first row, brighter than all others and flagged as the only one, is not cleaned. -/
theorem C111_full_claim_false : ∃ (ops : List Op) (i k n y x : Nat), (runOps ops).images[i]? = some k ∧
    Returns ops (.cleanHotPixels i i (medianFilter 2)) n ∧
    let A := (runOps ops).data k
    let C := (runOps (ops ++ [.cleanHotPixels i i (medianFilter 2)])).data n
    y < A.h ∧ x < A.w ∧ A.px y x = 1 ∧ (∀ y' x', (y', x') ≠ (y, x) → A.px y' x' = 0) ∧ C.px y x = 1 := by
  obtain ⟨n, hn, hi, hd⟩ := oneHot_run 0 2
  refine ⟨_, 0, 0, n, 0, 2, hi, hn, ?_⟩
  have h := (C111_first_row _ 0 0 0 0 n hi hi ⟨rfl, rfl⟩ hn 0 2)
  rw [hd] at h ⊢
  have h02 : (oneHot 0 2).px 0 2 = 1 := by
    unfold oneHot
    rw [Img.ofFn_px (by decide) (by decide)]
    simp
  have h00 : (oneHot 0 2).px 0 0 = 0 := by
    unfold oneHot
    rw [Img.ofFn_px (by decide) (by decide)]
    simp
  refine ⟨by decide, by decide, h02, ?_, ?_⟩
  · intro y' x' hne
    by_cases hin : y' < 4 ∧ x' < 4
    · unfold oneHot
      rw [Img.ofFn_px hin.1 hin.2, if_neg]
      rintro ⟨rfl, rfl⟩
      exact hne rfl
    · exact (oneHot 0 2).out y' x' hin
  · have := (h (by decide) (by decide) h02).1 (by decide)
    rw [show prevSame 2 = 0 from rfl, h00, h02] at this
    rw [this]
    norm_num

/-- The hypotheses of C111 hold where cleaning works: the hot pixel 3, 2 becomes 0. -/
example : ∃ n, Returns [.fromArray (oneHot 3 2) none none none fun _ _ => 0] (.cleanHotPixels 0 0 (medianFilter 2)) n ∧
    ((runOps ([.fromArray (oneHot 3 2) none none none fun _ _ => 0] ++ [.cleanHotPixels 0 0 (medianFilter 2)])).data n).px 3 2 = 0 := by
  obtain ⟨n, hn, hi, hd⟩ := oneHot_run 3 2
  refine ⟨n, hn, ?_⟩
  have h := C111_isolated_partial _ 0 0 0 0 n hi hi ⟨rfl, rfl⟩ hn 3 2 (by decide) (by decide)
  rw [hd] at h
  have e : ∀ y x, y < 4 → x < 4 → (oneHot 3 2).px y x = if y = 3 ∧ x = 2 then 1 else 0 := fun y x hy hx => Img.ofFn_px hy hx
  rw [e 3 2 (by decide) (by decide), e 1 0 (by decide) (by decide), e 1 2 (by decide) (by decide), e 3 0 (by decide) (by decide)] at h
  norm_num at h
  exact h (by decide) (by decide)

/-- C111, C110: the filter commutes with a change of unit, so that hot pixel cleaning is among the calls of C110. -/
theorem C111_units {c : ℝ} (hc : 0 < c) (size : Nat) (A : Img ℝ) : medianFilter size (inUnit c A) = inUnit c (medianFilter size A) := by
  refine Img.ext_px rfl rfl fun y x hy hx => ?_
  have hy' : y < A.h := hy
  have hx' : x < A.w := hx
  rw [inUnit_px]
  unfold medianFilter
  rw [Img.ofFn_px (show y < (inUnit c A).h from hy) (show x < (inUnit c A).w from hx), Img.ofFn_px hy' hx']
  have hw : filterWindow size (inUnit c A) y x = (filterWindow size A y x).map (c * ·) := by
    unfold filterWindow
    rw [List.map_flatMap]
    simp only [List.map_map]
    congr 1
    funext a
    congr 1
    funext b
    exact inUnit_px c A _ _
  rw [hw]
  unfold ofRank
  rw [← List.map_insertionSort (r := fun a b : ℝ => a ≤ b) (s := fun a b : ℝ => a ≤ b) (c * ·)]
  · have := List.getD_map (f := fun v : ℝ => c * v) (l := List.insertionSort (fun a b : ℝ => a ≤ b) (filterWindow size A y x))
      (n := size * size / 2) (d := 0)
    rw [mul_zero] at this
    exact this
  · intro a _ b _
    exact (mul_le_mul_iff_right₀ hc).symm

end Micropol

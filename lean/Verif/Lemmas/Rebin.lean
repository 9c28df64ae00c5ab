import Verif.Model.Rebin
import Verif.Basic.Tile
import Verif.Lemmas.Split
import Mathlib.Algebra.BigOperators.Group.Finset.Basic
import Mathlib.Algebra.Order.Group.Unbundled.Int
import Mathlib.Algebra.BigOperators.Intervals
import Mathlib.Tactic.Linarith

/-! Closed forms for trimming and rebinning. -/

set_option autoImplicit false

namespace Micropol

open Finset

theorem trimLoop_fuel (m d : Int) (hm : 0 < m) (hd : 0 < d) :
    ∀ (k : Nat) (n : Int), n % m = k * d →
      ∃ f, whileFuel (fun k => decide (k % m ≠ 0)) (fun k => k - d) f n = .ok (n - n % m) := by
  intro k
  induction k with
  | zero =>
    intro n hn
    have h0 : n % m = 0 := by simpa using hn
    refine ⟨0, ?_⟩
    rw [h0, Int.sub_zero]
    exact whileFuel_done (by simp [h0]) 0
  | succ k ih =>
    intro n hn
    have hlt := Int.emod_lt_of_pos n hm
    have hkd : (0 : Int) ≤ k * d := Int.mul_nonneg (Int.natCast_nonneg k) (le_of_lt hd)
    have hn' : n % m = k * d + d := by rw [hn]; push_cast; ring
    have e : (n - d) % m = k * d := by
      have h1 : (n - d) % m = (n % m - d) % m := by
        rw [Int.sub_emod n d m, Int.sub_emod (n % m) d m, Int.emod_emod]
      rw [h1, hn', Int.add_sub_cancel]
      exact Int.emod_eq_of_lt hkd (by omega)
    obtain ⟨f, hf⟩ := ih (n - d) e
    have e2 : n - d - (n - d) % m = n - n % m := by rw [e, hn']; ring
    rw [e2] at hf
    exact whileLoop_step (by simp only [decide_eq_true_eq]; omega) ⟨f, hf⟩

theorem trimLoop_ok {n m d : Int} (hm : 0 < m) (hd : 0 < d) (h1 : d ∣ n) (h2 : d ∣ m) :
    trimLoop n m d = .ok (n - n % m) := by
  unfold trimLoop
  rw [if_neg (by omega)]
  have hdm : d ∣ n % m := by rw [Int.emod_def]; exact Int.dvd_sub h1 (h2.mul_right _)
  obtain ⟨q, hq⟩ := hdm
  have hnn := Int.emod_nonneg n (ne_of_gt hm)
  have hq0 : 0 ≤ q := by
    by_contra hc
    have : d * q < 0 := mul_neg_of_pos_of_neg hd (by omega)
    omega
  obtain ⟨f, hf⟩ := trimLoop_fuel m d hm hd q.toNat n (by rw [hq, Int.toNat_of_nonneg hq0]; ring)
  exact whileLoop_eq_ok hf

theorem trimLoop_hang {n m : Int} (hm : m ≠ 0) (h2 : 2 ∣ m) (h1 : n % 2 = 1) :
    trimLoop n m 2 = .error .hang := by
  unfold trimLoop
  rw [if_neg hm]
  refine whileLoop_eq_hang (fun k => k % 2 = 1) h1 ?_ ?_
  · intro t ht
    simp only [decide_eq_true_eq]
    intro h0
    have := Int.emod_emod_of_dvd t h2
    rw [h0] at this
    simp at this
    omega
  · intro t ht
    show (t - 2) % 2 = 1
    omega

section
variable {K : Type} [AddCommMonoid K]

/-- Sum of the `b × b` block of `d` with corner `(y0, x0)` and stride `s`. -/
def blockSum (d : Img K) (y0 x0 s b : Nat) : K :=
  ∑ u ∈ range b, ∑ v ∈ range b, d.px (y0 + u * s) (x0 + v * s)

/-- Adding to one pixel. -/
def Img.addPx (A : Img K) (y x : Nat) (v : K) : Img K := A.setPx y x (A.px y x + v)

theorem Img.addPx_zero (A : Img K) {y x : Nat} : A.addPx y x 0 = A := by
  refine Img.ext_px rfl rfl ?_
  intro y' x' (hy : y' < A.h) (hx : x' < A.w)
  unfold Img.addPx Img.setPx
  rw [Img.ofFn_px hy hx]
  split
  · rename_i h; rw [h.1, h.2]; simp
  · rfl

theorem Img.addPx_addPx (A : Img K) {y x : Nat} (hy : y < A.h) (hx : x < A.w) (v w : K) :
    (A.addPx y x v).addPx y x w = A.addPx y x (v + w) := by
  refine Img.ext_px rfl rfl ?_
  intro y' x' (hy' : y' < A.h) (hx' : x' < A.w)
  unfold Img.addPx Img.setPx
  rw [Img.ofFn_px (by exact hy') (by exact hx'), Img.ofFn_px (by exact hy) (by exact hx),
    Img.ofFn_px (by exact hy') (by exact hx'), Img.ofFn_px hy' hx']
  split
  · simp [add_assoc]
  · rfl

@[simp] theorem Img.addPx_h (A : Img K) (y x : Nat) (v : K) : (A.addPx y x v).h = A.h := rfl
@[simp] theorem Img.addPx_w (A : Img K) (y x : Nat) (v : K) : (A.addPx y x v).w = A.w := rfl

theorem addAt_ok {data A : Img K} {i j ny nx : Int} {y x Y X : Nat} (hi : i = y) (hj : j = x)
    (hny : ny = Y) (hnx : nx = X) (hy : y < data.h) (hx : x < data.w) (hY : Y < A.h) (hX : X < A.w) :
    addAt data i j ny nx A = .ok (A.addPx Y X (data.px y x)) := by
  unfold addAt
  have e1 : data.read i j = .ok (data.px y x) := Img.readE_ok hi hj hy hx
  have e2 : A.read ny nx = .ok (A.px Y X) := Img.readE_ok hny hnx hY hX
  rw [e1, Py.ok_bind, e2, Py.ok_bind, Img.write_ok hny hnx hY hX]
  rfl

theorem stepCount (o s b : Nat) (hs : 0 < s) :
    ((((o : Int) + s * b) - o + s - 1) / s).toNat = b := by
  have h1 : (((o : Int) + s * b) - o + s - 1) = (s - 1) + s * b := by ring
  rw [h1, Int.add_mul_ediv_left _ _ (by omega), Int.ediv_eq_zero_of_lt (by omega) (by omega)]
  simp

/-- The innermost loop. -/
theorem accumRow {data A : Img K} {y Y X : Nat} (s b ox cx : Nat) (hs : 0 < s)
    (hY : Y < A.h) (hX : X < A.w) (hy : y < data.h)
    (hxb : ∀ v, v < b → cx + ox + v * s < data.w)
    {i ix ex : Int} (hi : i = y) (hix : ix = cx)
    (hex : ex = ox + s * b) {ny nx : Int} (hny : ny = Y) (hnx : nx = X) :
    forRange (ox : Int) ex s A (fun xs A => addAt data i (ix + xs) ny nx A)
      = .ok (A.addPx Y X (∑ v ∈ range b, data.px y (cx + ox + v * s))) := by
  refine forRange_eq b (fun v => A.addPx Y X (∑ v ∈ range v, data.px y (cx + ox + v * s))) ?_ ?_ rfl ?_
  · rw [hex]; exact stepCount ox s b hs
  · simp [Img.addPx_zero]
  · intro v hv
    rw [addAt_ok (y := y) (x := cx + ox + v * s) (Y := Y) (X := X) hi ?_ hny hnx hy (hxb v hv) (by simpa using hY)
      (by simpa using hX), Img.addPx_addPx A hY hX, sum_range_succ]
    rw [hix]; push_cast; ring

/-- The two inner loops: accumulate the `b × b` block into pixel `(Y, X)`. -/
theorem accumBlock {data A : Img K} {Y X : Nat} (s b oy ox cy cx : Nat) (hs : 0 < s)
    (hY : Y < A.h) (hX : X < A.w)
    (hyb : ∀ u, u < b → cy + oy + u * s < data.h) (hxb : ∀ v, v < b → cx + ox + v * s < data.w)
    {iy ix ey ex : Int} (hiy : iy = cy) (hix : ix = cx)
    (hey : ey = oy + s * b) (hex : ex = ox + s * b) {ny nx : Int} (hny : ny = Y) (hnx : nx = X) :
    forRange (oy : Int) ey s A (fun ys A =>
        forRange (ox : Int) ex s A (fun xs A =>
          addAt data (iy + ys) (ix + xs) ny nx A))
      = .ok (A.addPx Y X (blockSum data (cy + oy) (cx + ox) s b)) := by
  refine forRange_eq b (fun u => A.addPx Y X
    (∑ u' ∈ range u, ∑ v ∈ range b, data.px (cy + oy + u' * s) (cx + ox + v * s))) ?_ ?_ rfl ?_
  · rw [hey]; exact stepCount oy s b hs
  · simp [Img.addPx_zero]
  · intro u hu
    rw [accumRow (y := cy + oy + u * s) (Y := Y) (X := X) s b ox cx hs (by simpa using hY) (by simpa using hX)
      (hyb u hu) hxb ?_ hix hex hny hnx, Img.addPx_addPx A hY hX, sum_range_succ]
    rw [hiy]; push_cast; ring

theorem addPx_zeros (A : Img K) {Y X : Nat} (f : Nat → Nat → K) (h0 : A.px Y X = 0) :
    A.addPx Y X (f Y X) = A.patch Y (Y + 1) X (X + 1) f := by
  unfold Img.addPx
  rw [h0, zero_add, Img.setPx_eq_patch]

theorem standardJitrebin_ok (data : Img K) (nh nw b : Nat) (hh : nh * b ≤ data.h) (hw : nw * b ≤ data.w) :
    standardJitrebin data nh nw b =
      .ok (Img.ofFn nh nw (fun Y X => blockSum data (b * Y) (b * X) 1 b)) := by
  unfold standardJitrebin npZeros
  rw [if_neg (by omega), Py.ok_bind]
  simp only [Int.toNat_natCast]
  have key := tileLoop (α := K) 1 0 0 nh nw (b := nh) (d := nw) (Img.zeros nh nw)
    (fun Y X => blockSum data (b * Y) (b * X) 1 b)
    (body := fun newY newX newData => forRange 0 (b : Int) 1 newData fun yScaler newData =>
        forRange 0 (b : Int) 1 newData fun xScaler newData =>
          addAt data ((b : Int) * newY + yScaler) ((b : Int) * newX + xScaler) newY newX newData)
    (by simp) (by simp) ?_
  · simp only [Nat.cast_zero] at key
    rw [key]
    congr 1
    refine Img.eq_ofFn rfl rfl ?_
    intro y x hy hx
    rw [Img.patch_px _ _ _ _ _ _ hy hx, if_pos (by omega)]
  · intro Y X A hY hX hAh hAw hA
    simp only [Nat.mul_one, Nat.zero_add] at *
    have hAY : Y < A.h := by rw [hAh]; exact hY
    have hAX : X < A.w := by rw [hAw]; exact hX
    have hYb : b * Y + b ≤ data.h := by
      calc b * Y + b = (Y + 1) * b := by ring
        _ ≤ nh * b := Nat.mul_le_mul_right b (by omega)
        _ ≤ data.h := hh
    have hXb : b * X + b ≤ data.w := by
      calc b * X + b = (X + 1) * b := by ring
        _ ≤ nw * b := Nat.mul_le_mul_right b (by omega)
        _ ≤ data.w := hw
    have := accumBlock (data := data) (A := A) (Y := Y) (X := X) 1 b 0 0 (b * Y) (b * X) (by omega) hAY hAX
      (by intro u hu; omega) (by intro v hv; omega)
      (iy := (b : Int) * (Y : Int)) (ix := (b : Int) * (X : Int)) (ey := b) (ex := b) (by push_cast; ring)
      (by push_cast; ring) (by simp) (by simp) (ny := Y) (nx := X) rfl rfl
    simp only [Nat.cast_zero, Nat.add_zero] at this
    rw [this, addPx_zeros A (fun Y X => blockSum data (b * Y) (b * X) 1 b)]
    rw [hA Y X hY hX (by omega) (by omega)]
    exact Img.ofFn_px hY hX

theorem micropolarrayJitrebin_ok (data : Img K) (nh nw b : Nat) (hnh : nh % 2 = 0) (hnw : nw % 2 = 0)
    (hh : nh * b ≤ data.h) (hw : nw * b ≤ data.w) :
    micropolarrayJitrebin data nh nw b =
      .ok (Img.ofFn nh nw (fun Y X =>
        blockSum data (2 * b * (Y / 2) + Y % 2) (2 * b * (X / 2) + X % 2) 2 b)) := by
  unfold micropolarrayJitrebin npZeros
  rw [if_neg (by omega), Py.ok_bind]
  simp only [Int.toNat_natCast]
  have key := tileLoop (α := K) 1 0 0 nh nw (b := nh) (d := nw) (Img.zeros nh nw)
    (fun Y X => blockSum data (2 * b * (Y / 2) + Y % 2) (2 * b * (X / 2) + X % 2) 2 b)
    (body := fun newY newX newData =>
      forRange (newY % 2) (newY % 2 + 2 * (b : Int)) 2 newData fun yScaler newData =>
        forRange (newX % 2) (newX % 2 + 2 * (b : Int)) 2 newData fun xScaler newData =>
          addAt data ((newY - newY % 2) * (b : Int) + yScaler) ((newX - newX % 2) * (b : Int) + xScaler)
            newY newX newData)
    (by simp) (by simp) ?_
  · simp only [Nat.cast_zero] at key
    rw [key]
    congr 1
    refine Img.eq_ofFn rfl rfl ?_
    intro y x hy hx
    rw [Img.patch_px _ _ _ _ _ _ hy hx, if_pos (by omega)]
  · intro Y X A hY hX hAh hAw hA
    simp only [Nat.mul_one, Nat.zero_add] at *
    have hAY : Y < A.h := by rw [hAh]; exact hY
    have hAX : X < A.w := by rw [hAw]; exact hX
    have hYb : 2 * b * (Y / 2) + 2 * b ≤ data.h := by
      calc 2 * b * (Y / 2) + 2 * b = (2 * (Y / 2) + 2) * b := by ring
        _ ≤ nh * b := Nat.mul_le_mul_right b (by omega)
        _ ≤ data.h := hh
    have hXb : 2 * b * (X / 2) + 2 * b ≤ data.w := by
      calc 2 * b * (X / 2) + 2 * b = (2 * (X / 2) + 2) * b := by ring
        _ ≤ nw * b := Nat.mul_le_mul_right b (by omega)
        _ ≤ data.w := hw
    have c : ∀ Z : Nat, ((Z : Int) - ((Z % 2 : Nat) : Int)) * (b : Int) = ((2 * b * (Z / 2) : Nat) : Int) := by
      intro Z
      have : (Z : Int) - ((Z % 2 : Nat) : Int) = 2 * ((Z / 2 : Nat) : Int) := by omega
      rw [this]; push_cast; ring
    have := accumBlock (data := data) (A := A) (Y := Y) (X := X) 2 b (Y % 2) (X % 2)
      (2 * b * (Y / 2)) (2 * b * (X / 2)) (by omega) hAY hAX
      (by intro u hu; omega) (by intro v hv; omega)
      (iy := ((Y : Int) - ((Y % 2 : Nat) : Int)) * (b : Int))
      (ix := ((X : Int) - ((X % 2 : Nat) : Int)) * (b : Int))
      (ey := ((Y % 2 : Nat) : Int) + 2 * (b : Int)) (ex := ((X % 2 : Nat) : Int) + 2 * (b : Int)) (c Y) (c X)
      rfl rfl (ny := Y) (nx := X) rfl rfl
    have cm : ∀ Z : Nat, (Z : Int) % 2 = ((Z % 2 : Nat) : Int) := by intro Z; omega
    rw [cm Y, cm X, this, addPx_zeros A (fun Y X =>
        blockSum data (2 * b * (Y / 2) + Y % 2) (2 * b * (X / 2) + X % 2) 2 b)]
    rw [hA Y X hY hX (by omega) (by omega)]
    exact Img.ofFn_px hY hX

theorem trimmed_tdiv (n b : Nat) (hb : 0 < b) : ((n : Int) - (n : Int) % b).tdiv b = ((n / b : Nat) : Int) := by
  have h1 : (n : Int) - (n : Int) % b = (n / b : Nat) * (b : Int) := by
    have := Int.emod_add_mul_ediv (n : Int) b
    push_cast
    rw [mul_comm]
    omega
  rw [h1, Int.mul_tdiv_cancel _ (by omega)]

theorem standardRebin_ok (data : Img K) (b : Nat) (hb : 0 < b) :
    standardRebin data b =
      .ok (Img.ofFn (data.h / b) (data.w / b) (fun Y X => blockSum data (b * Y) (b * X) 1 b)) := by
  unfold standardRebin trimToMatchBinning
  rw [trimLoop_ok (by omega) (by omega) (by simp) (by simp), trimLoop_ok (by omega) (by omega) (by simp) (by simp)]
  simp only [Py.ok_bind, Py.pure_eq]
  rw [trimmed_tdiv _ _ hb, trimmed_tdiv _ _ hb]
  exact standardJitrebin_ok data _ _ b (Nat.div_mul_le_self _ _) (Nat.div_mul_le_self _ _)

theorem micropolarrayRebin_ok (data : Img K) (b : Nat) (hb : 0 < b) (hh : data.h % 2 = 0) (hw : data.w % 2 = 0) :
    micropolarrayRebin data b =
      .ok (Img.ofFn (2 * (data.h / (2 * b))) (2 * (data.w / (2 * b))) (fun Y X =>
        blockSum data (2 * b * (Y / 2) + Y % 2) (2 * b * (X / 2) + X % 2) 2 b)) := by
  have t : ∀ n : Nat, ((n : Int) - (n : Int) % (2 * (b : Int))).tdiv b = ((2 * (n / (2 * b)) : Nat) : Int) := by
    intro n
    have h1 : (n : Int) - (n : Int) % (2 * (b : Int)) = ((2 * (n / (2 * b)) : Nat) : Int) * (b : Int) := by
      have := Int.emod_add_mul_ediv (n : Int) (2 * (b : Int))
      push_cast
      have e : 2 * ((n : Int) / (2 * (b : Int))) * b = 2 * (b : Int) * ((n : Int) / (2 * (b : Int))) := by ring
      rw [e]
      omega
    rw [h1, Int.mul_tdiv_cancel _ (by omega)]
  have l : ∀ n : Nat, 2 * (n / (2 * b)) * b ≤ n := by
    intro n
    calc 2 * (n / (2 * b)) * b = n / (2 * b) * (2 * b) := by ring
      _ ≤ n := Nat.div_mul_le_self _ _
  unfold micropolarrayRebin trimToMatch2xBinning
  rw [trimLoop_ok (by omega) (by omega) (by omega) (by simp),
    trimLoop_ok (by omega) (by omega) (by omega) (by simp)]
  simp only [Py.ok_bind, Py.pure_eq]
  rw [t, t]
  exact micropolarrayJitrebin_ok data _ _ b (by omega) (by omega) (l _) (l _)

end
end Micropol

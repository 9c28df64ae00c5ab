import Verif.Lemmas.Rebin
import Verif.Lemmas.Demosaic

/-! Rebinning kernels in closed form without any law of addition: the sums in the order in which they are computed. -/

set_option autoImplicit false

namespace Micropol

section
variable {K : Type} [Zero K] [Add K]

/-- Sum of the row part, added to `z` one by one. -/
def rowFold (f : Nat → K) (b : Nat) (z : K) : K := (List.range b).foldl (fun a v => a + f v) z

/-- The `b × b` block of `d` with corner `(y0, x0)` and stride `s`, added to `z` row by row. -/
def blockFoldFrom (d : Img K) (y0 x0 s n b : Nat) (z : K) : K :=
  (List.range n).foldl (fun a u => rowFold (fun v => d.px (y0 + u * s) (x0 + v * s)) b a) z

/-- The same, starting from 0. -/
def blockFold (d : Img K) (y0 x0 s b : Nat) : K := blockFoldFrom d y0 x0 s b b 0

theorem setPx_setPx_same (A : Img K) {y x : Nat} (v w : K) : (A.setPx y x v).setPx y x w = A.setPx y x w := by
  refine Img.ext_px rfl rfl ?_
  intro y' x' (hy' : y' < A.h) (hx' : x' < A.w)
  unfold Img.setPx
  rw [Img.ofFn_px (by exact hy') (by exact hx')]
  refine Eq.trans ?_ (Img.ofFn_px hy' hx').symm
  split
  · rfl
  · rename_i h
    rw [Img.ofFn_px hy' hx', if_neg h]

theorem setPx_same_px (A : Img K) {y x : Nat} (hy : y < A.h) (hx : x < A.w) (v : K) : (A.setPx y x v).px y x = v := by
  unfold Img.setPx
  rw [Img.ofFn_px hy hx, if_pos ⟨rfl, rfl⟩]

theorem setPx_own (A : Img K) {y x : Nat} : A.setPx y x (A.px y x) = A := by
  refine Img.ext_px rfl rfl ?_
  intro y' x' (hy : y' < A.h) (hx : x' < A.w)
  unfold Img.setPx
  rw [Img.ofFn_px hy hx]
  split
  · rename_i h; rw [h.1, h.2]
  · rfl

theorem addAt_set {data A : Img K} {i j ny nx : Int} {y x Y X : Nat} (hi : i = y) (hj : j = x)
    (hny : ny = Y) (hnx : nx = X) (hy : y < data.h) (hx : x < data.w) (hY : Y < A.h) (hX : X < A.w) :
    addAt data i j ny nx A = .ok (A.setPx Y X (A.px Y X + data.px y x)) := by
  unfold addAt
  have e1 : data.read i j = .ok (data.px y x) := Img.readE_ok hi hj hy hx
  have e2 : A.read ny nx = .ok (A.px Y X) := Img.readE_ok hny hnx hY hX
  rw [e1, Py.ok_bind, e2, Py.ok_bind, Img.write_ok hny hnx hY hX]

theorem foldRow {data A : Img K} {y Y X : Nat} (s b ox cx : Nat) (hs : 0 < s)
    (hY : Y < A.h) (hX : X < A.w) (hy : y < data.h)
    (hxb : ∀ v, v < b → cx + ox + v * s < data.w)
    {i ix ex : Int} (hi : i = y) (hix : ix = cx)
    (hex : ex = ox + s * b) {ny nx : Int} (hny : ny = Y) (hnx : nx = X) :
    forRange (ox : Int) ex s A (fun xs A => addAt data i (ix + xs) ny nx A)
      = .ok (A.setPx Y X (rowFold (fun v => data.px y (cx + ox + v * s)) b (A.px Y X))) := by
  refine forRange_eq b (fun n => A.setPx Y X (rowFold (fun v => data.px y (cx + ox + v * s)) n (A.px Y X))) ?_ ?_ rfl ?_
  · rw [hex]; exact stepCount ox s b hs
  · exact (setPx_own A).symm
  · intro v hv
    rw [addAt_set (y := y) (x := cx + ox + v * s) (Y := Y) (X := X) hi ?_ hny hnx hy (hxb v hv) (by simpa using hY)
      (by simpa using hX), setPx_setPx_same, setPx_same_px A hY hX]
    · unfold rowFold
      rw [List.range_succ, List.foldl_append]
      rfl
    · rw [hix]; push_cast; ring

theorem foldBlock {data A : Img K} {Y X : Nat} (s b oy ox cy cx : Nat) (hs : 0 < s)
    (hY : Y < A.h) (hX : X < A.w)
    (hyb : ∀ u, u < b → cy + oy + u * s < data.h) (hxb : ∀ v, v < b → cx + ox + v * s < data.w)
    {iy ix ey ex : Int} (hiy : iy = cy) (hix : ix = cx)
    (hey : ey = oy + s * b) (hex : ex = ox + s * b) {ny nx : Int} (hny : ny = Y) (hnx : nx = X) :
    forRange (oy : Int) ey s A (fun ys A =>
        forRange (ox : Int) ex s A (fun xs A =>
          addAt data (iy + ys) (ix + xs) ny nx A))
      = .ok (A.setPx Y X (blockFoldFrom data (cy + oy) (cx + ox) s b b (A.px Y X))) := by
  refine forRange_eq b (fun n => A.setPx Y X (blockFoldFrom data (cy + oy) (cx + ox) s n b (A.px Y X))) ?_ ?_ rfl ?_
  · rw [hey]; exact stepCount oy s b hs
  · exact (setPx_own A).symm
  · intro u hu
    rw [foldRow (y := cy + oy + u * s) (Y := Y) (X := X) s b ox cx hs (by simpa using hY) (by simpa using hX)
      (hyb u hu) hxb ?_ hix hex hny hnx, setPx_setPx_same, setPx_same_px A hY hX]
    · unfold blockFoldFrom
      rw [List.range_succ, List.foldl_append]
      rfl
    · rw [hiy]; push_cast; ring

theorem standardJitrebin_fold (data : Img K) (nh nw b : Nat) (hh : nh * b ≤ data.h) (hw : nw * b ≤ data.w) :
    standardJitrebin data nh nw b =
      .ok (Img.ofFn nh nw (fun Y X => blockFold data (b * Y) (b * X) 1 b)) := by
  unfold standardJitrebin npZeros
  rw [if_neg (by omega), Py.ok_bind]
  simp only [Int.toNat_natCast]
  have key := tileLoop (α := K) 1 0 0 nh nw (b := nh) (d := nw) (Img.zeros nh nw)
    (fun Y X => blockFold data (b * Y) (b * X) 1 b)
    (body := fun newY newX newData => forRange 0 (b : Int) 1 newData fun yScaler newData =>
        forRange 0 (b : Int) 1 newData fun xScaler newData =>
          addAt data ((b : Int) * newY + yScaler) ((b : Int) * newX + xScaler) newY newX newData)
    (by simp) (by simp) ?_
  · simp only [Nat.cast_zero] at key
    rw [key]
    congr 1
    refine Img.eq_ofFn rfl rfl ?_
    intro y x hy hx
    rw [Img.patch_px _ _ _ _ _ _ hy hx, if_pos (by omega)]
  · intro Y X A hY hX hAh hAw hA
    simp only [Nat.mul_one, Nat.zero_add] at *
    have hAY : Y < A.h := by rw [hAh]; exact hY
    have hAX : X < A.w := by rw [hAw]; exact hX
    have hYb : b * Y + b ≤ data.h := by
      calc b * Y + b = (Y + 1) * b := by ring
        _ ≤ nh * b := Nat.mul_le_mul_right b (by omega)
        _ ≤ data.h := hh
    have hXb : b * X + b ≤ data.w := by
      calc b * X + b = (X + 1) * b := by ring
        _ ≤ nw * b := Nat.mul_le_mul_right b (by omega)
        _ ≤ data.w := hw
    have := foldBlock (data := data) (A := A) (Y := Y) (X := X) 1 b 0 0 (b * Y) (b * X) (by omega) hAY hAX
      (by intro u hu; omega) (by intro v hv; omega)
      (iy := (b : Int) * (Y : Int)) (ix := (b : Int) * (X : Int)) (ey := b) (ex := b) (by push_cast; ring)
      (by push_cast; ring) (by simp) (by simp) (ny := Y) (nx := X) rfl rfl
    simp only [Nat.cast_zero, Nat.add_zero] at this
    have hz : A.px Y X = 0 := by
      rw [hA Y X hY hX (by omega) (by omega)]
      exact Img.ofFn_px hY hX
    rw [hz] at this
    rw [this]
    exact congrArg Except.ok (Img.setPx_eq_patch A Y X (fun Y X => blockFold data (b * Y) (b * X) 1 b))

theorem micropolarrayJitrebin_fold (data : Img K) (nh nw b : Nat) (hnh : nh % 2 = 0) (hnw : nw % 2 = 0)
    (hh : nh * b ≤ data.h) (hw : nw * b ≤ data.w) :
    micropolarrayJitrebin data nh nw b =
      .ok (Img.ofFn nh nw (fun Y X =>
        blockFold data (2 * b * (Y / 2) + Y % 2) (2 * b * (X / 2) + X % 2) 2 b)) := by
  unfold micropolarrayJitrebin npZeros
  rw [if_neg (by omega), Py.ok_bind]
  simp only [Int.toNat_natCast]
  have key := tileLoop (α := K) 1 0 0 nh nw (b := nh) (d := nw) (Img.zeros nh nw)
    (fun Y X => blockFold data (2 * b * (Y / 2) + Y % 2) (2 * b * (X / 2) + X % 2) 2 b)
    (body := fun newY newX newData =>
      forRange (newY % 2) (newY % 2 + 2 * (b : Int)) 2 newData fun yScaler newData =>
        forRange (newX % 2) (newX % 2 + 2 * (b : Int)) 2 newData fun xScaler newData =>
          addAt data ((newY - newY % 2) * (b : Int) + yScaler) ((newX - newX % 2) * (b : Int) + xScaler)
            newY newX newData)
    (by simp) (by simp) ?_
  · simp only [Nat.cast_zero] at key
    rw [key]
    congr 1
    refine Img.eq_ofFn rfl rfl ?_
    intro y x hy hx
    rw [Img.patch_px _ _ _ _ _ _ hy hx, if_pos (by omega)]
  · intro Y X A hY hX hAh hAw hA
    simp only [Nat.mul_one, Nat.zero_add] at *
    have hAY : Y < A.h := by rw [hAh]; exact hY
    have hAX : X < A.w := by rw [hAw]; exact hX
    have hYb : 2 * b * (Y / 2) + 2 * b ≤ data.h := by
      calc 2 * b * (Y / 2) + 2 * b = (2 * (Y / 2) + 2) * b := by ring
        _ ≤ nh * b := Nat.mul_le_mul_right b (by omega)
        _ ≤ data.h := hh
    have hXb : 2 * b * (X / 2) + 2 * b ≤ data.w := by
      calc 2 * b * (X / 2) + 2 * b = (2 * (X / 2) + 2) * b := by ring
        _ ≤ nw * b := Nat.mul_le_mul_right b (by omega)
        _ ≤ data.w := hw
    have c : ∀ Z : Nat, ((Z : Int) - ((Z % 2 : Nat) : Int)) * (b : Int) = ((2 * b * (Z / 2) : Nat) : Int) := by
      intro Z
      have : (Z : Int) - ((Z % 2 : Nat) : Int) = 2 * ((Z / 2 : Nat) : Int) := by omega
      rw [this]; push_cast; ring
    have := foldBlock (data := data) (A := A) (Y := Y) (X := X) 2 b (Y % 2) (X % 2)
      (2 * b * (Y / 2)) (2 * b * (X / 2)) (by omega) hAY hAX
      (by intro u hu; omega) (by intro v hv; omega)
      (iy := ((Y : Int) - ((Y % 2 : Nat) : Int)) * (b : Int))
      (ix := ((X : Int) - ((X % 2 : Nat) : Int)) * (b : Int))
      (ey := ((Y % 2 : Nat) : Int) + 2 * (b : Int)) (ex := ((X % 2 : Nat) : Int) + 2 * (b : Int)) (c Y) (c X)
      rfl rfl (ny := Y) (nx := X) rfl rfl
    have cm : ∀ Z : Nat, (Z : Int) % 2 = ((Z % 2 : Nat) : Int) := by intro Z; omega
    have hz : A.px Y X = 0 := by
      rw [hA Y X hY hX (by omega) (by omega)]
      exact Img.ofFn_px hY hX
    rw [hz] at this
    rw [cm Y, cm X, this]
    exact congrArg Except.ok (Img.setPx_eq_patch A Y X (fun Y X =>
      blockFold data (2 * b * (Y / 2) + Y % 2) (2 * b * (X / 2) + X % 2) 2 b))

theorem standardRebin_fold (data : Img K) (b : Nat) (hb : 0 < b) :
    standardRebin data b =
      .ok (Img.ofFn (data.h / b) (data.w / b) (fun Y X => blockFold data (b * Y) (b * X) 1 b)) := by
  unfold standardRebin trimToMatchBinning
  rw [trimLoop_ok (by omega) (by omega) (by simp) (by simp), trimLoop_ok (by omega) (by omega) (by simp) (by simp)]
  simp only [Py.ok_bind, Py.pure_eq]
  rw [trimmed_tdiv _ _ hb, trimmed_tdiv _ _ hb]
  exact standardJitrebin_fold data _ _ b (Nat.div_mul_le_self _ _) (Nat.div_mul_le_self _ _)

theorem micropolarrayRebin_fold (data : Img K) (b : Nat) (hb : 0 < b) (hh : data.h % 2 = 0) (hw : data.w % 2 = 0) :
    micropolarrayRebin data b =
      .ok (Img.ofFn (2 * (data.h / (2 * b))) (2 * (data.w / (2 * b))) (fun Y X =>
        blockFold data (2 * b * (Y / 2) + Y % 2) (2 * b * (X / 2) + X % 2) 2 b)) := by
  have t : ∀ n : Nat, ((n : Int) - (n : Int) % (2 * (b : Int))).tdiv b = ((2 * (n / (2 * b)) : Nat) : Int) := by
    intro n
    have h1 : (n : Int) - (n : Int) % (2 * (b : Int)) = ((2 * (n / (2 * b)) : Nat) : Int) * (b : Int) := by
      have := Int.emod_add_mul_ediv (n : Int) (2 * (b : Int))
      push_cast
      have e : 2 * ((n : Int) / (2 * (b : Int))) * b = 2 * (b : Int) * ((n : Int) / (2 * (b : Int))) := by ring
      rw [e]
      omega
    rw [h1, Int.mul_tdiv_cancel _ (by omega)]
  have l : ∀ n : Nat, 2 * (n / (2 * b)) * b ≤ n := by
    intro n
    calc 2 * (n / (2 * b)) * b = n / (2 * b) * (2 * b) := by ring
      _ ≤ n := Nat.div_mul_le_self _ _
  unfold micropolarrayRebin trimToMatch2xBinning
  rw [trimLoop_ok (by omega) (by omega) (by omega) (by simp),
    trimLoop_ok (by omega) (by omega) (by omega) (by simp)]
  simp only [Py.ok_bind, Py.pure_eq]
  rw [t, t]
  exact micropolarrayJitrebin_fold data _ _ b (by omega) (by omega) (l _) (l _)

end

end Micropol

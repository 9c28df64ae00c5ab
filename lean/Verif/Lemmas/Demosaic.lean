import Verif.Model.Demosaic
import Verif.Basic.Tile
import Verif.Lemmas.Split
import Mathlib.Algebra.CharZero.Defs
import Mathlib.Tactic.FieldSimp
import Mathlib.Tactic.Ring

/-! Closed forms of the demosaicing kernels. -/

set_option autoImplicit false

namespace Micropol

theorem forRange_zero_two {σ : Type} (s : σ) (body : Int → σ → Py σ) :
    forRange 0 2 1 s body = (body 0 s >>= fun s => body 1 s) := by
  unfold forRange
  have : pyRange 0 2 1 = [0, 1] := by decide
  rw [this]
  simp only [List.foldlM_cons, List.foldlM_nil]
  cases body 0 s with
  | error e => rfl
  | ok a =>
    simp only [Py.ok_bind]
    cases body 1 a <;> rfl

/-- The loop over the four families when each family's result does not depend on the previous content of the
scratch image. -/
theorem families_ok {K : Type} [Zero K] (data : Img K) (fam : Int → Int → Img K → Py (Img K))
    (g : Fin 4 → Img K) (P : Img K → Prop) (h0 : P data)
    (hfam : ∀ (k : Fin 4) (T : Img K), P T → fam ((k.val / 2 : Nat) : Int) ((k.val % 2 : Nat) : Int) T = .ok (g k) ∧ P (g k)) :
    (do
      let st ← forRange 0 2 1 ((data, fun _ => Img.zeros data.h data.w, 0) : Img K × (Fin 4 → Img K) × Nat)
        fun j st => forRange 0 2 1 st fun i st => do
          let temp ← fam j i st.1
          let demo ← setAt4 st.2.1 st.2.2 temp
          pure (temp, demo, st.2.2 + 1)
      pure st.2.1 : Py (Fin 4 → Img K)) = .ok g := by
  have e0 := hfam 0 data h0
  have e1 := hfam 1 (g 0) e0.2
  have e2 := hfam 2 (g 1) e1.2
  have e3 := hfam 3 (g 2) e2.2
  have c0 := e0.1
  have c1 := e1.1
  have c2 := e2.1
  have c3 := e3.1
  norm_num at c0 c1 c2 c3
  simp only [forRange_zero_two, setAt4, c0, c1, c2, c3, Py.ok_bind, Py.pure_eq, if_true, Nat.zero_add,
    show (0 < 4) from by decide, show (0 + 1 < 4) from by decide, show (0 + 1 + 1 < 4) from by decide,
    show (0 + 1 + 1 + 1 < 4) from by decide]
  congr 1
  funext k
  fin_cases k <;> rfl

theorem fillSlice_eq_patch {α : Type} [Zero α] (A : Img α) (y x : Nat) (v : α) (f : Nat → Nat → α)
    (hf : ∀ y' x', y ≤ y' → y' < y + 2 → x ≤ x' → x' < x + 2 → f y' x' = v) :
    A.fillSlice (y : Int) ((y : Int) + 2) (x : Int) ((x : Int) + 2) v = A.patch y (y + 2) x (x + 2) f := by
  refine Img.ext_px rfl rfl ?_
  intro y' x' (hy : y' < A.h) (hx : x' < A.w)
  rw [Img.patch_px _ _ _ _ _ _ hy hx]
  unfold Img.fillSlice
  rw [Img.ofFn_px hy hx]
  by_cases hc : y ≤ y' ∧ y' < y + 2 ∧ x ≤ x' ∧ x' < x + 2
  · rw [if_pos hc, if_pos (by omega), hf y' x' hc.1 hc.2.1 hc.2.2.1 hc.2.2.2]
  · rw [if_neg hc, if_neg (by omega)]

section
variable {K : Type} [Zero K] [One K] [Add K] [Mul K] [Div K] [OfNat K 2] [OfNat K 4]

theorem halfCount (n : Nat) (hn : n % 2 = 0) : (((n : Int) - ((0 : Nat) : Int) + (2 : Nat) - 1) / (2 : Nat)).toNat = n / 2 := by
  omega

theorem demosaicmeanFamily_ok (data temp : Img K) (hh : data.h % 2 = 0) (hw : data.w % 2 = 0)
    (hth : temp.h = data.h) (htw : temp.w = data.w) (j i : Nat) (hj : j < 2) (hi : i < 2) :
    demosaicmeanFamily data j i temp =
      .ok (Img.ofFn data.h data.w (fun y x => data.px (2 * (y / 2) + j) (2 * (x / 2) + i) * (1 / 4))) := by
  unfold demosaicmeanFamily
  have key := tileLoop (α := K) 2 0 0 (data.h / 2) (data.w / 2) (b := data.h) (d := data.w) temp
    (fun y x => data.px (2 * (y / 2) + j) (2 * (x / 2) + i) * (1 / 4))
    (body := fun ySuper xSuper temp => (do
      let v ← data.read (ySuper + j) (xSuper + i)
      pure (temp.fillSlice ySuper (ySuper + 2) xSuper (xSuper + 2) (v * (1 / 4)))))
    (halfCount _ hh) (halfCount _ hw) ?_
  · simp only [Nat.cast_zero] at key
    rw [key]
    congr 1
    refine Img.eq_ofFn hth htw ?_
    intro y x hy hx
    rw [Img.patch_px _ _ _ _ _ _ (by rw [hth]; exact hy) (by rw [htw]; exact hx), if_pos (by omega)]
  · intro Y X A hY hX hAh hAw _
    have e1 : data.read (((0 + Y * 2 : Nat) : Int) + j) (((0 + X * 2 : Nat) : Int) + i)
        = .ok (data.px (2 * Y + j) (2 * X + i)) :=
      Img.readE_ok (by push_cast; ring) (by push_cast; ring) (by omega) (by omega)
    rw [e1, Py.ok_bind, Py.pure_eq]
    congr 1
    refine fillSlice_eq_patch A (0 + Y * 2) (0 + X * 2) _ _ ?_
    intro y' x' h1 h2 h3 h4
    have a1 : y' / 2 = Y := by omega
    have a2 : x' / 2 = X := by omega
    rw [a1, a2]

theorem demosaicmean_ok (data : Img K) (hh : data.h % 2 = 0) (hw : data.w % 2 = 0) :
    demosaicmean data = .ok (fun k => Img.ofFn data.h data.w (fun y x =>
      data.px (2 * (y / 2) + k.val / 2) (2 * (x / 2) + k.val % 2) * (1 / 4))) := by
  unfold demosaicmean
  refine families_ok data (demosaicmeanFamily data) _ (fun T => T.h = data.h ∧ T.w = data.w) ⟨rfl, rfl⟩ ?_
  intro k T hT
  have := k.isLt
  exact ⟨demosaicmeanFamily_ok data T hh hw hT.1 hT.2 _ _ (by omega) (by omega), rfl, rfl⟩

/-- Value computed by `demosaicadjacent` at `(y, x)` for the family `(fy, fx)`. -/
def adjacentVal (data : Img K) (fy fx y x : Nat) : K :=
  let Y := 2 * (y / 2) + fy
  let X := 2 * (x / 2) + fx
  if y % 2 = 0 then
    if x % 2 = 0 then data.px Y X else (1 / 2) * (data.px Y X + data.px Y (X + 2))
  else
    if x % 2 = 0 then (1 / 2) * (data.px Y X + data.px (Y + 2) X)
    else (data.px Y X + data.px (Y + 2) X + data.px Y (X + 2) + data.px (Y + 2) (X + 2)) * (1 / 4)

theorem setPx4_eq_patch {α : Type} [Zero α] (A : Img α) (y x : Nat) (f : Nat → Nat → α) :
    (((A.setPx y x (f y x)).setPx (y + 1) x (f (y + 1) x)).setPx y (x + 1) (f y (x + 1))).setPx (y + 1) (x + 1)
      (f (y + 1) (x + 1)) = A.patch y (y + 2) x (x + 2) f := by
  refine Img.ext_px rfl rfl ?_
  intro y' x' (hy : y' < A.h) (hx : x' < A.w)
  rw [Img.patch_px _ _ _ _ _ _ hy hx]
  unfold Img.setPx
  rw [Img.ofFn_px (by exact hy) (by exact hx), Img.ofFn_px (by exact hy) (by exact hx),
    Img.ofFn_px (by exact hy) (by exact hx), Img.ofFn_px (by exact hy) (by exact hx)]
  by_cases hc : y ≤ y' ∧ y' < y + 2 ∧ x ≤ x' ∧ x' < x + 2
  · rw [if_pos hc]
    rcases (by omega : y' = y ∨ y' = y + 1) with h | h <;> rcases (by omega : x' = x ∨ x' = x + 1) with h' | h' <;>
      subst h <;> subst h' <;> simp
  · rw [if_neg hc, if_neg (by omega), if_neg (by omega), if_neg (by omega), if_neg (by omega)]

@[simp] theorem Img.setPx_h {α : Type} [Zero α] (A : Img α) (y x : Nat) (v : α) : (A.setPx y x v).h = A.h := rfl
@[simp] theorem Img.setPx_w {α : Type} [Zero α] (A : Img α) (y x : Nat) (v : α) : (A.setPx y x v).w = A.w := rfl

theorem demosaicadjacentFamily_ok (data temp : Img K) (hh : data.h % 2 = 0) (hw : data.w % 2 = 0)
    (hth : temp.h = data.h) (htw : temp.w = data.w) (fy fx : Nat) (hj : fy < 2) (hi : fx < 2) :
    demosaicadjacentFamily data fy fx temp =
      .ok (temp.patch 0 (data.h - 2) 0 (data.w - 2) (adjacentVal data fy fx)) := by
  unfold demosaicadjacentFamily
  have key := tileLoop (α := K) 2 0 0 ((data.h - 2) / 2) ((data.w - 2) / 2) (b := (data.h : Int) - 2)
    (d := (data.w : Int) - 2) temp (adjacentVal data fy fx)
    (body := fun y x temp => demosaicadjacentBody data fy fx y x temp)
    (by omega) (by omega) ?_
  · simp only [Nat.cast_zero] at key
    rw [key]
    congr 2 <;> omega
  · intro Y X A hY hX hAh hAw _
    simp only [Nat.zero_add]
    have r00 : data.read (((Y * 2 : Nat) : Int) + fy) (((X * 2 : Nat) : Int) + fx)
        = .ok (data.px (2 * Y + fy) (2 * X + fx)) :=
      Img.readE_ok (by push_cast; ring) (by push_cast; ring) (by omega) (by omega)
    have r10 : data.read (((Y * 2 : Nat) : Int) + fy + 2) (((X * 2 : Nat) : Int) + fx)
        = .ok (data.px (2 * Y + fy + 2) (2 * X + fx)) :=
      Img.readE_ok (by push_cast; ring) (by push_cast; ring) (by omega) (by omega)
    have r01 : data.read (((Y * 2 : Nat) : Int) + fy) (((X * 2 : Nat) : Int) + fx + 2)
        = .ok (data.px (2 * Y + fy) (2 * X + fx + 2)) :=
      Img.readE_ok (by push_cast; ring) (by push_cast; ring) (by omega) (by omega)
    have r11 : data.read (((Y * 2 : Nat) : Int) + fy + 2) (((X * 2 : Nat) : Int) + fx + 2)
        = .ok (data.px (2 * Y + fy + 2) (2 * X + fx + 2)) :=
      Img.readE_ok (by push_cast; ring) (by push_cast; ring) (by omega) (by omega)
    unfold demosaicadjacentBody
    simp only [r00, r10, r01, r11, Py.ok_bind]
    rw [Img.write_ok (y := Y * 2) (x := X * 2) rfl rfl (by omega) (by omega), Py.ok_bind,
      Img.write_ok (y := Y * 2 + 1) (x := X * 2) (by push_cast; ring) rfl (by simp only [Img.setPx_h]; omega)
        (by simp only [Img.setPx_w]; omega), Py.ok_bind,
      Img.write_ok (y := Y * 2) (x := X * 2 + 1) rfl (by push_cast; ring) (by simp only [Img.setPx_h]; omega)
        (by simp only [Img.setPx_w]; omega), Py.ok_bind,
      Img.write_ok (y := Y * 2 + 1) (x := X * 2 + 1) (by push_cast; ring) (by push_cast; ring)
        (by simp only [Img.setPx_h]; omega) (by simp only [Img.setPx_w]; omega)]
    rw [← setPx4_eq_patch]
    have d1 : ∀ Z : Nat, Z * 2 / 2 = Z := by intro Z; omega
    have d2 : ∀ Z : Nat, (Z * 2 + 1) / 2 = Z := by intro Z; omega
    have m1 : ∀ Z : Nat, Z * 2 % 2 = 0 := by intro Z; omega
    have m2 : ∀ Z : Nat, (Z * 2 + 1) % 2 = 1 := by intro Z; omega
    simp only [adjacentVal, d1, d2, m1, m2, if_true, if_neg (show ¬ (1 = 0) by decide)]

/-- After all four families the scratch image of family `k` has the interpolated values in the part that is kept
by the caller.  (Outside that part it contains the previous content.) -/
theorem demosaicadjacent_ok (data : Img K) (hh : data.h % 2 = 0) (hw : data.w % 2 = 0) :
    demosaicadjacent data = .ok (fun k => data.patch 0 (data.h - 2) 0 (data.w - 2)
      (adjacentVal data (k.val / 2) (k.val % 2))) := by
  unfold demosaicadjacent
  refine families_ok data (demosaicadjacentFamily data) _
    (fun T => T.h = data.h ∧ T.w = data.w ∧ ∀ y x, y < data.h → x < data.w →
      ¬ (y < data.h - 2 ∧ x < data.w - 2) → T.px y x = data.px y x) ⟨rfl, rfl, fun _ _ _ _ _ => rfl⟩ ?_
  intro k T hT
  have := k.isLt
  refine ⟨?_, rfl, rfl, ?_⟩
  · rw [demosaicadjacentFamily_ok data T hh hw hT.1 hT.2.1 _ _ (by omega) (by omega)]
    congr 1
    refine Img.ext_px (by simp [hT.1]) (by simp [hT.2.1]) ?_
    intro y x hy hx
    simp only [Img.patch_h, Img.patch_w] at hy hx
    rw [Img.patch_px _ _ _ _ _ _ hy hx, Img.patch_px _ _ _ _ _ _ (by rw [← hT.1]; exact hy) (by rw [← hT.2.1]; exact hx)]
    split
    · rfl
    · exact hT.2.2 y x (by omega) (by omega) (by omega)
  · intro y x hy hx hn
    rw [Img.patch_px _ _ _ _ _ _ hy hx, if_neg (by omega)]

/-- Closed form of the 'adjacent' demosaic. -/
theorem demosaic_adjacent_ok (d : Img K) (hh : d.h % 2 = 0) (hw : d.w % 2 = 0) :
    ∃ r, demosaic d "adjacent" = .ok r ∧ ∀ k : Fin 4, (r k).h = d.h ∧ (r k).w = d.w ∧
      ∀ y x, y < d.h → x < d.w →
        (r k).px y x = adjacentVal (hstackLast2 (vstackLast2 d)) (k.val / 2) (k.val % 2) y x := by
  have sh : (hstackLast2 (vstackLast2 d)).h = d.h + min 2 d.h := rfl
  have sw : (hstackLast2 (vstackLast2 d)).w = d.w + min 2 d.w := rfl
  unfold demosaic
  rw [if_neg (by decide), if_pos rfl]
  dsimp only
  rw [demosaicadjacent_ok _ (by rw [sh]; omega) (by rw [sw]; omega)]
  simp only [Py.ok_bind, Py.pure_eq]
  refine ⟨_, rfl, fun k => ⟨?_, ?_, ?_⟩⟩
  · simp only [cropLast2, Img.ofFn_h, Img.patch_h, sh]; omega
  · simp only [cropLast2, Img.ofFn_w, Img.patch_w, sw]; omega
  · intro y x hy hx
    unfold cropLast2
    rw [Img.ofFn_px (by simp only [Img.patch_h, sh]; omega) (by simp only [Img.patch_w, sw]; omega),
      Img.patch_px _ _ _ _ _ _ (by rw [sh]; omega) (by rw [sw]; omega),
      if_pos (by rw [sh, sw]; omega)]

end

end Micropol

import Verif.Lemmas.Rotate
import Verif.Lemmas.Rebin
import Mathlib.Tactic.NormNum
import Mathlib.Tactic.FieldSimp
import Mathlib.Data.Rat.Floor

/-!
# Turning and flipping

* C34: `Demodulator.rot90`, `Demodulator.flip`.
* C59: `align_keywords_and_data`.
-/

set_option autoImplicit false

namespace Micropol

variable {K : Type} [Field K]

/-! ## C34 -/

/-- C34: `rot90(k)` turns every component by `k` quarter turns (`n` is any count of counterclockwise quarter turns
equal to `k` modulo a full turn), whenever the shape allows it. -/
theorem C34_rot90 (D : Demodulator K) (h w : Nat) (hD : ∀ i j, (D.mij i j).HasShape h w) (k : Int)
    (hk : k % 2 = 0 ∨ h = w) (n : Nat) (hn : (n : Int) % 4 = k % 4) :
    ∃ D', D.rot90 k = .ok D' ∧ ∀ i j, D'.mij i j = Img.quarterTurn^[n] (D.mij i j) := by
  unfold Demodulator.rot90
  rw [mapPlanes_ok (g := fun A => npRot90 A k) (fun _ _ => rfl) (by
    intro i j
    by_cases he : k % 2 = 0
    · exact npRot90_shape_even _ he
    · obtain ⟨e1, e2⟩ := npRot90_shape_odd (D.mij i j) he
      have hs := hD i j
      have : h = w := hk.resolve_left he
      exact ⟨by rw [e1, hs.2, hs.1, this], by rw [e2, hs.2, hs.1, this]⟩), Py.ok_bind]
  refine ⟨_, rfl, ?_⟩
  intro i j
  dsimp only
  rw [← npRot90_iterate]
  exact npRot90_congr _ hn.symm

/-- C34: full turns do nothing. -/
theorem C34_full_turn (D : Demodulator K) (k : Int) (hk : k % 4 = 0) : D.rot90 k = .ok D := by
  unfold Demodulator.rot90
  have e : ∀ A : Img K, npRot90 A k = A := fun A => by unfold npRot90; rw [if_pos hk]
  rw [mapPlanes_ok (g := fun A => npRot90 A k) (fun _ _ => rfl) (by
    intro i j; rw [e]; exact ⟨rfl, rfl⟩), Py.ok_bind]
  simp only [e]

/-- C34: two turns in a row are one turn by the sum. -/
theorem C34_turns_add (D : Demodulator K) (h : Nat) (hD : ∀ i j, (D.mij i j).HasShape h h) (k l : Int)
    (D' : Demodulator K) (hk : D.rot90 k = .ok D') : D'.rot90 l = D.rot90 (k + l) := by
  have shape : ∀ (A : Img K) (k : Int), A.HasShape h h → (npRot90 A k).HasShape h h := by
    intro A k hA
    by_cases he : k % 2 = 0
    · obtain ⟨e1, e2⟩ := npRot90_shape_even A he
      exact ⟨e1.trans hA.1, e2.trans hA.2⟩
    · obtain ⟨e1, e2⟩ := npRot90_shape_odd A he
      exact ⟨e1.trans hA.2, e2.trans hA.1⟩
  have hrot : ∀ (D : Demodulator K), (∀ i j, (D.mij i j).HasShape h h) → ∀ k,
      D.rot90 k = .ok { D with mij := fun i j => npRot90 (D.mij i j) k } := by
    intro D hD k
    unfold Demodulator.rot90
    rw [mapPlanes_ok (g := fun A => npRot90 A k) (fun _ _ => rfl) (by
      intro i j
      rw [(hD i j).1, (hD i j).2]
      exact shape _ _ (hD i j)), Py.ok_bind]
  rw [hrot D hD] at hk
  injection hk with hk
  subst hk
  rw [hrot _ (fun i j => shape _ _ (hD i j)), hrot D hD]
  congr 2
  funext i j
  dsimp only
  -- through natural numbers of quarter turns
  have h1 := npRot90_congr (D.mij i j) (k := k) (l := ((k % 4).toNat : Int)) (by omega)
  have h2 : ∀ A : Img K, npRot90 A l = Img.quarterTurn^[(l % 4).toNat] A := by
    intro A
    rw [← npRot90_iterate]
    exact npRot90_congr _ (by omega)
  have h3 := npRot90_congr (D.mij i j) (k := k + l) (l := (((l % 4).toNat + (k % 4).toNat : Nat) : Int)) (by omega)
  rw [h1, npRot90_iterate, h2, h3, npRot90_iterate, Function.iterate_add_apply]

/-- C34, violation: an odd quarter turn of a tensor that is not square raises `ValueError`. -/
theorem C34_nonsquare (D : Demodulator K) (h w : Nat) (hD : ∀ i j, (D.mij i j).HasShape h w) (hne : h ≠ w) (k : Int)
    (hk : k % 2 ≠ 0) : D.rot90 k = .error .valueError := by
  unfold Demodulator.rot90
  rw [mapPlanes_error (e := .valueError)]
  · rfl
  · rw [Py.ok_bind]
    obtain ⟨e1, e2⟩ := npRot90_shape_odd (D.mij 0 0) hk
    exact assignPlane_transposed e1 e2 (by rw [(hD 0 0).1, (hD 0 0).2]; exact hne)

/-- C34: `flip(axis)` turns every component upside down (axis 0 or -2), left to right (1 or -1) or both (None), and
rejects other axes. -/
theorem C34_flip (D : Demodulator K) (axis : Option Int) :
    (axis = some 0 ∨ axis = some (-2) → ∃ D', D.flip axis = .ok D' ∧ ∀ i j, D'.mij i j = (D.mij i j).flipRows) ∧
    (axis = some 1 ∨ axis = some (-1) → ∃ D', D.flip axis = .ok D' ∧ ∀ i j, D'.mij i j = (D.mij i j).flipCols) ∧
    (axis = none → ∃ D', D.flip axis = .ok D' ∧ ∀ i j, D'.mij i j = (D.mij i j).flipRows.flipCols) ∧
    (∀ a, axis = some a → a < -2 ∨ 1 < a → D.flip axis = .error .valueError) := by
  refine ⟨?_, ?_, ?_, ?_⟩
  · intro h
    unfold Demodulator.flip
    rw [mapPlanes_ok (g := fun A => A.flipRows) (by
      intro i j
      unfold npFlip
      rcases h with rfl | rfl
      · rfl
      · rfl) (fun _ _ => ⟨rfl, rfl⟩), Py.ok_bind]
    exact ⟨_, rfl, fun _ _ => rfl⟩
  · intro h
    unfold Demodulator.flip
    rw [mapPlanes_ok (g := fun A => A.flipCols) (by
      intro i j
      unfold npFlip
      rcases h with rfl | rfl
      · rfl
      · rfl) (fun _ _ => ⟨rfl, rfl⟩), Py.ok_bind]
    exact ⟨_, rfl, fun _ _ => rfl⟩
  · rintro rfl
    unfold Demodulator.flip
    rw [mapPlanes_ok (g := fun A => A.flipRows.flipCols) (by
      intro i j
      unfold npFlip
      dsimp only
      congr 1
      refine Img.ext_px rfl rfl ?_
      intro y x (hy : y < (D.mij i j).h) (hx : x < (D.mij i j).w)
      unfold Img.flipCols Img.flipRows
      rw [Img.ofFn_px hy hx, Img.ofFn_px (by exact hy) (by exact hx), Img.ofFn_w,
        Img.ofFn_px hy (by omega)]) (fun _ _ => ⟨rfl, rfl⟩), Py.ok_bind]
    exact ⟨_, rfl, fun _ _ => rfl⟩
  · rintro a rfl ha
    unfold Demodulator.flip
    rw [mapPlanes_error (e := .valueError)]
    · rfl
    · unfold npFlip
      dsimp only
      rw [if_neg (by omega), if_neg (by omega)]
      rfl

theorem npFlip_inv (A B : Img K) (axis : Option Int) (h : npFlip A axis = .ok B) :
    npFlip B axis = .ok A ∧ B.HasShape A.h A.w := by
  unfold npFlip at h ⊢
  cases axis with
  | none =>
    dsimp only at h ⊢
    injection h with h
    subst h
    refine ⟨?_, rfl, rfl⟩
    congr 1
    refine Img.ext_px rfl rfl ?_
    intro y x (hy : y < A.h) (hx : x < A.w)
    rw [Img.ofFn_px (by exact hy) (by exact hx), Img.ofFn_h, Img.ofFn_w, Img.ofFn_px (by omega) (by omega)]
    congr 1 <;> omega
  | some a =>
    dsimp only at h ⊢
    by_cases h0 : a = 0 ∨ a = -2
    · rw [if_pos h0] at h ⊢
      injection h with h
      subst h
      refine ⟨?_, rfl, rfl⟩
      congr 1
      refine Img.ext_px rfl rfl ?_
      intro y x (hy : y < A.h) (hx : x < A.w)
      rw [Img.ofFn_px (by exact hy) (by exact hx), Img.ofFn_h, Img.ofFn_px (by omega) (by omega)]
      congr 1
      omega
    · rw [if_neg h0] at h ⊢
      by_cases h1 : a = 1 ∨ a = -1
      · rw [if_pos h1] at h ⊢
        injection h with h
        subst h
        refine ⟨?_, rfl, rfl⟩
        congr 1
        refine Img.ext_px rfl rfl ?_
        intro y x (hy : y < A.h) (hx : x < A.w)
        rw [Img.ofFn_px (by exact hy) (by exact hx), Img.ofFn_w, Img.ofFn_px (by omega) (by omega)]
        congr 1
        omega
      · rw [if_neg h1] at h
        cases h

/-- C34: flipping twice along the same axis is the identity. -/
theorem C34_flip_twice (D D' : Demodulator K) (axis : Option Int) (h : D.flip axis = .ok D') :
    D'.flip axis = .ok D := by
  -- the axis is valid, otherwise the first call had failed
  have hv : ∀ A : Img K, ∃ B, npFlip A axis = .ok B := by
    intro A
    unfold Demodulator.flip at h
    have h00 : ∃ B, npFlip (D.mij 0 0) axis = .ok B := by
      cases hf : npFlip (D.mij 0 0) axis with
      | ok B => exact ⟨B, rfl⟩
      | error e =>
        rw [mapPlanes_error (e := e) (by rw [hf]; rfl)] at h
        cases h
    obtain ⟨B, hB⟩ := h00
    unfold npFlip at hB ⊢
    cases axis with
    | none => exact ⟨_, rfl⟩
    | some a =>
      dsimp only at hB ⊢
      split
      · exact ⟨_, rfl⟩
      · split
        · exact ⟨_, rfl⟩
        · rename_i h0 h1
          rw [if_neg h0, if_neg h1] at hB
          cases hB
  choose g hg using hv
  unfold Demodulator.flip at h ⊢
  rw [mapPlanes_ok (g := g) (fun i j => hg _) (fun i j => (npFlip_inv _ _ _ (hg _)).2), Py.ok_bind] at h
  injection h with h
  subst h
  dsimp only
  have hgg : ∀ A, g (g A) = A := by
    intro A
    have := (npFlip_inv _ _ _ (hg A)).1
    rw [hg (g A)] at this
    injection this
  rw [mapPlanes_ok (g := g) (fun i j => hg _) (fun i j => (npFlip_inv _ _ _ (hg _)).2), Py.ok_bind]
  simp only [hgg]

/-- C34, violation: neither turning nor flipping touches the fit flags. -/
theorem C34_flags_not_moved (D D' : Demodulator K) :
    (∀ k, D.rot90 k = .ok D' → D'.fitFoundFlags = D.fitFoundFlags) ∧
    (∀ axis, D.flip axis = .ok D' → D'.fitFoundFlags = D.fitFoundFlags) := by
  constructor
  · intro k h
    unfold Demodulator.rot90 at h
    rw [Py.bind_eq_ok] at h
    obtain ⟨m, -, h⟩ := h
    injection h with h
    rw [← h]
  · intro k h
    unfold Demodulator.flip at h
    rw [Py.bind_eq_ok] at h
    obtain ⟨m, -, h⟩ := h
    injection h with h
    rw [← h]

/-- A 2x2 demodulator whose only fitted superpixel is the upper left one, which is marked in the tensor as well. -/
def cornerDemod : Demodulator ℚ :=
  ⟨fun _ _ => Img.ofFn 2 2 (fun y x => if y = 0 ∧ x = 0 then 9 else 0),
   some (Img.ofFn 2 2 (fun y x => if y = 0 ∧ x = 0 then 1 else 0))⟩

/-- C34: the alignment claim is false: after a quarter turn the tensor has moved and the flags have not. -/
theorem C34_alignment_false :
    ∃ D' F, cornerDemod.rot90 1 = .ok D' ∧ D'.fitFoundFlags = some F ∧
      (∀ i j, (D'.mij i j).px 1 0 = 9 ∧ (D'.mij i j).px 0 0 = 0) ∧ F.px 0 0 = 1 ∧ F.px 1 0 = 0 := by
  obtain ⟨D', h1, h2⟩ := C34_rot90 cornerDemod 2 2 (fun _ _ => ⟨rfl, rfl⟩) 1 (Or.inr rfl) 1 rfl
  refine ⟨D', _, h1, (C34_flags_not_moved cornerDemod D').1 1 h1, ?_, ?_, ?_⟩
  · intro i j
    rw [h2]
    constructor <;> norm_num [cornerDemod, Img.quarterTurn, Img.ofFn_px']
  · norm_num [Img.ofFn_px']
  · norm_num [Img.ofFn_px']

example : ∀ i j, (cornerDemod.mij i j).HasShape 2 2 := fun _ _ => ⟨rfl, rfl⟩
example : ∃ D' : Demodulator ℚ, cornerDemod.flip (some 0) = .ok D' ∧ (D'.mij 1 2).px 1 0 = 9 := by
  obtain ⟨D', h1, h2⟩ := (C34_flip cornerDemod (some 0)).1 (Or.inl rfl)
  refine ⟨D', h1, ?_⟩
  rw [h2]
  norm_num [cornerDemod, Img.flipRows, Img.ofFn_px']

/-! ## C59 -/

/-- C59: on a square image of `m × m` superpixels the pixel `(a, b)` of superpixel `(Y, X)` receives the value of the
pixel with the same place `(a, b)` of superpixel `(m-1-X, m-1-Y)`. -/
theorem C59_data (A : Img K) (m : Nat) (hA : A.HasShape (2 * m) (2 * m)) :
    ∃ B, alignData A = .ok B ∧ B.SameShape A ∧
      ∀ Y X a b, Y < m → X < m → a < 2 → b < 2 →
        B.px (2 * Y + a) (2 * X + b) = A.px (2 * (m - 1 - X) + a) (2 * (m - 1 - Y) + b) := by
  obtain ⟨hh, hw⟩ := hA
  unfold alignData
  have e1 : A.h / 2 = m := by omega
  have e2 : A.w / 2 = m := by omega
  rw [split_ok (by omega) (by omega), Py.ok_bind, e1, e2, alignFamily_ok (m := m) ⟨rfl, rfl⟩, Py.ok_bind,
    alignFamily_ok (m := m) ⟨rfl, rfl⟩, Py.ok_bind, alignFamily_ok (m := m) ⟨rfl, rfl⟩, Py.ok_bind,
    alignFamily_ok (m := m) ⟨rfl, rfl⟩, Py.ok_bind]
  set s : Fin 4 → Img K := fun k => Img.ofFn m m (fun y x => (Img.ofFn m m
    (fun y x => A.px (2 * y + k.val / 2) (2 * x + k.val % 2))).px (m - 1 - x) (m - 1 - y)) with hs
  have hv : (![s 0, s 1, s 2, s 3] : Fin 4 → Img K) = s := vec4_eta s
  refine ⟨Img.ofFn (2 * m) (2 * m) (fun y x => (s (famIdx y x)).px (y / 2) (x / 2)), ?_, ⟨hh.symm, hw.symm⟩, ?_⟩
  · show mergePolarizations ![s 0, s 1, s 2, s 3] = _
    rw [hv]
    exact merge_ok (fun _ => rfl) (fun _ => rfl)
  · intro Y X a b hY hX ha hb
    rw [Img.ofFn_px (by omega) (by omega), hs]
    dsimp only
    rw [famIdx_val_div, famIdx_val_mod, Img.ofFn_px (by omega) (by omega), Img.ofFn_px (by omega) (by omega)]
    congr 1
    · omega
    · omega

/-- C59: transforming twice gives the data back. -/
theorem C59_involution (A : Img K) (m : Nat) (hA : A.HasShape (2 * m) (2 * m)) (B : Img K) (h : alignData A = .ok B) :
    alignData B = .ok A := by
  obtain ⟨B', h1, h2, h3⟩ := C59_data A m hA
  rw [h] at h1
  injection h1 with h1
  subst h1
  obtain ⟨C, g1, g2, g3⟩ := C59_data B m ⟨h2.1.trans hA.1, h2.2.trans hA.2⟩
  rw [g1]
  congr 1
  refine Img.ext_px (g2.1.trans h2.1) (g2.2.trans h2.2) ?_
  intro y x hy hx
  rw [g2.1, h2.1, hA.1] at hy
  rw [g2.2, h2.2, hA.2] at hx
  have ey : y = 2 * (y / 2) + y % 2 := by omega
  have ex : x = 2 * (x / 2) + x % 2 := by omega
  have k1 := g3 (y / 2) (x / 2) (y % 2) (x % 2) (by omega) (by omega) (by omega) (by omega)
  have k2 := h3 (m - 1 - x / 2) (m - 1 - y / 2) (y % 2) (x % 2) (by omega) (by omega) (by omega) (by omega)
  rw [← ey, ← ex] at k1
  rw [k1, k2]
  congr 1
  · omega
  · omega

/-- C59: data that are not square, or have an odd side, are rejected. -/
theorem C59_rejects (A : Img K) (h : A.h ≠ A.w ∨ A.h % 2 ≠ 0) : alignData A = .error .valueError := by
  unfold alignData
  by_cases hodd : A.h % 2 ≠ 0 ∨ A.w % 2 ≠ 0
  · rw [split_error hodd]
    rfl
  · have h1 : A.h % 2 = 0 := by omega
    have h2 : A.w % 2 = 0 := by omega
    rw [split_ok h1 h2, Py.ok_bind, alignFamily_error]
    · rfl
    · simp only [Img.ofFn_h, Img.ofFn_w]
      omega

/-- C59: the header describes the new data: sizes, scale and reference pixel (the image of the Sun centre, counted
from 1: row `y` of the old data becomes column `n - y`, column `x` becomes row `n - x`, where `n` is the side). -/
theorem C59_header {F : Type} [Field F] (trunc : F → Int) (dateObs timeObs : List Char) (A : Img F) (m : Nat)
    (hA : A.HasShape (2 * m) (2 * m)) (y x platescale : F) (binning : Int) :
    ∃ hdr B, alignKeywordsAndData trunc dateObs timeObs A y x platescale binning = .ok (hdr, B) ∧
      alignData A = .ok B ∧ hdr.naxis1 = B.w ∧ hdr.naxis2 = B.h ∧
      hdr.crpix1 = 2 * m - trunc ((((2 * m : Nat) : Int) : F) * (y / 1952)) ∧
      hdr.crpix2 = 2 * m - trunc ((((2 * m : Nat) : Int) : F) * (x / 1952)) ∧
      hdr.dateObs = dateObs ++ ['T'] ++ timeObs ∧
      (1 ≤ binning → hdr.cdelt1 = platescale * (binning : F) ∧ hdr.cdelt2 = platescale * (binning : F)) := by
  obtain ⟨B, h1, h2, -⟩ := C59_data A m hA
  unfold alignKeywordsAndData
  rw [h1, Py.ok_bind]
  have e1 : B.h = 2 * m := h2.1.trans hA.1
  have e2 : B.w = 2 * m := h2.2.trans hA.2
  refine ⟨_, B, rfl, rfl, ?_, ?_, ?_, ?_, rfl, ?_⟩
  · dsimp only; rw [e1, e2]
  · dsimp only; rw [e1, e2]
  · dsimp only; rw [e1]; push_cast; rfl
  · dsimp only; rw [e2]; push_cast; rfl
  · intro hb
    dsimp only
    split
    · exact ⟨rfl, rfl⟩
    · have : binning = 1 := by omega
      rw [this]
      simp

/-- C59: for a full frame (side 1952) and a Sun centre at the integer pixel `(y, x)` the reference pixel is exactly
`(1952 - y, 1952 - x)`. -/
theorem C59_full_frame (dateObs timeObs : List Char) (A : Img ℚ) (hA : A.HasShape 1952 1952) (y x : Int)
    (platescale : ℚ) :
    ∃ hdr B, alignKeywordsAndData (fun q => if 0 ≤ q then ⌊q⌋ else ⌈q⌉) dateObs timeObs A (y : ℚ) (x : ℚ) platescale 1
      = .ok (hdr, B) ∧ hdr.crpix1 = 1952 - y ∧ hdr.crpix2 = 1952 - x ∧ hdr.cdelt1 = platescale := by
  obtain ⟨hdr, B, h1, -, -, -, h2, h3, -, h4⟩ := C59_header (fun q : ℚ => if 0 ≤ q then ⌊q⌋ else ⌈q⌉) dateObs timeObs A
    976 hA (y : ℚ) (x : ℚ) platescale 1
  have key : ∀ z : Int, (if (0 : ℚ) ≤ (((2 * 976 : Nat) : Int) : ℚ) * ((z : ℚ) / 1952) then
      ⌊(((2 * 976 : Nat) : Int) : ℚ) * ((z : ℚ) / 1952)⌋ else ⌈(((2 * 976 : Nat) : Int) : ℚ) * ((z : ℚ) / 1952)⌉) = z := by
    intro z
    have : (((2 * 976 : Nat) : Int) : ℚ) * ((z : ℚ) / 1952) = (z : ℚ) := by
      push_cast
      field_simp
    rw [this, Int.floor_intCast, Int.ceil_intCast, ite_self]
  refine ⟨hdr, B, h1, ?_, ?_, ?_⟩
  · rw [h2, key]; norm_num
  · rw [h3, key]; norm_num
  · rw [(h4 le_rfl).1]; simp

example : ∃ B, alignData (Img.ofFn 4 4 (fun y x => (10 * y + x : ℚ))) = .ok B ∧ B.px 0 1 = 23 := by
  obtain ⟨B, h1, -, h3⟩ := C59_data (Img.ofFn 4 4 (fun y x => (10 * y + x : ℚ))) 2 ⟨rfl, rfl⟩
  refine ⟨B, h1, ?_⟩
  have := h3 0 0 0 1 (by decide) (by decide) (by decide) (by decide)
  norm_num [Img.ofFn_px'] at this
  exact this

end Micropol

import Verif.Lemmas.UnitsData
import Verif.Lemmas.LightData
import Verif.Lemmas.Prepare
import Verif.Lemmas.Demodulate
import Verif.Props.Stability

/-! # Pixel operations on arrays that differ a little -/

set_option autoImplicit false
set_option linter.unusedSectionVars false

namespace Micropol

noncomputable section

/-- The numbers differ by at most `ε`. -/
def NrN (ε a b : ℝ) : Prop := |a - b| ≤ ε

/-- The arrays have the same shape and differ by at most `ε`. -/
structure Nr (ε : ℝ) (A B : Img ℝ) : Prop where
  h : B.h = A.h
  w : B.w = A.w
  px : ∀ y x, |A.px y x - B.px y x| ≤ ε

theorem Nr.pos {ε : ℝ} {A B : Img ℝ} (h : Nr ε A B) : 0 ≤ ε := (abs_nonneg _).trans (h.px 0 0)

theorem Nr.within {ε : ℝ} {A B : Img ℝ} (h : Nr ε A B) : PxWithin ε A B := ⟨⟨h.h.symm, h.w.symm⟩, fun y x _ _ => h.px y x⟩

theorem PxWithin.nr {ε : ℝ} (hε : 0 ≤ ε) {A B : Img ℝ} (h : PxWithin ε A B) : Nr ε A B := by
  refine ⟨h.1.1.symm, h.1.2.symm, fun y x => ?_⟩
  by_cases hc : y < A.h ∧ x < A.w
  · exact h.2 y x hc.1 hc.2
  · rw [A.out y x hc, B.out y x (by rw [← h.1.1, ← h.1.2]; exact hc), sub_self, abs_zero]
    exact hε

theorem Nr.mono {ε δ : ℝ} {A B : Img ℝ} (h : Nr ε A B) (hε : ε ≤ δ) : Nr δ A B := ⟨h.h, h.w, fun y x => (h.px y x).trans hε⟩

theorem Nr.zero {A B : Img ℝ} (h : Nr 0 A B) : B = A :=
  Img.ext_px h.h h.w fun y x _ _ => (sub_eq_zero.1 (abs_eq_zero.1 (le_antisymm (h.px y x) (abs_nonneg _)))).symm

theorem Nr.refl {ε : ℝ} (hε : 0 ≤ ε) (A : Img ℝ) : Nr ε A A := ⟨rfl, rfl, fun y x => by rw [sub_self, abs_zero]; exact hε⟩

theorem NrN.refl {ε : ℝ} (hε : 0 ≤ ε) (a : ℝ) : NrN ε a a := by unfold NrN; rw [sub_self, abs_zero]; exact hε

theorem NrN.half {ε a b a' b' : ℝ} (h : NrN ε a a') (k : NrN ε b b') : NrN ε ((1 / 2) * (a + b)) ((1 / 2) * (a' + b')) := by
  unfold NrN at *
  rw [abs_le] at *
  constructor <;> linarith [h.1, h.2, k.1, k.2]

theorem NrN.quarter {ε a b c d a' b' c' d' : ℝ} (h : NrN ε a a') (k : NrN ε b b') (i : NrN ε c c') (j : NrN ε d d') :
    NrN ε ((1 / 4) * (a + b + c + d)) ((1 / 4) * (a' + b' + c' + d')) := by
  unfold NrN at *
  rw [abs_le] at *
  constructor <;> linarith [h.1, h.2, k.1, k.2, i.1, i.2, j.1, j.2]

theorem NrN.fourth {ε a a' : ℝ} (h : NrN ε a a') : NrN ε (a * (1 / 4)) (a' * (1 / 4)) := by
  have hε : 0 ≤ ε := (abs_nonneg _).trans h
  unfold NrN at *
  rw [abs_le] at *
  constructor <;> linarith [h.1, h.2]

variable {ε : ℝ}

theorem Nr.ofFn (hε : 0 ≤ ε) {h w : Nat} {f g : Nat → Nat → ℝ} (hfg : ∀ y x, y < h → x < w → |f y x - g y x| ≤ ε) :
    Nr ε (Img.ofFn h w f) (Img.ofFn h w g) := by
  refine ⟨rfl, rfl, fun y x => ?_⟩
  rw [Img.ofFn_px', Img.ofFn_px']
  split
  · rename_i hc
    exact hfg y x hc.1 hc.2
  · rw [sub_self, abs_zero]; exact hε

theorem Nr.ofFn' (hε : 0 ≤ ε) {h w h' w' : Nat} {f g : Nat → Nat → ℝ} (hh : h' = h) (hw : w' = w)
    (hfg : ∀ y x, y < h → x < w → |f y x - g y x| ≤ ε) : Nr ε (Img.ofFn h w f) (Img.ofFn h' w' g) := by
  subst hh hw
  exact Nr.ofFn hε hfg

theorem Nr.const (h w : Nat) {v v' : ℝ} (hv : NrN ε v v') : Nr ε (Img.const h w v) (Img.const h w v') :=
  Nr.ofFn ((abs_nonneg _).trans hv) fun _ _ _ _ => hv

section
variable {A B : Img ℝ}

theorem Nr.read (hA : Nr ε A B) (i j : Int) : PyRel (NrN ε) (A.read i j) (B.read i j) := by
  unfold Img.read Img.readE
  rw [hA.h, hA.w]
  split
  · exact hA.px _ _
  · rfl

theorem Nr.setPx (hA : Nr ε A B) (y x : Nat) {v v' : ℝ} (hv : NrN ε v v') : Nr ε (A.setPx y x v) (B.setPx y x v') := by
  refine Nr.ofFn' hA.pos hA.h hA.w fun y' x' _ _ => ?_
  split
  · exact hv
  · exact hA.px _ _

theorem Nr.write (hA : Nr ε A B) (i j : Int) {v v' : ℝ} (hv : NrN ε v v') : PyRel (Nr ε) (A.write i j v) (B.write i j v') := by
  unfold Img.write
  rw [hA.h, hA.w]
  split
  · exact hA.setPx _ _ hv
  · rfl

theorem Nr.fillSlice (hA : Nr ε A B) (y0 y1 x0 x1 : Int) {v v' : ℝ} (hv : NrN ε v v') :
    Nr ε (A.fillSlice y0 y1 x0 x1 v) (B.fillSlice y0 y1 x0 x1 v') := by
  refine Nr.ofFn' hA.pos hA.h hA.w fun y' x' _ _ => ?_
  split
  · exact hv
  · exact hA.px _ _

/-- Four arrays. -/
def Nr4 (ε : ℝ) (s t : Fin 4 → Img ℝ) : Prop := ∀ k, Nr ε (s k) (t k)

/-- Three arrays. -/
def Nr3 (ε : ℝ) (s t : Fin 3 → Img ℝ) : Prop := ∀ k, Nr ε (s k) (t k)

theorem Nr4.mono {δ : ℝ} {s t : Fin 4 → Img ℝ} (h : Nr4 ε s t) (hε : ε ≤ δ) : Nr4 δ s t := fun k => (h k).mono hε
theorem Nr3.mono {δ : ℝ} {s t : Fin 3 → Img ℝ} (h : Nr3 ε s t) (hε : ε ≤ δ) : Nr3 δ s t := fun k => (h k).mono hε

theorem Nr4.mk {a b d e a' b' d' e' : Img ℝ} (ha : Nr ε a a') (hb : Nr ε b b') (hd : Nr ε d d') (he : Nr ε e e') :
    Nr4 ε ![a, b, d, e] ![a', b', d', e'] := by
  intro k
  fin_cases k
  · exact ha
  · exact hb
  · exact hd
  · exact he

theorem Nr3.mk {a b d a' b' d' : Img ℝ} (ha : Nr ε a a') (hb : Nr ε b b') (hd : Nr ε d d') :
    Nr3 ε ![a, b, d] ![a', b', d'] := by
  intro k
  fin_cases k
  · exact ha
  · exact hb
  · exact hd

theorem Nr.stride2 (hA : Nr ε A B) (j i : Nat) : Nr ε (A.stride2 j i) (B.stride2 j i) := by
  unfold Img.stride2
  refine Nr.ofFn' hA.pos ?_ ?_ fun y' x' _ _ => hA.px _ _
  · rw [hA.h]
  · rw [hA.w]

theorem Nr.split (hA : Nr ε A B) : PyRel (Nr4 ε) (splitPolarizations A) (splitPolarizations B) := by
  unfold splitPolarizations
  rw [hA.h, hA.w]
  split
  · rfl
  · exact fun k => hA.stride2 _ _

theorem Nr.assignStride2 (hA : Nr ε A B) (j i : Nat) {s t : Img ℝ} (hs : Nr ε s t) :
    PyRel (Nr ε) (A.assignStride2 j i s) (B.assignStride2 j i t) := by
  unfold Img.assignStride2
  rw [hA.h, hA.w, hs.h, hs.w]
  split
  · refine Nr.ofFn hA.pos fun y x _ _ => ?_
    split
    · exact hs.px _ _
    · exact hA.px _ _
  · rfl

theorem Nr4.merge {s t : Fin 4 → Img ℝ} (hs : Nr4 ε s t) : PyRel (Nr ε) (mergePolarizations s) (mergePolarizations t) := by
  unfold mergePolarizations
  rw [(hs 0).h, (hs 0).w]
  exact PyRel.bind ((Nr.const _ _ (NrN.refl (hs 0).pos 0)).assignStride2 0 0 (hs 0)) fun _ _ h =>
    PyRel.bind (h.assignStride2 0 1 (hs 1)) fun _ _ h =>
    PyRel.bind (h.assignStride2 1 0 (hs 2)) fun _ _ h => h.assignStride2 1 1 (hs 3)

/-! ## numpy -/

theorem nr_npBinAt {a b : ℝ} {A' B' : Img ℝ} {f g : Nat → Nat → ℝ → ℝ → ℝ} (hε : 0 ≤ ε)
    (hf : ∀ y x u v u' v', |u - u'| ≤ a → |v - v'| ≤ b → |f y x u v - g y x u' v'| ≤ ε)
    (hA : Nr a A A') (hB : Nr b B B') : PyRel (Nr ε) (npBinAt f A B) (npBinAt g A' B') := by
  unfold npBinAt
  rw [hA.h, hA.w, hB.h, hB.w]
  exact PyRel.binds fun h => PyRel.binds fun w => Nr.ofFn hε fun y x _ _ => hf y x _ _ _ _ (hA.px _ _) (hB.px _ _)

theorem bdim_lt {a b h y : Nat} (e : bdim a b = .ok h) (hy : y < h) : bidx a y < a ∧ bidx b y < b := by
  unfold bdim at e
  unfold bidx
  split_ifs at e <;> injection e with e <;> subst e <;> split_ifs <;> omega

theorem PyRel.bindsEq {α γ δ : Type} {T : γ → δ → Prop} {x : Py α} {f : α → Py γ} {g : α → Py δ}
    (hf : ∀ a, x = .ok a → PyRel T (f a) (g a)) : PyRel T (x >>= f) (x >>= g) := by
  cases x with
  | error e => rfl
  | ok a => exact hf a rfl

/-- Elementwise operations whose pixels are looked at only where they exist. -/
theorem nr_npBinPx {A' : Img ℝ} {f g : Nat → Nat → ℝ → ℝ → ℝ} (hε : 0 ≤ ε)
    (hf : ∀ y x i j i' j', i < A.h → j < A.w → i' < B.h → j' < B.w →
      |f y x (A.px i j) (B.px i' j') - g y x (A'.px i j) (B.px i' j')| ≤ ε)
    (h1 : A'.h = A.h) (h2 : A'.w = A.w) : PyRel (Nr ε) (npBinAt f A B) (npBinAt g A' B) := by
  unfold npBinAt
  rw [h1, h2]
  exact PyRel.bindsEq fun h eh => PyRel.bindsEq fun w ew => Nr.ofFn hε fun y x hy hx =>
    hf y x _ _ _ _ (bdim_lt eh hy).1 (bdim_lt ew hx).1 (bdim_lt eh hy).2 (bdim_lt ew hx).2

theorem nr_npBinBoth {A' B' : Img ℝ} {f g : Nat → Nat → ℝ → ℝ → ℝ} (hε : 0 ≤ ε)
    (hf : ∀ y x i j i' j', i < A.h → j < A.w → i' < B.h → j' < B.w →
      |f y x (A.px i j) (B.px i' j') - g y x (A'.px i j) (B'.px i' j')| ≤ ε)
    (h1 : A'.h = A.h) (h2 : A'.w = A.w) (h3 : B'.h = B.h) (h4 : B'.w = B.w) : PyRel (Nr ε) (npBinAt f A B) (npBinAt g A' B') := by
  unfold npBinAt
  rw [h1, h2, h3, h4]
  exact PyRel.bindsEq fun h eh => PyRel.bindsEq fun w ew => Nr.ofFn hε fun y x hy hx =>
    hf y x _ _ _ _ (bdim_lt eh hy).1 (bdim_lt ew hx).1 (bdim_lt eh hy).2 (bdim_lt ew hx).2

theorem nr_npWhere (M : Img Bool) {A' B' : Img ℝ} (hA : Nr ε A A') (hB : Nr ε B B') :
    PyRel (Nr ε) (npWhere M A B) (npWhere M A' B') := by
  unfold npWhere
  rw [hA.h, hA.w, hB.h, hB.w]
  refine PyRel.binds fun h => PyRel.binds fun w => PyRel.binds fun h => PyRel.binds fun w => Nr.ofFn hA.pos fun y x _ _ => ?_
  split
  · exact hA.px _ _
  · exact hB.px _ _

/-! ## Arithmetic and corrections -/

theorem nr_dark {δ : ℝ} {D D' : Img ℝ} (hA : Nr ε A B) (hD : Nr δ D D') :
    PyRel (Nr (ε + δ)) (subtractDarkData A D) (subtractDarkData B D') := by
  have h0 := add_nonneg hA.pos hD.pos
  unfold subtractDarkData npBin
  refine PyRel.bind (R := Nr (ε + δ)) (nr_npBinAt (a := ε) (b := δ) h0 (fun _ _ u v u' v' hu hv => ?_) hA hD) fun P Q hPQ => ?_
  · rw [abs_le] at *
    constructor <;> linarith [hu.1, hu.2, hv.1, hv.2]
  · refine Nr.ofFn' h0 hPQ.h hPQ.w fun y x _ _ => ?_
    have e : ∀ v : ℝ, (if v ≥ 0 then v else 0) = max v 0 := fun v => by
      split
      · rename_i h; exact (max_eq_left h).symm
      · rename_i h; exact (max_eq_right (not_le.1 h).le).symm
    show |(if P.px y x ≥ 0 then P.px y x else 0) - (if Q.px y x ≥ 0 then Q.px y x else 0)| ≤ ε + δ
    rw [e, e]
    exact (abs_max_sub_max_le_abs _ _ _).trans (hPQ.px y x)

theorem nr_flat {G : ℝ} (hG : 0 ≤ G) {junk junk' : Nat → Nat → ℝ} {F : Img ℝ} (hA : Nr ε A B)
    (hF : ∀ y x, y < F.h → x < F.w → F.px y x ≠ 0 ∧ |F.mean| ≤ G * |F.px y x|) :
    PyRel (Nr (G * ε)) (correctFlatData junk A F) (correctFlatData junk' B F) := by
  unfold correctFlatData
  refine PyRel.bindsEq fun m hm => ?_
  by_cases h0 : m = 0
  · rw [if_pos h0, if_pos h0]
    rfl
  · rw [if_neg h0, if_neg h0]
    have em : m = F.mean := by
      unfold npMean at hm
      split at hm
      · cases hm
      · injection hm with hm
        rw [← hm]
        rfl
    refine nr_npBinPx (mul_nonneg hG hA.pos) (fun y x i j i' j' hi hj hi' hj' => ?_) hA.h hA.w
    have hi2 : i' < F.h := hi'
    have hj2 : j' < F.w := hj'
    obtain ⟨g0, g1⟩ := hF i' j' hi2 hj2
    rw [Img.map_px _ _ hi2 hj2]
    have hne : F.px i' j' / m ≠ 0 := div_ne_zero g0 h0
    rw [if_pos hne, if_pos hne, ← sub_div, abs_div, abs_div, div_div_eq_mul_div, div_le_iff₀ (abs_pos.2 g0), em]
    calc |A.px i j - B.px i j| * |F.mean| ≤ ε * (G * |F.px i' j'|) := mul_le_mul (hA.px i j) g1 (abs_nonneg _) hA.pos
      _ = _ := by ring

theorem nr_add {δ : ℝ} {C D : Img ℝ} (hA : Nr ε A B) (hC : Nr δ C D) (junk junk' : Nat → Nat → ℝ) :
    PyRel (Nr (ε + δ)) (arithData .add junk A (.image C)) (arithData .add junk' B (.image D)) :=
  nr_npBinAt (a := ε) (b := δ) (add_nonneg hA.pos hC.pos) (fun _ _ u v u' v' hu hv => by
    rw [abs_le] at *
    constructor <;> linarith [hu.1, hu.2, hv.1, hv.2]) hA hC

theorem nr_sub {δ : ℝ} {C D : Img ℝ} (hA : Nr ε A B) (hC : Nr δ C D) (junk junk' : Nat → Nat → ℝ) :
    PyRel (Nr (ε + δ)) (arithData .sub junk A (.image C)) (arithData .sub junk' B (.image D)) :=
  nr_npBinAt (a := ε) (b := δ) (add_nonneg hA.pos hC.pos) (fun _ _ u v u' v' hu hv => by
    rw [abs_le] at *
    constructor <;> linarith [hu.1, hu.2, hv.1, hv.2]) hA hC

theorem nr_mul {δ M N : ℝ} {C D : Img ℝ} (hA : Nr ε A B) (hC : Nr δ C D) (hM : ∀ y x, y < A.h → x < A.w → |A.px y x| ≤ M)
    (hN : ∀ y x, y < C.h → x < C.w → |C.px y x| ≤ N) (h0 : 0 ≤ M) (h1 : 0 ≤ N) (junk junk' : Nat → Nat → ℝ) :
    PyRel (Nr (M * δ + N * ε + ε * δ)) (arithData .mul junk A (.image C)) (arithData .mul junk' B (.image D)) := by
  have p := hA.pos
  have q := hC.pos
  refine nr_npBinBoth (by positivity) (fun y x i j i' j' hi hj hi' hj' => ?_) hA.h hA.w hC.h hC.w
  have e : A.px i j * C.px i' j' - B.px i j * D.px i' j' =
      A.px i j * (C.px i' j' - D.px i' j') + (A.px i j - B.px i j) * C.px i' j' -
        (A.px i j - B.px i j) * (C.px i' j' - D.px i' j') := by ring
  rw [e]
  refine (abs_sub _ _).trans (add_le_add ((abs_add_le _ _).trans (add_le_add ?_ ?_)) ?_)
  · rw [abs_mul]
    exact mul_le_mul (hM _ _ hi hj) (hC.px _ _) (abs_nonneg _) h0
  · rw [abs_mul, mul_comm]
    exact mul_le_mul (hN _ _ hi' hj') (hA.px _ _) (abs_nonneg _) h1
  · rw [abs_mul]
    exact mul_le_mul (hA.px _ _) (hC.px _ _) (abs_nonneg _) p

theorem nr_div {G : ℝ} {C : Img ℝ} (hA : Nr ε A B) (hG : 0 ≤ G) (hC : ∀ y x, y < C.h → x < C.w → C.px y x ≠ 0 ∧ 1 ≤ G * |C.px y x|)
    (junk junk' : Nat → Nat → ℝ) : PyRel (Nr (G * ε)) (arithData .div junk A (.image C)) (arithData .div junk' B (.image C)) := by
  unfold arithData divData
  refine nr_npBinPx (mul_nonneg hG hA.pos) (fun y x i j i' j' hi hj hi' hj' => ?_) hA.h hA.w
  obtain ⟨g0, g1⟩ := hC i' j' hi' hj'
  rw [if_pos g0, if_pos g0, ← sub_div, abs_div, div_le_iff₀ (abs_pos.2 g0)]
  calc |A.px i j - B.px i j| ≤ ε * 1 := by rw [mul_one]; exact hA.px i j
    _ ≤ ε * (G * |C.px i' j'|) := mul_le_mul_of_nonneg_left g1 hA.pos
    _ = _ := by ring

theorem nr_number (op : Arith) {c : ℝ} (hc : op = .div → c ≠ 0) (hA : Nr ε A B) (junk junk' : Nat → Nat → ℝ) :
    PyRel (Nr (numberFactor op c * ε)) (arithData op junk A (.number c)) (arithData op junk' B (.number c)) := by
  have p := hA.pos
  cases op with
  | add =>
    refine Nr.ofFn' (by unfold numberFactor; linarith) hA.h hA.w fun y x _ _ => ?_
    show |_ + c - (_ + c)| ≤ 1 * ε
    rw [add_sub_add_right_eq_sub, one_mul]
    exact hA.px y x
  | sub =>
    refine Nr.ofFn' (by unfold numberFactor; linarith) hA.h hA.w fun y x _ _ => ?_
    show |_ - c - (_ - c)| ≤ 1 * ε
    rw [sub_sub_sub_cancel_right, one_mul]
    exact hA.px y x
  | mul =>
    refine Nr.ofFn' (by unfold numberFactor; positivity) hA.h hA.w fun y x _ _ => ?_
    show |_ * c - _ * c| ≤ |c| * ε
    rw [← sub_mul, abs_mul, mul_comm]
    exact mul_le_mul_of_nonneg_left (hA.px y x) (abs_nonneg _)
  | div =>
    refine Nr.ofFn' (by unfold numberFactor; positivity) hA.h hA.w fun y x _ _ => ?_
    rw [if_pos (hc rfl), if_pos (hc rfl)]
    show |_ / c - _ / c| ≤ 1 / |c| * ε
    rw [← sub_div, abs_div, one_div_mul_eq_div]
    exact div_le_div_of_nonneg_right (hA.px y x) (abs_nonneg _)

theorem nr_median (hA : Nr ε A B) : Nr ε (medianFilter 2 A) (medianFilter 2 B) :=
  PxWithin.nr hA.pos ⟨⟨hA.h.symm, hA.w.symm⟩, fun _ _ hy hx => median_within hA.within hy hx⟩

theorem nr_clean (hA : Nr ε A B) (F : Img ℝ) :
    PyRel (Nr ε) (cleanHotPixelsData (medianFilter 2) A F) (cleanHotPixelsData (medianFilter 2) B F) :=
  PyRel.bind hA.split fun _ _ hs => PyRel.binds fun _ =>
  PyRel.bind (nr_npWhere _ (nr_median (hs 0)) (hs 0)) fun _ _ h0 => PyRel.bind (nr_npWhere _ (nr_median (hs 1)) (hs 1)) fun _ _ h1 =>
  PyRel.bind (nr_npWhere _ (nr_median (hs 2)) (hs 2)) fun _ _ h2 => PyRel.bind (nr_npWhere _ (nr_median (hs 3)) (hs 3)) fun _ _ h3 =>
  (Nr4.mk h0 h1 h2 h3).merge

/-! ## The kernels -/

theorem nr_rebin (hA : Nr ε A B) (he : EvenImg A) {b : Int} (hb : 0 < b) :
    PyRel (Nr ((b : ℝ) ^ 2 * ε)) (micropolarrayRebin A b) (micropolarrayRebin B b) := by
  obtain ⟨m, rfl⟩ := Int.eq_ofNat_of_zero_le hb.le
  have p := hA.pos
  rw [rebin_fam A (by omega) he.1 he.2, rebin_fam B (by omega) (by rw [hA.h]; exact he.1) (by rw [hA.w]; exact he.2)]
  refine Nr.ofFn' (by positivity) (by rw [hA.h]) (by rw [hA.w]) fun y x hy hx => ?_
  exact_mod_cast familySum_within hA.within hy hx

theorem nr_ifov (hA : Nr ε A B) : PyRel (Nr ε) (correctIfovData A) (correctIfovData B) := by
  unfold correctIfovData ifovJitcorrect
  rw [hA.h, hA.w]
  exact PyRel.forRange (Nr.const _ _ (NrN.refl hA.pos 0)) fun _ _ _ hN => PyRel.forRange hN fun _ _ _ hN =>
    PyRel.forRange hN fun _ _ _ hN => PyRel.forRange hN fun _ _ _ hN => PyRel.bind (hA.read _ _) fun _ _ ha =>
    PyRel.bind (hA.read _ _) fun _ _ hb => PyRel.bind (hA.read _ _) fun _ _ hd => PyRel.bind (hA.read _ _) fun _ _ he =>
      hN.write _ _ (NrN.quarter ha hb hd he)

theorem nr_shiftKernel (hA : Nr ε A B) (y x : Int) (m : ℝ) : PyRel (Nr ε) (shiftKernel A y x m) (shiftKernel B y x m) := by
  unfold shiftKernel
  rw [hA.h, hA.w]
  exact PyRel.forRange (Nr.const _ _ (NrN.refl hA.pos m)) fun _ _ _ hN => PyRel.forRange hN fun _ _ _ hN =>
    PyRel.bind (hA.read _ _) fun _ _ ha => hN.write _ _ ha

theorem nr_shift (hA : Nr ε A B) (y x : Int) (m : ℝ) : PyRel (Nr ε) (shiftMicropol A y x m) (shiftMicropol B y x m) :=
  PyRel.bind hA.split fun _ _ hs => PyRel.bind (nr_shiftKernel (hs 0) y x m) fun _ _ h0 =>
  PyRel.bind (nr_shiftKernel (hs 1) y x m) fun _ _ h1 => PyRel.bind (nr_shiftKernel (hs 2) y x m) fun _ _ h2 =>
  PyRel.bind (nr_shiftKernel (hs 3) y x m) fun _ _ h3 => (Nr4.mk h0 h1 h2 h3).merge

/-- The loop state of the two demosaicing kernels. -/
def NrSt (ε : ℝ) (s t : Img ℝ × (Fin 4 → Img ℝ) × Nat) : Prop := Nr ε s.1 t.1 ∧ Nr4 ε s.2.1 t.2.1 ∧ s.2.2 = t.2.2

theorem nr_setAt4 {s t : Fin 4 → Img ℝ} (hs : Nr4 ε s t) (k : Nat) (hA : Nr ε A B) : PyRel (Nr4 ε) (setAt4 s k A) (setAt4 t k B) := by
  unfold setAt4
  split
  · intro j
    dsimp only
    split
    · exact hA
    · exact hs j
  · rfl

theorem nr_families {body body' : Int → Int → Img ℝ → Py (Img ℝ)}
    (hb : ∀ i j s t, Nr ε s t → PyRel (Nr ε) (body i j s) (body' i j t)) (h w : Nat) (hA : Nr ε A B) :
    PyRel (Nr4 ε)
      (do
        let st ← forRange 0 2 1 ((A, fun _ => Img.zeros h w, 0) : Img ℝ × (Fin 4 → Img ℝ) × Nat)
          fun j st => forRange 0 2 1 st fun i st => do
            let temp ← body j i st.1
            let demo ← setAt4 st.2.1 st.2.2 temp
            pure (temp, demo, st.2.2 + 1)
        pure st.2.1)
      (do
        let st ← forRange 0 2 1 ((B, fun _ => Img.zeros h w, 0) : Img ℝ × (Fin 4 → Img ℝ) × Nat)
          fun j st => forRange 0 2 1 st fun i st => do
            let temp ← body' j i st.1
            let demo ← setAt4 st.2.1 st.2.2 temp
            pure (temp, demo, st.2.2 + 1)
        pure st.2.1) := by
  refine PyRel.bind (R := NrSt ε) (PyRel.forRange ⟨hA, fun _ => Nr.refl hA.pos _, rfl⟩ fun j _ _ hs =>
    PyRel.forRange hs fun i s t hs => PyRel.bind (hb j i _ _ hs.1) fun a b hab => ?_) fun s t hs => hs.2.1
  rw [← hs.2.2]
  exact PyRel.bind (nr_setAt4 hs.2.1 _ hab) fun _ _ hd => ⟨hab, hd, rfl⟩

theorem nr_demosaicmean (hA : Nr ε A B) : PyRel (Nr4 ε) (demosaicmean A) (demosaicmean B) := by
  unfold demosaicmean
  rw [hA.h, hA.w]
  refine nr_families (fun i j s t hs => ?_) _ _ hA
  unfold demosaicmeanFamily
  rw [hA.h, hA.w]
  exact PyRel.forRange hs fun _ _ _ hs => PyRel.forRange hs fun _ _ _ hs => PyRel.bind (hA.read _ _) fun _ _ hv =>
    hs.fillSlice _ _ _ _ hv.fourth

theorem nr_demosaicadjacent (hA : Nr ε A B) : PyRel (Nr4 ε) (demosaicadjacent A) (demosaicadjacent B) := by
  unfold demosaicadjacent
  rw [hA.h, hA.w]
  refine nr_families (fun i j s t hs => ?_) _ _ hA
  unfold demosaicadjacentFamily
  rw [hA.h, hA.w]
  refine PyRel.forRange hs fun _ _ _ hs => PyRel.forRange hs fun _ _ _ hs =>
    PyRel.bind (hA.read _ _) fun _ _ ha => PyRel.bind (hs.write _ _ ha) fun _ _ hs =>
    PyRel.bind (hA.read _ _) fun _ _ ha => PyRel.bind (hA.read _ _) fun _ _ hb =>
    PyRel.bind (hs.write _ _ (NrN.half ha hb)) fun _ _ hs =>
    PyRel.bind (hA.read _ _) fun _ _ ha => PyRel.bind (hA.read _ _) fun _ _ hb =>
    PyRel.bind (hs.write _ _ (NrN.half ha hb)) fun _ _ hs =>
    PyRel.bind (hA.read _ _) fun _ _ ha => PyRel.bind (hA.read _ _) fun _ _ hb =>
    PyRel.bind (hA.read _ _) fun _ _ hd => PyRel.bind (hA.read _ _) fun _ _ he =>
    hs.write _ _ ?_
  have := NrN.quarter ha hb hd he
  rwa [mul_comm (1 / 4 : ℝ), mul_comm (1 / 4 : ℝ)] at this

theorem nr_demosaic (hA : Nr ε A B) (mode : String) : PyRel (Nr4 ε) (demosaic A mode) (demosaic B mode) := by
  unfold demosaic
  split
  · exact nr_demosaicmean hA
  split
  · have h1 : Nr ε (vstackLast2 A) (vstackLast2 B) := by
      unfold vstackLast2
      rw [hA.h, hA.w]
      refine Nr.ofFn hA.pos fun y x _ _ => ?_
      split
      · exact hA.px _ _
      · exact hA.px _ _
    have h2 : Nr ε (hstackLast2 (vstackLast2 A)) (hstackLast2 (vstackLast2 B)) := by
      unfold hstackLast2
      rw [h1.h, h1.w]
      refine Nr.ofFn hA.pos fun y x _ _ => ?_
      split
      · exact h1.px _ _
      · exact h1.px _ _
    refine PyRel.bind (nr_demosaicadjacent h2) fun s t hs k => ?_
    unfold cropLast2
    exact Nr.ofFn' hA.pos (by rw [(hs k).h]) (by rw [(hs k).w]) fun y x _ _ => (hs k).px _ _
  split
  · rfl
  · rfl

/-! ## Stokes -/

theorem Nr.zipWith {A' B' : Img ℝ} (hA : Nr ε A A') (hB : Nr ε B B') :
    Nr (2 * ε) (Img.zipWith (· - ·) A B) (Img.zipWith (· - ·) A' B') := by
  unfold Img.zipWith
  refine Nr.ofFn' (by linarith [hA.pos]) (by rw [hA.h]) (by rw [hA.w]) fun y x _ _ => ?_
  have h := abs_le.1 (hA.px y x)
  have k := abs_le.1 (hB.px y x)
  rw [abs_le]
  constructor <;> linarith [h.1, h.2, k.1, k.2]

theorem nr_sub4 {s t : Fin 4 → Img ℝ} (hs : Nr4 ε s t) (i : Int) : PyRel (Nr ε) (sub4 s i) (sub4 t i) := by
  unfold sub4
  split
  · split
    · exact hs _
    · rfl
  · rfl

theorem nr_theo {s t : Fin 4 → Img ℝ} (hs : Nr4 ε s t) (dic : AngleDic) : PyRel (Nr3 (2 * ε)) (theoStokes s dic) (theoStokes t dic) := by
  have p := (hs 0).pos
  unfold theoStokes
  refine PyRel.binds fun _ => PyRel.bind (nr_sub4 hs _) fun _ _ h0 => PyRel.binds fun _ => PyRel.bind (nr_sub4 hs _) fun _ _ h90 =>
    PyRel.binds fun _ => PyRel.bind (nr_sub4 hs _) fun _ _ h45 => PyRel.binds fun _ => PyRel.bind (nr_sub4 hs _) fun _ _ hm45 =>
    Nr3.mk (Nr.ofFn' (by linarith) (hs 0).h (hs 0).w fun y x _ _ => ?_) (h0.zipWith h90) (h45.zipWith hm45)
  have k := fun q => abs_le.1 ((hs q).px y x)
  rw [abs_le]
  constructor <;> linarith [(k 0).1, (k 0).2, (k 1).1, (k 1).2, (k 2).1, (k 2).2, (k 3).1, (k 3).2]

theorem nr_dataStokes (hA : Nr ε A B) (dic : AngleDic) : PyRel (Nr3 (2 * ε)) (dataStokes A dic) (dataStokes B dic) :=
  PyRel.bind hA.split fun _ _ hs => nr_theo hs dic

/-- All rows of a demodulation tensor have absolute sums of at most `K`. -/
def RowSums (mij : Fin 3 → Fin 4 → Img ℝ) (K : ℝ) : Prop := ∀ q y x, ∑ c, |(mij q c).px y x| ≤ K

theorem nr_matmul {mij : Fin 3 → Fin 4 → Img ℝ} {K : ℝ} (hK : RowSums mij K) {s t : Fin 4 → Img ℝ} (hs : Nr4 ε s t) :
    PyRel (Nr3 (K * ε)) (matmulPols mij s) (matmulPols mij t) := by
  have p := (hs 0).pos
  have k0 : 0 ≤ K := (Finset.sum_nonneg fun c _ => abs_nonneg _).trans (hK 0 0 0)
  unfold matmulPols
  dsimp only
  rw [(hs 0).h, (hs 0).w]
  refine PyRel.binds fun h => PyRel.binds fun w => fun i => Nr.ofFn (mul_nonneg k0 p) fun y x _ _ => ?_
  have hrow := hK i (bidx (mij 0 0).h y) (bidx (mij 0 0).w x)
  rw [Fin.sum_univ_four] at hrow
  have bound : ∀ m a b : ℝ, |a - b| ≤ ε → |m * a - m * b| ≤ |m| * ε := fun m a b hab => by
    rw [← mul_sub, abs_mul]
    exact mul_le_mul_of_nonneg_left hab (abs_nonneg _)
  have q := fun c : Fin 4 => abs_le.1 (bound ((mij i c).px (bidx (mij 0 0).h y) (bidx (mij 0 0).w x)) _ _
    ((hs c).px (bidx (s 0).h y) (bidx (s 0).w x)))
  have hb := mul_le_mul_of_nonneg_right hrow p
  rw [abs_le]
  constructor <;> linarith [(q 0).1, (q 0).2, (q 1).1, (q 1).2, (q 2).1, (q 2).2, (q 3).1, (q 3).2]

theorem nr_whereFlags (F : Img ℝ) {S T S' T' : Fin 3 → Img ℝ} (hS : Nr3 ε S S') (hT : Nr3 ε T T') :
    PyRel (Nr3 ε) (whereFlags F S T) (whereFlags F S' T') :=
  PyRel.bind (nr_npWhere _ (hS 0) (hT 0)) fun _ _ h0 => PyRel.bind (nr_npWhere _ (hS 1) (hT 1)) fun _ _ h1 =>
  PyRel.bind (nr_npWhere _ (hS 2) (hT 2)) fun _ _ h2 => Nr3.mk h0 h1 h2

theorem nr_demodulatePlain {φ K : ℝ} (hA : Nr ε A B) {S S' : Fin 3 → Img ℝ} (hS : Nr3 φ S S') {D : Demodulator ℝ} (hK : RowSums D.mij K) :
    PyRel (Nr3 (max (K * ε) φ)) (demodulatePlain A S D) (demodulatePlain B S' D) := by
  unfold demodulatePlain
  refine PyRel.bind hA.split fun _ _ hs => PyRel.bind (nr_matmul hK hs) fun _ _ hT => ?_
  cases D.fitFoundFlags with
  | none => exact hT.mono (le_max_left _ _)
  | some F => exact nr_whereFlags F (hT.mono (le_max_left _ _)) (hS.mono (le_max_right _ _))

theorem repeat_px {A R : Img ℝ} (h : repeatPerSuperpixel A = .ok R) (y x : Nat) : R.px y x = A.px (y / 2) (x / 2) := by
  rw [repeatPerSuperpixel_ok] at h
  injection h with h
  subst h
  rw [Img.ofFn_px']
  split
  · rfl
  · rename_i hc
    rw [A.out _ _ (by omega)]

theorem nr_demodulateDemosaicing {K : ℝ} (hA : Nr ε A B) (dic : AngleDic) {D : Demodulator ℝ} (hK : RowSums D.mij K) :
    PyRel (Nr3 (max (K * ε) (2 * ε))) (demodulateDemosaicing A dic D) (demodulateDemosaicing B dic D) := by
  unfold demodulateDemosaicing
  refine PyRel.bind (nr_demosaic hA _) fun _ _ hs => PyRel.bind (nr_theo hs dic) fun _ _ hS => ?_
  refine PyRel.bindsEq fun _ e00 => PyRel.bindsEq fun _ e01 => PyRel.bindsEq fun _ e02 => PyRel.bindsEq fun _ e03 => ?_
  refine PyRel.bindsEq fun _ e10 => PyRel.bindsEq fun _ e11 => PyRel.bindsEq fun _ e12 => PyRel.bindsEq fun _ e13 => ?_
  refine PyRel.bindsEq fun _ e20 => PyRel.bindsEq fun _ e21 => PyRel.bindsEq fun _ e22 => PyRel.bindsEq fun _ e23 => ?_
  cases D.fitFoundFlags with
  | none => rfl
  | some F =>
    refine PyRel.binds fun _ => PyRel.bind (nr_matmul (K := K) (fun q y x => ?_) hs) fun _ _ hT =>
      nr_whereFlags _ (hT.mono (le_max_left _ _)) (hS.mono (le_max_right _ _))
    have := hK q (y / 2) (x / 2)
    rw [Fin.sum_univ_four] at this ⊢
    fin_cases q <;> dsimp only [Fin.zero_eta, Fin.mk_one, Fin.reduceFinMk] at this
    · rw [← repeat_px e00, ← repeat_px e01, ← repeat_px e02, ← repeat_px e03] at this
      exact this
    · rw [← repeat_px e10, ← repeat_px e11, ← repeat_px e12, ← repeat_px e13] at this
      exact this
    · rw [← repeat_px e20, ← repeat_px e21, ← repeat_px e22, ← repeat_px e23] at this
      exact this

/-! ## Resampling -/

theorem nr_congrid (hA : Nr ε A B) (ny nx : Nat) : PyRel (Nr ε) (congrid A ny nx) (congrid B ny nx) := by
  by_cases hc : A.h < 2 ∨ A.w < 2 ∨ ny = 1 ∨ nx = 1
  · have hc' : B.h < 2 ∨ B.w < 2 ∨ ny = 1 ∨ nx = 1 := by rw [hA.h, hA.w]; exact hc
    unfold congrid
    rw [if_pos hc, if_pos hc']
    rfl
  · obtain ⟨C, hC, c1, c2, -⟩ := congrid_px A ny nx (by omega) (by omega) (by omega)
    obtain ⟨D, hD, d1, d2, -⟩ := congrid_px B ny nx (by rw [hA.h, hA.w]; omega) (by omega) (by omega)
    rw [hC, hD]
    refine PxWithin.nr hA.pos ⟨⟨by rw [c1, d1], by rw [c2, d2]⟩, fun Y X hY hX => ?_⟩
    obtain ⟨y, x, s, t, s0, s1, t0, t1, hb⟩ := congrid_blend (c1 ▸ hY) (c2 ▸ hX) (show 2 ≤ A.h by omega) (show 2 ≤ A.w by omega)
      (show ny ≠ 1 by omega) (show nx ≠ 1 by omega)
    rw [hb A C rfl rfl hC, hb B D hA.h hA.w hD]
    have k1 := abs_le.1 (hA.px y x)
    have k2 := abs_le.1 (hA.px y (x + 1))
    have k3 := abs_le.1 (hA.px (y + 1) x)
    have k4 := abs_le.1 (hA.px (y + 1) (x + 1))
    have s1' : 0 ≤ 1 - s := by linarith
    have t1' : 0 ≤ 1 - t := by linarith
    rw [abs_le]
    constructor
    · nlinarith [mul_le_mul_of_nonneg_left k1.1 (mul_nonneg s1' t1'), mul_le_mul_of_nonneg_left k2.1 (mul_nonneg s1' t0),
        mul_le_mul_of_nonneg_left k3.1 (mul_nonneg s0 t1'), mul_le_mul_of_nonneg_left k4.1 (mul_nonneg s0 t0)]
    · nlinarith [mul_le_mul_of_nonneg_left k1.2 (mul_nonneg s1' t1'), mul_le_mul_of_nonneg_left k2.2 (mul_nonneg s1' t0),
        mul_le_mul_of_nonneg_left k3.2 (mul_nonneg s0 t1'), mul_le_mul_of_nonneg_left k4.2 (mul_nonneg s0 t0)]

theorem nr_congridData (hA : Nr ε A B) (ny nx : Nat) : PyRel (Nr ε) (congridData A ny nx) (congridData B ny nx) :=
  PyRel.bind hA.split fun _ _ hs => PyRel.bind (nr_congrid (hs 0) _ _) fun _ _ h0 =>
  PyRel.bind (nr_congrid (hs 1) _ _) fun _ _ h1 => PyRel.bind (nr_congrid (hs 2) _ _) fun _ _ h2 =>
  PyRel.bind (nr_congrid (hs 3) _ _) fun _ _ h3 => (Nr4.mk h0 h1 h2 h3).merge

end

end

end Micropol

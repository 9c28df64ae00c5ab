import Verif.Lemmas.PilRotate
import Verif.Props.ObjectPixels
import Verif.Props.Polarization

/-!
# Turned images: C101

`Op.rotate i (pilRotate angle)` is `images[i].rotate(angle)`; `Returns` says that it returns.
-/

set_option autoImplicit false

namespace Micropol

open Classical

noncomputable section

/-- What `rotate` leaves in the Stokes planes of its result. -/
theorem rotated_stokes {ops : List Op} {i k n : Nat} {rot : Img ℝ → Py (Img ℝ)} (hk : (runOps ops).images[i]? = some k)
    (hn : Returns ops (.rotate i rot) n) (g : Img ℝ → Img ℝ) (hg : ∀ A, rot A = .ok (g A)) (hs : ∀ A, (g A).SameShape A) (q : Fin 3) :
    (runOps (ops ++ [.rotate i rot])).stokes n q = g ((runOps ops).stokes k q) := by
  obtain ⟨h1, h2⟩ := returned_data hn rfl hk
  have hC : (runOps (ops ++ [.rotate i rot])).stokes n = _ := congrArg (fun v => v.stokes.planes) h2
  have e : (Op.rotate i rot).value (runOps ops) ((runOps ops).heap.view k) =
      withVal (rotateData rot ((runOps ops).data k)) ((runOps ops).heap.view k) fun d =>
        andThen (rewriteStokesV rot ((runOps ops).heap.view k)) fun v => (.ok (), { v with data := d }) := rfl
  rw [e] at h1 hC
  obtain ⟨d, -, e1⟩ := withVal_ok h1
  rw [e1] at h1 hC
  have e3 : rewriteV rot ((runOps ops).heap.view k).stokes =
      (.ok (), ⟨fun q => g ((runOps ops).stokes k q), ((runOps ops).heap.view k).stokes.isList⟩) :=
    rewriteV_ok (fun q => hg _) (fun q => (hs _).1) (fun q => (hs _).2)
  have e4 : rewriteStokesV rot ((runOps ops).heap.view k) = (.ok (), { (runOps ops).heap.view k with
      stokes := ⟨fun q => g ((runOps ops).stokes k q), ((runOps ops).heap.view k).stokes.isList⟩ }) := by
    unfold rewriteStokesV
    rw [e3]
  rw [e4] at hC
  rw [hC]
  rfl

theorem turned_facts {ops : List Op} {i k n : Nat} {angle : ℝ} (hk : (runOps ops).images[i]? = some k)
    (hn : Returns ops (.rotate i (pilRotate angle)) n) :
    ((runOps (ops ++ [.rotate i (pilRotate angle)])).data n).SameShape ((runOps ops).data k) ∧
    (∀ a b, a < 2 → b < 2 → pilRotate angle (((runOps ops).data k).family a b) =
      .ok (((runOps (ops ++ [.rotate i (pilRotate angle)])).data n).family a b)) ∧
    ∀ q, pilRotate angle ((runOps ops).stokes k q) = .ok ((runOps (ops ++ [.rotate i (pilRotate angle)])).stokes n q) := by
  choose g hg hs hm using pilRotate_moved angle
  obtain ⟨h1, h2⟩ := C77_rotate ops i k n (pilRotate angle) hk hn (by
    intro A B hB
    rw [hg A] at hB
    injection hB with hB
    rw [← hB]
    exact hs A)
  refine ⟨h1, h2, fun q => ?_⟩
  rw [rotated_stokes hk hn g hg hs q, hg]

theorem moved_of_rotate {angle : ℝ} {A B : Img ℝ} (h : pilRotate angle A = .ok B) :
    A.MovedBy (pilSource angle A.h A.w) B := by
  obtain ⟨C, hC, -, hm⟩ := pilRotate_moved angle A
  rw [hC] at h
  injection h with h
  rw [← h]
  exact hm

/-- C101: `rotate(angle)` returns, whatever the angle and the history. -/
theorem C101_returns (ops : List Op) (i k : Nat) (hk : (runOps ops).images[i]? = some k) (angle : ℝ) :
    ∃ n, Returns ops (.rotate i (pilRotate angle)) n := by
  have hA : EvenImg ((runOps ops).data k) := even_named hk
  choose g hg hs hm using pilRotate_moved angle
  refine returns_new rfl rfl hk ?_
  have h1 : ∃ r, rotateData (pilRotate angle) ((runOps ops).data k) = .ok r := by
    unfold rotateData mapFour
    rw [split_ok hA.1 hA.2, Py.ok_bind]
    have hs' : ∀ A : Img ℝ, (pilRotate angle A >>= fun B => assignPlane A.h A.w B) = .ok (g A) := by
      intro A
      rw [hg, Py.ok_bind]
      exact assignPlane_same (hs A)
    simp only [hs', Py.ok_bind, Py.pure_eq]
    refine ⟨_, merge_ok (h := ((runOps ops).data k).h / 2) (w := ((runOps ops).data k).w / 2) ?_ ?_⟩
    · intro q; fin_cases q <;> exact (hs _).1
    · intro q; fin_cases q <;> exact (hs _).2
  obtain ⟨r, hr⟩ := h1
  have h2 : (rewriteV (pilRotate angle) ((runOps ops).heap.view k).stokes).1 = .ok () := by
    rw [rewriteV_ok (P := fun q => g (((runOps ops).heap.view k).stokes.planes q)) (fun q => hg _) (fun q => (hs _).1)
      (fun q => (hs _).2)]
  show (withVal (rotateData (pilRotate angle) ((runOps ops).data k)) ((runOps ops).heap.view k) fun d =>
      andThen (rewriteStokesV (pilRotate angle) ((runOps ops).heap.view k)) fun v => (.ok (), { v with data := d })).1 = .ok ()
  rw [hr]
  show (andThen (rewriteStokesV (pilRotate angle) ((runOps ops).heap.view k)) fun v => (.ok (), { v with data := r })).1 = .ok ()
  unfold rewriteStokesV
  rw [h2]
  rfl

/-- C101: the result has the size of the source.  There is one rule, the turn by `angle` about the centre, which says for each superpixel
from which one it comes; all four families and all three Stokes maps follow it, and their values are rounded to 24 digits. -/
theorem C101_image_partial (ops : List Op) (i k n : Nat) (angle : ℝ) (hk : (runOps ops).images[i]? = some k)
    (hn : Returns ops (.rotate i (pilRotate angle)) n) :
    let s := runOps ops
    let t := runOps (ops ++ [.rotate i (pilRotate angle)])
    (t.data n).SameShape (s.data k) ∧
    ∃ src : Nat → Nat → Nat → Nat → Option (Nat × Nat), (∀ h w, TurnsBy angle h w (src h w)) ∧
      (∀ a b, a < 2 → b < 2 →
        ((s.data k).family a b).MovedBy (src ((s.data k).h / 2) ((s.data k).w / 2)) ((t.data n).family a b)) ∧
      ∀ q, (s.stokes k q).MovedBy (src (s.stokes k q).h (s.stokes k q).w) (t.stokes n q) := by
  intro s t
  obtain ⟨h1, h2, h3⟩ := turned_facts hk hn
  exact ⟨h1, pilSource angle, pilSource_turns angle, fun a b ha hb => moved_of_rotate (h2 a b ha hb),
    fun q => moved_of_rotate (h3 q)⟩

/-- A plane of numbers that fit, turned by quarter turns: no value changes. -/
theorem pilRotate_quarter {A : Img ℝ} (hA : A.Singles) (j : ℤ) (hj : A.w = A.h ∨ j % 2 = 0) :
    pilRotate (90 * j) A = .ok (npRot90 A j) := by
  unfold pilRotate
  congr 1
  have hin : ∀ {y x : Nat}, y < A.h → x < A.w → roundSingle (A.px y x) = A.px y x := fun hy hx => roundSingle_single (hA _ _ hy hx)
  symm
  unfold npRot90
  by_cases h0 : j % 4 = 0
  · rw [if_pos h0]
    refine Img.eq_ofFn rfl rfl fun y x hy hx => ?_
    rw [pilSource_quarter j _ _ _ _ hj, if_pos h0]
    exact (hin hy hx).symm
  rw [if_neg h0]
  by_cases h1 : j % 4 = 1
  · have hw : A.w = A.h := by omega
    rw [if_pos h1]
    refine Img.eq_ofFn hw hw.symm fun y x hy hx => ?_
    rw [pilSource_quarter j _ _ _ _ hj, if_neg h0, if_pos h1, Img.ofFn_px (by omega) (by omega)]
    exact (hin (by omega) (by omega)).symm
  rw [if_neg h1]
  by_cases h2 : j % 4 = 2
  · rw [if_pos h2]
    refine Img.eq_ofFn rfl rfl fun y x hy hx => ?_
    rw [pilSource_quarter j _ _ _ _ hj, if_neg h0, if_neg h1, if_pos h2, Img.ofFn_px (by omega) (by omega)]
    exact (hin (by omega) (by omega)).symm
  · have hw : A.w = A.h := by omega
    rw [if_neg h2]
    refine Img.eq_ofFn hw hw.symm fun y x hy hx => ?_
    rw [pilSource_quarter j _ _ _ _ hj, if_neg h0, if_neg h1, if_neg h2, Img.ofFn_px (by omega) (by omega)]
    exact (hin (by omega) (by omega)).symm

theorem rot_iterate {A : Img ℝ} (j : ℤ) : npRot90 A j = Img.quarterTurn^[(j % 4).toNat] A := by
  rw [← npRot90_iterate]
  exact npRot90_congr A (by omega)

theorem family_singles {A : Img ℝ} (hA : A.Singles) (hh : A.h % 2 = 0) (hw : A.w % 2 = 0) {a b : Nat} (ha : a < 2) (hb : b < 2) :
    (A.family a b).Singles := by
  intro y x hy hx
  have hy' : y < A.h / 2 := hy
  have hx' : x < A.w / 2 := hx
  unfold Img.family
  rw [Img.ofFn_px hy' hx']
  exact hA _ _ (by omega) (by omega)

/-- C101: `rotate(90 * j)`, on a square image or by an even number of quarter turns, applied to values with at most 24 digits, turns
each family by that many quarter turns, and each Stokes map of the same kind. -/
theorem C101_quarter_partial (ops : List Op) (i k n : Nat) (j : ℤ) (hk : (runOps ops).images[i]? = some k)
    (hn : Returns ops (.rotate i (pilRotate (90 * j))) n) :
    let s := runOps ops
    let t := runOps (ops ++ [.rotate i (pilRotate (90 * j))])
    ((s.data k).Singles → (s.data k).w = (s.data k).h ∨ j % 2 = 0 → ∀ a b, a < 2 → b < 2 →
      (t.data n).family a b = Img.quarterTurn^[(j % 4).toNat] ((s.data k).family a b)) ∧
    ∀ q, (s.stokes k q).Singles → (s.stokes k q).w = (s.stokes k q).h ∨ j % 2 = 0 →
      t.stokes n q = Img.quarterTurn^[(j % 4).toNat] (s.stokes k q) := by
  intro s t
  obtain ⟨h1, h2, h3⟩ := turned_facts hk hn
  obtain ⟨e1, e2⟩ := even_named hk
  constructor
  · intro hA hj a b ha hb
    have h4 := h2 a b ha hb
    rw [pilRotate_quarter (family_singles hA e1 e2 ha hb) j (by
      rcases hj with hj | hj
      · left
        show (s.data k).w / 2 = (s.data k).h / 2
        rw [hj]
      · exact Or.inr hj), rot_iterate] at h4
    exact (Except.ok.inj h4).symm
  · intro q hS hj
    have h4 := h3 q
    rw [pilRotate_quarter hS j hj, rot_iterate] at h4
    exact (Except.ok.inj h4).symm

theorem image_of_families {A B : Img ℝ} (hA : A.h % 2 = 0 ∧ A.w % 2 = 0) (hB : B.SameShape A)
    (hf : ∀ a b, a < 2 → b < 2 → B.family a b = A.family a b) : B = A := by
  refine Img.ext_px hB.1 hB.2 fun y x hy hx => ?_
  have h := congrArg (fun I : Img ℝ => I.px (y / 2) (x / 2)) (hf (y % 2) (x % 2) (by omega) (by omega))
  have e1 := hB.1
  have e2 := hB.2
  obtain ⟨a1, a2⟩ := hA
  unfold Img.family at h
  rw [Img.ofFn_px (by omega) (by omega), Img.ofFn_px (by omega) (by omega), show 2 * (y / 2) + y % 2 = y by omega,
    show 2 * (x / 2) + x % 2 = x by omega] at h
  exact h

theorem turn_back (A : Img ℝ) {j l : ℤ} (hjl : (j + l) % 4 = 0) : npRot90 (npRot90 A j) l = A := by
  rw [rot_iterate l, rot_iterate j, ← Function.iterate_add_apply, ← npRot90_iterate]
  unfold npRot90
  rw [if_pos (by omega)]

theorem rot_singles {A : Img ℝ} (hA : A.Singles) (j : ℤ) : (npRot90 A j).Singles := by
  unfold npRot90
  split
  · exact hA
  split
  · intro y x (hy : y < A.w) (hx : x < A.h)
    rw [Img.ofFn_px hy hx]
    exact hA _ _ (by omega) (by omega)
  split
  · intro y x (hy : y < A.h) (hx : x < A.w)
    rw [Img.ofFn_px hy hx]
    exact hA _ _ (by omega) (by omega)
  · intro y x (hy : y < A.w) (hx : x < A.h)
    rw [Img.ofFn_px hy hx]
    exact hA _ _ (by omega) (by omega)

/-- C101: turning such an image by quarter turns and back, or on to a full turn, restores pixels and Stokes maps. -/
theorem C101_restored_partial (ops : List Op) (i k n i' n' : Nat) (j l : ℤ) (hjl : (j + l) % 4 = 0)
    (hk : (runOps ops).images[i]? = some k) (hn : Returns ops (.rotate i (pilRotate (90 * j))) n)
    (hk' : (runOps (ops ++ [.rotate i (pilRotate (90 * j))])).images[i']? = some n)
    (hn' : Returns (ops ++ [.rotate i (pilRotate (90 * j))]) (.rotate i' (pilRotate (90 * l))) n') :
    let s := runOps ops
    let t := runOps (ops ++ [.rotate i (pilRotate (90 * j))] ++ [.rotate i' (pilRotate (90 * l))])
    ((s.data k).Singles → (s.data k).w = (s.data k).h ∨ j % 2 = 0 → t.data n' = s.data k) ∧
    ∀ q, (s.stokes k q).Singles → (s.stokes k q).w = (s.stokes k q).h ∨ j % 2 = 0 → t.stokes n' q = s.stokes k q := by
  intro s t
  obtain ⟨h1, h2, h3⟩ := turned_facts hk hn
  obtain ⟨g1, g2, g3⟩ := turned_facts hk' hn'
  have back : ∀ A B C : Img ℝ, A.Singles → A.w = A.h ∨ j % 2 = 0 → pilRotate (90 * j) A = .ok B → pilRotate (90 * l) B = .ok C →
      C = A := by
    intro A B C hA hj hB hC
    rw [pilRotate_quarter hA j hj] at hB
    have hB := Except.ok.inj hB
    subst hB
    rw [pilRotate_quarter (rot_singles hA j) l, turn_back A hjl] at hC
    · exact (Except.ok.inj hC).symm
    · rcases hj with hj | hj
      · left
        by_cases h : j % 2 = 0
        · rw [(npRot90_shape_even A h).1, (npRot90_shape_even A h).2, hj]
        · rw [(npRot90_shape_odd A h).1, (npRot90_shape_odd A h).2, hj]
      · right; omega
  refine ⟨fun hA hj => ?_, fun q hS hj => back _ _ _ hS hj (h3 q) (g3 q)⟩
  obtain ⟨e1, e2⟩ := even_named hk
  refine image_of_families ⟨e1, e2⟩ ⟨g1.1.trans h1.1, g1.2.trans h1.2⟩ fun a b ha hb => ?_
  refine back _ _ _ (family_singles hA e1 e2 ha hb) ?_ (h2 a b ha hb) (g2 a b ha hb)
  rcases hj with hj | hj
  · left
    show (s.data k).w / 2 = (s.data k).h / 2
    rw [hj]
  · exact Or.inr hj

/-- C101: where Stokes maps of one shape have values with at most 24 digits, degree, angle and polarized brightness move with the
superpixels and keep their values; where nothing comes from, degree and polarized brightness are 0. -/
theorem C101_polarization_partial (ops : List Op) (i k n : Nat) (angle : ℝ) (hk : (runOps ops).images[i]? = some k)
    (hn : Returns ops (.rotate i (pilRotate angle)) n) :
    let S := (runOps ops).stokes k
    let T := (runOps (ops ++ [.rotate i (pilRotate angle)])).stokes n
    SameShape S → (∀ q, (S q).Singles) →
    ∃ src, TurnsBy angle (S 0).h (S 0).w src ∧ ∃ D E, DoLP S = .ok D ∧ DoLP T = .ok E ∧
      ∀ y x, y < (S 0).h → x < (S 0).w →
        (∀ r c, src y x = some (r, c) → (pB T).px y x = (pB S).px r c ∧ (AoLP T).px y x = (AoLP S).px r c ∧ E.px y x = D.px r c) ∧
        (src y x = none → (pB T).px y x = 0 ∧ E.px y x = 0) := by
  intro S T hS h24
  obtain ⟨h1, h2, h3⟩ := turned_facts hk hn
  have hm : ∀ q, (S q).MovedBy (pilSource angle (S 0).h (S 0).w) (T q) := by
    intro q
    rw [← (hS q).1, ← (hS q).2]
    exact moved_of_rotate (h3 q)
  have hT0 : ∀ q, (T q).h = (S 0).h ∧ (T q).w = (S 0).w := fun q => ⟨(hm q).1.1.trans (hS q).1, (hm q).1.2.trans (hS q).2⟩
  have hT : SameShape T := fun q => ⟨(hT0 q).1.trans (hT0 0).1.symm, (hT0 q).2.trans (hT0 0).2.symm⟩
  obtain ⟨D, hD, -, -, hDp⟩ := C19_total S hS
  obtain ⟨E, hE, -, -, hEp⟩ := C19_total T hT
  refine ⟨_, pilSource_turns angle _ _, D, E, hD, hE, fun y x hy hx => ⟨fun r c e => ?_, fun e => ?_⟩⟩
  · obtain ⟨hr, hc, -⟩ := (pilSource_turns angle _ _).inside y x r c hy hx e
    have hv : ∀ q, (T q).px y x = (S q).px r c := by
      intro q
      refine (((hm q).2 y x ?_ ?_).1 r c e).2 (h24 q r c ?_ ?_)
      · rw [(hS q).1]; exact hy
      · rw [(hS q).2]; exact hx
      · rw [(hS q).1]; exact hr
      · rw [(hS q).2]; exact hc
    have hy' : y < (T 0).h := by rw [(hT0 0).1]; exact hy
    have hx' : x < (T 0).w := by rw [(hT0 0).2]; exact hx
    have p1 : (pB T).px y x = (pB S).px r c := by rw [pB_px hT hy' hx', pB_px hS hr hc, hv 1, hv 2]
    refine ⟨p1, by rw [AoLP_px hT hy' hx', AoLP_px hS hr hc, hv 1, hv 2], ?_⟩
    obtain ⟨d0, d1⟩ := hDp r c hr hc
    obtain ⟨e0, e1⟩ := hEp y x hy' hx'
    by_cases h0 : (S 0).px r c = 0
    · rw [d0 h0, e0 (by rw [hv 0, h0])]
    · rw [d1 h0, e1 (by rw [hv 0]; exact h0), p1, hv 0]
  · have hv : ∀ q, (T q).px y x = 0 := by
      intro q
      refine ((hm q).2 y x ?_ ?_).2 e
      · rw [(hS q).1]; exact hy
      · rw [(hS q).2]; exact hx
    have hy' : y < (T 0).h := by rw [(hT0 0).1]; exact hy
    have hx' : x < (T 0).w := by rw [(hT0 0).2]; exact hx
    refine ⟨by rw [pB_px hT hy' hx', hv 1, hv 2]; simp, (hEp y x hy' hx').1 (hv 0)⟩

/-- C101: an image of whole numbers up to `2²²` (any camera frame) with its own Stokes maps, turned by any angle, is an image with its
own Stokes maps again: none of its numbers is rounded. -/
theorem C101_counts (ops : List Op) (i k n : Nat) (angle : ℝ) (hk : (runOps ops).images[i]? = some k)
    (hn : Returns ops (.rotate i (pilRotate angle)) n) (L : Layout) (dic : AngleDic) (hL : L.Describes dic) :
    let s := runOps ops
    let t := runOps (ops ++ [.rotate i (pilRotate angle)])
    dataStokes (s.data k) dic = .ok (s.stokes k) →
    (∀ y x, y < (s.data k).h → x < (s.data k).w → ∃ m : ℤ, |m| ≤ 2 ^ 22 ∧ (s.data k).px y x = m) →
    dataStokes (t.data n) dic = .ok (t.stokes n) ∧
    ∃ src, TurnsBy angle ((s.data k).h / 2) ((s.data k).w / 2) src ∧ ∀ y x, y < (s.data k).h / 2 → x < (s.data k).w / 2 →
      ∀ a b, a < 2 → b < 2 →
        (∀ r c, src y x = some (r, c) → (t.data n).px (2 * y + a) (2 * x + b) = (s.data k).px (2 * r + a) (2 * c + b)) ∧
        (src y x = none → (t.data n).px (2 * y + a) (2 * x + b) = 0) := by
  intro s t hdS hint
  obtain ⟨h1, h2, h3⟩ := turned_facts hk hn
  obtain ⟨e1, e2⟩ := even_named hk
  obtain ⟨f1, f2⟩ := h1
  have e1' : (s.data k).h % 2 = 0 := e1
  have e2' : (s.data k).w % 2 = 0 := e2
  have f1' : (t.data n).h = (s.data k).h := f1
  have f2' : (t.data n).w = (s.data k).w := f2
  have px : ∀ (A : Img ℝ) (a b y x : Nat), y < A.h / 2 → x < A.w / 2 → (A.family a b).px y x = A.px (2 * y + a) (2 * x + b) :=
    fun A a b y x hy hx => Img.ofFn_px hy hx
  -- pixels
  have hpix : ∀ y x, y < (s.data k).h / 2 → x < (s.data k).w / 2 → ∀ a b, a < 2 → b < 2 →
      (∀ r c, pilSource angle ((s.data k).h / 2) ((s.data k).w / 2) y x = some (r, c) →
        (t.data n).px (2 * y + a) (2 * x + b) = (s.data k).px (2 * r + a) (2 * c + b)) ∧
      (pilSource angle ((s.data k).h / 2) ((s.data k).w / 2) y x = none → (t.data n).px (2 * y + a) (2 * x + b) = 0) := by
    intro y x hy hx a b ha hb
    obtain ⟨m1, m2⟩ := (moved_of_rotate (h2 a b ha hb)).2 y x hy hx
    have ey : y < (t.data n).h / 2 := by omega
    have ex : x < (t.data n).w / 2 := by omega
    constructor
    · intro r c e
      obtain ⟨hr, hc, -⟩ := (pilSource_turns angle _ _).inside y x r c hy hx e
      have := (m1 r c e).2 ?_
      · rw [px _ a b y x ey ex, px _ a b r c hr hc] at this
        exact this
      · rw [px _ a b r c hr hc]
        obtain ⟨m, hm, em⟩ := hint (2 * r + a) (2 * c + b) (by omega) (by omega)
        rw [em]
        exact isSingle_int (by omega)
    · intro e
      have := m2 e
      rw [px _ a b y x ey ex] at this
      exact this
  refine ⟨?_, _, pilSource_turns angle _ _, hpix⟩
  -- Stokes maps
  obtain ⟨S, hS, hSs, hSp⟩ := C17_stokes (s.data k) e1 e2 L dic hL
  have : S = s.stokes k := Except.ok.inj (hS.symm.trans hdS)
  subst this
  obtain ⟨T, hT, hTs, hTp⟩ := C17_stokes (t.data n) (by omega) (by omega) L dic hL
  rw [hT]
  congr 1
  funext q
  obtain ⟨hsh, hmv⟩ := moved_of_rotate (h3 q)
  have u1 : (s.stokes k q).h = (s.data k).h / 2 := (hSs q).1
  have u2 : (s.stokes k q).w = (s.data k).w / 2 := (hSs q).2
  rw [show (runOps ops).stokes k q = s.stokes k q from rfl, u1, u2] at hmv
  have v1 : (T q).h = (t.data n).h / 2 := (hTs q).1
  have v2 : (T q).w = (t.data n).w / 2 := (hTs q).2
  have w1 : (t.stokes n q).h = (s.stokes k q).h := hsh.1
  have w2 : (t.stokes n q).w = (s.stokes k q).w := hsh.2
  refine Img.ext_px (by omega) (by omega) fun y x hy hx => ?_
  have hy' : y < (s.data k).h / 2 := by omega
  have hx' : x < (s.data k).w / 2 := by omega
  obtain ⟨m1, m2⟩ := hmv y x hy' hx'
  have hTq := hTp y x (by omega) (by omega)
  have pos : ∀ z : Fin 4, z.val / 2 < 2 ∧ z.val % 2 < 2 := fun z => by have := z.isLt; omega
  cases hsrc : pilSource angle ((s.data k).h / 2) ((s.data k).w / 2) y x with
  | none =>
    have hz : ∀ z : Fin 4, (t.data n).px (2 * y + z.val / 2) (2 * x + z.val % 2) = 0 := fun z =>
      (hpix y x hy' hx' _ _ (pos z).1 (pos z).2).2 hsrc
    rw [m2 hsrc]
    dsimp only at hTq
    simp only [hz] at hTq
    obtain ⟨t0, t1, t2⟩ := hTq
    fin_cases q
    · exact t0.trans (by norm_num)
    · exact t1.trans (by norm_num)
    · exact t2.trans (by norm_num)
  | some rc =>
    obtain ⟨r, c⟩ := rc
    obtain ⟨hr, hc, -⟩ := (pilSource_turns angle _ _).inside y x r c hy' hx' hsrc
    have hz : ∀ z : Fin 4, (t.data n).px (2 * y + z.val / 2) (2 * x + z.val % 2) =
        (s.data k).px (2 * r + z.val / 2) (2 * c + z.val % 2) := fun z =>
      (hpix y x hy' hx' _ _ (pos z).1 (pos z).2).1 r c hsrc
    have hSq := hSp r c hr hc
    dsimp only at hTq hSq
    simp only [hz] at hTq
    have eqv : (T q).px y x = (s.stokes k q).px r c := by
      obtain ⟨t0, t1, t2⟩ := hTq
      obtain ⟨s0, s1, s2⟩ := hSq
      fin_cases q
      · exact t0.trans s0.symm
      · exact t1.trans s1.symm
      · exact t2.trans s2.symm
    rw [eqv]
    refine ((m1 r c hsrc).2 ?_).symm
    -- the Stokes values have few digits
    have hint' : ∀ z : Fin 4, ∃ m : ℤ, |m| ≤ 2 ^ 22 ∧ (s.data k).px (2 * r + z.val / 2) (2 * c + z.val % 2) = m := fun z =>
      hint _ _ (by have := (pos z).1; omega) (by have := (pos z).2; omega)
    choose m hm em using hint'
    simp only [em] at hSq
    obtain ⟨s0, s1, s2⟩ := hSq
    have hm' : ∀ z, -2 ^ 22 ≤ m z ∧ m z ≤ 2 ^ 22 := fun z => abs_le.1 (hm z)
    fin_cases q
    · refine ⟨m 0 + m 1 + m 2 + m 3, -1, ?_, ?_⟩
      · have a0 := hm' 0; have a1 := hm' 1; have a2 := hm' 2; have a3 := hm' 3
        rw [abs_le]; constructor <;> omega
      · refine s0.trans ?_
        push_cast
        rw [zpow_neg_one]
        ring
    · have a0 := hm' L.p0
      have a1 := hm' L.p90
      have : IsSingle ((m L.p0 - m L.p90 : ℤ) : ℝ) := isSingle_int (by rw [abs_le]; constructor <;> omega)
      have e := s1.trans (Int.cast_sub (m L.p0) (m L.p90)).symm
      rw [← e] at this
      exact this
    · have a0 := hm' L.p45
      have a1 := hm' L.pm45
      have : IsSingle ((m L.p45 - m L.pm45 : ℤ) : ℝ) := isSingle_int (by rw [abs_le]; constructor <;> omega)
      have e := s2.trans (Int.cast_sub (m L.p45) (m L.pm45)).symm
      rw [← e] at this
      exact this

/-! ## What does not hold -/

/-- A session that has constructed one image, of even sides. -/
theorem session_of_array (d : Img ℝ) (hh : d.h % 2 = 0) (hw : d.w % 2 = 0) :
    (runOps [.fromArray d none none none fun _ _ => 0]).images[0]? = some 0 ∧
    (runOps [.fromArray d none none none fun _ _ => 0]).data 0 = d ∧
    dataStokes d polarCamAngles = .ok ((runOps [.fromArray d none none none fun _ _ => 0]).stokes 0) := by
  obtain ⟨S, h1, -, -⟩ := C17_stokes d hh hw ⟨0, 1, 2, 3⟩ polarCamAngles C02_polarCam.1
  have hrun : runOps [.fromArray d none none none fun _ _ => 0] = ⟨arrayHeap d S none initState.heap, [0]⟩ :=
    (runOps_snoc [] _).trans (step_fromArray (s := initState) d none (fun _ _ => 0) h1)
  rw [hrun]
  refine ⟨rfl, congrArg ImgView.data (arrayHeap_view d S none initState.heap), ?_⟩
  rw [h1]
  exact congrArg Except.ok (congrArg (fun v => v.stokes.planes) (arrayHeap_view d S none initState.heap)).symm

/-- The example, turned by 37 degrees, and by 180 degrees and back. -/
example : (∃ n, Returns oneImage (.rotate 0 (pilRotate 37)) n ∧
      dataStokes ((runOps (oneImage ++ [.rotate 0 (pilRotate 37)])).data n) polarCamAngles =
        .ok ((runOps (oneImage ++ [.rotate 0 (pilRotate 37)])).stokes n)) ∧
    ∃ n n', Returns oneImage (.rotate 0 (pilRotate (90 * (2 : ℤ)))) n ∧
      Returns (oneImage ++ [.rotate 0 (pilRotate (90 * (2 : ℤ)))]) (.rotate 1 (pilRotate (90 * (2 : ℤ)))) n' ∧
      (runOps (oneImage ++ [.rotate 0 (pilRotate (90 * (2 : ℤ)))] ++ [.rotate 1 (pilRotate (90 * (2 : ℤ)))])).data n' = darkBright := by
  obtain ⟨h1, h2, h3⟩ := session_of_array darkBright rfl rfl
  have hint : ∀ y x, y < darkBright.h → x < darkBright.w → ∃ m : ℤ, |m| ≤ 2 ^ 22 ∧ darkBright.px y x = m := by
    intro y x hy hx
    unfold darkBright
    rw [Img.ofFn_px (by exact hy) (by exact hx)]
    split
    · exact ⟨0, by norm_num, by simp⟩
    · exact ⟨1, by norm_num, by simp⟩
  constructor
  · obtain ⟨n, hn⟩ := C101_returns oneImage 0 0 h1 37
    refine ⟨n, hn, (C101_counts oneImage 0 0 n 37 h1 hn _ _ C02_polarCam.1 ?_ ?_).1⟩
    · unfold oneImage
      rw [h2, h3]
    · unfold oneImage
      rw [h2]
      exact hint
  · obtain ⟨n, hn⟩ := C101_returns oneImage 0 0 h1 (90 * (2 : ℤ))
    have himg : (runOps oneImage).images = [0] := by
      obtain ⟨S, -, -, -, -, hrun⟩ := darkBright_run
      unfold oneImage
      rw [hrun]
    have hk' : (runOps (oneImage ++ [.rotate 0 (pilRotate (90 * (2 : ℤ)))])).images[1]? = some n := by
      rw [show (runOps (oneImage ++ [.rotate 0 (pilRotate (90 * (2 : ℤ)))])).images = _ from hn, himg]
      rfl
    obtain ⟨n', hn'⟩ := C101_returns _ 1 n hk' (90 * (2 : ℤ))
    refine ⟨n, n', hn, hn', ((C101_restored_partial oneImage 0 0 n 1 n' 2 2 rfl h1 hn hk' hn').1 ?_ (Or.inr rfl)).trans h2⟩
    intro y x hy hx
    rw [show (runOps oneImage).data 0 = darkBright from h2] at hy hx ⊢
    obtain ⟨m, hm, e⟩ := hint y x hy hx
    rw [e]
    exact isSingle_int (by omega)

/-- C101, violation 1: `rotate(0)` changes pixels. -/
theorem C101_zero_rounds : ∃ (ops : List Op) (n : Nat), (runOps ops).images[0]? = some 0 ∧
    Returns ops (.rotate 0 (pilRotate 0)) n ∧ ((runOps ops).data 0).px 0 0 = 2 ^ 24 + 1 ∧
    ((runOps (ops ++ [.rotate 0 (pilRotate 0)])).data n).px 0 0 = 2 ^ 24 := by
  obtain ⟨h1, h2, -⟩ := session_of_array (Img.const 2 2 (2 ^ 24 + 1)) (by rfl) (by rfl)
  obtain ⟨n, hn⟩ := C101_returns _ 0 0 h1 0
  refine ⟨_, n, h1, hn, by rw [h2]; norm_num [Img.const, Img.ofFn_px'], ?_⟩
  obtain ⟨g1, g2, -⟩ := turned_facts h1 hn
  have h := g2 0 0 (by decide) (by decide)
  rw [h2] at h g1
  obtain ⟨s1, s2⟩ := g1
  have h' := congrArg (fun I : Img ℝ => I.px 0 0) (Except.ok.inj h)
  have e : pilSource 0 1 1 0 0 = some (0, 0) := by
    have := pilSource_quarter 0 1 1 0 0 (Or.inl rfl)
    norm_num at this
    exact this
  rw [Img.ofFn_px (by decide) (by decide),
    show ((Img.const 2 2 ((2 : ℝ) ^ 24 + 1)).family 0 0).h = 1 from rfl,
    show ((Img.const 2 2 ((2 : ℝ) ^ 24 + 1)).family 0 0).w = 1 from rfl, e] at h'
  dsimp only at h'
  rw [show ((Img.const 2 2 ((2 : ℝ) ^ 24 + 1)).family 0 0).px 0 0 = 2 ^ 24 + 1 by
    norm_num [Img.family, Img.const, Img.ofFn_px'], roundSingle_lost] at h'
  unfold Img.family at h'
  have s1' := s1.trans (show (Img.const 2 2 ((2 : ℝ) ^ 24 + 1)).h = 2 from rfl)
  have s2' := s2.trans (show (Img.const 2 2 ((2 : ℝ) ^ 24 + 1)).w = 2 from rfl)
  rw [Img.ofFn_px (by rw [s1']; decide) (by rw [s2']; decide)] at h'
  exact h'.symm

/-- C101, violation 2: a quarter turn of an image that is not square loses light: the result is cut to the size of the source. -/
theorem C101_light_lost : ∃ (ops : List Op) (n : Nat), (runOps ops).images[0]? = some 0 ∧
    Returns ops (.rotate 0 (pilRotate 90)) n ∧
    (∀ y x, y < ((runOps ops).data 0).h → x < ((runOps ops).data 0).w → ((runOps ops).data 0).px y x = 1) ∧
    ((runOps (ops ++ [.rotate 0 (pilRotate 90)])).data n).SameShape ((runOps ops).data 0) ∧
    ((runOps (ops ++ [.rotate 0 (pilRotate 90)])).data n).px 0 0 = 0 := by
  obtain ⟨h1, h2, -⟩ := session_of_array (Img.const 4 8 1) (by rfl) (by rfl)
  obtain ⟨n, hn⟩ := C101_returns _ 0 0 h1 90
  refine ⟨_, n, h1, hn, by rw [h2]; intro y x hy hx; exact Img.ofFn_px hy hx, ?_, ?_⟩
  · exact (C101_image_partial _ 0 0 n 90 h1 hn).1
  · obtain ⟨hs, src, hsrc, hf, -⟩ := C101_image_partial _ 0 0 n 90 h1 hn
    rw [h2] at hs hf
    have hf := hf 0 0 (by decide) (by decide)
    have hnone : src 2 4 0 0 = none := by
      cases h : src 2 4 0 0 with
      | none => rfl
      | some rc =>
        obtain ⟨r, c⟩ := rc
        obtain ⟨-, -, -, hr⟩ := (hsrc 2 4).inside 0 0 r c (by decide) (by decide) h
        unfold cameFromY offBy at hr
        rw [trig90.1, trig90.2, abs_le] at hr
        have : (0 : ℝ) ≤ r := Nat.cast_nonneg r
        norm_num at hr
        linarith [hr.2]
    have h := (hf.2 0 0 (by decide) (by decide)).2 hnone
    unfold Img.family at h
    have s1 := hs.1.trans (show (Img.const 4 8 (1 : ℝ)).h = 4 from rfl)
    have s2 := hs.2.trans (show (Img.const 4 8 (1 : ℝ)).w = 8 from rfl)
    rw [Img.ofFn_px (by rw [s1]; decide) (by rw [s2]; decide)] at h
    exact h

/-- C101, violation 3: light polarized along the rows, turned by 90 degrees, is still reported as polarized along the rows. -/
theorem C101_angle_not_turned : ∃ (ops : List Op) (n : Nat), (runOps ops).images[0]? = some 0 ∧
    Returns ops (.rotate 0 (pilRotate 90)) n ∧
    ((runOps ops).stokes 0 0).HasShape 1 1 ∧ (AoLP ((runOps ops).stokes 0)).px 0 0 = 0 ∧
    (pB ((runOps ops).stokes 0)).px 0 0 = 1 ∧
    (AoLP ((runOps (ops ++ [.rotate 0 (pilRotate 90)])).stokes n)).px 0 0 = 0 ∧
    (pB ((runOps (ops ++ [.rotate 0 (pilRotate 90)])).stokes n)).px 0 0 = 1 := by
  obtain ⟨d, hd⟩ : ∃ d : Img ℝ, d = Img.ofFn 2 2 (fun y x => if y = 0 ∧ x = 0 then 2 else 1) := ⟨_, rfl⟩
  obtain ⟨h1, h2, h3⟩ := session_of_array d (by rw [hd]; rfl) (by rw [hd]; rfl)
  obtain ⟨n, hn⟩ := C101_returns _ 0 0 h1 90
  obtain ⟨S, hS, hSs, hSp⟩ := C17_stokes d (by rw [hd]; rfl) (by rw [hd]; rfl) ⟨0, 1, 2, 3⟩ polarCamAngles C02_polarCam.1
  have hSe : S = (runOps [.fromArray d none none none fun _ _ => 0]).stokes 0 := Except.ok.inj (hS.symm.trans h3)
  have hsh : ∀ q, (S q).h = 1 ∧ (S q).w = 1 := fun q => ⟨(hSs q).1.trans (by rw [hd]; rfl), (hSs q).2.trans (by rw [hd]; rfl)⟩
  have hp := hSp 0 0 (by rw [hd]; decide) (by rw [hd]; decide)
  dsimp only at hp
  rw [hd] at hp
  norm_num [Img.ofFn_px'] at hp
  obtain ⟨p0, p1, p2⟩ := hp
  have hSS : SameShape S := fun q => ⟨(hsh q).1.trans (hsh 0).1.symm, (hsh q).2.trans (hsh 0).2.symm⟩
  have a0 : (AoLP S).px 0 0 = 0 := by
    rw [AoLP_px hSS (by rw [(hsh 0).1]; decide) (by rw [(hsh 0).2]; decide), p1, p2,
      show (⟨1, 0⟩ : ℂ) = 1 from rfl, Complex.arg_one]
    norm_num
  have b0 : (pB S).px 0 0 = 1 := by
    rw [pB_px hSS (by rw [(hsh 0).1]; decide) (by rw [(hsh 0).2]; decide), p1, p2]
    norm_num
  have h24 : ∀ q, (S q).Singles := by
    intro q y x hy hx
    rw [(hsh q).1] at hy
    rw [(hsh q).2] at hx
    obtain rfl : y = 0 := by omega
    obtain rfl : x = 0 := by omega
    fin_cases q
    · exact ⟨5, -1, by norm_num, p0.trans (by norm_num)⟩
    · exact ⟨1, 0, by norm_num, p1.trans (by norm_num)⟩
    · exact ⟨0, 0, by norm_num, p2.trans (by norm_num)⟩
  have hq := (C101_quarter_partial _ 0 0 n 1 h1 (by norm_num; exact hn)).2
  rw [← hSe] at hq
  norm_num at hq
  have hT : ∀ q, (runOps ([.fromArray d none none none fun _ _ => 0] ++ [.rotate 0 (pilRotate 90)])).stokes n q = S q := by
    intro q
    refine (hq q (h24 q) ((hsh q).2.trans (hsh q).1.symm)).trans ?_
    refine Img.ext_px ((hsh q).2.trans (hsh q).1.symm) ((hsh q).1.trans (hsh q).2.symm) fun y x hy hx => ?_
    have hy' : y < 1 := by have := (hsh q).2; exact this ▸ hy
    have hx' : x < 1 := by have := (hsh q).1; exact this ▸ hx
    obtain rfl : y = 0 := by omega
    obtain rfl : x = 0 := by omega
    unfold Img.quarterTurn
    rw [Img.ofFn_px (by rw [(hsh q).2]; decide) (by rw [(hsh q).1]; decide), (hsh q).2]
  refine ⟨_, n, h1, hn, ?_, ?_, ?_, ?_, ?_⟩
  · rw [← hSe]; exact hsh 0
  · rw [← hSe]; exact a0
  · rw [← hSe]; exact b0
  · rw [show (runOps ([.fromArray d none none none fun _ _ => 0] ++ [.rotate 0 (pilRotate 90)])).stokes n = S from funext hT]
    exact a0
  · rw [show (runOps ([.fromArray d none none none fun _ _ => 0] ++ [.rotate 0 (pilRotate 90)])).stokes n = S from funext hT]
    exact b0

end

end Micropol

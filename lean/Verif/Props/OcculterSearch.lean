import Verif.Spec.OcculterSearch
import Verif.Props.Nrgf
import Verif.Props.Occulter
import Verif.Props.OtherUnits
import Verif.Lemmas.LinearRoi

/-!
# C131: what the search of the occulter depends on
-/

set_option autoImplicit false
set_option linter.unusedSectionVars false

namespace Micropol

noncomputable section

open Classical Finset

/-- The four half profiles: up, down, left, right. -/
def halfUp (A : Img ℝ) : List ℝ := ((List.range (A.h / 2)).map (fun y => A.px y (A.w / 2))).reverse
def halfDown (A : Img ℝ) : List ℝ := (List.range (A.h - A.h / 2)).map (fun y => A.px (A.h / 2 + y) (A.w / 2))
def halfLeft (A : Img ℝ) : List ℝ := ((List.range (A.w / 2)).map (fun x => A.px (A.h / 2) x)).reverse
def halfRight (A : Img ℝ) : List ℝ := (List.range (A.w - A.w / 2)).map (fun x => A.px (A.h / 2) (A.w / 2 + x))

/-- The last part of the threshold search. -/
def fromJumps (hy hx : Nat) (o0 o1 o2 o3 : Option Nat) : Py (Int × Int × Int) :=
  match o0, o1, o2, o3 with
  | some i0, some i1, some j0, some j1 =>
    .ok (occulterFromBounds ((hy : ℝ) - i0) ((hy : ℝ) + i1) ((hx : ℝ) - j0) ((hx : ℝ) + j1))
  | _, _, _, _ => .error .valueError

theorem algo_eq (A : Img ℝ) (t : ℝ) : findOcculterAlgo A t = if A.h = 0 ∨ A.w = 0 then .error .indexError else
    fromJumps (A.h / 2) (A.w / 2) (firstJump t (halfUp A)) (firstJump t (halfDown A)) (firstJump t (halfLeft A))
      (firstJump t (halfRight A)) := rfl

theorem findSigmoid_eq (fit : SigmoidFit) (A : Img ℝ) : findOcculterSigmoid fit A = if A.h = 0 ∨ A.w = 0 then .error .indexError else
    halfEdge fit (halfUp A) >>= fun i0 => halfEdge fit (halfDown A) >>= fun i1 => halfEdge fit (halfLeft A) >>= fun j0 =>
    halfEdge fit (halfRight A) >>= fun j1 =>
    .ok (occulterFromBounds (((A.h / 2 : Nat) : ℝ) - i0) (((A.h / 2 : Nat) : ℝ) + i1) (((A.w / 2 : Nat) : ℝ) - j0)
      (((A.w / 2 : Nat) : ℝ) + j1)) := rfl

theorem fromJumps_ok {hy hx : Nat} {o0 o1 o2 o3 : Option Nat} {v : Int × Int × Int} (h : fromJumps hy hx o0 o1 o2 o3 = .ok v) :
    ∃ i0 i1 j0 j1, o0 = some i0 ∧ o1 = some i1 ∧ o2 = some j0 ∧ o3 = some j1 ∧
      v = occulterFromBounds ((hy : ℝ) - i0) ((hy : ℝ) + i1) ((hx : ℝ) - j0) ((hx : ℝ) + j1) := by
  unfold fromJumps at h
  split at h
  · injection h with h
    exact ⟨_, _, _, _, rfl, rfl, rfl, rfl, h.symm⟩
  · cases h

/-- C131: the search looks at the middle row and the middle column only. -/
theorem C131_cross (fit : SigmoidFit) {A B : Img ℝ} (h : SameCross A B) (m : OcculterMethod) (t : ℝ) :
    findOcculterPosition fit B m t = findOcculterPosition fit A m t := by
  have e0 : halfUp B = halfUp A := by
    unfold halfUp
    rw [h.height, h.width]
    congr 1
    exact List.map_congr_left fun y hy => h.column y (by have := List.mem_range.1 hy; omega)
  have e1 : halfDown B = halfDown A := by
    unfold halfDown
    rw [h.height, h.width]
    exact List.map_congr_left fun y hy => h.column _ (by have := List.mem_range.1 hy; omega)
  have e2 : halfLeft B = halfLeft A := by
    unfold halfLeft
    rw [h.height, h.width]
    congr 1
    exact List.map_congr_left fun x hx => h.row x (by have := List.mem_range.1 hx; omega)
  have e3 : halfRight B = halfRight A := by
    unfold halfRight
    rw [h.height, h.width]
    exact List.map_congr_left fun x hx => h.row _ (by have := List.mem_range.1 hx; omega)
  unfold findOcculterPosition
  cases m
  · dsimp only
    rw [findSigmoid_eq, findSigmoid_eq, e0, e1, e2, e3, h.height, h.width]
  · dsimp only
    rw [algo_eq, algo_eq, e0, e1, e2, e3, h.height, h.width]
  · dsimp only
    rw [h.height, h.width]

/-! ## Rows and columns exchanged -/

theorem turned_px (A : Img ℝ) (y x : Nat) : A.turned.px y x = A.px x y := by
  unfold Img.turned
  by_cases h : y < A.w ∧ x < A.h
  · exact Img.ofFn_px h.1 h.2
  · rw [Img.out _ _ _ h, A.out _ _ fun g => h ⟨g.2, g.1⟩]

theorem bounds_turned (a b c d : ℝ) : occulterFromBounds c d a b =
    ((occulterFromBounds a b c d).2.1, (occulterFromBounds a b c d).1, (occulterFromBounds a b c d).2.2) := by
  unfold occulterFromBounds mean2
  rw [add_comm (|d - c| / 2)]

theorem halves_turned (A : Img ℝ) : halfUp A.turned = halfLeft A ∧ halfDown A.turned = halfRight A ∧ halfLeft A.turned = halfUp A ∧
    halfRight A.turned = halfDown A := by
  have hh : A.turned.h = A.w := rfl
  have hw : A.turned.w = A.h := rfl
  unfold halfUp halfDown halfLeft halfRight
  simp only [turned_px, hh, hw, and_self]

theorem turned_turned (A : Img ℝ) : A.turned.turned = A :=
  Img.ext_px rfl rfl fun y x _ _ => by rw [turned_px, turned_px]

theorem turned_found (fit : SigmoidFit) (A : Img ℝ) (m : OcculterMethod) (t : ℝ) {y x r : Int}
    (h : findOcculterPosition fit A m t = .ok (y, x, r)) : findOcculterPosition fit A.turned m t = .ok (x, y, r) := by
  have hh : A.turned.h = A.w := rfl
  have hw : A.turned.w = A.h := rfl
  obtain ⟨e0, e1, e2, e3⟩ := halves_turned A
  unfold findOcculterPosition at h ⊢
  cases m
  · dsimp only at h ⊢
    rw [findSigmoid_eq] at h ⊢
    rw [e0, e1, e2, e3, hh, hw]
    split_ifs at h with hz
    rw [if_neg (by omega)]
    rcases g0 : halfEdge fit (halfUp A) with _ | i0 <;> rw [g0] at h
    · cases h
    rcases g1 : halfEdge fit (halfDown A) with _ | i1 <;> rw [g1] at h
    · cases h
    rcases g2 : halfEdge fit (halfLeft A) with _ | j0 <;> rw [g2] at h
    · cases h
    rcases g3 : halfEdge fit (halfRight A) with _ | j1 <;> rw [g3] at h
    · cases h
    simp only [Py.ok_bind] at h ⊢
    injection h with h
    rw [bounds_turned, h]
  · dsimp only at h ⊢
    rw [algo_eq] at h ⊢
    rw [e0, e1, e2, e3, hh, hw]
    split_ifs at h with hz
    rw [if_neg (by omega)]
    obtain ⟨i0, i1, j0, j1, g0, g1, g2, g3, hv⟩ := fromJumps_ok h
    rw [g0, g1, g2, g3]
    unfold fromJumps
    dsimp only
    rw [bounds_turned, ← hv]
  · dsimp only at h ⊢
    rw [hh, hw]
    split_ifs at h with hz
    rw [if_neg (by omega)]
    injection h with h
    rw [bounds_turned, h]

/-- C131: with rows and columns exchanged the coordinates are exchanged and the radius is the same, with every method. -/
theorem C131_turned (fit : SigmoidFit) (A : Img ℝ) (m : OcculterMethod) (t : ℝ) (y x r : Int) :
    findOcculterPosition fit A.turned m t = .ok (x, y, r) ↔ findOcculterPosition fit A m t = .ok (y, x, r) := by
  refine ⟨fun h => ?_, turned_found fit A m t⟩
  have := turned_found fit A.turned m t h
  rwa [turned_turned] at this

/-! ## Gain -/

theorem sum_map_mul (c : ℝ) (l : List ℝ) : (l.map (c * ·)).sum = c * l.sum := by
  induction l with
  | nil => simp
  | cons a l ih => rw [List.map_cons, List.sum_cons, List.sum_cons, ih]; ring

theorem firstJump_gain {c : ℝ} (hc : 0 < c) (t : ℝ) (l : List ℝ) : firstJump t (l.map (c * ·)) = firstJump t l := by
  unfold firstJump
  rw [List.length_map]
  congr 1
  funext i
  have e1 : (l.map (c * ·)).getD i 0 = c * l.getD i 0 := by
    by_cases hi : i < l.length
    · simp [List.getD, hi]
    · simp [List.getD, hi]
  rw [e1, ← List.map_take, sum_map_mul]
  refine decide_eq_decide.2 (and_congr_right fun _ => ?_)
  rw [show t * (c * (l.take i).sum / (i : ℝ)) = c * (t * ((l.take i).sum / (i : ℝ))) by ring]
  exact mul_lt_mul_iff_right₀ hc

theorem halves_unit (c : ℝ) (A : Img ℝ) : halfUp (inUnit c A) = (halfUp A).map (c * ·) ∧
    halfDown (inUnit c A) = (halfDown A).map (c * ·) ∧ halfLeft (inUnit c A) = (halfLeft A).map (c * ·) ∧
    halfRight (inUnit c A) = (halfRight A).map (c * ·) := by
  have hh : (inUnit c A).h = A.h := rfl
  have hw : (inUnit c A).w = A.w := rfl
  unfold halfUp halfDown halfLeft halfRight
  simp only [inUnit_px, hh, hw, List.map_reverse, List.map_map, Function.comp_def, and_self]

/-- C131: the threshold search does not depend on the gain. -/
theorem C131_gain (fit : SigmoidFit) {c : ℝ} (hc : 0 < c) (A : Img ℝ) (t : ℝ) :
    findOcculterPosition fit (inUnit c A) .algo t = findOcculterPosition fit A .algo t := by
  obtain ⟨e0, e1, e2, e3⟩ := halves_unit c A
  show findOcculterAlgo _ _ = findOcculterAlgo _ _
  rw [algo_eq, algo_eq, e0, e1, e2, e3]
  simp only [firstJump_gain hc]
  rfl

theorem foldl_gain {c : ℝ} (hc : 0 < c) (l : List ℝ) (a : ℝ) :
    (l.map (c * ·)).foldl max (c * a) = c * l.foldl max a ∧ (l.map (c * ·)).foldl min (c * a) = c * l.foldl min a := by
  induction l generalizing a with
  | nil => exact ⟨rfl, rfl⟩
  | cons b l ih =>
    simp only [List.map_cons, List.foldl_cons]
    rw [← mul_max_of_nonneg _ _ hc.le, ← mul_min_of_nonneg _ _ hc.le]
    exact ⟨(ih _).1, (ih _).2⟩

theorem halfEdge_gain {fit : SigmoidFit} (hfit : fit.AnyUnit) {c : ℝ} (hc : 0 < c) (l : List ℝ) :
    halfEdge fit (l.map (c * ·)) = halfEdge fit l := by
  unfold halfEdge
  rw [List.length_map]
  by_cases h0 : l.length = 0
  · rw [if_pos h0, if_pos h0]
  rw [if_neg h0, if_neg h0]
  by_cases h4 : l.length < 4
  · rw [if_pos h4, if_pos h4]
  rw [if_neg h4, if_neg h4]
  dsimp only
  have e1 : listMax (l.map (c * ·)) = c * listMax l := by
    unfold listMax
    cases l with
    | nil => simp
    | cons a l => exact (foldl_gain hc l a).1
  have e2 : listMin (l.map (c * ·)) = c * listMin l := by
    unfold listMin
    cases l with
    | nil => simp
    | cons a l => exact (foldl_gain hc l a).2
  rw [e1, e2]
  have := hfit c ⟨(List.range l.length).map (fun k : Nat => (k : ℝ)), l, ![listMax l, listMin l, 1 / 2, (l.length : ℝ) / 2]⟩ hc
  dsimp only at this
  rw [show (![c * listMax l, c * listMin l, 1 / 2, (l.length : ℝ) / 2] : Fin 4 → ℝ) =
    ![c * (![listMax l, listMin l, 1 / 2, (l.length : ℝ) / 2] : Fin 4 → ℝ) 0,
      c * (![listMax l, listMin l, 1 / 2, (l.length : ℝ) / 2] : Fin 4 → ℝ) 1,
      (![listMax l, listMin l, 1 / 2, (l.length : ℝ) / 2] : Fin 4 → ℝ) 2,
      (![listMax l, listMin l, 1 / 2, (l.length : ℝ) / 2] : Fin 4 → ℝ) 3] from rfl, this]
  cases fit ⟨(List.range l.length).map (fun k : Nat => (k : ℝ)), l, ![listMax l, listMin l, 1 / 2, (l.length : ℝ) / 2]⟩ with
  | none => rfl
  | some p => rfl

/-- C131: neither does the fit of four edges, when the fitting routine works in every unit. -/
theorem C131_gain_fit {fit : SigmoidFit} (hfit : fit.AnyUnit) {c : ℝ} (hc : 0 < c) (A : Img ℝ) (m : OcculterMethod) (t : ℝ) :
    findOcculterPosition fit (inUnit c A) m t = findOcculterPosition fit A m t := by
  cases m
  · obtain ⟨e0, e1, e2, e3⟩ := halves_unit c A
    show findOcculterSigmoid _ _ = findOcculterSigmoid _ _
    rw [findSigmoid_eq, findSigmoid_eq, e0, e1, e2, e3]
    simp only [halfEdge_gain hfit hc]
    rfl
  · exact C131_gain fit hc A t
  · rfl

/-- A routine that returns the first guess works in every unit. -/
example : SigmoidFit.AnyUnit fun call => some call.p0 := fun _ _ _ => rfl

/-! ## Threshold -/

theorem firstJump_some {t : ℝ} {l : List ℝ} {i : Nat} (h : firstJump t l = some i) :
    i < l.length ∧ (5 < i ∧ t * ((l.take i).sum / (i : ℝ)) < l.getD i 0) := by
  have h1 := List.mem_of_find?_eq_some h
  have h2 := List.find?_some h
  exact ⟨List.mem_range.1 h1, of_decide_eq_true h2⟩

theorem firstJump_mono {t t' : ℝ} (ht : t ≤ t') {l : List ℝ} (hl : ∀ v ∈ l, 0 ≤ v) {i : Nat} (h : firstJump t' l = some i) :
    ∃ j, firstJump t l = some j ∧ j ≤ i := by
  obtain ⟨h1, h2, h3⟩ := firstJump_some h
  have hm : 0 ≤ (l.take i).sum / (i : ℝ) :=
    div_nonneg (List.sum_nonneg fun v hv => hl v (List.mem_of_mem_take hv)) (Nat.cast_nonneg _)
  have hj : t * ((l.take i).sum / (i : ℝ)) < l.getD i 0 := lt_of_le_of_lt (mul_le_mul_of_nonneg_right ht hm) h3
  have e := firstJump_spec t l.length (fun k => l.getD k 0) l (by
    apply List.ext_getElem
    · simp
    · intro n g1 g2
      simp [List.getD, g1])
  rcases g : firstJump t l with _ | j
  · exfalso
    unfold firstJump at g
    rw [List.find?_eq_none] at g
    exact g i (List.mem_range.2 h1) (decide_eq_true ⟨h2, hj⟩)
  · refine ⟨j, rfl, ?_⟩
    by_contra hc
    push Not at hc
    unfold firstJump at g
    obtain ⟨-, as, bs, hs, hall⟩ := List.find?_eq_some_iff_append.1 g
    have hi : i ∈ as := by
      have hlen : as.length = j := by
        have := congrArg (fun L => L[as.length]?) hs
        simp at this
        have hlt : as.length < l.length := by
          have := congrArg List.length hs
          simp at this
          omega
        rw [List.getElem?_range hlt] at this
        injection this
      have e1 : (List.range l.length)[i]? = as[i]? := by
        rw [hs, List.getElem?_append_left (by omega)]
      rw [List.getElem?_range h1] at e1
      exact List.mem_of_getElem? e1.symm
    have := hall i hi
    simp only [Bool.not_eq_true', decide_eq_false_iff_not] at this
    exact this ⟨h2, hj⟩

/-- C131: where no pixel is negative, an occulter that is found with some threshold is found with every smaller one, and not larger. -/
theorem C131_threshold (fit : SigmoidFit) {A : Img ℝ} (hA : ∀ y x, y < A.h → x < A.w → 0 ≤ A.px y x) {t t' : ℝ} (ht : t ≤ t')
    {y' x' r' : Int} (h : findOcculterPosition fit A .algo t' = .ok (y', x', r')) :
    ∃ y x r, findOcculterPosition fit A .algo t = .ok (y, x, r) ∧ r ≤ r' := by
  have hall : ∀ y x, 0 ≤ A.px y x := fun y x => by
    by_cases hb : y < A.h ∧ x < A.w
    · exact hA y x hb.1 hb.2
    · rw [A.out _ _ hb]
  have n0 : ∀ v ∈ halfUp A, 0 ≤ v := fun v hv => by
    unfold halfUp at hv
    obtain ⟨k, -, rfl⟩ := List.mem_map.1 (List.mem_reverse.1 hv)
    exact hall _ _
  have n1 : ∀ v ∈ halfDown A, 0 ≤ v := fun v hv => by
    obtain ⟨k, -, rfl⟩ := List.mem_map.1 hv
    exact hall _ _
  have n2 : ∀ v ∈ halfLeft A, 0 ≤ v := fun v hv => by
    unfold halfLeft at hv
    obtain ⟨k, -, rfl⟩ := List.mem_map.1 (List.mem_reverse.1 hv)
    exact hall _ _
  have n3 : ∀ v ∈ halfRight A, 0 ≤ v := fun v hv => by
    obtain ⟨k, -, rfl⟩ := List.mem_map.1 hv
    exact hall _ _
  have h' : findOcculterAlgo A t' = .ok (y', x', r') := h
  show ∃ y x r, findOcculterAlgo A t = .ok (y, x, r) ∧ r ≤ r'
  rw [algo_eq] at h' ⊢
  split_ifs at h' with hz
  rw [if_neg hz]
  obtain ⟨i0, i1, j0, j1, g0, g1, g2, g3, hv⟩ := fromJumps_ok h'
  obtain ⟨a0, f0, l0⟩ := firstJump_mono ht n0 g0
  obtain ⟨a1, f1, l1⟩ := firstJump_mono ht n1 g1
  obtain ⟨a2, f2, l2⟩ := firstJump_mono ht n2 g2
  obtain ⟨a3, f3, l3⟩ := firstJump_mono ht n3 g3
  rw [f0, f1, f2, f3]
  refine ⟨_, _, _, rfl, ?_⟩
  have hr : r' = (occulterFromBounds ((A.h / 2 : Nat) - (i0 : ℝ)) ((A.h / 2 : Nat) + i1) ((A.w / 2 : Nat) - (j0 : ℝ)) ((A.w / 2 : Nat) + j1)).2.2 :=
    congrArg (fun v => v.2.2) hv
  rw [hr]
  have c : ∀ {a b : Nat}, a ≤ b → (a : ℝ) ≤ b := fun h => Nat.cast_le.2 h
  have p : ∀ a : Nat, (0 : ℝ) ≤ a := fun a => Nat.cast_nonneg a
  have ab : ∀ (m : Nat) (a b : Nat), |(m : ℝ) + b - ((m : ℝ) - a)| = a + b := fun m a b => by
    rw [abs_of_nonneg (by have := p a; have := p b; linarith)]
    ring
  unfold occulterFromBounds mean2
  dsimp only
  apply pyInt_mono
  rw [ab, ab, ab, ab]
  have := c l0; have := c l1; have := c l2; have := c l3
  linarith

/-! ## Upside down -/

/-- C131: an image of an even number of rows whose two middle rows are equal, upside down: the occulter is found at the mirrored
place (up to the truncation of a half pixel) with the same radius. -/
theorem C131_upside_down (fit : SigmoidFit) {A : Img ℝ} (he : A.h % 2 = 0) (hm : ∀ x, x < A.w → A.px (A.h / 2 - 1) x = A.px (A.h / 2) x)
    (t : ℝ) {y x r : Int} (h : findOcculterPosition fit A .algo t = .ok (y, x, r)) :
    ∃ y', findOcculterPosition fit A.upsideDown .algo t = .ok (y', x, r) ∧ (y + y' = A.h ∨ y + y' + 1 = A.h) := by
  have hh : A.upsideDown.h = A.h := rfl
  have hw : A.upsideDown.w = A.w := rfl
  have h' : findOcculterAlgo A t = .ok (y, x, r) := h
  show ∃ y', findOcculterAlgo A.upsideDown t = .ok (y', x, r) ∧ _
  rw [algo_eq] at h' ⊢
  rw [hh, hw]
  split_ifs at h' with hz
  push Not at hz
  rw [if_neg (by omega)]
  have px : ∀ y x, y < A.h → x < A.w → A.upsideDown.px y x = A.px (A.h - 1 - y) x := fun y x hy hx => Img.ofFn_px hy hx
  have hrev : ∀ (n : Nat) (g : Nat → ℝ), ((List.range n).map g).reverse = (List.range n).map (fun k => g (n - 1 - k)) := by
    intro n g
    apply List.ext_getElem
    · simp
    · intro i hi1 hi2
      simp
  have e0 : halfUp A.upsideDown = halfDown A := by
    unfold halfUp halfDown
    rw [hh, hw, hrev, show A.h - A.h / 2 = A.h / 2 by omega]
    refine List.map_congr_left fun k hk => ?_
    have := List.mem_range.1 hk
    rw [px _ _ (by omega) (by omega), show A.h - 1 - (A.h / 2 - 1 - k) = A.h / 2 + k by omega]
  have e1 : halfDown A.upsideDown = halfUp A := by
    unfold halfUp halfDown
    rw [hh, hw, hrev, show A.h - A.h / 2 = A.h / 2 by omega]
    refine List.map_congr_left fun k hk => ?_
    have := List.mem_range.1 hk
    rw [px _ _ (by omega) (by omega), show A.h - 1 - (A.h / 2 + k) = A.h / 2 - 1 - k by omega]
  have row : ∀ x, x < A.w → A.upsideDown.px (A.h / 2) x = A.px (A.h / 2) x := fun x hx => by
    rw [px _ _ (by omega) hx, show A.h - 1 - A.h / 2 = A.h / 2 - 1 by omega, hm x hx]
  have e2 : halfLeft A.upsideDown = halfLeft A := by
    unfold halfLeft
    rw [hh, hw]
    congr 1
    exact List.map_congr_left fun x hx => row x (by have := List.mem_range.1 hx; omega)
  have e3 : halfRight A.upsideDown = halfRight A := by
    unfold halfRight
    rw [hh, hw]
    exact List.map_congr_left fun x hx => row _ (by have := List.mem_range.1 hx; omega)
  obtain ⟨i0, i1, j0, j1, g0, g1, g2, g3, hv⟩ := fromJumps_ok h'
  rw [e0, e1, e2, e3, g0, g1, g2, g3]
  obtain ⟨m, hm2⟩ : ∃ m, A.h = 2 * m := ⟨A.h / 2, by omega⟩
  have hm3 : A.h / 2 = m := by omega
  rw [hm3] at hv ⊢
  have b0 : i0 < m := by
    have := (firstJump_some g0).1
    unfold halfUp at this
    simp at this
    omega
  have b1 : i1 < m := by
    have := (firstJump_some g1).1
    unfold halfDown at this
    simp at this
    omega
  unfold occulterFromBounds at hv
  injection hv with v1 v2
  injection v2 with v2 v3
  refine ⟨_, congrArg Except.ok (Prod.ext rfl (Prod.ext v2.symm ?_)), ?_⟩
  · rw [v3]
    show pyInt _ = pyInt _
    congr 2
    rw [show ((m : ℝ) + i0 - ((m : ℝ) - i1)) = (m : ℝ) + i1 - ((m : ℝ) - i0) by ring]
  · rw [v1]
    show pyInt (mean2 _ _) + pyInt (mean2 _ _) = _ ∨ pyInt (mean2 _ _) + pyInt (mean2 _ _) + 1 = _
    have key : ∀ a b : Nat, a < m → pyInt (mean2 ((m : ℝ) - a) ((m : ℝ) + b)) = ((2 * m - a + b) / 2 : Nat) := by
      intro a b ha
      have e : mean2 ((m : ℝ) - a) ((m : ℝ) + b) = ((2 * m - a + b : Nat) : ℝ) / 2 := by
        unfold mean2
        rw [Nat.cast_add, Nat.cast_sub (by omega)]
        push_cast
        ring
      rw [e]
      unfold pyInt
      rw [if_pos (by positivity), Int.floor_eq_iff]
      have q1 : 2 * ((2 * m - a + b) / 2) ≤ 2 * m - a + b := Nat.mul_div_le _ _
      have q2 : 2 * m - a + b < 2 * ((2 * m - a + b) / 2) + 2 := by omega
      have r1 : (2 : ℝ) * ((2 * m - a + b) / 2 : Nat) ≤ (2 * m - a + b : Nat) := by exact_mod_cast q1
      have r2 : ((2 * m - a + b : Nat) : ℝ) < 2 * ((2 * m - a + b) / 2 : Nat) + 2 := by exact_mod_cast q2
      refine ⟨?_, ?_⟩
      · rw [Int.cast_natCast]; linarith
      · rw [Int.cast_natCast]; linarith
    rw [key i0 i1 b0, key i1 i0 b1, hm2]
    omega

/-! ## A constant added to the pixels -/

/-- A dark square in a bright frame. -/
def frameAround (inner outer : ℝ) : Img ℝ :=
  Img.ofFn 16 16 fun y x => if y = 0 ∨ y = 15 ∨ x = 0 ∨ x = 15 then outer else inner

theorem frameAround_px {inner outer : ℝ} {y x : Nat} (hy : y < 16) (hx : x < 16) : (frameAround inner outer).px y x =
    if y = 0 ∨ y = 15 ∨ x = 0 ∨ x = 15 then outer else inner := Img.ofFn_px hy hx

theorem frame_found (fit : SigmoidFit) : findOcculterPosition fit (frameAround 1 10) .algo 4 = .ok (8, 8, 7) := by
  have jump : ∀ f : Nat → ℝ, (∀ k, k < 8 → f k = if k = 7 then 10 else 1) → IsFirstJump 8 f 4 7 := by
    intro f hf
    refine ⟨⟨by decide, by decide, ?_⟩, ?_⟩
    · simp only [Finset.sum_range_succ, Finset.sum_range_zero]
      rw [hf 0 (by decide), hf 1 (by decide), hf 2 (by decide), hf 3 (by decide), hf 4 (by decide), hf 5 (by decide),
        hf 6 (by decide), hf 7 (by decide)]
      norm_num
    · rintro j hj ⟨h1, -, h2⟩
      have : j = 6 := by omega
      subst this
      simp only [Finset.sum_range_succ, Finset.sum_range_zero] at h2
      rw [hf 0 (by decide), hf 1 (by decide), hf 2 (by decide), hf 3 (by decide), hf 4 (by decide), hf 5 (by decide),
        hf 6 (by decide)] at h2
      norm_num at h2
  obtain ⟨y, x, r, hr, hy, hx, hrad⟩ := C64_found (frameAround 1 10) (by decide) (by decide) 4 7 7 7 7
    (jump _ fun k hk => by
      show (frameAround 1 10).px (8 - 1 - k) 8 = _
      rw [frameAround_px (by omega) (by omega)]
      exact if_congr (by omega) rfl rfl)
    (jump _ fun k hk => by
      show (frameAround 1 10).px (8 + k) 8 = _
      rw [frameAround_px (by omega) (by omega)]
      exact if_congr (by omega) rfl rfl)
    (jump _ fun k hk => by
      show (frameAround 1 10).px 8 (8 - 1 - k) = _
      rw [frameAround_px (by omega) (by omega)]
      exact if_congr (by omega) rfl rfl)
    (jump _ fun k hk => by
      show (frameAround 1 10).px 8 (8 + k) = _
      rw [frameAround_px (by omega) (by omega)]
      exact if_congr (by omega) rfl rfl)
  have ey : y = 8 := trunc_unique hy (by
    show IsTrunc ((((8 : Nat) : ℝ) - (7 : Nat) + (((8 : Nat) : ℝ) + (7 : Nat))) / 2) 8
    refine ⟨?_, ?_, ?_⟩ <;> norm_num [abs_of_nonneg])
  have ex : x = 8 := trunc_unique hx (by
    show IsTrunc ((((8 : Nat) : ℝ) - (7 : Nat) + (((8 : Nat) : ℝ) + (7 : Nat))) / 2) 8
    refine ⟨?_, ?_, ?_⟩ <;> norm_num [abs_of_nonneg])
  have er : r = 7 := trunc_unique hrad (by refine ⟨?_, ?_, ?_⟩ <;> norm_num [abs_of_nonneg])
  subst ey ex er
  exact hr

/-- C131, violation: a constant added to all pixels (a bias that was not subtracted) hides the occulter. -/
theorem C131_offset_matters (fit : SigmoidFit) : ∃ A B : Img ℝ, B.SameShape A ∧
    (∀ y x, y < A.h → x < A.w → B.px y x = A.px y x + 100) ∧
    findOcculterPosition fit A .algo 4 = .ok (8, 8, 7) ∧ findOcculterPosition fit B .algo 4 = .error .valueError := by
  refine ⟨frameAround 1 10, frameAround 101 110, ⟨rfl, rfl⟩, fun y x hy hx => ?_, frame_found fit, ?_⟩
  · rw [frameAround_px hy hx, frameAround_px hy hx]
    split <;> norm_num
  · refine C64_missing (frameAround 101 110) (by decide) (by decide) 4 (Or.inl fun i => ?_)
    rintro ⟨⟨h1, h2, h3⟩, -⟩
    have hi : i < 8 := h2
    have val : ∀ k, k < 8 → 101 ≤ (frameAround 101 110).px (8 - 1 - k) 8 ∧ (frameAround 101 110).px (8 - 1 - k) 8 ≤ 110 := fun k hk => by
      rw [frameAround_px (by omega) (by omega)]
      split <;> norm_num
    have hs : (101 : ℝ) * i ≤ ∑ k ∈ range i, (frameAround 101 110).px (8 - 1 - k) 8 := by
      have : ∑ _k ∈ range i, (101 : ℝ) ≤ ∑ k ∈ range i, (frameAround 101 110).px (8 - 1 - k) 8 :=
        sum_le_sum fun k hk => (val k (by have := mem_range.1 hk; omega)).1
      rw [sum_const, card_range, nsmul_eq_mul] at this
      linarith
    have hp : (0 : ℝ) < i := by exact_mod_cast (by omega : 0 < i)
    have h4 : 4 * ((∑ k ∈ range i, (frameAround 101 110).px (8 - 1 - k) 8) / (i : ℝ)) < (frameAround 101 110).px (8 - 1 - i) 8 := h3
    have : (101 : ℝ) ≤ (∑ k ∈ range i, (frameAround 101 110).px (8 - 1 - k) 8) / (i : ℝ) := by
      rw [le_div_iff₀ hp]
      exact hs
    have := (val i hi).2
    linarith

/-- The hypotheses of the theorems are met by the image with the frame. -/
example (fit : SigmoidFit) : ∃ y', findOcculterPosition fit (frameAround 1 10).upsideDown .algo 4 = .ok (y', 8, 7) ∧
    (8 + y' = (16 : Nat) ∨ 8 + y' + 1 = (16 : Nat)) := by
  refine C131_upside_down fit (A := frameAround 1 10) rfl (fun x hx => ?_) 4 (frame_found fit)
  show (frameAround 1 10).px 7 x = (frameAround 1 10).px 8 x
  rw [frameAround_px (by decide) hx, frameAround_px (by decide) hx]
  exact if_congr (by omega) rfl rfl

example (fit : SigmoidFit) : ∃ y x r, findOcculterPosition fit (frameAround 1 10) .algo 3 = .ok (y, x, r) ∧ r ≤ 7 :=
  C131_threshold fit (fun y x hy hx => by rw [frameAround_px hy hx]; split <;> norm_num) (by norm_num) (frame_found fit)

end

end Micropol

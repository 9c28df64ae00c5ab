import Verif.Spec.Cone
import Verif.Lemmas.Blend
import Verif.Props.ObjectPixels

/-!
# C100: adding light never creates polarization
-/

set_option autoImplicit false

namespace Micropol

noncomputable section

open Classical Finset

theorem IsCone.sum {C : (Fin 4 → ℝ) → Prop} (hC : IsCone C) {ι : Type} (P : Finset ι) (f : ι → Fin 4 → ℝ)
    (h : ∀ p ∈ P, C (f p)) : C fun q => ∑ p ∈ P, f p q := by
  induction P using Finset.induction_on with
  | empty => simpa using hC.zero
  | insert a P ha ih =>
    simp only [sum_insert ha]
    exact hC.add _ _ (h a (mem_insert_self a P)) (ih fun p hp => h p (mem_insert_of_mem hp))

/-- Rebinning. -/
theorem rebin_meets {C : (Fin 4 → ℝ) → Prop} (hC : IsCone C) {A B : Img ℝ} (hA : EvenImg A) (h : A.AllMeet C) {b : Int}
    (hb : 0 < b) (hB : micropolarrayRebin A b = .ok B) : B.AllMeet C := by
  obtain ⟨m, rfl⟩ : ∃ m : Nat, b = m := ⟨b.toNat, by omega⟩
  have hm : 1 ≤ m := by omega
  rw [micropolarrayRebin_ok A m hm hA.1 hA.2] at hB
  have h4 := (Except.ok.inj hB).symm
  intro Y X hY hX
  have eh : B.h = 2 * (A.h / (2 * m)) := by rw [h4]; rfl
  have ew : B.w = 2 * (A.w / (2 * m)) := by rw [h4]; rfl
  have hY' : Y < A.h / (2 * m) := by omega
  have hX' : X < A.w / (2 * m) := by omega
  have key : B.four Y X = fun q => ∑ u ∈ range m, ∑ v ∈ range m, A.four (m * Y + u) (m * X + v) q := by
    funext q
    have hq := q.isLt
    show B.px (2 * Y + q.val / 2) (2 * X + q.val % 2) = _
    rw [h4, Img.ofFn_px (by omega) (by omega), blockSum_family]
    unfold familySum Img.four
    rw [show (2 * Y + q.val / 2) / 2 = Y by omega, show (2 * Y + q.val / 2) % 2 = q.val / 2 by omega,
      show (2 * X + q.val % 2) / 2 = X by omega, show (2 * X + q.val % 2) % 2 = q.val % 2 by omega]
  rw [key]
  refine hC.sum _ _ fun u hu => hC.sum _ _ fun v hv => h _ _ ?_ ?_
  · have hu := mem_range.1 hu
    have h1 : m * (Y + 1) ≤ m * (A.h / (2 * m)) := Nat.mul_le_mul_left m hY'
    have h2 : m * (A.h / (2 * m)) ≤ A.h / 2 := by
      rw [← Nat.div_div_eq_div_mul]
      exact Nat.mul_div_le _ _
    rw [mul_add] at h1
    omega
  · have hv := mem_range.1 hv
    have h1 : m * (X + 1) ≤ m * (A.w / (2 * m)) := Nat.mul_le_mul_left m hX'
    have h2 : m * (A.w / (2 * m)) ≤ A.w / 2 := by
      rw [← Nat.div_div_eq_div_mul]
      exact Nat.mul_div_le _ _
    rw [mul_add] at h1
    omega

/-- Shifting by superpixels, filling with 0. -/
theorem shift_meets {C : (Fin 4 → ℝ) → Prop} (hC : IsCone C) {A B : Img ℝ} (hA : EvenImg A) (h : A.AllMeet C) {y x : Int}
    (hB : shiftMicropol A y x 0 = .ok B) : B.AllMeet C := by
  rw [C05_shift_micropol _ hA.1 hA.2] at hB
  obtain ⟨r, er, e1, e2, e3, e4⟩ := C03_shift A (2 * y) (2 * x) 0
  have : r = B := Except.ok.inj (er.symm.trans hB)
  subst this
  intro Y X hY hX
  rw [e1] at hY
  rw [e2] at hX
  by_cases hin : ∃ Y' X' : Nat, Y' < A.h / 2 ∧ X' < A.w / 2 ∧ (Y : Int) = Y' + y ∧ (X : Int) = X' + x
  · obtain ⟨Y', X', a1, a2, a3, a4⟩ := hin
    have : r.four Y X = A.four Y' X' := by
      funext q
      have hq := q.isLt
      exact e3 _ _ _ _ (by omega) (by omega) (by omega) (by omega) (by push_cast; omega) (by push_cast; omega)
    rw [this]
    exact h _ _ a1 a2
  · have : r.four Y X = fun _ => 0 := by
      funext q
      have hq := q.isLt
      refine e4 _ _ (by omega) (by omega) ?_
      rintro ⟨j, i, a1, a2, a3, a4⟩
      refine hin ⟨j / 2, i / 2, by have := hA.1; omega, by have := hA.2; omega, ?_, ?_⟩
      · push_cast at a3 ⊢; omega
      · push_cast at a4 ⊢; omega
    rw [this]
    exact hC.zero

/-- Field-of-view correction. -/
theorem ifov_meets {C : (Fin 4 → ℝ) → Prop} (hC : IsCone C) {A B : Img ℝ} (hA : EvenImg A) (h : A.AllMeet C)
    (hB : correctIfovData A = .ok B) : B.AllMeet C := by
  obtain ⟨r, er, hs, hp⟩ := C37_ifov A hA.1 hA.2
  have : r = B := Except.ok.inj (er.symm.trans hB)
  subst this
  intro Y X hY hX
  rw [hs.1] at hY
  rw [hs.2] at hX
  have hq4 : ∀ q : Fin 4, 2 * Y + q.val / 2 < A.h ∧ 2 * X + q.val % 2 < A.w := fun q => by
    have := q.isLt
    constructor <;> omega
  by_cases hb : Y = 0 ∨ X = 0
  · have : r.four Y X = fun _ => 0 := by
      funext q
      have hq := q.isLt
      exact (hp _ _ (hq4 q).1 (hq4 q).2).1 (by rcases hb with rfl | rfl <;> [left; right] <;> omega)
    rw [this]
    exact hC.zero
  · push Not at hb
    have : r.four Y X = fun q => (1 / 4) * ((A.four Y X q + A.four (Y - 1) X q) +
        (A.four Y (X - 1) q + A.four (Y - 1) (X - 1) q)) := by
      funext q
      have hq := q.isLt
      show r.px (2 * Y + q.val / 2) (2 * X + q.val % 2) = _
      rw [(hp _ _ (hq4 q).1 (hq4 q).2).2 (by omega) (by omega)]
      unfold Img.four
      rw [show 2 * Y + q.val / 2 - 2 = 2 * (Y - 1) + q.val / 2 by omega,
        show 2 * X + q.val % 2 - 2 = 2 * (X - 1) + q.val % 2 by omega]
      ring
    rw [this]
    refine hC.scale _ _ (by norm_num) (hC.add _ _ (hC.add _ _ ?_ ?_) (hC.add _ _ ?_ ?_))
    · exact h _ _ hY hX
    · exact h _ _ (by omega) hX
    · exact h _ _ hY (by omega)
    · exact h _ _ (by omega) (by omega)

/-- Adding two images. -/
theorem add_meets {C : (Fin 4 → ℝ) → Prop} (hC : IsCone C) {A B D : Img ℝ} {junk : Nat → Nat → ℝ} (hA : EvenImg A)
    (hB : EvenImg B) (h : A.AllMeet C) (h' : B.AllMeet C) (hD : arithData .add junk A (.image B) = .ok D) : D.AllMeet C := by
  have hs : A.SameShape B := same_of_ok hA hB hD
  obtain ⟨r, _, _, er, -, -, hr, -, -, hp⟩ := C39_images A B hs
  have : r = D := Except.ok.inj (er.symm.trans hD)
  subst this
  intro Y X hY hX
  rw [hr.1] at hY
  rw [hr.2] at hX
  have : r.four Y X = fun q => A.four Y X q + B.four Y X q := by
    funext q
    have hq := q.isLt
    exact (hp _ _ (by omega) (by omega)).1
  rw [this]
  exact hC.add _ _ (h _ _ hY hX) (h' _ _ (by rw [← hs.1]; exact hY) (by rw [← hs.2]; exact hX))

/-- Scaling. -/
theorem scale_meets {C : (Fin 4 → ℝ) → Prop} (hC : IsCone C) {A D : Img ℝ} {c : ℝ} (hc : 0 ≤ c) (h : A.AllMeet C)
    (hr : D.SameShape A) (hp : ∀ y x, y < A.h → x < A.w → D.px y x = c * A.px y x) : D.AllMeet C := by
  intro Y X hY hX
  rw [hr.1] at hY
  rw [hr.2] at hX
  have : D.four Y X = fun q => c * A.four Y X q := by
    funext q
    have hq := q.isLt
    exact hp _ _ (by omega) (by omega)
  rw [this]
  exact hC.scale _ _ hc (h _ _ hY hX)

/-- The invariant of the histories. -/
def MeetsV (C : (Fin 4 → ℝ) → Prop) (v : ImgView) : Prop := EvenImg v.data ∧ v.data.AllMeet C

theorem updateData_meets {C : (Fin 4 → ℝ) → Prop} {v : ImgView} {d : Img ℝ} (hd : EvenImg d ∧ d.AllMeet C) :
    MeetsV C (updateDataAndStokesV d v).2 :=
  withVal_inv (P := MeetsV C) (v := { v with data := d }) hd fun _ _ => hd

theorem value_meets {C : (Fin 4 → ℝ) → Prop} (hC : IsCone C) {s : State} (hs : ∀ k ∈ s.images, MeetsV C (s.heap.view k))
    {o : Op} (ho : o.AddsLight C) {v : ImgView} (hv : MeetsV C v) : MeetsV C (o.value s v).2 := by
  have hdem : ∀ mode, MeetsV C (demosaicV mode v).2 := fun mode =>
    withVal_inv (P := MeetsV C) hv fun a _ => withVal_inv (P := MeetsV C)
      (v := { v with demosaicedImages := some a, isDemosaiced := true }) hv fun _ _ => hv
  cases o with
  | setDefault _ => exact hv
  | fromArray _ _ _ _ _ => exact hv
  | fromImage i dic dark flat junk =>
    cases dark with
    | some _ => exact absurd ho (by simp [Op.AddsLight])
    | none =>
      cases flat with
      | some _ => exact absurd ho (by simp [Op.AddsLight])
      | none => exact hv
  | rebin i b =>
    unfold Op.value
    dsimp only
    split
    · exact hv
    · rename_i hb
      exact withVal_inv (P := MeetsV C) hv fun _ ha => updateData_meets ⟨rebin_even hv.1 (by omega) ha, rebin_meets hC hv.1 hv.2 (by omega) ha⟩
  | congrid _ _ _ => exact ho.elim
  | rotate _ _ => exact ho.elim
  | demodulate i D dem =>
    unfold Op.value demodulateV
    dsimp only
    split
    · exact andThen_inv (P := MeetsV C) (hdem _) fun w hw => withVal_inv (P := MeetsV C) hw fun _ _ => hw
    · exact withVal_inv (P := MeetsV C) hv fun _ _ => hv
  | shift i y x m =>
    have hm : m = 0 := ho
    subst hm
    exact withVal_inv (P := MeetsV C) hv fun _ ha => updateData_meets ⟨even_of_shape hv.1 (shift_shape hv.1 ha), shift_meets hC hv.1 hv.2 ha⟩
  | cleanHotPixels _ _ _ => exact ho.elim
  | arithImage op i j junk =>
    cases op with
    | add =>
      refine secondV_inv hv fun k hk => withVal_inv (P := MeetsV C) hv fun _ ha => ?_
      have hj := hs k (List.mem_of_getElem? hk)
      exact updateData_meets ⟨even_of_shape hv.1 (arithImage_shape hv.1 hj.1 ha), add_meets hC hv.1 hj.1 hv.2 hj.2 ha⟩
    | sub => exact ho.elim
    | mul => exact ho.elim
    | div => exact ho.elim
  | arithNumber op i c junk =>
    cases op with
    | add => exact ho.elim
    | sub => exact ho.elim
    | mul =>
      have hc : 0 ≤ c := ho
      change MeetsV C (withVal (arithData .mul junk v.data (.number c)) v fun d => withVal (dataStokes d v.dic) v fun S =>
        (.ok (), freshView d S v.dic)).2
      refine withVal_inv (P := MeetsV C) hv fun D ha => withVal_inv (P := MeetsV C) hv fun _ _ => ?_
      obtain ⟨_, _, r, -, -, er, -, -, hr, hp⟩ := C39_numbers v.data c
      have : r = D := Except.ok.inj (er.symm.trans ha)
      subst this
      exact ⟨even_of_shape hv.1 hr, scale_meets hC hc hv.2 hr fun y x hy hx => (hp y x hy hx).2.2.trans (mul_comm _ _)⟩
    | div =>
      have hc : 0 < c := ho
      change MeetsV C (withVal (arithData .div junk v.data (.number c)) v fun d => withVal (dataStokes d v.dic) v fun S =>
        (.ok (), freshView d S v.dic)).2
      refine withVal_inv (P := MeetsV C) hv fun D ha => withVal_inv (P := MeetsV C) hv fun _ _ => ?_
      obtain ⟨_, r, -, er, -, hr, hp⟩ := C39_div_partial junk v.data v.data ⟨rfl, rfl⟩ c
      have : r = D := Except.ok.inj (er.symm.trans ha)
      subst this
      exact ⟨even_of_shape hv.1 hr, scale_meets hC (inv_nonneg.2 hc.le) hv.2 hr fun y x hy hx =>
        ((hp y x hy hx).2 hc.ne').trans (div_eq_inv_mul _ _)⟩
  | demosaic i mode => exact hdem _
  | subtractDark _ _ => exact ho.elim
  | correctFlat _ _ _ => exact ho.elim
  | correctIfov i =>
    exact withVal_inv (P := MeetsV C) hv fun _ ha => updateData_meets
      ⟨even_of_shape hv.1 (correctIfovData_shape hv.1 ha), ifov_meets hC hv.1 hv.2 ha⟩
  | maskOcculter _ _ _ _ _ _ => exact ho.elim

theorem run_meets {C : (Fin 4 → ℝ) → Prop} (hC : IsCone C) (ops : List Op) (hops : ∀ o ∈ ops, o.AddsLight C) :
    ∀ k ∈ (runOps ops).images, MeetsV C ((runOps ops).heap.view k) := by
  induction ops using List.reverseRecOn with
  | nil => intro k hk; cases hk
  | append_singleton ops o ih =>
    have ho := hops o (by simp)
    have ih' := ih fun o' h' => hops o' (by simp [h'])
    rw [runOps_snoc]
    refine inv_step (P := MeetsV C) (runOps_valid ops) ih' ?_ ?_ ?_
    · intro k hk hPk
      exact ⟨fun _ => value_meets hC ih' ho hPk, fun _ _ => value_meets hC ih' ho hPk⟩
    · intro d dic dark flat junk hd v h
      subst hd
      have e := fromArrayV_even (run_even ops) h
      refine ⟨e, ?_⟩
      cases dark with
      | some _ => exact absurd ho (by simp [Op.AddsLight])
      | none =>
        cases flat with
        | some _ => exact absurd ho (by simp [Op.AddsLight])
        | none =>
          change (withVal (dataStokes d (dicVal dic (runOps ops).heap)) v fun S =>
            ((.ok (), freshView d S (dicVal dic (runOps ops).heap)) : Py Unit × ImgView)).1 = _ at h
          change Img.AllMeet (withVal (dataStokes d (dicVal dic (runOps ops).heap)) v fun S =>
            ((.ok (), freshView d S (dicVal dic (runOps ops).heap)) : Py Unit × ImgView)).2.data C
          obtain ⟨S, hS, e3⟩ := withVal_ok h
          rw [e3]
          exact ho
    · intro _ k r _ _ hPk _ _
      exact hPk

/-- C100: in every history of calls that only copy, add, move and scale light, and of `demosaic` and `demodulate`, whatever
condition kept by adding and scaling light all the given arrays meet, every image of the session meets it. -/
theorem C100_cone (C : (Fin 4 → ℝ) → Prop) (hC : IsCone C) (ops : List Op) (hops : ∀ o ∈ ops, o.AddsLight C) (k : Nat)
    (hk : k ∈ (runOps ops).images) : ((runOps ops).data k).AllMeet C := (run_meets hC ops hops k hk).2

theorem polarizedAtMost_cone (L : Layout) {M : ℝ} : IsCone (PolarizedAtMost L M) := by
  unfold PolarizedAtMost
  refine ⟨by simp, fun v w hv hw => ?_, fun c v hc hv => ?_⟩
  · have := sqrt_sum_le (univ : Finset (Fin 2)) (fun _ => 1) ![v L.p0 - v L.p90, w L.p0 - w L.p90]
      ![v L.p45 - v L.pm45, w L.p45 - w L.pm45] (fun _ _ => zero_le_one)
    simp only [Fin.sum_univ_two, one_mul, Matrix.cons_val_zero, Matrix.cons_val_one] at this
    rw [sum_add_distrib]
    have e : ∀ a b : ℝ, a ^ 2 + b ^ 2 = a * a + b * b := fun a b => by ring
    simp only [e] at hv hw ⊢
    rw [show v L.p0 + w L.p0 - (v L.p90 + w L.p90) = v L.p0 - v L.p90 + (w L.p0 - w L.p90) by ring,
      show v L.p45 + w L.p45 - (v L.pm45 + w L.pm45) = v L.p45 - v L.pm45 + (w L.p45 - w L.pm45) by ring]
    refine this.trans ((add_le_add hv hw).trans (le_of_eq (by ring)))
  · rw [← mul_sum, show (c * v L.p0 - c * v L.p90) ^ 2 + (c * v L.p45 - c * v L.pm45) ^ 2 =
      c ^ 2 * ((v L.p0 - v L.p90) ^ 2 + (v L.p45 - v L.pm45) ^ 2) by ring, Real.sqrt_mul (by positivity), Real.sqrt_sq hc]
    calc c * Real.sqrt ((v L.p0 - v L.p90) ^ 2 + (v L.p45 - v L.pm45) ^ 2) ≤ c * (M * ((∑ q, v q) / 2)) :=
          mul_le_mul_of_nonneg_left hv hc
      _ = M * (c * ∑ q, v q) / 2 := by ring
      _ = M * ((c * ∑ q, v q) / 2) := by ring

/-- C100: in such a history without `demosaic` and `demodulate`, if the degree of polarization is at most `M` in all superpixels of
all given arrays, DoLP of every image of the session is at most `M` everywhere. -/
theorem C100_dolp (L : Layout) (M : ℝ) (hM : 0 ≤ M) (ops : List Op)
    (hops : ∀ o ∈ ops, o.theoretical = true ∧ o.AddsLight (PolarizedAtMost L M)) (k : Nat) (hk : k ∈ (runOps ops).images)
    (hL : L.Describes ((runOps ops).dic k)) :
    ∃ D, DoLP ((runOps ops).stokes k) = .ok D ∧ D.HasShape (((runOps ops).data k).h / 2) (((runOps ops).data k).w / 2) ∧
      ∀ y x, y < ((runOps ops).data k).h / 2 → x < ((runOps ops).data k).w / 2 → 0 ≤ D.px y x ∧ D.px y x ≤ M := by
  have hm := C100_cone _ (polarizedAtMost_cone L) ops (fun o ho => (hops o ho).2) k hk
  obtain ⟨hsh, hp⟩ := C42_pixels ops (fun o ho => (hops o ho).1) k hk L hL
  have sS : SameShape ((runOps ops).stokes k) := fun q => ⟨(hsh q).1.trans (hsh 0).1.symm, (hsh q).2.trans (hsh 0).2.symm⟩
  obtain ⟨D, hD, d1, d2, hd⟩ := C19_total _ sS
  refine ⟨D, hD, ⟨d1.trans (hsh 0).1, d2.trans (hsh 0).2⟩, fun y x hy hx => ?_⟩
  have hy0 : y < ((runOps ops).stokes k 0).h := by rw [(hsh 0).1]; exact hy
  have hx0 : x < ((runOps ops).stokes k 0).w := by rw [(hsh 0).2]; exact hx
  obtain ⟨a0, a1⟩ := hd y x hy0 hx0
  obtain ⟨p0, p1, p2⟩ := hp y x hy hx
  have hb : (pB ((runOps ops).stokes k)).px y x ≤ M * ((runOps ops).stokes k 0).px y x := by
    rw [pB_px sS hy0 hx0, p0, p1, p2]
    have := hm y x hy hx
    unfold PolarizedAtMost at this
    rw [Fin.sum_univ_four, pow_two, pow_two] at this
    exact this
  have hb0 := (C18_pB _ sS y x hy0 hx0).1
  rcases lt_trichotomy (((runOps ops).stokes k 0).px y x) 0 with h | h | h
  · have hz : (pB ((runOps ops).stokes k)).px y x = 0 := le_antisymm (hb.trans (mul_nonpos_of_nonneg_of_nonpos hM h.le)) hb0
    rw [a1 h.ne, hz, zero_div]
    exact ⟨le_rfl, hM⟩
  · rw [a0 h]
    exact ⟨le_rfl, hM⟩
  · rw [a1 h.ne']
    exact ⟨div_nonneg hb0 h.le, (div_le_iff₀ h).2 hb⟩

/-- C100: light of one state of polarization stays so: if Q = q I and U = u I in all given arrays, then so in every image of the
session. -/
theorem C100_state (L : Layout) (q u : ℝ) (ops : List Op)
    (hops : ∀ o ∈ ops, o.theoretical = true ∧ o.AddsLight fun v =>
      v L.p0 - v L.p90 = q * ((∑ p, v p) / 2) ∧ v L.p45 - v L.pm45 = u * ((∑ p, v p) / 2))
    (k : Nat) (hk : k ∈ (runOps ops).images) (hL : L.Describes ((runOps ops).dic k)) (y x : Nat)
    (hy : y < ((runOps ops).data k).h / 2) (hx : x < ((runOps ops).data k).w / 2) :
    ((runOps ops).stokes k 1).px y x = q * ((runOps ops).stokes k 0).px y x ∧
    ((runOps ops).stokes k 2).px y x = u * ((runOps ops).stokes k 0).px y x := by
  have hm := C100_cone _ ⟨by simp, fun v w hv hw => ?_, fun c v _ hv => ?_⟩ ops (fun o ho => (hops o ho).2) k hk
  · obtain ⟨-, hp⟩ := C42_pixels ops (fun o ho => (hops o ho).1) k hk L hL
    obtain ⟨p0, p1, p2⟩ := hp y x hy hx
    have := hm y x hy hx
    dsimp only at this
    rw [Fin.sum_univ_four] at this
    rw [p0, p1, p2]
    exact this
  · rw [sum_add_distrib]
    constructor
    · linear_combination hv.1 + hw.1
    · linear_combination hv.2 + hw.2
  · rw [← mul_sum]
    constructor
    · linear_combination c * hv.1
    · linear_combination c * hv.2

/-- C100: the two ways of measuring the intensity of a superpixel keep agreeing: if the 0° and 90° pixels together equal the 45° and
−45° pixels in all given arrays, then so in every image of the session. -/
theorem C100_crossed_pairs (L : Layout) (ops : List Op)
    (hops : ∀ o ∈ ops, o.AddsLight fun v => v L.p0 + v L.p90 = v L.p45 + v L.pm45) (k : Nat)
    (hk : k ∈ (runOps ops).images) (y x : Nat) (hy : y < ((runOps ops).data k).h / 2) (hx : x < ((runOps ops).data k).w / 2) :
    ((runOps ops).data k).four y x L.p0 + ((runOps ops).data k).four y x L.p90 =
      ((runOps ops).data k).four y x L.p45 + ((runOps ops).data k).four y x L.pm45 := by
  refine C100_cone _ ⟨by simp, fun v w hv hw => ?_, fun c v _ hv => ?_⟩ ops hops k hk y x hy hx
  · linear_combination hv + hw
  · linear_combination c * hv

/-- The example: a superpixel with pixels 3, 1, 1, 1 (I = 3, Q = 2, U = 0, so DoLP = 2/3), rebinned, added to itself, doubled and
shifted. -/
def somePolarized : Img ℝ := Img.ofFn 2 2 fun y x => if y = 0 ∧ x = 0 then 3 else 1

theorem somePolarized_meets : somePolarized.AllMeet (PolarizedAtMost ⟨0, 1, 2, 3⟩ (2 / 3)) := by
  intro Y X hY hX
  have hY : Y < 1 := hY
  have hX : X < 1 := hX
  obtain rfl : Y = 0 := by omega
  obtain rfl : X = 0 := by omega
  unfold PolarizedAtMost
  rw [Fin.sum_univ_four]
  norm_num [Img.four, somePolarized, Img.ofFn_px']
  rw [show (4 : ℝ) = 2 ^ 2 by norm_num, Real.sqrt_sq (by norm_num)]

example : let ops : List Op := [.fromArray somePolarized none none none fun _ _ => 0, .rebin 0 1, .arithImage .add 0 1 fun _ _ => 0,
      .arithNumber .mul 2 2 fun _ _ => 0, .shift 0 1 0 0, .correctIfov 0]
    ∀ o ∈ ops, o.theoretical = true ∧ o.AddsLight (PolarizedAtMost ⟨0, 1, 2, 3⟩ (2 / 3)) := by
  intro ops o ho
  simp only [ops, List.mem_cons, List.not_mem_nil, or_false] at ho
  rcases ho with rfl | rfl | rfl | rfl | rfl | rfl
  · exact ⟨rfl, somePolarized_meets⟩
  · exact ⟨rfl, trivial⟩
  · exact ⟨rfl, trivial⟩
  · exact ⟨rfl, by show (0 : ℝ) ≤ 2; norm_num⟩
  · exact ⟨rfl, rfl⟩
  · exact ⟨rfl, trivial⟩

/-- And the first call does return an image with the dictionary of the layout. -/
example : ∃ S, dataStokes somePolarized polarCamAngles = .ok S ∧ Layout.Describes ⟨0, 1, 2, 3⟩ polarCamAngles := by
  obtain ⟨S, hS, -⟩ := C17_stokes somePolarized rfl rfl _ _ C02_polarCam.1
  exact ⟨S, hS, C02_polarCam.1⟩

end

end Micropol

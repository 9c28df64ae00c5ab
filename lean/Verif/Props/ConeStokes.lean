import Verif.Props.Cone
import Verif.Lemmas.AnyHistory

/-!
# C100: adding light never creates polarization, with demosaicing

The histories of `Props/Cone` with `demosaic` calls at any moment, also before further calls, which then work with the demosaiced
images.
-/

set_option autoImplicit false

namespace Micropol

noncomputable section

open Classical Finset

/-- A mean of superpixels meets the condition. -/
theorem IsCone.mean {C : (Fin 4 → ℝ) → Prop} (hC : IsCone C) {ι : Type} (P : Finset ι) (f : ι → Fin 4 → ℝ) (n : Nat)
    (h : ∀ p ∈ P, C (f p)) : C fun q => (∑ p ∈ P, f p q) / (n : ℝ) := by
  have := hC.scale (n : ℝ)⁻¹ _ (by positivity) (hC.sum P f h)
  simpa only [div_eq_inv_mul] using this

/-- The four families, pixel by pixel, meet the condition. -/
def FourMeet (C : (Fin 4 → ℝ) → Prop) (s : Fin 4 → Img ℝ) : Prop :=
  ∀ y x, y < (s 0).h → x < (s 0).w → C fun q => (s q).px y x

theorem split_meets {C : (Fin 4 → ℝ) → Prop} {A : Img ℝ} (h : A.AllMeet C) {s : Fin 4 → Img ℝ}
    (hs : splitPolarizations A = .ok s) : FourMeet C s := by
  have hf := C02_family_pixels A s hs
  intro y x hy hx
  rw [(hf 0).1] at hy
  rw [(hf 0).2.1] at hx
  have : (fun q => (s q).px y x) = A.four y x := by
    funext q
    exact (hf q).2.2 y x hy hx
  rw [this]
  exact h y x hy hx

theorem demosaic_meets {C : (Fin 4 → ℝ) → Prop} (hC : IsCone C) {A : Img ℝ} (hA : EvenImg A) (h : A.AllMeet C) {mode : String}
    {r : Fin 4 → Img ℝ} (hr : demosaic A mode = .ok r) : FourMeet C r := by
  have hsz := demosaic_sizes hA hr
  have hs := split_ok hA.1 hA.2
  have hf := C02_family_pixels A _ hs
  intro y x hy hx
  rw [(hsz 0).1] at hy
  rw [(hsz 0).2] at hx
  have hy2 : y / 2 < A.h / 2 := by have := hA.1; omega
  have hx2 : x / 2 < A.w / 2 := by have := hA.2; omega
  have ey : 2 * (y / 2) + y % 2 = y := by omega
  have ex : 2 * (x / 2) + x % 2 = x := by omega
  by_cases h1 : mode = "mean"
  · subst h1
    obtain ⟨r', e, hp⟩ := C13_mean A _ hs
    cases Except.ok.inj (e.symm.trans hr)
    have t := hC.scale (1 / 4) _ (by norm_num) (h (y / 2) (x / 2) hy2 hx2)
    have : (fun q => (r q).px y x) = fun q => 1 / 4 * A.four (y / 2) (x / 2) q := by
      funext q
      have := (hp q).2.2 (y / 2) (x / 2) (y % 2) (x % 2) hy2 hx2 (by omega) (by omega)
      rw [ey, ex] at this
      rw [this, (hf q).2.2 _ _ hy2 hx2, div_eq_inv_mul, one_div]
      rfl
    rw [this]
    exact t
  · by_cases h2 : mode = "adjacent"
    · subst h2
      obtain ⟨r', e, hp⟩ := C14_adjacent A _ hs
      cases Except.ok.inj (e.symm.trans hr)
      have t := hC.mean (range (y % 2 + 1) ×ˢ range (x % 2 + 1))
        (fun p => A.four (min (y / 2 + p.1) (A.h / 2 - 1)) (min (x / 2 + p.2) (A.w / 2 - 1))) ((y % 2 + 1) * (x % 2 + 1))
        (fun p _ => h _ _ (by omega) (by omega))
      have : (fun q => (r q).px y x) = fun q => (∑ p ∈ range (y % 2 + 1) ×ˢ range (x % 2 + 1),
          A.four (min (y / 2 + p.1) (A.h / 2 - 1)) (min (x / 2 + p.2) (A.w / 2 - 1)) q) / (((y % 2 + 1) * (x % 2 + 1) : Nat) : ℝ) := by
        funext q
        have := (hp q).2.2 (y / 2) (x / 2) (y % 2) (x % 2) hy2 hx2 (by omega) (by omega)
        rw [ey, ex] at this
        rw [this, sum_product]
        unfold bilinear
        rw [(hf q).1, (hf q).2.1]
        congr 1
        refine sum_congr rfl fun a _ => sum_congr rfl fun b _ => ?_
        exact (hf q).2.2 _ _ (by omega) (by omega)
      rw [this]
      exact t
    · unfold demosaic at hr
      rw [if_neg h1, if_neg h2] at hr
      split at hr <;> cases hr

/-- Each Stokes vector of the maps is that of a superpixel that meets the condition. -/
def StokesMeet (L : Layout) (C : (Fin 4 → ℝ) → Prop) (S : Fin 3 → Img ℝ) : Prop :=
  SameShape S ∧ ∀ y x, y < (S 0).h → x < (S 0).w → ∃ v, C v ∧
    (S 0).px y x = (∑ q, v q) / 2 ∧ (S 1).px y x = v L.p0 - v L.p90 ∧ (S 2).px y x = v L.p45 - v L.pm45

theorem theo_meets {C : (Fin 4 → ℝ) → Prop} {L : Layout} {s : Fin 4 → Img ℝ} (hs : ∀ q, (s q).SameShape (s 0)) (h : FourMeet C s)
    {dic : AngleDic} (hL : L.Describes dic) {S : Fin 3 → Img ℝ} (hS : theoStokes s dic = .ok S) : StokesMeet L C S := by
  rw [theoStokes_ok s hL] at hS
  cases hS
  obtain ⟨h1, h2⟩ := stokesClosed_spec s L (fun q => (hs q).1) (fun q => (hs q).2)
  refine ⟨fun q => ⟨(h1 q).1.trans (h1 0).1.symm, (h1 q).2.trans (h1 0).2.symm⟩, fun y x hy hx => ?_⟩
  rw [(h1 0).1] at hy
  rw [(h1 0).2] at hx
  exact ⟨fun q => (s q).px y x, h y x hy hx, h2 y x hy hx⟩

/-- The invariant of the histories: pixels, demosaiced images and Stokes maps. -/
def LitV (L : Layout) (C : (Fin 4 → ℝ) → Prop) (v : ImgView) : Prop :=
  MeetsV C v ∧ (v.isDemosaiced = true → ∃ s, v.demosaicedImages = some s ∧ FourEven s ∧ FourMeet C s) ∧
  (L.Describes v.dic → StokesMeet L C v.stokes.planes)

theorem updateStokes_lit {L : Layout} {C : (Fin 4 → ℝ) → Prop} {v : ImgView} (hv : LitV L C v) : LitV L C (updateStokesV v).2 := by
  refine withVal_inv (P := LitV L C) hv fun S hS => ⟨hv.1, hv.2.1, fun hL => ?_⟩
  show StokesMeet L C S
  unfold theoV at hS
  split at hS
  · rename_i hd
    obtain ⟨s, e, he, hm⟩ := hv.2.1 hd
    rw [e] at hS
    exact theo_meets he.2 hm hL hS
  · unfold dataStokes at hS
    rw [split_ok hv.1.1.1 hv.1.1.2, Py.ok_bind] at hS
    exact theo_meets (fun q => ⟨rfl, rfl⟩) (split_meets hv.1.2 (split_ok hv.1.1.1 hv.1.1.2)) hL hS

theorem updateData_lit {L : Layout} {C : (Fin 4 → ℝ) → Prop} {v : ImgView} (hv : LitV L C v) {d : Img ℝ}
    (hd : EvenImg d ∧ d.AllMeet C) : LitV L C (updateDataAndStokesV d v).2 :=
  updateStokes_lit (v := { v with data := d }) ⟨hd, hv.2⟩

theorem fresh_lit {L : Layout} {C : (Fin 4 → ℝ) → Prop} {d : Img ℝ} (hd : EvenImg d ∧ d.AllMeet C) {dic : AngleDic}
    {S : Fin 3 → Img ℝ} (hS : dataStokes d dic = .ok S) : LitV L C (freshView d S dic) := by
  refine ⟨hd, fun h => (by cases h), fun hL => ?_⟩
  unfold dataStokes at hS
  rw [split_ok hd.1.1 hd.1.2, Py.ok_bind] at hS
  exact theo_meets (fun q => ⟨rfl, rfl⟩) (split_meets hd.2 (split_ok hd.1.1 hd.1.2)) hL hS

theorem demosaic_lit {L : Layout} {C : (Fin 4 → ℝ) → Prop} (hC : IsCone C) {v : ImgView} (hv : LitV L C v) (mode : String) :
    LitV L C (demosaicV mode v).2 :=
  withVal_inv (P := LitV L C) hv fun s hs => updateStokes_lit (v := { v with demosaicedImages := some s, isDemosaiced := true })
    ⟨hv.1, fun _ => ⟨s, rfl, demosaic_four hv.1.1 hs, demosaic_meets hC hv.1.1 hv.1.2 hs⟩, hv.2.2⟩

theorem value_lit {L : Layout} {C : (Fin 4 → ℝ) → Prop} (hC : IsCone C) {s : State} (hs : ∀ k ∈ s.images, LitV L C (s.heap.view k))
    {o : Op} (ho : o.AddsLight C) (hnd : ∀ i D dem, o ≠ .demodulate i D dem) {v : ImgView} (hv : LitV L C v) :
    LitV L C (o.value s v).2 := by
  have he := hv.1.1
  have hm := hv.1.2
  cases o with
  | setDefault _ => exact hv
  | fromArray _ _ _ _ _ => exact hv
  | fromImage i dic dark flat junk =>
    cases dark with
    | some _ => exact absurd ho (by simp [Op.AddsLight])
    | none =>
      cases flat with
      | some _ => exact absurd ho (by simp [Op.AddsLight])
      | none => exact hv
  | rebin i b =>
    unfold Op.value
    dsimp only
    split
    · exact hv
    · rename_i hb
      exact withVal_inv (P := LitV L C) hv fun _ ha =>
        updateData_lit hv ⟨rebin_even he (by omega) ha, rebin_meets hC he hm (by omega) ha⟩
  | congrid _ _ _ => exact ho.elim
  | rotate _ _ => exact ho.elim
  | demodulate i D dem => exact absurd rfl (hnd i D dem)
  | shift i y x m =>
    have hm0 : m = 0 := ho
    subst hm0
    exact withVal_inv (P := LitV L C) hv fun _ ha =>
      updateData_lit hv ⟨even_of_shape he (shift_shape he ha), shift_meets hC he hm ha⟩
  | cleanHotPixels _ _ _ => exact ho.elim
  | arithImage op i j junk =>
    cases op with
    | add =>
      refine secondV_inv hv fun k hk => withVal_inv (P := LitV L C) hv fun _ ha => ?_
      have hj := (hs k (List.mem_of_getElem? hk)).1
      exact updateData_lit hv ⟨even_of_shape he (arithImage_shape he hj.1 ha), add_meets hC he hj.1 hm hj.2 ha⟩
    | sub => exact ho.elim
    | mul => exact ho.elim
    | div => exact ho.elim
  | arithNumber op i c junk =>
    cases op with
    | add => exact ho.elim
    | sub => exact ho.elim
    | mul =>
      have hc : 0 ≤ c := ho
      change LitV L C (withVal (arithData .mul junk v.data (.number c)) v fun d => withVal (dataStokes d v.dic) v fun S =>
        (.ok (), freshView d S v.dic)).2
      refine withVal_inv (P := LitV L C) hv fun D ha => withVal_inv (P := LitV L C) hv fun _ hS => ?_
      obtain ⟨_, _, r, -, -, er, -, -, hr, hp⟩ := C39_numbers v.data c
      have : r = D := Except.ok.inj (er.symm.trans ha)
      subst this
      exact fresh_lit ⟨even_of_shape he hr, scale_meets hC hc hm hr fun y x hy hx => (hp y x hy hx).2.2.trans (mul_comm _ _)⟩ hS
    | div =>
      have hc : 0 < c := ho
      change LitV L C (withVal (arithData .div junk v.data (.number c)) v fun d => withVal (dataStokes d v.dic) v fun S =>
        (.ok (), freshView d S v.dic)).2
      refine withVal_inv (P := LitV L C) hv fun D ha => withVal_inv (P := LitV L C) hv fun _ hS => ?_
      obtain ⟨_, r, -, er, -, hr, hp⟩ := C39_div_partial junk v.data v.data ⟨rfl, rfl⟩ c
      have : r = D := Except.ok.inj (er.symm.trans ha)
      subst this
      exact fresh_lit ⟨even_of_shape he hr, scale_meets hC (inv_nonneg.2 hc.le) hm hr fun y x hy hx =>
        ((hp y x hy hx).2 hc.ne').trans (div_eq_inv_mul _ _)⟩ hS
  | demosaic i mode => exact demosaic_lit hC hv mode
  | subtractDark _ _ => exact ho.elim
  | correctFlat _ _ _ => exact ho.elim
  | correctIfov i =>
    exact withVal_inv (P := LitV L C) hv fun _ ha => updateData_lit hv
      ⟨even_of_shape he (correctIfovData_shape he ha), ifov_meets hC he hm ha⟩
  | maskOcculter _ _ _ _ _ _ => exact ho.elim

theorem run_coneLit {L : Layout} {C : (Fin 4 → ℝ) → Prop} (hC : IsCone C) (ops : List Op)
    (hops : ∀ o ∈ ops, o.AddsLight C ∧ ∀ i D dem, o ≠ .demodulate i D dem) :
    ∀ k ∈ (runOps ops).images, LitV L C ((runOps ops).heap.view k) := by
  induction ops using List.reverseRecOn with
  | nil => intro k hk; cases hk
  | append_singleton ops o ih =>
    obtain ⟨ho, hnd⟩ := hops o (by simp)
    have ih' := ih fun o' h' => hops o' (by simp [h'])
    rw [runOps_snoc]
    refine inv_step (P := LitV L C) (runOps_valid ops) ih' ?_ ?_ ?_
    · intro k hk hPk
      exact ⟨fun _ => value_lit hC ih' ho hnd hPk, fun _ _ => value_lit hC ih' ho hnd hPk⟩
    · intro d dic dark flat junk hd v h
      subst hd
      have e := fromArrayV_even (run_even ops) h
      cases dark with
      | some _ => exact absurd ho (by simp [Op.AddsLight])
      | none =>
        cases flat with
        | some _ => exact absurd ho (by simp [Op.AddsLight])
        | none =>
          change (withVal (dataStokes d (dicVal dic (runOps ops).heap)) v fun S =>
            ((.ok (), freshView d S (dicVal dic (runOps ops).heap)) : Py Unit × ImgView)).1 = _ at h
          change LitV L C (withVal (dataStokes d (dicVal dic (runOps ops).heap)) v fun S =>
            ((.ok (), freshView d S (dicVal dic (runOps ops).heap)) : Py Unit × ImgView)).2
          change EvenV (withVal (dataStokes d (dicVal dic (runOps ops).heap)) v fun S =>
            ((.ok (), freshView d S (dicVal dic (runOps ops).heap)) : Py Unit × ImgView)).2 at e
          obtain ⟨S, hS, e3⟩ := withVal_ok h
          rw [e3] at e ⊢
          exact fresh_lit ⟨e, ho⟩ hS
    · intro hw
      exfalso
      cases o with
      | rotate _ _ => exact ho
      | maskOcculter _ _ _ _ _ _ => exact ho
      | _ => exact Bool.false_ne_true hw

/-- C100: in every history of such calls without `demodulate`, but with `demosaic` calls at any moment, the I, Q, U of every image are,
place by place, those of a superpixel that meets the condition: no light enters them that the given arrays could not have held. -/
theorem C100_stokes (L : Layout) (C : (Fin 4 → ℝ) → Prop) (hC : IsCone C) (ops : List Op)
    (hops : ∀ o ∈ ops, o.AddsLight C ∧ ∀ i D dem, o ≠ .demodulate i D dem) (k : Nat) (hk : k ∈ (runOps ops).images)
    (hL : L.Describes ((runOps ops).dic k)) :
    let S := (runOps ops).stokes k
    SameShape S ∧ ∀ y x, y < (S 0).h → x < (S 0).w → ∃ v : Fin 4 → ℝ, C v ∧
      (S 0).px y x = (∑ q, v q) / 2 ∧ (S 1).px y x = v L.p0 - v L.p90 ∧ (S 2).px y x = v L.p45 - v L.pm45 :=
  (run_coneLit hC ops hops k hk).2.2 hL

/-- C100: so the degree of polarization of every image, demosaiced or not, is at most the largest one of the given arrays. -/
theorem C100_dolp_demosaiced (L : Layout) (M : ℝ) (hM : 0 ≤ M) (ops : List Op)
    (hops : ∀ o ∈ ops, o.AddsLight (PolarizedAtMost L M) ∧ ∀ i D dem, o ≠ .demodulate i D dem) (k : Nat)
    (hk : k ∈ (runOps ops).images) (hL : L.Describes ((runOps ops).dic k)) :
    ∃ D, DoLP ((runOps ops).stokes k) = .ok D ∧ D.SameShape ((runOps ops).stokes k 0) ∧
      ∀ y x, y < D.h → x < D.w → 0 ≤ D.px y x ∧ D.px y x ≤ M := by
  obtain ⟨sS, hp⟩ := C100_stokes L _ (polarizedAtMost_cone L) ops hops k hk hL
  obtain ⟨D, hD, d1, d2, hd⟩ := C19_total _ sS
  refine ⟨D, hD, ⟨d1, d2⟩, fun y x hy hx => ?_⟩
  rw [d1] at hy
  rw [d2] at hx
  obtain ⟨a0, a1⟩ := hd y x hy hx
  obtain ⟨v, hv, p0, p1, p2⟩ := hp y x hy hx
  have hb : (pB ((runOps ops).stokes k)).px y x ≤ M * ((runOps ops).stokes k 0).px y x := by
    rw [pB_px sS hy hx, p0, p1, p2]
    unfold PolarizedAtMost at hv
    rw [pow_two, pow_two] at hv
    exact hv
  have hb0 := (C18_pB _ sS y x hy hx).1
  rcases lt_trichotomy (((runOps ops).stokes k 0).px y x) 0 with h | h | h
  · have hz : (pB ((runOps ops).stokes k)).px y x = 0 := le_antisymm (hb.trans (mul_nonpos_of_nonneg_of_nonpos hM h.le)) hb0
    rw [a1 h.ne, hz, zero_div]
    exact ⟨le_rfl, hM⟩
  · rw [a0 h]
    exact ⟨le_rfl, hM⟩
  · rw [a1 h.ne']
    exact ⟨div_nonneg hb0 h.le, (div_le_iff₀ h).2 hb⟩

/-- C100: and light of one state of polarization stays in it, demosaiced or not. -/
theorem C100_state_demosaiced (L : Layout) (q u : ℝ) (ops : List Op)
    (hops : ∀ o ∈ ops, (o.AddsLight fun v =>
      v L.p0 - v L.p90 = q * ((∑ p, v p) / 2) ∧ v L.p45 - v L.pm45 = u * ((∑ p, v p) / 2)) ∧ ∀ i D dem, o ≠ .demodulate i D dem)
    (k : Nat) (hk : k ∈ (runOps ops).images) (hL : L.Describes ((runOps ops).dic k)) (y x : Nat)
    (hy : y < ((runOps ops).stokes k 0).h) (hx : x < ((runOps ops).stokes k 0).w) :
    ((runOps ops).stokes k 1).px y x = q * ((runOps ops).stokes k 0).px y x ∧
    ((runOps ops).stokes k 2).px y x = u * ((runOps ops).stokes k 0).px y x := by
  have hp := (C100_stokes L _ ⟨by simp, fun v w hv hw => ?_, fun c v _ hv => ?_⟩ ops hops k hk hL).2
  · obtain ⟨v, hv, p0, p1, p2⟩ := hp y x hy hx
    rw [p0, p1, p2]
    exact hv
  · rw [sum_add_distrib]
    constructor
    · linear_combination hv.1 + hw.1
    · linear_combination hv.2 + hw.2
  · rw [← mul_sum]
    constructor
    · linear_combination c * hv.1
    · linear_combination c * hv.2

/-- The hypotheses are met with demosaicing between other calls. -/
example : let ops : List Op := [.fromArray somePolarized none none none fun _ _ => 0, .demosaic 0 "adjacent", .shift 0 1 0 0,
      .demosaic 1 "mean", .arithImage .add 0 1 fun _ _ => 0, .correctIfov 0]
    ∀ o ∈ ops, o.AddsLight (PolarizedAtMost ⟨0, 1, 2, 3⟩ (2 / 3)) ∧ ∀ i D dem, o ≠ .demodulate i D dem := by
  intro ops o ho
  simp only [ops, List.mem_cons, List.not_mem_nil, or_false] at ho
  rcases ho with rfl | rfl | rfl | rfl | rfl | rfl
  · exact ⟨somePolarized_meets, fun _ _ _ h => by cases h⟩
  · exact ⟨trivial, fun _ _ _ h => by cases h⟩
  · exact ⟨rfl, fun _ _ _ h => by cases h⟩
  · exact ⟨trivial, fun _ _ _ h => by cases h⟩
  · exact ⟨trivial, fun _ _ _ h => by cases h⟩
  · exact ⟨trivial, fun _ _ _ h => by cases h⟩

end

end Micropol

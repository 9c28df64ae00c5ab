import Verif.Lemmas.ObjectStep

/-! # The default dictionary along a history; explicit steps -/

set_option autoImplicit false

namespace Micropol

open M

noncomputable section

open Classical

/-- The dictionary the next construction would use. -/
def Heap.nextDic (h : Heap) : AngleDic := h.defaultDic.getD polarCamAngles

theorem dicVal_none (h : Heap) : dicVal none h = h.nextDic := by
  unfold dicVal Heap.nextDic
  cases h.defaultDic <;> rfl

theorem pres_resolveDic_next (e : AngleDic) (dic : Option AngleDic) : Pres (fun h => h.nextDic = e) (resolveDic dic) := by
  intro h hh
  have key : (resolveDic dic h).2.nextDic = h.nextDic := by
    unfold resolveDic
    cases dic with
    | some d => rfl
    | none =>
      dsimp only
      cases hd : h.defaultDic with
      | some d => rfl
      | none => unfold Heap.nextDic; rw [hd]; rfl
  exact ⟨fun _ _ => key.trans hh, fun _ _ => key.trans hh⟩

/-- Walks through straight-line code whose writes do not concern the default dictionary. -/
macro "pres_walk" : tactic => `(tactic| repeat' first
  | exact Pres.pure
  | exact Pres.lift
  | exact Pres.read
  | exact pres_resolveDic_next _ _
  | exact Pres.modify (fun h hh => hh)
  | refine Pres.bind ?_ fun _ => ?_
  | split)

theorem pres_exec_next (e : AngleDic) (images : List Nat) (o : Op) (ho : ∀ d, o ≠ .setDefault d) :
    Pres (fun h => h.nextDic = e) (exec images o) := by
  have hnamed : ∀ i, Pres (fun h => h.nextDic = e) (named images i) := fun i => Pres.lift
  have hopt : ∀ i, Pres (fun h => h.nextDic = e) (namedOpt images i) := fun i => pres_namedOpt images i
  have hus : ∀ n, Pres (fun h => h.nextDic = e) (updateStokes n) := fun n => by unfold updateStokes; pres_walk
  have huds : ∀ n d, Pres (fun h => h.nextDic = e) (updateDataAndStokes n d) := fun n d =>
    Pres.bind (Pres.modify fun h hh => hh) fun _ => hus n
  have himg : ∀ n d, Pres (fun h => h.nextDic = e) (newFromImage n d) := fun n d => by unfold newFromImage; pres_walk
  have harr : ∀ n d, Pres (fun h => h.nextDic = e) (newFromArray n d) := fun n d => by unfold newFromArray; pres_walk
  have hdark : ∀ n d, Pres (fun h => h.nextDic = e) (subtractDark n d) := fun n d =>
    Pres.bind Pres.read fun _ => Pres.bind Pres.lift fun _ => Pres.bind (Pres.modify fun h hh => hh) fun _ =>
    Pres.bind (Pres.modify fun h hh => hh) fun _ => Pres.bind (hus n) fun _ => Pres.modify fun h hh => hh
  have hflat : ∀ j n d, Pres (fun h => h.nextDic = e) (correctFlat j n d) := fun j n d =>
    Pres.bind Pres.read fun _ => Pres.bind Pres.lift fun _ => Pres.bind (Pres.modify fun h hh => hh) fun _ =>
    Pres.bind (hus n) fun _ => Pres.modify fun h hh => hh
  have hcorr : ∀ j n d f, Pres (fun h => h.nextDic = e) (applyCorrections j n d f) := by
    intro j n d f
    unfold applyCorrections
    split
    · exact Pres.pure
    · exact hdark _ _
    · exact hflat _ _ _
    · exact Pres.bind (hdark _ _) fun _ => hflat _ _ _
  have hplane : ∀ c (k : Fin 3) a, Pres (fun h => h.nextDic = e) (setPlane c k a) := fun c k a =>
    Pres.bind Pres.read fun _ => Pres.bind Pres.lift fun _ => Pres.modify fun h hh => hh
  have hrew : ∀ c f, Pres (fun h => h.nextDic = e) (rewritePlanes c f) := fun c f =>
    Pres.bind Pres.read fun _ => Pres.bind Pres.lift fun _ => Pres.bind (hplane c 0 _) fun _ =>
    Pres.bind Pres.read fun _ => Pres.bind Pres.lift fun _ => Pres.bind (hplane c 1 _) fun _ =>
    Pres.bind Pres.read fun _ => Pres.bind Pres.lift fun _ => hplane c 2 _
  have hderive : ∀ i F, Pres (fun h => h.nextDic = e) (deriveObj i F) := fun i F =>
    Pres.bind Pres.read fun _ => Pres.bind Pres.lift fun _ => Pres.bind (himg _ _) fun _ =>
    Pres.bind (huds _ _) fun _ => Pres.pure
  have hdem : ∀ i m, Pres (fun h => h.nextDic = e) (demosaicObj i m) := fun i m =>
    Pres.bind Pres.read fun _ => Pres.bind Pres.lift fun _ => Pres.bind (Pres.modify fun h hh => hh) fun _ => hus _
  cases o with
  | setDefault d => exact absurd rfl (ho d)
  | fromArray d dic dark flat junk =>
    exact Pres.bind (hopt _) fun _ => Pres.bind (hopt _) fun _ => Pres.bind (harr _ _) fun _ =>
      Pres.bind (hcorr _ _ _ _) fun _ => Pres.pure
  | fromImage i dic dark flat junk =>
    exact Pres.bind (hnamed _) fun _ => Pres.bind (hopt _) fun _ => Pres.bind (hopt _) fun _ =>
      Pres.bind (himg _ _) fun _ => Pres.bind (hcorr _ _ _ _) fun _ => Pres.pure
  | rebin i b =>
    refine Pres.bind (hnamed _) fun _ => Pres.bind ?_ fun _ => Pres.pure
    unfold rebinObj
    split
    · exact Pres.lift
    · exact Pres.bind (himg _ _) fun _ => Pres.bind Pres.read fun _ => Pres.bind Pres.lift fun _ =>
        Pres.bind (huds _ _) fun _ => Pres.pure
  | congrid i ny nx =>
    refine Pres.bind (hnamed _) fun _ => Pres.bind ?_ fun _ => Pres.pure
    refine Pres.bind Pres.read fun _ => Pres.bind Pres.lift fun _ => Pres.bind (himg _ _) fun _ => ?_
    pres_walk
  | rotate i rot =>
    refine Pres.bind (hnamed _) fun _ => Pres.bind ?_ fun _ => Pres.pure
    refine Pres.bind Pres.read fun _ => Pres.bind Pres.lift fun _ => Pres.bind Pres.read fun _ => Pres.bind (hrew _ _) fun _ =>
      Pres.bind (himg _ _) fun _ => ?_
    pres_walk
  | demodulate i D dem =>
    refine Pres.bind (hnamed _) fun _ => Pres.bind ?_ fun _ => Pres.pure
    refine Pres.bind (himg _ _) fun _ => ?_
    split
    · refine Pres.bind (hdem _ _) fun _ => ?_
      pres_walk
    · pres_walk
  | shift i y x m => exact Pres.bind (hnamed _) fun _ => Pres.bind (hderive _ _) fun _ => Pres.pure
  | cleanHotPixels i f m =>
    exact Pres.bind (hnamed _) fun _ => Pres.bind (hnamed _) fun _ => Pres.bind (hderive _ _) fun _ => Pres.pure
  | arithImage op i j junk =>
    exact Pres.bind (hnamed _) fun _ => Pres.bind (hnamed _) fun _ => Pres.bind (Pres.bind (hderive _ _) fun _ =>
      Pres.bind (Pres.modify fun h hh => hh) fun _ => Pres.pure) fun _ => Pres.pure
  | arithNumber op i c junk =>
    refine Pres.bind (hnamed _) fun _ => Pres.bind ?_ fun _ => Pres.pure
    exact Pres.bind Pres.read fun _ => Pres.bind Pres.lift fun _ => Pres.bind Pres.read fun _ => Pres.bind (harr _ _) fun _ =>
      Pres.bind (Pres.modify fun h hh => hh) fun _ => Pres.pure
  | demosaic i m => exact Pres.bind (hnamed _) fun _ => Pres.bind (hdem _ _) fun _ => Pres.pure
  | subtractDark i d =>
    exact Pres.bind (hnamed _) fun _ => Pres.bind (hnamed _) fun _ => Pres.bind (hdark _ _) fun _ => Pres.pure
  | correctFlat i d j =>
    exact Pres.bind (hnamed _) fun _ => Pres.bind (hnamed _) fun _ => Pres.bind (hflat _ _ _) fun _ => Pres.pure
  | correctIfov i =>
    exact Pres.bind (hnamed _) fun _ => Pres.bind (Pres.bind Pres.read fun _ => Pres.bind Pres.lift fun _ =>
      huds _ _) fun _ => Pres.pure
  | maskOcculter i y x r over fill =>
    refine Pres.bind (hnamed _) fun _ => Pres.bind ?_ fun _ => Pres.pure
    refine Pres.bind Pres.read fun _ => Pres.bind Pres.lift fun _ => Pres.bind (Pres.modify fun h hh => hh) fun _ =>
      Pres.bind ?_ fun _ => Pres.bind Pres.read fun _ => ?_
    · refine Pres.bind Pres.read fun _ => Pres.bind Pres.read fun _ => ?_
      split
      · exact Pres.pure
      · exact Pres.lift
      · exact Pres.bind Pres.lift fun _ => Pres.modify fun h hh => hh
    · split
      · exact hrew _ _
      · exact hrew _ _

theorem step_next (s : State) (o : Op) (ho : ∀ d, o ≠ .setDefault d) : (step s o).heap.nextDic = s.heap.nextDic := by
  rw [step_heap]
  obtain ⟨h1, h2⟩ := pres_exec_next s.heap.nextDic s.images o ho s.heap rfl
  cases hx : (exec s.images o s.heap).1 with
  | ok a => exact h1 a hx
  | error e => exact h2 e hx

theorem lastDefault_snoc (ops : List Op) (o : Op) :
    lastDefault (ops ++ [o]) = match o with | .setDefault d => d | _ => lastDefault ops := by
  induction ops with
  | nil =>
    cases o <;> simp [lastDefault]
  | cons p ops ih =>
    cases p with
    | setDefault e =>
      rw [List.cons_append, lastDefault, ih]
      cases o with
      | setDefault d => rw [if_pos ⟨d, by simp⟩]
      | _ =>
        rw [lastDefault]
        simp only [List.mem_append, List.mem_singleton, reduceCtorEq, or_false]
    | _ => rw [List.cons_append]; unfold lastDefault; exact ih

theorem run_next (ops : List Op) : (runOps ops).heap.nextDic = (lastDefault ops).getD polarCamAngles := by
  induction ops using List.reverseRecOn with
  | nil => rfl
  | append_singleton ops o ih =>
    rw [runOps_snoc, lastDefault_snoc]
    by_cases ho : ∃ d, o = .setDefault d
    · obtain ⟨d, rfl⟩ := ho
      rfl
    · push Not at ho
      rw [step_next _ _ ho, ih]
      cases o with
      | setDefault d => exact absurd rfl (ho d)
      | _ => rfl

/-! ## Dictionaries of results -/

theorem withVal_dic {α : Type} {x : Py α} {v : ImgView} {f : α → Py Unit × ImgView} {d : AngleDic} (hv : v.dic = d)
    (hf : ∀ a, (f a).2.dic = d) : (withVal x v f).2.dic = d := by
  cases x with
  | ok a => exact hf a
  | error e => exact hv

theorem andThen_dic {r : Py Unit × ImgView} {f : ImgView → Py Unit × ImgView} {d : AngleDic} (hv : r.2.dic = d)
    (hf : ∀ v, v.dic = d → (f v).2.dic = d) : (andThen r f).2.dic = d := by
  obtain ⟨a, v⟩ := r
  cases a with
  | ok u => exact hf v hv
  | error e => exact hv

theorem updateStokesV_dic (v : ImgView) : (updateStokesV v).2.dic = v.dic := withVal_dic rfl fun _ => rfl

theorem subtractDarkV_dic (d : Img ℝ) (v : ImgView) : (subtractDarkV d v).2.dic = v.dic := by
  unfold subtractDarkV
  exact withVal_dic rfl fun _ => andThen_dic (updateStokesV_dic _) fun _ h => h

theorem correctFlatV_dic (junk : Nat → Nat → ℝ) (d : Img ℝ) (v : ImgView) : (correctFlatV junk d v).2.dic = v.dic := by
  unfold correctFlatV
  exact withVal_dic rfl fun _ => andThen_dic (updateStokesV_dic _) fun _ h => h

theorem applyCorrectionsV_dic (junk : Nat → Nat → ℝ) (d f : Option (Img ℝ)) (v : ImgView) :
    (applyCorrectionsV junk d f v).2.dic = v.dic := by
  unfold applyCorrectionsV
  split
  · rfl
  · exact subtractDarkV_dic _ _
  · exact correctFlatV_dic _ _ _
  · exact andThen_dic (subtractDarkV_dic _ _) fun v h => (correctFlatV_dic _ _ v).trans h

theorem optV_dic {s : State} {j : Option Nat} {v : ImgView} {f : Option (Img ℝ) → Py Unit × ImgView} {d : AngleDic}
    (hv : v.dic = d) (hf : ∀ a, (f a).2.dic = d) : (optV s j v f).2.dic = d := by
  unfold optV secondV
  split
  · exact hf _
  · split
    · exact hf _
    · exact hv

theorem secondV_dic {s : State} {j : Nat} {v : ImgView} {f : Img ℝ → Py Unit × ImgView} {d : AngleDic}
    (hv : v.dic = d) (hf : ∀ a, (f a).2.dic = d) : (secondV s j v f).2.dic = d := by
  unfold secondV
  split
  · exact hf _
  · exact hv

theorem demosaicV_dic (mode : String) (v : ImgView) : (demosaicV mode v).2.dic = v.dic := by
  unfold demosaicV
  exact withVal_dic rfl fun _ => updateStokesV_dic _

theorem maskDemosaicedV_dic (y x r fill : ℝ) (v : ImgView) : (maskDemosaicedV y x r fill v).2.dic = v.dic := by
  unfold maskDemosaicedV
  split
  · rfl
  · rfl
  · exact withVal_dic rfl fun _ => rfl

/-- No operation changes the dictionary. -/
theorem value_dic (s : State) (o : Op) (v : ImgView) : (o.value s v).2.dic = v.dic := by
  unfold Op.value
  split
  · rfl
  · rfl
  · exact optV_dic rfl fun _ => optV_dic rfl fun _ => applyCorrectionsV_dic _ _ _ _
  · split
    · rfl
    · exact withVal_dic rfl fun _ => updateStokesV_dic _
  · exact withVal_dic rfl fun _ => withVal_dic rfl fun _ => withVal_dic rfl fun _ => withVal_dic rfl fun _ => rfl
  · exact withVal_dic rfl fun _ => andThen_dic rfl fun _ h => h
  · unfold demodulateV
    split
    · exact andThen_dic (demosaicV_dic _ _) fun _ h => withVal_dic h fun _ => h
    · exact withVal_dic rfl fun _ => rfl
  · exact withVal_dic rfl fun _ => updateStokesV_dic _
  · exact secondV_dic rfl fun _ => withVal_dic rfl fun _ => updateStokesV_dic _
  · exact secondV_dic rfl fun _ => withVal_dic rfl fun _ => updateStokesV_dic _
  · exact withVal_dic rfl fun _ => withVal_dic rfl fun _ => rfl
  · exact demosaicV_dic _ _
  · exact secondV_dic rfl fun _ => subtractDarkV_dic _ _
  · exact secondV_dic rfl fun _ => correctFlatV_dic _ _ _
  · exact withVal_dic rfl fun _ => updateStokesV_dic _
  · unfold maskOcculterV
    refine withVal_dic rfl fun _ => andThen_dic (maskDemosaicedV_dic _ _ _ _ _) fun w h => ?_
    split
    · exact h
    · exact h

theorem fromArrayV_dic (s : State) (d : Img ℝ) (dic : Option AngleDic) (dark flat : Option Nat) (junk : Nat → Nat → ℝ)
    (v : ImgView) (hok : (fromArrayV s d dic dark flat junk v).1 = .ok ()) :
    (fromArrayV s d dic dark flat junk v).2.dic = dicVal dic s.heap := by
  have h : ∀ v, v.dic = dicVal dic s.heap →
      (fromArrayV s d dic dark flat junk v).2.dic = dicVal dic s.heap := fun v hv =>
    optV_dic hv fun _ => optV_dic hv fun _ => withVal_dic hv fun _ => applyCorrectionsV_dic _ _ _ _
  -- the placeholder view plays no role in a success
  have hv := h { v with dic := dicVal dic s.heap } rfl
  have heq : fromArrayV s d dic dark flat junk { v with dic := dicVal dic s.heap } = fromArrayV s d dic dark flat junk v := by
    revert hok
    unfold fromArrayV optV secondV withVal
    repeat' split
    all_goals first
      | (intro _; rfl)
      | (intro hq; cases hq)
  rw [heq] at hv
  exact hv

/-- The returned image and the value semantics, in one statement. -/
theorem returned_value {s : State} (hv : Valid s) {o : Op} {n : Nat} (hn : (exec s.images o s.heap).1 = .ok (some n))
    {i k : Nat} (hsrc : o.source = some i) (hk : s.images[i]? = some k) :
    (step s o).heap.view n = (o.value s (s.heap.view k)).2 := by
  rw [step_heap]
  cases hin : o.inPlace with
  | true =>
    obtain ⟨h1, h2⟩ := exec_place_value hsrc hk hin
    rw [hn] at h1
    have hnk : n = k := by
      cases hx : (o.value s (s.heap.view k)).1 with
      | error e => rw [hx] at h1; cases h1
      | ok u =>
        rw [hx] at h1
        injection h1 with h1
        cases o with
        | demosaic i m => injection h1
        | subtractDark i d => injection h1
        | correctFlat i f j => injection h1
        | correctIfov i => injection h1
        | maskOcculter i y x r ov f => cases h1
        | _ => cases hin
    rw [hnk]
    exact h2
  | false =>
    obtain ⟨h1, h2⟩ := exec_new_value hv hsrc hk hin
    rw [hn] at h1
    cases hx : (o.value s (s.heap.view k)).1 with
    | error e => rw [hx] at h1; cases h1
    | ok u =>
      rw [hx] at h1
      injection h1 with h1
      injection h1 with h1
      subst h1
      exact h2 (by rw [hx])

/-! ## Explicit steps (used for concrete histories) -/

theorem step_fromArray {s : State} (d : Img ℝ) (dic : Option AngleDic) (junk : Nat → Nat → ℝ) {S : Fin 3 → Img ℝ}
    (hS : dataStokes d (dicVal dic s.heap) = .ok S) :
    step s (.fromArray d dic none none junk) = ⟨arrayHeap d S dic s.heap, s.images ++ [s.heap.objs.size]⟩ := by
  have hrun := newFromArray_run d dic s.heap
  rw [hS] at hrun
  unfold step exec
  dsimp only
  rw [run_namedOpt_none, run_namedOpt_none, run_of_ok hrun]
  rfl

theorem step_fromImage {s : State} {i k : Nat} (hk : s.images[i]? = some k) (dic : Option AngleDic)
    (junk : Nat → Nat → ℝ) :
    step s (.fromImage i dic none none junk) = ⟨copyHeap k dic s.heap, s.images ++ [s.heap.objs.size]⟩ := by
  unfold step exec
  dsimp only
  rw [run_named hk, run_namedOpt_none, run_namedOpt_none, run_of_ok (newFromImage_run k dic s.heap)]
  rfl

end

end Micropol

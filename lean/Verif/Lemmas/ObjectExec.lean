import Verif.Lemmas.ObjectValue
import Verif.Lemmas.ObjectOps

/-!
# The heap model does what the value semantics says
-/

set_option autoImplicit false

namespace Micropol

open M

noncomputable section

open Classical

/-- `mk` returns the object `n`, which then has the given view, or raises. -/
def Yields (n : Nat) (mk : M Nat) (h : Heap) (r : Py Unit × ImgView) : Prop :=
  (mk h).1 = r.1.map (fun _ => n) ∧ (r.1 = .ok () → (mk h).2.view n = r.2)

theorem yields_acts {n : Nat} {m : M Unit} {h : Heap} {r : Py Unit × ImgView} (ha : Acts n m h r) :
    Yields n (m >>= fun _ => pure n) h r := by
  obtain ⟨h1, h2⟩ := ha
  unfold Yields
  cases hx : m h with
  | mk a h' =>
    rw [hx] at h1 h2
    dsimp only at h1 h2
    rw [← h1, ← h2]
    cases a with
    | ok _ => rw [run_of_ok hx]; exact ⟨rfl, fun _ => rfl⟩
    | error e => rw [run_of_err hx]; exact ⟨rfl, fun hq => by cases hq⟩

theorem yields_copy {k n : Nat} {dic : Option AngleDic} {f : Nat → M Nat} {h : Heap} {r : Py Unit × ImgView}
    (hn : n = h.objs.size) (hf : Yields n (f n) (copyHeap k dic h) r) : Yields n (newFromImage k dic >>= f) h r := by
  subst hn
  unfold Yields
  rw [run_of_ok (newFromImage_run k dic h)]
  exact hf

theorem yields_readLift {α : Type} {n : Nat} {F : Heap → Py α} {g : α → M Nat} {h : Heap} {v : ImgView}
    {r : α → Py Unit × ImgView} (hg : ∀ d, F h = .ok d → Yields n (g d) h (r d)) :
    Yields n (M.read F >>= fun d => M.lift d >>= g) h (withVal (F h) v r) := by
  unfold Yields
  rw [run_read]
  cases hF : F h with
  | error e => exact ⟨rfl, fun hq => by cases hq⟩
  | ok d => exact hg d hF

theorem yields_lift {α : Type} {n : Nat} {x : Py α} {g : α → M Nat} {h : Heap} {v : ImgView}
    {r : α → Py Unit × ImgView} (hg : ∀ d, x = .ok d → Yields n (g d) h (r d)) :
    Yields n (M.lift x >>= g) h (withVal x v r) := by
  unfold Yields
  cases hF : x with
  | error e => exact ⟨rfl, fun hq => by cases hq⟩
  | ok d => exact hg d hF

/-- A following change that does not show. -/
theorem yields_then {n : Nat} {mk : M Nat} {h : Heap} {r : Py Unit × ImgView} {g : Nat → Heap → Heap}
    (hmk : Yields n mk h r) (hg : ∀ h', (g n h').view n = h'.view n) :
    Yields n (mk >>= fun n => M.modify (g n) >>= fun _ => pure n) h r := by
  obtain ⟨h1, h2⟩ := hmk
  unfold Yields
  cases hx : mk h with
  | mk a h' =>
    rw [hx] at h1 h2
    dsimp only at h1 h2
    cases hr : r.1 with
    | error e =>
      rw [hr] at h1
      have ha : a = .error e := h1
      subst ha
      rw [run_of_err hx]
      exact ⟨rfl, fun hq => by cases hq⟩
    | ok u =>
      rw [hr] at h1 h2
      have ha : a = .ok n := h1
      subst ha
      rw [run_of_ok hx, run_modify, pure_run]
      exact ⟨rfl, fun _ => (hg h').trans (h2 rfl)⟩

section
variable {h : Heap} {k : Nat}

theorem yields_rebin (b : Int) : Yields h.objs.size (rebinObj k b) h
    (if b ≤ 0 then (.error .valueError, h.view k) else
      withVal (micropolarrayRebin (h.view k).data b) (h.view k) fun d => updateDataAndStokesV d (h.view k)) := by
  unfold rebinObj
  split
  · exact ⟨rfl, fun hq => by cases hq⟩
  · refine yields_copy rfl ?_
    have e := copyHeap_view_new k none h
    have hd : (copyHeap k none h).dataOf h.objs.size = (h.view k).data := congrArg ImgView.data e
    rw [← hd]
    refine yields_readLift (F := fun h' => micropolarrayRebin (h'.dataOf h.objs.size) b) fun d _ => ?_
    have := acts_updateDataAndStokes h.objs.size d (copyHeap k none h)
    rw [e] at this
    exact yields_acts this

theorem yields_derive (F : Heap → Py (Img ℝ)) : Yields h.objs.size (deriveObj k F) h
    (withVal (F h) (h.view k) fun d => updateDataAndStokesV d (h.view k)) := by
  unfold deriveObj
  refine yields_readLift fun d _ => yields_copy rfl ?_
  have := acts_updateDataAndStokes h.objs.size d (copyHeap k none h)
  rw [copyHeap_view_new k none h] at this
  exact yields_acts this

theorem header_view (h : Heap) (n : Nat) (x : Nat) :
    (h.modifyObj n (fun o => { o with header := x })).view n = h.view n :=
  modifyObj_view h n (fun o => { o with header := x }) rfl rfl rfl

theorem yields_arithImage (op : Arith) (junk : Nat → Nat → ℝ) (j : Nat) :
    Yields h.objs.size (arithImageObj op junk k j) h
      (withVal (arithData op junk (h.view k).data (.image (h.dataOf j))) (h.view k) fun d =>
        updateDataAndStokesV d (h.view k)) :=
  yields_then (g := fun n h => h.modifyObj n (fun o => { o with header := (h.objs.cell k).header }))
    (yields_derive (fun h => arithData op junk (h.dataOf k) (.image (h.dataOf j)))) fun h' => header_view h' _ _

theorem yields_array (d : Img ℝ) (dic : Option AngleDic) (v : ImgView) : Yields h.objs.size (newFromArray d dic) h
    (withVal (dataStokes d (dicVal dic h)) v fun S => (.ok (), freshView d S (dicVal dic h))) := by
  unfold Yields
  rw [newFromArray_run]
  cases dataStokes d (dicVal dic h) with
  | error e => exact ⟨rfl, fun hq => by cases hq⟩
  | ok S => exact ⟨rfl, fun _ => arrayHeap_view d S dic h⟩

theorem yields_arithNumber (op : Arith) (junk : Nat → Nat → ℝ) (c : ℝ) :
    Yields h.objs.size (arithNumberObj op junk k c) h
      (withVal (arithData op junk (h.view k).data (.number c)) (h.view k) fun d =>
        withVal (dataStokes d (h.view k).dic) (h.view k) fun S => (.ok (), freshView d S (h.view k).dic)) := by
  unfold arithNumberObj
  refine yields_readLift (F := fun h => arithData op junk (h.dataOf k) (.number c)) fun d _ => ?_
  show Yields _ (newFromArray d (some (h.dicOf k)) >>= _) h _
  exact yields_then (g := fun n h => h.modifyObj n (fun o => { o with header := (h.objs.cell k).header }))
    (yields_array d (some (h.dicOf k)) (h.view k)) fun h' => header_view h' _ _

theorem yields_congrid (ny nx : Nat) (hk : k < h.objs.size) :
    Yields h.objs.size (congridObj k ny nx) h (congridV ny nx (h.view k)) := by
  unfold congridObj congridV
  refine yields_readLift (F := fun h => congridData (h.dataOf k) ny nx) fun d _ => yields_copy rfl ?_
  have hn : ((copyHeap k none h).setData h.objs.size d).view h.objs.size = { h.view k with data := d } := by
    rw [setData_view, copyHeap_view_new]
  have ho : ((copyHeap k none h).setData h.objs.size d).stokesOf k = (h.view k).stokes := by
    have h1 := congrArg ImgView.stokes (copyHeap_view_old k none h hk)
    rw [← h1]
    unfold Heap.setData Heap.modifyObj Heap.stokesOf Heap.view Heap.stokesOf
    simp [Store.set, hk.ne]
  unfold Yields
  rw [run_modify]
  generalize (copyHeap k none h).setData h.objs.size d = h2 at hn ho
  rw [run_read, ho]
  refine yields_lift fun s0 _ => yields_lift fun s1 _ => yields_lift fun s2 _ => ?_
  refine ⟨rfl, fun _ => ?_⟩
  show (h2.setStokes h.objs.size ⟨![s0, s1, s2], true⟩).view h.objs.size = _
  rw [setStokes_view, hn]

theorem yields_rotate (rot : Img ℝ → Py (Img ℝ)) :
    Yields h.objs.size (rotateObj rot k) h (rotateV rot (h.view k)) := by
  unfold rotateObj rotateV
  refine yields_readLift (F := fun h => rotateData rot (h.dataOf k)) fun d _ => ?_
  unfold Yields
  rw [run_read]
  have hrun := rewritePlanes_run (h.objs.cell k).stokes rot h
  unfold rewriteStokesV
  cases hr : rewriteV rot (h.view k).stokes with
  | mk a sv =>
    have hr' : rewriteV rot (h.stokes.cell (h.objs.cell k).stokes) = (a, sv) := hr
    rw [hr'] at hrun
    cases a with
    | error e =>
      rw [run_of_err hrun]
      exact ⟨rfl, fun hq => by cases hq⟩
    | ok u =>
      rw [run_of_ok hrun, run_of_ok (newFromImage_run k none _), run_modify, run_modify, pure_run]
      refine ⟨rfl, fun _ => ?_⟩
      have h1 : (copyHeap k none (h.withStokes (h.objs.cell k).stokes sv)).view h.objs.size = { h.view k with stokes := sv } := by
        have := copyHeap_view_new k none (h.withStokes (h.objs.cell k).stokes sv)
        rw [withStokes_view] at this
        exact this
      show (((copyHeap k none (h.withStokes (h.objs.cell k).stokes sv)).setData h.objs.size d).modifyObj h.objs.size
        (fun o => { o with stokes := (h.objs.cell k).stokes })).view h.objs.size = _
      have hst : (((copyHeap k none (h.withStokes (h.objs.cell k).stokes sv)).setData h.objs.size d).objs.cell
          h.objs.size).stokes = (h.objs.cell k).stokes := by
        obtain ⟨q, hq⟩ := dicHeap_eq none (h.withStokes (h.objs.cell k).stokes sv)
        unfold copyHeap
        rw [hq]
        simp [Heap.setData, Heap.modifyObj, Heap.withStokes, Store.set, Store.alloc]
      rw [modifyObj_view _ _ _ rfl hst.symm rfl]
      have h2 := setData_view (copyHeap k none (h.withStokes (h.objs.cell k).stokes sv)) h.objs.size d
      rw [h1] at h2
      exact h2

theorem yields_demodulate (D : Demodulator ℝ) (dem : Bool) :
    Yields h.objs.size (demodulateObj k D dem) h (demodulateV D dem (h.view k)) := by
  unfold demodulateObj demodulateV
  refine yields_copy rfl ?_
  have e := copyHeap_view_new k none h
  have fin : ∀ (h' : Heap) (S : Fin 3 → Img ℝ),
      Yields h.objs.size (M.modify (fun h' => h'.setStokes h.objs.size ⟨S, false⟩) >>= fun _ =>
        M.modify (fun h' => h'.modifyObj h.objs.size (fun o => { o with isDemodulated := true })) >>= fun _ =>
        pure h.objs.size) h' (.ok (), { h'.view h.objs.size with stokes := ⟨S, false⟩, isDemodulated := true }) := by
    intro h' S
    refine ⟨rfl, fun _ => ?_⟩
    show ((h'.setStokes h.objs.size ⟨S, false⟩).modifyObj h.objs.size (fun o => { o with isDemodulated := true })).view
      h.objs.size = _
    rw [modifyObj_view _ _ (fun o => { o with isDemodulated := true }) rfl rfl rfl, setStokes_view]
    simp [Heap.setStokes, Heap.modifyObj, Heap.view, Store.set]
  cases dem with
  | false =>
    rw [if_neg (by simp), if_neg (by simp)]
    rw [← e]
    refine yields_readLift (F := fun h' => demodulatePlain (h'.dataOf h.objs.size) (h'.stokesOf h.objs.size).planes D)
      fun S _ => fin _ S
  | true =>
    rw [if_pos rfl, if_pos rfl]
    have h1 := acts_demosaicObj "adjacent" h.objs.size (copyHeap k none h)
    rw [e] at h1
    obtain ⟨a1, a2⟩ := h1
    unfold Yields
    cases hx : demosaicObj h.objs.size "adjacent" (copyHeap k none h) with
    | mk a h' =>
      rw [hx] at a1 a2
      dsimp only at a1 a2
      have hr : demosaicV "adjacent" (h.view k) = (a, h'.view h.objs.size) := Prod.ext a1.symm a2.symm
      rw [hr]
      cases a with
      | error e => rw [run_of_err hx]; exact ⟨rfl, fun hq => by cases hq⟩
      | ok u =>
        rw [run_of_ok hx]
        exact yields_readLift (F := fun h' => demodulateDemosaicing (h'.dataOf h.objs.size) (h'.dicOf h.objs.size) D)
          fun S _ => fin _ S

end

/-! ## Calls -/

/-- The object a successful call with receiver `k` returns. -/
def Op.returns (o : Op) (s : State) (k : Nat) : Option Nat :=
  match o with
  | .maskOcculter _ _ _ _ _ _ => none
  | .setDefault _ => none
  | _ => if o.inPlace then some k else some s.heap.objs.size

theorem run_named_none {β : Type} {images : List Nat} {i : Nat} {f : Nat → M β} {h : Heap} (hk : images[i]? = none) :
    (named images i >>= f) h = (.error .nameError, h) := by
  unfold named
  rw [hk]
  rfl

theorem run_namedOpt_none {β : Type} {images : List Nat} {f : Option Nat → M β} {h : Heap} :
    (namedOpt images none >>= f) h = f none h := rfl

theorem run_namedOpt_some {β : Type} {images : List Nat} {i k : Nat} {f : Option Nat → M β} {h : Heap}
    (hk : images[i]? = some k) : (namedOpt images (some i) >>= f) h = f (some k) h := by
  unfold namedOpt
  rw [run_bind, run_named hk]
  rfl

theorem run_namedOpt_err {β : Type} {images : List Nat} {i : Nat} {f : Option Nat → M β} {h : Heap}
    (hk : images[i]? = none) : (namedOpt images (some i) >>= f) h = (.error .nameError, h) := by
  unfold namedOpt
  rw [run_bind, run_named_none hk]

/-- What a call returning a new image does. -/
def NewCall (o : Op) (s : State) (r : Py Unit × ImgView) : Prop :=
  (exec s.images o s.heap).1 = r.1.map (fun _ => some s.heap.objs.size) ∧
    (r.1 = .ok () → (exec s.images o s.heap).2.view s.heap.objs.size = r.2)

theorem newCall_of_yields {mk : M Nat} {h : Heap} {r : Py Unit × ImgView} {n : Nat} (hy : Yields n mk h r) :
    ((mk >>= fun n => (pure (some n) : M (Option Nat))) h).1 = r.1.map (fun _ => some n) ∧
    (r.1 = .ok () → ((mk >>= fun n => (pure (some n) : M (Option Nat))) h).2.view n = r.2) := by
  obtain ⟨h1, h2⟩ := hy
  cases hx : mk h with
  | mk a h' =>
    rw [hx] at h1 h2
    dsimp only at h1 h2
    cases hr : r.1 with
    | error e =>
      rw [hr] at h1
      have ha : a = .error e := h1
      subst ha
      rw [run_of_err hx]
      exact ⟨rfl, fun hq => by cases hq⟩
    | ok u =>
      rw [hr] at h1 h2
      have ha : a = .ok n := h1
      subst ha
      rw [run_of_ok hx, pure_run]
      exact ⟨rfl, fun _ => h2 rfl⟩

theorem corrections_call {s : State} {mk : M Nat} {v : ImgView} {junk : Nat → Nat → ℝ}
    {dark flat : Option Nat} (hflat : ∀ f, flat = some f → f < s.heap.objs.size)
    (hdark : ∀ f, dark = some f → f < s.heap.objs.size) {h1 : Heap}
    (hmk : mk s.heap = (.ok s.heap.objs.size, h1)) (hview : h1.view s.heap.objs.size = v)
    (hold : ∀ j, j < s.heap.objs.size → h1.dataOf j = s.heap.dataOf j) (wf : WF h1) (hsz : s.heap.objs.size < h1.objs.size) :
    let m := (mk >>= fun n => applyCorrections junk n dark flat >>= fun _ => (pure (some n) : M (Option Nat)))
    let r := applyCorrectionsV junk (dark.map s.heap.dataOf) (flat.map s.heap.dataOf) v
    (m s.heap).1 = r.1.map (fun _ => some s.heap.objs.size) ∧
      (r.1 = .ok () → (m s.heap).2.view s.heap.objs.size = r.2) := by
  intro m r
  have ha := acts_applyCorrections junk s.heap.objs.size dark flat h1 wf hsz
    (fun f hf => ⟨(hflat f hf).trans hsz, (hflat f hf).ne⟩)
  have e1 : dark.map h1.dataOf = dark.map s.heap.dataOf := by
    cases dark with
    | none => rfl
    | some d => exact congrArg some (hold d (hdark d rfl))
  have e2 : flat.map h1.dataOf = flat.map s.heap.dataOf := by
    cases flat with
    | none => rfl
    | some d => exact congrArg some (hold d (hflat d rfl))
  rw [e1, e2, hview] at ha
  have hrun : m s.heap = (applyCorrections junk s.heap.objs.size dark flat >>= fun _ =>
      (pure (some s.heap.objs.size) : M (Option Nat))) h1 := run_of_ok hmk
  obtain ⟨a1, a2⟩ := ha
  rw [hrun]
  cases hx : applyCorrections junk s.heap.objs.size dark flat h1 with
  | mk a h' =>
    rw [hx] at a1 a2
    dsimp only at a1 a2
    have hr : r = (a, h'.view s.heap.objs.size) := Prod.ext a1.symm a2.symm
    rw [hr]
    cases a with
    | error e => rw [run_of_err hx]; exact ⟨rfl, fun hq => by cases hq⟩
    | ok u => rw [run_of_ok hx, pure_run]; exact ⟨rfl, fun _ => rfl⟩

/-- The constructor on an array. -/
def fromArrayV (s : State) (d : Img ℝ) (dic : Option AngleDic) (dark flat : Option Nat) (junk : Nat → Nat → ℝ)
    (v : ImgView) : Py Unit × ImgView :=
  optV s dark v fun dk => optV s flat v fun fl =>
    withVal (dataStokes d (dicVal dic s.heap)) v fun S =>
      applyCorrectionsV junk dk fl (freshView d S (dicVal dic s.heap))

theorem wf_arrayHeap {h : Heap} (wf : WF h) (d : Img ℝ) (S : Fin 3 → Img ℝ) (dic : Option AngleDic) :
    WF (arrayHeap d S dic h) := by
  intro k hk
  have hk' : k < h.objs.size + 1 := hk
  by_cases hkn : k = h.objs.size
  · subst hkn
    simp [arrayHeap, Store.alloc, blankObj]
  · have hlt : k < h.objs.size := by omega
    obtain ⟨a, b, c⟩ := wf k hlt
    simp only [arrayHeap, Store.alloc, if_neg hkn]
    omega

theorem wf_copyHeap {h : Heap} (wf : WF h) {k : Nat} (hk : k < h.objs.size) (dic : Option AngleDic) :
    WF (copyHeap k dic h) := by
  obtain ⟨q, hq⟩ := dicHeap_eq dic h
  intro j hj
  have hj' : j < h.objs.size + 1 := hj
  unfold copyHeap
  rw [hq]
  by_cases hkn : j = h.objs.size
  · subst hkn
    simpa [Store.alloc] using wf k hk
  · have hlt : j < h.objs.size := by omega
    simpa [Store.alloc, hkn] using wf j hlt

theorem exec_fromArray {s : State} (hv : Valid s) (d : Img ℝ) (dic : Option AngleDic) (dark flat : Option Nat)
    (junk : Nat → Nat → ℝ) (v : ImgView) :
    NewCall (.fromArray d dic dark flat junk) s (fromArrayV s d dic dark flat junk v) := by
  -- the optional arguments, resolved
  have core : ∀ dk fl : Option Nat, (∀ f, dk = some f → f < s.heap.objs.size) → (∀ f, fl = some f → f < s.heap.objs.size) →
      let m := (newFromArray d dic >>= fun n => applyCorrections junk n dk fl >>= fun _ => (pure (some n) : M (Option Nat)))
      let r := withVal (dataStokes d (dicVal dic s.heap)) v fun S =>
        applyCorrectionsV junk (dk.map s.heap.dataOf) (fl.map s.heap.dataOf) (freshView d S (dicVal dic s.heap))
      (m s.heap).1 = r.1.map (fun _ => some s.heap.objs.size) ∧
        (r.1 = .ok () → (m s.heap).2.view s.heap.objs.size = r.2) := by
    intro dk fl hdk hfl
    have hrun := newFromArray_run d dic s.heap
    cases hS : dataStokes d (dicVal dic s.heap) with
    | error e =>
      rw [hS] at hrun
      dsimp only at hrun
      intro m r
      have hm : m s.heap = (.error e, dicHeap dic s.heap) := run_of_err hrun
      rw [hm]
      exact ⟨rfl, fun hq => by cases hq⟩
    | ok S =>
      rw [hS] at hrun
      exact corrections_call hfl hdk hrun (arrayHeap_view d S dic s.heap)
        (fun j hj => congrArg ImgView.data (arrayHeap_view_old d S dic hv.1 hj)) (wf_arrayHeap hv.1 d S dic)
        (Nat.lt_succ_self _)
  unfold NewCall fromArrayV exec
  dsimp only
  have lt := @mem_lt s hv
  cases dark with
  | none =>
    rw [run_namedOpt_none]
    cases flat with
    | none => rw [run_namedOpt_none]; exact core none none (fun f hf => by cases hf) (fun f hf => by cases hf)
    | some f =>
      dsimp only [optV, secondV]
      cases hf : s.images[f]? with
      | none => rw [run_namedOpt_err hf]; exact ⟨rfl, fun hq => by cases hq⟩
      | some f' =>
        rw [run_namedOpt_some hf]
        exact core none (some f') (fun f hf => by cases hf) (fun g hg => by cases hg; exact lt hf)
  | some dk =>
    dsimp only [optV, secondV]
    cases hd : s.images[dk]? with
    | none => rw [run_namedOpt_err hd]; exact ⟨rfl, fun hq => by cases hq⟩
    | some dk' =>
      rw [run_namedOpt_some hd]
      cases flat with
      | none =>
        rw [run_namedOpt_none]
        exact core (some dk') none (fun g hg => by cases hg; exact lt hd) (fun f hf => by cases hf)
      | some f =>
        dsimp only
        cases hf : s.images[f]? with
        | none => rw [run_namedOpt_err hf]; exact ⟨rfl, fun hq => by cases hq⟩
        | some f' =>
          rw [run_namedOpt_some hf]
          exact core (some dk') (some f') (fun g hg => by cases hg; exact lt hd) (fun g hg => by cases hg; exact lt hf)

theorem exec_fromImage {s : State} (hv : Valid s) {i k : Nat} (hk : s.images[i]? = some k) (dic : Option AngleDic)
    (dark flat : Option Nat) (junk : Nat → Nat → ℝ) :
    NewCall (.fromImage i dic dark flat junk) s (Op.value s (.fromImage i dic dark flat junk) (s.heap.view k)) := by
  have lt := @mem_lt s hv
  have core : ∀ dk fl : Option Nat, (∀ f, dk = some f → f < s.heap.objs.size) → (∀ f, fl = some f → f < s.heap.objs.size) →
      let m := (newFromImage k dic >>= fun n => applyCorrections junk n dk fl >>= fun _ => (pure (some n) : M (Option Nat)))
      let r := applyCorrectionsV junk (dk.map s.heap.dataOf) (fl.map s.heap.dataOf) (s.heap.view k)
      (m s.heap).1 = r.1.map (fun _ => some s.heap.objs.size) ∧
        (r.1 = .ok () → (m s.heap).2.view s.heap.objs.size = r.2) := by
    intro dk fl hdk hfl
    exact corrections_call hfl hdk (newFromImage_run k dic s.heap) (copyHeap_view_new k dic s.heap)
      (fun j hj => congrArg ImgView.data (copyHeap_view_old k dic s.heap hj)) (wf_copyHeap hv.1 (lt hk) dic)
      (Nat.lt_succ_self _)
  unfold NewCall Op.value exec
  dsimp only
  rw [run_named hk]
  cases dark with
  | none =>
    rw [run_namedOpt_none]
    cases flat with
    | none => rw [run_namedOpt_none]; exact core none none (fun f hf => by cases hf) (fun f hf => by cases hf)
    | some f =>
      dsimp only [optV, secondV]
      cases hf : s.images[f]? with
      | none => rw [run_namedOpt_err hf]; exact ⟨rfl, fun hq => by cases hq⟩
      | some f' =>
        rw [run_namedOpt_some hf]
        exact core none (some f') (fun f hf => by cases hf) (fun g hg => by cases hg; exact lt hf)
  | some dk =>
    dsimp only [optV, secondV]
    cases hd : s.images[dk]? with
    | none => rw [run_namedOpt_err hd]; exact ⟨rfl, fun hq => by cases hq⟩
    | some dk' =>
      rw [run_namedOpt_some hd]
      cases flat with
      | none =>
        rw [run_namedOpt_none]
        exact core (some dk') none (fun g hg => by cases hg; exact lt hd) (fun f hf => by cases hf)
      | some f =>
        dsimp only
        cases hf : s.images[f]? with
        | none => rw [run_namedOpt_err hf]; exact ⟨rfl, fun hq => by cases hq⟩
        | some f' =>
          rw [run_namedOpt_some hf]
          exact core (some dk') (some f') (fun g hg => by cases hg; exact lt hd) (fun g hg => by cases hg; exact lt hf)

/-- Every call that returns a new image from a receiver. -/
theorem exec_new_value {s : State} (hv : Valid s) {o : Op} {i k : Nat} (hsrc : o.source = some i)
    (hk : s.images[i]? = some k) (hin : o.inPlace = false) : NewCall o s (o.value s (s.heap.view k)) := by
  have hlt := mem_lt hv hk
  cases o with
  | setDefault d => cases hsrc
  | fromArray d dic dark flat junk => cases hsrc
  | fromImage i' dic dark flat junk => cases hsrc; exact exec_fromImage hv hk dic dark flat junk
  | rebin i' b =>
    cases hsrc
    unfold NewCall exec
    dsimp only
    rw [run_named hk]
    exact newCall_of_yields (yields_rebin b)
  | congrid i' ny nx =>
    cases hsrc
    unfold NewCall exec
    dsimp only
    rw [run_named hk]
    exact newCall_of_yields (yields_congrid ny nx hlt)
  | rotate i' rot =>
    cases hsrc
    unfold NewCall exec
    dsimp only
    rw [run_named hk]
    exact newCall_of_yields (yields_rotate rot)
  | demodulate i' D dem =>
    cases hsrc
    unfold NewCall exec
    dsimp only
    rw [run_named hk]
    exact newCall_of_yields (yields_demodulate D dem)
  | shift i' y x m =>
    cases hsrc
    unfold NewCall exec
    dsimp only
    rw [run_named hk]
    exact newCall_of_yields (yields_derive (fun h => shiftMicropol (h.dataOf k) y x m))
  | cleanHotPixels i' f median =>
    cases hsrc
    unfold NewCall exec
    dsimp only
    rw [run_named hk]
    dsimp only [Op.value, secondV]
    cases hf : s.images[f]? with
    | none => rw [run_named_none hf]; exact ⟨rfl, fun hq => by cases hq⟩
    | some f' =>
      rw [run_named hf]
      exact newCall_of_yields (yields_derive (fun h => cleanHotPixelsData median (h.dataOf k) (h.dataOf f')))
  | arithImage op i' j junk =>
    cases hsrc
    unfold NewCall exec
    dsimp only
    rw [run_named hk]
    dsimp only [Op.value, secondV]
    cases hf : s.images[j]? with
    | none => rw [run_named_none hf]; exact ⟨rfl, fun hq => by cases hq⟩
    | some f' =>
      rw [run_named hf]
      exact newCall_of_yields (yields_arithImage op junk f')
  | arithNumber op i' c junk =>
    cases hsrc
    unfold NewCall exec
    dsimp only
    rw [run_named hk]
    exact newCall_of_yields (yields_arithNumber op junk c)
  | demosaic i' mode => cases hin
  | subtractDark i' d => cases hin
  | correctFlat i' f junk => cases hin
  | correctIfov i' => cases hin
  | maskOcculter i' y x r over fill => cases hin

/-- What an in place call does. -/
def PlaceCall (o : Op) (s : State) (k : Nat) (r : Py Unit × ImgView) : Prop :=
  (exec s.images o s.heap).1 = r.1.map (fun _ => o.returns s k) ∧ (exec s.images o s.heap).2.view k = r.2

theorem placeCall_of_acts {m : M Unit} {h : Heap} {r : Py Unit × ImgView} {k : Nat} {x : Option Nat} (ha : Acts k m h r) :
    ((m >>= fun _ => (pure x : M (Option Nat))) h).1 = r.1.map (fun _ => x) ∧
    ((m >>= fun _ => (pure x : M (Option Nat))) h).2.view k = r.2 := by
  obtain ⟨h1, h2⟩ := ha
  cases hx : m h with
  | mk a h' =>
    rw [hx] at h1 h2
    dsimp only at h1 h2
    rw [← h1, ← h2]
    cases a with
    | ok _ => rw [run_of_ok hx]; exact ⟨rfl, rfl⟩
    | error e => rw [run_of_err hx]; exact ⟨rfl, rfl⟩

theorem exec_place_value {s : State} {o : Op} {i k : Nat} (hsrc : o.source = some i)
    (hk : s.images[i]? = some k) (hin : o.inPlace = true) : PlaceCall o s k (o.value s (s.heap.view k)) := by
  cases o with
  | demosaic i' mode =>
    cases hsrc
    unfold PlaceCall exec
    dsimp only
    rw [run_named hk]
    exact placeCall_of_acts (acts_demosaicObj mode k s.heap)
  | subtractDark i' d =>
    cases hsrc
    unfold PlaceCall exec
    dsimp only
    rw [run_named hk]
    dsimp only [Op.value, secondV]
    cases hf : s.images[d]? with
    | none => rw [run_named_none hf]; exact ⟨rfl, rfl⟩
    | some f' =>
      rw [run_named hf]
      exact placeCall_of_acts (acts_subtractDark k f' s.heap)
  | correctFlat i' f junk =>
    cases hsrc
    unfold PlaceCall exec
    dsimp only
    rw [run_named hk]
    dsimp only [Op.value, secondV]
    cases hf : s.images[f]? with
    | none => rw [run_named_none hf]; exact ⟨rfl, rfl⟩
    | some f' =>
      rw [run_named hf]
      exact placeCall_of_acts (acts_correctFlat junk k f' s.heap)
  | correctIfov i' =>
    cases hsrc
    unfold PlaceCall exec
    dsimp only
    rw [run_named hk]
    exact placeCall_of_acts (acts_correctIfov k s.heap)
  | maskOcculter i' y x r over fill =>
    cases hsrc
    unfold PlaceCall exec
    dsimp only
    rw [run_named hk]
    exact placeCall_of_acts (acts_maskOcculter k y x r over fill s.heap)
  | _ => cases hin

end

end Micropol

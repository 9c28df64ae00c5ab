import Verif.Lemmas.ObjectExec

/-! # One call, and whole histories -/

set_option autoImplicit false

namespace Micropol

open M

noncomputable section

open Classical

theorem step_heap (s : State) (o : Op) : (step s o).heap = (exec s.images o s.heap).2 := by
  unfold step
  split <;> rename_i h <;> rw [h]

theorem step_images (s : State) (o : Op) :
    (step s o).images = s.images ∨
      ∃ n, (exec s.images o s.heap).1 = .ok (some n) ∧ (step s o).images = s.images ++ [n] := by
  unfold step
  split
  · rename_i n h hh
    exact Or.inr ⟨n, by rw [hh], rfl⟩
  · exact Or.inl rfl
  · exact Or.inl rfl

theorem step_fw {s : State} (hv : Valid s) (o : Op) : FWo o s (step s o).heap := by
  rw [step_heap]
  obtain ⟨h1, h2⟩ := exec_frame s hv o s.heap rfl
  cases hx : (exec s.images o s.heap).1 with
  | ok a => exact (h1 a hx).1
  | error e => exact h2 e hx

theorem step_frame {s : State} (hv : Valid s) (o : Op) : Frame (o.W s) (o.S s) (o.H s) s.heap (step s o).heap :=
  (step_fw hv o).1

/-- The returned image, if any. -/
theorem step_new {s : State} (hv : Valid s) (o : Op) {n : Nat} (hn : (exec s.images o s.heap).1 = .ok (some n)) :
    n < (step s o).heap.objs.size ∧ (o.inPlace = true → o.CalledOn s n) ∧
      (o.inPlace = false → s.heap.objs.size ≤ n) := by
  rw [step_heap]
  obtain ⟨h1, h2⟩ := exec_frame s hv o s.heap rfl
  exact (h1 (some n) hn).2 n rfl

theorem step_valid {s : State} (hv : Valid s) (o : Op) : Valid (step s o) := by
  have fr := step_frame hv o
  refine ⟨(step_fw hv o).2, ?_⟩
  intro k hk
  rcases step_images s o with h | ⟨n, hn, h⟩
  · rw [h] at hk
    exact lt_of_lt_of_le (hv.2 k hk) fr.objSize
  · rw [h, List.mem_append, List.mem_singleton] at hk
    rcases hk with hk | rfl
    · exact lt_of_lt_of_le (hv.2 k hk) fr.objSize
    · exact (step_new hv o hn).1

theorem init_valid : Valid initState := ⟨fun k hk => absurd hk (Nat.not_lt_zero k), fun k hk => by cases hk⟩

theorem foldl_valid (ops : List Op) : ∀ s, Valid s → Valid (ops.foldl step s) := by
  induction ops with
  | nil => exact fun s h => h
  | cons o ops ih => exact fun s h => ih _ (step_valid h o)

theorem runOps_valid (ops : List Op) : Valid (runOps ops) := foldl_valid ops _ init_valid

theorem runOps_snoc (ops : List Op) (o : Op) : runOps (ops ++ [o]) = step (runOps ops) o := by
  unfold runOps
  rw [List.foldl_append]
  rfl

/-! ## Shared Stokes vectors -/

/-- The masked object keeps its reference. -/
theorem mask_keeps_ref (n st : Nat) (y x r over fill : ℝ) :
    Pres (fun h => (h.objs.cell n).stokes = st) (maskOcculter n y x r over fill) := by
  have hplane : ∀ c (k : Fin 3) a, Pres (fun h => (h.objs.cell n).stokes = st) (setPlane c k a) := fun c k a =>
    Pres.bind Pres.read fun _ => Pres.bind Pres.lift fun _ => Pres.modify fun h hh => hh
  have hrew : ∀ c f, Pres (fun h => (h.objs.cell n).stokes = st) (rewritePlanes c f) := fun c f =>
    Pres.bind Pres.read fun _ => Pres.bind Pres.lift fun _ => Pres.bind (hplane c 0 _) fun _ =>
    Pres.bind Pres.read fun _ => Pres.bind Pres.lift fun _ => Pres.bind (hplane c 1 _) fun _ =>
    Pres.bind Pres.read fun _ => Pres.bind Pres.lift fun _ => hplane c 2 _
  have hmod : ∀ (f : ImgObj → ImgObj), (∀ o, (f o).stokes = o.stokes) → ∀ h : Heap, (h.objs.cell n).stokes = st →
      ((h.modifyObj n f).objs.cell n).stokes = st := by
    intro f hf h hh
    show ((h.objs.set n _).cell n).stokes = st
    rw [Store.set_cell_self, hf, hh]
  refine Pres.bind Pres.read fun d => Pres.bind Pres.lift fun d => Pres.bind (Pres.modify ?_) fun _ =>
    Pres.bind ?_ fun _ => Pres.bind Pres.read fun o => ?_
  · intro h hh
    exact hmod (fun o => { o with data := h.datas.size }) (fun _ => rfl) { h with datas := h.datas.alloc d } hh
  · refine Pres.bind Pres.read fun o => Pres.bind Pres.read fun d => ?_
    split
    · exact Pres.pure
    · exact Pres.lift
    · exact Pres.bind Pres.lift fun s => Pres.modify fun h hh => hmod (fun o => { o with demosaicedImages := some s, demosaicedList := h.freshList }) (fun _ => rfl) h hh
  · split
    · exact hrew _ _
    · exact hrew _ _

/-- What an operation that writes into the receiver's Stokes vector leaves in it. -/
theorem shared_cell {s : State} (hv : Valid s) {o : Op} {r : Nat} (hw : o.writesStokes = true) (hr : o.CalledOn s r) :
    (step s o).heap.stokes.cell (s.heap.objs.cell r).stokes = (o.value s (s.heap.view r)).2.stokes := by
  rw [step_heap]
  obtain ⟨i, hsrc, hi⟩ := hr
  cases o with
  | rotate i' rot =>
    cases hsrc
    unfold exec
    dsimp only
    rw [run_named hi]
    have hcells : ((rotateObj rot r s.heap).2).stokes.cell (s.heap.objs.cell r).stokes =
        (rotateV rot (s.heap.view r)).2.stokes := by
      unfold rotateObj rotateV
      rw [run_read]
      have e : rotateData rot (s.heap.view r).data = rotateData rot (s.heap.dataOf r) := rfl
      rw [e]
      cases rotateData rot (s.heap.dataOf r) with
      | error e => rfl
      | ok d =>
        rw [run_lift_ok, run_read]
        have hrun := rewritePlanes_run (s.heap.objs.cell r).stokes rot s.heap
        unfold rewriteStokesV
        cases hrr : rewriteV rot (s.heap.view r).stokes with
        | mk a sv =>
          have hr' : rewriteV rot (s.heap.stokes.cell (s.heap.objs.cell r).stokes) = (a, sv) := hrr
          rw [hr'] at hrun
          cases a with
          | error e =>
            rw [run_of_err hrun]
            exact withStokes_cell _ _ _
          | ok u =>
            rw [run_of_ok hrun, run_of_ok (newFromImage_run r none _), run_modify, run_modify, pure_run]
            obtain ⟨q, hq⟩ := dicHeap_eq none (s.heap.withStokes (s.heap.objs.cell r).stokes sv)
            rw [hq]
            exact withStokes_cell _ _ _
    rw [← show (rotateV rot (s.heap.view r)).2.stokes = (Op.value s (.rotate i rot) (s.heap.view r)).2.stokes from rfl,
      ← hcells]
    cases hx : rotateObj rot r s.heap with
    | mk a h' =>
      cases a with
      | ok n => rw [run_of_ok hx, pure_run]
      | error e => rw [run_of_err hx]
  | maskOcculter i' y x rr over fill =>
    cases hsrc
    have hpl := exec_place_value (s := s) (o := .maskOcculter i y x rr over fill) rfl hi rfl
    have hkeep := mask_keeps_ref r (s.heap.objs.cell r).stokes y x rr over fill s.heap rfl
    have href : ((exec s.images (.maskOcculter i y x rr over fill) s.heap).2.objs.cell r).stokes =
        (s.heap.objs.cell r).stokes := by
      unfold exec
      dsimp only
      rw [run_named hi]
      cases hx : maskOcculter r y x rr over fill s.heap with
      | mk a h' =>
        rw [hx] at hkeep
        cases a with
        | ok n => rw [run_of_ok hx, pure_run]; exact hkeep.1 n rfl
        | error e => rw [run_of_err hx]; exact hkeep.2 e rfl
    have := congrArg ImgView.stokes hpl.2
    rw [← this, ← href]
    rfl
  | _ => cases hw

/-- Images the operation is not called on in place keep everything, except that a shared Stokes vector may have been
overwritten. -/
theorem step_view_old {s : State} (hv : Valid s) (o : Op) {k : Nat} (hk : k < s.heap.objs.size) (hW : ¬ o.W s k) :
    (step s o).heap.view k = s.heap.view k ∨
    (o.writesStokes = true ∧ ∃ r, o.CalledOn s r ∧ (s.heap.view k).stokes = (s.heap.view r).stokes ∧
      (step s o).heap.view k = { s.heap.view k with stokes := (o.value s (s.heap.view r)).2.stokes }) := by
  have fr := step_frame hv o
  by_cases hS : o.S s (s.heap.objs.cell k).stokes
  · obtain ⟨hw, r, hr, hc⟩ := hS
    refine Or.inr ⟨hw, r, hr, ?_, ?_⟩
    · show s.heap.stokes.cell (s.heap.objs.cell k).stokes = s.heap.stokes.cell (s.heap.objs.cell r).stokes
      rw [hc]
    · have hobj := fr.obj k hk hW
      have hdata := fr.data _ (hv.1 k hk).1
      have hst := shared_cell hv hw hr
      rw [← hst, ← hc]
      unfold Heap.view Heap.dataOf Heap.stokesOf Heap.dicOf
      rw [hobj, hdata]
  · exact Or.inl (fr.view hv.1 hk hW hS)

/-- Data of images the operation is not called on in place. -/
theorem step_data_old {s : State} (hv : Valid s) (o : Op) {k : Nat} (hk : k < s.heap.objs.size) (hW : ¬ o.W s k) :
    ((step s o).heap.view k).data = (s.heap.view k).data := by
  rcases step_view_old hv o hk hW with h | ⟨-, r, -, -, h⟩ <;> rw [h]

/-! ## Invariants of all images -/

/-- An invariant of the views of all images is kept by a call if the receiver (in place) or the result has it, and if it
survives an overwritten Stokes vector. -/
theorem inv_step_on {P Q : Nat → ImgView → Prop} {s : State} (hv : Valid s) {o : Op}
    (hP : ∀ k ∈ s.images, P k (s.heap.view k)) (hPQ : ∀ k ∈ s.images, ∀ v, P k v → Q k v)
    (hval : ∀ k, o.CalledOn s k → P k (s.heap.view k) →
      (o.inPlace = true → Q k (o.value s (s.heap.view k)).2) ∧
      (o.inPlace = false → (o.value s (s.heap.view k)).1 = .ok () → ∀ n, (step s o).images = s.images ++ [n] →
        Q n (o.value s (s.heap.view k)).2))
    (harr : ∀ d dic dark flat junk, o = .fromArray d dic dark flat junk → ∀ v,
      (fromArrayV s d dic dark flat junk v).1 = .ok () → ∀ n, Q n (fromArrayV s d dic dark flat junk v).2)
    (hshare : o.writesStokes = true → ∀ k r, k ∈ s.images → o.CalledOn s r → P k (s.heap.view k) → P r (s.heap.view r) →
      (s.heap.view k).stokes = (s.heap.view r).stokes →
      Q k { s.heap.view k with stokes := (o.value s (s.heap.view r)).2.stokes }) :
    ∀ k ∈ (step s o).images, Q k ((step s o).heap.view k) := by
  have called_mem : ∀ k, o.CalledOn s k → k ∈ s.images := fun k ⟨i, _, hi⟩ => List.mem_of_getElem? hi
  -- images that existed before
  have old : ∀ k ∈ s.images, Q k ((step s o).heap.view k) := by
    intro k hk
    by_cases hW : o.W s k
    · obtain ⟨hin, i, hsrc, hi⟩ := hW
      have := (exec_place_value hsrc hi hin).2
      rw [step_heap, this]
      exact (hval k ⟨i, hsrc, hi⟩ (hP k hk)).1 hin
    · rcases step_view_old hv o (hv.2 k hk) hW with h | ⟨hw, r, hr, hst, h⟩
      · rw [h]; exact hPQ k hk _ (hP k hk)
      · rw [h]; exact hshare hw k r hk hr (hP k hk) (hP r (called_mem r hr)) hst
  intro k hk
  rcases step_images s o with h | ⟨n, hn, h⟩
  · rw [h] at hk; exact old k hk
  · rw [h, List.mem_append, List.mem_singleton] at hk
    rcases hk with hk | rfl
    · exact old k hk
    · cases hin : o.inPlace with
      | true => exact old k (called_mem k ((step_new hv o hn).2.1 hin))
      | false =>
        cases hsrc : o.source with
        | none =>
          cases o with
          | setDefault d => cases hn
          | fromArray d dic dark flat junk =>
            have hc := exec_fromArray hv d dic dark flat junk (s.heap.view 0)
            unfold NewCall at hc
            rw [hn] at hc
            obtain ⟨h1, h2⟩ := hc
            have hok : (fromArrayV s d dic dark flat junk (s.heap.view 0)).1 = .ok () := by
              cases hx : (fromArrayV s d dic dark flat junk (s.heap.view 0)).1 with
              | ok u => rfl
              | error e => rw [hx] at h1; cases h1
            rw [hok] at h1
            injection h1 with h1
            injection h1 with h1
            subst h1
            rw [step_heap, h2 hok]
            exact harr d dic dark flat junk rfl _ hok _
          | _ => cases hsrc
        | some i =>
          have hi : ∃ r, s.images[i]? = some r := by
            cases hx : s.images[i]? with
            | some r => exact ⟨r, rfl⟩
            | none =>
              exfalso
              cases o with
              | setDefault d => cases hsrc
              | fromArray d dic dark flat junk => cases hsrc
              | _ => cases hsrc; unfold exec at hn; dsimp only at hn; rw [run_named_none hx] at hn; cases hn
          obtain ⟨r, hi⟩ := hi
          have hc := exec_new_value hv hsrc hi hin
          unfold NewCall at hc
          rw [hn] at hc
          obtain ⟨h1, h2⟩ := hc
          have hok : (o.value s (s.heap.view r)).1 = .ok () := by
            cases hx : (o.value s (s.heap.view r)).1 with
            | ok u => rfl
            | error e => rw [hx] at h1; cases h1
          rw [hok] at h1
          injection h1 with h1
          injection h1 with h1
          subst h1
          rw [step_heap, h2 hok]
          exact (hval r ⟨i, hsrc, hi⟩ (hP r (List.mem_of_getElem? hi))).2 hin hok _ h

/-- The same for a property of views alone. -/
theorem inv_step {P : ImgView → Prop} {s : State} (hv : Valid s) {o : Op} (hP : ∀ k ∈ s.images, P (s.heap.view k))
    (hval : ∀ k, o.CalledOn s k → P (s.heap.view k) →
      (o.inPlace = true → P (o.value s (s.heap.view k)).2) ∧
      (o.inPlace = false → (o.value s (s.heap.view k)).1 = .ok () → P (o.value s (s.heap.view k)).2))
    (harr : ∀ d dic dark flat junk, o = .fromArray d dic dark flat junk → ∀ v,
      (fromArrayV s d dic dark flat junk v).1 = .ok () → P (fromArrayV s d dic dark flat junk v).2)
    (hshare : o.writesStokes = true → ∀ k r, k ∈ s.images → o.CalledOn s r → P (s.heap.view k) → P (s.heap.view r) →
      (s.heap.view k).stokes = (s.heap.view r).stokes →
      P { s.heap.view k with stokes := (o.value s (s.heap.view r)).2.stokes }) :
    ∀ k ∈ (step s o).images, P ((step s o).heap.view k) :=
  inv_step_on (P := fun _ => P) (Q := fun _ => P) hv hP (fun _ _ _ h => h)
    (fun k hk hPk => ⟨(hval k hk hPk).1, fun hin hok _ _ => (hval k hk hPk).2 hin hok⟩)
    (fun d dic dark flat junk ho v h _ => harr d dic dark flat junk ho v h) hshare

end

end Micropol

import Verif.Lemmas.Failed
import Verif.Lemmas.Edit
import Verif.Spec.Classes

/-! # Sessions with images of both classes: who holds which array -/

set_option autoImplicit false

namespace Micropol

open M

noncomputable section

open Classical

/-! ## Arithmetic with an array -/

/-- The memory after `image op array`. -/
def arithHeap (i : Nat) (d : Img ℝ) (S : Fin 3 → Img ℝ) (h : Heap) : Heap :=
  (freshHeap d S (h.dicOf i) h).modifyObj h.objs.size fun o => { o with header := (h.objs.cell i).header }

theorem new_some (d : Img ℝ) (dic : AngleDic) (h : Heap) : newFromArray d (some dic) h =
    match dataStokes d dic with
    | .error e => (.error e, h)
    | .ok S => (.ok h.objs.size, freshHeap d S dic h) := by
  unfold newFromArray
  change M.bind (M.lift (dataStokes d dic)) _ h = _
  unfold M.bind M.lift
  cases dataStokes d dic <;> rfl

theorem arithArray_eq {op : Arith} {junk : Nat → Nat → ℝ} {i : Nat} {A : Img ℝ} {h : Heap} (hi : i < h.objs.size) :
    arithArrayObj op junk i A h =
      match arithData op junk (h.dataOf i) (.image A) with
      | .error e => (.error e, h)
      | .ok d => match dataStokes d (h.dicOf i) with
        | .error e => (.error e, h)
        | .ok S => (.ok h.objs.size, arithHeap i d S h) := by
  unfold arithArrayObj
  change M.bind (M.lift (arithData op junk (h.dataOf i) (.image A))) _ h = _
  unfold M.bind M.lift
  cases hd : arithData op junk (h.dataOf i) (.image A) with
  | error e => rfl
  | ok d =>
    dsimp only
    change M.bind (newFromArray d (some (h.dicOf i))) _ h = _
    unfold M.bind
    rw [new_some]
    cases dataStokes d (h.dicOf i) with
    | error e => rfl
    | ok S =>
      change (Except.ok h.objs.size, (freshHeap d S (h.dicOf i) h).modifyObj h.objs.size fun o =>
        { o with header := ((freshHeap d S (h.dicOf i) h).objs.cell i).header }) = _
      have : (freshHeap d S (h.dicOf i) h).objs.cell i = h.objs.cell i := if_neg (Nat.ne_of_lt hi)
      rw [this]
      rfl

theorem arithHeap_old {i : Nat} {d : Img ℝ} {S : Fin 3 → Img ℝ} {h : Heap} {k : Nat} (hk : k < h.objs.size) :
    (arithHeap i d S h).objs.cell k = h.objs.cell k := by
  unfold arithHeap Heap.modifyObj
  dsimp only
  rw [Store.set_cell_of_ne _ _ (Nat.ne_of_lt hk)]
  exact if_neg (Nat.ne_of_lt hk)

theorem arithHeap_new {i : Nat} {d : Img ℝ} {S : Fin 3 → Img ℝ} {h : Heap} : (arithHeap i d S h).objs.cell h.objs.size =
    { blankObj h.datas.size h.stokes.size h.headers.size (h.dicOf i) with header := (h.objs.cell i).header } := by
  unfold arithHeap Heap.modifyObj
  dsimp only
  rw [Store.set_cell_self, fresh_obj_new]

/-- `image op array` on a session: nothing, or a new image. -/
theorem arithArray_cases {s : State} (hv : Valid s) (op : Arith) (i : Nat) (A : Img ℝ) (junk : Nat → Nat → ℝ) :
    (∃ e, s.arithArray op i A junk = (.error e, s)) ∨
    ∃ a d S, s.images[i]? = some a ∧ arithData op junk (s.heap.dataOf a) (.image A) = .ok d ∧
      dataStokes d (s.heap.dicOf a) = .ok S ∧
      s.arithArray op i A junk = (.ok (), ⟨arithHeap a d S s.heap, s.images ++ [s.heap.objs.size]⟩) := by
  unfold State.arithArray named
  cases hi : s.images[i]? with
  | none => exact Or.inl ⟨_, rfl⟩
  | some a =>
    have ha := mem_lt hv hi
    have e : (M.lift (Except.ok a) >>= fun i => arithArrayObj op junk i A : M Nat) s.heap = arithArrayObj op junk a A s.heap := rfl
    dsimp only
    rw [e, arithArray_eq ha]
    cases hd : arithData op junk (s.heap.dataOf a) (.image A) with
    | error e => exact Or.inl ⟨e, rfl⟩
    | ok d =>
      dsimp only
      cases hS : dataStokes d (s.heap.dicOf a) with
      | error e => exact Or.inl ⟨e, rfl⟩
      | ok S => exact Or.inr ⟨a, d, S, rfl, hd, hS, rfl⟩

/-! ## Statements with values -/

theorem run_valid {s : State} (hv : Valid s) (v : ValueStmt) : Valid (v.run s).2 := by
  cases v with
  | call o => exact step_valid hv o
  | arithArray op i A junk =>
    show Valid (s.arithArray op i A junk).2
    rcases arithArray_cases hv op i A junk with ⟨e, h⟩ | ⟨a, d, S, ha, -, -, h⟩
    · rw [h]; exact hv
    · rw [h]
      have hlt := mem_lt hv ha
      refine ⟨fun k hk => ?_, fun k hk => ?_⟩
      · have hk' : k < s.heap.objs.size + 1 := hk
        rcases Nat.lt_succ_iff_lt_or_eq.1 hk' with hk | rfl
        · dsimp only
          rw [arithHeap_old hk]
          obtain ⟨h1, h2, h3⟩ := hv.1 k hk
          exact ⟨Nat.lt_succ_of_lt h1, Nat.lt_succ_of_lt h2, Nat.lt_succ_of_lt h3⟩
        · dsimp only
          rw [arithHeap_new]
          exact ⟨Nat.lt_succ_self _, Nat.lt_succ_self _, Nat.lt_succ_of_lt (hv.1 a hlt).2.2⟩
      · rcases List.mem_append.1 hk with hk | hk
        · exact Nat.lt_succ_of_lt (hv.2 k hk)
        · rw [List.mem_singleton.1 hk]
          exact Nat.lt_succ_self _

theorem run_datas {s : State} (hv : Valid s) (v : ValueStmt) : s.heap.datas.size ≤ (v.run s).2.heap.datas.size ∧
    ∀ r, r < s.heap.datas.size → (v.run s).2.heap.datas.cell r = s.heap.datas.cell r := by
  cases v with
  | call o => exact ⟨(step_frame hv o).dataSize, (step_frame hv o).data⟩
  | arithArray op i A junk =>
    show _ ≤ (s.arithArray op i A junk).2.heap.datas.size ∧ ∀ r, _ → (s.arithArray op i A junk).2.heap.datas.cell r = _
    rcases arithArray_cases hv op i A junk with ⟨e, h⟩ | ⟨a, d, S, ha, -, -, h⟩
    · rw [h]; exact ⟨le_rfl, fun _ _ => rfl⟩
    · rw [h]; exact ⟨Nat.le_succ _, fun r hr => if_neg (Nat.ne_of_lt hr)⟩

theorem named_missing {images : List Nat} {i : Nat} (h : images[i]? = none) : named images i = M.lift (.error .nameError) := by
  unfold named
  rw [h]

/-- Every image of the session afterwards holds a new array or one an image of the session held before. -/
theorem run_arr {s : State} (hv : Valid s) (v : ValueStmt) : ∀ k ∈ (v.run s).2.images,
    s.heap.datas.size ≤ arr (v.run s).2 k ∨ ∃ k' ∈ s.images, arr (v.run s).2 k = arr s k' := by
  have old : ∀ o : Op, ∀ k ∈ s.images, s.heap.datas.size ≤ arr (step s o) k ∨ ∃ k' ∈ s.images, arr (step s o) k = arr s k' := by
    intro o k hk
    rcases step_arr hv o (hv.2 k hk) with h | ⟨-, -, h⟩
    · exact Or.inr ⟨k, hk, h⟩
    · exact Or.inl h
  cases v with
  | call o =>
    show ∀ k ∈ (step s o).images, s.heap.datas.size ≤ arr (step s o) k ∨ ∃ k' ∈ s.images, arr (step s o) k = arr s k'
    intro k hk
    rcases step_images s o with h | ⟨n, hn, h⟩
    · rw [h] at hk; exact old o k hk
    · rw [h] at hk
      rcases List.mem_append.1 hk with hk | hk
      · exact old o k hk
      · rw [List.mem_singleton.1 hk]
        cases hin : o.inPlace with
        | true =>
          obtain ⟨i, -, hi⟩ := (step_new hv o hn).2.1 hin
          exact old o n (List.mem_of_getElem? hi)
        | false =>
          cases hsp : o.samePixels with
          | false =>
            left
            have h1 := (makes_exec (s := s) hin hsp s.heap.datas.size s.heap le_rfl).1 _ hn n rfl
            unfold arr; rw [step_heap]; exact h1.2
          | true =>
            have : ∃ i k, o.source = some i ∧ s.images[i]? = some k := by
              cases o with
              | fromImage i dic dark flat junk =>
                cases hi : s.images[i]? with
                | some k => exact ⟨i, k, rfl, hi⟩
                | none =>
                  change ((named s.images i >>= _) s.heap).1 = _ at hn
                  rw [named_missing hi] at hn
                  cases hn
              | demodulate i D dem =>
                cases hi : s.images[i]? with
                | some k => exact ⟨i, k, rfl, hi⟩
                | none =>
                  change ((named s.images i >>= _) s.heap).1 = _ at hn
                  rw [named_missing hi] at hn
                  cases hn
              | _ => cases hsp
            obtain ⟨i, k', hsrc, hi⟩ := this
            have h1 := new_same hv hsp hn ⟨i, hsrc, hi⟩
            rw [← h1]
            exact old o k' (List.mem_of_getElem? hi)
  | arithArray op i A junk =>
    show ∀ k ∈ (s.arithArray op i A junk).2.images, s.heap.datas.size ≤ arr (s.arithArray op i A junk).2 k ∨
      ∃ k' ∈ s.images, arr (s.arithArray op i A junk).2 k = arr s k'
    rcases arithArray_cases hv op i A junk with ⟨e, h⟩ | ⟨a, d, S, ha, -, -, h⟩
    · rw [h]; exact fun k hk => Or.inr ⟨k, hk, rfl⟩
    · rw [h]
      intro k hk
      rcases List.mem_append.1 hk with hk | hk
      · refine Or.inr ⟨k, hk, ?_⟩
        unfold arr
        dsimp only
        rw [arithHeap_old (hv.2 k hk)]
      · rw [List.mem_singleton.1 hk]
        left
        unfold arr
        dsimp only
        rw [arithHeap_new]
        exact le_rfl

theorem sim_arithArray {ρ : Nat → Nat → Prop} {N N' i i' : Nat} {op : Arith} {junk : Nat → Nat → ℝ} (hi : ρ i i') (A : Img ℝ) :
    NewPar ρ N N' (arithArrayObj op junk i A) (arithArrayObj op junk i' A) := by
  refine sim_reads (fun _ _ h => h.1) (fun h h' hs => by rw [hs.1.dataOf hi]) fun d =>
    RelP.bind (R := Eq) (RelP.read fun h h' hs => (hs.1.dicOf hi).symm) fun dc dc' hdc => ?_
  cases hdc
  exact RelP.made (sim_newFromArray d _) (RelP.bind (R := Eq)
    (RelP.modify fun h h' hs => hs.aliasHeader (newPair ρ N N') (oldPair hi)) fun _ _ _ => retNew)

theorem alike_run {s t : State} (hst : Alike s t) (v : ValueStmt) : (v.run s).1 = (v.run t).1 ∧ Alike (v.run s).2 (v.run t).2 := by
  cases v with
  | call o =>
    obtain ⟨h1, h2⟩ := alike_step hst o
    refine ⟨?_, h2⟩
    show (exec s.images o s.heap).1.map _ = (exec t.images o t.heap).1.map _
    cases hx : (exec s.images o s.heap).1 <;> cases hy : (exec t.images o t.heap).1 <;> rw [hx, hy] at h1
    · cases h1; rfl
    · cases h1
    · cases h1
    · rfl
  | arithArray op i A junk =>
    show (s.arithArray op i A junk).1 = (t.arithArray op i A junk).1 ∧ Alike (s.arithArray op i A junk).2 (t.arithArray op i A junk).2
    obtain ⟨ρ, hs, him⟩ := hst
    obtain ⟨h1, h2, h3⟩ := sim_named (p := i) (f := fun i => arithArrayObj op junk i A) (g := fun i => arithArrayObj op junk i A) him
      (fun _ _ h => h.1) (fun _ _ hk => sim_arithArray (N := s.heap.objs.size) (N' := t.heap.objs.size) (op := op) (junk := junk) hk A)
      s.heap t.heap ⟨hs, rfl, rfl⟩
    unfold State.arithArray
    cases hx : (named s.images i >>= fun i => arithArrayObj op junk i A) s.heap with
    | mk a k =>
      cases hy : (named t.images i >>= fun i => arithArrayObj op junk i A) t.heap with
      | mk b k' =>
        rw [hx, hy] at h1 h2 h3
        cases a with
        | error e =>
          cases b with
          | ok r => cases h1
          | error e' =>
            cases h1
            exact ⟨rfl, ρ, h3 ⟨e, rfl⟩, him⟩
        | ok r =>
          cases b with
          | error e' => cases h1
          | ok r' =>
            have h2 := h2 ⟨r, rfl⟩
            obtain ⟨rfl, rfl⟩ := h1
            exact ⟨rfl, _, h2, List.rel_append (him.imp fun _ _ => oldPair) (.cons (newPair ρ _ _) .nil)⟩

/-! ## Statements of a session with both classes -/

/-- The session with other `MicropolImage`s. -/
def Mixed.become (s : Mixed) (u : State) : Mixed := { s with heap := u.heap, images := u.images }

theorem after_exec (s : Mixed) (o : Op) : s.after (exec s.images o) =
    ((exec s.images o s.heap).1.map fun _ => (), s.become (step s.state o)) := by
  unfold Mixed.after step Mixed.become Mixed.state
  dsimp only
  cases hx : exec s.images o s.heap with
  | mk a h =>
    cases a with
    | error e => rfl
    | ok r => cases r <;> rfl

theorem arrayVar_value {s : Mixed} {k : Nat} {A : Img ℝ} (h : s.arrayValue k = some A) :
    ∃ r, s.held[k]? = some r ∧ s.arrayVar k = .ok r ∧ s.values r = A := by
  unfold Mixed.arrayValue at h
  cases hk : s.held[k]? with
  | none => rw [hk] at h; cases h
  | some r =>
    rw [hk] at h
    injection h with h
    refine ⟨r, rfl, ?_, h⟩
    unfold Mixed.arrayVar
    rw [hk]

theorem base_value {s : Mixed} {j : Nat} {A : Img ℝ} (h : s.basePixels j = some A) :
    ∃ r, s.bases[j]? = some (some r) ∧ s.base j = .ok (some r) ∧ s.values r = A := by
  unfold Mixed.basePixels at h
  cases hk : s.bases[j]? with
  | none => rw [hk] at h; cases h
  | some b =>
    cases b with
    | none => rw [hk] at h; cases h
    | some r =>
      rw [hk] at h
      injection h with h
      refine ⟨r, rfl, ?_, h⟩
      unfold Mixed.base
      rw [hk]

theorem ret_some (m : M Nat) (h : Heap) : (m >>= fun n => (pure (some n) : M (Option Nat))) h =
    match m h with
    | (.ok n, h') => (.ok (some n), h')
    | (.error e, h') => (.error e, h') := by
  show M.bind _ _ h = _
  unfold M.bind
  cases m h with
  | mk x h => cases x <;> rfl

theorem named_assoc (images : List Nat) (i : Nat) (f : Nat → M Nat) :
    (named images i >>= fun i => f i >>= fun n => (pure (some n) : M (Option Nat))) =
      ((named images i >>= f) >>= fun n => (pure (some n) : M (Option Nat))) := by
  funext h
  unfold named
  cases images[i]? <;> rfl

theorem exec_value {s : Mixed} {t : MixStmt} {v : ValueStmt} (h : t.value s = some v) :
    s.exec t = ((v.run s.state).1, s.become (v.run s.state).2) := by
  cases t with
  | call o =>
    injection h with h
    subst h
    exact after_exec s o
  | construct k dic dark flat junk =>
    obtain ⟨A, hA, rfl⟩ := Option.map_eq_some_iff.1 h
    obtain ⟨r, -, hr, rfl⟩ := arrayVar_value hA
    simp only [Mixed.exec, hr]
    exact after_exec s _
  | convert j dic dark flat junk =>
    obtain ⟨A, hA, rfl⟩ := Option.map_eq_some_iff.1 h
    obtain ⟨r, -, hr, rfl⟩ := base_value hA
    show s.fromBase j dic dark flat junk = _
    unfold Mixed.fromBase
    rw [hr]
    exact after_exec s _
  | arith op a b junk =>
    cases a with
    | base j => cases h
    | micropol i =>
      cases b with
      | image b =>
        cases b with
        | base j => cases h
        | micropol j => injection h with h; subst h; exact after_exec s _
      | plain b =>
        cases b with
        | number c => injection h with h; subst h; exact after_exec s _
        | array k =>
          obtain ⟨A, hA, rfl⟩ := Option.map_eq_some_iff.1 h
          obtain ⟨r, -, hr, rfl⟩ := arrayVar_value hA
          simp only [Mixed.exec, Mixed.micropolArith, hr]
          show s.after (named s.images i >>= fun i => arithArrayObj op junk i (s.values r) >>= fun n => pure (some n)) =
            ((s.state.arithArray op i (s.values r) junk).1, s.become (s.state.arithArray op i (s.values r) junk).2)
          unfold Mixed.after State.arithArray
          rw [named_assoc, ret_some]
          show _ = (Prod.fst (match (named s.images i >>= fun i => arithArrayObj op junk i (s.values r)) s.heap with
            | (.ok n, h) => ((.ok (), ⟨h, s.images ++ [n]⟩) : Py Unit × State)
            | (.error e, h) => (.error e, ⟨h, s.images⟩)), s.become (Prod.snd (match (named s.images i >>= fun i => arithArrayObj op junk i (s.values r)) s.heap with
            | (.ok n, h) => ((.ok (), ⟨h, s.images ++ [n]⟩) : Py Unit × State)
            | (.error e, h) => (.error e, ⟨h, s.images⟩))))
          generalize (named s.images i >>= fun i => arithArrayObj op junk i (s.values r)) s.heap = x
          cases x with
          | mk x h => cases x <;> rfl
  | _ => cases h

/-- The statement writes into an array. -/
def MixStmt.Writes (t : MixStmt) : Prop := ∃ k y x c, t = .write k y x c

/-- A statement that no `MicropolImage` takes part in: what it may change. -/
structure Aside (w : Prop) (s u : Mixed) : Prop where
  images : u.images = s.images
  objs : u.heap.objs = s.heap.objs
  stokes : u.heap.stokes = s.heap.stokes
  headers : u.heap.headers = s.heap.headers
  next : u.heap.nextDic = s.heap.nextDic
  size : s.heap.datas.size ≤ u.heap.datas.size
  cells : ∀ r, r < s.heap.datas.size → (w → r ∉ s.held) → u.heap.datas.cell r = s.heap.datas.cell r
  held : ∀ r ∈ u.held, r ∈ s.held ∨ some r ∈ s.bases ∨ (s.heap.datas.size ≤ r ∧ r < u.heap.datas.size)
  bases : ∀ r, some r ∈ u.bases → r ∈ s.held ∨ some r ∈ s.bases ∨ (s.heap.datas.size ≤ r ∧ r < u.heap.datas.size)

theorem Aside.refl {w : Prop} (s : Mixed) : Aside w s s :=
  ⟨rfl, rfl, rfl, rfl, rfl, le_rfl, fun _ _ _ => rfl, fun _ h => Or.inl h, fun _ h => Or.inr (Or.inl h)⟩

/-- The result, if there is one, satisfies `P`. -/
def Oks {α : Type} (P : α → Prop) (r : Py α) : Prop := ∀ u, r = .ok u → P u

theorem Oks.bind {α β : Type} {P : β → Prop} {x : Py α} {f : α → Py β} (h : ∀ a, x = .ok a → Oks P (f a)) : Oks P (x >>= f) := by
  intro u hu
  obtain ⟨a, ha, hf⟩ := Py.bind_eq_ok.1 hu
  exact h a ha u hf

theorem Oks.error {α : Type} {P : α → Prop} {e : PyErr} : Oks P (.error e : Py α) := fun u h => by cases h
theorem Oks.ok {α : Type} {P : α → Prop} {a : α} (h : P a) : Oks P (.ok a : Py α) := fun u hu => by injection hu with hu; exact hu ▸ h

theorem aside_quiet {w : Prop} {s : Mixed} {r : Py Mixed} (h : Oks (Aside w s) r) : Aside w s (s.quiet r).2 := by
  unfold Mixed.quiet
  cases r with
  | error e => exact Aside.refl s
  | ok u => exact h u rfl

theorem arrayVar_mem {s : Mixed} {k r : Nat} (h : s.arrayVar k = .ok r) : s.held[k]? = some r := by
  unfold Mixed.arrayVar at h
  cases hk : s.held[k]? with
  | none => rw [hk] at h; cases h
  | some q => rw [hk] at h; injection h with h; rw [h]

theorem base_mem {s : Mixed} {j : Nat} {b : Option Nat} (h : s.base j = .ok b) : s.bases[j]? = some b := by
  unfold Mixed.base at h
  cases hk : s.bases[j]? with
  | none => rw [hk] at h; cases h
  | some q => rw [hk] at h; injection h with h; rw [h]

theorem image_mem {s : Mixed} {i a : Nat} (h : s.image i = .ok a) : s.images[i]? = some a := by
  unfold Mixed.image at h
  cases hk : s.images[i]? with
  | none => rw [hk] at h; cases h
  | some q => rw [hk] at h; injection h with h; rw [h]

theorem baseData_mem {s : Mixed} {j r : Nat} (h : s.baseData j = .ok r) : s.bases[j]? = some (some r) := by
  unfold Mixed.baseData at h
  obtain ⟨b, hb, h⟩ := Py.bind_eq_ok.1 h
  cases b with
  | none => cases h
  | some q => injection h with h; rw [base_mem hb, h]

theorem aside_addBase {w : Prop} (s : Mixed) (A : Img ℝ) : Aside w s (s.addBase A) := by
  refine ⟨rfl, rfl, rfl, rfl, rfl, Nat.le_succ _, fun r hr _ => if_neg (Nat.ne_of_lt hr), fun _ h => Or.inl h, fun r h => ?_⟩
  rcases List.mem_append.1 h with h | h
  · exact Or.inr (Or.inl h)
  · have := List.mem_singleton.1 h
    injection this with this
    subst this
    exact Or.inr (Or.inr ⟨le_rfl, Nat.lt_succ_self _⟩)

theorem aside_baseArith {w : Prop} (s : Mixed) (op : Arith) (junk : Nat → Nat → ℝ) (j : Nat) (b : SecondRef) :
    Oks (Aside w s) (s.baseArith op junk j b) := by
  cases b with
  | image b =>
    cases b with
    | base l =>
      exact Oks.bind fun _ _ => Oks.bind fun _ _ => Oks.bind fun _ _ => Oks.bind fun d _ => Oks.ok (aside_addBase s d)
    | micropol i => exact Oks.bind fun _ _ => Oks.bind fun _ _ => Oks.error
  | plain b =>
    cases b with
    | array k => exact Oks.bind fun _ _ => Oks.bind fun _ _ => Oks.bind fun d _ => Oks.ok (aside_addBase s d)
    | number c => exact Oks.bind fun _ _ => Oks.bind fun d _ => Oks.ok (aside_addBase s d)

/-- Constructing from an object without pixels. -/
theorem fromHollow {w : Prop} {s : Mixed} {j : Nat} (hj : s.Hollow j) (dic : Option AngleDic) (dark flat : Option Nat) (junk : Nat → Nat → ℝ) :
    Aside w s (s.fromBase j dic dark flat junk).2 ∧ ∃ e, (s.fromBase j dic dark flat junk).1 = .error e := by
  have hb : s.base j = .ok none := by
    unfold Mixed.base
    rw [show s.bases[j]? = some none from hj]
  have hopt : ∀ (p : Option Nat) (h : Heap), (∃ o, namedOpt s.images p h = (.ok o, h)) ∨ ∃ e, namedOpt s.images p h = (.error e, h) := by
    intro p h
    cases p with
    | none => exact Or.inl ⟨none, rfl⟩
    | some q =>
      show (∃ o, (named s.images q >>= fun i => pure (some i) : M (Option Nat)) h = _) ∨ ∃ e, (named s.images q >>= fun i => pure (some i) : M (Option Nat)) h = _
      unfold named
      cases s.images[q]? with
      | none => exact Or.inr ⟨_, rfl⟩
      | some a => exact Or.inl ⟨_, rfl⟩
  unfold Mixed.fromBase
  rw [hb]
  dsimp only
  unfold Mixed.after
  have key : ∃ e, (namedOpt s.images dark >>= fun _ => namedOpt s.images flat >>= fun _ => resolveDic dic >>= fun _ =>
      (M.lift (.error .attributeError) : M (Option Nat))) s.heap = (.error e, s.heap) ∨
      (namedOpt s.images dark >>= fun _ => namedOpt s.images flat >>= fun _ => resolveDic dic >>= fun _ =>
      (M.lift (.error .attributeError) : M (Option Nat))) s.heap = (.error e, dicHeap dic s.heap) := by
    show ∃ e, M.bind _ _ s.heap = _ ∨ M.bind _ _ s.heap = _
    unfold M.bind
    rcases hopt dark s.heap with ⟨o, h⟩ | ⟨e, h⟩
    · rw [h]
      show ∃ e, M.bind _ _ s.heap = _ ∨ M.bind _ _ s.heap = _
      unfold M.bind
      rcases hopt flat s.heap with ⟨o, h⟩ | ⟨e, h⟩
      · rw [h]
        show ∃ e, M.bind _ _ s.heap = _ ∨ M.bind _ _ s.heap = _
        unfold M.bind
        rw [resolveDic_run]
        exact ⟨_, Or.inr rfl⟩
      · rw [h]; exact ⟨e, Or.inl rfl⟩
    · rw [h]; exact ⟨e, Or.inl rfl⟩
  obtain ⟨e, h | h⟩ := key
  · rw [h]; exact ⟨Aside.refl s, e, rfl⟩
  · rw [h]
    refine ⟨?_, e, rfl⟩
    have hd : dicHeap dic s.heap = { s.heap with defaultDic := (dicHeap dic s.heap).defaultDic } := by
      unfold dicHeap resolveDic
      cases dic with
      | some d => rfl
      | none =>
        dsimp only
        cases hx : s.heap.defaultDic with
        | none => rfl
        | some d => dsimp only
    have hn : (dicHeap dic s.heap).nextDic = s.heap.nextDic := by
      have := pres_out (pres_resolveDic_next s.heap.nextDic dic) (h := s.heap) rfl
      rw [resolveDic_run] at this
      exact this
    dsimp only
    rw [hd] at hn ⊢
    exact ⟨rfl, rfl, rfl, rfl, hn, le_rfl, fun _ _ _ => rfl, fun _ h => Or.inl h, fun _ h => Or.inr (Or.inl h)⟩

theorem value_none_array {s : Mixed} {α : Type} {k : Nat} {f : Img ℝ → α} (h : (s.arrayValue k).map f = none) : ∃ e, s.arrayVar k = .error e := by
  unfold Mixed.arrayVar
  cases hk : s.held[k]? with
  | none => exact ⟨_, rfl⟩
  | some r => unfold Mixed.arrayValue at h; rw [hk] at h; cases h

theorem exec_quiet {s : Mixed} {t : MixStmt} (hc : t.Closed) (h : t.value s = none) : Aside t.Writes s (s.step t) := by
  unfold Mixed.step
  cases t with
  | call o => cases h
  | array A =>
    refine ⟨rfl, rfl, rfl, rfl, rfl, Nat.le_succ _, fun r hr _ => if_neg (Nat.ne_of_lt hr), fun r h => ?_, fun _ h => Or.inr (Or.inl h)⟩
    rcases List.mem_append.1 h with h | h
    · exact Or.inl h
    · have := List.mem_singleton.1 h
      subst this
      exact Or.inr (Or.inr ⟨le_rfl, Nat.lt_succ_self _⟩)
  | write k y x c =>
    refine aside_quiet (Oks.bind fun r hr => ?_)
    have hm := List.mem_of_getElem? (arrayVar_mem hr)
    split
    · refine Oks.ok ⟨rfl, rfl, rfl, rfl, rfl, le_rfl, fun q hq hn => if_neg ?_, fun _ h => Or.inl h, fun _ h => Or.inr (Or.inl h)⟩
      rintro rfl
      exact hn ⟨_, _, _, _, rfl⟩ hm
    · exact Oks.error
  | take i => exact hc.elim
  | assign i k => exact hc.elim
  | takeBase j =>
    refine aside_quiet (Oks.bind fun r hr => Oks.ok ?_)
    refine ⟨rfl, rfl, rfl, rfl, rfl, le_rfl, fun _ _ _ => rfl, fun q h => ?_, fun _ h => Or.inr (Or.inl h)⟩
    rcases List.mem_append.1 h with h | h
    · exact Or.inl h
    · rw [List.mem_singleton.1 h]
      exact Or.inr (Or.inl (List.mem_of_getElem? (baseData_mem hr)))
  | assignBase j k =>
    refine aside_quiet (Oks.bind fun _ _ => Oks.bind fun r hr => Oks.ok ?_)
    refine ⟨rfl, rfl, rfl, rfl, rfl, le_rfl, fun _ _ _ => rfl, fun q h => Or.inl h, fun q h => ?_⟩
    rcases List.mem_or_eq_of_mem_set h with h | h
    · exact Or.inr (Or.inl h)
    · injection h with h
      exact Or.inl (h ▸ List.mem_of_getElem? (arrayVar_mem hr))
  | construct k dic dark flat junk =>
    obtain ⟨e, he⟩ := value_none_array h
    simp only [Mixed.exec, he]
    exact Aside.refl s
  | convert j dic dark flat junk =>
    show Aside _ s (s.fromBase j dic dark flat junk).2
    cases hb : s.bases[j]? with
    | none =>
      have : s.base j = .error .nameError := by unfold Mixed.base; rw [hb]
      unfold Mixed.fromBase
      rw [this]
      exact Aside.refl s
    | some b =>
      cases b with
      | none => exact (fromHollow hb dic dark flat junk).1
      | some r =>
        have : s.basePixels j = some (s.heap.datas.cell r) := by unfold Mixed.basePixels; rw [hb]; rfl
        change (s.basePixels j).map _ = none at h
        rw [this] at h
        cases h
  | newBase k => exact aside_quiet (Oks.bind fun r _ => Oks.ok (aside_addBase s _))
  | copyBase j => exact aside_quiet (Oks.bind fun r _ => Oks.ok (aside_addBase s _))
  | ofMicropol i =>
    refine aside_quiet (Oks.bind fun _ _ => Oks.ok ?_)
    refine ⟨rfl, rfl, rfl, rfl, rfl, le_rfl, fun _ _ _ => rfl, fun q h => Or.inl h, fun q h => ?_⟩
    rcases List.mem_append.1 h with h | h
    · exact Or.inr (Or.inl h)
    · cases List.mem_singleton.1 h
  | shiftBase j y x m => exact aside_quiet (Oks.bind fun r _ => Oks.bind fun d _ => Oks.ok (aside_addBase s _))
  | rebinBase j b =>
    refine aside_quiet (Oks.bind fun r _ => ?_)
    cases r with
    | none => exact Oks.error
    | some r => exact Oks.bind fun d _ => Oks.ok (aside_addBase s _)
  | arith op a b junk =>
    cases a with
    | base j => exact aside_quiet (aside_baseArith s op junk j b)
    | micropol i =>
      cases b with
      | image b =>
        cases b with
        | base j => exact aside_quiet (Oks.bind fun _ _ => Oks.bind fun _ _ => Oks.error)
        | micropol j => cases h
      | plain b =>
        cases b with
        | number c => cases h
        | array k =>
          obtain ⟨e, he⟩ := value_none_array h
          simp only [Mixed.exec, Mixed.micropolArith, he]
          exact Aside.refl s
  | reflected op a b => exact aside_quiet (Oks.bind fun _ _ => Oks.bind fun _ _ => Oks.error)

/-- What the variables refer to exists. -/
structure Good (s : Mixed) : Prop where
  valid : Valid s.state
  held : ∀ r ∈ s.held, r < s.heap.datas.size
  bases : ∀ r, some r ∈ s.bases → r < s.heap.datas.size

/-- The arrays of `MicropolImage`s are their own. -/
structure OwnArrays (s : Mixed) : Prop where
  held : ∀ k ∈ s.images, arr s.state k ∉ s.held
  bases : ∀ k ∈ s.images, some (arr s.state k) ∉ s.bases

theorem good_init : Good mixedInit := ⟨init_valid, fun r h => (by cases h), fun r h => (by cases h)⟩
theorem own_init : OwnArrays mixedInit := ⟨fun r h => (by cases h), fun r h => (by cases h)⟩

theorem good_value {s : Mixed} (hg : Good s) (v : ValueStmt) : Good (s.become (v.run s.state).2) := by
  obtain ⟨h1, -⟩ := run_datas hg.valid v
  exact ⟨run_valid hg.valid v, fun r hr => lt_of_lt_of_le (hg.held r hr) h1, fun r hr => lt_of_lt_of_le (hg.bases r hr) h1⟩

theorem good_aside {w : Prop} {s u : Mixed} (hg : Good s) (h : Aside w s u) : Good u := by
  have wf : WF u.heap := by
    intro k hk
    rw [h.objs] at hk ⊢
    rw [h.stokes, h.headers]
    obtain ⟨h1, h2, h3⟩ := hg.valid.1 k hk
    exact ⟨lt_of_lt_of_le h1 h.size, h2, h3⟩
  refine ⟨⟨wf, ?_⟩, fun r hr => ?_, fun r hr => ?_⟩
  · show ∀ k ∈ u.images, k < u.heap.objs.size
    rw [h.images, h.objs]
    exact hg.valid.2
  · rcases h.held r hr with h' | h' | ⟨-, h'⟩
    · exact lt_of_lt_of_le (hg.held r h') h.size
    · exact lt_of_lt_of_le (hg.bases r h') h.size
    · exact h'
  · rcases h.bases r hr with h' | h' | ⟨-, h'⟩
    · exact lt_of_lt_of_le (hg.held r h') h.size
    · exact lt_of_lt_of_le (hg.bases r h') h.size
    · exact h'

theorem take_eq {s : Mixed} {i a : Nat} (hi : s.images[i]? = some a) :
    s.exec (.take i) = (.ok (), { s with held := s.held ++ [(s.heap.objs.cell a).data] }) := by
  have : s.image i = .ok a := by unfold Mixed.image; rw [hi]
  simp only [Mixed.exec, this]
  rfl

theorem assign_eq {s : Mixed} {i k a r : Nat} (hi : s.images[i]? = some a) (hk : s.held[k]? = some r) :
    s.exec (.assign i k) = (.ok (), { s with heap := s.heap.holdData a r }) := by
  have h1 : s.image i = .ok a := by unfold Mixed.image; rw [hi]
  have h2 : s.arrayVar k = .ok r := by unfold Mixed.arrayVar; rw [hk]
  simp only [Mixed.exec, h1, h2]
  rfl

theorem take_missing {s : Mixed} {i : Nat} (hi : s.images[i]? = none) : s.exec (.take i) = (.error .nameError, s) := by
  have : s.image i = .error .nameError := by unfold Mixed.image; rw [hi]
  simp only [Mixed.exec, this]
  rfl

theorem assign_missing {s : Mixed} {i k : Nat} (h : s.images[i]? = none ∨ s.held[k]? = none) :
    s.exec (.assign i k) = (.error .nameError, s) := by
  cases hi : s.images[i]? with
  | none =>
    have h1 : s.image i = .error .nameError := by unfold Mixed.image; rw [hi]
    simp only [Mixed.exec, h1]
    rfl
  | some a =>
    have h1 : s.image i = .ok a := by unfold Mixed.image; rw [hi]
    have h2 : s.arrayVar k = .error .nameError := by
      unfold Mixed.arrayVar
      rw [h.resolve_left (by rw [hi]; exact fun h => by cases h)]
    simp only [Mixed.exec, h1, h2]
    rfl

theorem hold_obj (h : Heap) (i r a : Nat) : (h.holdData i r).objs.cell a =
    if a = i then { h.objs.cell i with data := r } else h.objs.cell a := rfl

theorem hold_header (h : Heap) (i r a : Nat) : ((h.holdData i r).objs.cell a).header = (h.objs.cell a).header := by
  rw [hold_obj]
  split
  · rename_i e; rw [e]
  · rfl

theorem hold_stokes (h : Heap) (i r a : Nat) : ((h.holdData i r).objs.cell a).stokes = (h.objs.cell a).stokes := by
  rw [hold_obj]
  split
  · rename_i e; rw [e]
  · rfl

theorem value_open {s : Mixed} {t : MixStmt} (h : ¬ t.Closed) : t.value s = none := by
  cases t with
  | take i => rfl
  | assign i k => rfl
  | _ => exact absurd trivial h

theorem good_step {s : Mixed} (hg : Good s) (t : MixStmt) : Good (s.step t) := by
  cases hv : t.value s with
  | some v =>
    unfold Mixed.step
    rw [exec_value hv]
    exact good_value hg v
  | none =>
    by_cases hc : t.Closed
    · exact good_aside hg (exec_quiet hc hv)
    · cases t with
      | take i =>
        unfold Mixed.step
        cases hi : s.images[i]? with
        | none => rw [take_missing hi]; exact hg
        | some a =>
          rw [take_eq hi]
          refine ⟨hg.valid, fun r hr => ?_, hg.bases⟩
          rcases List.mem_append.1 hr with hr | hr
          · exact hg.held r hr
          · rw [List.mem_singleton.1 hr]
            exact (hg.valid.1 a (hg.valid.2 a (List.mem_of_getElem? hi))).1
      | assign i k =>
        unfold Mixed.step
        by_cases hm : s.images[i]? = none ∨ s.held[k]? = none
        · rw [assign_missing hm]; exact hg
        · obtain ⟨a, ha⟩ := Option.ne_none_iff_exists'.1 fun h => hm (Or.inl h)
          obtain ⟨r, hr⟩ := Option.ne_none_iff_exists'.1 fun h => hm (Or.inr h)
          rw [assign_eq ha hr]
          refine ⟨⟨fun k hk => ?_, hg.valid.2⟩, hg.held, hg.bases⟩
          obtain ⟨h1, h2, h3⟩ := hg.valid.1 k hk
          refine ⟨?_, ?_, ?_⟩
          · show ((s.heap.holdData a r).objs.cell k).data < _
            rw [hold_obj]
            split
            · exact hg.held r (List.mem_of_getElem? hr)
            · exact h1
          · show ((s.heap.holdData a r).objs.cell k).stokes < _
            rw [hold_stokes]; exact h2
          · show ((s.heap.holdData a r).objs.cell k).header < _
            rw [hold_header]; exact h3
      | _ => exact absurd trivial hc

theorem good_foldl (ts : List MixStmt) : ∀ {s : Mixed}, Good s → Good (ts.foldl Mixed.step s) := by
  induction ts with
  | nil => exact fun h => h
  | cons t ts ih => exact fun h => ih (good_step h t)

theorem good_run (ts : List MixStmt) : Good (runMixed ts) := good_foldl ts good_init

theorem runMixed_snoc (ts : List MixStmt) (t : MixStmt) : runMixed (ts ++ [t]) = (runMixed ts).step t := by
  unfold runMixed
  rw [List.foldl_append]
  rfl

theorem own_step {s : Mixed} (hg : Good s) (ho : OwnArrays s) {t : MixStmt} (hc : t.Closed) : OwnArrays (s.step t) := by
  cases hv : t.value s with
  | some v =>
    unfold Mixed.step
    rw [exec_value hv]
    have key := run_arr hg.valid v
    refine ⟨fun k hk hm => ?_, fun k hk hm => ?_⟩
    · rcases key k hk with h | ⟨k', hk', h⟩
      · exact absurd (hg.held _ hm) (not_lt.2 h)
      · exact ho.held k' hk' (h ▸ hm)
    · rcases key k hk with h | ⟨k', hk', h⟩
      · exact absurd (hg.bases _ hm) (not_lt.2 h)
      · exact ho.bases k' hk' (h ▸ hm)
  | none =>
    have q := exec_quiet hc hv
    have e : ∀ k, arr (s.step t).state k = arr s.state k := fun k => by
      show ((s.step t).heap.objs.cell k).data = _
      rw [q.objs]
      rfl
    have lt : ∀ k ∈ s.images, arr s.state k < s.heap.datas.size := fun k hk => (hg.valid.1 k (hg.valid.2 k hk)).1
    refine ⟨fun k hk hm => ?_, fun k hk hm => ?_⟩
    · rw [q.images] at hk
      rw [e] at hm
      rcases q.held _ hm with h | h | ⟨h, -⟩
      · exact ho.held k hk h
      · exact ho.bases k hk h
      · exact absurd (lt k hk) (not_lt.2 h)
    · rw [q.images] at hk
      rw [e] at hm
      rcases q.bases _ hm with h | h | ⟨h, -⟩
      · exact ho.held k hk h
      · exact ho.bases k hk h
      · exact absurd (lt k hk) (not_lt.2 h)

theorem alike_aside {w : Prop} {s u : Mixed} (hg : Good s) (ho : OwnArrays s) (h : Aside w s u) : Alike s.state u.state := by
  have hu := good_aside hg h
  have hlt : ∀ k ∈ s.images, k < s.heap.objs.size := hg.valid.2
  refine ⟨fun a b => a = b ∧ a ∈ s.images, ⟨h.next, ?_, ?_, ?_, ?_, ?_, ?_⟩, ?_⟩
  · rintro a a' ⟨rfl, ha⟩
    have hl := hlt a ha
    have hl' : a < u.heap.objs.size := by rw [h.objs]; exact hl
    exact ⟨⟨hl, hg.valid.1 a hl⟩, hl', hu.valid.1 a hl'⟩
  · rintro a a' b b' ⟨rfl, -⟩ ⟨rfl, -⟩; exact Iff.rfl
  · rintro a a' ⟨rfl, ha⟩
    show u.heap.view a = s.heap.view a
    refine view_congr (by rw [h.objs]) ?_ (by rw [h.stokes])
    exact h.cells _ (hg.valid.1 a (hlt a ha)).1 fun _ => ho.held a ha
  · rintro a a' ⟨rfl, ha⟩
    show u.heap.headerOf a = s.heap.headerOf a
    unfold Heap.headerOf
    rw [h.objs, h.headers]
  · rintro a a' b b' ⟨rfl, ha⟩ ⟨rfl, hb⟩
    show _ ↔ (u.heap.objs.cell _).stokes = (u.heap.objs.cell _).stokes
    rw [h.objs]
    exact Iff.rfl
  · rintro a a' b b' ⟨rfl, ha⟩ ⟨rfl, hb⟩
    show _ ↔ (u.heap.objs.cell _).header = (u.heap.objs.cell _).header
    rw [h.objs]
    exact Iff.rfl
  · show List.Forall₂ _ s.images u.images
    rw [h.images]
    exact List.forall₂_same.2 fun a ha => ⟨rfl, ha⟩

theorem Alike.symm {s t : State} (h : Alike s t) : Alike t s := by
  obtain ⟨ρ, hs, him⟩ := h
  refine ⟨fun a b => ρ b a, ⟨hs.next.symm, fun p => (hs.refs p).symm, fun p q => (hs.one p q).symm, fun p => (hs.view p).symm,
    fun p => (hs.header p).symm, fun p q => (hs.shareS p q).symm, fun p q => (hs.shareH p q).symm⟩, him.flip⟩

theorem alike_session (ts : List MixStmt) : ∀ {s : Mixed} {u : State}, Good s → OwnArrays s → Alike s.state u → (∀ t ∈ ts, t.Closed) →
    Alike (ts.foldl Mixed.step s).state ((valuesFrom s ts).foldl (fun u v => (ValueStmt.run u v).2) u) ∧
      OwnArrays (ts.foldl Mixed.step s) := by
  induction ts with
  | nil => exact fun _ ho h _ => ⟨h, ho⟩
  | cons t ts ih =>
    intro s u hg ho h hc
    have hct := hc t List.mem_cons_self
    have hg' := good_step hg t
    have ho' := own_step hg ho hct
    rw [List.foldl_cons]
    unfold valuesFrom
    rw [List.foldl_append]
    refine ih hg' ho' ?_ fun t' h' => hc t' (List.mem_cons_of_mem _ h')
    cases hv : t.value s with
    | none => exact (alike_aside hg ho (exec_quiet hct hv)).symm.trans h
    | some v =>
      have e : (s.step t).state = (v.run s.state).2 := by unfold Mixed.step; rw [exec_value hv]; rfl
      rw [e]
      exact (alike_run h v).2

/-! ## Variables keep what they hold -/

/-- After the statement `t`: variables with arrays are what they were, variables with `Image`s hold the same array unless it is assigned,
and there is at most one `Image` more, which has no pixels or a new array. -/
structure KeptVars (t : MixStmt) (s u : Mixed) : Prop where
  bases : ∀ (j : Nat) (b : Option Nat), s.bases[j]? = some b → (∀ k, t ≠ .assignBase j k) → u.bases[j]? = some b
  held : ∀ (k r : Nat), s.held[k]? = some r → u.held[k]? = some r
  grow : u.bases.length = s.bases.length ∨ u.bases = s.bases ++ [none] ∨ ∃ A, u = s.addBase A

theorem getElem?_append_some {α : Type} {l m : List α} {j : Nat} {b : α} (h : l[j]? = some b) : (l ++ m)[j]? = some b := by
  rw [List.getElem?_append_left (List.getElem?_eq_some_iff.1 h).1]
  exact h

theorem kept_same {t : MixStmt} {s u : Mixed} (h1 : u.bases = s.bases) (h2 : u.held = s.held) : KeptVars t s u :=
  ⟨fun j b h _ => h1 ▸ h, fun k r h => h2 ▸ h, Or.inl (by rw [h1])⟩

theorem kept_held {t : MixStmt} {s u : Mixed} {l : List Nat} (h1 : u.bases = s.bases) (h2 : u.held = s.held ++ l) : KeptVars t s u :=
  ⟨fun j b h _ => h1 ▸ h, fun k r h => h2 ▸ getElem?_append_some h, Or.inl (by rw [h1])⟩

theorem kept_add (t : MixStmt) (s : Mixed) (A : Img ℝ) : KeptVars t s (s.addBase A) :=
  ⟨fun _ _ h _ => getElem?_append_some h, fun _ _ h => h, Or.inr (Or.inr ⟨A, rfl⟩)⟩

theorem kept_quiet {t : MixStmt} {s : Mixed} {r : Py Mixed} (h : Oks (KeptVars t s) r) : KeptVars t s (s.quiet r).2 := by
  unfold Mixed.quiet
  cases r with
  | error e => exact kept_same rfl rfl
  | ok u => exact h u rfl

theorem kept_baseArith (t : MixStmt) (s : Mixed) (op : Arith) (junk : Nat → Nat → ℝ) (j : Nat) (b : SecondRef) :
    Oks (KeptVars t s) (s.baseArith op junk j b) := by
  cases b with
  | image b =>
    cases b with
    | base l =>
      exact Oks.bind fun _ _ => Oks.bind fun _ _ => Oks.bind fun _ _ => Oks.bind fun d _ => Oks.ok (kept_add t s d)
    | micropol i => exact Oks.bind fun _ _ => Oks.bind fun _ _ => Oks.error
  | plain b =>
    cases b with
    | array k => exact Oks.bind fun _ _ => Oks.bind fun _ _ => Oks.bind fun d _ => Oks.ok (kept_add t s d)
    | number c => exact Oks.bind fun _ _ => Oks.bind fun d _ => Oks.ok (kept_add t s d)

theorem kept_after (t : MixStmt) (s : Mixed) (m : M (Option Nat)) : KeptVars t s (s.after m).2 := by
  unfold Mixed.after
  cases m s.heap with
  | mk x h =>
    cases x with
    | error e => exact kept_same rfl rfl
    | ok r => cases r <;> exact kept_same rfl rfl

theorem kept_step (s : Mixed) (t : MixStmt) : KeptVars t s (s.step t) := by
  unfold Mixed.step
  cases t with
  | call o => exact kept_after _ s _
  | array A => exact kept_held rfl rfl
  | write k y x c =>
    refine kept_quiet (Oks.bind fun r hr => ?_)
    split
    · exact Oks.ok (kept_same rfl rfl)
    · exact Oks.error
  | take i => exact kept_quiet (Oks.bind fun _ _ => Oks.ok (kept_held rfl rfl))
  | assign i k => exact kept_quiet (Oks.bind fun _ _ => Oks.bind fun _ _ => Oks.ok (kept_same rfl rfl))
  | takeBase j => exact kept_quiet (Oks.bind fun _ _ => Oks.ok (kept_held rfl rfl))
  | assignBase j k =>
    refine kept_quiet (Oks.bind fun _ _ => Oks.bind fun r hr => Oks.ok ⟨fun l b h hn => ?_, fun _ _ h => h, Or.inl List.length_set⟩)
    show (s.bases.set j (some r))[l]? = some b
    rw [List.getElem?_set_ne (fun e => hn k (by rw [e]))]
    exact h
  | construct k dic dark flat junk =>
    simp only [Mixed.exec]
    split
    · exact kept_same rfl rfl
    · exact kept_after _ s _
  | convert j dic dark flat junk =>
    show KeptVars _ s (s.fromBase j dic dark flat junk).2
    unfold Mixed.fromBase
    split
    · exact kept_same rfl rfl
    · exact kept_after _ s _
    · exact kept_after _ s _
  | newBase k => exact kept_quiet (Oks.bind fun r _ => Oks.ok (kept_add _ s _))
  | copyBase j => exact kept_quiet (Oks.bind fun r _ => Oks.ok (kept_add _ s _))
  | ofMicropol i =>
    exact kept_quiet (Oks.bind fun _ _ => Oks.ok ⟨fun _ _ h _ => getElem?_append_some h, fun _ _ h => h, Or.inr (Or.inl rfl)⟩)
  | shiftBase j y x m => exact kept_quiet (Oks.bind fun r _ => Oks.bind fun d _ => Oks.ok (kept_add _ s _))
  | rebinBase j b =>
    refine kept_quiet (Oks.bind fun r _ => ?_)
    cases r with
    | none => exact Oks.error
    | some r => exact Oks.bind fun d _ => Oks.ok (kept_add _ s _)
  | arith op a b junk =>
    cases a with
    | base j => exact kept_quiet (kept_baseArith _ s op junk j b)
    | micropol i =>
      cases b with
      | image b =>
        cases b with
        | base j => exact kept_quiet (Oks.bind fun _ _ => Oks.bind fun _ _ => Oks.error)
        | micropol j => exact kept_after _ s _
      | plain b =>
        cases b with
        | number c => exact kept_after _ s _
        | array k =>
          simp only [Mixed.exec, Mixed.micropolArith]
          split
          · exact kept_same rfl rfl
          · exact kept_after _ s _
  | reflected op a b => exact kept_quiet (Oks.bind fun _ _ => Oks.bind fun _ _ => Oks.error)

/-- Only a write changes the values of an array. -/
theorem step_cells {s : Mixed} (hg : Good s) {t : MixStmt} (ht : ¬ t.Writes) {r : Nat} (hr : r < s.heap.datas.size) :
    (s.step t).heap.datas.cell r = s.heap.datas.cell r := by
  cases hv : t.value s with
  | some v =>
    unfold Mixed.step
    rw [exec_value hv]
    exact (run_datas hg.valid v).2 r hr
  | none =>
    by_cases hc : t.Closed
    · exact (exec_quiet hc hv).cells r hr fun h => absurd h ht
    · cases t with
      | take i =>
        unfold Mixed.step
        cases hi : s.images[i]? with
        | none => rw [take_missing hi]
        | some a => rw [take_eq hi]
      | assign i k =>
        unfold Mixed.step
        by_cases hm : s.images[i]? = none ∨ s.held[k]? = none
        · rw [assign_missing hm]
        · obtain ⟨a, ha⟩ := Option.ne_none_iff_exists'.1 fun h => hm (Or.inl h)
          obtain ⟨q, hq⟩ := Option.ne_none_iff_exists'.1 fun h => hm (Or.inr h)
          rw [assign_eq ha hq]
          rfl
      | _ => exact absurd trivial hc

/-- `array[y, x] = c`. -/
theorem write_eq {s : Mixed} {k r a b : Nat} {y x : Int} {c : ℝ} (hk : s.held[k]? = some r) (ha : Img.resolve (s.heap.datas.cell r).h y = some a)
    (hb : Img.resolve (s.heap.datas.cell r).w x = some b) : s.exec (.write k y x c) =
      (.ok (), { s with heap := { s.heap with datas := s.heap.datas.set r ((s.heap.datas.cell r).setPx a b c) } }) := by
  have h1 : s.arrayVar k = .ok r := by unfold Mixed.arrayVar; rw [hk]
  have h2 : Img.resolve (s.values r).h y = some a := ha
  have h3 : Img.resolve (s.values r).w x = some b := hb
  simp only [Mixed.exec, h1]
  show (s.quiet (match Img.resolve (s.values r).h y, Img.resolve (s.values r).w x with
    | some a, some b => pure { s with heap := { s.heap with datas := s.heap.datas.set r ((s.values r).setPx a b c) } }
    | _, _ => .error .indexError)) = _
  rw [h2, h3]
  rfl

theorem write_works {s : Mixed} {k r : Nat} {y x : Int} {c : ℝ} (hk : s.held[k]? = some r) (hw : s.Works (.write k y x c)) :
    ∃ a b, Img.resolve (s.heap.datas.cell r).h y = some a ∧ Img.resolve (s.heap.datas.cell r).w x = some b := by
  have h1 : s.arrayVar k = .ok r := by unfold Mixed.arrayVar; rw [hk]
  unfold Mixed.Works at hw
  simp only [Mixed.exec, h1] at hw
  change (s.quiet (match Img.resolve (s.values r).h y, Img.resolve (s.values r).w x with
    | some a, some b => pure { s with heap := { s.heap with datas := s.heap.datas.set r ((s.values r).setPx a b c) } }
    | _, _ => .error .indexError)).1 = _ at hw
  cases ha : Img.resolve (s.values r).h y with
  | none => rw [ha] at hw; cases hw
  | some a =>
    cases hb : Img.resolve (s.values r).w x with
    | none => rw [ha, hb] at hw; cases hw
    | some b => exact ⟨a, b, ha, hb⟩

theorem construct_eq {s : Mixed} {k r : Nat} (hk : s.held[k]? = some r) {dic : AngleDic} {S : Fin 3 → Img ℝ}
    (hS : dataStokes (s.heap.datas.cell r) dic = .ok S) (junk : Nat → Nat → ℝ) :
    s.exec (.construct k (some dic) none none junk) =
      (.ok (), { s with heap := freshHeap (s.heap.datas.cell r) S dic s.heap, images := s.images ++ [s.heap.objs.size] }) := by
  have h1 : s.arrayVar k = .ok r := by unfold Mixed.arrayVar; rw [hk]
  simp only [Mixed.exec, h1]
  have e : exec s.images (.fromArray (s.values r) (some dic) none none junk) s.heap =
      (.ok (some s.heap.objs.size), freshHeap (s.heap.datas.cell r) S dic s.heap) := by
    show M.bind (newFromArray (s.values r) (some dic)) _ s.heap = _
    unfold M.bind
    rw [new_some]
    change dataStokes (s.values r) dic = .ok S at hS
    rw [hS]
    rfl
  unfold Mixed.after
  rw [e]

/-! ## Where references come from -/

/-- Where the arrays that the variables hold after the statement `t` come from. -/
structure Sources (t : MixStmt) (s u : Mixed) : Prop where
  held : ∀ r ∈ u.held, r ∈ s.held ∨ (∃ j, t = .takeBase j ∧ s.bases[j]? = some (some r)) ∨
    (∃ a ∈ s.images, r = arr s.state a) ∨ s.heap.datas.size ≤ r
  bases : ∀ (j r : Nat), u.bases[j]? = some (some r) → s.bases[j]? = some (some r) ∨ r ∈ s.held ∨ s.heap.datas.size ≤ r
  images : ∀ a ∈ u.images, (∃ b ∈ s.images, arr u.state a = arr s.state b) ∨ arr u.state a ∈ s.held ∨ s.heap.datas.size ≤ arr u.state a

theorem sources_refl (t : MixStmt) (s : Mixed) : Sources t s s :=
  ⟨fun _ h => Or.inl h, fun _ _ h => Or.inl h, fun a h => Or.inl ⟨a, h, rfl⟩⟩

theorem sources_quiet {t : MixStmt} {s : Mixed} {r : Py Mixed} (h : Oks (Sources t s) r) : Sources t s (s.quiet r).2 := by
  unfold Mixed.quiet
  cases r with
  | error e => exact sources_refl t s
  | ok u => exact h u rfl

theorem sources_add (t : MixStmt) (s : Mixed) (A : Img ℝ) : Sources t s (s.addBase A) := by
  refine ⟨fun _ h => Or.inl h, fun j r h => ?_, fun a h => Or.inl ⟨a, h, rfl⟩⟩
  change (s.bases ++ [some s.heap.datas.size])[j]? = some (some r) at h
  rcases List.mem_append.1 (List.mem_of_getElem? h) with hm | hm
  · by_cases hj : j < s.bases.length
    · rw [List.getElem?_append_left hj] at h; exact Or.inl h
    · rw [List.getElem?_append_right (not_lt.1 hj), List.getElem?_singleton] at h
      split at h
      · injection h with h; injection h with h; exact Or.inr (Or.inr h.le)
      · cases h
  · by_cases hj : j < s.bases.length
    · rw [List.getElem?_append_left hj] at h; exact Or.inl h
    · rw [List.getElem?_append_right (not_lt.1 hj), List.getElem?_singleton] at h
      split at h
      · injection h with h; injection h with h; exact Or.inr (Or.inr h.le)
      · cases h

theorem sources_baseArith (t : MixStmt) (s : Mixed) (op : Arith) (junk : Nat → Nat → ℝ) (j : Nat) (b : SecondRef) :
    Oks (Sources t s) (s.baseArith op junk j b) := by
  cases b with
  | image b =>
    cases b with
    | base l =>
      exact Oks.bind fun _ _ => Oks.bind fun _ _ => Oks.bind fun _ _ => Oks.bind fun d _ => Oks.ok (sources_add t s d)
    | micropol i => exact Oks.bind fun _ _ => Oks.bind fun _ _ => Oks.error
  | plain b =>
    cases b with
    | array k => exact Oks.bind fun _ _ => Oks.bind fun _ _ => Oks.bind fun d _ => Oks.ok (sources_add t s d)
    | number c => exact Oks.bind fun _ _ => Oks.bind fun d _ => Oks.ok (sources_add t s d)

/-- Statements that no variable is added or changed by. -/
theorem sources_aside {w : Prop} {t : MixStmt} {s u : Mixed} (h : Aside w s u) (h1 : u.bases = s.bases) (h2 : u.held = s.held) :
    Sources t s u := by
  refine ⟨fun r hr => Or.inl (h2 ▸ hr), fun j r hr => Or.inl (h1 ▸ hr), fun a ha => Or.inl ⟨a, h.images ▸ ha, ?_⟩⟩
  show (u.heap.objs.cell a).data = _
  rw [h.objs]
  rfl

theorem sources_step {s : Mixed} (hg : Good s) (t : MixStmt) : Sources t s (s.step t) := by
  cases hv : t.value s with
  | some v =>
    unfold Mixed.step
    rw [exec_value hv]
    refine ⟨fun _ h => Or.inl h, fun _ _ h => Or.inl h, fun a ha => ?_⟩
    rcases run_arr hg.valid v a ha with h | h
    · exact Or.inr (Or.inr h)
    · exact Or.inl h
  | none =>
    have K := kept_step s t
    unfold Mixed.step
    cases t with
    | call o => cases hv
    | array A =>
      refine ⟨fun r hr => ?_, fun _ _ h => Or.inl h, fun a h => Or.inl ⟨a, h, rfl⟩⟩
      rcases List.mem_append.1 hr with h | h
      · exact Or.inl h
      · exact Or.inr (Or.inr (Or.inr (List.mem_singleton.1 h).ge))
    | write k y x c =>
      refine sources_quiet (Oks.bind fun r hr => ?_)
      split
      · exact Oks.ok ⟨fun _ h => Or.inl h, fun _ _ h => Or.inl h, fun a h => Or.inl ⟨a, h, rfl⟩⟩
      · exact Oks.error
    | take i =>
      refine sources_quiet (Oks.bind fun a ha => Oks.ok ⟨fun r hr => ?_, fun _ _ h => Or.inl h, fun a h => Or.inl ⟨a, h, rfl⟩⟩)
      rcases List.mem_append.1 hr with h | h
      · exact Or.inl h
      · exact Or.inr (Or.inr (Or.inl ⟨a, List.mem_of_getElem? (image_mem ha), List.mem_singleton.1 h⟩))
    | assign i k =>
      refine sources_quiet (Oks.bind fun a ha => Oks.bind fun r hr => Oks.ok ⟨fun _ h => Or.inl h, fun _ _ h => Or.inl h, fun b hb => ?_⟩)
      by_cases e : b = a
      · refine Or.inr (Or.inl ?_)
        show ((s.heap.holdData a r).objs.cell b).data ∈ s.held
        rw [hold_obj, if_pos e]
        exact List.mem_of_getElem? (arrayVar_mem hr)
      · refine Or.inl ⟨b, hb, ?_⟩
        show ((s.heap.holdData a r).objs.cell b).data = _
        rw [hold_obj, if_neg e]
        rfl
    | takeBase j =>
      refine sources_quiet (Oks.bind fun q hq => Oks.ok ⟨fun r hr => ?_, fun _ _ h => Or.inl h, fun a h => Or.inl ⟨a, h, rfl⟩⟩)
      rcases List.mem_append.1 hr with h | h
      · exact Or.inl h
      · exact Or.inr (Or.inl ⟨j, rfl, by rw [List.mem_singleton.1 h]; exact baseData_mem hq⟩)
    | assignBase j k =>
      refine sources_quiet (Oks.bind fun _ _ => Oks.bind fun q hq => Oks.ok ⟨fun _ h => Or.inl h, fun l r h => ?_, fun a h => Or.inl ⟨a, h, rfl⟩⟩)
      change (s.bases.set j (some q))[l]? = some (some r) at h
      by_cases e : j = l
      · rw [← e, List.getElem?_set_self'] at h
        cases hb : s.bases[j]? with
        | none => rw [hb] at h; cases h
        | some b =>
          rw [hb] at h
          injection h with h; injection h with h
          exact Or.inr (Or.inl (h ▸ List.mem_of_getElem? (arrayVar_mem hq)))
      · rw [List.getElem?_set_ne e] at h
        exact Or.inl h
    | construct k dic dark flat junk =>
      obtain ⟨e, he⟩ := value_none_array hv
      simp only [Mixed.exec, he]
      exact sources_refl _ s
    | convert j dic dark flat junk =>
      have q := exec_quiet (t := .convert j dic dark flat junk) trivial hv
      refine sources_aside q ?_ ?_ <;>
      · simp only [Mixed.exec]
        unfold Mixed.fromBase Mixed.after
        split
        · rfl
        · split <;> rfl
        · split <;> rfl
    | newBase k => exact sources_quiet (Oks.bind fun r _ => Oks.ok (sources_add _ s _))
    | copyBase j => exact sources_quiet (Oks.bind fun r _ => Oks.ok (sources_add _ s _))
    | ofMicropol i =>
      refine sources_quiet (Oks.bind fun _ _ => Oks.ok ⟨fun _ h => Or.inl h, fun j r h => ?_, fun a h => Or.inl ⟨a, h, rfl⟩⟩)
      change (s.bases ++ [none])[j]? = some (some r) at h
      by_cases hj : j < s.bases.length
      · rw [List.getElem?_append_left hj] at h; exact Or.inl h
      · rw [List.getElem?_append_right (not_lt.1 hj), List.getElem?_singleton] at h
        split at h
        · injection h with h; cases h
        · cases h
    | shiftBase j y x m => exact sources_quiet (Oks.bind fun r _ => Oks.bind fun d _ => Oks.ok (sources_add _ s _))
    | rebinBase j b =>
      refine sources_quiet (Oks.bind fun r _ => ?_)
      cases r with
      | none => exact Oks.error
      | some r => exact Oks.bind fun d _ => Oks.ok (sources_add _ s _)
    | arith op a b junk =>
      cases a with
      | base j => exact sources_quiet (sources_baseArith _ s op junk j b)
      | micropol i =>
        cases b with
        | image b =>
          cases b with
          | base j => exact sources_quiet (Oks.bind fun _ _ => Oks.bind fun _ _ => Oks.error)
          | micropol j => cases hv
        | plain b =>
          cases b with
          | number c => cases hv
          | array k =>
            obtain ⟨e, he⟩ := value_none_array hv
            simp only [Mixed.exec, Mixed.micropolArith, he]
            exact sources_refl _ s
    | reflected op a b => exact sources_quiet (Oks.bind fun _ _ => Oks.bind fun _ _ => Oks.error)

/-- Only the `Image` in variable `l` holds the array `r`. -/
structure OwnBase (l r : Nat) (s : Mixed) : Prop where
  here : s.bases[l]? = some (some r)
  held : r ∉ s.held
  bases : ∀ j, j ≠ l → s.bases[j]? ≠ some (some r)
  images : ∀ a ∈ s.images, arr s.state a ≠ r

theorem ownBase_step {l r : Nat} {s : Mixed} (hg : Good s) (h : OwnBase l r s) {t : MixStmt} (h1 : t ≠ .takeBase l) (h2 : ∀ k, t ≠ .assignBase l k) :
    OwnBase l r (s.step t) := by
  have S := sources_step hg t
  have hr : r < s.heap.datas.size := hg.bases r (List.mem_of_getElem? h.here)
  refine ⟨(kept_step s t).bases l _ h.here h2, fun hm => ?_, fun j hj hb => ?_, fun a ha e => ?_⟩
  · rcases S.held r hm with q | ⟨j, rfl, q⟩ | ⟨a, ha, q⟩ | q
    · exact h.held q
    · exact h.bases j (fun e => h1 (by rw [e])) q
    · exact h.images a ha q.symm
    · omega
  · rcases S.bases j r hb with q | q | q
    · exact h.bases j hj q
    · exact h.held q
    · omega
  · rcases S.images a ha with ⟨b, hb, q⟩ | q | q
    · exact h.images b hb (q ▸ e)
    · exact h.held (e ▸ q)
    · omega

theorem ownBase_cell {l r : Nat} {s : Mixed} (hg : Good s) (h : OwnBase l r s) (t : MixStmt) :
    (s.step t).heap.datas.cell r = s.heap.datas.cell r := by
  have hr : r < s.heap.datas.size := hg.bases r (List.mem_of_getElem? h.here)
  by_cases ht : t.Writes
  · obtain ⟨k, y, x, c, rfl⟩ := ht
    exact (exec_quiet (t := .write k y x c) trivial rfl).cells r hr fun _ => h.held
  · exact step_cells hg ht hr

theorem ownBase_foldl {l r : Nat} (ts : List MixStmt) : ∀ {s : Mixed}, Good s → OwnBase l r s →
    (∀ t ∈ ts, t ≠ .takeBase l ∧ ∀ k, t ≠ .assignBase l k) →
    OwnBase l r (ts.foldl Mixed.step s) ∧ (ts.foldl Mixed.step s).heap.datas.cell r = s.heap.datas.cell r := by
  induction ts with
  | nil => exact fun _ h _ => ⟨h, rfl⟩
  | cons t ts ih =>
    intro s hg h ht
    have h0 := ht t List.mem_cons_self
    obtain ⟨h1, h2⟩ := ih (good_step hg t) (ownBase_step hg h h0.1 h0.2) fun t' h' => ht t' (List.mem_cons_of_mem _ h')
    exact ⟨h1, h2.trans (ownBase_cell hg h t)⟩

theorem ownBase_new {s : Mixed} (hg : Good s) (A : Img ℝ) : OwnBase s.bases.length s.heap.datas.size (s.addBase A) := by
  refine ⟨?_, fun h => (hg.held _ h).false, fun j hj h => ?_, fun a ha => ?_⟩
  · show (s.bases ++ [some s.heap.datas.size])[s.bases.length]? = _
    rw [List.getElem?_append_right le_rfl, Nat.sub_self]
    rfl
  · change (s.bases ++ [some s.heap.datas.size])[j]? = _ at h
    by_cases hl : j < s.bases.length
    · rw [List.getElem?_append_left hl] at h
      exact (hg.bases _ (List.mem_of_getElem? h)).false
    · rw [List.getElem?_append_right (not_lt.1 hl), List.getElem?_singleton] at h
      split at h
      · omega
      · cases h
  · exact Nat.ne_of_lt (hg.valid.1 a (hg.valid.2 a ha)).1

theorem arith_images_ok (op : Arith) (junk : Nat → Nat → ℝ) {A B : Img ℝ} (hs : A.SameShape B) :
    ∃ d, arithData op junk A (.image B) = .ok d ∧ d.SameShape A ∧
      ∀ y x, y < A.h → x < A.w → op.Defined (B.px y x) → d.px y x = op.apply (A.px y x) (B.px y x) := by
  obtain ⟨q, h4, s4, hq⟩ : ∃ q, divData junk A (.image B) = .ok q ∧ q.SameShape A ∧ ∀ y x, y < A.h → x < A.w → B.px y x ≠ 0 →
      q.px y x = A.px y x / B.px y x := by
    unfold divData npDivideNoOut
    simp only [npBinAt_ok hs.1 hs.2]
    exact ⟨_, rfl, ⟨rfl, rfl⟩, fun y x hy hx h => by rw [Img.ofFn_px hy hx]; simp [h]⟩
  unfold arithData
  cases op
  · unfold addData; simp only [npBin_ok hs.1 hs.2]; exact ⟨_, rfl, ⟨rfl, rfl⟩, fun y x hy hx _ => Img.ofFn_px hy hx⟩
  · unfold subData; simp only [npBin_ok hs.1 hs.2]; exact ⟨_, rfl, ⟨rfl, rfl⟩, fun y x hy hx _ => Img.ofFn_px hy hx⟩
  · unfold mulData; simp only [npBin_ok hs.1 hs.2]; exact ⟨_, rfl, ⟨rfl, rfl⟩, fun y x hy hx _ => Img.ofFn_px hy hx⟩
  · exact ⟨q, h4, s4, fun y x hy hx hne => hq y x hy hx hne⟩

theorem arith_number_ok (op : Arith) (junk : Nat → Nat → ℝ) (A : Img ℝ) (c : ℝ) :
    ∃ d, arithData op junk A (.number c) = .ok d ∧ d.SameShape A ∧
      ∀ y x, y < A.h → x < A.w → op.Defined c → d.px y x = op.apply (A.px y x) c := by
  unfold arithData
  cases op
  · exact ⟨_, rfl, ⟨rfl, rfl⟩, fun y x hy hx _ => Img.ofFn_px hy hx⟩
  · exact ⟨_, rfl, ⟨rfl, rfl⟩, fun y x hy hx _ => Img.ofFn_px hy hx⟩
  · exact ⟨_, rfl, ⟨rfl, rfl⟩, fun y x hy hx _ => Img.ofFn_px hy hx⟩
  · exact ⟨_, rfl, ⟨rfl, rfl⟩, fun y x hy hx hc => (Img.ofFn_px hy hx).trans (if_pos hc)⟩

end

end Micropol

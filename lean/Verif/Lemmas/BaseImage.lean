import Verif.Model.BaseImage

/-! # Lemmas on sessions with the base class -/

set_option autoImplicit false

namespace Micropol

noncomputable section

open Classical

/-- The session `t` is `s` with one more image, which has the pixels `A`, its own array and its own header. -/
structure Made (s t : BaseState) (A : Img ℝ) (cards : String → Option String) : Prop where
  count : t.objs.size = s.objs.size + 1
  held : t.held = s.held
  arrays : s.arrays.size < t.arrays.size
  headers : t.headers.size = s.headers.size + 1
  oldArrays : ∀ r, r < s.arrays.size → t.arrays.cell r = s.arrays.cell r
  oldHeaders : ∀ r, r < s.headers.size → t.headers.cell r = s.headers.cell r
  oldObjs : ∀ i, i < s.objs.size → t.objs.cell i = s.objs.cell i
  newData : s.arrays.size ≤ (t.objs.cell s.objs.size).data
  newData' : (t.objs.cell s.objs.size).data < t.arrays.size
  newHeader : (t.objs.cell s.objs.size).header = s.headers.size
  pixels : t.arrays.cell (t.objs.cell s.objs.size).data = A
  size1 : (t.objs.cell s.objs.size).height = A.h
  size2 : (t.objs.cell s.objs.size).width = A.w
  header : t.headers.cell s.headers.size = ⟨A.w, A.h, cards⟩

theorem Store.alloc_old {α : Type} {s : Store α} {a : α} {k : Nat} (h : k < s.size) : (s.alloc a).cell k = s.cell k := by
  unfold Store.alloc
  dsimp only
  rw [if_neg (by omega)]

theorem Store.alloc_new {α : Type} {s : Store α} {a : α} : (s.alloc a).cell s.size = a := by
  unfold Store.alloc
  dsimp only
  rw [if_pos rfl]

theorem Store.set_same {α : Type} {s : Store α} {a : α} {k : Nat} : (s.set k a).cell k = a := by
  unfold Store.set
  dsimp only
  rw [if_pos rfl]

theorem Store.set_other {α : Type} {s : Store α} {a : α} {k l : Nat} (h : l ≠ k) : (s.set k a).cell l = s.cell l := by
  unfold Store.set
  dsimp only
  rw [if_neg h]

theorem newImage_made (s : BaseState) (A : Img ℝ) (cards : String → Option String) : Made s (s.newImage A cards) A cards where
  count := rfl
  held := rfl
  arrays := Nat.lt_succ_self _
  headers := rfl
  oldArrays _ h := Store.alloc_old h
  oldHeaders _ h := Store.alloc_old h
  oldObjs _ h := Store.alloc_old h
  newData := by
    unfold BaseState.newImage
    dsimp only
    rw [Store.alloc_new]
  newData' := by
    unfold BaseState.newImage
    dsimp only
    rw [Store.alloc_new]
    exact Nat.lt_succ_self _
  newHeader := by
    unfold BaseState.newImage
    dsimp only
    rw [Store.alloc_new]
  pixels := by
    unfold BaseState.newImage
    dsimp only
    rw [Store.alloc_new]
    exact Store.alloc_new
  size1 := by
    unfold BaseState.newImage
    dsimp only
    rw [Store.alloc_new]
  size2 := by
    unfold BaseState.newImage
    dsimp only
    rw [Store.alloc_new]
  header := by
    unfold BaseState.newImage
    dsimp only
    rw [Store.alloc_new]

/-- The copy whose data are replaced, as in `rebin`. -/
theorem replaced_made (s : BaseState) (A d : Img ℝ) :
    Made s (({ s.newImage A (fun _ => none) with arrays := (s.newImage A fun _ => none).arrays.alloc d } : BaseState).setData
      s.objs.size (s.newImage A fun _ => none).arrays.size) d (fun _ => none) := by
  have m := newImage_made s A fun _ => none
  generalize s.newImage A (fun _ => none) = t at *
  have e1 : (t.arrays.alloc d).cell t.arrays.size = d := Store.alloc_new
  constructor
  · exact m.count
  · exact m.held
  · show s.arrays.size < t.arrays.size + 1
    have := m.arrays
    omega
  · exact m.headers
  · intro r hr
    show (t.arrays.alloc d).cell r = _
    rw [Store.alloc_old (hr.trans m.arrays)]
    exact m.oldArrays r hr
  · intro r hr
    show (t.headers.set _ _).cell r = _
    rw [Store.set_other, m.oldHeaders r hr]
    show r ≠ (t.objs.cell s.objs.size).header
    rw [m.newHeader]
    omega
  · intro i hi
    show (t.objs.set _ _).cell i = _
    rw [Store.set_other (by omega), m.oldObjs i hi]
  · show s.arrays.size ≤ ((t.objs.set _ _).cell s.objs.size).data
    rw [Store.set_same]
    exact m.arrays.le
  · show ((t.objs.set _ _).cell s.objs.size).data < t.arrays.size + 1
    rw [Store.set_same]
    exact Nat.lt_succ_self _
  · show ((t.objs.set _ _).cell s.objs.size).header = _
    rw [Store.set_same]
    exact m.newHeader
  · show (t.arrays.alloc d).cell ((t.objs.set _ _).cell s.objs.size).data = _
    rw [Store.set_same]
    exact e1
  · show ((t.objs.set _ _).cell s.objs.size).height = _
    rw [Store.set_same]
    exact congrArg Img.h e1
  · show ((t.objs.set _ _).cell s.objs.size).width = _
    rw [Store.set_same]
    exact congrArg Img.w e1
  · show (t.headers.set (t.objs.cell s.objs.size).header _).cell s.headers.size = _
    rw [m.newHeader, Store.set_same]
    show (⟨((t.arrays.alloc d).cell t.arrays.size).w, ((t.arrays.alloc d).cell t.arrays.size).h,
      (t.headers.cell (t.objs.cell s.objs.size).header).cards⟩ : BaseHeader) = _
    rw [e1, m.newHeader, m.header]

/-- What a successful call does. -/
inductive Did (s : BaseState) : BaseOp → BaseState → Prop
  | array (A : Img ℝ) : Did s (.array A) { s with arrays := s.arrays.alloc A, held := s.held ++ [s.arrays.size] }
  | take (i : Nat) (hi : i < s.objs.size) : Did s (.take i) { s with held := s.held ++ [(s.objs.cell i).data] }
  | assign (i k r : Nat) (hi : i < s.objs.size) (hr : s.held[k]? = some r) : Did s (.assign i k) (s.setData i r)
  | writeArray (k r : Nat) (y x : Int) (v : ℝ) (j l : Nat) (hr : s.held[k]? = some r)
      (hj : Img.resolve (s.arrays.cell r).h y = some j) (hl : Img.resolve (s.arrays.cell r).w x = some l) :
      Did s (.writeArray k y x v) { s with arrays := s.arrays.set r ((s.arrays.cell r).setPx j l v) }
  | writeImage (i : Nat) (y x : Int) (v : ℝ) (j l : Nat) (hi : i < s.objs.size)
      (hj : Img.resolve (s.pixels i).h y = some j) (hl : Img.resolve (s.pixels i).w x = some l) :
      Did s (.writeImage i y x v) { s with arrays := s.arrays.set (s.objs.cell i).data ((s.pixels i).setPx j l v) }
  | setCard (i : Nat) (key value : String) (hi : i < s.objs.size) :
      Did s (.setCard i key value) { s with headers := (s.headers.set (s.objs.cell i).header
        ⟨(s.headerOf i).naxis1, (s.headerOf i).naxis2, fun k => if k = key then some value else (s.headerOf i).cards k⟩) }
  | load (A : Img ℝ) (cards : String → Option String) (t : BaseState) (h : Made s t A cards) : Did s (.load A cards) t
  | fromArray (k r : Nat) (t : BaseState) (hr : s.held[k]? = some r) (h : Made s t (s.arrays.cell r) fun _ => none) :
      Did s (.fromArray k) t
  | fromImage (i : Nat) (t : BaseState) (hi : i < s.objs.size) (h : Made s t (s.pixels i) fun _ => none) : Did s (.fromImage i) t
  | shift (i : Nat) (y x : Int) (m : ℝ) (t : BaseState) (d : Img ℝ) (hi : i < s.objs.size)
      (hd : shiftKernel (s.pixels i) y x m = .ok d) (h : Made s t d fun _ => none) : Did s (.shift i y x m) t
  | rebin (i : Nat) (b : Int) (t : BaseState) (d : Img ℝ) (hi : i < s.objs.size)
      (hd : imageRebinData (s.pixels i) b = .ok d) (h : Made s t d fun _ => none) : Did s (.rebin i b) t
  | arithImage (op : Arith) (i j : Nat) (junk : Nat → Nat → ℝ) (t : BaseState) (d : Img ℝ) (hi : i < s.objs.size)
      (hj : j < s.objs.size) (hd : arithData op junk (s.pixels i) (.image (s.pixels j)) = .ok d)
      (h : Made s t d fun _ => none) : Did s (.arithImage op i j junk) t
  | arithNumber (op : Arith) (i : Nat) (c : ℝ) (junk : Nat → Nat → ℝ) (t : BaseState) (d : Img ℝ) (hi : i < s.objs.size)
      (hd : arithData op junk (s.pixels i) (.number c) = .ok d) (h : Made s t d fun _ => none) :
      Did s (.arithNumber op i c junk) t

theorem image_ok {s : BaseState} {i n : Nat} (h : s.image i = .ok n) : n = i ∧ i < s.objs.size := by
  unfold BaseState.image BaseState.count at h
  split at h
  · cases h
    exact ⟨rfl, by assumption⟩
  · cases h

theorem image_of_lt {s : BaseState} {i : Nat} (h : i < s.objs.size) : s.image i = .ok i := by
  unfold BaseState.image BaseState.count
  rw [if_pos h]

theorem variable_ok {s : BaseState} {k r : Nat} (h : s.variable k = .ok r) : s.held[k]? = some r := by
  unfold BaseState.variable at h
  split at h
  · rename_i e
    cases h
    exact e
  · cases h

theorem variable_of {s : BaseState} {k r : Nat} (h : s.held[k]? = some r) : s.variable k = .ok r := by
  unfold BaseState.variable
  rw [h]

theorem writeRef_ok {s t : BaseState} {r : Nat} {y x : Int} {v : ℝ} (h : s.writeRef r y x v = .ok t) :
    ∃ j l, Img.resolve (s.arrays.cell r).h y = some j ∧ Img.resolve (s.arrays.cell r).w x = some l ∧
      t = { s with arrays := s.arrays.set r ((s.arrays.cell r).setPx j l v) } := by
  unfold BaseState.writeRef at h
  split at h
  · rename_i j l h1 h2
    cases h
    exact ⟨j, l, h1, h2, rfl⟩
  · cases h

theorem exec_did {s t : BaseState} {o : BaseOp} (h : s.exec o = .ok t) : Did s o t := by
  cases o with
  | array A => cases h; exact .array A
  | load A cards => cases h; exact .load A cards _ (newImage_made _ _ _)
  | fromArray k =>
    obtain ⟨r, h1, g1⟩ := Py.bind_eq_ok.1 h
    cases g1
    exact .fromArray k r _ (variable_ok h1) (newImage_made _ _ _)
  | fromImage i =>
    obtain ⟨n, h1, g1⟩ := Py.bind_eq_ok.1 h
    obtain ⟨rfl, hi⟩ := image_ok h1
    cases g1
    exact .fromImage _ _ hi (newImage_made _ _ _)
  | take i =>
    obtain ⟨n, h1, g1⟩ := Py.bind_eq_ok.1 h
    obtain ⟨rfl, hi⟩ := image_ok h1
    cases g1
    exact .take _ hi
  | assign i k =>
    obtain ⟨n, h1, g1⟩ := Py.bind_eq_ok.1 h
    obtain ⟨rfl, hi⟩ := image_ok h1
    obtain ⟨r, h2, g2⟩ := Py.bind_eq_ok.1 g1
    cases g2
    exact .assign _ k r hi (variable_ok h2)
  | writeArray k y x v =>
    obtain ⟨r, h1, g1⟩ := Py.bind_eq_ok.1 h
    obtain ⟨j, l, h2, h3, rfl⟩ := writeRef_ok g1
    exact .writeArray k r y x v j l (variable_ok h1) h2 h3
  | writeImage i y x v =>
    obtain ⟨n, h1, g1⟩ := Py.bind_eq_ok.1 h
    obtain ⟨rfl, hi⟩ := image_ok h1
    obtain ⟨j, l, h2, h3, rfl⟩ := writeRef_ok g1
    exact .writeImage _ y x v j l hi h2 h3
  | setCard i key value =>
    obtain ⟨n, h1, g1⟩ := Py.bind_eq_ok.1 h
    obtain ⟨rfl, hi⟩ := image_ok h1
    cases g1
    exact .setCard _ key value hi
  | shift i y x m =>
    obtain ⟨n, h1, g1⟩ := Py.bind_eq_ok.1 h
    obtain ⟨rfl, hi⟩ := image_ok h1
    obtain ⟨d, h2, g2⟩ := Py.bind_eq_ok.1 g1
    cases g2
    exact .shift _ y x m _ d hi h2 (newImage_made _ _ _)
  | rebin i b =>
    obtain ⟨n, h1, g1⟩ := Py.bind_eq_ok.1 h
    obtain ⟨rfl, hi⟩ := image_ok h1
    obtain ⟨d, h2, g2⟩ := Py.bind_eq_ok.1 g1
    cases g2
    exact .rebin _ b _ d hi h2 (replaced_made _ _ _)
  | arithImage op i j junk =>
    obtain ⟨n, h1, g1⟩ := Py.bind_eq_ok.1 h
    obtain ⟨rfl, hi⟩ := image_ok h1
    obtain ⟨n', h3, g2⟩ := Py.bind_eq_ok.1 g1
    obtain ⟨rfl, hj⟩ := image_ok h3
    obtain ⟨d, h2, g3⟩ := Py.bind_eq_ok.1 g2
    cases g3
    exact .arithImage op _ _ junk _ d hi hj h2 (newImage_made _ _ _)
  | arithNumber op i c junk =>
    obtain ⟨n, h1, g1⟩ := Py.bind_eq_ok.1 h
    obtain ⟨rfl, hi⟩ := image_ok h1
    obtain ⟨d, h2, g2⟩ := Py.bind_eq_ok.1 g1
    cases g2
    exact .arithNumber op _ c junk _ d hi h2 (newImage_made _ _ _)

theorem step_did (s : BaseState) (o : BaseOp) : s.step o = s ∨ Did s o (s.step o) := by
  unfold BaseState.step
  cases h : s.exec o with
  | error e => exact .inl rfl
  | ok t => exact .inr (exec_did h)

theorem step_of_exec {s t : BaseState} {o : BaseOp} (h : s.exec o = .ok t) : s.step o = t := by
  unfold BaseState.step
  rw [h]

/-! ## What holds throughout a session -/

/-- References are valid, headers are not shared and state the sizes. -/
structure BaseFine (s : BaseState) : Prop where
  data : ∀ i, i < s.objs.size → (s.objs.cell i).data < s.arrays.size
  header : ∀ i, i < s.objs.size → (s.objs.cell i).header < s.headers.size
  held : ∀ r ∈ s.held, r < s.arrays.size
  separate : ∀ i j, i < s.objs.size → j < s.objs.size → (s.objs.cell i).header = (s.objs.cell j).header → i = j
  sizes : ∀ i, i < s.objs.size → (s.headerOf i).naxis1 = (s.pixels i).w ∧ (s.headerOf i).naxis2 = (s.pixels i).h ∧
    s.sizeOf i = ((s.pixels i).h, (s.pixels i).w)

theorem Made.cases {s t : BaseState} {A : Img ℝ} {cards : String → Option String} (m : Made s t A cards) {i : Nat}
    (hi : i < t.objs.size) : i < s.objs.size ∨ i = s.objs.size := by
  have := m.count
  omega

theorem Made.oldPixels {s t : BaseState} {A : Img ℝ} {cards : String → Option String} (m : Made s t A cards) (f : BaseFine s)
    {i : Nat} (hi : i < s.objs.size) : t.pixels i = s.pixels i := by
  unfold BaseState.pixels
  rw [m.oldObjs i hi, m.oldArrays _ (f.data i hi)]

theorem Made.oldHeader {s t : BaseState} {A : Img ℝ} {cards : String → Option String} (m : Made s t A cards) (f : BaseFine s)
    {i : Nat} (hi : i < s.objs.size) : t.headerOf i = s.headerOf i := by
  unfold BaseState.headerOf
  rw [m.oldObjs i hi, m.oldHeaders _ (f.header i hi)]

theorem Made.newHeaderOf {s t : BaseState} {A : Img ℝ} {cards : String → Option String} (m : Made s t A cards) :
    t.headerOf s.objs.size = ⟨A.w, A.h, cards⟩ := by
  unfold BaseState.headerOf
  rw [m.newHeader, m.header]

theorem Made.fine {s t : BaseState} {A : Img ℝ} {cards : String → Option String} (m : Made s t A cards) (f : BaseFine s) :
    BaseFine t := by
  constructor
  · intro i hi
    rcases m.cases hi with h | rfl
    · rw [m.oldObjs i h]
      exact (f.data i h).trans m.arrays
    · exact m.newData'
  · intro i hi
    rw [m.headers]
    rcases m.cases hi with h | rfl
    · rw [m.oldObjs i h]
      exact (f.header i h).trans (Nat.lt_succ_self _)
    · rw [m.newHeader]
      exact Nat.lt_succ_self _
  · intro r hr
    rw [m.held] at hr
    exact (f.held r hr).trans m.arrays
  · intro i j hi hj e
    rcases m.cases hi with h | rfl <;> rcases m.cases hj with h' | rfl
    · rw [m.oldObjs i h, m.oldObjs j h'] at e
      exact f.separate i j h h' e
    · rw [m.oldObjs i h, m.newHeader] at e
      have := f.header i h
      omega
    · rw [m.oldObjs j h', m.newHeader] at e
      have := f.header j h'
      omega
    · rfl
  · intro i hi
    rcases m.cases hi with h | rfl
    · rw [m.oldPixels f h, m.oldHeader f h]
      refine ⟨(f.sizes i h).1, (f.sizes i h).2.1, ?_⟩
      have e := (f.sizes i h).2.2
      unfold BaseState.sizeOf at e ⊢
      rw [m.oldObjs i h]
      exact e
    · rw [m.newHeaderOf]
      have e : t.pixels s.objs.size = A := m.pixels
      rw [e]
      refine ⟨rfl, rfl, ?_⟩
      unfold BaseState.sizeOf
      rw [m.size1, m.size2]

theorem written_shape (s : BaseState) (r j l : Nat) (v : ℝ) (i : Nat) :
    (({ s with arrays := s.arrays.set r ((s.arrays.cell r).setPx j l v) } : BaseState).pixels i).h = (s.pixels i).h ∧
    (({ s with arrays := s.arrays.set r ((s.arrays.cell r).setPx j l v) } : BaseState).pixels i).w = (s.pixels i).w := by
  unfold BaseState.pixels
  dsimp only
  by_cases h : (s.objs.cell i).data = r
  · rw [h, Store.set_same]
    exact ⟨rfl, rfl⟩
  · rw [Store.set_other h]
    exact ⟨rfl, rfl⟩

theorem written_fine {s : BaseState} (f : BaseFine s) (r j l : Nat) (v : ℝ) :
    BaseFine { s with arrays := s.arrays.set r ((s.arrays.cell r).setPx j l v) } where
  data := f.data
  header := f.header
  held := f.held
  separate := f.separate
  sizes i hi := by
    obtain ⟨h1, h2⟩ := written_shape s r j l v i
    rw [h1, h2]
    exact f.sizes i hi

theorem set_fine {s : BaseState} (f : BaseFine s) {i r : Nat} (hi : i < s.objs.size) (hr : r < s.arrays.size) :
    BaseFine (s.setData i r) := by
  have hh : ∀ k, ((s.setData i r).objs.cell k).header = (s.objs.cell k).header := by
    intro k
    show ((s.objs.set i _).cell k).header = _
    by_cases h : k = i
    · rw [h, Store.set_same]
    · rw [Store.set_other h]
  constructor
  · intro k hk
    show ((s.objs.set i _).cell k).data < s.arrays.size
    by_cases h : k = i
    · rw [h, Store.set_same]
      exact hr
    · rw [Store.set_other h]
      exact f.data k hk
  · intro k hk
    rw [hh k]
    exact f.header k hk
  · exact f.held
  · intro a b ha hb e
    rw [hh a, hh b] at e
    exact f.separate a b ha hb e
  · intro k hk
    by_cases h : k = i
    · subst h
      unfold BaseState.headerOf BaseState.pixels BaseState.sizeOf
      rw [hh k]
      unfold BaseState.setData
      dsimp only
      rw [Store.set_same, Store.set_same]
      exact ⟨rfl, rfl, rfl⟩
    · have hne : (s.objs.cell k).header ≠ (s.objs.cell i).header := fun e => h (f.separate k i hk hi e)
      have := f.sizes k hk
      unfold BaseState.headerOf BaseState.pixels BaseState.sizeOf at *
      rw [hh k]
      unfold BaseState.setData
      dsimp only
      rw [Store.set_other hne, Store.set_other h]
      exact this

theorem card_fine {s : BaseState} (f : BaseFine s) {i : Nat} (hi : i < s.objs.size) (c : String → Option String) :
    BaseFine { s with headers := s.headers.set (s.objs.cell i).header ⟨(s.headerOf i).naxis1, (s.headerOf i).naxis2, c⟩ } where
  data := f.data
  header := f.header
  held := f.held
  separate := f.separate
  sizes k hk := by
    have h := f.sizes k hk
    unfold BaseState.headerOf BaseState.pixels BaseState.sizeOf at *
    dsimp only
    by_cases e : k = i
    · subst e
      rw [Store.set_same]
      exact h
    · rw [Store.set_other (fun e' => e (f.separate k i hk hi e'))]
      exact h

theorem did_fine {s t : BaseState} {o : BaseOp} (f : BaseFine s) (h : Did s o t) : BaseFine t := by
  cases h with
  | array A =>
    refine ⟨fun i hi => (f.data i hi).trans (Nat.lt_succ_self _), f.header, ?_, f.separate, ?_⟩
    · intro r hr
      rcases List.mem_append.1 hr with h | h
      · exact (f.held r h).trans (Nat.lt_succ_self _)
      · rw [List.mem_singleton.1 h]
        exact Nat.lt_succ_self _
    · intro i hi
      have e : ({ s with arrays := s.arrays.alloc A, held := s.held ++ [s.arrays.size] } : BaseState).pixels i = s.pixels i :=
        Store.alloc_old (f.data i hi)
      rw [e]
      exact f.sizes i hi
  | take i hi =>
    refine ⟨f.data, f.header, ?_, f.separate, f.sizes⟩
    intro r hr
    rcases List.mem_append.1 hr with h | h
    · exact f.held r h
    · rw [List.mem_singleton.1 h]
      exact f.data i hi
  | assign i k r hi hr => exact set_fine f hi (f.held r (List.mem_of_getElem? hr))
  | writeArray k r y x v j l hr hj hl => exact written_fine f r j l v
  | writeImage i y x v j l hi hj hl => exact written_fine f _ j l v
  | setCard i key value hi => exact card_fine f hi _
  | load A cards t h => exact h.fine f
  | fromArray k r t hr h => exact h.fine f
  | fromImage i t hi h => exact h.fine f
  | shift i y x m t d hi hd h => exact h.fine f
  | rebin i b t d hi hd h => exact h.fine f
  | arithImage op i j junk t d hi hj hd h => exact h.fine f
  | arithNumber op i c junk t d hi hd h => exact h.fine f

theorem step_fine {s : BaseState} (f : BaseFine s) (o : BaseOp) : BaseFine (s.step o) := by
  rcases step_did s o with h | h
  · rw [h]
    exact f
  · exact did_fine f h

theorem init_fine : BaseFine baseInit := by
  refine ⟨?_, ?_, ?_, ?_, ?_⟩
  · exact fun i hi => absurd hi (Nat.not_lt_zero _)
  · exact fun i hi => absurd hi (Nat.not_lt_zero _)
  · exact fun r hr => absurd hr List.not_mem_nil
  · exact fun i j hi => absurd hi (Nat.not_lt_zero _)
  · exact fun i hi => absurd hi (Nat.not_lt_zero _)

theorem baseRun_snoc (ops : List BaseOp) (o : BaseOp) : baseRun (ops ++ [o]) = (baseRun ops).step o := by
  unfold baseRun
  rw [List.foldl_append]
  rfl

theorem run_fine (ops : List BaseOp) : BaseFine (baseRun ops) := by
  induction ops using List.reverseRecOn with
  | nil => exact init_fine
  | append_singleton ops o ih =>
    rw [baseRun_snoc]
    exact step_fine ih o

end

end Micropol

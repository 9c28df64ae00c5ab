import Verif.Lemmas.Classes
import Verif.Props.Stokes
import Verif.Props.Shift
import Verif.Props.Rebin

/-!
# C123: images of both classes and arrays in one session

`s.arrayValue k`: the array in variable `k`; `s.basePixels j`: the pixels of the `Image` in variable `j`; `s.state`: the
`MicropolImage`s.
-/

set_option autoImplicit false

namespace Micropol

noncomputable section

open Classical

/-! ## Helpers -/

theorem alike_initMixed : Alike mixedInit.state initState :=
  ⟨fun _ _ => False, ⟨rfl, fun h => h.elim, fun h => h.elim, fun h => h.elim, fun h => h.elim, fun h => h.elim, fun h => h.elim⟩,
    List.Forall₂.nil⟩

theorem alike_mixed {ts : List MixStmt} (hc : ∀ t ∈ ts, t.Closed) : Alike (runMixed ts).state (runValues (valuesFrom mixedInit ts)) :=
  (alike_session ts good_init own_init alike_initMixed hc).1

theorem resolve_spec {n : Nat} {i : Int} {a : Nat} (h : Img.resolve n i = some a) : a < n ∧ (i = a ∨ i = a - n) := by
  unfold Img.resolve at h
  split at h <;> split at h
  · injection h with h; omega
  · cases h
  · injection h with h; omega
  · cases h

theorem setPx_written {A : Img ℝ} {y x : Int} {a b : Nat} (c : ℝ) (ha : Img.resolve A.h y = some a) (hb : Img.resolve A.w x = some b) :
    A.WrittenAt y x c (A.setPx a b c) := by
  obtain ⟨h1, h2⟩ := resolve_spec ha
  obtain ⟨h3, h4⟩ := resolve_spec hb
  refine ⟨a, b, h1, h3, h2, h4, ⟨rfl, rfl⟩, ?_, fun p q hn => ?_⟩
  · unfold Img.setPx
    rw [Img.ofFn_px h1 h3]
    simp
  · by_cases hr : p < A.h ∧ q < A.w
    · unfold Img.setPx
      rw [Img.ofFn_px hr.1 hr.2]
      simp [hn]
    · rw [A.out p q hr]
      exact (A.setPx a b c).out p q hr

/-! ## Sessions by value -/

/-- C123: in a session whose statements do not hand out or replace the array of a `MicropolImage`, every `MicropolImage` shows what it
would show if each statement had been given the values of its variables: later writes into the arrays and work on the `Image`s do not
reach it; and a next statement raises exactly what it would raise there. -/
theorem C123_values (ts : List MixStmt) (hc : ∀ t ∈ ts, t.Closed) :
    (runMixed ts).state.shows = (runValues (valuesFrom mixedInit ts)).shows ∧
    (runMixed ts).state.sameObjects (runValues (valuesFrom mixedInit ts)) ∧
    ∀ t v, t.value (runMixed ts) = some v → ((runMixed ts).exec t).1 = (v.run (runValues (valuesFrom mixedInit ts))).1 := by
  have h := alike_mixed hc
  refine ⟨h.shows.symm, h.same, fun t v hv => ?_⟩
  rw [exec_value hv]
  exact (alike_run h v).1

example : ∃ ts, (∀ t ∈ ts, MixStmt.Closed t) ∧ (valuesFrom mixedInit ts).length = 1 ∧
    ∃ (k : Nat) (c : ℝ), .write k 0 0 c ∈ ts := by
  refine ⟨[.array (Img.const 2 2 1), .construct 0 (some polarCamAngles) none none (fun _ _ => 0), .write 0 0 0 5], ?_, ?_, 0, 5, by simp⟩
  · intro t ht
    simp only [List.mem_cons, List.not_mem_nil, or_false] at ht
    rcases ht with rfl | rfl | rfl <;> trivial
  · rfl

/-- C123: in such a session a statement without a `MicropolImage` (a write into an array, work on `Image`s) changes nothing that a
`MicropolImage` shows. -/
theorem C123_aside (ts : List MixStmt) (hc : ∀ t ∈ ts, t.Closed) (t : MixStmt) (ht : t.Closed) (hv : t.value (runMixed ts) = none) :
    (runMixed (ts ++ [t])).state.shows = (runMixed ts).state.shows ∧
    (runMixed ts).state.sameObjects (runMixed (ts ++ [t])).state := by
  rw [runMixed_snoc]
  have ho := (alike_session ts good_init own_init alike_initMixed hc).2
  have h := alike_aside (good_run ts) ho (exec_quiet ht hv)
  exact ⟨h.shows, h.same⟩

example : MixStmt.Closed (.write 0 0 0 5) ∧ MixStmt.value (runMixed [.array (Img.const 2 2 1)]) (.write 0 0 0 5) = none := ⟨trivial, rfl⟩

/-! ## Writes -/

/-- C123: `array[y, x] = c`, after any session: the array has `c` at `[y, x]` and is otherwise unchanged; every other variable and image
is unchanged, or showed the same values as the array before and shows them after (it holds the same array); maps, keywords, dictionaries
and flags of images do not change. -/
theorem C123_write (ts : List MixStmt) (k : Nat) (y x : Int) (c : ℝ) (hw : (runMixed ts).Works (.write k y x c)) :
    let s := runMixed ts
    let u := runMixed (ts ++ [.write k y x c])
    ∃ A B, s.arrayValue k = some A ∧ A.WrittenAt y x c B ∧ u.arrayValue k = some B ∧
      (∀ j, u.arrayValue j = s.arrayValue j ∨ (s.arrayValue j = some A ∧ u.arrayValue j = some B)) ∧
      (∀ j, u.basePixels j = s.basePixels j ∨ (s.basePixels j = some A ∧ u.basePixels j = some B)) ∧
      u.images = s.images ∧
      ∀ i ∈ s.images, u.state.shown i = s.state.shown i ∨
        (s.state.data i = A ∧ u.state.shown i = { s.state.shown i with data := B }) := by
  intro s u
  have hu : u = s.step (.write k y x c) := runMixed_snoc ts _
  obtain ⟨r, hr⟩ : ∃ r, s.held[k]? = some r := by
    cases hk : s.held[k]? with
    | some r => exact ⟨r, rfl⟩
    | none =>
      have h1 : s.arrayVar k = .error .nameError := by unfold Mixed.arrayVar; rw [hk]
      change s.Works _ at hw
      unfold Mixed.Works at hw
      simp only [Mixed.exec, h1] at hw
      cases hw
  obtain ⟨a, b, ha, hb⟩ := write_works hr hw
  have he := write_eq (c := c) hr ha hb
  unfold Mixed.step at hu
  rw [he] at hu
  have hcell : ∀ q, (s.heap.datas.set r ((s.heap.datas.cell r).setPx a b c)).cell q =
      if q = r then (s.heap.datas.cell r).setPx a b c else s.heap.datas.cell q := fun q => rfl
  refine ⟨s.heap.datas.cell r, (s.heap.datas.cell r).setPx a b c, ?_, setPx_written c ha hb, ?_, fun j => ?_, fun j => ?_, ?_, fun i hi => ?_⟩
  · unfold Mixed.arrayValue; rw [hr]; rfl
  · rw [hu]
    show (s.held[k]?).map _ = _
    rw [hr]
    show some (Store.cell _ r) = _
    rw [hcell, if_pos rfl]
  · rw [hu]
    show (s.held[j]?).map (Store.cell _) = (s.held[j]?).map _ ∨ _ ∧ (s.held[j]?).map (Store.cell _) = _
    unfold Mixed.arrayValue
    cases hj : s.held[j]? with
    | none => exact Or.inl rfl
    | some q =>
      show some (Store.cell _ q) = some _ ∨ some _ = some _ ∧ some (Store.cell _ q) = some _
      rw [hcell]
      by_cases e : q = r
      · rw [if_pos e, e]; exact Or.inr ⟨rfl, rfl⟩
      · rw [if_neg e]; exact Or.inl rfl
  · rw [hu]
    show ((s.bases[j]?).join).map (Store.cell _) = ((s.bases[j]?).join).map _ ∨ _ ∧ ((s.bases[j]?).join).map (Store.cell _) = _
    unfold Mixed.basePixels
    cases hj : (s.bases[j]?).join with
    | none => exact Or.inl rfl
    | some q =>
      show some (Store.cell _ q) = some _ ∨ some _ = some _ ∧ some (Store.cell _ q) = some _
      rw [hcell]
      by_cases e : q = r
      · rw [if_pos e, e]; exact Or.inr ⟨rfl, rfl⟩
      · rw [if_neg e]; exact Or.inl rfl
  · rw [hu]
  · have hd : u.state.data i = if arr s.state i = r then (s.heap.datas.cell r).setPx a b c else s.state.data i := by
      rw [hu]
      show (s.heap.datas.set r _).cell (arr s.state i) = _
      rw [hcell]
      rfl
    by_cases e : arr s.state i = r
    · rw [if_pos e] at hd
      refine Or.inr ⟨by rw [← e]; rfl, ?_⟩
      show Shown.mk _ _ _ _ _ _ _ _ _ = Shown.mk _ _ _ _ _ _ _ _ _
      rw [hd, hu]
      rfl
    · rw [if_neg e] at hd
      refine Or.inl ?_
      show Shown.mk _ _ _ _ _ _ _ _ _ = Shown.mk _ _ _ _ _ _ _ _ _
      rw [hd, hu]
      rfl

/-- A session with one array `A` in a variable and an image made from it. -/
def oneOfEach (A : Img ℝ) : List MixStmt := [.array A, .construct 0 (some polarCamAngles) none none fun _ _ => 0]

theorem oneOfEach_spec {A : Img ℝ} (hh : A.h % 2 = 0) (hw : A.w % 2 = 0) :
    ∃ S, IsStokesOf (fun q => A.family (q.val / 2) (q.val % 2)) ⟨0, 1, 2, 3⟩ S ∧ (runMixed (oneOfEach A)).held = [0] ∧
      (runMixed (oneOfEach A)).bases = [] ∧
      (runMixed (oneOfEach A)).images = [0] ∧ (runMixed (oneOfEach A)).heap.datas.cell 0 = A ∧
      (runMixed (oneOfEach A)).state.data 0 = A ∧ (runMixed (oneOfEach A)).state.stokes 0 = S ∧
      (runMixed (oneOfEach A)).state.dic 0 = polarCamAngles := by
  obtain ⟨q, S, h1, h2, h3⟩ := dataStokes_ok hh hw C02_polarCam.1
  rw [split_ok hh hw] at h1
  injection h1 with h1
  have e1 : runMixed [.array A] =
      { mixedInit with heap := { mixedInit.heap with datas := mixedInit.heap.datas.alloc A }, held := [0] } := rfl
  have hcell : (runMixed [.array A]).heap.datas.cell 0 = A := by rw [e1]; rfl
  have e : runMixed (oneOfEach A) = _ := (runMixed_snoc [.array A] _).trans
    (congrArg Prod.snd (construct_eq (s := runMixed [.array A]) (k := 0) (r := 0) rfl (by rw [hcell]; exact h2) fun _ _ => 0))
  rw [hcell] at e
  refine ⟨S, by rw [← h1] at h3; exact h3, ?_⟩
  rw [e]
  exact ⟨rfl, rfl, rfl, rfl, rfl, rfl, rfl⟩

example : ∃ ts, (runMixed ts).Works (.write 0 (-1) 0 5) := by
  obtain ⟨S, -, hh, -, -, hd, -⟩ := oneOfEach_spec (A := Img.const 2 2 1) rfl rfl
  refine ⟨oneOfEach (Img.const 2 2 1), ?_⟩
  unfold Mixed.Works
  rw [write_eq (r := 0) (a := 1) (b := 0) (by rw [hh]; rfl) (by rw [hd]; rfl) (by rw [hd]; rfl)]

/-! ## The arrays that images hold -/

/-- C123: `v = image.data` hands out the array of the image itself: it has the pixels of the image, nothing else changes, and a write
through the new variable changes the image. -/
theorem C123_take (ts : List MixStmt) (i n : Nat) (hi : (runMixed ts).images[i]? = some n) :
    let s := runMixed ts
    let u := runMixed (ts ++ [.take i])
    s.Works (.take i) ∧ u.state = s.state ∧ u.arrayValue s.held.length = some (s.state.data n) ∧
    (∀ k < s.held.length, u.arrayValue k = s.arrayValue k) ∧ (∀ j, u.basePixels j = s.basePixels j) ∧
    ∀ y x c, u.Works (.write s.held.length y x c) →
      (s.state.data n).WrittenAt y x c ((runMixed (ts ++ [.take i] ++ [.write s.held.length y x c])).state.data n) := by
  intro s u
  have he := take_eq (s := s) hi
  have hu : u = { s with held := s.held ++ [(s.heap.objs.cell n).data] } :=
    (runMixed_snoc ts _).trans (congrArg Prod.snd he)
  have hheld : u.held[s.held.length]? = some (s.heap.objs.cell n).data := by
    rw [hu]
    show (s.held ++ [_])[s.held.length]? = _
    rw [List.getElem?_append_right le_rfl, Nat.sub_self]
    rfl
  have hheap : u.heap = s.heap := by rw [hu]
  refine ⟨congrArg Prod.fst he, by rw [hu]; rfl, ?_, fun k hk => ?_, fun j => ?_, fun y x c hw => ?_⟩
  · unfold Mixed.arrayValue
    rw [hheld, hheap]
    rfl
  · rw [hu]
    show ((s.held ++ [_])[k]?).map _ = _
    rw [List.getElem?_append_left hk]
    rfl
  · rw [hu]; rfl
  · obtain ⟨a, b, ha, hb⟩ := write_works hheld hw
    rw [runMixed_snoc]
    have hw' := write_eq (c := c) hheld ha hb
    rw [show (runMixed (ts ++ [.take i])).step (.write s.held.length y x c) = _ from congrArg Prod.snd hw']
    rw [hheap] at ha hb
    have : (s.state.data n).WrittenAt y x c ((s.state.data n).setPx a b c) := setPx_written c ha hb
    convert this using 1
    show (u.heap.datas.set _ _).cell (u.heap.objs.cell n).data = _
    rw [hheap]
    exact if_pos rfl

example : ∃ ts n, (runMixed ts).images[0]? = some n ∧ (runMixed (ts ++ [.take 0])).Works (.write (runMixed ts).held.length 0 0 5) := by
  obtain ⟨S, -, hh, -, hi, hd, hdd, -⟩ := oneOfEach_spec (A := Img.const 2 2 1) rfl rfl
  have h0 : (runMixed (oneOfEach (Img.const 2 2 1))).images[0]? = some 0 := by rw [hi]; rfl
  refine ⟨oneOfEach (Img.const 2 2 1), 0, h0, ?_⟩
  have he := take_eq h0
  rw [runMixed_snoc]
  rw [show (runMixed (oneOfEach (Img.const 2 2 1))).step (.take 0) = _ from congrArg Prod.snd he]
  unfold Mixed.Works
  have hdd' : (runMixed (oneOfEach (Img.const 2 2 1))).heap.datas.cell ((runMixed (oneOfEach (Img.const 2 2 1))).heap.objs.cell 0).data =
    Img.const 2 2 1 := hdd
  rw [write_eq (r := ((runMixed (oneOfEach (Img.const 2 2 1))).heap.objs.cell 0).data) (a := 0) (b := 0) (by simp)
    (by dsimp only; rw [hdd']; rfl) (by dsimp only; rw [hdd']; rfl)]

/-- C123 (what holds of `image.data = v`): the image has the pixels of the array and its header their size; Stokes maps, dictionary and flags stay
as they were; every other image keeps all it shows, except that a header it shares states the size of the array; variables and `Image`s are
unchanged; and the image holds the array itself: a later write into it shows.

Missing: the setter says that it sets the derived polarization information; it does not (`C123_full_claim_false`). -/
theorem C123_assign_partial (ts : List MixStmt) (i k n : Nat) (A : Img ℝ) (hi : (runMixed ts).images[i]? = some n)
    (hk : (runMixed ts).arrayValue k = some A) :
    let s := runMixed ts
    let u := runMixed (ts ++ [.assign i k])
    s.Works (.assign i k) ∧ u.images = s.images ∧
    u.state.shown n = { s.state.shown n with data := A, header := ⟨A.w, A.h⟩ } ∧
    (∀ m ∈ s.images, m ≠ n → u.state.shown m = s.state.shown m ∨ u.state.shown m = { s.state.shown m with header := ⟨A.w, A.h⟩ }) ∧
    (∀ l, u.arrayValue l = s.arrayValue l) ∧ (∀ j, u.basePixels j = s.basePixels j) ∧
    ∀ y x c, u.Works (.write k y x c) →
      A.WrittenAt y x c ((runMixed (ts ++ [.assign i k] ++ [.write k y x c])).state.data n) := by
  intro s u
  obtain ⟨r, hr, hA⟩ : ∃ r, s.held[k]? = some r ∧ s.heap.datas.cell r = A := by
    change (s.held[k]?).map _ = _ at hk
    cases h : s.held[k]? with
    | none => rw [h] at hk; cases hk
    | some r => rw [h] at hk; injection hk with hk; exact ⟨r, rfl, hk⟩
  have he := assign_eq (s := s) hi hr
  have hu : u = { s with heap := s.heap.holdData n r } := (runMixed_snoc ts _).trans (congrArg Prod.snd he)
  have hheap : u.heap = s.heap.holdData n r := by rw [hu]
  have hdatas : u.heap.datas = s.heap.datas := by rw [hheap]; rfl
  have hstokes : u.heap.stokes = s.heap.stokes := by rw [hheap]; rfl
  have hobjn : u.heap.objs.cell n = { s.heap.objs.cell n with data := r } := by rw [hheap, hold_obj, if_pos rfl]
  have hhead : ∀ q, u.heap.headers.cell q = if q = (s.heap.objs.cell n).header then ⟨A.w, A.h⟩ else s.heap.headers.cell q := by
    intro q
    rw [hheap, ← hA]
    rfl
  refine ⟨congrArg Prod.fst he, by rw [hu], ?_, fun m hm hne => ?_, fun l => ?_, fun j => ?_, fun y x c hw => ?_⟩
  · show Shown.mk (u.heap.datas.cell (u.heap.objs.cell n).data) (u.heap.stokes.cell (u.heap.objs.cell n).stokes).planes
      (u.heap.headers.cell (u.heap.objs.cell n).header) (u.heap.objs.cell n).dic _ _ _ _ _ = Shown.mk _ _ _ _ _ _ _ _ _
    rw [hhead, hdatas, hstokes, hobjn, if_pos rfl, hA]
    unfold State.isDemosaiced State.demosaiced
    rw [show u.state.heap.objs.cell n = _ from hobjn]
    rfl
  · have hobjm : u.heap.objs.cell m = s.heap.objs.cell m := by rw [hheap, hold_obj, if_neg hne]
    have hm1 : u.state.heap.objs.cell m = s.heap.objs.cell m := hobjm
    by_cases e : (s.heap.objs.cell m).header = (s.heap.objs.cell n).header
    · right
      show Shown.mk (u.heap.datas.cell (u.heap.objs.cell m).data) (u.heap.stokes.cell (u.heap.objs.cell m).stokes).planes
        (u.heap.headers.cell (u.heap.objs.cell m).header) (u.heap.objs.cell m).dic _ _ _ _ _ = Shown.mk _ _ _ _ _ _ _ _ _
      rw [hhead, hdatas, hstokes, hobjm, if_pos e]
      unfold State.isDemosaiced State.demosaiced
      rw [hm1]
      rfl
    · left
      show Shown.mk (u.heap.datas.cell (u.heap.objs.cell m).data) (u.heap.stokes.cell (u.heap.objs.cell m).stokes).planes
        (u.heap.headers.cell (u.heap.objs.cell m).header) (u.heap.objs.cell m).dic _ _ _ _ _ = Shown.mk _ _ _ _ _ _ _ _ _
      rw [hhead, hdatas, hstokes, hobjm, if_neg e]
      unfold State.isDemosaiced State.demosaiced
      rw [hm1]
      rfl
  · rw [hu]; rfl
  · rw [hu]; rfl
  · have hru : u.held[k]? = some r := by rw [hu]; exact hr
    obtain ⟨a, b, ha, hb⟩ := write_works hru hw
    rw [runMixed_snoc]
    rw [show (runMixed (ts ++ [.assign i k])).step (.write k y x c) = _ from congrArg Prod.snd (write_eq (c := c) hru ha hb)]
    rw [hdatas, hA] at ha hb
    convert setPx_written c ha hb using 1
    show (u.heap.datas.set r ((u.heap.datas.cell r).setPx a b c)).cell (u.heap.objs.cell n).data = _
    rw [hobjn, hdatas, hA]
    exact if_pos rfl

example : ∃ ts n A, (runMixed ts).images[0]? = some n ∧ (runMixed ts).arrayValue 0 = some A := by
  obtain ⟨S, -, hh, -, hi, hd, -⟩ := oneOfEach_spec (A := Img.const 2 2 1) rfl rfl
  refine ⟨oneOfEach (Img.const 2 2 1), 0, Img.const 2 2 1, by rw [hi]; rfl, ?_⟩
  unfold Mixed.arrayValue
  rw [hh]
  exact congrArg some hd

/-- C123, negation of the full claim: `image.data = v` is documented to set "image data and derived polarization informations", but after
it the Stokes maps need not be those of the pixels. -/
theorem C123_full_claim_false : ¬ ∀ (ts : List MixStmt) (i k n : Nat) (A : Img ℝ), (runMixed ts).images[i]? = some n →
    (runMixed ts).arrayValue k = some A → A.h % 2 = 0 → A.w % 2 = 0 → ∀ L : Layout, L.Describes ((runMixed ts).state.dic n) → L.Proper →
      IsStokesOf (fun q => A.family (q.val / 2) (q.val % 2)) L ((runMixed (ts ++ [.assign i k])).state.stokes n) := by
  intro h
  obtain ⟨S, hS, hh, -, hi, hd, hdd, hst, hdic⟩ := oneOfEach_spec (A := Img.const 2 2 1) rfl rfl
  set s := runMixed (oneOfEach (Img.const 2 2 1)) with hs
  have e : runMixed (oneOfEach (Img.const 2 2 1) ++ [.array (Img.const 2 2 5)]) =
      { s with heap := { s.heap with datas := s.heap.datas.alloc (Img.const 2 2 5) }, held := s.held ++ [s.heap.datas.size] } :=
    runMixed_snoc _ _
  have hi' : (runMixed (oneOfEach (Img.const 2 2 1) ++ [.array (Img.const 2 2 5)])).images[0]? = some 0 := by rw [e]; show s.images[0]? = _; rw [hi]; rfl
  have hk' : (runMixed (oneOfEach (Img.const 2 2 1) ++ [.array (Img.const 2 2 5)])).arrayValue 1 = some (Img.const 2 2 5) := by
    rw [e]
    show ((s.held ++ [_])[1]?).map _ = _
    rw [hh]
    show some (if s.heap.datas.size = s.heap.datas.size then Img.const 2 2 5 else s.heap.datas.cell s.heap.datas.size) = _
    rw [if_pos rfl]
  have hdic' : (runMixed (oneOfEach (Img.const 2 2 1) ++ [.array (Img.const 2 2 5)])).state.dic 0 = polarCamAngles := by
    rw [e]; exact hdic
  have h1 := h _ 0 1 0 _ hi' hk' rfl rfl ⟨0, 1, 2, 3⟩ (by rw [hdic']; exact C02_polarCam.1) C02_polarCam.2
  have h2 := (C123_assign_partial _ 0 1 0 _ hi' hk').2.2.1
  have h3 : (runMixed (oneOfEach (Img.const 2 2 1) ++ [.array (Img.const 2 2 5)] ++ [.assign 0 1])).state.stokes 0 = S := by
    have := congrArg Shown.stokes h2
    refine Eq.trans this ?_
    show State.stokes _ 0 = S
    rw [e]
    exact hst
  rw [h3] at h1
  have p1 := (hS.2 0 0 (by show 0 < 1; omega) (by show 0 < 1; omega)).1
  have p2 := (h1.2 0 0 (by show 0 < 1; omega) (by show 0 < 1; omega)).1
  rw [p1] at p2
  have v : ∀ (c : ℝ) (q : Fin 4), ((Img.const 2 2 c).family (q.val / 2) (q.val % 2)).px 0 0 = c := by
    intro c q
    unfold Img.family
    have h2 : (Img.const 2 2 c).h = 2 ∧ (Img.const 2 2 c).w = 2 := ⟨rfl, rfl⟩
    rw [Img.ofFn_px (by omega) (by omega)]
    exact Img.ofFn_px (by omega) (by omega)
  simp only [v, Fin.sum_const] at p2
  norm_num at p2

/-! ## `Image`s -/

/-- C123: only a write into an array and `image.data = v` on the `Image` itself change the pixels of an `Image`. -/
theorem C123_image_kept (ts : List MixStmt) (t : MixStmt) (j : Nat) (hj : j < (runMixed ts).bases.length) (h1 : ∀ k, t ≠ .assignBase j k)
    (h2 : ∀ k y x c, t ≠ .write k y x c) : (runMixed (ts ++ [t])).basePixels j = (runMixed ts).basePixels j := by
  rw [runMixed_snoc]
  have hb := List.getElem?_eq_getElem hj
  have hb' := (kept_step (runMixed ts) t).bases j _ hb h1
  unfold Mixed.basePixels
  rw [hb, hb']
  cases hr : (runMixed ts).bases[j] with
  | none => rfl
  | some r =>
    rw [hr] at hb
    show some _ = some _
    rw [step_cells (good_run ts) (fun ⟨k, y, x, c, e⟩ => h2 k y x c e) ((good_run ts).bases r (List.mem_of_getElem? hb))]

example : (0 : Nat) < (runMixed [.array (Img.const 2 2 1), .newBase 0]).bases.length ∧ (∀ k, MixStmt.take 0 ≠ .assignBase 0 k) ∧
    ∀ k y x c, MixStmt.take 0 ≠ .write k y x c := ⟨Nat.one_pos, fun _ => nofun, fun _ _ _ _ => nofun⟩

/-- C123: an `Image` that a constructor, `shift`, `rebin` or an operator returned keeps its pixels through every session, until its array is
asked for (`v = image.data`) or replaced (`image.data = v`): nothing else holds its array. -/
theorem C123_image_own (ts : List MixStmt) (t : MixStmt) (rest : List MixStmt)
    (hn : (runMixed (ts ++ [t])).bases.length = (runMixed ts).bases.length + 1)
    (hr : ∀ t' ∈ rest, t' ≠ .takeBase (runMixed ts).bases.length ∧ ∀ k, t' ≠ .assignBase (runMixed ts).bases.length k) :
    (runMixed (ts ++ [t] ++ rest)).basePixels (runMixed ts).bases.length =
      (runMixed (ts ++ [t])).basePixels (runMixed ts).bases.length := by
  have hsplit : runMixed (ts ++ [t] ++ rest) = rest.foldl Mixed.step (runMixed (ts ++ [t])) := by
    unfold runMixed; rw [List.foldl_append]
  rw [hsplit]
  have hg := good_run (ts ++ [t])
  rw [runMixed_snoc] at hn hg ⊢
  rcases (kept_step (runMixed ts) t).grow with h | h | ⟨A, h⟩
  · omega
  · have hl : ((runMixed ts).step t).bases[(runMixed ts).bases.length]? = some none := by
      rw [h, List.getElem?_append_right le_rfl, Nat.sub_self]; rfl
    have key : ∀ (l : List MixStmt) (s : Mixed), s.bases[(runMixed ts).bases.length]? = some none →
        (∀ t' ∈ l, ∀ k, t' ≠ .assignBase (runMixed ts).bases.length k) →
        (l.foldl Mixed.step s).bases[(runMixed ts).bases.length]? = some none := by
      intro l
      induction l with
      | nil => exact fun s h _ => h
      | cons t' l ih =>
        intro s hs hl
        exact ih (s.step t') ((kept_step s t').bases _ _ hs (hl t' List.mem_cons_self)) fun t'' h'' => hl t'' (List.mem_cons_of_mem _ h'')
    unfold Mixed.basePixels
    rw [hl, key rest _ hl fun t' h' => (hr t' h').2]
    rfl
  · rw [h] at hg ⊢
    have ho := ownBase_new (good_run ts) A
    obtain ⟨o, hc⟩ := ownBase_foldl rest hg ho hr
    unfold Mixed.basePixels
    rw [o.here, ho.here]
    show some _ = some _
    rw [hc]

example : ∃ ts t, (runMixed (ts ++ [t])).bases.length = (runMixed ts).bases.length + 1 ∧
    (runMixed (ts ++ [t])).basePixels 0 = some (Img.const 2 2 1) ∧ (runMixed (ts ++ [t])).Works (.write 0 0 0 7) := by
  refine ⟨[.array (Img.const 2 2 1)], .newBase 0, rfl, ?_, ?_⟩
  · rfl
  · unfold Mixed.Works
    rw [write_eq (r := 0) (a := 0) (b := 0) rfl rfl rfl]

/-- The pixels of the `Image` that a statement returns. -/
theorem added {s : Mixed} {t : MixStmt} {A : Img ℝ} (h : s.exec t = (.ok (), s.addBase A)) :
    s.Works t ∧ (s.step t).bases.length = s.bases.length + 1 ∧ (s.step t).basePixels s.bases.length = some A := by
  have e : s.step t = s.addBase A := congrArg Prod.snd h
  refine ⟨congrArg Prod.fst h, ?_, ?_⟩
  · rw [e]; exact List.length_append
  · rw [e]
    show Option.map _ (Option.join ((s.bases ++ [some s.heap.datas.size])[s.bases.length]?)) = _
    rw [List.getElem?_append_right le_rfl, Nat.sub_self]
    exact congrArg some (if_pos rfl)

/-- The statement `t` returns a new `Image` with pixels `A`. -/
def MakesImage (ts : List MixStmt) (t : MixStmt) (A : Img ℝ) : Prop :=
  (runMixed ts).Works t ∧ (runMixed (ts ++ [t])).bases.length = (runMixed ts).bases.length + 1 ∧
    (runMixed (ts ++ [t])).basePixels (runMixed ts).bases.length = some A

theorem makes {ts : List MixStmt} {t : MixStmt} {A : Img ℝ} (h : (runMixed ts).exec t = (.ok (), (runMixed ts).addBase A)) : MakesImage ts t A := by
  unfold MakesImage
  rw [runMixed_snoc]
  exact added h

theorem baseData_pixels {s : Mixed} {j : Nat} {A : Img ℝ} (h : s.basePixels j = some A) :
    ∃ r, s.baseData j = .ok r ∧ s.base j = .ok (some r) ∧ s.values r = A := by
  obtain ⟨r, -, h1, h2⟩ := base_value h
  refine ⟨r, ?_, h1, h2⟩
  unfold Mixed.baseData
  rw [h1]
  rfl

/-- C123: `Image(array)` and `Image(image)` have the pixels of the array or image; `shift` and `rebin` of an `Image` return a new `Image` with
the pixels shifted or binned. -/
theorem C123_new_images (ts : List MixStmt) :
    (∀ k A, (runMixed ts).arrayValue k = some A → MakesImage ts (.newBase k) A) ∧
    ∀ j A, (runMixed ts).basePixels j = some A → MakesImage ts (.copyBase j) A ∧
      (∀ y x missing, ∃ B, IsShiftOf A B y x missing ∧ MakesImage ts (.shiftBase j y x missing) B) ∧
      (∀ b : Nat, 1 ≤ b → ∃ B, IsBinningOf A B b ∧ MakesImage ts (.rebinBase j b) B) ∧
      ∀ b : Int, b ≤ 0 → (runMixed ts).exec (.rebinBase j b) = (.error .valueError, runMixed ts) := by
  refine ⟨fun k A hk => makes ?_, fun j A hj => ?_⟩
  · obtain ⟨r, -, h1, h2⟩ := arrayVar_value hk
    simp only [Mixed.exec, h1]
    show _ = (Except.ok (), (runMixed ts).addBase A)
    rw [← h2]
    rfl
  · obtain ⟨r, h1, h0, h2⟩ := baseData_pixels hj
    refine ⟨makes ?_, fun y x m => ?_, fun b hb => ?_, fun b hb => ?_⟩
    · simp only [Mixed.exec, h1]
      rw [← h2]
      rfl
    · obtain ⟨d, hd, hs⟩ := C03_shift A y x m
      refine ⟨d, hs, makes ?_⟩
      simp only [Mixed.exec, h1]
      show (runMixed ts).quiet (shiftKernel ((runMixed ts).values r) y x m >>= _) = _
      rw [h2, hd]
      rfl
    · obtain ⟨d, hd, hs⟩ := C08_rebin A b hb
      refine ⟨d, hs, makes ?_⟩
      simp only [Mixed.exec, h0]
      show (runMixed ts).quiet (imageRebinData ((runMixed ts).values r) b >>= _) = _
      rw [h2]
      rw [hd]
      rfl
    · simp only [Mixed.exec, h0]
      show (runMixed ts).quiet (imageRebinData ((runMixed ts).values r) b >>= _) = _
      unfold imageRebinData
      rw [if_pos hb]
      rfl

example : (runMixed [.array (Img.const 4 4 3), .newBase 0]).basePixels 0 = some (Img.const 4 4 3) := rfl

/-- C123: arithmetic of an `Image` with an `Image`, an array of its shape or a number returns a new `Image` with the result of the operation at
every pixel (where it is defined: no division by 0). -/
theorem C123_image_arith (ts : List MixStmt) (op : Arith) (j : Nat) (junk : Nat → Nat → ℝ) (A : Img ℝ) (hj : (runMixed ts).basePixels j = some A) :
    (∀ B, A.SameShape B → ∀ b : SecondRef, (∃ l, b = .image (.base l) ∧ (runMixed ts).basePixels l = some B) ∨
        (∃ k, b = .plain (.array k) ∧ (runMixed ts).arrayValue k = some B) →
      ∃ C, C.SameShape A ∧ (∀ y x, y < A.h → x < A.w → op.Defined (B.px y x) → C.px y x = op.apply (A.px y x) (B.px y x)) ∧
        MakesImage ts (.arith op (.base j) b junk) C) ∧
    ∀ c, ∃ C, C.SameShape A ∧ (∀ y x, y < A.h → x < A.w → op.Defined c → C.px y x = op.apply (A.px y x) c) ∧
        MakesImage ts (.arith op (.base j) (.plain (.number c)) junk) C := by
  obtain ⟨r, h1, h0, h2⟩ := baseData_pixels hj
  refine ⟨fun B hs b hb => ?_, fun c => ?_⟩
  · obtain ⟨d, hd, hsh, hp⟩ := arith_images_ok op junk hs
    refine ⟨d, hsh, hp, makes ?_⟩
    rcases hb with ⟨l, rfl, hl⟩ | ⟨k, rfl, hk⟩
    · obtain ⟨q, g1, g0, g2⟩ := baseData_pixels hl
      simp only [Mixed.exec, Mixed.baseArith, h1, g1, g0]
      show (runMixed ts).quiet (arithData op junk ((runMixed ts).values r) (.image ((runMixed ts).values q)) >>= _) = _
      rw [h2, g2, hd]
      rfl
    · obtain ⟨q, -, g1, g2⟩ := arrayVar_value hk
      simp only [Mixed.exec, Mixed.baseArith, h1, g1]
      show (runMixed ts).quiet (arithData op junk ((runMixed ts).values r) (.image ((runMixed ts).values q)) >>= _) = _
      rw [h2, show (runMixed ts).values q = B from g2, hd]
      rfl
  · obtain ⟨d, hd, hsh, hp⟩ : ∃ d, arithData op junk A (.number c) = .ok d ∧ d.SameShape A ∧
        ∀ y x, y < A.h → x < A.w → op.Defined c → d.px y x = op.apply (A.px y x) c := arith_number_ok op junk A c
    refine ⟨d, hsh, hp, makes ?_⟩
    simp only [Mixed.exec, Mixed.baseArith, h1]
    show (runMixed ts).quiet (arithData op junk ((runMixed ts).values r) (.number c) >>= _) = _
    rw [h2, hd]
    rfl

example : ∃ ts j l A B, (runMixed ts).basePixels j = some A ∧ (runMixed ts).basePixels l = some B ∧ A.SameShape B ∧ A.px 0 0 ≠ B.px 0 0 := by
  refine ⟨[.array (Img.const 2 2 1), .newBase 0, .array (Img.const 2 2 5), .newBase 1], 0, 1, Img.const 2 2 1, Img.const 2 2 5, rfl, rfl, ⟨rfl, rfl⟩, ?_⟩
  rw [show (Img.const 2 2 (1 : ℝ)).px 0 0 = 1 from Img.ofFn_px (by omega) (by omega),
    show (Img.const 2 2 (5 : ℝ)).px 0 0 = 5 from Img.ofFn_px (by omega) (by omega)]
  norm_num

/-- C123: after any session, a statement on `Image`s and arrays that is not a write, `v = image.data` or `image.data = v` of a `MicropolImage`
changes nothing that a `MicropolImage` or a variable with an array shows. -/
theorem C123_untouched (ts : List MixStmt) (t : MixStmt) (ht : t.Closed) (hv : t.value (runMixed ts) = none) (hw : ∀ k y x c, t ≠ .write k y x c) :
    (runMixed (ts ++ [t])).images = (runMixed ts).images ∧ (runMixed (ts ++ [t])).state.shows = (runMixed ts).state.shows ∧
    ∀ k A, (runMixed ts).arrayValue k = some A → (runMixed (ts ++ [t])).arrayValue k = some A := by
  rw [runMixed_snoc]
  have hg := good_run ts
  have q := exec_quiet ht hv
  have nw : ¬ t.Writes := fun ⟨k, y, x, c, e⟩ => hw k y x c e
  refine ⟨q.images, ?_, fun k A hk => ?_⟩
  · show ((runMixed ts).step t).images.map _ = _
    rw [q.images]
    refine List.map_congr_left fun n hn => ?_
    have hl := (hg.valid.1 n (hg.valid.2 n hn)).1
    have hobj : ((runMixed ts).step t).state.heap.objs.cell n = (runMixed ts).state.heap.objs.cell n := congrArg (Store.cell · n) q.objs
    have hd : ((runMixed ts).step t).state.data n = (runMixed ts).state.data n := by
      show Store.cell _ (((runMixed ts).step t).state.heap.objs.cell n).data = _
      rw [hobj]
      exact q.cells _ hl fun h => absurd h nw
    have hs : ((runMixed ts).step t).state.stokes n = (runMixed ts).state.stokes n := by
      show (Store.cell ((runMixed ts).step t).heap.stokes (((runMixed ts).step t).state.heap.objs.cell n).stokes).planes = _
      rw [hobj, q.stokes]
      rfl
    have hh : ((runMixed ts).step t).state.header n = (runMixed ts).state.header n := by
      show Store.cell ((runMixed ts).step t).heap.headers (((runMixed ts).step t).state.heap.objs.cell n).header = _
      rw [hobj, q.headers]
      rfl
    unfold State.shown State.dic State.isDemosaiced State.demosaiced Heap.dicOf
    rw [hd, hs, hh, hobj]
  · obtain ⟨r, hm, h1, h2⟩ := arrayVar_value hk
    unfold Mixed.arrayValue
    rw [(kept_step (runMixed ts) t).held k r hm]
    show some _ = some A
    rw [q.cells r (hg.held r (List.mem_of_getElem? hm)) fun h => absurd h nw]
    exact congrArg some h2

example : MixStmt.Closed (.newBase 0) ∧ MixStmt.value (runMixed [.array (Img.const 2 2 1)]) (.newBase 0) = none := ⟨trivial, rfl⟩

/-! ## From one class to the other -/

/-- C123: `MicropolImage(image)` for an `Image` does exactly what `MicropolImage(array)` does for an array with the pixels of the image. -/
theorem C123_convert (ts : List MixStmt) (j k : Nat) (A : Img ℝ) (hj : (runMixed ts).basePixels j = some A) (hk : (runMixed ts).arrayValue k = some A)
    (dic : Option AngleDic) (dark flat : Option Nat) (junk : Nat → Nat → ℝ) :
    (runMixed ts).exec (.convert j dic dark flat junk) = (runMixed ts).exec (.construct k dic dark flat junk) := by
  have h1 : MixStmt.value (runMixed ts) (.convert j dic dark flat junk) = some (.call (.fromArray A dic dark flat junk)) := by
    show ((runMixed ts).basePixels j).map _ = _
    rw [hj]; rfl
  have h2 : MixStmt.value (runMixed ts) (.construct k dic dark flat junk) = some (.call (.fromArray A dic dark flat junk)) := by
    show ((runMixed ts).arrayValue k).map _ = _
    rw [hk]; rfl
  rw [exec_value h1, exec_value h2]

/-- C123: `MicropolImage(array, angle_dic)`: pixels, size keywords, dictionary and Stokes maps of the new image. -/
theorem C123_construct (ts : List MixStmt) (k : Nat) (A : Img ℝ) (hk : (runMixed ts).arrayValue k = some A) (hh : A.h % 2 = 0) (hw : A.w % 2 = 0)
    (L : Layout) (dic : AngleDic) (hL : L.Describes dic) (junk : Nat → Nat → ℝ) :
    let s := runMixed ts
    let u := runMixed (ts ++ [.construct k (some dic) none none junk])
    s.Works (.construct k (some dic) none none junk) ∧ ∃ n ∉ s.images, u.images = s.images ++ [n] ∧ u.state.data n = A ∧
      u.state.header n = ⟨A.w, A.h⟩ ∧ u.state.dic n = dic ∧
      IsStokesOf (fun q => A.family (q.val / 2) (q.val % 2)) L (u.state.stokes n) ∧
      (∀ m ∈ s.images, u.state.shown m = s.state.shown m) ∧ (∀ l, u.arrayValue l = s.arrayValue l) ∧ ∀ j, u.basePixels j = s.basePixels j := by
  intro s u
  obtain ⟨r, hm, h1, h2⟩ := arrayVar_value hk
  obtain ⟨q, S, e1, e2, e3⟩ := dataStokes_ok hh hw hL
  rw [split_ok hh hw] at e1
  injection e1 with e1
  have he := construct_eq (s := s) hm (by rw [show s.heap.datas.cell r = A from h2]; exact e2) junk
  rw [show s.heap.datas.cell r = A from h2] at he
  have hu : u = _ := (runMixed_snoc ts _).trans (congrArg Prod.snd he)
  have hg : Good s := good_run ts
  refine ⟨congrArg Prod.fst he, s.heap.objs.size, fun h => (hg.valid.2 _ h).false, by rw [hu], ?_⟩
  have cells : ∀ r, r < s.heap.datas.size → u.heap.datas.cell r = s.heap.datas.cell r := fun r hr => by
    rw [hu]; exact if_neg (Nat.ne_of_lt hr)
  refine ⟨?_, ?_, ?_, ?_, fun m hm => ?_, fun l => ?_, fun j => ?_⟩
  · rw [hu]
    show (freshHeap A S dic s.heap).datas.cell ((freshHeap A S dic s.heap).objs.cell s.heap.objs.size).data = A
    rw [fresh_obj_new]
    exact if_pos rfl
  · rw [hu]
    show (freshHeap A S dic s.heap).headers.cell ((freshHeap A S dic s.heap).objs.cell s.heap.objs.size).header = _
    rw [fresh_obj_new]
    exact if_pos rfl
  · rw [hu]
    show ((freshHeap A S dic s.heap).objs.cell s.heap.objs.size).dic = _
    rw [fresh_obj_new]
    rfl
  · rw [← e1] at e3
    have hst : u.state.stokes s.heap.objs.size = S := ?_
    · rw [hst]; exact e3
    rw [hu]
    show ((freshHeap A S dic s.heap).stokes.cell ((freshHeap A S dic s.heap).objs.cell s.heap.objs.size).stokes).planes = _
    rw [fresh_obj_new]
    exact congrArg StokesVec.planes (if_pos rfl)
  · have hl := hg.valid.2 m hm
    have hR : Refs s.heap m := ⟨hl, hg.valid.1 m hl⟩
    have ho : u.state.heap.objs.cell m = s.state.heap.objs.cell m := by
      rw [hu]; exact fresh_obj_old A S dic hR
    have hd : u.state.data m = s.state.data m := by
      show Store.cell _ (u.state.heap.objs.cell m).data = _
      rw [ho]
      exact cells _ hR.2.1
    have hs : u.state.stokes m = s.state.stokes m := by
      show (Store.cell u.heap.stokes (u.state.heap.objs.cell m).stokes).planes = _
      rw [ho, hu]
      exact congrArg StokesVec.planes (if_neg (Nat.ne_of_lt hR.2.2.1))
    have hhd : u.state.header m = s.state.header m := by
      show Store.cell u.heap.headers (u.state.heap.objs.cell m).header = _
      rw [ho, hu]
      exact if_neg (Nat.ne_of_lt hR.2.2.2)
    unfold State.shown State.dic State.isDemosaiced State.demosaiced Heap.dicOf
    rw [hd, hs, hhd, ho]
  · have e : u.held = s.held := by rw [hu]
    unfold Mixed.arrayValue
    rw [e]
    cases hl : s.held[l]? with
    | none => rfl
    | some q => exact congrArg some (cells q (hg.held q (List.mem_of_getElem? hl)))
  · have e : u.bases = s.bases := by rw [hu]
    unfold Mixed.basePixels
    rw [e]
    cases hl : s.bases[j]? with
    | none => rfl
    | some q =>
      cases q with
      | none => rfl
      | some q => exact congrArg some (cells q (hg.bases q (List.mem_of_getElem? hl)))

example : ∃ ts A, (runMixed ts).arrayValue 0 = some A ∧ (runMixed ts).basePixels 0 = some A ∧ A.h % 2 = 0 ∧ A.w % 2 = 0 ∧
    Layout.Describes ⟨0, 1, 2, 3⟩ polarCamAngles :=
  ⟨[.array (Img.const 4 2 3), .newBase 0], Img.const 4 2 3, rfl, rfl, rfl, rfl, C02_polarCam.1⟩

/-- C123: `Image(image)` for a `MicropolImage` raises nothing and returns an `Image` without pixels. -/
theorem C123_of_micropol (ts : List MixStmt) (i n : Nat) (hi : (runMixed ts).images[i]? = some n) :
    let s := runMixed ts
    let u := runMixed (ts ++ [.ofMicropol i])
    s.Works (.ofMicropol i) ∧ u.bases.length = s.bases.length + 1 ∧ u.Hollow s.bases.length ∧ u.state = s.state ∧
      ∀ l, u.arrayValue l = s.arrayValue l := by
  intro s u
  have h1 : s.image i = .ok n := by unfold Mixed.image; rw [hi]
  have he : s.exec (.ofMicropol i) = (.ok (), { s with bases := s.bases ++ [none] }) := by
    simp only [Mixed.exec, h1]
    rfl
  have hu : u = _ := (runMixed_snoc ts _).trans (congrArg Prod.snd he)
  refine ⟨congrArg Prod.fst he, ?_, ?_, by rw [hu]; rfl, fun l => by rw [hu]; rfl⟩
  · rw [hu]; exact List.length_append
  · rw [hu]
    show (s.bases ++ [none])[s.bases.length]? = _
    rw [List.getElem?_append_right le_rfl, Nat.sub_self]
    rfl

/-- C123, negation for the conversion: the constructor is documented to take an image, but `Image(image)` for a `MicropolImage` does not have
its pixels. -/
theorem C123_of_micropol_false : ¬ ∀ (ts : List MixStmt) (i n : Nat), (runMixed ts).images[i]? = some n →
    (runMixed (ts ++ [.ofMicropol i])).basePixels (runMixed ts).bases.length = some ((runMixed ts).state.data n) := by
  intro h
  obtain ⟨S, -, -, -, hi, -⟩ := oneOfEach_spec (A := Img.const 2 2 1) rfl rfl
  have h0 : (runMixed (oneOfEach (Img.const 2 2 1))).images[0]? = some 0 := by rw [hi]; rfl
  have h1 := h _ 0 0 h0
  have h2 : _ = some none := (C123_of_micropol _ 0 0 h0).2.2.1
  unfold Mixed.basePixels at h1
  rw [h2] at h1
  cases h1

example : ∃ ts n, (runMixed ts).images[0]? = some n := by
  obtain ⟨S, -, -, -, hi, -⟩ := oneOfEach_spec (A := Img.const 2 2 1) rfl rfl
  exact ⟨_, 0, by rw [hi]; rfl⟩

/-- C123: using an `Image` without pixels raises `AttributeError` and changes nothing, until pixels are assigned. -/
theorem C123_hollow (ts : List MixStmt) (j : Nat) (hj : (runMixed ts).Hollow j) :
    let s := runMixed ts
    s.exec (.takeBase j) = (.error .attributeError, s) ∧ s.exec (.copyBase j) = (.error .attributeError, s) ∧
    (∀ y x m, s.exec (.shiftBase j y x m) = (.error .attributeError, s)) ∧
    (∀ b, 1 ≤ b → s.exec (.rebinBase j b) = (.error .attributeError, s)) ∧
    (∀ op c junk, s.exec (.arith op (.base j) (.plain (.number c)) junk) = (.error .attributeError, s)) ∧
    (∀ dic junk, s.exec (.convert j (some dic) none none junk) = (.error .attributeError, s)) ∧
    ∀ k A, s.arrayValue k = some A → s.Works (.assignBase j k) ∧ (runMixed (ts ++ [.assignBase j k])).basePixels j = some A := by
  intro s
  have h0 : s.base j = .ok none := by unfold Mixed.base; rw [show s.bases[j]? = some none from hj]
  have h1 : s.baseData j = .error .attributeError := by unfold Mixed.baseData; rw [h0]; rfl
  refine ⟨?_, ?_, fun y x m => ?_, fun b hb => ?_, fun op c junk => ?_, fun dic junk => ?_, fun k A hk => ?_⟩
  · simp only [Mixed.exec, h1]; rfl
  · simp only [Mixed.exec, h1]; rfl
  · simp only [Mixed.exec, h1]; rfl
  · simp only [Mixed.exec, h0]
    show s.quiet (.error (if b ≤ 0 then _ else _)) = _
    rw [if_neg (by omega)]
    rfl
  · simp only [Mixed.exec, Mixed.baseArith, h1]; rfl
  · show s.fromBase j (some dic) none none junk = _
    unfold Mixed.fromBase
    rw [h0]
    rfl
  · obtain ⟨r, -, g1, g2⟩ := arrayVar_value hk
    have he : s.exec (.assignBase j k) = (.ok (), { s with bases := s.bases.set j (some r) }) := by
      simp only [Mixed.exec, h0, g1]
      rfl
    refine ⟨congrArg Prod.fst he, ?_⟩
    rw [runMixed_snoc, show (runMixed ts).step (.assignBase j k) = _ from congrArg Prod.snd he]
    show Option.map _ (Option.join ((s.bases.set j (some r))[j]?)) = _
    rw [List.getElem?_set_self', show s.bases[j]? = some none from hj]
    exact congrArg some g2

example : ∃ ts j, (runMixed ts).Hollow j ∧ (runMixed ts).arrayValue 0 = some (Img.const 2 2 1) := by
  obtain ⟨S, -, hh, hb, hi, hd, -⟩ := oneOfEach_spec (A := Img.const 2 2 1) rfl rfl
  have h0 : (runMixed (oneOfEach (Img.const 2 2 1))).images[0]? = some 0 := by rw [hi]; rfl
  obtain ⟨-, -, h3, -, h4⟩ := C123_of_micropol _ 0 0 h0
  refine ⟨_, _, h3, (h4 0).trans ?_⟩
  unfold Mixed.arrayValue
  rw [hh]
  exact congrArg some hd

/-- C123: an image of one class combined with an image of the other, and an array or a number on the left of an image, raise `TypeError`; nothing
changes. -/
theorem C123_type_errors (ts : List MixStmt) (op : Arith) (junk : Nat → Nat → ℝ) (i n j : Nat) (b : Option Nat)
    (hi : (runMixed ts).images[i]? = some n) (hj : (runMixed ts).bases[j]? = some b) :
    let s := runMixed ts
    s.exec (.arith op (.micropol i) (.image (.base j)) junk) = (.error .typeError, s) ∧
    (b ≠ none → s.exec (.arith op (.base j) (.image (.micropol i)) junk) = (.error .typeError, s)) ∧
    ∀ a : PlainRef, (∃ c, a = .number c) ∨ (∃ k A, a = .array k ∧ s.arrayValue k = some A) →
      s.exec (.reflected op a (.micropol i)) = (.error .typeError, s) ∧ s.exec (.reflected op a (.base j)) = (.error .typeError, s) := by
  intro s
  have h1 : s.image i = .ok n := by unfold Mixed.image; rw [hi]
  have h0 : s.base j = .ok b := by unfold Mixed.base; rw [hj]
  refine ⟨?_, fun hb => ?_, fun a ha => ?_⟩
  · simp only [Mixed.exec, Mixed.micropolArith, h1, h0]; rfl
  · obtain ⟨r, rfl⟩ := Option.ne_none_iff_exists'.1 hb
    have h2 : s.baseData j = .ok r := by unfold Mixed.baseData; rw [h0]; rfl
    simp only [Mixed.exec, Mixed.baseArith, h1, h2]; rfl
  · rcases ha with ⟨c, rfl⟩ | ⟨k, A, rfl, hk⟩
    · simp only [Mixed.exec, h1, h0]; exact ⟨rfl, rfl⟩
    · obtain ⟨r, -, g1, -⟩ := arrayVar_value hk
      simp only [Mixed.exec, h1, h0, g1]; exact ⟨rfl, rfl⟩

example : ∃ ts n r, (runMixed ts).images[0]? = some n ∧ (runMixed ts).bases[0]? = some (some r) := by
  obtain ⟨S, -, hh, hb, hi, hd, -⟩ := oneOfEach_spec (A := Img.const 2 2 1) rfl rfl
  have hk : (runMixed (oneOfEach (Img.const 2 2 1))).arrayValue 0 = some (Img.const 2 2 1) := by
    unfold Mixed.arrayValue
    rw [hh]
    exact congrArg some hd
  obtain ⟨-, -, h⟩ := (C123_new_images (oneOfEach (Img.const 2 2 1))).1 0 _ hk
  rw [hb] at h
  obtain ⟨r, hr, -⟩ := base_value h
  refine ⟨_, 0, r, ?_, hr⟩
  rw [(C123_untouched _ (.newBase 0) trivial rfl fun _ _ _ _ h => by cases h).1, hi]
  rfl

/-! ## An image and an array -/

/-- C123: `image op array` for a `MicropolImage` and an array of its shape: a new image with the result of the operation at every pixel (where
it is defined), the dictionary and the header of the image, and the Stokes maps of its own pixels; nothing else changes. -/
theorem C123_array_operand (ts : List MixStmt) (op : Arith) (i n k : Nat) (B : Img ℝ) (junk : Nat → Nat → ℝ)
    (hi : (runMixed ts).images[i]? = some n) (hk : (runMixed ts).arrayValue k = some B)
    (hs : ((runMixed ts).state.data n).SameShape B) (hh : ((runMixed ts).state.data n).h % 2 = 0) (hw : ((runMixed ts).state.data n).w % 2 = 0)
    (L : Layout) (hL : L.Describes ((runMixed ts).state.dic n)) :
    let s := runMixed ts
    let u := runMixed (ts ++ [.arith op (.micropol i) (.plain (.array k)) junk])
    s.Works (.arith op (.micropol i) (.plain (.array k)) junk) ∧ ∃ m ∉ s.images, u.images = s.images ++ [m] ∧
      (u.state.data m).SameShape (s.state.data n) ∧
      (∀ y x, y < (s.state.data n).h → x < (s.state.data n).w → op.Defined (B.px y x) →
        (u.state.data m).px y x = op.apply ((s.state.data n).px y x) (B.px y x)) ∧
      u.state.dic m = s.state.dic n ∧ u.state.header m = s.state.header n ∧
      IsStokesOf (fun q => (u.state.data m).family (q.val / 2) (q.val % 2)) L (u.state.stokes m) ∧
      (∀ l ∈ s.images, u.state.shown l = s.state.shown l) ∧ (∀ l, u.arrayValue l = s.arrayValue l) ∧ ∀ j, u.basePixels j = s.basePixels j := by
  intro s u
  have hg : Good s := good_run ts
  have hn := hg.valid.2 n (List.mem_of_getElem? hi)
  obtain ⟨d, hd, hsh, hp⟩ := arith_images_ok op junk hs
  obtain ⟨q, S, e1, e2, e3⟩ := dataStokes_ok (d := d) (by rw [hsh.1]; exact hh) (by rw [hsh.2]; exact hw) hL
  rw [split_ok (by rw [hsh.1]; exact hh) (by rw [hsh.2]; exact hw)] at e1
  injection e1 with e1
  have hv : MixStmt.value s (.arith op (.micropol i) (.plain (.array k)) junk) = some (.arithArray op i B junk) := by
    show (s.arrayValue k).map _ = _
    rw [show s.arrayValue k = some B from hk]; rfl
  have hrun : s.state.arithArray op i B junk = (.ok (), ⟨arithHeap n d S s.heap, s.images ++ [s.heap.objs.size]⟩) := by
    rcases arithArray_cases hg.valid op i B junk with ⟨e, h⟩ | ⟨a, d', S', ha, h1, h2, h3⟩
    · exfalso
      have : (s.state.arithArray op i B junk).1 = .ok () := by
        unfold State.arithArray named
        rw [show s.state.images[i]? = some n from hi]
        have e : (M.lift (Except.ok n) >>= fun i => arithArrayObj op junk i B : M Nat) s.state.heap = arithArrayObj op junk n B s.heap := rfl
        have hn' : n < s.heap.objs.size := hn
        dsimp only
        rw [e, arithArray_eq hn', show arithData op junk (s.heap.dataOf n) (.image B) = .ok d from hd]
        dsimp only
        rw [show dataStokes d (s.heap.dicOf n) = .ok S from e2]
      rw [h] at this
      cases this
    · have : a = n := by
        have : s.images[i]? = some a := ha
        rw [hi] at this
        injection this with this
        exact this.symm
      subst this
      rw [show arithData op junk (s.state.heap.dataOf a) (.image B) = .ok d from hd] at h1
      injection h1 with h1
      subst h1
      rw [show dataStokes d (s.state.heap.dicOf a) = .ok S from e2] at h2
      injection h2 with h2
      subst h2
      exact h3
  have he := exec_value hv
  rw [show ValueStmt.run s.state (.arithArray op i B junk) = _ from hrun] at he
  have hu : u = _ := (runMixed_snoc ts _).trans (congrArg Prod.snd he)
  have cells : ∀ r, r < s.heap.datas.size → u.heap.datas.cell r = s.heap.datas.cell r := fun r hr => by
    rw [hu]; exact if_neg (Nat.ne_of_lt hr)
  have hnew : u.state.heap.objs.cell s.heap.objs.size =
      { blankObj s.heap.datas.size s.heap.stokes.size s.heap.headers.size (s.heap.dicOf n) with header := (s.heap.objs.cell n).header } := by
    rw [hu]; exact arithHeap_new
  have hdat : u.state.data s.heap.objs.size = d := by
    show Store.cell u.heap.datas (u.state.heap.objs.cell s.heap.objs.size).data = _
    rw [hnew, hu]
    exact if_pos rfl
  refine ⟨congrArg Prod.fst he, s.heap.objs.size, fun h => (hg.valid.2 _ h).false, by rw [hu]; rfl, by rw [hdat]; exact hsh, by rw [hdat]; exact hp, ?_⟩
  refine ⟨?_, ?_, ?_, fun m hm => ?_, fun l => ?_, fun j => ?_⟩
  · show (u.state.heap.objs.cell s.heap.objs.size).dic = _
    rw [hnew]
    rfl
  · show Store.cell u.heap.headers (u.state.heap.objs.cell s.heap.objs.size).header = _
    rw [hnew, hu]
    exact if_neg (Nat.ne_of_lt (hg.valid.1 n hn).2.2)
  · rw [hdat]
    rw [← e1] at e3
    have hst : u.state.stokes s.heap.objs.size = S := ?_
    · rw [hst]; exact e3
    show (Store.cell u.heap.stokes (u.state.heap.objs.cell s.heap.objs.size).stokes).planes = _
    rw [hnew, hu]
    exact congrArg StokesVec.planes (if_pos rfl)
  · have hl := hg.valid.2 m hm
    have hR : Refs s.heap m := ⟨hl, hg.valid.1 m hl⟩
    have ho : u.state.heap.objs.cell m = s.state.heap.objs.cell m := by
      rw [hu]; exact arithHeap_old hl
    have hd : u.state.data m = s.state.data m := by
      show Store.cell _ (u.state.heap.objs.cell m).data = _
      rw [ho]
      exact cells _ hR.2.1
    have hs : u.state.stokes m = s.state.stokes m := by
      show (Store.cell u.heap.stokes (u.state.heap.objs.cell m).stokes).planes = _
      rw [ho, hu]
      exact congrArg StokesVec.planes (if_neg (Nat.ne_of_lt hR.2.2.1))
    have hhd : u.state.header m = s.state.header m := by
      show Store.cell u.heap.headers (u.state.heap.objs.cell m).header = _
      rw [ho, hu]
      exact if_neg (Nat.ne_of_lt hR.2.2.2)
    unfold State.shown State.dic State.isDemosaiced State.demosaiced Heap.dicOf
    rw [hd, hs, hhd, ho]
  · have e : u.held = s.held := by rw [hu]; rfl
    unfold Mixed.arrayValue
    rw [e]
    cases hl : s.held[l]? with
    | none => rfl
    | some q => exact congrArg some (cells q (hg.held q (List.mem_of_getElem? hl)))
  · have e : u.bases = s.bases := by rw [hu]; rfl
    unfold Mixed.basePixels
    rw [e]
    cases hl : s.bases[j]? with
    | none => rfl
    | some q =>
      cases q with
      | none => rfl
      | some q => exact congrArg some (cells q (hg.bases q (List.mem_of_getElem? hl)))

example : ∃ ts n B, (runMixed ts).images[0]? = some n ∧ (runMixed ts).arrayValue 0 = some B ∧ ((runMixed ts).state.data n).SameShape B ∧
    ((runMixed ts).state.data n).h % 2 = 0 ∧ ((runMixed ts).state.data n).w % 2 = 0 ∧
    Layout.Describes ⟨0, 1, 2, 3⟩ ((runMixed ts).state.dic n) := by
  obtain ⟨S, -, hh, hb, hi, hd, hdd, -, hdic⟩ := oneOfEach_spec (A := Img.const 2 2 1) rfl rfl
  refine ⟨oneOfEach (Img.const 2 2 1), 0, Img.const 2 2 1, by rw [hi]; rfl, ?_, by rw [hdd]; exact ⟨rfl, rfl⟩, by rw [hdd]; rfl, by rw [hdd]; rfl,
    by rw [hdic]; exact C02_polarCam.1⟩
  unfold Mixed.arrayValue
  rw [hh]
  exact congrArg some hd

end

end Micropol

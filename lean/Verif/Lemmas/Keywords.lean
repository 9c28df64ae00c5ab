import Verif.Spec.Keywords
import Verif.Lemmas.Groups
import Verif.Lemmas.ObjectHeader

/-! # Keywords: references and families -/

set_option autoImplicit false
set_option linter.unusedSectionVars false

namespace Micropol

open M

noncomputable section

open Classical

theorem snoc_getElem {α : Type} {l : List α} {a x : α} {i : Nat} (h : (l ++ [a])[i]? = some x) :
    (l[i]? = some x) ∨ (i = l.length ∧ x = a) := by
  rcases lt_trichotomy i l.length with hlt | rfl | hgt
  · rw [List.getElem?_append_left hlt] at h; exact .inl h
  · rw [List.getElem?_append_right le_rfl, Nat.sub_self] at h
    exact .inr ⟨rfl, (Option.some.inj h).symm⟩
  · rw [List.getElem?_eq_none (by simp; omega)] at h; cases h

/-- The header reference of an object. -/
def Archive.ref (s : Archive) (k : Nat) : Nat := (s.mem.heap.objs.cell k).header

theorem cardsOf_ref (s : Archive) (k : Nat) : s.cardsOf k = s.cards (s.ref k) := rfl

/-- The session is as the description tells. -/
structure Told (s : Archive) (ds : List Described) : Prop where
  valid : Valid s.mem
  len : ds.length = s.mem.images.length
  cards : ∀ {i k : Nat} {d : Described}, s.mem.images[i]? = some k → ds[i]? = some d → s.cardsOf k = d.cards
  fam : ∀ {i j k l : Nat} {d e : Described}, s.mem.images[i]? = some k → s.mem.images[j]? = some l → ds[i]? = some d →
    ds[j]? = some e → (s.ref k = s.ref l ↔ d.family = e.family)
  bound : ∀ d ∈ ds, d.family < ds.length

variable {s t : Archive} {ds : List Described}

theorem Told.entry (h : Told s ds) {i k : Nat} (hk : s.mem.images[i]? = some k) : ∃ d, ds[i]? = some d := by
  have := (List.getElem?_eq_some_iff.1 hk).1
  exact ⟨ds[i]'(by rw [h.len]; exact this), List.getElem?_eq_getElem _⟩

theorem Told.image (h : Told s ds) {i : Nat} {d : Described} (hd : ds[i]? = some d) : ∃ k, s.mem.images[i]? = some k := by
  have := (List.getElem?_eq_some_iff.1 hd).1
  exact ⟨s.mem.images[i]'(by rw [← h.len]; exact this), List.getElem?_eq_getElem _⟩

/-- No new image, no keyword written. -/
theorem Told.keep (h : Told s ds) (hv : Valid t.mem) (hi : t.mem.images = s.mem.images)
    (hr : ∀ k ∈ s.mem.images, t.ref k = s.ref k) (hc : t.cards = s.cards) : Told t ds where
  valid := hv
  len := by rw [hi]; exact h.len
  cards {i k d} hk hd := by
    rw [hi] at hk
    rw [cardsOf_ref, hc, hr k (List.mem_of_getElem? hk)]
    exact h.cards hk hd
  fam {i j k l d e} hk hl hd he := by
    rw [hi] at hk hl
    rw [hr k (List.mem_of_getElem? hk), hr l (List.mem_of_getElem? hl)]
    exact h.fam hk hl hd he
  bound := h.bound

/-- A new image. -/
theorem Told.add (h : Told s ds) {n : Nat} {d : Described} (hv : Valid t.mem) (hi : t.mem.images = s.mem.images ++ [n])
    (hr : ∀ k ∈ s.mem.images, t.ref k = s.ref k) (hc : ∀ k ∈ s.mem.images, t.cards (s.ref k) = s.cards (s.ref k))
    (hn : t.cardsOf n = d.cards) (hb : d.family ≤ ds.length)
    (hf : ∀ {i k : Nat} {e : Described}, s.mem.images[i]? = some k → ds[i]? = some e → (t.ref n = s.ref k ↔ d.family = e.family)) :
    Told t (ds ++ [d]) where
  valid := hv
  len := by rw [hi, List.length_append, List.length_append, h.len]; rfl
  cards {i k e} hk he := by
    rw [hi] at hk
    rcases snoc_getElem hk with hk | ⟨rfl, rfl⟩
    · rcases snoc_getElem he with he | ⟨rfl, rfl⟩
      · rw [cardsOf_ref, hr k (List.mem_of_getElem? hk), hc k (List.mem_of_getElem? hk)]
        exact h.cards hk he
      · exact absurd (List.getElem?_eq_some_iff.1 hk).1 (by rw [h.len]; exact lt_irrefl _)
    · rcases snoc_getElem he with he | ⟨-, rfl⟩
      · exact absurd (List.getElem?_eq_some_iff.1 he).1 (by rw [h.len]; exact lt_irrefl _)
      · exact hn
  fam {i j k l a b} hk hl ha hb' := by
    rw [hi] at hk hl
    have old : ∀ {i k : Nat} {a : Described}, s.mem.images[i]? = some k → (ds ++ [d])[i]? = some a → ds[i]? = some a := by
      intro i k a hk ha
      rcases snoc_getElem ha with ha | ⟨rfl, -⟩
      · exact ha
      · exact absurd (List.getElem?_eq_some_iff.1 hk).1 (by rw [h.len]; exact lt_irrefl _)
    have new : ∀ {a : Described}, (ds ++ [d])[s.mem.images.length]? = some a → a = d := by
      intro a ha
      rcases snoc_getElem ha with ha | ⟨-, ha⟩
      · exact absurd (List.getElem?_eq_some_iff.1 ha).1 (by rw [h.len]; exact lt_irrefl _)
      · exact ha
    replace hk := snoc_getElem hk
    replace hl := snoc_getElem hl
    rcases hk with hk | ⟨rfl, rfl⟩ <;> rcases hl with hl | ⟨rfl, rfl⟩
    · rw [hr k (List.mem_of_getElem? hk), hr l (List.mem_of_getElem? hl)]
      exact h.fam hk hl (old hk ha) (old hl hb')
    · rw [hr k (List.mem_of_getElem? hk), new hb']
      exact ⟨fun e => ((hf hk (old hk ha)).1 e.symm).symm, fun e => ((hf hk (old hk ha)).2 e.symm).symm⟩
    · rw [hr l (List.mem_of_getElem? hl), new ha]
      exact hf hl (old hl hb')
    · rw [new ha, new hb']
      exact ⟨fun _ => rfl, fun _ => rfl⟩
  bound e he := by
    rw [List.length_append]
    rcases List.mem_append.1 he with he | he
    · exact (h.bound e he).trans (Nat.lt_succ_self _)
    · rw [List.mem_singleton.1 he]; exact Nat.lt_succ_of_le hb

/-- A keyword written to image `i`. -/
theorem Told.write (h : Told s ds) {i k : Nat} {d : Described} (key : Keyword) (v : CardValue) (hk : s.mem.images[i]? = some k)
    (hd : ds[i]? = some d) :
    Told ⟨s.mem, Function.update s.cards (s.ref k) ((s.cardsOf k).set key v), s.disk⟩
      (ds.map fun e => if e.family = d.family then ⟨e.family, e.cards.set key v⟩ else e) := by
  have look : ∀ {j : Nat} {e : Described}, (ds.map fun e => if e.family = d.family then
      (⟨e.family, e.cards.set key v⟩ : Described) else e)[j]? = some e →
      ∃ e', ds[j]? = some e' ∧ e = if e'.family = d.family then ⟨e'.family, e'.cards.set key v⟩ else e' := by
    intro j e he
    rw [List.getElem?_map, Option.map_eq_some_iff] at he
    obtain ⟨e', h1, h2⟩ := he
    exact ⟨e', h1, h2.symm⟩
  have fm : ∀ e' : Described, (if e'.family = d.family then (⟨e'.family, e'.cards.set key v⟩ : Described) else e').family =
      e'.family := by
    intro e'; split <;> rfl
  refine ⟨h.valid, by rw [List.length_map]; exact h.len, ?_, ?_, ?_⟩
  · intro j l e hl he
    obtain ⟨e', he', rfl⟩ := look he
    show Function.update s.cards (s.ref k) _ (s.ref l) = _
    by_cases hfam : e'.family = d.family
    · rw [(h.fam hl hk he' hd).2 hfam, Function.update_self, if_pos hfam, cardsOf_ref, ← (h.fam hl hk he' hd).2 hfam,
        ← cardsOf_ref, h.cards hl he']
    · rw [Function.update_of_ne fun e => hfam ((h.fam hl hk he' hd).1 e), if_neg hfam]
      exact h.cards hl he'
  · intro j j' l l' e e' hl hl' he he'
    obtain ⟨f, hf, rfl⟩ := look he
    obtain ⟨f', hf', rfl⟩ := look he'
    rw [fm, fm]
    exact h.fam hl hl' hf hf'
  · intro e he
    obtain ⟨e', he', rfl⟩ := List.mem_map.1 he
    rw [fm, List.length_map]
    exact h.bound e' he'

/-! ## Calls -/

theorem stmt_refs (h : Told s ds) (o : Op) (k : Nat) (hk : k ∈ s.mem.images) :
    ((step s.mem o).heap.objs.cell k).header = s.ref k := (step_frame h.valid o).hdr k (h.valid.2 k hk)

theorem header_fresh (hv : Valid s.mem) (o : Op) (ho : o.source = none) {n : Nat}
    (hn : (step s.mem o).images = s.mem.images ++ [n]) (k : Nat) (hk : k ∈ s.mem.images) :
    ((step s.mem o).heap.objs.cell n).header ≠ s.ref k := by
  have hc : Conf (fun z => z < s.mem.heap.objs.size) s.mem.heap s.mem.heap :=
    ⟨hv.1, le_rfl, fun _ h => h, fun _ _ => rfl, fun _ _ => rfl, fun _ _ => rfl, fun _ _ => rfl,
      fun _ _ _ hb hlt => absurd hlt hb⟩
  obtain ⟨hc', him⟩ := conf_step (s := s.mem) o (fun i k hi => by rw [ho] at hi; cases hi) hc
  rcases him with him | ⟨m, him, hlt, hz⟩
  · rw [him] at hn
    have := congrArg List.length hn
    simp at this
  · rw [him] at hn
    have e : m = n := by simpa using hn
    subst e
    exact (hc'.apart k m (hv.2 k hk) hz hlt).2

theorem header_shared (hv : Valid s.mem) (o : Op) {i k n : Nat} (hs : o.source = some i) (hk : s.mem.images[i]? = some k)
    (hn : (exec s.mem.images o s.mem.heap).1 = .ok (some n)) : ((step s.mem o).heap.objs.cell n).header = s.ref k := by
  cases hp : o.inPlace with
  | false =>
    have := (ref_exec hv o ⟨i, hs, hk⟩ hp s.mem.heap rfl).1 (some n) hn n rfl
    rw [← step_heap] at this
    exact this
  | true =>
    obtain ⟨j, hj, hjn⟩ := (step_new hv o hn).2.1 hp
    rw [hs] at hj
    cases hj
    rw [hk] at hjn
    cases hjn
    exact (step_frame hv o).hdr k (hv.2 k (List.mem_of_getElem? hk))

/-- A call on an undefined variable returns nothing. -/
theorem named_source (o : Op) {images : List Nat} {h : Heap} {i n : Nat} (hs : o.source = some i)
    (hn : (exec images o h).1 = .ok (some n)) : ∃ k, images[i]? = some k := by
  cases hk : images[i]? with
  | some k => exact ⟨k, rfl⟩
  | none =>
    exfalso
    have bad : ∀ {α : Type} (f : Nat → M α), ((named images i >>= f) h).1 = .error .nameError := by
      intro α f
      show (M.bind (named images i) f h).1 = _
      unfold M.bind named M.lift
      rw [hk]
    cases o <;> cases hs <;> (unfold exec at hn; dsimp only at hn; rw [bad] at hn; cases hn)

/-! ## Statements -/

theorem constructed_keep {t : State} {c : Cards} (h : t.images = s.mem.images) : s.constructed t c = ⟨t, s.cards, s.disk⟩ := by
  unfold Archive.constructed
  rw [h, List.drop_length]

theorem constructed_new {t : State} {c : Cards} {n : Nat} (h : t.images = s.mem.images ++ [n]) :
    s.constructed t c = ⟨t, Function.update s.cards (t.heap.objs.cell n).header c, s.disk⟩ := by
  unfold Archive.constructed
  rw [h, List.drop_left]

theorem constructed_mem (t : State) (c : Cards) : (s.constructed t c).mem = t := by
  unfold Archive.constructed
  split <;> rfl

theorem constructed_disk (t : State) (c : Cards) : (s.constructed t c).disk = s.disk := by
  unfold Archive.constructed
  split <;> rfl

theorem step_grows (s : State) (o : Op) : (step s o).images = s.images ∨ ∃ n, (exec s.images o s.heap).1 = .ok (some n) ∧
    (step s o).images = s.images ++ [n] := step_images s o

/-- A construction. -/
theorem Told.construct (h : Told s ds) (o : Op) (ho : o.source = none) (c : Cards) :
    ((step s.mem o).images = s.mem.images ∧ Told (s.constructed (step s.mem o) c) ds) ∨
    (∃ n, (step s.mem o).images = s.mem.images ++ [n] ∧ (s.constructed (step s.mem o) c).cardsOf n = c ∧
      Told (s.constructed (step s.mem o) c) (ds ++ [⟨ds.length, c⟩])) := by
  rcases step_images s.mem o with hi | ⟨n, hx, hi⟩
  · refine .inl ⟨hi, ?_⟩
    rw [constructed_keep hi]
    exact h.keep (step_valid h.valid o) hi (fun k hk => stmt_refs h o k hk) rfl
  · refine .inr ⟨n, hi, ?_⟩
    rw [constructed_new hi]
    have hfresh := header_fresh h.valid o ho hi
    have hc : Function.update s.cards ((step s.mem o).heap.objs.cell n).header c ((step s.mem o).heap.objs.cell n).header = c :=
      Function.update_self ..
    refine ⟨hc, h.add (step_valid h.valid o) hi (fun k hk => stmt_refs h o k hk) (fun k hk => ?_) hc le_rfl ?_⟩
    · exact Function.update_of_ne (hfresh k hk).symm ..
    · intro i k e hk he
      refine ⟨fun e' => absurd e' (hfresh k (List.mem_of_getElem? hk)), fun e' => ?_⟩
      have := h.bound e (List.mem_of_getElem? he)
      exact absurd e'.symm (Nat.ne_of_lt this)

/-- A call other than a construction from an array. -/
theorem Told.call (h : Told s ds) (o : Op) :
    ((step s.mem o).images = s.mem.images ∧ Told ⟨step s.mem o, s.cards, s.disk⟩ ds) ∨
    (∃ n, (step s.mem o).images = s.mem.images ++ [n] ∧ ∀ i, o.source = some i → ∃ k d, s.mem.images[i]? = some k ∧ ds[i]? = some d ∧
      Told ⟨step s.mem o, s.cards, s.disk⟩ (ds ++ [d])) := by
  rcases step_images s.mem o with hi | ⟨n, hx, hi⟩
  · exact .inl ⟨hi, h.keep (step_valid h.valid o) hi (fun k hk => stmt_refs h o k hk) rfl⟩
  · refine .inr ⟨n, hi, fun i hs => ?_⟩
    obtain ⟨k, hk⟩ := named_source o hs hx
    obtain ⟨d, hd⟩ := h.entry hk
    have hr := header_shared h.valid o hs hk hx
    refine ⟨k, d, hk, hd, h.add (step_valid h.valid o) hi (fun k hk => stmt_refs h o k hk) (fun _ _ => rfl) ?_
      (Nat.le_of_lt (h.bound d (List.mem_of_getElem? hd))) ?_⟩
    · show s.cards ((step s.mem o).heap.objs.cell n).header = _
      rw [hr]
      exact h.cards hk hd
    · intro j l e hl he
      show ((step s.mem o).heap.objs.cell n).header = _ ↔ _
      rw [hr]
      exact h.fam hk hl hd he

theorem Told.resolve (h : Told s ds) (dic : Option AngleDic) : Told ⟨⟨(resolveDic dic s.mem.heap).2, s.mem.images⟩, s.cards, s.disk⟩ ds := by
  have hw : Valid ⟨(resolveDic dic s.mem.heap).2, s.mem.images⟩ ∧ (resolveDic dic s.mem.heap).2.objs = s.mem.heap.objs := by
    have hv := h.valid
    unfold resolveDic
    split <;> first | exact ⟨hv, rfl⟩ | (split <;> exact ⟨hv, rfl⟩)
  refine h.keep hw.1 rfl (fun k _ => ?_) rfl
  show ((resolveDic dic s.mem.heap).2.objs.cell k).header = _
  rw [hw.2]
  rfl

theorem getLast_snoc_keywords {n : Nat} (h : t.mem.images = s.mem.images ++ [n]) :
    (t.keywords.getLast?).getD (fun _ => none) = t.cardsOf n := by
  unfold Archive.keywords Archive.images
  rw [h, List.map_append]
  simp

theorem describe_same {st : Stmt} (hi : t.mem.images = s.mem.images) (hs : st.isSet = false) : describe s t ds st = ds := by
  unfold describe Archive.images
  rw [if_pos (by rw [hi])]
  cases st <;> first | rfl | cases hs

theorem snoc_length_ne {n : Nat} (hi : t.mem.images = s.mem.images ++ [n]) : ¬ t.images.length = s.images.length := by
  unfold Archive.images
  rw [hi]
  simp

theorem describe_load {n : Nat} (hi : t.mem.images = s.mem.images ++ [n]) (arg : LoadArg) (average : Bool) (dic : Option AngleDic)
    (dark flat : Option Nat) (junk : Nat → Nat → ℝ) :
    describe s t ds (.load arg average dic dark flat junk) = ds ++ [⟨ds.length, t.cardsOf n⟩] := by
  unfold describe
  rw [if_neg (snoc_length_ne hi)]
  dsimp only
  rw [getLast_snoc_keywords hi]

theorem describe_call {n : Nat} (hi : t.mem.images = s.mem.images ++ [n]) (o : Op) {i : Nat} {d : Described} (hs : o.source = some i)
    (hd : ds[i]? = some d) : describe s t ds (.call o) = ds ++ [d] := by
  unfold describe
  rw [if_neg (snoc_length_ne hi)]
  dsimp only
  rw [hs, Option.bind_some, hd]

theorem describe_array {n : Nat} (hi : t.mem.images = s.mem.images ++ [n]) (o : Op) (hs : o.source = none) :
    describe s t ds (.call o) = ds ++ [⟨ds.length, fun _ => none⟩] := by
  unfold describe
  rw [if_neg (snoc_length_ne hi)]
  dsimp only
  rw [hs, Option.bind_none]

theorem stmt_save (clock : Clock) {st : Stmt} (h : st.isSave = true) :
    s.stmt clock st = ⟨s.mem, s.cards, writeHdus s.disk (st.writes s)⟩ := by
  cases st <;> first | rfl | cases h

theorem stmt_call (clock : Clock) (o : Op) {i : Nat} (h : o.source = some i) :
    s.stmt clock (.call o) = ⟨step s.mem o, s.cards, s.disk⟩ := by
  cases o <;> first | rfl | cases h

theorem Told.stmt (h : Told s ds) (clock : Clock) (st : Stmt) : Told (s.stmt clock st) (describe s (s.stmt clock st) ds st) := by
  have save : st.isSave = true → Told (s.stmt clock st) (describe s (s.stmt clock st) ds st) := by
    intro hs
    have hset : st.isSet = false := by cases st <;> first | rfl | cases hs
    rw [stmt_save clock hs, describe_same (s := s) (t := ⟨s.mem, s.cards, writeHdus s.disk (st.writes s)⟩) rfl hset]
    exact h.keep h.valid rfl (fun _ _ => rfl) rfl
  cases st with
  | save => exact save rfl
  | saveSingle => exact save rfl
  | saveParam => exact save rfl
  | saveAll => exact save rfl
  | saveDemosaiced => exact save rfl
  | setCard i key v =>
    cases hk : s.mem.images[i]? with
    | none =>
      have e : s.stmt clock (.setCard i key v) = s := by
        show (match s.mem.images[i]? with | none => s | some k => _) = s
        rw [hk]
      rw [e]
      have hd : ds[i]? = none := by
        rw [List.getElem?_eq_none_iff] at hk ⊢
        rw [h.len]; exact hk
      unfold describe
      rw [if_pos rfl]
      dsimp only
      rw [hd]
      exact h
    | some k =>
      obtain ⟨d, hd⟩ := h.entry hk
      have e : s.stmt clock (.setCard i key v) =
          ⟨s.mem, Function.update s.cards (s.ref k) ((s.cardsOf k).set key v), s.disk⟩ := by
        show (match s.mem.images[i]? with | none => s | some k => _) = _
        rw [hk]
        rfl
      rw [e]
      unfold describe Archive.images
      rw [if_pos rfl]
      dsimp only
      rw [hd]
      exact h.write key v hk hd
  | call o =>
    cases hs : o.source with
    | some i =>
      rw [stmt_call clock o hs]
      rcases h.call o with ⟨hi, ht⟩ | ⟨n, hi, ht⟩
      · rw [describe_same hi rfl]; exact ht
      · obtain ⟨k, d, -, hd, ht⟩ := ht i hs
        rw [describe_call hi o hs hd]; exact ht
    | none =>
      have con : ∀ o : Op, o.source = none → s.stmt clock (.call o) = s.constructed (step s.mem o) (fun _ => none) →
          Told (s.stmt clock (.call o)) (describe s (s.stmt clock (.call o)) ds (.call o)) := by
        intro o hs e
        rw [e]
        rcases h.construct o hs (fun _ => none) with ⟨hi, ht⟩ | ⟨n, hi, -, ht⟩
        · rw [describe_same (by rw [constructed_mem]; exact hi) rfl]; exact ht
        · rw [describe_array (n := n) (by rw [constructed_mem]; exact hi) o hs]; exact ht
      cases o with
      | setDefault dic =>
        refine con _ hs ?_
        rw [constructed_keep (t := step s.mem (.setDefault dic)) rfl]
        rfl
      | fromArray d dic dark flat junk => exact con _ hs rfl
      | _ => cases hs
  | load arg average dic dark flat junk =>
    have bad : Told ⟨⟨(resolveDic dic s.mem.heap).2, s.mem.images⟩, s.cards, s.disk⟩
        (describe s ⟨⟨(resolveDic dic s.mem.heap).2, s.mem.images⟩, s.cards, s.disk⟩ ds (.load arg average dic dark flat junk)) := by
      rw [describe_same (s := s) (t := ⟨⟨(resolveDic dic s.mem.heap).2, s.mem.images⟩, s.cards, s.disk⟩) rfl rfl]
      exact h.resolve dic
    unfold Archive.stmt
    dsimp only
    split
    · rename_i r f hr hf
      rcases h.construct (.fromArray r.data dic dark flat junk) rfl (loadedCards f.cards r) with ⟨hi, ht⟩ | ⟨n, hi, hc, ht⟩
      · rw [describe_same (by rw [constructed_mem]; exact hi) rfl]; exact ht
      · rw [describe_load (n := n) (by rw [constructed_mem]; exact hi), hc]; exact ht
    · exact bad

theorem told_nil (clock : Clock) (disk : Name → Option Hdu) : Told (archive clock disk []) [] where
  valid := init_valid
  len := rfl
  cards h := by cases h
  fam h := by cases h
  bound _ h := by cases h

theorem Told.from (h : Told s ds) (clock : Clock) (l : List Stmt) :
    Told (l.foldl (Archive.stmt clock) s) (describedFrom clock s ds l) := by
  induction l generalizing s ds with
  | nil => exact h
  | cons st l ih => exact ih (h.stmt clock st)

theorem told (clock : Clock) (disk : Name → Option Hdu) (l : List Stmt) : Told (archive clock disk l) (described clock disk l) :=
  (told_nil clock disk).from clock l

theorem archive_snoc (clock : Clock) (disk : Name → Option Hdu) (l : List Stmt) (st : Stmt) :
    archive clock disk (l ++ [st]) = (archive clock disk l).stmt clock st := by
  unfold archive
  rw [List.foldl_append]
  rfl

end

end Micropol

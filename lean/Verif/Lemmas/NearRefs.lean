import Verif.Lemmas.EditMaps
import Verif.Lemmas.ObjectExec

/-! # Which images share their Stokes vector, in two sessions -/

set_option autoImplicit false
set_option linter.unusedSectionVars false

namespace Micropol

noncomputable section

variable {s t : State} {o o' : Op}

/-! ## Calls in place that raise -/

section
variable {k st : Nat}

theorem weakenE {α : Type} {P : Heap → Prop} {m : M α} (h : Pres P m) : Triple P m (fun _ => P) P := h

/-- The reference of object `k` is `st`. -/
abbrev RefIs (k st : Nat) : Heap → Prop := MapsA 0 (fun r => r = st) k

theorem raise_updateStokes : Triple (RefIs k st) (updateStokes k) (fun _ _ => True) (RefIs k st) :=
  Triple.bind (weakenE Pres.read) fun _ => Triple.bind (weakenE Pres.lift) fun _ => Triple.modify fun _ _ => trivial

theorem raise_flag {f : Heap → Heap} : Triple (RefIs k st) (updateStokes k >>= fun _ => M.modify f) (fun _ _ => True) (RefIs k st) :=
  Triple.bind raise_updateStokes fun _ => Triple.modify fun _ _ => trivial

theorem raise_demosaic (mode : String) : Triple (RefIs k st) (demosaicObj k mode) (fun _ _ => True) (RefIs k st) :=
  Triple.bind (weakenE Pres.read) fun _ => Triple.bind (weakenE Pres.lift) fun _ =>
  Triple.bind (weakenE (Pres.modify fun _ hf => hf.modifyObj fun _ => rfl)) fun _ => raise_updateStokes

theorem raise_subtractDark (dark : Nat) : Triple (RefIs k st) (subtractDark k dark) (fun _ _ => True) (RefIs k st) :=
  Triple.bind (weakenE Pres.read) fun _ => Triple.bind (weakenE Pres.lift) fun _ =>
  Triple.bind (weakenE (Pres.modify fun _ hf => hf.setData _)) fun _ =>
  Triple.bind (weakenE (Pres.modify fun _ hf => hf.setData _)) fun _ => raise_flag

theorem raise_correctFlat (junk : Nat → Nat → ℝ) (flat : Nat) : Triple (RefIs k st) (correctFlat junk k flat) (fun _ _ => True) (RefIs k st) :=
  Triple.bind (weakenE Pres.read) fun _ => Triple.bind (weakenE Pres.lift) fun _ =>
  Triple.bind (weakenE (Pres.modify fun _ hf => hf.setData _)) fun _ => raise_flag

theorem raise_correctIfov : Triple (RefIs k st) (correctIfov k) (fun _ _ => True) (RefIs k st) :=
  Triple.bind (weakenE Pres.read) fun _ => Triple.bind (weakenE Pres.lift) fun _ =>
  Triple.bind (weakenE (Pres.modify fun _ hf => hf.setData _)) fun _ => raise_updateStokes

end

/-- A call in place that computes maps and raises leaves the receiver its Stokes vector. -/
theorem raise_exec {i k st : Nat} (hc : o.renewsMaps = true) (hsrc : o.source = some i) (hk : s.images[i]? = some k) :
    Triple (RefIs k st) (exec s.images o) (fun _ _ => True) (RefIs k st) := by
  have recv : ∀ {β : Type} {Q : β → Heap → Prop} {f : Nat → M β}, Triple (RefIs k st) (f k) Q (RefIs k st) →
      Triple (RefIs k st) (named s.images i >>= f) Q (RefIs k st) := by
    intro β Q f hf
    refine Triple.bind (triple_named s.images i fun _ h => h) fun k' => ?_
    intro h hh
    rw [hk] at hh
    obtain ⟨⟨⟩, hh⟩ := hh
    exact hf h hh
  have other : ∀ {j : Nat} {β : Type} {Q : β → Heap → Prop} {f : Nat → M β},
      (∀ k', Triple (RefIs k st) (f k') Q (RefIs k st)) → Triple (RefIs k st) (named s.images j >>= f) Q (RefIs k st) :=
    fun hf => Triple.bind (weakenE Pres.lift) fun k => hf k
  have ret : ∀ {β γ : Type} {m : M β} {r : γ}, Triple (RefIs k st) m (fun _ _ => True) (RefIs k st) →
      Triple (RefIs k st) (m >>= fun _ => (pure r : M γ)) (fun _ _ => True) (RefIs k st) :=
    fun hm => Triple.bind hm fun _ => Triple.pure fun _ _ => trivial
  cases o with
  | demosaic i' mode => cases hsrc; exact recv (ret (raise_demosaic mode))
  | subtractDark i' d => cases hsrc; exact recv (other fun d => ret (raise_subtractDark d))
  | correctFlat i' f junk => cases hsrc; exact recv (other fun f => ret (raise_correctFlat junk f))
  | correctIfov i' => cases hsrc; exact recv (ret raise_correctIfov)
  | _ => cases hc

/-! ## References after a call -/

theorem step_maps_same (hv : Valid s) {k : Nat} (hk : k ∈ s.images) (hW : ¬ o.W s k) : maps (step s o) k = maps s k := by
  unfold maps
  rw [(step_frame hv o).obj k (hv.2 k hk) hW]

theorem step_maps_mask (hv : Valid s) (hc : o.renewsMaps = false) {k : Nat} (hk : k ∈ s.images) : maps (step s o) k = maps s k := by
  rcases step_maps hv o (hv.2 k hk) with h | ⟨h, -⟩
  · exact h
  · rw [hc] at h; cases h

theorem step_maps_raise (hc : o.renewsMaps = true) {i k : Nat} (hsrc : o.source = some i) (hk : s.images[i]? = some k)
    {x : PyErr} (hx : (exec s.images o s.heap).1 = .error x) : maps (step s o) k = maps s k := by
  have := (raise_exec hc hsrc hk (st := maps s k) s.heap ⟨Nat.zero_le _, rfl⟩).2 x hx
  rw [← step_heap] at this
  exact this.2

/-- Images that are not worked on, after a call that writes into Stokes vectors. -/
theorem step_view_write (hv : Valid s) (hw : o.writesStokes = true) {r k : Nat} (hr : o.CalledOn s r) (hk : k ∈ s.images) (hW : ¬ o.W s k) :
    (maps s k = maps s r → (step s o).heap.view k = { s.heap.view k with stokes := (o.value s (s.heap.view r)).2.stokes }) ∧
    (maps s k ≠ maps s r → (step s o).heap.view k = s.heap.view k) := by
  have hks := hv.2 k hk
  have fr := step_frame hv o
  refine ⟨fun hc => ?_, fun hc => ?_⟩
  · have hobj := fr.obj k hks hW
    have hdata := fr.data _ (hv.1 k hks).1
    have hst := shared_cell hv hw hr
    unfold maps at hc
    rw [← hst, ← hc]
    unfold Heap.view Heap.dataOf Heap.stokesOf Heap.dicOf
    rw [hobj, hdata]
  · refine fr.view hv.1 hks hW ?_
    rintro ⟨-, r', hr', hc'⟩
    obtain ⟨i, hi, hir⟩ := hr
    obtain ⟨i', hi', hir'⟩ := hr'
    rw [hi] at hi'
    cases hi'
    rw [hir] at hir'
    cases hir'
    exact hc hc'

theorem view_stokes_of_maps {k l : Nat} (h : maps s k = maps s l) : (s.heap.view k).stokes = (s.heap.view l).stokes := by
  show s.heap.stokes.cell (s.heap.objs.cell k).stokes = s.heap.stokes.cell (s.heap.objs.cell l).stokes
  unfold maps at h
  rw [h]

/-! ## Two sessions -/

/-- In both sessions the same names share their Stokes vector. -/
def SameRefs (s t : State) : Prop := ∀ p q k l k' l' : Nat, s.images[p]? = some k → s.images[q]? = some l → t.images[p]? = some k' →
  t.images[q]? = some l' → (maps s k = maps s l ↔ maps t k' = maps t l')

theorem SameRefs.same {s' t' : State} (h : SameRefs s t) (hs : s'.images = s.images) (ht : t'.images = t.images)
    (ms : ∀ k ∈ s.images, maps s' k = maps s k) (mt : ∀ k ∈ t.images, maps t' k = maps t k) : SameRefs s' t' := by
  intro p q k l k' l' hk hl hk' hl'
  rw [hs] at hk hl
  rw [ht] at hk' hl'
  rw [ms k (List.mem_of_getElem? hk), ms l (List.mem_of_getElem? hl), mt k' (List.mem_of_getElem? hk'), mt l' (List.mem_of_getElem? hl')]
  exact h p q k l k' l' hk hl hk' hl'

theorem SameRefs.append {s' t' : State} {n n' : Nat} (hlen : t.images.length = s.images.length) (h : SameRefs s t) (hs : s'.images = s.images ++ [n]) (ht : t'.images = t.images ++ [n'])
    (ms : ∀ k ∈ s.images, maps s' k = maps s k) (mt : ∀ k ∈ t.images, maps t' k = maps t k)
    (hn : ∀ p k k' : Nat, s.images[p]? = some k → t.images[p]? = some k' → (maps s' k = maps s' n ↔ maps t' k' = maps t' n')) : SameRefs s' t' := by
  have cases' : ∀ p k k' : Nat, s'.images[p]? = some k → t'.images[p]? = some k' →
      (s.images[p]? = some k ∧ t.images[p]? = some k') ∨ (k = n ∧ k' = n') := by
    intro p k k' hk hk'
    rw [hs] at hk
    rw [ht] at hk'
    by_cases hp : p < s.images.length
    · rw [List.getElem?_append_left hp] at hk
      rw [List.getElem?_append_left (by rw [hlen]; exact hp)] at hk'
      exact .inl ⟨hk, hk'⟩
    · have hl : p < (s.images ++ [n]).length := (List.getElem?_eq_some_iff.1 hk).1
      rw [List.length_append, List.length_singleton] at hl
      have : p = s.images.length := by omega
      subst this
      rw [List.getElem?_concat_length] at hk
      rw [← hlen, List.getElem?_concat_length] at hk'
      injection hk with hk
      injection hk' with hk'
      exact .inr ⟨hk.symm, hk'.symm⟩
  intro p q k l k' l' hk hl hk' hl'
  rcases cases' p k k' hk hk' with ⟨a, a'⟩ | ⟨rfl, rfl⟩ <;> rcases cases' q l l' hl hl' with ⟨b, b'⟩ | ⟨rfl, rfl⟩
  · rw [ms k (List.mem_of_getElem? a), ms l (List.mem_of_getElem? b), mt k' (List.mem_of_getElem? a'), mt l' (List.mem_of_getElem? b')]
    exact h p q k l k' l' a b a' b'
  · exact hn p k k' a a'
  · rw [eq_comm, hn q l l' b b', eq_comm]
  · exact ⟨fun _ => rfl, fun _ => rfl⟩

/-- One more name for an image that has one. -/
theorem SameRefs.alias {s' t' : State} {i n n' : Nat} (hlen : t.images.length = s.images.length) (hi : s.images[i]? = some n) (hi' : t.images[i]? = some n')
    (hs : s'.images = s.images ++ [n]) (ht : t'.images = t.images ++ [n'])
    (h : ∀ p q k l k' l' : Nat, s.images[p]? = some k → s.images[q]? = some l → t.images[p]? = some k' →
      t.images[q]? = some l' → (maps s' k = maps s' l ↔ maps t' k' = maps t' l')) : SameRefs s' t' := by
  have cases' : ∀ p k k' : Nat, s'.images[p]? = some k → t'.images[p]? = some k' → ∃ p' : Nat, s.images[p']? = some k ∧ t.images[p']? = some k' := by
    intro p k k' hk hk'
    rw [hs] at hk
    rw [ht] at hk'
    by_cases hp : p < s.images.length
    · rw [List.getElem?_append_left hp] at hk
      rw [List.getElem?_append_left (by rw [hlen]; exact hp)] at hk'
      exact ⟨p, hk, hk'⟩
    · have hl : p < (s.images ++ [n]).length := (List.getElem?_eq_some_iff.1 hk).1
      rw [List.length_append, List.length_singleton] at hl
      have : p = s.images.length := by omega
      subst this
      rw [List.getElem?_concat_length] at hk
      rw [← hlen, List.getElem?_concat_length] at hk'
      exact ⟨i, hi.trans hk, hi'.trans hk'⟩
  intro p q k l k' l' hk hl hk' hl'
  obtain ⟨p', a, a'⟩ := cases' p k k' hk hk'
  obtain ⟨q', b, b'⟩ := cases' q l l' hl hl'
  exact h p' q' k l k' l' a b a' b'

/-- New images. -/
theorem SameRefs.new (h : SameRefs s t) (hlen : t.images.length = s.images.length) (hv : Valid s) (hv' : Valid t) {n n' : Nat} (hin : o.inPlace = false) (hin' : o'.inPlace = false)
    (hsh : o'.sharesMaps = o.sharesMaps) {src : Option Nat} (hsrc : o.source = src) (hsrc' : o'.source = src)
    (hx : src = none ∨ ∃ i k k', src = some i ∧ s.images[i]? = some k ∧ t.images[i]? = some k')
    (hn : (exec s.images o s.heap).1 = .ok (some n)) (hn' : (exec t.images o' t.heap).1 = .ok (some n'))
    (hs : (step s o).images = s.images ++ [n]) (ht : (step t o').images = t.images ++ [n']) : SameRefs (step s o) (step t o') := by
  have hW : ∀ k, ¬ o.W s k := fun k hh => Bool.false_ne_true (hin.symm.trans hh.1)
  have hW' : ∀ k, ¬ o'.W t k := fun k hh => Bool.false_ne_true (hin'.symm.trans hh.1)
  have ms : ∀ k ∈ s.images, maps (step s o) k = maps s k := fun k hk => step_maps_same hv hk (hW k)
  have mt : ∀ k ∈ t.images, maps (step t o') k = maps t k := fun k hk => step_maps_same hv' hk (hW' k)
  refine h.append hlen hs ht ms mt fun p k k' hk hk' => ?_
  have m := List.mem_of_getElem? hk
  have m' := List.mem_of_getElem? hk'
  cases hc : o.sharesMaps with
  | false =>
    have a := newMaps_apart hv hin hc hn (hv.2 k m)
    have b := newMaps_apart hv' hin' (hsh.trans hc) hn' (hv'.2 k' m')
    exact ⟨fun hh => absurd hh a, fun hh => absurd hh b⟩
  | true =>
    rcases hx with rfl | ⟨i, l, l', rfl, hl, hl'⟩
    · cases o <;> first | (cases hc; done) | (cases hsrc; done)
    · have a := newMaps_same hv hc hn ⟨i, hsrc, hl⟩
      have b := newMaps_same hv' (hsh.trans hc) hn' ⟨i, hsrc', hl'⟩
      rw [← a, ← b, ms k m, mt k' m', ms l (List.mem_of_getElem? hl), mt l' (List.mem_of_getElem? hl')]
      exact h p i k l k' l' hk hl hk' hl'

/-- Work in place that computes new maps. -/
theorem SameRefs.renewed (h : SameRefs s t) (hnm : ∀ p q, p < s.images.length → q < s.images.length → (s.images[p]? = s.images[q]? ↔ t.images[p]? = t.images[q]?))
    (hv : Valid s) (hv' : Valid t) (hc : o.renewsMaps = true) (hc' : o'.renewsMaps = true) {i r r' : Nat}
    (hsrc : o.source = some i) (hsrc' : o'.source = some i) (hr : s.images[i]? = some r) (hr' : t.images[i]? = some r')
    (hok : Succeeds s o) (hok' : Succeeds t o') (p q k l k' l' : Nat) (hk : s.images[p]? = some k) (hl : s.images[q]? = some l)
    (hk' : t.images[p]? = some k') (hl' : t.images[q]? = some l') :
    maps (step s o) k = maps (step s o) l ↔ maps (step t o') k' = maps (step t o') l' := by
  have lt : ∀ {p k : Nat}, s.images[p]? = some k → p < s.images.length := fun h => (List.getElem?_eq_some_iff.1 h).1
  have same : ∀ {p q k l k' l' : Nat}, s.images[p]? = some k → s.images[q]? = some l → t.images[p]? = some k' → t.images[q]? = some l' →
      (k = l ↔ k' = l') := by
    intro p q k l k' l' hk hl hk' hl'
    have := hnm p q (lt hk) (lt hl)
    rw [hk, hl, hk', hl'] at this
    exact ⟨fun h => Option.some.inj (this.1 (congrArg some h)), fun h => Option.some.inj (this.2 (congrArg some h))⟩
  have keep : ∀ {p k : Nat}, s.images[p]? = some k → k ≠ r → maps (step s o) k = maps s k := fun {p k} hk hne =>
    step_maps_same hv (List.mem_of_getElem? hk) (by
      rintro ⟨-, j, hj, hjk⟩
      rw [hsrc] at hj
      cases hj
      rw [hr] at hjk
      exact hne (Option.some.inj hjk).symm)
  have keep' : ∀ {p k : Nat}, t.images[p]? = some k → k ≠ r' → maps (step t o') k = maps t k := fun {p k} hk hne =>
    step_maps_same hv' (List.mem_of_getElem? hk) (by
      rintro ⟨-, j, hj, hjk⟩
      rw [hsrc'] at hj
      cases hj
      rw [hr'] at hjk
      exact hne (Option.some.inj hjk).symm)
  have far : ∀ {p k : Nat}, s.images[p]? = some k → k ≠ r → maps (step s o) k ≠ maps (step s o) r := fun {p k} hk hne =>
    renewed_apart hv hc ⟨i, hsrc, hr⟩ hok (hv.2 k (List.mem_of_getElem? hk)) hne
  have far' : ∀ {p k : Nat}, t.images[p]? = some k → k ≠ r' → maps (step t o') k ≠ maps (step t o') r' := fun {p k} hk hne =>
    renewed_apart hv' hc' ⟨i, hsrc', hr'⟩ hok' (hv'.2 k (List.mem_of_getElem? hk)) hne
  have sk := same hk hr hk' hr'
  have sl := same hl hr hl' hr'
  by_cases e1 : k = r
  · have e1' := sk.1 e1
    subst e1 e1'
    by_cases e2 : l = k
    · have e2' := sl.1 e2
      subst e2 e2'
      exact ⟨fun _ => rfl, fun _ => rfl⟩
    · have e2' : l' ≠ k' := fun h => e2 (sl.2 h)
      exact ⟨fun h => absurd h.symm (far hl e2), fun h => absurd h.symm (far' hl' e2')⟩
  · have e1' : k' ≠ r' := fun h => e1 (sk.2 h)
    by_cases e2 : l = r
    · have e2' := sl.1 e2
      subst e2 e2'
      exact ⟨fun h => absurd h (far hk e1), fun h => absurd h (far' hk' e1')⟩
    · have e2' : l' ≠ r' := fun h => e2 (sl.2 h)
      rw [keep hk e1, keep hl e2, keep' hk' e1', keep' hl' e2']
      exact h p q k l k' l' hk hl hk' hl'

end

end Micropol

import Verif.Lemmas.ApartOps
import Verif.Lemmas.Failed
import Verif.Spec.Groups

/-! # Programs that work on several groups of images -/

set_option autoImplicit false
set_option linter.unusedSectionVars false

namespace Micropol

open M

noncomputable section

open Classical

variable {ι : Type} [DecidableEq ι]

/-- Every object belongs to one group or is common; objects that do not belong to the same share no Stokes vector and no header. -/
structure Owned (C : List Nat) (s : Groups ι) (own : Nat → Option ι) : Prop where
  wf : WF s.heap
  apart : ∀ a b, a < s.heap.objs.size → b < s.heap.objs.size → own a ≠ own b →
    (s.heap.objs.cell a).stokes ≠ (s.heap.objs.cell b).stokes ∧ (s.heap.objs.cell a).header ≠ (s.heap.objs.cell b).header
  common : ∀ k ∈ C, k < s.heap.objs.size ∧ own k = none
  images : ∀ i, ∃ L, s.images i = C ++ L ∧ ∀ k ∈ L, k < s.heap.objs.size ∧ own k = some i

theorem Owned.conf {C : List Nat} {s : Groups ι} {own : Nat → Option ι} (ho : Owned C s own) (j : ι) :
    Conf (fun z => z < s.heap.objs.size ∧ own z ≠ some j) s.heap s.heap where
  wf := ho.wf
  size := le_rfl
  inside _ hz := hz.1
  obj _ _ := rfl
  data _ _ := rfl
  stokes _ _ := rfl
  header _ _ := rfl
  apart z b hz hb hlt := by
    have hb' : own b = some j := by
      by_contra hne
      exact hb ⟨hlt, hne⟩
    exact ho.apart b z hlt hz.1 (by rw [hb']; exact hz.2.symm)

/-- The memory after a call. -/
theorem conf_step {Z : Nat → Prop} {s : State} (o : Op)
    (hi : ∀ i k, o.source = some i → s.images[i]? = some k → k < s.heap.objs.size ∧ ¬ Z k) (hc : Conf Z s.heap s.heap) :
    Conf Z s.heap (step s o).heap ∧ ((step s o).images = s.images ∨ ∃ n, (step s o).images = s.images ++ [n] ∧
      n < (step s o).heap.objs.size ∧ ¬ Z n) := by
  obtain ⟨h1, h2⟩ := conf_exec (Z := Z) (h0 := s.heap) (images := s.images) o hi s.heap hc
  unfold step
  cases hx : exec s.images o s.heap with
  | mk a h =>
    rw [hx] at h1 h2
    cases a with
    | error e => exact ⟨h2 e rfl, .inl rfl⟩
    | ok r =>
      obtain ⟨hc', hr⟩ := h1 r rfl
      cases r with
      | none => exact ⟨hc', .inl rfl⟩
      | some n => exact ⟨hc', .inr ⟨n, rfl, hr n rfl⟩⟩

/-- The receiver of a call of group `j` belongs to that group. -/
theorem Owned.receiver {C : List Nat} {s : Groups ι} {own : Nat → Option ι} (ho : Owned C s own) (j : ι) {i k : Nat}
    (hi : C.length ≤ i) (hk : (s.images j)[i]? = some k) : k < s.heap.objs.size ∧ own k = some j := by
  obtain ⟨L, hL, hin⟩ := ho.images j
  rw [hL, List.getElem?_append_right hi] at hk
  exact hin k (List.mem_of_getElem? hk)

theorem Owned.call {C : List Nat} {s : Groups ι} {own : Nat → Option ι} (ho : Owned C s own) (j : ι) (o : Op)
    (hr : ∀ i, o.source = some i → C.length ≤ i) :
    Conf (fun z => z < s.heap.objs.size ∧ own z ≠ some j) s.heap (s.call (j, o)).heap ∧
      ∃ own', Owned C (s.call (j, o)) own' := by
  have hrecv : ∀ i k, o.source = some i → (s.sees j).images[i]? = some k → k < s.heap.objs.size ∧
      ¬ (k < s.heap.objs.size ∧ own k ≠ some j) := by
    intro i k hsrc hk
    obtain ⟨h1, h2⟩ := ho.receiver j (hr i hsrc) hk
    exact ⟨h1, fun h => h.2 h2⟩
  obtain ⟨hc, him⟩ := conf_step (s := s.sees j) o hrecv (ho.conf j)
  refine ⟨hc, fun k => if k < s.heap.objs.size then own k else some j, ?_⟩
  have hz : ∀ a, a < (step (s.sees j) o).heap.objs.size → (if a < s.heap.objs.size then own a else some j) ≠ some j →
      a < s.heap.objs.size ∧ own a ≠ some j := by
    intro a _ hne
    by_cases e : a < s.heap.objs.size
    · rw [if_pos e] at hne; exact ⟨e, hne⟩
    · rw [if_neg e] at hne; exact absurd rfl hne
  have hz' : ∀ a, (if a < s.heap.objs.size then own a else some j) = some j → ¬ (a < s.heap.objs.size ∧ own a ≠ some j) := by
    rintro a he ⟨h1, h2⟩
    rw [if_pos h1] at he
    exact h2 he
  have hkeep : ∀ {k}, k < s.heap.objs.size → k < (step (s.sees j) o).heap.objs.size := fun h => lt_of_lt_of_le h hc.size
  refine ⟨hc.wf, ?_, ?_, ?_⟩
  · intro a b ha hb hne
    show ((step (s.sees j) o).heap.objs.cell a).stokes ≠ ((step (s.sees j) o).heap.objs.cell b).stokes ∧
      ((step (s.sees j) o).heap.objs.cell a).header ≠ ((step (s.sees j) o).heap.objs.cell b).header
    by_cases ea : (if a < s.heap.objs.size then own a else some j) = some j
    · have eb : (if b < s.heap.objs.size then own b else some j) ≠ some j := fun h => hne (ea.trans h.symm)
      have hb' := hz b hb eb
      have := hc.apart b a hb' (hz' a ea) ha
      rw [hc.obj b hb']
      exact this
    · have ha' := hz a ha ea
      rw [hc.obj a ha']
      by_cases eb : (if b < s.heap.objs.size then own b else some j) = some j
      · have := hc.apart a b ha' (hz' b eb) hb
        exact ⟨this.1.symm, this.2.symm⟩
      · have hb' := hz b hb eb
        rw [hc.obj b hb']
        rw [if_pos ha'.1, if_pos hb'.1] at hne
        exact ho.apart a b ha'.1 hb'.1 hne
  · intro k hk
    obtain ⟨h1, h2⟩ := ho.common k hk
    exact ⟨hkeep h1, (if_pos h1).trans h2⟩
  · intro i
    obtain ⟨L, hL, hin⟩ := ho.images i
    have hin' : ∀ k ∈ L, k < (step (s.sees j) o).heap.objs.size ∧ (if k < s.heap.objs.size then own k else some j) = some i :=
      fun k hk => ⟨hkeep (hin k hk).1, (if_pos (hin k hk).1).trans (hin k hk).2⟩
    by_cases e : i = j
    · subst e
      have hup : (s.call (i, o)).images i = (step (s.sees i) o).images := Function.update_self ..
      rcases him with h | ⟨n, h, hn, hZ⟩
      · exact ⟨L, hup.trans (h.trans hL), hin'⟩
      · refine ⟨L ++ [n], hup.trans (h.trans ?_), ?_⟩
        · show s.images i ++ [n] = _
          rw [hL, List.append_assoc]
        · intro k hk
          rcases List.mem_append.1 hk with hk | hk
          · exact hin' k hk
          · rw [List.mem_singleton] at hk
            subst hk
            refine ⟨hn, ?_⟩
            by_contra hne
            exact hZ (hz k hn hne)
    · have hup : (s.call (j, o)).images i = s.images i := Function.update_of_ne e ..
      exact ⟨L, hup.trans hL, hin'⟩

/-- What happens for another group does not concern this one. -/
theorem alike_other {C : List Nat} {s : Groups ι} {own : Nat → Option ι} (ho : Owned C s own) (i j : ι) (hij : i ≠ j) (o : Op)
    (hset : o.isSetting = false) {t : State} (ht : Alike (s.sees i) t)
    (hc : Conf (fun z => z < s.heap.objs.size ∧ own z ≠ some j) s.heap (s.call (j, o)).heap) :
    Alike ((s.call (j, o)).sees i) t := by
  obtain ⟨ρ, hs, him⟩ := ht
  have himg : ((s.call (j, o)).sees i).images = s.images i := Function.update_of_ne hij ..
  have hZ : ∀ k ∈ s.images i, k < s.heap.objs.size ∧ own k ≠ some j := by
    intro k hk
    obtain ⟨L, hL, hin⟩ := ho.images i
    rw [hL] at hk
    rcases List.mem_append.1 hk with hk | hk
    · exact ⟨(ho.common k hk).1, by rw [(ho.common k hk).2]; exact fun h => by cases h⟩
    · exact ⟨(hin k hk).1, by rw [(hin k hk).2]; exact fun h => hij (Option.some.inj h)⟩
  have hnext : (s.call (j, o)).heap.nextDic = s.heap.nextDic :=
    step_next (s.sees j) o fun d hd => by rw [hd] at hset; cases hset
  refine ⟨fun a b => ρ a b ∧ a ∈ s.images i, ⟨?_, ?_, ?_, ?_, ?_, ?_, ?_⟩, ?_⟩
  · exact hs.next.trans hnext.symm
  · intro a a' ⟨h1, h2⟩
    refine ⟨⟨lt_of_lt_of_le (hZ a h2).1 hc.size, ?_⟩, (hs.refs h1).2⟩
    exact hc.wf a (lt_of_lt_of_le (hZ a h2).1 hc.size)
  · intro a a' b b' h1 h2
    exact hs.one h1.1 h2.1
  · intro a a' h1
    refine (hs.view h1.1).trans (view_congr (hc.obj a (hZ a h1.2)) (hc.data a (hZ a h1.2)) (hc.stokes a (hZ a h1.2))).symm
  · intro a a' h1
    refine (hs.header h1.1).trans ?_
    show s.heap.headers.cell (s.heap.objs.cell a).header =
      (s.call (j, o)).heap.headers.cell ((s.call (j, o)).heap.objs.cell a).header
    rw [hc.obj a (hZ a h1.2), hc.header a (hZ a h1.2)]
  · intro a a' b b' h1 h2
    show (((s.call (j, o)).heap.objs.cell a).stokes = ((s.call (j, o)).heap.objs.cell b).stokes ↔ _)
    rw [hc.obj a (hZ a h1.2), hc.obj b (hZ b h2.2)]
    exact hs.shareS h1.1 h2.1
  · intro a a' b b' h1 h2
    show (((s.call (j, o)).heap.objs.cell a).header = ((s.call (j, o)).heap.objs.cell b).header ↔ _)
    rw [hc.obj a (hZ a h1.2), hc.obj b (hZ b h2.2)]
    exact hs.shareH h1.1 h2.1
  · rw [himg]
    have gen : ∀ {l m : List Nat} (P : Nat → Prop), (∀ k ∈ l, P k) → List.Forall₂ ρ l m → List.Forall₂ (fun a b => ρ a b ∧ P a) l m := by
      intro l m P hP h
      induction h with
      | nil => exact .nil
      | cons h1 _ ih =>
        exact .cons ⟨h1, hP _ List.mem_cons_self⟩ (ih fun k hk => hP k (List.mem_cons_of_mem _ hk))
    exact gen (fun a => a ∈ s.images i) (fun k hk => hk) him

theorem onlyFor_snoc (i j : ι) (o : Op) (calls : List (ι × Op)) : onlyFor i (calls ++ [(j, o)]) =
    onlyFor i calls ++ (if j = i ∨ o.isSetting = true then [o] else []) := by
  unfold onlyFor
  rw [List.filter_append, List.map_append]
  congr 1
  by_cases h : j = i ∨ o.isSetting = true
  · rw [if_pos h]
    have : (decide (j = i) || o.isSetting) = true := by simpa using h
    simp [List.filter, this]
  · rw [if_neg h]
    have : (decide (j = i) || o.isSetting) = false := by
      rw [Bool.eq_false_iff]; intro hh; exact h (by simpa using hh)
    simp [List.filter, this]

theorem runGroups_snoc (common : List Op) (calls : List (ι × Op)) (c : ι × Op) :
    runGroups common (calls ++ [c]) = (runGroups common calls).call c := List.foldl_append ..

theorem groups_run (common : List Op) (calls : List (ι × Op)) (hro : ReadOnlyCommon common calls) :
    (∃ own, Owned (runOps common).images (runGroups common calls) own) ∧
      ∀ i, Alike ((runGroups common calls).sees i) (runOps (common ++ onlyFor i calls)) := by
  induction calls using List.reverseRecOn with
  | nil =>
    refine ⟨⟨fun _ => none, (runOps_valid common).1, fun a b _ _ h => absurd rfl h,
      fun k hk => ⟨(runOps_valid common).2 k hk, rfl⟩, fun i => ⟨[], (List.append_nil _).symm, fun k hk => by cases hk⟩⟩, fun i => ?_⟩
    show Alike (runOps common) (runOps (common ++ []))
    rw [List.append_nil]
    exact alike_refl common
  | append_singleton calls c ih =>
    obtain ⟨j, o⟩ := c
    obtain ⟨⟨own, ho⟩, hal⟩ := ih fun c hc => hro c (List.mem_append_left _ hc)
    obtain ⟨hc, hown'⟩ := ho.call j o (hro (j, o) (List.mem_append_right _ (List.mem_singleton_self _)))
    rw [runGroups_snoc]
    refine ⟨hown', fun i => ?_⟩
    rw [onlyFor_snoc, ← List.append_assoc]
    by_cases e : i = j
    · subst e
      rw [if_pos (.inl rfl), runOps_snoc]
      have h1 := (alike_step (hal i) o).2
      have h2 : ((runGroups common calls).call (i, o)).sees i = step ((runGroups common calls).sees i) o := by
        exact congrArg (State.mk _) (Function.update_self ..)
      rw [h2]
      exact h1
    · by_cases hset : o.isSetting = true
      · rw [if_pos (.inr hset), runOps_snoc]
        obtain ⟨d, rfl⟩ : ∃ d, o = .setDefault d := by
          cases o <;> first | exact ⟨_, rfl⟩ | exact absurd hset Bool.false_ne_true
        have h1 := (alike_step (hal i) (.setDefault d)).2
        have h2 : ((runGroups common calls).call (j, .setDefault d)).sees i =
            step ((runGroups common calls).sees i) (.setDefault d) := by
          exact congrArg (State.mk _) (Function.update_of_ne e ..)
        rw [h2]
        exact h1
      · rw [if_neg (fun h => h.elim (fun h => e h.symm) hset), List.append_nil]
        exact alike_other ho i j e o (Bool.eq_false_iff.2 hset) (hal i) hc

end

end Micropol

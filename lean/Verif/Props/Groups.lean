import Verif.Lemmas.Groups
import Verif.Props.Failed

/-!
# C121: work on different images does not interfere

A program that works on several groups of images (several exposures, several cameras), with calls in any order, gets for each
group what it would get by working on that group alone.  The groups may use the same darks, flats and other arguments.  Two things
are shared by all: the default dictionary, which is a setting of the process, and common images whose methods are called.
-/

set_option autoImplicit false

namespace Micropol

variable {ι : Type} [DecidableEq ι]

/-- C121: each group of images shows what it shows if only the calls for this group are made (and the same names are the same
object). -/
theorem C121_as_if_alone (common : List Op) (calls : List (ι × Op)) (hro : ReadOnlyCommon common calls) (i : ι) :
    ((runGroups common calls).sees i).shows = (runOps (common ++ onlyFor i calls)).shows ∧
      ((runGroups common calls).sees i).sameObjects (runOps (common ++ onlyFor i calls)) :=
  ⟨((groups_run common calls hro).2 i).shows.symm, ((groups_run common calls hro).2 i).same⟩

/-- C121: each call returns or raises as it does if only the calls for its group are made. -/
theorem C121_same_outcomes (common : List Op) (before later : List (ι × Op)) (i : ι) (o : Op)
    (hro : ReadOnlyCommon common (before ++ (i, o) :: later)) (e : PyErr) :
    Raises ((runGroups common before).sees i) o e ↔ Raises (runOps (common ++ onlyFor i before)) o e :=
  ((groups_run common before fun c hc => hro c (List.mem_append_left _ hc)).2 i).raises o e

/-- C121: only the order of the calls within each group (and of the settings) matters. -/
theorem C121_order (common : List Op) (calls calls' : List (ι × Op)) (hro : ReadOnlyCommon common calls)
    (hro' : ReadOnlyCommon common calls') (i : ι) (heq : onlyFor i calls = onlyFor i calls') :
    ((runGroups common calls).sees i).shows = ((runGroups common calls').sees i).shows := by
  rw [(C121_as_if_alone common calls hro i).1, (C121_as_if_alone common calls' hro' i).1, heq]

theorem onlyFor_own (i j : ι) (ops : List Op) (hset : ∀ o ∈ ops, o.isSetting = false) :
    onlyFor i (ops.map fun o => (j, o)) = if j = i then ops else [] := by
  unfold onlyFor
  induction ops with
  | nil => simp
  | cons o ops ih =>
    have h1 := hset o List.mem_cons_self
    have ih := ih fun o ho => hset o (List.mem_cons_of_mem _ ho)
    rw [List.map_cons, List.filter_cons]
    by_cases e : j = i
    · rw [if_pos e] at ih ⊢
      simp [h1, e] at ih ⊢
      exact ih
    · rw [if_neg e] at ih ⊢
      simp [h1, e] at ih ⊢
      exact ih

theorem onlyFor_flatMap (i : ι) (order : List ι) (hnd : order.Nodup) (f : ι → List Op) (hset : ∀ j, ∀ o ∈ f j, o.isSetting = false) :
    onlyFor i (order.flatMap fun j => (f j).map fun o => (j, o)) = if i ∈ order then f i else [] := by
  induction order with
  | nil => rfl
  | cons j order ih =>
    have happ : ∀ a b : List (ι × Op), onlyFor i (a ++ b) = onlyFor i a ++ onlyFor i b := by
      intro a b; unfold onlyFor; rw [List.filter_append, List.map_append]
    rw [List.flatMap_cons, happ, ih (List.nodup_cons.1 hnd).2, onlyFor_own i j _ (hset j)]
    by_cases e : j = i
    · subst e
      rw [if_pos rfl, if_neg (List.nodup_cons.1 hnd).1, if_pos List.mem_cons_self, List.append_nil]
    · rw [if_neg e, List.nil_append]
      by_cases hm : i ∈ order
      · rw [if_pos hm, if_pos (List.mem_cons_of_mem _ hm)]
      · rw [if_neg hm, if_neg (fun h => (List.mem_cons.1 h).elim (fun h => e h.symm) hm)]

/-- C121: working through the groups one after the other, in any order, gives what any interleaving gives. -/
theorem C121_one_after_the_other (common : List Op) (calls : List (ι × Op)) (hro : ReadOnlyCommon common calls)
    (hset : ∀ c ∈ calls, c.2.isSetting = false) (order : List ι) (hnd : order.Nodup) (hall : ∀ c ∈ calls, c.1 ∈ order) (i : ι) :
    ((runGroups common (order.flatMap fun j => (onlyFor j calls).map fun o => (j, o))).sees i).shows =
      ((runGroups common calls).sees i).shows := by
  have hmem : ∀ j, ∀ o ∈ onlyFor j calls, (j, o) ∈ calls := by
    intro j o ho
    unfold onlyFor at ho
    obtain ⟨c, hc, rfl⟩ := List.mem_map.1 ho
    obtain ⟨hc1, hc2⟩ := List.mem_filter.1 hc
    rw [hset c hc1] at hc2
    have : c.1 = j := by simpa using hc2
    rw [← this]
    exact hc1
  refine C121_order common _ calls ?_ hro i ?_
  · intro c hc k hk
    obtain ⟨j, -, hc⟩ := List.mem_flatMap.1 hc
    obtain ⟨o, ho, rfl⟩ := List.mem_map.1 hc
    exact hro _ (hmem j o ho) k hk
  · rw [onlyFor_flatMap i order hnd _ fun j o ho => hset _ (hmem j o ho)]
    split
    · rfl
    · rename_i hi
      symm
      rw [List.eq_nil_iff_forall_not_mem]
      intro o ho
      exact hi (hall _ (hmem i o ho))

/-- The settings of the process cannot be left out: `set_default_angles` called for one group changes what another group gets. -/
theorem C121_settings_matter : ¬ ∀ (calls : List (Bool × Op)) (i : Bool), ReadOnlyCommon [] calls →
    ((runGroups [] calls).sees i).shows = (runOps ((calls.filter fun c => decide (c.1 = i)).map Prod.snd)).shows := by
  intro hall
  have h := hall [(true, .setDefault (some fun _ => none)), (false, .fromArray flat44 none none none fun _ _ => 0)] false
    (fun c hc i hi => by
      rcases List.mem_cons.1 hc with rfl | hc
      · cases hi
      · rw [List.mem_singleton] at hc
        subst hc
        cases hi)
  have e1 : (runGroups [] [(true, Op.setDefault (some fun _ => none)), (false, .fromArray flat44 none none none fun _ _ => 0)]).sees false =
      step (runOps [.setDefault (some fun _ => none)]) (.fromArray flat44 none none none fun _ _ => 0) := rfl
  have e2 : (List.filter (fun c : Bool × Op => decide (c.1 = false))
      [(true, Op.setDefault (some fun _ => none)), (false, .fromArray flat44 none none none fun _ _ => 0)]).map Prod.snd =
      [.fromArray flat44 none none none fun _ _ => 0] := rfl
  rw [e1, e2] at h
  have him : (runOps [.fromArray flat44 none none none fun _ _ => 0]).images = [0] := flat44_rebin.1
  have hd := C45_constructed [] flat44 none none none (fun _ _ => 0) 0 him
  unfold State.shows at h
  rw [him] at h
  rcases step_images (runOps [.setDefault (some fun _ => none)]) (.fromArray flat44 none none none fun _ _ => 0) with h' | ⟨n, hn, h'⟩
  · rw [h'] at h
    cases h
  · have hd' := C45_constructed [.setDefault (some fun _ => none)] flat44 none none none (fun _ _ => 0) n h'
    rw [h'] at h
    have h0 := congrArg Shown.dic (List.head_eq_of_cons_eq h)
    have h1 : (step (runOps [.setDefault (some fun _ => none)]) (.fromArray flat44 none none none fun _ _ => 0)).dic n =
      (runOps [.fromArray flat44 none none none fun _ _ => 0]).dic 0 := h0
    rw [hd'] at h1
    have h2 := h1.trans hd
    have h3 := congrFun h2 0
    simp [lastDefault, polarCamAngles] at h3

/-- Nor may the groups call methods of the common images: `small = image.rebin(2)` called for one group changes the header of
`image`, which another group sees. -/
theorem C121_common_matter : ¬ ∀ (common : List Op) (calls : List (Bool × Op)) (i : Bool),
    ((runGroups common calls).sees i).shows = (runOps (common ++ onlyFor i calls)).shows := by
  intro hall
  have h := hall [.fromArray flat44 none none none fun _ _ => 0] [(true, .rebin 0 2)] false
  obtain ⟨h1, h2, h3, h4⟩ := rebinned_facts
  have him : (runOps [.fromArray flat44 none none none fun _ _ => 0]).images = [0] := flat44_rebin.1
  have e1 : (runGroups [.fromArray flat44 none none none fun _ _ => 0] [(true, Op.rebin 0 2)]).sees false =
      ⟨(runOps rebinned).heap, (runOps [.fromArray flat44 none none none fun _ _ => 0]).images⟩ := rfl
  have e2 : [Op.fromArray flat44 none none none fun _ _ => 0] ++ onlyFor false [(true, Op.rebin 0 2)] =
      [.fromArray flat44 none none none fun _ _ => 0] := rfl
  rw [e1, e2] at h
  unfold State.shows at h
  dsimp only at h
  rw [him] at h
  have h0 := congrArg Shown.header (List.head_eq_of_cons_eq h)
  have h5 : (runOps rebinned).header 0 = (runOps [.fromArray flat44 none none none fun _ _ => 0]).header 0 := h0
  have hr := C43_right_when_set_partial [] (.fromArray flat44 none none none fun _ _ => 0) rfl 0 him
  have h6 : ((runOps [.fromArray flat44 none none none fun _ _ => 0]).header 0).naxis1 = 4 := by
    refine hr.1.trans ?_
    show ((runOps [.fromArray flat44 none none none fun _ _ => 0]).data 0).w = 4
    rw [flat44_rebin.2.1]
    rfl
  rw [← h5, h4] at h6
  exact absurd h6 (by decide)

/-- The hypotheses are met: a dark frame is used by two groups, whose exposures are corrected and processed in turn. -/
example (dark first second : Img ℝ) (junk : Nat → Nat → ℝ) : ReadOnlyCommon [.fromArray dark none none none junk]
    [(0, .fromArray first none (some 0) none junk), (1, .fromArray second none (some 0) none junk), (1, .rebin 1 2),
      (0, .demosaic 1 "adjacent"), (1, .subtractDark 2 0), (0, .arithImage .add 1 0 junk)] := by
  have hlen : (runOps [.fromArray dark none none none junk]).images.length ≤ 1 := by
    show (step (runOps []) (.fromArray dark none none none junk)).images.length ≤ 1
    rcases step_images (runOps []) (.fromArray dark none none none junk) with h | ⟨n, -, h⟩
    · rw [h]; decide
    · rw [h]; exact le_rfl
  intro c hc i hi
  refine hlen.trans ?_
  simp only [List.mem_cons, List.not_mem_nil, or_false] at hc
  rcases hc with rfl | rfl | rfl | rfl | rfl | rfl <;> cases hi <;> decide

/-- The calls for group 1 of this program. -/
example (first second : Img ℝ) (junk : Nat → Nat → ℝ) : onlyFor 1
    [(0, .fromArray first none (some 0) none junk), (1, .fromArray second none (some 0) none junk), (1, .rebin 1 2),
      (0, .demosaic 1 "adjacent"), (1, .subtractDark 2 0), (0, .arithImage .add 1 0 junk)] =
    [.fromArray second none (some 0) none junk, .rebin 1 2, .subtractDark 2 0] := rfl

end Micropol

import Verif.Props.Stability
import Verif.Props.ObjectStokes
import Mathlib.Tactic.IntervalCases

/-!
# C112: errors of pixels through whole sessions
-/

set_option autoImplicit false

namespace Micropol

/-- The two sessions know the same names, in the same way, and the images differ by at most `e`. -/
structure PxClose (e : Nat → ℝ) (s t : State) : Prop where
  len : t.images.length = s.images.length
  names : ∀ p q, p < s.images.length → q < s.images.length → (s.images[p]? = s.images[q]? ↔ t.images[p]? = t.images[q]?)
  px : ∀ p k k', s.images[p]? = some k → t.images[p]? = some k' → PxWithin (e p) (s.data k) (t.data k') ∧ t.dic k' = s.dic k

variable {ops ops' : List Op} {e e' : Nat → ℝ}

theorem lt_of_some {l : List Nat} {p k : Nat} (h : l[p]? = some k) : p < l.length := (List.getElem?_eq_some_iff.1 h).1

theorem some_of_lt {l : List Nat} {p : Nat} (h : p < l.length) : ∃ k, l[p]? = some k := ⟨_, List.getElem?_eq_getElem h⟩

/-- Calls that change no pixels of existing images and return nothing. -/
theorem PxClose.same (h : PxClose e (runOps ops) (runOps ops')) (he : Kept (runOps ops) e e') {o o' : Op}
    (hs : (runOps (ops ++ [o])).images = (runOps ops).images) (ht : (runOps (ops' ++ [o'])).images = (runOps ops').images)
    (ds : ∀ k ∈ (runOps ops).images, (runOps (ops ++ [o])).data k = (runOps ops).data k)
    (dt : ∀ k ∈ (runOps ops').images, (runOps (ops' ++ [o'])).data k = (runOps ops').data k) :
    PxClose e' (runOps (ops ++ [o])) (runOps (ops' ++ [o'])) := by
  refine ⟨by rw [hs, ht, h.len], by rw [hs, ht]; exact h.names, fun p k k' hk hk' => ?_⟩
  rw [hs] at hk
  rw [ht] at hk'
  obtain ⟨h1, h2⟩ := h.px p k k' hk hk'
  have m := List.mem_of_getElem? hk
  have m' := List.mem_of_getElem? hk'
  rw [ds k m, dt k' m']
  refine ⟨h1.mono (he p (lt_of_some hk)), ?_⟩
  rw [runOps_snoc, runOps_snoc, C45_kept ops o k m, C45_kept ops' o' k' m']
  exact h2

theorem kept_data {o : Op} (hin : o.inPlace = false) : ∀ k ∈ (runOps ops).images, (runOps (ops ++ [o])).data k = (runOps ops).data k :=
  fun k hk => by
    rw [runOps_snoc]
    exact C40_data_kept ops o k hk (by rw [hin]; rintro ⟨h, -⟩; cases h)

theorem same_images {o : Op} (h : ¬ ∃ n, Returns ops o n) : (runOps (ops ++ [o])).images = (runOps ops).images := by
  rw [runOps_snoc]
  rcases step_images (runOps ops) o with h' | ⟨n, -, h'⟩
  · exact h'
  · exact absurd ⟨n, by unfold Returns; rw [runOps_snoc]; exact h'⟩ h

theorem append_names {l l' : List Nat} {n n' : Nat} (hl : l'.length = l.length)
    (h : ∀ p q, p < l.length → q < l.length → (l[p]? = l[q]? ↔ l'[p]? = l'[q]?))
    (hn : ∀ p, p < l.length → (l[p]? = some n ↔ l'[p]? = some n')) :
    ∀ p q, p < (l ++ [n]).length → q < (l ++ [n]).length → ((l ++ [n])[p]? = (l ++ [n])[q]? ↔ (l' ++ [n'])[p]? = (l' ++ [n'])[q]?) := by
  intro p q hp hq
  rw [List.length_append, List.length_singleton] at hp hq
  have low : ∀ p, p < l.length → (l ++ [n])[p]? = l[p]? ∧ (l' ++ [n'])[p]? = l'[p]? := fun p hp =>
    ⟨List.getElem?_append_left hp, List.getElem?_append_left (by rw [hl]; exact hp)⟩
  have top : (l ++ [n])[l.length]? = some n ∧ (l' ++ [n'])[l.length]? = some n' :=
    ⟨List.getElem?_concat_length, by rw [← hl]; exact List.getElem?_concat_length⟩
  rcases Nat.lt_succ_iff_lt_or_eq.1 hp with hp | rfl
  · rcases Nat.lt_succ_iff_lt_or_eq.1 hq with hq | rfl
    · rw [(low p hp).1, (low p hp).2, (low q hq).1, (low q hq).2]
      exact h p q hp hq
    · rw [(low p hp).1, (low p hp).2, top.1, top.2]
      exact hn p hp
  · rcases Nat.lt_succ_iff_lt_or_eq.1 hq with hq | rfl
    · rw [(low q hq).1, (low q hq).2, top.1, top.2, eq_comm, hn q hq, eq_comm]
    · exact ⟨fun _ => rfl, fun _ => rfl⟩

/-- Calls that return a new image. -/
theorem PxClose.new (h : PxClose e (runOps ops) (runOps ops')) (he : Kept (runOps ops) e e') {o o' : Op} {n n' : Nat}
    (hin : o.inPlace = false) (hin' : o'.inPlace = false) (hs : Returns ops o n) (ht : Returns ops' o' n')
    (fs : n ∉ (runOps ops).images) (ft : n' ∉ (runOps ops').images)
    (hpx : PxWithin (e' (runOps ops).images.length) ((runOps (ops ++ [o])).data n) ((runOps (ops' ++ [o'])).data n'))
    (hdic : (runOps (ops' ++ [o'])).dic n' = (runOps (ops ++ [o])).dic n) :
    PxClose e' (runOps (ops ++ [o])) (runOps (ops' ++ [o'])) := by
  unfold Returns at hs ht
  refine ⟨by rw [hs, ht, List.length_append, List.length_append, h.len]; rfl, ?_, fun p k k' hk hk' => ?_⟩
  · rw [hs, ht]
    refine append_names h.len h.names fun p hp => ⟨fun hk => absurd (List.mem_of_getElem? hk) fs, fun hk => absurd (List.mem_of_getElem? hk) ft⟩
  · rw [hs] at hk
    rw [ht] at hk'
    by_cases hp : p < (runOps ops).images.length
    · rw [List.getElem?_append_left hp] at hk
      rw [List.getElem?_append_left (by rw [h.len]; exact hp)] at hk'
      obtain ⟨h1, h2⟩ := h.px p k k' hk hk'
      have m := List.mem_of_getElem? hk
      have m' := List.mem_of_getElem? hk'
      rw [kept_data hin k m, kept_data hin' k' m']
      refine ⟨h1.mono (he p hp), ?_⟩
      rw [runOps_snoc, runOps_snoc, C45_kept ops o k m, C45_kept ops' o' k' m']
      exact h2
    · have hl := lt_of_some hk
      rw [List.length_append, List.length_singleton] at hl
      have : p = (runOps ops).images.length := by omega
      subst this
      rw [List.getElem?_concat_length] at hk
      rw [← h.len, List.getElem?_concat_length] at hk'
      injection hk with hk
      injection hk' with hk'
      subst hk hk'
      exact ⟨hpx, hdic⟩

/-- Calls in place. -/
theorem PxClose.place (h : PxClose e (runOps ops) (runOps ops')) (he : Kept (runOps ops) e e') {o o' : Op} {i k k' : Nat}
    (hsrc : o.source = some i) (hsrc' : o'.source = some i)
    (hk : (runOps ops).images[i]? = some k) (hk' : (runOps ops').images[i]? = some k')
    (hs : Returns ops o k) (ht : Returns ops' o' k') {δ : ℝ}
    (hpx : PxWithin δ ((runOps (ops ++ [o])).data k) ((runOps (ops' ++ [o'])).data k'))
    (hp : ∀ p, p < (runOps ops).images.length → (runOps ops).images[p]? = (runOps ops).images[i]? → δ ≤ e' p)
    (hn : δ ≤ e' (runOps ops).images.length) :
    PxClose e' (runOps (ops ++ [o])) (runOps (ops' ++ [o'])) := by
  unfold Returns at hs ht
  have hi := lt_of_some hk
  have hdic := (h.px i k k' hk hk').2
  have dics : ∀ p l l' : Nat, (runOps ops).images[p]? = some l → (runOps ops').images[p]? = some l' →
      (runOps (ops' ++ [o'])).dic l' = (runOps (ops ++ [o])).dic l := by
    intro p l l' hl hl'
    rw [runOps_snoc, runOps_snoc, C45_kept ops o l (List.mem_of_getElem? hl), C45_kept ops' o' l' (List.mem_of_getElem? hl')]
    exact (h.px p l l' hl hl').2
  refine ⟨by rw [hs, ht, List.length_append, List.length_append, h.len]; rfl, ?_, fun p l l' hl hl' => ?_⟩
  · rw [hs, ht]
    refine append_names h.len h.names fun p hp => ?_
    rw [← hk, ← hk']
    exact h.names p i hp hi
  · rw [hs] at hl
    rw [ht] at hl'
    by_cases hp' : p < (runOps ops).images.length
    · rw [List.getElem?_append_left hp'] at hl
      rw [List.getElem?_append_left (by rw [h.len]; exact hp')] at hl'
      refine ⟨?_, dics p l l' hl hl'⟩
      by_cases hc : (runOps ops).images[p]? = (runOps ops).images[i]?
      · have hc' := (h.names p i hp' hi).1 hc
        rw [hl, hk] at hc
        rw [hl', hk'] at hc'
        injection hc with hc
        injection hc' with hc'
        subst hc hc'
        exact hpx.mono (hp p hp' (hl.trans hk.symm))
      · have hc' := fun hh => hc ((h.names p i hp' hi).2 hh)
        have m := List.mem_of_getElem? hl
        have m' := List.mem_of_getElem? hl'
        have d1 : (runOps (ops ++ [o])).data l = (runOps ops).data l := by
          rw [runOps_snoc]
          refine C40_data_kept ops o l m ?_
          rintro ⟨-, j, hj, hjl⟩
          rw [hsrc] at hj
          injection hj with hj
          subst hj
          exact hc (hl.trans hjl.symm)
        have d2 : (runOps (ops' ++ [o'])).data l' = (runOps ops').data l' := by
          rw [runOps_snoc]
          refine C40_data_kept ops' o' l' m' ?_
          rintro ⟨-, j, hj, hjl⟩
          rw [hsrc'] at hj
          injection hj with hj
          subst hj
          exact hc' (hl'.trans hjl.symm)
        rw [d1, d2]
        exact (h.px p l l' hl hl').1.mono (he p hp')
    · have hlt := lt_of_some hl
      rw [List.length_append, List.length_singleton] at hlt
      have : p = (runOps ops).images.length := by omega
      subst this
      rw [List.getElem?_concat_length] at hl
      rw [← h.len, List.getElem?_concat_length] at hl'
      injection hl with hl
      injection hl' with hl'
      subst hl hl'
      exact ⟨hpx.mono hn, dics i _ _ hk hk'⟩

/-- A new image is not one of the old ones. -/
theorem returned_fresh {o : Op} {i k n : Nat} (hin : o.inPlace = false) (hsrc : o.source = some i)
    (hk : (runOps ops).images[i]? = some k) (hn : Returns ops o n) : n ∉ (runOps ops).images := by
  have h1 := (exec_new_value (runOps_valid ops) hsrc hk hin).1
  unfold Returns at hn
  rw [runOps_snoc] at hn
  rw [exec_of_images hn] at h1
  have : n = (runOps ops).heap.objs.size := by
    cases hx : (o.value (runOps ops) ((runOps ops).heap.view k)).1 with
    | error e => rw [hx] at h1; cases h1
    | ok u =>
      rw [hx] at h1
      injection h1 with h1
      injection h1 with h1
  intro hm
  have := (runOps_valid ops).2 n hm
  omega

/-- Calls on an existing image that return a new one. -/
theorem PxClose.derived (h : PxClose e (runOps ops) (runOps ops')) (he : Kept (runOps ops) e e') {o o' : Op} {i k k' n n' : Nat}
    (hin : o.inPlace = false) (hin' : o'.inPlace = false) (hsrc : o.source = some i) (hsrc' : o'.source = some i)
    (hk : (runOps ops).images[i]? = some k) (hk' : (runOps ops').images[i]? = some k')
    (hs : Returns ops o n) (ht : Returns ops' o' n')
    (hpx : PxWithin (e' (runOps ops).images.length) ((runOps (ops ++ [o])).data n) ((runOps (ops' ++ [o'])).data n')) :
    PxClose e' (runOps (ops ++ [o])) (runOps (ops' ++ [o'])) := by
  refine h.new he hin hin' hs ht (returned_fresh hin hsrc hk hs) (returned_fresh hin' hsrc' hk' ht) hpx ?_
  unfold Returns at hs ht
  rw [runOps_snoc] at hs ht
  rw [runOps_snoc, runOps_snoc, C45_derived ops o i k n hsrc hk hs, C45_derived ops' o' i k' n' hsrc' hk' ht]
  exact (h.px i k k' hk hk').2

theorem dicVal_run (ops : List Op) (dic : Option AngleDic) :
    dicVal dic (runOps ops).heap = dic.getD ((lastDefault ops).getD polarCamAngles) := by
  cases dic with
  | some d => rfl
  | none => rw [dicVal_none, run_next]; rfl

theorem fromArray_fails {d : Img ℝ} {dic : Option AngleDic} {junk : Nat → Nat → ℝ} {x : PyErr}
    (hx : dataStokes d (dicVal dic (runOps ops).heap) = .error x) : ¬ ∃ n, Returns ops (.fromArray d dic none none junk) n := by
  rintro ⟨n, hn⟩
  unfold Returns at hn
  rw [runOps_snoc] at hn
  have h1 := exec_of_images hn
  have hrun := newFromArray_run d dic (runOps ops).heap
  rw [hx] at hrun
  unfold exec at h1
  dsimp only at h1
  rw [run_namedOpt_none, run_namedOpt_none, run_of_err hrun] at h1
  cases h1

theorem PxClose.array (h : PxClose e (runOps ops) (runOps ops')) (he : Kept (runOps ops) e e')
    (hdef : lastDefault ops' = lastDefault ops) {d d' : Img ℝ} {dic : Option AngleDic} {junk junk' : Nat → Nat → ℝ}
    (hpx : PxWithin (e' (runOps ops).images.length) d d') :
    PxClose e' (runOps (ops ++ [.fromArray d dic none none junk])) (runOps (ops' ++ [.fromArray d' dic none none junk'])) := by
  have hdic : dicVal dic (runOps ops').heap = dicVal dic (runOps ops).heap := by rw [dicVal_run, dicVal_run, hdef]
  cases hS : dataStokes d (dicVal dic (runOps ops).heap) with
  | ok S =>
    have hE := dataStokes_even hS
    obtain ⟨T, hT⟩ := dataStokes_again hS (d' := d') ⟨hpx.1.1 ▸ hE.1, hpx.1.2 ▸ hE.2⟩
    rw [← hdic] at hT
    have r1 := step_fromArray d dic junk hS
    have r2 := step_fromArray d' dic junk' hT
    have hs : Returns ops (.fromArray d dic none none junk) (runOps ops).heap.objs.size := by
      unfold Returns; rw [runOps_snoc, r1]
    have ht : Returns ops' (.fromArray d' dic none none junk') (runOps ops').heap.objs.size := by
      unfold Returns; rw [runOps_snoc, r2]
    have v1 : (runOps (ops ++ [.fromArray d dic none none junk])).heap.view (runOps ops).heap.objs.size = freshView d S (dicVal dic (runOps ops).heap) := by
      rw [runOps_snoc, r1]; exact arrayHeap_view d S dic (runOps ops).heap
    have v2 : (runOps (ops' ++ [.fromArray d' dic none none junk'])).heap.view (runOps ops').heap.objs.size = freshView d' T (dicVal dic (runOps ops').heap) := by
      rw [runOps_snoc, r2]; exact arrayHeap_view d' T dic (runOps ops').heap
    refine h.new he rfl rfl hs ht (fun hm => ?_) (fun hm => ?_) ?_ ?_
    · exact absurd ((runOps_valid ops).2 _ hm) (lt_irrefl _)
    · exact absurd ((runOps_valid ops').2 _ hm) (lt_irrefl _)
    · have e1 : (runOps (ops ++ [.fromArray d dic none none junk])).data (runOps ops).heap.objs.size = d := congrArg ImgView.data v1
      have e2 : (runOps (ops' ++ [.fromArray d' dic none none junk'])).data (runOps ops').heap.objs.size = d' := congrArg ImgView.data v2
      rw [e1, e2]
      exact hpx
    · exact (congrArg ImgView.dic v2).trans (hdic.trans (congrArg ImgView.dic v1).symm)
  | error x =>
    have : ∃ x', dataStokes d' (dicVal dic (runOps ops').heap) = .error x' := by
      cases hT : dataStokes d' (dicVal dic (runOps ops').heap) with
      | error x' => exact ⟨x', rfl⟩
      | ok T =>
        have hE := dataStokes_even hT
        rw [hdic] at hT
        obtain ⟨S, hS'⟩ := dataStokes_again hT (d' := d) ⟨hpx.1.1 ▸ hE.1, hpx.1.2 ▸ hE.2⟩
        rw [hS] at hS'
        cases hS'
    obtain ⟨x', hx'⟩ := this
    exact h.same he (same_images (fromArray_fails hS)) (same_images (fromArray_fails hx')) (kept_data rfl) (kept_data rfl)

theorem Perturbed.theoretical {s : State} {o o' : Op} (h : Perturbed s e e' o o') : o.theoretical = true ∧ o'.theoretical = true := by
  cases h <;> exact ⟨rfl, rfl⟩

theorem lastDefault_other {o : Op} (ho : ∀ d, o ≠ .setDefault d) : lastDefault (ops ++ [o]) = lastDefault ops := by
  rw [lastDefault_snoc]
  cases o <;> first | rfl | exact absurd rfl (ho _)

theorem Perturbed.default {s : State} {o o' : Op} (h : Perturbed s e e' o o') (hdef : lastDefault ops' = lastDefault ops) :
    lastDefault (ops' ++ [o']) = lastDefault (ops ++ [o]) := by
  cases h with
  | setDefault => rw [lastDefault_snoc, lastDefault_snoc]
  | _ => rw [lastDefault_other (by intro d hd; cases hd), lastDefault_other (by intro d hd; cases hd), hdef]

theorem setDefault_none (dic : Option AngleDic) : ¬ ∃ n, Returns ops (.setDefault dic) n := by
  rintro ⟨n, hn⟩
  unfold Returns at hn
  rw [runOps_snoc] at hn
  have := exec_of_images hn
  cases this

/-- Dark subtraction that fails changes no pixels. -/
theorem dark_fails {i j k l : Nat} (hk : (runOps ops).images[i]? = some k) (hl : (runOps ops).images[j]? = some l)
    (hne : ¬ ((runOps ops).data k).SameShape ((runOps ops).data l)) :
    ∀ p ∈ (runOps ops).images, (runOps (ops ++ [.subtractDark i j])).data p = (runOps ops).data p := by
  intro p hp
  by_cases hc : (Op.subtractDark i j).CalledOn (runOps ops) p
  · obtain ⟨i', hi', hp'⟩ := hc
    injection hi' with hi'
    subst hi'
    rw [hk] at hp'
    injection hp' with hp'
    subst hp'
    rw [place_data (o := .subtractDark i j) rfl rfl hk]
    have hA : EvenImg ((runOps ops).data k) := even_named hk
    have hB : EvenImg ((runOps ops).data l) := even_named hl
    have hne' : ((runOps ops).data k).h ≠ ((runOps ops).data l).h ∨ ((runOps ops).data k).w ≠ ((runOps ops).data l).w := by
      unfold Img.SameShape at hne; tauto
    unfold Op.value secondV
    dsimp only
    rw [hl]
    dsimp only
    unfold subtractDarkV subtractDarkData npBin
    rw [show ((runOps ops).heap.view k).data = (runOps ops).data k from rfl,
      show (runOps ops).heap.dataOf l = (runOps ops).data l from rfl, npBinAt_error hA.1 hA.2 hB.1 hB.2 hne']
    rfl
  · rw [runOps_snoc]
    exact C40_data_kept ops _ p hp fun hh => hc hh.2

theorem PxClose.sum (h : PxClose e (runOps ops) (runOps ops')) (he : Kept (runOps ops) e e') {op : Arith} (hop : op = .add ∨ op = .sub)
    (hops : ∀ o ∈ ops, o.theoretical = true) (hops' : ∀ o ∈ ops', o.theoretical = true) {i j k k' l l' : Nat} {junk junk' : Nat → Nat → ℝ}
    (hk : (runOps ops).images[i]? = some k) (hk' : (runOps ops').images[i]? = some k') (hl : (runOps ops).images[j]? = some l)
    (hl' : (runOps ops').images[j]? = some l') (hn : e i + e j ≤ e' (runOps ops).images.length) :
    PxClose e' (runOps (ops ++ [.arithImage op i j junk])) (runOps (ops' ++ [.arithImage op i j junk'])) := by
  have hA := (h.px i k k' hk hk').1
  have hB := (h.px j l l' hl hl').1
  have iff1 := (C77_same_shape_return ops i j k l hk hl).1 op junk
  have iff2 := (C77_same_shape_return ops' i j k' l' hk' hl').1 op junk'
  have hsh : ((runOps ops).data k).SameShape ((runOps ops).data l) ↔ ((runOps ops').data k').SameShape ((runOps ops').data l') := by
    unfold Img.SameShape
    rw [hA.1.1, hA.1.2, hB.1.1, hB.1.2]
  by_cases hc : ((runOps ops).data k).SameShape ((runOps ops).data l)
  · obtain ⟨n, r⟩ := iff1.2 hc
    obtain ⟨n', r'⟩ := iff2.2 (hsh.1 hc)
    exact h.derived he rfl rfl rfl rfl hk hk' r r'
      ((C112_sum ops ops' op hop i i j j k k' l l' n n' junk junk' hk hk' hl hl' r r' _ _ hA hB).mono hn)
  · exact h.same he (same_images fun hh => hc (iff1.1 hh)) (same_images fun hh => hc (hsh.2 (iff2.1 hh))) (kept_data rfl) (kept_data rfl)

theorem PxClose.number (h : PxClose e (runOps ops) (runOps ops')) (he : Kept (runOps ops) e e') {op : Arith} {c : ℝ}
    (hc : op = .div → c ≠ 0) (hops : ∀ o ∈ ops, o.theoretical = true) (hops' : ∀ o ∈ ops', o.theoretical = true) {i k k' : Nat}
    {junk junk' : Nat → Nat → ℝ} (hk : (runOps ops).images[i]? = some k) (hk' : (runOps ops').images[i]? = some k')
    (hn : numberFactor op c * e i ≤ e' (runOps ops).images.length) :
    PxClose e' (runOps (ops ++ [.arithNumber op i c junk])) (runOps (ops' ++ [.arithNumber op i c junk'])) := by
  obtain ⟨n, r⟩ := (C77_always_return ops i k hk).2.2.2 op c junk
  obtain ⟨n', r'⟩ := (C77_always_return ops' i k' hk').2.2.2 op c junk'
  exact h.derived he rfl rfl rfl rfl hk hk' r r'
    ((C112_number ops ops' op i i k k' n n' c hc junk junk' hk hk' r r' _ (h.px i k k' hk hk').1).mono hn)

theorem PxClose.step (h : PxClose e (runOps ops) (runOps ops')) (hpos : ∀ p, 0 ≤ e p) (hops : ∀ o ∈ ops, o.theoretical = true)
    (hops' : ∀ o ∈ ops', o.theoretical = true) (hdef : lastDefault ops' = lastDefault ops) {o o' : Op}
    (ho : Perturbed (runOps ops) e e' o o') : PxClose e' (runOps (ops ++ [o])) (runOps (ops' ++ [o'])) := by
  have obj : ∀ i, i < (runOps ops).images.length → ∃ k k', (runOps ops).images[i]? = some k ∧ (runOps ops').images[i]? = some k' := by
    intro i hi
    obtain ⟨k, hk⟩ := some_of_lt hi
    obtain ⟨k', hk'⟩ := some_of_lt (show i < (runOps ops').images.length by rw [h.len]; exact hi)
    exact ⟨k, k', hk, hk'⟩
  cases ho with
  | setDefault dic he =>
    exact h.same he (same_images (setDefault_none _)) (same_images (setDefault_none _)) (kept_data rfl) (kept_data rfl)
  | fromArray d d' dic junk junk' he hn => exact h.array he hdef hn
  | fromImage i dic junk junk' hi he hn =>
    obtain ⟨k, k', hk, hk'⟩ := obj i hi
    obtain ⟨n, r, d, -⟩ := C77_copy ops i k dic junk hk
    obtain ⟨n', r', d', -⟩ := C77_copy ops' i k' dic junk' hk'
    exact h.derived he rfl rfl rfl rfl hk hk' r r' (by rw [d, d']; exact (h.px i k k' hk hk').1.mono hn)
  | rebin i b hi hb he hn =>
    obtain ⟨k, k', hk, hk'⟩ := obj i hi
    obtain ⟨n, r⟩ := (C77_always_return ops i k hk).1 b hb
    obtain ⟨n', r'⟩ := (C77_always_return ops' i k' hk').1 b hb
    exact h.derived he rfl rfl rfl rfl hk hk' r r' ((C112_rebin ops ops' i i k k' n n' b hk hk' r r' _ (h.px i k k' hk hk').1).mono hn)
  | shift i y x m hi he hn =>
    obtain ⟨k, k', hk, hk'⟩ := obj i hi
    obtain ⟨n, r⟩ := (C77_always_return ops i k hk).2.1 y x m
    obtain ⟨n', r'⟩ := (C77_always_return ops' i k' hk').2.1 y x m
    exact h.derived he rfl rfl rfl rfl hk hk' r r'
      ((C112_shift ops ops' i i k k' n n' y x m hk hk' r r' _ (hpos i) (h.px i k k' hk hk').1).mono hn)
  | cleanHotPixels i f hi hf he hex hsh hn =>
    obtain ⟨k, k', hk, hk'⟩ := obj i hi
    obtain ⟨l, l', hl, hl'⟩ := obj f hf
    have hs := hsh k l hk hl
    have hA := (h.px i k k' hk hk').1
    have hF := (h.px f l l' hl hl').1
    rw [hex] at hF
    have hs' : ((runOps ops').data k').SameShape ((runOps ops').data l') :=
      ⟨by rw [← hA.1.1, hs.1, hF.1.1], by rw [← hA.1.2, hs.2, hF.1.2]⟩
    obtain ⟨n, r⟩ := (C77_corrections_return ops i f k l hk hl hs).2 (medianFilter 2) (medianFilter_shape 2)
    obtain ⟨n', r'⟩ := (C77_corrections_return ops' i f k' l' hk' hl' hs').2 (medianFilter 2) (medianFilter_shape 2)
    exact h.derived he rfl rfl rfl rfl hk hk' r r'
      ((C112_hot_pixels ops ops' i i f f k k' l l' n n' hk hk' hl hl' hs hF r r' _ hA).mono hn)
  | addImage i j junk junk' hi hj he hn =>
    obtain ⟨k, k', hk, hk'⟩ := obj i hi
    obtain ⟨l, l', hl, hl'⟩ := obj j hj
    exact h.sum he (.inl rfl) hops hops' hk hk' hl hl' hn
  | subImage i j junk junk' hi hj he hn =>
    obtain ⟨k, k', hk, hk'⟩ := obj i hi
    obtain ⟨l, l', hl, hl'⟩ := obj j hj
    exact h.sum he (.inr rfl) hops hops' hk hk' hl hl' hn
  | addNumber i c junk junk' hi he hn =>
    obtain ⟨k, k', hk, hk'⟩ := obj i hi
    exact h.number he (fun hc => by cases hc) hops hops' hk hk' (by unfold numberFactor; rw [one_mul]; exact hn)
  | subNumber i c junk junk' hi he hn =>
    obtain ⟨k, k', hk, hk'⟩ := obj i hi
    exact h.number he (fun hc => by cases hc) hops hops' hk hk' (by unfold numberFactor; rw [one_mul]; exact hn)
  | mulNumber i c junk junk' hi he hn =>
    obtain ⟨k, k', hk, hk'⟩ := obj i hi
    exact h.number he (fun hc => by cases hc) hops hops' hk hk' hn
  | divNumber i c junk junk' hc hi he hn =>
    obtain ⟨k, k', hk, hk'⟩ := obj i hi
    exact h.number he (fun _ => hc) hops hops' hk hk' (by unfold numberFactor; rw [one_div_mul_eq_div]; exact hn)
  | subtractDark i j hi hj he hp hn =>
    obtain ⟨k, k', hk, hk'⟩ := obj i hi
    obtain ⟨l, l', hl, hl'⟩ := obj j hj
    have hA := (h.px i k k' hk hk').1
    have hB := (h.px j l l' hl hl').1
    have iff1 := (C77_same_shape_return ops i j k l hk hl).2
    have iff2 := (C77_same_shape_return ops' i j k' l' hk' hl').2
    have hsh : ((runOps ops).data k).SameShape ((runOps ops).data l) ↔ ((runOps ops').data k').SameShape ((runOps ops').data l') := by
      unfold Img.SameShape
      rw [hA.1.1, hA.1.2, hB.1.1, hB.1.2]
    by_cases hc : ((runOps ops).data k).SameShape ((runOps ops).data l)
    · obtain ⟨n, r⟩ := iff1.2 hc
      obtain ⟨n', r'⟩ := iff2.2 (hsh.1 hc)
      have en := (C77_dark ops i j k l n hk hl r).1
      have en' := (C77_dark ops' i j k' l' n' hk' hl' r').1
      subst en en'
      exact h.place he rfl rfl hk hk' r r' (C112_dark ops ops' i i j j n n' l l' n n' hk hk' hl hl' r r' _ _ hA hB) hp hn
    · exact h.same he (same_images fun hh => hc (iff1.1 hh)) (same_images fun hh => hc (hsh.2 (iff2.1 hh)))
        (dark_fails hk hl hc) (dark_fails hk' hl' fun hh => hc (hsh.2 hh))
  | correctIfov i hi he hp hn =>
    obtain ⟨k, k', hk, hk'⟩ := obj i hi
    obtain ⟨n, r⟩ := (C77_always_return ops i k hk).2.2.1
    obtain ⟨n', r'⟩ := (C77_always_return ops' i k' hk').2.2.1
    have en := (C77_ifov ops i k n hk r).1
    have en' := (C77_ifov ops' i k' n' hk' r').1
    subst en en'
    exact h.place he rfl rfl hk hk' r r' (C112_ifov ops ops' i i n n' n n' hk hk' r r' _ (hpos i) (h.px i n n' hk hk').1) hp hn

theorem close_take (l : List (Op × Op)) (b : Nat → Nat → ℝ) (h : PerturbedSession b l) (n : Nat) (hn : n ≤ l.length) :
    PxClose (b n) (runOps ((l.take n).map Prod.fst)) (runOps ((l.take n).map Prod.snd)) ∧
    (∀ o ∈ (l.take n).map Prod.fst, o.theoretical = true) ∧ (∀ o ∈ (l.take n).map Prod.snd, o.theoretical = true) ∧
    lastDefault ((l.take n).map Prod.snd) = lastDefault ((l.take n).map Prod.fst) := by
  induction n with
  | zero =>
    refine ⟨⟨rfl, fun p q hp => absurd hp (Nat.not_lt_zero _), fun p k k' hk => ?_⟩, ?_, ?_, rfl⟩
    · exact absurd (lt_of_some hk) (Nat.not_lt_zero _)
    · simp
    · simp
  | succ n ih =>
    obtain ⟨h1, h2, h3, h4⟩ := ih (by omega)
    obtain ⟨⟨o, o'⟩, ho⟩ : ∃ a, l[n]? = some a := ⟨_, List.getElem?_eq_getElem (by omega)⟩
    have hp := h.2 n o o' ho
    have e1 : (l.take (n + 1)).map Prod.fst = (l.take n).map Prod.fst ++ [o] := by
      rw [List.take_add_one, ho]; simp
    have e2 : (l.take (n + 1)).map Prod.snd = (l.take n).map Prod.snd ++ [o'] := by
      rw [List.take_add_one, ho]; simp
    rw [e1, e2]
    have hth := hp.theoretical
    refine ⟨h1.step (h.1 n) h2 h3 h4 hp, fun a ha => ?_, fun a ha => ?_, hp.default h4⟩
    · rcases List.mem_append.1 ha with ha | ha
      · exact h2 a ha
      · rw [List.mem_singleton.1 ha]; exact hth.1
    · rcases List.mem_append.1 ha with ha | ha
      · exact h3 a ha
      · rw [List.mem_singleton.1 ha]; exact hth.2

/-- C112: two sessions of any length make the same calls (construction, copies, `rebin`, `shift`, hot pixel cleaning, sums and
differences of images, arithmetic with numbers, dark subtraction, IFOV correction) on arrays that differ.  If the bounds `e` follow the
rules of `Perturbed`, then at the end the two sessions have the same images under the same names, with the same angles, the pixels of
image `p` differ by at most its bound and I, Q, U by at most twice that.  (Partial: demosaicing, `congrid`, flat fields and
demodulation are covered as single calls in `Props/Stability`; rotation, flat fields with errors and products of images are left out.) -/
theorem C112_session_theoretical (l : List (Op × Op)) (e : Nat → Nat → ℝ) (h : PerturbedSession e l) :
    let s := runOps (l.map Prod.fst)
    let t := runOps (l.map Prod.snd)
    t.images.length = s.images.length ∧
    ∀ p k k', s.images[p]? = some k → t.images[p]? = some k' →
      PxWithin (e l.length p) (s.data k) (t.data k') ∧ t.dic k' = s.dic k ∧
      ∀ q, PxWithin (2 * e l.length p) (s.stokes k q) (t.stokes k' q) := by
  intro s t
  obtain ⟨h1, h2, h3, -⟩ := close_take l e h l.length le_rfl
  rw [List.take_length] at h1 h2 h3
  refine ⟨h1.len, fun p k k' hk hk' => ?_⟩
  obtain ⟨g1, g2⟩ := h1.px p k k' hk hk'
  refine ⟨g1, g2, fun q => ?_⟩
  have hS := C42_theoretical _ h2 k (List.mem_of_getElem? hk)
  have hT := C42_theoretical _ h3 k' (List.mem_of_getElem? hk')
  rw [g2] at hT
  exact dataStokes_within g1 hS hT q

theorem perturbedSession_snoc {e : Nat → Nat → ℝ} {l : List (Op × Op)} {o o' : Op} (hl : PerturbedSession e l)
    (ho : Perturbed (runOps (l.map Prod.fst)) (e l.length) (e (l.length + 1)) o o') : PerturbedSession e (l ++ [(o, o')]) := by
  refine ⟨hl.1, fun k a a' hk => ?_⟩
  rcases Nat.lt_trichotomy k l.length with hlt | rfl | hgt
  · rw [List.getElem?_append_left hlt] at hk
    rw [List.take_append_of_le_length hlt.le]
    exact hl.2 k a a' hk
  · rw [List.getElem?_append_right (Nat.le_refl _), Nat.sub_self] at hk
    cases hk
    rw [List.take_append_of_le_length (Nat.le_refl _), List.take_length]
    exact ho
  · rw [List.getElem?_eq_none (by rw [List.length_append]; simpa using hgt)] at hk
    cases hk

/-! ## Examples -/

/-- A flat frame of `2 m × 2 m` pixels with value `v`. -/
noncomputable def evenFrame (m : Nat) (v : ℝ) : Img ℝ := Img.const (2 * m) (2 * m) v

noncomputable def frameCall (m : Nat) (v : ℝ) : Op := .fromArray (evenFrame m v) none none none fun _ _ => 0

theorem frame_run (ops : List Op) (hd : lastDefault ops = none) (m : Nat) (v : ℝ) :
    Returns ops (frameCall m v) (runOps ops).heap.objs.size ∧
      (runOps (ops ++ [frameCall m v])).data (runOps ops).heap.objs.size = evenFrame m v := by
  have hdic : dicVal none (runOps ops).heap = polarCamAngles := by rw [dicVal_run, hd]; rfl
  obtain ⟨S, hS, -⟩ := C17_stokes (evenFrame m v) (show 2 * m % 2 = 0 by omega) (show 2 * m % 2 = 0 by omega) _ _ C02_polarCam.1
  rw [← hdic] at hS
  have r := step_fromArray (evenFrame m v) none (fun _ _ => 0) hS
  refine ⟨?_, ?_⟩
  · unfold Returns frameCall
    rw [runOps_snoc, r]
  · unfold frameCall
    rw [runOps_snoc, r]
    exact congrArg ImgView.data (arrayHeap_view (evenFrame m v) S none (runOps ops).heap)

/-- C112: the factor of `rebin` is attained: two frames that differ by `ε` everywhere are binned to frames that differ by `b² ε`. -/
theorem C112_rebin_sharp (b : Nat) (hb : 1 ≤ b) (ε : ℝ) : ∃ (ops ops' : List Op) (n n' : Nat),
    (runOps ops).images[0]? = some 0 ∧ (runOps ops').images[0]? = some 0 ∧
    (∀ y x, y < ((runOps ops).data 0).h → x < ((runOps ops).data 0).w → ((runOps ops).data 0).px y x - ((runOps ops').data 0).px y x = ε) ∧
    Returns ops (.rebin 0 b) n ∧ Returns ops' (.rebin 0 b) n' ∧ ((runOps (ops ++ [.rebin 0 b])).data n).HasShape 2 2 ∧
    ∀ y x, y < 2 → x < 2 →
      ((runOps (ops ++ [.rebin 0 b])).data n).px y x - ((runOps (ops' ++ [.rebin 0 b])).data n').px y x = (b : ℝ) ^ 2 * ε := by
  have main : ∀ v : ℝ, (runOps [frameCall b v]).images[0]? = some 0 ∧ (runOps [frameCall b v]).data 0 = evenFrame b v ∧
      ∃ n, Returns [frameCall b v] (.rebin 0 b) n ∧ ((runOps ([frameCall b v] ++ [.rebin 0 b])).data n).HasShape 2 2 ∧
        ∀ y x, y < 2 → x < 2 → ((runOps ([frameCall b v] ++ [.rebin 0 b])).data n).px y x = (b : ℝ) ^ 2 * v := by
    intro v
    obtain ⟨h1, h2⟩ := frame_run [] rfl b v
    have hi : (runOps [frameCall b v]).images[0]? = some 0 := by
      unfold Returns at h1
      rw [List.nil_append] at h1
      rw [h1]
      rfl
    have hd : (runOps [frameCall b v]).data 0 = evenFrame b v := h2
    obtain ⟨n, hn⟩ := (C77_always_return [frameCall b v] 0 0 hi).1 b (by exact_mod_cast hb)
    obtain ⟨m, hm, e, hs, hp⟩ := C77_rebin [frameCall b v] 0 0 n b hi hn
    have : m = b := by exact_mod_cast e.symm
    subst this
    rw [hd] at hs hp
    have hdiv : 2 * ((evenFrame m v).h / (2 * m)) = 2 := by
      show 2 * (2 * m / (2 * m)) = 2
      rw [Nat.div_self (by omega)]
    have hdiv' : 2 * ((evenFrame m v).w / (2 * m)) = 2 := hdiv
    rw [hdiv, hdiv'] at hs
    refine ⟨hi, hd, n, hn, hs, fun y x hy hx => ?_⟩
    rw [hp y x (by rw [hs.1]; exact hy) (by rw [hs.2]; exact hx)]
    unfold familySum
    have : ∀ u ∈ Finset.range m, ∑ w ∈ Finset.range m,
        (evenFrame m v).px (2 * (m * (y / 2) + u) + y % 2) (2 * (m * (x / 2) + w) + x % 2) = m * v := by
      intro u hu
      rw [Finset.sum_congr rfl (g := fun _ => v)]
      · rw [Finset.sum_const, Finset.card_range, nsmul_eq_mul]
      · intro w hw
        rw [Finset.mem_range] at hu hw
        have y0 : y / 2 = 0 := by omega
        have x0 : x / 2 = 0 := by omega
        rw [y0, x0]
        unfold evenFrame Img.const
        rw [Img.ofFn_px (by omega) (by omega)]
    rw [Finset.sum_congr rfl this, Finset.sum_const, Finset.card_range, nsmul_eq_mul]
    ring
  obtain ⟨i1, d1, n, r1, s1, p1⟩ := main ε
  obtain ⟨i2, d2, n', r2, -, p2⟩ := main 0
  refine ⟨_, _, n, n', i1, i2, fun y x hy hx => ?_, r1, r2, s1, fun y x hy hx => ?_⟩
  · rw [d1] at hy hx ⊢
    rw [d2]
    have hy' : y < 2 * b := hy
    have hx' : x < 2 * b := hx
    unfold evenFrame Img.const
    rw [Img.ofFn_px hy' hx', Img.ofFn_px hy' hx', sub_zero]
  · rw [p1 y x hy hx, p2 y x hy hx]
    ring

/-- One bright pixel of value `v`. -/
noncomputable def spark (v : ℝ) : Img ℝ := Img.ofFn 2 2 fun y x => if y = 0 ∧ x = 0 then v else 0

/-- C112: without light there is no bound for the degree of polarization: frames that differ as little as one likes can have degrees of
polarization 0 and 2. -/
theorem C112_no_bound_without_light (ε : ℝ) (hε : 0 < ε) : ∃ (ops ops' : List Op), (runOps ops).images[0]? = some 0 ∧
    (runOps ops').images[0]? = some 0 ∧ PxWithin ε ((runOps ops).data 0) ((runOps ops').data 0) ∧
    ∃ D E, DoLP ((runOps ops).stokes 0) = .ok D ∧ DoLP ((runOps ops').stokes 0) = .ok E ∧ D.px 0 0 = 2 ∧ E.px 0 0 = 0 := by
  have main : ∀ v : ℝ, 0 ≤ v → ∃ ops : List Op, (runOps ops).images[0]? = some 0 ∧ (runOps ops).data 0 = spark v ∧
      ∃ D, DoLP ((runOps ops).stokes 0) = .ok D ∧ (v = 0 → D.px 0 0 = 0) ∧ (0 < v → D.px 0 0 = 2) := by
    intro v hv
    obtain ⟨S, hS, h2, h3⟩ := C17_stokes (spark v) (show 2 % 2 = 0 from rfl) (show 2 % 2 = 0 from rfl) _ _ C02_polarCam.1
    have r := step_fromArray (s := initState) (spark v) none (fun _ _ => 0) hS
    have r' : runOps [.fromArray (spark v) none none none fun _ _ => 0] = _ := r
    refine ⟨[.fromArray (spark v) none none none fun _ _ => 0], by rw [r']; rfl, ?_, ?_⟩
    · rw [r']
      exact congrArg ImgView.data (arrayHeap_view (spark v) S none initState.heap)
    · have hst : (runOps [.fromArray (spark v) none none none fun _ _ => 0]).stokes 0 = S := by
        rw [r']
        exact congrArg (fun w => w.stokes.planes) (arrayHeap_view (spark v) S none initState.heap)
      rw [hst]
      have hSS : SameShape S := fun i => ⟨(h2 i).1.trans (h2 0).1.symm, (h2 i).2.trans (h2 0).2.symm⟩
      obtain ⟨D, e, -, -, h⟩ := C19_total S hSS
      have g1 : 0 < (S 0).h := by rw [(h2 0).1]; exact (show 0 < 2 / 2 by decide)
      have g2 : 0 < (S 0).w := by rw [(h2 0).2]; exact (show 0 < 2 / 2 by decide)
      obtain ⟨a, b, c⟩ := h3 0 0 (show 0 < 2 / 2 by decide) (show 0 < 2 / 2 by decide)
      have a' : (S 0).px 0 0 = v / 2 := by rw [a]; norm_num [spark, Img.ofFn_px']
      have b' : (S 1).px 0 0 = v := by rw [b]; norm_num [spark, Img.ofFn_px']
      have c' : (S 2).px 0 0 = 0 := by rw [c]; norm_num [spark, Img.ofFn_px']
      refine ⟨D, e, fun hv0 => (h 0 0 g1 g2).1 (by rw [a', hv0, zero_div]), fun hv1 => ?_⟩
      rw [(h 0 0 g1 g2).2 (by rw [a']; positivity), pB_px hSS g1 g2, a', b', c', mul_zero, add_zero, Real.sqrt_mul_self hv]
      field_simp
  obtain ⟨o1, i1, d1, D, hD, -, f1⟩ := main ε hε.le
  obtain ⟨o2, i2, d2, E, hE, f2, -⟩ := main 0 le_rfl
  refine ⟨o1, o2, i1, i2, ?_, D, E, hD, hE, f1 hε, f2 rfl⟩
  rw [d1, d2]
  refine ⟨⟨rfl, rfl⟩, fun y x hy hx => ?_⟩
  unfold spark
  rw [Img.ofFn_px (show y < 2 from hy) (show x < 2 from hx), Img.ofFn_px (show y < 2 from hy) (show x < 2 from hx)]
  split_ifs
  · rw [sub_zero, abs_of_pos hε]
  · rw [sub_zero, abs_zero]; exact hε.le

/-- A light frame known to 3 counts and a dark frame known to 1 count, dark subtraction and binning by 2: the result is known to 16
counts, and its Stokes parameters to 32. -/
example : ∃ (l : List (Op × Op)) (e : Nat → Nat → ℝ), PerturbedSession e l ∧ l.length = 4 ∧
    (runOps (l.map Prod.fst)).images.length = 4 ∧ e 4 3 = 16 := by
  have run2 : Returns [frameCall 4 100] (frameCall 4 20) 1 := by
    have := (frame_run [frameCall 4 100] (by unfold frameCall; rfl) 4 20).1
    have h0 : (runOps [frameCall 4 100]).heap.objs.size = 1 := by
      obtain ⟨S, hS, -⟩ := C17_stokes (evenFrame 4 100) (show 8 % 2 = 0 from rfl) (show 8 % 2 = 0 from rfl) _ _ C02_polarCam.1
      have r := step_fromArray (s := initState) (evenFrame 4 100) none (fun _ _ => 0) hS
      have r' : runOps [frameCall 4 100] = _ := r
      rw [r']
      rfl
    rwa [h0] at this
  have i1 : (runOps [frameCall 4 100]).images = [0] := (frame_run [] rfl 4 100).1
  have i2 : (runOps [frameCall 4 100, frameCall 4 20]).images = [0, 1] := by
    unfold Returns at run2
    rw [i1] at run2
    exact run2
  have th2 : ∀ o ∈ [frameCall 4 100, frameCall 4 20], o.theoretical = true := by simp [frameCall, Op.theoretical]
  have d0 : (runOps [frameCall 4 100]).data 0 = evenFrame 4 100 := (frame_run [] rfl 4 100).2
  have d0' : (runOps [frameCall 4 100, frameCall 4 20]).data 0 = evenFrame 4 100 := by
    rw [← d0]
    exact kept_data (ops := [frameCall 4 100]) (o := frameCall 4 20) rfl 0 (by rw [i1]; simp)
  have d1 : (runOps [frameCall 4 100, frameCall 4 20]).data 1 = evenFrame 4 20 := by
    have h := (frame_run [frameCall 4 100] (by unfold frameCall; rfl) 4 20)
    have e1 : (runOps [frameCall 4 100]).heap.objs.size = 1 := by
      have := h.1
      unfold Returns at this run2
      rw [run2] at this
      simpa using this.symm
    have := h.2
    rw [e1] at this
    exact this
  obtain ⟨n, hn⟩ := (C77_same_shape_return [frameCall 4 100, frameCall 4 20] 0 1 0 1 (by rw [i2]; rfl) (by rw [i2]; rfl)).2.2
    (by rw [d0', d1]; exact ⟨rfl, rfl⟩)
  have en : n = 0 := (C77_dark _ 0 1 0 1 n (by rw [i2]; rfl) (by rw [i2]; rfl) hn).1
  subst en
  have i3 : (runOps [frameCall 4 100, frameCall 4 20, .subtractDark 0 1]).images = [0, 1, 0] := by
    unfold Returns at hn
    rw [i2] at hn
    exact hn
  obtain ⟨m, hm⟩ := (C77_always_return [frameCall 4 100, frameCall 4 20, .subtractDark 0 1]
    0 0 (by rw [i3]; rfl)).1 2 (by norm_num)
  have i4 : (runOps [frameCall 4 100, frameCall 4 20, .subtractDark 0 1, .rebin 0 2]).images = [0, 1, 0, m] := by
    unfold Returns at hm
    rw [i3] at hm
    exact hm
  let e : Nat → Nat → ℝ := fun k p => if k ≤ 2 then (if p = 0 then 3 else if p = 1 then 1 else 0) else
    if p = 1 then 1 else if p = 3 then 16 else 4
  have hw : ∀ (v w ε : ℝ), |v - w| ≤ ε → PxWithin ε (evenFrame 4 v) (evenFrame 4 w) := by
    intro v w ε h
    refine ⟨⟨rfl, rfl⟩, fun y x hy hx => ?_⟩
    have hy' : y < 2 * 4 := hy
    have hx' : x < 2 * 4 := hx
    unfold evenFrame Img.const
    rw [Img.ofFn_px hy' hx', Img.ofFn_px hy' hx']
    exact h
  have s0 : PerturbedSession e [] := ⟨fun k p => by dsimp only [e]; split_ifs <;> norm_num, fun k o o' h => by cases h⟩
  have s1 : PerturbedSession e [(frameCall 4 100, frameCall 4 103)] := by
    refine perturbedSession_snoc s0 (.fromArray _ _ _ _ _ (fun p hp => absurd hp (Nat.not_lt_zero _)) (hw _ _ _ ?_))
    show |(100 : ℝ) - 103| ≤ e 1 0
    norm_num [e]
  have s2 : PerturbedSession e [(frameCall 4 100, frameCall 4 103), (frameCall 4 20, frameCall 4 19)] := by
    refine perturbedSession_snoc s1 (.fromArray _ _ _ _ _ (fun p hp => ?_) ?_)
    · show e 1 p ≤ e 2 p
      simp [e]
    · show PxWithin (e 2 (runOps [frameCall 4 100]).images.length) _ _
      rw [i1]
      refine hw _ _ _ ?_
      norm_num [e]
  have s3 : PerturbedSession e [(frameCall 4 100, frameCall 4 103), (frameCall 4 20, frameCall 4 19),
      (.subtractDark 0 1, .subtractDark 0 1)] := by
    refine perturbedSession_snoc s2 (.subtractDark 0 1 ?_ ?_ (fun p hp => ?_) (fun p hp hpi => ?_) ?_)
    · show 0 < (runOps [frameCall 4 100, frameCall 4 20]).images.length
      rw [i2]; decide
    · show 1 < (runOps [frameCall 4 100, frameCall 4 20]).images.length
      rw [i2]; decide
    · change p < (runOps [frameCall 4 100, frameCall 4 20]).images.length at hp
      rw [i2] at hp
      have hp' : p < 2 := hp
      show e 2 p ≤ e 3 p
      interval_cases p <;> norm_num [e]
    · change p < (runOps [frameCall 4 100, frameCall 4 20]).images.length at hp
      change (runOps [frameCall 4 100, frameCall 4 20]).images[p]? = (runOps [frameCall 4 100, frameCall 4 20]).images[0]? at hpi
      rw [i2] at hp hpi
      have hp' : p < 2 := hp
      show e 2 0 + e 2 1 ≤ e 3 p
      interval_cases p
      · norm_num [e]
      · simp at hpi
    · show e 2 0 + e 2 1 ≤ e 3 (runOps [frameCall 4 100, frameCall 4 20]).images.length
      rw [i2]
      norm_num [e]
  have s4 : PerturbedSession e [(frameCall 4 100, frameCall 4 103), (frameCall 4 20, frameCall 4 19),
      (.subtractDark 0 1, .subtractDark 0 1), (.rebin 0 2, .rebin 0 2)] := by
    refine perturbedSession_snoc s3 (.rebin 0 2 ?_ (by norm_num) (fun p hp => le_rfl) ?_)
    · show 0 < (runOps [frameCall 4 100, frameCall 4 20, .subtractDark 0 1]).images.length
      rw [i3]; decide
    · show ((2 : Int) : ℝ) ^ 2 * e 3 0 ≤ e 4 (runOps [frameCall 4 100, frameCall 4 20, .subtractDark 0 1]).images.length
      rw [i3]
      norm_num [e]
  refine ⟨_, e, s4, rfl, ?_, ?_⟩
  · show (runOps [frameCall 4 100, frameCall 4 20, .subtractDark 0 1, .rebin 0 2]).images.length = 4
    rw [i4]; rfl
  · norm_num [e]

end Micropol

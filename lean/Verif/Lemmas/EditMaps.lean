import Verif.Lemmas.Edit
import Verif.Spec.EditMaps

/-! # Who holds which Stokes vector -/

set_option autoImplicit false

namespace Micropol

open M

noncomputable section

open Classical

/-- The Stokes vector of object `n` satisfies `A`; there are at least `z` of them. -/
def MapsA (z : Nat) (A : Nat → Prop) (n : Nat) (h : Heap) : Prop := z ≤ h.stokes.size ∧ A (h.objs.cell n).stokes

def BigM (z : Nat) (h : Heap) : Prop := z ≤ h.stokes.size

/-- The Stokes vector of object `n` is new. -/
abbrev MapsNew (z n : Nat) : Heap → Prop := MapsA z (fun r => z ≤ r) n

section
variable {z n : Nat} {A : Nat → Prop} {h : Heap}

theorem MapsA.modifyObj (hf : MapsA z A n h) {f : ImgObj → ImgObj} (hp : ∀ o, (f o).stokes = o.stokes) :
    MapsA z A n (h.modifyObj n f) := by
  refine ⟨hf.1, ?_⟩
  show A ((h.objs.set n _).cell n).stokes
  rw [Store.set_cell_self, hp]
  exact hf.2

theorem MapsA.setData (hf : MapsA z A n h) (d : Img ℝ) : MapsA z A n (h.setData n d) := by
  refine ⟨hf.1, ?_⟩
  show A ((h.objs.set n _).cell n).stokes
  rw [Store.set_cell_self]
  exact hf.2

theorem maps_setStokes (hf : BigM z h) (d : StokesVec) : MapsNew z n (h.setStokes n d) := by
  refine ⟨Nat.le_succ_of_le hf, ?_⟩
  show z ≤ ((h.objs.set n _).cell n).stokes
  rw [Store.set_cell_self]
  exact hf

theorem MapsA.setStokes (hA : ∀ r, z ≤ r → A r) (hf : MapsA z A n h) (d : StokesVec) : MapsA z A n (h.setStokes n d) := by
  have := maps_setStokes (n := n) hf.1 d
  exact ⟨this.1, hA _ this.2⟩

/-! ## In place, whatever happens -/

theorem maps_updateStokes (hA : ∀ r, z ≤ r → A r) : Pres (MapsA z A n) (updateStokes n) :=
  Pres.bind Pres.read fun _ => Pres.bind Pres.lift fun _ => Pres.modify fun _ hf => hf.setStokes hA _

theorem maps_demosaic (hA : ∀ r, z ≤ r → A r) (mode : String) : Pres (MapsA z A n) (demosaicObj n mode) :=
  Pres.bind Pres.read fun _ => Pres.bind Pres.lift fun _ =>
  Pres.bind (Pres.modify fun _ hf => hf.modifyObj fun _ => rfl) fun _ => maps_updateStokes hA

theorem maps_subtractDark (hA : ∀ r, z ≤ r → A r) (dark : Nat) : Pres (MapsA z A n) (subtractDark n dark) :=
  Pres.bind Pres.read fun _ => Pres.bind Pres.lift fun _ =>
  Pres.bind (Pres.modify fun _ hf => hf.setData _) fun _ =>
  Pres.bind (Pres.modify fun _ hf => hf.setData _) fun _ =>
  Pres.bind (maps_updateStokes hA) fun _ => Pres.modify fun _ hf => hf.modifyObj fun _ => rfl

theorem maps_correctFlat (hA : ∀ r, z ≤ r → A r) (junk : Nat → Nat → ℝ) (flat : Nat) :
    Pres (MapsA z A n) (correctFlat junk n flat) :=
  Pres.bind Pres.read fun _ => Pres.bind Pres.lift fun _ =>
  Pres.bind (Pres.modify fun _ hf => hf.setData _) fun _ =>
  Pres.bind (maps_updateStokes hA) fun _ => Pres.modify fun _ hf => hf.modifyObj fun _ => rfl

theorem maps_correctIfov (hA : ∀ r, z ≤ r → A r) : Pres (MapsA z A n) (correctIfov n) :=
  Pres.bind Pres.read fun _ => Pres.bind Pres.lift fun _ =>
  Pres.bind (Pres.modify fun _ hf => hf.setData _) fun _ => maps_updateStokes hA

/-! ## Success gives a new Stokes vector -/

/-- `m` starts with at least `z` Stokes vectors, and if it ends normally object `n` has a new one. -/
def GivesMaps (z n : Nat) {α : Type} (m : M α) : Prop := Triple (BigM z) m (fun _ => MapsNew z n) (fun _ => True)

theorem givesMaps_updateStokes : GivesMaps z n (updateStokes n) :=
  big_readLift fun _ => Triple.modify fun _ hf => maps_setStokes hf _

theorem bigM_setData {k : Nat} (d : Img ℝ) : Pres (BigM z) (M.modify fun h => h.setData k d) := Pres.modify fun _ hf => hf

theorem givesMaps_update (d : Img ℝ) : GivesMaps z n (updateDataAndStokes n d) :=
  Triple.bind (weaken (bigM_setData d)) fun _ => givesMaps_updateStokes

theorem givesMaps_demosaic (mode : String) : GivesMaps z n (demosaicObj n mode) :=
  big_readLift fun _ => Triple.bind (weaken (P := BigM z) (Pres.modify fun _ hf => hf)) fun _ => givesMaps_updateStokes

theorem givesMaps_flag {f : ImgObj → ImgObj} (hp : ∀ o, (f o).stokes = o.stokes) :
    Triple (BigM z) (updateStokes n >>= fun _ => M.modify fun h => h.modifyObj n f) (fun _ => MapsNew z n)
      (fun _ => True) :=
  Triple.bind givesMaps_updateStokes fun _ => weaken (Pres.modify fun _ hf => hf.modifyObj hp)

theorem givesMaps_subtractDark (dark : Nat) : GivesMaps z n (subtractDark n dark) :=
  big_readLift fun d => Triple.bind (weaken (bigM_setData d)) fun _ =>
    Triple.bind (weaken (P := BigM z) (Pres.modify fun _ hf => hf)) fun _ => givesMaps_flag fun _ => rfl

theorem givesMaps_correctFlat (junk : Nat → Nat → ℝ) (flat : Nat) : GivesMaps z n (correctFlat junk n flat) :=
  big_readLift fun d => Triple.bind (weaken (bigM_setData d)) fun _ => givesMaps_flag fun _ => rfl

theorem givesMaps_correctIfov : GivesMaps z n (correctIfov n) := big_readLift fun d => givesMaps_update d

/-! ## New images -/

theorem bigM_resolveDic (dic : Option AngleDic) : Pres (BigM z) (resolveDic dic) := by
  intro h hf
  unfold resolveDic
  split
  · exact ⟨fun _ _ => hf, fun _ _ => hf⟩
  · split
    · exact ⟨fun _ _ => hf, fun _ _ => hf⟩
    · exact ⟨fun _ _ => hf, fun _ _ => hf⟩

theorem bigM_newFromImage (k : Nat) (dic : Option AngleDic) : Pres (BigM z) (newFromImage k dic) :=
  Pres.bind (bigM_resolveDic dic) fun _ => Pres.bind Pres.read fun _ => Pres.bind (Pres.modify fun _ hf => hf) fun _ =>
    Pres.pure

/-- `m` returns an object with a new Stokes vector. -/
def MakesMaps (z : Nat) (m : M Nat) : Prop := Triple (BigM z) m (fun n => MapsNew z n) (fun _ => True)

theorem makesMaps_newFromArray (d : Img ℝ) (dic : Option AngleDic) : MakesMaps z (newFromArray d dic) := by
  refine Triple.bind (weaken (bigM_resolveDic dic)) fun dc => ?_
  refine Triple.bind (Q := fun _ => BigM z) (Triple.conseq (Triple.lift (E := fun _ => True) fun _ _ => trivial)
    (fun _ h => h) (fun _ _ h => h.2) (fun _ h => h)) fun S => ?_
  refine Triple.bind Triple.read fun n => ?_
  refine Triple.bind (Q := fun _ => MapsNew z n) (Triple.modify ?_) fun _ => Triple.pure fun _ hh => hh
  rintro h ⟨rfl, hf⟩
  refine ⟨Nat.le_succ_of_le hf, ?_⟩
  show z ≤ ((h.objs.alloc _).cell h.objs.size).stokes
  rw [Store.alloc_cell_self]
  exact hf

theorem makesMaps_given (k : Nat) (dic : Option AngleDic) {β : Type} {f : Nat → M β} (hf : ∀ n, GivesMaps z n (f n)) :
    MakesMaps z (newFromImage k dic >>= fun n => f n >>= fun _ => (pure n : M Nat)) :=
  Triple.bind (weaken (bigM_newFromImage k dic)) fun n => Triple.bind (hf n) fun _ => Triple.pure fun _ h => h

theorem makesMaps_derive (k : Nat) (f : Heap → Py (Img ℝ)) : MakesMaps z (deriveObj k f) :=
  big_readLift fun d => makesMaps_given k none fun _ => givesMaps_update d

theorem makesMaps_rebin (k : Nat) (b : Int) : MakesMaps z (rebinObj k b) := by
  unfold rebinObj
  split
  · exact Triple.conseq (Triple.lift (E := fun _ => True) fun _ _ => trivial) (fun _ h => h) (fun _ _ h => by cases h.1)
      (fun _ h => h)
  · exact Triple.bind (weaken (bigM_newFromImage k none)) fun n => big_readLift fun d =>
      Triple.bind (givesMaps_update d) fun _ => Triple.pure fun _ h => h

theorem makesMaps_congrid (k ny nx : Nat) : MakesMaps z (congridObj k ny nx) := by
  refine big_readLift fun d => Triple.bind (weaken (bigM_newFromImage k none)) fun n => ?_
  refine Triple.bind (weaken (bigM_setData d)) fun _ => ?_
  refine Triple.bind (weaken Pres.read) fun sv => ?_
  refine Triple.bind (weaken Pres.lift) fun s0 => Triple.bind (weaken Pres.lift) fun s1 =>
    Triple.bind (weaken Pres.lift) fun s2 => ?_
  exact Triple.bind (Q := fun _ => MapsNew z n) (Triple.modify fun _ hf => maps_setStokes hf _) fun _ =>
    Triple.pure fun _ h => h

theorem makesMaps_demodulate (k : Nat) (D : Demodulator ℝ) (dem : Bool) : MakesMaps z (demodulateObj k D dem) := by
  refine Triple.bind (weaken (bigM_newFromImage k none)) fun n => ?_
  have tail : ∀ S : Fin 3 → Img ℝ, Triple (BigM z) (M.modify (fun h => h.setStokes n ⟨S, false⟩) >>= fun _ =>
      M.modify (fun h => h.modifyObj n (fun o => { o with isDemodulated := true })) >>= fun _ => (pure n : M Nat))
      (fun n => MapsNew z n) (fun _ => True) := fun S =>
    Triple.bind (Q := fun _ => MapsNew z n) (Triple.modify fun _ hf => maps_setStokes hf _) fun _ =>
    Triple.bind (weaken (Pres.modify fun _ hf => hf.modifyObj fun _ => rfl)) fun _ => Triple.pure fun _ h => h
  cases dem with
  | true =>
    exact Triple.bind (Q := fun _ => BigM z) (Triple.conseq (givesMaps_demosaic (n := n) "adjacent") (fun _ h => h)
      (fun _ _ h => h.1) (fun _ h => h)) fun _ => big_readLift fun S => tail S
  | false => exact big_readLift fun S => tail S

theorem givesMaps_corrections (junk : Nat → Nat → ℝ) (dark flat : Option Nat)
    (hc : dark.isSome = true ∨ flat.isSome = true) : GivesMaps z n (applyCorrections junk n dark flat) := by
  cases dark with
  | none =>
    cases flat with
    | none => simp at hc
    | some f => exact givesMaps_correctFlat junk f
  | some d =>
    cases flat with
    | none => exact givesMaps_subtractDark d
    | some f => exact Triple.bind (givesMaps_subtractDark d) fun _ => weaken (maps_correctFlat (fun _ h => h) junk f)

theorem maps_corrections (junk : Nat → Nat → ℝ) (dark flat : Option Nat) :
    Pres (MapsNew z n) (applyCorrections junk n dark flat) := by
  cases dark with
  | none =>
    cases flat with
    | none => exact Pres.pure
    | some f => exact maps_correctFlat (fun _ h => h) junk f
  | some d =>
    cases flat with
    | none => exact maps_subtractDark (fun _ h => h) d
    | some f => exact Pres.bind (maps_subtractDark (fun _ h => h) d) fun _ => maps_correctFlat (fun _ h => h) junk f

end

/-! ## Calls -/

theorem makesMaps_exec {s : State} {o : Op} (hin : o.inPlace = false) (hs : o.sharesMaps = false) (z : Nat) :
    Triple (BigM z) (exec s.images o) (fun r h => ∀ n, r = some n → MapsNew z n h) (fun _ => True) := by
  have named' : ∀ {i : Nat} {β : Type} {Q : β → Heap → Prop} {f : Nat → M β},
      (∀ k, Triple (BigM z) (f k) Q (fun _ => True)) → Triple (BigM z) (named s.images i >>= f) Q (fun _ => True) :=
    fun hf => Triple.bind (weaken Pres.lift) fun k => hf k
  have opt : ∀ {k : Option Nat} {β : Type} {Q : β → Heap → Prop} {f : Option Nat → M β},
      (∀ d, d.isSome = k.isSome → Triple (BigM z) (f d) Q (fun _ => True)) →
      Triple (BigM z) (namedOpt s.images k >>= f) Q (fun _ => True) := by
    intro k β Q f hf
    refine Triple.bind (Q := fun d h => d.isSome = k.isSome ∧ BigM z h) ?_ fun d => ?_
    · cases k with
      | none => exact Triple.pure fun h hh => ⟨rfl, hh⟩
      | some k => exact Triple.bind (weaken Pres.lift) fun d => Triple.pure fun h hh => ⟨rfl, hh⟩
    · exact fun h hh => hf d hh.1 h hh.2
  have ret : ∀ {mk : M Nat}, MakesMaps z mk → Triple (BigM z) (mk >>= fun n => (pure (some n) : M (Option Nat)))
      (fun r h => ∀ n, r = some n → MapsNew z n h) (fun _ => True) := by
    intro mk hm
    refine Triple.bind hm fun n => Triple.pure ?_
    rintro h hh m ⟨⟩
    exact hh
  cases o with
  | setDefault dic =>
    exact Triple.bind (weaken (Pres.modify fun _ hf => hf)) fun _ => Triple.pure fun _ _ n hn => by cases hn
  | fromArray d dic dark flat junk =>
    refine opt fun dk _ => opt fun fl _ => ?_
    refine Triple.bind (makesMaps_newFromArray d dic) fun n => Triple.bind (weaken (maps_corrections junk dk fl)) fun _ => ?_
    refine Triple.pure ?_
    rintro h hh m ⟨⟩
    exact hh
  | fromImage i dic dark flat junk =>
    refine named' fun k => opt fun dk hdk => opt fun fl hfl => ?_
    refine Triple.bind (weaken (bigM_newFromImage k dic)) fun n => ?_
    refine Triple.bind (givesMaps_corrections (n := n) junk dk fl ?_) fun _ => Triple.pure ?_
    · cases dark with
      | some d => exact Or.inl hdk
      | none =>
        cases flat with
        | some f => exact Or.inr hfl
        | none => cases hs
    · rintro h hh m ⟨⟩
      exact hh
  | rebin i b => exact named' fun k => ret (makesMaps_rebin k b)
  | congrid i ny nx => exact named' fun k => ret (makesMaps_congrid k ny nx)
  | rotate i rot => cases hs
  | demodulate i D dem => exact named' fun k => ret (makesMaps_demodulate k D dem)
  | shift i y x m => exact named' fun k => ret (makesMaps_derive k _)
  | cleanHotPixels i f med => exact named' fun k => named' fun f => ret (makesMaps_derive k _)
  | arithImage op i j junk =>
    exact named' fun k => named' fun j => ret (Triple.bind (makesMaps_derive k _) fun n =>
      Triple.bind (weaken (Pres.modify fun _ hf => hf.modifyObj fun _ => rfl)) fun _ => Triple.pure fun _ h => h)
  | arithNumber op i c junk =>
    exact named' fun k => ret (big_readLift fun d => Triple.bind (weaken Pres.read) fun dc =>
      Triple.bind (makesMaps_newFromArray d _) fun n =>
      Triple.bind (weaken (Pres.modify fun _ hf => hf.modifyObj fun _ => rfl)) fun _ => Triple.pure fun _ h => h)
  | demosaic i mode => cases hin
  | subtractDark i d => cases hin
  | correctFlat i f junk => cases hin
  | correctIfov i => cases hin
  | maskOcculter i y x r over fill => cases hin

/-- A call in place that computes maps and raises nothing gives the receiver a new Stokes vector. -/
theorem givesMaps_exec {s : State} {o : Op} {i k : Nat} (hc : o.renewsMaps = true) (hsrc : o.source = some i)
    (hk : s.images[i]? = some k) (z : Nat) :
    Triple (BigM z) (exec s.images o) (fun _ => MapsNew z k) (fun _ => True) := by
  have recv : ∀ {β : Type} {Q : β → Heap → Prop} {f : Nat → M β}, Triple (BigM z) (f k) Q (fun _ => True) →
      Triple (BigM z) (named s.images i >>= f) Q (fun _ => True) := by
    intro β Q f hf
    refine Triple.bind (triple_named s.images i fun _ _ => trivial) fun k' => ?_
    intro h hh
    rw [hk] at hh
    obtain ⟨⟨⟩, hh⟩ := hh
    exact hf h hh
  have other : ∀ {j : Nat} {β : Type} {Q : β → Heap → Prop} {f : Nat → M β},
      (∀ k, Triple (BigM z) (f k) Q (fun _ => True)) → Triple (BigM z) (named s.images j >>= f) Q (fun _ => True) :=
    fun hf => Triple.bind (weaken Pres.lift) fun k => hf k
  have ret : ∀ {β γ : Type} {m : M β} {r : γ}, GivesMaps z k m →
      Triple (BigM z) (m >>= fun _ => (pure r : M γ)) (fun _ => MapsNew z k) (fun _ => True) :=
    fun hm => Triple.bind hm fun _ => Triple.pure fun _ h => h
  cases o with
  | demosaic i' mode => cases hsrc; exact recv (ret (givesMaps_demosaic mode))
  | subtractDark i' d => cases hsrc; exact recv (other fun d => ret (givesMaps_subtractDark d))
  | correctFlat i' f junk => cases hsrc; exact recv (other fun f => ret (givesMaps_correctFlat junk f))
  | correctIfov i' => cases hsrc; exact recv (ret givesMaps_correctIfov)
  | _ => cases hc

/-- A call in place leaves the receiver its Stokes vector or gives it a new one. -/
theorem maps_exec {s : State} {o : Op} {i k : Nat} (hin : o.inPlace = true) (hsrc : o.source = some i)
    (hk : s.images[i]? = some k) {z : Nat} {A : Nat → Prop} (hA : o.renewsMaps = true → ∀ r, z ≤ r → A r)
    (hz : o.renewsMaps = false → z = 0 ∧ ∃ st, A = fun r => r = st) :
    Pres (MapsA z A k) (exec s.images o) := by
  have recv : ∀ {β : Type} {f : Nat → M β}, Pres (MapsA z A k) (f k) → Pres (MapsA z A k) (named s.images i >>= f) := by
    intro β f hf
    refine Triple.bind (triple_named s.images i fun _ h => h) fun k' => ?_
    intro h hh
    rw [hk] at hh
    obtain ⟨⟨⟩, hh⟩ := hh
    exact hf h hh
  cases o with
  | demosaic i' mode => cases hsrc; exact recv (Pres.bind (maps_demosaic (hA rfl) mode) fun _ => Pres.pure)
  | subtractDark i' d =>
    cases hsrc; exact recv (Pres.bind Pres.lift fun d => Pres.bind (maps_subtractDark (hA rfl) d) fun _ => Pres.pure)
  | correctFlat i' f junk =>
    cases hsrc; exact recv (Pres.bind Pres.lift fun f => Pres.bind (maps_correctFlat (hA rfl) junk f) fun _ => Pres.pure)
  | correctIfov i' => cases hsrc; exact recv (Pres.bind (maps_correctIfov (hA rfl)) fun _ => Pres.pure)
  | maskOcculter i' y x r over fill =>
    cases hsrc
    obtain ⟨rfl, st, rfl⟩ := hz rfl
    refine recv (Pres.bind ?_ fun _ => Pres.pure)
    have := mask_keeps_ref k st y x r over fill
    intro h hh
    obtain ⟨h1, h2⟩ := this h hh.2
    exact ⟨fun a ha => ⟨Nat.zero_le _, h1 a ha⟩, fun e he => ⟨Nat.zero_le _, h2 e he⟩⟩
  | _ => cases hin

/-! ## Sessions -/

/-- The reference of the Stokes vector of an image. -/
def maps (s : State) (k : Nat) : Nat := (s.heap.objs.cell k).stokes

/-- The Stokes vector of an image after a call: the old one, or a new one if maps were computed in place. -/
theorem step_maps {s : State} (hv : Valid s) (o : Op) {k : Nat} (hk : k < s.heap.objs.size) :
    maps (step s o) k = maps s k ∨ (o.renewsMaps = true ∧ o.CalledOn s k ∧ s.heap.stokes.size ≤ maps (step s o) k) := by
  by_cases hW : o.W s k
  · obtain ⟨hin, i, hsrc, hi⟩ := hW
    cases hc : o.renewsMaps with
    | true =>
      have := pres_out (maps_exec (A := fun r => r = maps s k ∨ s.heap.stokes.size ≤ r) (z := s.heap.stokes.size) hin hsrc hi
        (fun _ r hr => Or.inr hr) (fun h => by rw [hc] at h; cases h)) (h := s.heap) ⟨le_rfl, Or.inl rfl⟩
      rw [← step_heap] at this
      rcases this.2 with h | h
      · exact Or.inl h
      · exact Or.inr ⟨rfl, ⟨i, hsrc, hi⟩, h⟩
    | false =>
      have := pres_out (maps_exec (A := fun r => r = maps s k) (z := 0) hin hsrc hi
        (fun h => by rw [hc] at h; cases h) (fun _ => ⟨rfl, maps s k, rfl⟩)) (h := s.heap) ⟨Nat.zero_le _, rfl⟩
      rw [← step_heap] at this
      exact Or.inl this.2
  · left
    unfold maps
    rw [(step_frame hv o).obj k hk hW]

theorem writeDem_maps (s : State) (i : Nat) (q : Fin 4) (y x : Int) (v : ℝ) (k : Nat) :
    maps (editStep s (.writeDemosaiced i q y x v)) k = maps s k := by
  obtain ⟨d, hd⟩ := (writeDem_objs s i q y x v).2.2.2.2 k
  unfold maps
  rw [hd]

/-- Images with different Stokes vectors keep having different ones. -/
theorem mapsApart_step {s : State} (hv : Valid s) (e : Edit) {k n : Nat} (hk : k < s.heap.objs.size)
    (hn : n < s.heap.objs.size) (h : maps s k ≠ maps s n) : maps (editStep s e) k ≠ maps (editStep s e) n := by
  cases e with
  | write i y x v => unfold maps; rw [(write_objs s i y x v).1]; exact h
  | writeMap i p y x v => unfold maps; rw [(writeMap_objs s i p y x v).1]; exact h
  | writeDemosaiced i q y x v => rw [writeDem_maps, writeDem_maps]; exact h
  | call o =>
    show maps (step s o) k ≠ maps (step s o) n
    have hks : maps s k < s.heap.stokes.size := (hv.1 k hk).2.1
    have hns : maps s n < s.heap.stokes.size := (hv.1 n hn).2.1
    have hkn : k ≠ n := by rintro rfl; exact h rfl
    rcases step_maps hv o hk with a | ⟨-, ⟨i, hs, hi⟩, a⟩ <;> rcases step_maps hv o hn with b | ⟨-, ⟨j, hs', hj⟩, b⟩
    · rw [a, b]; exact h
    · rw [a]; omega
    · rw [b]; omega
    · rw [hs] at hs'
      cases hs'
      rw [hi] at hj
      cases hj
      exact absurd rfl hkn

theorem mapsApart_run (es es' : List Edit) {k n : Nat} (hk : k < (runEdits es).heap.objs.size)
    (hn : n < (runEdits es).heap.objs.size) (h : maps (runEdits es) k ≠ maps (runEdits es) n) :
    maps (runEdits (es ++ es')) k ≠ maps (runEdits (es ++ es')) n := by
  induction es' using List.reverseRecOn with
  | nil => rw [List.append_nil]; exact h
  | append_singleton l e ih =>
    rw [← List.append_assoc, runEdits_snoc]
    exact mapsApart_step (runEdits_valid _) e (lt_of_lt_of_le hk (runEdits_size es l))
      (lt_of_lt_of_le hn (runEdits_size es l)) ih

/-- A write into a map of an image leaves images with other Stokes vectors alone. -/
theorem writeMap_apart {s : State} (i : Nat) (p : Fin 3) (y x : Int) (v : ℝ) {k n : Nat} (hi : s.images[i]? = some k)
    (h : maps s k ≠ maps s n) : (editStep s (.writeMap i p y x v)).stokes n = s.stokes n := by
  rcases writeMap_cases s i p y x v with ⟨k', j, l, hi', -, -, e⟩ | ⟨e, -⟩
  · rw [hi] at hi'
    cases hi'
    rw [e]
    exact congrArg StokesVec.planes (Store.set_cell_of_ne _ _ fun q => h q.symm)
  · rw [e]

/-- A write into a map of an image is a write for all images with the same Stokes vector. -/
theorem writeMap_same {s : State} (i : Nat) (p : Fin 3) (y x : Int) (v : ℝ) {k n : Nat} (h : maps s k = maps s n) :
    (editStep s (.writeMap i p y x v)).stokes n = (editStep s (.writeMap i p y x v)).stokes k := by
  unfold State.stokes Heap.stokesOf
  rw [(writeMap_objs s i p y x v).1]
  have : (s.heap.objs.cell k).stokes = (s.heap.objs.cell n).stokes := h
  rw [this]

/-- Results of calls that compute maps. -/
theorem newMaps_apart {s : State} (hv : Valid s) {o : Op} (hin : o.inPlace = false) (hs : o.sharesMaps = false) {n : Nat}
    (hn : (exec s.images o s.heap).1 = .ok (some n)) {k : Nat} (hk : k < s.heap.objs.size) :
    maps (step s o) k ≠ maps (step s o) n := by
  have h1 := (makesMaps_exec (s := s) hin hs s.heap.stokes.size s.heap le_rfl).1 _ hn n rfl
  have h2 : maps (step s o) k = maps s k := by
    unfold maps
    rw [(step_frame hv o).obj k hk fun hw => by have := hw.1; rw [hin] at this; cases this]
  have h3 : maps s k < s.heap.stokes.size := (hv.1 k hk).2.1
  have h4 : s.heap.stokes.size ≤ maps (step s o) n := by unfold maps; rw [step_heap]; exact h1.2
  omega

/-- The receiver of a call in place that computes maps and raises nothing. -/
theorem renewed_apart {s : State} (hv : Valid s) {o : Op} (hc : o.renewsMaps = true) {r : Nat} (hr : o.CalledOn s r)
    (hok : Succeeds s o) {k : Nat} (hk : k < s.heap.objs.size) (hkr : k ≠ r) : maps (step s o) k ≠ maps (step s o) r := by
  obtain ⟨i, hsrc, hi⟩ := hr
  obtain ⟨a, ha⟩ := hok
  have h1 := (givesMaps_exec hc hsrc hi s.heap.stokes.size s.heap le_rfl).1 a ha
  have h2 : maps (step s o) k = maps s k := by
    rcases step_maps hv o hk with h | ⟨-, ⟨j, hs', hj⟩, -⟩
    · exact h
    · rw [hsrc] at hs'
      cases hs'
      rw [hi] at hj
      cases hj
      exact absurd rfl hkr
  have h3 : maps s k < s.heap.stokes.size := (hv.1 k hk).2.1
  have h4 : s.heap.stokes.size ≤ maps (step s o) r := by unfold maps; rw [step_heap]; exact h1.2
  omega

/-- Images with the same Stokes vector keep it until maps are computed in place for one of them. -/
theorem mapsSame_step {s : State} (hv : Valid s) (e : Edit) {k n : Nat} (hk : k < s.heap.objs.size)
    (hn : n < s.heap.objs.size) (h : maps s k = maps s n)
    (hno : ∀ o, e = .call o → o.renewsMaps = true → ¬ o.CalledOn s k ∧ ¬ o.CalledOn s n) :
    maps (editStep s e) k = maps (editStep s e) n := by
  cases e with
  | write i y x v => unfold maps; rw [(write_objs s i y x v).1]; exact h
  | writeMap i p y x v => unfold maps; rw [(writeMap_objs s i p y x v).1]; exact h
  | writeDemosaiced i q y x v => rw [writeDem_maps, writeDem_maps]; exact h
  | call o =>
    show maps (step s o) k = maps (step s o) n
    rcases step_maps hv o hk with a | ⟨hc, hr, -⟩
    · rcases step_maps hv o hn with b | ⟨hc, hr, -⟩
      · rw [a, b, h]
      · exact absurd hr (hno o rfl hc).2
    · exact absurd hr (hno o rfl hc).1

/-- A copy holds the Stokes vector of the image copied. -/
theorem sameMaps_newFromImage (k : Nat) (dic : Option AngleDic) (R : Nat) :
    Triple (fun h => (h.objs.cell k).stokes = R) (newFromImage k dic) (fun n => MapsA 0 (fun r => r = R) n)
      (fun _ => True) := by
  intro h hR
  rw [newFromImage_run]
  refine ⟨fun a ha => ?_, fun _ _ => trivial⟩
  cases ha
  refine ⟨Nat.zero_le _, ?_⟩
  show ((h.objs.alloc _).cell h.objs.size).stokes = R
  rw [Store.alloc_cell_self]
  exact hR

theorem sameMaps_exec {s : State} {o : Op} {i k : Nat} (hs : o.sharesMaps = true) (hsrc : o.source = some i)
    (hk : s.images[i]? = some k) (R : Nat) :
    Triple (fun h => (h.objs.cell k).stokes = R) (exec s.images o)
      (fun r h => ∀ n, r = some n → MapsA 0 (fun r => r = R) n h) (fun _ => True) := by
  have recv : ∀ {β : Type} {Q : β → Heap → Prop} {f : Nat → M β},
      Triple (fun h => (h.objs.cell k).stokes = R) (f k) Q (fun _ => True) →
      Triple (fun h => (h.objs.cell k).stokes = R) (named s.images i >>= f) Q (fun _ => True) := by
    intro β Q f hf
    refine Triple.bind (triple_named s.images i fun _ _ => trivial) fun k' => ?_
    intro h hh
    rw [hk] at hh
    obtain ⟨⟨⟩, hh⟩ := hh
    exact hf h hh
  have fin : ∀ n : Nat, Triple (MapsA 0 (fun r => r = R) n) (pure (some n) : M (Option Nat))
      (fun r h => ∀ n, r = some n → MapsA 0 (fun r => r = R) n h) (fun _ => True) := fun n =>
    Triple.pure fun h hh m hm => by cases hm; exact hh
  cases o with
  | fromImage i' dic dark flat junk =>
    cases dark with
    | some d => cases hs
    | none =>
      cases flat with
      | some f => cases hs
      | none =>
        cases hsrc
        refine recv ?_
        refine Triple.bind (Q := fun d h => d = none ∧ (h.objs.cell k).stokes = R) (Triple.pure fun h hh => ⟨rfl, hh⟩) ?_
        intro d
        refine Triple.bind (Q := fun d' h => (d = none ∧ d' = none) ∧ (h.objs.cell k).stokes = R)
          (Triple.pure fun h hh => ⟨⟨hh.1, rfl⟩, hh.2⟩) ?_
        rintro d' h ⟨⟨rfl, rfl⟩, hh⟩
        exact (Triple.bind (sameMaps_newFromImage k dic R) fun n =>
          Triple.bind (weaken (m := applyCorrections junk n none none) Pres.pure) fun _ => fin n) h hh
  | rotate i' rot =>
    cases hsrc
    refine recv (Triple.bind (Q := fun n => MapsA 0 (fun r => r = R) n) ?_ fin)
    refine big_readLift fun d => Triple.bind Triple.read fun c => ?_
    have hplane : ∀ c (q : Fin 3) a, Pres (fun h => (h.objs.cell k).stokes = R) (setPlane c q a) := fun c q a =>
      Pres.bind Pres.read fun _ => Pres.bind Pres.lift fun _ => Pres.modify fun h hh => hh
    have hrew : ∀ c f, Pres (fun h => (h.objs.cell k).stokes = R) (rewritePlanes c f) := fun c f =>
      Pres.bind Pres.read fun _ => Pres.bind Pres.lift fun _ => Pres.bind (hplane c 0 _) fun _ =>
      Pres.bind Pres.read fun _ => Pres.bind Pres.lift fun _ => Pres.bind (hplane c 1 _) fun _ =>
      Pres.bind Pres.read fun _ => Pres.bind Pres.lift fun _ => hplane c 2 _
    rintro h ⟨hc, hh⟩
    obtain rfl : c = R := hc.trans hh
    refine (Triple.bind (weaken (hrew c rot)) fun _ => Triple.bind (sameMaps_newFromImage k none c) fun n =>
      Triple.bind (weaken (Pres.modify fun _ hf => hf.setData d)) fun _ =>
      Triple.bind (Q := fun _ => MapsA 0 (fun r => r = c) n) (Triple.modify ?_) fun _ => Triple.pure fun _ h => h) h hh
    intro h hf
    refine ⟨Nat.zero_le _, ?_⟩
    show ((h.objs.set n _).cell n).stokes = c
    rw [Store.set_cell_self]
  | _ => cases hs

/-- The result of a call that hands on the maps holds the same Stokes vector. -/
theorem newMaps_same {s : State} (hv : Valid s) {o : Op} (hs : o.sharesMaps = true) {n : Nat}
    (hn : (exec s.images o s.heap).1 = .ok (some n)) {k : Nat} (hk : o.CalledOn s k) :
    maps (step s o) k = maps (step s o) n := by
  obtain ⟨i, hsrc, hi⟩ := hk
  have h1 := (sameMaps_exec hs hsrc hi (maps s k) s.heap rfl).1 _ hn n rfl
  rw [← step_heap] at h1
  have h2 : maps (step s o) k = maps s k := by
    unfold maps
    rw [(step_frame hv o).obj k (mem_lt hv hi) fun hw => by
      have := hw.1
      cases o <;> first | (cases this; done) | (cases hs; done)]
  rw [h2]
  exact h1.2.symm

end

end Micropol

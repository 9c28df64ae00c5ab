import Verif.Lemmas.UnitsOps
import Verif.Lemmas.ObjectDefault

/-!
# Two memories in which the live images show the same

`Sim ρ h h'`: the pairs of `ρ` are the live objects of both memories.  They show the same and share Stokes vectors and
headers in the same way; everything else (where things are stored, objects nobody refers to) may differ.
-/

set_option autoImplicit false
set_option linter.unusedSectionVars false

namespace Micropol

open M

noncomputable section

open Classical

/-- What an object refers to exists. -/
def Refs (h : Heap) (a : Nat) : Prop :=
  a < h.objs.size ∧ (h.objs.cell a).data < h.datas.size ∧ (h.objs.cell a).stokes < h.stokes.size ∧
    (h.objs.cell a).header < h.headers.size

structure Sim (ρ : Nat → Nat → Prop) (h h' : Heap) : Prop where
  next : h'.nextDic = h.nextDic
  refs : ∀ {a a'}, ρ a a' → Refs h a ∧ Refs h' a'
  one : ∀ {a a' b b'}, ρ a a' → ρ b b' → (a = b ↔ a' = b')
  view : ∀ {a a'}, ρ a a' → h'.view a' = h.view a
  header : ∀ {a a'}, ρ a a' → h'.headerOf a' = h.headerOf a
  shareS : ∀ {a a' b b'}, ρ a a' → ρ b b' → ((h.objs.cell a).stokes = (h.objs.cell b).stokes ↔
    (h'.objs.cell a').stokes = (h'.objs.cell b').stokes)
  shareH : ∀ {a a' b b'}, ρ a a' → ρ b b' → ((h.objs.cell a).header = (h.objs.cell b).header ↔
    (h'.objs.cell a').header = (h'.objs.cell b').header)

variable {ρ : Nat → Nat → Prop} {h h' : Heap} {i i' : Nat}

theorem Sim.mono {σ : Nat → Nat → Prop} (hs : Sim ρ h h') (hσ : ∀ a a', σ a a' → ρ a a') : Sim σ h h' :=
  ⟨hs.next, fun p => hs.refs (hσ _ _ p), fun p q => hs.one (hσ _ _ p) (hσ _ _ q), fun p => hs.view (hσ _ _ p),
    fun p => hs.header (hσ _ _ p), fun p q => hs.shareS (hσ _ _ p) (hσ _ _ q), fun p q => hs.shareH (hσ _ _ p) (hσ _ _ q)⟩

/-! ## New pixel data -/

theorem mem_obj_setData (d : Img ℝ) (a : Nat) : (h.setData i d).objs.cell a =
    if a = i then { h.objs.cell i with data := h.datas.size } else h.objs.cell a := rfl

theorem mem_stokes_setData (d : Img ℝ) (a : Nat) : ((h.setData i d).objs.cell a).stokes = (h.objs.cell a).stokes := by
  rw [mem_obj_setData]; split
  · rename_i e; rw [e]
  · rfl

theorem mem_header_setData (d : Img ℝ) (a : Nat) : ((h.setData i d).objs.cell a).header = (h.objs.cell a).header := by
  rw [mem_obj_setData]; split
  · rename_i e; rw [e]
  · rfl

theorem mem_headerOf_setData (d : Img ℝ) (a : Nat) : (h.setData i d).headerOf a =
    if (h.objs.cell a).header = (h.objs.cell i).header then ⟨d.w, d.h⟩ else h.headerOf a := by
  unfold Heap.headerOf
  rw [mem_header_setData]
  rfl

theorem Refs.setData {a : Nat} (hr : Refs h a) (d : Img ℝ) : Refs (h.setData i d) a := by
  refine ⟨hr.1, ?_, ?_, ?_⟩
  · rw [mem_obj_setData]
    split
    · exact Nat.lt_succ_self _
    · exact Nat.lt_succ_of_lt hr.2.1
  · rw [mem_stokes_setData]; exact hr.2.2.1
  · rw [mem_header_setData]; exact hr.2.2.2

theorem Refs.view_setData {a : Nat} (hr : Refs h a) (ne : a ≠ i) (d : Img ℝ) : (h.setData i d).view a = h.view a := by
  refine view_congr (if_neg ne) ?_ rfl
  exact if_neg (Nat.ne_of_lt hr.2.1)

theorem Sim.setData (hs : Sim ρ h h') (hi : ρ i i') (d : Img ℝ) : Sim ρ (h.setData i d) (h'.setData i' d) where
  next := hs.next
  refs p := ⟨(hs.refs p).1.setData d, (hs.refs p).2.setData d⟩
  one := hs.one
  view {a a'} p := by
    by_cases e : a = i
    · have e' := (hs.one p hi).1 e
      rw [e, e', setData_view, setData_view, hs.view hi]
    · have e' := mt (hs.one p hi).2 e
      rw [(hs.refs p).1.view_setData e, (hs.refs p).2.view_setData e', hs.view p]
  header p := by
    rw [mem_headerOf_setData, mem_headerOf_setData, hs.header p, if_congr (hs.shareH p hi) rfl rfl]
  shareS p q := by simp only [mem_stokes_setData]; exact hs.shareS p q
  shareH p q := by simp only [mem_header_setData]; exact hs.shareH p q

/-! ## A new Stokes vector -/

theorem mem_obj_setStokes (s : StokesVec) (a : Nat) : (h.setStokes i s).objs.cell a =
    if a = i then { h.objs.cell i with stokes := h.stokes.size } else h.objs.cell a := rfl

theorem mem_header_setStokes (s : StokesVec) (a : Nat) : ((h.setStokes i s).objs.cell a).header = (h.objs.cell a).header := by
  rw [mem_obj_setStokes]; split
  · rename_i e; rw [e]
  · rfl

theorem mem_headerOf_setStokes (s : StokesVec) (a : Nat) : (h.setStokes i s).headerOf a = h.headerOf a := by
  unfold Heap.headerOf
  rw [mem_header_setStokes]
  rfl

theorem Refs.setStokes {a : Nat} (hr : Refs h a) (s : StokesVec) : Refs (h.setStokes i s) a := by
  refine ⟨hr.1, ?_, ?_, ?_⟩
  · rw [mem_obj_setStokes]
    split
    · rename_i e; rw [← e]; exact hr.2.1
    · exact hr.2.1
  · rw [mem_obj_setStokes]
    split
    · exact Nat.lt_succ_self _
    · exact Nat.lt_succ_of_lt hr.2.2.1
  · rw [mem_header_setStokes]; exact hr.2.2.2

theorem Refs.view_setStokes {a : Nat} (hr : Refs h a) (ne : a ≠ i) (s : StokesVec) : (h.setStokes i s).view a = h.view a := by
  refine view_congr (if_neg ne) rfl ?_
  exact if_neg (Nat.ne_of_lt hr.2.2.1)

theorem mem_share_setStokes (s : StokesVec) {a b : Nat} (ha : Refs h a) (hb : Refs h b) :
    ((h.setStokes i s).objs.cell a).stokes = ((h.setStokes i s).objs.cell b).stokes ↔
      (a = i ∧ b = i) ∨ (a ≠ i ∧ b ≠ i ∧ (h.objs.cell a).stokes = (h.objs.cell b).stokes) := by
  rw [mem_obj_setStokes, mem_obj_setStokes]
  by_cases ea : a = i <;> by_cases eb : b = i
  · simp [ea, eb]
  · rw [if_pos ea, if_neg eb]
    constructor
    · intro e
      exact absurd e.symm (Nat.ne_of_lt hb.2.2.1)
    · rintro (⟨-, e⟩ | ⟨e, -⟩)
      · exact absurd e eb
      · exact absurd ea e
  · rw [if_neg ea, if_pos eb]
    constructor
    · intro e
      exact absurd e (Nat.ne_of_lt ha.2.2.1)
    · rintro (⟨e, -⟩ | ⟨-, e, -⟩)
      · exact absurd e ea
      · exact absurd eb e
  · rw [if_neg ea, if_neg eb]
    simp [ea, eb]

theorem Sim.setStokes (hs : Sim ρ h h') (hi : ρ i i') (s : StokesVec) : Sim ρ (h.setStokes i s) (h'.setStokes i' s) where
  next := hs.next
  refs p := ⟨(hs.refs p).1.setStokes s, (hs.refs p).2.setStokes s⟩
  one := hs.one
  view {a a'} p := by
    by_cases e : a = i
    · have e' := (hs.one p hi).1 e
      rw [e, e', setStokes_view, setStokes_view, hs.view hi]
    · have e' := mt (hs.one p hi).2 e
      rw [(hs.refs p).1.view_setStokes e, (hs.refs p).2.view_setStokes e', hs.view p]
  header p := by rw [mem_headerOf_setStokes, mem_headerOf_setStokes, hs.header p]
  shareS p q := by
    rw [mem_share_setStokes s (hs.refs p).1 (hs.refs q).1, mem_share_setStokes s (hs.refs p).2 (hs.refs q).2,
      hs.one p hi, hs.one q hi, hs.shareS p q, Ne, Ne, hs.one p hi, hs.one q hi]
  shareH p q := by simp only [mem_header_setStokes]; exact hs.shareH p q

/-! ## Attributes of one object -/

theorem mem_obj_modify (f : ImgObj → ImgObj) (a : Nat) : (h.modifyObj i f).objs.cell a =
    if a = i then f (h.objs.cell i) else h.objs.cell a := rfl

theorem view_modify_ne {f : ImgObj → ImgObj} {a : Nat} (ne : a ≠ i) : (h.modifyObj i f).view a = h.view a :=
  view_congr (if_neg ne) rfl rfl

/-- Plain attributes. -/
theorem Sim.modifyObj (hs : Sim ρ h h') (hi : ρ i i') {f g : ImgObj → ImgObj}
    (hf : ∀ o, (f o).data = o.data ∧ (f o).stokes = o.stokes ∧ (f o).header = o.header ∧ (f o).dic = o.dic)
    (hg : ∀ o, (g o).data = o.data ∧ (g o).stokes = o.stokes ∧ (g o).header = o.header ∧ (g o).dic = o.dic)
    (hfg : ∀ o o' : ImgObj, o'.isDemodulated = o.isDemodulated → o'.isDemosaiced = o.isDemosaiced →
      o'.darkSubtracted = o.darkSubtracted → o'.flatSubtracted = o.flatSubtracted → o'.demosaicedImages = o.demosaicedImages →
      (g o').isDemodulated = (f o).isDemodulated ∧ (g o').isDemosaiced = (f o).isDemosaiced ∧
      (g o').darkSubtracted = (f o).darkSubtracted ∧ (g o').flatSubtracted = (f o).flatSubtracted ∧
      (g o').demosaicedImages = (f o).demosaicedImages) :
    Sim ρ (h.modifyObj i f) (h'.modifyObj i' g) := by
  have cs : ∀ {h : Heap} {i : Nat} {f : ImgObj → ImgObj}, (∀ o, (f o).data = o.data ∧ (f o).stokes = o.stokes ∧
      (f o).header = o.header ∧ (f o).dic = o.dic) → ∀ a, ((h.modifyObj i f).objs.cell a).data = (h.objs.cell a).data ∧
        ((h.modifyObj i f).objs.cell a).stokes = (h.objs.cell a).stokes ∧
        ((h.modifyObj i f).objs.cell a).header = (h.objs.cell a).header := by
    intro h i f hf a
    rw [mem_obj_modify]
    split
    · rename_i e
      rw [e]
      exact ⟨(hf _).1, (hf _).2.1, (hf _).2.2.1⟩
    · exact ⟨rfl, rfl, rfl⟩
  have rf : ∀ {h : Heap} {i : Nat} {f : ImgObj → ImgObj}, (∀ o, (f o).data = o.data ∧ (f o).stokes = o.stokes ∧
      (f o).header = o.header ∧ (f o).dic = o.dic) → ∀ a, Refs h a → Refs (h.modifyObj i f) a := by
    intro h i f hf a hr
    obtain ⟨e1, e2, e3⟩ := cs (h := h) (i := i) hf a
    refine ⟨hr.1, ?_, ?_, ?_⟩
    · rw [e1]; exact hr.2.1
    · rw [e2]; exact hr.2.2.1
    · rw [e3]; exact hr.2.2.2
  refine ⟨hs.next, fun p => ⟨rf hf _ (hs.refs p).1, rf hg _ (hs.refs p).2⟩, hs.one, ?_, ?_, ?_, ?_⟩
  · intro a a' p
    by_cases e : a = i
    · have e' := (hs.one p hi).1 e
      have hv := hs.view hi
      obtain ⟨k1, k2, k3, k4, k5⟩ := hfg (h.objs.cell i) (h'.objs.cell i') (congrArg ImgView.isDemodulated hv)
        (congrArg ImgView.isDemosaiced hv) (congrArg ImgView.darkSubtracted hv) (congrArg ImgView.flatSubtracted hv)
        (congrArg ImgView.demosaicedImages hv)
      rw [e, e', modifyObj_view h i f (hf _).1 (hf _).2.1 (hf _).2.2.2, modifyObj_view h' i' g (hg _).1 (hg _).2.1 (hg _).2.2.2,
        hv, k1, k2, k3, k4, k5]
    · have e' := mt (hs.one p hi).2 e
      rw [view_modify_ne e, view_modify_ne e', hs.view p]
  · intro a a' p
    have h1 := hs.header p
    unfold Heap.headerOf at h1 ⊢
    rw [(cs (h := h) (i := i) hf a).2.2, (cs (h := h') (i := i') hg a').2.2]
    exact h1
  · intro a a' b b' p q
    rw [(cs (h := h) (i := i) hf a).2.1, (cs (h := h') (i := i') hg a').2.1, (cs (h := h) (i := i) hf b).2.1,
      (cs (h := h') (i := i') hg b').2.1]
    exact hs.shareS p q
  · intro a a' b b' p q
    rw [(cs (h := h) (i := i) hf a).2.2, (cs (h := h') (i := i') hg a').2.2, (cs (h := h) (i := i) hf b).2.2,
      (cs (h := h') (i := i') hg b').2.2]
    exact hs.shareH p q

/-- The header of another object. -/
theorem Sim.aliasHeader {j j' : Nat} (hs : Sim ρ h h') (hi : ρ i i') (hj : ρ j j') :
    Sim ρ (h.modifyObj i fun o => { o with header := (h.objs.cell j).header })
      (h'.modifyObj i' fun o => { o with header := (h'.objs.cell j').header }) := by
  have hd : ∀ {h : Heap} {i j : Nat} (a : Nat), ((h.modifyObj i fun o => { o with header := (h.objs.cell j).header }).objs.cell a).header =
      (h.objs.cell (if a = i then j else a)).header := by
    intro h i j a
    rw [mem_obj_modify]
    split <;> rfl
  have st : ∀ {h : Heap} {i j : Nat} (a : Nat), ((h.modifyObj i fun o => { o with header := (h.objs.cell j).header }).objs.cell a).stokes =
      (h.objs.cell a).stokes := by
    intro h i j a
    rw [mem_obj_modify]
    split
    · rename_i e; rw [e]
    · rfl
  have rf : ∀ {h : Heap} {i j : Nat}, Refs h j → ∀ a, Refs h a → Refs (h.modifyObj i fun o => { o with header := (h.objs.cell j).header }) a := by
    intro h i j hj a hr
    refine ⟨hr.1, ?_, ?_, ?_⟩
    · rw [mem_obj_modify]
      split
      · rename_i e; rw [← e]; exact hr.2.1
      · exact hr.2.1
    · rw [st]; exact hr.2.2.1
    · rw [hd]
      split
      · exact hj.2.2.2
      · exact hr.2.2.2
  have mv : ∀ {a a'}, ρ a a' → ρ (if a = i then j else a) (if a' = i' then j' else a') := by
    intro a a' p
    by_cases e : a = i
    · rw [if_pos e, if_pos ((hs.one p hi).1 e)]; exact hj
    · rw [if_neg e, if_neg (mt (hs.one p hi).2 e)]; exact p
  have vw : ∀ {h : Heap} {i j : Nat} (a : Nat), (h.modifyObj i fun o => { o with header := (h.objs.cell j).header }).view a = h.view a := by
    intro h i j a
    by_cases e : a = i
    · rw [e, modifyObj_view _ _ _ rfl rfl rfl]; rfl
    · exact view_modify_ne e
  refine ⟨hs.next, fun p => ⟨rf (hs.refs hj).1 _ (hs.refs p).1, rf (hs.refs hj).2 _ (hs.refs p).2⟩, hs.one, ?_, ?_, ?_, ?_⟩
  · intro a a' p
    rw [vw, vw]
    exact hs.view p
  · intro a a' p
    have := hs.header (mv p)
    unfold Heap.headerOf at this ⊢
    rw [hd, hd]
    exact this
  · intro a a' b b' p q
    rw [st, st, st, st]
    exact hs.shareS p q
  · intro a a' b b' p q
    rw [hd, hd, hd, hd]
    exact hs.shareH (mv p) (mv q)

/-! ## Writing into a Stokes vector -/

theorem Sim.setCell (hs : Sim ρ h h') (hi : ρ i i') (s : StokesVec) :
    Sim ρ { h with stokes := h.stokes.set (h.objs.cell i).stokes s } { h' with stokes := h'.stokes.set (h'.objs.cell i').stokes s } := by
  refine ⟨hs.next, fun p => hs.refs p, hs.one, ?_, hs.header, hs.shareS, hs.shareH⟩
  intro a a' p
  have hv := hs.view p
  have key : ∀ {h : Heap} {i a : Nat}, ({ h with stokes := h.stokes.set (h.objs.cell i).stokes s } : Heap).view a =
      { h.view a with stokes := if (h.objs.cell a).stokes = (h.objs.cell i).stokes then s else (h.view a).stokes } := fun {h i a} => rfl
  rw [key, key, hv, if_congr (hs.shareS p hi) rfl rfl]

/-! ## New objects -/

/-- One more pair. -/
def withPair (ρ : Nat → Nat → Prop) (N N' : Nat) : Nat → Nat → Prop := fun a b => (a = N ∧ b = N') ∨ ρ a b

theorem oldPair {N N' a a' : Nat} (h : ρ a a') : withPair ρ N N' a a' := Or.inr h
theorem newPair (ρ : Nat → Nat → Prop) (N N' : Nat) : withPair ρ N N' N N' := Or.inl ⟨rfl, rfl⟩

/-- A new object that is a copy of a live one. -/
theorem Sim.copy (hs : Sim ρ h h') (hi : ρ i i') : Sim (withPair ρ h.objs.size h'.objs.size)
    { h with objs := h.objs.alloc (h.objs.cell i) } { h' with objs := h'.objs.alloc (h'.objs.cell i') } := by
  have ob : ∀ {h : Heap} {i : Nat} (a : Nat), (h.objs.alloc (h.objs.cell i)).cell a = h.objs.cell (if a = h.objs.size then i else a) := by
    intro h i a
    show (if a = h.objs.size then h.objs.cell i else h.objs.cell a) = _
    split <;> rfl
  have mv : ∀ {a a'}, withPair ρ h.objs.size h'.objs.size a a' → ρ (if a = h.objs.size then i else a) (if a' = h'.objs.size then i' else a') := by
    rintro a a' (⟨e, e'⟩ | p)
    · rw [if_pos e, if_pos e']; exact hi
    · rw [if_neg (Nat.ne_of_lt (hs.refs p).1.1), if_neg (Nat.ne_of_lt (hs.refs p).2.1)]; exact p
  refine ⟨hs.next, fun {a a'} p => ?_, ?_, ?_, ?_, ?_, ?_⟩
  · obtain ⟨r, r'⟩ := hs.refs (mv p)
    constructor
    · refine ⟨?_, ?_⟩
      · rcases p with ⟨e, -⟩ | p
        · rw [e]; exact Nat.lt_succ_self _
        · exact Nat.lt_succ_of_lt (hs.refs p).1.1
      · show ((h.objs.alloc (h.objs.cell i)).cell a).data < _ ∧ ((h.objs.alloc (h.objs.cell i)).cell a).stokes < _ ∧
          ((h.objs.alloc (h.objs.cell i)).cell a).header < _
        rw [ob]
        exact r.2
    · refine ⟨?_, ?_⟩
      · rcases p with ⟨-, e⟩ | p
        · rw [e]; exact Nat.lt_succ_self _
        · exact Nat.lt_succ_of_lt (hs.refs p).2.1
      · show ((h'.objs.alloc (h'.objs.cell i')).cell a').data < _ ∧ ((h'.objs.alloc (h'.objs.cell i')).cell a').stokes < _ ∧
          ((h'.objs.alloc (h'.objs.cell i')).cell a').header < _
        rw [ob]
        exact r'.2
  · rintro a a' b b' (⟨rfl, rfl⟩ | p) (⟨rfl, rfl⟩ | q)
    · simp
    · exact ⟨fun e => absurd e.symm (Nat.ne_of_lt (hs.refs q).1.1), fun e => absurd e.symm (Nat.ne_of_lt (hs.refs q).2.1)⟩
    · exact ⟨fun e => absurd e (Nat.ne_of_lt (hs.refs p).1.1), fun e => absurd e (Nat.ne_of_lt (hs.refs p).2.1)⟩
    · exact hs.one p q
  · intro a a' p
    have e : ∀ {h : Heap} {i : Nat} (a : Nat), ({ h with objs := h.objs.alloc (h.objs.cell i) } : Heap).view a =
        h.view (if a = h.objs.size then i else a) := fun a => view_congr (ob a) rfl rfl
    rw [e, e]
    exact hs.view (mv p)
  · intro a a' p
    have := hs.header (mv p)
    unfold Heap.headerOf at this ⊢
    dsimp only
    rw [ob, ob]
    exact this
  · intro a a' b b' p q
    dsimp only
    rw [ob, ob, ob, ob]
    exact hs.shareS (mv p) (mv q)
  · intro a a' b b' p q
    dsimp only
    rw [ob, ob, ob, ob]
    exact hs.shareH (mv p) (mv q)

/-- The memory after `MicropolImage(array)`. -/
def freshHeap (d : Img ℝ) (S : Fin 3 → Img ℝ) (dic : AngleDic) (h : Heap) : Heap :=
  { h with datas := h.datas.alloc d, stokes := h.stokes.alloc ⟨S, false⟩, headers := h.headers.alloc ⟨d.w, d.h⟩,
           objs := h.objs.alloc (blankObj h.datas.size h.stokes.size h.headers.size dic) }

section
variable (d : Img ℝ) (S : Fin 3 → Img ℝ) (dic : AngleDic)

theorem fresh_obj_old {a : Nat} (ha : Refs h a) : (freshHeap d S dic h).objs.cell a = h.objs.cell a := if_neg (Nat.ne_of_lt ha.1)

theorem fresh_obj_new (h : Heap) : (freshHeap d S dic h).objs.cell h.objs.size =
    blankObj h.datas.size h.stokes.size h.headers.size dic := if_pos rfl

theorem fresh_view_old {a : Nat} (ha : Refs h a) : (freshHeap d S dic h).view a = h.view a :=
  view_congr (fresh_obj_old d S dic ha) (if_neg (Nat.ne_of_lt ha.2.1)) (if_neg (Nat.ne_of_lt ha.2.2.1))

theorem fresh_view_new (h : Heap) : (freshHeap d S dic h).view h.objs.size =
    ⟨d, ⟨S, false⟩, dic, false, false, false, false, none⟩ := by
  unfold Heap.view Heap.dataOf Heap.stokesOf Heap.dicOf
  rw [fresh_obj_new]
  have e1 : (freshHeap d S dic h).datas.cell h.datas.size = d := if_pos rfl
  have e2 : (freshHeap d S dic h).stokes.cell h.stokes.size = ⟨S, false⟩ := if_pos rfl
  show (⟨(freshHeap d S dic h).datas.cell h.datas.size, (freshHeap d S dic h).stokes.cell h.stokes.size, dic, false, false, false,
    false, none⟩ : ImgView) = _
  rw [e1, e2]

theorem fresh_header_old {a : Nat} (ha : Refs h a) : (freshHeap d S dic h).headerOf a = h.headerOf a := by
  unfold Heap.headerOf
  rw [fresh_obj_old d S dic ha]
  exact if_neg (Nat.ne_of_lt ha.2.2.2)

theorem fresh_header_new (h : Heap) : (freshHeap d S dic h).headerOf h.objs.size = ⟨d.w, d.h⟩ := by
  unfold Heap.headerOf
  rw [fresh_obj_new]
  exact if_pos rfl

theorem fresh_refs_old {a : Nat} (ha : Refs h a) : Refs (freshHeap d S dic h) a := by
  refine ⟨Nat.lt_succ_of_lt ha.1, ?_⟩
  rw [fresh_obj_old d S dic ha]
  exact ⟨Nat.lt_succ_of_lt ha.2.1, Nat.lt_succ_of_lt ha.2.2.1, Nat.lt_succ_of_lt ha.2.2.2⟩

theorem fresh_refs_new (h : Heap) : Refs (freshHeap d S dic h) h.objs.size := by
  refine ⟨Nat.lt_succ_self _, ?_⟩
  rw [fresh_obj_new]
  exact ⟨Nat.lt_succ_self _, Nat.lt_succ_self _, Nat.lt_succ_self _⟩

theorem Sim.fresh (hs : Sim ρ h h') : Sim (withPair ρ h.objs.size h'.objs.size) (freshHeap d S dic h) (freshHeap d S dic h') := by
  refine ⟨hs.next, ?_, ?_, ?_, ?_, ?_, ?_⟩
  · rintro a a' (⟨rfl, rfl⟩ | p)
    · exact ⟨fresh_refs_new d S dic h, fresh_refs_new d S dic h'⟩
    · exact ⟨fresh_refs_old d S dic (hs.refs p).1, fresh_refs_old d S dic (hs.refs p).2⟩
  · rintro a a' b b' (⟨rfl, rfl⟩ | p) (⟨rfl, rfl⟩ | q)
    · simp
    · exact ⟨fun e => absurd e.symm (Nat.ne_of_lt (hs.refs q).1.1), fun e => absurd e.symm (Nat.ne_of_lt (hs.refs q).2.1)⟩
    · exact ⟨fun e => absurd e (Nat.ne_of_lt (hs.refs p).1.1), fun e => absurd e (Nat.ne_of_lt (hs.refs p).2.1)⟩
    · exact hs.one p q
  · rintro a a' (⟨rfl, rfl⟩ | p)
    · rw [fresh_view_new, fresh_view_new]
    · rw [fresh_view_old d S dic (hs.refs p).1, fresh_view_old d S dic (hs.refs p).2, hs.view p]
  · rintro a a' (⟨rfl, rfl⟩ | p)
    · rw [fresh_header_new, fresh_header_new]
    · rw [fresh_header_old d S dic (hs.refs p).1, fresh_header_old d S dic (hs.refs p).2, hs.header p]
  · rintro a a' b b' (⟨rfl, rfl⟩ | p) (⟨rfl, rfl⟩ | q)
    · simp
    · rw [fresh_obj_new, fresh_obj_new, fresh_obj_old d S dic (hs.refs q).1, fresh_obj_old d S dic (hs.refs q).2]
      exact ⟨fun e => absurd e.symm (Nat.ne_of_lt (hs.refs q).1.2.2.1), fun e => absurd e.symm (Nat.ne_of_lt (hs.refs q).2.2.2.1)⟩
    · rw [fresh_obj_new, fresh_obj_new, fresh_obj_old d S dic (hs.refs p).1, fresh_obj_old d S dic (hs.refs p).2]
      exact ⟨fun e => absurd e (Nat.ne_of_lt (hs.refs p).1.2.2.1), fun e => absurd e (Nat.ne_of_lt (hs.refs p).2.2.2.1)⟩
    · rw [fresh_obj_old d S dic (hs.refs p).1, fresh_obj_old d S dic (hs.refs p).2, fresh_obj_old d S dic (hs.refs q).1,
        fresh_obj_old d S dic (hs.refs q).2]
      exact hs.shareS p q
  · rintro a a' b b' (⟨rfl, rfl⟩ | p) (⟨rfl, rfl⟩ | q)
    · simp
    · rw [fresh_obj_new, fresh_obj_new, fresh_obj_old d S dic (hs.refs q).1, fresh_obj_old d S dic (hs.refs q).2]
      exact ⟨fun e => absurd e.symm (Nat.ne_of_lt (hs.refs q).1.2.2.2), fun e => absurd e.symm (Nat.ne_of_lt (hs.refs q).2.2.2.2)⟩
    · rw [fresh_obj_new, fresh_obj_new, fresh_obj_old d S dic (hs.refs p).1, fresh_obj_old d S dic (hs.refs p).2]
      exact ⟨fun e => absurd e (Nat.ne_of_lt (hs.refs p).1.2.2.2), fun e => absurd e (Nat.ne_of_lt (hs.refs p).2.2.2.2)⟩
    · rw [fresh_obj_old d S dic (hs.refs p).1, fresh_obj_old d S dic (hs.refs p).2, fresh_obj_old d S dic (hs.refs q).1,
        fresh_obj_old d S dic (hs.refs q).2]
      exact hs.shareH p q

end

end

end Micropol

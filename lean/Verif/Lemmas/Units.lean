import Verif.Lemmas.UnitsData
import Verif.Spec.Units

/-! # Runs of a session in two systems of units -/

set_option autoImplicit false

namespace Micropol

open M

noncomputable section

open Classical

theorem sca_inUnit (c : ℝ) (A : Img ℝ) : Sca c A (inUnit c A) := sca_map A
theorem Sca.eq {c : ℝ} {A B : Img ℝ} (h : Sca c A B) : B = inUnit c A := h.eq_map

/-- The object in the other unit. -/
def ImgObj.inUnit (c : ℝ) (o : ImgObj) : ImgObj :=
  { o with demosaicedImages := o.demosaicedImages.map fun d f => Micropol.inUnit c (d f) }

/-- The heaps agree, up to units, on the live objects. -/
structure Sc (u : Nat → ℝ) (L : Nat → Prop) (h h' : Heap) : Prop where
  headers : h'.headers = h.headers
  default : h'.defaultDic = h.defaultDic
  osize : h'.objs.size = h.objs.size
  dsize : h'.datas.size = h.datas.size
  ssize : h'.stokes.size = h.stokes.size
  live : ∀ k, L k → k < h.objs.size
  refd : ∀ k, L k → (h.objs.cell k).data < h.datas.size
  refs : ∀ k, L k → (h.objs.cell k).stokes < h.stokes.size
  obj : ∀ k, L k → h'.objs.cell k = (h.objs.cell k).inUnit (u k)
  data : ∀ k, L k → Sca (u k) (h.dataOf k) (h'.dataOf k)
  list : ∀ k, L k → (h'.stokesOf k).isList = (h.stokesOf k).isList
  map : ∀ k, L k → Sca3 (u k) (h.stokesOf k).planes (h'.stokesOf k).planes
  share : ∀ k l, L k → L l → (h.objs.cell k).stokes = (h.objs.cell l).stokes → u k = u l
  lists : ∀ k, (h'.objs.cell k).demosaicedList = (h.objs.cell k).demosaicedList

variable {u : Nat → ℝ} {L : Nat → Prop} {h h' : Heap}

theorem Sc.mono {L' : Nat → Prop} (hs : Sc u L h h') (hL : ∀ k, L' k → L k) : Sc u L' h h' :=
  ⟨hs.headers, hs.default, hs.osize, hs.dsize, hs.ssize, fun k hk => hs.live k (hL k hk), fun k hk => hs.refd k (hL k hk),
    fun k hk => hs.refs k (hL k hk), fun k hk => hs.obj k (hL k hk), fun k hk => hs.data k (hL k hk), fun k hk => hs.list k (hL k hk),
    fun k hk => hs.map k (hL k hk), fun k l hk hl => hs.share k l (hL k hk) (hL l hl), hs.lists⟩

theorem Sc.congr {u' : Nat → ℝ} (hs : Sc u L h h') (hu : ∀ k, L k → u' k = u k) : Sc u' L h h' :=
  ⟨hs.headers, hs.default, hs.osize, hs.dsize, hs.ssize, hs.live, hs.refd, hs.refs, fun k hk => by rw [hu k hk]; exact hs.obj k hk,
    fun k hk => by rw [hu k hk]; exact hs.data k hk, hs.list, fun k hk => by rw [hu k hk]; exact hs.map k hk,
    fun k l hk hl e => by rw [hu k hk, hu l hl]; exact hs.share k l hk hl e, hs.lists⟩

/-! ## Changes of the heap -/

theorem dataOf_setData_ne {i : Nat} {d : Img ℝ} {k : Nat} (hk : k ≠ i) (hr : (h.objs.cell k).data < h.datas.size) :
    (h.setData i d).dataOf k = h.dataOf k := by
  show (if (if k = i then _ else h.objs.cell k).data = h.datas.size then d else
    h.datas.cell (if k = i then _ else h.objs.cell k).data) = _
  rw [if_neg hk, if_neg (Nat.ne_of_lt hr)]
  rfl

theorem dataOf_setData_eq {i : Nat} {d : Img ℝ} : (h.setData i d).dataOf i = d := by
  show (if (if i = i then (⟨h.datas.size, _, _, _, _, _, _, _, _, _⟩ : ImgObj) else h.objs.cell i).data = h.datas.size then d else _) = _
  rw [if_pos rfl, if_pos rfl]

theorem objs_setData_ne {i : Nat} {d : Img ℝ} {k : Nat} (hk : k ≠ i) : (h.setData i d).objs.cell k = h.objs.cell k := by
  show (if k = i then _ else h.objs.cell k) = _
  rw [if_neg hk]

theorem objs_setData_eq {i : Nat} {d : Img ℝ} :
    (h.setData i d).objs.cell i = { h.objs.cell i with data := h.datas.size } := by
  show (if i = i then _ else h.objs.cell i) = _
  rw [if_pos rfl]

theorem stokesOf_setData {i : Nat} {d : Img ℝ} (k : Nat) : (h.setData i d).stokesOf k = h.stokesOf k := by
  by_cases hk : k = i
  · subst hk
    unfold Heap.stokesOf
    rw [objs_setData_eq]
    rfl
  · unfold Heap.stokesOf
    rw [objs_setData_ne hk]
    rfl

theorem stokesRef_setData {i : Nat} {d : Img ℝ} (k : Nat) : ((h.setData i d).objs.cell k).stokes = (h.objs.cell k).stokes := by
  by_cases hk : k = i
  · subst hk
    rw [objs_setData_eq]
  · rw [objs_setData_ne hk]

/-- `image.data = d` on an object; only live objects other than it must be right before. -/
theorem Sc.setData' {i : Nat} {d d' : Img ℝ} (hs : Sc u L h h') (hi : h'.objs.cell i = (h.objs.cell i).inUnit (u i))
    (hd : d'.h = d.h ∧ d'.w = d.w) (hd' : L i → Sca (u i) d d') : Sc u L (h.setData i d) (h'.setData i d') := by
  refine ⟨?_, hs.default, hs.osize, congrArg (· + 1) hs.dsize, hs.ssize, hs.live, ?_, ?_, ?_, ?_, ?_, ?_, ?_, ?_⟩
  · show h'.headers.set (h'.objs.cell i).header _ = h.headers.set (h.objs.cell i).header _
    rw [hs.headers, hi, hd.1, hd.2]
    rfl
  · intro k hk
    show _ < h.datas.size + 1
    by_cases e : k = i
    · subst e
      rw [objs_setData_eq]
      exact Nat.lt_succ_self _
    · rw [objs_setData_ne e]
      exact Nat.lt_succ_of_lt (hs.refd k hk)
  · intro k hk
    rw [stokesRef_setData]
    exact hs.refs k hk
  · intro k hk
    by_cases e : k = i
    · subst e
      rw [objs_setData_eq, objs_setData_eq, hi, hs.dsize]
      rfl
    · rw [objs_setData_ne e, objs_setData_ne e]
      exact hs.obj k hk
  · intro k hk
    by_cases e : k = i
    · subst e
      rw [dataOf_setData_eq, dataOf_setData_eq]
      exact hd' hk
    · rw [dataOf_setData_ne e (hs.refd k hk), dataOf_setData_ne e]
      · exact hs.data k hk
      · rw [hs.obj k hk, hs.dsize]
        exact hs.refd k hk
  · intro k hk
    rw [stokesOf_setData, stokesOf_setData]
    exact hs.list k hk
  · intro k hk
    rw [stokesOf_setData, stokesOf_setData]
    exact hs.map k hk
  · intro k l hk hl
    rw [stokesRef_setData, stokesRef_setData]
    exact hs.share k l hk hl
  · intro k
    by_cases e : k = i
    · subst e
      rw [objs_setData_eq, objs_setData_eq]
      exact hs.lists k
    · rw [objs_setData_ne e, objs_setData_ne e]
      exact hs.lists k

theorem Sc.setData {i : Nat} {d d' : Img ℝ} (hs : Sc u L h h') (hi : L i) (hd : Sca (u i) d d') :
    Sc u L (h.setData i d) (h'.setData i d') := hs.setData' (hs.obj i hi) ⟨hd.h, hd.w⟩ fun _ => hd

/-- A change of plain attributes. -/
theorem Sc.modifyObj {i : Nat} {f f' : ImgObj → ImgObj} (hs : Sc u L h h') (hi : L i)
    (hf : ∀ o, f' (o.inUnit (u i)) = (f o).inUnit (u i)) (hd : ∀ o, (f o).data = o.data) (hst : ∀ o, (f o).stokes = o.stokes) :
    Sc u L (h.modifyObj i f) (h'.modifyObj i f') := by
  have o1 : ∀ k, ((h.modifyObj i f).objs.cell k).data = (h.objs.cell k).data := by
    intro k
    show (if k = i then f (h.objs.cell i) else h.objs.cell k).data = _
    split
    · rename_i e
      rw [hd, e]
    · rfl
  have o2 : ∀ k, ((h.modifyObj i f).objs.cell k).stokes = (h.objs.cell k).stokes := by
    intro k
    show (if k = i then f (h.objs.cell i) else h.objs.cell k).stokes = _
    split
    · rename_i e
      rw [hst, e]
    · rfl
  have o3 : ∀ k, L k → (h'.modifyObj i f').objs.cell k = ((h.modifyObj i f).objs.cell k).inUnit (u k) := by
    intro k hk
    show (if k = i then f' (h'.objs.cell i) else h'.objs.cell k) = (if k = i then f (h.objs.cell i) else h.objs.cell k).inUnit (u k)
    split
    · rename_i e
      rw [hs.obj i hi, hf, e]
    · exact hs.obj k hk
  have d1 : ∀ k, (h.modifyObj i f).dataOf k = h.dataOf k := fun k => by
    show h.datas.cell _ = h.datas.cell _
    rw [o1]
  have d2 : ∀ k, L k → (h'.modifyObj i f').dataOf k = h'.dataOf k := fun k hk => by
    show h'.datas.cell _ = h'.datas.cell _
    rw [o3 k hk, hs.obj k hk]
    show h'.datas.cell ((h.modifyObj i f).objs.cell k).data = _
    rw [o1]
    rfl
  have s1 : ∀ k, (h.modifyObj i f).stokesOf k = h.stokesOf k := fun k => by
    show h.stokes.cell _ = h.stokes.cell _
    rw [o2]
  have s2 : ∀ k, L k → (h'.modifyObj i f').stokesOf k = h'.stokesOf k := fun k hk => by
    show h'.stokes.cell _ = h'.stokes.cell _
    rw [o3 k hk, hs.obj k hk]
    show h'.stokes.cell ((h.modifyObj i f).objs.cell k).stokes = _
    rw [o2]
    rfl
  refine ⟨hs.headers, hs.default, hs.osize, hs.dsize, hs.ssize, hs.live, ?_, ?_, o3, ?_, ?_, ?_, ?_, ?_⟩
  · intro k hk
    rw [o1]
    exact hs.refd k hk
  · intro k hk
    rw [o2]
    exact hs.refs k hk
  · intro k hk
    rw [d1, d2 k hk]
    exact hs.data k hk
  · intro k hk
    rw [s1, s2 k hk]
    exact hs.list k hk
  · intro k hk
    rw [s1, s2 k hk]
    exact hs.map k hk
  · intro k l hk hl
    rw [o2, o2]
    exact hs.share k l hk hl
  · intro k
    by_cases e : k = i
    · subst e
      rw [o3 k hi]
      rfl
    · show (if k = i then f' (h'.objs.cell i) else h'.objs.cell k).demosaicedList =
        (if k = i then f (h.objs.cell i) else h.objs.cell k).demosaicedList
      rw [if_neg e, if_neg e]
      exact hs.lists k

/-- The live objects after a new one. -/
def withNew (L : Nat → Prop) (n : Nat) : Nat → Prop := fun k => k = n ∨ L k

theorem objs_setStokes_ne {i : Nat} {s : StokesVec} {k : Nat} (hk : k ≠ i) : (h.setStokes i s).objs.cell k = h.objs.cell k := by
  show (if k = i then _ else h.objs.cell k) = _
  rw [if_neg hk]

theorem objs_setStokes_eq {i : Nat} {s : StokesVec} :
    (h.setStokes i s).objs.cell i = { h.objs.cell i with stokes := h.stokes.size } := by
  show (if i = i then _ else h.objs.cell i) = _
  rw [if_pos rfl]

theorem dataOf_setStokes {i : Nat} {s : StokesVec} (k : Nat) : (h.setStokes i s).dataOf k = h.dataOf k := by
  by_cases e : k = i
  · subst e
    unfold Heap.dataOf
    rw [objs_setStokes_eq]
    rfl
  · unfold Heap.dataOf
    rw [objs_setStokes_ne e]
    rfl

theorem stokesOf_setStokes_eq {i : Nat} {s : StokesVec} : (h.setStokes i s).stokesOf i = s := by
  unfold Heap.stokesOf
  rw [objs_setStokes_eq]
  show (if h.stokes.size = h.stokes.size then s else _) = s
  rw [if_pos rfl]

theorem stokesOf_setStokes_ne {i : Nat} {s : StokesVec} {k : Nat} (hk : k ≠ i) (hr : (h.objs.cell k).stokes < h.stokes.size) :
    (h.setStokes i s).stokesOf k = h.stokesOf k := by
  unfold Heap.stokesOf
  rw [objs_setStokes_ne hk]
  show (if (h.objs.cell k).stokes = h.stokes.size then s else _) = _
  rw [if_neg (Nat.ne_of_lt hr)]

/-- `image.Stokes_vec = s` on an object; afterwards it is live if its data are right. -/
theorem Sc.setStokes' {i : Nat} {s s' : StokesVec} (hs : Sc u L h h') (hlt : i < h.objs.size)
    (hi : h'.objs.cell i = (h.objs.cell i).inUnit (u i)) (hr : (h.objs.cell i).data < h.datas.size)
    (hd : Sca (u i) (h.dataOf i) (h'.dataOf i)) (hl : s'.isList = s.isList) (hm : Sca3 (u i) s.planes s'.planes) :
    Sc u (withNew L i) (h.setStokes i s) (h'.setStokes i s') := by
  have ob : ∀ k, withNew L i k → (h'.setStokes i s').objs.cell k = ((h.setStokes i s).objs.cell k).inUnit (u k) := by
    intro k hk
    by_cases e : k = i
    · subst e
      rw [objs_setStokes_eq, objs_setStokes_eq, hi, hs.ssize]
      rfl
    · rw [objs_setStokes_ne e, objs_setStokes_ne e]
      exact hs.obj k (hk.resolve_left e)
  have dr : ∀ k, ((h.setStokes i s).objs.cell k).data = (h.objs.cell k).data := by
    intro k
    by_cases e : k = i
    · subst e
      rw [objs_setStokes_eq]
    · rw [objs_setStokes_ne e]
  refine ⟨hs.headers, hs.default, hs.osize, hs.dsize, congrArg (· + 1) hs.ssize, ?_, ?_, ?_, ob, ?_, ?_, ?_, ?_, ?_⟩
  · intro k hk
    rcases hk with e | hk
    · rw [e]; exact hlt
    · exact hs.live k hk
  · intro k hk
    rw [dr]
    rcases hk with e | hk
    · rw [e]; exact hr
    · exact hs.refd k hk
  · intro k hk
    show _ < h.stokes.size + 1
    by_cases e : k = i
    · subst e
      rw [objs_setStokes_eq]
      exact Nat.lt_succ_self _
    · rw [objs_setStokes_ne e]
      exact Nat.lt_succ_of_lt (hs.refs k (hk.resolve_left e))
  · intro k hk
    rw [dataOf_setStokes, dataOf_setStokes]
    by_cases e : k = i
    · rw [e]; exact hd
    · exact hs.data k (hk.resolve_left e)
  · intro k hk
    by_cases e : k = i
    · subst e
      rw [stokesOf_setStokes_eq, stokesOf_setStokes_eq]
      exact hl
    · have hk := hk.resolve_left e
      rw [stokesOf_setStokes_ne e (hs.refs k hk), stokesOf_setStokes_ne e (by rw [hs.obj k hk, hs.ssize]; exact hs.refs k hk)]
      exact hs.list k hk
  · intro k hk
    by_cases e : k = i
    · subst e
      rw [stokesOf_setStokes_eq, stokesOf_setStokes_eq]
      exact hm
    · have hk := hk.resolve_left e
      rw [stokesOf_setStokes_ne e (hs.refs k hk), stokesOf_setStokes_ne e (by rw [hs.obj k hk, hs.ssize]; exact hs.refs k hk)]
      exact hs.map k hk
  · intro k l hk hl e
    by_cases ek : k = i
    · by_cases el : l = i
      · rw [ek, el]
      · subst ek
        have := hs.refs l (hl.resolve_left el)
        rw [objs_setStokes_eq, objs_setStokes_ne el] at e
        dsimp only at e
        omega
    · by_cases el : l = i
      · subst el
        have := hs.refs k (hk.resolve_left ek)
        rw [objs_setStokes_eq, objs_setStokes_ne ek] at e
        dsimp only at e
        omega
      · rw [objs_setStokes_ne ek, objs_setStokes_ne el] at e
        exact hs.share k l (hk.resolve_left ek) (hl.resolve_left el) e
  · intro k
    by_cases e : k = i
    · subst e
      rw [objs_setStokes_eq, objs_setStokes_eq]
      exact hs.lists k
    · rw [objs_setStokes_ne e, objs_setStokes_ne e]
      exact hs.lists k

theorem Sc.setStokes {i : Nat} {s s' : StokesVec} (hs : Sc u L h h') (hi : L i) (hl : s'.isList = s.isList)
    (hm : Sca3 (u i) s.planes s'.planes) : Sc u L (h.setStokes i s) (h'.setStokes i s') :=
  (hs.setStokes' (hs.live i hi) (hs.obj i hi) (hs.refd i hi) (hs.data i hi) hl hm).mono fun _ hk => Or.inr hk

/-- Overwriting a Stokes vector in place; `i` is one of its owners. -/
theorem Sc.setCell {i c : Nat} {s s' : StokesVec} (hs : Sc u L h h') (hi : L i) (hc : (h.objs.cell i).stokes = c)
    (hl : s'.isList = s.isList) (hm : Sca3 (u i) s.planes s'.planes) :
    Sc u L { h with stokes := h.stokes.set c s } { h' with stokes := h'.stokes.set c s' } := by
  have key : ∀ k, L k → (if (h.objs.cell k).stokes = c then s' else h'.stokesOf k).isList =
      (if (h.objs.cell k).stokes = c then s else h.stokesOf k).isList ∧
      Sca3 (u k) (if (h.objs.cell k).stokes = c then s else h.stokesOf k).planes
        (if (h.objs.cell k).stokes = c then s' else h'.stokesOf k).planes := by
    intro k hk
    split
    · rename_i e
      rw [hs.share k i hk hi (by rw [e, hc])]
      exact ⟨hl, hm⟩
    · exact ⟨hs.list k hk, hs.map k hk⟩
  have e1 : ∀ k, ({ h with stokes := h.stokes.set c s } : Heap).stokesOf k =
      if (h.objs.cell k).stokes = c then s else h.stokesOf k := fun k => rfl
  have e2 : ∀ k, L k → ({ h' with stokes := h'.stokes.set c s' } : Heap).stokesOf k =
      if (h.objs.cell k).stokes = c then s' else h'.stokesOf k := fun k hk => by
    show (if (h'.objs.cell k).stokes = c then s' else h'.stokesOf k) = _
    rw [hs.obj k hk]
    rfl
  refine ⟨hs.headers, hs.default, hs.osize, hs.dsize, hs.ssize, hs.live, hs.refd, hs.refs, hs.obj, hs.data, ?_, ?_, hs.share, hs.lists⟩
  · intro k hk
    rw [e1, e2 k hk]
    exact (key k hk).1
  · intro k hk
    rw [e1, e2 k hk]
    exact (key k hk).2

/-- A copy of an object: not live yet. -/
theorem Sc.copy (hs : Sc u L h h') (i : Nat) : Sc u L { h with objs := h.objs.alloc (h.objs.cell i) }
    { h' with objs := h'.objs.alloc (h'.objs.cell i) } := by
  have ob : ∀ k, L k → ({ h with objs := h.objs.alloc (h.objs.cell i) } : Heap).objs.cell k = h.objs.cell k := fun k hk => by
    show (if k = h.objs.size then _ else _) = _
    rw [if_neg (Nat.ne_of_lt (hs.live k hk))]
  have ob' : ∀ k, L k → ({ h' with objs := h'.objs.alloc (h'.objs.cell i) } : Heap).objs.cell k = h'.objs.cell k := fun k hk => by
    show (if k = h'.objs.size then _ else _) = _
    rw [hs.osize, if_neg (Nat.ne_of_lt (hs.live k hk))]
  refine ⟨hs.headers, hs.default, congrArg (· + 1) hs.osize, hs.dsize, hs.ssize, fun k hk => Nat.lt_succ_of_lt (hs.live k hk),
    ?_, ?_, ?_, ?_, ?_, ?_, ?_, ?_⟩
  · intro k hk
    rw [ob k hk]
    exact hs.refd k hk
  · intro k hk
    rw [ob k hk]
    exact hs.refs k hk
  · intro k hk
    rw [ob k hk, ob' k hk]
    exact hs.obj k hk
  · intro k hk
    unfold Heap.dataOf
    rw [ob k hk, ob' k hk]
    exact hs.data k hk
  · intro k hk
    unfold Heap.stokesOf
    rw [ob k hk, ob' k hk]
    exact hs.list k hk
  · intro k hk
    unfold Heap.stokesOf
    rw [ob k hk, ob' k hk]
    exact hs.map k hk
  · intro k l hk hl
    rw [ob k hk, ob l hl]
    exact hs.share k l hk hl
  · intro k
    show (if k = h'.objs.size then h'.objs.cell i else h'.objs.cell k).demosaicedList =
      (if k = h.objs.size then h.objs.cell i else h.objs.cell k).demosaicedList
    rw [hs.osize]
    split
    · exact hs.lists i
    · exact hs.lists k

/-- A copy of a live object with the same unit. -/
theorem Sc.copyLive {i : Nat} (hs : Sc u L h h') (hi : L i) (hu : u h.objs.size = u i) :
    Sc u (withNew L h.objs.size) { h with objs := h.objs.alloc (h.objs.cell i) }
      { h' with objs := h'.objs.alloc (h'.objs.cell i) } := by
  have hc := hs.copy i
  have on : ({ h with objs := h.objs.alloc (h.objs.cell i) } : Heap).objs.cell h.objs.size = h.objs.cell i := if_pos rfl
  have on' : ({ h' with objs := h'.objs.alloc (h'.objs.cell i) } : Heap).objs.cell h.objs.size = h'.objs.cell i := by
    show (if h.objs.size = h'.objs.size then _ else _) = _
    rw [hs.osize, if_pos rfl]
  have ne : ∀ k, L k → ({ h with objs := h.objs.alloc (h.objs.cell i) } : Heap).objs.cell k = h.objs.cell k := fun k hk => by
    show (if k = h.objs.size then _ else _) = _
    rw [if_neg (Nat.ne_of_lt (hs.live k hk))]
  refine ⟨hc.headers, hc.default, hc.osize, hc.dsize, hc.ssize, ?_, ?_, ?_, ?_, ?_, ?_, ?_, ?_, hc.lists⟩
  · rintro k (e | hk)
    · rw [e]; exact Nat.lt_succ_self _
    · exact hc.live k hk
  · rintro k (e | hk)
    · rw [e, on]; exact hs.refd i hi
    · exact hc.refd k hk
  · rintro k (e | hk)
    · rw [e, on]; exact hs.refs i hi
    · exact hc.refs k hk
  · rintro k (e | hk)
    · rw [e, on, on', hu]; exact hs.obj i hi
    · exact hc.obj k hk
  · rintro k (e | hk)
    · rw [e]
      unfold Heap.dataOf
      rw [on, on', hu]; exact hs.data i hi
    · exact hc.data k hk
  · rintro k (e | hk)
    · rw [e]
      unfold Heap.stokesOf
      rw [on, on']; exact hs.list i hi
    · exact hc.list k hk
  · rintro k (e | hk)
    · rw [e]
      unfold Heap.stokesOf
      rw [on, on', hu]; exact hs.map i hi
    · exact hc.map k hk
  · rintro k l (ek | hk) (el | hl) e
    · rw [ek, el]
    · rw [ek, on, ne l hl] at e
      rw [ek, hu]; exact hs.share i l hi hl e
    · rw [el, on, ne k hk] at e
      rw [el, hu]; exact hs.share k i hk hi e
    · exact hc.share k l hk hl e

/-- A new object from an array. -/
theorem Sc.fresh {d d' : Img ℝ} {S S' : Fin 3 → Img ℝ} (hs : Sc u L h h') (dic : AngleDic) (hd : Sca (u h.objs.size) d d')
    (hS : Sca3 (u h.objs.size) S S') :
    Sc u (withNew L h.objs.size)
      { h with datas := h.datas.alloc d, stokes := h.stokes.alloc ⟨S, false⟩, headers := h.headers.alloc ⟨d.w, d.h⟩,
               objs := h.objs.alloc (blankObj h.datas.size h.stokes.size h.headers.size dic) }
      { h' with datas := h'.datas.alloc d', stokes := h'.stokes.alloc ⟨S', false⟩, headers := h'.headers.alloc ⟨d'.w, d'.h⟩,
                objs := h'.objs.alloc (blankObj h'.datas.size h'.stokes.size h'.headers.size dic) } := by
  obtain ⟨k1, hk1⟩ : ∃ k, k = ({ h with
    datas := h.datas.alloc d, stokes := h.stokes.alloc ⟨S, false⟩, headers := h.headers.alloc ⟨d.w, d.h⟩,
    objs := h.objs.alloc (blankObj h.datas.size h.stokes.size h.headers.size dic) } : Heap) := ⟨_, rfl⟩
  obtain ⟨k2, hk2⟩ : ∃ k, k = ({ h' with
    datas := h'.datas.alloc d', stokes := h'.stokes.alloc ⟨S', false⟩, headers := h'.headers.alloc ⟨d'.w, d'.h⟩,
    objs := h'.objs.alloc (blankObj h'.datas.size h'.stokes.size h'.headers.size dic) } : Heap) := ⟨_, rfl⟩
  rw [← hk1, ← hk2]
  have on : k1.objs.cell h.objs.size = blankObj h.datas.size h.stokes.size h.headers.size dic := by
    rw [hk1]; exact if_pos rfl
  have on' : k2.objs.cell h.objs.size = blankObj h.datas.size h.stokes.size h.headers.size dic := by
    rw [hk2]
    show (if h.objs.size = h'.objs.size then _ else _) = _
    rw [hs.osize, if_pos rfl, hs.dsize, hs.ssize, hs.headers]
  have ne : ∀ k, L k → k1.objs.cell k = h.objs.cell k := fun k hk => by
    rw [hk1]
    show (if k = h.objs.size then _ else _) = _
    rw [if_neg (Nat.ne_of_lt (hs.live k hk))]
  have ne' : ∀ k, L k → k2.objs.cell k = h'.objs.cell k := fun k hk => by
    rw [hk2]
    show (if k = h'.objs.size then _ else _) = _
    rw [hs.osize, if_neg (Nat.ne_of_lt (hs.live k hk))]
  have dn : k1.dataOf h.objs.size = d := by
    unfold Heap.dataOf
    rw [on, hk1]; exact if_pos rfl
  have dn' : k2.dataOf h.objs.size = d' := by
    unfold Heap.dataOf
    rw [on', hk2]
    show (if h.datas.size = h'.datas.size then _ else _) = _
    rw [hs.dsize, if_pos rfl]
  have sn : k1.stokesOf h.objs.size = ⟨S, false⟩ := by
    unfold Heap.stokesOf
    rw [on, hk1]; exact if_pos rfl
  have sn' : k2.stokesOf h.objs.size = ⟨S', false⟩ := by
    unfold Heap.stokesOf
    rw [on', hk2]
    show (if h.stokes.size = h'.stokes.size then _ else _) = _
    rw [hs.ssize, if_pos rfl]
  have dk : ∀ k, L k → k1.dataOf k = h.dataOf k := fun k hk => by
    unfold Heap.dataOf
    rw [ne k hk, hk1]
    show (if (h.objs.cell k).data = h.datas.size then _ else _) = _
    rw [if_neg (Nat.ne_of_lt (hs.refd k hk))]
  have dk' : ∀ k, L k → k2.dataOf k = h'.dataOf k := fun k hk => by
    unfold Heap.dataOf
    rw [ne' k hk, hk2]
    show (if (h'.objs.cell k).data = h'.datas.size then _ else _) = _
    rw [if_neg]
    rw [hs.obj k hk, hs.dsize]
    exact Nat.ne_of_lt (hs.refd k hk)
  have sk : ∀ k, L k → k1.stokesOf k = h.stokesOf k := fun k hk => by
    unfold Heap.stokesOf
    rw [ne k hk, hk1]
    show (if (h.objs.cell k).stokes = h.stokes.size then _ else _) = _
    rw [if_neg (Nat.ne_of_lt (hs.refs k hk))]
  have sk' : ∀ k, L k → k2.stokesOf k = h'.stokesOf k := fun k hk => by
    unfold Heap.stokesOf
    rw [ne' k hk, hk2]
    show (if (h'.objs.cell k).stokes = h'.stokes.size then _ else _) = _
    rw [if_neg]
    rw [hs.obj k hk, hs.ssize]
    exact Nat.ne_of_lt (hs.refs k hk)
  refine ⟨?_, ?_, ?_, ?_, ?_, ?_, ?_, ?_, ?_, ?_, ?_, ?_, ?_, ?_⟩
  · rw [hk1, hk2]
    show h'.headers.alloc _ = h.headers.alloc _
    rw [hs.headers, hd.h, hd.w]
  · rw [hk1, hk2]; exact hs.default
  · rw [hk1, hk2]; exact congrArg (· + 1) hs.osize
  · rw [hk1, hk2]; exact congrArg (· + 1) hs.dsize
  · rw [hk1, hk2]; exact congrArg (· + 1) hs.ssize
  · rintro k (e | hk)
    · rw [e, hk1]; exact Nat.lt_succ_self _
    · rw [hk1]; exact Nat.lt_succ_of_lt (hs.live k hk)
  · rintro k (e | hk)
    · rw [e, on, hk1]; exact Nat.lt_succ_self _
    · rw [ne k hk, hk1]; exact Nat.lt_succ_of_lt (hs.refd k hk)
  · rintro k (e | hk)
    · rw [e, on, hk1]; exact Nat.lt_succ_self _
    · rw [ne k hk, hk1]; exact Nat.lt_succ_of_lt (hs.refs k hk)
  · rintro k (e | hk)
    · rw [e, on, on']; rfl
    · rw [ne k hk, ne' k hk]; exact hs.obj k hk
  · rintro k (e | hk)
    · rw [e, dn, dn']; exact hd
    · rw [dk k hk, dk' k hk]; exact hs.data k hk
  · rintro k (e | hk)
    · rw [e, sn, sn']
    · rw [sk k hk, sk' k hk]; exact hs.list k hk
  · rintro k (e | hk)
    · rw [e, sn, sn']; exact hS
    · rw [sk k hk, sk' k hk]; exact hs.map k hk
  · rintro k l (ek | hk) (el | hl) e
    · rw [ek, el]
    · rw [ek, on, ne l hl] at e
      have := hs.refs l hl
      change h.stokes.size = _ at e
      omega
    · rw [el, on, ne k hk] at e
      have := hs.refs k hk
      change _ = h.stokes.size at e
      omega
    · rw [ne k hk, ne l hl] at e
      exact hs.share k l hk hl e
  · intro k
    rw [hk1, hk2]
    show (if k = h'.objs.size then _ else h'.objs.cell k).demosaicedList = (if k = h.objs.size then _ else h.objs.cell k).demosaicedList
    rw [hs.osize]
    split
    · rfl
    · exact hs.lists k

theorem Sc.freshList (hs : Sc u L h h') : h'.freshList = h.freshList := by
  unfold Heap.freshList
  rw [hs.osize]
  congr 3
  funext k
  exact hs.lists k

end

end Micropol

import Verif.Lemmas.LightData
import Verif.Lemmas.ObjectMask
import Verif.Lemmas.ObjectExec
import Verif.Props.Stokes

/-! # Non-negative pixels and possible light through sessions -/

set_option autoImplicit false

namespace Micropol

open Classical

theorem good_polarCam : GoodDic polarCamAngles := ProperDic.good ⟨⟨0, 1, 2, 3⟩, C02_polarCam.2, C02_polarCam.1⟩

/-- All objects hold lit arrays; with `b` also all Stokes vectors are light and all dictionaries good. -/
structure LitHeap (b : Prop) (h : Heap) : Prop where
  refs : ∀ j, (h.objs.cell j).data < max 1 h.datas.size
  lit : ∀ j, Lit (h.dataOf j)
  four : ∀ j s, (h.objs.cell j).demosaicedImages = some s → LitFour s
  dic : b → ∀ j, GoodDic (h.objs.cell j).dic
  dflt : b → ∀ d, h.defaultDic = some d → GoodDic d
  maps : b → ∀ c, LightMaps (h.stokes.cell c).planes

section
variable {b : Prop} {α β : Type}

/-- A heap with at least one array. -/
def LitHeap₁ (b : Prop) (h : Heap) : Prop := LitHeap b h ∧ 0 < h.datas.size

/-- The call keeps the heap lit, and what it returns satisfies `Q`. -/
def KeepsLit (b : Prop) (Q : α → Prop) (m : M α) : Prop := ∀ h, LitHeap₁ b h → LitHeap₁ b (m h).2 ∧ ∀ a, (m h).1 = .ok a → Q a

variable {P : α → Prop} {Q : β → Prop}

theorem KeepsLit.bind {m : M α} {k : α → M β} (hm : KeepsLit b P m) (hk : ∀ a, P a → KeepsLit b Q (k a)) : KeepsLit b Q (m >>= k) := by
  intro h hh
  obtain ⟨h1, h2⟩ := hm h hh
  cases e : m h with
  | mk r h' =>
    rw [e] at h1 h2
    cases r with
    | error e' =>
      rw [run_of_err e]
      exact ⟨h1, fun a ha => by cases ha⟩
    | ok a =>
      rw [run_of_ok e]
      exact hk a (h2 a rfl) h' h1

theorem KeepsLit.pure {a : α} (h : P a) : KeepsLit b P (pure a : M α) := fun _ hh => ⟨hh, fun _ e => by injection e with e; exact e ▸ h⟩
theorem KeepsLit.true {a : α} : KeepsLit b (fun _ => True) (Pure.pure a : M α) := KeepsLit.pure trivial
theorem KeepsLit.read {f : Heap → α} (hf : ∀ h, LitHeap₁ b h → P (f h)) : KeepsLit b P (M.read f) := fun h hh =>
  ⟨hh, fun _ e => by injection e with e; exact e ▸ hf h hh⟩
theorem KeepsLit.lift {x : Py α} (hx : OkP P x) : KeepsLit b P (M.lift x) := fun _ hh => ⟨hh, fun a ha => hx a ha⟩
theorem KeepsLit.modify {g : Heap → Heap} (hg : ∀ h, LitHeap₁ b h → LitHeap₁ b (g h)) : KeepsLit b (fun _ => True) (M.modify g) :=
  fun h hh => ⟨hg h hh, fun _ _ => trivial⟩
theorem KeepsLit.mono {R : α → Prop} {m : M α} (hm : KeepsLit b P m) (h : ∀ a, P a → R a) : KeepsLit b R m :=
  fun h' hh => ⟨(hm h' hh).1, fun a ha => h a ((hm h' hh).2 a ha)⟩

/-- Reading a computation and running it. -/
theorem KeepsLit.readLift {f : Heap → Py α} {k : α → M β} (hf : ∀ h, LitHeap₁ b h → OkP P (f h)) (hk : ∀ a, P a → KeepsLit b Q (k a)) :
    KeepsLit b Q (M.read f >>= fun x => M.lift x >>= k) :=
  KeepsLit.bind (KeepsLit.read hf) fun _ hx => KeepsLit.bind (KeepsLit.lift hx) hk

end

section
variable {b : Prop}

theorem LitHeap₁.modifyObj {h : Heap} (hh : LitHeap₁ b h) (i : Nat) (f : ImgObj → ImgObj)
    (h1 : ∀ o, (f o).data = o.data) (h2 : ∀ o s, (f o).demosaicedImages = some s → o.demosaicedImages = some s ∨ LitFour s)
    (h3 : ∀ o, (f o).dic = o.dic) : LitHeap₁ b (h.modifyObj i f) := by
  refine ⟨⟨fun j => ?_, fun j => ?_, fun j s hs => ?_, fun hb j => ?_, hh.1.dflt, hh.1.maps⟩, hh.2⟩
  · show (if j = i then f (h.objs.cell i) else h.objs.cell j).data < _
    split
    · rw [h1]; exact hh.1.refs i
    · exact hh.1.refs j
  · show Lit (h.datas.cell (if j = i then f (h.objs.cell i) else h.objs.cell j).data)
    split
    · rw [h1]; exact hh.1.lit i
    · exact hh.1.lit j
  · change (if j = i then f (h.objs.cell i) else h.objs.cell j).demosaicedImages = some s at hs
    split at hs
    · exact (h2 _ s hs).elim (hh.1.four i s) id
    · exact hh.1.four j s hs
  · show GoodDic (if j = i then f (h.objs.cell i) else h.objs.cell j).dic
    split
    · rw [h3]; exact hh.1.dic hb i
    · exact hh.1.dic hb j

theorem LitHeap₁.setData {h : Heap} (hh : LitHeap₁ b h) (i : Nat) {d : Img ℝ} (hd : Lit d) : LitHeap₁ b (h.setData i d) := by
  have r : ∀ j, (h.objs.cell j).data < h.datas.size + 1 := fun j => by have := hh.1.refs j; have := hh.2; omega
  refine ⟨⟨fun j => ?_, fun j => ?_, fun j s hs => ?_, fun hb j => ?_, hh.1.dflt, hh.1.maps⟩, Nat.succ_pos _⟩
  · show (if j = i then { h.objs.cell i with data := h.datas.size } else h.objs.cell j).data < max 1 (h.datas.size + 1)
    split
    · show h.datas.size < _
      omega
    · have := r j
      omega
  · show Lit (if (if j = i then { h.objs.cell i with data := h.datas.size } else h.objs.cell j).data = h.datas.size then d else
      h.datas.cell (if j = i then { h.objs.cell i with data := h.datas.size } else h.objs.cell j).data)
    split
    · show Lit (if h.datas.size = h.datas.size then d else _)
      rw [if_pos rfl]
      exact hd
    · split
      · exact hd
      · exact hh.1.lit j
  · change (if j = i then { h.objs.cell i with data := h.datas.size } else h.objs.cell j).demosaicedImages = some s at hs
    split at hs
    · exact hh.1.four i s hs
    · exact hh.1.four j s hs
  · show GoodDic (if j = i then { h.objs.cell i with data := h.datas.size } else h.objs.cell j).dic
    split
    · exact hh.1.dic hb i
    · exact hh.1.dic hb j

/-- Two assignments of the data in a row: only the second array has to be lit. -/
theorem LitHeap₁.setData_twice {h : Heap} (hh : LitHeap₁ b h) (i : Nat) (d : Img ℝ) {e : Img ℝ} (he : Lit e) :
    LitHeap₁ b ((h.setData i d).setData i e) := by
  have r : ∀ j, (h.objs.cell j).data < h.datas.size := fun j => by have := hh.1.refs j; have := hh.2; omega
  have o : ∀ j, ((h.setData i d).setData i e).objs.cell j = if j = i then { h.objs.cell i with data := h.datas.size + 1 } else h.objs.cell j := by
    intro j
    show (if j = i then { (if i = i then { h.objs.cell i with data := h.datas.size } else h.objs.cell i) with data := h.datas.size + 1 } else
      (if j = i then { h.objs.cell i with data := h.datas.size } else h.objs.cell j)) = _
    rw [if_pos rfl]
    split <;> rfl
  refine ⟨⟨fun j => ?_, fun j => ?_, fun j s hs => ?_, fun hb j => ?_, hh.1.dflt, hh.1.maps⟩, Nat.succ_pos _⟩
  · rw [o]
    show _ < max 1 (h.datas.size + 1 + 1)
    split
    · show h.datas.size + 1 < _
      omega
    · have := r j
      omega
  · unfold Heap.dataOf
    rw [o]
    split
    · show Lit (if h.datas.size + 1 = h.datas.size + 1 then e else _)
      rw [if_pos rfl]
      exact he
    · have := r j
      show Lit (if (h.objs.cell j).data = h.datas.size + 1 then e else if (h.objs.cell j).data = h.datas.size then d else _)
      rw [if_neg (by omega), if_neg (by omega)]
      exact hh.1.lit j
  · rw [o] at hs
    split at hs
    · exact hh.1.four i s hs
    · exact hh.1.four j s hs
  · rw [o]
    split
    · exact hh.1.dic hb i
    · exact hh.1.dic hb j

theorem LitHeap₁.withMaps {h : Heap} (hh : LitHeap₁ b h) (c : Nat) {sv : StokesVec} (hs : b → LightMaps sv.planes) :
    LitHeap₁ b (h.withStokes c sv) :=
  ⟨⟨hh.1.refs, hh.1.lit, hh.1.four, hh.1.dic, hh.1.dflt, fun hb k => by
    show LightMaps (if k = c then sv else h.stokes.cell k).planes
    split
    · exact hs hb
    · exact hh.1.maps hb k⟩, hh.2⟩

theorem LitHeap₁.setStokes {h : Heap} (hh : LitHeap₁ b h) (i : Nat) {sv : StokesVec} (hs : b → LightMaps sv.planes) :
    LitHeap₁ b (h.setStokes i sv) := by
  have h1 : LitHeap₁ b { h with stokes := h.stokes.alloc sv } :=
    ⟨⟨hh.1.refs, hh.1.lit, hh.1.four, hh.1.dic, hh.1.dflt, fun hb k => by
      show LightMaps (if k = h.stokes.size then sv else h.stokes.cell k).planes
      split
      · exact hs hb
      · exact hh.1.maps hb k⟩, hh.2⟩
  exact h1.modifyObj i (fun o => { o with stokes := h.stokes.size }) (fun _ => rfl) (fun _ _ h => .inl h) fun _ => rfl

theorem LitHeap.dicHeap {h : Heap} (hh : LitHeap b h) (dic : Option AngleDic) : LitHeap b (dicHeap dic h) := by
  unfold Micropol.dicHeap resolveDic
  cases dic with
  | some d => exact hh
  | none =>
    dsimp only
    cases hd : h.defaultDic with
    | some d => exact hh
    | none => exact ⟨hh.refs, hh.lit, hh.four, hh.dic, fun _ d e => by injection e with e; exact e ▸ good_polarCam, hh.maps⟩

theorem LitHeap.dicVal {h : Heap} (hh : LitHeap b h) (hb : b) {dic : Option AngleDic} (hd : ∀ d, dic = some d → GoodDic d) :
    GoodDic (dicVal dic h) := by
  unfold Micropol.dicVal
  cases dic with
  | some d => exact hd d rfl
  | none =>
    dsimp only
    cases he : h.defaultDic with
    | some d => exact hh.dflt hb d he
    | none => exact good_polarCam

theorem keeps_copy (i : Nat) (dic : Option AngleDic) : KeepsLit b (fun _ => True) (newFromImage i dic) := by
  intro h hh
  rw [newFromImage_run]
  refine ⟨?_, fun _ _ => trivial⟩
  have h1 := hh.1.dicHeap dic
  obtain ⟨d, e⟩ := dicHeap_eq dic h
  rw [e] at h1 ⊢
  refine ⟨⟨fun j => ?_, fun j => ?_, fun j s hs => ?_, fun hb j => ?_, h1.dflt, h1.maps⟩, hh.2⟩
  · show (if j = h.objs.size then h.objs.cell i else h.objs.cell j).data < _
    split
    · exact h1.refs i
    · exact h1.refs j
  · show Lit (h.datas.cell (if j = h.objs.size then h.objs.cell i else h.objs.cell j).data)
    split
    · exact h1.lit i
    · exact h1.lit j
  · change (if j = h.objs.size then h.objs.cell i else h.objs.cell j).demosaicedImages = some s at hs
    split at hs
    · exact h1.four i s hs
    · exact h1.four j s hs
  · show GoodDic (if j = h.objs.size then h.objs.cell i else h.objs.cell j).dic
    split
    · exact h1.dic hb i
    · exact h1.dic hb j

/-- A new image from an array, also as the first one. -/
theorem lit_array {h : Heap} (hh : LitHeap b h) {d : Img ℝ} (hd : Lit d) {dic : Option AngleDic} (hg : b → ∀ d, dic = some d → GoodDic d) :
    LitHeap b (newFromArray d dic h).2 ∧ h.datas.size ≤ (newFromArray d dic h).2.datas.size ∧
      ∀ n, (newFromArray d dic h).1 = .ok n → 0 < (newFromArray d dic h).2.datas.size := by
  rw [newFromArray_run]
  have h1 := hh.dicHeap dic
  cases hS : dataStokes d (dicVal dic h) with
  | error e =>
    refine ⟨h1, ?_, fun n hn => by cases hn⟩
    obtain ⟨d', e'⟩ := dicHeap_eq dic h
    show h.datas.size ≤ (dicHeap dic h).datas.size
    rw [e']
  | ok S =>
    refine ⟨?_, Nat.le_succ _, fun _ _ => Nat.succ_pos _⟩
    show LitHeap b (arrayHeap d S dic h)
    unfold arrayHeap
    obtain ⟨d', e'⟩ := dicHeap_eq dic h
    rw [e'] at h1 ⊢
    refine ⟨fun j => ?_, fun j => ?_, fun j s hs => ?_, fun hb j => ?_, h1.dflt, fun hb c => ?_⟩
    · show (if j = h.objs.size then blankObj h.datas.size h.stokes.size h.headers.size (dicVal dic h) else h.objs.cell j).data <
        max 1 (h.datas.size + 1)
      split
      · show h.datas.size < _
        omega
      · have := hh.refs j
        omega
    · show Lit (if (if j = h.objs.size then blankObj h.datas.size h.stokes.size h.headers.size (dicVal dic h) else h.objs.cell j).data =
        h.datas.size then d else h.datas.cell (if j = h.objs.size then
          blankObj h.datas.size h.stokes.size h.headers.size (dicVal dic h) else h.objs.cell j).data)
      split
      · show Lit (if h.datas.size = h.datas.size then d else _)
        rw [if_pos rfl]
        exact hd
      · split
        · exact hd
        · exact hh.lit j
    · change (if j = h.objs.size then blankObj h.datas.size h.stokes.size h.headers.size (dicVal dic h) else h.objs.cell j).demosaicedImages =
        some s at hs
      split at hs
      · cases hs
      · exact hh.four j s hs
    · show GoodDic (if j = h.objs.size then blankObj h.datas.size h.stokes.size h.headers.size (dicVal dic h) else h.objs.cell j).dic
      split
      · exact hh.dicVal hb (hg hb)
      · exact hh.dic hb j
    · show LightMaps (if c = h.stokes.size then (⟨S, false⟩ : StokesVec) else h.stokes.cell c).planes
      split
      · exact ok_dataStokes (hh.dicVal hb (hg hb)) hd S hS
      · exact hh.maps hb c

theorem keeps_array {d : Img ℝ} (hd : Lit d) {dic : Option AngleDic} (hg : b → ∀ d, dic = some d → GoodDic d) :
    KeepsLit b (fun _ => True) (newFromArray d dic) := fun h hh =>
  let ⟨h1, h2, _⟩ := lit_array hh.1 hd hg
  ⟨⟨h1, lt_of_lt_of_le hh.2 h2⟩, fun _ _ => trivial⟩

theorem ok_theo {h : Heap} (hh : LitHeap₁ b h) (i : Nat) : OkP (fun S => b → LightMaps S) (theoOf h i) := by
  unfold theoOf
  split
  · split
    · rename_i s hs
      exact fun S hS hb => hh.1.dic hb i s S (hh.1.four i s hs) hS
    · exact OkP.error
  · exact fun S hS hb => ok_dataStokes (hh.1.dic hb i) (hh.1.lit i) S hS

theorem keeps_update (i : Nat) : KeepsLit b (fun _ => True) (updateStokes i) :=
  KeepsLit.readLift (fun _ hh => ok_theo hh i) fun _ hS => KeepsLit.modify fun _ hh => hh.setStokes i hS

theorem keeps_setData (i : Nat) {d : Img ℝ} (hd : Lit d) : KeepsLit b (fun _ => True) (M.modify fun h => h.setData i d) :=
  KeepsLit.modify fun _ hh => hh.setData i hd

theorem keeps_updateData (i : Nat) {d : Img ℝ} (hd : Lit d) : KeepsLit b (fun _ => True) (updateDataAndStokes i d) :=
  KeepsLit.bind (keeps_setData i hd) fun _ _ => keeps_update i

theorem keeps_flag (i : Nat) (f : ImgObj → ImgObj) (h1 : ∀ o, (f o).data = o.data)
    (h2 : ∀ o, (f o).demosaicedImages = o.demosaicedImages) (h3 : ∀ o, (f o).dic = o.dic) :
    KeepsLit b (fun _ => True) (M.modify fun h => h.modifyObj i f) :=
  KeepsLit.modify fun _ hh => hh.modifyObj i f h1 (fun o s h => .inl (h2 o ▸ h)) h3

theorem keeps_dark (i dark : Nat) : KeepsLit b (fun _ => True) (subtractDark i dark) := by
  refine KeepsLit.readLift (P := fun _ => True) (fun _ _ => OkP.any) fun d _ => ?_
  have e : (M.modify (fun h => h.setData i d) >>= fun _ =>
      M.modify (fun h => h.setData i ((h.dataOf i).map (fun v => if v ≥ 0 then v else 0))) >>= fun _ => updateStokes i >>= fun _ =>
        M.modify (fun h => h.modifyObj i (fun o => { o with darkSubtracted := true }))) =
      (M.modify (fun h => (h.setData i d).setData i (((h.setData i d).dataOf i).map (fun v => if v ≥ 0 then v else 0))) >>= fun _ =>
        updateStokes i >>= fun _ => M.modify (fun h => h.modifyObj i (fun o => { o with darkSubtracted := true }))) := rfl
  show KeepsLit b _ (M.modify (fun h => h.setData i d) >>= fun _ =>
      M.modify (fun h => h.setData i ((h.dataOf i).map (fun v => if v ≥ 0 then v else 0))) >>= fun _ => updateStokes i >>= fun _ =>
        M.modify (fun h => h.modifyObj i (fun o => { o with darkSubtracted := true })))
  rw [e]
  refine KeepsLit.bind (KeepsLit.modify fun h hh => hh.setData_twice i d ?_) fun _ _ => KeepsLit.bind (keeps_update i) fun _ _ =>
    keeps_flag i _ (fun _ => rfl) (fun _ => rfl) fun _ => rfl
  exact lit_ofFn fun y x => by
    dsimp only
    split
    · assumption
    · exact le_rfl

theorem keeps_flat {junk : Nat → Nat → ℝ} (hj : JunkNonNeg junk) (i flat : Nat) : KeepsLit b (fun _ => True) (correctFlat junk i flat) :=
  KeepsLit.readLift (fun _ hh => ok_flat hj (hh.1.lit i) (hh.1.lit flat)) fun _ hd => KeepsLit.bind (keeps_setData i hd) fun _ _ =>
    KeepsLit.bind (keeps_update i) fun _ _ => keeps_flag i _ (fun _ => rfl) (fun _ => rfl) fun _ => rfl

theorem keeps_ifov (i : Nat) : KeepsLit b (fun _ => True) (correctIfov i) :=
  KeepsLit.readLift (fun _ hh => ok_ifov (hh.1.lit i)) fun _ hd => keeps_updateData i hd

theorem keeps_demosaic (i : Nat) (mode : String) : KeepsLit b (fun _ => True) (demosaicObj i mode) :=
  KeepsLit.readLift (fun _ hh => ok_demosaic (hh.1.lit i) mode) fun s hs =>
    KeepsLit.bind (KeepsLit.modify fun _ hh => hh.modifyObj i _ (fun _ => rfl)
      (fun o t h => .inr (by injection h with h; exact h ▸ hs)) fun _ => rfl) fun _ _ => keeps_update i

theorem keeps_corrections {junk : Nat → Nat → ℝ} (hj : JunkNonNeg junk) (n : Nat) (dark flat : Option Nat) :
    KeepsLit b (fun _ => True) (applyCorrections junk n dark flat) := by
  unfold applyCorrections
  split
  · exact KeepsLit.true
  · exact keeps_dark _ _
  · exact keeps_flat hj _ _
  · exact KeepsLit.bind (keeps_dark _ _) fun _ _ => keeps_flat hj _ _

theorem form_fixedRoi (y x r m fill : ℝ) : FormOnly fun A => roiFromPolar A (some (y, x)) (some (r, m)) (0, 360) fill true := by
  intro A B hAB
  dsimp only
  unfold roiFromPolar roiMask
  dsimp only
  rw [← hAB.1, ← hAB.2]
  refine PyRel.bind (PyRel.refl _) fun m m' hm => ?_
  cases hm
  exact npWhere_form m hAB (Like.rfl' _)

theorem keeps_maskDemosaiced (i : Nat) (y x r : ℝ) {fill : ℝ} (hf : 0 ≤ fill) :
    KeepsLit b (fun _ => True) (maskDemosaiced i y x r fill) := by
  refine KeepsLit.bind (P := fun o : ImgObj => ∀ s, o.demosaicedImages = some s → LitFour s) (KeepsLit.read fun h hh => hh.1.four i) fun o ho =>
    KeepsLit.bind (P := fun _ => True) (KeepsLit.read fun _ _ => trivial) fun d _ => ?_
  split
  · exact KeepsLit.true
  · exact KeepsLit.lift OkP.error
  · rename_i s _ hs
    refine KeepsLit.bind (P := LitFour) (KeepsLit.lift fun t ht => ⟨?_, ?_⟩) fun t ht =>
      KeepsLit.modify fun _ hh => hh.modifyObj i _ (fun _ => rfl)
        (fun o t' h => .inr (by injection h with h; exact h ▸ ht)) fun _ => rfl
    · exact ok_mapFour (fun q => ok_roi ((ho s hs).1 q) _ _ _ hf _) t ht
    · exact mapFour_shapes (form_fixedRoi _ _ _ _ _) (ho s hs).2 ht

theorem keeps_rewrite (hb : ¬ b) (c : Nat) (f : Img ℝ → Py (Img ℝ)) : KeepsLit b (fun _ => True) (rewritePlanes c f) := by
  intro h hh
  rw [rewritePlanes_run]
  exact ⟨hh.withMaps c fun h => absurd h hb, fun _ _ => trivial⟩

theorem keeps_maskPlanes (c : Nat) (y x r : ℝ) {fill : ℝ} (hf : 0 ≤ fill) :
    KeepsLit b (fun _ => True) (rewritePlanes c fun A => occulterRoi A y x r fill false) := by
  intro h hh
  rw [rewritePlanes_run]
  refine ⟨hh.withMaps c fun hb => ?_, fun _ _ => trivial⟩
  have hm := hh.1.maps hb c
  generalize h.stokes.cell c = sv at hm ⊢
  choose T hT using fun p => C46_pixels (sv.planes p) (y, x) (r, 2 * ((max (sv.planes 0).h (sv.planes 0).w : Nat) : ℝ)) (0, 360) fill
  have e : rewriteV (fun A => occulterRoi A y x r fill false) sv = (.ok (), ⟨T, sv.isList⟩) := by
    refine rewriteV_ok (fun p => ?_) (fun p => (hT p).2.1) fun p => (hT p).2.2.1
    have := (hT p).1
    rw [← (hm.1 p).1, ← (hm.1 p).2] at this
    exact this
  rw [e]
  exact hm.masked hf fun p => (hT p).2

theorem keeps_mask (i : Nat) (y x r over : ℝ) {fill : ℝ} (hf : 0 ≤ fill) : KeepsLit b (fun _ => True) (maskOcculter i y x r over fill) := by
  refine KeepsLit.readLift (fun _ hh => ok_roi (hh.1.lit i) _ _ _ hf _) fun _ hd => KeepsLit.bind (keeps_setData i hd) fun _ _ =>
    KeepsLit.bind (keeps_maskDemosaiced i _ _ _ hf) fun _ _ => KeepsLit.bind (P := fun _ => True) (KeepsLit.read fun _ _ => trivial)
      fun o _ => ?_
  split
  · exact keeps_maskPlanes _ _ _ _ hf
  · exact keeps_maskPlanes _ _ _ _ hf

theorem keeps_rebin (i : Nat) (n : Int) : KeepsLit b (fun _ => True) (rebinObj i n) := by
  unfold rebinObj
  split
  · exact KeepsLit.lift OkP.error
  · exact KeepsLit.bind (keeps_copy i none) fun _ _ => KeepsLit.readLift (fun _ hh => ok_rebin (hh.1.lit _) _) fun _ hd =>
      KeepsLit.bind (keeps_updateData _ hd) fun _ _ => KeepsLit.true

theorem keeps_congrid (i ny nx : Nat) : KeepsLit b (fun _ => True) (congridObj i ny nx) := by
  refine KeepsLit.readLift (fun _ hh => ok_congridData (hh.1.lit i) ny nx) fun _ hd => KeepsLit.bind (keeps_copy i none) fun n _ =>
    KeepsLit.bind (keeps_setData n hd) fun _ _ =>
    KeepsLit.bind (P := fun sv : StokesVec => b → LightMaps sv.planes) (KeepsLit.read fun h hh hb => hh.1.maps hb _) fun sv hsv => ?_
  generalize (if ny % 2 = 1 then ny - 1 else ny) = ny'
  generalize (if nx % 2 = 1 then nx - 1 else nx) = nx'
  refine KeepsLit.bind (KeepsLit.lift (P := fun T => congrid (sv.planes 0) ny' nx' = .ok T) fun _ h => h) fun a ha =>
    KeepsLit.bind (KeepsLit.lift (P := fun T => congrid (sv.planes 1) ny' nx' = .ok T) fun _ h => h) fun c hc =>
    KeepsLit.bind (KeepsLit.lift (P := fun T => congrid (sv.planes 2) ny' nx' = .ok T) fun _ h => h) fun d hd =>
    KeepsLit.bind (KeepsLit.modify fun _ hh => hh.setStokes n fun hb => ?_) fun _ _ => KeepsLit.true
  refine (hsv hb).congrid (ny := ny') (nx := nx') fun p => ?_
  fin_cases p
  · exact ha
  · exact hc
  · exact hd

theorem keeps_rotate (hb : ¬ b) (angle : ℝ) (i : Nat) : KeepsLit b (fun _ => True) (rotateObj (pilRotate angle) i) :=
  KeepsLit.readLift (fun _ hh => ok_rotateData angle (hh.1.lit i)) fun _ hd =>
    KeepsLit.bind (P := fun _ => True) (KeepsLit.read fun _ _ => trivial) fun c _ => KeepsLit.bind (keeps_rewrite hb c _) fun _ _ =>
    KeepsLit.bind (keeps_copy i none) fun n _ => KeepsLit.bind (keeps_setData n hd) fun _ _ =>
    KeepsLit.bind (keeps_flag n _ (fun _ => rfl) (fun _ => rfl) fun _ => rfl) fun _ _ => KeepsLit.true

theorem keeps_demodulate (hb : ¬ b) (i : Nat) (D : Demodulator ℝ) (dem : Bool) : KeepsLit b (fun _ => True) (demodulateObj i D dem) := by
  refine KeepsLit.bind (keeps_copy i none) fun n _ => ?_
  have tail : ∀ S : Fin 3 → Img ℝ, KeepsLit b (fun _ => True) (M.modify (fun h => h.setStokes n ⟨S, false⟩) >>= fun _ =>
      M.modify (fun h => h.modifyObj n (fun o => { o with isDemodulated := true })) >>= fun _ => (pure n : M Nat)) := fun S =>
    KeepsLit.bind (KeepsLit.modify fun _ hh => hh.setStokes n fun h => absurd h hb) fun _ _ =>
      KeepsLit.bind (keeps_flag n _ (fun _ => rfl) (fun _ => rfl) fun _ => rfl) fun _ _ => KeepsLit.true
  split
  · exact KeepsLit.bind (keeps_demosaic n _) fun _ _ => KeepsLit.readLift (P := fun _ => True) (fun _ _ => OkP.any) fun S _ => tail S
  · exact KeepsLit.readLift (P := fun _ => True) (fun _ _ => OkP.any) fun S _ => tail S

theorem keeps_derive (i : Nat) {f : Heap → Py (Img ℝ)} (hf : ∀ h, LitHeap₁ b h → OkP Lit (f h)) :
    KeepsLit b (fun _ => True) (deriveObj i f) :=
  KeepsLit.readLift hf fun _ hd => KeepsLit.bind (keeps_copy i none) fun n _ => KeepsLit.bind (keeps_updateData n hd) fun _ _ =>
    KeepsLit.true

theorem keeps_header (n i : Nat) :
    KeepsLit b (fun _ => True) (M.modify fun h => h.modifyObj n (fun o => { o with header := (h.objs.cell i).header })) :=
  KeepsLit.modify fun _ hh => hh.modifyObj n _ (fun _ => rfl) (fun _ _ h => .inl h) fun _ => rfl

theorem keeps_arithNumber {op : Arith} {i k : Nat} {c : ℝ} {junk : Nat → Nat → ℝ} (h : (Op.arithNumber op k c junk).AddsNoNegative) :
    KeepsLit b (fun _ => True) (arithNumberObj op junk i c) :=
  KeepsLit.readLift (fun _ hh => ok_arithNumber h (hh.1.lit i)) fun _ hd =>
    KeepsLit.bind (P := fun dic => b → GoodDic dic) (KeepsLit.read fun _ hh hb => hh.1.dic hb i) fun _ hg =>
    KeepsLit.bind (keeps_array hd fun hb d e => by injection e with e; exact e ▸ hg hb) fun n _ =>
    KeepsLit.bind (keeps_header n i) fun _ _ => KeepsLit.true

theorem keeps_named (images : List Nat) (k : Nat) : KeepsLit b (fun _ => True) (named images k) := KeepsLit.lift OkP.any

theorem keeps_namedOpt (images : List Nat) (k : Option Nat) : KeepsLit b (fun _ => True) (namedOpt images k) := by
  cases k with
  | none => exact KeepsLit.true
  | some k => exact KeepsLit.bind (keeps_named images k) fun _ _ => KeepsLit.true

theorem keeps_of {α : Type} {m : M α} {r : α → Option Nat} (hm : KeepsLit b (fun _ => True) m) :
    KeepsLit b (fun _ => True) (m >>= fun n => (pure (r n) : M (Option Nat))) := KeepsLit.bind hm fun _ _ => KeepsLit.true

/-- Every call in a session with at least one image. -/
theorem keeps_exec (images : List Nat) {o : Op} (ho : o.AddsNoNegative) (hm : b → o.MapsFromPixels) :
    KeepsLit b (fun _ => True) (exec images o) := by
  have nm := fun k => keeps_named (b := b) images k
  cases o with
  | setDefault dic =>
    refine KeepsLit.bind (KeepsLit.modify fun h hh => ⟨⟨hh.1.refs, hh.1.lit, hh.1.four, hh.1.dic, fun hb d hd => ?_, hh.1.maps⟩, hh.2⟩)
      fun _ _ => KeepsLit.true
    exact (hm hb d hd).good
  | fromArray d dic dark flat junk =>
    exact KeepsLit.bind (keeps_namedOpt images dark) fun _ _ => KeepsLit.bind (keeps_namedOpt images flat) fun _ _ =>
      KeepsLit.bind (keeps_array ho.1.lit fun hb d hd => (hm hb d hd).good) fun n _ =>
      KeepsLit.bind (keeps_corrections ho.2 n _ _) fun _ _ => KeepsLit.true
  | fromImage i dic dark flat junk =>
    exact KeepsLit.bind (nm i) fun _ _ => KeepsLit.bind (keeps_namedOpt images dark) fun _ _ => KeepsLit.bind (keeps_namedOpt images flat)
      fun _ _ => KeepsLit.bind (keeps_copy _ _) fun n _ => KeepsLit.bind (keeps_corrections ho n _ _) fun _ _ => KeepsLit.true
  | rebin i n => exact KeepsLit.bind (nm i) fun i _ => keeps_of (keeps_rebin i n)
  | congrid i ny nx => exact KeepsLit.bind (nm i) fun i _ => keeps_of (keeps_congrid i ny nx)
  | rotate i rot =>
    obtain ⟨angle, rfl⟩ := ho
    exact KeepsLit.bind (nm i) fun i _ => keeps_of (keeps_rotate hm angle i)
  | demodulate i D dem => exact KeepsLit.bind (nm i) fun i _ => keeps_of (keeps_demodulate hm i D dem)
  | shift i y x m => exact KeepsLit.bind (nm i) fun i _ => keeps_of (keeps_derive i fun _ hh => ok_shift (hh.1.lit i) y x ho)
  | cleanHotPixels i f median =>
    exact KeepsLit.bind (nm i) fun i _ => KeepsLit.bind (nm f) fun f _ => keeps_of (keeps_derive i fun _ hh => ok_clean ho (hh.1.lit i))
  | arithImage op i j junk =>
    exact KeepsLit.bind (nm i) fun i _ => KeepsLit.bind (nm j) fun j _ => keeps_of (KeepsLit.bind (keeps_derive i fun _ hh =>
      ok_arithImage ho.1 ho.2 (hh.1.lit i) (hh.1.lit j)) fun n _ => KeepsLit.bind (keeps_header n i) fun _ _ => KeepsLit.true)
  | arithNumber op i c junk => exact KeepsLit.bind (nm i) fun i _ => keeps_of (keeps_arithNumber ho)
  | demosaic i mode => exact KeepsLit.bind (nm i) fun i _ => keeps_of (keeps_demosaic i mode)
  | subtractDark i d => exact KeepsLit.bind (nm i) fun i _ => KeepsLit.bind (nm d) fun d _ => keeps_of (keeps_dark i d)
  | correctFlat i f junk => exact KeepsLit.bind (nm i) fun i _ => KeepsLit.bind (nm f) fun f _ => keeps_of (keeps_flat ho i f)
  | correctIfov i => exact KeepsLit.bind (nm i) fun i _ => keeps_of (keeps_ifov i)
  | maskOcculter i y x r over fill => exact KeepsLit.bind (nm i) fun i _ => keeps_of (keeps_mask i y x r over ho)

end

end Micropol

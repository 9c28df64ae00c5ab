import Verif.Lemmas.Units

/-! # The calls of a session in two systems of units -/

set_option autoImplicit false
set_option linter.unusedSectionVars false

namespace Micropol

open M

noncomputable section

open Classical

/-- Relational triple: from heaps related by `P`, both runs return values related by `R` in heaps related by `Q`, or both raise the
same exception in heaps related by `E`. -/
def RelP {α β : Type} (E P Q : Heap → Heap → Prop) (R : α → β → Prop) (m : M α) (m' : M β) : Prop :=
  ∀ h h', P h h' → PyRel R (m h).1 (m' h').1 ∧
    ((∃ a, (m h).1 = .ok a) → Q (m h).2 (m' h').2) ∧ ((∃ e, (m h).1 = .error e) → E (m h).2 (m' h').2)

section
variable {α β γ δ : Type} {E P Q S : Heap → Heap → Prop} {R : α → β → Prop} {T : γ → δ → Prop}

theorem RelP.bind {m : M α} {m' : M β} {f : α → M γ} {f' : β → M δ} (hm : RelP E P Q R m m')
    (hf : ∀ a b, R a b → RelP E Q S T (f a) (f' b)) : RelP E P S T (m >>= f) (m' >>= f') := by
  intro h h' hh
  obtain ⟨h1, h2, h3⟩ := hm h h' hh
  cases hx : m h with
  | mk a k =>
    cases hy : m' h' with
    | mk b k' =>
      rw [hx, hy] at h1 h2 h3
      cases a with
      | error e =>
        cases b with
        | error e' =>
          rw [run_of_err hx, run_of_err hy]
          exact ⟨h1, fun ⟨_, h⟩ => (by cases h), fun _ => h3 ⟨e, rfl⟩⟩
        | ok b => cases h1
      | ok a =>
        cases b with
        | error e' => cases h1
        | ok b => rw [run_of_ok hx, run_of_ok hy]; exact hf a b h1 k k' (h2 ⟨a, rfl⟩)

theorem RelP.read {f : Heap → α} {g : Heap → β} (hf : ∀ h h', P h h' → R (f h) (g h')) : RelP E P P R (M.read f) (M.read g) :=
  fun h h' hh => ⟨hf h h' hh, fun _ => hh, fun ⟨_, h⟩ => by cases h⟩

theorem RelP.lift {x : Py α} {y : Py β} (hE : ∀ h h', P h h' → E h h') (hx : PyRel R x y) : RelP E P P R (M.lift x) (M.lift y) :=
  fun h h' hh => ⟨hx, fun _ => hh, fun _ => hE h h' hh⟩

theorem RelP.modify {f g : Heap → Heap} (hf : ∀ h h', P h h' → Q (f h) (g h')) : RelP E P Q Eq (M.modify f) (M.modify g) :=
  fun h h' hh => ⟨rfl, fun _ => hf h h' hh, fun ⟨_, h⟩ => by cases h⟩

theorem RelP.pure {a : α} {b : β} (hab : R a b) : RelP E P P R (Pure.pure a : M α) (Pure.pure b : M β) :=
  fun _ _ hh => ⟨hab, fun _ => hh, fun ⟨_, h⟩ => by cases h⟩

theorem RelP.weaken {P' Q' E' : Heap → Heap → Prop} {m : M α} {m' : M β} (hm : RelP E P Q R m m') (hP : ∀ h h', P' h h' → P h h')
    (hQ : ∀ h h', Q h h' → Q' h h') (hE : ∀ h h', E h h' → E' h h') : RelP E' P' Q' R m m' := by
  intro h h' hh
  obtain ⟨h1, h2, h3⟩ := hm h h' (hP h h' hh)
  exact ⟨h1, fun k => hQ _ _ (h2 k), fun k => hE _ _ (h3 k)⟩

/-- `read` followed by `lift`. -/
theorem RelP.reads {f : Heap → Py α} {g : Heap → Py β} {k : α → M γ} {k' : β → M δ} (hE : ∀ h h', P h h' → E h h')
    (hf : ∀ h h', P h h' → PyRel R (f h) (g h')) (hk : ∀ a b, R a b → RelP E P S T (k a) (k' b)) :
    RelP E P S T (M.read f >>= fun x => M.lift x >>= k) (M.read g >>= fun x => M.lift x >>= k') :=
  RelP.bind (RelP.read hf) fun _ _ h => RelP.bind (RelP.lift hE h) hk

end

variable {u : Nat → ℝ} {L L1 : Nat → Prop} {N i : Nat}

/-- `Sc u L` and the number of objects. -/
def ScN' (u : Nat → ℝ) (L : Nat → Prop) (N : Nat) : Heap → Heap → Prop := fun h h' => Sc u L h h' ∧ h.objs.size = N

/-- In place: live objects stay as they are. -/
abbrev InP (u : Nat → ℝ) (L : Nat → Prop) {α : Type} (m m' : M α) : Prop := RelP (Sc u L) (Sc u L) (Sc u L) Eq m m'

/-- The exception side of an operation on more live objects. -/
theorem InP.forget {α : Type} {m m' : M α} (hm : InP u L1 m m') (hL : ∀ k, L k → L1 k) :
    RelP (Sc u L) (Sc u L1) (Sc u L1) Eq m m' := hm.weaken (fun _ _ h => h) (fun _ _ h => h) fun _ _ h => h.mono hL

theorem un_theo {h h' : Heap} (hs : Sc u L h h') (hi : L i) : PyRel (Sca3 (u i)) (theoOf h i) (theoOf h' i) := by
  unfold theoOf Heap.dicOf
  rw [hs.obj i hi]
  show PyRel _ _ (if (h.objs.cell i).isDemosaiced = true then
      match (h.objs.cell i).demosaicedImages.map fun (d : Fin 4 → Img ℝ) (f : Fin 4) => inUnit (u i) (d f) with
      | some s => theoStokes s (h.objs.cell i).dic
      | none => .error .typeError
    else dataStokes (h'.dataOf i) (h.objs.cell i).dic)
  split
  · cases (h.objs.cell i).demosaicedImages with
    | none => rfl
    | some s => exact sca_theo (fun k => sca_inUnit _ _) _
  · exact sca_dataStokes (hs.data i hi) _

theorem un_updateStokes (hi : L i) : InP u L (updateStokes i) (updateStokes i) :=
  RelP.reads (fun _ _ h => h) (fun _ _ hs => un_theo hs hi) fun _ _ hS => RelP.modify fun _ _ hs => hs.setStokes hi rfl hS

theorem un_setData (hi : L i) {d d' : Img ℝ} (hd : Sca (u i) d d') :
    InP u L (M.modify fun h => h.setData i d) (M.modify fun h => h.setData i d') := RelP.modify fun _ _ hs => hs.setData hi hd

theorem un_update (hi : L i) {d d' : Img ℝ} (hd : Sca (u i) d d') : InP u L (updateDataAndStokes i d) (updateDataAndStokes i d') :=
  RelP.bind (un_setData hi hd) fun _ _ _ => un_updateStokes hi

theorem un_flag (hi : L i) {f : ImgObj → ImgObj} (hf : ∀ o, f (o.inUnit (u i)) = (f o).inUnit (u i)) (hd : ∀ o, (f o).data = o.data)
    (hst : ∀ o, (f o).stokes = o.stokes) : InP u L (M.modify fun h => h.modifyObj i f) (M.modify fun h => h.modifyObj i f) :=
  RelP.modify fun _ _ hs => hs.modifyObj hi hf hd hst

theorem un_subtractDark {d : Nat} (hi : L i) (hd : L d) (hu : u d = u i) (hpos : 0 < u i) :
    InP u L (subtractDark i d) (subtractDark i d) := by
  refine RelP.reads (R := Sca (u i)) (fun _ _ h => h) (fun h h' hs => ?_) fun a b hab => RelP.bind (un_setData hi hab) fun _ _ _ =>
    RelP.bind (RelP.modify fun h h' hs => hs.setData hi ((hs.data i hi).map fun v => ?_)) fun _ _ _ =>
    RelP.bind (un_updateStokes hi) fun _ _ _ => un_flag hi (fun _ => rfl) (fun _ => rfl) fun _ => rfl
  · refine sca_npBinAt (a := u i) (b := u i) (fun _ _ a b => by ring) (hs.data i hi) ?_
    rw [← hu]
    exact hs.data d hd
  · by_cases hv : 0 ≤ v
    · rw [if_pos (mul_nonneg hpos.le hv), if_pos hv]
    · rw [if_neg hv, if_neg, mul_zero]
      intro h
      exact hv (nonneg_of_mul_nonneg_right h hpos)

theorem un_correctFlat {f : Nat} {junk : Nat → Nat → ℝ} (hi : L i) (hf : L f) (hne : u f ≠ 0) :
    InP u L (correctFlat junk i f) (correctFlat (junkInUnit (u i) junk) i f) :=
  RelP.reads (R := Sca (u i)) (fun _ _ h => h) (fun _ _ hs => sca_flat hne (fun _ _ => rfl) (hs.data i hi) (hs.data f hf))
    fun _ _ hab => RelP.bind (un_setData hi hab) fun _ _ _ => RelP.bind (un_updateStokes hi) fun _ _ _ =>
      un_flag hi (fun _ => rfl) (fun _ => rfl) fun _ => rfl

theorem un_correctIfov (hi : L i) : InP u L (correctIfov i) (correctIfov i) :=
  RelP.reads (R := Sca (u i)) (fun _ _ h => h) (fun _ _ hs => sca_ifov (hs.data i hi)) fun _ _ hab => un_update hi hab

theorem Sca4.eq {c : ℝ} {s t : Fin 4 → Img ℝ} (h : Sca4 c s t) : t = fun k => inUnit c (s k) := funext fun k => (h k).eq

theorem un_demosaic (hi : L i) (mode : String) : InP u L (demosaicObj i mode) (demosaicObj i mode) := by
  refine RelP.reads (R := Sca4 (u i)) (fun _ _ h => h) (fun _ _ hs => sca_demosaic (hs.data i hi) mode) fun s t hst =>
    RelP.bind (RelP.modify fun _ _ hs => hs.modifyObj hi (fun o => ?_) (fun _ => rfl) fun _ => rfl) fun _ _ _ => un_updateStokes hi
  rw [hst.eq, hs.freshList]
  rfl

/-! ## Work on the maps in place -/

/-- `Sc u L`, and `i` refers to the Stokes vector `c` and there are `N` objects. -/
def ScC (u : Nat → ℝ) (L : Nat → Prop) (N i c : Nat) : Heap → Heap → Prop :=
  fun h h' => Sc u L h h' ∧ h.objs.size = N ∧ (h.objs.cell i).stokes = c

theorem ScC.cell {c : Nat} {h h' : Heap} (hs : ScC u L N i c h h') (hi : L i) :
    (h'.stokes.cell c).isList = (h.stokes.cell c).isList ∧ Sca3 (u i) (h.stokes.cell c).planes (h'.stokes.cell c).planes := by
  have e1 : h.stokesOf i = h.stokes.cell c := by
    unfold Heap.stokesOf
    rw [hs.2.2]
  have e2 : h'.stokesOf i = h'.stokes.cell c := by
    unfold Heap.stokesOf
    rw [hs.1.obj i hi]
    show h'.stokes.cell (h.objs.cell i).stokes = _
    rw [hs.2.2]
  rw [← e1, ← e2]
  exact ⟨hs.1.list i hi, hs.1.map i hi⟩

theorem un_setPlane {c : Nat} (hi : L i) (k : Fin 3) {a b : Img ℝ} (hab : Sca (u i) a b) :
    RelP (Sc u L) (ScC u L N i c) (ScC u L N i c) Eq (setPlane c k a) (setPlane c k b) := by
  refine RelP.bind (R := fun s s' : StokesVec => s'.isList = s.isList ∧ Sca3 (u i) s.planes s'.planes)
    (RelP.read fun h h' hs => hs.cell hi) fun s s' hs =>
    RelP.bind (R := Sca (u i)) (RelP.lift (fun _ _ h => h.1) ?_) fun p q hpq =>
    RelP.modify fun h h' hh => ⟨hh.1.setCell hi hh.2.2 hs.1 fun j => ?_, hh.2⟩
  · rw [hs.1]
    split
    · exact hab
    · rw [(hs.2 k).h, (hs.2 k).w]
      exact hab.assignPlane _ _
  · dsimp only
    split
    · exact hpq
    · exact hs.2 j

theorem un_rewritePlanes {c : Nat} (hi : L i) {f g : Img ℝ → Py (Img ℝ)} (hf : ∀ A B, Sca (u i) A B → PyRel (Sca (u i)) (f A) (g B)) :
    RelP (Sc u L) (ScC u L N i c) (ScC u L N i c) Eq (rewritePlanes c f) (rewritePlanes c g) :=
  RelP.reads (fun _ _ h => h.1) (fun _ _ hs => hf _ _ ((hs.cell hi).2 0)) fun _ _ h0 => RelP.bind (un_setPlane hi 0 h0) fun _ _ _ =>
  RelP.reads (fun _ _ h => h.1) (fun _ _ hs => hf _ _ ((hs.cell hi).2 1)) fun _ _ h1 => RelP.bind (un_setPlane hi 1 h1) fun _ _ _ =>
  RelP.reads (fun _ _ h => h.1) (fun _ _ hs => hf _ _ ((hs.cell hi).2 2)) fun _ _ h2 => un_setPlane hi 2 h2

theorem un_maskDemosaiced (hi : L i) (y x r : ℝ) {fill fill' : ℝ} (hf : ScN (u i) fill fill') :
    InP u L (maskDemosaiced i y x r fill) (maskDemosaiced i y x r fill') := by
  refine RelP.bind (R := fun o o' : ImgObj => o' = o.inUnit (u i)) (RelP.read fun h h' hs => hs.obj i hi) fun o o' ho =>
    RelP.bind (R := Sca (u i)) (RelP.read fun h h' hs => hs.data i hi) fun d d' hd => ?_
  subst ho
  cases e : o.isDemosaiced with
  | false =>
    rw [show (o.inUnit (u i)).isDemosaiced = false from e]
    exact RelP.pure rfl
  | true =>
    rw [show (o.inUnit (u i)).isDemosaiced = true from e]
    cases e2 : o.demosaicedImages with
    | none =>
      rw [show (o.inUnit (u i)).demosaicedImages = none by show o.demosaicedImages.map _ = none; rw [e2]; rfl]
      exact RelP.lift (fun _ _ h => h) rfl
    | some s =>
      rw [show (o.inUnit (u i)).demosaicedImages = some fun k => inUnit (u i) (s k) by
        show o.demosaicedImages.map _ = _; rw [e2]; rfl]
      refine RelP.bind (R := Sca4 (u i)) (RelP.lift (fun _ _ h => h) (sca_mapFour (fun A B hA => ?_) fun k => sca_inUnit _ _))
        fun t t' ht => RelP.modify fun h h' hs => hs.modifyObj hi (fun o => ?_) (fun _ => rfl) fun _ => rfl
      · rw [hd.h, hd.w]
        exact sca_roi hA _ _ _ hf _
      · rw [ht.eq, hs.freshList]
        rfl

theorem un_maskOcculter (hi : L i) (y x r over : ℝ) {fill fill' : ℝ} (hf : ScN (u i) fill fill') :
    InP u L (maskOcculter i y x r over fill) (maskOcculter i y x r over fill') := by
  refine RelP.reads (R := Sca (u i)) (fun _ _ h => h) (fun _ _ hs => sca_occulter (hs.data i hi) y x _ hf _) fun d d' hd =>
    RelP.bind (un_setData hi hd) fun _ _ _ => RelP.bind (un_maskDemosaiced hi y x _ hf) fun _ _ _ => ?_
  intro h h' hs
  have key : RelP (Sc u L) (ScC u L h.objs.size i (h.objs.cell i).stokes) (Sc u L) Eq
      (if (h.objs.cell i).isDemosaiced then
        rewritePlanes (h.objs.cell i).stokes (fun A => occulterRoi A y x (r + over) fill false)
      else rewritePlanes (h.objs.cell i).stokes (fun A => occulterRoi A ((pyInt (y / 2) : ℤ) : ℝ) ((pyInt (x / 2) : ℤ) : ℝ)
        ((pyInt ((r + over) / 2) : ℤ) : ℝ) fill false))
      (if (h.objs.cell i).isDemosaiced then
        rewritePlanes (h.objs.cell i).stokes (fun A => occulterRoi A y x (r + over) fill' false)
      else rewritePlanes (h.objs.cell i).stokes (fun A => occulterRoi A ((pyInt (y / 2) : ℤ) : ℝ) ((pyInt (x / 2) : ℤ) : ℝ)
        ((pyInt ((r + over) / 2) : ℤ) : ℝ) fill' false)) := by
    split
    · exact (un_rewritePlanes hi fun A B hA => sca_occulter hA _ _ _ hf _).weaken (fun _ _ h => h) (fun _ _ h => h.1) fun _ _ h => h
    · exact (un_rewritePlanes hi fun A B hA => sca_occulter hA _ _ _ hf _).weaken (fun _ _ h => h) (fun _ _ h => h.1) fun _ _ h => h
  have k2 := key h h' ⟨hs, rfl, rfl⟩
  have e1 : ∀ k : ImgObj → M Unit, (M.read (fun h => h.objs.cell i) >>= k) h = k (h.objs.cell i) h := fun k => run_of_ok rfl
  have e2 : ∀ k : ImgObj → M Unit, (M.read (fun h => h.objs.cell i) >>= k) h' = k ((h.objs.cell i).inUnit (u i)) h' :=
    fun k => run_of_ok (by rw [← hs.obj i hi]; rfl)
  rw [e1, e2]
  exact k2

/-! ## New objects -/

theorem un_resolveDic (dic : Option AngleDic) : RelP (Sc u L) (ScN' u L N) (ScN' u L N) Eq (resolveDic dic) (resolveDic dic) := by
  intro h h' hs
  unfold resolveDic
  rw [hs.1.default]
  cases dic with
  | some d => exact ⟨rfl, fun _ => hs, fun ⟨_, h⟩ => by cases h⟩
  | none =>
    cases h.defaultDic with
    | some d => exact ⟨rfl, fun _ => hs, fun ⟨_, h⟩ => by cases h⟩
    | none =>
      exact ⟨rfl, fun _ => ⟨⟨hs.1.headers, rfl, hs.1.osize, hs.1.dsize, hs.1.ssize, hs.1.live, hs.1.refd, hs.1.refs, hs.1.obj,
        hs.1.data, hs.1.list, hs.1.map, hs.1.share, hs.1.lists⟩, hs.2⟩, fun ⟨_, h⟩ => by cases h⟩

/-- The result is the new object. -/
def IsNew (N : Nat) : Nat → Nat → Prop := fun a b => a = N ∧ b = N

theorem un_size : RelP (Sc u L) (ScN' u L N) (ScN' u L N) (IsNew N) (M.read fun h => h.objs.size) (M.read fun h => h.objs.size) :=
  RelP.read fun _ _ hs => ⟨hs.2, by rw [hs.1.osize, hs.2]⟩

theorem un_newFromImage (hi : L i) (hu : u N = u i) (dic : Option AngleDic) :
    RelP (Sc u L) (ScN' u L N) (Sc u (withNew L N)) (IsNew N) (newFromImage i dic) (newFromImage i dic) :=
  RelP.bind (un_resolveDic dic) fun _ _ _ => RelP.bind un_size fun a b hab =>
  RelP.bind (RelP.modify fun h h' hs => by rw [← hs.2]; exact hs.1.copyLive hi (by rw [hs.2]; exact hu)) fun _ _ _ => RelP.pure hab

theorem un_newFromArray {d d' : Img ℝ} (hd : Sca (u N) d d') (dic : Option AngleDic) :
    RelP (Sc u L) (ScN' u L N) (Sc u (withNew L N)) (IsNew N) (newFromArray d dic) (newFromArray d' dic) := by
  refine RelP.bind (un_resolveDic dic) fun dc dc' hdc => ?_
  cases hdc
  refine RelP.bind (RelP.lift (fun _ _ h => h.1) (sca_dataStokes hd dc)) fun S S' hS => RelP.bind un_size fun a b hab =>
    RelP.bind (RelP.modify fun h h' hs => ?_) fun _ _ _ => RelP.pure hab
  have := hs.1.fresh dc (by rw [hs.2]; exact hd) (by rw [hs.2]; exact hS)
  rwa [hs.2] at this

theorem inNew {L : Nat → Prop} {n k : Nat} (h : L k) : withNew L n k := Or.inr h
theorem isNew (L : Nat → Prop) (n : Nat) : withNew L n n := Or.inl rfl

/-- After a new object has been made. -/
theorem RelP.new {γ δ : Type} {T : γ → δ → Prop} {m m' : M Nat} {f : Nat → M γ} {f' : Nat → M δ} {S : Heap → Heap → Prop}
    (hm : RelP (Sc u L) (ScN' u L N) (Sc u (withNew L N)) (IsNew N) m m') (hf : RelP (Sc u L) (Sc u (withNew L N)) S T (f N) (f' N)) :
    RelP (Sc u L) (ScN' u L N) S T (m >>= f) (m' >>= f') :=
  RelP.bind hm fun a b hab => by rw [hab.1, hab.2]; exact hf

/-- An in place step on the new object. -/
theorem RelP.then {γ δ : Type} {T : γ → δ → Prop} {m m' : M Unit} {f : M γ} {f' : M δ} {S : Heap → Heap → Prop}
    (hm : InP u (withNew L N) m m') (hf : RelP (Sc u L) (Sc u (withNew L N)) S T f f') :
    RelP (Sc u L) (Sc u (withNew L N)) S T (m >>= fun _ => f) (m' >>= fun _ => f') :=
  RelP.bind (hm.forget fun _ h => Or.inr h) fun _ _ _ => hf

theorem pureNew : RelP (Sc u L) (Sc u (withNew L N)) (Sc u (withNew L N)) (IsNew N) (Pure.pure N : M Nat) (Pure.pure N : M Nat) :=
  RelP.pure ⟨rfl, rfl⟩

/-- Shape of the operations that return a new image. -/
abbrev NewP (u : Nat → ℝ) (L : Nat → Prop) (N : Nat) (m m' : M Nat) : Prop :=
  RelP (Sc u L) (ScN' u L N) (Sc u (withNew L N)) (IsNew N) m m'

theorem un_rebin (hi : L i) (hu : u N = u i) (b : Int) : NewP u L N (rebinObj i b) (rebinObj i b) := by
  unfold rebinObj
  split
  · intro h h' hs
    exact ⟨rfl, fun ⟨_, h⟩ => (by cases h), fun _ => hs.1⟩
  · exact RelP.new (un_newFromImage hi hu none) (RelP.reads (fun _ _ h => h.mono fun _ h => Or.inr h)
      (fun _ _ hs => sca_rebin (hs.data N (isNew L N)) b) fun _ _ hd => RelP.then (un_update (isNew L N) hd) pureNew)

theorem un_derive (hi : L i) (hu : u N = u i) {f g : Heap → Py (Img ℝ)}
    (hf : ∀ h h', Sc u L h h' → PyRel (Sca (u i)) (f h) (g h')) : NewP u L N (deriveObj i f) (deriveObj i g) :=
  RelP.reads (fun _ _ h => h.1) (fun h h' hs => hf h h' hs.1) fun _ _ hd => RelP.new (un_newFromImage hi hu none)
    (RelP.then (un_update (isNew L N) (by rw [hu]; exact hd)) pureNew)

theorem un_congrid (hi : L i) (hu : u N = u i) (ny nx : Nat) : NewP u L N (congridObj i ny nx) (congridObj i ny nx) := by
  refine RelP.reads (fun _ _ h => h.1) (fun h h' hs => sca_congridData (hs.1.data i hi) ny nx) fun _ _ hd =>
    RelP.new (un_newFromImage hi hu none) (RelP.then (un_setData (isNew L N) (by rw [hu]; exact hd)) ?_)
  have lm : ∀ h h', Sc u (withNew L N) h h' → Sc u L h h' := fun _ _ h => h.mono fun _ h => Or.inr h
  exact RelP.bind (R := fun s s' : StokesVec => Sca3 (u i) s.planes s'.planes) (RelP.read fun h h' hs => hs.map i (inNew hi))
    fun s s' hs => RelP.bind (RelP.lift lm (sca_congrid (hs 0) _ _)) fun _ _ h0 =>
    RelP.bind (RelP.lift lm (sca_congrid (hs 1) _ _)) fun _ _ h1 => RelP.bind (RelP.lift lm (sca_congrid (hs 2) _ _)) fun _ _ h2 =>
    RelP.bind (RelP.modify fun h h' hs => hs.setStokes (isNew L N) rfl (by rw [hu]; exact Sca3.mk h0 h1 h2)) fun _ _ _ => pureNew

theorem un_demodulate (hi : L i) (hu : u N = u i) (D : Demodulator ℝ) (dem : Bool) :
    NewP u L N (demodulateObj i D dem) (demodulateObj i D dem) := by
  have lm : ∀ h h', Sc u (withNew L N) h h' → Sc u L h h' := fun _ _ h => h.mono fun _ h => Or.inr h
  have nw := isNew L N
  have fin : ∀ {S S' : Fin 3 → Img ℝ}, Sca3 (u N) S S' → RelP (Sc u L) (Sc u (withNew L N)) (Sc u (withNew L N)) (IsNew N)
      (M.modify (fun h => h.setStokes N ⟨S, false⟩) >>= fun _ =>
        M.modify (fun h => h.modifyObj N (fun o => { o with isDemodulated := true })) >>= fun _ => Pure.pure N)
      (M.modify (fun h => h.setStokes N ⟨S', false⟩) >>= fun _ =>
        M.modify (fun h => h.modifyObj N (fun o => { o with isDemodulated := true })) >>= fun _ => Pure.pure N) := fun hS =>
    RelP.then (RelP.modify fun h h' hs => hs.setStokes nw rfl hS)
      (RelP.then (un_flag nw (fun _ => rfl) (fun _ => rfl) fun _ => rfl) pureNew)
  refine RelP.new (un_newFromImage hi hu none) ?_
  cases dem with
  | true =>
    refine RelP.then (un_demosaic nw _) (RelP.reads lm (fun h h' hs => ?_) fun _ _ hS => fin hS)
    have : h'.dicOf N = h.dicOf N := by
      unfold Heap.dicOf
      rw [hs.obj N nw]
      rfl
    rw [this]
    exact sca_demodulateDemosaicing (hs.data N nw) _ D
  | false => exact RelP.reads lm (fun h h' hs => sca_demodulatePlain (hs.data N nw) (hs.map N nw) D) fun _ _ hS => fin hS

theorem hom_rel {c : ℝ} {rot : Img ℝ → Py (Img ℝ)} (hom : Homogeneous c rot) (A B : Img ℝ) (hA : Sca c A B) :
    PyRel (Sca c) (rot A) (rot B) := by
  rw [hA.eq, hom A]
  cases rot A with
  | error e => rfl
  | ok R => exact sca_inUnit _ _

theorem un_rotate (hi : L i) (hu : u N = u i) {rot : Img ℝ → Py (Img ℝ)} (hom : Homogeneous (u i) rot) :
    NewP u L N (rotateObj rot i) (rotateObj rot i) := by
  refine RelP.reads (fun _ _ h => h.1) (fun h h' hs => sca_rotate (hom_rel hom) (hs.1.data i hi)) fun d d' hd => ?_
  have key : ∀ c, RelP (Sc u L) (ScC u L N i c) (Sc u (withNew L N)) (IsNew N)
      (rewritePlanes c rot >>= fun _ => newFromImage i none >>= fun n => M.modify (fun h => h.setData n d) >>= fun _ =>
        M.modify (fun h => h.modifyObj n (fun o => { o with stokes := c })) >>= fun _ => Pure.pure n)
      (rewritePlanes c rot >>= fun _ => newFromImage i none >>= fun n => M.modify (fun h => h.setData n d') >>= fun _ =>
        M.modify (fun h => h.modifyObj n (fun o => { o with stokes := c })) >>= fun _ => Pure.pure n) := by
    intro c
    refine RelP.bind (un_rewritePlanes hi (hom_rel hom)) fun _ _ _ => ?_
    have nf : RelP (Sc u L) (ScC u L N i c) (ScC u (withNew L N) (N + 1) N c) (IsNew N) (newFromImage i none) (newFromImage i none) := by
      refine RelP.bind (Q := ScC u L N i c) (R := Eq) ?_ fun _ _ _ => RelP.bind (R := IsNew N)
        (RelP.read fun h h' hs => ⟨hs.2.1, by rw [hs.1.osize, hs.2.1]⟩) fun a b hab =>
        RelP.bind (RelP.modify fun h h' hs => ⟨?_, ?_, ?_⟩) fun _ _ _ => RelP.pure hab
      · intro h h' hs
        obtain ⟨h1, h2, h3⟩ := un_resolveDic (u := u) (L := L) (N := N) none h h' ⟨hs.1, hs.2.1⟩
        refine ⟨h1, fun e => ⟨(h2 e).1, (h2 e).2, ?_⟩, h3⟩
        rw [← hs.2.2]
        unfold resolveDic
        cases h.defaultDic <;> rfl
      · have := hs.1.copyLive hi (by rw [hs.2.1]; exact hu)
        rwa [hs.2.1] at this
      · show h.objs.size + 1 = N + 1
        rw [hs.2.1]
      · show (if N = h.objs.size then h.objs.cell i else h.objs.cell N).stokes = c
        rw [hs.2.1, if_pos rfl]
        exact hs.2.2
    refine RelP.bind nf fun a b hab => ?_
    rw [hab.1, hab.2]
    have nw := isNew L N
    refine RelP.bind (Q := ScC u (withNew L N) (N + 1) N c) (RelP.modify fun h h' hs =>
      ⟨hs.1.setData nw (by rw [hu]; exact hd), hs.2.1, by rw [stokesRef_setData]; exact hs.2.2⟩) fun _ _ _ =>
      RelP.bind (Q := Sc u (withNew L N)) (RelP.modify fun h h' hs => ?_) fun _ _ _ => pureNew
    have same : ∀ k : Heap, (k.objs.cell N).stokes = c → k.modifyObj N (fun o => { o with stokes := c }) = k := by
      intro k hk
      have : k.objs.set N { k.objs.cell N with stokes := c } = k.objs := by
        subst hk
        unfold Store.set
        have : (fun j => if j = N then k.objs.cell N else k.objs.cell j) = k.objs.cell := by
          funext j
          split
          · rename_i e; rw [e]
          · rfl
        show (⟨k.objs.size, fun j => if j = N then k.objs.cell N else k.objs.cell j⟩ : Store ImgObj) = k.objs
        rw [this]
      unfold Heap.modifyObj
      rw [this]
    rw [same h hs.2.2, same h' (by rw [hs.1.obj N nw]; exact hs.2.2)]
    exact hs.1
  intro h h' hs
  have k2 := key (h.objs.cell i).stokes h h' ⟨hs.1, hs.2, rfl⟩
  have e1 : ∀ k : Nat → M Nat, (M.read (fun h => (h.objs.cell i).stokes) >>= k) h = k (h.objs.cell i).stokes h := fun k => run_of_ok rfl
  have e2 : ∀ k : Nat → M Nat, (M.read (fun h => (h.objs.cell i).stokes) >>= k) h' = k (h.objs.cell i).stokes h' :=
    fun k => run_of_ok (by
      show (Except.ok (h'.objs.cell i).stokes, h') = _
      rw [hs.1.obj i hi]
      rfl)
  rw [e1, e2]
  exact k2

end

end Micropol

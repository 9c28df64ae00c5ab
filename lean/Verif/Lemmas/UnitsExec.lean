import Verif.Lemmas.UnitsOps

/-! # A call, and a session, in two systems of units -/

set_option autoImplicit false
set_option linter.unusedSectionVars false

namespace Micropol

open M

noncomputable section

open Classical

variable {u : Nat → ℝ} {L : Nat → Prop} {N i : Nat}

/-- The new object `N` has no demosaiced images. -/
def Half (u : Nat → ℝ) (L : Nat → Prop) (N : Nat) : Heap → Heap → Prop := fun h h' =>
  Sc u L h h' ∧ h.objs.size = N + 1 ∧ h'.objs.cell N = h.objs.cell N ∧ (h.objs.cell N).demosaicedImages = none

theorem inUnit_none {c : ℝ} {o : ImgObj} (h : o.demosaicedImages = none) : o.inUnit c = o := by
  unfold ImgObj.inUnit
  rw [h]
  show ({ o with demosaicedImages := none } : ImgObj) = o
  rw [← h]

/-- A derived image in a unit of its own. -/
theorem un_deriveUnit (hi : L i) (hN : ¬ L N) {f g : Heap → Py (Img ℝ)} (hf : ∀ h h', Sc u L h h' → PyRel (Sca (u N)) (f h) (g h')) :
    RelP (Sc u L) (fun h h' => ScN' u L N h h' ∧ (h.objs.cell i).demosaicedImages = none) (Sc u (withNew L N)) (IsNew N)
      (deriveObj i f) (deriveObj i g) := by
  refine RelP.reads (fun _ _ h => h.1.1) (fun h h' hs => hf h h' hs.1.1) fun d d' hd => ?_
  have nf : RelP (Sc u L) (fun h h' => ScN' u L N h h' ∧ (h.objs.cell i).demosaicedImages = none) (Half u L N) (IsNew N)
      (newFromImage i none) (newFromImage i none) := by
    refine RelP.bind (Q := fun h h' => ScN' u L N h h' ∧ (h.objs.cell i).demosaicedImages = none) (R := Eq) ?_ fun _ _ _ =>
      RelP.bind (R := IsNew N) (RelP.read fun h h' hs => ⟨hs.1.2, by rw [hs.1.1.osize, hs.1.2]⟩) fun a b hab =>
      RelP.bind (RelP.modify fun h h' hs => ⟨hs.1.1.copy i, congrArg (· + 1) hs.1.2, ?_, ?_⟩) fun _ _ _ => RelP.pure hab
    · intro h h' hs
      obtain ⟨h1, h2, h3⟩ := un_resolveDic (u := u) (L := L) (N := N) none h h' hs.1
      refine ⟨h1, fun e => ⟨h2 e, ?_⟩, h3⟩
      rw [← hs.2]
      unfold resolveDic
      cases h.defaultDic <;> rfl
    · show (if N = h'.objs.size then h'.objs.cell i else _) = (if N = h.objs.size then h.objs.cell i else _)
      rw [hs.1.1.osize, hs.1.2, if_pos rfl, if_pos rfl, hs.1.1.obj i hi, inUnit_none hs.2]
    · show (if N = h.objs.size then h.objs.cell i else _).demosaicedImages = none
      rw [hs.1.2, if_pos rfl]
      exact hs.2
  refine RelP.bind nf fun a b hab => ?_
  rw [hab.1, hab.2]
  refine RelP.bind (R := Eq) ?_ fun _ _ _ => pureNew
  refine RelP.bind (Q := fun h h' => Half u L N h h' ∧ h.dataOf N = d ∧ h'.dataOf N = d' ∧ (h.objs.cell N).data < h.datas.size)
    (RelP.modify fun h h' hs => ⟨⟨?_, hs.2.1, ?_, ?_⟩, dataOf_setData_eq, dataOf_setData_eq, ?_⟩) fun _ _ _ => ?_
  · exact hs.1.setData' (by rw [hs.2.2.1, inUnit_none hs.2.2.2]) ⟨hd.h, hd.w⟩ fun h => absurd h hN
  · rw [objs_setData_eq, objs_setData_eq, hs.2.2.1, hs.1.dsize]
  · rw [objs_setData_eq]
    exact hs.2.2.2
  · rw [objs_setData_eq]
    exact Nat.lt_succ_self _
  · refine RelP.reads (R := Sca3 (u N)) (fun _ _ h => h.1.1) (fun h h' hs => ?_) fun S S' hS => RelP.modify fun h h' hs => ?_
    · unfold theoOf Heap.dicOf
      rw [hs.2.1, hs.2.2.1, hs.1.2.2.1, hs.1.2.2.2]
      split
      · rfl
      · exact sca_dataStokes hd _
    · refine hs.1.1.setStokes' (by rw [hs.1.2.1]; exact Nat.lt_succ_self _) ?_ hs.2.2.2 (by rw [hs.2.1, hs.2.2.1]; exact hd) rfl hS
      rw [hs.1.2.2.1, inUnit_none hs.1.2.2.2]

/-! ## Arithmetic -/

theorem un_header (hi : L i) {n : Nat} (hn : L n) :
    InP u L (M.modify fun h => h.modifyObj n (fun o => { o with header := (h.objs.cell i).header }))
      (M.modify fun h => h.modifyObj n (fun o => { o with header := (h.objs.cell i).header })) :=
  RelP.modify fun h h' hs => hs.modifyObj hn (fun o => by rw [hs.obj i hi]; rfl) (fun _ => rfl) fun _ => rfl

theorem un_arithNumber (hi : L i) (op : Arith) {junk junk' : Nat → Nat → ℝ} {c c' : ℝ}
    (hf : ∀ A B, Sca (u i) A B → PyRel (Sca (u N)) (arithData op junk A (.number c)) (arithData op junk' B (.number c'))) :
    NewP u L N (arithNumberObj op junk i c) (arithNumberObj op junk' i c') := by
  refine RelP.reads (fun _ _ h => h.1) (fun h h' hs => hf _ _ (hs.1.data i hi)) fun d d' hd =>
    RelP.bind (R := Eq) (RelP.read fun h h' hs => ?_) fun dc dc' e => ?_
  · show (h.objs.cell i).dic = (h'.objs.cell i).dic
    rw [hs.1.obj i hi]
    rfl
  · cases e
    exact RelP.new (un_newFromArray hd _) (RelP.then (un_header (inNew hi) (isNew L N)) pureNew)

theorem un_arithImage {P : Heap → Heap → Prop} (hi : L i) {j : Nat} (op : Arith) {junk junk' : Nat → Nat → ℝ}
    (hd : RelP (Sc u L) P (Sc u (withNew L N)) (IsNew N)
      (deriveObj i fun h => arithData op junk (h.dataOf i) (.image (h.dataOf j)))
      (deriveObj i fun h => arithData op junk' (h.dataOf i) (.image (h.dataOf j)))) :
    RelP (Sc u L) P (Sc u (withNew L N)) (IsNew N) (arithImageObj op junk i j) (arithImageObj op junk' i j) :=
  RelP.bind hd fun a b hab => by
    rw [hab.1, hab.2]
    exact RelP.then (un_header (inNew hi) (isNew L N)) pureNew

theorem sca_add {c : ℝ} {A A' B B' : Img ℝ} (hA : Sca c A A') (hB : Sca c B B') (junk junk' : Nat → Nat → ℝ) :
    PyRel (Sca c) (arithData .add junk A (.image B)) (arithData .add junk' A' (.image B')) :=
  sca_npBinAt (a := c) (b := c) (fun _ _ a b => by ring) hA hB

theorem sca_sub {c : ℝ} {A A' B B' : Img ℝ} (hA : Sca c A A') (hB : Sca c B B') (junk junk' : Nat → Nat → ℝ) :
    PyRel (Sca c) (arithData .sub junk A (.image B)) (arithData .sub junk' A' (.image B')) :=
  sca_npBinAt (a := c) (b := c) (fun _ _ a b => by ring) hA hB

theorem sca_mul {a b : ℝ} {A A' B B' : Img ℝ} (hA : Sca a A A') (hB : Sca b B B') (junk junk' : Nat → Nat → ℝ) :
    PyRel (Sca (a * b)) (arithData .mul junk A (.image B)) (arithData .mul junk' A' (.image B')) :=
  sca_npBinAt (a := a) (b := b) (fun _ _ a b => by ring) hA hB

theorem sca_div {a b : ℝ} (hb : b ≠ 0) {A A' B B' : Img ℝ} (hA : Sca a A A') (hB : Sca b B B') (junk : Nat → Nat → ℝ) :
    PyRel (Sca (a / b)) (arithData .div junk A (.image B)) (arithData .div (junkInUnit (a / b) junk) A' (.image B')) :=
  sca_divide hb (fun _ _ => rfl) hA hB

theorem sca_addNumber {a : ℝ} {A A' : Img ℝ} (hA : Sca a A A') (c : ℝ) (junk junk' : Nat → Nat → ℝ) :
    PyRel (Sca a) (arithData .add junk A (.number c)) (arithData .add junk' A' (.number (a * c))) :=
  hA.map fun v => by ring

theorem sca_subNumber {a : ℝ} {A A' : Img ℝ} (hA : Sca a A A') (c : ℝ) (junk junk' : Nat → Nat → ℝ) :
    PyRel (Sca a) (arithData .sub junk A (.number c)) (arithData .sub junk' A' (.number (a * c))) :=
  hA.map fun v => by ring

theorem sca_mulNumber {a : ℝ} {A A' : Img ℝ} (hA : Sca a A A') (c v : ℝ) (junk junk' : Nat → Nat → ℝ) :
    PyRel (Sca (a * v)) (arithData .mul junk A (.number c)) (arithData .mul junk' A' (.number (v * c))) :=
  Sca.ofFn' hA.h hA.w fun y x _ _ => by rw [hA.px]; ring

theorem sca_divNumber {a : ℝ} {A A' : Img ℝ} (hA : Sca a A A') (c : ℝ) {v : ℝ} (hv : v ≠ 0) (junk : Nat → Nat → ℝ) :
    PyRel (Sca (a / v)) (arithData .div junk A (.number c)) (arithData .div (junkInUnit (a / v) junk) A' (.number (v * c))) := by
  refine Sca.ofFn' hA.h hA.w fun y x _ _ => ?_
  by_cases hc : c = 0
  · rw [if_neg (by simp [hc]), if_neg (by simp [hc])]
    rfl
  · rw [if_pos (mul_ne_zero hv hc), if_pos hc, hA.px]
    field_simp

/-! ## Calls -/

/-- Corrections of the constructor. -/
theorem un_corrections {n : Nat} (hn : L n) (hpos : ∀ k, L k → 0 < u k) {junk : Nat → Nat → ℝ} {dark flat : Option Nat}
    (hd : ∀ k, dark = some k → L k ∧ u k = u n) (hf : ∀ k, flat = some k → L k) :
    InP u L (applyCorrections junk n dark flat) (applyCorrections (junkInUnit (u n) junk) n dark flat) := by
  unfold applyCorrections
  split
  · exact RelP.pure rfl
  · rename_i d
    exact un_subtractDark hn (hd d rfl).1 (hd d rfl).2 (hpos n hn)
  · rename_i f
    exact un_correctFlat hn (hf f rfl) (hpos f (hf f rfl)).ne'
  · rename_i d f
    exact RelP.bind (un_subtractDark hn (hd d rfl).1 (hd d rfl).2 (hpos n hn)) fun _ _ _ =>
      un_correctFlat hn (hf f rfl) (hpos f (hf f rfl)).ne'

variable {images : List Nat} {v : Nat → ℝ}

/-- The names refer to live objects of the right units. -/
def Names (u : Nat → ℝ) (L : Nat → Prop) (images : List Nat) (v : Nat → ℝ) : Prop :=
  ∀ p k, images[p]? = some k → L k ∧ u k = v p

theorem un_named {α β : Type} {E P Q : Heap → Heap → Prop} {R : α → β → Prop} {p : Nat} {f : Nat → M α} {g : Nat → M β}
    (hE : ∀ h h', P h h' → E h h') (hf : ∀ k, images[p]? = some k → RelP E P Q R (f k) (g k)) :
    RelP E P Q R (named images p >>= f) (named images p >>= g) := by
  unfold named
  cases hp : images[p]? with
  | none => exact fun h h' hs => ⟨rfl, fun ⟨_, h⟩ => (by cases h), fun _ => hE _ _ hs⟩
  | some k => exact hf k hp

theorem un_namedOpt {α β : Type} {E P Q : Heap → Heap → Prop} {R : α → β → Prop} {p : Option Nat} {f : Option Nat → M α}
    {g : Option Nat → M β} (hE : ∀ h h', P h h' → E h h')
    (hf : ∀ o, (∀ k, o = some k → ∃ q, p = some q ∧ images[q]? = some k) → RelP E P Q R (f o) (g o)) :
    RelP E P Q R (namedOpt images p >>= f) (namedOpt images p >>= g) := by
  unfold namedOpt
  cases p with
  | none => exact hf none fun k h => by cases h
  | some q =>
    dsimp only
    unfold named
    cases hq : images[q]? with
    | none => exact fun h h' hs => ⟨rfl, fun ⟨_, h⟩ => (by cases h), fun _ => hE _ _ hs⟩
    | some k => exact hf (some k) fun k' e => by cases e; exact ⟨q, rfl, hq⟩

/-- What a call returns: nothing, or a live object of the given unit. -/
def Result (u : Nat → ℝ) (L : Nat → Prop) (w : ℝ) : Option Nat → Option Nat → Prop :=
  fun a b => a = b ∧ ∀ n, a = some n → L n ∧ u n = w

/-- From `NewP` to the call. -/
theorem NewP.ret {P : Heap → Heap → Prop} {m m' : M Nat} (hm : RelP (Sc u L) P (Sc u (withNew L N)) (IsNew N) m m') :
    RelP (Sc u L) P (Sc u (withNew L N)) (Result u (withNew L N) (u N)) (m >>= fun n => (pure (some n) : M (Option Nat)))
      (m' >>= fun n => (pure (some n) : M (Option Nat))) :=
  RelP.bind hm fun a b hab => by
    rw [hab.1, hab.2]
    exact RelP.pure ⟨rfl, fun n e => by cases e; exact ⟨isNew L N, rfl⟩⟩

/-- From `InP` to the call; `N` stays unused. -/
theorem InP.ret {m m' : M Unit} (hm : InP u L m m') {r : Option Nat} (w : ℝ) (hr : ∀ n, r = some n → L n ∧ u n = w) :
    RelP (Sc u L) (ScN' u L N) (Sc u L) (Result u L w) (m >>= fun _ => (pure r : M (Option Nat)))
      (m' >>= fun _ => (pure r : M (Option Nat))) :=
  RelP.bind (hm.weaken (fun _ _ h => h.1) (fun _ _ h => h) fun _ _ h => h) fun _ _ _ => RelP.pure ⟨rfl, hr⟩

/-- The live objects afterwards contain the old ones. -/
def AfterU (u : Nat → ℝ) (L : Nat → Prop) (w : ℝ) (m m' : M (Option Nat)) (P : Heap → Heap → Prop) : Prop :=
  ∃ L', (∀ k, L k → L' k) ∧ (∀ k, L' k → L k ∨ u k = w) ∧ RelP (Sc u L) P (Sc u L') (Result u L' w) m m'

theorem AfterU.of_new {P : Heap → Heap → Prop} {m m' : M (Option Nat)} (hu : u N = v images.length)
    (hm : RelP (Sc u L) P (Sc u (withNew L N)) (Result u (withNew L N) (u N)) m m') : AfterU u L (v images.length) m m' P :=
  ⟨withNew L N, fun _ h => Or.inr h, fun k hk => hk.elim (fun e => Or.inr (by rw [e]; exact hu)) Or.inl, by rw [← hu]; exact hm⟩

theorem AfterU.of_in {P : Heap → Heap → Prop} {m m' : M (Option Nat)}
    (hm : RelP (Sc u L) P (Sc u L) (Result u L (v images.length)) m m') : AfterU u L (v images.length) m m' P :=
  ⟨L, fun _ h => h, fun _ h => Or.inl h, hm⟩

theorem un_exec {h h' : Heap} (hpos : ∀ p, 0 < v p) (hnames : Names u L images v) (hN : ¬ L N) (huN : u N = v images.length)
    (hposL : ∀ k, L k → 0 < u k) {o o' : Op} (hr : Rescaled v ⟨h, images⟩ o o') (hs : ScN' u L N h h') :
    AfterU u L (v images.length) (exec images o) (exec images o') fun k k' => k = h ∧ k' = h' := by
  have hP : ∀ k k' : Heap, (k = h ∧ k' = h') → ScN' u L N k k' := by
    rintro k k' ⟨rfl, rfl⟩; exact hs
  have hE : ∀ k k' : Heap, (k = h ∧ k' = h') → Sc u L k k' := fun k k' e => (hP k k' e).1
  have hE' : ∀ k k', ScN' u L N k k' → Sc u L k k' := fun _ _ h => h.1
  -- a new image from a named one
  have nu : ∀ {p : Nat} {f g : Nat → M Nat}, (∀ k, images[p]? = some k → NewP u L N (f k) (g k)) →
      AfterU u L (v images.length) (named images p >>= fun k => f k >>= fun n => pure (some n))
        (named images p >>= fun k => g k >>= fun n => pure (some n)) fun k k' => k = h ∧ k' = h' := fun {p f g} hf =>
    AfterU.of_new huN ((un_named hE' fun k hk => NewP.ret (hf k hk)).weaken hP (fun _ _ h => h) fun _ _ h => h)
  have npos : ∀ k, withNew L N k → 0 < u k := by
    rintro k (e | hk)
    · rw [e, huN]; exact hpos _
    · exact hposL k hk
  cases hr with
  | setDefault dic =>
    exact AfterU.of_in (RelP.bind (Q := Sc u L) (RelP.modify fun k k' e => by
      obtain ⟨rfl, rfl⟩ := e
      exact ⟨hs.1.headers, rfl, hs.1.osize, hs.1.dsize, hs.1.ssize, hs.1.live, hs.1.refd, hs.1.refs, hs.1.obj,
        hs.1.data, hs.1.list, hs.1.map, hs.1.share, hs.1.lists⟩) fun _ _ _ => RelP.pure ⟨rfl, fun n e => by cases e⟩)
  | fromArray d dic dark flat junk hdark =>
    change ∀ k, dark = some k → v k = v images.length at hdark
    refine AfterU.of_new huN (RelP.weaken (P := ScN' u L N) (Q := Sc u (withNew L N)) (E := Sc u L) ?_ hP (fun _ _ h => h)
      fun _ _ h => h)
    refine un_namedOpt hE' fun dk hdk => un_namedOpt hE' fun fl hfl => RelP.new (un_newFromArray ?_ dic) (RelP.then ?_ ?_)
    · rw [huN]
      exact sca_inUnit _ d
    · have := un_corrections (junk := junk) (dark := dk) (flat := fl) (isNew L N) npos (fun k e => ?_) fun k e => ?_
      · rw [huN] at this
        exact this
      · obtain ⟨q, hq, hk⟩ := hdk k e
        exact ⟨inNew (hnames q k hk).1, by rw [(hnames q k hk).2, hdark q hq, huN]⟩
      · obtain ⟨q, hq, hk⟩ := hfl k e
        exact inNew (hnames q k hk).1
    · exact RelP.pure ⟨rfl, fun n e => by cases e; exact ⟨isNew L N, rfl⟩⟩
  | fromImage i dic dark flat junk hu hdark =>
    change v images.length = v i at hu
    refine AfterU.of_new huN ?_
    refine (un_named (P := ScN' u L N) hE' fun k hk => un_namedOpt hE' fun dk hdk => un_namedOpt hE' fun fl hfl =>
      RelP.new (un_newFromImage (hnames i k hk).1 (by rw [huN, hu, (hnames i k hk).2]) dic) (RelP.then ?_ ?_)).weaken hP
      (fun _ _ h => h) fun _ _ h => h
    · have := un_corrections (junk := junk) (dark := dk) (flat := fl) (isNew L N) npos (fun k e => ?_) fun k e => ?_
      · rw [huN, hu] at this
        exact this
      · obtain ⟨q, hq, hk⟩ := hdk k e
        exact ⟨inNew (hnames q k hk).1, by rw [(hnames q k hk).2, hdark q hq, huN, hu]⟩
      · obtain ⟨q, hq, hk⟩ := hfl k e
        exact inNew (hnames q k hk).1
    · exact RelP.pure ⟨rfl, fun n e => by cases e; exact ⟨isNew L N, rfl⟩⟩
  | rebin i b hu => exact nu fun k hk => un_rebin (hnames i k hk).1 (by rw [huN, (hnames i k hk).2]; exact hu) b
  | congrid i ny nx hu => exact nu fun k hk => un_congrid (hnames i k hk).1 (by rw [huN, (hnames i k hk).2]; exact hu) ny nx
  | rotate i rot hu hom =>
    exact nu fun k hk => un_rotate (hnames i k hk).1 (by rw [huN, (hnames i k hk).2]; exact hu) (by rw [(hnames i k hk).2]; exact hom)
  | demodulate i D dem hu =>
    exact nu fun k hk => un_demodulate (hnames i k hk).1 (by rw [huN, (hnames i k hk).2]; exact hu) D dem
  | shift i y x m hu =>
    refine nu fun k hk => un_derive (hnames i k hk).1 (by rw [huN, (hnames i k hk).2]; exact hu) fun h h' hs =>
      sca_shift (hs.data k (hnames i k hk).1) y x ?_
    rw [(hnames i k hk).2]
    rfl
  | cleanHotPixels i f med hu hflags hom =>
    refine AfterU.of_new huN ((un_named hE' fun k hk => un_named hE' fun f' hf => NewP.ret (un_derive (hnames i k hk).1
      (by rw [huN, (hnames i k hk).2]; exact hu) fun h h' hs => ?_)).weaken hP (fun _ _ h => h) fun _ _ h => h)
    have e : h'.dataOf f' = h.dataOf f' := by
      have := (hs.data f' (hnames f f' hf).1).eq
      rw [(hnames f f' hf).2, hflags] at this
      rw [this]
      refine Img.ext_px rfl rfl fun y x hy hx => ?_
      exact (Img.map_px (fun x => 1 * x) (h.dataOf f') hy hx).trans (one_mul _)
    rw [e]
    refine sca_clean (fun A B hA => ?_) (hs.data k (hnames i k hk).1) _
    rw [(hnames i k hk).2] at hA ⊢
    rw [hA.eq, hom]
    exact sca_inUnit _ _
  | addImage i j junk junk' hu hj =>
    refine AfterU.of_new huN ((un_named hE' fun k hk => un_named hE' fun l hl => NewP.ret (un_arithImage (hnames i k hk).1 .add
      (un_derive (hnames i k hk).1 (by rw [huN, (hnames i k hk).2]; exact hu) fun h h' hs => ?_))).weaken hP (fun _ _ h => h)
      fun _ _ h => h)
    have := hs.data l (hnames j l hl).1
    rw [(hnames j l hl).2, hj, ← (hnames i k hk).2] at this
    exact sca_add (hs.data k (hnames i k hk).1) this _ _
  | subImage i j junk junk' hu hj =>
    refine AfterU.of_new huN ((un_named hE' fun k hk => un_named hE' fun l hl => NewP.ret (un_arithImage (hnames i k hk).1 .sub
      (un_derive (hnames i k hk).1 (by rw [huN, (hnames i k hk).2]; exact hu) fun h h' hs => ?_))).weaken hP (fun _ _ h => h)
      fun _ _ h => h)
    have := hs.data l (hnames j l hl).1
    rw [(hnames j l hl).2, hj, ← (hnames i k hk).2] at this
    exact sca_sub (hs.data k (hnames i k hk).1) this _ _
  | mulImage i j junk junk' hu hdem =>
    refine AfterU.of_new huN (un_named hE fun k hk => un_named hE fun l hl => NewP.ret ?_)
    refine (un_arithImage (hnames i k hk).1 .mul (un_deriveUnit (hnames i k hk).1 hN fun h h' hs => ?_)).weaken
      (fun a b e => ⟨hP a b e, by rw [e.1]; exact hdem k hk⟩) (fun _ _ h => h) fun _ _ h => h
    have hu : v images.length = v i * v j := hu
    rw [huN, hu, ← (hnames i k hk).2, ← (hnames j l hl).2]
    exact sca_mul (hs.data k (hnames i k hk).1) (hs.data l (hnames j l hl).1) _ _
  | divImage i j junk hu hdem =>
    refine AfterU.of_new huN (un_named hE fun k hk => un_named hE fun l hl => NewP.ret ?_)
    refine (un_arithImage (hnames i k hk).1 .div (un_deriveUnit (hnames i k hk).1 hN fun h h' hs => ?_)).weaken
      (fun a b e => ⟨hP a b e, by rw [e.1]; exact hdem k hk⟩) (fun _ _ h => h) fun _ _ h => h
    have hu : v images.length = v i / v j := hu
    rw [huN, hu, ← (hnames i k hk).2, ← (hnames j l hl).2]
    exact sca_div (hposL l (hnames j l hl).1).ne' (hs.data k (hnames i k hk).1) (hs.data l (hnames j l hl).1) _
  | addNumber i c junk junk' hu =>
    refine nu fun k hk => un_arithNumber (hnames i k hk).1 .add fun A B hA => ?_
    rw [huN, show v images.length = v i from hu, ← (hnames i k hk).2]
    exact sca_addNumber hA c _ _
  | subNumber i c junk junk' hu =>
    refine nu fun k hk => un_arithNumber (hnames i k hk).1 .sub fun A B hA => ?_
    rw [huN, show v images.length = v i from hu, ← (hnames i k hk).2]
    exact sca_subNumber hA c _ _
  | mulNumber i c w junk junk' hu =>
    refine nu fun k hk => un_arithNumber (hnames i k hk).1 .mul fun A B hA => ?_
    rw [huN, show v images.length = v i * w from hu, ← (hnames i k hk).2]
    exact sca_mulNumber hA c w _ _
  | divNumber i c w junk hw hu =>
    refine nu fun k hk => un_arithNumber (hnames i k hk).1 .div fun A B hA => ?_
    rw [huN, show v images.length = v i / w from hu, ← (hnames i k hk).2]
    exact sca_divNumber hA c hw _
  | demosaic i mode hu =>
    refine AfterU.of_in ((un_named hE' fun k hk => (un_demosaic (hnames i k hk).1 mode).ret _ fun n e => ?_).weaken hP (fun _ _ h => h)
      fun _ _ h => h)
    cases e
    exact ⟨(hnames i k hk).1, by rw [(hnames i k hk).2]; exact hu.symm⟩
  | subtractDark i d hu hdark =>
    refine AfterU.of_in ((un_named hE' fun k hk => un_named hE' fun l hl => (un_subtractDark (hnames i k hk).1 (hnames d l hl).1
      (by rw [(hnames i k hk).2, (hnames d l hl).2, hdark]) (hposL k (hnames i k hk).1)).ret _ fun n e => ?_).weaken hP (fun _ _ h => h)
      fun _ _ h => h)
    cases e
    exact ⟨(hnames i k hk).1, by rw [(hnames i k hk).2]; exact hu.symm⟩
  | correctFlat i f junk hu =>
    refine AfterU.of_in ((un_named hE' fun k hk => un_named hE' fun l hl => InP.ret (m := Micropol.correctFlat junk k l)
      (m' := Micropol.correctFlat (junkInUnit (v i) junk) k l) ?_ _ fun n e => ?_).weaken hP (fun _ _ h => h) fun _ _ h => h)
    · rw [← (hnames i k hk).2]
      exact un_correctFlat (hnames i k hk).1 (hnames f l hl).1 (hposL l (hnames f l hl).1).ne'
    · cases e
      exact ⟨(hnames i k hk).1, by rw [(hnames i k hk).2]; exact hu.symm⟩
  | correctIfov i hu =>
    refine AfterU.of_in ((un_named hE' fun k hk => (un_correctIfov (hnames i k hk).1).ret _ fun n e => ?_).weaken hP (fun _ _ h => h)
      fun _ _ h => h)
    cases e
    exact ⟨(hnames i k hk).1, by rw [(hnames i k hk).2]; exact hu.symm⟩
  | maskOcculter i y x r over fill =>
    refine AfterU.of_in ((un_named hE' fun k hk => (un_maskOcculter (hnames i k hk).1 y x r over ?_).ret _ fun n e => ?_).weaken hP
      (fun _ _ h => h) fun _ _ h => h)
    · rw [(hnames i k hk).2]
      rfl
    · cases e

/-! ## Sessions -/

/-- The invariant of two sessions. -/
def UnitInv (v : Nat → ℝ) (s t : State) : Prop :=
  ∃ (u : Nat → ℝ) (L : Nat → Prop), Sc u L s.heap t.heap ∧ t.images = s.images ∧ Names u L s.images v ∧ ∀ k, L k → 0 < u k

theorem unit_init : UnitInv v initState initState :=
  ⟨fun _ => 1, fun _ => False, ⟨rfl, rfl, rfl, rfl, rfl, fun _ h => h.elim, fun _ h => h.elim, fun _ h => h.elim, fun _ h => h.elim,
    fun _ h => h.elim, fun _ h => h.elim, fun _ h => h.elim, fun _ _ h => h.elim, fun _ => rfl⟩, rfl, fun p k h => (by cases h), fun _ h => h.elim⟩

theorem unit_step (hpos : ∀ p, 0 < v p) {s t : State} (hs : UnitInv v s t) {o o' : Op} (hr : Rescaled v s o o') :
    (exec t.images o' t.heap).1 = (exec s.images o s.heap).1 ∧ UnitInv v (step s o) (step t o') := by
  obtain ⟨u0, L, hsc, him, hn, hp⟩ := hs
  -- the unit of the next object
  obtain ⟨u, hu⟩ : ∃ u : Nat → ℝ, u = fun k => if k = s.heap.objs.size then v s.images.length else u0 k := ⟨_, rfl⟩
  have hne : ¬ L s.heap.objs.size := fun h => Nat.lt_irrefl _ (hsc.live _ h)
  have huL : ∀ k, L k → u k = u0 k := fun k hk => by
    rw [hu]
    exact if_neg (Nat.ne_of_lt (hsc.live k hk))
  have huN : u s.heap.objs.size = v s.images.length := by
    rw [hu]
    exact if_pos rfl
  have hsc := hsc.congr huL
  have hn : Names u L s.images v := fun p k hk => ⟨(hn p k hk).1, by rw [huL k (hn p k hk).1]; exact (hn p k hk).2⟩
  have hp : ∀ k, L k → 0 < u k := fun k hk => by rw [huL k hk]; exact hp k hk
  obtain ⟨L', hL, hL', hrel⟩ := un_exec (h := s.heap) (h' := t.heap) (N := s.heap.objs.size) hpos hn hne huN hp
    (o := o) (o' := o') (by exact hr) ⟨hsc, rfl⟩
  obtain ⟨h1, h2, h3⟩ := hrel s.heap t.heap ⟨rfl, rfl⟩
  have hp' : ∀ k, L' k → 0 < u k := fun k hk => (hL' k hk).elim (hp k) fun e => by rw [e]; exact hpos _
  rw [him]
  unfold step
  rw [him]
  cases hx : exec s.images o s.heap with
  | mk a k =>
    cases hy : exec s.images o' t.heap with
    | mk b k' =>
      rw [hx, hy] at h1 h2 h3
      cases a with
      | error e =>
        cases b with
        | ok r => cases h1
        | error e' =>
          cases h1
          exact ⟨rfl, u, L, h3 ⟨e, rfl⟩, rfl, hn, hp⟩
      | ok r =>
        cases b with
        | error e' => cases h1
        | ok r' =>
          obtain ⟨e, hres⟩ := h1
          cases e
          refine ⟨rfl, ?_⟩
          have hsc' := h2 ⟨r, rfl⟩
          cases r with
          | none => exact ⟨u, L', hsc', rfl, fun p k hk => ⟨hL k (hn p k hk).1, (hn p k hk).2⟩, hp'⟩
          | some n =>
            refine ⟨u, L', hsc', rfl, fun p k hk => ?_, hp'⟩
            have hk : (s.images ++ [n])[p]? = some k := hk
            rcases Nat.lt_trichotomy p s.images.length with hlt | heq | hgt
            · rw [List.getElem?_append_left hlt] at hk
              exact ⟨hL k (hn p k hk).1, (hn p k hk).2⟩
            · subst heq
              rw [List.getElem?_append_right (Nat.le_refl _), Nat.sub_self] at hk
              cases hk
              exact hres n rfl
            · rw [List.getElem?_eq_none (by rw [List.length_append]; simpa using hgt)] at hk
              cases hk

theorem unit_run (hpos : ∀ p, 0 < v p) (l : List (Op × Op)) (hl : RescaledSession v l) :
    UnitInv v (runOps (l.map Prod.fst)) (runOps (l.map Prod.snd)) := by
  induction l using List.reverseRecOn with
  | nil => exact unit_init
  | append_singleton l p ih =>
    have h1 : RescaledSession v l := by
      intro k o o' hk
      have hlt : k < l.length := (List.getElem?_eq_some_iff.mp hk).1
      have := hl k o o' (by rw [List.getElem?_append_left hlt]; exact hk)
      rwa [List.take_append_of_le_length hlt.le] at this
    have h2 : Rescaled v (runOps (l.map Prod.fst)) p.1 p.2 := by
      have := hl l.length p.1 p.2 (by rw [List.getElem?_append_right (Nat.le_refl _), Nat.sub_self]; rfl)
      rwa [List.take_append_of_le_length (Nat.le_refl _), List.take_length] at this
    rw [List.map_append, List.map_append]
    unfold runOps
    rw [List.foldl_append, List.foldl_append]
    exact (unit_step hpos (ih h1) h2).2

theorem UnitInv.same {s t : State} (h : UnitInv v s t) : SameUpToUnits v s t := by
  obtain ⟨u, L, hsc, him, hn, hp⟩ := h
  refine ⟨him, fun p k hk => ?_⟩
  obtain ⟨hL, hu⟩ := hn p k hk
  rw [← hu]
  refine ⟨(hsc.data k hL).eq, fun q => (hsc.map k hL q).eq, ?_, ?_, hsc.obj k hL⟩
  · show t.heap.headers.cell (t.heap.objs.cell k).header = s.heap.headers.cell (s.heap.objs.cell k).header
    rw [hsc.headers, hsc.obj k hL]
    rfl
  · show (t.heap.objs.cell k).dic = (s.heap.objs.cell k).dic
    rw [hsc.obj k hL]
    rfl

end

end Micropol

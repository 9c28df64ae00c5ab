import Verif.Lemmas.NearData
import Verif.Spec.StabilityMaps
import Verif.Lemmas.ObjectExec

/-! # What calls make of images that differ a little -/

set_option autoImplicit false
set_option linter.unusedSectionVars false

namespace Micropol

noncomputable section

/-- Both absent, or both present and close. -/
def NrOpt (ε : ℝ) : Option (Fin 4 → Img ℝ) → Option (Fin 4 → Img ℝ) → Prop
  | none, none => True
  | some s, some t => Nr4 ε s t
  | _, _ => False

theorem NrOpt.mono {ε δ : ℝ} (hε : ε ≤ δ) {a b : Option (Fin 4 → Img ℝ)} (h : NrOpt ε a b) : NrOpt δ a b := by
  cases a <;> cases b
  · trivial
  · exact h
  · exact h
  · exact Nr4.mono h hε

/-- Images that differ by at most `e` in pixels and `f` in maps. -/
structure Vc (e f : ℝ) (v w : ImgView) : Prop where
  data : Nr e v.data w.data
  dic : w.dic = v.dic
  dm : w.isDemosaiced = v.isDemosaiced
  dd : w.isDemodulated = v.isDemodulated
  ds : w.darkSubtracted = v.darkSubtracted
  fs : w.flatSubtracted = v.flatSubtracted
  dem : NrOpt e v.demosaicedImages w.demosaicedImages
  isList : w.stokes.isList = v.stokes.isList
  maps : Nr3 f v.stokes.planes w.stokes.planes

variable {e f δ φ : ℝ} {v w : ImgView}

theorem Vc.mono (h : Vc e f v w) (he : e ≤ δ) (hf : f ≤ φ) : Vc δ φ v w :=
  { h with data := h.data.mono he, dem := h.dem.mono he, maps := h.maps.mono hf }

/-- Pixels from one bound, maps from another. -/
theorem Vc.mix {e' f' : ℝ} (h : Vc e f v w) (k : Vc e' f' v w) : Vc e f' v w := { h with maps := k.maps }

theorem Vc.withData (h : Vc e f v w) (he : e ≤ δ) {d d' : Img ℝ} (hd : Nr δ d d') : Vc δ f { v with data := d } { w with data := d' } :=
  { h with data := hd, dem := h.dem.mono he }

theorem Vc.withStokes (h : Vc e f v w) {S S' : Fin 3 → Img ℝ} (hS : Nr3 φ S S') (b : Bool) :
    Vc e φ { v with stokes := ⟨S, b⟩ } { w with stokes := ⟨S', b⟩ } :=
  { h with isList := rfl, maps := hS }

/-- Results of calls. -/
def Rc (P Q : ImgView → ImgView → Prop) (r r' : Py Unit × ImgView) : Prop :=
  r'.1 = r.1 ∧ (r.1 = .ok () → Q r.2 r'.2) ∧ ∀ x, r.1 = .error x → P r.2 r'.2

section
variable {P Q R : ImgView → ImgView → Prop}

theorem Rc.ok (h : Q v w) : Rc P Q (.ok (), v) (.ok (), w) := ⟨rfl, fun _ => h, fun x hx => by cases hx⟩

theorem Rc.err (h : P v w) (x : PyErr) : Rc P Q (.error x, v) (.error x, w) := ⟨rfl, fun hx => (by cases hx), fun _ _ => h⟩

theorem Rc.weaken {P' Q' : ImgView → ImgView → Prop} {r r' : Py Unit × ImgView} (h : Rc P Q r r') (hP : ∀ a b, P a b → P' a b)
    (hQ : ∀ a b, Q a b → Q' a b) : Rc P' Q' r r' := ⟨h.1, fun hx => hQ _ _ (h.2.1 hx), fun x hx => hP _ _ (h.2.2 x hx)⟩

theorem Rc.withVal {α β : Type} {T : α → β → Prop} {x : Py α} {y : Py β} {g : α → Py Unit × ImgView} {g' : β → Py Unit × ImgView}
    (hx : PyRel T x y) (hv : P v w) (hg : ∀ a b, T a b → Rc P Q (g a) (g' b)) : Rc P Q (withVal x v g) (withVal y w g') := by
  cases x with
  | error a =>
    cases y with
    | error b =>
      have : a = b := hx
      subst this
      exact Rc.err hv a
    | ok b => exact absurd hx (by intro h; exact h)
  | ok a =>
    cases y with
    | error b => exact absurd hx (by intro h; exact h)
    | ok b => exact hg a b hx

theorem Rc.andThen {r r' : Py Unit × ImgView} {g g' : ImgView → Py Unit × ImgView} (h : Rc P R r r')
    (hg : ∀ a b, R a b → Rc P Q (g a) (g' b)) : Rc P Q (andThen r g) (andThen r' g') := by
  obtain ⟨a, a2⟩ := r
  obtain ⟨b, b2⟩ := r'
  obtain ⟨h1, h2, h3⟩ := h
  dsimp only at h1 h2 h3
  subst h1
  cases b with
  | error x => exact Rc.err (h3 x rfl) x
  | ok u => exact hg _ _ (h2 rfl)

end

/-! ## Parts of calls -/

theorem vc_theo (h : Vc e f v w) : PyRel (Nr3 (2 * e)) (theoV v) (theoV w) := by
  have hd := h.dem
  unfold theoV
  rw [h.dm, h.dic]
  split
  · generalize v.demosaicedImages = a at hd
    generalize w.demosaicedImages = b at hd
    cases a <;> cases b
    · rfl
    · exact hd.elim
    · exact hd.elim
    · exact nr_theo hd _
  · exact nr_dataStokes h.data _

theorem vc_updateStokes (h : Vc e f v w) : Rc (Vc e f) (Vc e (2 * e)) (updateStokesV v) (updateStokesV w) :=
  Rc.withVal (vc_theo h) h fun _ _ hS => Rc.ok (h.withStokes hS false)

/-- The data replaced, then the maps computed. -/
theorem vc_update (h : Vc e f v w) (he : e ≤ δ) {x y : Py (Img ℝ)} (hx : PyRel (Nr δ) x y) :
    Rc (Vc δ f) (Vc δ (2 * δ)) (withVal x v fun d => updateDataAndStokesV d v) (withVal y w fun d => updateDataAndStokesV d w) :=
  Rc.withVal hx (h.mono he le_rfl) fun _ _ hd => vc_updateStokes (h.withData he hd)

theorem PyRel.mono' {α β : Type} {R T : α → β → Prop} {x : Py α} {y : Py β} (h : PyRel R x y) (hRT : ∀ a b, R a b → T a b) : PyRel T x y := by
  cases x <;> cases y
  · exact h
  · exact h
  · exact h
  · exact hRT _ _ h

theorem vc_dark (h : Vc e f v w) {η : ℝ} {D D' : Img ℝ} (hD : Nr η D D') :
    Rc (Vc (e + η) f) (Vc (e + η) (2 * (e + η))) (subtractDarkV D v) (subtractDarkV D' w) := by
  have he : e ≤ e + η := by linarith [hD.pos]
  refine Rc.withVal (nr_dark h.data hD) (h.mono he le_rfl) fun _ _ hd => ?_
  exact Rc.andThen (R := Vc (e + η) (2 * (e + η))) (vc_updateStokes (h.withData he hd)) fun a b hab =>
    Rc.ok { hab with ds := rfl }

theorem vc_flat (h : Vc e f v w) {G : ℝ} (hG : 0 ≤ G) {F : Img ℝ}
    (hF : ∀ y x, y < F.h → x < F.w → F.px y x ≠ 0 ∧ |F.mean| ≤ G * |F.px y x|) (junk junk' : Nat → Nat → ℝ) :
    Rc (Vc (max e (G * e)) f) (Vc (max e (G * e)) (2 * max e (G * e))) (correctFlatV junk F v) (correctFlatV junk' F w) := by
  refine Rc.withVal ((nr_flat (junk := junk) (junk' := junk') hG h.data hF).mono' fun _ _ h => h.mono (le_max_right e _))
    (h.mono (le_max_left _ _) le_rfl) fun _ _ hd => ?_
  exact Rc.andThen (R := Vc (max e (G * e)) (2 * max e (G * e))) (vc_updateStokes (h.withData (le_max_left _ _) hd)) fun a b hab =>
    Rc.ok { hab with fs := rfl }

theorem vc_demosaic (h : Vc e f v w) (mode : String) : Rc (Vc e f) (Vc e (2 * e)) (demosaicV mode v) (demosaicV mode w) :=
  Rc.withVal (nr_demosaic h.data mode) h fun _ _ hs => vc_updateStokes { h with dm := rfl, dem := hs }

theorem vc_congrid (h : Vc e f v w) (ny nx : Nat) : Rc (Vc e f) (Vc e f) (congridV ny nx v) (congridV ny nx w) :=
  Rc.withVal (nr_congridData h.data _ _) h fun _ _ hd => Rc.withVal (nr_congrid (h.maps 0) _ _) h fun _ _ h0 =>
  Rc.withVal (nr_congrid (h.maps 1) _ _) h fun _ _ h1 => Rc.withVal (nr_congrid (h.maps 2) _ _) h fun _ _ h2 =>
  Rc.ok ((h.withData le_rfl hd).withStokes (Nr3.mk h0 h1 h2) true)

theorem vc_demodulatePlain (h : Vc e f v w) {D : Demodulator ℝ} {K : ℝ} (hK : MatrixGain D K) :
    Rc (Vc e f) (Vc e (max (K * e) f)) (demodulateV D false v) (demodulateV D false w) :=
  Rc.withVal (nr_demodulatePlain h.data h.maps hK) h fun _ _ hS => Rc.ok { h with isList := rfl, maps := hS, dd := rfl }

theorem vc_demodulateDemosaicing (h : Vc e f v w) {D : Demodulator ℝ} {K : ℝ} (hK : MatrixGain D K) :
    Rc (fun _ _ => True) (Vc e (max (K * e) (2 * e))) (demodulateV D true v) (demodulateV D true w) := by
  refine Rc.andThen (R := Vc e (2 * e)) ((vc_demosaic h "adjacent").weaken (fun _ _ _ => trivial) fun _ _ h => h) fun a b hab => ?_
  refine Rc.withVal (T := Nr3 (max (K * e) (2 * e))) ?_ trivial fun _ _ hS => Rc.ok { hab with isList := rfl, maps := hS, dd := rfl }
  rw [hab.dic]
  exact nr_demodulateDemosaicing hab.data _ hK

end

end Micropol

import Verif.Lemmas.NearMore
import Verif.Lemmas.NearRefs
import Verif.Props.StabilitySession

/-! # Sessions with errors, call by call -/

set_option autoImplicit false
set_option linter.unusedSectionVars false

namespace Micropol

noncomputable section

/-- The two sessions know the same names, in the same way, and the images are close. -/
structure Nearby (e f : Nat → ℝ) (s t : State) : Prop where
  len : t.images.length = s.images.length
  names : ∀ p q, p < s.images.length → q < s.images.length → (s.images[p]? = s.images[q]? ↔ t.images[p]? = t.images[q]?)
  refs : SameRefs s t
  views : ∀ p k k', s.images[p]? = some k → t.images[p]? = some k' → Vc (e p) (f p) (s.heap.view k) (t.heap.view k')

variable {e e' f f' : Nat → ℝ} {s t : State} {o o' : Op}

theorem Nearby.both (h : Nearby e f s t) (j : Nat) :
    (s.images[j]? = none ∧ t.images[j]? = none) ∨ ∃ k k', s.images[j]? = some k ∧ t.images[j]? = some k' := by
  by_cases hj : j < s.images.length
  · obtain ⟨k, hk⟩ := some_of_lt hj
    obtain ⟨k', hk'⟩ := some_of_lt (show j < t.images.length by rw [h.len]; exact hj)
    exact .inr ⟨k, k', hk, hk'⟩
  · exact .inl ⟨List.getElem?_eq_none (by omega), List.getElem?_eq_none (by rw [h.len]; omega)⟩

/-- Views of images a call does not work on. -/
theorem step_view_same (hv : Valid s) (hw : o.writesStokes = false) {k : Nat} (hk : k ∈ s.images) (hW : ¬ o.W s k) :
    (step s o).heap.view k = s.heap.view k := by
  rcases step_view_old hv o (hv.2 k hk) hW with h | ⟨h, -⟩
  · exact h
  · rw [hw] at h; cases h

theorem step_images_err {x : PyErr} (h : (exec s.images o s.heap).1 = .error x) : (step s o).images = s.images := by
  rcases step_images s o with h' | ⟨n, hn, -⟩
  · exact h'
  · rw [h] at hn; cases hn

theorem step_images_ok {n : Nat} (h : (exec s.images o s.heap).1 = .ok (some n)) : (step s o).images = s.images ++ [n] := by
  unfold step
  split
  · rename_i m hh hx
    rw [hx] at h
    injection h with h
    injection h with h
    rw [h]
  · rename_i hx
    rw [hx] at h
    cases h
  · rename_i hx
    rw [hx] at h
    cases h

/-- Views of images after a call on a name that does not exist. -/
theorem step_view_nobody (hv : Valid s) (hn : ∀ k, ¬ o.CalledOn s k) {k : Nat} (hk : k ∈ s.images) :
    (step s o).heap.view k = s.heap.view k := by
  rcases step_view_old hv o (hv.2 k hk) fun h => hn k h.2 with h | ⟨-, r, h, -⟩
  · exact h
  · exact absurd h (hn r)

/-- Old names after a call that returns no image. -/
theorem Nearby.nothingCore (h : Nearby e f s t) (hs : (step s o).images = s.images) (ht : (step t o').images = t.images)
    (ms : ∀ k ∈ s.images, maps (step s o) k = maps s k) (mt : ∀ k ∈ t.images, maps (step t o') k = maps t k)
    (hold : ∀ p k k', s.images[p]? = some k → t.images[p]? = some k' → Vc (e' p) (f' p) ((step s o).heap.view k) ((step t o').heap.view k')) :
    Nearby e' f' (step s o) (step t o') := by
  refine ⟨by rw [hs, ht, h.len], by rw [hs, ht]; exact h.names, h.refs.same hs ht ms mt, fun p k k' hk hk' => ?_⟩
  rw [hs] at hk
  rw [ht] at hk'
  exact hold p k k' hk hk'

/-- Calls that return no image and change no old one. -/
theorem Nearby.nothing (h : Nearby e f s t) (he : Kept s e e') (hf : Kept s f f')
    (hs : (step s o).images = s.images) (ht : (step t o').images = t.images)
    (ms : ∀ k ∈ s.images, maps (step s o) k = maps s k) (mt : ∀ k ∈ t.images, maps (step t o') k = maps t k)
    (ds : ∀ k ∈ s.images, (step s o).heap.view k = s.heap.view k) (dt : ∀ k ∈ t.images, (step t o').heap.view k = t.heap.view k) :
    Nearby e' f' (step s o) (step t o') := by
  refine h.nothingCore hs ht ms mt fun p k k' hk hk' => ?_
  rw [ds k (List.mem_of_getElem? hk), dt k' (List.mem_of_getElem? hk')]
  exact (h.views p k k' hk hk').mono (he p (lt_of_some hk)) (hf p (lt_of_some hk))

/-- Calls that return a new image. -/
theorem Nearby.newCore (h : Nearby e f s t) (hv : Valid s) (hv' : Valid t) {δ φ : ℝ} (hd : δ ≤ e' s.images.length) (hφ : φ ≤ f' s.images.length)
    (hin : o.inPlace = false) (hin' : o'.inPlace = false) (hsh : o'.sharesMaps = o.sharesMaps) {src : Option Nat} (hsrc : o.source = src) (hsrc' : o'.source = src)
    (hx : src = none ∨ ∃ i k k', src = some i ∧ s.images[i]? = some k ∧ t.images[i]? = some k')
    {r r' : Py Unit × ImgView} (c : NewCall o s r) (c' : NewCall o' t r') (hr : Rc (fun _ _ => True) (Vc δ φ) r r')
    (hold : ∀ p k k', s.images[p]? = some k → t.images[p]? = some k' → Vc (e' p) (f' p) ((step s o).heap.view k) ((step t o').heap.view k')) :
    Nearby e' f' (step s o) (step t o') := by
  have hW : ∀ k, ¬ o.W s k := fun k hh => Bool.false_ne_true (hin.symm.trans hh.1)
  have hW' : ∀ k, ¬ o'.W t k := fun k hh => Bool.false_ne_true (hin'.symm.trans hh.1)
  obtain ⟨c1, c2⟩ := c
  obtain ⟨c1', c2'⟩ := c'
  obtain ⟨r1, r2, -⟩ := hr
  rw [r1] at c1' c2'
  cases hx' : r.1 with
  | error x =>
    rw [hx'] at c1 c1'
    exact h.nothingCore (step_images_err c1) (step_images_err c1')
      (fun k hk => step_maps_same hv hk (hW k)) (fun k hk => step_maps_same hv' hk (hW' k)) hold
  | ok u =>
    rw [hx'] at c1 c1' r2 c2 c2'
    have hs := step_images_ok c1
    have ht := step_images_ok c1'
    have v1 := c2 rfl
    have v1' := c2' rfl
    rw [← step_heap] at v1 v1'
    refine ⟨by rw [hs, ht, List.length_append, List.length_append, h.len]; rfl, ?_,
      h.refs.new h.len hv hv' hin hin' hsh hsrc hsrc' hx c1 c1' hs ht, fun p k k' hk hk' => ?_⟩
    · rw [hs, ht]
      exact append_names h.len h.names fun p hp => ⟨fun hk => absurd (hv.2 _ (List.mem_of_getElem? hk)) (lt_irrefl _),
        fun hk => absurd (hv'.2 _ (List.mem_of_getElem? hk)) (lt_irrefl _)⟩
    · rw [hs] at hk
      rw [ht] at hk'
      by_cases hp : p < s.images.length
      · rw [List.getElem?_append_left hp] at hk
        rw [List.getElem?_append_left (by rw [h.len]; exact hp)] at hk'
        exact hold p k k' hk hk'
      · have hl := lt_of_some hk
        rw [List.length_append, List.length_singleton] at hl
        have : p = s.images.length := by omega
        subst this
        rw [List.getElem?_concat_length] at hk
        rw [← h.len, List.getElem?_concat_length] at hk'
        injection hk with hk
        injection hk' with hk'
        subst hk hk'
        rw [v1, v1']
        exact (r2 rfl).mono hd hφ

theorem Nearby.new (h : Nearby e f s t) (hv : Valid s) (hv' : Valid t) {δ φ : ℝ} (hn : NewError s e e' f f' δ φ)
    (hin : o.inPlace = false) (hin' : o'.inPlace = false) (hw : o.writesStokes = false) (hw' : o'.writesStokes = false)
    (hsh : o'.sharesMaps = o.sharesMaps) {src : Option Nat} (hsrc : o.source = src) (hsrc' : o'.source = src)
    (hx : src = none ∨ ∃ i k k', src = some i ∧ s.images[i]? = some k ∧ t.images[i]? = some k')
    {r r' : Py Unit × ImgView} (c : NewCall o s r) (c' : NewCall o' t r') (hr : Rc (fun _ _ => True) (Vc δ φ) r r') :
    Nearby e' f' (step s o) (step t o') := by
  have hW : ∀ k, ¬ o.W s k := fun k hh => Bool.false_ne_true (hin.symm.trans hh.1)
  have hW' : ∀ k, ¬ o'.W t k := fun k hh => Bool.false_ne_true (hin'.symm.trans hh.1)
  refine h.newCore hv hv' hn.newPixels hn.newMaps hin hin' hsh hsrc hsrc' hx c c' hr fun p k k' hk hk' => ?_
  rw [step_view_same hv hw (List.mem_of_getElem? hk) (hW k), step_view_same hv' hw' (List.mem_of_getElem? hk') (hW' k')]
  exact (h.views p k k' hk hk').mono (hn.pixels p (lt_of_some hk)) (hn.maps p (lt_of_some hk))

/-- Calls in place. -/
theorem Nearby.place (h : Nearby e f s t) (hv : Valid s) (hv' : Valid t) {i k k' : Nat} {δ φ : ℝ}
    (hn : PlaceError s e e' f f' i δ φ) (hin : o.inPlace = true) (hin' : o'.inPlace = true)
    (hw : o.writesStokes = false) (hw' : o'.writesStokes = false) (hc : o.renewsMaps = true) (hc' : o'.renewsMaps = true)
    (hsrc : o.source = some i) (hsrc' : o'.source = some i)
    (hk : s.images[i]? = some k) (hk' : t.images[i]? = some k')
    (hr : ∀ m, Vc (e i) m (s.heap.view k) (t.heap.view k') → Rc (Vc δ m) (Vc δ φ) (o.value s (s.heap.view k)) (o'.value t (t.heap.view k'))) :
    Nearby e' f' (step s o) (step t o') := by
  obtain ⟨c1, c2⟩ := exec_place_value hsrc hk hin
  obtain ⟨c1', c2'⟩ := exec_place_value hsrc' hk' hin'
  have hi := lt_of_some hk
  have ret : o.returns s k = some k := by
    cases o <;> first | (cases hw; done) | (cases hsrc; done) | (unfold Op.returns; exact if_pos hin)
  have ret' : o'.returns t k' = some k' := by
    cases o' <;> first | (cases hw'; done) | (cases hsrc'; done) | (unfold Op.returns; exact if_pos hin')
  rw [ret] at c1
  rw [ret'] at c1'
  rw [← step_heap] at c2 c2'
  have hb := h.views i k k' hk hk'
  have main := hr (f i) hb
  rw [main.1] at c1'
  -- the receiver under its old names
  have old : ∀ p, p < s.images.length → s.images[p]? = s.images[i]? → Vc (e' p) (f' p) ((step s o).heap.view k) ((step t o').heap.view k') := by
    intro p hp hpi
    rw [c2, c2']
    have hp' := (h.names p i hp hi).1 hpi
    have m := hr (f p) (hb.mix (h.views p k k' (hpi.trans hk) (hp'.trans hk')))
    cases hx : (o.value s (s.heap.view k)).1 with
    | error x => exact (m.2.2 x hx).mono (hn.names p hp hpi).1 (hn.maps p hp)
    | ok u => exact (m.2.1 hx).mono (hn.names p hp hpi).1 (hn.names p hp hpi).2
  -- all old names
  have oldAll : ∀ p l l', s.images[p]? = some l → t.images[p]? = some l' →
      Vc (e' p) (f' p) ((step s o).heap.view l) ((step t o').heap.view l') := by
    intro p l l' hl hl'
    have hp := lt_of_some hl
    by_cases hc : s.images[p]? = s.images[i]?
    · have hc' := (h.names p i hp hi).1 hc
      have e1 : l = k := Option.some.inj (hl.symm.trans (hc.trans hk))
      have e2 : l' = k' := Option.some.inj (hl'.symm.trans (hc'.trans hk'))
      subst e1 e2
      exact old p hp hc
    · have hc' := fun hh => hc ((h.names p i hp hi).2 hh)
      rw [step_view_same hv hw (List.mem_of_getElem? hl), step_view_same hv' hw' (List.mem_of_getElem? hl')]
      · exact (h.views p l l' hl hl').mono (hn.pixels p hp) (hn.maps p hp)
      · rintro ⟨-, j, hj, hjl⟩
        rw [hsrc'] at hj
        injection hj with hj
        subst hj
        exact hc' (hl'.trans hjl.symm)
      · rintro ⟨-, j, hj, hjl⟩
        rw [hsrc] at hj
        injection hj with hj
        subst hj
        exact hc (hl.trans hjl.symm)
  cases hx : (o.value s (s.heap.view k)).1 with
  | error x =>
    rw [hx] at c1 c1'
    have hs := step_images_err c1
    have ht := step_images_err c1'
    refine h.nothingCore hs ht (fun l hl => ?_) (fun l hl => ?_) oldAll
    · by_cases hlk : l = k
      · subst hlk
        exact step_maps_raise hc hsrc hk c1
      · refine step_maps_same hv hl ?_
        rintro ⟨-, j, hj, hjl⟩
        rw [hsrc] at hj
        cases hj
        rw [hk] at hjl
        exact hlk (Option.some.inj hjl).symm
    · by_cases hlk : l = k'
      · subst hlk
        exact step_maps_raise hc' hsrc' hk' c1'
      · refine step_maps_same hv' hl ?_
        rintro ⟨-, j, hj, hjl⟩
        rw [hsrc'] at hj
        cases hj
        rw [hk'] at hjl
        exact hlk (Option.some.inj hjl).symm
  | ok u =>
    rw [hx] at c1 c1'
    have hs := step_images_ok c1
    have ht := step_images_ok c1'
    refine ⟨by rw [hs, ht, List.length_append, List.length_append, h.len]; rfl, ?_,
      SameRefs.alias h.len hk hk' hs ht (h.refs.renewed h.names hv hv' hc hc' hsrc hsrc' hk hk' ⟨_, c1⟩ ⟨_, c1'⟩), fun p l l' hl hl' => ?_⟩
    · rw [hs, ht]
      refine append_names h.len h.names fun p hp => ?_
      rw [← hk, ← hk']
      exact h.names p i hp hi
    · rw [hs] at hl
      rw [ht] at hl'
      by_cases hp : p < s.images.length
      · rw [List.getElem?_append_left hp] at hl
        rw [List.getElem?_append_left (by rw [h.len]; exact hp)] at hl'
        exact oldAll p l l' hl hl'
      · have hlt := lt_of_some hl
        rw [List.length_append, List.length_singleton] at hlt
        have : p = s.images.length := by omega
        subst this
        rw [List.getElem?_concat_length] at hl
        rw [← h.len, List.getElem?_concat_length] at hl'
        injection hl with hl
        injection hl' with hl'
        subst hl hl'
        rw [c2, c2']
        exact (main.2.1 hx).mono hn.newPixels hn.newMaps

/-! ## Arguments that are images -/

theorem Nearby.second (h : Nearby e f s t) {P Q : ImgView → ImgView → Prop} {v w : ImgView} (j : Nat) {g g' : Img ℝ → Py Unit × ImgView}
    (hv : P v w) (hg : ∀ k, s.images[j]? = some k → ∀ D, Nr (e j) (s.data k) D → Rc P Q (g (s.data k)) (g' D)) :
    Rc P Q (secondV s j v g) (secondV t j w g') := by
  unfold secondV
  rcases h.both j with ⟨h1, h2⟩ | ⟨k, k', h1, h2⟩
  · rw [h1, h2]
    exact Rc.err hv _
  · rw [h1, h2]
    exact hg k h1 _ (h.views j k k' h1 h2).data

theorem Nearby.opt (h : Nearby e f s t) {P Q : ImgView → ImgView → Prop} {v w : ImgView} (j : Option Nat)
    {g g' : Option (Img ℝ) → Py Unit × ImgView} (hv : P v w) (h0 : j = none → Rc P Q (g none) (g' none))
    (hg : ∀ i, j = some i → ∀ k, s.images[i]? = some k → ∀ D, Nr (e i) (s.data k) D → Rc P Q (g (some (s.data k))) (g' (some D))) :
    Rc P Q (optV s j v g) (optV t j w g') := by
  cases j with
  | none => exact h0 rfl
  | some i => exact h.second i hv fun k hk D hD => hg i rfl k hk D hD

theorem PxBelow.bounded {j k : Nat} {M : ℝ} (h : PxBelow s j M) (hk : s.images[j]? = some k) : Bounded M (s.data k) :=
  bounded_of h.1 (h.2 k hk)

/-- The corrections of the constructor. -/
theorem Nearby.corrections (h : Nearby e f s t) {v w v0 w0 : ImgView} {ε φ M N G ρ : ℝ}
    (dark flat : Option Nat) (hq : BuildQuality s e dark flat N G ρ) (junk junk' : Nat → Nat → ℝ)
    (hc : (dark = none ∧ flat = none → φ ≤ 2 * ε)) {T : Option (Img ℝ) → Option (Img ℝ) → (ImgView → Py Unit × ImgView) → Py Unit × ImgView}
    {T' : Option (Img ℝ) → Option (Img ℝ) → (ImgView → Py Unit × ImgView) → Py Unit × ImgView}
    (hT : ∀ d d' c c' (Q : ImgView → ImgView → Prop) (g g' : ImgView → Py Unit × ImgView),
      (∀ a b, Vc ε φ a b → Bounded M a.data → Rc (fun _ _ => True) Q (g a) (g' b)) → Rc (fun _ _ => True) Q (T d c g) (T' d' c' g')) :
    Rc (fun _ _ => True) (Vc (buildError e M N G ρ ε dark flat) (2 * buildError e M N G ρ ε dark flat))
      (optV s dark v fun d => optV s flat v0 fun c => T d c (applyCorrectionsV junk d c))
      (optV t dark w fun d => optV t flat w0 fun c => T' d c (applyCorrectionsV junk' d c)) := by
  have pos : ∀ {A : Img ℝ} {M : ℝ}, Bounded M A → 0 ≤ M := fun hA => (abs_nonneg _).trans (hA 0 0)
  refine h.opt dark trivial (fun hd => ?_) fun i hd k hk D hD => ?_
  · refine h.opt flat trivial (fun hf => ?_) fun j hf l hl F hF => ?_
    · subst hd hf
      refine hT _ _ _ _ _ _ _ fun a b hab _ => Rc.ok (hab.mono ?_ ?_)
      · exact le_max_left _ _
      · exact (hc ⟨rfl, rfl⟩).trans (mul_le_mul_of_nonneg_left (le_max_left _ _) (by norm_num))
    · obtain ⟨g1, g2, g3, g4⟩ := hq.flat j hf
      subst hd hf
      exact hT _ _ _ _ _ _ _ fun a b hab hb => (vc_flatError hab hF g3 g2 g1 (fun y x _ _ => hb y x) (pos hb) (g4 l hl).1 (g4 l hl).2 rfl
        junk junk').weaken (fun _ _ _ => trivial) fun _ _ h => h
  · have hN := (hq.dark i hd).bounded hk
    refine h.opt flat trivial (fun hf => ?_) fun j hf l hl F hF => ?_
    · subst hd hf
      refine hT _ _ _ _ _ _ _ fun a b hab _ => (vc_dark hab hD).weaken (fun _ _ _ => trivial) fun _ _ h => ?_
      have : buildError e M N G ρ ε (some i) none = ε + e i := max_self _
      rw [this]
      exact h
    · obtain ⟨g1, g2, g3, g4⟩ := hq.flat j hf
      subst hd hf
      refine hT _ _ _ _ _ _ _ fun a b hab hb => Rc.andThen (R := fun c d => Vc (ε + e i) (2 * (ε + e i)) c d ∧ Bounded (M + N) c.data) ?_
        fun c d hcd => (vc_flatError hcd.1 hF g3 g2 g1 (fun y x _ _ => hcd.2 y x) (pos hcd.2) (g4 l hl).1 (g4 l hl).2 rfl
          junk junk').weaken (fun _ _ _ => trivial) fun _ _ h => h
      obtain ⟨r1, r2, -⟩ := vc_dark hab hD
      exact ⟨r1, fun hok => ⟨r2 hok, subtractDarkV_bounded hb hN hok⟩, fun _ _ => trivial⟩

/-! ## Calls -/

theorem exec_no_name {i : Nat} (hsrc : o.source = some i) (hi : s.images[i]? = none) :
    (exec s.images o s.heap).1 = .error .nameError := by
  cases o <;> first
    | (cases hsrc; done)
    | (cases hsrc; unfold exec; dsimp only; rw [run_named_none hi])

/-- A call on a name that does not exist. -/
theorem Nearby.noName (h : Nearby e f s t) (hv : Valid s) (hv' : Valid t) (he : Kept s e e') (hf : Kept s f f') {i : Nat}
    (hsrc : o.source = some i) (hsrc' : o'.source = some i)
    (hi : s.images[i]? = none) (hi' : t.images[i]? = none) : Nearby e' f' (step s o) (step t o') := by
  have a : ∀ k, ¬ o.CalledOn s k := by
    rintro k ⟨j, hj, hjk⟩
    rw [hsrc] at hj
    cases hj
    rw [hi] at hjk
    cases hjk
  have b : ∀ k, ¬ o'.CalledOn t k := by
    rintro k ⟨j, hj, hjk⟩
    rw [hsrc'] at hj
    cases hj
    rw [hi'] at hjk
    cases hjk
  exact h.nothing he hf (step_images_err (exec_no_name hsrc hi)) (step_images_err (exec_no_name hsrc' hi'))
    (fun k hk => step_maps_same hv hk fun h => a k h.2) (fun k hk => step_maps_same hv' hk fun h => b k h.2)
    (fun k hk => step_view_nobody hv a hk) fun k hk => step_view_nobody hv' b hk

/-- A call on an image, with a new image. -/
theorem Nearby.derive (h : Nearby e f s t) (hv : Valid s) (hv' : Valid t) {δ φ : ℝ} (hn : NewError s e e' f f' δ φ)
    (hin : o.inPlace = false) (hin' : o'.inPlace = false) (hw : o.writesStokes = false) (hw' : o'.writesStokes = false)
    (hsh : o'.sharesMaps = o.sharesMaps) {i : Nat} (hsrc : o.source = some i) (hsrc' : o'.source = some i)
    (hr : ∀ k k', s.images[i]? = some k → t.images[i]? = some k' → Vc (e i) (f i) (s.heap.view k) (t.heap.view k') →
      Rc (fun _ _ => True) (Vc δ φ) (o.value s (s.heap.view k)) (o'.value t (t.heap.view k'))) :
    Nearby e' f' (step s o) (step t o') := by
  rcases h.both i with ⟨h1, h2⟩ | ⟨k, k', h1, h2⟩
  · exact h.noName hv hv' hn.pixels hn.maps hsrc hsrc' h1 h2
  · exact h.new hv hv' hn hin hin' hw hw' hsh hsrc hsrc' (.inr ⟨i, k, k', rfl, h1, h2⟩) (exec_new_value hv hsrc h1 hin)
      (exec_new_value hv' hsrc' h2 hin') (hr k k' h1 h2 (h.views i k k' h1 h2))

/-- A call in place. -/
theorem Nearby.work (h : Nearby e f s t) (hv : Valid s) (hv' : Valid t) {i : Nat} {δ φ : ℝ}
    (hn : PlaceError s e e' f f' i δ φ) (hin : o.inPlace = true) (hin' : o'.inPlace = true)
    (hw : o.writesStokes = false) (hw' : o'.writesStokes = false) (hc : o.renewsMaps = true) (hc' : o'.renewsMaps = true)
    (hsrc : o.source = some i) (hsrc' : o'.source = some i)
    (hr : ∀ m k v w, s.images[i]? = some k → v.data = s.data k → Vc (e i) m v w → Rc (Vc δ m) (Vc δ φ) (o.value s v) (o'.value t w)) :
    Nearby e' f' (step s o) (step t o') := by
  rcases h.both i with ⟨h1, h2⟩ | ⟨k, k', h1, h2⟩
  · exact h.noName hv hv' hn.pixels hn.maps hsrc hsrc' h1 h2
  · exact h.place hv hv' hn hin hin' hw hw' hc hc' hsrc hsrc' h1 h2 fun m hm => hr m k _ _ h1 rfl hm

/-- Images that share the Stokes vector of the receiver. -/
theorem Nearby.sharer (h : Nearby e f s t) {i p r r' k k' : Nat} (hr : s.images[i]? = some r) (hr' : t.images[i]? = some r')
    (hk : s.images[p]? = some k) (hk' : t.images[p]? = some k') (hm : maps s k = maps s r) :
    Vc (e i) (f p) (s.heap.view r) (t.heap.view r') := by
  have hm' := (h.refs p i k r k' r' hk hr hk' hr').1 hm
  have a := h.views i r r' hr hr'
  have b := h.views p k k' hk hk'
  have q := view_stokes_of_maps hm
  have q' := view_stokes_of_maps hm'
  refine { a with maps := ?_ }
  have c := b.maps
  rw [q, q'] at c
  exact c

/-- The occulter mask. -/
theorem Nearby.mask (h : Nearby e f s t) (hv : Valid s) (hv' : Valid t) (he : Kept s e e') (hf : Kept s f f') (i : Nat) (y x r over fill : ℝ)  :
    Nearby e' f' (step s (.maskOcculter i y x r over fill)) (step t (.maskOcculter i y x r over fill)) := by
  rcases h.both i with ⟨h1, h2⟩ | ⟨k, k', h1, h2⟩
  · exact h.noName hv hv' he hf rfl rfl h1 h2
  have c := exec_place_value (o := .maskOcculter i y x r over fill) rfl h1 rfl
  have c' := exec_place_value (o := .maskOcculter i y x r over fill) rfl h2 rfl
  have none1 : ∀ {s : State} {k : Nat}, (exec s.images (.maskOcculter i y x r over fill) s.heap).1 = Except.map (fun _ => (Op.maskOcculter i y x r over fill).returns s k)
      ((Op.maskOcculter i y x r over fill).value s (s.heap.view k)).1 → (step s (.maskOcculter i y x r over fill)).images = s.images := by
    intro s k hc
    rcases step_images s (.maskOcculter i y x r over fill) with hh | ⟨n, hn, -⟩
    · exact hh
    · rw [hc] at hn
      cases hz : ((Op.maskOcculter i y x r over fill).value s (s.heap.view k)).1 with
      | error z => rw [hz] at hn; cases hn
      | ok u => rw [hz] at hn; cases hn
  refine h.nothingCore (none1 c.1) (none1 c'.1) (fun k hk => step_maps_mask hv rfl hk) (fun k hk => step_maps_mask hv' rfl hk) ?_
  intro p l l' hl hl'
  have hp := lt_of_some hl
  have key : maps s l = maps s k → Vc (e i) (f p) ((Op.maskOcculter i y x r over fill).value s (s.heap.view k)).2
      ((Op.maskOcculter i y x r over fill).value t (t.heap.view k')).2 := by
    intro hm
    have m := vc_mask (h.sharer h1 h2 hl hl' hm) y x r over fill
    cases hz : (maskOcculterV y x r over fill (s.heap.view k)).1 with
    | error z => exact m.2.2 z hz
    | ok u => exact m.2.1 hz
  have nm := h.names p i hp (lt_of_some h1)
  by_cases hc : l = k
  · subst hc
    have hc' : l' = k' := by
      have := nm.1 (hl.trans h1.symm)
      rw [hl', h2] at this
      exact Option.some.inj this
    subst hc'
    have c2 := c.2
    have c2' := c'.2
    rw [← step_heap] at c2 c2'
    have big := key rfl
    have own := h.views p l l' hl hl'
    rw [c2, c2']
    have m := vc_mask own y x r over fill
    have : Vc (e p) (f p) ((Op.maskOcculter i y x r over fill).value s (s.heap.view l)).2
        ((Op.maskOcculter i y x r over fill).value t (t.heap.view l')).2 := by
      cases hz : (maskOcculterV y x r over fill (s.heap.view l)).1 with
      | error z => exact m.2.2 z hz
      | ok u => exact m.2.1 hz
    exact this.mono (he p hp) (hf p hp)
  · have hc' : l' ≠ k' := by
      rintro rfl
      have := nm.2 (hl'.trans h2.symm)
      rw [hl, h1] at this
      exact hc (Option.some.inj this)
    have w1 : ¬ (Op.maskOcculter i y x r over fill).W s l := by
      rintro ⟨-, j, hj, hjl⟩
      cases hj
      rw [h1] at hjl
      exact hc (Option.some.inj hjl).symm
    have w2 : ¬ (Op.maskOcculter i y x r over fill).W t l' := by
      rintro ⟨-, j, hj, hjl⟩
      cases hj
      rw [h2] at hjl
      exact hc' (Option.some.inj hjl).symm
    have a := step_view_write (o := .maskOcculter i y x r over fill) hv rfl ⟨i, rfl, h1⟩ (List.mem_of_getElem? hl) w1
    have b := step_view_write (o := .maskOcculter i y x r over fill) hv' rfl ⟨i, rfl, h2⟩ (List.mem_of_getElem? hl') w2
    have rf := h.refs p i l k l' k' hl h1 hl' h2
    have own := (h.views p l l' hl hl').mono (he p hp) (hf p hp)
    by_cases hm : maps s l = maps s k
    · rw [a.1 hm, b.1 (rf.1 hm)]
      have big := key hm
      exact { own with isList := big.isList, maps := big.maps.mono (hf p hp) }
    · rw [a.2 hm, b.2 fun hh => hm (rf.2 hh)]
      exact own

/-- Rotation. -/
theorem Nearby.rotated (h : Nearby e f s t) (hv : Valid s) (hv' : Valid t) (he : Kept s e e') {L : ℝ} (hL : 1 ≤ L)
    (hf : ∀ p, p < s.images.length → L * f p ≤ f' p) (i : Nat) {rot : Img ℝ → Py (Img ℝ)}
    (hrot : ∀ ε A B, Nr ε A B → PyRel (Nr (L * ε)) (rot A) (rot B)) (hd : L * e i ≤ e' s.images.length) (hφ : L * f i ≤ f' s.images.length) :
    Nearby e' f' (step s (.rotate i rot)) (step t (.rotate i rot)) := by
  have le : ∀ {x : ℝ}, 0 ≤ x → x ≤ L * x := fun hx => le_mul_of_one_le_left hx hL
  have hf0 : Kept s f f' := by
    intro p hp
    obtain ⟨k, hk⟩ := some_of_lt hp
    obtain ⟨k', hk'⟩ := some_of_lt (show p < t.images.length by rw [h.len]; exact hp)
    exact (le ((h.views p k k' hk hk').maps 0).pos).trans (hf p hp)
  rcases h.both i with ⟨h1, h2⟩ | ⟨k, k', h1, h2⟩
  · exact h.noName hv hv' he hf0 rfl rfl h1 h2
  have main : ∀ m, Vc (e i) m (s.heap.view k) (t.heap.view k') → Rc (Vc (L * e i) (L * m)) (Vc (L * e i) (L * m))
      ((Op.rotate i rot).value s (s.heap.view k)) ((Op.rotate i rot).value t (t.heap.view k')) := fun m hm =>
    vc_rotate hm (le hm.data.pos) (le (hm.maps 0).pos) (fun A B hA => hrot _ A B hA) fun A B hA => hrot _ A B hA
  refine h.newCore hv hv' hd hφ rfl rfl rfl rfl rfl (.inr ⟨i, k, k', rfl, h1, h2⟩) (exec_new_value hv rfl h1 rfl) (exec_new_value hv' rfl h2 rfl)
    ((main (f i) (h.views i k k' h1 h2)).weaken (fun _ _ _ => trivial) fun _ _ h => h) fun p l l' hl hl' => ?_
  have hp := lt_of_some hl
  have w : ∀ (s : State) l, ¬ (Op.rotate i rot).W s l := fun s l hh => Bool.false_ne_true hh.1
  have a := step_view_write (o := .rotate i rot) hv rfl ⟨i, rfl, h1⟩ (List.mem_of_getElem? hl) (w s l)
  have b := step_view_write (o := .rotate i rot) hv' rfl ⟨i, rfl, h2⟩ (List.mem_of_getElem? hl') (w t l')
  have rf := h.refs p i l k l' k' hl h1 hl' h2
  have own := (h.views p l l' hl hl').mono (he p hp) (hf0 p hp)
  by_cases hm : maps s l = maps s k
  · rw [a.1 hm, b.1 (rf.1 hm)]
    have m := main (f p) (h.sharer h1 h2 hl hl' hm)
    have big : Vc (L * e i) (L * f p) ((Op.rotate i rot).value s (s.heap.view k)).2 ((Op.rotate i rot).value t (t.heap.view k')).2 := by
      cases hz : ((Op.rotate i rot).value s (s.heap.view k)).1 with
      | error z => exact m.2.2 z hz
      | ok u => exact m.2.1 hz
    exact { own with isList := big.isList, maps := big.maps.mono (hf p hp) }
  · rw [a.2 hm, b.2 fun hh => hm (rf.2 hh)]
    exact own

end

end Micropol

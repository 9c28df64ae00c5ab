import Verif.Lemmas.MixedInteger

/-!
# C116: images of different number types
-/

set_option autoImplicit false

namespace Micropol

/-! ## The common type -/

/-- C116: the common type of two integer types is the smallest that holds the numbers of both, with a sign exactly if one of them
has one. -/
theorem C116_common {t u : IntType} (ht : t.Numpy) (hu : u.Numpy) :
    (∃ v, promoteInt t u = some v ∧ IsCommonType t u v ∧ (v.signed = true ↔ t.signed = true ∨ u.signed = true)) ∨
    promoteInt t u = none ∧ ∀ v : IntType, v.Numpy → ¬ (t.Within v ∧ u.Within v) := by
  obtain ⟨a, s⟩ := t
  obtain ⟨b, r⟩ := u
  have w : ∀ {c : Nat} {q : Bool} {v : IntType}, (IntType.mk c q).Numpy → v.Numpy → ((IntType.mk c q).Within v ↔
      if v.signed then (if q then c ≤ v.bits else c < v.bits) else q = false ∧ c ≤ v.bits) :=
    fun h1 h2 => within_iff h1.pos h2.pos
  have key : ∀ v : IntType, v.Numpy → (((IntType.mk a s).Within v ∧ (IntType.mk b r).Within v) ↔
      (if v.signed then (if s then a ≤ v.bits else a < v.bits) else s = false ∧ a ≤ v.bits) ∧
      (if v.signed then (if r then b ≤ v.bits else b < v.bits) else r = false ∧ b ≤ v.bits)) := fun v hv => by
    rw [w ht hv, w hu hv]
  have fin : ∀ v : IntType, v.Numpy → promoteInt ⟨a, s⟩ ⟨b, r⟩ = some v → (v.signed = true ↔ s = true ∨ r = true) →
      ((IntType.mk a s).Within v ∧ (IntType.mk b r).Within v) →
      (∀ v' : IntType, v'.Numpy → ((IntType.mk a s).Within v' ∧ (IntType.mk b r).Within v') → v.bits ≤ v'.bits) →
      (∃ v, promoteInt ⟨a, s⟩ ⟨b, r⟩ = some v ∧ IsCommonType ⟨a, s⟩ ⟨b, r⟩ v ∧
        (v.signed = true ↔ s = true ∨ r = true)) := fun v hv e hs h1 h2 =>
    ⟨v, e, ⟨hv, h1.1, h1.2, fun v' hv' p q => h2 v' hv' ⟨p, q⟩⟩, hs⟩
  have min : ∀ v : IntType, (∀ v' : IntType, v'.Numpy → ((IntType.mk a s).Within v' ∧ (IntType.mk b r).Within v') → v.bits ≤ v'.bits) ↔
      ∀ v' : IntType, v'.Numpy → ((if v'.signed then (if s then a ≤ v'.bits else a < v'.bits) else s = false ∧ a ≤ v'.bits) ∧
      (if v'.signed then (if r then b ≤ v'.bits else b < v'.bits) else r = false ∧ b ≤ v'.bits)) → v.bits ≤ v'.bits := by
    intro v
    refine forall_congr' fun v' => forall_congr' fun hv' => ?_
    rw [key v' hv']
  have ht' : a = 8 ∨ a = 16 ∨ a = 32 ∨ a = 64 := ht
  have hu' : b = 8 ∨ b = 16 ∨ b = 32 ∨ b = 64 := hu
  have small : ∀ c d : Nat, (IntType.mk (max a b) s).Numpy := fun _ _ => by
    unfold IntType.Numpy
    simp only
    omega
  cases s <;> cases r
  · left
    refine fin ⟨max a b, false⟩ (small 0 0) (by simp [promoteInt]) (by simp) ((key _ (small 0 0)).2 ?_) ((min _).2 ?_)
    · simp
    · rintro ⟨c, q⟩ - h
      cases q <;> simp at h ⊢ <;> omega
  · by_cases h1 : a < b
    · left
      refine fin ⟨b, true⟩ hu (by simp [promoteInt, h1]) (by simp) ((key _ hu).2 ?_) ((min _).2 ?_)
      · simp [h1]
      · rintro ⟨c, q⟩ - h
        cases q <;> simp at h ⊢; omega
    · by_cases h2 : a < 64
      · left
        have hn : (IntType.mk (2 * a) true).Numpy := by unfold IntType.Numpy; simp only; omega
        refine fin ⟨2 * a, true⟩ hn (by simp [promoteInt, h1, h2]) (by simp) ((key _ hn).2 ?_) ((min _).2 ?_)
        · simp; omega
        · rintro ⟨c, q⟩ hc h
          unfold IntType.Numpy at hc
          cases q <;> simp at h hc ⊢; omega
      · right
        refine ⟨by simp [promoteInt, h1, h2], fun v hv h => ?_⟩
        rw [key v hv] at h
        obtain ⟨c, q⟩ := v
        unfold IntType.Numpy at hv
        cases q <;> simp at h hv
        omega
  · by_cases h1 : b < a
    · left
      refine fin ⟨a, true⟩ ht (by simp [promoteInt, h1]) (by simp) ((key _ ht).2 ?_) ((min _).2 ?_)
      · simp [h1]
      · rintro ⟨c, q⟩ - h
        cases q <;> simp at h ⊢; omega
    · by_cases h2 : b < 64
      · left
        have hn : (IntType.mk (2 * b) true).Numpy := by unfold IntType.Numpy; simp only; omega
        refine fin ⟨2 * b, true⟩ hn (by simp [promoteInt, h1, h2]) (by simp) ((key _ hn).2 ?_) ((min _).2 ?_)
        · simp; omega
        · rintro ⟨c, q⟩ hc h
          unfold IntType.Numpy at hc
          cases q <;> simp at h hc ⊢; omega
      · right
        refine ⟨by simp [promoteInt, h1, h2], fun v hv h => ?_⟩
        rw [key v hv] at h
        obtain ⟨c, q⟩ := v
        unfold IntType.Numpy at hv
        cases q <;> simp at h hv
        omega
  · left
    refine fin ⟨max a b, true⟩ (small 0 0) (by simp [promoteInt]) (by simp) ((key _ (small 0 0)).2 ?_) ((min _).2 ?_)
    · simp
    · rintro ⟨c, q⟩ - h
      cases q <;> simp at h ⊢; omega

/-- C116: with a Python integer, the type is the smallest that holds the numbers of the array and this number, with a sign exactly
if the array has one or the number is negative. -/
theorem C116_number {t : IntType} (ht : t.Numpy) (n : Int) :
    (∃ v, scalarType t n = .int v ∧ IsTypeWith t n v ∧ (v.signed = true ↔ t.signed = true ∨ n < 0)) ∨
    (scalarType t n = .float ∨ scalarType t n = .object) ∧ ∀ v : IntType, v.Numpy → ¬ (t.Within v ∧ v.Holds n) := by
  have ht' := ht.pos
  have lift : ∀ w : IntType, w.Numpy → w.Holds n → (∀ v' : IntType, v'.Numpy → v'.Holds n → w.Within v') →
      scalarType t n = .ofCommon (promoteInt t w) → (w.signed = true ↔ n < 0) →
      (∃ v, scalarType t n = .int v ∧ IsTypeWith t n v ∧ (v.signed = true ↔ t.signed = true ∨ n < 0)) ∨
      (scalarType t n = .float ∨ scalarType t n = .object) ∧ ∀ v : IntType, v.Numpy → ¬ (t.Within v ∧ v.Holds n) := by
    intro w hw hn hmin e hsg
    rcases C116_common ht hw with ⟨v, e1, ⟨hv, w1, w2, m⟩, s⟩ | ⟨e1, e2⟩
    · rw [e1] at e
      refine .inl ⟨v, e, ⟨hv, w1, w2 n hn, fun v' h1 h2 h3 => m v' h1 h2 (hmin v' h1 h3)⟩, ?_⟩
      rw [s, hsg]
    · rw [e1] at e
      exact .inr ⟨.inl e, fun v hv h => e2 v hv ⟨h.1, hmin v hv h.2⟩⟩
  have upper : ∀ v : IntType, v.Numpy → v.Holds n → n < 2 ^ v.bits ∧ (v.signed = true → n < 2 ^ (v.bits - 1)) ∧
      -2 ^ (v.bits - 1) ≤ n ∧ (n < 0 → v.signed = true) := by
    intro v hv h
    have p := pow_split hv.pos
    have q : (0 : Int) < 2 ^ (v.bits - 1) := by positivity
    unfold IntType.Holds at h
    split at h
    · rename_i hc
      exact ⟨by omega, fun _ => h.2, h.1, fun _ => hc⟩
    · rename_i hc
      exact ⟨h.2, fun h => absurd h hc, by omega, fun h' => by omega⟩
  by_cases h0 : 0 ≤ n
  · rcases unsignedBits_spec h0 with ⟨b, e, hb, hlt, b1, b2, b3⟩ | ⟨e, hge⟩
    · have hbn : ∀ r, (IntType.mk b r).Numpy := fun _ => hb
      by_cases hsm : n < 2 ^ (b - 1)
      · have hn : (IntType.mk (max t.bits b) t.signed).Numpy := by
          unfold IntType.Numpy at ht ⊢
          simp only
          omega
        refine .inl ⟨⟨max t.bits b, t.signed⟩, ?_, ⟨hn, ?_, ?_, ?_⟩, ?_⟩
        · unfold scalarType
          simp only [if_pos h0, e, if_pos hsm]
        · rw [within_iff ht' hn.pos]
          cases t.signed <;> simp
        · unfold IntType.Holds
          have p1 := two_pow_le.2 (show b - 1 ≤ max t.bits b - 1 by omega)
          have p2 := two_pow_le.2 (show b - 1 ≤ max t.bits b by omega)
          have p3 : (0 : Int) < 2 ^ (max t.bits b - 1) := by positivity
          split
          · exact ⟨by simp only; omega, by simp only; omega⟩
          · exact ⟨h0, by simp only; omega⟩
        · intro v' hv' hw hh
          obtain ⟨u1, -, -, -⟩ := upper v' hv' hh
          rw [within_iff ht' hv'.pos] at hw
          have k1 : t.bits ≤ v'.bits := by
            split at hw
            · split at hw <;> omega
            · exact hw.2
          have k2 : b ≤ v'.bits := by
            rcases hv' with h | h | h | h <;> rw [h] at u1 ⊢ <;> omega
          simp only
          omega
        · exact ⟨fun h => .inl h, fun h => h.resolve_right (by omega)⟩
      · refine lift ⟨b, false⟩ (hbn _) ?_ ?_ ?_ (by simp; omega)
        · unfold IntType.Holds
          simp only [Bool.false_eq_true, if_false]
          exact ⟨h0, hlt⟩
        · intro v' hv' hh
          obtain ⟨u1, u2, -, -⟩ := upper v' hv' hh
          have hbp := (hbn false).pos
          simp only at hbp
          rw [within_iff hbp hv'.pos]
          simp only [Bool.false_eq_true, if_false, true_and]
          split
          · rename_i hc
            have := u2 hc
            by_contra hcon
            have := two_pow_le.2 (show v'.bits - 1 ≤ b - 1 by omega)
            omega
          · by_contra hcon
            have := two_pow_le.2 (show v'.bits ≤ b - 1 by omega)
            omega
        · unfold scalarType
          simp only [if_pos h0, e, if_neg hsm]
    · refine .inr ⟨.inr ?_, ?_⟩
      · unfold scalarType
        simp only [if_pos h0, e]
      · intro v hv h
        obtain ⟨u1, -, -, -⟩ := upper v hv h.2
        have : v.bits ≤ 64 := by unfold IntType.Numpy at hv; omega
        have := two_pow_le.2 this
        omega
  · have hneg : n < 0 := by omega
    rcases signedBits_spec n with ⟨b, e, hb, hlo, b1, b2, b3⟩ | ⟨e, hlt⟩
    · have hbn : (IntType.mk b true).Numpy := hb
      refine lift ⟨b, true⟩ hbn ?_ ?_ ?_ (by simp; omega)
      · unfold IntType.Holds
        have : (0 : Int) < 2 ^ (b - 1) := by positivity
        simp only [if_true]
        omega
      · intro v' hv' hh
        obtain ⟨-, -, u3, u4⟩ := upper v' hv' hh
        have hbp := hbn.pos
        simp only at hbp
        rw [within_iff hbp hv'.pos, if_pos (u4 hneg)]
        simp only [if_true]
        rcases hv' with h | h | h | h <;> rw [h] at u3 ⊢ <;> omega
      · unfold scalarType
        simp only [if_neg h0, e]
    · refine .inr ⟨.inr ?_, ?_⟩
      · unfold scalarType
        simp only [if_neg h0, e]
      · intro v hv h
        obtain ⟨-, -, u3, -⟩ := upper v hv h.2
        have : v.bits - 1 ≤ 63 := by unfold IntType.Numpy at hv; omega
        have := two_pow_le.2 this
        omega

section
variable {K : Type} [Ring K]

/-! ## Sums, differences and products -/

/-- C116: a sum, difference or product (`f`) of images of two integer types that have a common one: each pixel is the exact result
up to a multiple of `2 ^ bits`, and the exact result exactly when the common type holds it. -/
theorem mixed_ints {t u v : IntType} (ht : t.Numpy) (hu : u.Numpy) (hv : promoteInt t u = some v) (f : Int → Int → Int)
    (g : K → K → K) (A B : Img Int) (hs : A.SameShape B) (hA : A.OfType t) (hB : B.OfType u) :
    ∃ r, mixedOp f g (.ints t A) (.ints u B) = .ok (.ints v r) ∧ r.SameShape A ∧ r.OfType v ∧ ∀ y x, y < A.h → x < A.w →
      r.px y x ≡ f (A.px y x) (B.px y x) [ZMOD 2 ^ v.bits] ∧
      (r.px y x = f (A.px y x) (B.px y x) ↔ v.Holds (f (A.px y x) (B.px y x))) := by
  rcases C116_common ht hu with ⟨v', e, ⟨hn, w1, w2, -⟩, -⟩ | ⟨e, -⟩
  · obtain rfl : v' = v := Option.some.inj (e.symm.trans hv)
    have key : ∀ y x, y < A.h → x < A.w → v'.wrap (A.px y x) = A.px y x ∧ v'.wrap (B.px y x) = B.px y x := fun y x hy hx =>
      ⟨wrap_of_holds hn.pos (w1 _ (hA y x hy hx)), wrap_of_holds hn.pos (w2 _ (hB y x (hs.1 ▸ hy) (hs.2 ▸ hx)))⟩
    unfold mixedOp
    simp only [hv]
    rw [npBin_ok hs.1 hs.2, Py.ok_bind, Py.pure_eq]
    refine ⟨_, rfl, ⟨rfl, rfl⟩, ?_, ?_⟩
    · intro y x (hy : y < A.h) (hx : x < A.w)
      rw [Img.ofFn_px hy hx]
      exact wrap_holds hn.pos _
    · intro y x hy hx
      rw [Img.ofFn_px hy hx, (key y x hy hx).1, (key y x hy hx).2]
      exact ⟨wrap_mod _ _, wrap_eq_iff hn.pos _⟩
  · rw [e] at hv
    cases hv

/-- C116: sums, differences and products of images of integer types. -/
theorem C116_operations {t u v : IntType} (ht : t.Numpy) (hu : u.Numpy) (hv : IsCommonType t u v)
    (hvs : v.signed = true ↔ t.signed = true ∨ u.signed = true) (A B : Img Int) (hs : A.SameShape B) (hA : A.OfType t)
    (hB : B.OfType u) (f : Int → Int → Int) (g : K → K → K) :
    ∃ r, mixedOp f g (.ints t A) (.ints u B) = .ok (.ints v r) ∧ r.SameShape A ∧ r.OfType v ∧ ∀ y x, y < A.h → x < A.w →
      r.px y x ≡ f (A.px y x) (B.px y x) [ZMOD 2 ^ v.bits] ∧
      (r.px y x = f (A.px y x) (B.px y x) ↔ v.Holds (f (A.px y x) (B.px y x))) := by
  refine mixed_ints ht hu ?_ f g A B hs hA hB
  rcases C116_common ht hu with ⟨v', e, ⟨hn, w1, w2, m⟩, s⟩ | ⟨-, e⟩
  · rw [e]
    obtain ⟨a, p⟩ := v
    obtain ⟨b, q⟩ := v'
    have e1 : b = a := le_antisymm (m _ hv.1 hv.2.1 hv.2.2.1) (hv.2.2.2 _ hn w1 w2)
    have e2 : p = q := by
      have : p = true ↔ q = true := hvs.trans s.symm
      cases p <;> cases q <;> simp_all
    rw [e1, e2]
  · exact absurd ⟨hv.2.1, hv.2.2.1⟩ (e v hv.1)

/-- C116: if one of the images holds floats, or no integer type holds both (only with 64 bits without sign), the result is computed
in floats and nothing is dropped. -/
theorem C116_floats (f : Int → Int → Int) (g : K → K → K) (a b : NumArray K) (hs : a.asFloats.SameShape b.asFloats)
    (h : ∀ t A u B, a = .ints t A → b = .ints u B → t.Numpy ∧ u.Numpy ∧ ∀ v : IntType, v.Numpy → ¬ (t.Within v ∧ u.Within v)) :
    ∃ r, mixedOp f g a b = .ok (.floats r) ∧ r.SameShape a.asFloats ∧ ∀ y x, y < a.asFloats.h → x < a.asFloats.w →
      r.px y x = g (a.asFloats.px y x) (b.asFloats.px y x) := by
  have fin : ∃ r, (do
      let r ← npBin g (a.asFloats) (b.asFloats)
      pure (.floats r) : Py (NumArray K)) = .ok (.floats r) ∧ r.SameShape a.asFloats ∧
      ∀ y x, y < a.asFloats.h → x < a.asFloats.w → r.px y x = g (a.asFloats.px y x) (b.asFloats.px y x) := by
    rw [npBin_ok hs.1 hs.2, Py.ok_bind]
    exact ⟨_, rfl, ⟨rfl, rfl⟩, fun y x hy hx => Img.ofFn_px hy hx⟩
  cases a with
  | floats A => cases b <;> exact fin
  | ints t A =>
    cases b with
    | floats B => exact fin
    | ints u B =>
      obtain ⟨ht, hu, hn⟩ := h t A u B rfl rfl
      unfold mixedOp
      rcases C116_common ht hu with ⟨v, e, ⟨hv, w1, w2, -⟩, -⟩ | ⟨e, -⟩
      · exact absurd ⟨w1, w2⟩ (hn v hv)
      · simp only [e]
        exact fin

/-! ## Darks -/

/-- C116: counts (numbers from 0 on) minus a dark of another integer type: if the types differ in sign, or have signs, the result is
the difference, clipped at 0. -/
theorem C116_dark [LinearOrder K] {t u v : IntType} (ht : t.Numpy) (hu : u.Numpy) (hv : promoteInt t u = some v)
    (hsg : t.signed = true ∨ u.signed = true) (A B : Img Int) (hs : A.SameShape B) (hA : A.OfType t) (hB : B.OfType u)
    (pA : ∀ y x, 0 ≤ A.px y x) (pB : ∀ y x, 0 ≤ B.px y x) :
    ∃ r, mixedDark (K := K) (.ints t A) (.ints u B) = .ok (.ints v r) ∧ r.SameShape A ∧ ∀ y x, y < A.h → x < A.w →
      r.px y x = max (A.px y x - B.px y x) 0 := by
  obtain ⟨d, e, hd, -, hp⟩ := mixed_ints (K := K) ht hu hv (fun a b => a - b) (fun a b => a - b) A B hs hA hB
  unfold mixedDark
  rw [e, Py.ok_bind]
  refine ⟨_, rfl, hd, fun y x hy hx => ?_⟩
  rw [Img.map_px _ d (hd.1 ▸ hy) (hd.2 ▸ hx)]
  have hh : v.Holds (A.px y x - B.px y x) := by
    rcases C116_common ht hu with ⟨v', e, ⟨hn, w1, w2, -⟩, s⟩ | ⟨e, -⟩
    · obtain rfl : v' = v := Option.some.inj (e.symm.trans hv)
      have h1 := w1 _ (hA y x hy hx)
      have h2 := w2 _ (hB y x (hs.1 ▸ hy) (hs.2 ▸ hx))
      have := pA y x
      have := pB y x
      unfold IntType.Holds at *
      rw [if_pos (s.2 hsg)] at *
      omega
    · rw [e] at hv
      cases hv
  rw [(hp y x hy hx).2.2 hh]
  split <;> omega

/-- C116, false without signs: an image of 8 bits minus a dark of 16 bits, both without sign: 99 - 100 gives 65535. -/
theorem C116_full_claim_false : ∃ A B r : Img Int, A.SameShape B ∧ A.OfType ⟨8, false⟩ ∧ B.OfType uint16 ∧
    mixedDark (K := ℚ) (.ints ⟨8, false⟩ A) (.ints uint16 B) = .ok (.ints uint16 r) ∧ A.px 0 0 = 99 ∧ B.px 0 0 = 100 ∧
    r.px 0 0 = 65535 := by
  have o : ∀ (t : IntType) (c : Int), t.Holds c → (Img.const 2 2 c).OfType t := by
    intro t c h y x hy hx
    rw [show (Img.const 2 2 c).px y x = c from Img.ofFn_px hy hx]
    exact h
  have t1 : (IntType.mk 8 false).Numpy := .inl rfl
  have t2 : uint16.Numpy := .inr (.inl rfl)
  have o1 := o ⟨8, false⟩ 99 (by unfold IntType.Holds; norm_num)
  have o2 := o uint16 100 (by unfold IntType.Holds uint16; norm_num)
  obtain ⟨d, e, hd, hdt, hp⟩ := mixed_ints (K := ℚ) t1 t2 (v := uint16) rfl (fun a b => a - b) (fun a b => a - b) (Img.const 2 2 99)
    (Img.const 2 2 100) ⟨rfl, rfl⟩ o1 o2
  have hd1 : d.h = 2 := hd.1
  have hd2 : d.w = 2 := hd.2
  have px : d.px 0 0 = 65535 := by
    refine holds_unique (t := uint16) (by decide) (hdt 0 0 (by omega) (by omega)) (by unfold IntType.Holds uint16; norm_num) ?_
    refine (hp 0 0 (by show 0 < 2; decide) (by show 0 < 2; decide)).1.trans ?_
    rw [show (Img.const 2 2 (99 : Int)).px 0 0 = 99 from rfl, show (Img.const 2 2 (100 : Int)).px 0 0 = 100 from rfl]
    decide
  refine ⟨Img.const 2 2 99, Img.const 2 2 100, d.map (fun v => if v ≥ 0 then v else 0), ⟨rfl, rfl⟩, o1, o2, ?_, rfl, rfl, ?_⟩
  · unfold mixedDark
    rw [e, Py.ok_bind]
    rfl
  · rw [Img.map_px _ d (by omega) (by omega), px]
    rfl

/-- C116: sums, differences and products (`f`) of an image of integers and a Python integer: each pixel is the exact result up to a
multiple of `2 ^ bits`, and the exact result exactly when the type holds it. -/
theorem C116_scalar {t v : IntType} (ht : t.Numpy) (n : Int) (hv : scalarType t n = .int v) (A : Img Int) (hA : A.OfType t)
    (f : Int → Int → Int) (g : K → K → K) :
    ∃ r, mixedScalarOp f g t A n = .typed (.ints v r) ∧ r.SameShape A ∧ r.OfType v ∧ ∀ y x, y < A.h → x < A.w →
      r.px y x ≡ f (A.px y x) n [ZMOD 2 ^ v.bits] ∧ (r.px y x = f (A.px y x) n ↔ v.Holds (f (A.px y x) n)) := by
  rcases C116_number ht n with ⟨v', e, ⟨hn, w1, w2, -⟩, -⟩ | ⟨e, -⟩
  · rw [e] at hv
    cases hv
    unfold mixedScalarOp
    simp only [e]
    refine ⟨_, rfl, ⟨rfl, rfl⟩, ?_, ?_⟩
    · intro y x (hy : y < A.h) (hx : x < A.w)
      rw [Img.map_px _ A hy hx]
      exact wrap_holds hn.pos _
    · intro y x hy hx
      rw [Img.map_px _ A hy hx, wrap_of_holds hn.pos (w1 _ (hA y x hy hx)), wrap_of_holds hn.pos w2]
      exact ⟨wrap_mod _ _, wrap_eq_iff hn.pos _⟩
  · rw [hv] at e
    rcases e with e | e <;> cases e

/-- C116: numbers that no integer type of numpy holds together with the numbers of the image: nothing is dropped. -/
theorem C116_scalar_exact {t : IntType} (ht : t.Numpy) (n : Int) (A : Img Int)
    (h : ∀ v : IntType, v.Numpy → ¬ (t.Within v ∧ v.Holds n)) (f : Int → Int → Int) (g : K → K → K) :
    mixedScalarOp f g t A n = .typed (.floats (A.map (fun x : Int => g (x : K) (n : K)))) ∨
      mixedScalarOp f g t A n = .objects (A.map (fun x => f x n)) := by
  rcases C116_number ht n with ⟨v, e, ⟨hn, w1, w2, -⟩, -⟩ | ⟨e, -⟩
  · exact absurd ⟨w1, w2⟩ (h v hn)
  · unfold mixedScalarOp
    rcases e with e | e
    · exact .inl (by simp only [e])
    · exact .inr (by simp only [e])

/-- C116: adding -1 is not subtracting 1.  For a dark pixel of an image of 16 bits without sign, `image - 1` has 65535 there and
`image + (-1)` has -1. -/
theorem C116_minus_one : ∃ a b : Img Int,
    mixedScalarOp (K := ℚ) (fun x y => x - y) (fun x y => x - y) uint16 (Img.const 2 2 0) 1 = .typed (.ints uint16 a) ∧
    mixedScalarOp (K := ℚ) (fun x y => x + y) (fun x y => x + y) uint16 (Img.const 2 2 0) (-1) = .typed (.ints ⟨32, true⟩ b) ∧
    a.px 0 0 = 65535 ∧ b.px 0 0 = -1 := ⟨_, _, rfl, rfl, rfl, rfl⟩

end

/-! ## Concrete cases -/

example : IsCommonType uint16 int16 ⟨32, true⟩ := by
  rcases C116_common (t := uint16) (u := int16) (.inr (.inl rfl)) (.inr (.inl rfl)) with ⟨v, e, h, -⟩ | ⟨e, -⟩
  · cases (show some ⟨32, true⟩ = some v from e)
    exact h
  · exact absurd (show some (⟨32, true⟩ : IntType) = none from e) (by simp)

/-- A frame of the camera (16 bits without sign) and a dark of `int16`: 99 - 100 gives 0. -/
example : ∃ r, mixedDark (K := ℚ) (.ints uint16 (Img.const 2 2 99)) (.ints int16 (Img.const 2 2 100)) = .ok (.ints ⟨32, true⟩ r) ∧
    r.px 0 0 = 0 := by
  have o : ∀ (t : IntType) (c : Int), t.Holds c → (Img.const 2 2 c).OfType t := by
    intro t c h y x hy hx
    rw [show (Img.const 2 2 c).px y x = c from Img.ofFn_px hy hx]
    exact h
  have nn : ∀ c : Int, 0 ≤ c → ∀ y x, 0 ≤ (Img.const 2 2 c).px y x := by
    intro c hc y x
    by_cases h : y < 2 ∧ x < 2
    · rw [show (Img.const 2 2 c).px y x = c from Img.ofFn_px h.1 h.2]
      exact hc
    · have : (Img.const 2 2 c).px y x = 0 := (Img.const 2 2 c).out y x (fun h' => h h')
      rw [this]
  obtain ⟨r, e, -, hp⟩ := C116_dark (K := ℚ) (t := uint16) (u := int16) (v := ⟨32, true⟩) (.inr (.inl rfl)) (.inr (.inl rfl)) rfl
    (.inr rfl) (Img.const 2 2 99) (Img.const 2 2 100) ⟨rfl, rfl⟩
    (o _ _ (by unfold IntType.Holds uint16; norm_num)) (o _ _ (by unfold IntType.Holds int16; norm_num)) (nn 99 (by decide)) (nn 100 (by decide))
  exact ⟨r, e, (hp 0 0 (by show 0 < 2; decide) (by show 0 < 2; decide)).trans rfl⟩

end Micropol

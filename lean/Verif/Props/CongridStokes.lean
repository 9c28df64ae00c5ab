import Verif.Lemmas.Blend
import Verif.Props.ObjectPixels
import Verif.Props.PilRotate

/-!
# Polarization of resampled images: C102

`Op.congrid i newY newX` is `images[i].congrid(newY, newX)`; `Returns` says that it returns.
-/

set_option autoImplicit false

namespace Micropol

open Classical Finset

noncomputable section

/-- A position in the rectangle of pixels, for all arrays of one size at once. -/
theorem IsBilinear.at_position {A : Img ℝ} {u w v : ℝ} (h : IsBilinear A u w v) :
    ∃ (y x : Nat) (s t : ℝ), y + 1 < A.h ∧ x + 1 < A.w ∧ 0 ≤ s ∧ s ≤ 1 ∧ 0 ≤ t ∧ t ≤ 1 ∧
      ∀ (B : Img ℝ) (v' : ℝ), B.h = A.h → B.w = A.w →
        (IsBilinear B u w v' ↔
          v' = (1 - s) * ((1 - t) * B.px y x + t * B.px y (x + 1)) + s * ((1 - t) * B.px (y + 1) x + t * B.px (y + 1) (x + 1))) := by
  obtain ⟨y, x, s, t, hy, hx, s0, s1, t0, t1, hu, hw, -⟩ := h
  refine ⟨y, x, s, t, hy, hx, s0, s1, t0, t1, fun B v' e1 e2 => ?_⟩
  have hB : ∀ v', v' = (1 - s) * ((1 - t) * B.px y x + t * B.px y (x + 1)) +
      s * ((1 - t) * B.px (y + 1) x + t * B.px (y + 1) (x + 1)) → IsBilinear B u w v' := fun v' e =>
    ⟨y, x, s, t, by omega, by omega, s0, s1, t0, t1, hu, hw, e⟩
  exact ⟨fun h => C70_bilinear_unique h (hB _ rfl), hB v'⟩

/-- Three maps of one size, resampled in the same way, are light of the source added up. -/
theorem resampled_blend {S T : Fin 3 → Img ℝ} (hS : SameShape S) {h w : Nat} (hT : ∀ q, IsResampled (S q) h w (T q)) :
    SameShape T ∧ IsBlend S T := by
  refine ⟨fun q => ⟨(hT q).1.trans (hT 0).1.symm, (hT q).2.1.trans (hT 0).2.1.symm⟩, fun Y X hY hX => ?_⟩
  rw [(hT 0).1] at hY
  rw [(hT 0).2.1] at hX
  obtain ⟨y, x, s, t, hy, hx, s0, s1, t0, t1, hpos⟩ := ((hT 0).2.2 Y X hY hX).at_position
  have hval : ∀ q, (T q).px Y X = (1 - s) * ((1 - t) * (S q).px y x + t * (S q).px y (x + 1)) +
      s * ((1 - t) * (S q).px (y + 1) x + t * (S q).px (y + 1) (x + 1)) := by
    intro q
    refine (hpos (S q) _ (hS q).1 (hS q).2).1 ?_
    have := (hT q).2.2 Y X hY hX
    rwa [(hS q).1, (hS q).2] at this
  refine ⟨{y, y + 1} ×ˢ {x, x + 1}, fun p => (if p.1 = y then 1 - s else s) * (if p.2 = x then 1 - t else t), ?_, fun q => ?_⟩
  · intro p hp
    simp only [mem_product, mem_insert, mem_singleton] at hp
    refine ⟨by omega, by omega, mul_nonneg ?_ ?_⟩
    · split <;> linarith
    · split <;> linarith
  · rw [hval q, sum_product, sum_pair (by omega), sum_pair (by omega), sum_pair (by omega)]
    simp only [if_true, if_neg (show ¬ y + 1 = y by omega), if_neg (show ¬ x + 1 = x by omega)]
    ring

/-- C102: I, Q, U of the result are those of the source, resampled to the size of the pixel data. -/
theorem C102_stokes_partial (ops : List Op) (i k n newY newX : Nat) (hk : (runOps ops).images[i]? = some k)
    (hn : Returns ops (.congrid i newY newX) n)
    (hS : ∀ q, 2 ≤ ((runOps ops).stokes k q).h ∧ 2 ≤ ((runOps ops).stokes k q).w) (hY : 2 ≤ newY) (hX : 2 ≤ newX) (q : Fin 3) :
    IsResampled ((runOps ops).stokes k q) (2 * (newY / 2)) (2 * (newX / 2))
      ((runOps (ops ++ [.congrid i newY newX])).stokes n q) := by
  obtain ⟨h1, h2⟩ := returned_data hn rfl hk
  have hC : (runOps (ops ++ [.congrid i newY newX])).stokes n = _ := congrArg (fun v => v.stokes.planes) h2
  have h3 : congrid ((runOps ops).stokes k q) (2 * (newY / 2)) (2 * (newX / 2)) =
      .ok ((runOps (ops ++ [.congrid i newY newX])).stokes n q) := by
    have e : (Op.congrid i newY newX).value (runOps ops) ((runOps ops).heap.view k) =
      congridV newY newX ((runOps ops).heap.view k) := rfl
    rw [e] at h1 hC
    unfold congridV at h1 hC
    obtain ⟨d, hd, e1⟩ := withVal_ok h1
    rw [e1] at h1 hC
    obtain ⟨s0, d0, e2⟩ := withVal_ok h1
    rw [e2] at h1 hC
    obtain ⟨s1, d1, e3⟩ := withVal_ok h1
    rw [e3] at h1 hC
    obtain ⟨s2, d2, e4⟩ := withVal_ok h1
    rw [e4] at hC
    rw [hC]
    rw [show (if newY % 2 = 1 then newY - 1 else newY) = 2 * (newY / 2) by split <;> omega,
      show (if newX % 2 = 1 then newX - 1 else newX) = 2 * (newX / 2) by split <;> omega] at d0 d1 d2
    fin_cases q
    · exact d0
    · exact d1
    · exact d2
  obtain ⟨B, hB, hr⟩ := C70_resampled ((runOps ops).stokes k q) (2 * (newY / 2)) (2 * (newX / 2)) (hS q) (by omega) (by omega)
  have : B = _ := Except.ok.inj (hB.symm.trans h3)
  rw [← this]
  exact hr

/-- C102: resampling never raises the degree of polarization of the maps. -/
theorem C102_depolarizes (ops : List Op) (i k n newY newX : Nat) (hk : (runOps ops).images[i]? = some k)
    (hn : Returns ops (.congrid i newY newX) n) (hY : 2 ≤ newY) (hX : 2 ≤ newX) :
    let S := (runOps ops).stokes k
    let T := (runOps (ops ++ [.congrid i newY newX])).stokes n
    (∀ q, 2 ≤ (S q).h ∧ 2 ≤ (S q).w) → SameShape S →
    (∀ y x, y < (S 0).h → x < (S 0).w → 0 ≤ (S 0).px y x ∧ ((S 0).px y x = 0 → (S 1).px y x = 0 ∧ (S 2).px y x = 0)) →
    ∃ D E, DoLP S = .ok D ∧ DoLP T = .ok E ∧ ∀ M, 0 ≤ M → (∀ y x, y < (S 0).h → x < (S 0).w → D.px y x ≤ M) →
      ∀ y x, y < 2 * (newY / 2) → x < 2 * (newX / 2) → 0 ≤ E.px y x ∧ E.px y x ≤ M := by
  intro S T h2 hS hpos
  have hr := C102_stokes_partial ops i k n newY newX hk hn h2 hY hX
  obtain ⟨hT, hb⟩ := resampled_blend hS hr
  obtain ⟨D, hD, -⟩ := C19_total S hS
  obtain ⟨E, hE, -⟩ := C19_total T hT
  refine ⟨D, E, hD, hE, fun M hM0 hM y x hy hx => hb.dolp hS hT hpos hD hE hM0 hM y x ?_ ?_⟩
  · rw [(hr 0).1]; exact hy
  · rw [(hr 0).2.1]; exact hx

/-- C102: I, Q, U computed from the pixels of the result are those computed from the pixels of the source, resampled. -/
theorem C102_pixels (ops : List Op) (i k n newY newX : Nat) (hk : (runOps ops).images[i]? = some k)
    (hn : Returns ops (.congrid i newY newX) n) (hA : 4 ≤ ((runOps ops).data k).h ∧ 4 ≤ ((runOps ops).data k).w)
    (hY : 4 ≤ newY) (hX : 4 ≤ newX) (L : Layout) (dic : AngleDic) (hL : L.Describes dic) :
    ∃ S T, dataStokes ((runOps ops).data k) dic = .ok S ∧
      dataStokes ((runOps (ops ++ [.congrid i newY newX])).data n) dic = .ok T ∧
      ∀ q, IsResampled (S q) (newY / 2) (newX / 2) (T q) := by
  obtain ⟨hs, hf⟩ := C77_congrid ops i k n newY newX hk hn hA hY hX
  obtain ⟨e1, e2⟩ := even_named hk
  obtain ⟨S, hS, hSs, hSp⟩ := C17_stokes ((runOps ops).data k) e1 e2 L dic hL
  obtain ⟨T, hT, hTs, hTp⟩ := C17_stokes ((runOps (ops ++ [.congrid i newY newX])).data n)
    (by rw [hs.1]; omega) (by rw [hs.2]; omega) L dic hL
  have t1 : ((runOps (ops ++ [.congrid i newY newX])).data n).h / 2 = newY / 2 := by rw [hs.1]; omega
  have t2 : ((runOps (ops ++ [.congrid i newY newX])).data n).w / 2 = newX / 2 := by rw [hs.2]; omega
  have px : ∀ (A : Img ℝ) (a b y x : Nat), y < A.h / 2 → x < A.w / 2 → (A.family a b).px y x = A.px (2 * y + a) (2 * x + b) :=
    fun A a b y x hy hx => Img.ofFn_px hy hx
  refine ⟨S, T, hS, hT, fun q => ⟨(hTs q).1.trans t1, (hTs q).2.trans t2, fun Y X hYY hXX => ?_⟩⟩
  have h00 := (hf 0 0 (by decide) (by decide)).2.2 Y X hYY hXX
  have fh : ∀ a b, (((runOps ops).data k).family a b).h = ((runOps ops).data k).h / 2 := fun a b => rfl
  have fw : ∀ a b, (((runOps ops).data k).family a b).w = ((runOps ops).data k).w / 2 := fun a b => rfl
  obtain ⟨y, x, s, t, hy, hx, s0, s1, t0, t1', hpos⟩ := h00.at_position
  rw [fh] at hy
  rw [fw] at hx
  have hv : ∀ z : Fin 4, ((runOps (ops ++ [.congrid i newY newX])).data n).px (2 * Y + z.val / 2) (2 * X + z.val % 2) =
      (1 - s) * ((1 - t) * ((runOps ops).data k).px (2 * y + z.val / 2) (2 * x + z.val % 2) +
        t * ((runOps ops).data k).px (2 * y + z.val / 2) (2 * (x + 1) + z.val % 2)) +
      s * ((1 - t) * ((runOps ops).data k).px (2 * (y + 1) + z.val / 2) (2 * x + z.val % 2) +
        t * ((runOps ops).data k).px (2 * (y + 1) + z.val / 2) (2 * (x + 1) + z.val % 2)) := by
    intro z
    have hz1 : z.val / 2 < 2 := by have := z.isLt; omega
    have hz2 : z.val % 2 < 2 := by omega
    have := (hpos (((runOps ops).data k).family (z.val / 2) (z.val % 2)) _ rfl rfl).1
      ((hf (z.val / 2) (z.val % 2) hz1 hz2).2.2 Y X hYY hXX)
    rw [px _ _ _ Y X (by rw [t1]; exact hYY) (by rw [t2]; exact hXX), px _ _ _ y x (by omega) (by omega),
      px _ _ _ y (x + 1) (by omega) (by omega), px _ _ _ (y + 1) x (by omega) (by omega),
      px _ _ _ (y + 1) (x + 1) (by omega) (by omega)] at this
    exact this
  have hTq := hTp Y X (by rw [t1]; exact hYY) (by rw [t2]; exact hXX)
  have a00 := hSp y x (by omega) (by omega)
  have a01 := hSp y (x + 1) (by omega) (by omega)
  have a10 := hSp (y + 1) x (by omega) (by omega)
  have a11 := hSp (y + 1) (x + 1) (by omega) (by omega)
  dsimp only at hTq a00 a01 a10 a11
  have e1' : (S q).h = (((runOps ops).data k).family 0 0).h := (hSs q).1
  have e2' : (S q).w = (((runOps ops).data k).family 0 0).w := (hSs q).2
  rw [e1', e2']
  refine (hpos (S q) _ e1' e2').2 ?_
  fin_cases q
  · show (T 0).px Y X = (1 - s) * ((1 - t) * (S 0).px y x + t * (S 0).px y (x + 1)) +
      s * ((1 - t) * (S 0).px (y + 1) x + t * (S 0).px (y + 1) (x + 1))
    rw [hTq.1, a00.1, a01.1, a10.1, a11.1, hv 0, hv 1, hv 2, hv 3]
    ring
  · show (T 1).px Y X = (1 - s) * ((1 - t) * (S 1).px y x + t * (S 1).px y (x + 1)) +
      s * ((1 - t) * (S 1).px (y + 1) x + t * (S 1).px (y + 1) (x + 1))
    rw [hTq.2.1, a00.2.1, a01.2.1, a10.2.1, a11.2.1, hv, hv]
    ring
  · show (T 2).px Y X = (1 - s) * ((1 - t) * (S 2).px y x + t * (S 2).px y (x + 1)) +
      s * ((1 - t) * (S 2).px (y + 1) x + t * (S 2).px (y + 1) (x + 1))
    rw [hTq.2.2, a00.2.2, a01.2.2, a10.2.2, a11.2.2, hv, hv]
    ring

/-- C102: resampling to the size of the image keeps all pixels. -/
theorem C102_same_size_partial (ops : List Op) (i k n : Nat) (hk : (runOps ops).images[i]? = some k)
    (hn : Returns ops (.congrid i ((runOps ops).data k).h ((runOps ops).data k).w) n)
    (hA : 4 ≤ ((runOps ops).data k).h ∧ 4 ≤ ((runOps ops).data k).w) :
    (runOps (ops ++ [.congrid i ((runOps ops).data k).h ((runOps ops).data k).w])).data n = (runOps ops).data k := by
  obtain ⟨hs, hf⟩ := C77_congrid ops i k n _ _ hk hn hA hA.1 hA.2
  obtain ⟨e1, e2⟩ := even_named hk
  have e1' : ((runOps ops).data k).h % 2 = 0 := e1
  have e2' : ((runOps ops).data k).w % 2 = 0 := e2
  refine image_of_families ⟨e1, e2⟩ ⟨hs.1.trans (by omega), hs.2.trans (by omega)⟩ fun a b ha hb => ?_
  obtain ⟨g1, g2, g3⟩ := hf a b ha hb
  refine Img.ext_px g1 g2 fun y x hy hx => ?_
  rw [g1] at hy
  rw [g2] at hx
  have fh : (((runOps ops).data k).family a b).h = ((runOps ops).data k).h / 2 := rfl
  have fw : (((runOps ops).data k).family a b).w = ((runOps ops).data k).w / 2 := rfl
  have f : ∀ m j : Nat, 2 ≤ m → ((m : ℝ) - 1) * j / ((m : ℝ) - 1) = j := by
    intro m j hm
    have : (2 : ℝ) ≤ m := by exact_mod_cast hm
    rw [mul_div_assoc, mul_div_cancel₀]
    linarith
  have h := g3 y x hy hx
  rw [fh, fw, f _ _ (by omega), f _ _ (by omega)] at h
  exact C70_bilinear_unique h (bilinear_at hy hx ⟨by rw [fh]; omega, by rw [fw]; omega⟩)

/-! ## What does not hold -/

/-- C102, violation: the maps of the result never are the ones that belong to its pixels, they have twice the size. -/
theorem C102_never_consistent (ops : List Op) (i k n newY newX : Nat) (hk : (runOps ops).images[i]? = some k)
    (hn : Returns ops (.congrid i newY newX) n) (hA : 4 ≤ ((runOps ops).data k).h ∧ 4 ≤ ((runOps ops).data k).w)
    (hS : ∀ q, 2 ≤ ((runOps ops).stokes k q).h ∧ 2 ≤ ((runOps ops).stokes k q).w) (hY : 4 ≤ newY) (hX : 4 ≤ newX) (dic : AngleDic) :
    dataStokes ((runOps (ops ++ [.congrid i newY newX])).data n) dic ≠
      .ok ((runOps (ops ++ [.congrid i newY newX])).stokes n) := by
  intro h
  have h1 := (C102_stokes_partial ops i k n newY newX hk hn hS (by omega) (by omega) 0).1
  have h2 := (dataStokes_half h 0).1
  rw [h1, (C77_congrid ops i k n newY newX hk hn hA hY hX).1.1] at h2
  omega

/-- C102, violation: also `congrid` to the size that the image has changes I, Q and U. -/
theorem C102_same_size_changes_stokes : ∃ (ops : List Op) (n : Nat), (runOps ops).images[0]? = some 0 ∧
    ((runOps ops).data 0).HasShape 4 4 ∧ Returns ops (.congrid 0 4 4) n ∧
    (runOps (ops ++ [.congrid 0 4 4])).data n = (runOps ops).data 0 ∧
    (∀ q, ((runOps ops).stokes 0 q).HasShape 2 2) ∧
    ∀ q, ((runOps (ops ++ [.congrid 0 4 4])).stokes n q).HasShape 4 4 := by
  obtain ⟨h1, h2, h3⟩ := session_of_array (Img.const 4 4 1) rfl rfl
  have hth : ∀ o ∈ [Op.fromArray (Img.const 4 4 (1 : ℝ)) none none none fun _ _ => 0], o.theoretical = true := by
    intro o ho
    rw [List.mem_singleton.1 ho]
    rfl
  have hsz : ((runOps [.fromArray (Img.const 4 4 (1 : ℝ)) none none none fun _ _ => 0]).data 0).HasShape 4 4 := by
    rw [h2]; exact ⟨rfl, rfl⟩
  obtain ⟨n, hn⟩ := (C77_theoretical_return _ hth 0 0 h1).2 4 4 (by rw [hsz.1]) (by rw [hsz.2]) le_rfl le_rfl
  have hs : ∀ q, ((runOps [.fromArray (Img.const 4 4 (1 : ℝ)) none none none fun _ _ => 0]).stokes 0 q).HasShape 2 2 :=
    fun q => dataStokes_half h3 q
  refine ⟨_, n, h1, hsz, hn, ?_, hs, fun q => ?_⟩
  · have := C102_same_size_partial _ 0 0 n h1 (by rw [hsz.1, hsz.2]; exact hn) ⟨by rw [hsz.1], by rw [hsz.2]⟩
    rw [hsz.1, hsz.2] at this
    exact this
  · obtain ⟨a, b, -⟩ := C102_stokes_partial _ 0 0 n 4 4 h1 hn (fun q => ⟨by rw [(hs q).1], by rw [(hs q).2]⟩) (by decide) (by decide) q
    exact ⟨a, b⟩

end

end Micropol

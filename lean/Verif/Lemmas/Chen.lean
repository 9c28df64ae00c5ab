import Verif.Spec.Chen
import Verif.Lemmas.Prepare
import Verif.Lemmas.Split
import Verif.Lemmas.Demosaic
import Verif.Basic.Tile
import Mathlib.Tactic.FieldSimp
import Mathlib.Tactic.Positivity

/-! # Lemmas on the Chen-Wang-Liang calibration matrices -/

set_option autoImplicit false

namespace Micropol

noncomputable section

open Classical Finset

/-! ## Pseudo-inverses -/

theorem moorePenrose_unique {m n : Nat} {M : Matrix (Fin m) (Fin n) ℝ} {P Q : Matrix (Fin n) (Fin m) ℝ} (hP : IsMoorePenrose M P)
    (hQ : IsMoorePenrose M Q) : P = Q := by
  obtain ⟨p1, p2, p3, p4⟩ := hP
  obtain ⟨q1, q2, q3, q4⟩ := hQ
  have e1 : M * P = M * Q := by
    calc M * P = (M * P).transpose := p3.symm
      _ = ((M * Q * M) * P).transpose := by rw [q1]
      _ = ((M * Q) * (M * P)).transpose := by rw [Matrix.mul_assoc (M * Q) M P]
      _ = (M * P).transpose * (M * Q).transpose := Matrix.transpose_mul _ _
      _ = (M * P) * (M * Q) := by rw [p3, q3]
      _ = M * P * M * Q := by rw [← Matrix.mul_assoc (M * P) M Q]
      _ = M * Q := by rw [p1]
  have e2 : P * M = Q * M := by
    calc P * M = (P * M).transpose := p4.symm
      _ = (P * (M * Q * M)).transpose := by rw [q1]
      _ = ((P * M) * (Q * M)).transpose := by rw [Matrix.mul_assoc M Q M, ← Matrix.mul_assoc P M (Q * M)]
      _ = (Q * M).transpose * (P * M).transpose := Matrix.transpose_mul _ _
      _ = (Q * M) * (P * M) := by rw [p4, q4]
      _ = Q * (M * P * M) := by rw [Matrix.mul_assoc Q M (P * M), ← Matrix.mul_assoc M P M]
      _ = Q * M := by rw [p1]
  calc P = P * M * P := p2.symm
    _ = Q * M * P := by rw [e2]
    _ = Q * (M * P) := Matrix.mul_assoc _ _ _
    _ = Q * (M * Q) := by rw [e1]
    _ = Q * M * Q := (Matrix.mul_assoc _ _ _).symm
    _ = Q := q2

theorem sqLen_pos {n : Nat} {v : Fin n → ℝ} (h : v ≠ 0) : 0 < sqLen v := by
  unfold sqLen
  obtain ⟨k, hk⟩ : ∃ k, v k ≠ 0 := by
    by_contra hc
    push Not at hc
    exact h (funext hc)
  refine sum_pos' (fun i _ => mul_self_nonneg _) ⟨k, mem_univ _, ?_⟩
  exact mul_self_pos.2 hk

theorem sqLen_nonneg {n : Nat} (v : Fin n → ℝ) : 0 ≤ sqLen v := sum_nonneg fun _ _ => mul_self_nonneg _

/-- The pseudo-inverse of a product of a column and a row. -/
theorem rankOne_pinv {m n : Nat} (u : Fin m → ℝ) (v : Fin n → ℝ) :
    IsMoorePenrose (Matrix.of fun k l => u k * v l) (Matrix.of fun l k => v l * u k / (sqLen u * sqLen v)) := by
  by_cases hu : u = 0
  · subst hu
    have e1 : (Matrix.of fun k l => (0 : Fin m → ℝ) k * v l) = 0 := by ext; simp
    have e2 : (Matrix.of fun l k => v l * (0 : Fin m → ℝ) k / (sqLen (0 : Fin m → ℝ) * sqLen v)) = 0 := by ext; simp
    rw [e1, e2]
    refine ⟨by simp, by simp, by simp, by simp⟩
  by_cases hv : v = 0
  · subst hv
    have e1 : (Matrix.of fun k l => u k * (0 : Fin n → ℝ) l) = 0 := by ext; simp
    have e2 : (Matrix.of fun l k => (0 : Fin n → ℝ) l * u k / (sqLen u * sqLen (0 : Fin n → ℝ))) = 0 := by ext; simp
    rw [e1, e2]
    refine ⟨by simp, by simp, by simp, by simp⟩
  have pu := sqLen_pos hu
  have pv := sqLen_pos hv
  set M : Matrix (Fin m) (Fin n) ℝ := Matrix.of fun k l => u k * v l with hM
  set P : Matrix (Fin n) (Fin m) ℝ := Matrix.of fun l k => v l * u k / (sqLen u * sqLen v) with hP
  have e1 : M * P = Matrix.of fun k k' => u k * u k' / sqLen u := by
    ext k k'
    rw [Matrix.mul_apply]
    simp only [hM, hP, Matrix.of_apply]
    have : ∀ l, u k * v l * (v l * u k' / (sqLen u * sqLen v)) = (u k * u k' / (sqLen u * sqLen v)) * (v l * v l) := by
      intro l
      ring
    rw [sum_congr rfl fun l _ => this l, ← mul_sum]
    show u k * u k' / (sqLen u * sqLen v) * sqLen v = _
    field_simp
  have e2 : P * M = Matrix.of fun l l' => v l * v l' / sqLen v := by
    ext l l'
    rw [Matrix.mul_apply]
    simp only [hM, hP, Matrix.of_apply]
    have : ∀ k, v l * u k / (sqLen u * sqLen v) * (u k * v l') = (v l * v l' / (sqLen u * sqLen v)) * (u k * u k) := by
      intro k
      ring
    rw [sum_congr rfl fun k _ => this k, ← mul_sum]
    show v l * v l' / (sqLen u * sqLen v) * sqLen u = _
    field_simp
  refine ⟨?_, ?_, ?_, ?_⟩
  · rw [e1]
    ext k l
    rw [Matrix.mul_apply]
    simp only [hM, Matrix.of_apply]
    have : ∀ k', u k * u k' / sqLen u * (u k' * v l) = (u k * v l / sqLen u) * (u k' * u k') := by
      intro k'
      ring
    rw [sum_congr rfl fun k' _ => this k', ← mul_sum]
    show u k * v l / sqLen u * sqLen u = _
    field_simp
  · rw [e2]
    ext l k
    rw [Matrix.mul_apply]
    simp only [hP, Matrix.of_apply]
    have : ∀ l', v l * v l' / sqLen v * (v l' * u k / (sqLen u * sqLen v)) =
        (v l * u k / (sqLen v * (sqLen u * sqLen v))) * (v l' * v l') := by
      intro l'
      ring
    rw [sum_congr rfl fun l' _ => this l', ← mul_sum]
    show v l * u k / (sqLen v * (sqLen u * sqLen v)) * sqLen v = _
    field_simp
  · rw [e1]
    ext k k'
    simp only [Matrix.transpose_apply, Matrix.of_apply]
    ring
  · rw [e2]
    ext l l'
    simp only [Matrix.transpose_apply, Matrix.of_apply]
    ring

theorem pinvColumn_eq {env : ChenEnv} (he : env.PinvCorrect) (S : Fin 4 → ℝ) (k : Fin 4) :
    env.pinvColumn S k = S k / sqLen S := by
  have h1 := he.1 S
  have h2 := rankOne_pinv S (fun _ : Fin 1 => (1 : ℝ))
  have e : (Matrix.of fun k (l : Fin 1) => S k * (fun _ : Fin 1 => (1 : ℝ)) l) = Matrix.of fun k (_ : Fin 1) => S k := by
    ext; simp
  rw [e] at h2
  have h := congrFun (congrFun (moorePenrose_unique h1 h2) 0) k
  simp only [Matrix.of_apply] at h
  rw [h]
  have : sqLen (fun _ : Fin 1 => (1 : ℝ)) = 1 := by simp [sqLen]
  rw [this]
  ring

theorem pinv_eq {env : ChenEnv} (he : env.PinvCorrect) (u : Fin 4 → ℝ) (v : Fin 3 → ℝ) :
    (env.pinv (fun k m => u k * v m)).getD (fun _ _ => 0) = fun m k => v m * u k / (sqLen u * sqLen v) := by
  obtain ⟨P, h1, h2⟩ := he.2 u v
  rw [h1]
  have := moorePenrose_unique h2 (rankOne_pinv u v)
  funext m k
  exact congrFun (congrFun this m) k

theorem sqLen_snoc (s : Fin 3 → ℝ) : sqLen ![s 0, s 1, s 2, 1] = sqLen s + 1 := by
  unfold sqLen
  rw [Fin.sum_univ_four, Fin.sum_univ_three]
  show s 0 * s 0 + s 1 * s 1 + s 2 * s 2 + 1 * 1 = _
  ring

theorem chenTurn_eq {env : ChenEnv} (he : env.PinvCorrect) (angles : Fin 4 → ℝ) (pos : Fin 4 → Fin 4) (p : Fin 4 → ℝ) :
    chenTurn env angles ![measured pos p 0, measured pos p 1, measured pos p 2, 1] p =
      (frameMatrix angles pos p, frameOffset pos p) := by
  obtain ⟨s, hs⟩ : ∃ s, s = measured pos p := ⟨_, rfl⟩
  unfold chenTurn frameMatrix frameOffset
  rw [← hs]
  have hq : ∀ k, env.pinvColumn ![s 0, s 1, s 2, 1] k = (![s 0, s 1, s 2, 1] : Fin 4 → ℝ) k / (sqLen s + 1) := by
    intro k
    rw [pinvColumn_eq he, sqLen_snoc]
  have hpos : 0 < sqLen s + 1 := by
    have := sqLen_nonneg s
    linarith
  have hW : (fun (k : Fin 4) (m : Fin 3) => p k * env.pinvColumn ![s 0, s 1, s 2, 1] m.castSucc) =
      fun k m => p k * (s m / (sqLen s + 1)) := by
    funext k m
    rw [hq]
    fin_cases m <;> rfl
  dsimp only
  rw [hW, pinv_eq he]
  refine Prod.ext ?_ ?_
  · funext i j
    dsimp only
    have hl : sqLen (fun m => s m / (sqLen s + 1)) = sqLen s / (sqLen s + 1) ^ 2 := by
      show (∑ m, s m / (sqLen s + 1) * (s m / (sqLen s + 1))) = (∑ m, s m * s m) / (sqLen s + 1) ^ 2
      rw [sum_div]
      refine sum_congr rfl fun m _ => ?_
      rw [div_mul_div_comm, sq]
    rw [hl]
    by_cases h0 : s = 0
    · rw [if_pos h0, h0]
      simp
    · rw [if_neg h0]
      have ps := sqLen_pos h0
      unfold idealResponse chenIdeal deg2rad
      by_cases hp : p = 0
      · rw [hp]
        simp
      · have pp := sqLen_pos hp
        field_simp
  · funext k
    dsimp only
    rw [hq]
    show p k * (1 / (sqLen s + 1)) = _
    ring

/-! ## Loops -/

theorem chenTiles_ok {h w : Nat} (hh : h % 2 = 0) (hw : w % 2 = 0) {block : Nat → Nat → Py (Fin 4 → ℝ)}
    (v : Nat → Nat → Fin 4 → ℝ) (hb : ∀ Y X, Y < h / 2 → X < w / 2 → block (2 * Y) (2 * X) = .ok (v Y X)) :
    chenTiles h w block = .ok (Img.ofFn h w (fun y x => v (y / 2) (x / 2) (famIdx y x))) := by
  unfold chenTiles
  have key := tileLoop (α := ℝ) 2 0 0 (h / 2) (w / 2) (b := h) (d := w) (Img.zeros h w)
    (fun y x => v (y / 2) (x / 2) (famIdx y x))
    (body := fun sy sx A => do
      let v ← block sy.toNat sx.toNat
      pure (Img.ofFn A.h A.w (fun y x =>
        if sy ≤ y ∧ (y : Int) < sy + 2 ∧ sx ≤ x ∧ (x : Int) < sx + 2 then
          v ⟨2 * ((y - sy.toNat) % 2) + (x - sx.toNat) % 2, by omega⟩
        else A.px y x)))
    (halfCount _ hh) (halfCount _ hw) ?_
  · simp only [Nat.cast_zero] at key
    rw [key]
    congr 1
    refine Img.ext_px rfl rfl ?_
    intro y x (hy : y < h) (hx : x < w)
    rw [Img.patch_px _ _ _ _ _ _ (by exact hy) (by exact hx), Img.ofFn_px hy hx, if_pos (by omega)]
  · intro Y X A hY hX hAh hAw _
    have hbv : block (((0 + Y * 2 : Nat) : Int)).toNat (((0 + X * 2 : Nat) : Int)).toNat = .ok (v Y X) := by
      rw [show (((0 + Y * 2 : Nat) : Int)).toNat = 2 * Y by omega, show (((0 + X * 2 : Nat) : Int)).toNat = 2 * X by omega]
      exact hb Y X hY hX
    refine (congrArg (fun z => z >>= _) hbv).trans ?_
    rw [Py.ok_bind, Py.pure_eq]
    congr 1
    refine Img.ext_px rfl rfl ?_
    intro y x (hy : y < A.h) (hx : x < A.w)
    rw [Img.ofFn_px hy hx, Img.patch_px _ _ _ _ _ _ hy hx]
    by_cases hc : 0 + Y * 2 ≤ y ∧ y < 0 + Y * 2 + 2 ∧ 0 + X * 2 ≤ x ∧ x < 0 + X * 2 + 2
    · rw [if_pos (by omega), if_pos hc]
      have t1 : y / 2 = Y := by omega
      have t2 : x / 2 = X := by omega
      rw [t1, t2]
      congr 1
      ext
      simp only [famIdx]
      omega
    · rw [if_neg (by omega), if_neg hc]

theorem chenFamily_read {A : Img ℝ} (hh : A.h % 2 = 0) (hw : A.w % 2 = 0) (k : Fin 4) {Y X : Nat} (hY : Y < A.h / 2)
    (hX : X < A.w / 2) : (chenFamily A k).read ((2 * Y / 2 : Nat) : Int) ((2 * X / 2 : Nat) : Int) =
      .ok (A.px (2 * Y + k.val / 2) (2 * X + k.val % 2)) := by
  have := k.isLt
  have h1 : Y < (chenFamily A k).h := by
    show Y < (A.h + 1 - k.val / 2) / 2
    omega
  have h2 : X < (chenFamily A k).w := by
    show X < (A.w + 1 - k.val % 2) / 2
    omega
  unfold Img.read Img.readE
  rw [show 2 * Y / 2 = Y by omega, show 2 * X / 2 = X by omega, Img.resolve_of_lt h1, Img.resolve_of_lt h2]
  exact congrArg Except.ok (Img.ofFn_px (by exact h1) (by exact h2))

/-- The four values of a superpixel. -/
def quad (A : Img ℝ) (Y X : Nat) (k : Fin 4) : ℝ := A.px (2 * Y + k.val / 2) (2 * X + k.val % 2)

theorem buildSInput_ok {A : Img ℝ} (hh : A.h % 2 = 0) (hw : A.w % 2 = 0) (pos : Fin 4 → Fin 4) :
    buildSInput A (pos 0) (pos 1) (pos 2) (pos 3) = .ok ![
      Img.ofFn A.h A.w (fun y x => measured pos (quad A (y / 2) (x / 2)) 0),
      Img.ofFn A.h A.w (fun y x => measured pos (quad A (y / 2) (x / 2)) 1),
      Img.ofFn A.h A.w (fun y x => measured pos (quad A (y / 2) (x / 2)) 2), Img.const A.h A.w 1] := by
  unfold buildSInput
  rw [chenTiles_ok hh hw (fun Y X _ => measured pos (quad A Y X) 0) (fun Y X hY hX => by
      rw [chenFamily_read hh hw _ hY hX, Py.ok_bind, chenFamily_read hh hw _ hY hX]; rfl), Py.ok_bind,
    chenTiles_ok hh hw (fun Y X _ => measured pos (quad A Y X) 1) (fun Y X hY hX => by
      rw [chenFamily_read hh hw _ hY hX, Py.ok_bind, chenFamily_read hh hw _ hY hX]; rfl), Py.ok_bind,
    chenTiles_ok hh hw (fun Y X _ => measured pos (quad A Y X) 2) (fun Y X hY hX => by
      rw [chenFamily_read hh hw _ hY hX, Py.ok_bind, chenFamily_read hh hw _ hY hX]; rfl), Py.ok_bind]
  rfl

theorem chenBlock_ok {A : Img ℝ} {Y X : Nat} (hY : Y < A.h / 2) (hX : X < A.w / 2) :
    chenBlock A (2 * Y) (2 * X) = .ok (quad A Y X) := by
  unfold chenBlock
  rw [if_pos (by omega)]
  rfl

/-- The planes of `S_input` for one frame. -/
def sPlanes (A : Img ℝ) (pos : Fin 4 → Fin 4) : Fin 4 → Img ℝ := ![
  Img.ofFn A.h A.w (fun y x => measured pos (quad A (y / 2) (x / 2)) 0),
  Img.ofFn A.h A.w (fun y x => measured pos (quad A (y / 2) (x / 2)) 1),
  Img.ofFn A.h A.w (fun y x => measured pos (quad A (y / 2) (x / 2)) 2), Img.const A.h A.w 1]

theorem sPlanes_at {A : Img ℝ} (pos : Fin 4 → Fin 4) {Y X : Nat} (hY : Y < A.h / 2) (hX : X < A.w / 2) :
    (fun m => (sPlanes A pos m).px (2 * Y) (2 * X)) =
      ![measured pos (quad A Y X) 0, measured pos (quad A Y X) 1, measured pos (quad A Y X) 2, 1] := by
  have e1 : 2 * Y / 2 = Y := by omega
  have e2 : 2 * X / 2 = X := by omega
  funext m
  fin_cases m
  · show (Img.ofFn A.h A.w _).px _ _ = measured pos (quad A Y X) 0
    rw [Img.ofFn_px (by omega) (by omega), e1, e2]
  · show (Img.ofFn A.h A.w _).px _ _ = measured pos (quad A Y X) 1
    rw [Img.ofFn_px (by omega) (by omega), e1, e2]
  · show (Img.ofFn A.h A.w _).px _ _ = measured pos (quad A Y X) 2
    rw [Img.ofFn_px (by omega) (by omega), e1, e2]
  · show (Img.ofFn A.h A.w _).px _ _ = (1 : ℝ)
    rw [Img.ofFn_px (by omega) (by omega)]

theorem chenPlaneC_ok {env : ChenEnv} (he : env.PinvCorrect) (angles : Fin 4 → ℝ) (pos : Fin 4 → Fin 4) {A : Img ℝ}
    (hh : A.h % 2 = 0) (hw : A.w % 2 = 0) (i j : Fin 4) :
    chenPlaneC env angles A (sPlanes A pos) i j =
      .ok (Img.ofFn A.h A.w (fun y x => frameMatrix angles pos (quad A (y / 2) (x / 2)) i j)) := by
  unfold chenPlaneC
  refine chenTiles_ok hh hw (fun Y X _ => frameMatrix angles pos (quad A Y X) i j) ?_
  intro Y X hY hX
  rw [chenBlock_ok hY hX, Py.ok_bind]
  dsimp only
  rw [sPlanes_at pos hY hX, chenTurn_eq he]
  rfl

theorem chenPlaneD_ok {env : ChenEnv} (he : env.PinvCorrect) (angles : Fin 4 → ℝ) (pos : Fin 4 → Fin 4) {A : Img ℝ}
    (hh : A.h % 2 = 0) (hw : A.w % 2 = 0) :
    chenPlaneD env angles A (sPlanes A pos) =
      .ok (Img.ofFn A.h A.w (fun y x => frameOffset pos (quad A (y / 2) (x / 2)) (famIdx y x))) := by
  unfold chenPlaneD
  refine chenTiles_ok hh hw (fun Y X => frameOffset pos (quad A Y X)) ?_
  intro Y X hY hX
  rw [chenBlock_ok hY hX, Py.ok_bind]
  dsimp only
  rw [sPlanes_at pos hY hX, chenTurn_eq he]
  rfl

/-! ## The whole function -/

section

variable {env : ChenEnv} {fs : Name → Option (Img ℝ)} {a : ChenArgs} {H W : Nat} {A : Name → Img ℝ} {D : Option (Img ℝ)}
  {F : Img ℝ} {M : ℝ} {pos : Fin 4 → Fin 4}

theorem ChenReadable.only (h : ChenReadable fs a H W A D F M pos) (k : Fin 4) : ∃ l, k = pos l := by
  have hinj : Function.Injective pos := by
    obtain ⟨h0, h1, h2, h3⟩ := h.positions
    intro i j hij
    have e : a.previsions (pos i) = a.previsions (pos j) := by rw [hij]
    fin_cases i <;> fin_cases j <;> first | rfl | (exfalso; revert e; simp only [Fin.zero_eta, Fin.mk_one, Fin.reduceFinMk, h0, h1, h2, h3]; norm_num)
  obtain ⟨l, hl⟩ := (Finite.injective_iff_surjective.1 hinj) k
  exact ⟨l, hl.symm⟩

theorem ChenReadable.angle (h : ChenReadable fs a H W A D F M pos) (l : Fin 4) :
    chenAngle a.previsions (a.previsions (pos l)) = .ok (pos l) := by
  have key : ∀ k, a.previsions k = a.previsions (pos l) → k = pos l := by
    intro k hk
    obtain ⟨m, rfl⟩ := h.only k
    obtain ⟨h0, h1, h2, h3⟩ := h.positions
    congr 1
    revert hk
    fin_cases m <;> fin_cases l <;> simp only [Fin.zero_eta, Fin.mk_one, Fin.reduceFinMk, h0, h1, h2, h3] <;> norm_num
  unfold chenAngle
  split_ifs with g3 g2 g1 g0
  · rw [key 3 g3]
  · rw [key 2 g2]
  · rw [key 1 g1]
  · rw [key 0 g0]
  · exfalso
    have := (pos l)
    obtain ⟨q, hq⟩ : ∃ q, q = pos l := ⟨_, rfl⟩
    rw [← hq] at g0 g1 g2 g3
    fin_cases q
    · exact g0 rfl
    · exact g1 rfl
    · exact g2 rfl
    · exact g3 rfl

/-- The flat of the code. -/
theorem chenFlat_ok (h : ChenReadable fs a H W A D F M pos) :
    ∃ G, chenFlat (some F) D = .ok G ∧ G.HasShape H W ∧ ∀ y x, y < H → x < W → G.px y x = litFlat F D y x := by
  obtain ⟨n, _, _, _, hF⟩ := h.flat
  rcases h.dark with ⟨_, rfl⟩ | ⟨_, d, _, _, _, rfl, hd⟩
  · exact ⟨F, rfl, hF, fun _ _ _ _ => rfl⟩
  · refine ⟨(Img.ofFn F.h F.w (fun y x => F.px y x - d.px y x)).map (fun v => if v > 0 then v else 1), ?_, hF, ?_⟩
    · show (npInto (fun u v : ℝ => u - v) F d >>= _) = _
      rw [npInto_ok (by rw [hF.1, hd.1]) (by rw [hF.2, hd.2])]
      rfl
    · intro y x hy hx
      rw [Img.map_px _ _ (by rw [Img.ofFn_h, hF.1]; exact hy) (by rw [Img.ofFn_w, hF.2]; exact hx),
        Img.ofFn_px (by rw [hF.1]; exact hy) (by rw [hF.2]; exact hx)]
      rfl

theorem foldl_max_ge (l : List ℝ) (p : ℝ) : p ≤ l.foldl max p ∧ (∀ v ∈ l, v ≤ l.foldl max p) ∧
    (l.foldl max p = p ∨ l.foldl max p ∈ l) := by
  induction l generalizing p with
  | nil => exact ⟨le_refl _, by simp, Or.inl rfl⟩
  | cons q l ih =>
    obtain ⟨h1, h2, h3⟩ := ih (max p q)
    rw [List.foldl_cons]
    refine ⟨le_trans (le_max_left _ _) h1, ?_, ?_⟩
    · intro v hv
      rcases List.mem_cons.1 hv with rfl | hv
      · exact le_trans (le_max_right _ _) h1
      · exact h2 v hv
    · rcases h3 with h3 | h3
      · rw [h3]
        rcases max_choice p q with h | h
        · rw [h]; exact Or.inl rfl
        · rw [h]; exact Or.inr (by simp)
      · exact Or.inr (List.mem_cons_of_mem _ h3)

theorem npMax_eq {G : Img ℝ} {m : ℝ} (h1 : ∃ y x, y < G.h ∧ x < G.w ∧ G.px y x = m)
    (h2 : ∀ y x, y < G.h → x < G.w → G.px y x ≤ m) : npMax G = .ok m := by
  have hmem : ∀ v, v ∈ pixelList G ↔ ∃ y x, y < G.h ∧ x < G.w ∧ G.px y x = v := by
    intro v
    unfold pixelList
    simp only [List.mem_flatMap, List.mem_map, List.mem_range]
    constructor
    · rintro ⟨y, hy, x, hx, rfl⟩
      exact ⟨y, x, hy, hx, rfl⟩
    · rintro ⟨y, x, hy, hx, rfl⟩
      exact ⟨y, hy, x, hx, rfl⟩
  unfold npMax
  have hin := (hmem m).2 h1
  match hl : pixelList G with
  | [] => rw [hl] at hin; simp at hin
  | p :: l =>
    rw [hl] at hin
    dsimp only
    congr 1
    obtain ⟨g1, g2, g3⟩ := foldl_max_ge l p
    have gm : l.foldl max p ∈ pixelList G := by
      rw [hl]
      rcases g3 with g3 | g3
      · rw [g3]; simp
      · exact List.mem_cons_of_mem _ g3
    obtain ⟨y, x, hy, hx, e⟩ := (hmem _).1 gm
    refine le_antisymm (by rw [← e]; exact h2 y x hy hx) ?_
    rcases List.mem_cons.1 hin with rfl | hv
    · exact g1
    · exact g2 m hv

/-- A frame after correction. -/
def cleanImg (A : Img ℝ) (D : Option (Img ℝ)) (F : Img ℝ) (M : ℝ) (H W : Nat) : Img ℝ :=
  Img.ofFn H W (cleanPixel A D F M)

theorem chenFrame_ok (h : ChenReadable fs a H W A D F M pos) {n : Name} (hn : n ∈ a.filenames) :
    chenFrame fs a D (Img.ofFn H W (fun y x => litFlat F D y x / M)) n = .ok (cleanImg (A n) D F M H W) := by
  obtain ⟨h1, h2⟩ := h.frames n hn
  obtain ⟨fl, _, hfl, _, hF⟩ := h.flat
  have last : ∀ v : Nat → Nat → ℝ, ∀ B : Img ℝ, B.HasShape H W → (∀ y x, y < H → x < W → B.px y x = v y x) →
      npBin (fun v f : ℝ => if f ≠ 0 then v / f else v) B (Img.ofFn H W (fun y x => litFlat F D y x / M)) =
        .ok (Img.ofFn H W (fun y x => if litFlat F D y x = 0 then v y x else v y x / (litFlat F D y x / M))) := by
    intro v B hB hv
    rw [npBin_ok (by rw [hB.1]; rfl) (by rw [hB.2]; rfl)]
    congr 1
    rw [hB.1, hB.2]
    refine Img.ofFn_congr fun y x hy hx => ?_
    rw [Img.ofFn_px hy hx, hv y x hy hx]
    by_cases h0 : litFlat F D y x = 0
    · rw [if_pos h0, if_neg (by rw [h0]; simp)]
    · rw [if_neg h0, if_pos (div_ne_zero h0 h.notDark)]
  unfold chenFrame openFits
  rw [h1, hfl]
  dsimp only
  rw [Py.ok_bind]
  rcases h.dark with ⟨hd, hD⟩ | ⟨nd, d, _, hd, _, hD, hds⟩
  · rw [hd]
    dsimp only
    rw [Py.pure_eq, Py.ok_bind, last (fun y x => (A n).px y x) (A n) h2 (fun _ _ _ _ => rfl)]
    rw [hD]
    rfl
  · rw [hd]
    dsimp only
    rw [show D = some d from hD]
    dsimp only
    rw [npInto_ok (by rw [h2.1, hds.1]) (by rw [h2.2, hds.2]), Py.ok_bind, Py.pure_eq, Py.ok_bind]
    rw [hD] at last
    rw [last (fun y x => max 0 ((A n).px y x - d.px y x)) ((Img.ofFn (A n).h (A n).w (fun y x => (A n).px y x - d.px y x)).map
      (fun v => if v ≥ 0 then v else 0)) h2 ?_]
    · rfl
    · intro y x hy hx
      rw [Img.map_px _ _ (by rw [Img.ofFn_h, h2.1]; exact hy) (by rw [Img.ofFn_w, h2.2]; exact hx),
        Img.ofFn_px (by rw [h2.1]; exact hy) (by rw [h2.2]; exact hx)]
      by_cases hc : (A n).px y x - d.px y x ≥ 0
      · rw [if_pos hc, max_eq_right hc]
      · rw [if_neg hc, max_eq_left (by linarith)]

theorem quad_clean {B : Img ℝ} (hh : H % 2 = 0) (hw : W % 2 = 0) {y x : Nat} (hy : y < H) (hx : x < W) :
    quad (cleanImg B D F M H W) (y / 2) (x / 2) = cleanSuper B D F M (y / 2) (x / 2) := by
  funext k
  have := k.isLt
  unfold quad cleanImg cleanSuper
  rw [Img.ofFn_px (by omega) (by omega)]

theorem chenFour_ok {α : Type} {f : Fin 4 → Py α} {g : Fin 4 → α} (h : ∀ i, f i = .ok (g i)) : chenFour f = .ok g := by
  unfold chenFour
  rw [h 0, h 1, h 2, h 3]
  simp only [Py.ok_bind, Py.pure_eq]
  congr 1
  funext i
  fin_cases i <;> rfl

/-- The result. -/
def chenC (a : ChenArgs) (A : Name → Img ℝ) (D : Option (Img ℝ)) (F : Img ℝ) (M : ℝ) (pos : Fin 4 → Fin 4) (i j : Fin 4) (y x : Nat) :
    ℝ :=
  (a.filenames.map (fun n => frameMatrix a.previsions pos (cleanSuper (A n) D F M (y / 2) (x / 2)) i j)).sum /
    (a.filenames.length : ℝ)

/-- The result. -/
def chenD (a : ChenArgs) (A : Name → Img ℝ) (D : Option (Img ℝ)) (F : Img ℝ) (M : ℝ) (pos : Fin 4 → Fin 4) (y x : Nat) : ℝ :=
  (a.filenames.map (fun n => frameOffset pos (cleanSuper (A n) D F M (y / 2) (x / 2)) (famIdx y x))).sum /
    (a.filenames.length : ℝ)

theorem openIf_some {n : Name} {d : Img ℝ} (hn : n ≠ []) (hd : fs n = some d) : openIf fs (some n) = .ok (some d) := by
  unfold openIf
  match n, hn with
  | c :: l, _ =>
    dsimp only
    unfold openFits
    rw [hd]
    rfl

theorem calculateChen_ok (he : env.PinvCorrect) (h : ChenReadable fs a H W A D F M pos) :
    calculateChen env fs a =
      .ok (fun i j => Img.ofFn H W (chenC a A D F M pos i j), Img.ofFn H W (chenD a A D F M pos)) := by
  have hperm : ((sortedPairs a.orientations a.filenames).map Prod.snd).Perm a.filenames := by
    have h1 : (sortedPairs a.orientations a.filenames).Perm (a.orientations.zip a.filenames) := List.perm_insertionSort pairLe _
    have h2 := h1.map Prod.snd
    rwa [List.map_snd_zip (by rw [h.len])] at h2
  obtain ⟨L, hL⟩ : ∃ L, L = sortedPairs a.orientations a.filenames := ⟨_, rfl⟩
  rw [← hL] at hperm
  have hmem : ∀ p ∈ L, p.2 ∈ a.filenames := fun p hp => hperm.mem_iff.1 (List.mem_map_of_mem hp)
  have hlen : L.length = a.filenames.length := by rw [← hperm.length_eq, List.length_map]
  have hne : a.filenames ≠ [] := by
    intro hc
    have := h.len
    rw [hc] at this
    have h0 := h.reference.1
    rw [List.length_eq_zero_iff.1 this] at h0
    simp at h0
  obtain ⟨q, L', hq⟩ : ∃ q L', L = q :: L' := by
    match L, hlen with
    | [], hl => exact absurd (List.length_eq_zero_iff.1 hl.symm) hne
    | q :: L', _ => exact ⟨q, L', rfl⟩
  obtain ⟨hh, hw⟩ := h.even
  unfold calculateChen
  rw [if_neg (by rw [h.len]; simp), if_neg]
  swap
  · rw [not_not]
    intro v hv
    simp only [normMinus, List.mem_cons, List.not_mem_nil, or_false] at hv
    obtain ⟨r0, r1, r2, r3⟩ := h.reference
    rcases hv with rfl | rfl | rfl | rfl <;> assumption
  dsimp only
  rw [← hL]
  have hfirst : openFirst fs L = .ok (A q.2) := by
    rw [hq]
    unfold openFirst openFits
    dsimp only
    rw [(h.frames q.2 (hmem q (by rw [hq]; simp))).1]
  have hA0 := (h.frames q.2 (hmem q (by rw [hq]; simp))).2
  rw [hfirst, Py.ok_bind, if_neg (by rw [h.noOcculter]; simp)]
  have hdark : openIf fs a.dark = .ok D := by
    rcases h.dark with ⟨h1, h2⟩ | ⟨n, d, h0, h1, h2, h3, h4⟩
    · rw [h1, h2]; rfl
    · rw [h1, h3]; exact openIf_some h0 h2
  have hflat : openIf fs a.flat = .ok (some F) := by
    obtain ⟨n, h0, h1, h2, _⟩ := h.flat
    rw [h1]
    exact openIf_some h0 h2
  obtain ⟨G, hG, hGs, hGp⟩ := chenFlat_ok h
  rw [hdark, Py.ok_bind, hflat, Py.ok_bind, hG, Py.ok_bind]
  have hmax : npMax G = .ok M := by
    obtain ⟨⟨y, x, hy, hx, e⟩, g2⟩ := h.greatest
    refine npMax_eq ⟨y, x, by rw [hGs.1]; exact hy, by rw [hGs.2]; exact hx, by rw [hGp y x hy hx]; exact e⟩ ?_
    intro y x hy hx
    rw [hGs.1] at hy
    rw [hGs.2] at hx
    rw [hGp y x hy hx]
    exact g2 y x hy hx
  rw [hmax, Py.ok_bind, if_neg h.notDark, npBin_ok (by rw [hGs.1]; exact hA0.1) (by rw [hGs.2]; exact hA0.2), Py.ok_bind]
  have hn : Img.ofFn (Img.zeros (A q.2).h (A q.2).w : Img ℝ).h (Img.zeros (A q.2).h (A q.2).w : Img ℝ).w (fun y x => G.px y x / M) =
      Img.ofFn H W (fun y x => litFlat F D y x / M) := by
    show Img.ofFn (A q.2).h (A q.2).w _ = _
    rw [hA0.1, hA0.2]
    exact Img.ofFn_congr fun y x hy hx => by rw [hGp y x hy hx]
  rw [hn, mapM_ok (g := fun p => cleanImg (A p.2) D F M H W) (fun p hp => chenFrame_ok h (hmem p hp)), Py.ok_bind]
  have hhd : (L.map (fun p => cleanImg (A p.2) D F M H W)).headD (Img.zeros 0 0) = cleanImg (A q.2) D F M H W := by
    rw [hq]
    rfl
  rw [hhd]
  show (stackFrames _ H W >>= _) = _
  unfold stackFrames
  rw [if_pos (by
    intro B hB
    obtain ⟨p, _, rfl⟩ := List.mem_map.1 hB
    exact ⟨rfl, rfl⟩), Py.ok_bind]
  rw [if_neg (by show ¬ (H % 2 = 1 ∨ W % 2 = 1); omega)]
  have a0 := h.angle 0
  have a1 := h.angle 1
  have a2 := h.angle 2
  have a3 := h.angle 3
  obtain ⟨p0, p1, p2, p3⟩ := h.positions
  rw [p0] at a0
  rw [p1] at a1
  rw [p2] at a2
  rw [p3] at a3
  rw [a0, Py.ok_bind, a1, Py.ok_bind, a2, Py.ok_bind, a3, Py.ok_bind]
  rw [mapM_ok (g := fun B => (B, sPlanes B pos)) (by
    intro B hB
    obtain ⟨p, _, rfl⟩ := List.mem_map.1 hB
    rw [buildSInput_ok (by exact hh) (by exact hw)]
    rfl), Py.ok_bind]
  rw [mapM_ok (g := fun BS => (fun i j => Img.ofFn H W (fun y x => frameMatrix a.previsions pos (quad BS.1 (y / 2) (x / 2)) i j),
      Img.ofFn H W (fun y x => frameOffset pos (quad BS.1 (y / 2) (x / 2)) (famIdx y x)))) (by
    intro BS hB
    obtain ⟨B, hB1, rfl⟩ := List.mem_map.1 hB
    obtain ⟨p, _, hp⟩ := List.mem_map.1 hB1
    rw [← hp]
    dsimp only
    rw [chenFour_ok (g := fun i j => Img.ofFn H W (fun y x => frameMatrix a.previsions pos
      (quad (cleanImg (A p.2) D F M H W) (y / 2) (x / 2)) i j)) (fun i => chenFour_ok fun j =>
        chenPlaneC_ok he a.previsions pos (A := cleanImg (A p.2) D F M H W) (by exact hh) (by exact hw) i j), Py.ok_bind,
      chenPlaneD_ok he a.previsions pos (A := cleanImg (A p.2) D F M H W) (by exact hh) (by exact hw)]
    rfl), Py.ok_bind, Py.pure_eq]
  congr 1
  refine Prod.ext ?_ ?_
  · funext i j
    unfold planesMean
    show Img.ofFn H W _ = _
    refine Img.ofFn_congr fun y x hy hx => ?_
    unfold chenC
    simp only [List.length_map, hlen, List.map_map]
    congr 1
    rw [← (hperm.map _).sum_eq, List.map_map]
    congr 1
    refine List.map_congr_left fun p hp => ?_
    simp only [Function.comp]
    rw [Img.ofFn_px hy hx, quad_clean hh hw hy hx]
  · unfold planesMean
    show Img.ofFn H W _ = _
    refine Img.ofFn_congr fun y x hy hx => ?_
    unfold chenD
    simp only [List.length_map, hlen, List.map_map]
    congr 1
    rw [← (hperm.map _).sum_eq, List.map_map]
    congr 1
    refine List.map_congr_left fun p hp => ?_
    simp only [Function.comp]
    rw [Img.ofFn_px hy hx, quad_clean hh hw hy hx]

end

end

end Micropol

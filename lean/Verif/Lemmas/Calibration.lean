import Verif.Model.Calibration
import Verif.Basic.Tile
import Mathlib.Tactic.FinCases

/-! # Auxiliary facts about the calibration worker -/

set_option autoImplicit false

namespace Micropol

noncomputable section

open Classical

/-- Everything the worker reports about one superpixel. -/
@[ext] structure Outcome where
  m : Fin 3 → Fin 4 → ℝ
  flag : ℝ
  tk : Fin 4 → ℝ
  eff : Fin 4 → ℝ
  phase : Fin 4 → ℝ
  cov : Fin 3 → Fin 3 → Fin 4 → ℝ
  chi : Fin 4 → ℝ

def ChunkState.at (st : ChunkState) (Y X : Nat) : Outcome where
  m i j := (st.mij i j).px Y X
  flag := st.fitFound.px Y X
  tk k := superPx st.tk (2 * Y) (2 * X) k
  eff k := superPx st.eff (2 * Y) (2 * X) k
  phase k := superPx st.phase (2 * Y) (2 * X) k
  cov a b k := superPx (st.cov a b) (2 * Y) (2 * X) k
  chi k := superPx st.chisq (2 * Y) (2 * X) k

/-- The shapes of all maps. -/
structure ChunkState.Shaped (st : ChunkState) (h w : Nat) : Prop where
  mij : ∀ i j, (st.mij i j).h = h / 2 ∧ (st.mij i j).w = w / 2
  fitFound : st.fitFound.h = h / 2 ∧ st.fitFound.w = w / 2
  tk : st.tk.h = h ∧ st.tk.w = w
  eff : st.eff.h = h ∧ st.eff.w = w
  phase : st.phase.h = h ∧ st.phase.w = w
  cov : ∀ a b, (st.cov a b).h = h ∧ (st.cov a b).w = w
  chisq : st.chisq.h = h ∧ st.chisq.w = w

/-- Content of the arrays before the superpixel is visited. -/
def ChunkInput.initOutcome (inp : ChunkInput) : Outcome where
  m _ _ := 0
  flag := 0
  tk _ := inp.tkb 0
  eff _ := inp.effb 0
  phase := inp.previsions
  cov _ _ _ := 0
  chi _ := 0

/-- The four fits, when all of them succeed. -/
def ChunkInput.fits (env : CalibEnv) (inp : ChunkInput) (y x : Nat) (k : Fin 4) :
    Option ((Fin 3 → ℝ) × (Fin 3 → Fin 3 → ℝ)) :=
  if ∀ p, (inp.fitCall y x k).ydata p = 0 then none else env.curveFit (inp.fitCall y x k)

/-- Result of a superpixel, from its previous content. -/
def stepOutcome (env : CalibEnv) (inp : ChunkInput) (Y X : Nat) (o : Outcome) : Outcome :=
  let theo := theoDemodulation env inp
  if ∃ k, superPx inp.occulter (2 * Y) (2 * X) k ≠ 0 then
    { o with m := theo, tk := fun _ => inp.tkb 0, eff := fun _ => inp.effb 0, phase := inp.previsions }
  else if h : ∀ k, (inp.fits env (2 * Y) (2 * X) k).isSome then
    let p := fun k => ((inp.fits env (2 * Y) (2 * X) k).get (h k)).1
    let c := fun k => ((inp.fits env (2 * Y) (2 * X) k).get (h k)).2
    let demod := env.pinv (modulationMatrix (fun k => p k 0) (fun k => p k 1) (fun k => p k 2))
    { m := if hasBigEntry demod then theo else demod
      flag := if hasBigEntry demod then 0 else 1
      tk := fun k => p k 0
      eff := fun k => p k 1
      phase := fun k => p k 2
      cov := fun a b k => c k a b
      chi := fun k => env.chisq (inp.fitCall (2 * Y) (2 * X) k) (p k) inp.dof }
  else { o with m := theo }

/-! ## The pixel loop -/

theorem fitPixels_spec (env : CalibEnv) (inp : ChunkInput) (y x : Nat) (ks : List (Fin 4)) (loc : FitLocals) :
    ((∃ k ∈ ks, inp.fits env y x k = none) ∧ (fitPixels env inp y x ks loc).2 = false) ∨
    ((∀ k ∈ ks, (inp.fits env y x k).isSome) ∧ (fitPixels env inp y x ks loc).2 = true ∧
      ∀ k, (k ∈ ks ∧ ∀ r, inp.fits env y x k = some r →
          (fitPixels env inp y x ks loc).1.params k = r.1 ∧
          (∀ a b, (fitPixels env inp y x ks loc).1.cov a b k = r.2 a b) ∧
          (fitPixels env inp y x ks loc).1.chi k = env.chisq (inp.fitCall y x k) r.1 inp.dof) ∨
        (k ∉ ks ∧ (fitPixels env inp y x ks loc).1.params k = loc.params k ∧
          (∀ a b, (fitPixels env inp y x ks loc).1.cov a b k = loc.cov a b k) ∧
          (fitPixels env inp y x ks loc).1.chi k = loc.chi k)) := by
  induction ks generalizing loc with
  | nil => right; exact ⟨by simp, rfl, fun k => Or.inr ⟨by simp, rfl, fun _ _ => rfl, rfl⟩⟩
  | cons k0 ks ih =>
    unfold fitPixels
    dsimp only
    by_cases hz : ∀ p, (inp.fitCall y x k0).ydata p = 0
    · left
      rw [if_pos hz]
      exact ⟨⟨k0, by simp, by unfold ChunkInput.fits; rw [if_pos hz]⟩, rfl⟩
    · rw [if_neg hz]
      have hf : inp.fits env y x k0 = env.curveFit (inp.fitCall y x k0) := by
        unfold ChunkInput.fits; rw [if_neg hz]
      cases hc : env.curveFit (inp.fitCall y x k0) with
      | none =>
        left
        exact ⟨⟨k0, by simp, hf.trans hc⟩, rfl⟩
      | some r =>
        obtain ⟨p, c⟩ := r
        dsimp only
        rw [hc] at hf
        rcases ih { params := fun k' => if k' = k0 then p else loc.params k'
                    cov := fun a b k' => if k' = k0 then c a b else loc.cov a b k'
                    chi := fun k' => if k' = k0 then env.chisq (inp.fitCall y x k0) p inp.dof
                      else loc.chi k' } with ⟨⟨k, hk, hn⟩, h2⟩ | ⟨hall, h2, hv⟩
        · left
          exact ⟨⟨k, List.mem_cons_of_mem _ hk, hn⟩, h2⟩
        · right
          refine ⟨?_, h2, ?_⟩
          · intro k hk
            rcases List.mem_cons.1 hk with rfl | hk
            · rw [hf]; rfl
            · exact hall k hk
          · intro k
            rcases hv k with ⟨hk, h⟩ | ⟨hk, h3, h4, h5⟩
            · exact Or.inl ⟨List.mem_cons_of_mem _ hk, h⟩
            · by_cases hkk : k = k0
              · subst hkk
                left
                refine ⟨by simp, ?_⟩
                intro r hr
                rw [hf] at hr
                cases hr
                refine ⟨?_, ?_, ?_⟩
                · rw [h3]; simp
                · intro a b; rw [h4]; simp
                · rw [h5]; simp
              · right
                refine ⟨by simp [hkk, hk], ?_, ?_, ?_⟩
                · rw [h3]; simp [hkk]
                · intro a b; rw [h4]; simp [hkk]
                · rw [h5]; simp [hkk]

/-! ## Writing one superpixel -/

theorem setBlock_superPx {A : Img ℝ} {Y X Y' X' : Nat} (v : Fin 4 → ℝ) (k : Fin 4)
    (hY : 2 * Y' + 2 ≤ A.h) (hX : 2 * X' + 2 ≤ A.w) :
    superPx (setBlock A (2 * Y) (2 * X) v) (2 * Y') (2 * X') k =
      if Y' = Y ∧ X' = X then v k else superPx A (2 * Y') (2 * X') k := by
  unfold superPx setBlock
  rw [Img.ofFn_px (by omega) (by omega)]
  by_cases h : Y' = Y ∧ X' = X
  · obtain ⟨rfl, rfl⟩ := h
    rw [if_pos (by omega), if_pos ⟨rfl, rfl⟩]
    congr 1
    apply Fin.ext
    show 2 * ((2 * Y' + k.val / 2 - 2 * Y') % 2) + (2 * X' + k.val % 2 - 2 * X') % 2 = k.val
    omega
  · rw [if_neg (by omega), if_neg h]

theorem setPx_px {A : Img ℝ} {Y X Y' X' : Nat} (v : ℝ) (hY : Y' < A.h) (hX : X' < A.w) :
    (A.setPx Y X v).px Y' X' = if Y' = Y ∧ X' = X then v else A.px Y' X' := by
  unfold Img.setPx
  rw [Img.ofFn_px hY hX]

theorem superpixelBody_ok (env : CalibEnv) (inp : ChunkInput) {Y X : Nat} (st : ChunkState)
    (hY : 2 * Y + 2 ≤ inp.height) (hX : 2 * X + 2 ≤ inp.width) (hs : st.Shaped inp.height inp.width) :
    ∃ st', superpixelBody env inp ((2 * Y : Nat) : Int) ((2 * X : Nat) : Int) st = .ok st' ∧
      st'.Shaped inp.height inp.width ∧
      ∀ Y' X', 2 * Y' + 2 ≤ inp.height → 2 * X' + 2 ≤ inp.width →
        st'.at Y' X' = if Y' = Y ∧ X' = X then stepOutcome env inp Y X (st.at Y X) else st.at Y' X' := by
  obtain ⟨s1, s2, s3, s4, s5, s6, s7⟩ := hs
  unfold superpixelBody
  simp only [Int.toNat_natCast]
  rw [if_neg (by omega)]
  have e1 : 2 * Y / 2 = Y := by omega
  have e2 : 2 * X / 2 = X := by omega
  by_cases hocc : ∃ k, superPx inp.occulter (2 * Y) (2 * X) k ≠ 0
  · rw [if_neg (not_not.2 hocc), e1, e2]
    refine ⟨_, rfl, ⟨fun i j => s1 i j, s2, s3, s4, s5, s6, s7⟩, ?_⟩
    intro Y' X' hY' hX'
    have b1 : ∀ i j, Y' < (st.mij i j).h := fun i j => by rw [(s1 i j).1]; omega
    have b2 : ∀ i j, X' < (st.mij i j).w := fun i j => by rw [(s1 i j).2]; omega
    by_cases hh : Y' = Y ∧ X' = X
    · obtain ⟨rfl, rfl⟩ := hh
      rw [if_pos ⟨rfl, rfl⟩]
      unfold stepOutcome
      dsimp only
      rw [if_pos hocc]
      ext <;> dsimp only [ChunkState.at]
      · rw [setPx_px _ (b1 _ _) (b2 _ _), if_pos ⟨rfl, rfl⟩]
      · rw [setBlock_superPx _ _ (by rw [s3.1]; omega) (by rw [s3.2]; omega), if_pos ⟨rfl, rfl⟩]
      · rw [setBlock_superPx _ _ (by rw [s4.1]; omega) (by rw [s4.2]; omega), if_pos ⟨rfl, rfl⟩]
      · rw [setBlock_superPx _ _ (by rw [s5.1]; omega) (by rw [s5.2]; omega), if_pos ⟨rfl, rfl⟩]
    · rw [if_neg hh]
      ext <;> dsimp only [ChunkState.at]
      · rw [setPx_px _ (b1 _ _) (b2 _ _), if_neg hh]
      · rw [setBlock_superPx _ _ (by rw [s3.1]; omega) (by rw [s3.2]; omega), if_neg hh]
      · rw [setBlock_superPx _ _ (by rw [s4.1]; omega) (by rw [s4.2]; omega), if_neg hh]
      · rw [setBlock_superPx _ _ (by rw [s5.1]; omega) (by rw [s5.2]; omega), if_neg hh]
  · rw [if_pos hocc]
    have spec := fitPixels_spec env inp (2 * Y) (2 * X) [0, 1, 2, 3] st.locals
    generalize fitPixels env inp (2 * Y) (2 * X) [0, 1, 2, 3] st.locals = r at spec ⊢
    obtain ⟨loc, ok⟩ := r
    dsimp only at spec ⊢
    have hmem : ∀ k : Fin 4, k ∈ [(0 : Fin 4), 1, 2, 3] := by intro k; fin_cases k <;> simp
    rcases spec with ⟨⟨k, _, hk⟩, rfl⟩ | ⟨hall, rfl, hv⟩
    · unfold finishSuperpixel
      dsimp only
      rw [e1, e2]
      refine ⟨_, rfl, ⟨fun i j => s1 i j, s2, s3, s4, s5, s6, s7⟩, ?_⟩
      intro Y' X' hY' hX'
      have b1 : ∀ i j, Y' < (st.mij i j).h := fun i j => by rw [(s1 i j).1]; omega
      have b2 : ∀ i j, X' < (st.mij i j).w := fun i j => by rw [(s1 i j).2]; omega
      have hno : ¬ ∀ k, (inp.fits env (2 * Y) (2 * X) k).isSome := by
        intro h; have := h k; rw [hk] at this; cases this
      by_cases hh : Y' = Y ∧ X' = X
      · obtain ⟨rfl, rfl⟩ := hh
        rw [if_pos ⟨rfl, rfl⟩]
        unfold stepOutcome
        dsimp only
        rw [if_neg hocc, dif_neg hno]
        ext <;> dsimp only [ChunkState.at]
        rw [setPx_px _ (b1 _ _) (b2 _ _), if_pos ⟨rfl, rfl⟩]
      · rw [if_neg hh]
        ext <;> dsimp only [ChunkState.at]
        rw [setPx_px _ (b1 _ _) (b2 _ _), if_neg hh]
    · unfold finishSuperpixel
      dsimp only
      rw [e1, e2]
      have hall' : ∀ k, (inp.fits env (2 * Y) (2 * X) k).isSome := fun k => hall k (hmem k)
      have hv' : ∀ k, loc.params k = ((inp.fits env (2 * Y) (2 * X) k).get (hall' k)).1 ∧
          (∀ a b, loc.cov a b k = ((inp.fits env (2 * Y) (2 * X) k).get (hall' k)).2 a b) ∧
          loc.chi k = env.chisq (inp.fitCall (2 * Y) (2 * X) k)
            ((inp.fits env (2 * Y) (2 * X) k).get (hall' k)).1 inp.dof := by
        intro k
        rcases hv k with ⟨_, h⟩ | ⟨h, _⟩
        · exact h _ (Option.some_get (hall' k)).symm
        · exact absurd (hmem k) h
      have hp : loc.params = fun k => ((inp.fits env (2 * Y) (2 * X) k).get (hall' k)).1 :=
        funext fun k => (hv' k).1
      refine ⟨_, rfl, ⟨fun i j => s1 i j, s2, s3, s4, s5, s6, s7⟩, ?_⟩
      intro Y' X' hY' hX'
      have b1 : ∀ i j, Y' < (st.mij i j).h := fun i j => by rw [(s1 i j).1]; omega
      have b2 : ∀ i j, X' < (st.mij i j).w := fun i j => by rw [(s1 i j).2]; omega
      by_cases hh : Y' = Y ∧ X' = X
      · obtain ⟨rfl, rfl⟩ := hh
        have hself : Y' = Y' ∧ X' = X' := ⟨rfl, rfl⟩
        rw [if_pos hself]
        unfold stepOutcome
        dsimp only
        rw [if_neg hocc, dif_pos hall']
        ext <;> dsimp only [ChunkState.at]
        · rw [setPx_px _ (b1 _ _) (b2 _ _), if_pos hself, hp]
        · rw [setPx_px _ (by rw [s2.1]; omega) (by rw [s2.2]; omega), if_pos hself, hp]
        · rw [setBlock_superPx _ _ (by rw [s3.1]; omega) (by rw [s3.2]; omega), if_pos hself, hp]
        · rw [setBlock_superPx _ _ (by rw [s4.1]; omega) (by rw [s4.2]; omega), if_pos hself, hp]
        · rw [setBlock_superPx _ _ (by rw [s5.1]; omega) (by rw [s5.2]; omega), if_pos hself, hp]
        · rename_i a b k
          rw [setBlock_superPx _ _ (by rw [(s6 a b).1]; omega) (by rw [(s6 a b).2]; omega), if_pos hself,
            (hv' k).2.1]
        · rename_i k
          rw [setBlock_superPx _ _ (by rw [s7.1]; omega) (by rw [s7.2]; omega), if_pos hself, (hv' k).2.2]
      · rw [if_neg hh]
        ext <;> dsimp only [ChunkState.at]
        · rw [setPx_px _ (b1 _ _) (b2 _ _), if_neg hh]
        · rw [setPx_px _ (by rw [s2.1]; omega) (by rw [s2.2]; omega), if_neg hh]
        · rw [setBlock_superPx _ _ (by rw [s3.1]; omega) (by rw [s3.2]; omega), if_neg hh]
        · rw [setBlock_superPx _ _ (by rw [s4.1]; omega) (by rw [s4.2]; omega), if_neg hh]
        · rw [setBlock_superPx _ _ (by rw [s5.1]; omega) (by rw [s5.2]; omega), if_neg hh]
        · rename_i a b k
          rw [setBlock_superPx _ _ (by rw [(s6 a b).1]; omega) (by rw [(s6 a b).2]; omega), if_neg hh]
        · rw [setBlock_superPx _ _ (by rw [s7.1]; omega) (by rw [s7.2]; omega), if_neg hh]

theorem initState_shaped (inp : ChunkInput) : inp.initState.Shaped inp.height inp.width :=
  ⟨fun _ _ => ⟨rfl, rfl⟩, ⟨rfl, rfl⟩, ⟨rfl, rfl⟩, ⟨rfl, rfl⟩, ⟨rfl, rfl⟩, fun _ _ => ⟨rfl, rfl⟩, ⟨rfl, rfl⟩⟩

theorem initState_at (inp : ChunkInput) {Y X : Nat} (hY : 2 * Y + 2 ≤ inp.height)
    (hX : 2 * X + 2 ≤ inp.width) : inp.initState.at Y X = inp.initOutcome := by
  ext <;> dsimp only [ChunkState.at, ChunkInput.initState, ChunkInput.initOutcome, superPx, Img.zeros, Img.const]
  all_goals try rw [Img.ofFn_px (by omega) (by omega)]
  rename_i k
  congr 1
  apply Fin.ext
  show 2 * ((2 * Y + k.val / 2) % 2) + (2 * X + k.val % 2) % 2 = k.val
  omega

/-- The worker on a chunk with even sides: it never raises, and each superpixel holds its own outcome. -/
theorem computeByChunk_ok (env : CalibEnv) (inp : ChunkInput) {H W : Nat} (hH : inp.height = 2 * H)
    (hW : inp.width = 2 * W) :
    ∃ st, computeByChunk env inp = .ok st ∧ st.Shaped inp.height inp.width ∧
      ∀ Y X, Y < H → X < W → st.at Y X = stepOutcome env inp Y X inp.initOutcome := by
  obtain ⟨st, h1, h2, h3⟩ := forRange_inv (a := 0) (b := inp.height) (step := 2) (s := inp.initState)
    (body := fun superY st => forRange 0 inp.width 2 st fun superX st => superpixelBody env inp superY superX st)
    H (fun k st => st.Shaped inp.height inp.width ∧ ∀ Y X, Y < H → X < W →
      st.at Y X = if Y < k then stepOutcome env inp Y X inp.initOutcome else inp.initOutcome)
    (by rw [hH]; push_cast; omega)
    ⟨initState_shaped inp, fun Y X hY hX => by
      rw [if_neg (by omega), initState_at inp (by omega) (by omega)]⟩
    (by
      intro k st hk ⟨hs, hI⟩
      obtain ⟨st', g1, g2, g3⟩ := forRange_inv (a := 0) (b := inp.width) (step := 2) (s := st)
        (body := fun superX st => superpixelBody env inp (0 + (k : Int) * (2 : Nat)) superX st)
        W (fun m st => st.Shaped inp.height inp.width ∧ ∀ Y X, Y < H → X < W →
          st.at Y X = if Y < k ∨ (Y = k ∧ X < m) then stepOutcome env inp Y X inp.initOutcome
            else inp.initOutcome)
        (by rw [hW]; push_cast; omega)
        ⟨hs, fun Y X hY hX => by
          rw [hI Y X hY hX]
          by_cases h : Y < k
          · rw [if_pos h, if_pos (Or.inl h)]
          · rw [if_neg h, if_neg (by omega)]⟩
        (by
          intro m st1 hm ⟨hs1, hI1⟩
          obtain ⟨st2, b1, b2, b3⟩ := superpixelBody_ok env inp (Y := k) (X := m) st1 (by omega) (by omega) hs1
          refine ⟨st2, ?_, b2, ?_⟩
          · rw [← b1]
            congr 1
            · push_cast; ring
            · push_cast; ring
          · intro Y X hY hX
            rw [b3 Y X (by omega) (by omega)]
            by_cases h : Y = k ∧ X = m
            · obtain ⟨rfl, rfl⟩ := h
              rw [if_pos ⟨rfl, rfl⟩, if_pos (by omega), hI1 Y X hY hX, if_neg (by omega)]
            · rw [if_neg h, hI1 Y X hY hX]
              by_cases h' : Y < k ∨ (Y = k ∧ X < m)
              · rw [if_pos h', if_pos (by omega)]
              · rw [if_neg h', if_neg (by omega)])
      refine ⟨st', g1, g2, ?_⟩
      intro Y X hY hX
      rw [g3 Y X hY hX]
      by_cases h : Y < k + 1
      · rw [if_pos h, if_pos (by omega)]
      · rw [if_neg h, if_neg (by omega)])
  refine ⟨st, h1, h2, ?_⟩
  intro Y X hY hX
  rw [h3 Y X hY hX, if_pos hY]

end

end Micropol

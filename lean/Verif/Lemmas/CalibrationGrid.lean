import Verif.Lemmas.Calibration
import Mathlib.Data.List.Perm.Basic

/-! # Auxiliary facts about splitting, the worker pool and merging -/

set_option autoImplicit false

namespace Micropol

noncomputable section

open Classical

/-! ## Locality -/

theorem superPx_sliceOf (A : Img ℝ) {y0 x0 h w y x : Nat} (k : Fin 4) (hy : y + 2 ≤ h) (hx : x + 2 ≤ w) :
    superPx (sliceOf A y0 x0 h w) y x k = superPx A (y0 + y) (x0 + x) k := by
  unfold superPx sliceOf
  rw [Img.ofFn_px (by omega) (by omega)]
  congr 1 <;> omega

theorem stepOutcome_congr (env : CalibEnv) {inp inp' : ChunkInput} {Y X Y' X' : Nat}
    (hcall : ∀ k, inp.fitCall (2 * Y) (2 * X) k = inp'.fitCall (2 * Y') (2 * X') k)
    (hocc : ∀ k, superPx inp.occulter (2 * Y) (2 * X) k = superPx inp'.occulter (2 * Y') (2 * X') k)
    (hprev : inp.previsions = inp'.previsions) (htk : inp.tkb = inp'.tkb) (heff : inp.effb = inp'.effb)
    (hdof : inp.dof = inp'.dof) (o : Outcome) :
    stepOutcome env inp Y X o = stepOutcome env inp' Y' X' o := by
  have hf : inp.fits env (2 * Y) (2 * X) = inp'.fits env (2 * Y') (2 * X') := by
    funext k
    unfold ChunkInput.fits
    rw [hcall k]
  have ht : theoDemodulation env inp = theoDemodulation env inp' := by
    unfold theoDemodulation
    rw [hprev]
  unfold stepOutcome
  simp only [hocc, hf, ht, htk, heff, hprev, hdof, hcall]

theorem fitCall_slice (inp : ChunkInput) {y0 x0 h w y x : Nat} (k : Fin 4) (hy : y + 2 ≤ h) (hx : x + 2 ≤ w) :
    (inp.slice y0 x0 h w).fitCall y x k = inp.fitCall (y0 + y) (x0 + x) k := by
  unfold ChunkInput.fitCall
  simp only [ChunkInput.slice, superPx_sliceOf _ k hy hx]
  rfl

/-- The outcome of a superpixel inside a chunk is its outcome in the whole image. -/
theorem stepOutcome_slice (env : CalibEnv) (inp : ChunkInput) {A B h w Y X : Nat} (hY : 2 * Y + 2 ≤ h)
    (hX : 2 * X + 2 ≤ w) :
    stepOutcome env (inp.slice (2 * A) (2 * B) h w) Y X (inp.slice (2 * A) (2 * B) h w).initOutcome =
      stepOutcome env inp (A + Y) (B + X) inp.initOutcome := by
  have e1 : 2 * A + 2 * Y = 2 * (A + Y) := by ring
  have e2 : 2 * B + 2 * X = 2 * (B + X) := by ring
  show stepOutcome env (inp.slice (2 * A) (2 * B) h w) Y X inp.initOutcome = _
  refine stepOutcome_congr env (inp := inp.slice (2 * A) (2 * B) h w) (inp' := inp) ?_ ?_ rfl rfl rfl rfl _
  · intro k
    rw [fitCall_slice inp k hY hX, e1, e2]
  · intro k
    show superPx (sliceOf inp.occulter _ _ _ _) _ _ k = _
    rw [superPx_sliceOf _ k hY hX, e1, e2]

/-! ## Splitting -/

theorem foldl_keys {α : Type} (ny i : Nat) (hi : i < ny) (v : Nat → α) (m : Nat) (arr : Nat → Option α) (c : Nat) :
    (List.range m).foldl (fun arr j => fun c => if c = i + ny * j then some (v j) else arr c) arr c =
      if c % ny = i ∧ c / ny < m then some (v (c / ny)) else arr c := by
  induction m with
  | zero => simp
  | succ m ih =>
    rw [List.range_succ, List.foldl_append]
    simp only [List.foldl_cons, List.foldl_nil]
    by_cases h : c = i + ny * m
    · have h1 : c % ny = i := by rw [h, Nat.add_mul_mod_self_left, Nat.mod_eq_of_lt hi]
      have h2 : c / ny = m := by
        rw [h, Nat.add_mul_div_left _ _ (by omega), Nat.div_eq_of_lt hi, Nat.zero_add]
      rw [if_pos h, if_pos ⟨h1, by omega⟩, h2]
    · rw [if_neg h, ih]
      have hd := Nat.mod_add_div c ny
      by_cases h1 : c % ny = i ∧ c / ny < m
      · rw [if_pos h1, if_pos ⟨h1.1, by omega⟩]
      · rw [if_neg h1, if_neg]
        rintro ⟨h2, h3⟩
        have h4 : c / ny = m := by
          by_contra hne
          exact h1 ⟨h2, by omega⟩
        apply h
        rw [← h2, ← h4, hd]

theorem splitChunks_at (inp : ChunkInput) {ny nx cy cx i j : Nat} (hi : i < ny) (hj : j < nx) :
    splitChunks inp ny nx cy cx (i + ny * j) = some (inp.slice (i * cy) (j * cx) cy cx) := by
  have key : ∀ n, n ≤ ny → ∀ c, (List.range n).foldl (fun arr i =>
      (List.range nx).foldl (fun arr j =>
        fun c => if c = i + ny * j then some (inp.slice (i * cy) (j * cx) cy cx) else arr c) arr)
      (fun _ => none) c =
      if c % ny < n ∧ c / ny < nx then some (inp.slice (c % ny * cy) (c / ny * cx) cy cx) else none := by
    intro n hn
    induction n with
    | zero => intro c; simp
    | succ n ih =>
      intro c
      rw [List.range_succ, List.foldl_append]
      simp only [List.foldl_cons, List.foldl_nil]
      rw [foldl_keys ny n (by omega) (fun j => inp.slice (n * cy) (j * cx) cy cx) nx _ c, ih (by omega)]
      by_cases h1 : c % ny = n ∧ c / ny < nx
      · rw [if_pos h1, if_pos ⟨by omega, h1.2⟩, h1.1]
      · rw [if_neg h1]
        by_cases h2 : c % ny < n ∧ c / ny < nx
        · rw [if_pos h2, if_pos ⟨by omega, h2.2⟩]
        · rw [if_neg h2, if_neg (by omega)]
  unfold splitChunks
  rw [key ny le_rfl]
  have h1 : (i + ny * j) % ny = i := by rw [Nat.add_mul_mod_self_left, Nat.mod_eq_of_lt hi]
  have h2 : (i + ny * j) / ny = j := by
    rw [Nat.add_mul_div_left _ _ (by omega), Nat.div_eq_of_lt hi, Nat.zero_add]
  rw [h1, h2, if_pos ⟨hi, hj⟩]

/-! ## The pool -/

theorem runPool_aux {f : Nat → Py ChunkState} {g : Nat → ChunkState} (schedule : List Nat)
    (hf : ∀ c ∈ schedule, f c = .ok (g c)) (res : Nat → Option ChunkState) :
    schedule.foldlM (fun res c => do
      let r ← f c
      pure (fun c' => if c' = c then some r else res c')) res =
      (Except.ok (fun c => if c ∈ schedule then some (g c) else res c) : Py _) := by
  induction schedule generalizing res with
  | nil => simp
  | cons c cs ih =>
    rw [List.foldlM_cons, hf c (by simp), Py.ok_bind]
    show (pure _ >>= _) = _
    rw [pure_bind, ih (fun c hc => hf c (by simp [hc]))]
    congr 1
    funext c'
    by_cases h1 : c' ∈ cs
    · simp [h1]
    · by_cases h2 : c' = c
      · subst h2; simp [h1]
      · simp [h1, h2]

theorem runPool_ok {f : Nat → Py ChunkState} {g : Nat → ChunkState} {schedule : List Nat} {n : Nat}
    (hperm : schedule.Perm (List.range n)) (hf : ∀ c, c < n → f c = .ok (g c)) :
    runPool f schedule = .ok (fun c => if c < n then some (g c) else none) := by
  unfold runPool
  rw [runPool_aux schedule (fun c hc => hf c (List.mem_range.1 (hperm.mem_iff.1 hc)))]
  congr 1
  funext c
  have : c ∈ schedule ↔ c < n := by rw [hperm.mem_iff, List.mem_range]
  simp only [this]

/-! ## Merging -/

theorem block_div {k c y : Nat} (h1 : k * c ≤ y) (h2 : y < (k + 1) * c) : y / c = k ∧ y % c = y - k * c := by
  have hc : 0 < c := by
    rcases Nat.eq_zero_or_pos c with rfl | h
    · simp at h2
    · exact h
  have h3 : y / c = k := by
    apply Nat.div_eq_of_lt_le
    · exact h1
    · exact h2
  refine ⟨h3, ?_⟩
  have := Nat.div_add_mod y c
  rw [h3, Nat.mul_comm] at this
  omega

theorem mergeMap_ok {ny nx cy cx : Nat} {init : Img ℝ} {res : Nat → Option ChunkState} {sel : ChunkState → Img ℝ}
    (r : Nat → Nat → ChunkState) (hres : ∀ i j, i < ny → j < nx → res (i + ny * j) = some (r i j))
    (hsh : ∀ i j, i < ny → j < nx → (sel (r i j)).h = cy ∧ (sel (r i j)).w = cx)
    (hh : ny * cy ≤ init.h) (hw : nx * cx ≤ init.w) :
    mergeMap ny nx cy cx init res sel = .ok (Img.ofFn init.h init.w (fun y x =>
      if y < ny * cy ∧ x < nx * cx then (sel (r (y / cy) (x / cx))).px (y % cy) (x % cx) else init.px y x)) := by
  unfold mergeMap
  refine forRange_eq ny (fun k => Img.ofFn init.h init.w (fun y x =>
      if y < k * cy ∧ x < nx * cx then (sel (r (y / cy) (x / cx))).px (y % cy) (x % cx) else init.px y x))
    (by push_cast; omega) ?_ rfl ?_
  · simp only [Nat.zero_mul, Nat.not_lt_zero, false_and, if_false]
    exact (Img.ofFn_self init).symm
  · intro k hk
    have hk' : (0 + (k : Int) * ((1 : Nat) : Int)).toNat = k := by push_cast; omega
    simp only [hk']
    have hkc : (k + 1) * cy ≤ ny * cy := Nat.mul_le_mul_right _ (by omega)
    have hkk : k * cy ≤ (k + 1) * cy := Nat.mul_le_mul_right _ (by omega)
    refine forRange_eq nx (fun m => Img.ofFn init.h init.w (fun y x =>
      if (y < k * cy ∧ x < nx * cx) ∨ (k * cy ≤ y ∧ y < (k + 1) * cy ∧ x < m * cx) then
        (sel (r (y / cy) (x / cx))).px (y % cy) (x % cx) else init.px y x)) (by push_cast; omega) ?_ ?_ ?_
    · simp
    · refine Img.ofFn_congr ?_
      intro y x hy hx
      by_cases h : y < (k + 1) * cy ∧ x < nx * cx
      · rw [if_pos h, if_pos (by omega)]
      · rw [if_neg h, if_neg (by omega)]
    · intro m hm
      have hm' : (0 + (m : Int) * ((1 : Nat) : Int)).toNat = m := by push_cast; omega
      simp only [hm']
      have hmc : (m + 1) * cx ≤ nx * cx := Nat.mul_le_mul_right _ (by omega)
      have hmm : m * cx ≤ (m + 1) * cx := Nat.mul_le_mul_right _ (by omega)
      rw [hres k m hk hm]
      dsimp only
      rw [if_pos ⟨(hsh k m hk hm).1, (hsh k m hk hm).2, by show _ ≤ init.h; omega, by show _ ≤ init.w; omega⟩]
      congr 1
      refine Img.ofFn_congr ?_
      intro y x hy hx
      rw [Img.ofFn_px (by exact hy) (by exact hx)]
      by_cases h : k * cy ≤ y ∧ y < (k + 1) * cy ∧ m * cx ≤ x ∧ x < (m + 1) * cx
      · rw [if_pos h, if_pos (by omega)]
        obtain ⟨a1, a2⟩ := block_div h.1 h.2.1
        obtain ⟨b1, b2⟩ := block_div h.2.2.1 h.2.2.2
        rw [a1, a2, b1, b2]
      · rw [if_neg h]
        by_cases h' : (y < k * cy ∧ x < nx * cx) ∨ (k * cy ≤ y ∧ y < (k + 1) * cy ∧ x < m * cx)
        · rw [if_pos h', if_pos (by omega)]
        · rw [if_neg h', if_neg (by omega)]

theorem planes_ok {ι κ : Type} {f : ι → κ → Py (Img ℝ)} {g : ι → κ → Img ℝ} (h : ∀ i j, f i j = .ok (g i j)) :
    planes f = .ok g := by
  have hex : ∃ g : ι → κ → Img ℝ, ∀ i j, f i j = .ok (g i j) := ⟨g, h⟩
  unfold planes
  rw [dif_pos hex]
  congr 1
  funext i j
  have h2 := hex.choose_spec i j
  rw [h i j] at h2
  injection h2 with h2
  exact h2.symm

/-! ## The whole calibration -/

/-- Position in the superpixel. -/
def posOf (y x : Nat) : Fin 4 := ⟨2 * (y % 2) + x % 2, by omega⟩

theorem px_eq_superPx (A : Img ℝ) (y x : Nat) :
    A.px y x = superPx A (2 * (y / 2)) (2 * (x / 2)) (posOf y x) := by
  unfold superPx posOf
  dsimp only
  congr 1 <;> omega

/-- Output maps when the chunks cover `[0, hC) × [0, wC)`. -/
def expectedMaps (env : CalibEnv) (inp : ChunkInput) (hC wC : Nat) : CalibMaps :=
  let out := fun Y X => stepOutcome env inp Y X inp.initOutcome
  let full (f : Outcome → Fin 4 → ℝ) : Img ℝ := Img.ofFn inp.height inp.width (fun y x =>
    if y < hC ∧ x < wC then f (out (y / 2) (x / 2)) (posOf y x) else 0)
  let half (f : Outcome → ℝ) : Img ℝ := Img.ofFn (inp.height / 2) (inp.width / 2) (fun Y X =>
    if Y < hC / 2 ∧ X < wC / 2 then f (out Y X) else 0)
  { mij := fun i j => half (fun o => o.m i j)
    fitFound := half Outcome.flag
    cov := fun a b => full (fun o => o.cov a b)
    tk := full Outcome.tk
    eff := full Outcome.eff
    phase := (full Outcome.phase).map rad2deg
    chisq := full Outcome.chi }

theorem calibrate_eq (env : CalibEnv) (inp : ChunkInput) {ny nx : Nat} {schedule : List Nat} (hny : 0 < ny)
    (hnx : 0 < nx) (hcy : inp.height / ny % 2 = 0) (hcx : inp.width / nx % 2 = 0)
    (hperm : schedule.Perm (List.range (ny * nx))) :
    calibrate env inp ny nx schedule =
      .ok (expectedMaps env inp (ny * (inp.height / ny)) (nx * (inp.width / nx))) := by
  obtain ⟨cy, hcy2⟩ : ∃ a, inp.height / ny = 2 * a := ⟨inp.height / ny / 2, by omega⟩
  obtain ⟨cx, hcx2⟩ : ∃ a, inp.width / nx = 2 * a := ⟨inp.width / nx / 2, by omega⟩
  have hcov : ny * (2 * cy) ≤ inp.height := by rw [← hcy2]; exact Nat.mul_div_le _ _
  have wcov : nx * (2 * cx) ≤ inp.width := by rw [← hcx2]; exact Nat.mul_div_le _ _
  have ey : ny * (2 * cy) = 2 * (ny * cy) := by ring
  have ex : nx * (2 * cx) = 2 * (nx * cx) := by ring
  -- worker results
  have hw : ∀ i j, ∃ st, computeByChunk env (inp.slice (i * (2 * cy)) (j * (2 * cx)) (2 * cy) (2 * cx)) = .ok st ∧
      st.Shaped (2 * cy) (2 * cx) ∧ ∀ Y X, Y < cy → X < cx →
        st.at Y X = stepOutcome env inp (i * cy + Y) (j * cx + X) inp.initOutcome := by
    intro i j
    obtain ⟨st, h1, h2, h3⟩ := computeByChunk_ok env (inp.slice (i * (2 * cy)) (j * (2 * cx)) (2 * cy) (2 * cx))
      (H := cy) (W := cx) rfl rfl
    refine ⟨st, h1, h2, ?_⟩
    intro Y X hY hX
    rw [h3 Y X hY hX]
    have e1 : i * (2 * cy) = 2 * (i * cy) := by ring
    have e2 : j * (2 * cx) = 2 * (j * cx) := by ring
    rw [e1, e2]
    exact stepOutcome_slice env inp (by omega) (by omega)
  choose r hr1 hr2 hr3 using hw
  unfold calibrate
  rw [if_neg (by omega)]
  dsimp only
  rw [if_neg (by omega)]
  rw [hcy2, hcx2]
  rw [runPool_ok (g := fun c => r (c % ny) (c / ny)) hperm ?_, Py.ok_bind]
  swap
  · intro c hc
    have hd := Nat.mod_add_div c ny
    have h1 : c % ny < ny := Nat.mod_lt _ hny
    have h2 : c / ny < nx := Nat.div_lt_of_lt_mul hc
    have h3 := splitChunks_at inp (cy := 2 * cy) (cx := 2 * cx) h1 h2
    rw [hd] at h3
    rw [h3]
    exact hr1 _ _
  have hres : ∀ i j, i < ny → j < nx →
      (fun c => if c < ny * nx then some (r (c % ny) (c / ny)) else none) (i + ny * j) = some (r i j) := by
    intro i j hi hj
    dsimp only
    have h1 : (i + ny * j) % ny = i := by rw [Nat.add_mul_mod_self_left, Nat.mod_eq_of_lt hi]
    have h2 : (i + ny * j) / ny = j := by
      rw [Nat.add_mul_div_left _ _ hny, Nat.div_eq_of_lt hi, Nat.zero_add]
    have h3 : i + ny * j < ny * nx := by
      calc i + ny * j < ny + ny * j := by omega
        _ = ny * (j + 1) := by ring
        _ ≤ ny * nx := Nat.mul_le_mul_left _ hj
    rw [h1, h2, if_pos h3]
  -- generic statements for full and half maps
  have full : ∀ (sel : ChunkState → Img ℝ) (f : Outcome → Fin 4 → ℝ),
      (∀ st, st.Shaped (2 * cy) (2 * cx) → (sel st).h = 2 * cy ∧ (sel st).w = 2 * cx) →
      (∀ st Y X k, superPx (sel st) (2 * Y) (2 * X) k = f (st.at Y X) k) →
      mergeMap ny nx (2 * cy) (2 * cx) (Img.zeros inp.height inp.width)
        (fun c => if c < ny * nx then some (r (c % ny) (c / ny)) else none) sel =
      .ok (Img.ofFn inp.height inp.width (fun y x =>
        if y < ny * (2 * cy) ∧ x < nx * (2 * cx) then
          f (stepOutcome env inp (y / 2) (x / 2) inp.initOutcome) (posOf y x) else 0)) := by
    intro sel f hshape hval
    rw [mergeMap_ok r hres (fun i j _ _ => hshape _ (hr2 i j)) hcov wcov]
    congr 1
    refine Img.ofFn_congr ?_
    intro y x hy hx
    by_cases h : y < ny * (2 * cy) ∧ x < nx * (2 * cx)
    · rw [if_pos h, if_pos h]
      have hc1 : 0 < 2 * cy := by
        rcases Nat.eq_zero_or_pos cy with rfl | h'
        · simp at h
        · omega
      have hc2 : 0 < 2 * cx := by
        rcases Nat.eq_zero_or_pos cx with rfl | h'
        · simp at h
        · omega
      have d1 := Nat.mod_add_div y (2 * cy)
      have d2 := Nat.mod_add_div x (2 * cx)
      have l1 : y % (2 * cy) < 2 * cy := Nat.mod_lt _ hc1
      have l2 : x % (2 * cx) < 2 * cx := Nat.mod_lt _ hc2
      generalize y % (2 * cy) = a at *
      generalize x % (2 * cx) = b at *
      generalize y / (2 * cy) = i at *
      generalize x / (2 * cx) = j at *
      rw [px_eq_superPx, hval, hr3 i j _ _ (by omega) (by omega)]
      have e1 : y = a + 2 * (cy * i) := by rw [← d1]; ring
      have e2 : x = b + 2 * (cx * j) := by rw [← d2]; ring
      have e3 : i * cy + a / 2 = y / 2 := by rw [Nat.mul_comm i cy]; omega
      have e4 : j * cx + b / 2 = x / 2 := by rw [Nat.mul_comm j cx]; omega
      have e5 : posOf a b = posOf y x := by
        unfold posOf
        apply Fin.ext
        dsimp only
        omega
      rw [e3, e4, e5]
    · rw [if_neg h, if_neg h]
      exact Img.ofFn_px hy hx
  have half : ∀ (sel : ChunkState → Img ℝ) (f : Outcome → ℝ),
      (∀ st, st.Shaped (2 * cy) (2 * cx) → (sel st).h = cy ∧ (sel st).w = cx) →
      (∀ st Y X, (sel st).px Y X = f (st.at Y X)) →
      mergeMap ny nx (2 * cy / 2) (2 * cx / 2) (Img.zeros (inp.height / 2) (inp.width / 2))
        (fun c => if c < ny * nx then some (r (c % ny) (c / ny)) else none) sel =
      .ok (Img.ofFn (inp.height / 2) (inp.width / 2) (fun Y X =>
        if Y < ny * (2 * cy) / 2 ∧ X < nx * (2 * cx) / 2 then
          f (stepOutcome env inp Y X inp.initOutcome) else 0)) := by
    intro sel f hshape hval
    have q1 : 2 * cy / 2 = cy := by omega
    have q2 : 2 * cx / 2 = cx := by omega
    have q3 : ny * (2 * cy) / 2 = ny * cy := by omega
    have q4 : nx * (2 * cx) / 2 = nx * cx := by omega
    rw [q1, q2, q3, q4]
    rw [mergeMap_ok r hres (fun i j _ _ => hshape _ (hr2 i j)) (by show _ ≤ inp.height / 2; omega)
      (by show _ ≤ inp.width / 2; omega)]
    congr 1
    refine Img.ofFn_congr ?_
    intro y x hy hx
    by_cases h : y < ny * cy ∧ x < nx * cx
    · rw [if_pos h, if_pos h]
      have hc1 : 0 < cy := by
        rcases Nat.eq_zero_or_pos cy with rfl | h'
        · simp at h
        · omega
      have hc2 : 0 < cx := by
        rcases Nat.eq_zero_or_pos cx with rfl | h'
        · simp at h
        · omega
      have d1 := Nat.div_add_mod y cy
      have d2 := Nat.div_add_mod x cx
      rw [hval, hr3 _ _ _ _ (Nat.mod_lt _ hc1) (Nat.mod_lt _ hc2), Nat.mul_comm (y / cy), Nat.mul_comm (x / cx),
        d1, d2]
    · rw [if_neg h, if_neg h]
      exact Img.ofFn_px hy hx
  rw [full ChunkState.tk Outcome.tk (fun st h => h.tk) (fun _ _ _ _ => rfl), Py.ok_bind,
    full ChunkState.eff Outcome.eff (fun st h => h.eff) (fun _ _ _ _ => rfl), Py.ok_bind,
    full ChunkState.phase Outcome.phase (fun st h => h.phase) (fun _ _ _ _ => rfl), Py.ok_bind,
    full ChunkState.chisq Outcome.chi (fun st h => h.chisq) (fun _ _ _ _ => rfl), Py.ok_bind,
    half ChunkState.fitFound Outcome.flag (fun st h => by have := h.fitFound; omega) (fun _ _ _ => rfl), Py.ok_bind,
    planes_ok (fun i j => half (fun st => st.mij i j) (fun o => o.m i j)
      (fun st h => by have := h.mij i j; omega) (fun _ _ _ => rfl)), Py.ok_bind,
    planes_ok (fun a b => full (fun st => st.cov a b) (fun o => o.cov a b)
      (fun st h => h.cov a b) (fun _ _ _ _ => rfl)), Py.ok_bind]
  rfl

end

end Micropol

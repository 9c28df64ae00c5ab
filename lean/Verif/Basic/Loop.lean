import Verif.Basic.Py
import Mathlib.Tactic.Ring

/-!
# `for … in range(a, b, step)` and `while` loops
-/

set_option autoImplicit false

namespace Micropol

/-- Python's `range(a, b, step)` for a positive step. -/
def pyRange (a b : Int) (step : Nat) : List Int :=
  (List.range ((b - a + step - 1) / step).toNat).map (fun (k : Nat) => a + k * step)

/-- `for i in range(a, b, step): state = body(i, state)`, stopping at the first exception. -/
def forRange {σ : Type} (a b : Int) (step : Nat) (s : σ) (body : Int → σ → Py σ) : Py σ :=
  (pyRange a b step).foldlM (fun s i => body i s) s

/-- Generic `for x in list` loop. -/
def forList {σ ι : Type} (l : List ι) (s : σ) (body : ι → σ → Py σ) : Py σ :=
  l.foldlM (fun s i => body i s) s

theorem foldlM_range_eq {σ : Type} (n : Nat) (body : Nat → σ → Py σ) (F : Nat → σ)
    (hstep : ∀ k, k < n → body k (F k) = .ok (F (k + 1))) :
    (List.range n).foldlM (fun s k => body k s) (F 0) = .ok (F n) := by
  induction n with
  | zero => rfl
  | succ n ih =>
    rw [List.range_succ, List.foldlM_append, ih (fun k hk => hstep k (by omega))]
    simp [hstep n (by omega)]

/-- Loop rule: if the `k`-th iteration takes state `F k` to state `F (k+1)` without raising, the loop takes
`F 0` to `F n`, where `n` is the number of iterations. -/
theorem forRange_eq {σ : Type} {a b : Int} {step : Nat} {s s' : σ} {body : Int → σ → Py σ}
    (n : Nat) (F : Nat → σ)
    (hn : ((b - a + step - 1) / step).toNat = n)
    (h0 : s = F 0) (h1 : F n = s')
    (hstep : ∀ k, k < n → body (a + k * step) (F k) = .ok (F (k + 1))) :
    forRange a b step s body = .ok s' := by
  subst h0 h1
  unfold forRange pyRange
  rw [hn, List.foldlM_map]
  exact foldlM_range_eq n (fun k s => body (a + k * step) s) F hstep

/-- Invariant rule. -/
theorem foldlM_range_inv {σ : Type} (n : Nat) (body : Nat → σ → Py σ) (I : Nat → σ → Prop) (s : σ)
    (h0 : I 0 s)
    (hstep : ∀ k s, k < n → I k s → ∃ s', body k s = .ok s' ∧ I (k + 1) s') :
    ∃ s', (List.range n).foldlM (fun s k => body k s) s = .ok s' ∧ I n s' := by
  induction n with
  | zero => exact ⟨s, rfl, h0⟩
  | succ n ih =>
    obtain ⟨s1, h1, hI⟩ := ih (fun k s hk => hstep k s (by omega))
    obtain ⟨s2, h2, hI2⟩ := hstep n s1 (by omega) hI
    refine ⟨s2, ?_, hI2⟩
    rw [List.range_succ, List.foldlM_append, h1]
    simp [h2]

theorem forRange_inv {σ : Type} {a b : Int} {step : Nat} {s : σ} {body : Int → σ → Py σ}
    (n : Nat) (I : Nat → σ → Prop)
    (hn : ((b - a + step - 1) / step).toNat = n)
    (h0 : I 0 s)
    (hstep : ∀ k s, k < n → I k s → ∃ s', body (a + k * step) s = .ok s' ∧ I (k + 1) s') :
    ∃ s', forRange a b step s body = .ok s' ∧ I n s' := by
  unfold forRange pyRange
  rw [hn, List.foldlM_map]
  exact foldlM_range_inv n (fun k s => body (a + k * step) s) I s h0 hstep

/-- `while cond(s): s = body(s)` with a fuel bound; `hang` when the fuel is used up with the condition
still true. -/
def whileFuel {σ : Type} (cond : σ → Bool) (body : σ → σ) : Nat → σ → Py σ
  | 0, s => if cond s then .error .hang else .ok s
  | n + 1, s => if cond s then whileFuel cond body n (body s) else .ok s

theorem whileFuel_mono {σ : Type} {cond : σ → Bool} {body : σ → σ} {n m : Nat} {s s' : σ}
    (h : whileFuel cond body n s = .ok s') (hnm : n ≤ m) : whileFuel cond body m s = .ok s' := by
  induction n generalizing m s with
  | zero =>
    unfold whileFuel at h
    split at h
    · cases h
    · rename_i hc
      cases h
      cases m <;> simp [whileFuel, hc]
  | succ n ih =>
    obtain ⟨m, rfl⟩ : ∃ m', m = m' + 1 := ⟨m - 1, by omega⟩
    unfold whileFuel at h ⊢
    split
    · rename_i hc
      simp only [hc, if_true] at h
      exact ih h (by omega)
    · rename_i hc
      simpa [hc] using h

/-- Meaning of `while cond(s): s = body(s)`: the final state if the loop terminates, `hang` if it does not. -/
noncomputable def whileLoop {σ : Type} (cond : σ → Bool) (body : σ → σ) (s : σ) : Py σ :=
  open Classical in
  if h : ∃ n s', whileFuel cond body n s = .ok s' then .ok h.choose_spec.choose else .error .hang

theorem whileLoop_eq_ok {σ : Type} {cond : σ → Bool} {body : σ → σ} {n : Nat} {s s' : σ}
    (h : whileFuel cond body n s = .ok s') : whileLoop cond body s = .ok s' := by
  have hex : ∃ n s', whileFuel cond body n s = .ok s' := ⟨n, s', h⟩
  unfold whileLoop
  rw [dif_pos hex]
  have h2 := hex.choose_spec.choose_spec
  rcases Nat.le_total n hex.choose with hle | hle
  · exact h2.symm.trans (whileFuel_mono h hle)
  · exact (whileFuel_mono h2 hle).symm.trans h

/-- Execution that never leaves the loop. -/
theorem whileLoop_eq_hang {σ : Type} {cond : σ → Bool} {body : σ → σ} {s : σ}
    (I : σ → Prop) (h0 : I s) (hc : ∀ t, I t → cond t = true) (hb : ∀ t, I t → I (body t)) :
    whileLoop cond body s = .error .hang := by
  have key : ∀ n t, I t → whileFuel cond body n t = .error .hang := by
    intro n
    induction n with
    | zero => intro t ht; simp [whileFuel, hc t ht]
    | succ n ih => intro t ht; simp [whileFuel, hc t ht, ih _ (hb t ht)]
  unfold whileLoop
  rw [dif_neg]
  rintro ⟨n, s', h⟩
  rw [key n s h0] at h
  cases h

/-- One step of a terminating execution. -/
theorem whileLoop_step {σ : Type} {cond : σ → Bool} {body : σ → σ} {s s' : σ}
    (hc : cond s = true) (h : ∃ n, whileFuel cond body n (body s) = .ok s') :
    ∃ n, whileFuel cond body n s = .ok s' := by
  obtain ⟨n, hn⟩ := h
  exact ⟨n + 1, by simp [whileFuel, hc, hn]⟩

theorem whileFuel_done {σ : Type} {cond : σ → Bool} {body : σ → σ} {s : σ}
    (hc : cond s = false) (n : Nat) : whileFuel cond body n s = .ok s := by
  cases n <;> simp [whileFuel, hc]

end Micropol

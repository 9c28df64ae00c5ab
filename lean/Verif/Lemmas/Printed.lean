import Verif.Model.Printed
import Verif.Lemmas.Rebin
import Std.Data.String.ToNat

/-! Lemmas about the printed lines. -/

set_option autoImplicit false

namespace Micropol

theorem flagged_fuel (m d : Int) (hd : 0 < d) :
    ∀ (f : Nat) (n r : Int) (t : Bool), whileFuel (fun k => decide (k % m ≠ 0)) (fun k => k - d) f n = .ok r →
      r ≤ n ∧ whileFuel (fun s : Int × Bool => decide (s.1 % m ≠ 0)) (fun s => (s.1 - d, true)) f (n, t) =
        .ok (r, t || decide (r ≠ n)) := by
  intro f
  induction f with
  | zero =>
    intro n r t h
    unfold whileFuel at h ⊢
    split at h
    · cases h
    · rename_i hc
      cases h
      refine ⟨le_refl _, ?_⟩
      rw [if_neg hc]
      simp
  | succ f ih =>
    intro n r t h
    unfold whileFuel at h ⊢
    split at h
    · rename_i hc
      obtain ⟨h1, h2⟩ := ih _ _ true h
      refine ⟨by omega, ?_⟩
      rw [if_pos hc, h2]
      have : r ≠ n := by omega
      simp [this]
    · rename_i hc
      cases h
      refine ⟨le_refl _, ?_⟩
      rw [if_neg hc]
      simp

theorem trimFlagged_of_ok {m d n r : Int} (hd : 0 < d) (t : Bool) (h : trimLoop n m d = .ok r) :
    trimFlagged m d n t = .ok (r, t || decide (r ≠ n)) := by
  unfold trimLoop at h
  unfold trimFlagged
  split at h
  · cases h
  · rename_i hm
    rw [if_neg hm]
    by_cases hex : ∃ f s', whileFuel (fun k : Int => decide (k % m ≠ 0)) (fun k => k - d) f n = .ok s'
    · obtain ⟨f, s', hf⟩ := hex
      rw [whileLoop_eq_ok hf] at h
      cases h
      exact whileLoop_eq_ok (flagged_fuel m d hd f n r t hf).2
    · unfold whileLoop at h
      rw [dif_neg hex] at h
      cases h

theorem digits_free {n : Nat} {c : Char} (hc : c ∈ n.repr.toList) : c ≠ ' ' := by
  intro e
  subst e
  have : ' ' ∈ Nat.toDigits 10 n := by
    simpa [Nat.repr] using hc
  have := Nat.isDigit_of_mem_toDigits (by decide) (by decide) this
  exact absurd this (by decide)

theorem cut_at_blank {a b s t : List Char} (ha : ∀ c ∈ a, c ≠ ' ') (hb : ∀ c ∈ b, c ≠ ' ')
    (h : a ++ ' ' :: s = b ++ ' ' :: t) : a = b ∧ s = t := by
  induction a generalizing b with
  | nil =>
    cases b with
    | nil => exact ⟨rfl, by simpa using h⟩
    | cons x b =>
      simp only [List.nil_append, List.cons_append, List.cons.injEq] at h
      exact absurd h.1.symm (hb x (by simp))
  | cons x a ih =>
    cases b with
    | nil =>
      simp only [List.nil_append, List.cons_append, List.cons.injEq] at h
      exact absurd h.1 (ha x (by simp))
    | cons y b =>
      simp only [List.cons_append, List.cons.injEq] at h
      obtain ⟨h1, h2⟩ := ih (fun c hc => ha c (by simp [hc])) (fun c hc => hb c (by simp [hc])) h.2
      exact ⟨by rw [h.1, h1], h2⟩

theorem repr_injective {n m : Nat} (h : n.repr.toList = m.repr.toList) : n = m := by
  have e : n.repr = m.repr := String.toList_inj.1 h
  have h1 := Nat.toNat?_repr n
  rw [e, Nat.toNat?_repr m] at h1
  exact (Option.some.inj h1).symm

theorem printTrimmingInfo_chars (h w h' w' : Nat) : (printTrimmingInfo h w h' w').toList =
    "Data trimmed to fit rebinning: ( ".toList ++ (h.repr.toList ++ ' ' :: (',' :: ' ' :: (w.repr.toList ++ ' ' ::
      (") -> ( ".toList ++ (h'.repr.toList ++ ' ' :: (',' :: ' ' :: (w'.repr.toList ++ ' ' :: ")".toList)))))))  := by
  have e : ∀ n : Nat, toString (n : Int) = n.repr := fun n => rfl
  unfold printTrimmingInfo printArgs
  simp only [e, String.intercalate_cons_cons, String.intercalate_singleton, String.toList_append]
  simp

end Micropol

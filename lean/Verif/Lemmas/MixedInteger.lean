import Verif.Model.MixedInteger
import Verif.Spec.MixedInteger
import Verif.Props.Integer

/-! Lemmas about common types. -/

set_option autoImplicit false

namespace Micropol

theorem IntType.Numpy.pos {t : IntType} (h : t.Numpy) : 0 < t.bits := by
  unfold IntType.Numpy at h
  omega

theorem two_pow_le {a b : Nat} : (2 : Int) ^ a ≤ 2 ^ b ↔ a ≤ b := pow_le_pow_iff_right₀ (by norm_num)

theorem within_iff {t v : IntType} (ht : 0 < t.bits) (hv : 0 < v.bits) : t.Within v ↔
    if v.signed then (if t.signed then t.bits ≤ v.bits else t.bits < v.bits) else t.signed = false ∧ t.bits ≤ v.bits := by
  obtain ⟨a, s⟩ := t
  obtain ⟨b, r⟩ := v
  simp only at ht hv
  have pa : (0 : Int) < 2 ^ (a - 1) := by positivity
  have pa' : (0 : Int) < 2 ^ a := by positivity
  unfold IntType.Within IntType.Holds
  cases s <;> cases r <;> simp only [Bool.false_eq_true, if_false, if_true, true_and]
  · constructor
    · intro h
      have := (h (2 ^ a - 1) ⟨by omega, by omega⟩).2
      have h3 : (2 : Int) ^ a ≤ 2 ^ b := by omega
      exact two_pow_le.1 h3
    · intro h n hn
      have := two_pow_le.2 h
      omega
  · constructor
    · intro h
      have := (h (2 ^ a - 1) ⟨by omega, by omega⟩).2
      have h3 : (2 : Int) ^ a ≤ 2 ^ (b - 1) := by omega
      have := two_pow_le.1 h3
      omega
    · intro h n hn
      have := two_pow_le.2 (show a ≤ b - 1 by omega)
      omega
  · refine ⟨fun h => ?_, fun h => by simp at h⟩
    have := (h (-1) ⟨by omega, by omega⟩).1
    omega
  · constructor
    · intro h
      have := (h (2 ^ (a - 1) - 1) ⟨by omega, by omega⟩).2
      have h3 : (2 : Int) ^ (a - 1) ≤ 2 ^ (b - 1) := by omega
      have := two_pow_le.1 h3
      omega
    · intro h n hn
      have := two_pow_le.2 (show a - 1 ≤ b - 1 by omega)
      omega

theorem within_holds {t v : IntType} (h : t.Within v) {n : Int} (hn : t.Holds n) : v.Holds n := h n hn

theorem unsignedBits_spec {v : Int} (h : 0 ≤ v) :
    (∃ b, unsignedBits v = some b ∧ (b = 8 ∨ b = 16 ∨ b = 32 ∨ b = 64) ∧ v < 2 ^ b ∧
      (b = 16 → 2 ^ 8 ≤ v) ∧ (b = 32 → 2 ^ 16 ≤ v) ∧ (b = 64 → 2 ^ 32 ≤ v)) ∨
    unsignedBits v = none ∧ 2 ^ 64 ≤ v := by
  unfold unsignedBits
  split
  · exact .inl ⟨8, rfl, by omega, by assumption, by omega, by omega, by omega⟩
  · split
    · exact .inl ⟨16, rfl, by omega, by assumption, by omega, by omega, by omega⟩
    · split
      · exact .inl ⟨32, rfl, by omega, by assumption, by omega, by omega, by omega⟩
      · split
        · exact .inl ⟨64, rfl, by omega, by assumption, by omega, by omega, by omega⟩
        · exact .inr ⟨rfl, by omega⟩

theorem signedBits_spec (v : Int) :
    (∃ b, signedBits v = some b ∧ (b = 8 ∨ b = 16 ∨ b = 32 ∨ b = 64) ∧ -2 ^ (b - 1) ≤ v ∧
      (b = 16 → v < -2 ^ 7) ∧ (b = 32 → v < -2 ^ 15) ∧ (b = 64 → v < -2 ^ 31)) ∨
    signedBits v = none ∧ v < -2 ^ 63 := by
  unfold signedBits
  split
  · exact .inl ⟨8, rfl, by omega, by assumption, by omega, by omega, by omega⟩
  · split
    · exact .inl ⟨16, rfl, by omega, by assumption, by omega, by omega, by omega⟩
    · split
      · exact .inl ⟨32, rfl, by omega, by assumption, by omega, by omega, by omega⟩
      · split
        · exact .inl ⟨64, rfl, by omega, by assumption, by omega, by omega, by omega⟩
        · exact .inr ⟨rfl, by omega⟩

end Micropol

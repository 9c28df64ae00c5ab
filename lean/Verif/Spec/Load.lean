import Verif.Model.Load
import Verif.Spec.Shape

/-!
# Vocabulary for loading files
-/

set_option autoImplicit false

namespace Micropol

/-- Every name is a readable image file of shape `h × w` with image `img name` and date `date name` (`none`: undated). -/
def GoodFiles (fs : Name → Option FitsFile) (c : Clock) (names : List Name) (h w : ℕ) (img : Name → Img ℝ)
    (date : Name → Option ℕ) : Prop :=
  rawExt ∉ names ∧ ∀ n ∈ names, (img n).HasShape h w ∧
    ∃ f, fs n = some f ∧ f.data = some (img n) ∧ fileDate c f = .ok (date n)

/-- `s` is the string of the smallest (largest) of the dates; `none` if there is no date. -/
def IsEarliest (c : Clock) (dates : List (Option ℕ)) (s : Option Name) : Prop :=
  (∃ t, some t ∈ dates ∧ (∀ u, some u ∈ dates → t ≤ u) ∧ s = some (c.str t)) ∨ ((∀ d ∈ dates, d = none) ∧ s = none)

def IsLatest (c : Clock) (dates : List (Option ℕ)) (s : Option Name) : Prop :=
  (∃ t, some t ∈ dates ∧ (∀ u, some u ∈ dates → u ≤ t) ∧ s = some (c.str t)) ∨ ((∀ d ∈ dates, d = none) ∧ s = none)

end Micropol

import Verif.Lemmas.GlobMatch

/-! # Stars and question marks -/

set_option autoImplicit false

namespace Micropol

theorem itemsMatch_star (n : Name) : itemsMatch [.star] n = true := by
  induction n with
  | nil => simp [itemsMatch]
  | cons c n ih => rw [itemsMatch, ih, Bool.or_true]

theorem star_components {x t : Name} (hx : '/' ∉ x ++ t) (hne : x ++ t ≠ []) (hd : x ++ t ≠ ['.']) : components (x ++ t) = [x ++ t] := by
  obtain ⟨D, y, e1, e2⟩ := splitChar_append_last (c := '/') (e := []) (by simp) []
  have h0 : D = [] ∧ y = [] := by
    have : splitChar '/' [] = [[]] := rfl
    rw [this] at e1
    cases D with
    | nil => simpa using e1.symm
    | cons a D => have := congrArg List.length e1; simp at this
  have := e2 (x ++ t) hx
  rw [h0.1, h0.2] at this
  unfold components
  rw [show splitChar '/' (x ++ t) = [x ++ t] by simpa using this, List.filter_cons, if_pos, List.filter_nil]
  simp only [decide_eq_true_eq]
  exact ⟨hne, hd⟩

/-- A name with a star at its end stands for all names with this beginning. -/
theorem compMatch_star {x n : Name} (hx : PlainName x) (h0 : x ≠ []) (h1 : x.head? ≠ some '.') :
    compMatch (x ++ ['*']) n = true ↔ ∃ y, n = x ++ y := by
  have hm : hasMagic (x ++ ['*']) = true := by
    unfold hasMagic
    rw [List.any_eq_true]
    exact ⟨'*', by simp, by simp⟩
  have hitems : patItems (x ++ ['*']).length (x ++ ['*']) = x.map PatItem.lit ++ [.star] := by
    rw [show (x ++ ['*']).length = x.length + 1 by simp, patItems_plain hx]
    rfl
  unfold compMatch
  rw [hm, if_pos rfl, Bool.and_eq_true, hitems, itemsMatch_lits]
  constructor
  · rintro ⟨-, y, rfl, -⟩
    exact ⟨y, rfl⟩
  · rintro ⟨y, rfl⟩
    refine ⟨?_, y, rfl, itemsMatch_star y⟩
    cases x with
    | nil => exact absurd rfl h0
    | cons a x =>
      have : a ≠ '.' := fun h => h1 (by rw [h]; rfl)
      simp [this]

/-- A name with a question mark at its end stands for all names with one more character. -/
theorem compMatch_one {x n : Name} (hx : PlainName x) (h0 : x ≠ []) (h1 : x.head? ≠ some '.') :
    compMatch (x ++ ['?']) n = true ↔ ∃ c, n = x ++ [c] := by
  have hm : hasMagic (x ++ ['?']) = true := by
    unfold hasMagic
    rw [List.any_eq_true]
    exact ⟨'?', by simp, by simp⟩
  have hitems : patItems (x ++ ['?']).length (x ++ ['?']) = x.map PatItem.lit ++ [.one] := by
    rw [show (x ++ ['?']).length = x.length + 1 by simp, patItems_plain hx]
    rfl
  have hone : ∀ y : Name, itemsMatch [.one] y = true ↔ ∃ c, y = [c] := by
    intro y
    match y with
    | [] => simp [itemsMatch]
    | [c] => simp [itemsMatch]
    | c :: d :: y => simp [itemsMatch]
  unfold compMatch
  rw [hm, if_pos rfl, Bool.and_eq_true, hitems, itemsMatch_lits]
  constructor
  · rintro ⟨-, y, rfl, hy⟩
    obtain ⟨c, rfl⟩ := (hone y).1 hy
    exact ⟨c, rfl⟩
  · rintro ⟨c, rfl⟩
    refine ⟨?_, [c], rfl, (hone _).2 ⟨c, rfl⟩⟩
    cases x with
    | nil => exact absurd rfl h0
    | cons a x =>
      have : a ≠ '.' := fun h => h1 (by rw [h]; rfl)
      simp [this]

/-- A name with a class of characters in brackets at its end. -/
theorem compMatch_class {x n text : Name} {neg : Bool} {k : Name} (hx : PlainName x) (h0 : x ≠ []) (h1 : x.head? ≠ some '.')
    (ht : bracketText k = some (neg, text, [])) : compMatch (x ++ '[' :: k) n = true ↔
      ∃ c, n = x ++ [c] ∧ (neg != (classRanges text).any fun r => decide (r.1 ≤ c ∧ c ≤ r.2)) = true := by
  have hm : hasMagic (x ++ '[' :: k) = true := by
    unfold hasMagic
    rw [List.any_eq_true]
    exact ⟨'[', by simp, by simp⟩
  have hnil : ∀ j, patItems j [] = [] := fun j => by cases j <;> rfl
  have hitems : patItems (x ++ '[' :: k).length (x ++ '[' :: k) = x.map PatItem.lit ++ [.cls neg (classRanges text)] := by
    rw [show (x ++ '[' :: k).length = x.length + (k.length + 1) by simp, patItems_plain hx, patItems, if_neg (by decide),
      if_neg (by decide), if_pos rfl, ht]
    dsimp only
    rw [hnil]
  have hone : ∀ y : Name, itemsMatch [.cls neg (classRanges text)] y = true ↔
      ∃ c, y = [c] ∧ (neg != (classRanges text).any fun r => decide (r.1 ≤ c ∧ c ≤ r.2)) = true := by
    intro y
    match y with
    | [] => simp [itemsMatch]
    | [c] => simp [itemsMatch]
    | c :: d :: y => simp [itemsMatch]
  unfold compMatch
  rw [hm, if_pos rfl, Bool.and_eq_true, hitems, itemsMatch_lits]
  constructor
  · rintro ⟨-, y, rfl, hy⟩
    obtain ⟨c, rfl, hc⟩ := (hone y).1 hy
    exact ⟨c, rfl, hc⟩
  · rintro ⟨c, rfl, hc⟩
    refine ⟨?_, [c], rfl, (hone _).2 ⟨c, rfl, hc⟩⟩
    cases x with
    | nil => exact absurd rfl h0
    | cons a x =>
      have : a ≠ '.' := fun h => h1 (by rw [h]; rfl)
      simp [this]

theorem bracketText_range {a b : Char} (h1 : a ≠ '!') (h2 : a ≠ ']') (h3 : b ≠ ']') :
    bracketText [a, '-', b, ']'] = some (false, [a, '-', b], []) := by
  have hb : (([a, '-', b, ']'] : Name).head? == some '!') = false := by simp [h1]
  have hu : upToBracket [a, '-', b, ']'] = some ([a, '-', b], []) := by
    rw [upToBracket, if_neg h2, upToBracket, if_neg (by decide), upToBracket, if_neg h3, upToBracket, if_pos rfl]
    rfl
  unfold bracketText
  simp only [hb, Bool.false_eq_true, if_false]
  split
  · rename_i r heq
    injection heq with e _
    exact absurd e h2
  · rw [hu]
    rfl

theorem bracketText_not {a : Char} (h2 : a ≠ ']') : bracketText ['!', a, ']'] = some (true, [a], []) := by
  have hu : upToBracket [a, ']'] = some ([a], []) := by
    rw [upToBracket, if_neg h2, upToBracket, if_pos rfl]
    rfl
  unfold bracketText
  simp only [List.head?_cons, BEq.rfl, if_true, List.tail_cons]
  split
  · rename_i r heq
    injection heq with e _
    exact absurd e h2
  · rw [hu]
    rfl

/-- The listing of a name of one component. -/
theorem listing_one {cwd : List Name} {fs : FileSystem} {pat : Name} {L : Listing ℝ} (hc : components pat = [pat])
    (hs : pat.head? ≠ some '/') (hL : IsGlobListing cwd fs pat L) (n : Name) (v : Img ℝ) :
    (n, v) ∈ L ↔ '/' ∉ n ∧ isFits n = true ∧ ∃ z, compMatch pat z = true ∧ z ≠ [] ∧ z ≠ ['.'] ∧ '/' ∉ z ∧
      fs.file (pathString (resolveDots (cwd ++ [z]) ++ [n])) = some (.fits v) := by
  obtain ⟨P, h1, h2, h3⟩ := hL
  obtain ⟨m1, m2⟩ := forall₂_mem h3
  have hq : ∀ q, GlobFolder pat q ↔ ∃ z, q = [z] ∧ compMatch pat z = true := by
    intro q
    unfold GlobFolder
    rw [hc, List.forall₂_cons_left_iff]
    constructor
    · rintro ⟨b, u, g1, g2, rfl⟩
      rw [List.forall₂_nil_left_iff] at g2
      exact ⟨b, by rw [g2], g1⟩
    · rintro ⟨z, rfl, g⟩
      exact ⟨z, [], g, List.Forall₂.nil, rfl⟩
  have hp : ∀ z n, globPath cwd pat [z] n = pathString (resolveDots (cwd ++ [z]) ++ [n]) := fun z n => by
    unfold globPath globBase
    rw [if_neg hs]
  constructor
  · intro hm
    obtain ⟨x, hx, e1, e2⟩ := m1 _ hm
    obtain ⟨g1, g2, g3, g4, g5⟩ := (h2 x.1 x.2).1 hx
    obtain ⟨z, hz, hz'⟩ := (hq _).1 g1
    have e1 : n = x.2 := e1
    rw [hz, hp] at e2
    have := g2 z (by rw [hz]; simp)
    rw [e1]
    exact ⟨g3, g4, z, hz', this.1, this.2.1, this.2.2, e2⟩
  · rintro ⟨g3, g4, z, hz, z1, z2, z3, g5⟩
    have hx : ([z], n) ∈ P := (h2 _ _).2 ⟨(hq _).2 ⟨z, rfl, hz⟩, by
      intro y hy
      rw [List.mem_singleton.1 hy]
      exact ⟨z1, z2, z3⟩, g3, g4, by rw [hp, g5]; simp⟩
    obtain ⟨e, he, e1, e2⟩ := m2 _ hx
    have e1 : e.1 = n := e1
    rw [hp, g5] at e2
    injection e2 with e2
    injection e2 with e2
    rw [show (n, v) = e from Prod.ext e1.symm e2]
    exact he

end Micropol

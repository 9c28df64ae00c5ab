import Verif.Lemmas.Glob

/-! # What `glob` finds -/

set_option autoImplicit false

namespace Micropol

variable {cwd : List Name} {fs fs' : FileSystem} {dir : Name}

theorem splitChar_sub {c : Char} {s : Name} : ∀ x ∈ splitChar c s, ∀ a ∈ x, a ∈ s := by
  induction s with
  | nil =>
    intro x hx a ha
    simp only [splitChar, List.mem_singleton] at hx
    rw [hx] at ha
    exact ha
  | cons b s ih =>
    intro x hx a ha
    rw [splitChar] at hx
    split_ifs at hx with h
    · rcases List.mem_cons.1 hx with rfl | hx
      · cases ha
      · exact List.mem_cons_of_mem _ (ih x hx a ha)
    · cases hs : splitChar c s with
      | nil =>
        rw [hs] at hx
        have := splitChar_ne_nil c s
        exact absurd hs this
      | cons y l =>
        rw [hs] at hx
        rcases List.mem_cons.1 hx with rfl | hx
        · rcases List.mem_cons.1 ha with rfl | ha
          · exact List.mem_cons_self
          · exact List.mem_cons_of_mem _ (ih y (by rw [hs]; exact List.mem_cons_self) a ha)
        · exact List.mem_cons_of_mem _ (ih x (by rw [hs]; exact List.mem_cons_of_mem _ hx) a ha)

theorem plain_noMagic {s : Name} (h : PlainName s) : hasMagic s = false := by
  unfold hasMagic
  rw [List.any_eq_false]
  intro c hc
  obtain ⟨h1, h2, h3⟩ := h c hc
  simp [h1, h2, h3]

/-- A plain name is compared. -/
theorem compMatch_plain {p n : Name} (h : PlainName p) : compMatch p n = true ↔ n = p := by
  unfold compMatch
  rw [plain_noMagic h]
  simp

theorem plain_component (h : PlainName dir) : ∀ x ∈ components dir, PlainName x := by
  intro x hx c hc
  unfold components at hx
  rw [List.mem_filter] at hx
  exact h c (splitChar_sub x hx.1 c hc)

theorem globFolder_plain (h : PlainName dir) (q : List Name) : GlobFolder dir q ↔ q = components dir := by
  unfold GlobFolder
  have hp := plain_component h
  generalize components dir = l at hp
  induction l generalizing q with
  | nil => rw [List.forall₂_nil_left_iff]
  | cons x l ih =>
    rw [List.forall₂_cons_left_iff]
    constructor
    · rintro ⟨b, u, h1, h2, rfl⟩
      rw [(compMatch_plain (hp x List.mem_cons_self)).1 h1, (ih u (fun y hy => hp y (List.mem_cons_of_mem _ hy))).1 h2]
    · rintro rfl
      exact ⟨x, l, (compMatch_plain (hp x List.mem_cons_self)).2 rfl, (ih l (fun y hy => hp y (List.mem_cons_of_mem _ hy))).2 rfl, rfl⟩

theorem globBase_components (cwd : List Name) (dir : Name) : globBase cwd dir ++ components dir = absComponents cwd dir := by
  unfold globBase absComponents
  split_ifs <;> rfl

theorem fits_good {n : Name} (h1 : isFits n = true) (h2 : '/' ∉ n) : GoodComp n := by
  have h := isFits_iff.1 h1
  obtain ⟨⟨stem, hs⟩, h3⟩ := h
  refine ⟨?_, ?_, ?_, h2⟩
  · rintro rfl
    have := congrArg List.length hs
    simp at this
  · rintro rfl; exact h3 rfl
  · rintro rfl; exact h3 rfl

theorem globPath_plain {n : Name} (hdir : dir ≠ []) (hn : GoodComp n) : globPath cwd dir (components dir) n = fileIn cwd dir n := by
  unfold globPath fileIn
  rw [globBase_components, (abspath_slash cwd hdir hn).1]

theorem forall₂_mem {α β : Type} {R : α → β → Prop} {P : List α} {L : List β} (h : List.Forall₂ R P L) :
    (∀ e ∈ L, ∃ x ∈ P, R x e) ∧ ∀ x ∈ P, ∃ e ∈ L, R x e := by
  induction h with
  | nil => exact ⟨fun _ he => (List.not_mem_nil he).elim, fun _ he => (List.not_mem_nil he).elim⟩
  | cons hxy _ ih =>
    refine ⟨fun e he => ?_, fun x hx => ?_⟩
    · rcases List.mem_cons.1 he with rfl | he
      · exact ⟨_, List.mem_cons_self, hxy⟩
      · obtain ⟨x, hx, h⟩ := ih.1 e he
        exact ⟨x, List.mem_cons_of_mem _ hx, h⟩
    · rcases List.mem_cons.1 hx with rfl | hx
      · exact ⟨_, List.mem_cons_self, hxy⟩
      · obtain ⟨e, he, h⟩ := ih.2 x hx
        exact ⟨e, List.mem_cons_of_mem _ he, h⟩

/-- A listing of a folder with a plain name: its complete FITS files, each once. -/
theorem listing_plain (h : PlainName dir) (hdir : dir ≠ []) {L : Listing ℝ} (hL : IsGlobListing cwd fs dir L) :
    UniqueNames L ∧ ∀ n v, (n, v) ∈ L ↔ '/' ∉ n ∧ isFits n = true ∧ fs.file (fileIn cwd dir n) = some (.fits v) := by
  obtain ⟨P, h1, h2, h3⟩ := hL
  have hq : ∀ x ∈ P, x.1 = components dir := fun x hx => (globFolder_plain h x.1).1 ((h2 x.1 x.2).1 hx).1
  have hnames : L.map Prod.fst = P.map Prod.snd := by
    clear h1 h2 hq
    induction h3 with
    | nil => rfl
    | cons hxy _ ih => rw [List.map_cons, List.map_cons, hxy.1, ih]
  obtain ⟨m1, m2⟩ := forall₂_mem h3
  constructor
  · unfold UniqueNames
    rw [hnames]
    refine List.Nodup.map_on ?_ h1
    intro x hx y hy hxy
    exact Prod.ext ((hq x hx).trans (hq y hy).symm) hxy
  · intro n v
    constructor
    · intro hm
      obtain ⟨x, hx, e1, e2⟩ := m1 _ hm
      obtain ⟨g1, g2, g3, g4, g5⟩ := (h2 x.1 x.2).1 hx
      have e1 : n = x.2 := e1
      rw [hq x hx, globPath_plain hdir (fits_good g4 g3)] at e2
      rw [e1]
      exact ⟨g3, g4, e2⟩
    · rintro ⟨g3, g4, g5⟩
      have hg := fits_good g4 g3
      have hx : (components dir, n) ∈ P := (h2 _ _).2 ⟨(globFolder_plain h _).2 rfl, chenComps_good dir, g3, g4, by
        rw [globPath_plain hdir hg, g5]; simp⟩
      obtain ⟨e, he, e1, e2⟩ := m2 _ hx
      have e1 : e.1 = n := e1
      rw [globPath_plain hdir hg, g5] at e2
      injection e2 with e2
      injection e2 with e2
      rw [show (n, v) = e from Prod.ext e1.symm e2]
      exact he

/-! ## Brackets -/

theorem patItems_plain {x : Name} (h : PlainName x) (k : Nat) (r : Name) :
    patItems (x.length + k) (x ++ r) = x.map PatItem.lit ++ patItems k r := by
  induction x with
  | nil => simp
  | cons c x ih =>
    obtain ⟨h1, h2, h3⟩ := h c List.mem_cons_self
    rw [List.length_cons, show x.length + 1 + k = (x.length + k) + 1 by omega, List.cons_append, patItems, if_neg h1, if_neg h2,
      if_neg h3, ih fun a ha => h a (List.mem_cons_of_mem _ ha)]
    rfl

theorem itemsMatch_lits (x : Name) (p : List PatItem) (n : Name) :
    itemsMatch (x.map PatItem.lit ++ p) n = true ↔ ∃ r, n = x ++ r ∧ itemsMatch p r = true := by
  induction x generalizing n with
  | nil => simp
  | cons c x ih =>
    rw [List.map_cons, List.cons_append]
    cases n with
    | nil => simp [itemsMatch]
    | cons d n =>
      rw [itemsMatch, Bool.and_eq_true, ih]
      simp only [beq_iff_eq, List.cons_append, List.cons.injEq]
      constructor
      · rintro ⟨rfl, r, rfl, h⟩
        exact ⟨r, ⟨rfl, rfl⟩, h⟩
      · rintro ⟨r, ⟨rfl, rfl⟩, h⟩
        exact ⟨rfl, r, rfl, h⟩

theorem bracketText_one {c : Char} (h1 : c ≠ '!') (h2 : c ≠ ']') (t : Name) : bracketText (c :: ']' :: t) = some (false, [c], t) := by
  have hb : ((c :: ']' :: t).head? == some '!') = false := by simp [h1]
  have hu : upToBracket (c :: ']' :: t) = some ([c], t) := by
    rw [upToBracket, if_neg h2, upToBracket, if_pos rfl]
    rfl
  unfold bracketText
  simp only [hb, Bool.false_eq_true, if_false]
  split
  · rename_i r heq
    injection heq with e _
    exact absurd e h2
  · rw [hu]
    rfl

/-- One character in brackets stands for this character. -/
theorem compMatch_bracket {x t n : Name} {c : Char} (hx : PlainName x) (ht : PlainName t) (h1 : c ≠ '!') (h2 : c ≠ ']') (h3 : c ≠ '.') :
    compMatch (x ++ '[' :: c :: ']' :: t) n = true ↔ n = x ++ c :: t := by
  have hm : hasMagic (x ++ '[' :: c :: ']' :: t) = true := by
    unfold hasMagic
    rw [List.any_eq_true]
    exact ⟨'[', by simp, by simp⟩
  have hitems : patItems (x ++ '[' :: c :: ']' :: t).length (x ++ '[' :: c :: ']' :: t) =
      x.map PatItem.lit ++ .cls false [(c, c)] :: t.map PatItem.lit := by
    have e : (x ++ '[' :: c :: ']' :: t).length = x.length + ((t.length + 2) + 1) := by simp
    rw [e, patItems_plain hx, patItems, if_neg (by decide), if_neg (by decide), if_pos rfl, bracketText_one h1 h2]
    have := patItems_plain ht 2 []
    rw [List.append_nil, show patItems 2 [] = [] from rfl, List.append_nil] at this
    dsimp only
    rw [this]
    congr 2
  have hmatch : itemsMatch (patItems (x ++ '[' :: c :: ']' :: t).length (x ++ '[' :: c :: ']' :: t)) n = true ↔ n = x ++ c :: t := by
    rw [hitems, itemsMatch_lits]
    constructor
    · rintro ⟨r, rfl, h⟩
      cases r with
      | nil => simp [itemsMatch] at h
      | cons d r =>
        rw [itemsMatch, Bool.and_eq_true] at h
        obtain ⟨ha, hb⟩ := h
        have hb' : itemsMatch (t.map PatItem.lit ++ []) r = true := by rw [List.append_nil]; exact hb
        obtain ⟨s, rfl, hs⟩ := (itemsMatch_lits t [] r).1 hb'
        have hs' : s = [] := by simpa [itemsMatch] using hs
        have hd : c ≤ d ∧ d ≤ c := by simpa using ha
        rw [hs', List.append_nil, le_antisymm hd.2 hd.1]
    · rintro rfl
      refine ⟨c :: t, rfl, ?_⟩
      rw [itemsMatch, Bool.and_eq_true]
      refine ⟨by simp, ?_⟩
      have := (itemsMatch_lits t [] t).2 ⟨[], by simp, by simp [itemsMatch]⟩
      rwa [List.append_nil] at this
  unfold compMatch
  rw [hm, if_pos rfl, Bool.and_eq_true, hmatch]
  constructor
  · exact fun h => h.2
  · rintro rfl
    refine ⟨?_, rfl⟩
    cases x with
    | nil => simp [h3]
    | cons a x =>
      simp only [List.cons_append, List.head?_cons]
      by_cases ha : a = '.' <;> simp [ha]

/-- The components of a name with one character in brackets, and without the brackets. -/
theorem bracket_components {p t : Name} {c : Char} (hp : PlainName p) (ht : '/' ∉ t) (h2 : c ≠ '/') (h3 : c ≠ '.') :
    ∃ D x, PlainName x ∧ (∀ y ∈ D, PlainName y) ∧ components (p ++ '[' :: c :: ']' :: t) = D ++ [x ++ '[' :: c :: ']' :: t] ∧
      components (p ++ c :: t) = D ++ [x ++ c :: t] := by
  obtain ⟨D, x, e1, e2⟩ := splitChar_append_last (c := '/') (e := []) (by simp) p
  have hsub : ∀ y ∈ D ++ [x], PlainName y := by
    intro y hy a ha
    exact hp a (splitChar_sub y (by rw [e1]; exact hy) a ha)
  refine ⟨D.filter (fun x => x ≠ [] ∧ x ≠ ['.']), x, hsub x (by simp), ?_, ?_, ?_⟩
  · intro y hy
    exact hsub y (List.mem_append.2 (Or.inl (List.mem_filter.1 hy).1))
  · unfold components
    rw [e2 _ (by simp [ht, h2.symm]), List.filter_append]
    congr 1
    rw [List.filter_cons, if_pos, List.filter_nil]
    simp only [decide_eq_true_eq]
    refine ⟨by simp, fun h => ?_⟩
    have := congrArg List.length h
    simp at this
    omega
  · unfold components
    rw [e2 _ (by simp [ht, h2.symm]), List.filter_append]
    congr 1
    rw [List.filter_cons, if_pos, List.filter_nil]
    simp only [decide_eq_true_eq]
    refine ⟨by simp, fun h => ?_⟩
    have : c ∈ ['.'] := by rw [← h]; simp
    exact h3 (by simpa using this)

theorem globFolder_bracket {p t : Name} {c : Char} (hp : PlainName p) (ht : PlainName t) (hts : '/' ∉ t) (h1 : c ≠ '!') (h2 : c ≠ ']')
    (h3 : c ≠ '.') (h4 : c ≠ '/') (q : List Name) : GlobFolder (p ++ '[' :: c :: ']' :: t) q ↔ q = components (p ++ c :: t) := by
  obtain ⟨D, x, hx, hD, e1, e2⟩ := bracket_components hp hts h4 h3
  unfold GlobFolder
  rw [e1, e2]
  clear e1 e2
  induction D generalizing q with
  | nil =>
    rw [List.nil_append, List.forall₂_cons_left_iff]
    constructor
    · rintro ⟨b, u, g1, g2, rfl⟩
      rw [List.forall₂_nil_left_iff] at g2
      rw [g2, (compMatch_bracket hx ht h1 h2 h3).1 g1]
      rfl
    · rintro rfl
      exact ⟨_, [], (compMatch_bracket hx ht h1 h2 h3).2 rfl, List.Forall₂.nil, rfl⟩
  | cons y D ih =>
    rw [List.cons_append, List.forall₂_cons_left_iff, List.cons_append]
    constructor
    · rintro ⟨b, u, g1, g2, rfl⟩
      rw [(compMatch_plain (hD y List.mem_cons_self)).1 g1, (ih u (fun z hz => hD z (List.mem_cons_of_mem _ hz))).1 g2]
    · rintro rfl
      exact ⟨y, _, (compMatch_plain (hD y List.mem_cons_self)).2 rfl, (ih _ (fun z hz => hD z (List.mem_cons_of_mem _ hz))).2 rfl, rfl⟩

end Micropol

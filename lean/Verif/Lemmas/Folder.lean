import Verif.Model.Folder
import Verif.Spec.Shape
import Verif.Spec.Folder
import Mathlib.Data.Finset.Prod
import Mathlib.Data.Finset.Card
import Mathlib.Data.List.Nodup
import Mathlib.Data.List.Perm.Basic
import Mathlib.Data.Fintype.Prod

/-! # Auxiliary facts about loading and saving calibration folders -/

set_option autoImplicit false

namespace Micropol

variable {K : Type} [Field K]

/-- The digit pairs of a list of files. -/
def digitsOf (files : Listing K) : List (Nat × Nat) := files.filterMap (fun e => twoDigits e.1)

theorem mem_digitsOf {files : Listing K} {d : Nat × Nat} :
    d ∈ digitsOf files ↔ ∃ e ∈ files, twoDigits e.1 = some d := List.mem_filterMap

/-- Everything a successful run of the loading loop tells. -/
theorem loop_spec {rows cols h w : Nat} (l : Listing K) (st st' : LoadState K rows cols)
    (hok : forList l st (loadBody rows cols h w) = .ok st') :
    st'.found = st.found + (digitsOf l).length ∧
    (∀ d ∈ digitsOf l, d.1 < rows ∧ d.2 < cols) ∧
    (∀ a b, (st'.tensor a b = st.tensor a b ∧ (a.val, b.val) ∉ digitsOf l) ∨
      ∃ e ∈ l, twoDigits e.1 = some (a.val, b.val) ∧ assignPlane h w e.2 = .ok (st'.tensor a b)) ∧
    ((st'.flags = st.flags ∧ ∀ e ∈ l, e.1 ≠ flagName) ∨
      ∃ e ∈ l, e.1 = flagName ∧ st'.flags = some e.2) := by
  induction l generalizing st with
  | nil =>
    have : st = st' := by
      have := hok
      unfold forList at this
      simpa using this
    subst this
    exact ⟨by simp [digitsOf], by simp [digitsOf], fun a b => Or.inl ⟨rfl, by simp [digitsOf]⟩,
      Or.inl ⟨rfl, by simp⟩⟩
  | cons e l ih =>
    unfold forList at hok
    rw [List.foldlM_cons, Py.bind_eq_ok] at hok
    obtain ⟨st2, hb, hrest⟩ := hok
    obtain ⟨i1, i2, i3, i4⟩ := ih st2 hrest
    unfold loadBody at hb
    rw [Py.bind_eq_ok] at hb
    obtain ⟨st1, h1, h2⟩ := hb
    -- effect of the flag test
    have hflag : st2.tensor = st1.tensor ∧ st2.found = st1.found ∧
        ((e.1 = flagName ∧ st2.flags = some e.2) ∨ (e.1 ≠ flagName ∧ st2.flags = st1.flags)) := by
      by_cases hf : e.1 = flagName
      · rw [if_pos hf] at h2
        injection h2 with h2
        subst h2
        exact ⟨rfl, rfl, Or.inl ⟨hf, rfl⟩⟩
      · rw [if_neg hf] at h2
        injection h2 with h2
        subst h2
        exact ⟨rfl, rfl, Or.inr ⟨hf, rfl⟩⟩
    obtain ⟨t1, t2, t3⟩ := hflag
    unfold loadDigits at h1
    -- effect of the digits
    cases hd : twoDigits e.1 with
    | none =>
      rw [hd] at h1
      dsimp only at h1
      injection h1 with h1
      subst h1
      have hD : digitsOf (e :: l) = digitsOf l := by simp [digitsOf, hd]
      rw [hD]
      refine ⟨by rw [i1, t2], i2, ?_, ?_⟩
      · intro a b
        rcases i3 a b with ⟨h3, h4⟩ | ⟨e', h3, h4⟩
        · exact Or.inl ⟨by rw [h3, t1], h4⟩
        · exact Or.inr ⟨e', by simp [h3], h4⟩
      · rcases i4 with ⟨h3, h4⟩ | ⟨e', h3, h4⟩
        · rcases t3 with ⟨h5, h6⟩ | ⟨h5, h6⟩
          · exact Or.inr ⟨e, by simp, h5, by rw [h3, h6]⟩
          · left
            refine ⟨by rw [h3, h6], ?_⟩
            intro e' he'
            rcases List.mem_cons.1 he' with rfl | he'
            · exact h5
            · exact h4 e' he'
        · exact Or.inr ⟨e', by simp [h3], h4⟩
    | some d =>
      obtain ⟨i, j⟩ := d
      rw [hd] at h1
      dsimp only at h1
      have hD : digitsOf (e :: l) = (i, j) :: digitsOf l := by simp [digitsOf, hd]
      rw [hD]
      by_cases hij : i < rows ∧ j < cols
      · rw [dif_pos hij, Py.bind_eq_ok] at h1
        obtain ⟨p, hp, h1⟩ := h1
        injection h1 with h1
        subst h1
        refine ⟨?_, ?_, ?_, ?_⟩
        · rw [i1, t2, List.length_cons]
          dsimp only
          omega
        · intro d hd'
          rcases List.mem_cons.1 hd' with rfl | hd'
          · exact hij
          · exact i2 d hd'
        · intro a b
          rcases i3 a b with ⟨h3, h4⟩ | ⟨e', h3, h4⟩
          · by_cases hab : a = ⟨i, hij.1⟩ ∧ b = ⟨j, hij.2⟩
            · right
              refine ⟨e, by simp, by rw [hd, hab.1, hab.2], ?_⟩
              rw [hp, h3, t1]
              dsimp only
              rw [if_pos hab]
            · left
              refine ⟨?_, ?_⟩
              · rw [h3, t1]
                dsimp only
                rw [if_neg hab]
              · intro hm
                rcases List.mem_cons.1 hm with heq | hm
                · apply hab
                  injection heq with e1 e2
                  exact ⟨Fin.ext e1, Fin.ext e2⟩
                · exact h4 hm
          · exact Or.inr ⟨e', by simp [h3], h4⟩
        · rcases i4 with ⟨h3, h4⟩ | ⟨e', h3, h4⟩
          · rcases t3 with ⟨h5, h6⟩ | ⟨h5, h6⟩
            · exact Or.inr ⟨e, by simp, h5, by rw [h3, h6]⟩
            · left
              refine ⟨by rw [h3, h6], ?_⟩
              intro e' he'
              rcases List.mem_cons.1 he' with rfl | he'
              · exact h5
              · exact h4 e' he'
          · exact Or.inr ⟨e', by simp [h3], h4⟩
      · rw [dif_neg hij] at h1
        cases h1

/-- The loop does not raise when all numbered files are in range and have the shape of the sample. -/
theorem loop_total {rows cols h w : Nat} (l : Listing K) (st : LoadState K rows cols)
    (hr : ∀ e ∈ l, ∀ d, twoDigits e.1 = some d → (d.1 < rows ∧ d.2 < cols) ∧ e.2.HasShape h w) :
    ∃ st', forList l st (loadBody rows cols h w) = .ok st' := by
  induction l generalizing st with
  | nil => exact ⟨st, rfl⟩
  | cons e l ih =>
    have hstep : ∃ st1, loadBody rows cols h w e st = .ok st1 := by
      unfold loadBody loadDigits
      cases hd : twoDigits e.1 with
      | none =>
        dsimp only
        rw [Py.ok_bind]
        split <;> exact ⟨_, rfl⟩
      | some d =>
        obtain ⟨i, j⟩ := d
        obtain ⟨hij, hs⟩ := hr e (by simp) _ hd
        dsimp only at hij ⊢
        rw [dif_pos hij]
        unfold assignPlane
        rw [if_pos ⟨Or.inl hs.1, Or.inl hs.2⟩, Py.ok_bind, Py.ok_bind]
        split <;> exact ⟨_, rfl⟩
    obtain ⟨st1, h1⟩ := hstep
    obtain ⟨st2, h2⟩ := ih st1 (fun e' he' => hr e' (by simp [he']))
    refine ⟨st2, ?_⟩
    unfold forList at h2 ⊢
    rw [List.foldlM_cons, h1, Py.ok_bind]
    exact h2

theorem assignPlane_same {h w : Nat} {A : Img K} (hA : A.HasShape h w) : assignPlane h w A = .ok A := by
  unfold assignPlane
  rw [if_pos ⟨Or.inl hA.1, Or.inl hA.2⟩]
  congr 1
  symm
  refine Img.eq_ofFn hA.1 hA.2 ?_
  intro y x hy hx
  have e1 : bidx A.h y = y := by
    unfold bidx
    split
    · rename_i h1; have := hA.1; omega
    · rfl
  have e2 : bidx A.w x = x := by
    unfold bidx
    split
    · rename_i h1; have := hA.2; omega
    · rfl
  rw [e1, e2]

/-- Counting: pairwise different digit pairs in range, as many as the grid has, are the whole grid. -/
theorem digits_cover {D : List (Nat × Nat)} {r c : Nat} (hn : D.Nodup) (hr : ∀ d ∈ D, d.1 < r ∧ d.2 < c)
    (hl : D.length = r * c) {i j : Nat} (hi : i < r) (hj : j < c) : (i, j) ∈ D := by
  have hsub : D.toFinset ⊆ Finset.range r ×ˢ Finset.range c := by
    intro d hd
    rw [List.mem_toFinset] at hd
    rw [Finset.mem_product, Finset.mem_range, Finset.mem_range]
    exact hr d hd
  have heq : D.toFinset = Finset.range r ×ˢ Finset.range c := by
    apply Finset.eq_of_subset_of_card_le hsub
    rw [Finset.card_product, Finset.card_range, Finset.card_range, List.toFinset_card_of_nodup hn, hl]
  rw [← List.mem_toFinset, heq, Finset.mem_product, Finset.mem_range, Finset.mem_range]
  exact ⟨hi, hj⟩

theorem digits_length {D : List (Nat × Nat)} {r c : Nat} (hn : D.Nodup) (hr : ∀ d ∈ D, d.1 < r ∧ d.2 < c)
    (hall : ∀ i j, i < r → j < c → (i, j) ∈ D) : D.length = r * c := by
  have heq : D.toFinset = Finset.range r ×ˢ Finset.range c := by
    ext ⟨i, j⟩
    rw [List.mem_toFinset, Finset.mem_product, Finset.mem_range, Finset.mem_range]
    exact ⟨fun h => hr _ h, fun h => hall i j h.1 h.2⟩
  rw [← List.toFinset_card_of_nodup hn, heq, Finset.card_product, Finset.card_range, Finset.card_range]

/-- Numbered files with pairwise different names, whose name is determined by the digits. -/
theorem digits_nodup {l : Listing K} (hn : (l.map Prod.fst).Nodup)
    (hdet : ∀ e ∈ l, ∀ e' ∈ l, ∀ d, twoDigits e.1 = some d → twoDigits e'.1 = some d → e.1 = e'.1) :
    (digitsOf l).Nodup := by
  induction l with
  | nil => simp [digitsOf]
  | cons e l ih =>
    rw [List.map_cons, List.nodup_cons] at hn
    have ih' := ih hn.2 (fun a ha b hb => hdet a (by simp [ha]) b (by simp [hb]))
    cases hd : twoDigits e.1 with
    | none =>
      have hD : digitsOf (e :: l) = digitsOf l := by simp [digitsOf, hd]
      rw [hD]; exact ih'
    | some d =>
      have hD : digitsOf (e :: l) = d :: digitsOf l := by simp [digitsOf, hd]
      rw [hD, List.nodup_cons]
      refine ⟨?_, ih'⟩
      intro hm
      obtain ⟨e', he', hd'⟩ := mem_digitsOf.1 hm
      apply hn.1
      rw [hdet e (by simp) e' (by simp [he']) d hd hd']
      exact List.mem_map_of_mem he'

/-! ## Names -/

theorem twoDigits_mName : ∀ (i : Fin 3) (j : Fin 4), twoDigits (mName i j) = some (i.val, j.val) := by decide
theorem isFits_mName : ∀ (i : Fin 3) (j : Fin 4), isFits (mName i j) = true := by decide
theorem mName_ne_flag : ∀ (i : Fin 3) (j : Fin 4), mName i j ≠ flagName := by decide
theorem twoDigits_cName : ∀ (i j : Fin 3), twoDigits (cName i j) = some (i.val, j.val) := by decide
theorem isFits_flagName : isFits flagName = true := by decide
theorem twoDigits_flagName : twoDigits flagName = none := by decide

/-! ## Loading a complete folder -/

/-- A folder that holds the twelve components and no other numbered `.fits` file. -/
theorem load_complete {listing : Listing K} {mij : Fin 3 → Fin 4 → Img K} {h w : Nat}
    (hshape : ∀ i j, (mij i j).HasShape h w)
    (hn : (listing.map Prod.fst).Nodup)
    (hall : ∀ (i : Fin 3) (j : Fin 4), (mName i j, mij i j) ∈ listing)
    (honly : ∀ e ∈ listing, isFits e.1 = true → (twoDigits e.1).isSome →
      ∃ (i : Fin 3) (j : Fin 4), e.1 = mName i j) :
    ∃ flags, loadDemodulator (some listing) = .ok ⟨mij, flags⟩ ∧
      ((flags = none ∧ ∀ e ∈ listing, e.1 ≠ flagName) ∨ ∃ F, (flagName, F) ∈ listing ∧ flags = some F) := by
  -- contents are determined by the names
  have huniq : ∀ e ∈ listing, ∀ e' ∈ listing, e.1 = e'.1 → e = e' := by
    intro e he e' he' heq
    exact List.inj_on_of_nodup_map hn he he' heq
  have hnum : ∀ e ∈ listing.filter (fun e => isFits e.1), ∀ d, twoDigits e.1 = some d →
      ∃ (i : Fin 3) (j : Fin 4), e = (mName i j, mij i j) ∧ d = (i.val, j.val) := by
    intro e he d hd
    rw [List.mem_filter] at he
    obtain ⟨i, j, hij⟩ := honly e he.1 he.2 (by rw [hd]; rfl)
    refine ⟨i, j, huniq e he.1 _ (hall i j) hij, ?_⟩
    rw [hij, twoDigits_mName] at hd
    injection hd with hd
    exact hd.symm
  have hin : ∀ (i : Fin 3) (j : Fin 4), (mName i j, mij i j) ∈ listing.filter (fun e => isFits e.1) := by
    intro i j
    rw [List.mem_filter]
    exact ⟨hall i j, isFits_mName i j⟩
  unfold loadDemodulator
  dsimp only
  generalize hnames : listing.filter (fun e => isFits e.1) = names at *
  rw [if_neg (by
    intro h0
    rw [List.isEmpty_iff] at h0
    rw [h0] at hin
    exact absurd (hin 0 0) (by simp))]
  cases hfind : names.find? (fun e => (twoDigits e.1).isSome) with
  | none =>
    exfalso
    rw [List.find?_eq_none] at hfind
    have := hfind _ (hin 0 0)
    dsimp only at this
    rw [twoDigits_mName 0 0] at this
    exact this rfl
  | some sample =>
    dsimp only
    have hs1 := List.mem_of_find?_eq_some hfind
    have hs2 := List.find?_some hfind
    obtain ⟨d, hd⟩ := Option.isSome_iff_exists.1 hs2
    obtain ⟨i0, j0, hs, -⟩ := hnum sample hs1 d hd
    have hsh : sample.2.HasShape h w := by rw [hs]; exact hshape i0 j0
    obtain ⟨hsh1, hsh2⟩ := hsh
    rw [hsh1, hsh2]
    obtain ⟨st, hst⟩ := loop_total names (⟨fun _ _ => Img.zeros h w, none, 0⟩ : LoadState K 3 4)
      (h := h) (w := w) (by
        intro e he d hd
        obtain ⟨i, j, rfl, rfl⟩ := hnum e he d hd
        exact ⟨⟨i.isLt, j.isLt⟩, hshape i j⟩)
    obtain ⟨s1, s2, s3, s4⟩ := loop_spec _ _ _ hst
    rw [hst, Py.ok_bind]
    have hnn : (names.map Prod.fst).Nodup := by
      rw [← hnames]
      exact hn.sublist (List.filter_sublist.map _)
    have hlen : (digitsOf names).length = 3 * 4 := by
      refine digits_length (digits_nodup hnn ?_) s2 ?_
      · intro e he e' he' d hd hd'
        obtain ⟨i, j, rfl, rfl⟩ := hnum e he d hd
        obtain ⟨i', j', rfl, heq⟩ := hnum e' he' _ hd'
        injection heq with h1 h2
        rw [Fin.ext h1, Fin.ext h2]
      · intro i j hi hj
        rw [mem_digitsOf]
        exact ⟨_, hin ⟨i, hi⟩ ⟨j, hj⟩, twoDigits_mName ⟨i, hi⟩ ⟨j, hj⟩⟩
    rw [if_neg (by rw [s1, hlen]; simp)]
    have htensor : st.tensor = mij := by
      funext a b
      rcases s3 a b with ⟨-, h2⟩ | ⟨e, he, hd, hp⟩
      · exfalso
        apply h2
        rw [mem_digitsOf]
        exact ⟨_, hin a b, twoDigits_mName a b⟩
      · obtain ⟨i, j, rfl, heq⟩ := hnum e he _ hd
        injection heq with h1 h2
        have h1 := Fin.ext h1
        have h2 := Fin.ext h2
        subst h1 h2
        rw [assignPlane_same (hshape a b)] at hp
        injection hp with hp
        exact hp.symm
    refine ⟨st.flags, by rw [htensor], ?_⟩
    rcases s4 with ⟨h1, h2⟩ | ⟨e, he, h1, h2⟩
    · left
      refine ⟨h1, ?_⟩
      intro e he hf
      refine h2 e ?_ hf
      rw [← hnames, List.mem_filter]
      exact ⟨he, by rw [hf]; exact isFits_flagName⟩
    · right
      rw [← hnames, List.mem_filter] at he
      exact ⟨e.2, by rw [← h1]; exact he.1, h2⟩

/-! ## Writing -/

theorem putFile_mem {files : Listing K} {n : Name} {data : Img K} (e : Name × Img K) :
    e ∈ putFile files n data ↔ e = (n, data) ∨ (e ∈ files ∧ e.1 ≠ n) := by
  unfold putFile
  split
  · rename_i hmem
    rw [List.mem_map]
    constructor
    · rintro ⟨e', he', rfl⟩
      by_cases h : e'.1 = n
      · rw [if_pos h]; exact Or.inl rfl
      · rw [if_neg h]; exact Or.inr ⟨he', h⟩
    · rintro (rfl | ⟨he, hne⟩)
      · obtain ⟨e', he', heq⟩ := List.mem_map.1 hmem
        exact ⟨e', he', by rw [if_pos heq]⟩
      · exact ⟨e, he, by rw [if_neg hne]⟩
  · rename_i hmem
    rw [List.mem_append, List.mem_singleton]
    constructor
    · rintro (he | rfl)
      · refine Or.inr ⟨he, ?_⟩
        rintro rfl
        exact hmem (List.mem_map_of_mem he)
      · exact Or.inl rfl
    · rintro (rfl | ⟨he, -⟩)
      · exact Or.inr rfl
      · exact Or.inl he

theorem putFile_nodup {files : Listing K} {n : Name} {data : Img K} (h : (files.map Prod.fst).Nodup) :
    ((putFile files n data).map Prod.fst).Nodup := by
  unfold putFile
  split
  · have : (files.map (fun e => if e.1 = n then (n, data) else e)).map Prod.fst = files.map Prod.fst := by
      rw [List.map_map]
      apply List.map_congr_left
      intro e _
      by_cases h : e.1 = n
      · simp [h]
      · simp [h]
    rw [this]
    exact h
  · rename_i hmem
    rw [List.map_append]
    refine List.nodup_append.2 ⟨h, by simp, ?_⟩
    intro a ha b hb
    simp only [List.map_cons, List.map_nil, List.mem_singleton] at hb
    subst hb
    rintro rfl
    exact hmem ha

/-- The writes into the folder itself. -/
def topWrites (ops : List (FileOp K)) : Listing K :=
  ops.filterMap (fun op => match op with
    | .top n d => some (n, d)
    | _ => none)

/-- The writes into the covariance subfolder. -/
def covWrites (ops : List (FileOp K)) : Listing K :=
  ops.filterMap (fun op => match op with
    | .cov n d => some (n, d)
    | _ => none)

theorem run_top (ops : List (FileOp K)) (f : CalibFolder K) (hn : (f.top.map Prod.fst).Nodup)
    (hw : ((topWrites ops).map Prod.fst).Nodup) :
    ((ops.foldl FileOp.run f).top.map Prod.fst).Nodup ∧
    ∀ e, e ∈ (ops.foldl FileOp.run f).top ↔
      e ∈ topWrites ops ∨ (e ∈ f.top ∧ e.1 ∉ (topWrites ops).map Prod.fst) := by
  induction ops generalizing f with
  | nil => exact ⟨hn, by simp [topWrites]⟩
  | cons op ops ih =>
    rw [List.foldl_cons]
    cases op with
    | mkCov =>
      have hT : topWrites (FileOp.mkCov :: ops : List (FileOp K)) = topWrites ops := by simp [topWrites]
      rw [hT] at hw ⊢
      exact ih _ hn hw
    | cov n d =>
      have hT : topWrites (FileOp.cov n d :: ops : List (FileOp K)) = topWrites ops := by simp [topWrites]
      rw [hT] at hw ⊢
      exact ih _ hn hw
    | top n d =>
      have hT : topWrites (FileOp.top n d :: ops : List (FileOp K)) = (n, d) :: topWrites ops := by simp [topWrites]
      rw [hT] at hw ⊢
      rw [List.map_cons, List.nodup_cons] at hw
      obtain ⟨h1, h2⟩ := ih (FileOp.run f (.top n d)) (putFile_nodup hn) hw.2
      refine ⟨h1, ?_⟩
      intro e
      rw [h2 e]
      show e ∈ topWrites ops ∨ (e ∈ putFile f.top n d ∧ _) ↔ _
      rw [putFile_mem]
      simp only [List.mem_cons, List.map_cons, not_or]
      constructor
      · rintro (h | ⟨rfl | ⟨h3, h4⟩, h5⟩)
        · exact Or.inl (Or.inr h)
        · exact Or.inl (Or.inl rfl)
        · exact Or.inr ⟨h3, h4, h5⟩
      · rintro ((rfl | h) | ⟨h3, h4, h5⟩)
        · exact Or.inr ⟨Or.inl rfl, hw.1⟩
        · exact Or.inl h
        · exact Or.inr ⟨Or.inr ⟨h3, h4⟩, h5⟩

theorem run_cov (ops : List (FileOp K)) (f : CalibFolder K) (hn : ((f.cov.getD []).map Prod.fst).Nodup)
    (hw : ((covWrites ops).map Prod.fst).Nodup) :
    ((((ops.foldl FileOp.run f).cov).getD []).map Prod.fst).Nodup ∧
    ∀ e, e ∈ ((ops.foldl FileOp.run f).cov).getD [] ↔
      e ∈ covWrites ops ∨ (e ∈ f.cov.getD [] ∧ e.1 ∉ (covWrites ops).map Prod.fst) := by
  induction ops generalizing f with
  | nil => exact ⟨hn, by simp [covWrites]⟩
  | cons op ops ih =>
    rw [List.foldl_cons]
    cases op with
    | mkCov =>
      have hT : covWrites (FileOp.mkCov :: ops : List (FileOp K)) = covWrites ops := by simp [covWrites]
      rw [hT] at hw ⊢
      exact ih (FileOp.run f .mkCov) hn hw
    | top n d =>
      have hT : covWrites (FileOp.top n d :: ops : List (FileOp K)) = covWrites ops := by simp [covWrites]
      rw [hT] at hw ⊢
      exact ih (FileOp.run f (.top n d)) hn hw
    | cov n d =>
      have hT : covWrites (FileOp.cov n d :: ops : List (FileOp K)) = (n, d) :: covWrites ops := by simp [covWrites]
      rw [hT] at hw ⊢
      rw [List.map_cons, List.nodup_cons] at hw
      obtain ⟨h1, h2⟩ := ih (FileOp.run f (.cov n d)) (putFile_nodup hn) hw.2
      refine ⟨h1, ?_⟩
      intro e
      rw [h2 e]
      show e ∈ covWrites ops ∨ (e ∈ putFile (f.cov.getD []) n d ∧ _) ↔ _
      rw [putFile_mem]
      simp only [List.mem_cons, List.map_cons, not_or]
      constructor
      · rintro (h | ⟨rfl | ⟨h3, h4⟩, h5⟩)
        · exact Or.inl (Or.inr h)
        · exact Or.inl (Or.inl rfl)
        · exact Or.inr ⟨h3, h4, h5⟩
      · rintro ((rfl | h) | ⟨h3, h4, h5⟩)
        · exact Or.inr ⟨Or.inl rfl, hw.1⟩
        · exact Or.inl h
        · exact Or.inr ⟨Or.inr ⟨h3, h4⟩, h5⟩

/-! ## The names, against their specification -/

theorem digitVal_eq_some {c : Char} {i : Nat} : digitVal c = some i ↔ i < 10 ∧ c = digitChar i := by
  unfold digitVal digitChar
  constructor
  · intro h
    split at h
    · rename_i hc
      injection h with h
      refine ⟨by omega, ?_⟩
      rw [show 48 + i = c.toNat by omega, Char.ofNat_toNat]
    · cases h
  · rintro ⟨hi, rfl⟩
    have : ∀ i : Fin 10, (if 48 ≤ (Char.ofNat (48 + i.val)).toNat ∧ (Char.ofNat (48 + i.val)).toNat ≤ 57 then
      some ((Char.ofNat (48 + i.val)).toNat - 48) else none) = some i.val := by decide
    exact this ⟨i, hi⟩

theorem isDigitChar_iff {c : Char} : IsDigitChar c ↔ ∃ i, digitVal c = some i := by
  unfold IsDigitChar digitVal
  rw [Char.le_def, Char.le_def, UInt32.le_iff_toNat_le, UInt32.le_iff_toNat_le]
  show (48 ≤ c.toNat ∧ c.toNat ≤ 57) ↔ _
  constructor
  · intro h; exact ⟨_, if_pos h⟩
  · rintro ⟨i, h⟩
    split at h
    · assumption
    · cases h

theorem hasDigitPair_cons {a b : Char} {l : Name} :
    HasDigitPair (a :: b :: l) ↔ (IsDigitChar a ∧ IsDigitChar b) ∨ HasDigitPair (b :: l) := by
  constructor
  · rintro ⟨pre, c, d, post, h, hc, hd⟩
    cases pre with
    | nil =>
      simp only [List.nil_append, List.cons.injEq] at h
      exact Or.inl ⟨h.1 ▸ hc, h.2.1 ▸ hd⟩
    | cons p pre =>
      simp only [List.cons_append, List.cons.injEq] at h
      exact Or.inr ⟨pre, c, d, post, h.2, hc, hd⟩
  · rintro (⟨ha, hb⟩ | ⟨pre, c, d, post, h, hc, hd⟩)
    · exact ⟨[], a, b, l, rfl, ha, hb⟩
    · exact ⟨a :: pre, c, d, post, by rw [h]; rfl, hc, hd⟩

theorem not_hasDigitPair_short {l : Name} (h : l.length < 2) : ¬HasDigitPair l := by
  rintro ⟨pre, c, d, post, rfl, -⟩
  simp at h
  omega

theorem twoDigits_none {n : Name} : twoDigits n = none ↔ ¬HasDigitPair n := by
  induction n with
  | nil => exact ⟨fun _ => not_hasDigitPair_short (by simp), fun _ => rfl⟩
  | cons a l ih =>
    cases l with
    | nil => exact ⟨fun _ => not_hasDigitPair_short (by simp), fun _ => rfl⟩
    | cons b l =>
      rw [hasDigitPair_cons, isDigitChar_iff, isDigitChar_iff]
      rw [twoDigits]
      cases ha : digitVal a <;> cases hb : digitVal b <;> simp [ih]

theorem twoDigits_isSome {n : Name} : (twoDigits n).isSome = true ↔ HasDigitPair n := by
  rw [← not_iff_not, ← twoDigits_none]
  cases twoDigits n <;> simp

theorem twoDigits_some {n : Name} {i j : Nat} : twoDigits n = some (i, j) ↔ FirstDigits n i j := by
  induction n with
  | nil =>
    constructor
    · intro h; cases h
    · rintro ⟨-, -, pre, post, h, -⟩
      simp at h
  | cons a l ih =>
    cases l with
    | nil =>
      constructor
      · intro h; cases h
      · rintro ⟨-, -, pre, post, h, -⟩
        have := congrArg List.length h
        simp at this
        omega
    | cons b l =>
      by_cases hab : (∃ i, digitVal a = some i) ∧ ∃ j, digitVal b = some j
      · obtain ⟨⟨i', hi⟩, j', hj⟩ := hab
        rw [twoDigits, hi, hj]
        dsimp only
        constructor
        · intro h
          injection h with h
          injection h with h1 h2
          subst h1 h2
          obtain ⟨hi1, hi2⟩ := digitVal_eq_some.1 hi
          obtain ⟨hj1, hj2⟩ := digitVal_eq_some.1 hj
          exact ⟨hi1, hj1, [], l, by rw [hi2, hj2]; rfl, not_hasDigitPair_short (by simp)⟩
        · rintro ⟨h1, h2, pre, post, h, hno⟩
          cases pre with
          | nil =>
            simp only [List.nil_append, List.cons.injEq] at h
            rw [digitVal_eq_some.2 ⟨h1, h.1⟩] at hi
            rw [digitVal_eq_some.2 ⟨h2, h.2.1⟩] at hj
            injection hi with hi
            injection hj with hj
            rw [hi, hj]
          | cons p pre =>
            exfalso
            apply hno
            simp only [List.cons_append, List.cons.injEq] at h
            obtain ⟨rfl, h⟩ := h
            cases pre with
            | nil =>
              simp only [List.nil_append, List.cons.injEq] at h
              obtain ⟨rfl, h⟩ := h
              exact hasDigitPair_cons.2 (Or.inl ⟨isDigitChar_iff.2 ⟨_, hi⟩, isDigitChar_iff.2 ⟨_, hj⟩⟩)
            | cons q pre =>
              simp only [List.cons_append, List.cons.injEq] at h
              obtain ⟨rfl, h⟩ := h
              exact hasDigitPair_cons.2 (Or.inl ⟨isDigitChar_iff.2 ⟨_, hi⟩, isDigitChar_iff.2 ⟨_, hj⟩⟩)
      · have hm : twoDigits (a :: b :: l) = twoDigits (b :: l) := by
          rw [twoDigits]
          cases ha : digitVal a with
          | none => rfl
          | some i' =>
            cases hb : digitVal b with
            | none => rfl
            | some j' => exact absurd ⟨⟨i', ha⟩, j', hb⟩ hab
        rw [hm, ih]
        constructor
        · rintro ⟨h1, h2, pre, post, h, hno⟩
          refine ⟨h1, h2, a :: pre, post, by rw [h]; rfl, ?_⟩
          cases pre with
          | nil =>
            simp only [List.nil_append, List.cons.injEq] at h
            intro hc
            rcases hasDigitPair_cons.1 hc with ⟨hc1, hc2⟩ | hc
            · rw [← h.1] at hc2
              exact hab ⟨isDigitChar_iff.1 hc1, isDigitChar_iff.1 hc2⟩
            · exact hno hc
          | cons q pre =>
            simp only [List.cons_append, List.cons.injEq] at h
            intro hc
            rcases hasDigitPair_cons.1 hc with ⟨hc1, hc2⟩ | hc
            · rw [← h.1] at hc2
              exact hab ⟨isDigitChar_iff.1 hc1, isDigitChar_iff.1 hc2⟩
            · exact hno hc
        · rintro ⟨h1, h2, pre, post, h, hno⟩
          cases pre with
          | nil =>
            exfalso
            simp only [List.nil_append, List.cons.injEq] at h
            exact hab ⟨⟨i, digitVal_eq_some.2 ⟨h1, h.1⟩⟩, j, digitVal_eq_some.2 ⟨h2, h.2.1⟩⟩
          | cons p pre =>
            simp only [List.cons_append, List.cons.injEq] at h
            refine ⟨h1, h2, pre, post, h.2, ?_⟩
            intro hc
            apply hno
            cases pre with
            | nil => exact absurd hc (not_hasDigitPair_short (by simp))
            | cons q pre => exact hasDigitPair_cons.2 (Or.inr hc)

theorem isFits_iff {n : Name} : isFits n = true ↔ ListedFits n := by
  unfold isFits ListedFits
  rw [Bool.and_eq_true, List.isSuffixOf_iff_suffix, bne_iff_ne, and_comm]
  refine and_congr_left' ?_
  constructor
  · rintro ⟨s, h⟩; exact ⟨s, h.symm⟩
  · rintro ⟨s, h⟩; exact ⟨s, h.symm⟩

theorem isComponentName_iff {n : Name} : IsComponentName n ↔ ∃ (i : Fin 3) (j : Fin 4), n = mName i j := Iff.rfl

end Micropol

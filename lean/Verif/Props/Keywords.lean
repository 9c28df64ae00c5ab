import Verif.Lemmas.Keywords
import Verif.Lemmas.AnyHistory
import Verif.Props.Disk

/-!
# C122: keywords of images and files

The statements use `archive` (a session of calls, keyword writes, saves and loads, see `Verif/Model/Keywords.lean`), `limited` (the
limits of `fixto`) and the vocabulary of `Verif/Spec/Keywords.lean`: `Hdu.Is` (array, size and keywords of a file), `described`
(families and keywords of the images, told without references).
-/

set_option autoImplicit false

namespace Micropol

noncomputable section

variable {clock : Clock} {disk : Name → Option Hdu}

/-! ## Auxiliary facts -/

theorem writeHdus_other {disk : Name → Option Hdu} {l : List (Name × Hdu)} {n : Name} (h : n ∉ l.map Prod.fst) :
    writeHdus disk l n = disk n := by
  induction l generalizing disk with
  | nil => rfl
  | cons a l ih =>
    rw [List.map_cons, List.mem_cons, not_or] at h
    show writeHdus (fun m => if m = a.1 then some a.2 else disk m) l n = _
    rw [ih h.2, if_neg h.1]

theorem writeHdus_mem {disk : Name → Option Hdu} {l : List (Name × Hdu)} {n : Name} {f : Hdu} (hnd : (l.map Prod.fst).Nodup)
    (h : (n, f) ∈ l) : writeHdus disk l n = some f := by
  induction l generalizing disk with
  | nil => cases h
  | cons a l ih =>
    rw [List.map_cons, List.nodup_cons] at hnd
    rcases List.mem_cons.1 h with rfl | h
    · show writeHdus (fun m => if m = n then some f else disk m) l n = _
      rw [writeHdus_other hnd.1, if_pos rfl]
    · exact ih hnd.2 h

theorem writeHdus_either (disk : Name → Option Hdu) (l : List (Name × Hdu)) (n : Name) (f : Hdu) (h : writeHdus disk l n = some f) :
    disk n = some f ∨ (n, f) ∈ l := by
  induction l generalizing disk with
  | nil => exact .inl h
  | cons a l ih =>
    rcases ih _ h with h | h
    · dsimp only at h
      by_cases e : n = a.1
      · rw [if_pos e] at h
        have h2 : a.2 = f := Option.some.inj h
        refine .inr ?_
        rw [e, ← h2]
        exact List.mem_cons_self
      · rw [if_neg e] at h; exact .inl h
    · exact .inr (List.mem_cons_of_mem _ h)

theorem card_self (c : Cards) (k : Keyword) (v : CardValue) : c.set k v k = some v := if_pos rfl

theorem card_ne (c : Cards) {k key : Keyword} (v : CardValue) (h : k ≠ key) : c.set key v k = c k := if_neg h

theorem card_set (c : Cards) (k : Keyword) (v w : CardValue) : (c.set k v).set k w = c.set k w := by
  funext j
  unfold Cards.set
  split <;> rfl

theorem primary_is (d : Img ℝ) (c : Cards) : (primaryHdu d c).Is d c [] := ⟨rfl, ⟨rfl, rfl⟩, (fun _ h => by cases h), fun _ _ => rfl⟩

theorem primary_pol (d : Img ℝ) (c : Cards) (v : CardValue) : (primaryHdu d (c.set .pol v)).Is d c [(.pol, v)] := by
  refine ⟨rfl, ⟨rfl, rfl⟩, fun e he => ?_, fun k hk => ?_⟩
  · rw [List.mem_singleton.1 he]; exact card_self c .pol v
  · exact card_ne _ _ fun e => hk (by rw [e]; simp)

theorem paramTexts_table : ∀ q ∈ paramTable, paramTexts q.1 = q.2 := by
  unfold paramTable
  intro q hq
  simp only [List.mem_cons, List.not_mem_nil, or_false] at hq
  rcases hq with rfl | rfl | rfl | rfl | rfl | rfl <;> rfl

theorem primary_param (d : Img ℝ) (c : Cards) (p : Name) :
    (primaryHdu d (paramCards c p)).Is d c [(.param, .text (paramTexts p).1), (.units, .text (paramTexts p).2)] := by
  refine ⟨rfl, ⟨rfl, rfl⟩, fun e he => ?_, fun k hk => ?_⟩
  · rcases List.mem_cons.1 he with rfl | he
    · exact (card_ne (c.set .param (.text (paramTexts p).1)) (.text (paramTexts p).2) (show Keyword.param ≠ .units by decide)).trans (card_self c ..)
    · rw [List.mem_singleton.1 he]; exact card_self (c.set .param (.text (paramTexts p).1)) .units (.text (paramTexts p).2)
  · exact (card_ne _ _ fun e => hk (by rw [e]; simp)).trans (card_ne _ _ fun e => hk (by rw [e]; simp))

theorem demosaicedHdus_files (entries : List (Int × Int)) (c : Cards) (group : Name) (fixto : Option (ℝ × ℝ)) (i : Int) (l : List (Img ℝ)) :
    ((demosaicedHdus entries c group fixto i l).1.map fun f => (f.1, f.2.data)) = (demosaicedFiles entries group fixto i l).1 ∧
    (demosaicedHdus entries c group fixto i l).2 = (demosaicedFiles entries group fixto i l).2 ∧
    ∀ f ∈ (demosaicedHdus entries c group fixto i l).1, f.2.Right := by
  induction l generalizing i c with
  | nil => exact ⟨rfl, rfl, fun _ h => by cases h⟩
  | cons d l ih =>
    unfold demosaicedHdus demosaicedFiles
    cases polId entries i with
    | error e => exact ⟨rfl, rfl, fun _ h => by cases h⟩
    | ok a =>
      obtain ⟨h1, h2, h3⟩ := ih (c.set .pol (.number a)) (i + 1)
      dsimp only
      refine ⟨?_, h2, fun f hf => ?_⟩
      · rw [List.map_cons, h1]; rfl
      · rcases List.mem_cons.1 hf with rfl | hf
        · exact ⟨rfl, rfl⟩
        · exact h3 f hf

theorem polId_perm {angle : Fin 4 → Int} {entries : List (Int × Int)}
    (hent : entries.Perm [(angle 0, 0), (angle 1, 1), (angle 2, 2), (angle 3, 3)]) (i : Fin 4) :
    polId entries (i : Int) = .ok (angle i) := by
  have hmem : ∀ e ∈ entries, e.2 = (i : Int) → e.1 = angle i := by
    intro e hm h
    have hm := hent.mem_iff.1 hm
    simp only [List.mem_cons, List.not_mem_nil, or_false] at hm
    rcases hm with rfl | rfl | rfl | rfl <;> fin_cases i <;> simp at h <;> rfl
  unfold polId
  cases hf : entries.find? (fun e => e.2 == (i : Int)) with
  | none =>
    have := List.find?_eq_none.1 hf (angle i, (i : Int)) (hent.mem_iff.2 (by fin_cases i <;> simp))
    simp at this
  | some e =>
    dsimp only
    have h8 := List.find?_some hf
    rw [hmem e (List.mem_of_find?_eq_some hf) (by simpa using h8)]

theorem writes_right (s : Archive) (st : Stmt) : ∀ f ∈ st.writes s, f.2.Right := by
  have dflt : ∀ (x : Py (List (Name × Hdu))), (∀ l, x = .ok l → ∀ f ∈ l, f.2.Right) → ∀ f ∈ (x.toOption).getD [], f.2.Right := by
    intro x hx f hf
    cases x with
    | error e => cases hf
    | ok l => exact hx l rfl f hf
  intro f hf
  cases st with
  | call => cases hf
  | setCard => cases hf
  | load => cases hf
  | save i name fixto =>
    unfold Stmt.writes at hf
    dsimp only at hf
    split at hf
    · cases hf
    · rw [List.mem_singleton.1 hf]; exact ⟨rfl, rfl⟩
  | saveSingle i group fixto =>
    unfold Stmt.writes at hf
    dsimp only at hf
    split at hf
    · cases hf
    · refine dflt _ (fun l hl g hg => ?_) f hf
      unfold singleHdus at hl
      obtain ⟨p0, -, hl⟩ := Py.bind_eq_ok.1 hl
      obtain ⟨p1, -, hl⟩ := Py.bind_eq_ok.1 hl
      obtain ⟨p2, -, hl⟩ := Py.bind_eq_ok.1 hl
      obtain ⟨p3, -, hl⟩ := Py.bind_eq_ok.1 hl
      cases hl
      obtain ⟨x, -, rfl⟩ := List.mem_map.1 hg
      exact ⟨rfl, rfl⟩
  | saveParam i param group fixto =>
    unfold Stmt.writes at hf
    dsimp only at hf
    split at hf
    · cases hf
    · refine dflt _ (fun l hl g hg => ?_) f hf
      unfold paramHdus at hl
      obtain ⟨p0, -, hl⟩ := Py.bind_eq_ok.1 hl
      cases hl
      rw [List.mem_singleton.1 hg]
      exact ⟨rfl, rfl⟩
  | saveAll i group =>
    unfold Stmt.writes at hf
    dsimp only at hf
    split at hf
    · cases hf
    · refine dflt _ (fun l hl g hg => ?_) f hf
      unfold allParamHdus at hl
      obtain ⟨p0, -, hl⟩ := Py.bind_eq_ok.1 hl
      cases hl
      obtain ⟨x, -, rfl⟩ := List.mem_map.1 hg
      exact ⟨rfl, rfl⟩
  | saveDemosaiced i entries group fixto =>
    unfold Stmt.writes at hf
    dsimp only at hf
    split at hf
    · cases hf
    · split at hf
      · exact (demosaicedHdus_files ..).2.2 f hf
      · cases hf

theorem stmt_disk (s : Archive) (st : Stmt) : (s.stmt clock st).disk = writeHdus s.disk (st.writes s) := by
  cases st with
  | call o => cases o <;> first | rfl | exact constructed_disk ..
  | setCard i key v =>
    unfold Archive.stmt
    dsimp only
    split <;> rfl
  | load arg average dic dark flat junk =>
    unfold Archive.stmt
    dsimp only
    split
    · exact constructed_disk ..
    · rfl
  | _ => rfl

/-! ## Files -/

/-- C122: every file written by a saving method states the size of the array in it, whatever happened before (the header of the image
itself may state another size, see C43). -/
theorem C122_sizes (hdisk : ∀ n f, disk n = some f → f.Right) (l : List Stmt) (n : Name) (f : Hdu)
    (h : (archive clock disk l).disk n = some f) : f.Right := by
  induction l using List.reverseRecOn generalizing n f with
  | nil => exact hdisk n f h
  | append_singleton l st ih =>
    rw [archive_snoc, stmt_disk] at h
    rcases writeHdus_either _ _ _ _ h with h | h
    · exact ih n f h
    · exact writes_right _ st _ h

/-- C122: only saving writes files, and only those of the names it is asked for. -/
theorem C122_other_files (l : List Stmt) (st : Stmt) (n : Name)
    (h : st.isSave = false ∨ n ∉ (st.writes (archive clock disk l)).map Prod.fst) :
    (archive clock disk (l ++ [st])).disk n = (archive clock disk l).disk n := by
  rw [archive_snoc, stmt_disk]
  refine writeHdus_other ?_
  rcases h with h | h
  · cases st <;> first | exact List.not_mem_nil | cases h
  · exact h

/-- C122: saving changes no image and no keyword of an image. -/
theorem C122_saving_keeps (l : List Stmt) (st : Stmt) (hs : st.isSave = true) :
    (archive clock disk (l ++ [st])).mem = (archive clock disk l).mem ∧
    (archive clock disk (l ++ [st])).keywords = (archive clock disk l).keywords := by
  rw [archive_snoc, stmt_save clock hs]
  exact ⟨rfl, rfl⟩

section
variable (l : List Stmt) {i k : Nat} (hk : (archive clock disk l).images[i]? = some k)
include hk

/-- C122: `save_as_fits` writes the pixels, their size, and the keywords of the image. -/
theorem C122_save (name : Name) (fixto : Option (ℝ × ℝ)) :
    ∃ f, (archive clock disk (l ++ [.save i name fixto])).disk name = some f ∧
      f.Is (limited fixto ((archive clock disk l).mem.data k)) ((archive clock disk l).cardsOf k) [] := by
  have hk' : (archive clock disk l).mem.images[i]? = some k := hk
  rw [archive_snoc, stmt_disk]
  unfold Stmt.writes
  dsimp only
  rw [hk']
  dsimp only
  refine ⟨_, writeHdus_mem (by simp) List.mem_cons_self, ?_⟩
  rw [limited_fixTo]
  exact primary_is ..

/-- C122: `save_single_pol_images` writes four files; each has the pixels of one orientation, the keywords of the image, and the
orientation as the text `POL`. -/
theorem C122_single {p0 p45 p90 pm45 : Img ℝ} (group : Name) (fixto : Option (ℝ × ℝ))
    (e0 : polFamily ((archive clock disk l).mem.data k) ((archive clock disk l).mem.dic k) 0 = .ok p0)
    (e45 : polFamily ((archive clock disk l).mem.data k) ((archive clock disk l).mem.dic k) 45 = .ok p45)
    (e90 : polFamily ((archive clock disk l).mem.data k) ((archive clock disk l).mem.dic k) 90 = .ok p90)
    (em45 : polFamily ((archive clock disk l).mem.data k) ((archive clock disk l).mem.dic k) (-45) = .ok pm45) :
    ∀ q ∈ [((['0'] : Name), p0), (['4', '5'], p45), (['9', '0'], p90), (['-', '4', '5'], pm45)],
      ∃ f, (archive clock disk (l ++ [.saveSingle i group fixto])).disk (group ++ ['P', 'O', 'L'] ++ q.1 ++ fitsExt) = some f ∧
        f.Is (limited fixto q.2) ((archive clock disk l).cardsOf k) [(.pol, .text q.1)] := by
  have hk' : (archive clock disk l).mem.images[i]? = some k := hk
  intro q hq
  rw [archive_snoc, stmt_disk]
  have hw : Stmt.writes (archive clock disk l) (.saveSingle i group fixto) =
      [((['0'] : Name), p0), (['4', '5'], p45), (['9', '0'], p90), (['-', '4', '5'], pm45)].map fun p =>
        (group ++ ['P', 'O', 'L'] ++ p.1 ++ fitsExt,
          primaryHdu (fixTo fixto p.2) (((archive clock disk l).cardsOf k).set .pol (.text p.1))) := by
    unfold Stmt.writes
    dsimp only
    rw [hk']
    dsimp only
    unfold singleHdus
    rw [show polFamily ((archive clock disk l).mem.heap.dataOf k) ((archive clock disk l).mem.heap.dicOf k) 0 = .ok p0 from e0,
      Py.ok_bind,
      show polFamily ((archive clock disk l).mem.heap.dataOf k) ((archive clock disk l).mem.heap.dicOf k) 45 = .ok p45 from e45,
      Py.ok_bind,
      show polFamily ((archive clock disk l).mem.heap.dataOf k) ((archive clock disk l).mem.heap.dicOf k) 90 = .ok p90 from e90,
      Py.ok_bind,
      show polFamily ((archive clock disk l).mem.heap.dataOf k) ((archive clock disk l).mem.heap.dicOf k) (-45) = .ok pm45 from em45,
      Py.ok_bind]
    rfl
  rw [hw]
  refine ⟨_, writeHdus_mem ?_ (List.mem_map.2 ⟨q, hq, rfl⟩), ?_⟩
  · rw [List.map_map]
    have e : (Prod.fst ∘ fun p : Name × Img ℝ => (group ++ ['P', 'O', 'L'] ++ p.1 ++ fitsExt,
        primaryHdu (fixTo fixto p.2) (((archive clock disk l).cardsOf k).set .pol (.text p.1)))) =
        (fun n : Name => group ++ ['P', 'O', 'L'] ++ n ++ fitsExt) ∘ Prod.fst := rfl
    rw [e, ← List.map_map]
    refine List.Nodup.map (fun a b hab => ?_) (by simp only [List.map_cons, List.map_nil]; decide)
    exact List.append_cancel_left (List.append_cancel_right hab)
  · rw [limited_fixTo]
    exact primary_pol ..

/-- C122: `save_param_as_fits` writes the parameter, with the keywords of the image and the title and the unit of the parameter. -/
theorem C122_param {d : Img ℝ} {param title unit : Name} (hp : (param, title, unit) ∈ paramTable) (group : Name) (fixto : Option (ℝ × ℝ))
    (hd : getParam ((archive clock disk l).mem.stokes k) param = .ok d) :
    ∃ f, (archive clock disk (l ++ [.saveParam i param group fixto])).disk (group ++ ['_'] ++ param ++ fitsExt) = some f ∧
      f.Is (limited fixto d) ((archive clock disk l).cardsOf k) [(.param, .text title), (.units, .text unit)] := by
  have hk' : (archive clock disk l).mem.images[i]? = some k := hk
  rw [archive_snoc, stmt_disk]
  unfold Stmt.writes
  dsimp only
  rw [hk']
  dsimp only
  unfold paramHdus
  rw [show getParam ((archive clock disk l).mem.heap.stokesOf k).planes param = .ok d from hd, Py.ok_bind]
  refine ⟨_, writeHdus_mem (l := [(group ++ ['_'] ++ param ++ fitsExt,
    primaryHdu (fixTo fixto d) (paramCards ((archive clock disk l).cardsOf k) param))]) (by simp) List.mem_cons_self, ?_⟩
  rw [limited_fixTo]
  have e := paramTexts_table _ hp
  have h1 : (paramTexts param).1 = title := congrArg Prod.fst e
  have h2 : (paramTexts param).2 = unit := congrArg Prod.snd e
  rw [← h1, ← h2]
  exact primary_param ..

/-- C122: `save_all_pol_params_as_fits` writes six files like that. -/
theorem C122_all_params {dolp : Img ℝ} (group : Name) (hd : DoLP ((archive clock disk l).mem.stokes k) = .ok dolp) :
    let S := (archive clock disk l).mem.stokes k
    ∀ q ∈ [((['I'] : Name), S 0), (['Q'], S 1), (['U'], S 2), (['p', 'B'], pB S), (['A', 'o', 'L', 'P'], AoLP S),
      (['D', 'o', 'L', 'P'], dolp)],
      ∃ f title unit, (q.1, title, unit) ∈ paramTable ∧
        (archive clock disk (l ++ [.saveAll i group])).disk (group ++ ['_'] ++ q.1 ++ fitsExt) = some f ∧
        f.Is q.2 ((archive clock disk l).cardsOf k) [(.param, .text title), (.units, .text unit)] := by
  have hk' : (archive clock disk l).mem.images[i]? = some k := hk
  intro S q hq
  rw [archive_snoc, stmt_disk]
  have hw : Stmt.writes (archive clock disk l) (.saveAll i group) =
      [((['I'] : Name), S 0), (['Q'], S 1), (['U'], S 2), (['p', 'B'], pB S), (['A', 'o', 'L', 'P'], AoLP S),
        (['D', 'o', 'L', 'P'], dolp)].map fun p =>
        (group ++ ['_'] ++ p.1 ++ fitsExt, primaryHdu p.2 (paramCards ((archive clock disk l).cardsOf k) p.1)) := by
    unfold Stmt.writes
    dsimp only
    rw [hk']
    dsimp only
    unfold allParamHdus polparamList
    rw [show DoLP ((archive clock disk l).mem.heap.stokesOf k).planes = .ok dolp from hd, Py.ok_bind]
    rfl
  rw [hw]
  refine ⟨_, (paramTexts q.1).1, (paramTexts q.1).2, ?_, writeHdus_mem ?_ (List.mem_map.2 ⟨q, hq, rfl⟩), primary_param ..⟩
  · simp only [List.mem_cons, List.not_mem_nil, or_false] at hq
    rcases hq with rfl | rfl | rfl | rfl | rfl | rfl <;> (dsimp only; decide)
  rw [List.map_map]
  have e : (Prod.fst ∘ fun p : Name × Img ℝ => (group ++ ['_'] ++ p.1 ++ fitsExt,
      primaryHdu p.2 (paramCards ((archive clock disk l).cardsOf k) p.1))) =
      (fun n : Name => group ++ ['_'] ++ n ++ fitsExt) ∘ Prod.fst := rfl
  rw [e, ← List.map_map]
  refine List.Nodup.map (fun a b hab => ?_) (by simp only [List.map_cons, List.map_nil]; decide)
  exact List.append_cancel_left (List.append_cancel_right hab)

/-- C122: `save_demosaiced_images_as_fits` writes the image at each position with the keywords of the image and the orientation of that
position as the number `POL`; one header is used for all four files, but each file has its own orientation. -/
theorem C122_demosaiced {im : Fin 4 → Img ℝ} {angle : Fin 4 → Int} {entries : List (Int × Int)} (group : Name)
    (fixto : Option (ℝ × ℝ)) (hent : entries.Perm [(angle 0, 0), (angle 1, 1), (angle 2, 2), (angle 3, 3)])
    (hinj : Function.Injective angle) (hdem : (archive clock disk l).mem.isDemosaiced k = true)
    (him : ((archive clock disk l).mem.heap.objs.cell k).demosaicedImages = some im) (j : Fin 4) :
    ∃ f, (archive clock disk (l ++ [.saveDemosaiced i entries group fixto])).disk
        (group ++ ['_', 'P', 'O', 'L'] ++ intStr (angle j) ++ fitsExt) = some f ∧
      f.Is (limited fixto (im j)) ((archive clock disk l).cardsOf k) [(.pol, .number (angle j))] := by
  have hk' : (archive clock disk l).mem.images[i]? = some k := hk
  rw [archive_snoc, stmt_disk]
  have hw : Stmt.writes (archive clock disk l) (.saveDemosaiced i entries group fixto) =
      ([0, 1, 2, 3] : List (Fin 4)).map fun j => (group ++ ['_', 'P', 'O', 'L'] ++ intStr (angle j) ++ fitsExt,
        primaryHdu (fixTo fixto (im j)) (((archive clock disk l).cardsOf k).set .pol (.number (angle j)))) := by
    unfold Stmt.writes
    dsimp only
    rw [hk']
    dsimp only
    rw [show ((archive clock disk l).mem.heap.objs.cell k).isDemosaiced = true from hdem, him]
    dsimp only
    simp only [demosaicedHdus]
    rw [show polId entries 0 = .ok (angle 0) from polId_perm hent 0, show polId entries (0 + 1) = .ok (angle 1) from polId_perm hent 1,
      show polId entries (0 + 1 + 1) = .ok (angle 2) from polId_perm hent 2,
      show polId entries (0 + 1 + 1 + 1) = .ok (angle 3) from polId_perm hent 3]
    simp only [card_set]
    rfl
  rw [hw]
  refine ⟨_, writeHdus_mem ?_ (List.mem_map.2 ⟨j, by fin_cases j <;> simp, rfl⟩), ?_⟩
  · rw [List.map_map]
    refine List.Nodup.map (fun a b hab => hinj (intStr_inj ?_)) (by decide)
    have hab : group ++ ['_', 'P', 'O', 'L'] ++ intStr (angle a) ++ fitsExt = group ++ ['_', 'P', 'O', 'L'] ++ intStr (angle b) ++ fitsExt := hab
    exact List.append_cancel_left (List.append_cancel_right hab)
  · rw [limited_fixTo]
    exact primary_pol ..

end

/-! ## The files agree with the model of the saving methods -/

/-- C122: the files of the session are those of `save_single_pol_images` (C71). -/
theorem C122_single_same {cwd : List Name} {fs fs' : FileSystem} {data : Img ℝ} {dic : AngleDic} {c : Cards} {fixto : Option (ℝ × ℝ)}
    {filename : Name} {path : List Name} {files : List (Name × Hdu)} (hp : makeAbsAndCreateDir cwd fs filename = .ok (path, fs'))
    (hx : pathSuffix (pathString path) = fitsExt) (h : singleHdus data dic c fixto (groupName path) = .ok files) :
    (saveSinglePol cwd fs data dic fixto filename).result = (writeMany fs' (files.map fun f => (f.1, f.2.data))).result ∧
    (saveSinglePol cwd fs data dic fixto filename).states = fs :: (writeMany fs' (files.map fun f => (f.1, f.2.data))).states := by
  unfold singleHdus at h
  obtain ⟨p0, e0, h⟩ := Py.bind_eq_ok.1 h
  obtain ⟨p1, e1, h⟩ := Py.bind_eq_ok.1 h
  obtain ⟨p2, e2, h⟩ := Py.bind_eq_ok.1 h
  obtain ⟨p3, e3, h⟩ := Py.bind_eq_ok.1 h
  cases h
  unfold saveSinglePol
  rw [e0, Py.ok_bind, e1, Py.ok_bind, e2, Py.ok_bind, e3, Py.ok_bind]
  dsimp only [pure, Except.pure]
  rw [hp]
  dsimp only
  rw [if_neg (by rw [hx]; simp)]
  exact ⟨rfl, rfl⟩

/-- C122: the same for `save_all_pol_params_as_fits`. -/
theorem C122_all_params_same {cwd : List Name} {fs fs' : FileSystem} {S : Fin 3 → Img ℝ} {c : Cards}
    {filename : Name} {path : List Name} {files : List (Name × Hdu)} (hp : makeAbsAndCreateDir cwd fs filename = .ok (path, fs'))
    (hx : pathSuffix filename = fitsExt) (h : allParamHdus S c (groupName path) = .ok files) :
    (saveAllParams cwd fs S filename).result = (writeMany fs' (files.map fun f => (f.1, f.2.data))).result ∧
    (saveAllParams cwd fs S filename).states = fs :: (writeMany fs' (files.map fun f => (f.1, f.2.data))).states := by
  unfold allParamHdus at h
  obtain ⟨ps, e0, h⟩ := Py.bind_eq_ok.1 h
  cases h
  unfold saveAllParams
  rw [if_neg (by rw [hx]; simp), hp]
  dsimp only
  rw [e0]
  dsimp only
  rw [List.map_map]
  exact ⟨rfl, rfl⟩

/-- C122: the same for `save_demosaiced_images_as_fits`, also when a position has no name and the method raises. -/
theorem C122_demosaiced_same {cwd : List Name} {fs fs' : FileSystem} {im : Fin 4 → Img ℝ} {entries : List (Int × Int)} {c : Cards}
    {fixto : Option (ℝ × ℝ)} {filename : Name} {path : List Name} (hp : makeAbsAndCreateDir cwd fs filename = .ok (path, fs'))
    (hx : pathSuffix filename ≠ []) :
    let r := demosaicedHdus entries c (groupName path) fixto 0 [im 0, im 1, im 2, im 3]
    (saveDemosaiced cwd fs (some im) entries fixto filename).result =
      ((writeMany fs' (r.1.map fun f => (f.1, f.2.data))).result >>= fun _ => r.2) ∧
    (saveDemosaiced cwd fs (some im) entries fixto filename).states =
      fs :: (writeMany fs' (r.1.map fun f => (f.1, f.2.data))).states := by
  intro r
  obtain ⟨h1, h2, -⟩ := demosaicedHdus_files entries c (groupName path) fixto 0 [im 0, im 1, im 2, im 3]
  unfold saveDemosaiced
  dsimp only
  rw [if_neg hx, hp]
  dsimp only
  rw [h1, h2]
  exact ⟨rfl, rfl⟩

/-! ## Images -/

/-- C122: after every session, the images have the keywords told by `described`: an image made from an array has none, an image made
from another one has those of that one, and a keyword written to an image is written to all images of its family and to no other
image. -/
theorem C122_images (l : List Stmt) :
    (archive clock disk l).keywords = (described clock disk l).map Described.cards := by
  have h := told clock disk l
  refine List.ext_getElem? fun i => ?_
  unfold Archive.keywords Archive.images
  rw [List.getElem?_map, List.getElem?_map]
  cases hk : (archive clock disk l).mem.images[i]? with
  | some k =>
    obtain ⟨d, hd⟩ := h.entry hk
    rw [hd, Option.map_some, Option.map_some, h.cards hk hd]
  | none =>
    have hd : (described clock disk l)[i]? = none := by
      rw [List.getElem?_eq_none_iff] at hk ⊢
      rw [h.len]; exact hk
    rw [hd]
    rfl

/-- C122: no call changes the keywords of the images that exist. -/
theorem C122_calls_keep (l : List Stmt) (o : Op) (k : Nat) (hk : k ∈ (archive clock disk l).images) :
    (archive clock disk (l ++ [.call o])).cardsOf k = (archive clock disk l).cardsOf k := by
  have h := told clock disk l
  have h' := told clock disk (l ++ [.call o])
  obtain ⟨i, hi⟩ := List.mem_iff_getElem?.1 hk
  rw [archive_snoc]
  have hr := stmt_refs h o k hk
  cases hs : o.source with
  | some j =>
    rw [stmt_call clock o hs]
    exact congrArg (archive clock disk l).cards hr
  | none =>
    have con : ∀ o : Op, o.source = none → ((step (archive clock disk l).mem o).heap.objs.cell k).header = (archive clock disk l).ref k →
        ((archive clock disk l).constructed (step (archive clock disk l).mem o) fun _ => none).cardsOf k =
          (archive clock disk l).cardsOf k := by
      intro o ho hr
      rcases step_images (archive clock disk l).mem o with hi | ⟨n, -, hi⟩
      · rw [constructed_keep hi]
        exact congrArg (archive clock disk l).cards hr
      · rw [constructed_new hi]
        show Function.update _ _ _ ((step (archive clock disk l).mem o).heap.objs.cell k).header = _
        rw [hr, Function.update_of_ne (header_fresh h.valid o ho hi k hk).symm]
        rfl
    cases o with
    | setDefault dic => exact congrArg (archive clock disk l).cards hr
    | fromArray d dic dark flat junk => exact con _ hs hr
    | _ => cases hs

/-- C122: an image made from another one has its keywords. -/
theorem C122_derived (l : List Stmt) (o : Op) {i k n : Nat} (hs : o.source = some i) (hk : (archive clock disk l).images[i]? = some k)
    (hn : (archive clock disk (l ++ [.call o])).images = (archive clock disk l).images ++ [n]) :
    (archive clock disk (l ++ [.call o])).cardsOf n = (archive clock disk l).cardsOf k := by
  have h := told clock disk l
  rw [archive_snoc, stmt_call clock o hs] at hn ⊢
  have hr := header_shared h.valid o hs hk (exec_of_images hn)
  exact congrArg (archive clock disk l).cards hr

/-- C122: an image made from an array has no keywords but the sizes. -/
theorem C122_array (l : List Stmt) (d : Img ℝ) (dic : Option AngleDic) (dark flat : Option Nat) (junk : Nat → Nat → ℝ) {n : Nat}
    (hn : (archive clock disk (l ++ [.call (.fromArray d dic dark flat junk)])).images = (archive clock disk l).images ++ [n]) :
    (archive clock disk (l ++ [.call (.fromArray d dic dark flat junk)])).cardsOf n = fun _ => none := by
  have h := told clock disk l
  rw [archive_snoc] at hn ⊢
  have e : (archive clock disk l).stmt clock (.call (.fromArray d dic dark flat junk)) =
    (archive clock disk l).constructed (step (archive clock disk l).mem (.fromArray d dic dark flat junk)) fun _ => none := rfl
  rw [e] at hn ⊢
  rw [show ((archive clock disk l).constructed _ _).images = _ from congrArg State.images (constructed_mem ..)] at hn
  rw [constructed_new hn]
  exact Function.update_self ..

/-- C122: a keyword written to an image has the value written, and the other keywords of all images stay. -/
theorem C122_written (l : List Stmt) {i k : Nat} (hk : (archive clock disk l).images[i]? = some k) (key : Keyword) (v : CardValue) :
    (archive clock disk (l ++ [.setCard i key v])).cardsOf k key = some v ∧
    ∀ m ∈ (archive clock disk l).images, ∀ key' ≠ key,
      (archive clock disk (l ++ [.setCard i key v])).cardsOf m key' = (archive clock disk l).cardsOf m key' := by
  have hk' : (archive clock disk l).mem.images[i]? = some k := hk
  have e : (archive clock disk l).stmt clock (.setCard i key v) = ⟨(archive clock disk l).mem, Function.update (archive clock disk l).cards
      ((archive clock disk l).ref k) (((archive clock disk l).cardsOf k).set key v), (archive clock disk l).disk⟩ := by
    show (match (archive clock disk l).mem.images[i]? with | none => _ | some k => _) = _
    rw [hk']
    rfl
  rw [archive_snoc, e]
  refine ⟨?_, fun m hm key' hne => ?_⟩
  · show Function.update (archive clock disk l).cards ((archive clock disk l).ref k) (((archive clock disk l).cardsOf k).set key v)
      ((archive clock disk l).ref k) key = _
    rw [Function.update_self]
    exact card_self ..
  · show Function.update (archive clock disk l).cards ((archive clock disk l).ref k) (((archive clock disk l).cardsOf k).set key v)
      ((archive clock disk l).ref m) key' = _
    by_cases e : (archive clock disk l).ref m = (archive clock disk l).ref k
    · rw [e, Function.update_self, card_ne _ _ hne, cardsOf_ref, cardsOf_ref, e]
    · rw [Function.update_of_ne e]
      rfl

/-- C122 (what is left of "a keyword written to an image shows in that image only"): it does not show in the images of other
families. -/
theorem C122_other_families_partial (l : List Stmt) {i j k m : Nat} {d e : Described} (hk : (archive clock disk l).images[i]? = some k)
    (hm : (archive clock disk l).images[j]? = some m) (hd : (described clock disk l)[i]? = some d)
    (he : (described clock disk l)[j]? = some e) (hne : d.family ≠ e.family) (key : Keyword) (v : CardValue) :
    (archive clock disk (l ++ [.setCard i key v])).cardsOf m = (archive clock disk l).cardsOf m := by
  have hk' : (archive clock disk l).mem.images[i]? = some k := hk
  have h := told clock disk l
  rw [archive_snoc]
  have e' : (archive clock disk l).stmt clock (.setCard i key v) = ⟨(archive clock disk l).mem, Function.update (archive clock disk l).cards
      ((archive clock disk l).ref k) (((archive clock disk l).cardsOf k).set key v), (archive clock disk l).disk⟩ := by
    show (match (archive clock disk l).mem.images[i]? with | none => _ | some k => _) = _
    rw [hk']
    rfl
  rw [e']
  exact congrFun (f := Function.update _ _ _) (g := Function.update _ _ _) rfl _ |>.trans
    (Function.update_of_ne (fun e => hne ((h.fam hm hk he hd).1 e).symm) ..)

end

end Micropol

import Verif.Props.ConvertFiles

/-!
# C53, C54: saving raw files and converting them to FITS

`p ++ rawExt` is the name `p` followed by `.raw`, `p ++ fitsExt` the one with `.fits`.
-/

set_option autoImplicit false

namespace Micropol

noncomputable section

/-! ## Helper facts -/

theorem count_dot_raw (stem : Name) : (stem ++ rawExt).count '.' = 1 ↔ '.' ∉ stem := by
  rw [List.count_append, show rawExt.count '.' = 1 by decide, ← List.count_eq_zero]
  omega

theorem raw_infix (p : Name) : rawExt <:+: p ++ rawExt := ⟨p, [], by simp⟩

/-- The run on `p.raw`, with the names worked out. -/
theorem convert_run {cwd : List Name} (hcwd : ∀ x ∈ cwd, GoodComp x) (p : Name) : ∃ new : Name,
    new ≠ abspath cwd (p ++ rawExt) ∧
    (new = abspath cwd (p ++ fitsExt) ↔ (abspath cwd (p ++ rawExt)).count '.' = 1) ∧
    ((abspath cwd (p ++ rawExt)).count '.' = 1 → dirName [] new = dirName cwd (p ++ rawExt)) ∧
    ∀ (fs : FileSystem) (h w : Nat) (removeOld : Bool), convertRawfile cwd fs (p ++ rawExt) h w removeOld =
      match fs.readRaw (abspath cwd (p ++ rawExt)) >>= u2Array h w with
      | .error e => ⟨.error e, [fs]⟩
      | .ok data =>
        match writeFits fs (dirName [] new) new data with
        | .error e => ⟨.error e, [fs]⟩
        | .ok l =>
          if removeOld then ⟨.ok (), fs :: l ++ [(fs.put new (some (.fits data))).put (abspath cwd (p ++ rawExt)) none]⟩
          else ⟨.ok (), fs :: l⟩ := by
  obtain ⟨stem, h0, hs⟩ := abspath_string cwd p hcwd
  obtain ⟨h1, h2⟩ := hs rawExt (by decide) (by decide)
  obtain ⟨h3, h4⟩ := hs fitsExt (by decide) (by decide)
  have hnew : newRawName (stem ++ rawExt) = stem.map (fun a => if a = '.' then ':' else a) ++ fitsExt :=
    newRawName_eq (ext := ['r', 'a', 'w']) (by decide)
  refine ⟨newRawName (abspath cwd (p ++ rawExt)), ?_, ?_, ?_, ?_⟩
  · rw [h1, hnew]
    intro h
    have := congrArg (fun l => l.getLast?) h
    simp only [List.getLast?_append] at this
    have this : some 's' = some 'w' := this
    exact absurd this (by decide)
  · rw [h1, h3, hnew, count_dot_raw]
    constructor
    · intro h
      by_contra hd
      exact map_dot_ne hd (List.append_cancel_right h)
    · intro hd
      rw [map_dot hd]
  · intro hc
    rw [h1, count_dot_raw] at hc
    rw [h1, hnew, map_dot hc, h4]
    -- both are the directory of `p`
    obtain ⟨D, x, _, _, h5⟩ := abspath_ext cwd p hcwd
    unfold dirName
    rw [h5 _ (by decide) (by decide), h5 _ (by decide) (by decide), List.dropLast_concat, List.dropLast_concat]
  · intro fs h w removeOld
    unfold convertRawfile
    rw [if_neg (not_not.2 (raw_infix p))]
    rfl

theorem readRaw_u2 {fs : FileSystem} {q : Name} {b : List Nat} {h w : Nat} (hb : fs.file q = some (.raw b))
    (hl : 2 * (h * w) ≤ b.length) : fs.readRaw q >>= u2Array h w = .ok (Img.ofFn h w (fun y x => (u2At w b y x : ℝ))) := by
  unfold FileSystem.readRaw
  rw [hb]
  dsimp only
  rw [Py.ok_bind, u2Array_ok hl]

/-! ## C54: the converted file -/

/-- If the absolute path of `p.raw` contains no other dot, converting `p.raw` writes `p.fits`, in the same directory, with
the 16 bit numbers of the raw file.  The raw file is removed exactly when this was asked for, all other files are as before.
Missing: paths with another dot (see below: they never give `p.fits`). -/
theorem C54_name_partial {cwd : List Name} (hcwd : ∀ x ∈ cwd, GoodComp x) {fs : FileSystem} {p : Name} {h w : Nat} {b : List Nat}
    (hraw : fs.file (abspath cwd (p ++ rawExt)) = some (.raw b)) (hlen : 2 * (h * w) ≤ b.length)
    (hdir : fs.dir (dirName cwd (p ++ rawExt))) (hdot : (abspath cwd (p ++ rawExt)).count '.' = 1) (removeOld : Bool) :
    (convertRawfile cwd fs (p ++ rawExt) h w removeOld).result = .ok () ∧
    ∃ (s : FileSystem) (img : Img ℝ), (convertRawfile cwd fs (p ++ rawExt) h w removeOld).Final s ∧
      s.file (abspath cwd (p ++ fitsExt)) = some (.fits img) ∧ img.h = h ∧ img.w = w ∧
      (∀ y x, y < h → x < w → img.px y x = (u2At w b y x : ℝ)) ∧
      s.file (abspath cwd (p ++ rawExt)) = (if removeOld then none else some (.raw b)) ∧
      ∀ q, q ≠ abspath cwd (p ++ rawExt) → q ≠ abspath cwd (p ++ fitsExt) → s.file q = fs.file q := by
  obtain ⟨new, h1, h2, h3, h4⟩ := convert_run hcwd p
  have hnew := h2.2 hdot
  have hd : fs.dir (dirName [] new) := by rw [h3 hdot]; exact hdir
  rw [h4, readRaw_u2 hraw hlen]
  dsimp only
  rw [writeFits_ok _ hd]
  dsimp only
  rw [← hnew]
  cases removeOld with
  | true =>
    refine ⟨rfl, (fs.put new (some (.fits (Img.ofFn h w (fun y x => (u2At w b y x : ℝ)))))).put (abspath cwd (p ++ rawExt)) none, Img.ofFn h w (fun y x => (u2At w b y x : ℝ)), rfl, ?_, rfl, rfl, fun y x hy hx => Img.ofFn_px hy hx, ?_, ?_⟩
    · rw [put_other _ _ h1, put_self]
    · rw [put_self]; rfl
    · intro q hq hq'
      rw [put_other _ _ hq, put_other _ _ hq']
  | false =>
    refine ⟨rfl, fs.put new (some (.fits (Img.ofFn h w (fun y x => (u2At w b y x : ℝ))))), Img.ofFn h w (fun y x => (u2At w b y x : ℝ)), rfl, ?_, rfl, rfl, fun y x hy hx => Img.ofFn_px hy hx, ?_, ?_⟩
    · rw [put_self]
    · rw [put_other _ _ h1.symm, hraw]; rfl
    · intro q hq hq'
      rw [put_other _ _ hq']

/-- The hypotheses are met: `../d/a.raw` in the directory `/e`. -/
example : (convertRawfile ["e".toList] twoRaw ("../d/a".toList ++ rawExt) 2 1 true).result = .ok () := by
  have e : abspath ["e".toList] ("../d/a".toList ++ rawExt) = "/d/a.raw".toList := by decide
  refine (C54_name_partial (b := [1, 0, 0, 1]) ?_ ?_ (by decide) ?_ ?_ true).1
  · intro x hx
    rw [List.mem_singleton] at hx
    subst hx
    refine ⟨by decide, by decide, by decide, by decide⟩
  · rw [e]; rfl
  · show _ = _; decide
  · rw [e]; decide

/-- If the path contains another dot, `p.fits` is never written: in every state it is as before the call. -/
theorem C54_dots_wrong {cwd : List Name} (hcwd : ∀ x ∈ cwd, GoodComp x) (fs : FileSystem) {p : Name} (h w : Nat)
    (removeOld : Bool) (hdot : (abspath cwd (p ++ rawExt)).count '.' ≠ 1) :
    ∀ s ∈ (convertRawfile cwd fs (p ++ rawExt) h w removeOld).states,
      s.file (abspath cwd (p ++ fitsExt)) = fs.file (abspath cwd (p ++ fitsExt)) := by
  obtain ⟨new, h1, h2, _, h4⟩ := convert_run hcwd p
  have hne : abspath cwd (p ++ fitsExt) ≠ new := fun e => hdot (h2.1 e.symm)
  have hne' : abspath cwd (p ++ fitsExt) ≠ abspath cwd (p ++ rawExt) := by
    obtain ⟨stem, _, hs⟩ := abspath_string cwd p hcwd
    rw [(hs rawExt (by decide) (by decide)).1, (hs fitsExt (by decide) (by decide)).1]
    intro h
    exact absurd (List.append_cancel_left h) (by decide)
  rw [h4]
  have one : ∀ s ∈ [fs], s.file (abspath cwd (p ++ fitsExt)) = fs.file (abspath cwd (p ++ fitsExt)) := by
    intro s hs
    rw [List.mem_singleton] at hs
    rw [hs]
  split
  · exact one
  · split
    · exact one
    · rename_i data _ _ l hl
      have hl : l = [fs.put new none, fs.put new (some .incomplete), fs.put new (some (.fits data))] := by
        unfold writeFits at hl
        split at hl
        · cases hl; rfl
        · cases hl
      subst hl
      cases removeOld with
      | true =>
        intro s hs
        simp only [if_true, List.cons_append, List.nil_append, List.mem_cons, List.not_mem_nil, or_false] at hs
        rcases hs with rfl | rfl | rfl | rfl | rfl
        · rfl
        · exact put_other _ _ hne
        · exact put_other _ _ hne
        · exact put_other _ _ hne
        · rw [put_other _ _ hne', put_other _ _ hne]
      | false =>
        intro s hs
        simp only [Bool.false_eq_true, if_false, List.mem_cons, List.not_mem_nil, or_false] at hs
        rcases hs with rfl | rfl | rfl | rfl
        · rfl
        · exact put_other _ _ hne
        · exact put_other _ _ hne
        · exact put_other _ _ hne

/-- The file system with the single file `q0`, and every directory. -/
def oneRaw (q0 : Name) (b : List Nat) : FileSystem := ⟨fun q => if q = q0 then some (.raw b) else none, fun _ => True⟩

theorem oneRaw_self (q0 : Name) (b : List Nat) : (oneRaw q0 b).file q0 = some (.raw b) := if_pos rfl

theorem oneRaw_other {q0 q : Name} (b : List Nat) (h : q ≠ q0) : (oneRaw q0 b).file q = none := if_neg h

/-- A name with a second dot: the file is written under another name. -/
theorem C54_dot_example (b : List Nat) (h w : Nat) (hlen : 2 * (h * w) ≤ b.length) :
    (convertRawfile [] (oneRaw "/d/a.b.raw".toList b) "/d/a.b.raw".toList h w
      false).Wrote (oneRaw "/d/a.b.raw".toList b) "/d/a:b.fits".toList
      (Img.ofFn h w (fun y x => (u2At w b y x : ℝ))) := by
  unfold convertRawfile
  have e1 : abspath [] "/d/a.b.raw".toList = "/d/a.b.raw".toList := by decide
  have e2 : newRawName "/d/a.b.raw".toList = "/d/a:b.fits".toList := by decide
  rw [if_neg (by decide), readRaw_u2 (b := b) (by rw [e1]; exact oneRaw_self ..) hlen]
  dsimp only
  rw [writeFits_ok _ trivial, e1, e2]
  dsimp only
  rw [if_neg (by decide)]
  exact wrote_of

/-- The full claim is false. -/
theorem C54_full_claim_false : ¬ ∀ (cwd : List Name) (_ : ∀ x ∈ cwd, GoodComp x) (fs : FileSystem) (p : Name) (h w : Nat) (b : List Nat)
    (_ : fs.file (abspath cwd (p ++ rawExt)) = some (.raw b)) (_ : 2 * (h * w) ≤ b.length) (_ : ∀ d, fs.dir d),
    ∃ (s : FileSystem) (img : Img ℝ), (convertRawfile cwd fs (p ++ rawExt) h w false).Final s ∧
      s.file (abspath cwd (p ++ fitsExt)) = some (.fits img) := by
  intro hall
  obtain ⟨s, img, h1, h2⟩ := hall [] (by simp) (oneRaw "/d/a.b.raw".toList [1, 2])
    "/d/a.b".toList 1 1 [1, 2] (by
      have e1 : abspath [] ("/d/a.b".toList ++ rawExt) = "/d/a.b.raw".toList := by decide
      rw [e1]
      exact oneRaw_self ..) (by decide) (fun _ => trivial)
  have h3 := C54_dots_wrong (cwd := []) (by simp) (oneRaw "/d/a.b.raw".toList [1, 2])
    (p := "/d/a.b".toList) 1 1 false (by decide) s (List.mem_of_getLast? h1)
  rw [h2] at h3
  have e2 : ¬ abspath [] ("/d/a.b".toList ++ fitsExt) = "/d/a.b.raw".toList := by decide
  rw [oneRaw_other _ e2] at h3
  cases h3

/-- The data is never lost, whatever the path is and wherever the machine stops: in every state either the raw file is as
before, or its removal was asked for, the run has succeeded and a complete FITS file with its numbers exists. -/
theorem C54_never_lost {cwd : List Name} (hcwd : ∀ x ∈ cwd, GoodComp x) (fs : FileSystem) (p : Name) (h w : Nat) (removeOld : Bool) :
    ∀ s ∈ (convertRawfile cwd fs (p ++ rawExt) h w removeOld).states,
      s.file (abspath cwd (p ++ rawExt)) = fs.file (abspath cwd (p ++ rawExt)) ∨
      (removeOld = true ∧ (convertRawfile cwd fs (p ++ rawExt) h w removeOld).result = .ok () ∧
        ∃ (b : List Nat) (q : Name), fs.file (abspath cwd (p ++ rawExt)) = some (.raw b) ∧ 2 * (h * w) ≤ b.length ∧
          s.file q = some (.fits (Img.ofFn h w (fun y x => (u2At w b y x : ℝ))))) := by
  obtain ⟨new, h1, h2, _, h4⟩ := convert_run hcwd p
  rw [h4]
  have one : ∀ s ∈ [fs], s.file (abspath cwd (p ++ rawExt)) = fs.file (abspath cwd (p ++ rawExt)) := by
    intro s hs
    rw [List.mem_singleton] at hs
    rw [hs]
  split
  · exact fun s hs => .inl (one s hs)
  · rename_i data hdata
    split
    · exact fun s hs => .inl (one s hs)
    · rename_i l hl
      have hl : l = [fs.put new none, fs.put new (some .incomplete), fs.put new (some (.fits data))] := by
        unfold writeFits at hl
        split at hl
        · cases hl; rfl
        · cases hl
      subst hl
      have hd : ∃ b, fs.file (abspath cwd (p ++ rawExt)) = some (.raw b) ∧ 2 * (h * w) ≤ b.length ∧
          data = Img.ofFn h w (fun y x => (u2At w b y x : ℝ)) := by
        unfold FileSystem.readRaw at hdata
        split at hdata
        · rename_i b hb
          rw [Py.ok_bind] at hdata
          by_cases hlen : 2 * (h * w) ≤ b.length
          · rw [u2Array_ok hlen] at hdata
            cases hdata
            exact ⟨b, hb, hlen, rfl⟩
          · rw [u2Array_short (by omega)] at hdata
            cases hdata
        · cases hdata
      obtain ⟨b, hb1, hb2, rfl⟩ := hd
      cases removeOld with
      | true =>
        intro s hs
        simp only [if_true, List.cons_append, List.nil_append, List.mem_cons, List.not_mem_nil, or_false] at hs
        rcases hs with rfl | rfl | rfl | rfl | rfl
        · exact .inl rfl
        · exact .inl (put_other _ _ h1.symm)
        · exact .inl (put_other _ _ h1.symm)
        · exact .inl (put_other _ _ h1.symm)
        · refine .inr ⟨rfl, rfl, b, new, hb1, hb2, ?_⟩
          rw [put_other _ _ h1, put_self]
      | false =>
        intro s hs
        simp only [Bool.false_eq_true, if_false, List.mem_cons, List.not_mem_nil, or_false] at hs
        rcases hs with rfl | rfl | rfl | rfl
        · exact .inl rfl
        · exact .inl (put_other _ _ h1.symm)
        · exact .inl (put_other _ _ h1.symm)
        · exact .inl (put_other _ _ h1.symm)

/-- An error leaves every file as it was; a name without `.raw` is such an error. -/
theorem C54_error_clean (cwd : List Name) (fs : FileSystem) (filename : Name) (h w : Nat) (removeOld : Bool) :
    (∀ e, (convertRawfile cwd fs filename h w removeOld).result = .error e →
      (convertRawfile cwd fs filename h w removeOld).states = [fs]) ∧
    (¬ rawExt <:+: filename → (convertRawfile cwd fs filename h w removeOld).FailedClean fs .valueError) := by
  constructor
  · intro e he
    unfold convertRawfile at he ⊢
    split
    · rfl
    · rename_i hn
      rw [if_neg hn] at he
      split
      · rfl
      · rename_i data hd
        rw [hd] at he
        dsimp only at he ⊢
        split
        · rfl
        · rename_i l hl
          rw [hl] at he
          dsimp only at he
          cases removeOld <;> simp at he
  · intro hn
    unfold convertRawfile
    rw [if_pos hn]
    exact ⟨rfl, rfl⟩

/-- The check only looks for `.raw` anywhere in the name: `a.raw/../b.fits` is accepted, and with `remove_old` the file is
destroyed (the new file has the same name and is removed). -/
theorem C54_destroyed (b : List Nat) (h w : Nat) (hlen : 2 * (h * w) ≤ b.length) :
    ∃ s, (convertRawfile [] (oneRaw "/b.fits".toList b) "a.raw/../b.fits".toList h w
      true).Final s ∧ ∀ q, s.file q = none := by
  have e1 : abspath [] "a.raw/../b.fits".toList = "/b.fits".toList := by decide
  have e2 : newRawName "/b.fits".toList = "/b.fits".toList := by decide
  unfold convertRawfile
  rw [if_neg (by decide), readRaw_u2 (b := b) (by rw [e1]; exact oneRaw_self ..) hlen]
  dsimp only
  rw [writeFits_ok _ trivial, e1, e2]
  dsimp only
  rw [if_pos rfl]
  refine ⟨((oneRaw "/b.fits".toList b).put "/b.fits".toList (some (.fits (Img.ofFn h w (fun y x => (u2At w b y x : ℝ)))))).put
    "/b.fits".toList none, rfl, fun q => ?_⟩
  by_cases hq : q = "/b.fits".toList
  · rw [hq, put_self]
  · rw [put_other _ _ hq, put_other _ _ hq, oneRaw_other _ hq]

/-! ## C53: saving raw files -/

theorem flatMap_length {n m : Nat} {g : Nat → List Nat} (hg : ∀ i, i < n → (g i).length = m) :
    ((List.range n).flatMap g).length = n * m := by
  induction n with
  | zero => simp
  | succ n ih =>
    rw [List.range_succ, List.flatMap_append, List.length_append, ih fun i hi => hg i (by omega), Nat.add_mul]
    simp [hg n (by omega)]

theorem flatMap_getD {n m : Nat} {g : Nat → List Nat} (hg : ∀ i, i < n → (g i).length = m) {i j : Nat} (hi : i < n) (hj : j < m) :
    ((List.range n).flatMap g).getD (i * m + j) 0 = (g i).getD j 0 := by
  induction n with
  | zero => omega
  | succ n ih =>
    have hg' : ∀ i, i < n → (g i).length = m := fun i hi => hg i (by omega)
    have hl := flatMap_length hg'
    rw [List.range_succ, List.flatMap_append]
    by_cases hin : i < n
    · have hlt : i * m + j < n * m := by
        calc i * m + j < i * m + m := by omega
          _ = (i + 1) * m := by ring
          _ ≤ n * m := Nat.mul_le_mul_right _ hin
      rw [← ih hg' hin, List.getD_eq_getElem?_getD, List.getD_eq_getElem?_getD, List.getElem?_append_left (by omega)]
    · have : i = n := by omega
      subst this
      rw [List.getD_eq_getElem?_getD, List.getElem?_append_right (by omega), hl, Nat.add_sub_cancel_left,
        List.getD_eq_getElem?_getD]
      simp

/-- The 16 bit numbers of a saved file. -/
theorem saved_bytes (data : Img Int) : ∃ b : List Nat,
    b = (List.range data.h).flatMap (fun y => (List.range data.w).flatMap (fun x => int16Bytes (data.px y x))) ∧
    b.length = 2 * (data.h * data.w) ∧
    ∀ y x, y < data.h → x < data.w → (u2At data.w b y x : ℝ) = ((data.px y x % 65536 : Int) : ℝ) := by
  have hrow : ∀ y, y < data.h → ((List.range data.w).flatMap (fun x => int16Bytes (data.px y x))).length = data.w * 2 :=
    fun y _ => flatMap_length fun x _ => rfl
  refine ⟨_, rfl, ?_, ?_⟩
  · rw [flatMap_length hrow]; ring
  · intro y x hy hx
    have h0 := flatMap_getD hrow hy (j := x * 2 + 0) (by omega)
    have h1 := flatMap_getD hrow hy (j := x * 2 + 1) (by omega)
    have hpx : ∀ x, x < data.w → (int16Bytes (data.px y x)).length = 2 := fun _ _ => rfl
    rw [flatMap_getD hpx hx (by norm_num)] at h0 h1
    unfold u2At
    rw [show 2 * (y * data.w + x) = y * (data.w * 2) + (x * 2 + 0) by ring, Nat.add_assoc (y * (data.w * 2)),
      show x * 2 + 0 + 1 = x * 2 + 1 by omega, h0, h1]
    have hz : ((int16Bytes (data.px y x)).getD 0 0 + 256 * (int16Bytes (data.px y x)).getD 1 0 : Nat) =
        (data.px y x % 65536).toNat := by
      show (data.px y x % 65536).toNat % 256 + 256 * ((data.px y x % 65536).toNat / 256) = _
      exact Nat.mod_add_div _ _
    have hc : (((data.px y x % 65536).toNat : Int)) = data.px y x % 65536 := Int.toNat_of_nonneg (Int.emod_nonneg _ (by norm_num))
    rw [hz]
    conv_rhs => rw [← hc]
    exact (Int.cast_natCast _).symm

/-- Saving integer data as `p.raw` and converting this file (with the same size, and no other dot in the path) gives in
`p.fits` each pixel modulo 65536. -/
theorem C53_modulo {cwd : List Name} (hcwd : ∀ x ∈ cwd, GoodComp x) {fs fs' : FileSystem} {data : Img Int} {p : Name}
    (hsave : saveAsRaw cwd fs data (p ++ rawExt) = .ok fs') (hdot : (abspath cwd (p ++ rawExt)).count '.' = 1)
    (removeOld : Bool) :
    (convertRawfile cwd fs' (p ++ rawExt) data.h data.w removeOld).result = .ok () ∧
    ∃ (s : FileSystem) (img : Img ℝ), (convertRawfile cwd fs' (p ++ rawExt) data.h data.w removeOld).Final s ∧
      s.file (abspath cwd (p ++ fitsExt)) = some (.fits img) ∧ img.h = data.h ∧ img.w = data.w ∧
      ∀ y x, y < data.h → x < data.w → img.px y x = ((data.px y x % 65536 : Int) : ℝ) := by
  obtain ⟨b, hb1, hb2, hb3⟩ := saved_bytes data
  unfold saveAsRaw at hsave
  split at hsave
  · cases hsave
  · split at hsave
    · rename_i hd
      rw [← hb1] at hsave
      cases hsave
      obtain ⟨h1, s, img, h2, h3, h4, h5, h6, _⟩ := C54_name_partial hcwd
        (fs := fs.put (abspath cwd (p ++ rawExt)) (some (.raw b))) (h := data.h) (w := data.w)
        (put_self ..) (le_of_eq hb2.symm) hd hdot removeOld
      refine ⟨h1, s, img, h2, h3, h4, h5, fun y x hy hx => ?_⟩
      rw [h6 y x hy hx, hb3 y x hy hx]
    · cases hsave

/-- In particular: values from 0 to 65535 are unchanged, values from -65536 to -1 are increased by 65536. -/
theorem C53_roundtrip {cwd : List Name} (hcwd : ∀ x ∈ cwd, GoodComp x) {fs fs' : FileSystem} {data : Img Int} {p : Name}
    (hsave : saveAsRaw cwd fs data (p ++ rawExt) = .ok fs') (hdot : (abspath cwd (p ++ rawExt)).count '.' = 1)
    (removeOld : Bool) :
    ∃ (s : FileSystem) (img : Img ℝ), (convertRawfile cwd fs' (p ++ rawExt) data.h data.w removeOld).Final s ∧
      s.file (abspath cwd (p ++ fitsExt)) = some (.fits img) ∧ img.h = data.h ∧ img.w = data.w ∧
      ∀ y x, y < data.h → x < data.w →
        (0 ≤ data.px y x → data.px y x < 65536 → img.px y x = (data.px y x : ℝ)) ∧
        (-65536 ≤ data.px y x → data.px y x < 0 → img.px y x = (data.px y x : ℝ) + 65536) := by
  obtain ⟨_, s, img, h2, h3, h4, h5, h6⟩ := C53_modulo hcwd hsave hdot removeOld
  refine ⟨s, img, h2, h3, h4, h5, fun y x hy hx => ⟨fun ha hb => ?_, fun ha hb => ?_⟩⟩
  · rw [h6 y x hy hx, Int.emod_eq_of_lt ha hb]
  · rw [h6 y x hy hx, show data.px y x % 65536 = data.px y x + 65536 by omega]
    push_cast
    rfl

/-- For any path whatsoever: if the conversion succeeds, some file holds the pixels modulo 65536. -/
theorem C53_any_path {cwd : List Name} (hcwd : ∀ x ∈ cwd, GoodComp x) {fs fs' : FileSystem} {data : Img Int} {p : Name}
    (hsave : saveAsRaw cwd fs data (p ++ rawExt) = .ok fs') (removeOld : Bool)
    (hok : (convertRawfile cwd fs' (p ++ rawExt) data.h data.w removeOld).result = .ok ()) :
    ∃ (s : FileSystem) (q : Name) (img : Img ℝ), (convertRawfile cwd fs' (p ++ rawExt) data.h data.w removeOld).Final s ∧
      s.file q = some (.fits img) ∧ img.h = data.h ∧ img.w = data.w ∧
      ∀ y x, y < data.h → x < data.w → img.px y x = ((data.px y x % 65536 : Int) : ℝ) := by
  obtain ⟨b, hb1, hb2, hb3⟩ := saved_bytes data
  have hfile : fs'.file (abspath cwd (p ++ rawExt)) = some (.raw b) := by
    unfold saveAsRaw at hsave
    split at hsave
    · cases hsave
    · split at hsave
      · rw [← hb1] at hsave
        cases hsave
        exact put_self ..
      · cases hsave
  obtain ⟨new, h1, _, _, h4⟩ := convert_run hcwd p
  rw [h4, readRaw_u2 hfile (le_of_eq hb2.symm)] at hok ⊢
  dsimp only at hok ⊢
  by_cases hd : fs'.dir (dirName [] new)
  · rw [writeFits_ok _ hd]
    dsimp only
    have hpx : ∀ y x, y < data.h → x < data.w → (Img.ofFn data.h data.w (fun y x => (u2At data.w b y x : ℝ))).px y x =
        ((data.px y x % 65536 : Int) : ℝ) := fun y x hy hx => by rw [Img.ofFn_px hy hx, hb3 y x hy hx]
    cases removeOld with
    | true =>
      refine ⟨(fs'.put new (some (.fits (Img.ofFn data.h data.w (fun y x => (u2At data.w b y x : ℝ)))))).put
        (abspath cwd (p ++ rawExt)) none, new, _, rfl, ?_, rfl, rfl, hpx⟩
      rw [put_other _ _ h1, put_self]
    | false =>
      exact ⟨fs'.put new (some (.fits (Img.ofFn data.h data.w (fun y x => (u2At data.w b y x : ℝ))))), new, _, rfl,
        put_self .., rfl, rfl, hpx⟩
  · unfold writeFits at hok
    rw [if_neg hd] at hok
    cases hok

/-- Saving as `d/x.raw` with a non-empty `x` works whenever the directory exists; other files are unchanged.  Other
extensions are rejected. -/
theorem C53_saved {cwd : List Name} {fs : FileSystem} (data : Img Int) {q x : Name} (hq : q = [] ∨ q.getLast? = some '/')
    (hx : '/' ∉ x) (hne : x ≠ []) (hdir : fs.dir (dirName cwd (q ++ x ++ rawExt))) :
    ∃ fs', saveAsRaw cwd fs data (q ++ x ++ rawExt) = .ok fs' ∧ ∀ r, r ≠ abspath cwd (q ++ x ++ rawExt) → fs'.file r = fs.file r := by
  have hs : pathSuffix (q ++ x ++ rawExt) = rawExt := by
    have hlen : ∀ y : Name, y.length < 4 → x ++ rawExt ≠ y := by
      intro y hy e
      have := congrArg List.length e
      rw [List.length_append, show rawExt.length = 4 from rfl] at this
      omega
    obtain ⟨l, hl⟩ := components_last (q := q) (x := x ++ rawExt) hq (by
      rw [List.mem_append, not_or]; exact ⟨hx, by decide⟩) (hlen _ (by decide)) (hlen _ (by decide))
    unfold pathSuffix
    rw [List.append_assoc, hl, List.getLast?_concat]
    dsimp only
    have ht : (x ++ rawExt).reverse.takeWhile (fun c => c ≠ '.') = ['w', 'a', 'r'] := by
      rw [List.reverse_append]
      rfl
    rw [ht, if_neg]
    · rfl
    · rw [List.length_append, show rawExt.length = 4 from rfl]
      have : x.length ≠ 0 := fun h => hne (List.length_eq_zero_iff.1 h)
      simp only [List.length_cons, List.length_nil]
      rintro (h | h | h)
      · omega
      · cases h
      · omega
  unfold saveAsRaw
  rw [if_neg (not_not.2 hs), if_pos hdir]
  exact ⟨_, rfl, fun r hr => put_other _ _ hr⟩

/-- The hypotheses of the round trip are met. -/
example : ∃ fs', saveAsRaw ["d".toList] twoRaw (Img.ofFn 2 3 (fun y x => (y : Int) * 70000 - x)) ("n".toList ++ rawExt) = .ok fs' ∧
    (abspath ["d".toList] ("n".toList ++ rawExt)).count '.' = 1 := by
  obtain ⟨fs', h, _⟩ := C53_saved (cwd := ["d".toList]) (fs := twoRaw) (Img.ofFn 2 3 (fun y x => (y : Int) * 70000 - x))
    (q := []) (x := "n".toList) (.inl rfl) (by decide) (by decide) (by show _ = _; decide)
  exact ⟨fs', h, by decide⟩

end

end Micropol

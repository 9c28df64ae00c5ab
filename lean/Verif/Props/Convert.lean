import Verif.Lemmas.ConvertPath

/-!
# C50, C51: PolarCam binary files
-/

set_option autoImplicit false

namespace Micropol

noncomputable section

/-! ## C50: 12 bit unpacking -/

/-- Decoding the packed form of any list of pairs of 12 bit numbers gives the numbers back, in order. -/
theorem C50_inverse {l : List (Nat × Nat)} (hl : ∀ p ∈ l, p.1 < 4096 ∧ p.2 < 4096) :
    threeBytesToTwoInts (pack l) = .ok (unpair l) := by
  rw [unpack_ok (pack_bytes hl) (pack_length l)]
  congr 1
  apply List.ext_getElem
  · simp [unpair_length]
  · intro j h1 h2
    rw [List.getElem_map, List.getElem_range, decoded_pack hl, List.getD_eq_getElem?_getD, List.getElem?_eq_getElem h2]
    rfl

/-- The hypothesis is met. -/
example : threeBytesToTwoInts (pack [(0, 4095), (2748, 291), (16, 1)]) = .ok [0, 4095, 2748, 291, 16, 1] :=
  C50_inverse (by decide)

/-- Every string of `3 n` bytes gives `2 n` numbers below 4096, and is the packed form of these numbers. -/
theorem C50_range {content : List Nat} (hb : IsBytes content) {n : Nat} (hn : content.length = 3 * n) :
    ∃ l : List (Nat × Nat), l.length = n ∧ (∀ p ∈ l, p.1 < 4096 ∧ p.2 < 4096) ∧ pack l = content ∧
      threeBytesToTwoInts content = .ok (unpair l) := by
  suffices h : ∃ l : List (Nat × Nat), l.length = n ∧ (∀ p ∈ l, p.1 < 4096 ∧ p.2 < 4096) ∧ pack l = content by
    obtain ⟨l, h1, h2, h3⟩ := h
    exact ⟨l, h1, h2, h3, h3 ▸ C50_inverse h2⟩
  induction n generalizing content with
  | zero =>
    refine ⟨[], rfl, by simp, ?_⟩
    rw [List.length_eq_zero_iff.1 (by omega : content.length = 0)]
    rfl
  | succ n ih =>
    match content, hn with
    | a :: b :: c :: rest, hn =>
      obtain ⟨l, h1, h2, h3⟩ := ih (content := rest) (fun v hv => hb v (by simp [hv])) (by simp at hn; omega)
      have ha := hb a (by simp)
      have hb' := hb b (by simp)
      have hc := hb c (by simp)
      refine ⟨(a * 16 + b / 16, c * 16 + b % 16) :: l, by simp [h1], ?_, ?_⟩
      · intro p hp
        rcases List.mem_cons.1 hp with rfl | hp
        · simp only; omega
        · exact h2 p hp
      · show packPair _ ++ pack l = _
        rw [h3]
        simp only [packPair, List.cons_append, List.nil_append]
        congr 1
        · omega
        · congr 1
          · omega
          · congr 1
            omega
    | [], hn => simp at hn
    | [_], hn => simp at hn; omega
    | [_, _], hn => simp at hn; omega

example : IsBytes [255, 255, 255, 0, 16, 7] ∧ [255, 255, 255, 0, 16, 7].length = 3 * 2 := by
  refine ⟨?_, rfl⟩; unfold IsBytes; decide

/-- Different strings of the same length divisible by 3 give different numbers. -/
theorem C50_injective {a b : List Nat} (ha : IsBytes a) (hb : IsBytes b) {n : Nat} (hna : a.length = 3 * n)
    (hnb : b.length = 3 * n) (h : threeBytesToTwoInts a = threeBytesToTwoInts b) : a = b := by
  obtain ⟨la, h1, h2, h3, h4⟩ := C50_range ha hna
  obtain ⟨lb, g1, g2, g3, g4⟩ := C50_range hb hnb
  rw [h4, g4] at h
  injection h with h
  have : la = lb := by
    apply List.ext_getElem (by omega)
    intro i hi hi'
    have e1 := congrArg (fun l => l.getD (2 * i) 0) h
    have e2 := congrArg (fun l => l.getD (2 * i + 1) 0) h
    simp only [unpair_getD] at e1 e2
    rw [if_pos (by omega), if_pos (by omega), show 2 * i / 2 = i by omega] at e1
    rw [if_neg (by omega), if_neg (by omega), show (2 * i + 1) / 2 = i by omega] at e2
    rw [List.getD_eq_getElem?_getD, List.getD_eq_getElem?_getD, List.getElem?_eq_getElem hi, List.getElem?_eq_getElem hi'] at e1 e2
    exact Prod.ext e1 e2
  rw [← h3, ← g3, this]

/-- Lengths that are not divisible by 3 are rejected. -/
theorem C50_other_lengths {content : List Nat} (hb : IsBytes content) (hn : content.length % 3 ≠ 0) :
    threeBytesToTwoInts content = .error .indexError := unpack_rest hb hn

example : threeBytesToTwoInts [1, 2, 3, 4] = .error .indexError := C50_other_lengths (by unfold IsBytes; decide) (by decide)

/-! ## C51: parallel reading -/

theorem polarcam_bytes {v : Nat → Nat → Nat} (hv : ∀ y x, y < 1952 → x < 1952 → v y x < 4096) : IsBytes (polarcamFile v) := by
  apply pack_bytes
  intro p hp
  rw [List.mem_map] at hp
  obtain ⟨k, hk, rfl⟩ := hp
  rw [List.mem_range] at hk
  exact ⟨hv _ _ (by omega) (by omega), hv _ _ (by omega) (by omega)⟩

theorem polarcam_length (v : Nat → Nat → Nat) : (polarcamFile v).length = 32 * (3 * 59536) := by
  unfold polarcamFile
  rw [pack_length, List.length_map, List.length_range]

theorem pack_getD_last (l : List (Nat × Nat)) (k : Nat) : (pack l).getD (3 * k + 2) 0 = (l.getD k (0, 0)).2 / 16 := by
  induction l generalizing k with
  | nil => simp [pack]
  | cons p l ih =>
    show (p.1 / 16 :: (p.1 % 16 * 16 + p.2 % 16) :: (p.2 / 16) :: pack l).getD (3 * k + 2) 0 = _
    match k with
    | 0 => rfl
    | k + 1 =>
      rw [show 3 * (k + 1) + 2 = 3 * k + 2 + 3 by omega]
      exact ih k

theorem polarcam_last (v : Nat → Nat → Nat) {i : Nat} (hi : i < 32) :
    (polarcamFile v).getD ((i + 1) * (3 * 59536) - 1) 0 = v (61 * i + 60) 1951 / 16 := by
  unfold polarcamFile
  rw [show (i + 1) * (3 * 59536) - 1 = 3 * ((i + 1) * 59536 - 1) + 2 by omega, pack_getD_last,
    getD_map_range _ _ (by omega)]
  have e1 : ((i + 1) * 59536 - 1) / 976 = 61 * i + 60 := by omega
  have e2 : 2 * (((i + 1) * 59536 - 1) % 976) + 1 = 1951 := by omega
  simp only [e1, e2]

/-- Reading the file of an image gives the image, provided that the last pixel of the rows 60, 121, ..., 1951 is at
least 16.  Missing: the other images (see below: reading them fails). -/
theorem C51_read_partial {v : Nat → Nat → Nat} (hv : ∀ y x, y < 1952 → x < 1952 → v y x < 4096)
    (hlast : ∀ i, i < 32 → 16 ≤ v (61 * i + 60) 1951) :
    ∃ img : Img ℝ, nparrFromBinary (polarcamFile v) = .ok img ∧ img.h = 1952 ∧ img.w = 1952 ∧
      ∀ y x, y < 1952 → x < 1952 → img.px y x = (v y x : ℝ) := by
  have h := nparr_ok (dim := 1952) (chunks := 32) (s := 59536) (polarcam_bytes hv) (by norm_num) (by norm_num)
    (polarcam_length v) (by norm_num) (by
      intro i hi
      rw [polarcam_last v hi]
      have := hlast i hi
      omega)
  refine ⟨_, h, rfl, rfl, ?_⟩
  intro y x hy hx
  rw [Img.ofFn_px hy hx]
  refine congrArg (Nat.cast : ℕ → ℝ) ?_
  rw [List.getD_eq_getElem?_getD, List.getElem?_map, List.getElem?_range (by omega)]
  show decoded (polarcamFile v) (y * 1952 + x) = v y x
  unfold polarcamFile
  rw [decoded_pack, polarcam_getD v hy hx]
  intro p hp
  rw [List.mem_map] at hp
  obtain ⟨k, hk, rfl⟩ := hp
  rw [List.mem_range] at hk
  exact ⟨hv _ _ (by omega) (by omega), hv _ _ (by omega) (by omega)⟩

/-- The hypotheses are met. -/
example : ∃ img : Img ℝ, nparrFromBinary (polarcamFile (fun y x => (y + x) % 4000 + 16)) = .ok img :=
  let ⟨img, h, _⟩ := C51_read_partial (v := fun y x => (y + x) % 4000 + 16) (fun y x _ _ => by omega) (fun i _ => by omega)
  ⟨img, h⟩

/-- Every other image cannot be read: if one of these 32 pixels is below 16 an error is raised. -/
theorem C51_dark_pixel_fails {v : Nat → Nat → Nat} (hv : ∀ y x, y < 1952 → x < 1952 → v y x < 4096)
    {i : Nat} (hi : i < 32) (hlast : v (61 * i + 60) 1951 < 16) : ∃ e, nparrFromBinary (polarcamFile v) = .error e :=
  nparr_zero (dim := 1952) (chunks := 32) (s := 59536) (polarcam_bytes hv) (by norm_num) (by norm_num)
    (polarcam_length v) (by norm_num) hi (by rw [polarcam_last v hi]; omega)

/-- The full claim is false: the file of the dark image has the right length and cannot be read. -/
theorem C51_full_claim_false : ¬ ∀ v : Nat → Nat → Nat, (∀ y x, y < 1952 → x < 1952 → v y x < 4096) →
    ∃ img : Img ℝ, nparrFromBinary (polarcamFile v) = .ok img := by
  intro h
  obtain ⟨img, h1⟩ := h (fun _ _ => 0) (fun _ _ _ _ => by norm_num)
  obtain ⟨e, h2⟩ := C51_dark_pixel_fails (v := fun _ _ => 0) (fun _ _ _ _ => by norm_num) (i := 0) (by norm_num) (by norm_num)
  rw [h1] at h2
  cases h2

/-- For any file of 5715456 bytes: if no chunk (178608 bytes) ends in a zero byte the result is the sequential decoding of
the whole file, otherwise reading fails. -/
theorem C51_sequential_partial {content : List Nat} (hb : IsBytes content) (hlen : content.length = 5715456) :
    ((∀ i, i < 32 → content.getD (178608 * i + 178607) 0 ≠ 0) → ∃ (nums : List Nat) (img : Img ℝ),
      threeBytesToTwoInts content = .ok nums ∧ nparrFromBinary content = .ok img ∧ img.h = 1952 ∧ img.w = 1952 ∧
      ∀ y x, y < 1952 → x < 1952 → img.px y x = ((nums.getD (1952 * y + x) 0 : Nat) : ℝ)) ∧
    ((∃ i, i < 32 ∧ content.getD (178608 * i + 178607) 0 = 0) → ∃ e, nparrFromBinary content = .error e) := by
  constructor
  · intro hz
    have h := nparr_ok (dim := 1952) (chunks := 32) (s := 59536) hb (by norm_num) (by norm_num)
      hlen (by norm_num) (by
        intro i hi
        rw [show (i + 1) * (3 * 59536) - 1 = 178608 * i + 178607 by omega]
        exact hz i hi)
    refine ⟨_, _, unpack_ok hb (n := 1905152) (by omega), h, rfl, rfl, ?_⟩
    intro y x hy hx
    rw [Img.ofFn_px hy hx, Nat.mul_comm 1952 y]
  · rintro ⟨i, hi, hz⟩
    exact nparr_zero (dim := 1952) (chunks := 32) (s := 59536) hb (by norm_num) (by norm_num) hlen (by norm_num) hi
      (by rw [show (i + 1) * (3 * 59536) - 1 = 178608 * i + 178607 by omega]; exact hz)

example : IsBytes (List.replicate 5715456 1) ∧ (List.replicate 5715456 1).length = 5715456 ∧
    ∀ i, i < 32 → (List.replicate 5715456 1).getD (178608 * i + 178607) 0 ≠ 0 := by
  refine ⟨?_, List.length_replicate .., ?_⟩
  · intro b hb; rw [List.eq_of_mem_replicate hb]; norm_num
  · intro i hi
    rw [List.getD_eq_getElem?_getD, List.getElem?_replicate, if_pos (by omega)]
    simp

/-- Shorter files are rejected. -/
theorem C51_short_fails {content : List Nat} (hb : IsBytes content) (hlen : content.length < 5715456) :
    ∃ e, nparrFromBinary content = .error e :=
  nparr_short (dim := 1952) (chunks := 32) hb (by omega)

example : ∃ e, nparrFromBinary [] = .error e := C51_short_fails (by unfold IsBytes; decide) (by norm_num)

/-- A longer file is never read as the decoding of its beginning when its chunks do not end in zero: it is rejected. -/
theorem C51_long_fails {content : List Nat} (hb : IsBytes content) {s : Nat} (hlen : content.length = 32 * s)
    (hlong : 178608 < s) (hz : ∀ i, i < 32 → content.getD (s * i + s - 1) 0 ≠ 0) :
    ∃ e, nparrFromBinary content = .error e := by
  cases h : nparrFromBinary content with
  | error e => exact ⟨e, rfl⟩
  | ok img =>
    have h1 := nparr_length (dim := 1952) (chunks := 32) hb h
    have hsize : content.length / 32 = s := by omega
    rw [hsize] at h1
    have h2 : ∀ i ∈ List.range 32, (stripNul (chunk content s i)).length = s := by
      intro i hi
      have hi := List.mem_range.1 hi
      have hfit : (i + 1) * s ≤ content.length := by rw [hlen]; exact Nat.mul_le_mul_right _ hi
      rw [stripNul_id, chunk_length hfit]
      rw [chunk_getLast (by omega) hfit]
      intro h
      injection h with h
      rw [Nat.add_mul, Nat.one_mul, Nat.mul_comm i s] at h
      exact hz i hi h
    rw [List.map_congr_left h2, List.map_const', List.sum_replicate, List.length_range, smul_eq_mul] at h1
    omega

example : ∃ e, nparrFromBinary (List.replicate (32 * 178611) 1) = .error e := by
  refine C51_long_fails (s := 178611) ?_ (List.length_replicate ..) (by norm_num) ?_
  · intro b hb; rw [List.eq_of_mem_replicate hb]; norm_num
  · intro i hi
    rw [List.getD_eq_getElem?_getD, List.getElem?_replicate, if_pos (by omega)]
    simp

end

end Micropol

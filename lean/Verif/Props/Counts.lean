import Verif.Lemmas.Counts
import Verif.Props.StabilitySession
import Verif.Props.Rounding
import Verif.Props.ConvertRaw
import Verif.Model.MedianFilter

/-!
# C114: whole numbers stay whole numbers of known size

In sessions that only sum, bin, move, mask and dark-subtract, pixels of camera frames stay whole numbers, and their size is known
beforehand.  So nothing is lost when the machine computes with 53 digits or when 16-bit raw files are written.
-/

set_option autoImplicit false
set_option linter.unusedSectionVars false

namespace Micropol

open Classical

theorem counts_run {ops : List Op} {M : ℕ} (h : CountSession ops M) : ∀ k ∈ (runOps ops).images, CountV M ((runOps ops).heap.view k) := by
  induction h with
  | start M => intro k hk; cases hk
  | @call ops M M' o _ hMM ho ih =>
    rw [runOps_snoc]
    have ev := run_even ops
    refine inv_step_on (P := fun k v => CountV M v ∧ EvenV v) (Q := fun _ => CountV M') (runOps_valid ops) (fun k hk => ⟨ih k hk, ev k hk⟩)
      (fun _ _ v h => all_mono hMM h.1) ?_ ?_ ?_
    · intro k hk hP
      exact ⟨fun _ => value_count hMM ih ho hP.1 hP.2, fun _ _ _ _ => value_count hMM ih ho hP.1 hP.2⟩
    · intro d dic dark flat junk e v hv n
      subst e
      obtain ⟨h1, rfl⟩ := ho
      exact fromArrayV_count ih h1 hv
    · intro _ k r _ _ hP _ _
      exact all_mono hMM hP.1

/-- C114: in every session of such calls every pixel of every image is a whole number from 0 to the bound. -/
theorem C114_pixels {ops : List Op} {M : ℕ} (h : CountSession ops M) {k : Nat} (hk : k ∈ (runOps ops).images) :
    ((runOps ops).data k).Counts M := all_counts (counts_run h k hk)

/-- C114: scipy's median filter may be used to clean hot pixels. -/
theorem C114_median (M size i f : Nat) : (Op.cleanHotPixels i f (medianFilter size)).CountsTo M M := by
  intro A hA
  refine all_counts (all_ofFn (IsCount.zero M) fun y x => ?_ : AllPx (IsCount M) (medianFilter size A))
  unfold ofRank
  rw [List.getD_eq_getElem?_getD]
  cases h : (List.insertionSort (fun a b => a ≤ b) (filterWindow size A y x))[size * size / 2]? with
  | none => exact IsCount.zero M
  | some v =>
    have hv := List.mem_of_getElem? h
    rw [List.mem_insertionSort] at hv
    unfold filterWindow at hv
    obtain ⟨a, -, hv⟩ := List.mem_flatMap.1 hv
    obtain ⟨c, -, rfl⟩ := List.mem_map.1 hv
    exact counts_all hA _ _

section
variable {R : ℝ → ℝ} (hR : IsRounding R)
include hR

/-- C114: if the bound is at most `2 ^ 53`, every pixel is a double precision number. -/
theorem C114_doubles {ops : List Op} {M : ℕ} (h : CountSession ops M) (hM : M ≤ 2 ^ 53) {k : Nat} (hk : k ∈ (runOps ops).images) (y x : Nat) :
    R (((runOps ops).data k).px y x) = ((runOps ops).data k).px y x := by
  obtain ⟨n, hn, e⟩ := counts_run h k hk y x
  have e : ((runOps ops).data k).px y x = n := e
  rw [e]
  have : |(n : ℤ)| ≤ 2 ^ 53 := by
    rw [abs_of_nonneg (Int.natCast_nonneg n)]
    exact_mod_cast hn.trans hM
  simpa using round_int hR this

theorem counts_whole {F : Img (Fl R)} {A : Img ℝ} {M : ℕ} (hF : F.reals = A) (hA : A.Counts M) : F.Whole M := by
  intro y x hy hx
  subst hF
  obtain ⟨n, hn, e⟩ := hA y x hy hx
  rw [reals_px] at e
  exact ⟨n, by rw [abs_of_nonneg (Int.natCast_nonneg n)]; exact_mod_cast hn, by rw [e]; simp⟩

omit hR in
theorem rebin_returned {ops : List Op} {i k n : Nat} {b : Int} (hk : (runOps ops).images[i]? = some k) (hn : Returns ops (.rebin i b) n) :
    0 < b ∧ micropolarrayRebin ((runOps ops).data k) b = .ok ((runOps (ops ++ [.rebin i b])).data n) := by
  obtain ⟨h1, h2⟩ := returned_data hn rfl hk
  have hC : (runOps (ops ++ [.rebin i b])).data n = _ := congrArg ImgView.data h2
  have e : (Op.rebin i b).value (runOps ops) ((runOps ops).heap.view k) =
      if b ≤ 0 then (.error .valueError, (runOps ops).heap.view k) else
      withVal (micropolarrayRebin ((runOps ops).data k) b) ((runOps ops).heap.view k) fun d => updateDataAndStokesV d ((runOps ops).heap.view k) := rfl
  rw [e] at h1 hC
  split at h1
  · cases h1
  · rename_i hb
    rw [if_neg hb] at hC
    obtain ⟨d, hd, e'⟩ := withVal_ok h1
    rw [e'] at hC
    refine ⟨by omega, ?_⟩
    rw [hd, hC]
    have : (updateDataAndStokesV d ((runOps ops).heap.view k)).2.data = d :=
      withVal_inv (P := fun v : ImgView => v.data = d) rfl fun _ _ => rfl
    rw [this]

/-- C114: binning an image of the session in double precision gives the pixels of the session, without any rounding error. -/
theorem C114_rebin_in_doubles {ops : List Op} {M : ℕ} (h : CountSession ops M) {i k n : Nat} {b : Int} (hM : b.toNat * b.toNat * M ≤ 2 ^ 53)
    (hk : (runOps ops).images[i]? = some k) (hn : Returns ops (.rebin i b) n) {F : Img (Fl R)} (hF : F.reals = (runOps ops).data k) :
    ∃ r : Img (Fl R), micropolarrayRebin F b = .ok r ∧ r.reals = (runOps (ops ++ [.rebin i b])).data n := by
  obtain ⟨hb, e⟩ := rebin_returned hk hn
  obtain ⟨m, rfl⟩ : ∃ m : Nat, b = m := ⟨b.toNat, by omega⟩
  have ev := even_named hk
  rw [← hF] at ev
  obtain ⟨r, h1, h2, -⟩ := C91_rebin_micropol_exact hR (by omega) ev.1 ev.2 (counts_whole hR hF (C114_pixels h (List.mem_of_getElem? hk))) hM
  rw [Int.toNat_natCast] at h1 h2
  rw [hF, e] at h2
  injection h2 with h2
  exact ⟨r, h1, h2.symm⟩

/-- C114: so does the subtraction of a dark. -/
theorem C114_dark_in_doubles {ops : List Op} {M : ℕ} (h : CountSession ops M) {i j k l n : Nat} (hM : 2 * M ≤ 2 ^ 53)
    (hk : (runOps ops).images[i]? = some k) (hl : (runOps ops).images[j]? = some l) (hn : Returns ops (.subtractDark i j) n)
    {F G : Img (Fl R)} (hF : F.reals = (runOps ops).data k) (hG : G.reals = (runOps ops).data l) :
    ∃ r : Img (Fl R), subtractDarkData F G = .ok r ∧ r.reals = (runOps (ops ++ [.subtractDark i j])).data k := by
  obtain ⟨-, hs, hs', hpx⟩ := C77_dark ops i j k l n hk hl hn
  rw [← hF, ← hG] at hs
  obtain ⟨r, h1, h2, -, h3, h4⟩ := C91_dark_exact hR hs (counts_whole hR hF (C114_pixels h (List.mem_of_getElem? hk)))
    (counts_whole hR hG (C114_pixels h (List.mem_of_getElem? hl))) hM
  refine ⟨r, h1, ?_⟩
  have sr : r.reals.h = ((runOps ops).data k).h ∧ r.reals.w = ((runOps ops).data k).w := by rw [← hF]; exact ⟨h3, h4⟩
  refine Img.ext_px (sr.1.trans hs'.1.symm) (sr.2.trans hs'.2.symm) fun y x hy hx => ?_
  rw [sr.1] at hy
  rw [sr.2] at hx
  rw [hpx y x hy hx]
  unfold subtractDarkData at h2
  rw [npBin_ok hs.1 hs.2] at h2
  injection h2 with h2
  rw [← h2, hF, hG]
  unfold Img.map
  rw [Img.ofFn_px (by exact hy) (by exact hx), Img.ofFn_px (by exact hy) (by exact hx)]
  by_cases hc : ((runOps ops).data k).px y x - ((runOps ops).data l).px y x ≥ 0
  · rw [max_eq_left hc]
    exact if_pos hc
  · rw [max_eq_right (le_of_not_ge hc)]
    exact if_neg hc

/-- C114: and the sum of two images. -/
theorem C114_sum_in_doubles {ops : List Op} {M : ℕ} (h : CountSession ops M) {i j k l n : Nat} {junk : Nat → Nat → ℝ} (hM : 2 * M ≤ 2 ^ 53)
    (hk : (runOps ops).images[i]? = some k) (hl : (runOps ops).images[j]? = some l) (hn : Returns ops (.arithImage .add i j junk) n)
    {F G : Img (Fl R)} (hF : F.reals = (runOps ops).data k) (hG : G.reals = (runOps ops).data l) :
    ∃ r : Img (Fl R), npBin (fun a b => a + b) F G = .ok r ∧ r.reals = (runOps (ops ++ [.arithImage .add i j junk])).data n := by
  obtain ⟨hs, hs', hpx⟩ := C39_session_images ops .add i j k l n junk hk hl hn
  rw [← hF, ← hG] at hs
  refine ⟨_, npBin_ok hs.1 hs.2, ?_⟩
  rw [← hF] at hs' hpx
  refine Img.ext_px hs'.1.symm hs'.2.symm fun y x hy hx => ?_
  rw [hpx y x hy hx trivial, reals_px, Img.ofFn_px (by exact hy) (by exact hx)]
  show R ((F.px y x).val + (G.px y x).val) = F.reals.px y x + ((runOps ops).data l).px y x
  obtain ⟨a, ha, ea⟩ := counts_run h k (List.mem_of_getElem? hk) y x
  obtain ⟨c, hc, ec⟩ := counts_run h l (List.mem_of_getElem? hl) y x
  have ea : ((runOps ops).data k).px y x = a := ea
  have ec : ((runOps ops).data l).px y x = c := ec
  rw [← reals_px, ← reals_px, hF, hG, ea, ec]
  have : |((a + c : ℕ) : ℤ)| ≤ 2 ^ 53 := by
    rw [abs_of_nonneg (Int.natCast_nonneg _)]
    exact_mod_cast (by omega : a + c ≤ 2 ^ 53)
  simpa using round_int hR this

end

/-- C114: an image of the session with a bound below `2 ^ 15` (the whole part of every pixel is written as 16 bits), saved as `p.raw` and converted to `p.fits` (with its size, and no other dot in
the path), has all its pixels in the FITS file. -/
theorem C114_raw {ops : List Op} {M : ℕ} (h : CountSession ops M) (hM : M < 2 ^ 15) {k : Nat} (hk : k ∈ (runOps ops).images)
    {cwd : List Name} (hcwd : ∀ x ∈ cwd, GoodComp x) {fs fs' : FileSystem} {p : Name}
    (hsave : saveAsRaw cwd fs (((runOps ops).data k).map pyInt) (p ++ rawExt) = .ok fs') (hdot : (abspath cwd (p ++ rawExt)).count '.' = 1) (removeOld : Bool) :
    ∃ s : FileSystem, (convertRawfile cwd fs' (p ++ rawExt) ((runOps ops).data k).h ((runOps ops).data k).w removeOld).Final s ∧
      s.file (abspath cwd (p ++ fitsExt)) = some (.fits ((runOps ops).data k)) := by
  obtain ⟨s, img, h1, h2, h3, h4, h5⟩ := C53_roundtrip hcwd hsave hdot removeOld
  refine ⟨s, h1, ?_⟩
  rw [h2]
  congr 2
  refine Img.ext_px h3 h4 fun y x hy hx => ?_
  rw [h3] at hy
  rw [h4] at hx
  obtain ⟨n, hn, en⟩ := C114_pixels h hk y x hy hx
  have e : (((runOps ops).data k).map pyInt).px y x = n := by
    rw [Img.map_px pyInt _ (show y < ((runOps ops).data k).h from hy) (show x < ((runOps ops).data k).w from hx), en]
    simp [pyInt]
  have := (h5 y x hy hx).1 (by omega) (by omega)
  rw [this, e, en]
  simp

/-- C114: the bound cannot be smaller: binning a frame of equal counts reaches it. -/
theorem C114_attained (M m b : ℕ) (hb : 0 < b) (hm : 0 < m) :
    ∃ n, Returns [frameCall (m * b) M] (.rebin 0 b) n ∧ CountSession [frameCall (m * b) M, .rebin 0 b] (b * b * M) ∧
      ∀ y x, y < 2 * m → x < 2 * m → ((runOps [frameCall (m * b) M, .rebin 0 b]).data n).px y x = ((b * b * M : ℕ) : ℝ) := by
  obtain ⟨r, hd⟩ := frame_run [] rfl (m * b) M
  have th : ∀ o ∈ [frameCall (m * b) M], o.theoretical = true := fun o ho => by rw [List.mem_singleton.1 ho]; rfl
  have hk : (runOps [frameCall (m * b) M]).images[0]? = some (runOps []).heap.objs.size := by
    unfold Returns at r
    rw [List.nil_append] at r
    rw [r]
    rfl
  obtain ⟨n, hn⟩ := (C77_always_return _ 0 _ hk).1 b (by omega)
  refine ⟨n, hn, ?_, fun y x hy hx => ?_⟩
  · have h1 : CountSession ([] ++ [frameCall (m * b) M]) M := .call (.start M) le_rfl ⟨fun y x hy hx => ⟨M, le_rfl, ?_⟩, rfl⟩
    · refine .call h1 (Nat.le_mul_of_pos_left M (Nat.mul_pos hb hb)) ?_
      show (b : Int).toNat * (b : Int).toNat * M ≤ _
      rw [Int.toNat_natCast]
    · exact Img.ofFn_px hy hx
  · obtain ⟨m', -, e, sh, hpx⟩ := C77_rebin _ 0 _ n b hk hn
    have e : b = m' := by exact_mod_cast e
    subst e
    have hd : (runOps [frameCall (m * b) M]).data (runOps []).heap.objs.size = evenFrame (m * b) M := hd
    have e1 : 2 * ((evenFrame (m * b) M).h / (2 * b)) = 2 * m := by
      show 2 * (2 * (m * b) / (2 * b)) = 2 * m
      rw [← mul_assoc, mul_comm, Nat.mul_comm 2 m, mul_assoc, Nat.mul_div_cancel _ (by omega)]
    rw [hd] at sh hpx
    obtain ⟨s1, s2⟩ := sh
    have s1 : _ = 2 * m := s1.trans e1
    have s2 : _ = 2 * m := s2.trans e1
    refine (hpx y x (by rw [s1]; exact hy) (by rw [s2]; exact hx)).trans ?_
    unfold familySum
    rw [Finset.sum_congr rfl fun u hu => Finset.sum_congr rfl fun v hv => show _ = (M : ℝ) from ?_]
    · simp [mul_assoc]
    · have hu := Finset.mem_range.1 hu
      have hv := Finset.mem_range.1 hv
      have key : ∀ z u : ℕ, z < 2 * m → u < b → 2 * (b * (z / 2) + u) + z % 2 < 2 * (m * b) := by
        intro z u hz hu
        have h1 : z / 2 < m := by omega
        have h2 : b * (z / 2) + b ≤ m * b := by
          calc b * (z / 2) + b = b * (z / 2 + 1) := by ring
            _ ≤ b * m := Nat.mul_le_mul_left b h1
            _ = m * b := Nat.mul_comm _ _
        omega
      exact Img.ofFn_px (key y u hy hu) (key x v hx hv)

/-- C114: divisions are left out for a reason: half of a count is none. -/
theorem C114_division : ∃ n, Returns [frameCall 1 1] (.arithNumber .div 0 2 fun _ _ => 0) n ∧
    ∀ M : ℕ, ¬ ((runOps [frameCall 1 1, .arithNumber .div 0 2 fun _ _ => 0]).data n).Counts M := by
  obtain ⟨r, hd⟩ := frame_run [] rfl 1 1
  have th : ∀ o ∈ [frameCall 1 1], o.theoretical = true := fun o ho => by rw [List.mem_singleton.1 ho]; rfl
  have hk : (runOps [frameCall 1 1]).images[0]? = some (runOps []).heap.objs.size := by
    unfold Returns at r
    rw [List.nil_append] at r
    rw [r]
    rfl
  obtain ⟨n, hn⟩ := (C77_always_return _ 0 _ hk).2.2.2 .div 2 fun _ _ => 0
  refine ⟨n, hn, fun M hM => ?_⟩
  have hd : (runOps [frameCall 1 1]).data (runOps []).heap.objs.size = evenFrame 1 1 := hd
  obtain ⟨sh, hpx⟩ := C39_session_numbers _ .div 0 _ n 2 _ hk hn
  rw [hd] at sh hpx
  have h1 := hpx 0 0 (show 0 < 2 * 1 by decide) (show 0 < 2 * 1 by decide) (two_ne_zero)
  obtain ⟨c, -, e⟩ := hM 0 0 (lt_of_lt_of_eq (show 0 < 2 * 1 by decide) sh.1.symm)
    (lt_of_lt_of_eq (show 0 < 2 * 1 by decide) sh.2.symm)
  have h2 : (evenFrame 1 1).px 0 0 = 1 := Img.ofFn_px (show 0 < 2 * 1 by decide) (show 0 < 2 * 1 by decide)
  rw [h2] at h1
  have h3 : (c : ℝ) = 1 / 2 := by rw [← e]; exact h1
  have h4 : ((2 * c : ℕ) : ℝ) = ((1 : ℕ) : ℝ) := by push_cast; rw [h3]; norm_num
  have h5 : 2 * c = 1 := by exact_mod_cast h4
  omega

/-- A day of a 12-bit camera: two exposures and a dark, dark subtraction, cleaning, sum, binning, masking, rotation by 90 degrees. -/
noncomputable def countingDay : List Op :=
  [frameCall 8 4095, frameCall 8 3000, frameCall 8 100, .subtractDark 0 2, .subtractDark 1 2, .cleanHotPixels 0 2 (medianFilter 2),
    .arithImage .add 3 1 fun _ _ => 0, .rebin 4 2, .maskOcculter 5 3 3 1 0 0, .rotate 5 (pilRotate 90), .demosaic 6 "adjacent"]

example : CountSession countingDay 32760 := by
  have fr : ∀ (v M M' : ℕ), v ≤ M' → (frameCall 8 v).CountsTo M M' := fun v M M' hv =>
    ⟨fun y x hy hx => ⟨v, hv, Img.ofFn_px hy hx⟩, rfl⟩
  have h1 : CountSession ([] ++ [frameCall 8 4095]) 4095 := .call (.start 4095) le_rfl (by exact_mod_cast fr 4095 4095 4095 le_rfl)
  have h2 : CountSession ([frameCall 8 4095] ++ [frameCall 8 3000]) 4095 := .call h1 le_rfl (by exact_mod_cast fr 3000 4095 4095 (by norm_num))
  have h3 := CountSession.call h2 le_rfl (by exact_mod_cast fr 100 4095 4095 (by norm_num))
  have h4 := CountSession.call (o := .subtractDark 0 2) h3 le_rfl trivial
  have h5 := CountSession.call (o := .subtractDark 1 2) h4 le_rfl trivial
  have h6 := CountSession.call h5 le_rfl (C114_median 4095 2 0 2)
  have h7 := CountSession.call (M' := 8190) (o := .arithImage .add 3 1 fun _ _ => 0) h6 (by norm_num) (by show 4095 + 4095 ≤ 8190; norm_num)
  have h8 := CountSession.call (M' := 32760) (o := .rebin 4 2) h7 (by norm_num) (by show 2 * 2 * 8190 ≤ 32760; norm_num)
  have h9 := CountSession.call (o := .maskOcculter 5 3 3 1 0 0) h8 le_rfl (IsCount.zero _)
  have h10 := CountSession.call (o := .rotate 5 (pilRotate 90)) h9 le_rfl ⟨⟨90, rfl⟩, by norm_num⟩
  exact CountSession.call (o := .demosaic 6 "adjacent") h10 le_rfl trivial

end Micropol

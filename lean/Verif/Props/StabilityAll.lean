import Verif.Lemmas.NearSession

/-!
# C112: errors of pixels and of Stokes maps through whole sessions
-/

set_option autoImplicit false

namespace Micropol

noncomputable section

variable {ops ops' : List Op} {e e' f f' : Nat → ℝ}

theorem Nearby.step (h : Nearby e f (runOps ops) (runOps ops')) (hdef : lastDefault ops' = lastDefault ops) (hpos : ∀ p, 0 ≤ e p)
    {o o' : Op} (ho : Noisy (runOps ops) e e' f f' o o') : Nearby e' f' (runOps (ops ++ [o])) (runOps (ops' ++ [o'])) := by
  have hv := runOps_valid ops
  have hv' := runOps_valid ops'
  have top : ∀ {δ φ : ℝ} {r r' : Py Unit × ImgView} {m : ℝ}, Rc (Vc δ m) (Vc δ φ) r r' → Rc (fun _ _ => True) (Vc δ φ) r r' :=
    fun hr => hr.weaken (fun _ _ _ => trivial) fun _ _ h => h
  rw [runOps_snoc, runOps_snoc]
  cases ho with
  | setDefault dic he hf =>
    have w : ∀ (s : State) k, ¬ (Op.setDefault dic).W s k := by rintro s k ⟨h, -⟩; cases h
    exact h.nothing he hf rfl rfl (fun k hk => step_maps_same hv hk (w _ k)) (fun k hk => step_maps_same hv' hk (w _ k))
      (fun k hk => step_view_same hv rfl hk (w _ k)) fun k hk => step_view_same hv' rfl hk (w _ k)
  | fromArray d d' dic dark flat junk junk' ε M N G ρ hε hd hM0 hM hG hn =>
    refine h.new hv hv' hn rfl rfl rfl rfl rfl rfl rfl (.inl rfl) (exec_fromArray hv d dic dark flat junk ((runOps ops).heap.view 0))
      (exec_fromArray hv' d' dic dark flat junk' ((runOps ops).heap.view 0)) ?_
    have hdic : dicVal dic (runOps ops').heap = dicVal dic (runOps ops).heap := by rw [dicVal_run, dicVal_run, hdef]
    refine h.corrections (φ := 2 * ε) dark flat hG junk junk' (fun _ => le_rfl)
      (T := fun _ _ g => withVal (dataStokes d (dicVal dic (runOps ops).heap)) ((runOps ops).heap.view 0) fun S => g (freshView d S (dicVal dic (runOps ops).heap)))
      (T' := fun _ _ g => withVal (dataStokes d' (dicVal dic (runOps ops').heap)) ((runOps ops).heap.view 0) fun S => g (freshView d' S (dicVal dic (runOps ops').heap)))
      fun _ _ _ _ Q g g' hg => ?_
    rw [hdic]
    refine Rc.withVal (nr_dataStokes (hd.nr hε) _) trivial fun S S' hS => hg _ _
      ⟨hd.nr hε, rfl, rfl, rfl, rfl, rfl, trivial, rfl, hS⟩ (bounded_of hM0 hM)
  | copy i dic junk junk' hn => exact h.derive hv hv' hn rfl rfl rfl rfl rfl rfl rfl fun k k' _ _ hb => Rc.ok hb
  | fromImage i dic dark flat junk junk' M N G ρ hc hM hG hn =>
    refine h.derive hv hv' hn rfl rfl rfl rfl (by cases dark <;> cases flat <;> rfl) rfl rfl fun k k' hk _ hb => ?_
    exact h.corrections (φ := f i) dark flat hG junk junk' (fun hq => absurd hc (by rw [hq.1, hq.2]; simp))
      (T := fun _ _ g => g _) (T' := fun _ _ g => g _) fun _ _ _ _ Q g g' hg => hg _ _ hb (hM.bounded hk)
  | rebin i b hn =>
    refine h.derive hv hv' hn rfl rfl rfl rfl rfl rfl rfl fun k k' hk hk' hb => ?_
    unfold Op.value
    dsimp only
    split
    · exact Rc.err trivial _
    · rename_i h0
      have h1 : (1 : ℝ) ≤ (b : ℝ) := by exact_mod_cast (by omega : (1 : Int) ≤ b)
      exact top (vc_update hb (le_mul_of_one_le_left hb.data.pos (by nlinarith)) (nr_rebin hb.data (even_named hk) (by omega)))
  | congrid i ny nx hn => exact h.derive hv hv' hn rfl rfl rfl rfl rfl rfl rfl fun k k' _ _ hb => top (vc_congrid hb ny nx)
  | demodulate i D K hK hn => exact h.derive hv hv' hn rfl rfl rfl rfl rfl rfl rfl fun k k' _ _ hb => top (vc_demodulatePlain hb hK)
  | demodulateDemosaicing i D K hK hn =>
    exact h.derive hv hv' hn rfl rfl rfl rfl rfl rfl rfl fun k k' _ _ hb => vc_demodulateDemosaicing hb hK
  | shift i y x m hn =>
    exact h.derive hv hv' hn rfl rfl rfl rfl rfl rfl rfl fun k k' _ _ hb => top (vc_update hb le_rfl (nr_shift hb.data y x m))
  | cleanHotPixels i fl hex hn =>
    refine h.derive hv hv' hn rfl rfl rfl rfl rfl rfl rfl fun k k' _ _ hb => ?_
    unfold Op.value
    refine h.second fl trivial fun l hl D hD => ?_
    rw [hex] at hD
    have := hD.zero
    subst this
    exact top (vc_update hb le_rfl (nr_clean hb.data _))
  | sumImages op hop i j junk junk' hn =>
    refine h.derive hv hv' hn rfl rfl rfl rfl rfl rfl rfl fun k k' _ _ hb => ?_
    unfold Op.value
    refine h.second j trivial fun l hl D hD => ?_
    refine top (vc_update hb (by linarith [hD.pos]) ?_)
    rcases hop with rfl | rfl
    · exact nr_add hb.data hD junk junk'
    · exact nr_sub hb.data hD junk junk'
  | mulImages i j junk junk' M N hM hN hn =>
    refine h.derive hv hv' hn rfl rfl rfl rfl rfl rfl rfl fun k k' hk _ hb => ?_
    unfold Op.value
    refine h.second j trivial fun l hl D hD => ?_
    exact top (vc_update hb (le_max_left _ _) ((nr_mul hb.data hD (hM.2 k hk) (hN.2 l hl) hM.1 hN.1 junk junk').mono'
      fun _ _ h => h.mono (le_max_right _ _)))
  | divImages i j junk junk' G ρ M hG hM hn =>
    refine h.derive hv hv' hn rfl rfl rfl rfl rfl rfl rfl fun k k' hk _ hb => ?_
    unfold Op.value
    refine h.second j trivial fun l hl D hD => ?_
    obtain ⟨g1, g2, g3, g4⟩ := hG
    exact top (vc_update hb (le_max_left _ _) ((nr_quotient hb.data hD g3 g2 g1 (hM.2 k hk) hM.1 (g4 l hl) junk junk').mono'
      fun _ _ h => h.mono (le_max_right _ _)))
  | number op i c junk junk' hc hn =>
    refine h.derive hv hv' hn rfl rfl rfl rfl rfl rfl rfl fun k k' hk _ hb => ?_
    refine Rc.withVal (nr_number op hc hb.data junk junk') trivial fun d d' hd => ?_
    rw [hb.dic]
    exact Rc.withVal (nr_dataStokes hd _) trivial fun S S' hS => Rc.ok ⟨hd, rfl, rfl, rfl, rfl, rfl, trivial, rfl, hS⟩
  | demosaic i mode hp => exact h.work hv hv' hp rfl rfl rfl rfl rfl rfl rfl rfl fun m k v w hk hd hb => vc_demosaic hb mode
  | subtractDark i j hp =>
    refine h.work hv hv' hp rfl rfl rfl rfl rfl rfl rfl rfl fun m k v w hk hd hb => ?_
    exact h.second j (hb.mono (by linarith [hpos j]) le_rfl) fun l hl D hD => vc_dark hb hD
  | correctFlat i j junk junk' G ρ M hG hM hp =>
    refine h.work hv hv' hp rfl rfl rfl rfl rfl rfl rfl rfl fun m k v w hk hd hb => ?_
    refine h.second j (hb.mono (le_max_left _ _) le_rfl) fun l hl D hD => ?_
    obtain ⟨g1, g2, g3, g4⟩ := hG
    exact vc_flatError hb hD g3 g2 g1 (by rw [hd]; exact hM.2 k hk) hM.1 (g4 l hl).1 (g4 l hl).2 rfl junk junk'
  | correctIfov i hp => exact h.work hv hv' hp rfl rfl rfl rfl rfl rfl rfl rfl fun m k v w hk hd hb => vc_update hb le_rfl (nr_ifov hb.data)
  | maskOcculter i y x r over fill he hf => exact h.mask hv hv' he hf i y x r over fill
  | rotate i rot L hL hrot he hf hd hφ =>
    refine h.rotated hv hv' he hL hf i (fun ε A B hA => ?_) hd hφ
    obtain ⟨h1, h2⟩ := hrot ε A B hA.pos hA.within
    cases hx : rot A with
    | error x =>
      rw [(h1 x).1 hx]
      rfl
    | ok A' =>
      cases hy : rot B with
      | error y =>
        have := (h1 y).2 hy
        rw [hx] at this
        cases this
      | ok B' => exact (h2 A' B' hx hy).nr (mul_nonneg (by linarith) hA.pos)

theorem Noisy.default {s : State} {o o' : Op} (h : Noisy s e e' f f' o o') (hdef : lastDefault ops' = lastDefault ops) :
    lastDefault (ops' ++ [o']) = lastDefault (ops ++ [o]) := by
  cases h with
  | setDefault => rw [lastDefault_snoc, lastDefault_snoc]
  | _ => rw [lastDefault_other (by intro d hd; cases hd), lastDefault_other (by intro d hd; cases hd), hdef]

theorem nearby_take (l : List (Op × Op)) (e f : Nat → Nat → ℝ) (h : NoisySession e f l) (n : Nat) (hn : n ≤ l.length) :
    Nearby (e n) (f n) (runOps ((l.take n).map Prod.fst)) (runOps ((l.take n).map Prod.snd)) ∧
    lastDefault ((l.take n).map Prod.snd) = lastDefault ((l.take n).map Prod.fst) := by
  induction n with
  | zero =>
    refine ⟨⟨rfl, fun p q hp => absurd hp (Nat.not_lt_zero _), fun p q k l k' l' hk => ?_, fun p k k' hk => ?_⟩, rfl⟩
    · exact absurd (lt_of_some hk) (Nat.not_lt_zero _)
    · exact absurd (lt_of_some hk) (Nat.not_lt_zero _)
  | succ n ih =>
    obtain ⟨h1, h4⟩ := ih (by omega)
    obtain ⟨⟨o, o'⟩, ho⟩ : ∃ a, l[n]? = some a := ⟨_, List.getElem?_eq_getElem (by omega)⟩
    have hp := h.2 n o o' ho
    have e1 : (l.take (n + 1)).map Prod.fst = (l.take n).map Prod.fst ++ [o] := by
      rw [List.take_add_one, ho]; simp
    have e2 : (l.take (n + 1)).map Prod.snd = (l.take n).map Prod.snd ++ [o'] := by
      rw [List.take_add_one, ho]; simp
    rw [e1, e2]
    exact ⟨h1.step h4 (h.1 n) hp, hp.default h4⟩

/-- C112 for sessions with every kind of call.  The two sessions make the same calls on arrays that differ a little; the errors grow as
`Noisy` says.  Then the two sessions end with the same names for the same images, with the same angle dictionaries, the same flags, and
with pixels, Stokes maps and demosaiced images as close as the bounds say. -/
theorem C112_session_maps (l : List (Op × Op)) (e f : Nat → Nat → ℝ) (h : NoisySession e f l) :
    let s := runOps (l.map Prod.fst)
    let t := runOps (l.map Prod.snd)
    t.images.length = s.images.length ∧
    (∀ p q, p < s.images.length → q < s.images.length → (s.images[p]? = s.images[q]? ↔ t.images[p]? = t.images[q]?)) ∧
    ∀ p k k', s.images[p]? = some k → t.images[p]? = some k' →
      PxWithin (e l.length p) (s.data k) (t.data k') ∧
      (∀ q, PxWithin (f l.length p) (s.stokes k q) (t.stokes k' q)) ∧
      DemosaicedWithin (e l.length p) (s.heap.view k).demosaicedImages (t.heap.view k').demosaicedImages ∧
      t.dic k' = s.dic k ∧ t.isDemosaiced k' = s.isDemosaiced k ∧
      (t.heap.view k').isDemodulated = (s.heap.view k).isDemodulated ∧
      (t.heap.view k').darkSubtracted = (s.heap.view k).darkSubtracted ∧
      (t.heap.view k').flatSubtracted = (s.heap.view k).flatSubtracted := by
  intro s t
  obtain ⟨h1, -⟩ := nearby_take l e f h l.length le_rfl
  rw [List.take_length] at h1
  refine ⟨h1.len, h1.names, fun p k k' hk hk' => ?_⟩
  have g := h1.views p k k' hk hk'
  refine ⟨g.data.within, fun q => (g.maps q).within, ?_, g.dic, g.dm, g.dd, g.ds, g.fs⟩
  have d := g.dem
  generalize (s.heap.view k).demosaicedImages = a at d
  generalize (t.heap.view k').demosaicedImages = b at d
  cases a <;> cases b
  · trivial
  · exact d
  · exact d
  · exact fun c => (d c).within

theorem noisySession_snoc {e f : Nat → Nat → ℝ} {l : List (Op × Op)} {o o' : Op} (hl : NoisySession e f l)
    (ho : Noisy (runOps (l.map Prod.fst)) (e l.length) (e (l.length + 1)) (f l.length) (f (l.length + 1)) o o') :
    NoisySession e f (l ++ [(o, o')]) := by
  refine ⟨hl.1, fun k a a' hk => ?_⟩
  rcases Nat.lt_trichotomy k l.length with hlt | rfl | hgt
  · rw [List.getElem?_append_left hlt] at hk
    rw [List.take_append_of_le_length hlt.le]
    exact hl.2 k a a' hk
  · rw [List.getElem?_append_right (Nat.le_refl _), Nat.sub_self] at hk
    cases hk
    rw [List.take_append_of_le_length (Nat.le_refl _), List.take_length]
    exact ho
  · rw [List.getElem?_eq_none (by rw [List.length_append]; simpa using hgt)] at hk
    cases hk

/-- A light frame and a flat field, both known to 3 counts; flat field correction, a copy, a rotation, the occulter mask on the copy
and demosaicing: everything is known to 100 counts in the end. -/
example : ∃ (l : List (Op × Op)) (e f : Nat → Nat → ℝ), NoisySession e f l ∧ l.length = 7 ∧ (∀ p, e 7 p = 100 ∧ f 7 p = 200) := by
  have i1 : (runOps [frameCall 4 100]).images = [0] := (frame_run [] rfl 4 100).1
  have run2 : Returns [frameCall 4 100] (frameCall 4 20) 1 := by
    have := (frame_run [frameCall 4 100] (by unfold frameCall; rfl) 4 20).1
    have h0 : (runOps [frameCall 4 100]).heap.objs.size = 1 := by
      obtain ⟨S, hS, -⟩ := C17_stokes (evenFrame 4 100) (show 8 % 2 = 0 from rfl) (show 8 % 2 = 0 from rfl) _ _ C02_polarCam.1
      have r := step_fromArray (s := initState) (evenFrame 4 100) none (fun _ _ => 0) hS
      have r' : runOps [frameCall 4 100] = _ := r
      rw [r']
      rfl
    rwa [h0] at this
  have i2 : (runOps [frameCall 4 100, frameCall 4 20]).images = [0, 1] := by
    unfold Returns at run2
    rw [i1] at run2
    exact run2
  have d0 : (runOps [frameCall 4 100]).data 0 = evenFrame 4 100 := (frame_run [] rfl 4 100).2
  have d0' : (runOps [frameCall 4 100, frameCall 4 20]).data 0 = evenFrame 4 100 := by
    rw [← d0]
    exact kept_data (ops := [frameCall 4 100]) (o := frameCall 4 20) rfl 0 (by rw [i1]; simp)
  have d1 : (runOps [frameCall 4 100, frameCall 4 20]).data 1 = evenFrame 4 20 := by
    have h := (frame_run [frameCall 4 100] (by unfold frameCall; rfl) 4 20)
    have e1 : (runOps [frameCall 4 100]).heap.objs.size = 1 := by
      have := h.1
      unfold Returns at this run2
      rw [run2] at this
      simpa using this.symm
    have := h.2
    rw [e1] at this
    exact this
  have px : ∀ v y x, y < 8 → x < 8 → (evenFrame 4 v).px y x = v := by
    intro v y x hy hx
    unfold evenFrame Img.const
    rw [Img.ofFn_px hy hx]
  have mean : (evenFrame 4 20).mean = 20 := by
    unfold Img.mean Img.total Img.totalOn
    have : ∀ y ∈ Finset.range (evenFrame 4 20).h, ∑ x ∈ Finset.range (evenFrame 4 20).w, (evenFrame 4 20).px y x = 160 := by
      intro y hy
      have hy' : y < 8 := Finset.mem_range.1 hy
      have hwid : (evenFrame 4 20).w = 8 := rfl
      rw [hwid, Finset.sum_congr rfl fun x hx => px 20 y x hy' (Finset.mem_range.1 hx), Finset.sum_const, Finset.card_range]
      norm_num
    rw [Finset.sum_congr rfl this, Finset.sum_const, Finset.card_range]
    show ((2 * 4) • (160 : ℝ)) / ((2 * 4 * (2 * 4) : Nat) : ℝ) = 20
    norm_num
  have hw : ∀ (v w : ℝ), |v - w| ≤ 3 → PxWithin 3 (evenFrame 4 v) (evenFrame 4 w) := by
    intro v w h
    refine ⟨⟨rfl, rfl⟩, fun y x hy hx => ?_⟩
    rw [px v y x hy hx, px w y x hy hx]
    exact h
  let E : Nat → ℝ := fun k => if k ≤ 2 then 3 else 100
  have E0 : E 0 = 3 := rfl
  have E1 : E 1 = 3 := rfl
  have E2 : E 2 = 3 := by simp [E]
  have E3 : ∀ k, 3 ≤ k → E k = 100 := fun k hk => if_neg (by omega)
  let e : Nat → Nat → ℝ := fun k _ => E k
  let f : Nat → Nat → ℝ := fun k _ => 2 * E k
  have s0 : NoisySession e f [] := ⟨fun k p => by show 0 ≤ E k; dsimp only [E]; split_ifs <;> norm_num, fun k o o' h => by cases h⟩
  have frame : ∀ (l : List (Op × Op)) (v w : ℝ), l.length < 2 → |v - w| ≤ 3 → NoisySession e f l →
      NoisySession e f (l ++ [(frameCall 4 v, frameCall 4 w)]) := by
    intro l v w hl hvw hs
    have a : E l.length = 3 := if_pos (by omega)
    have b : E (l.length + 1) = 3 := if_pos (by omega)
    refine noisySession_snoc hs (.fromArray _ _ _ none none _ _ 3 |v| 0 0 0 (by norm_num) (hw v w hvw) (abs_nonneg v)
      (fun y x hy hx => le_of_eq (by rw [px v y x hy hx])) ⟨fun j hj => (by cases hj), fun j hj => (by cases hj)⟩ ⟨?_, ?_, ?_, ?_⟩)
    · intro p _; show E l.length ≤ E (l.length + 1); rw [a, b]
    · intro p _; show 2 * E l.length ≤ 2 * E (l.length + 1); rw [a, b]
    · show max (3 : ℝ) 3 ≤ E (l.length + 1); rw [b, max_self]
    · show 2 * max (3 : ℝ) 3 ≤ 2 * E (l.length + 1); rw [b, max_self]
  have s1 := frame [] 100 103 (by decide) (by norm_num) s0
  have s2 := frame _ 20 19 (by decide) (by norm_num) s1
  have fr : flatResult 1 (3 / 20) 100 3 ≤ 100 := by unfold flatResult; norm_num
  have s3 := noisySession_snoc s2 (o := .correctFlat 0 1 fun _ _ => 0) (o' := .correctFlat 0 1 fun _ _ => 1)
    (.correctFlat 0 1 _ _ 1 (3 / 20) 100 ⟨by norm_num, by norm_num, by norm_num, fun k hk => ?_⟩ ⟨by norm_num, fun k hk => ?_⟩ ?_)
  rotate_left
  · change (runOps [frameCall 4 100, frameCall 4 20]).images[1]? = some k at hk
    rw [i2] at hk
    cases hk
    change (E 2 = 0 ∨ E 2 < |((runOps [frameCall 4 100, frameCall 4 20]).data 1).mean|) ∧
      ∀ y x, y < ((runOps [frameCall 4 100, frameCall 4 20]).data 1).h → x < ((runOps [frameCall 4 100, frameCall 4 20]).data 1).w →
        ((runOps [frameCall 4 100, frameCall 4 20]).data 1).px y x ≠ 0 ∧
        |((runOps [frameCall 4 100, frameCall 4 20]).data 1).mean| ≤ 1 * |((runOps [frameCall 4 100, frameCall 4 20]).data 1).px y x| ∧
        E 2 ≤ 3 / 20 * |((runOps [frameCall 4 100, frameCall 4 20]).data 1).px y x|
    rw [d1, mean, E2]
    refine ⟨.inr (by norm_num), fun y x hy hx => ?_⟩
    rw [px 20 y x hy hx]
    norm_num
  · change (runOps [frameCall 4 100, frameCall 4 20]).images[0]? = some k at hk
    rw [i2] at hk
    cases hk
    change ∀ y x, y < ((runOps [frameCall 4 100, frameCall 4 20]).data 0).h → x < ((runOps [frameCall 4 100, frameCall 4 20]).data 0).w →
      |((runOps [frameCall 4 100, frameCall 4 20]).data 0).px y x| ≤ 100
    rw [d0']
    intro y x hy hx
    rw [px 100 y x hy hx]
    norm_num
  · have m : max (E 2) (flatResult 1 (3 / 20) 100 (E 2)) ≤ E 3 := by
      rw [E2, E3 3 le_rfl]
      exact max_le (by norm_num) fr
    refine { pixels := fun p _ => ?_, maps := fun p _ => ?_, newPixels := m, newMaps := ?_, names := fun p _ _ => ⟨m, ?_⟩ }
    · show E 2 ≤ E 3
      rw [E2, E3 3 le_rfl]; norm_num
    · show 2 * E 2 ≤ 2 * E 3
      rw [E2, E3 3 le_rfl]; norm_num
    · show 2 * _ ≤ 2 * E 3
      exact mul_le_mul_of_nonneg_left m (by norm_num)
    · show 2 * _ ≤ 2 * E 3
      exact mul_le_mul_of_nonneg_left m (by norm_num)
  have kp : ∀ (s : State) k, 3 ≤ k → Kept s (e k) (e (k + 1)) := fun s k hk p _ => by
    show E k ≤ E (k + 1); rw [E3 k hk, E3 _ (by omega)]
  have kf : ∀ (s : State) k, 3 ≤ k → Kept s (f k) (f (k + 1)) := fun s k hk p _ => by
    show 2 * E k ≤ 2 * E (k + 1); rw [E3 k hk, E3 _ (by omega)]
  have s4 := noisySession_snoc s3 (.copy 0 none (fun _ _ => 0) (fun _ _ => 0) ⟨kp _ 3 le_rfl, kf _ 3 le_rfl, kp ⟨initState.heap, [0]⟩ 3 le_rfl 0 (by decide),
    kf ⟨initState.heap, [0]⟩ 3 le_rfl 0 (by decide)⟩)
  have s5 := noisySession_snoc s4 (.rotate 0 (fun A => .ok A) 1 le_rfl (fun ε A B hε hA => ⟨fun x => ⟨fun h => (by cases h), fun h => (by cases h)⟩,
    fun A' B' ha hb => by cases ha; cases hb; rw [one_mul]; exact hA⟩) (kp _ 4 (by decide)) (fun p hp => by rw [one_mul]; exact kf _ 4 (by decide) p hp)
    (by rw [one_mul]; exact kp ⟨initState.heap, [0]⟩ 4 (by decide) 0 (by decide)) (by rw [one_mul]; exact kf ⟨initState.heap, [0]⟩ 4 (by decide) 0 (by decide)))
  have s6 := noisySession_snoc s5 (.maskOcculter 3 4 4 2 1 0 (kp _ 5 (by decide)) (kf _ 5 (by decide)))
  have E67 : E 6 = 100 ∧ E 7 = 100 := ⟨E3 6 (by decide), E3 7 (by decide)⟩
  have s7 := noisySession_snoc s6 (.demosaic 0 "adjacent" (by
    have a : E 6 ≤ E 7 := by rw [E67.1, E67.2]
    have b : 2 * E 6 ≤ 2 * E 7 := by rw [E67.1, E67.2]
    exact { pixels := fun p _ => a, maps := fun p _ => b, newPixels := a, newMaps := b, names := fun p _ _ => ⟨a, b⟩ }))
  exact ⟨_, e, f, s7, rfl, fun p => ⟨E67.2, by show 2 * E 7 = 200; rw [E67.2]; norm_num⟩⟩

end

end Micropol

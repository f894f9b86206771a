import Verif.Spec.Overrun
import Verif.Props.C72
/-! # C81: database bits outside a frame -/
namespace Verif.Props
open Verif.Db Verif.Asm Verif.Spec Verif.Xc7 Verif.Text

private theorem calls_ub : ∀ (calls : List BitCall) (s : Asm.St), (∃ c ∈ calls, c.value = true ∧ 101 ≤ c.word) →
    applyCalls frameSetter s calls = .ub
  | [], _, ⟨_, h, _⟩ => by cases h
  | c :: cs, s, h => by
    have hstep : applyCalls frameSetter s (c :: cs) =
        (frameSetter s c.bus c.frame c.word c.index c.value >>= fun s' => applyCalls frameSetter s' cs) := by
      unfold applyCalls
      rw [List.foldlM_cons]
    rw [hstep]
    by_cases hc : c.value = true ∧ 101 ≤ c.word
    · have : frameSetter s c.bus c.frame c.word c.index c.value = .ub := by
        unfold frameSetter
        rw [hc.1]
        dsimp only
        rw [if_pos rfl, if_neg (show ¬ c.word < frameWordsBase from Nat.not_lt.2 hc.2)]
      rw [this]; rfl
    · have : ∃ s', frameSetter s c.bus c.frame c.word c.index c.value = .ok s' := by
        unfold frameSetter
        dsimp only
        by_cases hv : c.value = true
        · rw [if_pos hv, if_pos (show c.word < frameWordsBase from Nat.lt_of_not_le fun h => hc ⟨hv, h⟩)]
          exact ⟨_, rfl⟩
        · rw [if_neg hv]; exact ⟨_, rfl⟩
      obtain ⟨s', hs'⟩ := this
      rw [hs', Outcome.bind_ok]
      refine calls_ub cs s' ?_
      obtain ⟨c', h1, h2⟩ := h
      rcases List.mem_cons.1 h1 with rfl | h1
      · exact absurd h2 hc
      · exact ⟨c', h1, h2⟩

private theorem range_split (n i : Nat) (h : i < n) : ∃ r, List.range n = List.range i ++ i :: r := by
  refine ⟨(List.range (n - i - 1)).map (i + 1 + ·), ?_⟩
  have h1 : n = i + ((n - i - 1) + 1) := by omega
  conv => lhs; rw [h1, List.range_add, List.range_succ_eq_map, List.map_cons, List.map_map]
  congr 2
  apply List.map_congr_left
  intro a _
  simp only [Function.comp]
  omega

section Statement
variable {tiles : Tiles} (hok : TilesOk tiles) (ord : HashOrder) (hord : Permutes ord)
include hok hord

/-- Everything up to bit `i`. -/
private theorem loop_arrives (F : FasmFeature) (hr : InRange F) (tile feature : Bytes) (i k : Nat) (h : Arrives tiles F tile feature i)
    (db : PartDatabase) (hdb : Reachable tiles db) (fr : Frames) (hs : fr.Sorted) :
    ∃ db' s', Reachable tiles db' ∧
      (db'.configBits (ord.bits k i) tile feature (addrOf F i) frameSetter s' = .ub → processFeature ord (db, fr) (F, k) = .ub) ∧
      (db'.configBits (ord.bits k i) tile feature (addrOf F i) frameSetter s' = .abort →
        processFeature ord (db, fr) (F, k) = .abort) := by
  obtain ⟨he, hn, hi, ht, hpre⟩ := h
  rcases splitMax_one 0x2e F.name with ⟨tile', feature', he', hn', hsp⟩ | ⟨hn', _⟩
  rotate_left
  · exact absurd (by rw [he]; simp) hn'
  rw [he] at he'
  obtain ⟨rfl, rfl⟩ := cut_unique he' hn hn'
  have hbit : ∀ a ∈ List.range i, BitOk tiles F tile feature a := by
    intro a ha
    rw [List.mem_range] at ha
    exact ⟨hr a (by omega), hpre a ha⟩
  obtain ⟨db', s', h4, h5, h6⟩ := loop_ok hok (ord.bits k) (fun a l => hord.bits k a l) F tile feature _ db hdb ([], fr) hs hbit
  obtain ⟨r, hsplit⟩ := range_split F.width.toNat i (by omega)
  obtain ⟨h1, h2⟩ := hr i hi
  have hb : bitStep (ord.bits k) F tile feature (db', s') i =
      db'.configBits (ord.bits k i) tile feature (addrOf F i) frameSetter s' := by
    rw [bitStep, if_neg (by omega), if_neg (by omega), if_pos ht]
    rfl
  refine ⟨db', s', h5, ?_, ?_⟩
  all_goals
    intro hc
    unfold processFeature
    dsimp only
    rw [hsp]
    dsimp only
    rw [hsplit, List.foldlM_append, h4, Outcome.bind_ok, List.foldlM_cons, hb, hc]
    rfl

/-- A statement whose first bad bit sets something outside the frame: memory behind the frame is written. -/
theorem feature_overruns (F : FasmFeature) (hr : InRange F) (h : Overruns tiles F) (k : Nat) (db : PartDatabase)
    (hdb : Reachable tiles db) (fr : Frames) (hs : fr.Sorted) : processFeature ord (db, fr) (F, k) = .ub := by
  obtain ⟨tile, feature, i, bits, ha, hf, c, hc, hc'⟩ := h
  obtain ⟨db', s', h1, h2, h3⟩ := loop_arrives hok ord hord F hr tile feature i k ha db hdb fr hs
  obtain ⟨calls, db'', hp, _, he⟩ := C45_feature_bits (ord.bits k i) (fun l => hord.bits k i l) tiles hok db' h1 tile feature (addrOf F i) bits hf
  refine h2 ?_
  rw [he, calls_ub calls s' ⟨c, hp.mem_iff.2 hc, hc'⟩]
  rfl

/-- A statement whose first bad bit is not listed: the program stops. -/
theorem feature_stalls (hload : FilesLoad tiles) (F : FasmFeature) (hr : InRange F) (h : Stalls tiles F) (k : Nat) (db : PartDatabase)
    (hdb : Reachable tiles db) (fr : Frames) (hs : fr.Sorted) : processFeature ord (db, fr) (F, k) = .abort := by
  obtain ⟨tile, feature, i, ha, hno⟩ := h
  obtain ⟨db', s', h1, h2, h3⟩ := loop_arrives hok ord hord F hr tile feature i k ha db hdb fr hs
  obtain ⟨ht, hc⟩ := reachable_cache h1
  obtain ⟨db'', _, _, hp⟩ := configBits_pure (ord.bits k i) db' hc tile feature (addrOf F i)
  refine h3 ?_
  rw [hp, ht, pureBits_abort (ord.bits k i) (fun l => hord.bits k i l) tiles hok hload tile feature (addrOf F i) hno]
  rfl

end Statement

/-- A statement in range with a dot in its name can be assembled, or its first bad bit is listed and outside, or not
listed. -/
theorem C81_kinds (tiles : Tiles) (F : FasmFeature) (hr : InRange F) (hd : 0x2e ∈ F.name) :
    FeatureOk tiles F ∨ Overruns tiles F ∨ Stalls tiles F := by
  rcases splitMax_one 0x2e F.name with ⟨tile, feature, he, hn, _⟩ | ⟨hn, _⟩
  rotate_left
  · exact absurd hd hn
  rcases first_bad (BitFine tiles F tile feature) (List.range F.width.toNat) with h | ⟨a, i, b, hl, ha, hi⟩
  · refine Or.inl ⟨hr, hd, ?_⟩
    rintro tile' feature' addr ⟨he', hn', i, hi, ht, rfl⟩
    rw [he] at he'
    obtain ⟨rfl, rfl⟩ := cut_unique he' hn hn'
    exact h i (by rw [List.mem_range]; omega) ht
  · have hmem : i ∈ List.range F.width.toNat := by rw [hl]; simp
    rw [List.mem_range] at hmem
    have hpre : ∀ j < i, BitFine tiles F tile feature j := by
      intro j hj
      have hjm : j ∈ a ++ i :: b := by rw [← hl, List.mem_range]; omega
      rcases List.mem_append.1 hjm with h | h
      · exact ha j h
      · exfalso
        have hs : (a ++ i :: b).Pairwise (· < ·) := by rw [← hl]; exact List.pairwise_lt_range
        have hs := (List.pairwise_append.1 hs).2.1
        rcases List.mem_cons.1 h with h | h
        · omega
        · have := (List.pairwise_cons.1 hs).1 j h; omega
    have hbad : F.bits.testBit i = true ∧ ¬ ∃ bits, FeatureBits tiles tile feature (((i : Int) + F.start) % 2 ^ 32).toNat bits ∧
        ∀ c ∈ bits, c.value = true → c.word < 101 := by
      unfold BitFine at hi
      exact Classical.not_imp.1 hi
    have har : Arrives tiles F tile feature i := ⟨he, hn, by omega, hbad.1, hpre⟩
    by_cases hb : ∃ bits, FeatureBits tiles tile feature (((i : Int) + F.start) % 2 ^ 32).toNat bits
    · obtain ⟨bits, hb⟩ := hb
      have : ¬ ∀ c ∈ bits, c.value = true → c.word < 101 := fun h => hbad.2 ⟨bits, hb, h⟩
      refine Or.inr (Or.inl ⟨tile, feature, i, bits, har, hb, ?_⟩)
      refine Classical.byContradiction fun h => this fun c hc hv => ?_
      exact Nat.lt_of_not_le fun hw => h ⟨c, hc, hv, hw⟩
    · exact Or.inr (Or.inr ⟨tile, feature, i, har, fun bits h => hb ⟨bits, h⟩⟩)

/-- The first statement that cannot be assembled decides. -/
theorem process_first' {tiles : Tiles} (hok : TilesOk tiles) (hload : FilesLoad tiles) (ord : HashOrder) (hord : Permutes ord)
    (pre : List FasmFeature) (F : FasmFeature) (post : List FasmFeature) (n : Nat)
    (hpre : ∀ G ∈ pre, FeatureOk tiles G)
    (db : PartDatabase) (hdb : Reachable tiles db) (fr : Frames) (hs : fr.Sorted) :
    (0x2e ∉ F.name → ((pre ++ F :: post).zipIdx n).foldlM (processFeature ord) (db, fr) = .err) ∧
    (InRange F → Stalls tiles F → ((pre ++ F :: post).zipIdx n).foldlM (processFeature ord) (db, fr) = .abort) ∧
    (InRange F → Overruns tiles F → ((pre ++ F :: post).zipIdx n).foldlM (processFeature ord) (db, fr) = .ub) := by
  induction pre generalizing db fr n with
  | nil =>
    rw [List.nil_append, List.zipIdx_cons, List.foldlM_cons]
    refine ⟨fun h => ?_, fun hr h => ?_, fun hr h => ?_⟩
    · rw [feature_err ord _ F n h]; rfl
    · rw [feature_stalls hok ord hord hload F hr h n db hdb fr hs]; rfl
    · rw [feature_overruns hok ord hord F hr h n db hdb fr hs]; rfl
  | cons G pre ih =>
    rw [List.cons_append, List.zipIdx_cons, List.foldlM_cons]
    obtain ⟨db', fr', h1, h2, h3⟩ := feature_ok hok ord hord G n db hdb fr hs (hpre G (by simp))
    rw [h1]
    exact ih (n + 1) (fun G h => hpre G (List.mem_cons_of_mem _ h)) db' h2 fr' h3.sorted

/-- A statement that overruns is not one that can be assembled. -/
theorem overruns_not_ok {tiles : Tiles} {F : FasmFeature} (h : Overruns tiles F) : ¬ FeatureOk tiles F := by
  rintro ⟨_, _, h3⟩
  obtain ⟨tile, feature, i, bits, ⟨he, hn, hi, ht, _⟩, hb, c, hc, hv, hw⟩ := h
  obtain ⟨bits', hb', hin⟩ := h3 tile feature _ ⟨he, hn, i, hi, ht, rfl⟩
  have : c ∈ bits' := featureBits_unique hb hb' ▸ hc
  have := hin c this hv
  omega

/-- A database that can be read: its bits may lie anywhere. -/
structure Readable (tiles : Tiles) : Prop where
  blocks : TilesOk tiles
  pudc : PudcOk tiles.grid
  files : FilesLoad tiles
  sites : SitesNamed tiles.grid

section Texts
variable {tiles : Tiles} (hus : Readable tiles) (ord : HashOrder) (hord : Permutes ord) (text : Bytes) (hdef : TextDefined text)
  (db : PartDatabase) (hdb : Reachable tiles db)
include hus hord hdef hdb

/-- What happens to a text whose lines are accepted, for a database whose bits may lie anywhere: it assembles; or
STEPDOWN names an unknown bank or tile and the program stops; or the first statement that cannot be assembled has a name
without a dot, which is an error; or asks for an unlisted bit, which stops the program; or for a bit outside a frame, and
the program writes to memory it does not own. -/
theorem C81_outcome (hl : LinesOk text) :
    (Assembles tiles text ∧ ∃ r, assembleFrames ord text db [] = .ok r) ∨
    (¬ StepdownOk tiles (Basic tiles text) ∧ assembleFrames ord text db [] = .abort) ∨
    (StepdownOk tiles (Basic tiles text) ∧
      ((∃ F, PudcFeature tiles.grid F ∧
          ((Stalls tiles F ∧ assembleFrames ord text db [] = .abort) ∨ (Overruns tiles F ∧ assembleFrames ord text db [] = .ub))) ∨
       ((∀ F, PudcFeature tiles.grid F → FeatureOk tiles F) ∧ ∃ pre line post F, Place text pre line post ∧
          (∀ G, Written pre G → FeatureOk tiles G) ∧ Says line F ∧
          ((0x2e ∉ F.name ∧ assembleFrames ord text db [] = .err) ∨
           (0x2e ∈ F.name ∧ Stalls tiles F ∧ assembleFrames ord text db [] = .abort) ∨
           (0x2e ∈ F.name ∧ Overruns tiles F ∧ assembleFrames ord text db [] = .ub))) ∨
       ((∀ F, Basic tiles text F → FeatureOk tiles F) ∧ ∃ F, StepdownFeature tiles (Basic tiles text) F ∧
          ((Stalls tiles F ∧ assembleFrames ord text db [] = .abort) ∨ (Overruns tiles F ∧ assembleFrames ord text db [] = .ub))))) := by
  obtain ⟨hok, hpudc, hload, hsites⟩ := hus
  by_cases hasm : Assembles tiles text
  · exact Or.inl ⟨hasm, (C50_succeeds hok ord hord text db hdb).2 hasm⟩
  refine Or.inr ?_
  obtain ⟨pudcb, h4, h5⟩ := pudcb_ok tiles.grid hpudc
  obtain ⟨parsed, h6⟩ := parsed_ok text hl
  obtain ⟨_, h7⟩ := parsed_inv text parsed h6
  have hb : (fun G => G ∈ pudcb ++ parsed.flatten) = Basic tiles text := by
    funext G
    rw [List.mem_append, h5, h7]; rfl
  have hrun : assembleFrames ord text db [] =
      (stepdownFeatures ord tiles.banks tiles.grid (pudcb ++ parsed.flatten) >>= fun sd =>
        processFeatures ord (pudcb ++ parsed.flatten ++ sd) db []) := by
    unfold assembleFrames
    rw [(reachable_cache hdb).1, h4, Outcome.bind_ok, (lines_plain text parsed).2 h6, Outcome.bind_ok]
  by_cases hsd : StepdownOk tiles (Basic tiles text)
  rotate_left
  · refine Or.inl ⟨hsd, ?_⟩
    rcases stepdown_stops ord tiles.banks tiles.grid hsites (pudcb ++ parsed.flatten) with ⟨sd, h⟩ | h
    · have := (stepdown_inv ord hord tiles _ _ h).1
      rw [hb] at this
      exact absurd this hsd
    · rw [hrun, h]; rfl
  refine Or.inr ⟨hsd, ?_⟩
  obtain ⟨sd, h8⟩ := stepdown_ok ord hord tiles (pudcb ++ parsed.flatten) (by rw [hb]; exact hsd)
  obtain ⟨_, h9⟩ := stepdown_inv ord hord tiles _ _ h8
  rw [hb] at h9
  rw [h8, Outcome.bind_ok] at hrun
  have hfirst : ∀ pre F post, pudcb ++ parsed.flatten ++ sd = pre ++ F :: post → (∀ G ∈ pre, FeatureOk tiles G) →
      (0x2e ∉ F.name → assembleFrames ord text db [] = .err) ∧
      (InRange F → Stalls tiles F → assembleFrames ord text db [] = .abort) ∧
      (InRange F → Overruns tiles F → assembleFrames ord text db [] = .ub) := by
    intro pre F post he hpre
    rw [hrun, he]
    exact process_first' hok hload ord hord pre F post 0 hpre db hdb [] List.Pairwise.nil
  have hbad : ∀ F, InRange F → 0x2e ∈ F.name → ¬ FeatureOk tiles F → Stalls tiles F ∨ Overruns tiles F := by
    intro F h1 h2 h3
    rcases C81_kinds tiles F h1 h2 with h | h | h
    · exact absurd h h3
    · exact Or.inr h
    · exact Or.inl h
  have hdec : ∀ pre F post, pudcb ++ parsed.flatten ++ sd = pre ++ F :: post → (∀ G ∈ pre, FeatureOk tiles G) →
      InRange F → 0x2e ∈ F.name → ¬ FeatureOk tiles F →
      ((Stalls tiles F ∧ assembleFrames ord text db [] = .abort) ∨ (Overruns tiles F ∧ assembleFrames ord text db [] = .ub)) := by
    intro pre F post he hpre hr hd hF
    obtain ⟨_, h2, h3⟩ := hfirst pre F post he hpre
    rcases hbad F hr hd hF with h | h
    · exact Or.inl ⟨h, h2 hr h⟩
    · exact Or.inr ⟨h, h3 hr h⟩
  rcases first_bad (FeatureOk tiles) pudcb with hp | ⟨a, F, b, he, ha, hF⟩
  rotate_left
  · have hFp : PudcFeature tiles.grid F := (h5 F).1 (by rw [he]; simp)
    have hr : InRange F := by obtain ⟨_, _, _, _, _, hm, _⟩ := hFp; exact made_inRange hm
    exact Or.inl ⟨F, hFp, hdec a F (b ++ parsed.flatten ++ sd) (by rw [he]; simp) ha hr (pudc_dot hFp) hF⟩
  have hpud : ∀ F, PudcFeature tiles.grid F → FeatureOk tiles F := fun F h => hp F ((h5 F).2 h)
  obtain ⟨ps, hps1, hps2, hps3⟩ := (mapM_ok_iff _ _ _).1 h6
  rcases first_bad (fun p : Bytes × List FasmFeature => ∀ F ∈ p.2, FeatureOk tiles F) ps with hq | ⟨a, p, b, he, ha, hF⟩
  rotate_left
  · refine Or.inr (Or.inl ⟨hpud, ?_⟩)
    rcases first_bad (FeatureOk tiles) p.2 with h | ⟨a', F, b', he', ha', hF'⟩
    · exact absurd h hF
    have hgl : getlines text = a.map (·.1) ++ p.1 :: b.map (·.1) := by rw [hps1, he]; simp
    obtain ⟨hplace, hpre⟩ := getlines_split _ _ _ _ hgl
    have hline := place_isLine hplace
    have hparse : plainLine p.1 = .ok p.2 := hps3 p (by rw [he]; simp)
    have hsays : ∀ G, G ∈ p.2 → Says p.1 G := by
      intro G hG
      obtain ⟨st, h1, _, h2⟩ := plainLine_ok _ _ hparse
      rw [h2] at hG
      obtain ⟨n, h3, h4⟩ := (mem_toFeature _ _).1 hG
      exact ⟨st, n, h1, h3, h4⟩
    have hmF : F ∈ p.2 := by rw [he']; simp
    obtain ⟨name, hname⟩ := C72_statements text p.1 hl (hdef _ hline).1 hline
    have hr : InRange F := inRange_of (hname F (hsays F hmF)).2
    have hpreW : ∀ G, Written (a.map (·.1)).flatten G → FeatureOk tiles G := by
      have hpm : (getlines (a.map (·.1)).flatten).mapM plainLine = .ok (a.map (·.2)) := by
        refine (mapM_ok_iff _ _ _).2 ⟨a, hpre, rfl, fun q hq => hps3 q ?_⟩
        rw [he]; exact List.mem_append.2 (Or.inl hq)
      intro G hG
      have := ((parsed_inv _ _ hpm).2 G).2 hG
      obtain ⟨fs, hfs, hGf⟩ := List.mem_flatten.1 this
      obtain ⟨q, hq, rfl⟩ := List.mem_map.1 hfs
      exact ha q hq G hGf
    have hdecomp : pudcb ++ parsed.flatten ++ sd =
        (pudcb ++ (a.map (·.2)).flatten ++ a') ++ F :: (b' ++ (b.map (·.2)).flatten ++ sd) := by
      rw [hps2, he]
      simp only [List.map_append, List.map_cons, List.flatten_append, List.flatten_cons, he', List.append_assoc, List.cons_append]
    have hallpre : ∀ G ∈ pudcb ++ (a.map (·.2)).flatten ++ a', FeatureOk tiles G := by
      intro G hG
      rcases List.mem_append.1 hG with hG | hG
      · rcases List.mem_append.1 hG with hG | hG
        · exact hp G hG
        · obtain ⟨fs, hfs, hGf⟩ := List.mem_flatten.1 hG
          obtain ⟨q, hq, rfl⟩ := List.mem_map.1 hfs
          exact ha q hq G hGf
      · exact ha' G hG
    refine ⟨_, p.1, _, F, hplace, hpreW, hsays F hmF, ?_⟩
    by_cases hd : 0x2e ∈ F.name
    · rcases hdec _ F _ hdecomp hallpre hr hd hF' with h | h
      · exact Or.inr (Or.inl ⟨hd, h⟩)
      · exact Or.inr (Or.inr ⟨hd, h⟩)
    · exact Or.inl ⟨hd, (hfirst _ F _ hdecomp hallpre).1 hd⟩
  have hbasic : ∀ G ∈ pudcb ++ parsed.flatten, FeatureOk tiles G := by
    intro G hG
    rcases List.mem_append.1 hG with hG | hG
    · exact hp G hG
    · rw [hps2] at hG
      obtain ⟨fs, hfs, hGf⟩ := List.mem_flatten.1 hG
      obtain ⟨q, hq', rfl⟩ := List.mem_map.1 hfs
      exact hq q hq' G hGf
  have hbasic' : ∀ F, Basic tiles text F → FeatureOk tiles F := by
    intro F hF
    rw [← hb] at hF
    exact hbasic F hF
  rcases first_bad (FeatureOk tiles) sd with hs | ⟨a, F, b, he, ha, hF⟩
  · refine absurd ⟨hl, hsd, ?_, hpudc⟩ hasm
    rintro F (hF | hF)
    · exact hbasic' F hF
    · exact hs F ((h9 F).2 hF)
  · have hFs : StepdownFeature tiles (Basic tiles text) F := (h9 F).1 (by rw [he]; simp)
    have hr := made_inRange hFs.1
    refine Or.inr (Or.inr ⟨hbasic', F, hFs, ?_⟩)
    refine hdec (pudcb ++ parsed.flatten ++ a) F b (by rw [he]; simp) ?_ hr (stepdown_dot hFs) hF
    intro G hG
    rcases List.mem_append.1 hG with hG | hG
    · exact hbasic G hG
    · exact ha G hG

/-- A text with an accepted statement that sets a bit outside its frame, where nothing before it goes wrong: the program
writes to memory it does not own. No check stands between the database and the frame. -/
theorem C81_overrun (hl : LinesOk text) (hsd : StepdownOk tiles (Basic tiles text))
    (hp : ∀ F, PudcFeature tiles.grid F → FeatureOk tiles F) (pre line post : Bytes) (hplace : Place text pre line post)
    (hpre : ∀ G, Written pre G → FeatureOk tiles G) (F : FasmFeature) (hsays : Says line F) (hF : Overruns tiles F)
    (hrest : ∀ G, Says line G → FeatureOk tiles G ∨ Overruns tiles G) : assembleFrames ord text db [] = .ub := by
  obtain ⟨hok, hpudc, hload, hsites⟩ := hus
  obtain ⟨pudcb, h4, h5⟩ := pudcb_ok tiles.grid hpudc
  obtain ⟨parsed, h6⟩ := parsed_ok text hl
  obtain ⟨_, h7⟩ := parsed_inv text parsed h6
  have hb : (fun G => G ∈ pudcb ++ parsed.flatten) = Basic tiles text := by
    funext G
    rw [List.mem_append, h5, h7]; rfl
  obtain ⟨sd, h8⟩ := stepdown_ok ord hord tiles (pudcb ++ parsed.flatten) (by rw [hb]; exact hsd)
  have hline := place_isLine hplace
  obtain ⟨name, hname⟩ := C72_statements text line hl (hdef _ hline).1 hline
  obtain ⟨ps, hps1, hps2, hps3⟩ := (mapM_ok_iff _ _ _).1 h6
  rw [getlines_place hplace] at hps1
  obtain ⟨a, b0, rfl, ha, hb0⟩ := List.append_eq_map_iff.1 hps1
  cases b0 with
  | nil => cases hb0
  | cons p b =>
    obtain ⟨hp1, hb1⟩ := List.cons.inj hb0
    have hparse : plainLine p.1 = .ok p.2 := hps3 p (by simp)
    have hp1 : p.1 = line := hp1
    rw [hp1] at hparse
    obtain ⟨st, hst, _, hfs⟩ := plainLine_ok _ _ hparse
    have hmem : ∀ G, G ∈ p.2 ↔ Says line G := by
      intro G
      rw [hfs, mem_toFeature]
      constructor
      · rintro ⟨n, h2, h3⟩; exact ⟨st, n, hst, h2, h3⟩
      · rintro ⟨st', n, h1, h2, h3⟩
        rw [hst] at h1; cases h1
        exact ⟨n, h2, h3⟩
    rcases first_bad (FeatureOk tiles) p.2 with h | ⟨a', F0, b', he', ha', hF'⟩
    · exact absurd (h F ((hmem F).2 hsays)) (overruns_not_ok hF)
    have hsays0 : Says line F0 := (hmem F0).1 (by rw [he']; simp)
    have hov : Overruns tiles F0 := (hrest F0 hsays0).resolve_left hF'
    have hr : InRange F0 := inRange_of (hname F0 hsays0).2
    have hdecomp : pudcb ++ parsed.flatten ++ sd =
        (pudcb ++ (a.map (·.2)).flatten ++ a') ++ F0 :: (b' ++ (b.map (·.2)).flatten ++ sd) := by
      rw [hps2]
      simp only [List.map_append, List.map_cons, List.flatten_append, List.flatten_cons, he', List.append_assoc, List.cons_append]
    have hpm : (getlines pre).mapM plainLine = .ok (a.map (·.2)) :=
      (mapM_ok_iff _ _ _).2 ⟨a, ha.symm, rfl, fun q hq => hps3 q (List.mem_append.2 (Or.inl hq))⟩
    have hallpre : ∀ G ∈ pudcb ++ (a.map (·.2)).flatten ++ a', FeatureOk tiles G := by
      intro G hG
      rcases List.mem_append.1 hG with hG | hG
      · rcases List.mem_append.1 hG with hG | hG
        · exact hp G ((h5 G).1 hG)
        · exact hpre G (((parsed_inv _ _ hpm).2 G).1 hG)
      · exact ha' G hG
    unfold assembleFrames
    rw [(reachable_cache hdb).1, h4, Outcome.bind_ok, (lines_plain text parsed).2 h6, Outcome.bind_ok, h8, Outcome.bind_ok, hdecomp]
    exact (process_first' hok hload ord hord _ F0 _ 0 hallpre db hdb [] List.Pairwise.nil).2.2 hr hov

end Texts


/-- The program: undefined behaviour of the assembling is undefined behaviour of the program. -/
theorem C81_program (env : Env) (load : LoadOrder) (ord : HashOrder) (hord : Permutes ord) (inv : Invocation) (out : Xc7.OStream)
    (fuel : Nat) (db : PartDatabase) (text : Bytes) (h : Starts env load inv db text) (tiles : Tiles) (hus : Readable tiles)
    (hdef : TextDefined text) (hdb : Reachable tiles db) (hl : LinesOk text) (hsd : StepdownOk tiles (Basic tiles text))
    (hp : ∀ F, PudcFeature tiles.grid F → FeatureOk tiles F) (pre line post : Bytes) (hplace : Place text pre line post)
    (hpre : ∀ G, Written pre G → FeatureOk tiles G) (F : FasmFeature) (hsays : Says line F) (hF : Overruns tiles F)
    (hrest : ∀ G, Says line G → FeatureOk tiles G ∨ Overruns tiles G) : main env load ord inv out fuel = some .ub :=
  (C72_program env load ord inv out fuel db text h).2.2
    (C81_overrun hus ord hord text hdef db hdb hl hsd hp pre line post hplace hpre F hsays hF hrest)

/-! ## Example

Tile `T` of the small database, moved to the last word of the frame: its feature `F` sets bit 33, the second of the
following word. -/

def farT : Db.Tile :=
  { demoT with bits := [(.clbIoClk, { alias? := none, baseAddress := 0x400100, frames := 36, offset := 100, words := 2 })] }

def farTiles : Tiles :=
  { grid := [(bytes!"T", farT)]
    bits := fun ty => .ok (if ty = bytes!"X" then some demoSeg else none)
    banks := Registry.create (fun l => l) ⟨[], [], 0, []⟩ []
    part := ⟨[], [], 0, []⟩ }

theorem farTiles_readable : Readable farTiles := by
  refine ⟨?_, ?_, ?_, ?_⟩
  · intro name t h
    have hm := mem_of_lookup h
    simp only [farTiles, List.mem_singleton, Prod.mk.injEq] at hm
    obtain ⟨_, rfl⟩ := hm
    decide
  · intro tile pin h
    rw [← firstPin_iff] at h
    have : firstPin farTiles.grid = none := by decide
    rw [this] at h
    cases h
  · intro ty
    exact ⟨_, rfl⟩
  · intro tile t h s hs
    have hm := mem_of_lookup h
    simp only [farTiles, List.mem_singleton, Prod.mk.injEq] at hm
    obtain ⟨_, rfl⟩ := hm
    cases hs

/-- `T.F`. -/
def farText : Bytes := bytes!"T.F\n"

theorem farText_defined : TextDefined farText := by
  refine textDefined_of ?_
  intro line hl
  have : getlines farText = [bytes!"T.F\n"] := by decide
  rw [this, List.mem_singleton] at hl
  subst hl
  exact ⟨by decide, _, rfl⟩

theorem farText_ok : LinesOk farText := by
  intro line hl
  have hl := (mem_getlines _ _).2 hl
  have : getlines farText = [bytes!"T.F\n"] := by decide
  rw [this, List.mem_singleton] at hl
  subst hl
  exact ⟨_, rfl, by decide, by decide⟩

def farF : FasmFeature := ⟨1, bytes!"T.F", 0, 1, 1⟩

theorem farF_overruns : Overruns farTiles farF := by
  refine ⟨bytes!"T", bytes!"F", 0, [⟨.clbIoClk, 0x400103, 101, 1, true⟩, ⟨.clbIoClk, 0x400104, 100, 2, false⟩],
    ⟨rfl, by decide, by decide, by decide, fun j hj => absurd hj (Nat.not_lt_zero _)⟩, ?_, _, List.mem_cons_self, rfl, by decide⟩
  exact ⟨farT, bytes!"X", bytes!"F", demoSeg, by decide, Or.inl (by decide), by decide, Or.inr ⟨not_pip (by decide) (by decide), by decide, by decide⟩⟩

theorem farText_says (G : FasmFeature) : Says bytes!"T.F\n" G ↔ G = farF := by
  constructor
  · rintro ⟨st, n, h1, h2, h3⟩
    have : Fasm.parse true (fun _ => true) bytes!"T.F\n" = .ok _ := rfl
    rw [this] at h1
    cases h1
    have h4 := List.mem_singleton.1 (show _ ∈ [Fasm.Event.feature 1 bytes!"T.F" 0 1 1] from h2)
    simp only [Fasm.Event.feature.injEq] at h4
    obtain ⟨rfl, h5, h6, h7, h8⟩ := h4
    obtain ⟨l, nm, sx, wx, bx⟩ := G
    dsimp only at h3 h5 h6 h7 h8
    subst h3 h5 h6 h7 h8
    rfl
  · rintro rfl
    exact ⟨_, _, rfl, List.mem_cons_self, rfl⟩

/-- The program writes behind the frame, whatever the order of the maps. -/
theorem C81_example (ord : HashOrder) (hord : Permutes ord) : assembleFrames ord farText ⟨farTiles, []⟩ [] = .ub := by
  have hno : ∀ F, ¬ PudcFeature farTiles.grid F := by
    rintro F ⟨tile, pin, _, h, _⟩
    rw [← firstPin_iff] at h
    have : firstPin farTiles.grid = none := by decide
    rw [this] at h
    cases h
  have hone : ∀ F, Basic farTiles farText F → F = farF := by
    rintro F (h | ⟨line, st, n, hl, h1, h2, h3⟩)
    · exact absurd h (hno F)
    · have hl := (mem_getlines _ _).2 hl
      have : getlines farText = [bytes!"T.F\n"] := by decide
      rw [this, List.mem_singleton] at hl
      subst hl
      exact (farText_says F).1 ⟨st, n, h1, h2, h3⟩
  have htag : ∀ F tile site tag, Basic farTiles farText F → ¬ HasTag F tile site tag := by
    rintro F tile site tag hF ⟨_, _, _, _, h | ⟨rest, h⟩⟩
    all_goals
      rw [hone F hF] at h
      have := congrArg (List.count (0x2e : UInt8)) h
      simp only [List.count_append, List.count_cons_self, farF] at this
      have h2 : List.count (0x2e : UInt8) bytes!"T.F" = 1 := by decide
      omega
  refine C81_overrun farTiles_readable ord hord farText farText_defined _ Reachable.fresh farText_ok ?_
    (fun F h => absurd h (hno F)) [] bytes!"T.F\n" []
    ⟨rfl, Or.inl rfl, Or.inl ⟨bytes!"T.F", rfl, by decide⟩⟩ ?_ farF ((farText_says _).2 rfl) farF_overruns
    (fun G hG => Or.inr ((farText_says G).1 hG ▸ farF_overruns))
  · refine ⟨fun F tile site tag hF h => absurd h (htag F tile site tag hF), ?_⟩
    rintro bank tag ⟨F, tile, site, hF, h, _⟩
    exact absurd h (htag F tile site tag hF)
  · rintro G ⟨line, _, _, hl, _⟩
    have hl := (mem_getlines _ _).2 hl
    cases hl

/-- Within the first frame the same statement assembles: only the offset of the tile makes the difference. -/
example : ∃ r, assembleFrames sameOrder farText ⟨{ farTiles with grid := [(bytes!"T", demoT)] }, []⟩ [] = .ok r := ⟨_, rfl⟩

end Verif.Props

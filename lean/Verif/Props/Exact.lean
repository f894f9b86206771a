import Verif.Props.C72
import Verif.Props.C65
/-! # What the code does where a property fails: exact forms of C06, C23, C35, C53, C58 -/
namespace Verif.Props
open Verif.Xc7 Verif.Spec Verif.Text Verif.Db Verif.Asm

/-! ## C06 -/

/-- Block number under which the code files the columns of a bus: CFG_CLB goes with CLB_IO_CLK. -/
def filedUnder : Db.ConfigBusType → Nat
  | .clbIoClk => 0
  | .blockRam => 1
  | .cfgClb => 0

theorem firstBus_cut (row : Db.ClockRegionRow) (b : Nat) (cols : List Nat) :
    firstBus row b = some cols ↔ ∃ pre bus post, row = pre ++ (bus, cols) :: post ∧ filedUnder bus = b ∧ cols ≠ [] ∧
      ∀ e ∈ pre, filedUnder e.1 = b → e.2 = [] := by
  have hfiled : ∀ t, (blockTypeFrom t).toNat = filedUnder t := by intro t; cases t <;> rfl
  unfold firstBus
  rw [Option.map_eq_some_iff]
  constructor
  · rintro ⟨⟨bus, c⟩, h, rfl⟩
    obtain ⟨h1, pre, post, rfl, h2⟩ := List.find?_eq_some_iff_append.1 h
    simp only [Bool.and_eq_true, decide_eq_true_eq, Bool.not_eq_true', List.isEmpty_eq_false_iff] at h1
    refine ⟨pre, bus, post, rfl, (hfiled bus).symm.trans h1.2, h1.1, fun e he hb => ?_⟩
    have := h2 e he
    rw [hfiled, hb] at this
    simpa using this
  · rintro ⟨pre, bus, post, rfl, h1, h2, h3⟩
    refine ⟨(bus, cols), List.find?_eq_some_iff_append.2 ⟨?_, pre, post, rfl, fun e he => ?_⟩, rfl⟩
    · simp only [Bool.and_eq_true, decide_eq_true_eq, Bool.not_eq_true', List.isEmpty_eq_false_iff]
      exact ⟨h2, (hfiled bus).trans h1⟩
    · rw [hfiled]
      by_cases hb : filedUnder e.1 = b
      · rw [h3 e he hb]; simp
      · simp [hb]

/-- Every description: an address is valid exactly when its row has a bus filed under its block number that has
columns, the first such bus in iteration order has the column, and the column has the minor. -/
theorem C06_exact (d : Db.Part) (hw : WellFormedDesc d) (p : Xc7.Part) (hp : Xc7.Part.fromPart d = .ok p) (a : FrameAddress) :
    p.isValid a = true ↔ ∃ row pre bus cols post n,
      (if (coordOf a).bottom then d.bottomRows else d.topRows)[(coordOf a).row]? = some row ∧
      row = pre ++ (bus, cols) :: post ∧ filedUnder bus = (coordOf a).block ∧ cols ≠ [] ∧
      (∀ e ∈ pre, filedUnder e.1 = (coordOf a).block → e.2 = []) ∧
      cols[(coordOf a).column]? = some n ∧ (coordOf a).minor < n := by
  rw [isValid_iff, hasFrame_fromPart d hw p hp]
  constructor
  · rintro ⟨row, cols, n, h1, h2, h3, h4⟩
    obtain ⟨pre, bus, post, h5, h6, h7, h8⟩ := (firstBus_cut ..).1 h2
    exact ⟨row, pre, bus, cols, post, n, h1, h5, h6, h7, h8, h3, h4⟩
  · rintro ⟨row, pre, bus, cols, post, n, h1, h5, h6, h7, h8, h3, h4⟩
    exact ⟨row, cols, n, h1, (firstBus_cut ..).2 ⟨pre, bus, post, h5, h6, h7, h8⟩, h3, h4⟩

/-- No CFG_CLB address is ever valid. -/
theorem C06_no_cfgclb (d : Db.Part) (hw : WellFormedDesc d) (p : Xc7.Part) (hp : Xc7.Part.fromPart d = .ok p) (a : FrameAddress)
    (h : (coordOf a).block ≠ 0) (h' : (coordOf a).block ≠ 1) : p.isValid a = false := by
  cases hv : p.isValid a with
  | false => rfl
  | true =>
    obtain ⟨row, pre, bus, cols, post, n, _, _, h6, _⟩ := (C06_exact d hw p hp a).1 hv
    cases bus
    · exact absurd h6.symm h
    · exact absurd h6.symm h'
    · exact absurd h6.symm h

/-- The rows of `C06_hash_order_dependent` and a CFG_CLB row: what is valid. -/
example : ∃ p, Xc7.Part.fromPart cfgDesc = .ok p ∧ p.isValid (addressOf ⟨0, false, 0, 0, 3⟩) = true :=
  ⟨_, rfl, (C06_exact cfgDesc C06_cfgclb_misfiled.1 _ rfl _).2
    ⟨[(.cfgClb, [4])], [], .cfgClb, [4], [], 4, by decide, rfl, by decide, by decide, by simp, by decide, by decide⟩⟩

/-! ## C35 -/

/-- Any text, nothing readable behind it, a callback that accepts or rejects: the lines are delivered in order until one
is rejected; if all lines before an unterminated last one are accepted the code reads behind the text, and this is the
only way it does. -/
theorem C35_exact {σ : Type} (sink : σ → Nat → Bytes → Outcome σ)
    (hok : ∀ l st n, (∃ s, sink st n l = .ok s) ∨ sink st n l = .err) (content : Bytes) (ls : List Bytes) (h : LinesOf content ls)
    (st : σ) :
    (content.getLast?.getD 0x0a = 0x0a ∨ (ls.dropLast.zipIdx 1).foldlM (fun s p => sink s (p.2 % 2 ^ 32) p.1) st = .err →
      linesGenerator none content sink st = (ls.zipIdx 1).foldlM (fun s p => sink s (p.2 % 2 ^ 32) p.1) st) ∧
    (¬ (content.getLast?.getD 0x0a = 0x0a ∨ (ls.dropLast.zipIdx 1).foldlM (fun s p => sink s (p.2 % 2 ^ 32) p.1) st = .err) →
      linesGenerator none content sink st = .ub) := by
  have hcases : ∀ (xs : List (Bytes × Nat)) (st : σ), (∃ s, xs.foldlM (fun s p => sink s (p.2 % 2 ^ 32) p.1) st = .ok s) ∨
      xs.foldlM (fun s p => sink s (p.2 % 2 ^ 32) p.1) st = .err := by
    intro xs
    induction xs with
    | nil => intro st; exact Or.inl ⟨st, rfl⟩
    | cons x xs ih =>
      intro st
      rw [List.foldlM_cons]
      rcases hok x.1 st (x.2 % 2 ^ 32) with ⟨s, hs⟩ | hs
      · rw [hs]; exact ih s
      · rw [hs]; exact Or.inr rfl
  have hfull := C35_lines_partial 0 content ls h sink st
  obtain ⟨g1, g2⟩ := gen_none_ub sink hok content st
  obtain ⟨hnl, hc⟩ := h
  rcases hc with rfl | ⟨init, last, rfl, hne, rfl⟩
  · have hlast : (unlines ls).getLast?.getD 0x0a = 0x0a := by
      cases hls : (unlines ls).getLast? with
      | none => rfl
      | some c =>
        clear hfull g1 g2 hcases hok
        have : ∀ ls : List Bytes, ∀ c, (unlines ls).getLast? = some c → c = 0x0a := by
          intro ls
          induction ls with
          | nil => intro c h; simp [unlines] at h
          | cons l ls ih =>
            intro c h
            have e : unlines (l :: ls) = (l ++ [0x0a]) ++ unlines ls := by simp [unlines]
            rw [e, List.getLast?_append] at h
            cases hu : (unlines ls).getLast? with
            | none => rw [hu] at h; simp at h; exact h.symm
            | some c' => rw [hu] at h; simp at h; rw [← h]; exact ih c' hu
        exact this ls c hls
    refine ⟨fun _ => ?_, fun hh => absurd (Or.inl hlast) hh⟩
    rw [C35_terminated none ls hnl]
  · have hl : (unlines init ++ last).getLast?.getD 0x0a ≠ 0x0a := by
      rw [List.getLast?_append]
      cases hl : last.getLast? with
      | none => exact absurd (List.getLast?_eq_none_iff.1 hl) hne
      | some c =>
        have hm := List.mem_of_getLast? hl
        have : 0x0a ∉ last := hnl last (by simp)
        intro hcc
        simp only [Option.some_or, Option.getD_some] at hcc
        subst hcc
        exact this hm
    have hinit : ∀ l ∈ init, 0x0a ∉ l := fun l hl => hnl l (by simp [hl])
    have hd : (init ++ [last]).dropLast = init := by simp
    rw [hd]
    have hpre : linesGenerator (some 0) (unlines init) sink st = (init.zipIdx 1).foldlM (fun s p => sink s (p.2 % 2 ^ 32) p.1) st :=
      C35_terminated (some 0) init hinit sink st
    constructor
    · rintro (hh | hh)
      · exact absurd hh hl
      · have hno : linesGenerator none (unlines init ++ last) sink st ≠ .ub := by
          intro hub
          obtain ⟨init', last', he, hne', hnl', s, hs⟩ := g1.1 hub
          have := C35_lines_unique (unlines init ++ last) (init ++ [last]) (init' ++ [last'])
            ⟨hnl, Or.inr ⟨init, last, rfl, hne, rfl⟩⟩ ⟨hnl', Or.inr ⟨init', last', rfl, hne', he⟩⟩
          obtain ⟨hii, _⟩ := List.append_inj' this rfl
          subst hii
          rw [hpre, hh] at hs
          cases hs
        rw [g2 hno, hfull]
    · intro hh
      refine g1.2 ⟨init, last, rfl, hne, hnl, ?_⟩
      rw [hpre]
      rcases hcases (init.zipIdx 1) st with h | h
      · exact h
      · exact absurd (Or.inr h) hh

example : linesGenerator none bytes!"a\nb" (fun (tr : List Bytes) _ l => if l = bytes!"a" then .err else .ok (tr ++ [l])) [] = .err ∧
    linesGenerator none bytes!"a\nb" (fun (tr : List Bytes) _ l => .ok (tr ++ [l])) [] = .ub := ⟨rfl, rfl⟩

/-! ## C53 -/

/-- A statement none of whose bits the database knows can be assembled exactly when all its bits are written as 0. -/
theorem C53_exact (tiles : Tiles) (F : FasmFeature) (tile feature : Bytes) (hn : F.name = tile ++ 0x2e :: feature) (hd : 0x2e ∉ tile)
    (hb : ∀ i : Nat, (i : Int) < F.width → i < 64 ∧ (i : Int) + F.start < 2 ^ 31)
    (hno : ∀ addr bits, ¬ FeatureBits tiles tile feature addr bits) :
    FeatureOk tiles F ↔ ∀ i : Nat, (i : Int) < F.width → F.bits.testBit i = false := by
  constructor
  · intro h i hi
    cases ht : F.bits.testBit i with
    | false => rfl
    | true =>
      obtain ⟨bits, h1, _⟩ := h.2.2 tile feature _ ⟨hn, hd, i, hi, ht, rfl⟩
      exact absurd h1 (hno _ bits)
  · intro h
    refine ⟨hb, by rw [hn]; simp, ?_⟩
    rintro t f addr ⟨_, _, i, hi, ht, _⟩
    rw [h i hi] at ht
    cases ht

/-- In a design that assembles, every such statement is written with zeros only. -/
theorem C53_unknown_zero {tiles : Tiles} (hok : TilesOk tiles) (ord : HashOrder) (hord : Permutes ord)
    (text : Bytes) (db : PartDatabase) (hdb : Reachable tiles db) (r : PartDatabase × Frames)
    (h : assembleFrames ord text db [] = .ok r) (F : FasmFeature) (hF : Design tiles text F) (tile feature : Bytes)
    (hn : F.name = tile ++ 0x2e :: feature) (hd : 0x2e ∉ tile) (hno : ∀ addr bits, ¬ FeatureBits tiles tile feature addr bits)
    (i : Nat) (hi : (i : Int) < F.width) : F.bits.testBit i = false := by
  have hf := ((C50_succeeds hok ord hord text db hdb).1 ⟨r, h⟩).2.2.1 F hF
  exact (C53_exact tiles F tile feature hn hd hf.1 hno).1 hf i hi

/-- `Z.Z = 0`: an unknown tile. -/
example : FeatureOk ioTiles ⟨1, bytes!"Z.Z", 0, 1, 0⟩ ∧ ¬ FeatureOk ioTiles ⟨1, bytes!"Z.Z", 0, 1, 1⟩ := by
  have hno : ∀ addr bits, ¬ FeatureBits ioTiles bytes!"Z" bytes!"Z" addr bits := by
    rintro addr bits ⟨t, _, _, _, h, _⟩
    have : ioTiles.grid.lookup bytes!"Z" = none := rfl
    rw [this] at h; cases h
  have key := fun (v : Nat) => C53_exact ioTiles ⟨1, bytes!"Z.Z", 0, 1, v⟩ bytes!"Z" bytes!"Z" rfl (by decide)
    (by intro i hi; have h1 : (i : Int) < 1 := hi; show i < 64 ∧ (i : Int) + 0 < 2 ^ 31; omega) hno
  refine ⟨(key 0).2 (fun i _ => Nat.zero_testBit i), fun h => ?_⟩
  have := (key 1).1 h 0 (show ((0 : Nat) : Int) < 1 by decide)
  revert this
  decide

/-! ## C23 -/

/-- Every frame of the file, one by one: its ECC field is consistent exactly when the frame was given with a consistent
one or was not given at all. -/
theorem C23_exact (d : Db.Part) (hd : DescFits d) (p : Xc7.Part)
    (hp : Xc7.Part.fromPart d = .ok p) (hsmall : FitsPacket p) (partName source date time : Bytes) (seek : Bool)
    (hnames : ∀ s ∈ [partName, source, date, time], ShortAscii s)
    (frames : BMap (FrameWords 101)) (hs : frames.Sorted)
    (hk : ∀ k f, (k, f) ∈ frames → ∃ a, Reached p a ∧ a.toNat = k) :
    ∃ fuel0, ∀ fuel ≥ fuel0, ∃ o c,
      encode d partName source date time frames ⟨[], 0, seek, false⟩ fuel = some (.ok o) ∧
      decodeFile p o.bytes fuel = some (.ok (some c)) ∧
      (∀ k f, (k, f) ∈ frames → ∃ g, (k, g) ∈ c.frames) ∧
      ∀ k g, (k, g) ∈ c.frames → (EccConsistent g ↔ ∀ f, (k, f) ∈ frames → EccConsistent f.toList) := by
  obtain ⟨m, hsm, hget, fuel0, h⟩ := C18_bitstream_round_trip d hd p hp hsmall partName source date time seek hnames frames hs hk
  have hz : EccConsistent (zeroFrame frameWordsBase).toList := by
    rw [zeroFrame, Vector.toList_replicate]; decide +kernel
  refine ⟨fuel0, fun fuel hf => ?_⟩
  obtain ⟨o, h1, h2⟩ := h fuel hf
  refine ⟨o, _, h1, h2, ?_, ?_⟩
  · intro k f hkf
    exact ⟨f.toList, (mem_sameFrames m k _).mpr ⟨f, BMap.mem_of_get? ((hget k f).mpr (Or.inl (BMap.get?_of_mem hs hkf))), rfl⟩⟩
  intro k g hkg
  obtain ⟨f, hf, rfl⟩ := (mem_sameFrames m k g).mp hkg
  rcases (hget k f).mp (BMap.get?_of_mem hsm hf) with h3 | ⟨h3, rfl, _⟩
  · constructor
    · intro he f' hf'
      have e : f = f' := Option.some.inj (h3.symm.trans (BMap.get?_of_mem hs hf'))
      rw [← e]
      exact he
    · intro he; exact he f (BMap.mem_of_get? h3)
  · refine iff_of_true hz ?_
    intro f' hf'
    exact absurd (h3.symm.trans (BMap.get?_of_mem hs hf')) (by simp)

/-! ## C58 -/

/-- Exit status 0 with a given output: exactly when the database loads, the text assembles and the bitstream is encoded
to that output.  Exit status 1: nothing was written. -/
theorem C58_exact (env : Env) (load : LoadOrder) (ord : HashOrder) (inv : Invocation) (out o : OStream) (fuel : Nat) :
    (main env load ord inv out fuel = some (.ok (0, o)) ↔
      ∃ db text db' frames, Starts env load inv db text ∧ assembleFrames ord text db [] = .ok (db', frames) ∧
        encode db'.tiles.part kFasm kSource inv.date inv.time frames out fuel = some (.ok o)) ∧
    (∀ n, main env load ord inv out fuel = some (.ok (n, o)) → n ≠ 0 → n = 1 ∧ o = out) := by
  refine ⟨⟨fun h => ?_, ?_⟩, ?_⟩
  · rcases C58_stages_partial env load ord inv out o fuel 0 h with ⟨h, _⟩ | ⟨_, h⟩
    · cases h
    · exact h
  · rintro ⟨db, text, db', frames, hs, ha, he⟩
    exact C58_success env load ord inv out o fuel db text hs db' frames ha he
  · intro n h hn
    rcases C58_stages_partial env load ord inv out o fuel n h with h | ⟨h, _⟩
    · exact h
    · exact absurd h hn

end Verif.Props

import Verif.Props.C75
import Verif.Props.C67
import Verif.Props.C96
/-! # C108: every bit of the configuration has its place in the file -/
namespace Verif.Props
open Verif.Db Verif.Spec Verif.Text Verif.Asm Verif.Xc7

/-! ## Words and bytes -/

theorem fileBytes_length' (ws : List Word) : (fileBytes ws).length = 4 * ws.length := by
  induction ws with
  | nil => rfl
  | cons w ws ih =>
    have : fileBytes (w :: ws) = beBytes w ++ fileBytes ws := rfl
    rw [this, List.length_append, ih, List.length_cons]
    have : (beBytes w).length = 4 := rfl
    omega

theorem fileBytes_get (ws : List Word) (n : Nat) : (fileBytes ws)[n]? = (ws[n / 4]?).bind fun w => (beBytes w)[n % 4]? := by
  induction ws generalizing n with
  | nil => simp [fileBytes]
  | cons w ws ih =>
    have e : fileBytes (w :: ws) = beBytes w ++ fileBytes ws := rfl
    have hl : (beBytes w).length = 4 := rfl
    rw [e]
    by_cases h : n < 4
    · rw [List.getElem?_append_left (by omega), Nat.div_eq_of_lt h, Nat.mod_eq_of_lt h]
      rfl
    · rw [List.getElem?_append_right (by omega), hl, ih]
      have e1 : n / 4 = (n - 4) / 4 + 1 := by omega
      have e2 : (n - 4) % 4 = n % 4 := by omega
      rw [e1, e2, List.getElem?_cons_succ]

/-- Bit `b` of a word is bit `b % 8` of byte `3 - b / 8` of its four bytes. -/
theorem beBytes_bit (w : Word) (b : Nat) (hb : b < 32) : ∃ x, (beBytes w)[3 - b / 8]? = some x ∧ x.toNat.testBit (b % 8) = w.getLsbD b := by
  have key : ∀ s, s ≤ b → b < s + 8 → s % 8 = 0 → (w.toNat / 2 ^ s % 256).testBit (b % 8) = w.getLsbD b := by
    intro s h1 h2 h3
    rw [show 256 = 2 ^ 8 from rfl, Nat.testBit_mod_two_pow, Nat.testBit_div_two_pow]
    have e : b % 8 + s = b := by omega
    rw [e, decide_eq_true (by omega), Bool.true_and]
    rfl
  have hof : ∀ n, (UInt8.ofNat (n % 256)).toNat = n % 256 := by
    intro n
    rw [UInt8.toNat_ofNat']
    exact Nat.mod_eq_of_lt (by omega)
  have : b / 8 = 0 ∨ b / 8 = 1 ∨ b / 8 = 2 ∨ b / 8 = 3 := by omega
  rcases this with h | h | h | h <;> rw [h]
  · refine ⟨_, rfl, ?_⟩
    rw [hof]
    have := key 0 (by omega) (by omega) rfl
    simpa using this
  · exact ⟨_, rfl, by rw [hof]; exact key 8 (by omega) (by omega) rfl⟩
  · exact ⟨_, rfl, by rw [hof]; exact key 16 (by omega) (by omega) rfl⟩
  · exact ⟨_, rfl, by rw [hof]; exact key 24 (by omega) (by omega) rfl⟩

/-! ## The file -/

/-- What is before the configuration data depends on the strings and the number of words. -/
theorem encode_bytes (d : Db.Part) (partName source date time : Bytes) (frames : BMap (FrameWords 101)) (seek : Bool) (fuel : Nat) (o : OStream)
    (h : encode d partName source date time frames ⟨[], 0, seek, false⟩ fuel = some (.ok o)) :
    ∃ ws, o.bytes = headerPrefix partName source generatorName date time ++
      bytesOfWord (if seek then BitVec.ofNat 32 (4 * ws.length) else 0#32) ++ bytesOfWords ws := by
  unfold encode at h
  cases hp : Part.fromPart d with
  | err => rw [hp] at h; simp at h
  | abort => rw [hp] at h; simp at h
  | ub => rw [hp] at h; simp at h
  | ok p =>
    rw [hp] at h
    dsimp only at h
    split at h
    · cases h
    · rename_i m hm
      unfold writeBitstream at h
      generalize hw : writerWords .xc7 (configurationPackage (type2Payload p m) p.idcode) fuel = ow at h
      cases ow with
      | none => cases h
      | some oc =>
        cases oc with
        | err => simp [Outcome.bind] at h
        | abort => simp [Outcome.bind] at h
        | ub => simp [Outcome.bind] at h
        | ok ws =>
          simp only [Option.map_some, Outcome.bind, Option.some.injEq, Outcome.ok.injEq] at h
          subst h
          refine ⟨ws, ?_⟩
          cases seek with
          | true =>
            have := writeFile_seekable (headerPrefix partName source generatorName date time) ws ⟨[], 0, true, false⟩ ⟨rfl, rfl⟩ rfl
            rw [← createHeader_eq] at this
            rw [this]
            simp
          | false =>
            have := (writeFile_pipe (createHeader partName source generatorName date time) ws ⟨[], 0, false, false⟩ ⟨rfl, rfl⟩ rfl).1
            rw [this, createHeader_eq]
            have hz : bytesOfWord 0#32 = [0, 0, 0, 0] := by decide
            simp [hz]

theorem bytesOfWords_eq' (ws : List Word) : bytesOfWords ws = fileBytes ws := C13_serialise ws

/-- For a part, four strings and a kind of output, the file is a fixed sequence of bytes with a fixed place for every frame: places do not overlap; at the place
of the frame at address `k` are its words; every byte outside the places is the same in all files, and so is the size. -/
theorem C108_file (d : Db.Part) (hd : DescFits d) (p : Xc7.Part) (hp : Xc7.Part.fromPart d = .ok p)
    (hsmall : FitsPacket p) (seek : Bool) (partName source date time : Bytes) (hnames : ∀ s ∈ [partName, source, date, time], ShortAscii s) :
    ∃ (template : Bytes) (place : Nat → Nat),
      (∀ k k', OnWalk p k → OnWalk p k' → k < k' → place k + 404 ≤ place k') ∧
      (∀ k, OnWalk p k → place k + 404 ≤ template.length) ∧
      ∀ frames : BMap (FrameWords 101), frames.Sorted → (∀ k f, (k, f) ∈ frames → OnWalk p k) →
      ∃ fuel0, ∀ fuel ≥ fuel0, ∃ o,
        encode d partName source date time frames ⟨[], 0, seek, false⟩ fuel = some (.ok o) ∧
        o.bytes.length = template.length ∧
        (∀ k, OnWalk p k → ∀ i < 404, o.bytes[place k + i]? = (fileBytes (frameAt frames k).toList)[i]?) ∧
        ∀ n, (∀ k, OnWalk p k → n < place k ∨ place k + 404 ≤ n) → o.bytes[n]? = template[n]? := by
  obtain ⟨T, place, h1, h2, h3⟩ := C75_template d hd p hp hsmall
  generalize hH : headerPrefix partName source generatorName date time ++ bytesOfWord (if seek then BitVec.ofNat 32 (4 * T.length) else 0#32) = H
  refine ⟨H ++ fileBytes T, fun k => H.length + 4 * place k, ?_, ?_, ?_⟩
  · intro k k' g1 g2 g3
    have := h1 k k' g1 g2 g3
    dsimp only
    omega
  · intro k g1
    have := h2 k g1
    rw [List.length_append, fileBytes_length']
    dsimp only
    omega
  · intro frames hs hk
    obtain ⟨fuel0, h⟩ := h3 seek partName source date time hnames frames hs hk
    refine ⟨fuel0, fun fuel hf => ?_⟩
    obtain ⟨o, file, words, e1, e2, e3, e4, e5, e6⟩ := h fuel hf
    have hb : o.bytes = H ++ fileBytes words := by
      obtain ⟨ws, hws⟩ := encode_bytes d partName source date time frames seek fuel o e1
      have hn := hnames
      simp only [List.mem_cons, List.not_mem_nil, or_false, forall_eq_or_imp, forall_eq] at hn
      obtain ⟨n1, n2, n3, n4⟩ := hn
      have l1 := n1.1
      have l2 := n2.1
      have l3 := n3.1
      have l4 := n4.1
      have hg : (generatorInfix ++ generatorName).length < 100 := by decide
      have hr := readBitFile_header partName source generatorName date time (if seek then BitVec.ofNat 32 (4 * ws.length) else 0#32) (bytesOfWords ws)
        (by rw [List.length_append]; omega) (by omega) (by omega) (by omega)
      rw [← hws, e2] at hr
      have hc : file.config = bytesOfWords ws := by
        have := Option.some.inj hr
        rw [this]
      rw [e3, bytesOfWords_eq'] at hc
      have hl : ws.length = T.length := by
        have := congrArg List.length hc
        rw [fileBytes_length', fileBytes_length'] at this
        omega
      rw [hws, hl, hH, bytesOfWords_eq', hc]
    refine ⟨o, e1, ?_, ?_, ?_⟩
    · rw [hb, List.length_append, List.length_append, fileBytes_length', fileBytes_length', e4]
    · intro k hkk i hi
      dsimp only
      rw [hb, List.getElem?_append_right (by omega)]
      have e : H.length + 4 * place k + i - H.length = 4 * place k + i := by omega
      rw [e, fileBytes_get, fileBytes_get, ← e5 k hkk, List.getElem?_take, if_pos (by omega), List.getElem?_drop]
      have e7 : (4 * place k + i) / 4 = place k + i / 4 := by omega
      have e8 : (4 * place k + i) % 4 = i % 4 := by omega
      rw [e7, e8]
    · intro n hn
      rw [hb]
      by_cases hlt : n < H.length
      · rw [List.getElem?_append_left hlt, List.getElem?_append_left hlt]
      · rw [List.getElem?_append_right (by omega), List.getElem?_append_right (by omega), fileBytes_get, fileBytes_get, e6]
        intro k hkk
        have := hn k hkk
        dsimp only at this
        omega

/-! ## The program -/

/-- The addresses of the frames of a part. -/
def FrameOf (p : Xc7.Part) (k : Nat) : Prop := k = 0 ∨ (k < 2 ^ 26 ∧ p.isValid (BitVec.ofNat 32 k) = true)

theorem frameOf_onWalk (d : Db.Part) (hd : DescDense d) (p : Xc7.Part) (hp : Xc7.Part.fromPart d = .ok p) (k : Nat) : FrameOf p k ↔ OnWalk p k := by
  have hfits := fits_fromPart _ hd.fits p hp
  have hdense := dense_fromPart _ hd p hp
  constructor
  · rintro (rfl | ⟨h1, h2⟩)
    · exact ⟨_, Reached.start, rfl⟩
    · have hof : (BitVec.ofNat 32 k).toNat = k := by rw [BitVec.toNat_ofNat]; exact Nat.mod_eq_of_lt (by omega)
      exact ⟨_, reached_of_valid p hfits hdense _ (by rw [hof]; exact h1) h2, hof⟩
  · rintro ⟨a, ha, rfl⟩
    obtain ⟨h3, rfl | h4⟩ := reached_valid p hfits a ha
    · exact Or.inl rfl
    · exact Or.inr ⟨h3, by rw [BitVec.ofNat_toNat, BitVec.setWidth_eq]; exact h4⟩

/-- For a part without holes, a date and a time: all files the program prints, whatever the design, have one size, and every bit of the configuration has one place
in them.  Bit `b` of word `w` of the frame at `k` is bit `b % 8` of byte `place k + 4 * w + (3 - b / 8)`, and is 1 exactly when the database lists it for a
statement of the design.  Bytes outside the places of frames are the same for all designs. -/
theorem C108_program (env : Env) (load : LoadOrder) (hload : LoadOk load) (db : PartDatabase)
    (hd : DescDense db.tiles.part) (p : Xc7.Part) (hp : Part.fromPart db.tiles.part = .ok p)
    (hsmall : FitsPacket p) (date time : Bytes) (hdate : ShortAscii date) (htime : ShortAscii time) (seek : Bool) :
    ∃ (template : Bytes) (place : Nat → Nat),
      (∀ k k', FrameOf p k → FrameOf p k' → k < k' → place k + 404 ≤ place k') ∧
      (∀ k, FrameOf p k → place k + 404 ≤ template.length) ∧
      ∀ (ord : HashOrder) (inv : Invocation) (text : Bytes), Permutes ord → Starts env load inv db text → inv.date = date → inv.time = time →
        Assembles db.tiles text → (∀ k, TouchesFrame db.tiles (Design db.tiles text) k → FrameOf p k) →
      ∃ fuel0, ∀ fuel ≥ fuel0, ∃ o,
        main env load ord inv ⟨[], 0, seek, false⟩ fuel = some (.ok (0, o)) ∧
        o.bytes.length = template.length ∧
        (∀ k w b, FrameOf p k → w < 101 → b < 32 → ∃ x, o.bytes[place k + 4 * w + (3 - b / 8)]? = some x ∧
          (x.toNat.testBit (b % 8) = true ↔ ∃ tile call, Lists db.tiles (Design db.tiles text) tile call ∧ call.value = true ∧
            call.frame = k ∧ call.word = w ∧ call.index = b)) ∧
        ∀ n, (∀ k, FrameOf p k → n < place k ∨ place k + 404 ≤ n) → o.bytes[n]? = template[n]? := by
  obtain ⟨T, place, h1, h2, h3⟩ := C108_file db.tiles.part hd.fits p hp hsmall seek kFasm kSource date time
    (by
      intro s hs
      simp only [List.mem_cons, List.not_mem_nil, or_false] at hs
      rcases hs with rfl | rfl | rfl | rfl
      · unfold ShortAscii; decide
      · unfold ShortAscii; decide
      · exact hdate
      · exact htime)
  have hw := frameOf_onWalk db.tiles.part hd p hp
  refine ⟨T, place, fun k k' a b => h1 k k' ((hw k).1 a) ((hw k').1 b), fun k a => h2 k ((hw k).1 a), ?_⟩
  intro ord inv text hord hstart hdt htm hasm hin
  obtain ⟨_, _, _, path, _, _, _, hparse⟩ := id hstart
  obtain ⟨hok, hfresh⟩ := C45_loaded env load hload _ _ db hparse
  obtain ⟨db', frames, ha, hreach, hs, hbits, hframes⟩ := assemble_ok hok ord hord text db hfresh hasm
  have htl : db'.tiles = db.tiles := (reachable_cache hreach).1
  obtain ⟨fuel0, henc⟩ := h3 frames hs (fun k f hkf => (hw k).1 (hin k ((hframes k).1 ⟨f, hkf⟩)))
  refine ⟨fuel0, fun fuel hf => ?_⟩
  obtain ⟨o, e1, e2, e3, e4⟩ := henc fuel hf
  refine ⟨o, ?_, e2, ?_, fun n hn => e4 n fun k hk => hn k ((hw k).2 hk)⟩
  · exact C58_success env load ord inv _ o fuel db text hstart db' frames ha (by rw [htl, hdt, htm]; exact e1)
  · intro k w b hk hwl hb
    have e5 := e3 k ((hw k).1 hk) (4 * w + (3 - b / 8)) (by omega)
    rw [← Nat.add_assoc] at e5
    rw [e5, fileBytes_get]
    have e6 : (4 * w + (3 - b / 8)) / 4 = w := by omega
    have e7 : (4 * w + (3 - b / 8)) % 4 = 3 - b / 8 := by omega
    rw [e6, e7, Vector.getElem?_toList, Vector.getElem?_eq_getElem hwl, Option.bind_some]
    obtain ⟨x, g1, g2⟩ := beBytes_bit (frameAt frames k)[w] b hb
    refine ⟨x, g1, ?_⟩
    rw [g2, ← hbits k w b, bitSet_iff hs]
    cases hg : frames.get? k with
    | none =>
      have hf : frameAt frames k = Vector.replicate 101 0#32 := congrArg (·.getD (Vector.replicate 101 0#32)) hg
      rw [hf]; simp
    | some f =>
      have hf : frameAt frames k = f := congrArg (·.getD (Vector.replicate 101 0#32)) hg
      rw [hf]
      constructor
      · intro h
        exact ⟨f, _, rfl, Vector.getElem?_eq_getElem hwl, h⟩
      · rintro ⟨f', x', e8, e9, e10⟩
        cases e8
        have e11 : some f[w] = some x' := (Vector.getElem?_eq_getElem (xs := f) hwl).symm.trans e9
        cases e11
        exact e10

/-- The database lists bit `b` of word `w` of frame `k`, as one to be set, for a statement of the text (or one added). -/
def Wants (tiles : Tiles) (text : Bytes) (k w b : Nat) : Prop :=
  ∃ tile call, Lists tiles (Design tiles text) tile call ∧ call.value = true ∧ call.frame = k ∧ call.word = w ∧ call.index = b

/-- Two designs, one part, date and time: the files have the same size, and they differ in exactly those bytes that hold a bit of the configuration that one of the
designs wants and the other does not. -/
theorem C108_difference (env : Env) (load : LoadOrder) (hload : LoadOk load) (db : PartDatabase)
    (hd : DescDense db.tiles.part) (p : Xc7.Part) (hp : Part.fromPart db.tiles.part = .ok p)
    (hsmall : FitsPacket p) (seek : Bool) (ord ord' : HashOrder) (hord : Permutes ord) (hord' : Permutes ord') (inv inv' : Invocation)
    (hdate : ShortAscii inv.date) (htime : ShortAscii inv.time) (hdt : inv'.date = inv.date) (htm : inv'.time = inv.time) (text text' : Bytes)
    (hstart : Starts env load inv db text) (hstart' : Starts env load inv' db text')
    (hasm : Assembles db.tiles text) (hasm' : Assembles db.tiles text')
    (hin : ∀ k, TouchesFrame db.tiles (Design db.tiles text) k → FrameOf p k) (hin' : ∀ k, TouchesFrame db.tiles (Design db.tiles text') k → FrameOf p k) :
    ∃ place : Nat → Nat, (∀ k k', FrameOf p k → FrameOf p k' → k < k' → place k + 404 ≤ place k') ∧
    ∃ fuel0, ∀ fuel ≥ fuel0, ∃ o o', main env load ord inv ⟨[], 0, seek, false⟩ fuel = some (.ok (0, o)) ∧
      main env load ord' inv' ⟨[], 0, seek, false⟩ fuel = some (.ok (0, o')) ∧ o.bytes.length = o'.bytes.length ∧
      ∀ n : Nat, o.bytes[n]? ≠ o'.bytes[n]? ↔ ∃ k w b, FrameOf p k ∧ w < 101 ∧ b < 32 ∧ n = place k + 4 * w + (3 - b / 8) ∧
        ¬ (Wants db.tiles text k w b ↔ Wants db.tiles text' k w b) := by
  obtain ⟨T, place, h1, h2, h3⟩ := C108_program env load hload db hd p hp hsmall inv.date inv.time hdate htime seek
  obtain ⟨f1, g⟩ := h3 ord inv text hord hstart rfl rfl hasm hin
  obtain ⟨f2, g'⟩ := h3 ord' inv' text' hord' hstart' hdt htm hasm' hin'
  refine ⟨place, h1, f1 + f2, fun fuel hf => ?_⟩
  obtain ⟨o, e1, e2, e3, e4⟩ := g fuel (by omega)
  obtain ⟨o', e1', e2', e3', e4'⟩ := g' fuel (by omega)
  refine ⟨o, o', e1, e1', e2.trans e2'.symm, fun n => ⟨fun hn => ?_, ?_⟩⟩
  · refine Classical.byContradiction fun hno => hn ?_
    by_cases hout : ∀ k, FrameOf p k → n < place k ∨ place k + 404 ≤ n
    · rw [e4 n hout, e4' n hout]
    · obtain ⟨k, hk⟩ := Classical.not_forall.1 hout
      obtain ⟨hk, hk'⟩ := Classical.not_imp.1 hk
      have hpos : n = place k + 4 * ((n - place k) / 4) + (n - place k) % 4 := by omega
      have hwl : (n - place k) / 4 < 101 := by omega
      generalize (n - place k) / 4 = w at hpos hwl
      have hj : (n - place k) % 4 < 4 := by omega
      generalize (n - place k) % 4 = j at hpos hj
      have hbit : ∀ i, i < 8 → ∃ x y, o.bytes[n]? = some x ∧ o'.bytes[n]? = some y ∧ (x.toNat.testBit i = true ↔ y.toNat.testBit i = true) := by
        intro i hi
        have hb : 8 * (3 - j) + i < 32 := by omega
        have d1 : (8 * (3 - j) + i) / 8 = 3 - j := by omega
        have d2 : (8 * (3 - j) + i) % 8 = i := by omega
        have d3 : place k + 4 * w + (3 - (3 - j)) = n := by omega
        obtain ⟨x, x1, x2⟩ := e3 k w (8 * (3 - j) + i) hk hwl hb
        obtain ⟨y, y1, y2⟩ := e3' k w (8 * (3 - j) + i) hk hwl hb
        have hw : Wants db.tiles text k w (8 * (3 - j) + i) ↔ Wants db.tiles text' k w (8 * (3 - j) + i) :=
          Classical.byContradiction fun h => hno ⟨k, w, 8 * (3 - j) + i, hk, hwl, hb, by rw [d1, d3], h⟩
        rw [d1] at x1 y1
        rw [d2] at x2 y2
        rw [d3] at x1 y1
        exact ⟨x, y, x1, y1, by rw [x2, y2]; exact hw⟩
      obtain ⟨x, y, hx, hy, _⟩ := hbit 0 (by omega)
      rw [hx, hy]
      congr 1
      apply UInt8.toNat.inj
      apply Nat.eq_of_testBit_eq
      intro i
      by_cases hi : i < 8
      · obtain ⟨x', y', hx', hy', h⟩ := hbit i hi
        rw [hx] at hx'
        rw [hy] at hy'
        cases hx'
        cases hy'
        cases h5 : x.toNat.testBit i <;> cases h6 : y.toNat.testBit i <;> simp_all
      · rw [Nat.testBit_lt_two_pow (Nat.lt_of_lt_of_le x.toNat_lt (Nat.pow_le_pow_right (by decide) (by omega : 8 ≤ i))),
          Nat.testBit_lt_two_pow (Nat.lt_of_lt_of_le y.toNat_lt (Nat.pow_le_pow_right (by decide) (by omega : 8 ≤ i)))]
  · rintro ⟨k, w, b, hk, hw, hb, hn, hne⟩ heq
    obtain ⟨x, x1, x2⟩ := e3 k w b hk hw hb
    obtain ⟨y, y1, y2⟩ := e3' k w b hk hw hb
    rw [← hn] at x1 y1
    rw [heq, y1] at x1
    cases x1
    exact hne (x2.symm.trans y2)

/-! ## Examples -/

theorem file_inside (p : Xc7.Part) (hp : Part.fromPart smallDesc = .ok p) (text : Bytes) (r : PartDatabase × Frames)
    (h : assembleFrames sameOrder text ⟨fileTiles, []⟩ [] = .ok r) (hk : ∀ k ∈ r.2.map (·.1), k < 36) :
    Assembles fileTiles text ∧ ∀ k, TouchesFrame fileTiles (Design fileTiles text) k → FrameOf p k := by
  refine ⟨(C50_succeeds fileTiles_ok sameOrder sameOrder_permutes _ _ Reachable.fresh).1 ⟨r, h⟩, ?_⟩
  have hframes := C50_frames fileTiles_ok sameOrder sameOrder_permutes _ _ Reachable.fresh r.1 r.2 h
  intro k ht
  obtain ⟨f, hf⟩ := (hframes.2.2 k).2 ht
  have := hk k (List.mem_map.2 ⟨_, hf, rfl⟩)
  refine Or.inr ⟨by omega, ?_⟩
  have e : Part.fromPart smallDesc = Part.fromPart fileTiles.part := rfl
  have := file_valid k this
  cases hp
  exact this

/-- `T.F` and `T.F=0`: all hypotheses of the theorems hold of the two runs. -/
example : ∃ p, Part.fromPart smallDesc = .ok p ∧
    ∃ place : Nat → Nat, (∀ k k', FrameOf p k → FrameOf p k' → k < k' → place k + 404 ≤ place k') ∧
    ∃ fuel0, ∀ fuel ≥ fuel0, ∃ o o', main fileEnv sameLoad sameOrder { fileInv with stdin := bytes!"T.F\n" } ⟨[], 0, true, false⟩ fuel = some (.ok (0, o)) ∧
      main fileEnv sameLoad sameOrder { fileInv with stdin := bytes!"T.F=0\n" } ⟨[], 0, true, false⟩ fuel = some (.ok (0, o')) ∧
      o.bytes.length = o'.bytes.length ∧
      ∀ n : Nat, o.bytes[n]? ≠ o'.bytes[n]? ↔ ∃ k w b, FrameOf p k ∧ w < 101 ∧ b < 32 ∧ n = place k + 4 * w + (3 - b / 8) ∧
        ¬ (Wants fileTiles bytes!"T.F\n" k w b ↔ Wants fileTiles bytes!"T.F=0\n" k w b) := by
  refine ⟨_, rfl, ?_⟩
  obtain ⟨keys, hk⟩ : ∃ l, l = assembleFrames sameOrder bytes!"T.F\n" ⟨fileTiles, []⟩ [] := ⟨_, rfl⟩
  have hfr := file_frames
  rw [← hk] at hfr
  obtain ⟨r, hr, he⟩ := Outcome.bind_eq_ok.1 hfr
  have he := Outcome.ok.inj he
  rw [hr] at hk
  obtain ⟨a1, a2⟩ := file_inside _ rfl bytes!"T.F\n" r hk.symm (by intro k h; rw [he] at h; exact List.mem_range.1 h)
  obtain ⟨b1, b2⟩ := file_inside _ rfl bytes!"T.F=0\n" (⟨fileTiles, []⟩, []) rfl (by simp)
  exact C108_difference fileEnv sameLoad sameLoad_ok ⟨fileTiles, []⟩ smallDesc_dense _ rfl smallDesc_packet true sameOrder sameOrder
    sameOrder_permutes sameOrder_permutes { fileInv with stdin := bytes!"T.F\n" } { fileInv with stdin := bytes!"T.F=0\n" }
    (by unfold ShortAscii; decide) (by unfold ShortAscii; decide) rfl rfl _ _ (file_starts_with _) (file_starts_with _) a1 b1 a2 b2

end Verif.Props

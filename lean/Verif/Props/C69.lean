import Verif.Spec.Source
import Verif.Props.C67
/-! # C69: the design as written in the file -/
namespace Verif.Props
open Verif.Db Verif.Spec Verif.Asm Verif.Xc7 Verif.Text Verif.Fasm

theorem line_of_ok (l : SourceLine) (h : l.Ok) : Line l.text := by
  cases l with
  | empty b e => exact blank_isLine b e h.1 h.2
  | statement g f as e =>
    obtain ⟨hg, hf, _, he, has⟩ := h
    simp only [SourceLine.text]
    by_cases hn : as = []
    · rw [if_pos hn, List.append_nil]; exact text_line g hg f hf e he
    · rw [if_neg hn]; exact ann_line g hg f hf as has e he

/-- The feature call for a statement. -/
def callOf (F : FasmFeature) : Event := .feature 1 F.name F.start F.width F.bits

theorem worst_warnings (f : FeatureText) : worst f.warnings ≠ .userAbort ∧ worst f.warnings ≠ .error := by
  unfold FeatureText.warnings
  split
  · split <;> decide
  · decide
  · split <;> decide

theorem parse_source (l : SourceLine) (h : l.Ok) : ∃ st, parse true (fun _ => true) (l.text ++ [0x0a]) = .ok st ∧
    st.result ≠ .userAbort ∧ st.result ≠ .error ∧
    st.trace.filter isFeature = l.features.map callOf := by
  cases l with
  | empty b e => exact ⟨_, C32_blank_line true _ b e h.1 h.2, by decide, by decide, rfl⟩
  | statement g f as e =>
    have hline := line_of_ok _ h
    obtain ⟨hg, hf, hfit, he, has⟩ := h
    obtain ⟨e', htext, hstop, htail⟩ : ∃ e', SourceLine.text (.statement g f as e) = f.text g ++ e' ∧ Stop e' ∧
        ∀ st : Fasm.St, ∃ evs : List Event, evs.filter isFeature = [] ∧
          tailP true st 1 f.name e' = { st with trace := st.trace ++ evs } := by
      simp only [SourceLine.text]
      by_cases hn : as = []
      · refine ⟨e, by rw [if_pos hn, List.append_nil], LineEnd.stop he, fun st => ⟨[], rfl, ?_⟩⟩
        rw [LineEnd.tail he, List.append_nil]
      · refine ⟨annotationsText g as ++ e, by rw [if_neg hn, List.append_assoc], Or.inr (Or.inr (Or.inr rfl)),
          fun st => ⟨_, ?_, tailP_ann 1 f.name g hg as hn has e st⟩⟩
        unfold annEvents
        rw [List.filter_map, List.map_eq_nil_iff, List.filter_eq_nil_iff]
        intro a _; simp [isFeature]
    have hmain : ∃ st0 : Fasm.St, lineP true (fun _ => true) {} 1 (f.text g ++ e') = .ok (tailP true st0 1 f.name e') ∧
        st0.result ≠ .userAbort ∧ st0.result ≠ .error ∧
        st0.trace = (SourceLine.features (.statement g f as e)).map callOf := by
      rcases hfit with ⟨hw, hd⟩ | ⟨hpos, hal, hfit⟩
      · have hc := clamps_narrow f hw
        refine ⟨_, parse_narrow true _ g hg f hf e' hstop f.range.width (by rw [hc]; rfl) hw hd {} 1, ?_, ?_, ?_⟩
        · simp only [hc, Bool.false_eq_true, if_false, List.append_nil, if_true, success_max]
          have := worst_warnings f
          revert this
          cases worst f.warnings <;> decide
        · simp only [hc, Bool.false_eq_true, if_false, List.append_nil, if_true, success_max]
          have := worst_warnings f
          revert this
          cases worst f.warnings <;> decide
        · have hb := range_bounds f.range hf.2.2.1
          have h1 : (f.range.width + 63) / 64 = 1 := by
            unfold RangeText.width at hw ⊢; omega
          simp only [SourceLine.features, h1, List.range_one, List.map_cons, List.map_nil, callOf, List.nil_append]
          rw [Nat.mul_zero, Nat.add_zero, Nat.sub_zero, Nat.min_eq_right hw, Nat.pow_zero, Nat.div_one]
      · refine ⟨_, parse_wide true _ (fun _ => rfl) g hg f hf e' hstop hpos hfit {} 1, ?_, ?_, ?_⟩
        · simp only [success_max]; exact (worst_warnings f).1
        · simp only [success_max]; exact (worst_warnings f).2
        · simp only [List.nil_append, misread_aligned _ _ hal]
          unfold wideEvents SourceLine.features
          rw [List.map_map]
          rfl
    obtain ⟨st0, h1, h2, h3, h4⟩ := hmain
    obtain ⟨evs, h5, h6⟩ := htail st0
    refine ⟨{ st0 with trace := st0.trace ++ evs }, ?_, h2, h3, ?_⟩
    · rw [parse_single true _ _ hline, htext, h1, h6]
    · rw [List.filter_append, h5, List.append_nil, h4, List.filter_eq_self.2]
      intro x hx
      obtain ⟨F, _, rfl⟩ := List.mem_map.1 hx
      rfl

theorem isLine_source (ls : List SourceLine) (h : ∀ l ∈ ls, l.Ok) (line : Bytes) :
    IsLine (sourceText ls) line ↔ ∃ l ∈ ls, line = l.text ++ [0x0a] := by
  have e : sourceText ls = (ls.map fun l => l.text ++ [0x0a]).flatten := by
    unfold sourceText unlines
    rw [List.flatMap_def, List.map_map]; rfl
  rw [e, isLine_flatten]
  · constructor
    · intro hm
      obtain ⟨l, hl, rfl⟩ := List.mem_map.1 hm
      exact ⟨l, hl, rfl⟩
    · rintro ⟨l, hl, rfl⟩
      exact List.mem_map.2 ⟨l, hl, rfl⟩
  · intro x hx
    obtain ⟨l, hl, rfl⟩ := List.mem_map.1 hx
    exact ⟨l.text, rfl, (line_of_ok l (h l hl)).1⟩

/-- A file of correct lines is accepted, and its statements are those written. -/
theorem C69_written (ls : List SourceLine) (h : ∀ l ∈ ls, l.Ok) :
    LinesOk (sourceText ls) ∧ ∀ F, Written (sourceText ls) F ↔ Source ls F := by
  refine ⟨fun line hl => ?_, fun F => ?_⟩
  · obtain ⟨l, hm, rfl⟩ := (isLine_source ls h line).1 hl
    obtain ⟨st, h1, h2, h3, _⟩ := parse_source l (h l hm)
    exact ⟨st, h1, h2, h3⟩
  · constructor
    · rintro ⟨line, st, n, hl, hp, hev, hn⟩
      obtain ⟨l, hm, rfl⟩ := (isLine_source ls h line).1 hl
      obtain ⟨st', h1, _, _, h4⟩ := parse_source l (h l hm)
      rw [h1] at hp
      cases hp
      have : Event.feature n F.name F.start F.width F.bits ∈ st.trace.filter isFeature := List.mem_filter.2 ⟨hev, rfl⟩
      rw [h4] at this
      obtain ⟨F', hF', e⟩ := List.mem_map.1 this
      unfold callOf at e
      injection e with e1 e2 e3 e4 e5
      have hline : F'.line = 1 := by
        cases l with
        | empty => cases hF'
        | statement g f as e => obtain ⟨i, _, rfl⟩ := List.mem_map.1 hF'; rfl
      have : F = F' := by
        cases F; cases F'
        simp only at *
        subst e2 e3 e4 e5 hline
        subst e1
        simp_all
      subst this
      exact ⟨l, hm, hF'⟩
    · rintro ⟨l, hm, hF⟩
      obtain ⟨st, h1, _, _, h4⟩ := parse_source l (h l hm)
      have : callOf F ∈ st.trace.filter isFeature := by rw [h4]; exact List.mem_map_of_mem hF
      have hline : F.line = 1 := by
        cases l with
        | empty => cases hF
        | statement g f as e => obtain ⟨i, _, rfl⟩ := List.mem_map.1 hF; rfl
      exact ⟨_, st, 1, (isLine_source ls h _).2 ⟨l, hm, rfl⟩, h1, (List.mem_filter.1 this).1, hline⟩

theorem sourceBasic_iff (tiles : Tiles) (ls : List SourceLine) (h : ∀ l ∈ ls, l.Ok) :
    Basic tiles (sourceText ls) = SourceBasic tiles ls := by
  funext F
  exact propext (or_congr Iff.rfl ((C69_written ls h).2 F))

theorem sourceDesign_iff (tiles : Tiles) (ls : List SourceLine) (h : ∀ l ∈ ls, l.Ok) :
    Design tiles (sourceText ls) = SourceDesign tiles ls := by
  funext F
  unfold Design SourceDesign
  rw [sourceBasic_iff tiles ls h]

theorem sourceAssembles_iff (tiles : Tiles) (ls : List SourceLine) (h : ∀ l ∈ ls, l.Ok) :
    Assembles tiles (sourceText ls) ↔ SourceAssembles tiles ls := by
  unfold Assembles SourceAssembles
  rw [sourceBasic_iff tiles ls h, sourceDesign_iff tiles ls h]
  exact ⟨fun x => x.2, fun x => ⟨(C69_written ls h).1, x⟩⟩

/-- A file of correct lines is assembled exactly when every statement written (and added) can be, and then to the
frames of those statements. -/
theorem C69_frames {tiles : Tiles} (hok : TilesOk tiles)
    (ord : HashOrder) (hord : Permutes ord) (ls : List SourceLine) (h : ∀ l ∈ ls, l.Ok) (db : PartDatabase)
    (hr : Reachable tiles db) :
    ((∃ r, assembleFrames ord (sourceText ls) db [] = .ok r) ↔ SourceAssembles tiles ls) ∧
    ∀ db' fr, assembleFrames ord (sourceText ls) db [] = .ok (db', fr) → FramesOf tiles (SourceDesign tiles ls) fr := by
  refine ⟨?_, fun db' fr ha => ?_⟩
  · rw [C50_succeeds hok ord hord _ db hr, sourceAssembles_iff tiles ls h]
  · have := C50_frames hok ord hord _ db hr db' fr ha
    rw [sourceDesign_iff tiles ls h] at this
    exact this

/-- From statements to device: as C67, for a file of correct lines; the bits are those of the statements written. -/
theorem C69_device (env : Env) (load : LoadOrder) (hload : LoadOk load) (ord : HashOrder) (hord : Permutes ord) (inv : Invocation)
    (db : PartDatabase) (ls : List SourceLine) (h : ∀ l ∈ ls, l.Ok) (hstart : Starts env load inv db (sourceText ls))
    (hasm : SourceAssembles db.tiles ls)
    (hd : DescDense db.tiles.part) (p : Xc7.Part) (hp : Part.fromPart db.tiles.part = .ok p)
    (hsmall : FitsPacket p) (hdate : ShortAscii inv.date) (htime : ShortAscii inv.time)
    (hin : ∀ k, TouchesFrame db.tiles (SourceDesign db.tiles ls) k → k < 2 ^ 26 ∧ p.isValid (BitVec.ofNat 32 k) = true)
    (seek : Bool) :
    ∃ walk : BMap (FrameWords 101), WalkFrom p 0#32 walk ∧
      (∀ k, k ∈ walk.map (·.1) ↔ k = 0 ∨ (k < 2 ^ 26 ∧ p.isValid (BitVec.ofNat 32 k) = true)) ∧
      ∃ fuel0, ∀ fuel ≥ fuel0, ∃ o file words data,
        main env load ord inv ⟨[], 0, seek, false⟩ fuel = some (.ok (0, o)) ∧
        readBitFile o.bytes = some file ∧
        file.config = fileBytes (List.replicate 8 0xFFFFFFFF#32 ++ [0x000000BB#32, 0x11220044#32] ++
          List.replicate 2 0xFFFFFFFF#32 ++ [0xAA995566#32] ++ words) ∧
        (Device.run p.idcode words).loaded = [(0, data)] ∧ (Device.run p.idcode words).started = true ∧
        (∀ id, id ≠ p.idcode → (Device.run id words).loaded = [] ∧ (Device.run id words).started = false) ∧
        data.length = (walk.length + 2 * rowEnds p walk + 2) * 101 ∧
        ∀ (i k : Nat), (walk.map (·.1))[i]? = some k → ∀ w b, w < 101 →
          ((∃ x, data[slot 101 p walk i + w]? = some x ∧ x.getLsbD b = true) ↔
            ∃ tile call, Lists db.tiles (SourceDesign db.tiles ls) tile call ∧ call.value = true ∧
              call.frame = k ∧ call.word = w ∧ call.index = b) := by
  rw [← sourceDesign_iff db.tiles ls h] at hin
  obtain ⟨walk, h1, h2, fuel0, h3⟩ := C67_device env load hload ord hord inv db _ hstart
    ((sourceAssembles_iff db.tiles ls h).2 hasm) hd p hp hsmall hdate htime hin seek
  rw [sourceDesign_iff db.tiles ls h] at h3
  refine ⟨walk, h1, h2, fuel0, fun fuel hf => ?_⟩
  obtain ⟨o, file, words, data, a1, a2, _, _, _, _, a3, a4, a5, a6⟩ := h3 fuel hf
  refine ⟨o, file, words, data, a1, a2, a3, ?_, ?_, fun id hid => ?_, a5, a6⟩
  · rw [a4, if_pos rfl]
  · rw [a4, if_pos rfl]
  · rw [a4, if_neg hid]
    exact ⟨rfl, rfl⟩

/-- As `C69_device`, for parts with holes too: the statements as written reach the frames the walk over the part reaches. -/
theorem C69_gaps (env : Env) (load : LoadOrder) (hload : LoadOk load) (ord : HashOrder) (hord : Permutes ord) (inv : Invocation)
    (db : PartDatabase) (ls : List SourceLine) (h : ∀ l ∈ ls, l.Ok) (hstart : Starts env load inv db (sourceText ls))
    (hasm : SourceAssembles db.tiles ls)
    (hd : DescFits db.tiles.part) (p : Xc7.Part) (hp : Part.fromPart db.tiles.part = .ok p)
    (hsmall : FitsPacket p) (hdate : ShortAscii inv.date) (htime : ShortAscii inv.time)
    (hin : ∀ k, TouchesFrame db.tiles (SourceDesign db.tiles ls) k → ∃ a, Reached p a ∧ a.toNat = k % 2 ^ 32)
    (seek : Bool) :
    ∃ walk : BMap (FrameWords 101), WalkFrom p 0#32 walk ∧
      (∀ k, k ∈ walk.map (·.1) ↔ ∃ a, Reached p a ∧ a.toNat = k) ∧
      ∃ fuel0, ∀ fuel ≥ fuel0, ∃ o file words data,
        main env load ord inv ⟨[], 0, seek, false⟩ fuel = some (.ok (0, o)) ∧
        readBitFile o.bytes = some file ∧
        file.config = fileBytes (List.replicate 8 0xFFFFFFFF#32 ++ [0x000000BB#32, 0x11220044#32] ++
          List.replicate 2 0xFFFFFFFF#32 ++ [0xAA995566#32] ++ words) ∧
        (Device.run p.idcode words).loaded = [(0, data)] ∧ (Device.run p.idcode words).started = true ∧
        (∀ id, id ≠ p.idcode → (Device.run id words).loaded = [] ∧ (Device.run id words).started = false) ∧
        data.length = (walk.length + 2 * rowEnds p walk + 2) * 101 ∧
        ∀ (i k : Nat), (walk.map (·.1))[i]? = some k → ∀ w b, w < 101 →
          ((∃ x, data[slot 101 p walk i + w]? = some x ∧ x.getLsbD b = true) ↔
            ∃ tile call, Lists db.tiles (SourceDesign db.tiles ls) tile call ∧ call.value = true ∧
              call.frame = k ∧ call.word = w ∧ call.index = b) := by
  rw [← sourceDesign_iff db.tiles ls h] at hin
  obtain ⟨walk, h1, h2, fuel0, h3⟩ := C67_gaps env load hload ord hord inv db _ hstart
    ((sourceAssembles_iff db.tiles ls h).2 hasm) hd p hp hsmall hdate htime hin seek
  rw [sourceDesign_iff db.tiles ls h] at h3
  refine ⟨walk, h1, h2, fuel0, fun fuel hf => ?_⟩
  obtain ⟨o, file, words, data, a1, a2, _, _, _, _, a3, a4, a5, a6⟩ := h3 fuel hf
  refine ⟨o, file, words, data, a1, a2, a3, ?_, ?_, fun id hid => ?_, a5, a6⟩
  · rw [a4, if_pos rfl]
  · rw [a4, if_pos rfl]
  · rw [a4, if_neg hid]
    exact ⟨rfl, rfl⟩

/-- ` A.B [ 7 : 4 ] = 4 ' b 1_010 # x`, a comment and `T.F{.n="v"}`. -/
def exampleSource : List SourceLine :=
  [.statement oneBlank exampleFeature [] exampleComment, .empty [0x20] exampleComment,
   .statement (fun _ => []) ⟨bytes!"T.F", .absent, .absent⟩ [(bytes!".n", bytes!"v")] []]

theorem exampleSource_ok : ∀ l ∈ exampleSource, l.Ok := by
  intro l hl
  simp only [exampleSource, List.mem_cons, List.not_mem_nil, or_false] at hl
  rcases hl with rfl | rfl | rfl
  · exact ⟨oneBlank_blank, exampleFeature_wf, Or.inl ⟨by decide, by decide⟩, exampleComment_end, by simp⟩
  · exact ⟨fun c hc => Or.inl (List.mem_singleton.1 hc), exampleComment_end⟩
  · refine ⟨fun _ c hc => absurd hc (by simp), ⟨by decide, by decide, trivial, trivial⟩, Or.inl ⟨by decide, by decide⟩,
      ⟨by simp, Or.inl rfl⟩, fun a ha => ?_⟩
    rw [List.mem_singleton.1 ha]
    refine ⟨by decide, by decide, by decide, ?_⟩
    intro pre post h
    have : (0x22 : UInt8) ∈ (bytes!"v" : Bytes) := by
      have h' : (bytes!"v" : Bytes) = pre ++ 0x22 :: post := h
      rw [h']; simp
    exact absurd this (by decide)

/-- The two statements it makes. -/
example : exampleSource.flatMap SourceLine.features =
    [⟨1, exampleFeature.name, 4, 4, 10⟩, ⟨1, bytes!"T.F", 0, 1, 1⟩] := by decide

/-- The text `T.F` of the program example is a source line. -/
example : sourceText [.statement (fun _ => []) ⟨bytes!"T.F", .absent, .absent⟩ [] []] = bytes!"T.F\n" := by
  decide

end Verif.Props

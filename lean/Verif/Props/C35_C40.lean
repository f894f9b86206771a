import Verif.Proofs.DbCsv
/-! # C35–C40: text files of the database

`after` is the byte behind the text, `none` if unreadable; `junk` is what `SimpleAtoi` leaves behind
for unparsable text. -/
namespace Verif.Props
open Verif.Db Verif.Spec Verif.Text

/-! ## C35 -/

theorem feed_zipIdx {σ : Type} (sink : σ → Nat → Bytes → Outcome σ) (n : Nat) (ls : List Bytes) (st : σ) :
    feed sink n ls st = (ls.zipIdx (n + 1)).foldlM (fun s p => sink s (p.2 % 2 ^ 32) p.1) st := by
  induction ls generalizing n st with
  | nil => rfl
  | cons l ls ih =>
    simp only [feed, List.zipIdx_cons, List.foldlM_cons]
    congr 1
    funext s
    exact ih (n + 1) s

/-- Every text has lines. -/
theorem C35_lines_exist (content : Bytes) : ∃ ls, LinesOf content ls := linesOf_exists content

/-- Partial: the byte behind the text is readable (see `C35_defect`).  The sink is called once per line, in order, with the line numbers 1, 2, … (modulo 2^32), stopping
at the first error. -/
theorem C35_lines_partial {σ : Type} (b : UInt8) (content : Bytes) (ls : List Bytes) (h : LinesOf content ls)
    (sink : σ → Nat → Bytes → Outcome σ) (st : σ) :
    linesGenerator (some b) content sink st = (ls.zipIdx 1).foldlM (fun s p => sink s (p.2 % 2 ^ 32) p.1) st := by
  rw [linesGenerator_lines b sink content ls h, feed_zipIdx]

/-- The same for a text ending in a newline, even if nothing behind it can be read. -/
theorem C35_terminated {σ : Type} (after : Option UInt8) (ls : List Bytes) (h : ∀ l ∈ ls, 0x0a ∉ l)
    (sink : σ → Nat → Bytes → Outcome σ) (st : σ) :
    linesGenerator after (unlines ls) sink st = (ls.zipIdx 1).foldlM (fun s p => sink s (p.2 % 2 ^ 32) p.1) st := by
  rw [linesGenerator_terminated after sink ls h, feed_zipIdx]

/-- Recording the calls gives back the lines: nothing is lost, added or reordered. -/
theorem C35_recorded (b : UInt8) (content : Bytes) (ls : List Bytes) (h : LinesOf content ls) :
    linesGenerator (some b) content (fun tr _ l => .ok (tr ++ [l])) [] = .ok ls := by
  rw [linesGenerator_lines b _ content ls h]
  have : ∀ (ls : List Bytes) n (tr : List Bytes),
      feed (fun tr _ l => Outcome.ok (tr ++ [l])) n ls tr = .ok (tr ++ ls) := by
    intro ls
    induction ls with
    | nil => intro n tr; simp [feed]
    | cons l ls ih => intro n tr; simp [feed, ih, List.append_assoc]
  rw [this]; rfl

/-- A text has only one list of lines. -/
theorem C35_lines_unique (content : Bytes) (a b : List Bytes) (ha : LinesOf content a) (hb : LinesOf content b) : a = b := by
  have h1 := C35_recorded 0 content a ha
  rw [C35_recorded 0 content b hb] at h1
  cases h1; rfl

/-- `ab\ncd` has two lines. -/
example : LinesOf bytes!"ab\ncd" [bytes!"ab", bytes!"cd"] :=
  ⟨by decide, Or.inr ⟨[bytes!"ab"], bytes!"cd", rfl, by decide, rfl⟩⟩

/-- Defect: a last line without newline makes the code read one byte behind the text. -/
theorem C35_defect {σ : Type} (sink : σ → Nat → Bytes → Outcome σ) (last : Bytes) (hne : last ≠ []) (h : 0x0a ∉ last)
    (st : σ) : linesGenerator none last sink st = .ub := by
  have := linesGenerator_overread sink [] last hne (by simpa using h) st st rfl
  simpa [unlines] using this

/-! ## C36 -/

/-- A file of well-formed lines maps each feature to the bits of its first line. -/
theorem C36_file (junk : Bytes → Nat) (b : UInt8) (content : Bytes)
    (ls : List (Bytes × Option (TileFeature × List SegmentBit))) (hc : LinesOf content (ls.map (·.1)))
    (h : ∀ l ∈ ls, SegLine l.1 l.2) :
    ∃ m, parseSegmentsBits junk (some b) content = .ok m ∧ (m.map (·.1)).Nodup ∧
      ∀ k, m.lookup k = (ls.filterMap (·.2)).lookup k := by
  have hp : parseSegmentsBits junk (some b) content = linesGenerator (some b) content (segbitsLine junk) [] := by
    unfold parseSegmentsBits
    split
    · rename_i he; subst he; rfl
    · rfl
  rw [hp, linesGenerator_lines b _ content _ hc, segbitsLine_eq,
    feed_entries (segEntry junk) ls (fun l hl => segEntry_spec junk (h l hl))]
  exact ⟨_, rfl, nodup_insertAll (by simp) _, fun k => by rw [lookup_insertAll]; simp⟩

/-- One line. -/
theorem C36_line (junk : Bytes → Nat) (after : Option UInt8) (l : Bytes) (hl : 0x0a ∉ l) (k : TileFeature)
    (bits : List SegmentBit) (h : SegLine l (some (k, bits))) :
    parseSegmentsBits junk after (l ++ [0x0a]) = .ok [(k, bits)] := by
  have hp : parseSegmentsBits junk after (l ++ [0x0a]) = linesGenerator after (unlines [l]) (segbitsLine junk) [] := by
    unfold parseSegmentsBits; rw [if_neg (by simp)]; simp [unlines]
  rw [hp, linesGenerator_terminated after _ [l] (by simpa using hl), segbitsLine_eq]
  have := feed_entries (segEntry junk) [(l, some (k, bits))] (by simpa using segEntry_spec junk h) 0 []
  simp only [List.map_cons, List.map_nil] at this
  rw [this]; rfl

theorem decimal_single (c : UInt8) (h : 0x30 ≤ c ∧ c ≤ 0x39) : Decimal [c] (c.toNat - 0x30) := by
  refine ⟨by simp, by simpa using h, by simp⟩

theorem uint_single (c : UInt8) (h : 0x30 ≤ c ∧ c ≤ 0x39) : UIntText [c] (c.toNat - 0x30) := by
  have := c.toNat_lt
  exact ⟨[], [], [c], [], by simp, white_nil, white_nil, Or.inl rfl, decimal_single c h, by omega⟩

/-- `A.B[3] 1_2 !0_7` says that feature `A.B` at address 3 sets bit 2 of column 1 and clears bit 7 of
column 0. -/
theorem exampleSegLine : SegLine
    bytes!"A.B[3] 1_2\t!0_7"
    (some ((bytes!"A.B", 3), [⟨1, 2, true⟩, ⟨0, 7, false⟩])) := by
  refine SegLine.entry _ bytes!"A.B[3]" _
    [(bytes!"1_2", ⟨1, 2, true⟩), (bytes!"!0_7", ⟨0, 7, false⟩)] ?_ (by decide) ?_ ?_
  · have h := fields_spec bytes!"A.B[3] 1_2\t!0_7"
    have e : fields bytes!"A.B[3] 1_2\t!0_7" =
      [bytes!"A.B[3]", bytes!"1_2", bytes!"!0_7"] := by decide +kernel
    rw [e] at h; exact h
  · exact Or.inl ⟨bytes!"3", rfl, uint_single 0x33 (by decide)⟩
  · intro b hb
    rcases List.mem_cons.1 hb with rfl | hb
    · exact ⟨bytes!"1", bytes!"2", rfl, uint_single 0x31 (by decide), uint_single 0x32 (by decide)⟩
    · rw [List.mem_singleton.1 hb]
      exact ⟨bytes!"0", bytes!"7", rfl, uint_single 0x30 (by decide), uint_single 0x37 (by decide)⟩

/-- A name ending in brackets that hold no number keeps its brackets and gets an unspecified
address. -/
theorem C36_odd_address (junk : Bytes → Nat) (after : Option UInt8) :
    -- `A[x] 0_1`
    parseSegmentsBits junk after bytes!"A[x] 0_1\n" =
      .ok [((bytes!"A[x]", junk bytes!"x"), [⟨0, 1, true⟩])] := rfl

/-! ## C37 -/

/-- A file is accepted exactly when no line is malformed; otherwise the result is an error. -/
theorem C37_iff (junk : Bytes → Nat) (b : UInt8) (content : Bytes) (ls : List Bytes) (hc : LinesOf content ls) :
    ((∃ m, parseSegmentsBits junk (some b) content = .ok m) ↔ ∀ l ∈ ls, ¬ BadSegLine l) ∧
    ((∃ l ∈ ls, BadSegLine l) → parseSegmentsBits junk (some b) content = .err) := by
  have hp : parseSegmentsBits junk (some b) content = linesGenerator (some b) content (segbitsLine junk) [] := by
    unfold parseSegmentsBits
    split
    · rename_i he; subst he; rfl
    · rfl
  rw [hp, linesGenerator_lines b _ content _ hc, segbitsLine_eq]
  have hbad : (∃ l ∈ ls, BadSegLine l) → feed (entrySink (segEntry junk)) 0 ls [] = .err := by
    rintro ⟨l, hl, hb⟩
    exact feed_err _ ls (fun l _ st n => entrySink_cases (segEntry_cases junk) l st n) l hl
      (fun st n => entrySink_bad (segEntry_bad junk hb) st n) 0 []
  refine ⟨⟨?_, ?_⟩, hbad⟩
  · rintro ⟨m, hm⟩ l hl hb
    rw [hbad ⟨l, hl, hb⟩] at hm; cases hm
  · intro h
    have hall : ∀ l ∈ ls, ∃ e, segEntry junk l = .ok e := by
      intro l hl
      rcases segEntry_cases junk l with he | he
      · exact he
      · exfalso
        apply h l hl
        unfold segEntry at he
        have hf := fields_spec l
        split at he
        · cases he
        · rename_i name hn; rw [hn] at hf; exact ⟨name, [], hf, Or.inl rfl⟩
        · rename_i name bits _ hn
          rw [hn] at hf
          refine ⟨name, bits, hf, Or.inr ?_⟩
          refine Classical.byContradiction fun hno => ?_
          have hall : ∀ s ∈ bits, ∃ v, BitText s v := by
            intro s hs
            refine Classical.byContradiction fun hv => hno ⟨s, hs, fun v hb => hv ⟨v, hb⟩⟩
          have hm : ∃ r, bits.mapM segmentBit = .ok r := by
            clear hn hf he hno
            rename_i hne
            clear hne
            induction bits with
            | nil => exact ⟨[], rfl⟩
            | cons s bits ih =>
              obtain ⟨v, hv⟩ := hall s (by simp)
              obtain ⟨r, hr⟩ := ih (fun s hs => hall s (by simp [hs]))
              exact ⟨v :: r, by rw [List.mapM_cons, (segmentBit_iff s v).2 hv, hr]; rfl⟩
          obtain ⟨r, hr⟩ := hm
          rw [hr] at he
          cases he
    clear hbad h hc hp
    have : ∀ (ls : List Bytes) n (m : SegmentsBits), (∀ l ∈ ls, ∃ e, segEntry junk l = .ok e) →
        ∃ r, feed (entrySink (segEntry junk)) n ls m = .ok r := by
      intro ls
      induction ls with
      | nil => intro n m _; exact ⟨m, rfl⟩
      | cons l ls ih =>
        intro n m h
        obtain ⟨e, he⟩ := h l (by simp)
        have hs : ∃ s, entrySink (segEntry junk) m ((n + 1) % 2 ^ 32) l = .ok s := by
          unfold entrySink; rw [he]
          cases e <;> exact ⟨_, rfl⟩
        obtain ⟨s, hs⟩ := hs
        simp only [feed, hs, Outcome.bind_ok]
        exact ih _ _ (fun l hl => h l (by simp [hl]))
    exact this ls 0 [] hall

/-- `A` alone on a line is malformed. -/
example : BadSegLine bytes!"A" :=
  ⟨bytes!"A", [], by have := fields_spec bytes!"A"; exact this, Or.inl rfl⟩

/-! ## C38 -/

theorem parsePseudoPIPs_feed (b : UInt8) (content : Bytes) (ls : List Bytes) (hc : LinesOf content ls) :
    parsePseudoPIPs (some b) content = feed (entrySink pipEntry) 0 ls [] := by
  unfold parsePseudoPIPs
  rw [← linesGenerator_lines b _ content _ hc, ← ppipLine_eq]
  split
  · rename_i he; subst he; rfl
  · rfl

/-- Every feature has the type of its first line. -/
theorem C38_file (b : UInt8) (content : Bytes) (ls : List (Bytes × Option (Bytes × PseudoPIPType)))
    (hc : LinesOf content (ls.map (·.1))) (h : ∀ l ∈ ls, PipLine l.1 l.2) :
    ∃ m, parsePseudoPIPs (some b) content = .ok m ∧ (m.map (·.1)).Nodup ∧
      ∀ k, m.lookup k = (ls.filterMap (·.2)).lookup k := by
  rw [parsePseudoPIPs_feed b content _ hc, feed_entries pipEntry ls (fun l hl => (pipEntry_iff _ _).2 (h l hl))]
  exact ⟨_, rfl, nodup_insertAll (by simp) _, fun k => by rw [lookup_insertAll]; simp⟩

/-- Any other line rejects the file. -/
theorem C38_rejected (b : UInt8) (content : Bytes) (ls : List Bytes) (hc : LinesOf content ls)
    (l : Bytes) (hl : l ∈ ls) (hbad : ∀ e, ¬ PipLine l e) : parsePseudoPIPs (some b) content = .err := by
  rw [parsePseudoPIPs_feed b content _ hc]
  refine feed_err _ ls (fun l _ st n => entrySink_cases pipEntry_cases l st n) l hl (fun st n => entrySink_bad ?_ st n) 0 []
  rcases pipEntry_cases l with ⟨e, he⟩ | he
  · exact absurd ((pipEntry_iff _ _).1 he) (hbad e)
  · exact he

/-- `A.B hint`. -/
theorem examplePipLine : PipLine bytes!"A.B hint" (some (bytes!"A.B", .hint)) := by
  refine PipLine.entry _ _ _ ?_
  have h := fields_spec bytes!"A.B hint"
  have e : fields bytes!"A.B hint" = [bytes!"A.B", bytes!"hint"] := by
    decide +kernel
  rw [e] at h; exact h

/-- A line of blanks rejects a ppips file (it is accepted in a segbits file). -/
theorem C38_blank_line (after : Option UInt8) : parsePseudoPIPs after bytes!" \n" = .err := rfl

/-! ## C39 -/

/-- One record per data row, in order, with the columns in place. -/
theorem C39_file (b : UInt8) (content header : Bytes) (rows : List (Bytes × Option PackagePin))
    (hc : LinesOf content (header :: rows.map (·.1))) (hh : Cells header headerCells)
    (hr : ∀ r ∈ rows, PinRow r.1 r.2) (hlen : rows.length < 2 ^ 32) :
    parsePackagePins (some b) content = .ok (rows.filterMap (·.2)) := by
  have hne : content ≠ [] := by
    rintro rfl
    have := C35_recorded b [] _ hc
    cases this
  unfold parsePackagePins
  rw [if_neg hne, linesGenerator_lines b _ content _ hc]
  simp only [feed]
  rw [show (0 + 1) % 2 ^ 32 = 1 from rfl, csvHeader_line, if_pos (cells_unique hh), Outcome.bind_ok,
    feed_csv_rows rows hr 1 (Nat.le_refl _) (by omega)]
  rfl

/-- A wrong header or a wrong row rejects the file. -/
theorem C39_rejected (b : UInt8) (content header : Bytes) (rows : List Bytes)
    (hc : LinesOf content (header :: rows)) (hlen : rows.length < 2 ^ 32)
    (hbad : ¬ Cells header headerCells ∨ ∃ r ∈ rows, ∀ e, ¬ PinRow r e) :
    parsePackagePins (some b) content = .err := by
  have hne : content ≠ [] := by
    rintro rfl
    have := C35_recorded b [] _ hc
    cases this
  unfold parsePackagePins
  rw [if_neg hne, linesGenerator_lines b _ content _ hc]
  rcases feed_cases csvLine (fun l st n => csvLine_cases st n l) (header :: rows) 0 [] with ⟨s, hs⟩ | hs
  · exfalso
    obtain ⟨s1, h1, h2⟩ := Outcome.bind_eq_ok.1 hs
    rw [show (0 + 1) % 2 ^ 32 = 1 from rfl, csvHeader_line] at h1
    rcases hbad with hbad | ⟨r, hr, hbad⟩
    · rw [if_neg] at h1
      · cases h1
      · intro he; exact hbad (he ▸ cells_spec header)
    · obtain ⟨e, he⟩ := feed_csv_inv rows 1 (Nat.le_refl _) (by omega) _ _ h2 r hr
      exact hbad e he
  · exact hs

/-- `A2, 216 ,S,T,F` -/
theorem examplePinRow : PinRow bytes!"A2, 216 ,S,T,F"
    (some ⟨bytes!"A2", 216, bytes!"S", bytes!"T", bytes!"F"⟩) := by
  refine PinRow.row _ _ bytes!"216" ?_ ?_
  · have h := cells_spec bytes!"A2, 216 ,S,T,F"
    have e : segs bytes!"A2, 216 ,S,T,F" =
      [bytes!"A2", bytes!"216", bytes!"S", bytes!"T", bytes!"F"] := by decide +kernel
    rw [e] at h; exact h
  · exact ⟨[], [], bytes!"216", [], rfl, white_nil, white_nil, Or.inl rfl, ⟨by simp, by decide, rfl⟩, by decide⟩

example : Cells bytes!"pin,bank,site,tile,pin_function" headerCells := by
  have h := cells_spec bytes!"pin,bank,site,tile,pin_function"
  have e : segs bytes!"pin,bank,site,tile,pin_function" = headerCells := by decide +kernel
  rw [e] at h; exact h

/-- An empty file is accepted although its header is missing. -/
theorem C39_empty_file (after : Option UInt8) : parsePackagePins after [] = .ok [] := rfl

/-- Columns are not counted by position: `A,,1,B,C,D` (six columns, one empty) is read as five. -/
theorem C39_empty_column (out : PackagePins) :
    csvLine out 2 bytes!"A,,1,B,C,D" =
      .ok (out ++ [⟨bytes!"A", 1, bytes!"B", bytes!"C", bytes!"D"⟩]) := rfl

/-! ## C40 -/

/-- The part table is the join of the two mappings. -/
theorem C40_table (partsYaml devicesYaml : Bytes) (parts devices : List (Bytes × YamlKind))
    (hp : LinesOf partsYaml (parts.map (·.1))) (hpl : ∀ l ∈ parts, YamlLine l.1 l.2)
    (hd : LinesOf devicesYaml (devices.map (·.1))) (hdl : ∀ l ∈ devices, YamlLine l.1 l.2)
    (hfab : ∀ e ∈ entriesOf (devices.map (·.2)), e.1 ≠ [] → (propValue e.2 nameFabric).isSome)
    (hinfo : ∀ e ∈ entriesOf (parts.map (·.2)), e.1 ≠ [] → (infoOf (devices.map (·.2)) e.2).isSome) :
    ∃ m, parsePartsInfos partsYaml devicesYaml = .ok m ∧
      ∀ name, m.lookup name = (entryOf (parts.map (·.2)) name).bind (infoOf (devices.map (·.2))) := by
  unfold parsePartsInfos
  rw [parseMappingYAML_spec _ _ _ hd hdl]
  obtain ⟨f, hf, hlook⟩ := (sinkAll_ok fabricSink (fun ps => propValue ps nameFabric) fabricSink_val
    (entriesOf (devices.map (·.2))) []).1 hfab
  rw [hf, Outcome.bind_ok, parseMappingYAML_spec _ _ _ hp hpl]
  have hfo : ∀ d, f.lookup d = fabricOf (devices.map (·.2)) d := by
    intro d
    rw [hlook]
    unfold fabricOf entryOf
    by_cases h : d = [] <;> simp [h]
  have hval : ∀ ps, partVal f ps = infoOf (devices.map (·.2)) ps := by
    intro ps; unfold partVal infoOf; simp only [hfo]
  obtain ⟨m, hm, hl⟩ := (sinkAll_ok (partSink f) (partVal f) (partSink_val f)
    (entriesOf (parts.map (·.2))) []).1 (by intro e he hk; rw [hval]; exact hinfo e he hk)
  refine ⟨m, hm, fun name => ?_⟩
  rw [hl]
  unfold entryOf
  have : (partVal f) = infoOf (devices.map (·.2)) := funext hval
  rw [this]
  by_cases h : name = [] <;> simp [h]

/-- A device without fabric, or a part that lacks a property or names a device without known fabric,
rejects the tables. -/
theorem C40_rejected (partsYaml devicesYaml : Bytes) (parts devices : List (Bytes × YamlKind))
    (hp : LinesOf partsYaml (parts.map (·.1))) (hpl : ∀ l ∈ parts, YamlLine l.1 l.2)
    (hd : LinesOf devicesYaml (devices.map (·.1))) (hdl : ∀ l ∈ devices, YamlLine l.1 l.2)
    (hbad : (∃ e ∈ entriesOf (devices.map (·.2)), e.1 ≠ [] ∧ propValue e.2 nameFabric = none) ∨
      (∃ e ∈ entriesOf (parts.map (·.2)), e.1 ≠ [] ∧ infoOf (devices.map (·.2)) e.2 = none)) :
    parsePartsInfos partsYaml devicesYaml = .err := by
  unfold parsePartsInfos
  rw [parseMappingYAML_spec _ _ _ hd hdl]
  by_cases hfab : ∀ e ∈ entriesOf (devices.map (·.2)), e.1 ≠ [] → (propValue e.2 nameFabric).isSome
  · obtain ⟨f, hf, hlook⟩ := (sinkAll_ok fabricSink (fun ps => propValue ps nameFabric) fabricSink_val
      (entriesOf (devices.map (·.2))) []).1 hfab
    rw [hf, Outcome.bind_ok, parseMappingYAML_spec _ _ _ hp hpl]
    have hfo : ∀ d, f.lookup d = fabricOf (devices.map (·.2)) d := by
      intro d
      rw [hlook]
      unfold fabricOf entryOf
      by_cases h : d = [] <;> simp [h]
    have hval : ∀ ps, partVal f ps = infoOf (devices.map (·.2)) ps := by
      intro ps; unfold partVal infoOf; simp only [hfo]
    refine (sinkAll_ok (partSink f) (partVal f) (partSink_val f) (entriesOf (parts.map (·.2))) []).2 ?_
    rcases hbad with ⟨e, he, hk, hv⟩ | ⟨e, he, hk, hv⟩
    · have := hfab e he hk
      rw [hv] at this; cases this
    · exact ⟨e, he, hk, by rw [hval]; exact hv⟩
  · have : ∃ e ∈ entriesOf (devices.map (·.2)), e.1 ≠ [] ∧ propValue e.2 nameFabric = none := by
      refine Classical.byContradiction fun hno => hfab ?_
      intro e he hk
      cases hv : propValue e.2 nameFabric with
      | some => rfl
      | none => exact absurd ⟨e, he, hk, hv⟩ hno
    rw [(sinkAll_ok fabricSink (fun ps => propValue ps nameFabric) fabricSink_val
      (entriesOf (devices.map (·.2))) []).2 this]
    rfl

/-- A line is a blank, comment, key or property line, or malformed. -/
theorem C40_lines_total (l : Bytes) : (∃ k, YamlLine l k) ∨ BadYamlLine l := yamlLine_total l

/-- A malformed line in the devices mapping rejects the tables. -/
theorem C40_bad_device_line (partsYaml devicesYaml : Bytes) (ls : List Bytes) (hd : LinesOf devicesYaml ls)
    (l : Bytes) (hl : l ∈ ls) (hb : BadYamlLine l) : parsePartsInfos partsYaml devicesYaml = .err := by
  unfold parsePartsInfos
  rw [parseMappingYAML_bad _ fabricSink_cases _ _ hd l hl hb]
  rfl

/-- A malformed line in the parts mapping rejects the tables. -/
theorem C40_bad_part_line (partsYaml devicesYaml : Bytes) (ls : List Bytes) (hp : LinesOf partsYaml ls)
    (l : Bytes) (hl : l ∈ ls) (hb : BadYamlLine l) : parsePartsInfos partsYaml devicesYaml = .err := by
  unfold parsePartsInfos
  rcases parseMappingYAML_cases fabricSink fabricSink_cases devicesYaml [] with ⟨f, h⟩ | h
  · rw [h]
    exact parseMappingYAML_bad _ (partSink_cases f) _ _ hp l hl hb _
  · rw [h]; rfl

/-- `"d":` and ` fabric: 'f'` -/
theorem exampleDevices : YamlLine bytes!"\"d\":" (.key bytes!"d") ∧
    YamlLine bytes!" fabric: 'f'" (.prop nameFabric bytes!"f") := by
  constructor
  · exact YamlLine.key bytes!"\"d\"" [] bytes!"d" white_nil
      (by intro c hc; cases hc; exact ⟨(isSpace_false_iff _).1 rfl, by decide⟩) (Or.inl rfl)
  · refine YamlLine.prop _ bytes!"fabric" bytes!" 'f'" bytes!"'f'" _ _ ?_ ?_
      (by decide) (by decide) ?_ ?_ (Or.inr (Or.inl rfl))
    · intro c hc; cases hc; exact (isSpace_iff _).1 rfl
    · exact strip_spec bytes!" fabric: 'f'"
    · exact strip_spec nameFabric
    · exact strip_spec bytes!" 'f'"

/-- The join on a small example: device `d` has fabric `f`; part `p` is a `d` in package `k`, speed `1`. -/
theorem exampleJoin :
    parsePartsInfos
      -- p:\n device: d\n package: k\n speedgrade: '1'\n
      bytes!"p:\n device: d\n package: k\n speedgrade: '1'\n"
      -- "d":\n fabric: 'f'
      bytes!"\"d\":\n fabric: 'f'" =
    .ok [(bytes!"p", { device := bytes!"d", fabric := bytes!"f", package := bytes!"k", speedgrade := bytes!"1" })] := by
  decide +kernel

/-- An entry whose key is empty is silently dropped, even without the required properties. -/
theorem C40_empty_key_dropped (partsYaml : Bytes) :
    parsePartsInfos partsYaml bytes!"\"\":" = parsePartsInfos partsYaml [] := rfl

end Verif.Props

import Verif.Proofs.JsonText
import Verif.Spec.JsonFiles
import Verif.Proofs.Render
import Verif.Props.C70
import Verif.Props.C73
import Verif.Props.C68
/-! # C82: JSON database files as text -/
namespace Verif.Props
open Verif.Db Verif.Db.JsonText Verif.Spec Verif.Spec.JsonGrammar

/-- The first byte of a JSON text. -/
private theorem text_head {big : Bytes → Bool} {t : Bytes} {v : Json} (h : Text big t v) :
    ∃ c r, t = c :: r ∧ c ≠ 0xef ∧ c ≠ 0xbb ∧ c ≠ 0xbf := by
  obtain ⟨w, t, w', rfl, hw, hv, _⟩ := h
  cases w with
  | cons c w =>
    refine ⟨c, _, rfl, ?_⟩
    rcases hw c List.mem_cons_self with rfl | rfl | rfl | rfl <;> decide
  | nil =>
    have key : ∃ c r, t = c :: r ∧ c.toNat < 0x80 := by
      cases hv with
      | null => exact ⟨_, _, rfl, by decide⟩
      | true => exact ⟨_, _, rfl, by decide⟩
      | false => exact ⟨_, _, rfl, by decide⟩
      | str h => obtain ⟨r, rfl⟩ := str_head h; exact ⟨_, _, rfl, by decide⟩
      | num h =>
        obtain ⟨c, r, rfl, hc⟩ := num_head h
        refine ⟨c, r, rfl, ?_⟩
        rcases hc with rfl | ⟨_, hc⟩
        · decide
        · omega
      | emptyObj => exact ⟨_, _, rfl, by decide⟩
      | obj => exact ⟨_, _, rfl, by decide⟩
      | emptyArr => exact ⟨_, _, rfl, by decide⟩
      | arr => exact ⟨_, _, rfl, by decide⟩
    obtain ⟨c, r, rfl, hc⟩ := key
    refine ⟨c, _, rfl, ?_, ?_, ?_⟩ <;> rintro rfl <;> revert hc <;> decide

private theorem dropOne (b : UInt8) (s : Bytes) : ∃ m : Bytes, m.Sublist [b] ∧ s = m ++ dropByte b s := by
  unfold dropByte
  cases s with
  | nil => exact ⟨[], List.nil_sublist _, rfl⟩
  | cons c r =>
    dsimp only
    by_cases h : c = b
    · rw [if_pos h]; exact ⟨[b], List.Sublist.refl _, by rw [h]; rfl⟩
    · rw [if_neg h]; exact ⟨[], List.nil_sublist _, rfl⟩

private theorem skipBom_split (s : Bytes) : ∃ mark : Bytes, mark.Sublist [0xef, 0xbb, 0xbf] ∧ s = mark ++ skipBom s := by
  unfold skipBom
  obtain ⟨m1, h1, e1⟩ := dropOne 0xef s
  obtain ⟨m2, h2, e2⟩ := dropOne 0xbb (dropByte 0xef s)
  obtain ⟨m3, h3, e3⟩ := dropOne 0xbf (dropByte 0xbb (dropByte 0xef s))
  refine ⟨m1 ++ (m2 ++ m3), h1.append (h2.append h3), ?_⟩
  rw [List.append_assoc, List.append_assoc, ← e3, ← e2, ← e1]

private theorem skipBom_mark (mark : Bytes) (c : UInt8) (r : Bytes) (h : mark.Sublist [0xef, 0xbb, 0xbf]) (h1 : c ≠ 0xef) (h2 : c ≠ 0xbb)
    (h3 : c ≠ 0xbf) : skipBom (mark ++ c :: r) = c :: r := by
  simp only [List.sublist_cons_iff, List.sublist_nil] at h
  rcases h with ((rfl | ⟨_, rfl, rfl⟩) | ⟨_, rfl, (rfl | ⟨_, rfl, rfl⟩)⟩) | ⟨_, rfl, ((rfl | ⟨_, rfl, rfl⟩) | ⟨_, rfl, (rfl | ⟨_, rfl, rfl⟩)⟩)⟩ <;>
    simp [skipBom, dropByte, h1, h2, h3]

/-- **JSON files are read exactly as the grammar of RFC 8259 says**: a file is accepted as a value exactly when it is a
JSON text for it, except that text behind a NUL byte is ignored and a (partial) byte order mark is skipped. -/
theorem C82_reads (big : Bytes → Bool) (file : Bytes) (v : Json) : parseJson big file = some v ↔ Reads big file v := by
  rw [parseJson_iff]
  constructor
  · rintro ⟨text, rest, he, ht, hr⟩
    obtain ⟨mark, hm, hs⟩ := skipBom_split file
    exact ⟨mark, text, rest, by rw [← he]; exact hs, hm, ht, hr⟩
  · rintro ⟨mark, text, rest, rfl, hm, ht, hr⟩
    obtain ⟨c, r, rfl, h1, h2, h3⟩ := text_head ht
    exact ⟨c :: r, rest, skipBom_mark mark c _ hm h1 h2 h3, ht, hr⟩

/-- A file has at most one reading. -/
theorem C82_unique (big : Bytes → Bool) (file : Bytes) (v w : Json) (h : Reads big file v) (h' : Reads big file w) : v = w := by
  have h1 := (C82_reads big file v).2 h
  rw [(C82_reads big file w).2 h'] at h1
  exact (Option.some.inj h1).symm

theorem reads_text {big : Bytes → Bool} {text : Bytes} {v : Json} (h : Text big text v) : Reads big text v :=
  ⟨[], text, [], by simp, List.nil_sublist _, h, Or.inl rfl⟩

/-- What is behind a NUL byte is ignored. -/
theorem C82_nul (big : Bytes → Bool) (text rest : Bytes) (v : Json) (h : Text big text v) : parseJson big (text ++ 0 :: rest) = some v :=
  (C82_reads _ _ _).2 ⟨[], text, 0 :: rest, rfl, List.nil_sublist _, h, Or.inr rfl⟩

private theorem hexText (n : Nat) (h : n < 16) : ∃ c, Hex c n := by
  unfold Hex
  by_cases hn : n < 10
  · exact ⟨UInt8.ofNat (0x30 + n), Or.inl ⟨hn, by simp; omega⟩⟩
  · exact ⟨UInt8.ofNat (0x41 + (n - 10)), Or.inr ⟨by omega, h, Or.inl (by simp; omega)⟩⟩

private theorem chars_exist (s : Bytes) : ∃ t, Chars t s := by
  induction s with
  | nil => exact ⟨[], .nil⟩
  | cons c s ih =>
    obtain ⟨t, ht⟩ := ih
    by_cases h1 : c = 0x22
    · subst h1; exact ⟨_, .esc 0x22 0x22 (by decide) ht⟩
    by_cases h2 : c = 0x5c
    · subst h2; exact ⟨_, .esc 0x5c 0x5c (by decide) ht⟩
    by_cases h3 : 0x20 ≤ c.toNat
    · exact ⟨_, .plain c h3 h1 h2 ht⟩
    · obtain ⟨z, hz⟩ := hexText 0 (by omega)
      obtain ⟨a, ha⟩ := hexText (c.toNat / 16) (by omega)
      obtain ⟨b, hb⟩ := hexText (c.toNat % 16) (by omega)
      refine ⟨_, .code [z, z, a, b] c.toNat [c] ⟨z, z, a, b, 0, 0, _, _, rfl, hz, hz, ha, hb, by omega⟩ (by omega) (Or.inl ⟨by omega, rfl⟩) ht⟩

private theorem str_exist (s : Bytes) : ∃ t, Str t s := by
  obtain ⟨t, ht⟩ := chars_exist s
  exact ⟨_, t, rfl, ht⟩

private theorem int_exist (n : Nat) : ∃ t, IntText t ∧ decimal t = n := by
  induction n using Nat.strongRecOn with
  | ind n ih =>
    have dig : ∀ d, d < 10 → (UInt8.ofNat (0x30 + d)).toNat = 0x30 + d := by intro d hd; simp; omega
    by_cases h : n < 10
    · refine ⟨[UInt8.ofNat (0x30 + n)], ⟨⟨by simp, ?_⟩, ?_⟩, ?_⟩
      · intro c hc
        rw [List.mem_singleton] at hc
        subst hc
        unfold Digit
        rw [dig n h]; omega
      · intro h'; rw [List.head?_cons, Option.some.injEq] at h'; rw [h']
      · unfold decimal
        rw [List.foldl_cons, List.foldl_nil, dig n h]; omega
    · obtain ⟨t, ⟨⟨h1, h2⟩, h3⟩, h4⟩ := ih (n / 10) (by omega)
      refine ⟨t ++ [UInt8.ofNat (0x30 + n % 10)], ⟨⟨by simp, ?_⟩, ?_⟩, ?_⟩
      · intro c hc
        rcases List.mem_append.1 hc with hc | hc
        · exact h2 c hc
        · rw [List.mem_singleton] at hc
          subst hc
          unfold Digit
          rw [dig _ (by omega)]; omega
      · intro h'
        cases t with
        | nil => exact absurd rfl h1
        | cons d t =>
          have := h3 (by rw [List.cons_append, List.head?_cons] at h'; exact h')
          rw [this] at h4
          have : n / 10 = 0 := by rw [← h4]; rfl
          omega
      · unfold decimal at h4 ⊢
        rw [List.foldl_append, h4, List.foldl_cons, List.foldl_nil, dig _ (by omega)]; omega

private theorem white_nil' : JsonGrammar.White ([] : Bytes) := fun _ h => by cases h

/-- **Every value with integers of 64 bits can be written.** -/
theorem C82_written (big : Bytes → Bool) (v : Json) (h : Plain v) : ∃ t, Value big t v := by
  induction h with
  | null => exact ⟨_, .null⟩
  | bool b =>
    cases b with
    | true => exact ⟨_, .true⟩
    | false => exact ⟨_, .false⟩
  | int i h1 h2 =>
    by_cases hi : 0 ≤ i
    · obtain ⟨t, ht, hd⟩ := int_exist i.toNat
      refine ⟨t, .num ⟨[], t, [], [], by simp, Or.inl rfl, ht, Or.inl rfl, Or.inl rfl, Or.inl ⟨rfl, rfl, i, ?_, h1, h2, rfl⟩⟩⟩
      rw [if_pos rfl, hd]; omega
    · obtain ⟨t, ht, hd⟩ := int_exist (-i).toNat
      refine ⟨0x2d :: t, .num ⟨bytes!"-", t, [], [], by simp, Or.inr rfl, ht, Or.inl rfl, Or.inl rfl, Or.inl ⟨rfl, rfl, i, ?_, h1, h2, rfl⟩⟩⟩
      rw [if_neg (by simp), hd]; omega
  | str s =>
    obtain ⟨t, ht⟩ := str_exist s
    exact ⟨t, .str ht⟩
  | arr vs _ ih =>
    cases vs with
    | nil => exact ⟨_, .emptyArr [] white_nil'⟩
    | cons v vs =>
      have key : ∀ (vs : List Json) (v : Json), (∀ x ∈ v :: vs, ∃ t, Value big t x) → ∃ t, Elements big t (v :: vs) := by
        intro vs
        induction vs with
        | nil =>
          intro v h
          obtain ⟨t, ht⟩ := h v List.mem_cons_self
          exact ⟨_, .last ht white_nil'⟩
        | cons v' vs ihv =>
          intro v h
          obtain ⟨t, ht⟩ := h v List.mem_cons_self
          obtain ⟨t', ht'⟩ := ihv v' fun x hx => h x (List.mem_cons_of_mem _ hx)
          exact ⟨_, .cons ht white_nil' white_nil' ht'⟩
      obtain ⟨t, ht⟩ := key vs v ih
      exact ⟨_, .arr [] white_nil' ht⟩
  | obj ms _ ih =>
    cases ms with
    | nil => exact ⟨_, .emptyObj [] white_nil'⟩
    | cons m ms =>
      have key : ∀ (ms : List (Bytes × Json)) (m : Bytes × Json), (∀ x ∈ m :: ms, ∃ t, Value big t x.2) → ∃ t, Members big t (m :: ms) := by
        intro ms
        induction ms with
        | nil =>
          intro m h
          obtain ⟨t, ht⟩ := h m List.mem_cons_self
          obtain ⟨n, hn⟩ := str_exist m.1
          exact ⟨_, .last hn white_nil' white_nil' ht white_nil'⟩
        | cons m' ms ihv =>
          intro m h
          obtain ⟨t, ht⟩ := h m List.mem_cons_self
          obtain ⟨n, hn⟩ := str_exist m.1
          obtain ⟨t', ht'⟩ := ihv m' fun x hx => h x (List.mem_cons_of_mem _ hx)
          exact ⟨_, .cons hn white_nil' white_nil' ht white_nil' white_nil' ht'⟩
      obtain ⟨t, ht⟩ := key ms m ih
      exact ⟨_, .obj [] white_nil' ht⟩

/-- **Tile grid files**: the bytes give the grid exactly when they are JSON text for a value that describes it. -/
theorem C82_grid (big : Bytes → Bool) (file : Bytes) (g : TileGrid) :
    parseTileGridJSON big file = .ok g ↔ ∃ j, Reads big file j ∧ GridJson AddressText j g := by
  unfold parseTileGridJSON
  constructor
  · intro h
    cases h1 : parseJson big file with
    | none => rw [h1] at h; cases h
    | some j =>
      rw [h1] at h
      exact ⟨j, (C82_reads _ _ _).1 h1, (C73_grid j g).1 h⟩
  · rintro ⟨j, h1, h2⟩
    rw [(C82_reads _ _ _).2 h1]
    exact (C73_grid j g).2 h2

/-- **Part files.** -/
theorem C82_part (big : Bytes → Bool) (file : Bytes) (p : Db.Part) :
    parsePartJSON big file = .ok p ↔ ∃ j, Reads big file j ∧ PartJson j p := by
  unfold parsePartJSON
  constructor
  · intro h
    cases h1 : parseJson big file with
    | none => rw [h1] at h; cases h
    | some j =>
      rw [h1] at h
      exact ⟨j, (C82_reads _ _ _).1 h1, (C41_iff j p).1 h⟩
  · rintro ⟨j, h1, h2⟩
    rw [(C82_reads _ _ _).2 h1]
    exact (C41_iff j p).2 h2

/-- Bytes that are no JSON are an error, whatever they are. -/
theorem C82_rejects (big : Bytes → Bool) (file : Bytes) (h : ∀ j, ¬ Reads big file j) :
    parseTileGridJSON big file = .err ∧ parsePartJSON big file = .err := by
  have : parseJson big file = none := by
    cases h1 : parseJson big file with
    | none => rfl
    | some j => exact absurd ((C82_reads _ _ _).1 h1) (h j)
  unfold parseTileGridJSON parsePartJSON
  rw [this]
  exact ⟨rfl, rfl⟩

/-! ## Whole files -/

private theorem plain_nat (n : Nat) (h : n < 2 ^ 64) : Plain (.int n) := .int _ (by omega) (by omega)

private theorem plain_strings (m : List (Bytes × Bytes)) : Plain (stringObj m) := by
  refine .obj _ fun x hx => ?_
  obtain ⟨e, _, rfl⟩ := List.mem_map.1 hx
  exact .str _

private theorem plain_sequence {α : Type} (item : α → Json) (l : List α) (h : ∀ a ∈ l, Plain (item a)) : Plain (sequenceObj item l) := by
  refine .obj _ fun x hx => ?_
  obtain ⟨e, he, rfl⟩ := List.mem_map.1 hx
  exact h e.1 (List.fst_mem_of_mem_zipIdx he)

private theorem plain_bus {α : Type} (item : α → Json) (m : List (ConfigBusType × α)) (h : ∀ e ∈ m, Plain (item e.2)) : Plain (busObj item m) := by
  refine .obj _ fun x hx => ?_
  obtain ⟨e, he, rfl⟩ := List.mem_map.1 hx
  exact h e he

private theorem plain_part (p : Db.Part) (h : PartValid p) : Plain (partObj p) := by
  have half : ∀ hf, hf = p.bottomRows ∨ hf = p.topRows → Plain (halfObj hf) := by
    intro hf hhf
    refine .obj _ fun x hx => ?_
    rw [List.mem_singleton] at hx
    subst hx
    refine plain_sequence _ _ fun row hrow => .obj _ fun x hx => ?_
    rw [List.mem_singleton] at hx
    subst hx
    refine plain_bus _ _ fun bus hbus => .obj _ fun x hx => ?_
    rw [List.mem_singleton] at hx
    subst hx
    refine plain_sequence _ _ fun n hn => .obj _ fun x hx => ?_
    rw [List.mem_singleton] at hx
    subst hx
    have := (((h.halves hf hhf).2 row hrow).2 bus hbus).2 n hn
    exact plain_nat n (by omega)
  refine .obj _ fun x hx => ?_
  simp only [List.mem_cons, List.not_mem_nil, or_false] at hx
  rcases hx with rfl | rfl | rfl
  · exact plain_nat _ (Nat.lt_of_lt_of_le p.idcode.isLt (by decide))
  · refine .obj _ fun x hx => ?_
    obtain ⟨e, _, rfl⟩ := List.mem_map.1 hx
    exact .str _
  · refine .obj _ fun x hx => ?_
    simp only [List.mem_cons, List.not_mem_nil, or_false] at hx
    rcases hx with rfl | rfl
    · exact half _ (Or.inl rfl)
    · exact half _ (Or.inr rfl)

private theorem plain_block (b : BitsBlock) (h : BlockValid b) : Plain (blockObj b) := by
  refine .obj _ fun x hx => ?_
  have h1 := h.frames
  have h2 := h.words
  have h3 := h.offset
  rcases List.mem_append.1 hx with hx | hx
  · simp only [List.mem_cons, List.not_mem_nil, or_false] at hx
    rcases hx with rfl | rfl | rfl | rfl
    · exact .str _
    · exact plain_nat _ (by omega)
    · exact .int _ (by omega) (by omega)
    · exact plain_nat _ (by omega)
  · cases ha : b.alias? with
    | none => rw [ha] at hx; cases hx
    | some a =>
      rw [ha] at hx
      simp only [Option.map_some, Option.toList_some, List.mem_singleton] at hx
      subst hx
      refine .obj _ fun x hx => ?_
      simp only [List.mem_cons, List.not_mem_nil, or_false] at hx
      rcases hx with rfl | rfl | rfl
      · exact plain_strings _
      · have := (h.alias a ha).1
        exact plain_nat _ (by omega)
      · exact .str _

private theorem plain_grid (g : TileGrid) (h : GridValid g) : Plain (gridObj g) := by
  refine .obj _ fun x hx => ?_
  obtain ⟨e, he, rfl⟩ := List.mem_map.1 hx
  have ht := h.tiles e he
  have h1 := ht.x
  have h2 := ht.y
  refine .obj _ fun x hx => ?_
  rcases List.mem_append.1 hx with hx | hx
  · simp only [List.mem_cons, List.not_mem_nil, or_false] at hx
    rcases hx with rfl | rfl | rfl | rfl | rfl | rfl | rfl
    · exact .str _
    · exact plain_nat _ (by omega)
    · exact plain_nat _ (by omega)
    · exact plain_bus _ _ fun e he => plain_block _ (ht.bits.2 e he)
    · exact plain_strings _
    · exact plain_strings _
    · refine .arr _ fun x hx => ?_
      obtain ⟨s, _, rfl⟩ := List.mem_map.1 hx
      exact .str _
  · cases hc : e.2.clockRegion with
    | none => rw [hc] at hx; cases hx
    | some s =>
      rw [hc] at hx
      simp only [Option.map_some, Option.toList_some, List.mem_singleton] at hx
      subst hx
      exact .str _

private theorem value_reads {big : Bytes → Bool} {t : Bytes} {v : Json} (h : Value big t v) : parseJson big t = some v :=
  (C82_reads _ _ _).2 (reads_text ⟨[], t, [], by simp, white_nil', h, white_nil'⟩)

/-- Every tile grid can be written to a file that is read back as it. -/
theorem C82_grid_round_trip (big : Bytes → Bool) (g : TileGrid) (h : GridValid g) : ∃ file, parseTileGridJSON big file = .ok g := by
  obtain ⟨t, ht⟩ := C82_written big _ (plain_grid g h)
  refine ⟨t, ?_⟩
  unfold parseTileGridJSON
  rw [value_reads ht]
  exact C42_round_trip g h

/-- Every part can be written to a file that is read back as it. -/
theorem C82_part_round_trip (big : Bytes → Bool) (p : Db.Part) (h : PartValid p) : ∃ file, parsePartJSON big file = .ok p := by
  obtain ⟨t, ht⟩ := C82_written big _ (plain_part p h)
  refine ⟨t, ?_⟩
  unfold parsePartJSON
  rw [value_reads ht]
  exact C41_round_trip p h

/-- **Loading a database directory, from the bytes of its files** (C70 with `rapidjson` in the model). -/
theorem C82_loads (big : Bytes → Bool) (env : Env) (hjson : env.json = parseJson big) (load : LoadOrder) (hload : LoadOk load) (root : Path)
    (name : Bytes) (grid : TileGrid) (part : Db.Part) (pins : PackagePins) (hdir : PartFiles big env root name grid part pins)
    (entries : List (Path × Bool)) (hl : env.listing root = some entries) :
    ∃ db, parseDatabase env load root name = .ok db ∧ Reordered TileReordered grid db.tiles.grid ∧
      PartReordered part db.tiles.part ∧ db.cache = [] ∧
      (∀ tile bank, bank ∈ db.tiles.banks.tileBanks tile ↔ InBank part pins bank tile) ∧
      (∀ bank, db.tiles.banks.tiles bank = none ↔ ∀ tile, ¬ InBank part pins bank tile) ∧
      ∀ bank tiles, db.tiles.banks.tiles bank = some tiles → tiles.Nodup ∧ ∀ tile, tile ∈ tiles ↔ InBank part pins bank tile := by
  have conv : ∀ {α : Type} {p : Path} {means : Json → α → Prop} {a : α}, JsonBytes big env p means a → JsonFile env p means a := by
    rintro α p means a ⟨content, j, h1, h2, h3⟩
    exact ⟨content, j, h1, by rw [hjson]; exact (C82_reads _ _ _).2 h2, h3⟩
  refine C70_loads env load hload root name grid part pins ⟨?_, conv hdir.part, hdir.pins⟩ entries hl
  obtain ⟨info, h1, h2⟩ := hdir.grid
  exact ⟨info, h1, conv h2⟩

/-- A tile grid file that is no JSON: the database does not load. -/
theorem C82_bad_grid (big : Bytes → Bool) (env : Env) (hjson : env.json = parseJson big) (load : LoadOrder) (root : Path) (name : Bytes)
    (info : PartInfo) (ht : PartTable env root name (some info)) (content : Bytes × Option UInt8)
    (h : env.read (root ++ [info.fabric, bytes!"tilegrid.json"]) = some content)
    (hno : ∀ j, ¬ Reads big content.1 j) : parseDatabase env load root name = .err := by
  refine C70_no_grid env load root name info ht fun c hc => ?_
  rw [h] at hc
  cases hc
  rw [hjson]
  cases h1 : parseJson big content.1 with
  | none => rfl
  | some j => exact absurd ((C82_reads _ _ _).1 h1) (hno j)

/-! ## Examples -/

/-- `{"a": [1, -2.5e3, "\u00e9"], "b": null}` with white space around. -/
def sampleText : Bytes :=
  bytes!" {\"a\": [1, -2.5e3, \"\\u00e9\"], \"b\": null}\n"

example : parseJson (fun _ => false) sampleText =
    some (.obj [(bytes!"a", .arr [.int 1, .dbl, .str [0xc3, 0xa9]]), (bytes!"b", .null)]) := rfl

example : Reads (fun _ => false) sampleText (.obj [(bytes!"a", .arr [.int 1, .dbl, .str [0xc3, 0xa9]]), (bytes!"b", .null)]) :=
  (C82_reads _ _ _).1 rfl

/-- A surrogate pair: `"\uD83D\uDE00"`. -/
example : parseJson (fun _ => false) bytes!"\"\\uD83D\\uDE00\"" =
    some (.str [0xf0, 0x9f, 0x98, 0x80]) := rfl

/-- A trailing comma, a leading zero, a lone surrogate: no JSON. -/
example : (∀ j, ¬ Reads (fun _ => false) bytes!"[1,]" j) ∧ (∀ j, ¬ Reads (fun _ => false) bytes!"01" j) ∧
    ∀ j, ¬ Reads (fun _ => false) bytes!"\"\\uDE00\"" j := by
  refine ⟨fun j h => ?_, fun j h => ?_, fun j h => ?_⟩
  · have h := (C82_reads _ _ _).2 h
    rw [show parseJson (fun _ => false) bytes!"[1,]" = none from rfl] at h; cases h
  · have h := (C82_reads _ _ _).2 h
    rw [show parseJson (fun _ => false) bytes!"01" = none from rfl] at h; cases h
  · have h := (C82_reads _ _ _).2 h
    rw [show parseJson (fun _ => false) bytes!"\"\\uDE00\"" = none from rfl] at h; cases h

/-- The finding: `{}`, a NUL byte, anything. -/
example : parseTileGridJSON (fun _ => false) bytes!"{}\x00xx" = .ok [] := rfl

end Verif.Props

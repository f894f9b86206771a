import Verif.Spec.LineOrder
import Verif.Props.C120
/-! # C121: the order of lines in the text files of the database -/
namespace Verif.Props
open Verif.Db Verif.Asm Verif.Spec Verif.Text Verif.Xc7

/-! ## Files -/

theorem generator_after {σ : Type} (after after' : Option UInt8) (sink : σ → Nat → Bytes → Outcome σ) (text : Bytes)
    (he : SameEnd text after after') (st : σ) : linesGenerator after' text sink st = linesGenerator after text sink st := by
  obtain ⟨ls, last, rfl, hl, hlast⟩ := text_lines text
  rw [linesGenerator_parts after' sink ls last hl hlast, linesGenerator_parts after sink ls last hl hlast]
  congr 1
  funext s
  exact crlf_last after after' sink _ last s (ended hlast he)

theorem finished_end {text : Bytes} {after : Option UInt8} (h : Finished text after) : SameEnd text (some 0) after := by
  rcases h with h | h | h
  · exact Or.inl h
  · exact Or.inr (Or.inl h)
  · exact Or.inr (Or.inr ⟨fun h => (by cases h), fun h' => absurd h' h⟩)

theorem segbits_after (junk : Bytes → Nat) {text : Bytes} {after : Option UInt8} (h : Finished text after) :
    parseSegmentsBits junk after text = parseSegmentsBits junk (some 0) text := by
  unfold parseSegmentsBits
  rw [generator_after (some 0) after _ text (finished_end h)]

theorem ppips_after {text : Bytes} {after : Option UInt8} (h : Finished text after) :
    parsePseudoPIPs after text = parsePseudoPIPs (some 0) text := by
  unfold parsePseudoPIPs
  rw [generator_after (some 0) after _ text (finished_end h)]

theorem pins_after {text : Bytes} {after : Option UInt8} (h : Finished text after) :
    parsePackagePins after text = parsePackagePins (some 0) text := by
  unfold parsePackagePins
  rw [generator_after (some 0) after _ text (finished_end h)]

/-- Entries in another order, no key twice: the same first entries. -/
theorem entries_moved {κ ν : Type} [BEq κ] [LawfulBEq κ] (es es' : List (Bytes × Option (κ × ν))) (h : es.Perm es')
    (hp : (es.filterMap (·.2)).Pairwise fun a b => a.1 ≠ b.1) (k : κ) : (es.filterMap (·.2)).lookup k = (es'.filterMap (·.2)).lookup k := by
  have h1 : (es.filterMap (·.2)).Perm (es'.filterMap (·.2)) := h.filterMap _
  have h2 : ((es.filterMap (·.2)).map (·.1)).Nodup := List.pairwise_map.2 hp
  have := perm_sameMap h1 h2 k
  revert this
  cases (es.filterMap (·.2)).lookup k <;> cases (es'.filterMap (·.2)).lookup k <;> intro this
  · rfl
  · exact this.elim
  · exact this.elim
  · exact congrArg some this

theorem entries_apart {κ ν : Type} {Line : Bytes → Option (κ × ν) → Prop} (es : List (Bytes × Option (κ × ν))) (hl : ∀ e ∈ es, Line e.1 e.2)
    (h : (es.map (·.1)).Pairwise fun l l' => ∀ k v k' v', Line l (some (k, v)) → Line l' (some (k', v')) → k ≠ k') :
    (es.filterMap (·.2)).Pairwise fun a b => a.1 ≠ b.1 := by
  rw [List.pairwise_filterMap]
  rw [List.pairwise_map] at h
  refine h.imp_of_mem ?_
  intro a b ha hb hab x hx y hy
  have h1 := hl a ha
  have h2 := hl b hb
  rw [hx] at h1
  rw [hy] at h2
  exact hab x.1 x.2 y.1 y.2 h1 h2

/-- Segment bits: lines in another order, no feature twice. -/
theorem C121_segbits (junk : Bytes → Nat) (b b' : Option UInt8) (text text' : Bytes) (hf : Finished text b) (hf' : Finished text' b')
    (ls ls' : List Bytes) (hc : LinesOf text ls) (hc' : LinesOf text' ls') (h : ls.Perm ls') (ha : SegLinesApart ls) :
    (parseSegmentsBits junk b text = .err ∧ parseSegmentsBits junk b' text' = .err) ∨
    ∃ m m', parseSegmentsBits junk b text = .ok m ∧ parseSegmentsBits junk b' text' = .ok m' ∧ ∀ k, m.lookup k = m'.lookup k := by
  rw [segbits_after junk hf, segbits_after junk hf']
  by_cases hbad : ∃ l ∈ ls, BadSegLine l
  · left
    refine ⟨(C37_iff junk 0 text ls hc).2 hbad, (C37_iff junk 0 text' ls' hc').2 ?_⟩
    obtain ⟨l, hl, hb⟩ := hbad
    exact ⟨l, h.mem_iff.1 hl, hb⟩
  · right
    obtain ⟨es, rfl, hes⟩ := choose_all (P := fun l e => SegLine l e) ls (by
      intro l hl
      rcases ha.1 l hl with h | h
      · exact h
      · exact (hbad ⟨l, hl, h⟩).elim)
    obtain ⟨es', hp, rfl⟩ := perm_preimage (·.1) h es rfl
    obtain ⟨m, h1, _, h2⟩ := C36_file junk 0 text es hc hes
    obtain ⟨m', h3, _, h4⟩ := C36_file junk 0 text' es' hc' fun l hl => hes l (hp.mem_iff.2 hl)
    refine ⟨m, m', h1, h3, fun k => ?_⟩
    rw [h2, h4]
    exact entries_moved es es' hp (entries_apart es hes ha.2) k

/-- Pseudo PIPs. -/
theorem C121_ppips (b b' : Option UInt8) (text text' : Bytes) (hf : Finished text b) (hf' : Finished text' b')
    (ls ls' : List Bytes) (hc : LinesOf text ls) (hc' : LinesOf text' ls') (h : ls.Perm ls') (ha : PipLinesApart ls) :
    (parsePseudoPIPs b text = .err ∧ parsePseudoPIPs b' text' = .err) ∨
    ∃ m m', parsePseudoPIPs b text = .ok m ∧ parsePseudoPIPs b' text' = .ok m' ∧ ∀ k, m.lookup k = m'.lookup k := by
  rw [ppips_after hf, ppips_after hf']
  by_cases hbad : ∃ l ∈ ls, ∀ e, ¬ PipLine l e
  · left
    obtain ⟨l, hl, hb⟩ := hbad
    exact ⟨C38_rejected 0 text ls hc l hl hb, C38_rejected 0 text' ls' hc' l (h.mem_iff.1 hl) hb⟩
  · right
    obtain ⟨es, rfl, hes⟩ := choose_all (P := fun l e => PipLine l e) ls (by
      intro l hl
      apply Classical.byContradiction
      intro hn
      exact hbad ⟨l, hl, fun e he => hn ⟨e, he⟩⟩)
    obtain ⟨es', hp, rfl⟩ := perm_preimage (·.1) h es rfl
    obtain ⟨m, h1, _, h2⟩ := C38_file 0 text es hc hes
    obtain ⟨m', h3, _, h4⟩ := C38_file 0 text' es' hc' fun l hl => hes l (hp.mem_iff.2 hl)
    refine ⟨m, m', h1, h3, fun k => ?_⟩
    rw [h2, h4]
    exact entries_moved es es' hp (entries_apart es hes ha) k

/-- Package pins: the same records in another order, and every tile in the same bank. -/
theorem C121_pins (b b' : Option UInt8) (text text' : Bytes) (hf : Finished text b) (hf' : Finished text' b')
    (header : Bytes) (rows rows' : List Bytes) (hc : LinesOf text (header :: rows)) (hc' : LinesOf text' (header :: rows')) (h : rows.Perm rows')
    (hlen : rows.length < 2 ^ 32) (ho : OneBankPerTile rows) :
    (parsePackagePins b text = .err ∧ parsePackagePins b' text' = .err) ∨
    ∃ m m', parsePackagePins b text = .ok m ∧ parsePackagePins b' text' = .ok m' ∧ m.Perm m' ∧
      ∀ p ∈ m, ∀ q ∈ m, p.tile = q.tile → p.bank = q.bank := by
  rw [pins_after hf, pins_after hf']
  have hlen' : rows'.length < 2 ^ 32 := by rw [← h.length_eq]; exact hlen
  by_cases hbad : ¬ Cells header headerCells ∨ ∃ r ∈ rows, ∀ e, ¬ PinRow r e
  · left
    refine ⟨C39_rejected 0 text header rows hc hlen hbad, C39_rejected 0 text' header rows' hc' hlen' ?_⟩
    rcases hbad with hb | ⟨l, hl, hb⟩
    · exact Or.inl hb
    · exact Or.inr ⟨l, h.mem_iff.1 hl, hb⟩
  · right
    have hh : Cells header headerCells := by
      apply Classical.byContradiction
      intro hn
      exact hbad (Or.inl hn)
    obtain ⟨es, rfl, hes⟩ := choose_all (P := fun l e => PinRow l e) rows (by
      intro l hl
      apply Classical.byContradiction
      intro hn
      exact hbad (Or.inr ⟨l, hl, fun e he => hn ⟨e, he⟩⟩))
    obtain ⟨es', hp, rfl⟩ := perm_preimage (·.1) h es rfl
    rw [List.length_map] at hlen hlen'
    refine ⟨_, _, C39_file 0 text header es hc hh hes hlen, C39_file 0 text' header es' hc' hh (fun l hl => hes l (hp.mem_iff.2 hl)) hlen',
      hp.filterMap _, ?_⟩
    intro p hpm q hqm ht
    obtain ⟨x, hx, hxe⟩ := List.mem_filterMap.1 hpm
    obtain ⟨y, hy, hye⟩ := List.mem_filterMap.1 hqm
    have h1 := hes x hx
    have h2 := hes y hy
    rw [hxe] at h1
    rw [hye] at h2
    exact ho x.1 (List.mem_map_of_mem hx) y.1 (List.mem_map_of_mem hy) p q h1 h2 ht

/-! ## The database -/

theorem indexed_segbits (env : Env) (root : Path) (paths : List (Bytes × DbPaths)) (h : indexTileTypes env root = .ok paths)
    (t : Bytes) (d : DbPaths) (hd : paths.lookup t = some d) (p : Path) (hp : d.segbits = some p ∨ d.blockRam = some p) :
    ∃ base name, p = base ++ [name] ∧ (bytes!"segbits_" : Bytes) <+: name := by
  obtain ⟨x, rfl⟩ := indexed_paths env root paths h t d hd
  have one : ∀ (base : Path) (name : Bytes), ifExists env (base ++ [name]) = some p → p = base ++ [name] := by
    intro base name h
    unfold ifExists at h
    split at h
    · exact (Option.some.inj h).symm
    · cases h
  rcases hp with hp | hp
  · exact ⟨_, _, one _ _ hp, by rw [List.append_assoc]; exact List.prefix_append _ _⟩
  · exact ⟨_, _, one _ _ hp, by rw [List.append_assoc]; exact List.prefix_append _ _⟩

/-- Two runs fail alike, or succeed with related results. -/
def Alike {α : Type} (R : α → α → Prop) (r r' : Outcome α) : Prop :=
  (r' = r ∧ ∀ a, r ≠ .ok a) ∨ ∃ m m', r = .ok m ∧ r' = .ok m' ∧ R m m'

theorem alike_refl {α : Type} {R : α → α → Prop} (hR : ∀ a, R a a) (r : Outcome α) : Alike R r r := by
  cases r with
  | ok m => exact Or.inr ⟨m, m, rfl, rfl, hR m⟩
  | err => exact Or.inl ⟨rfl, fun a h => by cases h⟩
  | abort => exact Or.inl ⟨rfl, fun a h => by cases h⟩
  | ub => exact Or.inl ⟨rfl, fun a h => by cases h⟩

theorem alike_bind {α β : Type} {R : α → α → Prop} {S : β → β → Prop} {r r' : Outcome α} {f f' : α → Outcome β} (h : Alike R r r')
    (hf : ∀ m m', R m m' → Alike S (f m) (f' m')) : Alike S (r >>= f) (r' >>= f') := by
  rcases h with ⟨rfl, hn⟩ | ⟨m, m', rfl, rfl, hR⟩
  · cases r' with
    | ok m => exact absurd rfl (hn m)
    | err => exact Or.inl ⟨rfl, fun a h => by cases h⟩
    | abort => exact Or.inl ⟨rfl, fun a h => by cases h⟩
    | ub => exact Or.inl ⟨rfl, fun a h => by cases h⟩
  · rw [Outcome.bind_ok, Outcome.bind_ok]
    exact hf m m' hR

theorem alike_ok {α : Type} {R : α → α → Prop} {m m' : α} (h : R m m') : Alike R (.ok m) (.ok m') := Or.inr ⟨m, m', rfl, rfl, h⟩

theorem alike_file {α : Type} {R : α → α → Prop} (hR : ∀ a, R a a) {env env' : Env} (hm : LinesMoved env env')
    (parse : Option UInt8 → Bytes → Outcome α) (p : Path)
    (h : ∀ text b text' b', env.read p = some (text, b) → env'.read p = some (text', b') → (text, b) = (text', b') ∨
      (parse b text = .err ∧ parse b' text' = .err) ∨ ∃ m m', parse b text = .ok m ∧ parse b' text' = .ok m' ∧ R m m') :
    Alike R (parseFile env parse p) (parseFile env' parse p) := by
  unfold parseFile
  cases h1 : env.read p with
  | none => rw [(hm.none_iff p).1 h1]; exact alike_refl hR _
  | some c =>
    cases h2 : env'.read p with
    | none => rw [(hm.none_iff p).2 h2] at h1; cases h1
    | some c' =>
      dsimp only
      rcases h c.1 c.2 c'.1 c'.2 h1 h2 with h3 | ⟨h3, h4⟩ | h3
      · have h3 : c = c' := h3
        rw [h3]; exact alike_refl hR _
      · rw [h3, h4]; exact Or.inl ⟨rfl, fun a h => by cases h⟩
      · exact Or.inr h3

/-- The same answers. -/
abbrev SameAnswers {κ ν : Type} [BEq κ] (m m' : List (κ × ν)) : Prop := ∀ k, m.lookup k = m'.lookup k

theorem sameAnswers_map {κ ν : Type} [BEq κ] {m m' : List (κ × ν)} (h : SameAnswers m m') : SameMap (· = ·) m m' := by
  intro k
  rw [← h k]
  cases m.lookup k <;> trivial

theorem alike_type {env env' : Env} (hm : LinesMoved env env') (root : Path) (paths : List (Bytes × DbPaths))
    (hi : indexTileTypes env root = .ok paths) (t : Bytes) (d : DbPaths) (hd : paths.lookup t = some d) :
    Alike SameSegBits (parseTileType env d) (parseTileType env' d) := by
  have hp : ∀ p, d.ppips = some p → ∃ base name, p = base ++ [name] ∧ (bytes!"ppips_" : Bytes) <+: name := fun p h =>
    indexed_ppips env root paths hi t d hd p h
  have hs : ∀ p, d.segbits = some p ∨ d.blockRam = some p → ∃ base name, p = base ++ [name] ∧ (bytes!"segbits_" : Bytes) <+: name := fun p h =>
    indexed_segbits env root paths hi t d hd p h
  have h1 : ∀ p, d.ppips = some p → Alike SameAnswers (parseFile env parsePseudoPIPs p) (parseFile env' parsePseudoPIPs p) := by
    intro p h
    obtain ⟨base, name, rfl, hn⟩ := hp p h
    refine alike_file (fun _ _ => rfl) hm _ _ fun text b text' b' hr hr' => ?_
    rcases hm.ppips base name text b text' b' hn hr hr' with h | ⟨hf, hf', ls, ls', hc, hc', hpm, ha⟩
    · exact Or.inl h
    · exact Or.inr (C121_ppips b b' text text' hf hf' ls ls' hc hc' hpm ha)
  have h2 : ∀ p, d.segbits = some p ∨ d.blockRam = some p →
      Alike SameAnswers (parseFile env (parseSegmentsBits env.junk) p) (parseFile env' (parseSegmentsBits env'.junk) p) := by
    intro p h
    rw [hm.junk_eq]
    obtain ⟨base, name, rfl, hn⟩ := hs p h
    refine alike_file (fun _ _ => rfl) hm _ _ fun text b text' b' hr hr' => ?_
    rcases hm.segbits base name text b text' b' hn hr hr' with h | ⟨hf, hf', ls, ls', hc, hc', hpm, ha⟩
    · exact Or.inl h
    · exact Or.inr (C121_segbits env.junk b b' text text' hf hf' ls ls' hc hc' hpm ha)
  obtain ⟨sb, br, pp⟩ := d
  unfold parseTileType
  refine alike_bind (R := SameAnswers) ?_ fun pips pips' hpips => alike_bind (R := SameMap SameAnswers) ?_ fun clb clb' hclb =>
    alike_bind (R := SameMap SameAnswers) ?_ fun ram ram' hram => alike_ok ⟨sameAnswers_map hpips, ?_⟩
  · cases pp with
    | none => exact alike_ok fun _ => rfl
    | some p => exact h1 p rfl
  · cases sb with
    | none => exact alike_ok (SameMap.refl (fun _ _ => rfl) _)
    | some p =>
      refine alike_bind (h2 p (Or.inl rfl)) fun m m' h => alike_ok ?_
      intro k
      cases k <;> first | exact h | trivial
  · cases br with
    | none => exact alike_ok (SameMap.refl (fun _ _ => rfl) _)
    | some p =>
      refine alike_bind (h2 p (Or.inr rfl)) fun m m' h => alike_ok ?_
      intro k
      cases k <;> first | exact h | trivial
  · intro k
    have a := hclb k
    have b := hram k
    rw [List.lookup_append, List.lookup_append]
    revert a b
    cases clb.lookup k <;> cases clb'.lookup k <;> cases ram.lookup k <;> cases ram'.lookup k <;> intro a b <;>
      first
        | trivial
        | exact a.elim
        | exact b.elim
        | exact sameAnswers_map a
        | exact sameAnswers_map b

theorem alike_tiles {env env' : Env} (hm : LinesMoved env env') (root : Path) (paths : List (Bytes × DbPaths))
    (hi : indexTileTypes env root = .ok paths) (t : Bytes) : SameBits (tilesDatabase env paths t) (tilesDatabase env' paths t) := by
  unfold tilesDatabase
  cases hd : paths.lookup t with
  | none => trivial
  | some d =>
    dsimp only
    rcases alike_type hm root paths hi t d hd with ⟨h, _⟩ | ⟨m, m', h1, h2, h3⟩
    · rw [h]; exact sameBits_refl _
    · rw [h1, h2]; exact h3

/-- The same pins, and every tile in the same banks. -/
structure SamePins (m m' : PackagePins) : Prop where
  mem : ∀ p, p ∈ m ↔ p ∈ m'
  banks : ∀ tile, (m.filter fun p => p.tile == tile).map (·.bank) = (m'.filter fun p => p.tile == tile).map (·.bank)

theorem perm_const {α : Type} {l l' : List α} (h : l.Perm l') (hc : ∀ a ∈ l, ∀ b ∈ l, a = b) : l = l' := by
  apply List.ext_getElem h.length_eq
  intro i h1 h2
  exact hc _ (List.getElem_mem h1) _ (h.mem_iff.2 (List.getElem_mem h2))

theorem samePins_perm {m m' : PackagePins} (h : m.Perm m') (ho : ∀ p ∈ m, ∀ q ∈ m, p.tile = q.tile → p.bank = q.bank) : SamePins m m' := by
  refine ⟨fun p => h.mem_iff, fun tile => perm_const ((h.filter _).map _) ?_⟩
  intro a ha b hb
  obtain ⟨p, hp, rfl⟩ := List.mem_map.1 ha
  obtain ⟨q, hq, rfl⟩ := List.mem_map.1 hb
  have h1 := List.mem_filter.1 hp
  have h2 := List.mem_filter.1 hq
  exact ho p h1.1 q h2.1 ((eq_of_beq h1.2).trans (eq_of_beq h2.2).symm)

theorem alike_pins {env env' : Env} (hm : LinesMoved env env') (p : Path) :
    Alike SamePins (parseFile env parsePackagePins (p ++ [bytes!"package_pins.csv"]))
      (parseFile env' parsePackagePins (p ++ [bytes!"package_pins.csv"])) := by
  refine alike_file (fun _ => ⟨fun _ => Iff.rfl, fun _ => rfl⟩) hm _ _ fun text b text' b' hr hr' => ?_
  rcases hm.pins p text b text' b' hr hr' with h | ⟨hf, hf', header, rows, rows', hc, hc', hp, hlen, ho⟩
  · exact Or.inl h
  · refine Or.inr ?_
    rcases C121_pins b b' text text' hf hf' header rows rows' hc hc' hp hlen ho with h | ⟨m, m', h1, h2, h3, h4⟩
    · exact Or.inl h
    · exact Or.inr ⟨m, m', h1, h2, samePins_perm h3 h4⟩

theorem inBank_pins {m m' : PackagePins} (h : SamePins m m') (part : Db.Part) (bank : Nat) (tile : Bytes) :
    InBank part m bank tile ↔ InBank part m' bank tile := by
  unfold InBank
  simp only [h.mem]

theorem sameAll_lines (g : TileGrid) (part : Db.Part) (order : List Bytes → List Bytes) (hord : ∀ l, (order l).Perm l)
    {bits bits' : Bytes → Outcome (Option SegBits)} (hb : ∀ t, SameBits (bits t) (bits' t)) {m m' : PackagePins} (hp : SamePins m m') :
    SameAll ⟨g, bits, Registry.create order part m, part⟩ ⟨g, bits', Registry.create order part m', part⟩ := by
  have hblock : ∀ b, SameBlock b b := by
    intro b
    refine ⟨rfl, rfl, rfl, rfl, ?_⟩
    cases b.alias? with
    | none => trivial
    | some a => exact ⟨rfl, rfl, .refl (fun _ => rfl) _⟩
  refine ⟨.refl (fun t => ⟨rfl, .refl hblock _⟩) _, hb, ?_, fun _ _ => Iff.rfl, ?_, ?_, ?_⟩
  · intro tile t t' h1 h2 pin
    rw [Option.some.inj (h1.symm.trans h2)]
  · intro tile
    show (Registry.create order part m).tileBanks tile = (Registry.create order part m').tileBanks tile
    rw [C43_tile_banks_list, C43_tile_banks_list, hp.banks]
  · intro bank tile
    show (∃ ts, (Registry.create order part m).tiles bank = some ts ∧ tile ∈ ts) ↔
      ∃ ts, (Registry.create order part m').tiles bank = some ts ∧ tile ∈ ts
    rw [← C43_two_way _ _ _ hord, ← C43_two_way _ _ _ hord, C43_tile_banks, C43_tile_banks, inBank_pins hp]
  · intro bank
    show (∃ ts, (Registry.create order part m).tiles bank = some ts) ↔
      ∃ ts, (Registry.create order part m').tiles bank = some ts
    have h1 := C43_unknown_bank order part m bank
    have h2 := C43_unknown_bank order part m' bank
    simp only [inBank_pins hp] at h1
    have h3 := h1.trans h2.symm
    cases hx : (Registry.create order part m).tiles bank with
    | none =>
      rw [hx] at h3
      rw [h3.1 rfl]
    | some ts =>
      cases hy : (Registry.create order part m').tiles bank with
      | none => rw [hx, hy] at h3; exact absurd (h3.2 rfl) (by simp)
      | some ts' => exact ⟨fun _ => ⟨ts', rfl⟩, fun _ => ⟨ts, rfl⟩⟩

theorem lines_info {env env' : Env} (hm : LinesMoved env env') (root : Path) (part : Bytes) : parsePartInfo env' root part = parsePartInfo env root part := by
  unfold parsePartInfo
  rw [path_last root kMapping kPartsYaml, path_last root kMapping kDevicesYaml, hm.other _ kPartsYaml (by decide) (by decide) (by decide),
    hm.other _ kDevicesYaml (by decide) (by decide) (by decide)]

theorem lines_json {α : Type} {env env' : Env} (hm : LinesMoved env env') (u : Json → Outcome α) (root : Path) (a name : Bytes)
    (h1 : ¬ (bytes!"segbits_" : Bytes) <+: name) (h2 : ¬ (bytes!"ppips_" : Bytes) <+: name) (h3 : name ≠ bytes!"package_pins.csv") :
    parseJsonFile env' u (root ++ [a, name]) = parseJsonFile env u (root ++ [a, name]) := by
  unfold parseJsonFile
  rw [path_last, hm.other _ name h1 h2 h3, hm.json_eq]

theorem lines_index {env env' : Env} (hm : LinesMoved env env') (root : Path) : indexTileTypes env' root = indexTileTypes env root := by
  unfold indexTileTypes databasePaths ifExists
  rw [hm.listing_eq, hm.exists_eq]

/-- A database with lines in another order: it loads exactly if it did, and what is read from it is the same. -/
theorem lines_database {env env' : Env} (hm : LinesMoved env env') (load : LoadOrder) (hload : LoadOk load) (root : Path) (part : Bytes) :
    (∀ db, parseDatabase env load root part = .ok db → ∃ db', parseDatabase env' load root part = .ok db' ∧
      SameAll db.tiles db'.tiles ∧ db'.tiles.grid = db.tiles.grid ∧ db'.tiles.part = db.tiles.part) ∧
    (∀ db', parseDatabase env' load root part = .ok db' → ∃ db, parseDatabase env load root part = .ok db ∧
      SameAll db.tiles db'.tiles ∧ db'.tiles.grid = db.tiles.grid ∧ db'.tiles.part = db.tiles.part) := by
  have hpins := alike_pins hm (root ++ [part])
  rw [← path_last] at hpins
  constructor
  · intro db h
    obtain ⟨info, grid, paths, p, pins, h1, h2, h3, h4, h5, rfl⟩ := parseDatabase_iff.1 h
    have h5' : parseFile env parsePackagePins (root ++ [part, bytes!"package_pins.csv"]) = .ok pins := h5
    rcases hpins with ⟨_, hn⟩ | ⟨m, m', h6, h7, h8⟩
    · exact absurd h5' (hn pins)
    · rw [h5'] at h6
      cases h6
      exact ⟨_, parseDatabase_iff.2 ⟨info, grid, paths, p, m', by rw [lines_info hm]; exact h1,
        by rw [lines_json hm _ _ _ _ (by decide) (by decide) (by decide)]; exact h2, by rw [lines_index hm]; exact h3,
        by rw [lines_json hm _ _ _ _ (by decide) (by decide) (by decide)]; exact h4, h7, rfl⟩,
        sameAll_lines _ _ _ hload.sets (alike_tiles hm root paths h3) h8, rfl, rfl⟩
  · intro db' h
    obtain ⟨info, grid, paths, p, pins, h1, h2, h3, h4, h5, rfl⟩ := parseDatabase_iff.1 h
    rw [lines_info hm] at h1
    rw [lines_json hm _ _ _ _ (by decide) (by decide) (by decide)] at h2 h4
    rw [lines_index hm] at h3
    have h5' : parseFile env' parsePackagePins (root ++ [part, bytes!"package_pins.csv"]) = .ok pins := h5
    rcases hpins with ⟨he, hn⟩ | ⟨m, m', h6, h7, h8⟩
    · rw [he] at h5'
      exact absurd h5' (hn pins)
    · rw [h5'] at h7
      cases h7
      exact ⟨_, parseDatabase_iff.2 ⟨info, grid, paths, p, m, h1, h2, h3, h4, h6, rfl⟩,
        sameAll_lines _ _ _ hload.sets (alike_tiles hm root paths h3) h8, rfl, rfl⟩

/-! ## The program -/

/-- The order of lines means nothing to the output. -/
theorem C121_program {env env' : Env} (hm : LinesMoved env env') (load load' : LoadOrder) (hload : LoadOk load) (hload' : LoadOk load')
    (ord ord' : HashOrder) (hord : Permutes ord) (hord' : Permutes ord') (inv : Invocation)
    (hset : ∀ db text, Starts env load inv db text → Settled db.tiles) (out o : OStream) (fuel : Nat) :
    main env load ord inv out fuel = some (.ok (0, o)) ↔ main env' load' ord' inv out fuel = some (.ok (0, o)) := by
  have settled : ∀ {T T' : Tiles}, T'.grid = T.grid → T'.part = T.part → Settled T → Settled T' := by
    intro T T' hg hp h
    refine ⟨?_, ?_, ?_, ?_⟩
    · unfold AliasesOk; rw [hg]; exact h.aliases
    · rw [hg]; exact h.onePudc
    · rw [hp]; exact h.banks
    · rw [hp]; exact h.buses
  have go : ∀ db db' text, Starts env load inv db text → Starts env' load inv db' text → SameAll db.tiles db'.tiles →
      db'.tiles.grid = db.tiles.grid → db'.tiles.part = db.tiles.part →
      (main env load ord inv out fuel = some (.ok (0, o)) ↔ main env' load' ord' inv out fuel = some (.ok (0, o))) := by
    intro db db' text hs hs' S hg hp
    have hst := hset db text hs
    have hst' := settled hg hp hst
    rw [← C66_reproducible env' load load' hload hload' ord ord' hord hord' inv (fun db2 text2 hs2 => by
      obtain ⟨rfl, rfl⟩ := starts_unique hs' hs2
      exact hst')]
    constructor
    · intro h
      rcases C58_stages_partial env load ord inv out o fuel 0 h with ⟨h, _⟩ | ⟨_, db1, text1, d, frames, hs1, ha, he⟩
      · cases h
      · obtain ⟨rfl, rfl⟩ := starts_unique hs hs1
        exact transfer hload hload hord hord hs hs' S hst.aliases (by rw [hp]) ha he
    · intro h
      rcases C58_stages_partial env' load ord inv out o fuel 0 h with ⟨h, _⟩ | ⟨_, db1, text1, d, frames, hs1, ha, he⟩
      · cases h
      · obtain ⟨rfl, rfl⟩ := starts_unique hs' hs1
        exact transfer hload hload hord hord hs' hs S.symm hst'.aliases (by rw [hp]) ha he
  constructor
  · intro h
    rcases C58_stages_partial env load ord inv out o fuel 0 h with ⟨h, _⟩ | ⟨_, db, text, _, _, hs, _, _⟩
    · cases h
    · obtain ⟨a1, a2, a3, path, a4, a5, a6, a7⟩ := id hs
      obtain ⟨db', h1, S, hg, hp⟩ := (lines_database hm load hload [path] inv.part).1 db a7
      exact (go db db' text hs ⟨a1, a2, a3, path, a4, a5, by rw [hm.exists_eq]; exact a6, h1⟩ S hg hp).1 h
  · intro h
    rcases C58_stages_partial env' load' ord' inv out o fuel 0 h with ⟨h, _⟩ | ⟨_, db2, text, _, _, hs2, _, _⟩
    · cases h
    · obtain ⟨_, _, h1, _⟩ := canonical hload' hs2
      obtain ⟨db', hs', _⟩ := h1 load hload
      obtain ⟨a1, a2, a3, path, a4, a5, a6, a7⟩ := id hs'
      obtain ⟨db, h2, S, hg, hp⟩ := (lines_database hm load hload [path] inv.part).2 db' a7
      exact (go db db' text ⟨a1, a2, a3, path, a4, a5, by rw [← hm.exists_eq]; exact a6, h2⟩ hs' S hg hp).2 h

/-! ## An example -/

/-- The small directory with two features and two pins. -/
def lineEnv : Env :=
  { fileEnv with
    read := fun p =>
      if p = [bytes!"d", bytes!"f", segbitsFile bytes!"x"] then some (bytes!"X.F 03_33\nX.G 03_34 !03_35\n", none)
      else if p = [bytes!"d", bytes!"p", kPackagePins] then some (bytes!"pin,bank,site,tile,pin_function\nA,1,S0,U,f\nB,2,S1,V,g\n", none)
      else fileEnv.read p }

/-- The same with the lines turned around; the last line of the one file without a newline, but with a byte behind it. -/
def lineEnv' : Env :=
  { fileEnv with
    read := fun p =>
      if p = [bytes!"d", bytes!"f", segbitsFile bytes!"x"] then some (bytes!"X.G 03_34 !03_35\nX.F 03_33", some 0x61)
      else if p = [bytes!"d", bytes!"p", kPackagePins] then some (bytes!"pin,bank,site,tile,pin_function\nB,2,S1,V,g\nA,1,S0,U,f\n", none)
      else fileEnv.read p }

theorem pin_row {l : Bytes} {es : PackagePins} (hn : 0x0a ∉ l)
    (hp : parsePackagePins (some 0) (bytes!"pin,bank,site,tile,pin_function\n" ++ l ++ bytes!"\n") = .ok es) (hh : Cells bytes!"pin,bank,site,tile,pin_function" headerCells) (p : PackagePin)
    (h : PinRow l (some p)) : [p] = es := by
  have := C39_file 0 (bytes!"pin,bank,site,tile,pin_function\n" ++ l ++ bytes!"\n") bytes!"pin,bank,site,tile,pin_function" [(l, some p)]
    ⟨by
      intro x hx
      rcases List.mem_cons.1 hx with hx | hx
      · rw [hx]; decide
      · rw [List.mem_singleton.1 hx]; exact hn, Or.inl (by simp [unlines])⟩ hh (by intro x hx; rw [List.mem_singleton.1 hx]; exact h) (by rw [List.length_singleton]; decide)
  rw [hp] at this
  exact (Outcome.ok.inj this).symm

theorem line_header : Cells bytes!"pin,bank,site,tile,pin_function" headerCells := by
  have h := cells_spec bytes!"pin,bank,site,tile,pin_function"
  have e : segs bytes!"pin,bank,site,tile,pin_function" = headerCells := by decide +kernel
  rw [e] at h; exact h

theorem line_F : SegLine bytes!"X.F 03_33" (some ((bytes!"X.F", 0), [⟨3, 33, true⟩])) := by
  refine SegLine.entry _ bytes!"X.F" _ [(bytes!"03_33", ⟨3, 33, true⟩)] ?_ (by decide) (Or.inr ⟨Or.inl (by decide), rfl⟩) ?_
  · have h := fields_spec bytes!"X.F 03_33"
    have e : fields bytes!"X.F 03_33" = [bytes!"X.F", bytes!"03_33"] := by decide +kernel
    rw [e] at h; exact h
  · intro b hb
    rw [List.mem_singleton.1 hb]
    exact (segmentBit_iff _ _).1 (by decide +kernel)

theorem line_G : SegLine bytes!"X.G 03_34 !03_35" (some ((bytes!"X.G", 0), [⟨3, 34, true⟩, ⟨3, 35, false⟩])) := by
  refine SegLine.entry _ bytes!"X.G" _ [(bytes!"03_34", ⟨3, 34, true⟩), (bytes!"!03_35", ⟨3, 35, false⟩)] ?_ (by decide) (Or.inr ⟨Or.inl (by decide), rfl⟩) ?_
  · have h := fields_spec bytes!"X.G 03_34 !03_35"
    have e : fields bytes!"X.G 03_34 !03_35" = [bytes!"X.G", bytes!"03_34", bytes!"!03_35"] := by decide +kernel
    rw [e] at h; exact h
  · intro b hb
    rcases List.mem_cons.1 hb with rfl | hb
    · exact (segmentBit_iff _ _).1 (by decide +kernel)
    · rw [List.mem_singleton.1 hb]
      exact (segmentBit_iff _ _).1 (by decide +kernel)

theorem line_apart : SegLinesApart [bytes!"X.F 03_33", bytes!"X.G 03_34 !03_35"] := by
  refine ⟨?_, ?_⟩
  · intro l hl
    rcases List.mem_cons.1 hl with rfl | hl
    · exact Or.inl ⟨_, line_F⟩
    · rw [List.mem_singleton.1 hl]; exact Or.inl ⟨_, line_G⟩
  · refine List.pairwise_cons.2 ⟨?_, List.pairwise_singleton _ _⟩
    intro l hl k bits k' bits' h h'
    rw [List.mem_singleton.1 hl] at h'
    have e := (segEntry_spec (fun _ => 0) h).symm.trans (segEntry_spec (fun _ => 0) line_F)
    have e' := (segEntry_spec (fun _ => 0) h').symm.trans (segEntry_spec (fun _ => 0) line_G)
    have e := Option.some.inj (Outcome.ok.inj e)
    have e' := Option.some.inj (Outcome.ok.inj e')
    rw [(Prod.mk.inj e).1, (Prod.mk.inj e').1]
    decide

theorem line_banks : OneBankPerTile [bytes!"A,1,S0,U,f", bytes!"B,2,S1,V,g"] := by
  have hA : ∀ p, PinRow bytes!"A,1,S0,U,f" (some p) → p.bank = 1 ∧ p.tile = bytes!"U" := by
    intro p h
    have := pin_row (by decide) (es := [⟨bytes!"A", 1, bytes!"S0", bytes!"U", bytes!"f"⟩]) (by decide +kernel) line_header p h
    rw [List.singleton_inj.1 this]
    exact ⟨rfl, rfl⟩
  have hB : ∀ p, PinRow bytes!"B,2,S1,V,g" (some p) → p.bank = 2 ∧ p.tile = bytes!"V" := by
    intro p h
    have := pin_row (by decide) (es := [⟨bytes!"B", 2, bytes!"S1", bytes!"V", bytes!"g"⟩]) (by decide +kernel) line_header p h
    rw [List.singleton_inj.1 this]
    exact ⟨rfl, rfl⟩
  intro r hr r' hr' p p' h h' ht
  rcases List.mem_cons.1 hr with rfl | hr <;> rcases List.mem_cons.1 hr' with rfl | hr'
  · rw [(hA p h).1, (hA p' h').1]
  · rw [List.mem_singleton.1 hr'] at h'
    rw [(hA p h).2, (hB p' h').2] at ht
    exact absurd ht (by decide)
  · rw [List.mem_singleton.1 hr] at h
    rw [(hB p h).2, (hA p' h').2] at ht
    exact absurd ht (by decide)
  · rw [List.mem_singleton.1 hr] at h
    rw [List.mem_singleton.1 hr'] at h'
    rw [(hB p h).1, (hB p' h').1]

theorem lineEnv_read (p : Path) : (lineEnv'.read p = lineEnv.read p) ∨
    (p = [bytes!"d", bytes!"f", segbitsFile bytes!"x"] ∧ lineEnv.read p = some (bytes!"X.F 03_33\nX.G 03_34 !03_35\n", none) ∧
      lineEnv'.read p = some (bytes!"X.G 03_34 !03_35\nX.F 03_33", some 0x61)) ∨
    (p = [bytes!"d", bytes!"p", kPackagePins] ∧
      lineEnv.read p = some (bytes!"pin,bank,site,tile,pin_function\nA,1,S0,U,f\nB,2,S1,V,g\n", none) ∧
      lineEnv'.read p = some (bytes!"pin,bank,site,tile,pin_function\nB,2,S1,V,g\nA,1,S0,U,f\n", none)) := by
  by_cases h1 : p = [bytes!"d", bytes!"f", segbitsFile bytes!"x"]
  · subst h1; exact Or.inr (Or.inl ⟨rfl, by decide +kernel, by decide +kernel⟩)
  · by_cases h2 : p = [bytes!"d", bytes!"p", kPackagePins]
    · subst h2; exact Or.inr (Or.inr ⟨rfl, by decide +kernel, by decide +kernel⟩)
    · left
      unfold lineEnv lineEnv'
      dsimp only
      rw [if_neg h1, if_neg h2, if_neg h1, if_neg h2]

theorem line_last {p : Path} {name : Bytes} {q : Path} (h : p ++ [name] = q) : q.getLast? = some name := by
  rw [← h, List.getLast?_concat]

theorem lineEnv_moved : LinesMoved lineEnv lineEnv' where
  exists_eq := rfl
  listing_eq := rfl
  json_eq := rfl
  junk_eq := rfl
  other := by
    intro p name h1 h2 h3
    rcases lineEnv_read (p ++ [name]) with h | ⟨h, _⟩ | ⟨h, _⟩
    · exact h
    · have := Option.some.inj (line_last h).symm
      exfalso; apply h1; rw [this]; decide
    · exact absurd (Option.some.inj (line_last h).symm) h3
  none_iff := by
    intro p
    rcases lineEnv_read p with h | ⟨_, h, h'⟩ | ⟨_, h, h'⟩
    · rw [h]
    · rw [h, h']; simp
    · rw [h, h']; simp
  segbits := by
    intro p name text b text' b' hn h1 h2
    rcases lineEnv_read (p ++ [name]) with h | ⟨_, h, h'⟩ | ⟨h, _⟩
    · rw [h, h1] at h2; exact Or.inl (Option.some.inj h2)
    · rw [h] at h1; rw [h'] at h2
      cases h1; cases h2
      refine Or.inr ⟨Or.inr (Or.inl (by decide)), Or.inr (Or.inr (by decide)), [bytes!"X.F 03_33", bytes!"X.G 03_34 !03_35"],
        [bytes!"X.G 03_34 !03_35", bytes!"X.F 03_33"], ⟨by decide, Or.inl (by decide)⟩,
        ⟨by decide, Or.inr ⟨[bytes!"X.G 03_34 !03_35"], bytes!"X.F 03_33", rfl, by decide, by decide⟩⟩, by decide, line_apart⟩
    · have := Option.some.inj (line_last h).symm
      exfalso; rw [this] at hn; revert hn; decide
  ppips := by
    intro p name text b text' b' hn h1 h2
    rcases lineEnv_read (p ++ [name]) with h | ⟨h, _⟩ | ⟨h, _⟩
    · rw [h, h1] at h2; exact Or.inl (Option.some.inj h2)
    · have := Option.some.inj (line_last h).symm
      exfalso; rw [this] at hn; revert hn; decide
    · have := Option.some.inj (line_last h).symm
      exfalso; rw [this] at hn; revert hn; decide
  pins := by
    intro p text b text' b' h1 h2
    rcases lineEnv_read (p ++ [bytes!"package_pins.csv"]) with h | ⟨h, _⟩ | ⟨_, h, h'⟩
    · rw [h, h1] at h2; exact Or.inl (Option.some.inj h2)
    · have := line_last h
      exfalso; revert this; decide
    · rw [h] at h1; rw [h'] at h2
      cases h1; cases h2
      refine Or.inr ⟨Or.inr (Or.inl (by decide)), Or.inr (Or.inl (by decide)), bytes!"pin,bank,site,tile,pin_function",
        [bytes!"A,1,S0,U,f", bytes!"B,2,S1,V,g"], [bytes!"B,2,S1,V,g", bytes!"A,1,S0,U,f"], ⟨by decide, Or.inl (by decide)⟩,
        ⟨by decide, Or.inl (by decide)⟩, by decide, by decide, line_banks⟩

def linePins : PackagePins := [⟨bytes!"A", 1, bytes!"S0", bytes!"U", bytes!"f"⟩, ⟨bytes!"B", 2, bytes!"S1", bytes!"V", bytes!"g"⟩]

def lineTiles : Tiles := { fileTiles with bits := tilesDatabase lineEnv filePaths, banks := Registry.create (fun l => l) smallDesc linePins }

theorem line_database : parseDatabase lineEnv sameLoad [bytes!"d"] bytes!"p" = .ok ⟨lineTiles, []⟩ := by
  have h1 : parsePartInfo lineEnv [bytes!"d"] bytes!"p" = .ok ⟨bytes!"d", bytes!"f", bytes!"k", bytes!"1"⟩ := by decide +kernel
  have h2 : indexTileTypes lineEnv [bytes!"d"] = .ok filePaths := by decide +kernel
  have h3 : parseJsonFile lineEnv parseTileGrid ([bytes!"d"] ++ [bytes!"f", kTilegrid]) = .ok [(bytes!"T", fileT)] := file_grid
  have h4 : parseJsonFile lineEnv parsePart ([bytes!"d"] ++ [bytes!"p", kPartJson]) = .ok smallDesc := file_part
  have h5 : parseFile lineEnv parsePackagePins ([bytes!"d"] ++ [bytes!"p", kPackagePins]) = .ok linePins := by decide +kernel
  exact parseDatabase_iff.2 ⟨_, _, _, _, _, h1, h3, h2, h4, h5, rfl⟩

theorem line_starts : Starts lineEnv sameLoad fileInv ⟨lineTiles, []⟩ bytes!"T.F\n" :=
  ⟨by decide, by decide, Or.inr ⟨fun _ _ h => by simp [fileInv] at h, rfl⟩, bytes!"d", Or.inr ⟨rfl, rfl⟩, by decide, by decide, line_database⟩

theorem line_settled : Settled lineTiles := ⟨file_settled.aliases, file_settled.onePudc, file_settled.banks, file_settled.buses⟩

theorem line_frames : (assembleFrames sameOrder bytes!"T.F\n" ⟨lineTiles, []⟩ [] >>= fun r => .ok r.2) =
    (assembleFrames sameOrder bytes!"T.F\n" ⟨fileTiles, []⟩ [] >>= fun r => .ok r.2) := by decide +kernel

/-- With the lines of both files turned around, and the hash maps as well, the program succeeds. -/
example : ∃ fuel o, main lineEnv' reversed sameOrder fileInv ⟨[], 0, true, false⟩ fuel = some (.ok (0, o)) := by
  obtain ⟨_, _, fuel0, h⟩ := file_example
  obtain ⟨o, _, h1, _⟩ := h fuel0 (Nat.le_refl _)
  refine ⟨fuel0, o, (C121_program lineEnv_moved sameLoad reversed sameLoad_ok reversed_ok sameOrder sameOrder sameOrder_permutes
    sameOrder_permutes fileInv ?_ _ o fuel0).1 ?_⟩
  · intro db text hs
    obtain ⟨rfl, rfl⟩ := starts_unique line_starts hs
    exact line_settled
  · rcases C58_stages_partial _ _ _ _ _ _ _ _ h1 with ⟨h, _⟩ | ⟨_, db, text, db', fr, hs, a8, a9⟩
    · cases h
    · obtain ⟨rfl, rfl⟩ := starts_unique file_starts hs
      have hl := line_frames
      rw [a8, Outcome.bind_ok] at hl
      obtain ⟨⟨db2, fr2⟩, a10, a11⟩ := Outcome.bind_eq_ok.1 hl
      have a11 : fr2 = fr := Outcome.ok.inj a11
      subst a11
      refine main_started _ _ _ _ _ _ _ _ line_starts _ _ a10 _ ?_
      have r1 := (C45_loaded _ _ sameLoad_ok _ _ _ file_database)
      have r2 := (C45_loaded _ _ sameLoad_ok _ _ _ line_database)
      have e1 : db'.tiles.part = smallDesc := by
        obtain ⟨_, _, h1, h1r, _⟩ := assemble_ok r1.1 sameOrder sameOrder_permutes _ _ r1.2 (assemble_inv r1.1 sameOrder sameOrder_permutes _ _ r1.2 _ a8)
        rw [a8] at h1
        cases h1
        rw [(reachable_cache h1r).1]; rfl
      have e2 : db2.tiles.part = smallDesc := by
        obtain ⟨_, _, h1, h1r, _⟩ := assemble_ok r2.1 sameOrder sameOrder_permutes _ _ r2.2 (assemble_inv r2.1 sameOrder sameOrder_permutes _ _ r2.2 _ a10)
        rw [a10] at h1
        cases h1
        rw [(reachable_cache h1r).1]; rfl
      rw [e1] at a9
      rw [e2]
      exact a9

/-! ## Why the conditions -/

/-- A feature listed twice: the first of the two lines counts. -/
theorem C121_order_twice (junk : Bytes → Nat) : ∃ text text' ls ls' m m', LinesOf text ls ∧ LinesOf text' ls' ∧ ls.Perm ls' ∧
    (∀ l ∈ ls, ∃ e, SegLine l e) ∧ parseSegmentsBits junk none text = .ok m ∧ parseSegmentsBits junk none text' = .ok m' ∧
    m.lookup (bytes!"X.F", 0) = some [⟨3, 33, true⟩] ∧ m'.lookup (bytes!"X.F", 0) = some [⟨4, 33, true⟩] := by
  refine ⟨bytes!"X.F 03_33\nX.F 04_33\n", bytes!"X.F 04_33\nX.F 03_33\n", [bytes!"X.F 03_33", bytes!"X.F 04_33"], [bytes!"X.F 04_33", bytes!"X.F 03_33"],
    _, _, ⟨by decide, Or.inl (by decide)⟩, ⟨by decide, Or.inl (by decide)⟩, by decide, ?_, rfl, rfl, rfl, rfl⟩
  intro l hl
  rcases List.mem_cons.1 hl with rfl | hl
  · exact ⟨_, line_F⟩
  · rw [List.mem_singleton.1 hl]
    refine ⟨_, SegLine.entry _ bytes!"X.F" _ [(bytes!"04_33", ⟨4, 33, true⟩)] ?_ (by decide) (Or.inr ⟨Or.inl (by decide), rfl⟩) ?_⟩
    · have h := fields_spec bytes!"X.F 04_33"
      have e : fields bytes!"X.F 04_33" = [bytes!"X.F", bytes!"04_33"] := by decide +kernel
      rw [e] at h; exact h
    · intro b hb
      rw [List.mem_singleton.1 hb]
      exact (segmentBit_iff _ _).1 (by decide +kernel)

/-- Pins of one tile in two banks: the bank the tile is in is that of the first of them. -/
theorem C121_order_banks (b : Option UInt8) (order : List Bytes → List Bytes) (part : Db.Part) (hp : part.iobanks = []) : ∃ m m',
    parsePackagePins b bytes!"pin,bank,site,tile,pin_function\nA,1,S0,U,f\nB,2,S1,U,g\n" = .ok m ∧
    parsePackagePins b bytes!"pin,bank,site,tile,pin_function\nB,2,S1,U,g\nA,1,S0,U,f\n" = .ok m' ∧ m.Perm m' ∧
    (Registry.create order part m).tileBanks bytes!"U" = [1, 2] ∧ (Registry.create order part m').tileBanks bytes!"U" = [2, 1] := by
  refine ⟨[⟨bytes!"A", 1, bytes!"S0", bytes!"U", bytes!"f"⟩, ⟨bytes!"B", 2, bytes!"S1", bytes!"U", bytes!"g"⟩],
    [⟨bytes!"B", 2, bytes!"S1", bytes!"U", bytes!"g"⟩, ⟨bytes!"A", 1, bytes!"S0", bytes!"U", bytes!"f"⟩], rfl, rfl, by decide, ?_, ?_⟩
  · rw [C43_tile_banks_list, hp]; rfl
  · rw [C43_tile_banks_list, hp]; rfl

/-- A last line without a newline, and nothing behind it, cannot be read; anywhere else the line can be. -/
theorem C121_order_end (junk : Bytes → Nat) : parseSegmentsBits junk none bytes!"X.F 03_33\nX.G 03_34" = .ub ∧
    ∃ m, parseSegmentsBits junk none bytes!"X.G 03_34\nX.F 03_33\n" = .ok m := ⟨rfl, _, rfl⟩

end Verif.Props

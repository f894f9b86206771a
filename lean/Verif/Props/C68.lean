import Verif.Spec.DbSafe
import Verif.Props.C41_C42
/-! # C68: malformed JSON databases are reported, not crashed on -/
namespace Verif.Props
open Verif.Db Verif.Spec Verif.Text

/-- A value or an error. -/
def Clean {α : Type} (o : Outcome α) : Prop := (∃ a, o = .ok a) ∨ o = .err

theorem clean_ok {α : Type} (a : α) : Clean (.ok a) := Or.inl ⟨a, rfl⟩
theorem clean_err {α : Type} : Clean (.err : Outcome α) := Or.inr rfl

theorem clean_bind {α β : Type} {o : Outcome α} {f : α → Outcome β} (h : Clean o) (hf : ∀ a, o = .ok a → Clean (f a)) :
    Clean (o >>= f) := by
  rcases h with ⟨a, rfl⟩ | rfl
  · exact hf a rfl
  · exact clean_err

theorem clean_foldlM {α β : Type} (f : β → α → Outcome β) (l : List α) (h : ∀ b, ∀ a ∈ l, Clean (f b a)) (b : β) :
    Clean (l.foldlM f b) := by
  induction l generalizing b with
  | nil => exact clean_ok b
  | cons a l ih =>
    rw [List.foldlM_cons]
    exact clean_bind (h b a (by simp)) fun b' _ => ih (fun b a ha => h b a (by simp [ha])) b'

theorem clean_mapM {α β : Type} (f : α → Outcome β) (l : List α) (h : ∀ a ∈ l, Clean (f a)) : Clean (l.mapM f) := by
  induction l with
  | nil => rw [List.mapM_nil]; exact clean_ok _
  | cons a l ih =>
    rw [List.mapM_cons]
    exact clean_bind (h a (by simp)) fun b _ => clean_bind (ih fun a ha => h a (by simp [ha])) fun bs _ => clean_ok _

theorem clean_getMember {α : Type} (u : Json → Outcome α) (j : Json) (name : Bytes)
    (h : ∀ v, Member j name v → Clean (u v)) : Clean (getMember u j name) := by
  cases j with
  | obj ms =>
    unfold getMember findMember
    dsimp only
    cases hl : ms.lookup name with
    | none => exact clean_err
    | some v => exact h v ⟨ms, rfl, hl⟩
  | _ => exact clean_err

theorem clean_optGetMember {α : Type} (u : Json → Outcome α) (j : Json) (name : Bytes)
    (h : ∀ v, Member j name v → Clean (u v)) : Clean (optGetMember u j name) := by
  cases j with
  | obj ms =>
    unfold optGetMember findMember
    dsimp only
    cases hl : ms.lookup name with
    | none => exact clean_ok _
    | some v => exact clean_bind (h v ⟨ms, rfl, hl⟩) fun _ _ => clean_ok _
  | _ => exact clean_err

theorem clean_asString (v : Json) : Clean (asString v) := by cases v <;> first | exact clean_ok _ | exact clean_err

theorem clean_asU32 (v : Json) : Clean (asU32 v) := by
  cases v <;> first | exact clean_err | skip
  unfold asU32; dsimp only; split
  · exact clean_ok _
  · exact clean_err

theorem clean_asI32 (v : Json) : Clean (asI32 v) := by
  cases v <;> first | exact clean_err | skip
  unfold asI32; dsimp only; split
  · exact clean_ok _
  · exact clean_err

theorem clean_asStringMap (v : Json) : Clean (asStringMap v) := by
  cases v <;> first | exact clean_err | skip
  exact clean_foldlM _ _ (fun _ a _ => clean_bind (clean_asString a.2) fun _ _ => clean_ok _) _

theorem clean_asStrings (v : Json) : Clean (asStrings v) := by
  cases v <;> first | exact clean_err | skip
  refine clean_mapM _ _ fun a _ => ?_
  cases a <;> first | exact clean_ok _ | exact clean_err

theorem clean_baseAddress (s : Bytes) : Clean (baseAddress s) := by
  unfold baseAddress
  split
  · exact clean_err
  · exact clean_ok _

theorem clean_asAlias (v : Json) : Clean (asAlias v) :=
  clean_bind (clean_getMember _ _ _ fun _ _ => clean_asStringMap _) fun _ _ =>
  clean_bind (clean_getMember _ _ _ fun _ _ => clean_asU32 _) fun _ _ =>
  clean_bind (clean_getMember _ _ _ fun _ _ => clean_asString _) fun _ _ => clean_ok _

theorem clean_asBitsBlock (v : Json) : Clean (asBitsBlock v) :=
  clean_bind (clean_optGetMember _ _ _ fun _ _ => clean_asAlias _) fun _ _ =>
  clean_bind (clean_getMember _ _ _ fun _ _ => clean_asString _) fun _ _ =>
  clean_bind (clean_baseAddress _) fun _ _ =>
  clean_bind (clean_getMember _ _ _ fun _ _ => clean_asU32 _) fun _ _ =>
  clean_bind (clean_getMember _ _ _ fun _ _ => clean_asI32 _) fun _ _ =>
  clean_bind (clean_getMember _ _ _ fun _ _ => clean_asU32 _) fun _ _ => clean_ok _

theorem clean_asBits (ms : List (Bytes × Json)) : Clean (asBits (.obj ms)) := by
  refine clean_foldlM _ _ (fun _ a _ => ?_) _
  split
  · exact clean_err
  · exact clean_bind (clean_asBitsBlock _) fun _ _ => clean_ok _

theorem clean_asTile (v : Json) (h : ∀ b, Member v bytes!"bits" b → ∃ o, b = .obj o) : Clean (asTile v) :=
  clean_bind (clean_getMember _ _ _ fun _ _ => clean_asString _) fun _ _ =>
  clean_bind (clean_getMember _ _ _ fun _ _ => clean_asU32 _) fun _ _ =>
  clean_bind (clean_getMember _ _ _ fun _ _ => clean_asU32 _) fun _ _ =>
  clean_bind (clean_optGetMember _ _ _ fun _ _ => clean_asString _) fun _ _ =>
  clean_bind (clean_getMember _ _ _ fun b hb => by obtain ⟨o, rfl⟩ := h b hb; exact clean_asBits o) fun _ _ =>
  clean_bind (clean_getMember _ _ _ fun _ _ => clean_asStringMap _) fun _ _ =>
  clean_bind (clean_getMember _ _ _ fun _ _ => clean_asStringMap _) fun _ _ =>
  clean_bind (clean_getMember _ _ _ fun _ _ => clean_asStrings _) fun _ _ => clean_ok _

/-- A tile grid whose `bits` members are objects is read, or rejected with an error. -/
theorem C68_grid (j : Json) (h : GridSafe j) :
    (∃ g, parseTileGrid j = .ok g ∧ GridJson (fun s n => ∀ m, HexNumber s m → n = m ∧ m < 2 ^ 63) j g) ∨
    (parseTileGrid j = .err ∧ ∀ g, ¬ GridJson HexText j g) := by
  have hc : Clean (parseTileGrid j) := by
    cases j with
    | obj ms =>
      exact clean_foldlM _ _ (fun _ a ha => clean_bind (clean_asTile a.2 (h ms rfl a ha)) fun _ _ => clean_ok _) _
    | _ => exact clean_err
  rcases hc with ⟨g, hg⟩ | he
  · exact Or.inl ⟨g, hg, C42_sound j g hg⟩
  · refine Or.inr ⟨he, fun g hg => ?_⟩
    rw [C42_complete j g hg] at he
    cases he

/-! ## Parts -/

theorem clean_nextKey (i : Nat) (name : Bytes) (h : ∀ n, IntText (untilNul name) n → n = (i : Int)) :
    nextKey ((i : Int) - 1) name = .err ∨ nextKey ((i : Int) - 1) name = .ok (i : Int) := by
  unfold nextKey
  cases ha : atoiI32 (cstr name) with
  | none => exact Or.inl rfl
  | some key =>
    have hk := h key ((atoiI32_iff _ _).1 ha)
    subst hk
    dsimp only
    rw [if_neg (by omega), if_pos rfl]
    exact Or.inr rfl

theorem clean_sequence {α : Type} (u : Json → Outcome α) (ms : List (Bytes × Json)) (hu : ∀ e ∈ ms, Clean (u e.2))
    (acc : List α) (i : Nat) (hp : ∀ (j : Nat) e, ms[j]? = some e → ∀ n, IntText (untilNul e.1) n → n = ((i + j : Nat) : Int)) :
    Clean (ms.foldlM (fun (s : Int × List α) e => do
      let key ← nextKey s.1 e.1
      let n ← u e.2
      pure (key, s.2 ++ [n])) ((i : Int) - 1, acc)) := by
  induction ms generalizing acc i with
  | nil => exact clean_ok _
  | cons e ms ih =>
    rw [List.foldlM_cons]
    dsimp only
    rcases clean_nextKey i e.1 (hp 0 e rfl) with hk | hk
    · rw [hk]; exact clean_err
    · rw [hk]
      rcases hu e (by simp) with ⟨a, ha⟩ | ha
      · rw [ha]
        have := ih (fun e he => hu e (by simp [he])) (acc ++ [a]) (i + 1) fun j x hj n hn => by
          rw [hp (j + 1) x hj n hn]; omega
        rw [show (((i + 1 : Nat) : Int) - 1) = (i : Int) by omega] at this
        exact this
      · rw [ha]; exact clean_err

theorem clean_asColumns (v : Json) (h : ∀ ms, v = .obj ms → InSequence ms) : Clean (asColumns v) := by
  cases v with
  | obj ms =>
    refine clean_bind ?_ fun _ _ => clean_ok _
    exact clean_sequence (fun x => getMember asU32 x kFrameCount) ms
      (fun e _ => clean_getMember _ _ _ fun _ _ => clean_asU32 _) [] 0 fun j e hj n hn => by
        rw [h ms rfl j e hj n hn]; omega
  | _ => exact clean_err

theorem clean_asRow (v : Json)
    (h : ∀ buses, v = .obj buses → ∀ bus ∈ buses, ∀ columns, Member bus.2 bytes!"configuration_columns" (.obj columns) → InSequence columns) :
    Clean (asRow v) := by
  cases v with
  | obj ms =>
    refine clean_foldlM _ _ (fun _ a ha => ?_) _
    split
    · exact clean_err
    · refine clean_bind (clean_getMember _ _ _ fun c hc => clean_asColumns c ?_) fun _ _ => clean_ok _
      rintro columns rfl
      exact h ms rfl a ha columns hc
  | _ => exact clean_err

theorem clean_asHalf (v : Json)
    (h : ∀ rows, v = .obj rows → InSequence rows ∧
      ∀ row ∈ rows, ∀ buses, Member row.2 bytes!"configuration_buses" (.obj buses) →
        ∀ bus ∈ buses, ∀ columns, Member bus.2 bytes!"configuration_columns" (.obj columns) → InSequence columns) :
    Clean (asHalf v) := by
  cases v with
  | obj ms =>
    obtain ⟨h1, h2⟩ := h ms rfl
    refine clean_bind ?_ fun _ _ => clean_ok _
    refine clean_sequence (fun x => getMember asRow x kConfigurationBuses) ms
      (fun e he => clean_getMember _ _ _ fun b hb => clean_asRow b ?_) [] 0 fun j e hj n hn => by
        rw [h1 j e hj n hn]; omega
    rintro buses rfl
    exact h2 e he buses hb
  | _ => exact clean_err

theorem pointer2_member (a b : Bytes) (j v : Json) (h : pointer2 a b j = some v) : ∃ w, Member j a w ∧ Member w b v := by
  unfold pointer2 findMember at h
  split at h
  · split at h
    · exact ⟨_, ⟨_, rfl, by assumption⟩, ⟨_, rfl, h⟩⟩
    · cases h
  · cases h

theorem clean_asBanks (es : List (Bytes × Json)) (h : ∀ e ∈ es, ∃ s, e.2 = .str s) : Clean (asBanks (.obj es)) := by
  refine clean_foldlM _ _ (fun _ a ha => ?_) _
  split
  · exact clean_err
  · obtain ⟨s, hs⟩ := h a ha
    rw [hs]
    exact clean_ok _

/-- A part whose banks are an object of strings and whose rows and columns are numbered in sequence is read, or
rejected with an error. -/
theorem C68_part (j : Json) (h : PartSafe j) :
    (∃ p, parsePart j = .ok p ∧ PartJson j p) ∨ (parsePart j = .err ∧ ∀ p, ¬ PartJson j p) := by
  have hc : Clean (parsePart j) := by
    cases j with
    | obj ms =>
      refine clean_bind (clean_getMember _ _ _ fun _ _ => clean_asU32 _) fun _ _ => ?_
      refine clean_bind (clean_optGetMember _ _ _ fun v hv => ?_) fun _ _ => ?_
      · obtain ⟨es, rfl, he⟩ := h.1 v hv
        exact clean_asBanks es he
      · refine clean_bind (clean_getMember _ _ _ fun v hv => ?_) fun _ _ => clean_ok _
        have half : ∀ name b, (name = kBottom ∨ name = kTop) → pointer2 name kRows v = some b → Clean (asHalf b) := by
          intro name b hn hb
          obtain ⟨w, hw, hwb⟩ := pointer2_member _ _ _ _ hb
          refine clean_asHalf b ?_
          rintro rows rfl
          exact h.2 v name w rows hv hn hw hwb
        unfold asRegions
        split
        · exact clean_err
        · rename_i b hb
          refine clean_bind (half _ b (Or.inl rfl) hb) fun _ _ => ?_
          split
          · exact clean_err
          · rename_i t ht
            exact clean_bind (half _ t (Or.inr rfl) ht) fun _ _ => clean_ok _
    | _ => exact clean_err
  rcases hc with ⟨p, hp⟩ | he
  · exact Or.inl ⟨p, hp, (C41_iff j p).1 hp⟩
  · refine Or.inr ⟨he, fun p hp => ?_⟩
    rw [(C41_iff j p).2 hp] at he
    cases he

/-! ## Every well-formed file is safe, and so are files with a member missing -/

theorem gridSafe_of_json (A : Bytes → Nat → Prop) (j : Json) (g : TileGrid) (h : GridJson A j g) : GridSafe j := by
  rintro ms rfl e he v hv
  obtain ⟨es, e1, h2, _⟩ := h
  cases e1
  obtain ⟨x, hx, rfl⟩ := List.mem_map.1 he
  obtain ⟨_, _, _, _, ⟨w, hw, es', rfl, _⟩, _⟩ := h2 x hx
  rw [member_unique hv hw]
  exact ⟨_, rfl⟩

theorem intText_unique {s : Bytes} {m n : Int} (hm : IntText s m) (hn : IntText s n) : m = n := by
  have h1 := (atoiI32_iff _ _).2 hm
  rw [(atoiI32_iff _ _).2 hn] at h1
  cases h1; rfl

theorem inSequence_of_json {α : Type} {item : Json → α → Prop} {ms : List (Bytes × Json)} {l : List α}
    (h : SequenceJson item (.obj ms) l) : InSequence ms := by
  obtain ⟨es, e, _, hs⟩ := h
  cases e
  intro i e hi n hn
  rw [List.getElem?_map, Option.map_eq_some_iff] at hi
  obtain ⟨x, hx, rfl⟩ := hi
  exact intText_unique hn (hs i x hx).1

theorem sequence_items {α : Type} {item : Json → α → Prop} {ms : List (Bytes × Json)} {l : List α}
    (h : SequenceJson item (.obj ms) l) (e : Bytes × Json) (he : e ∈ ms) : ∃ a, item e.2 a := by
  obtain ⟨es, e', _, hs⟩ := h
  cases e'
  obtain ⟨x, hx, rfl⟩ := List.mem_map.1 he
  obtain ⟨i, hi⟩ := List.mem_iff_getElem?.1 hx
  exact ⟨_, (hs i x hi).2⟩

theorem partSafe_of_json (j : Json) (p : Db.Part) (h : PartJson j p) : PartSafe j := by
  obtain ⟨_, hb, ⟨regions, hr, hbot, htop⟩⟩ := h
  refine ⟨fun v hv => ?_, fun regions' name half rows hr' hname hhalf hrows => ?_⟩
  · rcases hb with ⟨⟨ms, rfl, hn⟩, _⟩ | ⟨w, hw, es, rfl, _, _⟩
    · obtain ⟨ms', e, hs⟩ := hv
      cases e
      rw [hn] at hs; cases hs
    · rw [member_unique hv hw]
      refine ⟨_, rfl, fun e he => ?_⟩
      obtain ⟨x, _, rfl⟩ := List.mem_map.1 he
      exact ⟨_, rfl⟩
  · rw [member_unique hr' hr] at hhalf
    have hseq : ∃ l, SequenceJson RowJson (.obj rows) l := by
      rcases hname with rfl | rfl
      · obtain ⟨w, hw, v, hv, hs⟩ := hbot
        rw [member_unique hhalf hw] at hrows
        rw [← member_unique hrows hv] at hs
        exact ⟨_, hs⟩
      · obtain ⟨w, hw, v, hv, hs⟩ := htop
        rw [member_unique hhalf hw] at hrows
        rw [← member_unique hrows hv] at hs
        exact ⟨_, hs⟩
    obtain ⟨l, hl⟩ := hseq
    refine ⟨inSequence_of_json hl, fun row hrow buses hbuses bus hbus columns hcolumns => ?_⟩
    obtain ⟨r, v, hv, hm⟩ := sequence_items hl row hrow
    rw [← member_unique hbuses hv] at hm
    obtain ⟨es, e, _, hes⟩ := hm
    cases e
    obtain ⟨x, hx, rfl⟩ := List.mem_map.1 hbus
    obtain ⟨w, hw, hs⟩ := (hes x hx).2
    rw [← member_unique hcolumns hw] at hs
    exact inSequence_of_json hs

/-- Every written grid and part is safe; so is a part without members. -/
example (g : TileGrid) (h : GridValid g) : GridSafe (gridObj g) := gridSafe_of_json _ _ _ (grid_render g h)
example (p : Db.Part) (h : PartValid p) : PartSafe (partObj p) := partSafe_of_json _ _ (part_render p h)
example : PartSafe (.obj []) := by
  refine ⟨?_, ?_⟩
  · rintro v ⟨ms, e, h⟩; cases e; cases h
  · rintro _ _ _ _ ⟨ms, e, h⟩; cases e; cases h
example : parsePart (.obj []) = .err := rfl
/-- A tile without its `sites`. -/
example : parseTileGrid (.obj [(bytes!"T", .obj [(bytes!"type", .str bytes!"B")])]) = .err := rfl

/-! ## What does crash -/

/-- Banks given as an array. -/
theorem C68_defect_banks : parsePart (.obj [(bytes!"idcode", .int 1),
    (bytes!"iobanks", .arr [])]) = .ub := rfl

/-- `bits` given as null. -/
theorem C68_defect_bits : parseTileGrid (.obj [(bytes!"T", .obj [(bytes!"type", .str bytes!"B"),
    (bytes!"grid_x", .int 0), (bytes!"grid_y", .int 0),
    (bytes!"bits", .null)])]) = .ub := rfl

/-- Rows numbered from 1 terminate the program. -/
theorem C68_defect_rows : parsePart (.obj [(bytes!"idcode", .int 1),
    (bytes!"global_clock_regions", .obj [(bytes!"bottom", .obj [(bytes!"rows", .obj [(bytes!"1", .null)])])])]) =
    .abort := by decide

open Verif.Text in
theorem rows_key {β : Type} (f : Json → Outcome β) : ∀ (pre : List (Bytes × Json)) (k : Int) (acc : List β) (s : Int × List β),
    pre.foldlM (fun (s : Int × List β) e => do
      let key ← nextKey s.1 e.1
      let row ← f e.2
      pure (key, s.2 ++ [row])) (k, acc) = Outcome.ok s → s.1 = k + pre.length := by
  intro pre
  induction pre with
  | nil => intro k acc s h; cases h; simp
  | cons e pre ih =>
    intro k acc s h
    rw [List.foldlM_cons] at h
    revert h
    cases hk : nextKey k e.1 with
    | ok key =>
      dsimp only
      cases f e.2 with
      | ok row =>
        intro h
        have := ih key (acc ++ [row]) s h
        have hkey : key = k + 1 := by
          unfold nextKey at hk
          revert hk
          cases (atoiI32 (cstr e.1) : Option Int) with
          | none => intro hk; cases hk
          | some x =>
            dsimp only
            intro hk
            split at hk
            · cases hk
            · split at hk
              · cases hk; omega
              · cases hk
        rw [this, hkey, List.length_cons]
        omega
      | err => intro h; cases h
      | abort => intro h; cases h
      | ub => intro h; cases h
    | err => intro h; cases h
    | abort => intro h; cases h
    | ub => intro h; cases h

open Verif.Text in
/-- **A row out of sequence**, behind rows that can be read: the program is terminated, or, if it is numbered -2147483648, a signed
subtraction overflows. -/
theorem C68_row_number (pre rest : List (Bytes × Json)) (half : ClockRegionHalf) (hpre : asHalf (.obj pre) = .ok half) (name : Bytes) (v : Json)
    (n : Int) (hn : IntText (untilNul name) n) (hne : n ≠ pre.length) :
    parsePart (.obj [(kIdcode, .int 1), (kGlobalClockRegions, .obj [(kBottom, .obj [(kRows, .obj (pre ++ (name, v) :: rest))])])]) =
      if n = -(2 ^ 31) then .ub else .abort := by
  have hat : atoiI32 (cstr name) = some n := (atoiI32_iff _ _).2 hn
  have key : asHalf (.obj (pre ++ (name, v) :: rest)) = if n = -(2 ^ 31) then .ub else .abort := by
    unfold asHalf at hpre ⊢
    dsimp only at hpre ⊢
    rw [List.foldlM_append]
    revert hpre
    cases hf : pre.foldlM (fun (s : Int × ClockRegionHalf) e => do
      let key ← nextKey s.1 e.1
      let row ← getMember asRow e.2 kConfigurationBuses
      pure (key, s.2 ++ [row])) ((-1, []) : Int × ClockRegionHalf) with
    | ok s =>
      intro _
      have hs := rows_key (fun j => getMember asRow j kConfigurationBuses) pre (-1) [] s hf
      have hnk : nextKey s.1 name = if n = -(2 ^ 31) then .ub else .abort := by
        unfold nextKey
        rw [hat]
        dsimp only
        split
        · rfl
        · rw [if_neg (by omega)]
      simp only [Outcome.bind_ok, List.foldlM_cons, hnk]
      split <;> rfl
    | err => intro h; cases h
    | abort => intro h; cases h
    | ub => intro h; cases h
  have : parsePart (.obj [(kIdcode, .int 1), (kGlobalClockRegions, .obj [(kBottom, .obj [(kRows, .obj (pre ++ (name, v) :: rest))])])]) =
      ((asHalf (.obj (pre ++ (name, v) :: rest)) >>= fun _ => (Outcome.err : Outcome (ClockRegionHalf × ClockRegionHalf))) >>=
        fun regions => pure { bottomRows := regions.1, topRows := regions.2, idcode := BitVec.ofNat 32 1, iobanks := [] }) := rfl
  rw [this, key]
  split <;> rfl
/-- `-2147483648` as the number of the first row. -/
theorem C68_defect_number : parsePart (.obj [(kIdcode, .int 1), (kGlobalClockRegions, .obj [(kBottom, .obj [(kRows,
    .obj [(bytes!"-2147483648", .null)])])])]) = .ub := by decide +kernel

end Verif.Props

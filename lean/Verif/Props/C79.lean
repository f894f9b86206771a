import Verif.Proofs.Clock
import Verif.Props.C67
/-! # C79: the build time stamp -/
namespace Verif.Props
open Verif.Db Verif.Spec Verif.Asm Verif.Xc7 Verif.Text Verif.Clock

/-- The specification of day numbers is the calendar: 1970-01-01 is day 0 and every date is followed by the next. -/
theorem C79_calendar : dayNumber 1970 1 1 = 0 ∧
    ∀ y m d, ValidDate y m d →
      ValidDate (nextDay y m d).1 (nextDay y m d).2.1 (nextDay y m d).2.2 ∧
      dayNumber (nextDay y m d).1 (nextDay y m d).2.1 (nextDay y m d).2.2 = dayNumber y m d + 1 := by
  refine ⟨by decide, ?_⟩
  rintro y m d ⟨h1, h2, h3, h4⟩
  have hpos : ∀ m, 1 ≤ m → m ≤ 12 → 1 ≤ monthDays y m := by
    intro m h1 h2
    have : m = 1 ∨ m = 2 ∨ m = 3 ∨ m = 4 ∨ m = 5 ∨ m = 6 ∨ m = 7 ∨ m = 8 ∨ m = 9 ∨ m = 10 ∨ m = 11 ∨ m = 12 := by
      omega
    rcases this with e | e | e | e | e | e | e | e | e | e | e | e <;> subst e <;> simp only [monthDays] <;>
      first | omega | (split <;> omega)
  unfold nextDay
  split
  · exact ⟨⟨h1, h2, by dsimp only; omega, by dsimp only; omega⟩, by unfold dayNumber; dsimp only; push_cast; omega⟩
  · split
    · show ValidDate y (m + 1) 1 ∧ dayNumber y (m + 1) 1 = _
      refine ⟨⟨by omega, by omega, by omega, hpos (m + 1) (by omega) (by omega)⟩, ?_⟩
      unfold dayNumber
      rw [monthStart_succ]
      push_cast
      omega
    · obtain rfl : m = 12 := by omega
      show ValidDate (y + 1) 1 1 ∧ dayNumber (y + 1) 1 1 = _
      refine ⟨⟨by decide, by decide, by decide, ?_⟩, ?_⟩
      · show 1 ≤ 31
        decide
      · have h := yearStart_succ y
        have h13 : monthStart y 13 = monthStart y 12 + 31 := monthStart_succ y 12
        have hd : d = 31 := by
          have : monthDays y 12 = 31 := rfl
          omega
        have h0 : monthStart (y + 1) 1 = 0 := rfl
        unfold dayNumber
        rw [h0]
        omega

/-- Every day has exactly one date, and later days have later dates. -/
theorem C79_dates_ordered (y y' : Int) (m d m' d' : Nat) (h : ValidDate y m d) (h' : ValidDate y' m' d') :
    dayNumber y m d < dayNumber y' m' d' ↔ y < y' ∨ (y = y' ∧ (m < m' ∨ (m = m' ∧ d < d'))) := by
  constructor
  · intro hlt
    by_cases hl : y < y' ∨ (y = y' ∧ (m < m' ∨ (m = m' ∧ d < d')))
    · exact hl
    · exfalso
      by_cases he : y = y' ∧ m = m' ∧ d = d'
      · obtain ⟨rfl, rfl, rfl⟩ := he; omega
      · have := dayNumber_lt y' y m' d' m d h' h (by omega)
        omega
  · exact dayNumber_lt y y' m d m' d' h h'

/-- For every reading of the clock (nanoseconds, 64 bits) the header carries the UTC date and time of that second,
as `YYYY/MM/DD` and `HH:MM:SS`. -/
theorem C79_stamp (ns : Int) (hlo : -2 ^ 63 ≤ ns) (hhi : ns < 2 ^ 63) :
    ∃ y m d h mi s : Nat, ValidDate y m d ∧ 1677 ≤ y ∧ y ≤ 2262 ∧ h < 24 ∧ mi < 60 ∧ s < 60 ∧
      formatDate ns = dateText y m d ∧ formatTime ns = timeText h mi s ∧
      dayNumber y m d * 86400 + (h * 3600 + mi * 60 + s : Nat) = ns / 1000000000 := by
  obtain ⟨hv, hn⟩ := civilOfDay_spec (ns / 1000000000 / 86400)
  have hb := year_bounds _ _ _ hv (by rw [hn]; omega) (by rw [hn]; omega)
  obtain ⟨c, hc⟩ : ∃ c, civilOfDay (ns / 1000000000 / 86400) = c := ⟨_, rfl⟩
  rw [hc] at hv hn hb
  obtain ⟨y, m, d⟩ := c
  dsimp only at hv hn hb
  obtain ⟨Y, rfl⟩ : ∃ Y : Nat, y = Y := ⟨y.toNat, by omega⟩
  have hd31 : d ≤ 31 := by
    obtain ⟨h1, h2, h3, h4⟩ := hv
    have : monthDays Y m ≤ 31 := by
      unfold monthDays
      split <;> first | omega | (split <;> omega)
    omega
  obtain ⟨S, hS⟩ : ∃ S : Nat, (ns / 1000000000 % 86400).toNat = S := ⟨_, rfl⟩
  have hSlt : S < 86400 := by omega
  refine ⟨Y, m, d, S / 3600, S / 60 % 60, S % 60, hv, by omega, by omega, by omega, by omega, by omega, ?_, ?_, ?_⟩
  · simp only [formatDate, hc, formatYear]
    rw [if_neg (by omega), Int.toNat_natCast, digits_four _ (by omega), digits_two _ (by have := hv.2.1; omega),
      digits_two _ (by omega)]
    rfl
  · simp only [formatTime, hS]
    rw [digits_two _ (by omega), digits_two _ (by omega), digits_two _ (by omega)]
    rfl
  · rw [hn]
    omega

/-- The stamp is plain text of fixed width. -/
theorem C79_shape (ns : Int) (hlo : -2 ^ 63 ≤ ns) (hhi : ns < 2 ^ 63) :
    (formatDate ns).length = 10 ∧ (formatTime ns).length = 8 ∧
    ShortAscii (formatDate ns) ∧ ShortAscii (formatTime ns) := by
  obtain ⟨y, m, d, h, mi, s, hv, hy1, hy2, hh, hmi, hs, e1, e2, -⟩ := C79_stamp ns hlo hhi
  have h2 : ∀ n, n < 100 → ∀ b ∈ two n, b < (0x80 : UInt8) := by decide
  have hm : m < 100 := by have := hv.2.1; omega
  have hd : d < 100 := by
    obtain ⟨_, _, _, h4⟩ := hv
    have : monthDays y m ≤ 31 := by
      unfold monthDays
      split <;> first | omega | (split <;> omega)
    omega
  rw [e1, e2]
  refine ⟨rfl, rfl, ⟨show 10 ≤ 120 by decide, ?_⟩, ⟨show 8 ≤ 120 by decide, ?_⟩⟩
  · intro b hb
    simp only [dateText, List.mem_append, List.mem_singleton] at hb
    rcases hb with ((((h | h) | h) | h) | h) | h
    · exact h2 _ (by omega) b h
    · exact h2 _ (by omega) b h
    · subst h; decide
    · exact h2 _ hm b h
    · subst h; decide
    · exact h2 _ hd b h
  · intro b hb
    simp only [timeText, List.mem_append, List.mem_singleton] at hb
    rcases hb with (((h | h) | h) | h) | h
    · exact h2 _ (by omega) b h
    · subst h; decide
    · exact h2 _ (by omega) b h
    · subst h; decide
    · exact h2 _ (by omega) b h

private theorem two_lt (a b : Nat) (ha : a < 100) (hb : b < 100) (l l' : Bytes) :
    two a ++ l < two b ++ l' ↔ a < b ∨ (a = b ∧ l < l') := by
  have hlt : ∀ i j, i < 10 → j < 10 → (UInt8.ofNat (48 + i) < UInt8.ofNat (48 + j) ↔ i < j) := by
    intro i j hi hj
    rw [UInt8.lt_iff_toNat_lt, UInt8.toNat_ofNat', UInt8.toNat_ofNat']
    omega
  have heq : ∀ i j, i < 10 → j < 10 → (UInt8.ofNat (48 + i) = UInt8.ofNat (48 + j) ↔ i = j) := by
    intro i j hi hj
    rw [← UInt8.toNat_inj, UInt8.toNat_ofNat', UInt8.toNat_ofNat']
    omega
  simp only [two, List.cons_append, List.nil_append, List.cons_lt_cons_iff]
  rw [hlt _ _ (by omega) (by omega), heq _ _ (by omega) (by omega), hlt _ _ (by omega) (by omega),
    heq _ _ (by omega) (by omega)]
  by_cases h : l < l'
  · simp only [h, and_true]; omega
  · simp only [h, and_false, or_false]; omega

/-- Stamps sort as texts in the order of time: later seconds have larger stamps, and only those. -/
theorem C79_order (ns ns' : Int) (h : -2 ^ 63 ≤ ns ∧ ns < 2 ^ 63) (h' : -2 ^ 63 ≤ ns' ∧ ns' < 2 ^ 63) :
    formatDate ns ++ formatTime ns < formatDate ns' ++ formatTime ns' ↔ ns / 1000000000 < ns' / 1000000000 := by
  obtain ⟨y, m, d, hh, mi, s, hv, hy1, hy2, h24, h60, hs60, e1, e2, e3⟩ := C79_stamp ns h.1 h.2
  obtain ⟨y', m', d', hh', mi', s', hv', hy1', hy2', h24', h60', hs60', e1', e2', e3'⟩ := C79_stamp ns' h'.1 h'.2
  have small : ∀ (y : Nat) m d, ValidDate y m d → m < 100 ∧ d < 100 := by
    rintro y m d ⟨_, _, _, h4⟩
    have : monthDays y m ≤ 31 := by
      unfold monthDays
      split <;> first | omega | (split <;> omega)
    omega
  obtain ⟨hm, hd⟩ := small y m d hv
  obtain ⟨hm', hd'⟩ := small y' m' d' hv'
  have ho := C79_dates_ordered y y' m d m' d' hv hv'
  have hi : dayNumber y m d = dayNumber y' m' d' ↔ y = y' ∧ m = m' ∧ d = d' := by
    constructor
    · intro e
      have := dayNumber_inj _ _ _ _ _ _ hv hv' e
      omega
    · rintro ⟨rfl, rfl, rfl⟩; rfl
  have hcons : ∀ (c : UInt8) (l l' : Bytes), c :: l < c :: l' ↔ l < l' := by
    intro c l l'
    rw [List.cons_lt_cons_iff]
    simp
  have hnil : ¬ ([] : Bytes) < [] := by decide
  rw [e1, e2, e1', e2', ← e3, ← e3']
  simp only [dateText, timeText, List.append_assoc, List.cons_append, List.nil_append]
  rw [two_lt _ _ (by omega) (by omega), two_lt _ _ (by omega) (by omega), hcons, two_lt _ _ hm hm', hcons,
    two_lt _ _ hd hd', two_lt _ _ (by omega) (by omega), hcons, two_lt _ _ (by omega) (by omega), hcons]
  rw [← List.append_nil (two s), ← List.append_nil (two s'), two_lt _ _ (by omega) (by omega)]
  simp only [hnil, and_false, or_false]
  generalize dayNumber y m d = D at *
  generalize dayNumber y' m' d' = D' at *
  clear e3 e3' e1 e2 e1' e2' hcons hnil small hv hv'
  by_cases hD : D = D'
  · have := hi.mp hD
    subst hD
    omega
  · have hne : ¬ (y = y' ∧ m = m' ∧ d = d') := fun e => hD (hi.mpr e)
    by_cases hl : D < D'
    · have := ho.mp hl
      constructor
      · intro _; omega
      · intro _; omega
    · have : ¬ ((y : Int) < y' ∨ ((y : Int) = y' ∧ (m < m' ∨ (m = m' ∧ d < d')))) := fun e => hl (ho.mpr e)
      constructor
      · intro _; omega
      · intro _; omega

/-- Two runs carry the same stamp exactly when they read the clock in the same second. -/
theorem C79_unique (ns ns' : Int) (h : -2 ^ 63 ≤ ns ∧ ns < 2 ^ 63) (h' : -2 ^ 63 ≤ ns' ∧ ns' < 2 ^ 63) :
    (formatDate ns = formatDate ns' ∧ formatTime ns = formatTime ns') ↔ ns / 1000000000 = ns' / 1000000000 := by
  constructor
  · rintro ⟨e1, e2⟩
    have a := C79_order ns ns' h h'
    have b := C79_order ns' ns h' h
    rw [e1, e2] at a b
    have hirr : ¬ (formatDate ns' ++ formatTime ns' < formatDate ns' ++ formatTime ns') := List.lt_irrefl _
    have a' : ¬ (ns / 1000000000 < ns' / 1000000000) := fun k => hirr (a.mpr k)
    have b' : ¬ (ns' / 1000000000 < ns / 1000000000) := fun k => hirr (b.mpr k)
    omega
  · intro e
    simp only [formatDate, formatTime, e, and_self]

/-! ## What the stamp changes in the output -/

/-- The words written do not depend on date and time. -/
private theorem encode_words (d : Db.Part) (pn src : Bytes) (frames : Frames) (out : OStream) (fuel : Nat) :
    ∃ X : Option (Outcome (List Word)), ∀ date time : Bytes, encode d pn src date time frames out fuel =
      X.map fun o => o.bind fun ws => .ok (writeFile (createHeader pn src generatorName date time) ws out) := by
  cases hp : Part.fromPart d with
  | ok p =>
    cases hm : addMissingFrames p (zeroFrame frameWordsBase) fuel (convertFrames [] frames) with
    | none => exact ⟨none, fun date time => by unfold encode; rw [hp]; dsimp only; rw [hm]; rfl⟩
    | some m =>
      exact ⟨writerWords .xc7 (configurationPackage (type2Payload p m) p.idcode) fuel,
        fun date time => by unfold encode; rw [hp]; dsimp only; rw [hm]; dsimp only; unfold writeBitstream; rfl⟩
  | err => exact ⟨some .err, fun date time => by unfold encode; rw [hp]; rfl⟩
  | abort => exact ⟨some .abort, fun date time => by unfold encode; rw [hp]; rfl⟩
  | ub => exact ⟨some .ub, fun date time => by unfold encode; rw [hp]; rfl⟩

/-- What encoding gives for any date and time. -/
private theorem encode_stamp (d : Db.Part) (pn src date time date' time' : Bytes) (frames : Frames) (out : OStream)
    (fuel : Nat) :
    (∃ ws, encode d pn src date time frames out fuel =
        some (.ok (writeFile (createHeader pn src generatorName date time) ws out)) ∧
      encode d pn src date' time' frames out fuel =
        some (.ok (writeFile (createHeader pn src generatorName date' time') ws out))) ∨
    ((∀ o, encode d pn src date time frames out fuel ≠ some (.ok o)) ∧
      encode d pn src date time frames out fuel = encode d pn src date' time' frames out fuel) := by
  obtain ⟨X, hX⟩ := encode_words d pn src frames out fuel
  rw [hX, hX]
  cases X with
  | none => exact .inr ⟨(by intro o h; cases h), by rw [Option.map_none, Option.map_none]⟩
  | some x =>
    cases x with
    | ok ws => exact .inl ⟨ws, rfl, rfl⟩
    | err => exact .inr ⟨(by intro o h; cases h), by rw [Option.map_some, Option.map_some]; unfold Outcome.bind; rfl⟩
    | abort => exact .inr ⟨(by intro o h; cases h), by rw [Option.map_some, Option.map_some]; unfold Outcome.bind; rfl⟩
    | ub => exact .inr ⟨(by intro o h; cases h), by rw [Option.map_some, Option.map_some]; unfold Outcome.bind; rfl⟩

/-- A file consists of a part before the date, the date, a part between, the time, and the rest; only date and
time depend on the stamp. -/
private theorem writeFile_stamp (pn src gen : Bytes) (ws : List Word) (seek : Bool) :
    ∃ post : Bytes, ∀ date time : Bytes, date.length = 10 → time.length = 8 →
      (writeFile (createHeader pn src gen date time) ws ⟨[], 0, seek, false⟩).bytes =
        (fileMagic ++ tlv 0x61 (src ++ (generatorInfix ++ gen)) ++ tlv 0x62 pn ++ [0x63, 0, 11]) ++ date ++
          [0, 0x64, 0, 9] ++ time ++ post := by
  cases seek with
  | true =>
    refine ⟨[0, 0x65] ++ bytesOfWord (BitVec.ofNat 32 (4 * ws.length)) ++ bytesOfWords ws, ?_⟩
    intro date time hd ht
    have hwf := writeFile_seekable (headerPrefix pn src gen date time) ws ⟨[], 0, true, false⟩ ⟨rfl, rfl⟩ rfl
    rw [createHeader_eq, hwf]
    simp [headerPrefix, tlv, hd, ht]
  | false =>
    refine ⟨[0, 0x65, 0, 0, 0, 0] ++ bytesOfWords ws, ?_⟩
    intro date time hd ht
    rw [(writeFile_pipe (createHeader pn src gen date time) ws ⟨[], 0, false, false⟩ ⟨rfl, rfl⟩ rfl).1]
    simp [createHeader, tlv, hd, ht]

/-- Building the same design at another time changes nothing but the 10 bytes of the date and the 8 bytes of the
time, which stand at fixed places of the header; failures do not depend on the time at all. -/
theorem C79_only_stamp (env : Env) (load : LoadOrder) (ord : HashOrder) (inv : Invocation) (seek : Bool)
    (fuel : Nat) (ns ns' : Int) (h : -2 ^ 63 ≤ ns ∧ ns < 2 ^ 63) (h' : -2 ^ 63 ≤ ns' ∧ ns' < 2 ^ 63) :
    (∃ o o' pre post, main env load ord (atTime inv ns) ⟨[], 0, seek, false⟩ fuel = some (.ok (0, o)) ∧
      main env load ord (atTime inv ns') ⟨[], 0, seek, false⟩ fuel = some (.ok (0, o')) ∧
      pre.length = 64 ∧
      o.bytes = pre ++ formatDate ns ++ [0, 0x64, 0, 9] ++ formatTime ns ++ post ∧
      o'.bytes = pre ++ formatDate ns' ++ [0, 0x64, 0, 9] ++ formatTime ns' ++ post) ∨
    ((∀ o, main env load ord (atTime inv ns) ⟨[], 0, seek, false⟩ fuel ≠ some (.ok (0, o))) ∧
      main env load ord (atTime inv ns) ⟨[], 0, seek, false⟩ fuel =
        main env load ord (atTime inv ns') ⟨[], 0, seek, false⟩ fuel) := by
  have hsame : ∀ r', (∀ o, r' ≠ some (.ok (0, o))) →
      main env load ord (atTime inv ns) ⟨[], 0, seek, false⟩ fuel = r' →
      main env load ord (atTime inv ns') ⟨[], 0, seek, false⟩ fuel = r' →
      ((∀ o, main env load ord (atTime inv ns) ⟨[], 0, seek, false⟩ fuel ≠ some (.ok (0, o))) ∧
        main env load ord (atTime inv ns) ⟨[], 0, seek, false⟩ fuel =
          main env load ord (atTime inv ns') ⟨[], 0, seek, false⟩ fuel) := by
    intro r' h1 h2 h3
    exact ⟨fun o => h2 ▸ h1 o, h2.trans h3.symm⟩
  have hmain : ∀ t, main env load ord (atTime inv t) ⟨[], 0, seek, false⟩ fuel =
      if inv.args.length > 2 then some (.ok (1, ⟨[], 0, seek, false⟩))
      else match getOptFlagOrFromEnv inv.dbFlag inv.dbEnv with
        | .ok path =>
          if path = [] ∨ env.fileExists [path] = false then some (.ok (1, ⟨[], 0, seek, false⟩))
          else if inv.part = [] then some (.ok (1, ⟨[], 0, seek, false⟩))
          else match parseDatabase env load [path] inv.part with
            | .err => some (.ok (1, ⟨[], 0, seek, false⟩))
            | .abort => some .abort
            | .ub => some .ub
            | .ok db => mainLoaded ord (atTime inv t) db ⟨[], 0, seek, false⟩ fuel
        | _ => some (.ok (1, ⟨[], 0, seek, false⟩)) := fun t => rfl
  have hone : ∀ r' : Option (Outcome (Nat × OStream)), r' = some (.ok (1, ⟨[], 0, seek, false⟩)) → ∀ o, r' ≠ some (.ok (0, o)) := by
    intro r' e o e'
    rw [e] at e'
    cases e'
  by_cases hargs : inv.args.length > 2
  · have hx : ∀ t, main env load ord (atTime inv t) ⟨[], 0, seek, false⟩ fuel =
      some (.ok (1, ⟨[], 0, seek, false⟩)) := fun t => by rw [hmain, if_pos hargs]
    exact .inr (hsame _ (hone _ rfl) (hx _) (hx _))
  cases hset : getOptFlagOrFromEnv inv.dbFlag inv.dbEnv with
  | err =>
    have hx : ∀ t, main env load ord (atTime inv t) ⟨[], 0, seek, false⟩ fuel =
      some (.ok (1, ⟨[], 0, seek, false⟩)) := fun t => by rw [hmain, if_neg hargs, hset]
    exact .inr (hsame _ (hone _ rfl) (hx _) (hx _))
  | abort =>
    have hx : ∀ t, main env load ord (atTime inv t) ⟨[], 0, seek, false⟩ fuel =
      some (.ok (1, ⟨[], 0, seek, false⟩)) := fun t => by rw [hmain, if_neg hargs, hset]
    exact .inr (hsame _ (hone _ rfl) (hx _) (hx _))
  | ub =>
    have hx : ∀ t, main env load ord (atTime inv t) ⟨[], 0, seek, false⟩ fuel =
      some (.ok (1, ⟨[], 0, seek, false⟩)) := fun t => by rw [hmain, if_neg hargs, hset]
    exact .inr (hsame _ (hone _ rfl) (hx _) (hx _))
  | ok path =>
    by_cases hpath : path = [] ∨ env.fileExists [path] = false
    · have hx : ∀ t, main env load ord (atTime inv t) ⟨[], 0, seek, false⟩ fuel =
        some (.ok (1, ⟨[], 0, seek, false⟩)) := fun t => by
          rw [hmain, if_neg hargs, hset]; dsimp only; rw [if_pos hpath]
      exact .inr (hsame _ (hone _ rfl) (hx _) (hx _))
    by_cases hpart : inv.part = []
    · have hx : ∀ t, main env load ord (atTime inv t) ⟨[], 0, seek, false⟩ fuel =
        some (.ok (1, ⟨[], 0, seek, false⟩)) := fun t => by
          rw [hmain, if_neg hargs, hset]; dsimp only; rw [if_neg hpath, if_pos hpart]
      exact .inr (hsame _ (hone _ rfl) (hx _) (hx _))
    have hload : ∀ t, main env load ord (atTime inv t) ⟨[], 0, seek, false⟩ fuel =
        match parseDatabase env load [path] inv.part with
        | .err => some (.ok (1, ⟨[], 0, seek, false⟩))
        | .abort => some .abort
        | .ub => some .ub
        | .ok db => mainLoaded ord (atTime inv t) db ⟨[], 0, seek, false⟩ fuel := fun t => by
      rw [hmain, if_neg hargs, hset]; dsimp only; rw [if_neg hpath, if_neg hpart]
    cases hdb : parseDatabase env load [path] inv.part with
    | err => exact .inr (hsame _ (hone _ rfl) (by rw [hload, hdb]) (by rw [hload, hdb]))
    | abort => exact .inr (hsame (some .abort) (by intro o e; cases e) (by rw [hload, hdb]) (by rw [hload, hdb]))
    | ub => exact .inr (hsame (some .ub) (by intro o e; cases e) (by rw [hload, hdb]) (by rw [hload, hdb]))
    | ok db =>
      have hl : ∀ t, main env load ord (atTime inv t) ⟨[], 0, seek, false⟩ fuel =
          mainLoaded ord (atTime inv t) db ⟨[], 0, seek, false⟩ fuel := by
        intro t; rw [hload, hdb]
      have htx : ∀ t, inputText (atTime inv t) = inputText inv := fun _ => rfl
      cases htext : inputText inv with
      | none =>
        refine .inr (hsame (some (.ok (1, ⟨[], 0, seek, false⟩))) (hone _ rfl) ?_ ?_) <;>
        · rw [hl]; unfold mainLoaded; rw [htx, htext]
      | some text =>
        have hm : ∀ t, main env load ord (atTime inv t) ⟨[], 0, seek, false⟩ fuel =
            match assembleFrames ord text db [] with
            | .err => some (.ok (1, ⟨[], 0, seek, false⟩))
            | .abort => some .abort
            | .ub => some .ub
            | .ok r => (encode r.1.tiles.part kFasm kSource (formatDate t) (formatTime t) r.2
                ⟨[], 0, seek, false⟩ fuel).map fun o => match o with
              | .err => .ok (1, ⟨[], 0, seek, false⟩)
              | .abort => .abort
              | .ub => .ub
              | .ok out => .ok (0, out) := by
          intro t
          rw [hl]
          unfold mainLoaded
          rw [htx, htext]
          rfl
        cases ha : assembleFrames ord text db [] with
        | err => exact .inr (hsame _ (hone _ rfl) (by rw [hm, ha]) (by rw [hm, ha]))
        | abort => exact .inr (hsame (some .abort) (by intro o e; cases e) (by rw [hm, ha]) (by rw [hm, ha]))
        | ub => exact .inr (hsame (some .ub) (by intro o e; cases e) (by rw [hm, ha]) (by rw [hm, ha]))
        | ok r =>
          rcases encode_stamp r.1.tiles.part kFasm kSource (formatDate ns) (formatTime ns) (formatDate ns')
            (formatTime ns') r.2 ⟨[], 0, seek, false⟩ fuel with ⟨ws, e1, e2⟩ | ⟨e1, e2⟩
          · left
            obtain ⟨post, hp⟩ := writeFile_stamp kFasm kSource generatorName ws seek
            refine ⟨_, _, fileMagic ++ tlv 0x61 (kSource ++ (generatorInfix ++ generatorName)) ++ tlv 0x62 kFasm ++
              [0x63, 0, 11], post, ?_, ?_, by decide,
              hp _ _ (C79_shape ns h.1 h.2).1 (C79_shape ns h.1 h.2).2.1,
              hp _ _ (C79_shape ns' h'.1 h'.2).1 (C79_shape ns' h'.1 h'.2).2.1⟩
            · rw [hm, ha]; dsimp only; rw [e1]; rfl
            · rw [hm, ha]; dsimp only; rw [e2]; rfl
          · right
            have hx := (hm ns).trans (by rw [ha])
            have hx' := (hm ns').trans (by rw [ha])
            dsimp only at hx hx'
            rw [← e2] at hx'
            refine hsame _ ?_ hx hx'
            intro o
            cases he : encode r.1.tiles.part kFasm kSource (formatDate ns) (formatTime ns) r.2
              ⟨[], 0, seek, false⟩ fuel with
            | none => intro e; cases e
            | some x =>
              cases x with
              | ok o' => exact absurd he (e1 o')
              | err => intro e; cases e
              | abort => intro e; cases e
              | ub => intro e; cases e

/-- End to end, for every reading of the clock: the file printed names the second in which it was made, and a reader
of the bitstream gets back exactly the bits of the design, whatever the date. -/
theorem C79_end_to_end (env : Env) (load : LoadOrder) (hload : LoadOk load) (ord : HashOrder) (hord : Permutes ord) (inv : Invocation)
    (db : PartDatabase) (text : Bytes) (hstart : Starts env load inv db text)
    (hasm : Assembles db.tiles text)
    (hd : DescDense db.tiles.part) (p : Xc7.Part) (hp : Part.fromPart db.tiles.part = .ok p)
    (hsmall : FitsPacket p)
    (hin : ∀ k, TouchesFrame db.tiles (Design db.tiles text) k → k < 2 ^ 26 ∧ p.isValid (BitVec.ofNat 32 k) = true)
    (seek : Bool) (ns : Int) (hlo : -2 ^ 63 ≤ ns) (hhi : ns < 2 ^ 63) :
    ∃ y m d h mi s : Nat, ValidDate y m d ∧ h < 24 ∧ mi < 60 ∧ s < 60 ∧
      dayNumber y m d * 86400 + (h * 3600 + mi * 60 + s : Nat) = ns / 1000000000 ∧
      ∃ fuel0, ∀ fuel ≥ fuel0, ∃ o file c,
        main env load ord (atTime inv ns) ⟨[], 0, seek, false⟩ fuel = some (.ok (0, o)) ∧
        readBitFile o.bytes = some file ∧ file.date = dateText y m d ++ [0] ∧ file.time = timeText h mi s ++ [0] ∧
        decodeFile p o.bytes fuel = some (.ok (some c)) ∧
        ∀ k w b, (∃ ws x, c.frames.get? k = some ws ∧ ws[w]? = some x ∧ x.getLsbD b = true) ↔
          ∃ tile call, Lists db.tiles (Design db.tiles text) tile call ∧ call.value = true ∧
            call.frame = k ∧ call.word = w ∧ call.index = b := by
  obtain ⟨y, m, d, h, mi, s, hv, -, -, hh, hmi, hs, e1, e2, e3⟩ := C79_stamp ns hlo hhi
  obtain ⟨-, -, s1, s2⟩ := C79_shape ns hlo hhi
  have hst : Starts env load (atTime inv ns) db text := hstart
  obtain ⟨f1, h1⟩ := C60_end_to_end env load hload ord hord (atTime inv ns) db text hst hasm hd p hp hsmall s1 s2
    hin seek
  obtain ⟨_, _, _, f2, h2⟩ := C67_device env load hload ord hord (atTime inv ns) db text hst hasm hd p hp hsmall
    s1 s2 hin seek
  refine ⟨y, m, d, h, mi, s, hv, hh, hmi, hs, e3, max f1 f2, ?_⟩
  intro fuel hf
  obtain ⟨o, c, k1, k2, -, -, -, k3⟩ := h1 fuel (by omega)
  obtain ⟨o', file, -, -, j1, j2, -, -, j3, j4, -⟩ := h2 fuel (by omega)
  have ho : o' = o := by
    rw [k1] at j1
    cases j1
    rfl
  subst ho
  exact ⟨o', file, c, k1, j2, j3.trans (congrArg (· ++ [0]) e1), j4.trans (congrArg (· ++ [0]) e2), k2, k3⟩

/-- Examples: 2024-02-29 12:34:56.789, the last second before the epoch, and the ends of the clock. -/
example :
    formatDate 1709210096789000000 = bytes!"2024/02/29" ∧
    formatTime 1709210096789000000 = bytes!"12:34:56" ∧
    formatDate (-1) = dateText 1969 12 31 ∧ formatTime (-1) = timeText 23 59 59 ∧
    formatDate (-2 ^ 63) = dateText 1677 9 21 ∧ formatTime (-2 ^ 63) = timeText 0 12 43 ∧
    formatDate (2 ^ 63 - 1) = dateText 2262 4 11 ∧ formatTime (2 ^ 63 - 1) = timeText 23 47 16 := by
  decide +kernel

/-- The hypotheses of `C79_end_to_end` about the start hold for the small database of C60, at any time. -/
example (ns : Int) : Starts fileEnv sameLoad (atTime fileInv ns) ⟨fileTiles, []⟩ bytes!"T.F\n" := file_starts

end Verif.Props

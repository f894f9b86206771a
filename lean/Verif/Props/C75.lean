import Verif.Props.C63
/-! # C75: files and configurations correspond -/
namespace Verif.Props
open Verif.Xc7 Verif.Xc7.Packet Verif.Spec

/-- The frame a map gives at an address: a frame not in the map is all zero. -/
def frameAt (frames : BMap (FrameWords 101)) (k : Nat) : FrameWords 101 := (frames.get? k).getD (Vector.replicate 101 0#32)

/-- The part has a frame with this address (reached by walking the addresses from 0). -/
def OnWalk (p : Xc7.Part) (k : Nat) : Prop := ∃ a, Reached p a ∧ a.toNat = k

theorem walk_keys {β γ : Type} (p : Xc7.Part) : ∀ (m : BMap β) (m' : BMap γ) (a : FrameAddress), WalkFrom p a m → WalkFrom p a m' →
    m.map Prod.fst = m'.map Prod.fst := by
  intro m
  induction m with
  | nil => intro m' a h _; exact h.elim
  | cons kv m ih =>
    intro m' a h h'
    cases m' with
    | nil => exact h'.elim
    | cons kv' m' =>
      obtain ⟨k, v⟩ := kv
      obtain ⟨k', v'⟩ := kv'
      obtain ⟨h1, h2⟩ := h
      obtain ⟨h1', h2'⟩ := h'
      rw [List.map_cons, List.map_cons, h1, h1']
      congr 1
      cases hn : p.next a with
      | none =>
        simp only [hn] at h2 h2'
        rw [h2, h2']; rfl
      | some nx =>
        simp only [hn] at h2 h2'
        exact ih m' nx h2 h2'

theorem slot_keys {β γ : Type} (n : Nat) (p : Xc7.Part) (m : BMap β) (m' : BMap γ) (h : m.map Prod.fst = m'.map Prod.fst) (i : Nat) :
    slot n p m i = slot n p m' i := by
  unfold slot
  rw [rowEnds_keys p (m.take i) (m'.take i) (by rw [List.map_take, List.map_take, h])]

/-- The completed map, from what it has to contain. -/
theorem completed_get (p : Xc7.Part) (frames m : BMap (FrameWords 101))
    (hget : ∀ k f, m.get? k = some f ↔ (frames.get? k = some f ∨
      (frames.get? k = none ∧ f = Vector.replicate 101 0#32 ∧ ∃ a, Reached p a ∧ a.toNat = k)))
    (hk : ∀ k f, (k, f) ∈ frames → ∃ a, Reached p a ∧ a.toNat = k) (k : Nat) :
    (OnWalk p k → m.get? k = some (frameAt frames k)) ∧ (¬ OnWalk p k → m.get? k = none) := by
  constructor
  · intro h
    rw [hget]
    unfold frameAt
    cases hf : frames.get? k with
    | none => exact .inr ⟨rfl, rfl, h⟩
    | some f => exact .inl rfl
  · intro h
    cases hm : m.get? k with
    | none => rfl
    | some f =>
      rcases (hget k f).1 hm with h1 | ⟨_, _, h1⟩
      · exact absurd (hk k f (BMap.mem_of_get? h1)) h
      · exact absurd h1 h

/-- Two files for one part are the same exactly when the names, the date and the time are the same and every frame of
the part is. -/
theorem C75_same_file (d : Db.Part) (hd : DescFits d) (p : Xc7.Part) (hp : Xc7.Part.fromPart d = .ok p)
    (hsmall : FitsPacket p) (seek : Bool) (partName source date time partName' source' date' time' : Bytes)
    (hnames : ∀ s ∈ [partName, source, date, time], ShortAscii s)
    (hnames' : ∀ s ∈ [partName', source', date', time'], ShortAscii s)
    (frames frames' : BMap (FrameWords 101)) (hs : frames.Sorted) (hs' : frames'.Sorted)
    (hk : ∀ k f, (k, f) ∈ frames → OnWalk p k) (hk' : ∀ k f, (k, f) ∈ frames' → OnWalk p k) :
    ∃ fuel0, ∀ fuel ≥ fuel0, ∃ o o',
      encode d partName source date time frames ⟨[], 0, seek, false⟩ fuel = some (.ok o) ∧
      encode d partName' source' date' time' frames' ⟨[], 0, seek, false⟩ fuel = some (.ok o') ∧
      (o.bytes = o'.bytes ↔ partName = partName' ∧ source = source' ∧ date = date' ∧ time = time' ∧
        ∀ k, OnWalk p k → frameAt frames k = frameAt frames' k) := by
  obtain ⟨m, m1, m2, m3, fuel1, h⟩ := encode_file d hd p hp hsmall partName source date time seek hnames frames hs hk
  obtain ⟨m', m1', m2', m3', fuel2, h'⟩ := encode_file d hd p hp hsmall partName' source' date' time' seek hnames' frames' hs' hk'
  obtain ⟨q, q1, q2, fuel3, g⟩ := C18_bitstream_round_trip d hd p hp hsmall partName source date time seek hnames frames hs hk
  obtain ⟨q', q1', q2', fuel4, g'⟩ := C18_bitstream_round_trip d hd p hp hsmall partName' source' date' time' seek hnames' frames' hs' hk'
  refine ⟨fuel1 + fuel2 + fuel3 + fuel4, fun fuel hf => ?_⟩
  obtain ⟨o, file, words, data, e1, e2, e3, e4, e5, e6, e7, e8, e9, ⟨e10, e10', e11, e12⟩, _⟩ := h fuel (by omega)
  obtain ⟨o', file', words', data', i1, i2, i3, i4, i5, i6, i7, i8, i9, ⟨i10, i10', i11, i12⟩, _⟩ := h' fuel (by omega)
  obtain ⟨o2, g1, g2⟩ := g fuel (by omega)
  obtain ⟨o2', g1', g2'⟩ := g' fuel (by omega)
  rw [e1] at g1; cases g1
  rw [i1] at g1'; cases g1'
  refine ⟨o, o', e1, i1, ?_, ?_⟩
  · intro heq
    rw [heq, i2] at e2
    cases e2
    have hsnoc : ∀ a b : Bytes, a ++ [0] = b ++ [0] → a = b := fun a b h => List.append_cancel_right h
    refine ⟨hsnoc _ _ (e4.symm.trans i4), List.append_cancel_right (e3.symm.trans i3), hsnoc _ _ (e5.symm.trans i5),
      hsnoc _ _ (e6.symm.trans i6), ?_⟩
    intro k hkk
    rw [heq, g2'] at g2
    have hq : sameFrames q' = sameFrames q := by
      simp only [Option.some.injEq, Outcome.ok.injEq, Configuration.mk.injEq, true_and] at g2
      exact g2
    have a1 : q.get? k = some (frameAt frames k) := (completed_get p frames q q2 hk k).1 hkk
    have a2 : q'.get? k = some (frameAt frames' k) := (completed_get p frames' q' q2' hk' k).1 hkk
    have b1 := (mem_sameFrames q k _).2 ⟨_, BMap.mem_of_get? a1, rfl⟩
    rw [← hq] at b1
    obtain ⟨f, c1, c2⟩ := (mem_sameFrames q' k _).1 b1
    have c3 := BMap.get?_of_mem q1' c1
    have c4 : frameAt frames' k = f := Option.some.inj (a2.symm.trans c3)
    rw [c4]
    exact Vector.toList_inj.1 c2
  · rintro ⟨rfl, rfl, rfl, rfl, hframes⟩
    have hm : m = m' := by
      apply BMap.sorted_ext m1 m1'
      intro k
      by_cases hkk : OnWalk p k
      · rw [(completed_get p frames m m3 hk k).1 hkk, (completed_get p frames' m' m3' hk' k).1 hkk, hframes k hkk]
      · rw [(completed_get p frames m m3 hk k).2 hkk, (completed_get p frames' m' m3' hk' k).2 hkk]
    subst hm
    have : data = data' := e11.trans i11.symm
    subst this
    have := e12 ⟨[], 0, seek, false⟩
    rw [← i12, e1, i1] at this
    cases this
    rfl

/-- Files for parts with different IDCODEs are different. -/
theorem C75_other_part (d d' : Db.Part) (hd : DescFits d) (hd' : DescFits d') (p p' : Xc7.Part)
    (hp : Xc7.Part.fromPart d = .ok p) (hp' : Xc7.Part.fromPart d' = .ok p')
    (hsmall : FitsPacket p) (hsmall' : FitsPacket p') (seek : Bool)
    (partName source date time partName' source' date' time' : Bytes)
    (hnames : ∀ s ∈ [partName, source, date, time], ShortAscii s)
    (hnames' : ∀ s ∈ [partName', source', date', time'], ShortAscii s)
    (frames frames' : BMap (FrameWords 101)) (hs : frames.Sorted) (hs' : frames'.Sorted)
    (hk : ∀ k f, (k, f) ∈ frames → OnWalk p k) (hk' : ∀ k f, (k, f) ∈ frames' → OnWalk p' k)
    (hid : p.idcode ≠ p'.idcode) :
    ∃ fuel0, ∀ fuel ≥ fuel0, ∃ o o',
      encode d partName source date time frames ⟨[], 0, seek, false⟩ fuel = some (.ok o) ∧
      encode d' partName' source' date' time' frames' ⟨[], 0, seek, false⟩ fuel = some (.ok o') ∧
      o.bytes ≠ o'.bytes := by
  obtain ⟨m, m1, m2, m3, fuel1, h⟩ := encode_file d hd p hp hsmall partName source date time seek hnames frames hs hk
  obtain ⟨m', m1', m2', m3', fuel2, h'⟩ := encode_file d' hd' p' hp' hsmall' partName' source' date' time' seek hnames' frames' hs' hk'
  refine ⟨fuel1 + fuel2, fun fuel hf => ?_⟩
  obtain ⟨o, file, words, data, e1, e2, e3, e4, e5, e6, e7, e8, e9, _, e10⟩ := h fuel (by omega)
  obtain ⟨o', file', words', data', i1, i2, i3, i4, i5, i6, i7, i8, i9, _, i10⟩ := h' fuel (by omega)
  refine ⟨o, o', e1, i1, ?_⟩
  intro heq
  rw [heq, i2] at e2
  cases e2
  have hb := i7.symm.trans e7
  have h1 := C13_read_serialised (List.replicate 8 0xFFFFFFFF#32 ++ [0x000000BB#32, 0x11220044#32] ++
          List.replicate 2 0xFFFFFFFF#32 ++ [0xAA995566#32] ++ words)
  rw [← hb, C13_read_serialised] at h1
  have hw : words' = words := List.append_cancel_left (Outcome.ok.inj h1)
  have j := e10 p.idcode
  have j' := i10 p.idcode
  rw [hw, j, if_pos rfl, if_neg hid] at j'
  have := congrArg Device.idError j'
  cases this

theorem rowEnds_take_le {β : Type} (p : Xc7.Part) (m : BMap β) (i j : Nat) (h : i ≤ j) :
    rowEnds p (m.take i) ≤ rowEnds p (m.take j) := by
  unfold rowEnds
  exact (List.Sublist.filter _ (List.take_sublist_take_left h)).length_le

theorem slot_apart {β : Type} (p : Xc7.Part) (m : BMap β) (i j : Nat) (h : i < j) : slot 101 p m i + 101 ≤ slot 101 p m j := by
  have := rowEnds_take_le p m i j (by omega)
  unfold slot
  omega

theorem slot_inside {β : Type} (p : Xc7.Part) (m : BMap β) (i : Nat) (h : i < m.length) :
    slot 101 p m i + 101 ≤ (m.length + 2 * rowEnds p m + 2) * 101 := by
  have h1 := rowEnds_take_le p m i m.length (by omega)
  rw [List.take_length] at h1
  unfold slot
  omega

/-- The words of the whole file around the frame data. -/
theorem words_around (idcode : Word) (len : Nat) : ∃ P S : List Word, P.length = 59 ∧ ∀ data : List Word, data.length = len →
    List.replicate 8 0xFFFFFFFF#32 ++ [0x000000BB#32, 0x11220044#32] ++
      List.replicate 2 0xFFFFFFFF#32 ++ [0xAA995566#32] ++ wireWords (configurationPackage data idcode) = P ++ data ++ S := by
  refine ⟨List.replicate 8 0xFFFFFFFF#32 ++ [0x000000BB#32, 0x11220044#32] ++
      List.replicate 2 0xFFFFFFFF#32 ++ [0xAA995566#32] ++ (wireWords (packagePrefix idcode) ++ [BitVec.ofNat 32 (2 * 2 ^ 29 + 2 * 2 ^ 27 + len)]),
    wireWords packageSuffix, ?_, ?_⟩
  · rfl
  · rintro data rfl
    have h4 : ∀ a b : List Packet, wireWords (a ++ b) = wireWords a ++ wireWords b := fun a b => List.flatMap_append
    rw [configurationPackage, h4, h4]
    rw [show wireWords [(⟨kTYPE2, opWrite, regFDRI, data⟩ : Packet)] =
      BitVec.ofNat 32 (2 * 2 ^ 29 + 2 * 2 ^ 27 + data.length) :: (data ++ []) from rfl, List.append_nil]
    simp only [List.append_assoc, List.cons_append, List.nil_append]

theorem index_unique {β : Type} (m : BMap β) (hs : m.Sorted) (i j k k' : Nat) (hi : (m.map Prod.fst)[i]? = some k)
    (hj : (m.map Prod.fst)[j]? = some k') : (k < k' → i < j) ∧ (k = k' → i = j) := by
  have hpw : (m.map Prod.fst).Pairwise (· < ·) := List.pairwise_map.2 hs
  obtain ⟨hi', rfl⟩ := List.getElem?_eq_some_iff.1 hi
  obtain ⟨hj', rfl⟩ := List.getElem?_eq_some_iff.1 hj
  have key : ∀ a b (ha : a < (m.map Prod.fst).length) (hb : b < (m.map Prod.fst).length), a < b →
      (m.map Prod.fst)[a] < (m.map Prod.fst)[b] := fun a b ha hb h => List.pairwise_iff_getElem.1 hpw a b ha hb h
  constructor
  · intro h
    apply Classical.byContradiction
    intro hn
    rcases Nat.lt_or_eq_of_le (Nat.le_of_not_lt hn) with h1 | h1
    · have := key j i hj' hi' h1; omega
    · subst h1; omega
  · intro h
    rcases Nat.lt_trichotomy i j with h1 | h1 | h1
    · have := key i j hi' hj' h1; omega
    · exact h1
    · have := key j i hj' hi' h1; omega

open Classical in
/-- Where the words of the frame at an address are, given the completed map. -/
noncomputable def placeIn {β : Type} (p : Xc7.Part) (m : BMap β) (k : Nat) : Nat :=
  if h : ∃ i, (m.map Prod.fst)[i]? = some k then 59 + slot 101 p m (Classical.choose h) else 0

theorem placeIn_eq {β : Type} (p : Xc7.Part) (m : BMap β) (hs : m.Sorted) (i k : Nat) (h : (m.map Prod.fst)[i]? = some k) :
    placeIn p m k = 59 + slot 101 p m i := by
  have hex : ∃ i, (m.map Prod.fst)[i]? = some k := ⟨i, h⟩
  unfold placeIn
  rw [dif_pos hex, (index_unique m hs _ _ k k (Classical.choose_spec hex) h).2 rfl]

theorem index_of_get {β : Type} (m : BMap β) (k : Nat) (f : β) (h : m.get? k = some f) :
    ∃ i, m[i]? = some (k, f) ∧ (m.map Prod.fst)[i]? = some k ∧ i < m.length := by
  obtain ⟨i, hi, he⟩ := List.getElem_of_mem (BMap.mem_of_get? h)
  have : m[i]? = some (k, f) := List.getElem?_eq_some_iff.2 ⟨hi, he⟩
  exact ⟨i, this, by rw [List.getElem?_map, this]; rfl, hi⟩

/-- The configuration data are a fixed template with a fixed place for every frame: both depend on the part alone.
Places do not overlap; word `j` of the frame at address `k` is word `place k + j` of the data; every word outside the
places is that of the template. -/
theorem C75_template (d : Db.Part) (hd : DescFits d) (p : Xc7.Part) (hp : Xc7.Part.fromPart d = .ok p)
    (hsmall : FitsPacket p) :
    ∃ (template : List Word) (place : Nat → Nat),
      (∀ k k', OnWalk p k → OnWalk p k' → k < k' → place k + 101 ≤ place k') ∧
      (∀ k, OnWalk p k → place k + 101 ≤ template.length) ∧
      ∀ (seek : Bool) (partName source date time : Bytes), (∀ s ∈ [partName, source, date, time], ShortAscii s) →
      ∀ frames : BMap (FrameWords 101), frames.Sorted → (∀ k f, (k, f) ∈ frames → OnWalk p k) →
      ∃ fuel0, ∀ fuel ≥ fuel0, ∃ o file words,
        encode d partName source date time frames ⟨[], 0, seek, false⟩ fuel = some (.ok o) ∧
        readBitFile o.bytes = some file ∧ file.config = fileBytes words ∧ words.length = template.length ∧
        (∀ k, OnWalk p k → (words.drop (place k)).take 101 = (frameAt frames k).toList) ∧
        ∀ n, (∀ k, OnWalk p k → n < place k ∨ place k + 101 ≤ n) → words[n]? = template[n]? := by
  have hnone : ∀ s ∈ [([] : Bytes), [], [], []], ShortAscii s := by
    intro s hs
    simp only [List.mem_cons, List.not_mem_nil, or_false, or_self] at hs
    subst hs
    exact ⟨by decide, by simp⟩
  obtain ⟨m0, a1, a2, a3, fuel1, h0⟩ := encode_file d hd p hp hsmall [] [] [] [] true hnone [] List.Pairwise.nil (by simp)
  obtain ⟨o0, file0, words0, data0, _, _, _, _, _, _, _, f8, f9, ⟨f10, f11, f12, _⟩, _⟩ := h0 fuel1 (Nat.le_refl _)
  obtain ⟨P, S, hP, hwords⟩ := words_around p.idcode data0.length
  have hget0 := fun k (h : OnWalk p k) => index_of_get m0 k _ ((completed_get p [] m0 a3 (by simp) k).1 h)
  refine ⟨P ++ data0 ++ S, placeIn p m0, ?_, ?_, ?_⟩
  · intro k k' h h' hlt
    obtain ⟨i, _, hi, _⟩ := hget0 k h
    obtain ⟨j, _, hj, _⟩ := hget0 k' h'
    rw [placeIn_eq p m0 a1 i k hi, placeIn_eq p m0 a1 j k' hj]
    have := slot_apart p m0 i j ((index_unique m0 a1 i j k k' hi hj).1 hlt)
    omega
  · intro k h
    obtain ⟨i, _, hi, hl⟩ := hget0 k h
    rw [placeIn_eq p m0 a1 i k hi, List.length_append, List.length_append, hP, f8]
    have := slot_inside p m0 i hl
    omega
  intro seek partName source date time hnames frames hs hk
  obtain ⟨m, b1, b2, b3, fuel2, h⟩ := encode_file d hd p hp hsmall partName source date time seek hnames frames hs hk
  refine ⟨fuel2, fun fuel hf => ?_⟩
  obtain ⟨o, file, words, data, e1, e2, _, _, _, _, e7, e8, e9, ⟨e10, e11, e12, _⟩, _⟩ := h fuel hf
  have hkeys : m.map Prod.fst = m0.map Prod.fst := walk_keys p m m0 _ b2 a2
  have hlen : m.length = m0.length := by have := congrArg List.length hkeys; simpa using this
  have hdl : data.length = data0.length := by rw [e8, f8, hlen, rowEnds_keys p m m0 hkeys]
  refine ⟨o, file, P ++ data ++ S, e1, e2, ?_, ?_, ?_, ?_⟩
  · rw [e7, e10, hwords data hdl]
  · simp only [List.length_append, hdl]
  · intro k hkk
    obtain ⟨i, hi, hik, hl⟩ := index_of_get m k _ ((completed_get p frames m b3 hk k).1 hkk)
    rw [hkeys] at hik
    rw [placeIn_eq p m0 a1 i k hik, ← e9 i k _ hi, ← slot_keys 101 p m m0 hkeys i]
    have hin := slot_inside p m i hl
    rw [← e8] at hin
    rw [List.append_assoc, ← List.drop_drop, ← hP, List.drop_left, List.drop_append_of_le_length (by omega),
      List.take_append_of_le_length (by rw [List.length_drop]; omega)]
  · intro n hn
    rw [List.append_assoc, List.append_assoc]
    by_cases h1 : n < P.length
    · rw [List.getElem?_append_left h1, List.getElem?_append_left h1]
    rw [List.getElem?_append_right (l₁ := P) (l₂ := data ++ S) (by omega),
      List.getElem?_append_right (l₁ := P) (l₂ := data0 ++ S) (by omega)]
    by_cases h2 : n - P.length < data.length
    · rw [List.getElem?_append_left h2, List.getElem?_append_left (by omega)]
      have hout : ∀ i < m0.length, n - P.length < slot 101 p m0 i ∨ slot 101 p m0 i + 101 ≤ n - P.length := by
        intro i hi
        have hmi : m0[i]? = some m0[i] := List.getElem?_eq_getElem hi
        have hki : (m0.map Prod.fst)[i]? = some m0[i].1 := by rw [List.getElem?_map, hmi]; rfl
        have hfr : OnWalk p m0[i].1 := by
          apply Classical.byContradiction
          intro hnf
          have := (completed_get p [] m0 a3 (by simp) m0[i].1).2 hnf
          have hg := BMap.get?_of_mem a1 (show (m0[i].1, m0[i].2) ∈ m0 from List.getElem_mem hi)
          rw [this] at hg
          cases hg
        have := hn _ hfr
        rw [placeIn_eq p m0 a1 i _ hki] at this
        omega
      have z : ∀ (q : BMap (FrameWords 101)) (dd : List Word), dd = type2Payload p q → q.map Prod.fst = m0.map Prod.fst →
          n - P.length < dd.length → dd[n - P.length]? = some 0#32 := by
        intro q dd hdd hq hlt
        have hg : dd[n - P.length]? = some dd[n - P.length] := List.getElem?_eq_getElem hlt
        rw [hg]
        congr 1
        refine C16_padding_zero p q (n - P.length) _ (by rw [← hdd]; exact hg) ?_
        intro i hi
        rw [slot_keys 101 p q m0 hq i]
        have hql : q.length = m0.length := by have := congrArg List.length hq; simpa using this
        exact hout i (by omega)
      rw [z m data e12 hkeys h2, z m0 data0 f12 rfl (by omega)]
    · rw [List.getElem?_append_right (l₁ := data) (by omega), List.getElem?_append_right (l₁ := data0) (by omega), hdl]

/-- Reading a written file back and encoding the frames read gives the same file. -/
theorem C75_reencode (d : Db.Part) (hd : DescFits d) (p : Xc7.Part) (hp : Xc7.Part.fromPart d = .ok p)
    (hsmall : FitsPacket p) (seek : Bool) (partName source date time : Bytes)
    (hnames : ∀ s ∈ [partName, source, date, time], ShortAscii s)
    (frames : BMap (FrameWords 101)) (hs : frames.Sorted) (hk : ∀ k f, (k, f) ∈ frames → OnWalk p k) :
    ∃ fuel0, ∀ fuel ≥ fuel0, ∃ o c,
      encode d partName source date time frames ⟨[], 0, seek, false⟩ fuel = some (.ok o) ∧
      decodeFile p o.bytes fuel = some (.ok (some c)) ∧
      ∀ frames' : BMap (FrameWords 101), sameFrames frames' = c.frames → ∃ o',
        encode d partName source date time frames' ⟨[], 0, seek, false⟩ fuel = some (.ok o') ∧ o'.bytes = o.bytes := by
  obtain ⟨q, q1, q2, fuel0, g⟩ := C18_bitstream_round_trip d hd p hp hsmall partName source date time seek hnames frames hs hk
  have hk' : ∀ k f, (k, f) ∈ q → OnWalk p k := by
    intro k f hkf
    rcases (q2 k f).1 (BMap.get?_of_mem q1 hkf) with h | ⟨_, _, h⟩
    · exact hk k f (BMap.mem_of_get? h)
    · exact h
  obtain ⟨fuel1, hh⟩ := C75_same_file d hd p hp hsmall seek partName source date time partName source date time hnames hnames
    frames q hs q1 hk hk'
  refine ⟨fuel0 + fuel1, fun fuel hf => ?_⟩
  obtain ⟨o, g1, g2⟩ := g fuel (by omega)
  obtain ⟨o1, o2, k1, k2, k3⟩ := hh fuel (by omega)
  rw [g1] at k1
  cases k1
  refine ⟨o, _, g1, g2, ?_⟩
  intro frames' hfr
  have heq : frames' = q := by
    have hinj : ∀ (a b : BMap (FrameWords 101)), sameFrames a = sameFrames b → a = b := by
      intro a
      induction a with
      | nil => intro b h; cases b with
        | nil => rfl
        | cons _ _ => cases h
      | cons x a ih =>
        intro b h
        cases b with
        | nil => cases h
        | cons y b =>
          simp only [sameFrames, List.map_cons, List.cons.injEq, Prod.mk.injEq] at h
          obtain ⟨⟨h1, h2⟩, h3⟩ := h
          have := Vector.toList_inj.1 h2
          rw [ih b h3]
          congr 1
          exact Prod.ext h1 this
    exact hinj _ _ hfr
  rw [heq]
  refine ⟨o2, k2, (k3.2 ⟨rfl, rfl, rfl, rfl, fun k hkk => ?_⟩).symm⟩
  have := (completed_get p frames q q2 hk k).1 hkk
  rw [frameAt.eq_def q, this]; rfl

/-- Non-vacuity: the small device, no frame given and one frame given; the addresses are frames of the part. -/
example : ∃ p, Xc7.Part.fromPart smallDesc = .ok p ∧ DescFits smallDesc ∧ FitsPacket p ∧ OnWalk p 129 ∧
    frameAt [(129, Vector.replicate 101 5#32)] 129 ≠ frameAt [] 129 := by
  refine ⟨_, rfl, smallDesc_dense.fits, smallDesc_packet, ⟨129#32, ?_, rfl⟩, ?_⟩
  · exact reached_of_valid _ (fits_fromPart _ smallDesc_dense.fits _ rfl) (dense_fromPart _ smallDesc_dense _ rfl) _ (by decide) (by decide)
  · intro h
    have e1 : frameAt [(129, Vector.replicate 101 5#32)] 129 = Vector.replicate 101 5#32 := rfl
    have e2 : frameAt [] 129 = Vector.replicate 101 0#32 := rfl
    rw [e1, e2] at h
    have h2 := congrArg (fun v : FrameWords 101 => v[0]) h
    simp at h2

end Verif.Props

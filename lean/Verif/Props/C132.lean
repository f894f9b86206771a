import Verif.Spec.Memory
import Verif.Props.C130
import Verif.Props.C75
import Verif.Props.WholeExample
/-! # C132: what is in the memory of a device -/
namespace Verif.Props
open Verif.Db Verif.Asm Verif.Spec Verif.Text Verif.Xc7

/-! ## Frames by number -/

theorem busNumber_block {d : Db.Part} (hc : NoCfgClb d) {bottom : Bool} {row : Nat} {bus : ConfigBusType} {col n : Nat}
    (h : describedCount d bottom row bus col = some n) : bus ≠ .cfgClb := by
  rintro rfl
  obtain ⟨r, cols, h1, h2, h3⟩ := (describedCount_eq ..).1 h
  have hm := Text.mem_of_lookup h2
  have hr : r ∈ (if bottom then d.bottomRows else d.topRows) := List.mem_of_getElem? h1
  have := hc (if bottom then d.bottomRows else d.topRows) (by cases bottom <;> simp) r hr _ hm rfl
  simp only at this
  rw [this] at h3
  cases h3

theorem described_small {d : Db.Part} (hd : DescFits d) {bottom : Bool} {row : Nat} {bus : ConfigBusType} {col n : Nat}
    (h : describedCount d bottom row bus col = some n) : row < 32 ∧ col < 1024 ∧ n ≤ 128 := by
  obtain ⟨r, cols, h1, h2, h3⟩ := (describedCount_eq ..).1 h
  have hm := Text.mem_of_lookup h2
  have hr : r ∈ (if bottom then d.bottomRows else d.topRows) := List.mem_of_getElem? h1
  obtain ⟨g1, g2⟩ := hd (if bottom then d.bottomRows else d.topRows) (by cases bottom <;> simp)
  obtain ⟨g3, g4⟩ := (g2 r hr).2 _ hm
  have e1 : row < (if bottom then d.bottomRows else d.topRows).length := (List.getElem?_eq_some_iff.1 h1).1
  have e2 := (List.getElem?_eq_some_iff.1 h3).1
  have e3 := List.mem_of_getElem? h3
  simp only at g3 e2
  exact ⟨by omega, by omega, g4 n e3⟩

theorem frameOf_iff {d : Db.Part} (hd : DescDense d) {p : Xc7.Part} (hp : Part.fromPart d = .ok p) (k : Nat) :
    FrameOf d k ↔ k < 2 ^ 26 ∧ p.isValid (BitVec.ofNat 32 k) = true := by
  have key := C06_valid_iff_described_partial d (DescFits.wf hd.fits) hd.noCfg p hp
  constructor
  · rintro ⟨bus, bottom, row, col, minor, n, h1, h2, rfl⟩
    obtain ⟨h3, h4, h5⟩ := described_small hd.fits h1
    have h6 : busNumber bus < 3 := by cases bus <;> decide
    have hr : (⟨busNumber bus, bottom, row, col, minor⟩ : Coord).InRange := ⟨by show busNumber bus < 8; omega, h3, h4, by show minor < 128; omega⟩
    have e := toNat_addressOf _ hr
    have e2 : busNumber bus * 2 ^ 23 + (if bottom then 2 ^ 22 else 0) + row * 2 ^ 17 + col * 2 ^ 7 + minor =
        (addressOf ⟨busNumber bus, bottom, row, col, minor⟩).toNat := by
      rw [e]; cases bottom <;> simp
    refine ⟨?_, ?_⟩
    · cases bottom <;> simp <;> omega
    · rw [e2, BitVec.ofNat_toNat, BitVec.setWidth_eq, key, C02_coord_round_trip _ hr]
      exact ⟨bus, n, rfl, h1, h2⟩
  · rintro ⟨h1, h2⟩
    obtain ⟨bus, n, h3, h4, h5⟩ := (key _).1 h2
    refine ⟨bus, _, _, _, _, n, h4, h5, ?_⟩
    have e := C02_address_round_trip (BitVec.ofNat 32 k)
    rw [toNat_addressOf _ (C02_coordOf_inRange _), BitVec.toNat_ofNat] at e
    rw [h3]
    have : k % 2 ^ 32 % 2 ^ 26 = k := by omega
    rw [this] at e
    refine e.symm.trans ?_
    cases (coordOf (BitVec.ofNat 32 k)).bottom <;> simp

theorem row_number (a : FrameAddress) (ha : a.toNat < 2 ^ 26) :
    a.toNat / 2 ^ 17 = (coordOf a).block * 64 + (coordOf a).bottom.toNat * 32 + (coordOf a).row := by
  have e := C02_address_round_trip a
  rw [toNat_addressOf _ (C02_coordOf_inRange _), Nat.mod_eq_of_lt ha] at e
  have := C02_coordOf_inRange a
  obtain ⟨h1, h2, h3, h4⟩ := this
  omega

theorem endsRow_number {p : Xc7.Part} {a n : FrameAddress} (ha : a.toNat < 2 ^ 26) (hn : n.toNat < 2 ^ 26) (h : p.next a = some n) :
    endsRow p a = decide (n.toNat / 2 ^ 17 ≠ a.toNat / 2 ^ 17) := by
  unfold endsRow
  rw [h]
  dsimp only
  rw [decide_eq_decide, row_number a ha, row_number n hn]
  obtain ⟨h1, h2, h3, h4⟩ := C02_coordOf_inRange a
  obtain ⟨g1, g2, g3, g4⟩ := C02_coordOf_inRange n
  have b1 : (coordOf a).bottom.toNat < 2 := Bool.toNat_lt _
  have b2 : (coordOf n).bottom.toNat < 2 := Bool.toNat_lt _
  have hb : (coordOf n).bottom ≠ (coordOf a).bottom ↔ (coordOf n).bottom.toNat ≠ (coordOf a).bottom.toNat := by
    cases (coordOf n).bottom <;> cases (coordOf a).bottom <;> simp
  rw [hb]
  omega

/-! ## Pouring -/

theorem walk_head {β : Type} {p : Xc7.Part} {a : FrameAddress} {m : BMap β} (h : WalkFrom p a m) : ∃ v rest, m = (a.toNat, v) :: rest := by
  cases m with
  | nil => exact h.elim
  | cons e rest => obtain ⟨k, v⟩ := e; exact ⟨v, rest, by rw [h.1]⟩

theorem walk_above {β : Type} {p : Xc7.Part} (hf : Fits p) : ∀ (m : BMap β) (a : FrameAddress), a.toNat < 2 ^ 26 → WalkFrom p a m →
    (m.map (·.1)).Pairwise (· < ·) ∧ ∀ k ∈ m.map (·.1), a.toNat ≤ k ∧ k < 2 ^ 26 := by
  intro m
  induction m with
  | nil => intro a _ h; exact h.elim
  | cons e rest ih =>
    obtain ⟨k, v⟩ := e
    intro a ha h
    obtain ⟨rfl, h⟩ := h
    cases hn : p.next a with
    | none =>
      rw [hn] at h
      have h : rest = [] := h
      subst h
      exact ⟨by simp, fun k hk => by rw [List.mem_singleton.1 hk]; exact ⟨Nat.le_refl _, ha⟩⟩
    | some nx =>
      rw [hn] at h
      obtain ⟨_, h1, h2⟩ := C04_next_sound p hf a nx ha hn
      obtain ⟨h3, h4⟩ := ih nx h2 h
      have h1 := BitVec.lt_def.1 h1
      refine ⟨List.pairwise_cons.2 ⟨fun x hx => ?_, h3⟩, fun x hx => ?_⟩
      · have := h4 x hx; show a.toNat < x; omega
      · rcases List.mem_cons.1 hx with rfl | hx
        · exact ⟨Nat.le_refl _, ha⟩
        · have := h4 x hx; omega

theorem pour_others : ∀ (order : List Nat) (ws : List Word) (mem : Memory) (k : Nat), k ∉ order → pour order ws mem k = mem k
  | [], _, _, _, _ => rfl
  | x :: rest, ws, mem, k, h => by
    unfold pour
    rw [pour_others rest _ _ k (fun h' => h (List.mem_cons_of_mem _ h'))]
    split
    · unfold Memory.put
      rw [if_neg (fun e : k = x => h (by rw [e]; exact List.mem_cons_self ..))]
    · rfl

theorem pour_some (x y c l : Nat) (h : (x + y) * c ≤ l) : x * c ≤ l - y * c := by
  rw [Nat.add_mul] at h
  exact Nat.le_sub_of_add_le h
theorem pour_one {n r l : Nat} (h : (n + 1 + 2 * (0 + r) + 1) * 101 ≤ l) : (n + 2 * r + 1) * 101 ≤ l - 101 := by
  have e : n + 1 + 2 * (0 + r) + 1 = (n + 2 * r + 1) + 1 := by omega
  rw [e] at h
  have := pour_some (n + 2 * r + 1) 1 101 l h
  rw [Nat.one_mul] at this
  exact this
theorem pour_three {n r l : Nat} (h : (n + 1 + 2 * (1 + r) + 1) * 101 ≤ l) : (n + 2 * r + 1) * 101 ≤ l - 303 := by
  have e : n + 1 + 2 * (1 + r) + 1 = (n + 2 * r + 1) + 3 := by omega
  rw [e] at h
  have := pour_some (n + 2 * r + 1) 3 101 l h
  have e3 : 3 * 101 = 303 := by decide
  rw [e3] at this
  exact this
theorem pour_length {n r l : Nat} {b : Bool} (h : (n + 1 + 2 * ((if b = true then 1 else 0) + r) + 1) * 101 ≤ l) :
    (n + 2 * r + 1) * 101 ≤ l - (if b = true then 303 else 101) := by
  cases b with
  | false => exact pour_one h
  | true => exact pour_three h

theorem pour_walk {β : Type} {p : Xc7.Part} (hf : Fits p) : ∀ (m : BMap β) (a : FrameAddress) (data : List Word) (mem : Memory), a.toNat < 2 ^ 26 →
    WalkFrom p a m → (m.length + 2 * rowEnds p m + 1) * 101 ≤ data.length →
    ∀ i k v, m[i]? = some (k, v) → pour (m.map (·.1)) data mem k = (data.drop (slot 101 p m i)).take 101 := by
  intro m
  induction m with
  | nil => intro a _ _ _ h; exact h.elim
  | cons e rest ih =>
    obtain ⟨k0, v0⟩ := e
    intro a data mem ha h hlen i k v hi
    have hpw := (walk_above hf _ a ha h).1
    obtain ⟨rfl, h⟩ := h
    have hof : BitVec.ofNat 32 a.toNat = a := by simp
    have hre : rowEnds p ((a.toNat, v0) :: rest) = (if endsRow p a then 1 else 0) + rowEnds p rest := by
      have := rowEnds_cons p (a.toNat, v0) rest
      rwa [hof] at this
    have hrow : rowEnded a.toNat (rest.map (·.1)) = endsRow p a := by
      cases hn : p.next a with
      | none =>
        rw [hn] at h
        have h : rest = [] := h
        subst h
        unfold endsRow; rw [hn]; rfl
      | some nx =>
        rw [hn] at h
        obtain ⟨v1, r1, rfl⟩ := walk_head h
        rw [endsRow_number ha (C04_next_sound p hf a nx ha hn).2.2 hn]
        rfl
    rw [hre, List.length_cons] at hlen
    show pour (a.toNat :: rest.map (·.1)) data mem k = _
    have h202 : 202 ≤ data.length := by
      generalize (if endsRow p a = true then 1 else 0) = x at hlen
      omega
    unfold pour
    rw [hrow, if_pos h202]
    cases i with
    | zero =>
      cases hi
      rw [pour_others _ _ _ _ (fun hm => Nat.lt_irrefl _ ((List.pairwise_cons.1 hpw).1 _ hm)), slot_zero, List.drop_zero]
      exact if_pos rfl
    | succ i =>
      have hi : rest[i]? = some (k, v) := hi
      cases hn : p.next a with
      | none =>
        rw [hn] at h
        have h : rest = [] := h
        subst h
        cases hi
      | some nx =>
        rw [hn] at h
        have hnx := (C04_next_sound p hf a nx ha hn).2.2
        have e3 : slot 101 p ((a.toNat, v0) :: rest) (i + 1) = (if endsRow p a = true then 303 else 101) + slot 101 p rest i := by
          have := slot_succ 101 p a.toNat v0 rest i
          rw [hof] at this
          refine this.trans ?_
          cases endsRow p a <;> rfl
        have hl : (rest.length + 2 * rowEnds p rest + 1) * 101 ≤ (data.drop (if endsRow p a = true then 303 else 101)).length := by
          rw [List.length_drop]
          exact pour_length hlen
        have key := ih nx (data.drop (if endsRow p a = true then 303 else 101)) (mem.put a.toNat (data.take 101)) hnx h hl i k v hi
        rw [List.drop_drop, ← e3] at key
        exact key

theorem pairwise_unique : ∀ {l l' : List Nat}, l.Pairwise (· < ·) → l'.Pairwise (· < ·) → (∀ k, k ∈ l ↔ k ∈ l') → l = l'
  | [], [], _, _, _ => rfl
  | [], b :: _, _, _, h => by have := (h b).2 (List.mem_cons_self ..); cases this
  | a :: _, [], _, _, h => by have := (h a).1 (List.mem_cons_self ..); cases this
  | a :: l, b :: l', h1, h2, h => by
    obtain ⟨h3, h4⟩ := List.pairwise_cons.1 h1
    obtain ⟨h5, h6⟩ := List.pairwise_cons.1 h2
    have hab : a = b := by
      rcases List.mem_cons.1 ((h a).1 (List.mem_cons_self ..)) with e | e
      · exact e
      · rcases List.mem_cons.1 ((h b).2 (List.mem_cons_self ..)) with e' | e'
        · exact e'.symm
        · have := h5 a e; have := h3 b e'; omega
    subst hab
    rw [pairwise_unique h4 h6 fun k => ?_]
    constructor
    · intro hk
      rcases List.mem_cons.1 ((h k).1 (List.mem_cons_of_mem _ hk)) with e | e
      · have := h3 k hk; omega
      · exact e
    · intro hk
      rcases List.mem_cons.1 ((h k).2 (List.mem_cons_of_mem _ hk)) with e | e
      · have := h5 k hk; omega
      · exact e

theorem whole_dropWhile {l : List Nat} : l.dropWhile (· < 0) = l := by
  cases l <;> simp

/-- The walk the program makes is the order in which the device counts. -/
theorem walk_order {β : Type} {d : Db.Part} (hd : DescDense d) {p : Xc7.Part} (hp : Part.fromPart d = .ok p) {order : List Nat} (ho : FramesInOrder d order)
    (h0 : FrameOf d 0) {walk : BMap β} (hw : WalkFrom p 0#32 walk) (hk : ∀ k, k ∈ walk.map (·.1) ↔ k = 0 ∨ (k < 2 ^ 26 ∧ p.isValid (BitVec.ofNat 32 k) = true)) :
    walk.map (·.1) = order := by
  refine pairwise_unique (walk_above (fits_fromPart d hd.fits p hp) walk 0#32 (by decide) hw).1 ho.1 fun k => ?_
  rw [hk, ho.2, ← frameOf_iff hd hp]
  exact ⟨fun h => h.elim (fun h => h ▸ h0) id, Or.inr⟩

/-- The memory of the device in terms of places in the data. -/
theorem memory_slot {β : Type} {d : Db.Part} (hd : DescDense d) {p : Xc7.Part} (hp : Part.fromPart d = .ok p) {walk : BMap β}
    (hw : WalkFrom p 0#32 walk) {data : List Word} (hl : data.length = (walk.length + 2 * rowEnds p walk + 2) * 101)
    {s : Device} (hs : s.loaded = [(0, data)]) (mem : Memory) {i k : Nat} (hi : (walk.map (·.1))[i]? = some k) :
    s.memory (walk.map (·.1)) mem k = (data.drop (slot 101 p walk i)).take 101 := by
  unfold Device.memory
  rw [hs]
  show pour ((walk.map (·.1)).dropWhile (· < 0)) data mem k = _
  rw [whole_dropWhile]
  rw [List.getElem?_map] at hi
  cases he : walk[i]? with
  | none => rw [he] at hi; cases hi
  | some e =>
    obtain ⟨k', v⟩ := e
    rw [he] at hi
    have : k' = k := Option.some.inj hi
    subst this
    exact pour_walk (fits_fromPart d hd.fits p hp) walk 0#32 data mem (by decide) hw (by rw [hl]; exact Nat.mul_le_mul_right 101 (Nat.le_succ _)) i k' v he

/-! ## A file in a device -/

/-- A device that has held anything before holds the frames of the file afterwards, and zeros in all other frames it has.  A device with
another IDCODE keeps what it has. -/
theorem C132_file (d : Db.Part) (hd : DescDense d) (p : Xc7.Part) (hp : Part.fromPart d = .ok p) (order : List Nat) (ho : FramesInOrder d order)
    (h0 : FrameOf d 0) (hsmall : FitsPacket p) (partName source date time : Bytes) (seek : Bool)
    (hnames : ∀ s ∈ [partName, source, date, time], ShortAscii s)
    (frames : BMap (FrameWords 101)) (hs : frames.Sorted) (hk : ∀ k f, (k, f) ∈ frames → FrameOf d k) :
    ∃ fuel0, ∀ fuel ≥ fuel0, ∃ o file words,
      encode d partName source date time frames ⟨[], 0, seek, false⟩ fuel = some (.ok o) ∧
      readBitFile o.bytes = some file ∧
      file.config = fileBytes (List.replicate 8 0xFFFFFFFF#32 ++ [0x000000BB#32, 0x11220044#32] ++
        List.replicate 2 0xFFFFFFFF#32 ++ [0xAA995566#32] ++ words) ∧
      (∀ mem k, (Device.run d.idcode words).memory order mem k =
        if k ∈ order then ((frames.get? k).map (·.toList)).getD (List.replicate 101 0#32) else mem k) ∧
      ∀ id, id ≠ d.idcode → ∀ mem, (Device.run id words).memory order mem = mem := by
  have hfits := fits_fromPart d hd.fits p hp
  have hdense := dense_fromPart d hd p hp
  obtain ⟨m, h1, h2, h3, fuel0, h4⟩ := C63_file d hd.fits p hp hsmall partName source date time seek hnames frames hs
    (fun k f hkf => by
      obtain ⟨a, b⟩ := (frameOf_iff hd hp k).1 (hk k f hkf)
      exact (reached_iff hfits hdense k).2 (Or.inr ⟨a, b⟩))
  have hmem : ∀ k, k ∈ m.map (·.1) ↔ k = 0 ∨ (k < 2 ^ 26 ∧ p.isValid (BitVec.ofNat 32 k) = true) := by
    intro k
    rw [← reached_iff hfits hdense]
    constructor
    · intro hk'
      obtain ⟨⟨k', f⟩, he, rfl⟩ := List.mem_map.1 hk'
      rcases (h3 k' f).1 (BMap.get?_of_mem h1 he) with h | ⟨_, _, h⟩
      · obtain ⟨a, b⟩ := (frameOf_iff hd hp k').1 (hk k' f (BMap.mem_of_get? h))
        exact (reached_iff hfits hdense k').2 (Or.inr ⟨a, b⟩)
      · exact h
    · intro hr
      cases hg : frames.get? k with
      | some f => exact List.mem_map.2 ⟨(k, f), BMap.mem_of_get? ((h3 k f).2 (Or.inl hg)), rfl⟩
      | none => exact List.mem_map.2 ⟨(k, _), BMap.mem_of_get? ((h3 k _).2 (Or.inr ⟨hg, rfl, hr⟩)), rfl⟩
  have hwo := walk_order hd hp ho h0 h2 hmem
  have hid : p.idcode = d.idcode := by cases hp; rfl
  refine ⟨fuel0, fun fuel hf => ?_⟩
  obtain ⟨o, file, words, data, a1, a2, _, _, _, _, a3, a4, a5, a6⟩ := h4 fuel hf
  refine ⟨o, file, words, a1, a2, a3, fun mem k => ?_, fun id hne mem => ?_⟩
  · have hrun := a6 d.idcode
    rw [if_pos hid.symm] at hrun
    have hl : (Device.run d.idcode words).loaded = [(0, data)] := by rw [hrun]
    split
    · rename_i hko
      rw [← hwo] at hko ⊢
      obtain ⟨i, hi⟩ := List.mem_iff_getElem?.1 hko
      rw [memory_slot hd hp h2 a4 hl mem hi]
      rw [List.getElem?_map] at hi
      cases he : m[i]? with
      | none => rw [he] at hi; cases hi
      | some e =>
        obtain ⟨k', f⟩ := e
        rw [he] at hi
        have : k' = k := Option.some.inj hi
        subst this
        rw [a5 i k' f he]
        have := (h3 k' f).1 (BMap.get?_of_mem h1 (List.mem_of_getElem? he))
        rcases this with h | ⟨h, rfl, _⟩
        · rw [h]; rfl
        · rw [h]; rfl
    · rename_i hko
      unfold Device.memory
      rw [hl]
      show pour (order.dropWhile (· < 0)) data mem k = _
      rw [whole_dropWhile]
      exact pour_others order data mem k hko
  · have hrun := a6 id
    rw [if_neg (fun e => hne (e.trans hid))] at hrun
    unfold Device.memory
    rw [hrun]
    rfl

/-- Loading a second file leaves nothing of the first, nor of what was there before it. -/
theorem C132_again {order : List Nat} {s : Device} {f : Nat → List Word}
    (h : ∀ mem k, s.memory order mem k = if k ∈ order then f k else mem k) (mem mem' : Memory) (hm : ∀ k, k ∉ order → mem k = mem' k) :
    s.memory order mem = s.memory order mem' := by
  funext k
  rw [h, h]
  split
  · rfl
  · rename_i hk; exact hm k hk

/-- The order of frames a description stands for. -/
theorem C132_order (d : Db.Part) (hd : DescFits d) : ∃ order, FramesInOrder d order ∧ ∀ order', FramesInOrder d order' → order' = order := by
  classical
  have hsmall : ∀ k, FrameOf d k → k < 2 ^ 26 := by
    rintro k ⟨bus, bottom, row, col, minor, n, h1, h2, rfl⟩
    obtain ⟨h3, h4, h5⟩ := described_small hd h1
    have h6 : busNumber bus < 3 := by cases bus <;> decide
    cases bottom <;> simp <;> omega
  have ho : FramesInOrder d ((List.range (2 ^ 26)).filter fun k => decide (FrameOf d k)) := by
    refine ⟨List.Pairwise.filter _ List.pairwise_lt_range, fun k => ?_⟩
    rw [List.mem_filter, List.mem_range]
    exact ⟨fun h => of_decide_eq_true h.2, fun h => ⟨hsmall k h, decide_eq_true h⟩⟩
  exact ⟨_, ho, fun order' h => pairwise_unique h.1 ho.1 fun k => (h.2 k).trans (ho.2 k).symm⟩

/-! ## From the files to the memory -/

theorem memory_bits {β : Type} {d : Db.Part} (hd : DescDense d) {p : Xc7.Part} (hp : Part.fromPart d = .ok p) {order : List Nat} (ho : FramesInOrder d order)
    (h0 : FrameOf d 0) {walk : BMap β} (hw : WalkFrom p 0#32 walk) (hk : ∀ k, k ∈ walk.map (·.1) ↔ k = 0 ∨ (k < 2 ^ 26 ∧ p.isValid (BitVec.ofNat 32 k) = true))
    {data : List Word} (hl : data.length = (walk.length + 2 * rowEnds p walk + 2) * 101) {s : Device} (hs : s.loaded = [(0, data)])
    {Q : Nat → Nat → Nat → Prop} (hQ : ∀ (i k : Nat), (walk.map (·.1))[i]? = some k → ∀ w b, w < 101 →
      ((∃ x, data[slot 101 p walk i + w]? = some x ∧ x.getLsbD b = true) ↔ Q k w b)) (mem : Memory) (k : Nat) :
    (k ∈ order → (s.memory order mem k).length = 101 ∧
      ∀ w b, w < 101 → ((∃ x, (s.memory order mem k)[w]? = some x ∧ x.getLsbD b = true) ↔ Q k w b)) ∧
    (k ∉ order → s.memory order mem k = mem k) := by
  have hwo := walk_order hd hp ho h0 hw hk
  constructor
  · intro hko
    rw [← hwo] at hko ⊢
    obtain ⟨i, hi⟩ := List.mem_iff_getElem?.1 hko
    have hlt : i < walk.length := by
      have := (List.getElem?_eq_some_iff.1 hi).1
      rwa [List.length_map] at this
    have hin := slot_inside p walk i hlt
    rw [← hl] at hin
    rw [memory_slot hd hp hw hl hs mem hi]
    refine ⟨?_, fun w b hwb => ?_⟩
    · rw [List.length_take, List.length_drop]
      generalize slot 101 p walk i = x at hin ⊢
      omega
    · rw [List.getElem?_take, if_pos hwb, List.getElem?_drop]
      exact hQ i k hi w b hwb
  · intro hko
    unfold Device.memory
    rw [hs]
    show pour (order.dropWhile (· < 0)) data mem k = _
    rw [whole_dropWhile]
    exact pour_others order data mem k hko

section
variable (env : Env) (load : LoadOrder) (hload : LoadOk load) (ord : HashOrder) (hord : Permutes ord) (inv : Invocation) (path : Bytes)
  (hcfg : Configured env inv path) (grid : TileGrid) (part : Db.Part) (pins : PackagePins) (files : Bytes → TypeContents) (ls : List SourceLine)
  (hdb : WholeFiles env path inv.part grid part pins files ls) (hls : ∀ l ∈ ls, l.Ok ∧ l.Dotted) (htext : Input inv (sourceText ls))
include hload hord hcfg hdb hls htext

/-- A device that has held anything before, loaded with what the program prints: a bit of a frame it has is 1 exactly if the files list it for
the design and for what is added to it.  A device with another IDCODE keeps what it has. -/
theorem C132_memory (hknow : FilesSuffice grid part pins files ls) (hd : DescDense part) (p : Xc7.Part) (hp : Part.fromPart part = .ok p)
    (order : List Nat) (ho : FramesInOrder part order) (h0 : FrameOf part 0)
    (hsmall : FitsPacket p) (hdate : ShortAscii inv.date) (htime : ShortAscii inv.time)
    (hin : ∀ tile feature addr block s k, WantsBit grid part pins ls tile feature addr → FileBits grid files tile feature addr block s → Fills block s k →
      FrameOf part (k % 2 ^ 32)) (seek : Bool) :
    ∃ fuel0, ∀ fuel ≥ fuel0, ∃ o file words,
      main env load ord inv ⟨[], 0, seek, false⟩ fuel = some (.ok (0, o)) ∧
      readBitFile o.bytes = some file ∧
      file.config = fileBytes (List.replicate 8 0xFFFFFFFF#32 ++ [0x000000BB#32, 0x11220044#32] ++
        List.replicate 2 0xFFFFFFFF#32 ++ [0xAA995566#32] ++ words) ∧
      (∀ mem k, (k ∈ order → ((Device.run part.idcode words).memory order mem k).length = 101 ∧
          ∀ w b, w < 101 → ((∃ x, ((Device.run part.idcode words).memory order mem k)[w]? = some x ∧ x.getLsbD b = true) ↔
            ∃ tile feature addr block s, WantsBit grid part pins ls tile feature addr ∧ FileBits grid files tile feature addr block s ∧
              s.isSet = true ∧ Lies block s k w b)) ∧
        (k ∉ order → (Device.run part.idcode words).memory order mem k = mem k)) ∧
      ∀ id, id ≠ part.idcode → ∀ mem, (Device.run id words).memory order mem = mem := by
  have hfits := fits_fromPart part hd.fits p hp
  have hdense := dense_fromPart part hd p hp
  have hid : p.idcode = part.idcode := by cases hp; rfl
  obtain ⟨walk, h1, h2, fuel0, h3⟩ := C130_device env load hload ord hord inv path hcfg grid part pins files ls hdb hls htext hknow hd.fits p hp hsmall hdate htime
    (fun tile feature addr block s k a b c => (reached_iff hfits hdense _).2 (Or.inr ((frameOf_iff hd hp _).1 (hin tile feature addr block s k a b c)))) seek
  refine ⟨fuel0, fun fuel hf => ?_⟩
  obtain ⟨o, file, words, data, a1, a2, a3, a4, _, a6, a7, a8⟩ := h3 fuel hf
  refine ⟨o, file, words, a1, a2, a3, fun mem k => ?_, fun id hne mem => ?_⟩
  · rw [hid] at a4
    exact memory_bits hd hp ho h0 h1 (fun k => (h2 k).trans (reached_iff hfits hdense k)) a7 a4 a8 mem k
  · unfold Device.memory
    rw [(a6 id (fun e => hne (e.trans hid))).1]
    rfl

end

theorem small_zero : FrameOf smallDesc 0 := ⟨.clbIoClk, false, 0, 0, 0, 36, rfl, by decide, rfl⟩

/-- The design `IOB33.IOB_Y0.STEPDOWN`: whatever the device held before, afterwards five bits are set in its frames and no others. -/
example (load : LoadOrder) (hload : LoadOk load) (ord : HashOrder) (hord : Permutes ord) (order : List Nat) (ho : FramesInOrder smallDesc order) :
    ∃ fuel0, ∀ fuel ≥ fuel0, ∃ o file words,
      main yardEnv load ord yardInv ⟨[], 0, true, false⟩ fuel = some (.ok (0, o)) ∧
      readBitFile o.bytes = some file ∧
      file.config = fileBytes (List.replicate 8 0xFFFFFFFF#32 ++ [0x000000BB#32, 0x11220044#32] ++
        List.replicate 2 0xFFFFFFFF#32 ++ [0xAA995566#32] ++ words) ∧
      ∀ mem k, k ∈ order → ∀ w b, w < 101 →
        ((∃ x, ((Device.run smallDesc.idcode words).memory order mem k)[w]? = some x ∧ x.getLsbD b = true) ↔ (k, w, b) ∈ yardPlaces) := by
  obtain ⟨fuel0, h⟩ := C132_memory yardEnv load hload ord hord yardInv bytes!"d"
    ⟨by decide, Or.inr ⟨rfl, rfl⟩, by decide, by decide, by decide⟩ yardGrid smallDesc yardPins (fun _ => yardContents) [yardStep] yard_files yard_ok
    (Or.inr ⟨fun _ _ h => by simp [yardInv, fileInv] at h, rfl⟩) yard_suffice smallDesc_dense _ rfl order ho small_zero
    smallDesc_packet (by unfold ShortAscii; decide) (by unfold ShortAscii; decide)
    (fun tile feature addr block s k hw hl hf => by
      have hk := yard_inside hw hl hf
      rw [Nat.mod_eq_of_lt (by omega)]
      exact ⟨.clbIoClk, false, 0, 0, k, 36, rfl, hk, by simp [busNumber]⟩) true
  refine ⟨fuel0, fun fuel hf => ?_⟩
  obtain ⟨o, file, words, a1, a2, a3, a4, _⟩ := h fuel hf
  exact ⟨o, file, words, a1, a2, a3, fun mem k hk w b hw => (((a4 mem k).1 hk).2 w b hw).trans (yard_bits k w b)⟩

end Verif.Props

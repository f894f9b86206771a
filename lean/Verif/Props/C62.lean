import Verif.Proofs.PartList
import Verif.Props.C04_C08
/-! # C62: parts built from address lists -/
namespace Verif.Props
open Verif.Xc7 Verif.Spec FrameAddress

/-- The part is canonical: ordered maps without empty entries. -/
structure Canonical (g : Region) : Prop where
  sorted : g.Sorted
  rows : ∀ k r, g.get? k = some r → r.Sorted ∧ (∃ t, (∃ b, r.get? t = some b)) ∧
    ∀ t b, r.get? t = some b → b.Sorted ∧ ∃ c n, busCount b c = some n

theorem canonical_ext {g g' : Region} (h : Canonical g) (h' : Canonical g')
    (heq : ∀ k t c, regionCount g k t c = regionCount g' k t c) : g = g' := by
  have key : ∀ {g g' : Region}, Canonical g → Canonical g' → (∀ k t c, regionCount g k t c = regionCount g' k t c) →
      ∀ k r, g.get? k = some r → g'.get? k = some r := by
    intro g g' h h' heq k r hr
    obtain ⟨hrs, ⟨t, b, hb⟩, hr2⟩ := h.rows k r hr
    obtain ⟨_, c, n, hc⟩ := hr2 t b hb
    have : regionCount g k t c = some n := by
      unfold regionCount rowCount; rw [hr]; show (r.get? t).bind _ = _; rw [hb]; exact hc
    rw [heq] at this
    obtain ⟨r', hr', _⟩ := Option.bind_eq_some_iff.1 this
    rw [hr']
    congr 1
    have hcount : ∀ t c, rowCount r t c = rowCount r' t c := by
      intro t c
      have := heq k t c
      unfold regionCount at this
      rw [hr, hr'] at this
      exact this
    obtain ⟨hrs', _, hr2'⟩ := h'.rows k r' hr'
    have key2 : ∀ {r r' : Row}, (∀ t b, r.get? t = some b → b.Sorted ∧ ∃ c n, busCount b c = some n) →
        (∀ t b, r'.get? t = some b → b.Sorted ∧ ∃ c n, busCount b c = some n) →
        (∀ t c, rowCount r t c = rowCount r' t c) → ∀ t b, r.get? t = some b → r'.get? t = some b := by
      intro r r' h1 h2 hcount t b hb
      obtain ⟨hbs, c, n, hc⟩ := h1 t b hb
      have : rowCount r t c = some n := by unfold rowCount; rw [hb]; exact hc
      rw [hcount] at this
      obtain ⟨b', hb', _⟩ := Option.bind_eq_some_iff.1 this
      rw [hb']
      congr 1
      refine BMap.sorted_ext (h2 t b' hb').1 hbs fun c => ?_
      have := hcount t c
      unfold rowCount at this
      rw [hb, hb'] at this
      have this : (b.get? c).map (·.frameCount) = (b'.get? c).map (·.frameCount) := this
      cases h3 : b.get? c with
      | none =>
        cases h4 : b'.get? c with
        | none => rfl
        | some y => rw [h3, h4] at this; cases this
      | some x =>
        cases h4 : b'.get? c with
        | none => rw [h3, h4] at this; cases this
        | some y =>
          rw [h3, h4] at this
          obtain ⟨x⟩ := x
          obtain ⟨y⟩ := y
          have : x = y := Option.some.inj this
          rw [this]
    refine (BMap.sorted_ext hrs hrs' fun t => ?_).symm
    cases h3 : r.get? t with
    | some b => rw [key2 hr2 hr2' hcount t b h3]
    | none =>
      cases h4 : r'.get? t with
      | none => rfl
      | some b =>
        rw [key2 hr2' hr2 (fun t c => (hcount t c).symm) t b h4] at h3
        cases h3
  refine BMap.sorted_ext h.sorted h'.sorted fun k => ?_
  cases h3 : g.get? k with
  | some r => rw [key h h' heq k r h3]
  | none =>
    cases h4 : g'.get? k with
    | none => rfl
    | some r =>
      rw [key h' h (fun k t c => (heq k t c).symm) k r h4] at h3
      cases h3

theorem isCount_exists (l : List FrameAddress) (P : FrameAddress → Prop) (a : FrameAddress) (ha : a ∈ l) (hP : P a) :
    ∃ n, IsCount (fun b => b ∈ l ∧ P b) n := by
  classical
  have hm : a ∈ l.filter fun b => decide (P b) := List.mem_filter.2 ⟨ha, by simpa using hP⟩
  obtain ⟨x, xs, hx⟩ : ∃ x xs, (l.filter fun b => decide (P b)) = x :: xs := by
    cases h : l.filter fun b => decide (P b) with
    | nil => rw [h] at hm; cases hm
    | cons x xs => exact ⟨x, xs, rfl⟩
  obtain ⟨m1, m2, m3⟩ := max_fold xs x
  have hmem : ∀ b, (b ∈ l ∧ P b) ↔ b = x ∨ b ∈ xs := by
    intro b
    rw [← List.mem_cons, ← hx, List.mem_filter]
    simp
  refine ⟨_, ⟨_, (hmem _).2 m1, rfl⟩, ?_⟩
  intro b hb
  rcases (hmem b).1 hb with rfl | hb
  · exact Nat.lt_succ_of_le m2
  · exact Nat.lt_succ_of_le (m3 b hb)

theorem region_canonical {alg : Algorithms} (halg : SortContract alg) (l : List FrameAddress)
    (h1 : ∀ a ∈ l, ∀ b ∈ l, isBottom b = isBottom a) :
    ∃ g, regionOfList alg l = .ok g ∧ Canonical g ∧
      ∀ k t c n, regionCount g k t c = some n ↔
        IsCount (fun a => a ∈ l ∧ (row a).toNat = k ∧ (blockType a).toNat = t ∧ (column a).toNat = c) n := by
  obtain ⟨g, hg, hs, hrow, hcount⟩ := regionOfList_spec halg l h1
  refine ⟨g, hg, ⟨hs, ?_⟩, hcount⟩
  intro k r hr
  obtain ⟨⟨a, ha, hk⟩, hrs, hb⟩ := hrow k r hr
  have hex : ∀ a ∈ l, (row a).toNat = k → ∃ n, rowCount r (blockType a).toNat (column a).toNat = some n := by
    intro a ha hk
    obtain ⟨n, hn⟩ := isCount_exists l (fun b => (row b).toNat = k ∧ (blockType b).toNat = (blockType a).toNat ∧
      (column b).toNat = (column a).toNat) a ha ⟨hk, rfl, rfl⟩
    have := (hcount _ _ _ n).2 hn
    unfold regionCount at this
    rw [hr] at this
    exact ⟨n, this⟩
  refine ⟨hrs, ?_, ?_⟩
  · obtain ⟨n, hn⟩ := hex a ha hk
    obtain ⟨b, hb, _⟩ := Option.bind_eq_some_iff.1 hn
    exact ⟨_, b, hb⟩
  · intro t b hbt
    obtain ⟨hbs, a', ha', hk', ht'⟩ := hb t b hbt
    obtain ⟨n, hn⟩ := hex a' ha' hk'
    rw [ht'] at hn
    unfold rowCount at hn
    rw [hbt] at hn
    exact ⟨hbs, _, n, hn⟩

theorem ofList_spec (alg : Algorithms) (halg : SortContract alg) (idcode : Word) (l : List FrameAddress) :
    ∃ p, Part.ofList alg idcode l = .ok p ∧ p.idcode = idcode ∧ Canonical p.top ∧ Canonical p.bottom ∧
      ∀ block bottom row column n, frameCountAt p block bottom row column = some n ↔
        (∃ a ∈ l, coordOf a = ⟨block, bottom, row, column, n - 1⟩ ∧ 0 < n) ∧
        ∀ a ∈ l, ∀ m, coordOf a = ⟨block, bottom, row, column, m⟩ → m < n := by
  obtain ⟨top, ht, htk, htc⟩ := region_canonical halg (alg.partition l).2
    (fun a ha b hb => by rw [halg.top l a ha, halg.top l b hb])
  obtain ⟨bot, hb, hbk, hbc⟩ := region_canonical halg (alg.partition l).1
    (fun a ha b hb => by rw [halg.bottom l a ha, halg.bottom l b hb])
  refine ⟨⟨idcode, top, bot⟩, ?_, rfl, htk, hbk, ?_⟩
  · unfold Part.ofList
    dsimp only
    rw [ht, Outcome.bind_ok, hb, Outcome.bind_ok]
  · intro block bottom rw' column' n
    have hmem : ∀ (bt : Bool) a, (a ∈ (if bt then (alg.partition l).1 else (alg.partition l).2)) ↔ a ∈ l ∧ isBottom a = bt := by
      intro bt a
      rw [← (halg.partPerm l).mem_iff, List.mem_append]
      cases bt
      · simp only [Bool.false_eq_true, if_false]
        constructor
        · intro h; exact ⟨Or.inr h, halg.top l a h⟩
        · rintro ⟨h | h, e⟩
          · rw [halg.bottom l a h] at e; cases e
          · exact h
      · simp only [if_true]
        constructor
        · intro h; exact ⟨Or.inl h, halg.bottom l a h⟩
        · rintro ⟨h | h, e⟩
          · exact h
          · rw [halg.top l a h] at e; cases e
    have hcount : frameCountAt ⟨idcode, top, bot⟩ block bottom rw' column' = some n ↔
        IsCount (fun a => (a ∈ l ∧ isBottom a = bottom) ∧ (row a).toNat = rw' ∧ (blockType a).toNat = block ∧
          (column a).toNat = column') n := by
      have e : frameCountAt ⟨idcode, top, bot⟩ block bottom rw' column' =
          regionCount (if bottom then bot else top) rw' block column' := by
        unfold frameCountAt regionCount rowCount busCount
        dsimp only
        cases (if bottom = true then bot else top).get? rw' with
        | none => rfl
        | some r =>
          show (Option.bind (r.get? block) _).map _ = (r.get? block).bind _
          cases r.get? block with
          | none => rfl
          | some b => rfl
      rw [e]
      cases bottom
      · simp only [Bool.false_eq_true, if_false]
        rw [htc]
        exact isCount_congr (fun a => by have := hmem false a; simp only [Bool.false_eq_true, if_false] at this; rw [this]) n
      · simp only [if_true]
        rw [hbc]
        exact isCount_congr (fun a => by have := hmem true a; simp only [if_true] at this; rw [this]) n
    rw [hcount]
    constructor
    · rintro ⟨⟨a, ⟨⟨h1, h2⟩, h3, h4, h5⟩, h6⟩, h7⟩
      refine ⟨⟨a, h1, ?_, by omega⟩, ?_⟩
      · simp only [coordOf, h2, h3, h4, h5, Coord.mk.injEq, true_and]; omega
      · intro a ha m hm
        simp only [coordOf, Coord.mk.injEq] at hm
        obtain ⟨e1, e2, e3, e4, e5⟩ := hm
        have := h7 a ⟨⟨ha, e2⟩, e3, e1, e4⟩
        omega
    · rintro ⟨⟨a, h1, h2, h3⟩, h4⟩
      simp only [coordOf, Coord.mk.injEq] at h2
      obtain ⟨e1, e2, e3, e4, e5⟩ := h2
      refine ⟨⟨a, ⟨⟨h1, e2⟩, e3, e1, e4⟩, by omega⟩, ?_⟩
      rintro a ⟨⟨ha, f2⟩, f3, f1, f4⟩
      exact h4 a ha _ (by simp only [coordOf, f1, f2, f3, f4])

/-- A part can be built from every list of addresses (no assertion fails), and has at each coordinate a column
with one frame more than the largest minor listed there, and no other columns. -/
theorem C62_columns (alg : Algorithms) (halg : SortContract alg) (idcode : Word) (l : List FrameAddress) :
    ∃ p, Part.ofList alg idcode l = .ok p ∧ p.idcode = idcode ∧
      ∀ block bottom row column n, frameCountAt p block bottom row column = some n ↔
        (∃ a ∈ l, coordOf a = ⟨block, bottom, row, column, n - 1⟩ ∧ 0 < n) ∧
        ∀ a ∈ l, ∀ m, coordOf a = ⟨block, bottom, row, column, m⟩ → m < n := by
  obtain ⟨p, h1, h2, _, _, h3⟩ := ofList_spec alg halg idcode l
  exact ⟨p, h1, h2, h3⟩

/-- The part's coordinates fit the address fields, so the properties of the walk (C04–C08) apply. -/
theorem C62_fits (alg : Algorithms) (halg : SortContract alg) (idcode : Word) (l : List FrameAddress) (p : Xc7.Part)
    (hp : Part.ofList alg idcode l = .ok p) : Fits p := by
  obtain ⟨p', hp', _, htop, hbot, hc⟩ := ofList_spec alg halg idcode l
  rw [hp] at hp'
  cases hp'
  intro g hg
  obtain ⟨bottom, hgb, hcan⟩ : ∃ bottom : Bool, g = (if bottom then p.bottom else p.top) ∧ Canonical g := by
    rcases hg with rfl | rfl
    · exact ⟨false, rfl, htop⟩
    · exact ⟨true, rfl, hbot⟩
  have hcol : ∀ k r t b c x, g.get? k = some r → r.get? t = some b → b.get? c = some x →
      k < 32 ∧ c < 1024 ∧ x.frameCount ≤ 128 := by
    intro k r t b c x h1 h2 h3
    have : frameCountAt p t bottom k c = some x.frameCount := by
      unfold frameCountAt
      rw [← hgb, h1]
      show (Option.bind (r.get? t) _).map _ = _
      rw [h2]
      show (b.get? c).map _ = _
      rw [h3]; rfl
    obtain ⟨⟨a, _, ha, hpos⟩, _⟩ := (hc _ _ _ _ _).1 this
    have hr := C02_coordOf_inRange a
    rw [ha] at hr
    obtain ⟨_, r2, r3, r4⟩ := hr
    dsimp only at r2 r3 r4
    exact ⟨r2, r3, by omega⟩
  have hne : ∀ r ∈ g, ∃ t b c x, r.2.get? t = some b ∧ b.get? c = some x := by
    intro r hr
    obtain ⟨_, ⟨t, b, hb⟩, h⟩ := hcan.rows r.1 r.2 (BMap.get?_of_mem hcan.sorted hr)
    obtain ⟨_, c, n, hc⟩ := h t b hb
    obtain ⟨x, hx, _⟩ := Option.map_eq_some_iff.1 hc
    exact ⟨t, b, c, x, hb, hx⟩
  refine ⟨hcan.sorted, fun r hr => ?_⟩
  have hget := BMap.get?_of_mem hcan.sorted hr
  obtain ⟨hrs, _, hbus⟩ := hcan.rows r.1 r.2 hget
  refine ⟨?_, hrs, fun b hb => ?_⟩
  · obtain ⟨t, b, c, x, h1, h2⟩ := hne r hr
    exact (hcol _ _ _ _ _ _ hget h1 h2).1
  · have hgb := BMap.get?_of_mem hrs hb
    obtain ⟨hbs, _⟩ := hbus b.1 b.2 hgb
    exact ⟨hbs, fun c hc => (hcol _ _ _ _ _ _ hget hgb (BMap.get?_of_mem hbs hc)).2⟩

/-- An address is valid exactly when the list has one of the same column with the same or a larger minor. -/
theorem C62_valid (alg : Algorithms) (halg : SortContract alg) (idcode : Word) (l : List FrameAddress) (p : Xc7.Part)
    (hp : Part.ofList alg idcode l = .ok p) (y : FrameAddress) :
    p.isValid y = true ↔ ∃ a ∈ l, ∃ m, (coordOf y).minor ≤ m ∧ coordOf a = { coordOf y with minor := m } := by
  obtain ⟨p', hp', _, hc⟩ := C62_columns alg halg idcode l
  rw [hp] at hp'
  cases hp'
  rw [C04_valid_iff]
  constructor
  · rintro ⟨n, hn, hlt⟩
    obtain ⟨⟨a, ha, hca, hpos⟩, _⟩ := (hc _ _ _ _ n).1 hn
    exact ⟨a, ha, n - 1, by omega, hca⟩
  · rintro ⟨a, ha, m, hm, hca⟩
    obtain ⟨n, hn⟩ := isCount_exists l (fun b => ∃ m, coordOf b = { coordOf y with minor := m }) a ha ⟨m, hca⟩
    obtain ⟨⟨b, ⟨hb, mb, hmb⟩, hbn⟩, hall⟩ := hn
    have hb2 : (minor b).toNat = mb := congrArg Coord.minor hmb
    refine ⟨n, (hc _ _ _ _ n).2 ⟨⟨b, hb, ?_, by omega⟩, ?_⟩, ?_⟩
    · rw [hmb, ← hbn, hb2]; rfl
    · intro a' ha' m' hm'
      have := hall a' ⟨ha', m', hm'⟩
      have e : (minor a').toNat = m' := congrArg Coord.minor hm'
      omega
    · have := hall a ⟨ha, m, hca⟩
      have e : (minor a).toNat = m := congrArg Coord.minor hca
      omega

/-- Neither the order of the list, nor repetitions, nor the order in which the library leaves equivalent elements
matter. -/
theorem C62_order (alg alg' : Algorithms) (halg : SortContract alg) (halg' : SortContract alg') (idcode : Word)
    (l l' : List FrameAddress) (h : ∀ a, a ∈ l ↔ a ∈ l') : Part.ofList alg idcode l = Part.ofList alg' idcode l' := by
  have hm : ∀ {alg : Algorithms}, SortContract alg → ∀ (l : List FrameAddress),
      (∀ a, a ∈ (alg.partition l).1 ↔ a ∈ l ∧ isBottom a = true) ∧ ∀ a, a ∈ (alg.partition l).2 ↔ a ∈ l ∧ isBottom a = false := by
    intro alg halg l
    constructor
    · intro a
      rw [← (halg.partPerm l).mem_iff, List.mem_append]
      constructor
      · intro h; exact ⟨Or.inl h, halg.bottom l a h⟩
      · rintro ⟨h | h, e⟩
        · exact h
        · rw [halg.top l a h] at e; cases e
    · intro a
      rw [← (halg.partPerm l).mem_iff, List.mem_append]
      constructor
      · intro h; exact ⟨Or.inr h, halg.top l a h⟩
      · rintro ⟨h | h, e⟩
        · rw [halg.bottom l a h] at e; cases e
        · exact h
  have key : ∀ m m' : List FrameAddress, (∀ a, a ∈ m ↔ a ∈ m') → (∀ a ∈ m, ∀ b ∈ m, isBottom b = isBottom a) →
      regionOfList alg m = regionOfList alg' m' := by
    intro m m' hmm hb
    obtain ⟨g, hg, hgc, hg2⟩ := region_canonical halg m hb
    obtain ⟨g', hg', hgc', hg2'⟩ := region_canonical halg' m' (fun a ha b hb' => hb a ((hmm a).2 ha) b ((hmm b).2 hb'))
    rw [hg, hg', canonical_ext hgc hgc']
    intro k t c
    have hiff : ∀ n, regionCount g k t c = some n ↔ regionCount g' k t c = some n := by
      intro n
      rw [hg2, hg2']
      exact isCount_congr (fun a => by rw [hmm]) n
    cases h1 : regionCount g k t c with
    | some n => exact ((hiff n).1 h1).symm
    | none =>
      cases h2 : regionCount g' k t c with
      | none => rfl
      | some n => rw [(hiff n).2 h2] at h1; cases h1
  unfold Part.ofList
  dsimp only
  rw [key (alg.partition l).2 (alg'.partition l').2 (fun a => by rw [(hm halg l).2, (hm halg' l').2, h])
      (fun a ha b hb => by rw [halg.top l a ha, halg.top l b hb]),
    key (alg.partition l).1 (alg'.partition l').1 (fun a => by rw [(hm halg l).1, (hm halg' l').1, h])
      (fun a ha b hb => by rw [halg.bottom l a ha, halg.bottom l b hb])]

/-- Rebuilding a part from all its valid addresses gives a part with the same valid addresses. -/
theorem C62_rebuild (alg : Algorithms) (halg : SortContract alg) (q p : Xc7.Part) (l : List FrameAddress)
    (hl : ∀ a, a ∈ l ↔ a.toNat < 2 ^ 26 ∧ q.isValid a = true) (hp : Part.ofList alg q.idcode l = .ok p) (y : FrameAddress) :
    p.isValid y = q.isValid y := by
  have hiff : p.isValid y = true ↔ q.isValid y = true := by
    rw [C62_valid alg halg q.idcode l p hp]
    constructor
    · rintro ⟨a, ha, m, hm, hca⟩
      obtain ⟨_, hv⟩ := (hl a).1 ha
      rw [C04_valid_iff] at hv ⊢
      rw [hca] at hv
      obtain ⟨n, hn, hlt⟩ := hv
      exact ⟨n, hn, Nat.lt_of_le_of_lt hm hlt⟩
    · intro hv
      have hc := C02_coordOf_inRange y
      refine ⟨addressOf (coordOf y), (hl _).2 ⟨?_, ?_⟩, (coordOf y).minor, Nat.le_refl _, ?_⟩
      · rw [toNat_addressOf _ hc]
        obtain ⟨h1, h2, h3, h4⟩ := hc
        cases (coordOf y).bottom <;> simp only [Bool.toNat_true, Bool.toNat_false] <;> omega
      · rw [C04_valid_iff, C02_coord_round_trip _ hc] at *
        exact hv
      · rw [C02_coord_round_trip _ hc]
  cases h1 : p.isValid y <;> cases h2 : q.isValid y
  · rfl
  · rw [hiff.2 h2] at h1; cases h1
  · rw [hiff.1 h1] at h2; cases h2
  · rfl

/-- Algorithms that meet the contract. -/
def sortExample : Algorithms :=
  ⟨fun key l => l.mergeSort (fun a b => decide (key a ≤ key b)), fun l => (l.filter isBottom, l.filter fun a => !isBottom a)⟩

theorem sortExample_contract : SortContract sortExample where
  perm key l := List.mergeSort_perm l _
  sorted key l := by
    have := List.pairwise_mergeSort (le := fun a b => decide (key a ≤ key b))
      (fun a b c h1 h2 => by simp only [decide_eq_true_eq] at h1 h2 ⊢; omega)
      (fun a b => by simp only [Bool.or_eq_true, decide_eq_true_eq]; omega) l
    exact this.imp fun h => by simpa using h
  partPerm l := List.filter_append_perm _ l
  bottom l a ha := (List.mem_filter.1 ha).2
  top l a ha := by have := (List.mem_filter.1 ha).2; simpa using this

/-- Three listed addresses, in no order and with a repetition: minors 0–2 of the column listed at minor 2 are
valid, minor 3 and other columns are not. -/
example (p : Xc7.Part) (hp : Part.ofList sortExample 0x1234#32
      [addressOf ⟨1, true, 0, 4, 0⟩, addressOf ⟨0, false, 1, 0, 2⟩, addressOf ⟨1, true, 0, 4, 0⟩, addressOf ⟨0, false, 1, 0, 0⟩] = .ok p) :
    p.isValid (addressOf ⟨0, false, 1, 0, 1⟩) = true ∧ p.isValid (addressOf ⟨1, true, 0, 4, 0⟩) = true ∧
    p.isValid (addressOf ⟨0, false, 1, 0, 3⟩) = false ∧ p.isValid (addressOf ⟨1, true, 0, 3, 0⟩) = false := by
  have h := C62_valid sortExample sortExample_contract _ _ p hp
  refine ⟨(h _).2 ⟨addressOf ⟨0, false, 1, 0, 2⟩, by simp, 2, by decide, by decide⟩,
    (h _).2 ⟨addressOf ⟨1, true, 0, 4, 0⟩, by simp, 0, by decide, by decide⟩, ?_, ?_⟩
  · rw [← Bool.not_eq_true, h]
    rintro ⟨a, ha, m, hm, e⟩
    simp only [List.mem_cons, List.not_mem_nil, or_false] at ha
    have hm : 3 ≤ m := hm
    have e2 := congrArg Coord.minor e
    dsimp only at e2
    rcases ha with rfl | rfl | rfl | rfl
    · have : (coordOf (addressOf ⟨1, true, 0, 4, 0⟩)).minor = 0 := by decide
      omega
    · have : (coordOf (addressOf ⟨0, false, 1, 0, 2⟩)).minor = 2 := by decide
      omega
    · have : (coordOf (addressOf ⟨1, true, 0, 4, 0⟩)).minor = 0 := by decide
      omega
    · have : (coordOf (addressOf ⟨0, false, 1, 0, 0⟩)).minor = 0 := by decide
      omega
  · rw [← Bool.not_eq_true, h]
    rintro ⟨a, ha, m, hm, e⟩
    simp only [List.mem_cons, List.not_mem_nil, or_false] at ha
    have e2 := congrArg Coord.column e
    dsimp only at e2
    rcases ha with rfl | rfl | rfl | rfl <;> revert e2 <;> decide

/-- Building a column, bus, row or clock region directly from addresses of different ones fails an assertion: two
addresses of the list that differ in block type, half, row or column (column), in block type, half or row (bus), in
half or row (row), in half (clock region). -/
theorem C62_mixed (alg : Algorithms) (l : List FrameAddress) (a b : FrameAddress) (ha : a ∈ l) (hb : b ∈ l) :
    ((coordOf a).block ≠ (coordOf b).block ∨ (coordOf a).bottom ≠ (coordOf b).bottom ∨ (coordOf a).row ≠ (coordOf b).row ∨
      (coordOf a).column ≠ (coordOf b).column → columnOfList l = .abort) ∧
    ((coordOf a).block ≠ (coordOf b).block ∨ (coordOf a).bottom ≠ (coordOf b).bottom ∨ (coordOf a).row ≠ (coordOf b).row →
      busOfList alg l = .abort) ∧
    ((coordOf a).bottom ≠ (coordOf b).bottom ∨ (coordOf a).row ≠ (coordOf b).row → rowOfList alg l = .abort) ∧
    ((coordOf a).bottom ≠ (coordOf b).bottom → regionOfList alg l = .abort) := by
  have key : ∀ (same : FrameAddress → FrameAddress → Bool),
      (∀ c, same c a = true → same c b = true → False) → assertAll same l = .abort := by
    intro same h
    unfold assertAll
    cases l with
    | nil => cases ha
    | cons c rest =>
      dsimp only
      rw [if_neg]
      intro hall
      rw [List.all_eq_true] at hall
      exact h c (hall a ha) (hall b hb)
  refine ⟨?_, ?_, ?_, ?_⟩
  · intro h
    unfold columnOfList
    rw [key]
    · rfl
    · intro c h1 h2
      simp only [Bool.and_eq_true, beq_iff_eq] at h1 h2
      obtain ⟨⟨⟨p1, p2⟩, p3⟩, p4⟩ := h1
      obtain ⟨⟨⟨q1, q2⟩, q3⟩, q4⟩ := h2
      simp only [coordOf, p1, p2, p3, p4, q1, q2, q3, q4, ne_eq, not_true_eq_false, or_false] at h
  · intro h
    unfold busOfList
    rw [key]
    · rfl
    · intro c h1 h2
      simp only [Bool.and_eq_true, beq_iff_eq] at h1 h2
      obtain ⟨⟨p1, p2⟩, p3⟩ := h1
      obtain ⟨⟨q1, q2⟩, q3⟩ := h2
      simp only [coordOf, p1, p2, p3, q1, q2, q3, ne_eq, not_true_eq_false, or_false] at h
  · intro h
    unfold rowOfList
    rw [key]
    · rfl
    · intro c h1 h2
      simp only [Bool.and_eq_true, beq_iff_eq] at h1 h2
      obtain ⟨p2, p3⟩ := h1
      obtain ⟨q2, q3⟩ := h2
      simp only [coordOf, p2, p3, q2, q3, ne_eq, not_true_eq_false, or_false] at h
  · intro h
    unfold regionOfList
    rw [key]
    · rfl
    · intro c h1 h2
      simp only [beq_iff_eq] at h1 h2
      simp only [coordOf, h1, h2, ne_eq, not_true_eq_false] at h

/-- Two addresses of different columns. -/
example : columnOfList [addressOf ⟨0, false, 1, 0, 2⟩, addressOf ⟨0, false, 1, 3, 2⟩] = .abort :=
  (C62_mixed sortExample _ (addressOf ⟨0, false, 1, 0, 2⟩) (addressOf ⟨0, false, 1, 3, 2⟩) (by simp) (by simp)).1 (by decide)

end Verif.Props

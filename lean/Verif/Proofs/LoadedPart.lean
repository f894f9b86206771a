import Verif.Proofs.DbFiles
import Verif.Proofs.Render
import Verif.Spec.Description
/-! # What every loaded part description is like -/
namespace Verif.Db
open Verif.Spec

theorem sequence_length {α : Type} {item : Json → α → Prop} {j : Json} {l : List α} (h : SequenceJson item j l) :
    l.length ≤ 2 ^ 31 ∧ ∀ a ∈ l, ∃ v, item v a := by
  obtain ⟨es, _, rfl, h⟩ := h
  rw [List.length_map]
  constructor
  · apply Nat.le_of_not_lt
    intro hlt
    obtain ⟨⟨_, _, _, _, n, _, _, _, _, h1⟩, _⟩ := h (2 ^ 31) es[2 ^ 31] (List.getElem?_eq_getElem hlt)
    rcases h1 with ⟨_, h2, h3⟩ | ⟨_, h2, h3⟩ <;> omega
  · intro a ha
    obtain ⟨e, he, rfl⟩ := List.mem_map.1 ha
    obtain ⟨i, hi, rfl⟩ := List.mem_iff_getElem.1 he
    exact ⟨_, (h i _ (List.getElem?_eq_getElem hi)).2⟩

theorem partJson_valid {j : Json} {p : Db.Part} (h : PartJson j p) : PartValid p := by
  obtain ⟨_, hb, v, _, ⟨vb, _, hbot⟩, ⟨vt, _, htop⟩⟩ := h
  constructor
  · rcases hb with ⟨_, hb⟩ | ⟨_, _, es, _, he, hb⟩
    · rw [hb]; exact ⟨List.nodup_nil, fun e he => by cases he⟩
    · rw [hb]
      refine ⟨nodup_firsts _, fun e he' => ?_⟩
      obtain ⟨x, hx, rfl⟩ := List.mem_map.1 (mem_firsts he')
      obtain ⟨_, _, _, _, _, _, _, _, _, h1⟩ := he x hx
      refine ⟨h1, fun h0 => ?_⟩
      have := (List.all_eq_true.1 (List.all_takeWhile (p := fun c : UInt8 => decide (c ≠ 0)) (l := x.1.2))) 0 h0
      simp at this
  · have hhalf : ∀ v half, HalfJson v half → half.length ≤ 2 ^ 31 ∧
        ∀ row ∈ half, (row.map (·.1)).Nodup ∧ ∀ bus ∈ row, bus.2.length ≤ 2 ^ 31 ∧ ∀ n ∈ bus.2, n < 2 ^ 32 := by
      rintro v half ⟨_, _, h⟩
      obtain ⟨h1, h2⟩ := sequence_length h
      refine ⟨h1, fun row hrow => ?_⟩
      obtain ⟨_, _, _, es, _, rfl, he⟩ := h2 row hrow
      refine ⟨nodup_firsts _, fun bus hbus => ?_⟩
      obtain ⟨x, hx, rfl⟩ := List.mem_map.1 (mem_firsts hbus)
      obtain ⟨_, _, _, h3⟩ := he x hx
      obtain ⟨h4, h5⟩ := sequence_length h3
      refine ⟨h4, fun n hn => ?_⟩
      obtain ⟨_, _, _, h6⟩ := h5 n hn
      exact h6.2
    rintro half (rfl | rfl)
    · exact hhalf _ _ hbot
    · exact hhalf _ _ htop

theorem partReordered_valid {p q : Db.Part} (h : PartReordered p q) (hp : PartValid p) : PartValid q := by
  obtain ⟨_, hb, ht, hbo⟩ := h
  have hhalf : ∀ half half', RowsReordered half half' →
      (half.length ≤ 2 ^ 31 ∧ ∀ row ∈ half, (row.map (·.1)).Nodup ∧ ∀ bus ∈ row, bus.2.length ≤ 2 ^ 31 ∧ ∀ n ∈ bus.2, n < 2 ^ 32) →
      half'.length ≤ 2 ^ 31 ∧ ∀ row ∈ half', (row.map (·.1)).Nodup ∧ ∀ bus ∈ row, bus.2.length ≤ 2 ^ 31 ∧ ∀ n ∈ bus.2, n < 2 ^ 32 := by
    rintro _ _ ⟨zs, rfl, rfl, hz⟩ ⟨h1, h2⟩
    refine ⟨by simpa using h1, fun row hrow => ?_⟩
    obtain ⟨z, hz', rfl⟩ := List.mem_map.1 hrow
    obtain ⟨h3, h4⟩ := h2 z.1 (List.mem_map.2 ⟨z, hz', rfl⟩)
    exact ⟨((hz z hz').map _).nodup_iff.1 h3, fun bus hbus => h4 bus ((hz z hz').mem_iff.2 hbus)⟩
  refine ⟨⟨(hb.map _).nodup_iff.1 hp.banks.1, fun e he => hp.banks.2 e (hb.mem_iff.2 he)⟩, ?_⟩
  rintro half (rfl | rfl)
  · exact hhalf _ _ hbo (hp.halves _ (Or.inl rfl))
  · exact hhalf _ _ ht (hp.halves _ (Or.inr rfl))

theorem loaded_part_valid {env : Env} {order : LoadOrder} (hload : LoadOk order) {root : Path} {name : Bytes} {db : PartDatabase}
    (h : parseDatabase env order root name = .ok db) : PartValid db.tiles.part := by
  obtain ⟨_, _, _, part, _, _, _, _, h4, _, rfl⟩ := parseDatabase_iff.1 h
  obtain ⟨j, hj⟩ := parseJsonFile_ok h4
  exact partReordered_valid (hload.part part) (partJson_valid ((parsePart_iff j part).1 hj))

theorem partValid_wellFormed {p : Db.Part} (h : PartValid p) : WellFormedDesc p := by
  intro half hh
  obtain ⟨h1, h2⟩ := h.halves half hh.symm
  exact ⟨by omega, fun row hr => ⟨(h2 row hr).1, fun bus hb => by have := ((h2 row hr).2 bus hb).1; omega⟩⟩

theorem gridJson_valid {A : Bytes → Nat → Prop} (hA : ∀ s n, A s n → n < 2 ^ 63) {j : Json} {g : TileGrid} (h : GridJson A j g) :
    GridValid g := by
  obtain ⟨es, _, he, rfl⟩ := h
  refine ⟨⟨nodup_firsts _, fun e h => ?_⟩, fun e h => ?_⟩
  · obtain ⟨x, _, rfl⟩ := List.mem_map.1 (mem_firsts h)
    intro h0
    have := (List.all_eq_true.1 (List.all_takeWhile (p := fun c : UInt8 => decide (c ≠ 0)) (l := x.1.1))) 0 h0
    simp at this
  · obtain ⟨x, hx, rfl⟩ := List.mem_map.1 (mem_firsts h)
    obtain ⟨_, ⟨_, _, hxx⟩, ⟨_, _, hy⟩, _, ⟨_, _, fs, _, hf, hb⟩, ⟨_, _, ps, _, hp⟩, ⟨_, _, ss, _, hs⟩, ⟨_, _, ts, _, ht⟩⟩ := he x hx
    dsimp only
    refine ⟨hxx.2, hy.2, ⟨by rw [hf]; exact nodup_firsts _, fun b hb' => ?_⟩, by rw [hp]; exact nodup_firsts _, by rw [hs]; exact nodup_firsts _,
      fun s hs' => ?_⟩
    · rw [hf] at hb'
      obtain ⟨y, hy', rfl⟩ := List.mem_map.1 (mem_firsts hb')
      obtain ⟨_, ha, ⟨t, _, hbase⟩, ⟨_, _, hfr⟩, ⟨_, _, hoff⟩, ⟨_, _, hwo⟩⟩ := hb y hy'
      refine ⟨hA _ _ hbase, hfr.2, hwo.2, hoff.2, fun a haa => ?_⟩
      rcases ha with ⟨_, ha⟩ | ⟨_, a', _, ha, ⟨_, _, zs, _, hz⟩, ⟨_, _, hst⟩, _⟩
      · rw [haa] at ha; cases ha
      · rw [haa] at ha
        cases ha
        exact ⟨hst.2, by rw [hz]; exact nodup_firsts _⟩
    · rw [ht] at hs'
      obtain ⟨y, _, rfl⟩ := List.mem_map.1 hs'
      intro h0
      have := (List.all_eq_true.1 (List.all_takeWhile (p := fun c : UInt8 => decide (c ≠ 0)) (l := y))) 0 h0
      simp at this

end Verif.Db

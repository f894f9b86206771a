import Verif.Spec.Count
import Verif.Proofs.Missing
/-! # A completed frame map has at most `totalFrames + 1` entries -/
namespace Verif.Xc7
open Verif.Spec Verif.Props

/-- Coordinates of all frames of one half. -/
def halfCoords (bottom : Bool) (g : Region) : List Coord :=
  g.flatMap fun r => r.2.flatMap fun b => b.2.flatMap fun c =>
    (List.range c.2.frameCount).map fun m => ⟨b.1, bottom, r.1, c.1, m⟩

theorem halfCoords_length (bottom : Bool) (g : Region) : (halfCoords bottom g).length = halfFrames g := by
  simp [halfCoords, halfFrames, List.length_flatMap]

theorem mem_halfCoords (p : Part) (c : Coord) (h : HasFrame p c) :
    c ∈ halfCoords c.bottom (if c.bottom then p.bottom else p.top) := by
  obtain ⟨n, h1, h2⟩ := h
  simp only [frameCountAt, Option.map_eq_some_iff, Option.bind_eq_some_iff] at h1
  obtain ⟨col, ⟨bus, ⟨row, hr, hb⟩, hc⟩, hn⟩ := h1
  simp only [halfCoords, List.mem_flatMap, List.mem_map, List.mem_range]
  exact ⟨_, BMap.mem_of_get? hr, _, BMap.mem_of_get? hb, _, BMap.mem_of_get? hc, c.minor, by show c.minor < col.frameCount; omega, rfl⟩

theorem nodup_subset_length {α : Type} [DecidableEq α] : ∀ (l m : List α), l.Nodup → (∀ x ∈ l, x ∈ m) →
    l.length ≤ m.length := by
  intro l
  induction l with
  | nil => intros; simp
  | cons x xs ih =>
    intro m hn hs
    rw [List.nodup_cons] at hn
    have hx := hs x List.mem_cons_self
    have := ih (m.erase x) hn.2 (fun y hy => by
      have hyx : y ≠ x := by rintro rfl; exact hn.1 hy
      exact (List.mem_erase_of_ne hyx).mpr (hs y (List.mem_cons_of_mem _ hy)))
    have h2 := List.length_erase_of_mem hx
    have h3 : 0 < m.length := List.length_pos_of_mem hx
    simp only [List.length_cons]
    omega

theorem completed_length {β : Type} (p : Part) (hp : Fits p) (m : BMap β) (hs : m.Sorted)
    (hk : ∀ k v, (k, v) ∈ m → ∃ a, Reached p a ∧ a.toNat = k) : m.length ≤ totalFrames p + 1 := by
  have hnd : (m.map (·.1)).Nodup := by
    rw [List.Nodup, List.pairwise_map]
    exact List.Pairwise.imp (fun h => Nat.ne_of_lt h) hs
  have := nodup_subset_length (m.map (·.1))
    (0 :: (halfCoords false p.top ++ halfCoords true p.bottom).map fun c => (addressOf c).toNat) hnd (by
      intro k hk'
      obtain ⟨⟨k', v⟩, hm, rfl⟩ := List.mem_map.mp hk'
      obtain ⟨a, ha, rfl⟩ := hk k' v hm
      obtain ⟨hlt, hv⟩ := reached_lt p hp a ha
      rcases hv with hv | rfl
      · refine List.mem_cons_of_mem _ (List.mem_map.mpr ⟨coordOf a, ?_, ?_⟩)
        · have := mem_halfCoords p (coordOf a) ((isValid_iff p a).mp hv)
          cases hb : (coordOf a).bottom <;> rw [hb] at this <;> simp_all
        · rw [C02_address_round_trip a]; exact Nat.mod_eq_of_lt hlt
      · exact List.mem_cons_self)
  simp only [List.length_map, List.length_cons, List.length_append, halfCoords_length] at this
  exact this

end Verif.Xc7

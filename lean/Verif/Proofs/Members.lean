import Verif.Spec.Members
import Verif.Proofs.Reorder
import Verif.Proofs.Render
/-! Members of JSON objects in another order. -/
namespace Verif.Db
open Verif.Text Verif.Spec

/-! ## Lists -/

theorem perm_preimage {α β : Type} (f : α → β) {a b : List β} (h : a.Perm b) : ∀ l : List α, l.map f = a → ∃ l' : List α, l.Perm l' ∧ l'.map f = b := by
  induction h with
  | nil => intro l hl; exact ⟨l, .refl _, hl⟩
  | cons x _ ih =>
    intro l hl
    cases l with
    | nil => cases hl
    | cons y l =>
      rw [List.map_cons] at hl
      obtain ⟨h1, h2⟩ := List.cons.inj hl
      obtain ⟨l', h3, h4⟩ := ih l h2
      exact ⟨y :: l', h3.cons y, by rw [List.map_cons, h1, h4]⟩
  | swap x y r =>
    intro l hl
    match l, hl with
    | u :: v :: l, hl =>
      simp only [List.map_cons, List.cons.injEq] at hl
      exact ⟨v :: u :: l, .swap _ _ _, by simp [hl.1, hl.2.1, hl.2.2]⟩
  | trans _ _ ih1 ih2 =>
    intro l hl
    obtain ⟨l1, h1, h2⟩ := ih1 l hl
    obtain ⟨l2, h3, h4⟩ := ih2 l1 h2
    exact ⟨l2, h1.trans h3, h4⟩

theorem zip_same {α β γ : Type} (f : α → γ) (g : β → γ) : ∀ (l : List α) (r : List β), l.map f = r.map g →
    ∃ ws : List (α × β), ws.map (·.1) = l ∧ ws.map (·.2) = r ∧ ∀ w ∈ ws, f w.1 = g w.2 := by
  intro l
  induction l with
  | nil =>
    intro r h
    cases r with
    | nil => exact ⟨[], rfl, rfl, by simp⟩
    | cons _ _ => cases h
  | cons a l ih =>
    intro r h
    cases r with
    | nil => cases h
    | cons b r =>
      rw [List.map_cons, List.map_cons] at h
      obtain ⟨h1, h2⟩ := List.cons.inj h
      obtain ⟨ws, h3, h4, h5⟩ := ih r h2
      refine ⟨(a, b) :: ws, by rw [List.map_cons, h3], by rw [List.map_cons, h4], ?_⟩
      intro w hw
      rcases List.mem_cons.1 hw with rfl | hw
      · exact h1
      · exact h5 w hw

theorem choose_all {α β : Type} {P : α → β → Prop} : ∀ l : List α, (∀ a ∈ l, ∃ b, P a b) →
    ∃ us : List (α × β), us.map (·.1) = l ∧ ∀ u ∈ us, P u.1 u.2 := by
  intro l
  induction l with
  | nil => intro _; exact ⟨[], rfl, by simp⟩
  | cons a l ih =>
    intro h
    obtain ⟨b, hb⟩ := h a (by simp)
    obtain ⟨us, h1, h2⟩ := ih fun x hx => h x (by simp [hx])
    refine ⟨(a, b) :: us, by rw [List.map_cons, h1], ?_⟩
    intro u hu
    rcases List.mem_cons.1 hu with rfl | hu
    · exact hb
    · exact h2 u hu

/-! ## Values -/

theorem _root_.Verif.Spec.Permuted.obj_inv {ms : List (Bytes × Json)} {j' : Json} (h : Permuted (.obj ms) j') :
    ∃ zs : List (Bytes × Json × Json), ms.Perm (zs.map fun z => (z.1, z.2.1)) ∧ j' = .obj (zs.map fun z => (z.1, z.2.2)) ∧
      ∀ z ∈ zs, Permuted z.2.1 z.2.2 := by
  generalize hj : Json.obj ms = j at h
  cases h with
  | same =>
    refine ⟨ms.map fun e => (e.1, e.2, e.2), ?_, ?_, ?_⟩
    · rw [List.map_map]
      have : ((fun z : Bytes × Json × Json => (z.1, z.2.1)) ∘ fun e : Bytes × Json => (e.1, e.2, e.2)) = id := rfl
      rw [this, List.map_id]
    · rw [List.map_map]
      have : ((fun z : Bytes × Json × Json => (z.1, z.2.2)) ∘ fun e : Bytes × Json => (e.1, e.2, e.2)) = id := rfl
      rw [this, List.map_id, hj]
    · intro z hz
      obtain ⟨e, _, rfl⟩ := List.mem_map.1 hz
      exact .same _
  | arr zs h => cases hj
  | obj ms' zs hp h => cases hj; exact ⟨zs, hp, rfl, h⟩

theorem _root_.Verif.Spec.Permuted.obj_iff {j j' : Json} (h : Permuted j j') : (∃ ms, j = .obj ms) ↔ ∃ ms, j' = .obj ms := by
  cases h with
  | same => exact Iff.rfl
  | arr zs h => exact ⟨fun ⟨_, h⟩ => (by cases h), fun ⟨_, h⟩ => (by cases h)⟩
  | obj ms' zs hp h => exact ⟨fun _ => ⟨_, rfl⟩, fun _ => ⟨_, rfl⟩⟩

theorem _root_.Verif.Spec.Permuted.leaf {j j' : Json} (h : Permuted j j') (ha : ∀ l, j ≠ .arr l) (ho : ∀ l, j ≠ .obj l) : j' = j := by
  cases h with
  | same => rfl
  | arr zs h => exact absurd rfl (ha _)
  | obj ms' zs hp h => exact absurd rfl (ho _)

theorem _root_.Verif.Spec.Permuted.str {s : Bytes} {j' : Json} (h : Permuted (.str s) j') : j' = .str s :=
  h.leaf (fun _ h => by cases h) (fun _ h => by cases h)

theorem _root_.Verif.Spec.Permuted.int {i : Int} {j' : Json} (h : Permuted (.int i) j') : j' = .int i :=
  h.leaf (fun _ h => by cases h) (fun _ h => by cases h)

theorem _root_.Verif.Spec.Permuted.strings {ss : List Bytes} {j' : Json} (h : Permuted (.arr (ss.map .str)) j') : j' = .arr (ss.map .str) := by
  generalize hj : Json.arr (ss.map .str) = j at h
  cases h with
  | same => rfl
  | arr zs h =>
    have hj := Json.arr.inj hj
    congr 1
    apply List.map_congr_left
    intro z hz
    have : z.1 ∈ ss.map Json.str := by rw [hj]; exact List.mem_map_of_mem hz
    obtain ⟨s, _, hs⟩ := List.mem_map.1 this
    have h2 := h z hz
    rw [← hs] at h2 ⊢
    exact h2.str
  | obj ms' zs hp h => cases hj

theorem inside_trans {a b c : Json} (h : Inside a b) (h' : Inside b c) : Inside a c := by
  induction h' with
  | here => exact h
  | item _ hm ih => exact .item ih hm
  | member _ hm ih => exact .member ih hm

theorem _root_.Verif.Spec.DistinctNames.member {ms : List (Bytes × Json)} (h : DistinctNames (.obj ms)) {e : Bytes × Json} (he : e ∈ ms) : DistinctNames e.2 :=
  fun ms' h' => h ms' (inside_trans (.member .here he) h')

theorem _root_.Verif.Spec.DistinctNames.nodup {ms : List (Bytes × Json)} (h : DistinctNames (.obj ms)) : (ms.map (·.1)).Nodup := by
  have := h ms .here
  have h2 : (ms.map fun e => untilNul e.1) = (ms.map (·.1)).map untilNul := by rw [List.map_map]; rfl
  rw [h2] at this
  exact List.Pairwise.of_map _ (fun a b hab heq => hab (congrArg untilNul heq)) this

/-- The members of the other object, with what belongs to those of the first. -/
theorem members_moved {γ : Type} (es : List ((Bytes × Json) × γ)) {j' : Json} (h : Permuted (.obj (es.map (·.1))) j') :
    ∃ ws : List (((Bytes × Json) × γ) × Json), es.Perm (ws.map (·.1)) ∧ j' = .obj (ws.map fun w => (w.1.1.1, w.2)) ∧
      ∀ w ∈ ws, w.1 ∈ es ∧ Permuted w.1.1.2 w.2 := by
  obtain ⟨zs, h1, rfl, h3⟩ := h.obj_inv
  obtain ⟨es', h4, h5⟩ := perm_preimage (·.1) h1 es rfl
  obtain ⟨ws, h6, h7, h8⟩ := zip_same (fun e : (Bytes × Json) × γ => e.1) (fun z : Bytes × Json × Json => (z.1, z.2.1)) es' zs h5
  refine ⟨ws.map fun w => (w.1, w.2.2.2), ?_, ?_, ?_⟩
  · rw [List.map_map]
    have : ((fun w : ((Bytes × Json) × γ) × Json => w.1) ∘ fun w : ((Bytes × Json) × γ) × (Bytes × Json × Json) => (w.1, w.2.2.2)) = (·.1) := rfl
    rw [this, h6]; exact h4
  · rw [List.map_map, ← h7, List.map_map]
    congr 1
    apply List.map_congr_left
    intro w hw
    have := h8 w hw
    simp only [Function.comp]
    rw [this]
  · intro w hw
    obtain ⟨u, hu, rfl⟩ := List.mem_map.1 hw
    refine ⟨h4.mem_iff.2 (h6 ▸ List.mem_map_of_mem hu), ?_⟩
    have := h8 u hu
    simp only
    rw [this]
    exact h3 u.2 (h7 ▸ List.mem_map_of_mem hu)

theorem member_moved {j j' : Json} (h : Permuted j j') (hd : DistinctNames j) {name : Bytes} {v : Json} (hm : Member j name v) :
    ∃ v', Member j' name v' ∧ Permuted v v' ∧ DistinctNames v := by
  obtain ⟨ms, rfl, hl⟩ := hm
  obtain ⟨zs, h1, rfl, h3⟩ := h.obj_inv
  have hr : Reordered Permuted ms (zs.map fun z => (z.1, z.2.2)) := ⟨zs, h1, rfl, h3⟩
  obtain ⟨v', h4, h5⟩ := (hr.sameMap hd.nodup).some_left hl
  exact ⟨v', ⟨_, rfl, h4⟩, h5, hd.member (mem_of_lookup hl)⟩

theorem noMember_moved {j j' : Json} (h : Permuted j j') (hd : DistinctNames j) {name : Bytes} (hm : NoMember j name) : NoMember j' name := by
  obtain ⟨ms, rfl, hl⟩ := hm
  obtain ⟨zs, h1, rfl, h3⟩ := h.obj_inv
  have hr : Reordered Permuted ms (zs.map fun z => (z.1, z.2.2)) := ⟨zs, h1, rfl, h3⟩
  exact ⟨_, rfl, (hr.sameMap hd.nodup).none_left hl⟩

theorem member_functional {j : Json} {name : Bytes} {v v' : Json} (h : Member j name v) (h' : Member j name v') : v = v' := by
  obtain ⟨ms, rfl, h⟩ := h
  obtain ⟨ms', h2, h'⟩ := h'
  cases h2
  rw [h] at h'
  exact Option.some.inj h'

theorem member_not {j : Json} {name : Bytes} {v : Json} (h : Member j name v) (h' : NoMember j name) : False := by
  obtain ⟨ms, rfl, h⟩ := h
  obtain ⟨ms', h2, h'⟩ := h'
  cases h2
  rw [h] at h'
  cases h'

theorem u32_moved {v v' : Json} (h : Permuted v v') {n : Nat} (hu : U32Json v n) : U32Json v' n := by
  obtain ⟨rfl, h2⟩ := hu
  exact ⟨h.int, h2⟩

theorem i32_moved {v v' : Json} (h : Permuted v v') {n : Int} (hu : I32Json v n) : I32Json v' n := by
  obtain ⟨rfl, h2⟩ := hu
  exact ⟨h.int, h2⟩

theorem strings_moved {v v' : Json} (h : Permuted v v') {l : List Bytes} (hu : StringsJson v l) : StringsJson v' l := by
  obtain ⟨ss, rfl, h2⟩ := hu
  exact ⟨ss, h.strings, h2⟩

theorem stringMap_moved {v v' : Json} (h : Permuted v v') (hd : DistinctNames v) {m : List (Bytes × Bytes)} (hm : StringMapJson v m) :
    ∃ m', StringMapJson v' m' ∧ m.Perm m' := by
  obtain ⟨es, rfl, rfl⟩ := hm
  have hes : (es.map fun e => (e.1, Json.str e.2)) = (es.map fun e => ((e.1, Json.str e.2), e)).map (·.1) := by rw [List.map_map]; rfl
  rw [hes] at h
  obtain ⟨ws, h1, rfl, h3⟩ := members_moved _ h
  have hn : (es.map (·.1)).Nodup := by
    have := hd.nodup
    rw [List.map_map] at this
    exact this
  have h1 := h1.map (·.2)
  rw [List.map_map, List.map_map] at h1
  have h4 : es.Perm (ws.map fun w => w.1.2) := by
    have e1 : ((fun x : (Bytes × Json) × (Bytes × Bytes) => x.2) ∘ fun e : Bytes × Bytes => ((e.1, Json.str e.2), e)) = id := rfl
    rw [e1, List.map_id] at h1
    exact h1
  refine ⟨firsts (ws.map fun w => w.1.2), ⟨_, ?_, rfl⟩, ?_⟩
  · rw [List.map_map]
    congr 1
    apply List.map_congr_left
    intro w hw
    obtain ⟨h5, h6⟩ := h3 w hw
    obtain ⟨e, _, he⟩ := List.mem_map.1 h5
    rw [← he] at h6
    simp only [Function.comp]
    rw [h6.str, ← he]
  · rw [firsts_nodup _ hn, firsts_nodup _ ((h4.map (·.1)).nodup_iff.1 hn)]
    exact h4

theorem busName_injective {a b : ConfigBusType} (h : busName a = busName b) : a = b := by
  revert h
  cases a <;> cases b <;> decide

/-- Keys that mean different things. -/
theorem busKeys_nodup {α : Type} {item : Json → α → Prop} {es : List ((Bytes × Json) × (ConfigBusType × α))} (hd : DistinctNames (.obj (es.map (·.1))))
    (h : ∀ e ∈ es, untilNul e.1.1 = busName e.2.1 ∧ item e.1.2 e.2.2) : ((es.map (·.2)).map (·.1)).Nodup := by
  have := hd _ .here
  rw [List.map_map] at this ⊢
  have e1 : (es.map ((fun e : Bytes × Json => untilNul e.1) ∘ fun e => e.1)) = (es.map ((fun x : ConfigBusType × α => x.1) ∘ fun e => e.2)).map busName := by
    rw [List.map_map]
    apply List.map_congr_left
    intro e he
    exact (h e he).1
  rw [e1] at this
  exact List.Pairwise.of_map _ (fun a b hab heq => hab (congrArg busName heq)) this

theorem busMap_moved {α : Type} {item : Json → α → Prop} {R : α → α → Prop}
    (hi : ∀ v a v', item v a → Permuted v v' → DistinctNames v → ∃ a', item v' a' ∧ R a a')
    {v v' : Json} (h : Permuted v v') (hd : DistinctNames v) {m : List (ConfigBusType × α)} (hm : BusMapJson item v m) :
    ∃ m', BusMapJson item v' m' ∧ Reordered R m m' := by
  obtain ⟨es, rfl, rfl, h2⟩ := hm
  have hn := busKeys_nodup hd h2
  obtain ⟨ws, h3, rfl, h5⟩ := members_moved es h
  obtain ⟨us, rfl, h6⟩ := choose_all (P := fun (w : ((Bytes × Json) × (ConfigBusType × α)) × Json) a' => item w.2 a' ∧ R w.1.2.2 a') ws (by
    intro w hw
    obtain ⟨h7, h8⟩ := h5 w hw
    exact hi _ _ _ (h2 _ h7).2 h8 (hd.member (List.mem_map_of_mem (f := fun e : (Bytes × Json) × (ConfigBusType × α) => e.1) h7)))
  have h8 : (es.map (·.2)).Perm (us.map fun u => (u.1.1.2.1, u.1.1.2.2)) := by
    have := h3.map (·.2)
    rw [List.map_map, List.map_map] at this
    exact this
  have hn' : ((us.map fun u => (u.1.1.2.1, u.2)).map (·.1)).Nodup := by
    have := (h8.map (·.1)).nodup_iff.1 hn
    rw [List.map_map] at this ⊢
    exact this
  refine ⟨firsts (us.map fun u => (u.1.1.2.1, u.2)), ⟨us.map fun u => ((u.1.1.1.1, u.1.2), (u.1.1.2.1, u.2)), ?_, ?_, ?_⟩, ?_⟩
  · rw [List.map_map, List.map_map]; rfl
  · rw [List.map_map]; rfl
  · intro e he
    obtain ⟨u, hu, rfl⟩ := List.mem_map.1 he
    exact ⟨(h2 _ (h5 u.1 (List.mem_map_of_mem hu)).1).1, (h6 u hu).1⟩
  · rw [firsts_nodup _ hn, firsts_nodup _ hn']
    refine ⟨us.map fun u => (u.1.1.2.1, u.1.1.2.2, u.2), ?_, ?_, ?_⟩
    · rw [List.map_map]; exact h8
    · rw [List.map_map]; rfl
    · intro z hz
      obtain ⟨u, hu, rfl⟩ := List.mem_map.1 hz
      exact (h6 u hu).2

theorem alias_moved {v v' : Json} (h : Permuted v v') (hd : DistinctNames v) {a : BitsBlockAlias} (ha : AliasJson v a) :
    ∃ a', AliasJson v' a' ∧ a.type = a'.type ∧ a.startOffset = a'.startOffset ∧ a.sites.Perm a'.sites := by
  obtain ⟨⟨v1, h1, h2⟩, ⟨v2, h3, h4⟩, h5⟩ := ha
  obtain ⟨w1, g1, g2, g3⟩ := member_moved h hd h1
  obtain ⟨w2, g4, g5, _⟩ := member_moved h hd h3
  obtain ⟨w3, g6, g7, _⟩ := member_moved h hd h5
  obtain ⟨m', g8, g9⟩ := stringMap_moved g2 g3 h2
  refine ⟨⟨m', a.startOffset, a.type⟩, ⟨⟨w1, g1, g8⟩, ⟨w2, g4, u32_moved g5 h4⟩, ?_⟩, rfl, rfl, g9⟩
  rw [g7.str] at g6
  exact g6

theorem block_moved {A : Bytes → Nat → Prop} (v : Json) (b : BitsBlock) (v' : Json) (hb : BlockJson A v b) (h : Permuted v v') (hd : DistinctNames v) :
    ∃ b', BlockJson A v' b' ∧ BlockReordered b b' := by
  obtain ⟨h1, ⟨s, h2, h3⟩, ⟨v1, h4, h5⟩, ⟨v2, h6, h7⟩, ⟨v3, h8, h9⟩⟩ := hb
  obtain ⟨w1, g1, g2, _⟩ := member_moved h hd h2
  obtain ⟨w2, g3, g4, _⟩ := member_moved h hd h4
  obtain ⟨w3, g5, g6, _⟩ := member_moved h hd h6
  obtain ⟨w4, g7, g8, _⟩ := member_moved h hd h8
  rw [g2.str] at g1
  rcases h1 with ⟨h1, h10⟩ | ⟨va, a, h1, h10, h11⟩
  · refine ⟨b, ⟨Or.inl ⟨noMember_moved h hd h1, h10⟩, ⟨s, g1, h3⟩, ⟨w2, g3, u32_moved g4 h5⟩, ⟨w3, g5, i32_moved g6 h7⟩,
      ⟨w4, g7, u32_moved g8 h9⟩⟩, blockReordered_refl b⟩
  · obtain ⟨wa, g9, g10, g11⟩ := member_moved h hd h1
    obtain ⟨a', g12, g13⟩ := alias_moved g10 g11 h11
    refine ⟨{ b with alias? := some a' }, ⟨Or.inr ⟨wa, a', g9, rfl, g12⟩, ⟨s, g1, h3⟩, ⟨w2, g3, u32_moved g4 h5⟩, ⟨w3, g5, i32_moved g6 h7⟩,
      ⟨w4, g7, u32_moved g8 h9⟩⟩, rfl, rfl, rfl, rfl, ?_⟩
    rw [h10]
    exact g13

theorem tile_moved {A : Bytes → Nat → Prop} {v v' : Json} {t : Db.Tile} (ht : TileJson A v t) (h : Permuted v v') (hd : DistinctNames v) :
    ∃ t', TileJson A v' t' ∧ TileReordered t t' := by
  obtain ⟨h1, ⟨v1, h2, h3⟩, ⟨v2, h4, h5⟩, h6, ⟨v3, h7, h8⟩, ⟨v4, h9, h10⟩, ⟨v5, h11, h12⟩, ⟨v6, h13, h14⟩⟩ := ht
  obtain ⟨w0, g1, g2, _⟩ := member_moved h hd h1
  obtain ⟨w1, g3, g4, _⟩ := member_moved h hd h2
  obtain ⟨w2, g5, g6, _⟩ := member_moved h hd h4
  obtain ⟨w3, g7, g8, g9⟩ := member_moved h hd h7
  obtain ⟨w4, g10, g11, g12⟩ := member_moved h hd h9
  obtain ⟨w5, g13, g14, g15⟩ := member_moved h hd h11
  obtain ⟨w6, g16, g17, _⟩ := member_moved h hd h13
  obtain ⟨bits, g18, g19⟩ := busMap_moved (R := BlockReordered) block_moved g8 g9 h8
  obtain ⟨pins, g20, g21⟩ := stringMap_moved g11 g12 h10
  obtain ⟨sites, g22, g23⟩ := stringMap_moved g14 g15 h12
  refine ⟨{ t with bits := bits, pinFunctions := pins, sites := sites }, ⟨g2.str ▸ g1, ⟨w1, g3, u32_moved g4 h3⟩, ⟨w2, g5, u32_moved g6 h5⟩, ?_,
    ⟨w3, g7, g18⟩, ⟨w4, g10, g20⟩, ⟨w5, g13, g22⟩, ⟨w6, g16, strings_moved g17 h14⟩⟩, rfl, rfl, rfl, rfl, rfl, g19, g21, g23⟩
  rcases h6 with ⟨h6, h15⟩ | ⟨s, h6, h15⟩
  · exact Or.inl ⟨noMember_moved h hd h6, h15⟩
  · obtain ⟨w7, g24, g25, _⟩ := member_moved h hd h6
    exact Or.inr ⟨s, g25.str ▸ g24, h15⟩

theorem grid_moved {A : Bytes → Nat → Prop} {j j' : Json} {g : TileGrid} (hg : GridJson A j g) (h : Permuted j j') (hd : DistinctNames j) :
    ∃ g', GridJson A j' g' ∧ Reordered TileReordered g g' := by
  obtain ⟨es, rfl, h2, rfl⟩ := hg
  obtain ⟨ws, h3, rfl, h5⟩ := members_moved es h
  obtain ⟨us, rfl, h6⟩ := choose_all (P := fun (w : ((Bytes × Json) × Db.Tile) × Json) t' => TileJson A w.2 t' ∧ TileReordered w.1.2 t') ws (by
    intro w hw
    obtain ⟨h7, h8⟩ := h5 w hw
    exact tile_moved (h2 _ h7) h8 (hd.member (List.mem_map_of_mem (f := fun e : (Bytes × Json) × Db.Tile => e.1) h7)))
  have hn : ((es.map fun e => (untilNul e.1.1, e.2)).map (·.1)).Nodup := by
    have := hd _ .here
    rw [List.map_map] at this ⊢
    exact this
  have h8 : (es.map fun e => (untilNul e.1.1, e.2)).Perm (us.map fun u => (untilNul u.1.1.1.1, u.1.1.2)) := by
    have := h3.map fun e => (untilNul e.1.1, e.2)
    rw [List.map_map, List.map_map] at this
    exact this
  have hn' : ((us.map fun u => (untilNul u.1.1.1.1, u.2)).map (·.1)).Nodup := by
    have := (h8.map (·.1)).nodup_iff.1 hn
    rw [List.map_map] at this ⊢
    exact this
  refine ⟨firsts (us.map fun u => (untilNul u.1.1.1.1, u.2)), ⟨us.map fun u => ((u.1.1.1.1, u.1.2), u.2), ?_, ?_, ?_⟩, ?_⟩
  · rw [List.map_map, List.map_map]; rfl
  · intro e he
    obtain ⟨u, hu, rfl⟩ := List.mem_map.1 he
    exact (h6 u hu).1
  · rw [List.map_map]; rfl
  · rw [firsts_nodup _ hn, firsts_nodup _ hn']
    refine ⟨us.map fun u => (untilNul u.1.1.1.1, u.1.1.2, u.2), ?_, ?_, ?_⟩
    · rw [List.map_map]; exact h8
    · rw [List.map_map]; rfl
    · intro z hz
      obtain ⟨u, hu, rfl⟩ := List.mem_map.1 hz
      exact (h6 u hu).2

/-! ## Parts -/

theorem intText_functional {s : Bytes} {a b : Int} (h : IntText s a) (h' : IntText s b) : a = b := by
  have h := (atoiI32_iff _ _).2 h
  rw [(atoiI32_iff _ _).2 h'] at h
  exact (Option.some.inj h).symm

theorem uintText_functional {s : Bytes} {a b : Nat} (h : UIntText s a) (h' : UIntText s b) : a = b := by
  have h := (atoiU32_iff _ _).2 h
  rw [(atoiU32_iff _ _).2 h'] at h
  exact (Option.some.inj h).symm

/-- Numbered members that are accepted in both files stand in the same order. -/
theorem sequence_moved {α : Type} {item : Json → α → Prop} {R : α → α → Prop}
    (hi : ∀ v a v' a', item v a → item v' a' → Permuted v v' → DistinctNames v → R a a')
    {v v' : Json} (h : Permuted v v') (hd : DistinctNames v) {l l' : List α} (hl : SequenceJson item v l) (hl' : SequenceJson item v' l') :
    ∃ zs : List (α × α), l = zs.map (·.1) ∧ l' = zs.map (·.2) ∧ ∀ z ∈ zs, R z.1 z.2 := by
  obtain ⟨es, rfl, rfl, h2⟩ := hl
  obtain ⟨es', h3, rfl, h4⟩ := hl'
  obtain ⟨ws, h5, rfl, h6⟩ := members_moved es h
  obtain ⟨us, rfl, rfl, h7⟩ := zip_same (fun w : ((Bytes × Json) × α) × Json => (w.1.1.1, w.2)) (fun e : (Bytes × Json) × α => e.1) ws es' (Json.obj.inj h3)
  have he : es = us.map (fun u => u.1.1) := by
    apply List.ext_getElem?
    intro i
    cases hu : us[i]? with
    | none =>
      have hlen : es.length = us.length := by
        have := h5.length_eq
        simpa using this
      rw [List.getElem?_map, hu, List.getElem?_eq_none_iff.2 (by rw [hlen]; exact List.getElem?_eq_none_iff.1 hu)]
      rfl
    | some u =>
      have hm := List.mem_of_getElem? hu
      obtain ⟨k, hk⟩ := List.mem_iff_getElem?.1 (h6 u.1 (List.mem_map_of_mem hm)).1
      have h8 := (h2 k _ hk).1
      have h9 := (h4 i u.2 (by rw [List.getElem?_map, hu]; rfl)).1
      have h10 : u.2.1.1 = u.1.1.1.1 := ((Prod.mk.inj (h7 u hm)).1).symm
      rw [h10] at h9
      have h11 := intText_functional h8 h9
      have h11 : k = i := by omega
      rw [h11] at hk
      rw [hk, List.getElem?_map, hu]; rfl
  refine ⟨us.map fun u => (u.1.1.2, u.2.2), ?_, ?_, ?_⟩
  · rw [he, List.map_map, List.map_map]; rfl
  · rw [List.map_map, List.map_map]; rfl
  · intro z hz
    obtain ⟨u, hu, rfl⟩ := List.mem_map.1 hz
    obtain ⟨h8, h9⟩ := h6 u.1 (List.mem_map_of_mem hu)
    obtain ⟨k, hk⟩ := List.mem_iff_getElem?.1 h8
    obtain ⟨i, hi2⟩ := List.mem_iff_getElem?.1 hu
    have h10 := (h4 i u.2 (by rw [List.getElem?_map, hi2]; rfl)).2
    have h11 : u.2.1.2 = u.1.2 := ((Prod.mk.inj (h7 u hu)).2).symm
    rw [h11] at h10
    exact hi _ _ _ _ (h2 k _ hk).2 h10 h9 (hd.member (List.mem_map_of_mem (f := fun e : (Bytes × Json) × α => e.1) h8))

theorem column_moved (v : Json) (n : Nat) (v' : Json) (n' : Nat) (h : ColumnJson v n) (h' : ColumnJson v' n') (hp : Permuted v v') (hd : DistinctNames v) : n = n' := by
  obtain ⟨w, h1, h2⟩ := h
  obtain ⟨w', h3, h4⟩ := h'
  obtain ⟨w2, g1, g2, _⟩ := member_moved hp hd h1
  cases member_functional g1 h3
  have h5 := u32_moved g2 h2
  obtain ⟨rfl, _⟩ := h5
  obtain ⟨h6, _⟩ := h4
  have h6 := Json.int.inj h6
  omega

theorem bus_moved (v : Json) (l : List Nat) (v' : Json) (l' : List Nat) (h : BusJson v l) (h' : BusJson v' l') (hp : Permuted v v') (hd : DistinctNames v) : l = l' := by
  obtain ⟨w, h1, h2⟩ := h
  obtain ⟨w', h3, h4⟩ := h'
  obtain ⟨w2, g1, g2, g3⟩ := member_moved hp hd h1
  cases member_functional g1 h3
  obtain ⟨zs, rfl, rfl, h5⟩ := sequence_moved column_moved g2 g3 h2 h4
  exact List.map_congr_left h5

theorem row_moved (v : Json) (r : ClockRegionRow) (v' : Json) (r' : ClockRegionRow) (h : RowJson v r) (h' : RowJson v' r') (hp : Permuted v v')
    (hd : DistinctNames v) : r.Perm r' := by
  obtain ⟨w, h1, es, rfl, rfl, h2⟩ := h
  obtain ⟨w', h3, es', rfl, rfl, h4⟩ := h'
  obtain ⟨w2, g1, g2, g3⟩ := member_moved hp hd h1
  cases member_functional g1 h3
  obtain ⟨ws, h5, h5', h6⟩ := members_moved es g2
  obtain ⟨us, rfl, rfl, h7⟩ := zip_same (fun w : ((Bytes × Json) × (ConfigBusType × List Nat)) × Json => (w.1.1.1, w.2))
    (fun e : (Bytes × Json) × (ConfigBusType × List Nat) => e.1) ws es' (Json.obj.inj h5').symm
  have hn := busKeys_nodup g3 h2
  have h8 : (us.map (fun u => u.1.1.2)) = us.map fun u => u.2.2 := by
    apply List.map_congr_left
    intro u hu
    obtain ⟨h9, h10⟩ := h6 u.1 (List.mem_map_of_mem hu)
    obtain ⟨h11, h12⟩ := h2 _ h9
    obtain ⟨h13, h14⟩ := h4 u.2 (List.mem_map_of_mem hu)
    obtain ⟨e1, e2⟩ := Prod.mk.inj (h7 u hu)
    rw [← e1, h11] at h13
    have e2 : u.2.1.2 = u.1.2 := e2.symm
    rw [e2] at h14
    exact Prod.ext (busName_injective h13) (bus_moved _ _ _ _ h12 h14 h10 (g3.member (List.mem_map_of_mem (f := fun e : (Bytes × Json) × (ConfigBusType × List Nat) => e.1) h9)))
  have h15 : (es.map (·.2)).Perm (us.map fun u => u.2.2) := by
    have := h5.map (·.2)
    rw [List.map_map, List.map_map] at this
    rw [← h8]
    exact this
  have h16 : ((us.map (·.2)).map fun e => e.2) = us.map fun u => u.2.2 := by rw [List.map_map]; rfl
  rw [firsts_nodup _ hn, h16, firsts_nodup _ ((h15.map (·.1)).nodup_iff.1 hn)]
  exact h15

theorem half_moved {v v' : Json} {r r' : ClockRegionHalf} (h : HalfJson v r) (h' : HalfJson v' r') (hp : Permuted v v')
    (hd : DistinctNames v) : RowsReordered r r' := by
  obtain ⟨w, h1, h2⟩ := h
  obtain ⟨w', h3, h4⟩ := h'
  obtain ⟨w2, g1, g2, g3⟩ := member_moved hp hd h1
  cases member_functional g1 h3
  exact sequence_moved row_moved g2 g3 h2 h4

theorem banks_moved {v v' : Json} {m m' : List (Nat × Bytes)} (h : BanksJson v m) (h' : BanksJson v' m') (hp : Permuted v v')
    (hb : ∀ ms, v = .obj ms → ms.Pairwise fun e f => ∀ n, UIntText (untilNul e.1) n → ¬ UIntText (untilNul f.1) n) : m.Perm m' := by
  obtain ⟨es, rfl, h1, rfl⟩ := h
  obtain ⟨es', h3, h4, rfl⟩ := h'
  have hes : (es.map fun e => (e.1.1, Json.str e.1.2)) = (es.map fun e => ((e.1.1, Json.str e.1.2), e)).map (·.1) := by rw [List.map_map]; rfl
  have hb := hb _ rfl
  rw [hes] at hp
  obtain ⟨ws, h5, rfl, h6⟩ := members_moved _ hp
  obtain ⟨us, rfl, rfl, h7⟩ := zip_same (fun w : ((Bytes × Json) × ((Bytes × Bytes) × Nat)) × Json => (w.1.1.1, w.2))
    (fun e : (Bytes × Bytes) × Nat => (e.1.1, Json.str e.1.2)) ws es' (Json.obj.inj h3)
  have hn : ((es.map fun e => (e.2, untilNul e.1.2)).map (·.1)).Nodup := by
    rw [List.map_map]
    rw [List.pairwise_map] at hb
    refine List.pairwise_map.2 (hb.imp_of_mem ?_)
    intro a b ha hb' hab heq
    have heq : a.2 = b.2 := heq
    have h8 := h1 b hb'
    rw [← heq] at h8
    exact hab _ (h1 a ha) h8
  have h8 : (us.map fun u => u.1.1.2) = us.map fun u => u.2 := by
    apply List.map_congr_left
    intro u hu
    obtain ⟨h9, h10⟩ := h6 u.1 (List.mem_map_of_mem hu)
    obtain ⟨e, he, hx⟩ := List.mem_map.1 h9
    obtain ⟨e1, e2⟩ := Prod.mk.inj (h7 u hu)
    rw [← hx] at h10 e1 ⊢
    have e2 : u.1.2 = Json.str u.2.1.2 := e2
    rw [h10.str] at e2
    have e2 := Json.str.inj e2
    have h11 := h4 u.2 (List.mem_map_of_mem hu)
    have e1 : e.1.1 = u.2.1.1 := e1
    rw [← e1] at h11
    exact Prod.ext (Prod.ext e1 e2) (uintText_functional (h1 e he) h11)
  have h15 : (es.map fun e => (e.2, untilNul e.1.2)).Perm ((us.map fun u => u.2).map fun e => (e.2, untilNul e.1.2)) := by
    have := h5.map (·.2)
    rw [List.map_map, List.map_map, List.map_map] at this
    rw [← h8]
    refine List.Perm.map _ ?_
    have e1 : ((fun x : (Bytes × Json) × ((Bytes × Bytes) × Nat) => x.2) ∘ fun e : (Bytes × Bytes) × Nat => ((e.1.1, Json.str e.1.2), e)) = id := rfl
    rw [e1, List.map_id] at this
    exact this
  rw [firsts_nodup _ hn, firsts_nodup _ ((h15.map (·.1)).nodup_iff.1 hn)]
  exact h15

theorem part_moved {j j' : Json} {p p' : Db.Part} (h : PartJson j p) (h' : PartJson j' p') (hp : Permuted j j') (hd : DistinctNames j)
    (hb : OneNamePerBank j) : PartReordered p p' := by
  obtain ⟨⟨v1, h1, h2⟩, h3, ⟨v2, h4, ⟨⟨v3, h5, h6⟩, ⟨v4, h7, h8⟩⟩⟩⟩ := h
  obtain ⟨⟨w1, g1, g2⟩, g3, ⟨w2, g4, ⟨⟨w3, g5, g6⟩, ⟨w4, g7, g8⟩⟩⟩⟩ := h'
  obtain ⟨x1, k1, k2, _⟩ := member_moved hp hd h1
  cases member_functional k1 g1
  obtain ⟨x2, k3, k4, k5⟩ := member_moved hp hd h4
  cases member_functional k3 g4
  obtain ⟨x3, k6, k7, k8⟩ := member_moved k4 k5 h5
  cases member_functional k6 g5
  obtain ⟨x4, k9, k10, k11⟩ := member_moved k4 k5 h7
  cases member_functional k9 g7
  refine ⟨?_, ?_, half_moved h8 g8 k10 k11, half_moved h6 g6 k7 k8⟩
  · obtain ⟨e1, _⟩ := u32_moved k2 h2
    obtain ⟨e2, _⟩ := g2
    rw [e1] at e2
    have e2 := Json.int.inj e2
    apply BitVec.eq_of_toNat_eq
    omega
  · rcases h3 with ⟨h3, h9⟩ | ⟨vb, h3, h9⟩
    · rcases g3 with ⟨g3, g9⟩ | ⟨wb, g3, g9⟩
      · rw [h9, g9]
      · exact (member_not g3 (noMember_moved hp hd h3)).elim
    · obtain ⟨x5, k12, k13, _⟩ := member_moved hp hd h3
      rcases g3 with ⟨g3, g9⟩ | ⟨wb, g3, g9⟩
      · exact (member_not k12 g3).elim
      · cases member_functional k12 g3
        refine banks_moved h9 g9 k13 ?_
        rintro ms rfl
        exact hb ms h3

/-! ## There and back -/

theorem _root_.Verif.Spec.Permuted.symm {j j' : Json} (h : Permuted j j') : Permuted j' j := by
  induction h with
  | same j => exact .same j
  | arr zs _ ih =>
    have := Permuted.arr (zs.map fun z => (z.2, z.1)) (by
      intro z hz
      obtain ⟨y, hy, rfl⟩ := List.mem_map.1 hz
      exact ih y hy)
    rw [List.map_map, List.map_map] at this
    exact this
  | obj ms zs hp _ ih =>
    obtain ⟨zs', h1, h2⟩ := perm_preimage (fun z : Bytes × Json × Json => (z.1, z.2.1)) hp.symm zs rfl
    have := Permuted.obj (zs.map fun z => (z.1, z.2.2)) (zs'.map fun z => (z.1, z.2.2, z.2.1)) (by
        rw [List.map_map]; exact h1.map _) (by
      intro z hz
      obtain ⟨y, hy, rfl⟩ := List.mem_map.1 hz
      exact ih y (h1.mem_iff.2 hy))
    rw [List.map_map] at this
    rw [← h2]
    exact this

theorem inside_moved {j j' : Json} (h : Permuted j j') {v' : Json} (hv : Inside j' v') : ∃ v, Inside j v ∧ Permuted v v' := by
  induction hv with
  | here => exact ⟨j, .here, h⟩
  | item _ hm ih =>
    obtain ⟨v, h1, h2⟩ := ih
    generalize ha : Json.arr _ = a at h2
    cases h2 with
    | same => rw [← ha] at h1; exact ⟨_, .item h1 hm, .same _⟩
    | arr zs hz =>
      cases ha
      obtain ⟨z, hz', rfl⟩ := List.mem_map.1 hm
      exact ⟨z.1, .item h1 (List.mem_map_of_mem hz'), hz z hz'⟩
    | obj ms zs hp hz => cases ha
  | member _ hm ih =>
    obtain ⟨v, h1, h2⟩ := ih
    generalize ha : Json.obj _ = a at h2
    cases h2 with
    | same => rw [← ha] at h1; exact ⟨_, .member h1 hm, .same _⟩
    | arr zs hz => cases ha
    | obj ms zs hp hz =>
      cases ha
      obtain ⟨z, hz', rfl⟩ := List.mem_map.1 hm
      exact ⟨z.2.1, .member (e := (z.1, z.2.1)) h1 (hp.mem_iff.2 (List.mem_map_of_mem (f := fun z : Bytes × Json × Json => (z.1, z.2.1)) hz')), hz z hz'⟩

theorem _root_.Verif.Spec.DistinctNames.moved {j j' : Json} (hd : DistinctNames j) (h : Permuted j j') : DistinctNames j' := by
  intro ms' hm
  obtain ⟨v, h1, h2⟩ := inside_moved h hm
  obtain ⟨ms, rfl⟩ := h2.obj_iff.2 ⟨_, rfl⟩
  obtain ⟨zs, h3, h4, _⟩ := h2.obj_inv
  have h4 := Json.obj.inj h4
  have h5 := hd ms h1
  have h6 := h3.map fun e => untilNul e.1
  rw [List.map_map] at h6
  rw [h4, List.map_map]
  exact h6.nodup_iff.1 h5

theorem inside_leaf {j v : Json} (ha : ∀ l, j ≠ .arr l) (ho : ∀ l, j ≠ .obj l) (h : Inside j v) : v = j := by
  induction h with
  | here => rfl
  | item _ _ ih => exact absurd ih.symm (ha _)
  | member _ _ ih => exact absurd ih.symm (ho _)

theorem distinct_leaf {j : Json} (ha : ∀ l, j ≠ .arr l) (ho : ∀ l, j ≠ .obj l) : DistinctNames j :=
  fun ms h => absurd (inside_leaf ha ho h).symm (ho ms)

theorem distinct_str (s : Bytes) : DistinctNames (.str s) := distinct_leaf (fun _ h => by cases h) (fun _ h => by cases h)
theorem distinct_int (i : Int) : DistinctNames (.int i) := distinct_leaf (fun _ h => by cases h) (fun _ h => by cases h)

theorem inside_obj {ms : List (Bytes × Json)} {v : Json} (h : Inside (.obj ms) v) : v = .obj ms ∨ ∃ e ∈ ms, Inside e.2 v := by
  induction h with
  | here => exact Or.inl rfl
  | item _ hm ih =>
    rcases ih with h | ⟨e, he, hi⟩
    · cases h
    · exact Or.inr ⟨e, he, .item hi hm⟩
  | member _ hm ih =>
    rcases ih with h | ⟨e, he, hi⟩
    · cases h; exact Or.inr ⟨_, hm, .here⟩
    · exact Or.inr ⟨e, he, .member hi hm⟩

theorem inside_arr {items : List Json} {v : Json} (h : Inside (.arr items) v) : v = .arr items ∨ ∃ e ∈ items, Inside e v := by
  induction h with
  | here => exact Or.inl rfl
  | item _ hm ih =>
    rcases ih with h | ⟨e, he, hi⟩
    · cases h; exact Or.inr ⟨_, hm, .here⟩
    · exact Or.inr ⟨e, he, .item hi hm⟩
  | member _ hm ih =>
    rcases ih with h | ⟨e, he, hi⟩
    · cases h
    · exact Or.inr ⟨e, he, .member hi hm⟩

theorem distinct_obj (ms : List (Bytes × Json)) :
    DistinctNames (.obj ms) ↔ (ms.map fun e => untilNul e.1).Nodup ∧ ∀ e ∈ ms, DistinctNames e.2 := by
  refine ⟨fun h => ⟨h ms .here, fun e he => h.member he⟩, fun ⟨h1, h2⟩ ms' h => ?_⟩
  rcases inside_obj h with h | ⟨e, he, hi⟩
  · cases h; exact h1
  · exact h2 e he ms' hi

theorem distinct_arr (items : List Json) : DistinctNames (.arr items) ↔ ∀ e ∈ items, DistinctNames e := by
  refine ⟨fun h e he ms hi => h ms (inside_trans (.item .here he) hi), fun h ms' hi => ?_⟩
  rcases inside_arr hi with h' | ⟨e, he, hi⟩
  · cases h'
  · exact h e he ms' hi

/-! ## One order after another -/

theorem reordered_trans {κ ν : Type} {R S T : ν → ν → Prop} (hR : ∀ a b c, R a b → S b c → T a c) {m m' m'' : List (κ × ν)}
    (h : Reordered R m m') (h' : Reordered S m' m'') : Reordered T m m'' := by
  obtain ⟨zs, h1, rfl, h2⟩ := h
  obtain ⟨ys, h3, rfl, h4⟩ := h'
  obtain ⟨zs', h5, h6⟩ := perm_preimage (fun z : κ × ν × ν => (z.1, z.2.2)) h3 zs rfl
  obtain ⟨us, rfl, rfl, h7⟩ := zip_same (fun z : κ × ν × ν => (z.1, z.2.2)) (fun z : κ × ν × ν => (z.1, z.2.1)) zs' ys h6
  refine ⟨us.map fun u => (u.1.1, u.1.2.1, u.2.2.2), ?_, ?_, ?_⟩
  · rw [List.map_map]
    have := h1.trans (h5.map fun z => (z.1, z.2.1))
    rw [List.map_map] at this
    exact this
  · rw [List.map_map, List.map_map]
    apply List.map_congr_left
    intro u hu
    have := (Prod.mk.inj (h7 u hu)).1
    simp only [Function.comp]
    rw [this]
  · intro z hz
    obtain ⟨u, hu, rfl⟩ := List.mem_map.1 hz
    have h8 := h2 u.1 (h5.mem_iff.2 (List.mem_map_of_mem hu))
    have h9 := h4 u.2 (List.mem_map_of_mem hu)
    have := (Prod.mk.inj (h7 u hu)).2
    rw [this] at h8
    exact hR _ _ _ h8 h9

theorem blockReordered_trans (a b c : BitsBlock) (h : BlockReordered a b) (h' : BlockReordered b c) : BlockReordered a c := by
  obtain ⟨h1, h2, h3, h4, h5⟩ := h
  obtain ⟨g1, g2, g3, g4, g5⟩ := h'
  refine ⟨h1.trans g1, h2.trans g2, h3.trans g3, h4.trans g4, ?_⟩
  revert h5 g5
  cases a.alias? <;> cases b.alias? <;> cases c.alias? <;> intro h5 g5 <;>
    first
      | exact trivial
      | exact h5.elim
      | exact g5.elim
      | exact ⟨h5.1.trans g5.1, h5.2.1.trans g5.2.1, h5.2.2.trans g5.2.2⟩

theorem tileReordered_trans (a b c : Db.Tile) (h : TileReordered a b) (h' : TileReordered b c) : TileReordered a c := by
  obtain ⟨h1, h2, h3, h4, h5, h6, h7, h8⟩ := h
  obtain ⟨g1, g2, g3, g4, g5, g6, g7, g8⟩ := h'
  exact ⟨h1.trans g1, h2.trans g2, h3.trans g3, h4.trans g4, h5.trans g5, reordered_trans blockReordered_trans h6 g6, h7.trans g7, h8.trans g8⟩

theorem rowsReordered_trans {a b c : ClockRegionHalf} (h : RowsReordered a b) (h' : RowsReordered b c) : RowsReordered a c := by
  obtain ⟨zs, rfl, rfl, h1⟩ := h
  obtain ⟨ys, h2, rfl, h3⟩ := h'
  obtain ⟨us, rfl, rfl, h4⟩ := zip_same (·.2) (·.1) zs ys h2
  refine ⟨us.map fun u => (u.1.1, u.2.2), by rw [List.map_map, List.map_map]; rfl, by rw [List.map_map, List.map_map]; rfl, ?_⟩
  intro z hz
  obtain ⟨u, hu, rfl⟩ := List.mem_map.1 hz
  have h5 := h1 u.1 (List.mem_map_of_mem hu)
  rw [h4 u hu] at h5
  exact h5.trans (h3 u.2 (List.mem_map_of_mem hu))

theorem partReordered_trans {a b c : Db.Part} (h : PartReordered a b) (h' : PartReordered b c) : PartReordered a c :=
  ⟨h.1.trans h'.1, h.2.1.trans h'.2.1, rowsReordered_trans h.2.2.1 h'.2.2.1, rowsReordered_trans h.2.2.2 h'.2.2.2⟩

end Verif.Db

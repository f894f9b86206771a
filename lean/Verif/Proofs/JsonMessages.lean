import Verif.Spec.JsonMessages
import Verif.Proofs.DbMessages
import Verif.Proofs.DbLineMessages
import Verif.Proofs.DbGrid
import Verif.Proofs.CNumber
/-! # Messages about JSON files -/
namespace Verif.Db
open Verif.Text Verif.Spec
open Verif.Fasm (lit)

/-- The result of code in trouble. -/
def troubled {α : Type} : Trouble → Said α
  | .says m => .err m
  | .terminated => .abort
  | .undefined => .ub

/-- The code ends like its trouble, and normally if there is none. -/
def Tells {α : Type} (r : Said α) (C : Trouble → Prop) : Prop :=
  (∀ t, C t → r = troubled t) ∧ ((∀ t, ¬ C t) → ∃ a, r = .ok a)

variable {α β : Type} {C : Trouble → Prop}

theorem troubled_inj {t u : Trouble} (h : (troubled t : Said α) = troubled u) : t = u := by
  cases t <;> cases u <;> simp [troubled] at h ⊢ <;> exact h

theorem troubled_ne_ok (t : Trouble) (a : α) : (troubled t : Said α) ≠ .ok a := by cases t <;> simp [troubled]

theorem tells_iff {r : Said α} (h : Tells r C) (t : Trouble) : r = troubled t ↔ C t := by
  constructor
  · intro hr
    by_cases hc : ∃ t', C t'
    · obtain ⟨t', hc⟩ := hc
      have := h.1 t' hc
      rw [hr] at this
      rw [troubled_inj this]
      exact hc
    · obtain ⟨a, ha⟩ := h.2 (fun t ht => hc ⟨t, ht⟩)
      rw [hr] at ha
      exact absurd ha (troubled_ne_ok t a)
  · exact h.1 t

theorem tells_ok_iff {r : Said α} (h : Tells r C) : (∃ a, r = .ok a) ↔ ∀ t, ¬ C t := by
  constructor
  · rintro ⟨a, ha⟩ t ht
    have := h.1 t ht
    rw [ha] at this
    exact troubled_ne_ok t a this.symm
  · exact h.2

theorem tells_congr {r : Said α} {D : Trouble → Prop} (h : Tells r C) (hcd : ∀ t, C t ↔ D t) : Tells r D := by
  have : C = D := funext fun t => propext (hcd t)
  exact this ▸ h

theorem tells_pure {r : Said α} (a : α) (hr : r = .ok a) (hc : ∀ t, ¬ C t) : Tells r C :=
  ⟨fun t ht => absurd ht (hc t), fun _ => ⟨a, hr⟩⟩

theorem firstOf_nil (t : Trouble) : ¬ FirstOf [] t := by
  rintro ⟨pre, c, post, h, _⟩
  simp at h

theorem firstOf_cons (c : Trouble → Prop) (cs : List (Trouble → Prop)) (t : Trouble) :
    FirstOf (c :: cs) t ↔ c t ∨ ((∀ t', ¬ c t') ∧ FirstOf cs t) := by
  constructor
  · rintro ⟨pre, d, post, h, hp, hd⟩
    cases pre with
    | nil =>
      simp only [List.nil_append, List.cons.injEq] at h
      exact Or.inl (h.1 ▸ hd)
    | cons p pre =>
      simp only [List.cons_append, List.cons.injEq] at h
      obtain ⟨rfl, h⟩ := h
      exact Or.inr ⟨hp c (by simp), pre, d, post, h, fun q hq => hp q (by simp [hq]), hd⟩
  · rintro (h | ⟨h1, pre, d, post, h, hp, hd⟩)
    · exact ⟨[], c, cs, rfl, by simp, h⟩
    · refine ⟨c :: pre, d, post, by simp [h], ?_, hd⟩
      intro q hq
      rcases List.mem_cons.1 hq with rfl | hq
      · exact h1
      · exact hp q hq

theorem tells_bind {r : Said α} {f : α → Said β} {cs : List (Trouble → Prop)} (h : Tells r C)
    (hf : ∀ a, r = .ok a → Tells (f a) (FirstOf cs)) : Tells (r >>= f) (FirstOf (C :: cs)) := by
  by_cases hc : ∃ t, C t
  · obtain ⟨t, ht⟩ := hc
    have hr := h.1 t ht
    have hb : (r >>= f) = troubled t := by rw [hr]; cases t <;> rfl
    refine ⟨fun t' ht' => ?_, fun hn => absurd ((firstOf_cons _ _ _).2 (Or.inl ht)) (hn t)⟩
    rcases (firstOf_cons _ _ _).1 ht' with h1 | ⟨h1, _⟩
    · have := h.1 t' h1
      rw [hr] at this
      rw [hb, troubled_inj this]
    · exact absurd ht (h1 t)
  · have hc' : ∀ t, ¬ C t := fun t ht => hc ⟨t, ht⟩
    obtain ⟨a, ha⟩ := h.2 hc'
    have hb : (r >>= f) = f a := by rw [ha]; rfl
    rw [hb]
    refine tells_congr (hf a ha) fun t => ?_
    rw [firstOf_cons]
    exact ⟨fun h => Or.inr ⟨hc', h⟩, fun h => h.elim (fun h => absurd h (hc' t)) (·.2)⟩

/-- The last of several. -/
theorem tells_done (a : α) : Tells (Said.ok a) (FirstOf []) := tells_pure a rfl firstOf_nil

/-- Nothing can go wrong afterwards. -/
theorem tells_map {r : Said α} {f : α → Said β} (h : Tells r C) (hf : ∀ a, r = .ok a → ∃ b, f a = .ok b) : Tells (r >>= f) C := by
  refine tells_congr (tells_bind (cs := []) h (fun a ha => ?_)) fun t => ?_
  · obtain ⟨b, hb⟩ := hf a ha
    rw [hb]
    exact tells_done b
  · rw [firstOf_cons]
    exact ⟨fun h => h.elim id (fun h => absurd h.2 (firstOf_nil t)), Or.inl⟩

theorem tells_foldlM {σ : Type} (g : σ → α → Said σ) (D : α → Trouble → Prop) (l : List α) (s : σ)
    (h : ∀ s, ∀ a ∈ l, Tells (g s a) (D a)) : Tells (l.foldlM g s) (FirstOf (l.map D)) := by
  induction l generalizing s with
  | nil => exact tells_done s
  | cons a l ih =>
    rw [List.foldlM_cons]
    exact tells_bind (h s a (by simp)) fun s' _ => ih s' fun s b hb => h s b (by simp [hb])

theorem tells_mapM (g : α → Said β) (D : α → Trouble → Prop) (l : List α) (h : ∀ a ∈ l, Tells (g a) (D a)) :
    Tells (l.mapM g) (FirstOf (l.map D)) := by
  induction l with
  | nil => exact tells_done []
  | cons a l ih =>
    rw [List.mapM_cons]
    refine tells_bind (h a (by simp)) fun b _ => ?_
    exact tells_map (ih fun b hb => h b (by simp [hb])) fun bs _ => ⟨_, rfl⟩

/-! ## Attributes -/

theorem notObject_troubled {j : Json} {t : Trouble} (h : NotObject j t) : (troubled t : Said α) = .err msgNotObject := by
  rw [h.2]; rfl

theorem tells_noObject (j : Json) (hj : ¬ IsObj j) (h : ∀ t, C t ↔ NotObject j t) : Tells (Said.err msgNotObject : Said α) C := by
  refine ⟨fun t ht => ?_, fun hn => absurd ((h _).2 ⟨hj, rfl⟩) (hn _)⟩
  rw [notObject_troubled ((h t).1 ht)]

theorem tells_getMember (x : LibTexts) (u : Json → Said α) (D : Json → Trouble → Prop) (hu : ∀ v, Tells (u v) (D v)) (j : Json)
    (name : Bytes) : Tells (getMemberM x u j name) (Attribute x name D j) := by
  cases j with
  | obj ms =>
    have hno : ∀ t, ¬ NotObject (.obj ms) t := fun t h => h.1 ⟨ms, rfl⟩
    unfold getMemberM findMember
    dsimp only
    cases hl : ms.lookup name with
    | none =>
      refine ⟨fun t ht => ?_, fun h => absurd (.missing ⟨ms, rfl, hl⟩) (h _)⟩
      cases ht with
      | noObject _ h => exact absurd h (hno t)
      | missing => rfl
      | within v _ h _ =>
        obtain ⟨ms', e, h⟩ := h
        cases e
        rw [hl] at h; cases h
    | some v =>
      refine tells_congr (hu v) fun t => ⟨fun h => .within v t ⟨ms, rfl, hl⟩ h, fun h => ?_⟩
      cases h with
      | noObject _ h => exact absurd h (hno t)
      | missing h =>
        obtain ⟨ms', e, h⟩ := h
        cases e
        rw [hl] at h; cases h
      | within v' _ h ht =>
        obtain ⟨ms', e, h⟩ := h
        cases e
        rw [hl] at h; cases h
        exact ht
  | _ =>
    all_goals
      refine tells_noObject _ (by rintro ⟨ms, h⟩; cases h) fun t => ⟨fun ht => ?_, .noObject t⟩
      cases ht with
      | noObject _ h => exact h
      | missing h => obtain ⟨ms, h, _⟩ := h; cases h
      | within _ _ h => obtain ⟨ms, h, _⟩ := h; cases h

theorem tells_optGetMember (u : Json → Said α) (D : Json → Trouble → Prop) (hu : ∀ v, Tells (u v) (D v)) (j : Json)
    (name : Bytes) : Tells (optGetMemberM u j name) (OptAttribute name D j) := by
  cases j with
  | obj ms =>
    have hno : ∀ t, ¬ NotObject (.obj ms) t := fun t h => h.1 ⟨ms, rfl⟩
    unfold optGetMemberM findMember
    dsimp only
    cases hl : ms.lookup name with
    | none =>
      refine tells_pure none rfl fun t ht => ?_
      cases ht with
      | noObject _ h => exact absurd h (hno t)
      | within v _ h _ =>
        obtain ⟨ms', e, h⟩ := h
        cases e
        rw [hl] at h; cases h
    | some v =>
      refine tells_congr (tells_map (hu v) fun a _ => ⟨_, rfl⟩) fun t => ⟨fun h => .within v t ⟨ms, rfl, hl⟩ h, fun h => ?_⟩
      cases h with
      | noObject _ h => exact absurd h (hno t)
      | within v' _ h ht =>
        obtain ⟨ms', e, h⟩ := h
        cases e
        rw [hl] at h; cases h
        exact ht
  | _ =>
    all_goals
      refine tells_noObject _ (by rintro ⟨ms, h⟩; cases h) fun t => ⟨fun ht => ?_, .noObject t⟩
      cases ht with
      | noObject _ h => exact h
      | within _ _ h => obtain ⟨ms, h, _⟩ := h; cases h

theorem kindWord_eq (j : Json) : jsonTypeString j = kindWord j := by cases j <;> rfl

theorem tells_type (x : LibTexts) {f : Json → Outcome α} {P : Json → Prop} (v : Json) (hok : P v → ∃ a, f v = .ok a)
    (herr : ¬ P v → f v = .err) : Tells (Said.ofOutcome (msgUnexpectedType x v) (f v)) (WrongType x P v) := by
  by_cases h : P v
  · obtain ⟨a, ha⟩ := hok h
    exact tells_pure a (by rw [ha]; rfl) fun t ht => ht.1 h
  · rw [herr h]
    refine ⟨fun t ht => ?_, fun hn => absurd ⟨h, rfl⟩ (hn _)⟩
    rw [ht.2, ← kindWord_eq]
    rfl

theorem tells_string (x : LibTexts) (v : Json) : Tells (asStringM x v) (WrongType x IsString v) := by
  refine tells_type x v (fun ⟨s, h⟩ => ⟨s, by rw [h]; rfl⟩) fun h => ?_
  cases v <;> first | rfl | exact absurd ⟨_, rfl⟩ h

theorem tells_u32 (x : LibTexts) (v : Json) : Tells (asU32M x v) (WrongType x IsU32 v) := by
  refine tells_type x v (fun ⟨n, h⟩ => ⟨n, (asU32_iff v n).2 h⟩) fun h => ?_
  have hc : ∀ n, asU32 v ≠ .ok n := fun n hn => h ⟨n, (asU32_iff v n).1 hn⟩
  cases v <;> first | rfl | skip
  unfold asU32 at hc ⊢
  dsimp only at hc ⊢
  split
  · rename_i hi; rw [if_pos hi] at hc; exact absurd rfl (hc _)
  · rfl

theorem tells_i32 (x : LibTexts) (v : Json) : Tells (asI32M x v) (WrongType x IsI32 v) := by
  refine tells_type x v (fun ⟨n, h⟩ => ⟨n, (asI32_iff v n).2 h⟩) fun h => ?_
  have hc : ∀ n, asI32 v ≠ .ok n := fun n hn => h ⟨n, (asI32_iff v n).1 hn⟩
  cases v <;> first | rfl | skip
  unfold asI32 at hc ⊢
  dsimp only at hc ⊢
  split
  · rename_i hi; rw [if_pos hi] at hc; exact absurd rfl (hc _)
  · rfl

/-- An object of which the members are looked at, or else an error. -/
theorem tells_object {E : List (Bytes × Json) → Trouble → Prop} (f : List (Bytes × Json) → Said α) (r : Json → Said α)
    (hobj : ∀ ms, r (.obj ms) = f ms) (hother : ∀ j, ¬ IsObj j → r j = .err msgNotObject) (h : ∀ ms, Tells (f ms) (E ms)) (j : Json) :
    Tells (r j) (fun t => NotObject j t ∨ ∃ ms, j = .obj ms ∧ E ms t) := by
  by_cases hj : IsObj j
  · obtain ⟨ms, rfl⟩ := hj
    rw [hobj]
    refine tells_congr (h ms) fun t => ⟨fun h => Or.inr ⟨ms, rfl, h⟩, ?_⟩
    rintro (h | ⟨ms', e, h⟩)
    · exact absurd ⟨ms, rfl⟩ h.1
    · cases e; exact h
  · rw [hother j hj]
    refine ⟨?_, fun hn => absurd (Or.inl ⟨hj, rfl⟩) (hn _)⟩
    rintro t (h | ⟨ms, e, _⟩)
    · exact (notObject_troubled h).symm
    · exact absurd ⟨ms, e⟩ hj

/-- The same for code that does not check. -/
theorem tells_unchecked {E : List (Bytes × Json) → Trouble → Prop} (f : List (Bytes × Json) → Said α) (r : Json → Said α)
    (hobj : ∀ ms, r (.obj ms) = f ms) (hother : ∀ j, ¬ IsObj j → r j = .ub) (h : ∀ ms, Tells (f ms) (E ms)) (j : Json) :
    Tells (r j) (fun t => (¬ IsObj j ∧ t = .undefined) ∨ ∃ ms, j = .obj ms ∧ E ms t) := by
  by_cases hj : IsObj j
  · obtain ⟨ms, rfl⟩ := hj
    rw [hobj]
    refine tells_congr (h ms) fun t => ⟨fun h => Or.inr ⟨ms, rfl, h⟩, ?_⟩
    rintro (h | ⟨ms', e, h⟩)
    · exact absurd ⟨ms, rfl⟩ h.1
    · cases e; exact h
  · rw [hother j hj]
    refine ⟨?_, fun hn => absurd (Or.inl ⟨hj, rfl⟩) (hn _)⟩
    rintro t (⟨_, rfl⟩ | ⟨ms, e, _⟩)
    · rfl
    · exact absurd ⟨ms, e⟩ hj

theorem tells_stringMap (x : LibTexts) (j : Json) : Tells (asStringMapM x j) (MapTrouble x j) := by
  refine tells_object (fun ms => asStringMapM x (.obj ms)) (asStringMapM x) (fun _ => rfl) ?_ (fun ms => ?_) j
  · intro j hj; cases j <;> first | rfl | exact absurd ⟨_, rfl⟩ hj
  · exact tells_foldlM _ _ ms [] fun s a _ => tells_map (tells_string x a.2) fun _ _ => ⟨_, rfl⟩

theorem tells_strings (x : LibTexts) (j : Json) : Tells (asStringsM x j) (ListTrouble x j) := by
  by_cases hj : ∃ is, j = .arr is
  · obtain ⟨is, rfl⟩ := hj
    refine tells_congr (tells_mapM _ (WrongType x IsString) is fun a _ => ?_) fun t => ⟨fun h => Or.inr ⟨is, rfl, h⟩, ?_⟩
    · by_cases ha : IsString a
      · obtain ⟨s, rfl⟩ := ha
        exact tells_pure _ rfl fun t ht => ht.1 ⟨s, rfl⟩
      · refine ⟨fun t ht => ?_, fun hn => absurd ⟨ha, rfl⟩ (hn _)⟩
        rw [ht.2, ← kindWord_eq]
        cases a <;> first | rfl | exact absurd ⟨_, rfl⟩ ha
    · rintro (h | ⟨is', e, h⟩)
      · exact absurd rfl (h.1 is)
      · cases e; exact h
  · refine ⟨?_, fun hn => absurd (Or.inl ⟨fun is h => hj ⟨is, h⟩, rfl⟩) (hn _)⟩
    rintro t (⟨_, rfl⟩ | ⟨is, e, _⟩)
    · cases j <;> first | rfl | exact absurd ⟨_, rfl⟩ hj
    · exact absurd ⟨is, e⟩ hj

theorem tells_address (x : LibTexts) (v : Json) : Tells (asStringM x v >>= baseAddressM) (AddressTrouble x v) := by
  by_cases hv : IsString v
  · obtain ⟨s, rfl⟩ := hv
    obtain ⟨i, hi⟩ := cnumber_exists s
    have e : (asStringM x (.str s) >>= baseAddressM) = baseAddressM s := rfl
    rw [e]
    unfold baseAddressM
    rw [strtol0_of hi]
    have huniq : ∀ i', CNumber s i' → i' = i := by
      intro i' h'
      have h1 := cnumber_value hi
      have h2 := cnumber_value h'
      rw [h2]; exact h1.symm
    by_cases hr : -2 ^ 63 ≤ i ∧ i < 2 ^ 63
    · rw [if_pos hr]
      refine tells_pure _ rfl ?_
      rintro t (h | ⟨s', i', e, h1, h2, _⟩)
      · exact h.1 ⟨s, rfl⟩
      · cases e
        rw [huniq i' h1] at h2
        exact h2 hr
    · rw [if_neg hr]
      refine ⟨?_, fun hn => absurd (Or.inr ⟨s, i, rfl, hi, hr, rfl⟩) (hn _)⟩
      rintro t (h | ⟨s', i', e, h1, h2, rfl⟩)
      · exact absurd ⟨s, rfl⟩ h.1
      · cases e; rfl
  · refine tells_congr (tells_map (tells_string x v) fun a ha => ?_) fun t => ⟨Or.inl, ?_⟩
    · exact absurd ⟨a, (asString_iff v a).1 (by rw [← asStringM_forget x, ha]; rfl)⟩ hv
    · rintro (h | ⟨s, i, e, _⟩)
      · exact h
      · exact absurd ⟨s, e⟩ hv

theorem tells_alias (x : LibTexts) (j : Json) : Tells (asAliasM x j) (AliasTrouble x j) :=
  tells_bind (tells_getMember x _ _ (tells_stringMap x) j kSites) fun _ _ =>
  tells_bind (tells_getMember x _ _ (tells_u32 x) j kStartOffset) fun _ _ =>
  tells_bind (tells_getMember x _ _ (tells_string x) j kType) fun _ _ => tells_done _

theorem getMemberM_bind (x : LibTexts) (u : Json → Said α) (f : α → Said β) (j : Json) (name : Bytes) :
    (getMemberM x u j name >>= f) = getMemberM x (fun v => u v >>= f) j name := by
  cases j with
  | obj ms =>
    unfold getMemberM
    dsimp only
    cases findMember ms name <;> rfl
  | _ => rfl

theorem tells_block (x : LibTexts) (j : Json) : Tells (asBitsBlockM x j) (BlockTrouble x j) := by
  unfold asBitsBlockM
  refine tells_bind (tells_optGetMember _ _ (tells_alias x) j kAlias) fun _ _ => ?_
  rw [← bind_assoc, getMemberM_bind]
  exact tells_bind (tells_getMember x _ _ (tells_address x) j kBaseaddr) fun _ _ =>
    tells_bind (tells_getMember x _ _ (tells_u32 x) j kFrames) fun _ _ =>
    tells_bind (tells_getMember x _ _ (tells_i32 x) j kOffset) fun _ _ =>
    tells_bind (tells_getMember x _ _ (tells_u32 x) j kWords) fun _ _ => tells_done _

theorem cstr_untilNul (s : Bytes) : cstr s = untilNul s := rfl

theorem tells_bus {γ : Type} (what : String) (word : Bytes) (hw : word = ascii what ++ ascii " \"") (u : Json → Said γ) (D : Json → Trouble → Prop)
    (hu : ∀ v, Tells (u v) (D v)) (g : ConfigBusType → γ → Said α) (hg : ∀ t c, ∃ a, g t c = .ok a) (e : Bytes × Json) :
    Tells (match busType (cstr e.1) with
      | none => .err (word ++ cstr e.1 ++ lit "\"")
      | some t => u e.2 >>= g t) (BusTrouble what D e) := by
  rw [cstr_untilNul]
  cases hb : busType (untilNul e.1) with
  | none =>
    have hno : ∀ b, untilNul e.1 ≠ busName b := by
      intro b h
      rw [(busType_iff _ b).2 h] at hb
      cases hb
    refine ⟨?_, fun hn => absurd (Or.inl ⟨hno, rfl⟩) (hn _)⟩
    rintro t (⟨_, rfl⟩ | ⟨⟨b, h⟩, _⟩)
    · rw [hw]; rfl
    · exact absurd h (hno b)
  | some b =>
    have hb := (busType_iff _ b).1 hb
    refine tells_congr (tells_map (hu e.2) fun c _ => hg b c) fun t => ⟨fun h => Or.inr ⟨⟨b, hb⟩, h⟩, ?_⟩
    rintro (⟨h, _⟩ | ⟨_, h⟩)
    · exact absurd hb (h b)
    · exact h

theorem tells_bits (x : LibTexts) (j : Json) : Tells (asBitsM x j) (BitsTrouble x j) := by
  refine tells_unchecked (fun ms => asBitsM x (.obj ms)) (asBitsM x) (fun _ => rfl) ?_ (fun ms => ?_) j
  · intro j hj; cases j <;> first | rfl | exact absurd ⟨_, rfl⟩ hj
  · exact tells_foldlM _ _ ms [] fun s a _ => tells_bus "unknown frame block type" _ (by decide +kernel) (asBitsBlockM x) _ (tells_block x) _
      (fun _ _ => ⟨_, rfl⟩) a

theorem tells_tile (x : LibTexts) (j : Json) : Tells (asTileM x j) (TileTrouble x j) :=
  tells_bind (tells_getMember x _ _ (tells_string x) j kType) fun _ _ =>
  tells_bind (tells_getMember x _ _ (tells_u32 x) j kGridX) fun _ _ =>
  tells_bind (tells_getMember x _ _ (tells_u32 x) j kGridY) fun _ _ =>
  tells_bind (tells_optGetMember _ _ (tells_string x) j kClockRegion) fun _ _ =>
  tells_bind (tells_getMember x _ _ (tells_bits x) j kBits) fun _ _ =>
  tells_bind (tells_getMember x _ _ (tells_stringMap x) j kPinFunctions) fun _ _ =>
  tells_bind (tells_getMember x _ _ (tells_stringMap x) j kSites) fun _ _ =>
  tells_bind (tells_getMember x _ _ (tells_strings x) j kProhibitedSites) fun _ _ => tells_done _

theorem tells_named (x : LibTexts) (e : Bytes × Json) : Tells (namedTile (cstr e.1) (asTileM x e.2)) (NamedTileTrouble x e) := by
  have h := tells_tile x e.2
  refine ⟨?_, fun hn => ?_⟩
  · rintro t (⟨why, hw, rfl⟩ | ⟨ht, rfl | rfl⟩)
    · rw [h.1 _ hw]; rfl
    · rw [h.1 _ ht]; rfl
    · rw [h.1 _ ht]; rfl
  · obtain ⟨a, ha⟩ := h.2 (fun t ht => by
      cases t with
      | says m => exact hn _ (Or.inl ⟨m, ht, rfl⟩)
      | terminated => exact hn _ (Or.inr ⟨ht, Or.inl rfl⟩)
      | undefined => exact hn _ (Or.inr ⟨ht, Or.inr rfl⟩))
    exact ⟨a, by rw [ha]; rfl⟩

theorem tells_grid (x : LibTexts) (j : Json) : Tells (parseTileGridM x j) (GridTrouble x j) := by
  refine tells_object (fun ms => parseTileGridM x (.obj ms)) (parseTileGridM x) (fun _ => rfl) ?_ (fun ms => ?_) j
  · intro j hj; cases j <;> first | rfl | exact absurd ⟨_, rfl⟩ hj
  · exact tells_foldlM _ _ ms [] fun s a _ => tells_map (tells_named x a) fun _ _ => ⟨_, rfl⟩

/-! ## Parts -/

theorem tells_key (x : LibTexts) (j : Json) (i : Nat) (name : Bytes) : Tells (nextKeyM x j ((i : Int) - 1) name) (KeyTrouble x j i name) := by
  unfold nextKeyM nextKey
  rw [cstr_untilNul]
  cases ha : atoiI32 (untilNul name) with
  | none =>
    have hno : ∀ n, ¬ IntText (untilNul name) n := by
      intro n h
      rw [(atoiI32_iff _ n).2 h] at ha
      cases ha
    refine ⟨fun t ht => ?_, fun hn => absurd (.text hno) (hn _)⟩
    cases ht with
    | text => rfl
    | smallest h => exact absurd h (hno _)
    | order n h => exact absurd h (hno _)
  | some key =>
    have hk := (atoiI32_iff _ _).1 ha
    have huniq : ∀ n, IntText (untilNul name) n → n = key := by
      intro n h
      rw [(atoiI32_iff _ n).2 h] at ha
      cases ha; rfl
    dsimp only
    by_cases h1 : key = -(2 ^ 31)
    · rw [if_pos h1]
      refine ⟨fun t ht => ?_, fun hn => absurd (.smallest (h1 ▸ hk)) (hn _)⟩
      cases ht with
      | text h => exact absurd hk (h key)
      | smallest => rfl
      | order n h hn => exact absurd ((huniq n h).trans h1) hn
    · rw [if_neg h1]
      by_cases h2 : key = (i : Int)
      · rw [if_pos (by omega)]
        refine tells_pure _ rfl fun t ht => ?_
        cases ht with
        | text h => exact h key hk
        | smallest h => exact h1 (huniq _ h).symm
        | order n h _ hn => exact hn ((huniq n h).trans h2)
      · rw [if_neg (by omega)]
        refine ⟨fun t ht => ?_, fun hn => absurd (.order key hk h1 h2) (hn _)⟩
        cases ht with
        | text h => exact absurd hk (h key)
        | smallest h => exact absurd (huniq _ h).symm h1
        | order => rfl

theorem nextKeyM_ok {x : LibTexts} {j : Json} {prev key : Int} {name : Bytes} (h : nextKeyM x j prev name = .ok key) : key = prev + 1 := by
  unfold nextKeyM nextKey at h
  cases ha : atoiI32 (cstr name) with
  | none => rw [ha] at h; cases h
  | some k =>
    rw [ha] at h
    dsimp only at h
    split at h
    · cases h
    · split at h
      · cases h; omega
      · cases h

theorem tells_sequence {γ : Type} (x : LibTexts) (j : Json) (u : Json → Said γ) (D : Json → Trouble → Prop) (hu : ∀ v, Tells (u v) (D v))
    (ms : List (Bytes × Json)) (i : Nat) (acc : List γ) :
    Tells (ms.foldlM (fun (s : Int × List γ) e => do
      let key ← nextKeyM x j s.1 e.1
      let n ← u e.2
      pure (key, s.2 ++ [n])) ((i : Int) - 1, acc))
      (FirstOf ((ms.zipIdx i).map fun e => FirstOf [KeyTrouble x j e.2 e.1.1, D e.1.2])) := by
  induction ms generalizing i acc with
  | nil => exact tells_done _
  | cons e ms ih =>
    rw [List.foldlM_cons, List.zipIdx_cons, List.map_cons]
    refine tells_bind (tells_bind (tells_key x j i e.1) fun key _ =>
      tells_bind (hu e.2) fun n _ => tells_done _) fun s hs => ?_
    have hk : s.1 = (i : Int) := by
      cases hkey : nextKeyM x j ((i : Int) - 1) e.1 with
      | ok key =>
        have := nextKeyM_ok hkey
        simp only [hkey, Said.bind_ok] at hs
        cases hn : u e.2 with
        | ok n => rw [hn] at hs; cases hs; omega
        | err m => rw [hn] at hs; cases hs
        | abort => rw [hn] at hs; cases hs
        | ub => rw [hn] at hs; cases hs
      | err m => simp only [hkey, Said.bind_err] at hs; cases hs
      | abort => simp only [hkey, Said.bind_abort] at hs; cases hs
      | ub => simp only [hkey, Said.bind_ub] at hs; cases hs
    have := ih (i + 1) s.2
    rw [show (((i + 1 : Nat) : Int) - 1) = s.1 by omega] at this
    exact this

theorem tells_columns (x : LibTexts) (j : Json) : Tells (asColumnsM x j) (ColumnsTrouble x j) := by
  by_cases hj : IsObj j
  · obtain ⟨ms, rfl⟩ := hj
    refine tells_congr (tells_map (tells_sequence x (.obj ms) (fun v => getMemberM x (asU32M x) v kFrameCount) _
      (fun v => tells_getMember x _ _ (tells_u32 x) v kFrameCount) ms 0 []) fun s _ => ⟨_, rfl⟩) fun t => ?_
    refine ⟨fun h => Or.inr ⟨ms, rfl, h⟩, ?_⟩
    rintro (h | ⟨ms', e, h⟩)
    · exact absurd ⟨ms, rfl⟩ h.1
    · cases e; exact h
  · refine ⟨?_, fun hn => absurd (Or.inl ⟨hj, rfl⟩) (hn _)⟩
    rintro t (h | ⟨ms, e, _⟩)
    · rw [notObject_troubled h]
      cases j <;> first | rfl | exact absurd ⟨_, rfl⟩ hj
    · exact absurd ⟨ms, e⟩ hj

theorem tells_row (x : LibTexts) (j : Json) : Tells (asRowM x j) (RowTrouble x j) := by
  refine tells_object (fun ms => asRowM x (.obj ms)) (asRowM x) (fun _ => rfl) ?_ (fun ms => ?_) j
  · intro j hj; cases j <;> first | rfl | exact absurd ⟨_, rfl⟩ hj
  · exact tells_foldlM _ _ ms [] fun s a _ => tells_bus "unknown config bus type" _ (by decide +kernel)
      (fun v => getMemberM x (asColumnsM x) v kConfigurationColumns) _
      (fun v => tells_getMember x _ _ (tells_columns x) v kConfigurationColumns) _ (fun _ _ => ⟨_, rfl⟩) a

theorem tells_half (x : LibTexts) (j : Json) : Tells (asHalfM x j) (HalfTrouble x j) := by
  by_cases hj : IsObj j
  · obtain ⟨ms, rfl⟩ := hj
    refine tells_congr (tells_map (tells_sequence x (.obj ms) (fun v => getMemberM x (asRowM x) v kConfigurationBuses) _
      (fun v => tells_getMember x _ _ (tells_row x) v kConfigurationBuses) ms 0 []) fun s _ => ⟨_, rfl⟩) fun t => ?_
    refine ⟨fun h => Or.inr ⟨ms, rfl, h⟩, ?_⟩
    rintro (h | ⟨ms', e, h⟩)
    · exact absurd ⟨ms, rfl⟩ h.1
    · cases e; exact h
  · refine ⟨?_, fun hn => absurd (Or.inl ⟨hj, rfl⟩) (hn _)⟩
    rintro t (h | ⟨ms, e, _⟩)
    · rw [notObject_troubled h]
      cases j <;> first | rfl | exact absurd ⟨_, rfl⟩ hj
    · exact absurd ⟨ms, e⟩ hj

theorem tells_rows (x : LibTexts) (side : String) (name : Bytes) (hname : name = ascii side) (j : Json) (m : Bytes)
    (hm : m = ascii "could not find global_clock_region " ++ ascii side ++ ascii " rows") :
    Tells (match pointer2 name kRows j with
      | none => .err m
      | some b => asHalfM x b) (RowsTrouble x side j) := by
  subst hname hm
  cases hp : pointer2 (ascii side) kRows j with
  | none =>
    have hno : ¬ ∃ half rows, Member j (ascii side) half ∧ Member half bytes!"rows" rows := by
      rintro ⟨half, rows, h⟩
      have := (pointer2_iff (ascii side) kRows j rows).2 ⟨half, h⟩
      rw [hp] at this; cases this
    refine ⟨?_, fun hn => absurd (Or.inr ⟨hno, rfl⟩) (hn _)⟩
    rintro t (⟨half, rows, h1, h2, _⟩ | ⟨_, rfl⟩)
    · exact absurd ⟨half, rows, h1, h2⟩ hno
    · rfl
  | some b =>
    obtain ⟨w, hw, hb⟩ := (pointer2_iff (ascii side) kRows j b).1 hp
    refine tells_congr (tells_half x b) fun t => ⟨fun h => Or.inl ⟨w, b, hw, hb, h⟩, ?_⟩
    rintro (⟨half, rows, h1, h2, h⟩ | ⟨h, _⟩)
    · have := (pointer2_iff (ascii side) kRows j rows).2 ⟨half, h1, h2⟩
      rw [hp] at this; cases this
      exact h
    · exact absurd ⟨w, b, hw, hb⟩ h

theorem tells_regions (x : LibTexts) (j : Json) : Tells (asRegionsM x j) (RegionsTrouble x j) := by
  have e : asRegionsM x j = (do
      let bottom ← (match pointer2 kBottom kRows j with
        | none => Said.err (lit "could not find global_clock_region bottom rows")
        | some b => asHalfM x b)
      let top ← (match pointer2 kTop kRows j with
        | none => Said.err (lit "could not find global_clock_region top rows")
        | some t => asHalfM x t)
      pure (bottom, top)) := by
    unfold asRegionsM
    cases pointer2 kBottom kRows j with
    | none => rfl
    | some b =>
      dsimp only
      congr 1
      funext bottom
      cases pointer2 kTop kRows j <;> rfl
  rw [e]
  exact tells_bind (tells_rows x "bottom" kBottom (by decide +kernel) j _ (by decide +kernel)) fun _ _ =>
    tells_bind (tells_rows x "top" kTop (by decide +kernel) j _ (by decide +kernel)) fun _ _ => tells_done _

theorem tells_banks (x : LibTexts) (j : Json) : Tells (asBanksM x j) (BanksTrouble x j) := by
  by_cases hj : IsObj j
  · obtain ⟨ms, rfl⟩ := hj
    refine tells_congr (tells_foldlM _ (fun (e : Bytes × Json) t =>
      ((∀ n, ¬ UIntText (untilNul e.1) n) ∧ t = badKey x (untilNul e.1) (.obj ms)) ∨
      ((∃ n, UIntText (untilNul e.1) n) ∧ ¬ IsString e.2 ∧ t = .undefined)) ms [] fun s a _ => ?_) fun t => ?_
    · rw [cstr_untilNul]
      cases ha : atoiU32 (untilNul a.1) with
      | none =>
        have hno : ∀ n, ¬ UIntText (untilNul a.1) n := by
          intro n h
          rw [(atoiU32_iff _ n).2 h] at ha
          cases ha
        refine ⟨?_, fun hn => absurd (Or.inl ⟨hno, rfl⟩) (hn _)⟩
        rintro t (⟨_, rfl⟩ | ⟨⟨n, h⟩, _⟩)
        · rfl
        · exact absurd h (hno n)
      | some n =>
        have hn := (atoiU32_iff _ _).1 ha
        dsimp only
        by_cases hs : IsString a.2
        · obtain ⟨s, hs⟩ := hs
          rw [hs]
          refine tells_pure _ rfl ?_
          rintro t (⟨h, _⟩ | ⟨_, h, _⟩)
          · exact h n hn
          · exact h ⟨s, rfl⟩
        · have hub : rawStringM a.2 = .ub := by
            generalize a.2 = v at hs
            cases v <;> first | rfl | exact absurd ⟨_, rfl⟩ hs
          rw [hub]
          refine ⟨?_, fun hnn => absurd (Or.inr ⟨⟨n, hn⟩, hs, rfl⟩) (hnn _)⟩
          rintro t (⟨h, _⟩ | ⟨_, _, rfl⟩)
          · exact absurd hn (h n)
          · rfl
    · refine ⟨fun h => Or.inr ⟨ms, rfl, h⟩, ?_⟩
      rintro (h | ⟨ms', e, h⟩)
      · exact absurd ⟨ms, rfl⟩ h.1
      · cases e; exact h
  · refine ⟨?_, fun hn => absurd (Or.inl ⟨hj, rfl⟩) (hn _)⟩
    rintro t (⟨_, rfl⟩ | ⟨ms, e, _⟩)
    · cases j <;> first | rfl | exact absurd ⟨_, rfl⟩ hj
    · exact absurd ⟨ms, e⟩ hj

theorem tells_part (x : LibTexts) (j : Json) : Tells (parsePartM x j) (PartTrouble x j) := by
  have e : parsePartM x j = (do
      let idcode ← getMemberM x (asU32M x) j kIdcode
      let iobanks ← optGetMemberM (asBanksM x) j kIobanks
      let regions ← getMemberM x (asRegionsM x) j kGlobalClockRegions
      pure { bottomRows := regions.1, topRows := regions.2, idcode := BitVec.ofNat 32 idcode,
             iobanks := iobanks.getD [] }) := by
    cases j <;> rfl
  rw [e]
  exact tells_bind (tells_getMember x _ _ (tells_u32 x) j kIdcode) fun _ _ =>
    tells_bind (tells_optGetMember _ _ (tells_banks x) j kIobanks) fun _ _ =>
    tells_bind (tells_getMember x _ _ (tells_regions x) j kGlobalClockRegions) fun _ _ => tells_done _

end Verif.Db

import Verif.Proofs.Stderr
import Verif.Proofs.Failure
import Verif.Proofs.DbFiles
/-! # Where errors come from, and `main` with its messages -/
namespace Verif.Asm
open Verif.Db Verif.Spec Verif.Text Verif.Xc7

/-- Not an error. -/
def NoErr {α : Type} (o : Outcome α) : Prop := o ≠ .err

theorem NoErr.ok {α : Type} (a : α) : NoErr (Outcome.ok a) := by intro h; cases h
theorem NoErr.abort {α : Type} : NoErr (Outcome.abort : Outcome α) := by intro h; cases h
theorem NoErr.ub {α : Type} : NoErr (Outcome.ub : Outcome α) := by intro h; cases h

theorem NoErr.bind {α β : Type} {o : Outcome α} {f : α → Outcome β} (h : NoErr o) (hf : ∀ a, o = .ok a → NoErr (f a)) : NoErr (o >>= f) := by
  cases o with
  | ok a => exact hf a rfl
  | err => exact absurd rfl h
  | abort => exact NoErr.abort
  | ub => exact NoErr.ub

theorem noErr_mapM {α β : Type} {f : α → Outcome β} : ∀ {l : List α}, (∀ a ∈ l, NoErr (f a)) → NoErr (l.mapM f) := by
  intro l
  induction l with
  | nil => intro _; exact NoErr.ok _
  | cons a l ih =>
    intro h
    rw [List.mapM_cons]
    exact (h a List.mem_cons_self).bind fun b _ => (ih fun x hx => h x (List.mem_cons_of_mem _ hx)).bind fun bs _ => NoErr.ok _

/-- Folding with an invariant. -/
theorem noErr_foldlM {α σ : Type} {f : σ → α → Outcome σ} (P : σ → Prop) (hP : ∀ s a, P s → NoErr (f s a) ∧ ∀ s', f s a = .ok s' → P s') :
    ∀ (l : List α) (s : σ), P s → NoErr (l.foldlM f s) ∧ ∀ s', l.foldlM f s = .ok s' → P s' := by
  intro l
  induction l with
  | nil => intro s hs; exact ⟨NoErr.ok _, fun s' h => by cases h; exact hs⟩
  | cons a l ih =>
    intro s hs
    rw [List.foldlM_cons]
    obtain ⟨h1, h2⟩ := hP s a hs
    refine ⟨h1.bind fun s1 h => (ih s1 (h2 s1 h)).1, ?_⟩
    intro s' h
    obtain ⟨s1, h3, h4⟩ := Outcome.bind_eq_ok.1 h
    exact (ih s1 (h2 s1 h3)).2 s' h4

theorem noErr_fold {α σ : Type} {f : σ → α → Outcome σ} (h : ∀ s a, NoErr (f s a)) (l : List α) (s : σ) : NoErr (l.foldlM f s) :=
  (noErr_foldlM (fun _ => True) (fun s a _ => ⟨h s a, fun _ _ => trivial⟩) l s trivial).1

theorem noErr_lastCode (s : Bytes) : NoErr (lastCode s) := by
  unfold lastCode
  split
  · exact NoErr.ub
  · exact NoErr.ok _

theorem noErr_findPUDCB : ∀ g : TileGrid, NoErr (findPUDCB g) := by
  intro g
  induction g with
  | nil => exact NoErr.ok _
  | cons e g ih =>
    obtain ⟨tile, info⟩ := e
    unfold findPUDCB
    split
    · exact (noErr_lastCode _).bind fun _ _ => NoErr.ok _
    · exact ih

theorem noErr_pudcb (g : TileGrid) : NoErr (pudcbFeatures g) := by
  unfold pudcbFeatures
  refine (noErr_findPUDCB g).bind fun r _ => ?_
  split
  · exact NoErr.ok _
  · exact NoErr.ok _

theorem pudcb_dots (g : TileGrid) (fs : List FasmFeature) (h : pudcbFeatures g = .ok fs) : ∀ F ∈ fs, 0x2e ∈ F.name := by
  unfold pudcbFeatures at h
  obtain ⟨r, _, h⟩ := Outcome.bind_eq_ok.1 h
  split at h
  · cases h; simp
  · cases h
    intro F hF
    obtain ⟨t, _, rfl⟩ := List.mem_map.1 hF
    simp [added, dotted]

theorem noErr_tile (grid : TileGrid) (used tags : List Bytes) (tile : Bytes) : NoErr (stepdownTile grid used tags tile) := by
  unfold stepdownTile
  refine NoErr.bind ?_ fun _ _ => NoErr.ok _
  split
  · refine NoErr.bind ?_ fun _ _ => NoErr.ok _
    unfold getIOBSites
    split
    · exact NoErr.abort
    · refine noErr_mapM fun e _ => ?_
      unfold iobSite
      refine (noErr_lastCode _).bind fun y _ => ?_
      split
      · exact NoErr.abort
      · exact NoErr.ok _
  · exact NoErr.ok _

theorem tile_dots (grid : TileGrid) (used tags : List Bytes) (tile : Bytes) (fs : List FasmFeature)
    (h : stepdownTile grid used tags tile = .ok fs) : ∀ F ∈ fs, 0x2e ∈ F.name := by
  unfold stepdownTile at h
  obtain ⟨r, h1, h⟩ := Outcome.bind_eq_ok.1 h
  cases h
  intro F hF
  rcases List.mem_append.1 hF with hF | hF
  · split at h1
    · obtain ⟨sites, _, h1⟩ := Outcome.bind_eq_ok.1 h1
      cases h1
      obtain ⟨site, _, hF⟩ := List.mem_flatMap.1 hF
      split at hF
      · cases hF
      · obtain ⟨tag, _, rfl⟩ := List.mem_map.1 hF
        simp [added, dotted]
    · cases h1; cases hF
  · split at hF
    · rw [List.mem_singleton.1 hF]; simp [added, dotted]
    · cases hF

theorem noErr_stepdown (ord : HashOrder) (banks : Registry) (grid : TileGrid) (fs : List FasmFeature) :
    NoErr (stepdownFeatures ord banks grid fs) := by
  unfold stepdownFeatures
  refine NoErr.bind (noErr_fold ?_ _ _) fun s _ => NoErr.bind (noErr_mapM ?_) fun _ _ => NoErr.ok _
  · intro s f
    unfold stepdownScan
    dsimp only
    repeat' split
    all_goals first | exact NoErr.ok _ | exact NoErr.abort
  · intro e _
    unfold stepdownBank
    split
    · exact NoErr.abort
    · exact NoErr.bind (noErr_mapM fun t _ => noErr_tile _ _ _ _) fun _ _ => NoErr.ok _

theorem stepdown_dots (ord : HashOrder) (banks : Registry) (grid : TileGrid) (fs r : List FasmFeature)
    (h : stepdownFeatures ord banks grid fs = .ok r) : ∀ F ∈ r, 0x2e ∈ F.name := by
  unfold stepdownFeatures at h
  obtain ⟨s, _, h⟩ := Outcome.bind_eq_ok.1 h
  obtain ⟨l, h1, h⟩ := Outcome.bind_eq_ok.1 h
  cases h
  intro F hF
  obtain ⟨b, hb, hF⟩ := List.mem_flatten.1 hF
  obtain ⟨ps, _, rfl, hps⟩ := (mapM_ok_iff _ _ _).1 h1
  obtain ⟨p, hp, rfl⟩ := List.mem_map.1 hb
  have h2 := hps p hp
  unfold stepdownBank at h2
  split at h2
  · cases h2
  · obtain ⟨l2, h3, h2⟩ := Outcome.bind_eq_ok.1 h2
    have h2 := Outcome.ok.inj h2
    rw [← h2] at hF
    obtain ⟨b2, hb2, hF⟩ := List.mem_flatten.1 hF
    obtain ⟨qs, _, rfl, hqs⟩ := (mapM_ok_iff _ _ _).1 h3
    obtain ⟨q, hq, rfl⟩ := List.mem_map.1 hb2
    exact tile_dots _ _ _ _ _ (hqs q hq) F hF

/-- Loading bits never is an error. -/
def BitsNoErr (db : PartDatabase) : Prop := ∀ ty, NoErr (db.tiles.bits ty)

theorem noErr_cache (db : PartDatabase) (ty : Bytes) (h : BitsNoErr db) :
    NoErr (db.addSegbitsToCache ty) ∧ ∀ db', db.addSegbitsToCache ty = .ok db' → BitsNoErr db' := by
  unfold PartDatabase.addSegbitsToCache
  split
  · exact ⟨NoErr.ok _, fun db' e => by cases e; exact h⟩
  · constructor
    · refine (h ty).bind fun r _ => ?_
      split <;> exact NoErr.ok _
    · intro db' e
      obtain ⟨r, _, e⟩ := Outcome.bind_eq_ok.1 e
      split at e <;> (cases e; exact h)

theorem noErr_configBits {σ : Type} (order : Bits → Bits) (db : PartDatabase) (tile feature : Bytes) (addr : Nat) (setter : BitSetter σ)
    (hs : ∀ s b a w i v, NoErr (setter s b a w i v)) (s : σ) (h : BitsNoErr db) :
    NoErr (db.configBits order tile feature addr setter s) ∧
      ∀ r, db.configBits order tile feature addr setter s = .ok r → BitsNoErr r.1 := by
  unfold PartDatabase.configBits
  split
  · exact ⟨NoErr.abort, fun r e => by cases e⟩
  · rename_i t _
    dsimp only
    generalize t.bits.foldl (aliasStep feature) ⟨t.type, feature, []⟩ = al
    obtain ⟨h1, h2⟩ := noErr_cache db al.tileType h
    have hbus : ∀ (sb : SegBits) (many : Bool) (key : TileFeature) (l : Bits) (x : Bool × σ), NoErr (l.foldlM (busStep setter sb many key) x) := by
      intro sb many key l x
      refine noErr_fold ?_ l x
      intro x e
      unfold busStep
      split
      · exact NoErr.ok _
      · split
        · split
          · exact NoErr.ok _
          · exact NoErr.abort
        · refine NoErr.bind (noErr_fold (fun s b => ?_) _ _) fun _ _ => NoErr.ok _
          exact hs _ _ _ _ _ _
    constructor
    · refine h1.bind fun db' _ => ?_
      split
      · exact NoErr.abort
      · split
        · exact NoErr.ok _
        · split
          · exact NoErr.ok _
          · refine (hbus _ _ _ _ _).bind fun r _ => ?_
            split
            · exact NoErr.ok _
            · exact NoErr.abort
    · intro r e
      obtain ⟨db', e1, e⟩ := Outcome.bind_eq_ok.1 e
      have hd := h2 db' e1
      split at e
      · cases e
      · split at e
        · cases e; exact hd
        · split at e
          · cases e; exact hd
          · obtain ⟨x, _, e⟩ := Outcome.bind_eq_ok.1 e
            split at e
            · cases e; exact hd
            · cases e

theorem noErr_setter (s : List ConfigBusType × Frames) (b : ConfigBusType) (a w i : Nat) (v : Bool) : NoErr (frameSetter s b a w i v) := by
  unfold frameSetter
  dsimp only
  repeat' split
  all_goals first | exact NoErr.ok _ | exact NoErr.ub

/-- A feature is an error only when its name has no dot. -/
theorem noErr_feature (ord : HashOrder) (s : PartDatabase × Frames) (e : FasmFeature × Nat) (h : BitsNoErr s.1) :
    (processFeature ord s e = .err → 0x2e ∉ e.1.name) ∧ ∀ s', processFeature ord s e = .ok s' → BitsNoErr s'.1 ∧ 0x2e ∈ e.1.name := by
  unfold processFeature
  rcases splitMax_one 0x2e e.1.name with ⟨tile, feature, he, _, hsp⟩ | ⟨hn, hsp⟩
  · rw [hsp]
    dsimp only
    have hdot : 0x2e ∈ e.1.name := by rw [he]; simp
    obtain ⟨h1, h2⟩ := noErr_foldlM (f := bitStep (ord.bits e.2) e.1 tile feature) (fun x => BitsNoErr x.1) (by
      intro x a hx
      unfold bitStep
      split
      · exact ⟨NoErr.ub, fun _ e => by cases e⟩
      · split
        · exact ⟨NoErr.ub, fun _ e => by cases e⟩
        · split
          · exact noErr_configBits _ _ _ _ _ _ noErr_setter _ hx
          · exact ⟨NoErr.ok _, fun _ e => by cases e; exact hx⟩) (List.range e.1.width.toNat) (s.1, ([], s.2)) h
    constructor
    · intro herr
      refine absurd herr (h1.bind fun r _ => ?_)
      split
      · exact NoErr.ok _
      · split
        · exact NoErr.abort
        · refine NoErr.bind (noErr_fold (fun fr b => ?_) _ _) fun _ _ => NoErr.ok _
          unfold busFrames
          split
          · exact NoErr.abort
          · exact NoErr.ok _
    · intro s' hs
      obtain ⟨r, e1, hs⟩ := Outcome.bind_eq_ok.1 hs
      have hr := h2 r e1
      refine ⟨?_, hdot⟩
      split at hs
      · cases hs; exact hr
      · split at hs
        · cases hs
        · obtain ⟨fr, _, hs⟩ := Outcome.bind_eq_ok.1 hs
          cases hs; exact hr
  · rw [hsp]
    exact ⟨fun _ => hn, fun s' hs => by cases hs⟩

/-- The first name without a dot is the one that is named. -/
theorem processFeaturesM_err (ord : HashOrder) : ∀ (fs : List (FasmFeature × Nat)) (s : PartDatabase × Frames), BitsNoErr s.1 →
    (processFeaturesM ord fs s).2 = .err →
    ∃ pre e post, fs = pre ++ e :: post ∧ (∀ x ∈ pre, 0x2e ∈ x.1.name) ∧ 0x2e ∉ e.1.name ∧
      (processFeaturesM ord fs s).1 = cannotSplit e.1.name := by
  intro fs
  induction fs with
  | nil => intro s _ h; cases h
  | cons e fs ih =>
    intro s hs h
    obtain ⟨h1, h2⟩ := noErr_feature ord s e hs
    rw [processFeaturesM] at h ⊢
    cases hp : processFeature ord s e with
    | ok s' =>
      rw [hp] at h
      dsimp only at h ⊢
      obtain ⟨h3, h4⟩ := h2 s' hp
      obtain ⟨pre, e', post, he, h5, h6, h7⟩ := ih s' h3 h
      refine ⟨e :: pre, e', post, by rw [he]; rfl, ?_, h6, h7⟩
      intro x hx
      rcases List.mem_cons.1 hx with rfl | hx
      · exact h4
      · exact h5 x hx
    | err => exact ⟨[], e, fs, rfl, by simp, h1 hp, rfl⟩
    | abort => rw [hp] at h; cases h
    | ub => rw [hp] at h; cases h

theorem noErr_encode (d : Db.Part) (pn src date time : Bytes) (frames : Frames) (out : OStream) (fuel : Nat) :
    encode d pn src date time frames out fuel ≠ some .err := by
  have key : ∀ (hdr : List Word) (packets : List Packet) (fuel : Nat) (it : WriterIter), writerCollect hdr packets fuel it ≠ some .err := by
    intro hdr packets fuel
    induction fuel with
    | zero => intro it h; cases h
    | succ fuel ih =>
      intro it h
      rw [writerCollect] at h
      split at h
      · cases h
      · have hd : it.deref hdr ≠ .err := by
          unfold WriterIter.deref
          split
          · split <;> simp
          · split
            · unfold PacketIter.deref
              split
              · simp
              · split <;> simp
              · simp
            · simp
        have hn : it.next hdr packets ≠ .err := by
          unfold WriterIter.next
          dsimp only
          repeat' split
          all_goals simp
        cases h1 : it.deref hdr with
        | err => exact hd h1
        | abort => rw [h1] at h; cases h
        | ub => rw [h1] at h; cases h
        | ok w =>
          rw [h1] at h
          dsimp only at h
          cases h2 : it.next hdr packets with
          | err => exact hn h2
          | abort => rw [h2] at h; cases h
          | ub => rw [h2] at h; cases h
          | ok it' =>
            rw [h2] at h
            dsimp only at h
            cases h3 : writerCollect hdr packets fuel it' with
            | none => rw [h3] at h; cases h
            | some o =>
              rw [h3] at h
              cases o with
              | ok ws => cases h
              | err => exact ih it' h3
              | abort => cases h
              | ub => cases h
  unfold encode Part.fromPart
  dsimp only
  split
  · intro h; cases h
  · rename_i m _
    intro h
    unfold writeBitstream writerWords at h
    cases h1 : writerCollect (syncHeader .xc7) (configurationPackage (type2Payload
      { idcode := d.idcode, top := regionFrom 0 [] d.topRows, bottom := regionFrom 0 [] d.bottomRows } m) d.idcode) fuel (writerBegin
      (configurationPackage (type2Payload
      { idcode := d.idcode, top := regionFrom 0 [] d.topRows, bottom := regionFrom 0 [] d.bottomRows } m) d.idcode)) with
    | none => rw [h1] at h; cases h
    | some o =>
      rw [h1] at h
      cases o with
      | ok ws => cases h
      | err => exact key _ _ _ _ h1
      | abort => cases h
      | ub => cases h

end Verif.Asm

namespace Verif.Spec
open Verif.Fasm

/-! ## Numbers are read back -/

def readDec (s : Bytes) : Nat := s.foldl (fun n c => n * 10 + (c.toNat - 48)) 0

theorem dec_digits (n : Nat) : dec n = (Nat.toDigits 10 n).map (fun c => UInt8.ofNat c.toNat) := by
  rw [← dec_eq]; rfl

theorem digit_ok : ∀ d < 10, (UInt8.ofNat (Nat.digitChar d).toNat).toNat - 48 = d ∧ UInt8.ofNat (Nat.digitChar d).toNat ≠ 0x3a := by decide

theorem readDec_dec (n : Nat) : readDec (dec n) = n ∧ (0x3a : UInt8) ∉ dec n := by
  rw [dec_digits]
  induction n using Nat.strongRecOn with
  | _ n ih =>
    by_cases h : n < 10
    · rw [Nat.toDigits_of_lt_base h]
      obtain ⟨h1, h2⟩ := digit_ok n h
      refine ⟨?_, by simp only [List.map_cons, List.map_nil, List.mem_singleton]; exact fun e => h2 e.symm⟩
      simp only [readDec, List.map_cons, List.map_nil, List.foldl_cons, List.foldl_nil, h1]
      omega
    · obtain ⟨h1, h2⟩ := ih (n / 10) (by omega)
      rw [Nat.toDigits_of_base_le (by omega) (by omega)]
      obtain ⟨h3, h4⟩ := digit_ok (n % 10) (by omega)
      unfold readDec at h1 ⊢
      constructor
      · rw [List.map_append, List.foldl_append, h1]
        simp only [List.map_cons, List.map_nil, List.foldl_cons, List.foldl_nil, h3]
        omega
      · rw [List.map_append, List.mem_append]
        rintro (h | h)
        · exact h2 h
        · simp only [List.map_cons, List.map_nil, List.mem_singleton] at h
          exact h4 h.symm

/-- The number of a message can be read off. -/
theorem about_number {n m : Nat} {a b : Bytes} (h : about n a = about m b) : n = m ∧ a = b := by
  unfold about at h
  have hc : ascii ": " = [0x3a, 0x20] := by decide
  rw [hc] at h
  simp only [List.append_assoc] at h
  have h' : dec n ++ 0x3a :: (0x20 :: (a ++ ascii "\n")) = dec m ++ 0x3a :: (0x20 :: (b ++ ascii "\n")) := h
  obtain ⟨h1, h2⟩ := Verif.Db.cut_unique h' (readDec_dec n).2 (readDec_dec m).2
  refine ⟨by rw [← (readDec_dec n).1, h1, (readDec_dec m).1], ?_⟩
  exact List.append_cancel_right (List.cons.inj h2).2

end Verif.Spec

namespace Verif.Asm
open Verif.Db Verif.Spec Verif.Text Verif.Xc7 Verif.Fasm

/-! ## Messages about one line -/

theorem endingSays_about {n : Nat} {f post : Bytes} {ts : List Bytes} (h : EndingSays true n f post ts) :
    ∀ t ∈ ts, ∃ body, t = about n body := by
  have hb : ∀ s, ∀ t ∈ braceSays n s, ∃ body, t = about n body := by
    intro s t ht
    unfold braceSays at ht
    split at ht
    · cases ht
    · exact ⟨_, List.mem_singleton.1 ht⟩
  cases h with
  | fine => simp
  | other => intro t ht; exact ⟨_, List.mem_singleton.1 ht⟩
  | unclosed as a s => exact hb s
  | noEquals as g0 name g1 s =>
    intro t ht
    rcases List.mem_cons.1 ht with rfl | ht
    · exact ⟨_, rfl⟩
    · exact hb _ t ht
  | noQuote as g0 name g1 g2 s =>
    intro t ht
    rcases List.mem_cons.1 ht with rfl | ht
    · exact ⟨_, rfl⟩
    · exact hb _ t ht
  | unfinished =>
    intro t ht
    rcases List.mem_cons.1 ht with rfl | ht
    · exact ⟨_, rfl⟩
    · exact ⟨_, List.mem_singleton.1 ht⟩

theorem widthSays_about (n : Nat) (name : Bytes) (r : RangeText) (w : Bytes) : ∀ t ∈ widthSays n name r w, ∃ body, t = about n body := by
  intro t ht
  unfold widthSays at ht
  split at ht
  · exact ⟨_, List.mem_singleton.1 ht⟩
  · cases ht

theorem noteTexts_about (n : Nat) (f : FeatureText) : ∀ t ∈ f.noteTexts n, ∃ body, t = about n body := by
  intro t ht
  unfold FeatureText.noteTexts at ht
  split at ht
  · split at ht
    · exact ⟨_, List.mem_singleton.1 ht⟩
    · cases ht
  · cases ht
  · exact widthSays_about _ _ _ _ t ht

theorem lineSays_about {n : Nat} {s : LineShape} {ts : List Bytes} (h : LineSays true n s ts) : ∀ t ∈ ts, ∃ body, t = about n body := by
  cases h with
  | bare g post ts h => exact endingSays_about h
  | feature g f post ts hw h =>
    intro t ht
    rcases List.mem_append.1 ht with ht | ht
    · exact noteTexts_about n f t ht
    · exact endingSays_about h t ht
  | wide g f post ts hw h =>
    intro t ht
    rcases List.mem_append.1 ht with ht | ht
    · exact noteTexts_about n f t ht
    · rcases List.mem_cons.1 ht with rfl | ht
      · exact ⟨_, rfl⟩
      · exact endingSays_about h t ht
  | openRange => intro t ht; exact ⟨_, List.mem_singleton.1 ht⟩
  | inverted => intro t ht; exact ⟨_, List.mem_singleton.1 ht⟩
  | badFormat g name r w =>
    intro t ht
    rcases List.mem_append.1 ht with ht | ht
    · exact widthSays_about _ _ _ _ t ht
    · exact ⟨_, List.mem_singleton.1 ht⟩
  | dangling g name r w =>
    intro t ht
    rcases List.mem_append.1 ht with ht | ht
    · exact widthSays_about _ _ _ _ t ht
    · exact ⟨_, List.mem_singleton.1 ht⟩

theorem lineMessages_about {n : Nat} {l : Bytes} {ts : List Bytes} (h : LineMessages n l ts) :
    ∀ t ∈ ts, (∃ body, t = about n body) ∨ (t = noNewlineText ∧ 0x0a ∉ l) := by
  cases h with
  | shape s hok hnl h => intro t ht; exact Or.inl (lineSays_about h t ht)
  | noNewline _ hne h => intro t ht; exact Or.inr ⟨List.mem_singleton.1 ht, h⟩

/-- The same line with another number. -/
theorem endingSays_renumber {n : Nat} {f post : Bytes} {ts : List Bytes} (h : EndingSays true n f post ts) (m : Nat) :
    ∃ us, EndingSays true m f post us ∧ us.length = ts.length := by
  have hb : ∀ s, (braceSays m s).length = (braceSays n s).length := by
    intro s
    unfold braceSays
    split <;> rfl
  cases h with
  | fine _ as h => exact ⟨_, .fine _ as h, rfl⟩
  | other c s h => exact ⟨_, .other c s h, rfl⟩
  | unclosed as a s h1 h2 h3 h4 h5 => exact ⟨_, .unclosed as a s h1 h2 h3 h4 h5, hb s⟩
  | noEquals as g0 name g1 s h1 h2 h3 h4 h5 h6 h7 h8 =>
    exact ⟨_, .noEquals as g0 name g1 s h1 h2 h3 h4 h5 h6 h7 h8, by rw [List.length_cons, List.length_cons, hb]⟩
  | noQuote as g0 name g1 g2 s h1 h2 h3 h4 h5 h6 h7 h8 =>
    exact ⟨_, .noQuote as g0 name g1 g2 s h1 h2 h3 h4 h5 h6 h7 h8, by rw [List.length_cons, List.length_cons, hb]⟩
  | unfinished as g0 name g1 g2 v h1 h2 h3 h4 h5 h6 h7 => exact ⟨_, .unfinished as g0 name g1 g2 v h1 h2 h3 h4 h5 h6 h7, rfl⟩

theorem lineSays_renumber {n : Nat} {s : LineShape} {ts : List Bytes} (h : LineSays true n s ts) (m : Nat) :
    ∃ us, LineSays true m s us ∧ us.length = ts.length := by
  have hw : ∀ name r w, (widthSays m name r w).length = (widthSays n name r w).length := by
    intro name r w
    unfold widthSays
    split <;> rfl
  have hn : ∀ f : FeatureText, (f.noteTexts m).length = (f.noteTexts n).length := by
    intro f
    unfold FeatureText.noteTexts
    split
    · split <;> rfl
    · rfl
    · exact hw _ _ _
  cases h with
  | bare g post ts h =>
    obtain ⟨us, h1, h2⟩ := endingSays_renumber h m
    exact ⟨us, .bare g post us h1, h2⟩
  | feature g f post ts hw' h =>
    obtain ⟨us, h1, h2⟩ := endingSays_renumber h m
    exact ⟨_, .feature g f post us hw' h1, by rw [List.length_append, List.length_append, hn, h2]⟩
  | wide g f post ts hw' h =>
    obtain ⟨us, h1, h2⟩ := endingSays_renumber h m
    exact ⟨_, .wide g f post us hw' h1, by rw [List.length_append, List.length_append, List.length_cons, List.length_cons, hn, h2]⟩
  | openRange g name r post => exact ⟨_, .openRange g name r post, rfl⟩
  | inverted g name r post => exact ⟨_, .inverted g name r post, rfl⟩
  | badFormat g name r w c post =>
    exact ⟨_, .badFormat g name r w c post, by rw [List.length_append, List.length_append, hw]; rfl⟩
  | dangling g name r w => exact ⟨_, .dangling g name r w, by rw [List.length_append, List.length_append, hw]; rfl⟩

theorem lineMessages_renumber {n : Nat} {l : Bytes} {ts : List Bytes} (h : LineMessages n l ts) (m : Nat) :
    ∃ us, LineMessages m l us ∧ us.length = ts.length := by
  cases h with
  | shape s hok hnl h =>
    obtain ⟨us, h1, h2⟩ := lineSays_renumber h m
    exact ⟨us, .shape s hok hnl h1, h2⟩
  | noNewline _ hne h => exact ⟨_, .noNewline _ hne h, rfl⟩

end Verif.Asm

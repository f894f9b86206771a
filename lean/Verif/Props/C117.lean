import Verif.Model.JsonWriter
import Verif.Spec.Shown
import Verif.Props.C82
import Verif.Props.C103
/-! # C117 JSON values shown in messages -/
namespace Verif.Props
open Verif.Db Verif.Db.JsonWriter Verif.Db.JsonText Verif.Spec Verif.Spec.JsonGrammar

/-! ## What is written is JSON for the value -/

private theorem white0 : JsonGrammar.White ([] : Bytes) := fun _ h => by cases h

theorem hexDigit_hex : ∀ n < 16, Hex (JsonWriter.hexDigit n) n := by
  intro n hn
  unfold JsonWriter.hexDigit Hex
  split
  · rename_i h; exact Or.inl ⟨h, by simp; omega⟩
  · rename_i h; exact Or.inr ⟨by omega, hn, Or.inl (by simp; omega)⟩

theorem writeByte_chars (c : UInt8) {t v : Bytes} (h : Chars t v) : Chars (writeByte c ++ t) (c :: v) := by
  unfold writeByte
  by_cases h1 : c = 0x22
  · subst h1; exact .esc 0x22 0x22 (by decide) h
  by_cases h2 : c = 0x5c
  · subst h2; exact .esc 0x5c 0x5c (by decide) h
  by_cases h3 : c = 0x08
  · subst h3; exact .esc 0x62 0x08 (by decide) h
  by_cases h4 : c = 0x0c
  · subst h4; exact .esc 0x66 0x0c (by decide) h
  by_cases h5 : c = 0x0a
  · subst h5; exact .esc 0x6e 0x0a (by decide) h
  by_cases h6 : c = 0x0d
  · subst h6; exact .esc 0x72 0x0d (by decide) h
  by_cases h7 : c = 0x09
  · subst h7; exact .esc 0x74 0x09 (by decide) h
  rw [if_neg h1, if_neg h2, if_neg h3, if_neg h4, if_neg h5, if_neg h6, if_neg h7]
  by_cases h8 : c.toNat < 0x20
  · rw [if_pos h8]
    have hz : Hex 0x30 0 := Or.inl ⟨by decide, by decide⟩
    exact .code [0x30, 0x30, JsonWriter.hexDigit (c.toNat / 16), JsonWriter.hexDigit (c.toNat % 16)] c.toNat [c]
      ⟨_, _, _, _, 0, 0, c.toNat / 16, c.toNat % 16, rfl, hz, hz, hexDigit_hex _ (by omega), hexDigit_hex _ (by omega), by omega⟩
      (by omega) (Or.inl ⟨by omega, rfl⟩) h
  · rw [if_neg h8]
    exact .plain c (by omega) h1 h2 h

theorem writeString_str (s : Bytes) : Str (writeString s) s := by
  refine ⟨s.flatMap writeByte, rfl, ?_⟩
  induction s with
  | nil => exact .nil
  | cons c s ih => rw [List.flatMap_cons]; exact writeByte_chars c ih

theorem digitByte : ∀ d < 10, (UInt8.ofNat (Nat.digitChar d).toNat).toNat = 0x30 + d := by decide

theorem printU_text (n : Nat) : JsonGrammar.IntText (Fasm.printU n) ∧ decimal (Fasm.printU n) = n := by
  unfold Fasm.printU
  induction n using Nat.strongRecOn with
  | _ n ih =>
    by_cases h : n < 10
    · rw [Nat.toDigits_of_lt_base h]
      have hd := digitByte n h
      refine ⟨⟨⟨by simp, fun c hc => ?_⟩, fun h' => ?_⟩, ?_⟩
      · rw [List.map_cons, List.map_nil, List.mem_singleton] at hc
        subst hc
        unfold Digit
        omega
      · rw [List.map_cons, List.map_nil, List.head?_cons, Option.some.injEq] at h'
        rw [List.map_cons, List.map_nil, h']
      · unfold decimal
        rw [List.map_cons, List.map_nil, List.foldl_cons, List.foldl_nil, hd]
        omega
    · obtain ⟨⟨⟨h1, h2⟩, h3⟩, h4⟩ := ih (n / 10) (by omega)
      have hd := digitByte (n % 10) (by omega)
      rw [Nat.toDigits_of_base_le (by omega) (by omega), List.map_append]
      generalize List.map (fun c => UInt8.ofNat c.toNat) (Nat.toDigits 10 (n / 10)) = t at h1 h2 h3 h4
      refine ⟨⟨⟨by simp, fun c hc => ?_⟩, fun h' => ?_⟩, ?_⟩
      · rcases List.mem_append.1 hc with hc | hc
        · exact h2 c hc
        · rw [List.map_cons, List.map_nil, List.mem_singleton] at hc
          subst hc
          unfold Digit
          omega
      · cases t with
        | nil => exact absurd rfl h1
        | cons d t =>
          have := h3 (by rw [List.cons_append, List.head?_cons] at h'; exact h')
          rw [this] at h4
          have : n / 10 = 0 := by rw [← h4]; rfl
          omega
      · unfold decimal at h4 ⊢
        rw [List.foldl_append, h4, List.map_cons, List.map_nil, List.foldl_cons, List.foldl_nil, hd]
        omega

/-- **The text shown for a value is a JSON text of that value.**  (`dbl`, the text of a number that is not a 64-bit integer, has to be
the text of such a number.) -/
theorem C117_json (big : Bytes → Bool) (dbl : Bytes) (hdbl : Num big dbl .dbl) (v : Json) (h : Readable v) :
    Value big (writeValue dbl v) v := by
  induction h with
  | null => rw [writeValue]; exact .null
  | bool b => cases b <;> rw [writeValue] <;> constructor
  | int i h1 h2 =>
    rw [writeValue]
    obtain ⟨ht, hd⟩ := printU_text i.natAbs
    unfold writeInt
    split
    · exact .num ⟨bytes!"-", _, [], [], by simp, Or.inr rfl, ht, Or.inl rfl, Or.inl rfl, Or.inl ⟨rfl, rfl, i, by
        rw [if_neg (by simp), hd]; omega, h1, h2, rfl⟩⟩
    · exact .num ⟨[], _, [], [], by simp, Or.inl rfl, ht, Or.inl rfl, Or.inl rfl, Or.inl ⟨rfl, rfl, i, by
        rw [if_pos rfl, hd]; omega, h1, h2, rfl⟩⟩
  | dbl => rw [writeValue]; exact .num hdbl
  | str s => rw [writeValue]; exact .str (writeString_str s)
  | arr vs _ ih =>
    rw [writeValue]
    cases vs with
    | nil => rw [writeElements]; exact .emptyArr [] white0
    | cons v vs =>
      have key : ∀ (vs : List Json) (v : Json), (∀ x ∈ v :: vs, Value big (writeValue dbl x) x) →
          Elements big (writeElements dbl (v :: vs)) (v :: vs) := by
        intro vs
        induction vs with
        | nil =>
          intro v h
          have := Elements.last (h v List.mem_cons_self) white0
          rw [List.append_nil] at this
          rw [writeElements]
          exact this
        | cons v' vs ihv =>
          intro v h
          rw [writeElements]
          · exact .cons (h v List.mem_cons_self) white0 white0 (ihv v' fun x hx => h x (List.mem_cons_of_mem _ hx))
          · intro h; cases h
      exact .arr [] white0 (key vs v ih)
  | obj ms _ ih =>
    rw [writeValue]
    cases ms with
    | nil => rw [writeMembers]; exact .emptyObj [] white0
    | cons m ms =>
      have key : ∀ (ms : List (Bytes × Json)) (m : Bytes × Json), (∀ x ∈ m :: ms, Value big (writeValue dbl x.2) x.2) →
          Members big (writeMembers dbl (m :: ms)) (m :: ms) := by
        intro ms
        induction ms with
        | nil =>
          rintro ⟨name, v⟩ h
          have := Members.last (writeString_str name) white0 white0 (h (name, v) List.mem_cons_self) white0
          rw [writeMembers, writeMember]
          simpa using this
        | cons m' ms ihv =>
          rintro ⟨name, v⟩ h
          rw [writeMembers]
          · rw [writeMember]
            have := Members.cons (writeString_str name) white0 white0 (h (name, v) List.mem_cons_self) white0 white0
              (ihv m' fun x hx => h x (List.mem_cons_of_mem _ hx))
            simpa using this
          · intro h; cases h
      exact .obj [] white0 (key ms m ih)

/-! ## On one line -/

private theorem digits_printable {t : Bytes} (h : Digits t) : ∀ c ∈ t, 0x20 ≤ c.toNat := by
  intro c hc
  have := (h.2 c hc).1
  omega

/-- A number has no control characters. -/
theorem num_printable {big : Bytes → Bool} {t : Bytes} {v : Json} (h : Num big t v) : ∀ c ∈ t, 0x20 ≤ c.toNat := by
  obtain ⟨sign, i, f, e, rfl, hs, hi, hf, he, _⟩ := h
  have h1 : ∀ c ∈ sign, 0x20 ≤ c.toNat := by
    rcases hs with rfl | rfl
    · intro c hc; cases hc
    · decide
  have h2 := digits_printable hi.1
  have h3 : ∀ c ∈ f, 0x20 ≤ c.toNat := by
    rcases hf with rfl | ⟨d, hd, rfl⟩
    · intro c hc; cases hc
    · intro c hc
      rcases List.mem_cons.1 hc with rfl | hc
      · decide
      · exact digits_printable hd c hc
  have h4 : ∀ c ∈ e, 0x20 ≤ c.toNat := by
    rcases he with rfl | ⟨x, sg, d, hx, hsg, hd, rfl⟩
    · intro c hc; cases hc
    · intro c hc
      rcases List.mem_cons.1 hc with rfl | hc
      · rcases hx with rfl | rfl <;> decide
      · rcases List.mem_append.1 hc with hc | hc
        · rcases hsg with rfl | rfl | rfl
          · cases hc
          · rw [List.mem_singleton.1 hc]; decide
          · rw [List.mem_singleton.1 hc]; decide
        · exact digits_printable hd c hc
  intro c hc
  rw [List.mem_append, List.mem_append, List.mem_append] at hc
  rcases hc with ((hc | hc) | hc) | hc
  · exact h1 c hc
  · exact h2 c hc
  · exact h3 c hc
  · exact h4 c hc

theorem writeByte_printable : ∀ c : UInt8, ∀ b ∈ writeByte c, 0x20 ≤ b.toNat := by
  have : ∀ n : Fin 256, ∀ b ∈ writeByte (UInt8.ofNat n.val), 0x20 ≤ b.toNat := by decide +kernel
  intro c
  have h := this ⟨c.toNat, c.toNat_lt⟩
  simpa using h

theorem writeString_printable (s : Bytes) : ∀ c ∈ writeString s, 0x20 ≤ c.toNat := by
  intro c hc
  unfold writeString at hc
  rcases List.mem_cons.1 hc with rfl | hc
  · decide
  · rcases List.mem_append.1 hc with hc | hc
    · obtain ⟨b, _, hb⟩ := List.mem_flatMap.1 hc
      exact writeByte_printable b c hb
    · rw [List.mem_singleton.1 hc]; decide

/-- The text shown for a value has no control characters: no newline, no NUL. -/
theorem C117_one_line (dbl : Bytes) (hdbl : ∀ c ∈ dbl, 0x20 ≤ c.toNat) (v : Json) (h : Readable v) :
    ∀ c ∈ writeValue dbl v, 0x20 ≤ c.toNat := by
  induction h with
  | null => rw [writeValue]; decide
  | bool b => cases b <;> rw [writeValue] <;> decide
  | int i _ _ =>
    rw [writeValue]
    have h := digits_printable (printU_text i.natAbs).1.1
    unfold writeInt
    split
    · intro c hc
      rcases List.mem_cons.1 hc with rfl | hc
      · decide
      · exact h c hc
    · exact h
  | dbl => rw [writeValue]; exact hdbl
  | str s => rw [writeValue]; exact writeString_printable s
  | arr vs _ ih =>
    have key : ∀ vs : List Json, (∀ x ∈ vs, ∀ c ∈ writeValue dbl x, 0x20 ≤ c.toNat) → ∀ c ∈ writeElements dbl vs, 0x20 ≤ c.toNat := by
      intro vs
      induction vs with
      | nil => intro _; rw [writeElements]; intro c hc; cases hc
      | cons v vs ihv =>
        intro h
        cases vs with
        | nil => rw [writeElements]; exact h v List.mem_cons_self
        | cons v' vs =>
          rw [writeElements]
          · intro c hc
            rcases List.mem_append.1 hc with hc | hc
            · exact h v List.mem_cons_self c hc
            · rcases List.mem_cons.1 hc with rfl | hc
              · decide
              · exact ihv (fun x hx => h x (List.mem_cons_of_mem _ hx)) c hc
          · intro h; cases h
    rw [writeValue]
    intro c hc
    rcases List.mem_cons.1 hc with rfl | hc
    · decide
    · rcases List.mem_append.1 hc with hc | hc
      · exact key vs ih c hc
      · rw [List.mem_singleton.1 hc]; decide
  | obj ms _ ih =>
    have one : ∀ m : Bytes × Json, (∀ c ∈ writeValue dbl m.2, 0x20 ≤ c.toNat) → ∀ c ∈ writeMember dbl m, 0x20 ≤ c.toNat := by
      rintro ⟨name, v⟩ h c hc
      rw [writeMember] at hc
      rcases List.mem_append.1 hc with hc | hc
      · exact writeString_printable name c hc
      · rcases List.mem_cons.1 hc with rfl | hc
        · decide
        · exact h c hc
    have key : ∀ ms : List (Bytes × Json), (∀ x ∈ ms, ∀ c ∈ writeValue dbl x.2, 0x20 ≤ c.toNat) → ∀ c ∈ writeMembers dbl ms, 0x20 ≤ c.toNat := by
      intro ms
      induction ms with
      | nil => intro _; rw [writeMembers]; intro c hc; cases hc
      | cons m ms ihv =>
        intro h
        cases ms with
        | nil => rw [writeMembers]; exact one m (h m List.mem_cons_self)
        | cons m' ms =>
          rw [writeMembers]
          · intro c hc
            rcases List.mem_append.1 hc with hc | hc
            · exact one m (h m List.mem_cons_self) c hc
            · rcases List.mem_cons.1 hc with rfl | hc
              · decide
              · exact ihv (fun x hx => h x (List.mem_cons_of_mem _ hx)) c hc
          · intro h; cases h
    rw [writeValue]
    intro c hc
    rcases List.mem_cons.1 hc with rfl | hc
    · decide
    · rcases List.mem_append.1 hc with hc | hc
      · exact key ms ih c hc
      · rw [List.mem_singleton.1 hc]; decide

/-- Nothing is lost when the buffer is taken as a C string. -/
theorem valueAsString_eq (dbl : Bytes) (hdbl : ∀ c ∈ dbl, 0x20 ≤ c.toNat) (v : Json) (h : Readable v) :
    valueAsString dbl v = writeValue dbl v := by
  unfold valueAsString Text.cstr
  have := C117_one_line dbl hdbl v h
  generalize writeValue dbl v = t at this
  induction t with
  | nil => rfl
  | cons c t ih =>
    have hc := this c List.mem_cons_self
    rw [List.takeWhile_cons_of_pos, ih fun c hc => this c (List.mem_cons_of_mem _ hc)]
    simp only [ne_eq, decide_not, Bool.not_eq_eq_eq_not, Bool.not_true, decide_eq_false_iff_not]
    rintro rfl
    exact absurd hc (by decide)

/-! ## Reading it back -/

/-- Values read from a file are `Readable`. -/
theorem value_readable {big : Bytes → Bool} {t : Bytes} {v : Json} (h : Value big t v) : Readable v := by
  refine Value.rec (motive_1 := fun _ v _ => Readable v) (motive_2 := fun _ ms _ => ∀ m ∈ ms, Readable m.2)
    (motive_3 := fun _ vs _ => ∀ v ∈ vs, Readable v) .null (.bool _) (.bool _) (fun _ => .str _) ?_ ?_ ?_ ?_ ?_ ?_ ?_ ?_ ?_ h
  · rintro t v ⟨_, _, _, _, _, _, _, _, _, ⟨_, _, n, _, h1, h2, rfl⟩ | ⟨_, _, rfl⟩⟩
    · exact .int n h1 h2
    · exact .dbl
  · exact fun _ _ => .obj [] fun _ h => by cases h
  · exact fun _ _ _ _ _ ih => .obj _ ih
  · exact fun _ _ => .arr [] fun _ h => by cases h
  · exact fun _ _ _ _ _ ih => .arr _ ih
  · intro _ _ _ _ _ _ _ _ _ _ _ _ ih m hm
    rw [List.mem_singleton.1 hm]
    exact ih
  · intro _ _ _ _ _ _ _ _ _ _ _ _ _ _ _ _ _ ih ih' m hm
    rcases List.mem_cons.1 hm with rfl | hm
    · exact ih
    · exact ih' m hm
  · intro _ _ _ _ _ ih v hv
    rw [List.mem_singleton.1 hv]
    exact ih
  · intro _ _ _ _ _ _ _ _ _ _ ih ih' v hv
    rcases List.mem_cons.1 hv with rfl | hv
    · exact ih
    · exact ih' v hv

theorem within_readable {v j : Json} (h : Within v j) (hj : Readable j) : Readable v := by
  induction h with
  | here => exact hj
  | item hm _ ih => cases hj with | arr _ h => exact ih (h _ hm)
  | member hm _ ih => cases hj with | obj _ h => exact ih (h _ hm)

theorem written_reads (big : Bytes → Bool) (dbl : Bytes) (hdbl : Num big dbl .dbl) (x : Json) (hx : Readable x) :
    Reads big (writeValue dbl x) x :=
  ⟨[], writeValue dbl x, [], by simp, List.nil_sublist _, ⟨[], writeValue dbl x, [], by simp, white0, C117_json big dbl hdbl x hx, white0⟩,
    Or.inl rfl⟩

/-- **C117.**  Whatever stands in a JSON file is shown as a text without control characters that is read as the same value again. -/
theorem C117_shown (big : Bytes → Bool) (dbl : Bytes) (hdbl : Num big dbl .dbl) (file : Bytes) (j : Json) (hj : Reads big file j)
    (v : Json) (hv : Within v j) :
    Reads big (valueAsString dbl v) v ∧ (∀ w, Reads big (valueAsString dbl v) w → w = v) ∧ ∀ c ∈ valueAsString dbl v, 0x20 ≤ c.toNat := by
  obtain ⟨_, _, _, _, _, ⟨_, _, _, _, _, hval, _⟩, _⟩ := hj
  have hr := within_readable hv (value_readable hval)
  have hp := num_printable hdbl
  rw [valueAsString_eq dbl hp v hr]
  have h1 := written_reads big dbl hdbl v hr
  exact ⟨h1, fun w hw => C82_unique big _ w v hw h1, C117_one_line dbl hp v hr⟩

/-- Integers are shown in plain decimal notation. -/
theorem C117_number (dbl : Bytes) (hdbl : ∀ c ∈ dbl, 0x20 ≤ c.toNat) (i : Int) (h : Readable (.int i)) :
    valueAsString dbl (.int i) = ascii (toString i) := by
  rw [valueAsString_eq dbl hdbl _ h, writeValue, writeInt, Fasm.dec_eq]
  cases i with
  | ofNat n =>
    rw [if_neg (fun h => by have := Int.natCast_nonneg n; have h : (n : Int) < 0 := h; omega)]
    rfl
  | negSucc n =>
    rw [if_pos (by omega)]
    show 0x2d :: ascii (Nat.repr (n + 1)) = ascii ("-" ++ Nat.repr (n + 1))
    unfold ascii
    rw [String.toList_append, List.map_append]
    rfl

example : valueAsString bytes!"1.5" (.int 0) = bytes!"0" ∧ valueAsString bytes!"1.5" (.int (-40)) = bytes!"-40" := by decide +kernel

/-- Different values are shown differently. -/
theorem C117_distinct (big : Bytes → Bool) (dbl : Bytes) (hdbl : Num big dbl .dbl) (v w : Json) (hv : Readable v) (hw : Readable w)
    (h : valueAsString dbl v = valueAsString dbl w) : v = w := by
  have hp := num_printable hdbl
  rw [valueAsString_eq dbl hp v hv, valueAsString_eq dbl hp w hw] at h
  have key := fun x hx => written_reads big dbl hdbl x hx
  have := key v hv
  rw [h] at this
  exact C82_unique big _ v w this (key w hw)

/-! ## What the messages say -/

theorem _root_.Verif.Spec.Within.trans {u v w : Json} (h : Within u v) (h' : Within v w) : Within u w := by
  induction h' with
  | here => exact h
  | item hm _ ih => exact .item hm ih
  | member hm _ ih => exact .member hm ih

theorem messageAbout_mono {shown : Json → Bytes} {v j : Json} (h : Within v j) {m : Bytes} (hm : MessageAbout shown v m) :
    MessageAbout shown j m := by
  cases hm with
  | wrongType w hw => exact .wrongType w (hw.trans h)
  | missing w n hw hn => exact .missing w n (hw.trans h) hn
  | key ms n w hw hn => exact .key ms n w (hw.trans h) hn
  | notObject w hw hn => exact .notObject w (hw.trans h) hn
  | notArray w hw hn => exact .notArray w (hw.trans h) hn
  | bus ms n w what hw hn h1 h2 => exact .bus ms n w what (hw.trans h) hn h1 h2
  | address s hw => exact .address s (hw.trans h)
  | rows side hs => exact .rows side hs

/-- The messages of a kind of trouble are among those of `MessageAbout`. -/
private def Good (shown : Json → Bytes) (j : Json) (p : Trouble → Prop) : Prop := ∀ m, p (.says m) → MessageAbout shown j m

section
variable {x : LibTexts}

private theorem good_first {j : Json} {cs : List (Trouble → Prop)} (h : ∀ c ∈ cs, Good x.render j c) : Good x.render j (FirstOf cs) := by
  rintro m ⟨pre, c, post, rfl, _, hc⟩
  exact h c (by simp) m hc

private theorem good_wrong (expected : Json → Prop) (v : Json) : Good x.render v (WrongType x expected v) := by
  rintro m ⟨_, h⟩
  cases h
  exact .wrongType v .here

private theorem good_noObject (v : Json) : Good x.render v (NotObject v) := by
  rintro m ⟨h1, h⟩
  cases h
  exact .notObject v .here fun ms hms => h1 ⟨ms, hms⟩

private theorem within_member {j v : Json} {name : Bytes} (h : Member j name v) : Within v j := by
  obtain ⟨ms, rfl, h⟩ := h
  exact .member (Text.mem_of_lookup h) .here

private theorem good_attribute (name : Bytes) {inside : Json → Trouble → Prop} (h : ∀ v, Good x.render v (inside v)) (j : Json) :
    Good x.render j (Attribute x name inside j) := by
  intro m hm
  generalize ht : Trouble.says m = t at hm
  cases hm with
  | noObject _ h => subst ht; exact good_noObject j m h
  | missing h => cases ht; exact .missing j name .here h
  | within v _ h1 h2 => subst ht; exact messageAbout_mono (within_member h1) (h v m h2)

private theorem good_opt (name : Bytes) {inside : Json → Trouble → Prop} (h : ∀ v, Good x.render v (inside v)) (j : Json) :
    Good x.render j (OptAttribute name inside j) := by
  intro m hm
  generalize ht : Trouble.says m = t at hm
  cases hm with
  | noObject _ h => subst ht; exact good_noObject j m h
  | within v _ h1 h2 => subst ht; exact messageAbout_mono (within_member h1) (h v m h2)

private theorem good_map (j : Json) : Good x.render j (MapTrouble x j) := by
  rintro m (h | ⟨ms, rfl, h⟩)
  · exact good_noObject j m h
  · refine good_first (fun c hc => ?_) m h
    obtain ⟨e, he, rfl⟩ := List.mem_map.1 hc
    exact fun m hm => messageAbout_mono (.member he .here) (good_wrong _ _ m hm)

private theorem good_list (j : Json) : Good x.render j (ListTrouble x j) := by
  rintro m (⟨h1, h⟩ | ⟨is, rfl, h⟩)
  · cases h
    exact .notArray j .here h1
  · refine good_first (fun c hc => ?_) m h
    obtain ⟨e, he, rfl⟩ := List.mem_map.1 hc
    exact fun m hm => messageAbout_mono (.item he .here) (good_wrong _ _ m hm)

private theorem good_address (j : Json) : Good x.render j (AddressTrouble x j) := by
  rintro m (h | ⟨s, i, rfl, _, _, h⟩)
  · exact good_wrong _ _ m h
  · cases h
    exact .address s .here

private theorem good_alias (j : Json) : Good x.render j (AliasTrouble x j) := by
  refine good_first fun c hc => ?_
  simp only [List.mem_cons, List.not_mem_nil, or_false] at hc
  rcases hc with rfl | rfl | rfl
  · exact good_attribute _ good_map j
  · exact good_attribute _ (good_wrong _) j
  · exact good_attribute _ (good_wrong _) j

private theorem good_block (j : Json) : Good x.render j (BlockTrouble x j) := by
  refine good_first fun c hc => ?_
  simp only [List.mem_cons, List.not_mem_nil, or_false] at hc
  rcases hc with rfl | rfl | rfl | rfl | rfl
  · exact good_opt _ good_alias j
  · exact good_attribute _ good_address j
  · exact good_attribute _ (good_wrong _) j
  · exact good_attribute _ (good_wrong _) j
  · exact good_attribute _ (good_wrong _) j

private theorem good_bus (what : String) (hw : what = "unknown frame block type" ∨ what = "unknown config bus type")
    {inside : Json → Trouble → Prop} (h : ∀ v, Good x.render v (inside v)) (ms : List (Bytes × Json)) :
    Good x.render (.obj ms) (FirstOf (ms.map (BusTrouble what inside))) := by
  refine good_first fun c hc => ?_
  obtain ⟨e, he, rfl⟩ := List.mem_map.1 hc
  rintro m (⟨h1, h2⟩ | ⟨_, h2⟩)
  · cases h2
    exact .bus ms e.1 e.2 what .here he hw h1
  · exact messageAbout_mono (.member he .here) (h _ m h2)

private theorem good_bits (j : Json) : Good x.render j (BitsTrouble x j) := by
  rintro m (⟨_, h⟩ | ⟨ms, rfl, h⟩)
  · cases h
  · exact good_bus _ (Or.inl rfl) good_block ms m h

private theorem good_tile (j : Json) : Good x.render j (TileTrouble x j) := by
  refine good_first fun c hc => ?_
  simp only [List.mem_cons, List.not_mem_nil, or_false] at hc
  rcases hc with rfl | rfl | rfl | rfl | rfl | rfl | rfl | rfl
  · exact good_attribute _ (good_wrong _) j
  · exact good_attribute _ (good_wrong _) j
  · exact good_attribute _ (good_wrong _) j
  · exact good_opt _ (good_wrong _) j
  · exact good_attribute _ good_bits j
  · exact good_attribute _ good_map j
  · exact good_attribute _ good_map j
  · exact good_attribute _ good_list j

private theorem good_sequence {inside : Json → Trouble → Prop} (h : ∀ v, Good x.render v (inside v)) (j : Json) :
    Good x.render j (SequenceTrouble x inside j) := by
  rintro m (h1 | ⟨ms, rfl, h1⟩)
  · exact good_noObject j m h1
  · refine good_first (fun c hc => ?_) m h1
    obtain ⟨e, he, rfl⟩ := List.mem_map.1 hc
    have he' : e.1 ∈ ms := by
      have := List.mem_map_of_mem (f := Prod.fst) he
      rwa [List.zipIdx_map_fst] at this
    refine good_first fun c hc => ?_
    simp only [List.mem_cons, List.not_mem_nil, or_false] at hc
    rcases hc with rfl | rfl
    · intro m hm
      generalize ht : Trouble.says m = t at hm
      cases hm with
      | text _ => cases ht; exact .key ms e.1.1 e.1.2 .here he'
      | smallest _ => cases ht
      | order _ _ _ _ => cases ht
    · exact fun m hm => messageAbout_mono (.member he' .here) (h _ m hm)

private theorem good_columns (j : Json) : Good x.render j (ColumnsTrouble x j) := good_sequence (good_attribute _ (good_wrong _)) j

private theorem good_row (j : Json) : Good x.render j (RowTrouble x j) := by
  rintro m (h | ⟨ms, rfl, h⟩)
  · exact good_noObject j m h
  · exact good_bus _ (Or.inr rfl) (good_attribute _ good_columns) ms m h

private theorem good_half (j : Json) : Good x.render j (HalfTrouble x j) := good_sequence (good_attribute _ good_row) j

private theorem good_rows (side : String) (hs : side = "bottom" ∨ side = "top") (j : Json) : Good x.render j (RowsTrouble x side j) := by
  rintro m (⟨half, rows, h1, h2, h⟩ | ⟨_, h⟩)
  · exact messageAbout_mono ((within_member h2).trans (within_member h1)) (good_half rows m h)
  · cases h
    exact .rows side hs

private theorem good_regions (j : Json) : Good x.render j (RegionsTrouble x j) := by
  refine good_first fun c hc => ?_
  simp only [List.mem_cons, List.not_mem_nil, or_false] at hc
  rcases hc with rfl | rfl
  · exact good_rows _ (Or.inl rfl) j
  · exact good_rows _ (Or.inr rfl) j

private theorem good_banks (j : Json) : Good x.render j (BanksTrouble x j) := by
  rintro m (⟨_, h⟩ | ⟨ms, rfl, h⟩)
  · cases h
  · refine good_first (fun c hc => ?_) m h
    obtain ⟨e, he, rfl⟩ := List.mem_map.1 hc
    rintro m (⟨_, h⟩ | ⟨_, _, h⟩)
    · cases h
      exact .key ms e.1 e.2 .here he
    · cases h

private theorem good_part (j : Json) : Good x.render j (PartTrouble x j) := by
  refine good_first fun c hc => ?_
  simp only [List.mem_cons, List.not_mem_nil, or_false] at hc
  rcases hc with rfl | rfl | rfl
  · exact good_attribute _ (good_wrong _) j
  · exact good_opt _ good_banks j
  · exact good_attribute _ good_regions j

end

/-- **C117.**  All messages about `part.json`: whatever value they show, or name they quote, stands in the file. -/
theorem C117_part (x : LibTexts) (j : Json) (m : Bytes) (h : parsePartM x j = .err m) : MessageAbout x.render j m :=
  good_part j m (((C103_part x j).2.1 m).1 h)

/-- **C117.**  All messages about `tilegrid.json`: a tile is named, and the rest is about its value. -/
theorem C117_grid (x : LibTexts) (j : Json) (m : Bytes) (h : parseTileGridM x j = .err m) :
    (m = ascii "json value not an object" ∧ ∀ ms, j ≠ .obj ms) ∨
    ∃ ms name v why, j = .obj ms ∧ (name, v) ∈ ms ∧ MessageAbout x.render v why ∧
      m = ascii "could not unmarshal tile " ++ untilNul name ++ ascii ": " ++ why := by
  cases j with
  | obj ms =>
    obtain ⟨pre, name, v, post, why, rfl, _, ht, rfl⟩ := (C103_names_tile x ms m).1 h
    exact Or.inr ⟨_, name, v, why, rfl, by simp, good_tile v why ht, rfl⟩
  | _ =>
    rcases ((C103_grid x _).2.1 m).1 h with ⟨h1, h2⟩ | ⟨ms, h1, _⟩
    · cases h2
      exact Or.inl ⟨rfl, fun ms hms => by cases hms⟩
    · cases h1

/-! ## Examples -/

/-- A number in a file that is not a 64-bit integer. -/
theorem halfText : Num (fun _ => false) bytes!"0.5" .dbl :=
  ⟨[], bytes!"0", bytes!".5", [], rfl, Or.inl rfl, ⟨⟨by decide, by unfold Digit; decide⟩, fun _ => rfl⟩,
    Or.inr ⟨bytes!"5", ⟨by decide, by unfold Digit; decide⟩, rfl⟩, Or.inl rfl, Or.inr ⟨(by rintro ⟨h, _⟩; cases h), rfl, rfl⟩⟩

/-- `["a\"\n\u001F é", -17, 0.5, {"k": [], "l": {}}, true]` is shown so. -/
example : valueAsString bytes!"0.5"
    (.arr [.str [0x61, 0x22, 0x0a, 0x1f, 0x20, 0xc3, 0xa9], .int (-17), .dbl, .obj [(bytes!"k", .arr []), (bytes!"l", .obj [])], .bool true]) =
    ascii "[\"a\\\"\\n\\u001F " ++ [0xc3, 0xa9] ++ ascii "\",-17,0.5,{\"k\":[],\"l\":{}},true]" := by
  decide +kernel

/-- Non-vacuity of `C117_shown`: a file, and a value inside what it says. -/
example : Reads (fun _ => false) (valueAsString bytes!"0.5" (.obj [(bytes!"frame_count", .dbl)])) (.obj [(bytes!"frame_count", .dbl)]) ∧
    Within .dbl (.obj [(bytes!"frame_count", .dbl)]) := by
  refine ⟨?_, .member List.mem_cons_self .here⟩
  have hr : Readable (.obj [(bytes!"frame_count", .dbl)]) := .obj _ fun m hm => by rw [List.mem_singleton.1 hm]; exact .dbl
  rw [valueAsString_eq _ (num_printable halfText) _ hr]
  exact written_reads _ _ halfText _ hr

/-- A message about a `part.json`: the IDCODE is a text. -/
example (e : Bytes → Bytes × Nat) (st : Path → Bytes) :
    parsePartM ⟨valueAsString bytes!"0.5", e, st⟩ (.obj [(bytes!"idcode", .str bytes!"0x1")]) =
      .err (ascii "could not unmarshal \"0x1\", unexpected type: string") := by
  have : valueAsString bytes!"0.5" (.str bytes!"0x1") = ascii "\"0x1\"" := by decide +kernel
  show Said.err (Fasm.lit "could not unmarshal " ++ valueAsString bytes!"0.5" (.str bytes!"0x1") ++ Fasm.lit ", unexpected type: " ++ Fasm.lit "string") = _
  rw [this]
  congr 1

end Verif.Props

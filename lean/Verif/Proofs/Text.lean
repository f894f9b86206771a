import Verif.Model.Text
import Verif.Spec.DbText
/-! # String library contracts against the specification -/
namespace Verif.Text
open Verif.Spec

theorem isSpace_iff (c : UInt8) : isSpace c = true ↔ White [c] := by
  have h : ∀ n : Fin 256, isSpace (UInt8.ofNat n.val) = true ↔
      (let c := UInt8.ofNat n.val; c = 0x20 ∨ c = 0x09 ∨ c = 0x0a ∨ c = 0x0b ∨ c = 0x0c ∨ c = 0x0d) := by
    decide +kernel
  have h1 := h ⟨c.toNat, c.toNat_lt⟩
  simp only [UInt8.ofNat_toNat] at h1
  rw [h1]
  simp [White]

theorem isSpace_false_iff (c : UInt8) : isSpace c = false ↔ NoWhite [c] := by
  have h := isSpace_iff c
  constructor
  · intro hf
    rw [hf] at h
    intro x hx
    rw [List.mem_singleton.1 hx]
    have : ¬ White [c] := fun w => by simpa using h.2 w
    simp only [White, List.mem_singleton, forall_eq] at this
    simp only [not_or] at this
    exact this
  · intro hn
    cases hc : isSpace c with
    | false => rfl
    | true =>
      have := h.1 hc
      have h2 := hn c (List.mem_singleton.2 rfl)
      have h3 := this c (List.mem_singleton.2 rfl)
      rcases h3 with h3 | h3 | h3 | h3 | h3 | h3 <;> simp_all

theorem white_cons {c : UInt8} {s : Bytes} : White (c :: s) ↔ isSpace c = true ∧ White s := by
  rw [isSpace_iff]; simp [White]

theorem noWhite_cons {c : UInt8} {s : Bytes} : NoWhite (c :: s) ↔ isSpace c = false ∧ NoWhite s := by
  rw [isSpace_false_iff]; simp [NoWhite]

theorem white_nil : White [] := fun _ h => nomatch h
theorem noWhite_nil : NoWhite [] := fun _ h => nomatch h

theorem white_iff_all (s : Bytes) : White s ↔ ∀ c ∈ s, isSpace c = true := by
  induction s with
  | nil => simp [white_nil]
  | cons c s ih => rw [white_cons, ih]; simp

theorem noWhite_iff_all (s : Bytes) : NoWhite s ↔ ∀ c ∈ s, isSpace c = false := by
  induction s with
  | nil => simp [noWhite_nil]
  | cons c s ih => rw [noWhite_cons, ih]; simp

theorem white_append {a b : Bytes} : White (a ++ b) ↔ White a ∧ White b := by
  simp only [white_iff_all, List.mem_append]
  exact ⟨fun h => ⟨fun c hc => h c (Or.inl hc), fun c hc => h c (Or.inr hc)⟩,
    fun h c hc => hc.elim (h.1 c) (h.2 c)⟩

/-! ## Splitting -/

theorem splitBy_ne_nil (p : UInt8 → Bool) (s : Bytes) : splitBy p s ≠ [] := by
  cases s with
  | nil => simp [splitBy]
  | cons c r => simp only [splitBy]; split; · simp
                split <;> simp

theorem splitBy_sep {p : UInt8 → Bool} {c : UInt8} (h : p c = true) (r : Bytes) :
    splitBy p (c :: r) = [] :: splitBy p r := by simp [splitBy, h]

theorem splitBy_word {p : UInt8 → Bool} (f : Bytes) (hf : ∀ c ∈ f, p c = false) : splitBy p f = [f] := by
  induction f with
  | nil => rfl
  | cons c f ih =>
    simp only [splitBy, hf c (by simp), ih (fun c hc => hf c (by simp [hc]))]
    simp

theorem splitBy_word_sep {p : UInt8 → Bool} (f : Bytes) (hf : ∀ c ∈ f, p c = false) {c : UInt8} (hc : p c = true)
    (r : Bytes) : splitBy p (f ++ c :: r) = f :: splitBy p r := by
  induction f with
  | nil => exact splitBy_sep hc r
  | cons x f ih =>
    simp only [List.cons_append, splitBy, hf x (by simp), ih (fun c hc => hf c (by simp [hc]))]
    simp

theorem fields_space {c : UInt8} (h : isSpace c = true) (r : Bytes) : fields (c :: r) = fields r := by
  simp [fields, splitBy_sep h, skipEmpty]

theorem fields_white_append {w : Bytes} (h : White w) (r : Bytes) : fields (w ++ r) = fields r := by
  induction w with
  | nil => rfl
  | cons c w ih =>
    rw [white_cons] at h
    rw [List.cons_append, fields_space h.1, ih h.2]

theorem fields_white {w : Bytes} (h : White w) : fields w = [] := by
  have := fields_white_append h []
  rw [List.append_nil] at this
  rw [this]; rfl

theorem fields_word {f rest : Bytes} (hf : f ≠ []) (hn : NoWhite f)
    (hr : ∀ c, rest.head? = some c → White [c]) : fields (f ++ rest) = f :: fields rest := by
  rw [noWhite_iff_all] at hn
  have hf' : f.isEmpty = false := by cases f with
    | nil => exact absurd rfl hf
    | cons => rfl
  cases rest with
  | nil =>
    rw [List.append_nil]
    simp [fields, splitBy_word f hn, skipEmpty, hf', splitBy]
  | cons c r =>
    have hc := (isSpace_iff c).2 (hr c rfl)
    rw [fields_space hc]
    simp [fields, splitBy_word_sep f hn hc, skipEmpty, hf']

theorem fields_unique {s : Bytes} {fs : List Bytes} (h : Fields s fs) : fields s = fs := by
  induction h with
  | blank s hs => exact fields_white hs
  | cons w f rest fs hw hf hn hr _ ih =>
    rw [List.append_assoc, fields_white_append hw, fields_word hf hn hr, ih]

theorem fields_spec (s : Bytes) : Fields s (fields s) := by
  obtain ⟨n, hn⟩ : ∃ n, s.length = n := ⟨_, rfl⟩
  induction n using Nat.strongRecOn generalizing s with
  | ind n ih =>
    have hw : White (s.takeWhile isSpace) := by
      rw [white_iff_all]; intro c hc; exact List.all_eq_true.1 List.all_takeWhile c hc
    have e1 : s.takeWhile isSpace ++ s.dropWhile isSpace = s := List.takeWhile_append_dropWhile
    cases hd : s.dropWhile isSpace with
    | nil =>
      rw [hd, List.append_nil] at e1
      rw [e1] at hw
      rw [fields_white hw]; exact Fields.blank s hw
    | cons c r =>
      have hc : isSpace c = false := by
        have := List.head?_dropWhile_not isSpace s
        rw [hd] at this
        simpa using this
      let f := (c :: r).takeWhile (fun x => !isSpace x)
      let rest := (c :: r).dropWhile (fun x => !isSpace x)
      have e2 : f ++ rest = c :: r := List.takeWhile_append_dropWhile
      have hf : f ≠ [] := by simp [f, List.takeWhile_cons, hc]
      have hfn : NoWhite f := by
        rw [noWhite_iff_all]
        intro x hx
        have := List.all_eq_true.1 (List.all_takeWhile (p := fun x => !isSpace x) (l := c :: r)) x hx
        simpa using this
      have hr : ∀ x, rest.head? = some x → White [x] := by
        intro x hx
        have := List.head?_dropWhile_not (fun x => !isSpace x) (c :: r)
        have hx' : (List.dropWhile (fun x => !isSpace x) (c :: r)).head? = some x := hx
        rw [hx'] at this
        rw [← isSpace_iff]; simpa using this
      have hlen : rest.length < n := by
        have h1 : f.length + rest.length = (c :: r).length := by rw [← e2]; simp
        have h2 : (c :: r).length ≤ s.length := by
          rw [← hd]; exact (List.dropWhile_suffix isSpace).length_le
        have h3 : 0 < f.length := by cases hff : f with
          | nil => exact absurd hff hf
          | cons => simp
        omega
      have hs : s = s.takeWhile isSpace ++ f ++ rest := by
        rw [List.append_assoc, e2, ← hd]; exact e1.symm
      have hF := Fields.cons _ _ _ _ hw hf hfn hr (ih _ hlen rest rfl)
      rw [← hs] at hF
      rw [fields_unique hF]; exact hF

/-! ## Stripping -/

theorem stripLeading_append {w s : Bytes} (hw : White w) (hs : ∀ c, s.head? = some c → isSpace c = false) :
    stripLeading (w ++ s) = s := by
  induction w with
  | nil =>
    cases s with
    | nil => rfl
    | cons c s => simp [stripLeading, List.dropWhile_cons, hs c rfl]
  | cons c w ih =>
    rw [white_cons] at hw
    have := ih hw.2
    simpa [stripLeading, List.dropWhile_cons, hw.1] using this

theorem stripTrailing_append {w s : Bytes} (hw : White w) (hs : ∀ c, s.getLast? = some c → isSpace c = false) :
    stripTrailing (s ++ w) = s := by
  unfold stripTrailing
  have hw' : White w.reverse := by
    rw [white_iff_all] at hw ⊢; intro c hc; exact hw c (List.mem_reverse.1 hc)
  have := stripLeading_append (s := s.reverse) hw' (by rw [List.head?_reverse]; exact hs)
  unfold stripLeading at this
  rw [List.reverse_append, this, List.reverse_reverse]

theorem strip_padded {s core : Bytes} (h : Padded s core) : strip s = core := by
  obtain ⟨w, w', rfl, hw, hw', h1, h2⟩ := h
  unfold strip
  cases core with
  | nil =>
    have hww : White (w ++ [] ++ w') := by rw [List.append_nil, white_append]; exact ⟨hw, hw'⟩
    have := stripLeading_append (s := []) hww (fun c hc => nomatch hc)
    rw [List.append_nil] at this
    rw [this]; rfl
  | cons c r =>
    rw [List.append_assoc, stripLeading_append hw (by
      intro x hx; rw [isSpace_false_iff]; exact h1 x (by simpa using hx))]
    exact stripTrailing_append hw' (fun x hx => (isSpace_false_iff x).2 (h2 x hx))

theorem strip_spec (s : Bytes) : Padded s (strip s) := by
  have e1 : s.takeWhile isSpace ++ stripLeading s = s := List.takeWhile_append_dropWhile
  let t := stripLeading s
  have e2 : t.reverse.takeWhile isSpace ++ t.reverse.dropWhile isSpace = t.reverse := List.takeWhile_append_dropWhile
  have e3 : strip s ++ (t.reverse.takeWhile isSpace).reverse = t := by
    have := congrArg List.reverse e2
    rw [List.reverse_append, List.reverse_reverse] at this
    exact this
  refine ⟨s.takeWhile isSpace, (t.reverse.takeWhile isSpace).reverse, ?_, ?_, ?_, ?_, ?_⟩
  · rw [List.append_assoc, e3]; exact e1.symm
  · rw [white_iff_all]; intro c hc; exact List.all_eq_true.1 List.all_takeWhile c hc
  · rw [white_iff_all]; intro c hc
    exact List.all_eq_true.1 List.all_takeWhile c (List.mem_reverse.1 hc)
  · intro c hc
    rw [← isSpace_false_iff]
    have ht : t.head? = some c := by
      rw [← e3, List.head?_append, hc]; rfl
    have := List.head?_dropWhile_not isSpace s
    have ht' : (List.dropWhile isSpace s).head? = some c := ht
    rw [ht'] at this
    simpa using this
  · intro c hc
    rw [← isSpace_false_iff]
    have h' : (t.reverse.dropWhile isSpace).head? = some c := by
      rw [← List.getLast?_reverse]; exact hc
    have := List.head?_dropWhile_not isSpace t.reverse
    rw [h'] at this
    simpa using this

/-! ## Numbers -/

theorem digitsUpTo_iff (max : Nat) (d : Bytes) (v n : Nat) (hv : v ≤ max) :
    digitsUpTo max v d = some n ↔
      (∀ c ∈ d, 0x30 ≤ c ∧ c ≤ 0x39) ∧ d.foldl (fun v c => v * 10 + (c.toNat - 0x30)) v = n ∧ n ≤ max := by
  induction d generalizing v with
  | nil => simp [digitsUpTo]; intro h; omega
  | cons c r ih =>
    have mono : ∀ (r : Bytes) (v : Nat), v ≤ r.foldl (fun v c => v * 10 + (c.toNat - 0x30)) v := by
      intro r
      induction r with
      | nil => intro v; exact Nat.le_refl v
      | cons c r ih => intro v; exact Nat.le_trans (by show v ≤ v * 10 + (c.toNat - 0x30); omega) (ih _)
    rw [digitsUpTo]
    split
    · rename_i hc
      dsimp only
      split
      · rename_i hgt
        constructor
        · intro h; cases h
        · rintro ⟨_, h2, h3⟩
          rw [List.foldl_cons] at h2
          have := mono r (v * 10 + (c.toNat - 0x30))
          omega
      · rename_i hle
        rw [ih _ (by omega)]
        simp [hc]
    · rename_i hc
      constructor
      · intro h; cases h
      · rintro ⟨h1, _⟩; exact absurd (h1 c (by simp)) hc

theorem digit_not_space {c : UInt8} (h : 0x30 ≤ c ∧ c ≤ 0x39) : isSpace c = false := by
  have hh : ∀ n : Fin 256, (let c := UInt8.ofNat n.val; 0x30 ≤ c ∧ c ≤ 0x39) → isSpace (UInt8.ofNat n.val) = false := by
    decide +kernel
  have := hh ⟨c.toNat, c.toNat_lt⟩
  simp only [UInt8.ofNat_toNat] at this
  exact this h

theorem digit_not_sign {c : UInt8} (h : 0x30 ≤ c ∧ c ≤ 0x39) : c ≠ 0x2d ∧ c ≠ 0x2b ∧ c ≠ 0x5f ∧ c ≠ 0x21 ∧ c ≠ 0x5b ∧ c ≠ 0x5d := by
  have hh : ∀ n : Fin 256, (let c := UInt8.ofNat n.val; 0x30 ≤ c ∧ c ≤ 0x39) →
      (let c := UInt8.ofNat n.val; c ≠ 0x2d ∧ c ≠ 0x2b ∧ c ≠ 0x5f ∧ c ≠ 0x21 ∧ c ≠ 0x5b ∧ c ≠ 0x5d) := by
    decide +kernel
  have := hh ⟨c.toNat, c.toNat_lt⟩
  simp only [UInt8.ofNat_toNat] at this
  exact this h

/-- The core of a number text is found by stripping. -/
theorem strip_number {w sign d w' : Bytes} (hw : White w) (hw' : White w')
    (hs : sign = [] ∨ sign = bytes!"+" ∨ sign = bytes!"-") (hne : d ≠ []) (hd : ∀ c ∈ d, 0x30 ≤ c ∧ c ≤ 0x39) :
    strip (w ++ sign ++ d ++ w') = sign ++ d := by
  apply strip_padded
  refine ⟨w, w', by simp [List.append_assoc], hw, hw', ?_, ?_⟩
  · intro c hc
    rw [← isSpace_false_iff]
    rcases hs with rfl | rfl | rfl
    · rw [List.nil_append] at hc
      exact digit_not_space (hd c (List.mem_of_mem_head? hc))
    · rw [List.cons_append, List.head?_cons] at hc; cases hc; rfl
    · rw [List.cons_append, List.head?_cons] at hc; cases hc; rfl
  · intro c hc
    rw [← isSpace_false_iff]
    rw [List.getLast?_append] at hc
    cases hl : d.getLast? with
    | none => exact absurd (List.getLast?_eq_none_iff.1 hl) hne
    | some x =>
      rw [hl] at hc
      cases hc
      exact digit_not_space (hd _ (List.mem_of_getLast? hl))

theorem signSplit_digits {d : Bytes} (hd : ∀ c ∈ d, 0x30 ≤ c ∧ c ≤ 0x39) : signSplit d = (false, d) := by
  cases d with
  | nil => rfl
  | cons c r =>
    have h := digit_not_sign (hd c (by simp))
    unfold signSplit
    split
    · rename_i heq; cases heq; exact absurd rfl h.1
    · rename_i heq; cases heq; exact absurd rfl h.2.1
    · rfl

theorem signSplit_inv {s : Bytes} :
    (signSplit s = (true, s.tail) ∧ s = 0x2d :: s.tail) ∨ (signSplit s = (false, s.tail) ∧ s = 0x2b :: s.tail) ∨
      (signSplit s = (false, s)) := by
  unfold signSplit
  split
  · exact Or.inl ⟨rfl, rfl⟩
  · exact Or.inr (Or.inl ⟨rfl, rfl⟩)
  · exact Or.inr (Or.inr rfl)

theorem atoiU32_iff (s : Bytes) (n : Nat) : atoiU32 s = some n ↔ UIntText s n := by
  constructor
  · intro h
    obtain ⟨w, w', hs, hw, hw', _, _⟩ := strip_spec s
    unfold atoiU32 at h
    rcases signSplit_inv (s := strip s) with ⟨h1, h2⟩ | ⟨h1, h2⟩ | h1
    · rw [h1] at h; simp at h
    · rw [h1] at h
      dsimp only at h
      split at h
      · cases h
      · rename_i hne
        simp at hne
        rw [digitsUpTo_iff _ _ _ _ (by omega)] at h
        refine ⟨w, bytes!"+", (strip s).tail, w', ?_, hw, hw', Or.inr rfl, ⟨?_, h.1, h.2.1⟩, by omega⟩
        · conv => lhs; rw [hs, h2]
          simp
        · simpa using hne
    · rw [h1] at h
      dsimp only at h
      split at h
      · cases h
      · rename_i hne
        simp at hne
        rw [digitsUpTo_iff _ _ _ _ (by omega)] at h
        refine ⟨w, [], strip s, w', ?_, hw, hw', Or.inl rfl, ⟨by simpa using hne, h.1, h.2.1⟩, by omega⟩
        rw [List.append_nil]; exact hs
  · rintro ⟨w, sign, d, w', rfl, hw, hw', hsg, ⟨hne, hd, hn⟩, hlt⟩
    unfold atoiU32
    rw [strip_number hw hw' (hsg.elim Or.inl (fun h => Or.inr (Or.inl h))) hne hd]
    have hss : signSplit (sign ++ d) = (false, d) := by
      rcases hsg with rfl | rfl
      · exact signSplit_digits hd
      · rfl
    rw [hss]
    dsimp only
    rw [if_neg (by simpa using hne), digitsUpTo_iff _ _ _ _ (by omega)]
    exact ⟨hd, hn, by omega⟩

theorem atoiI32_iff (s : Bytes) (i : Int) : atoiI32 s = some i ↔ IntText s i := by
  constructor
  · intro h
    obtain ⟨w, w', hs, hw, hw', _, _⟩ := strip_spec s
    unfold atoiI32 at h
    rcases signSplit_inv (s := strip s) with ⟨h1, h2⟩ | ⟨h1, h2⟩ | h1
    · rw [h1] at h
      dsimp only at h
      split at h
      · cases h
      · rename_i hne
        simp at hne
        rw [if_pos rfl, Option.map_eq_some_iff] at h
        obtain ⟨n, hn, rfl⟩ := h
        rw [digitsUpTo_iff _ _ _ _ (by omega)] at hn
        refine ⟨w, bytes!"-", (strip s).tail, w', n, ?_, hw, hw', ⟨by simpa using hne, hn.1, hn.2.1⟩, Or.inr ⟨rfl, rfl, hn.2.2⟩⟩
        conv => lhs; rw [hs, h2]
        simp
    · rw [h1] at h
      dsimp only at h
      split at h
      · cases h
      · rename_i hne
        simp at hne
        rw [if_neg (by decide), Option.map_eq_some_iff] at h
        obtain ⟨n, hn, rfl⟩ := h
        rw [digitsUpTo_iff _ _ _ _ (by omega)] at hn
        refine ⟨w, bytes!"+", (strip s).tail, w', n, ?_, hw, hw', ⟨by simpa using hne, hn.1, hn.2.1⟩,
          Or.inl ⟨Or.inr rfl, rfl, by omega⟩⟩
        conv => lhs; rw [hs, h2]
        simp
    · rw [h1] at h
      dsimp only at h
      split at h
      · cases h
      · rename_i hne
        simp at hne
        rw [if_neg (by decide), Option.map_eq_some_iff] at h
        obtain ⟨n, hn, rfl⟩ := h
        rw [digitsUpTo_iff _ _ _ _ (by omega)] at hn
        refine ⟨w, [], strip s, w', n, ?_, hw, hw', ⟨by simpa using hne, hn.1, hn.2.1⟩,
          Or.inl ⟨Or.inl rfl, rfl, by omega⟩⟩
        rw [List.append_nil]; exact hs
  · rintro ⟨w, sign, d, w', n, rfl, hw, hw', ⟨hne, hd, hn⟩, hcase⟩
    unfold atoiI32
    have hsg : sign = [] ∨ sign = bytes!"+" ∨ sign = bytes!"-" := by
      rcases hcase with ⟨h | h, _⟩ | ⟨h, _⟩
      · exact Or.inl h
      · exact Or.inr (Or.inl h)
      · exact Or.inr (Or.inr h)
    rw [strip_number hw hw' hsg hne hd]
    rcases hcase with ⟨hs, rfl, hlt⟩ | ⟨rfl, rfl, hle⟩
    · have hss : signSplit (sign ++ d) = (false, d) := by
        rcases hs with rfl | rfl
        · exact signSplit_digits hd
        · rfl
      rw [hss]
      dsimp only
      rw [if_neg (by simpa using hne), if_neg (by decide), Option.map_eq_some_iff]
      exact ⟨n, (digitsUpTo_iff _ _ _ _ (by omega)).2 ⟨hd, hn, by omega⟩, rfl⟩
    · have hss : signSplit (bytes!"-" ++ d) = (true, d) := rfl
      rw [hss]
      dsimp only
      rw [if_neg (by simpa using hne), if_pos rfl, Option.map_eq_some_iff]
      exact ⟨n, (digitsUpTo_iff _ _ _ _ (by omega)).2 ⟨hd, hn, hle⟩, rfl⟩

/-! ## Hash maps as first-wins association lists -/

section
variable {κ ν : Type} [BEq κ] [LawfulBEq κ]

theorem lookup_append_single (m : List (κ × ν)) (k : κ) (v : ν) (j : κ) :
    (m ++ [(k, v)]).lookup j = (m.lookup j).or (if j == k then some v else none) := by
  induction m with
  | nil => simp only [List.nil_append, List.lookup]; cases j == k <;> simp
  | cons e m ih =>
    obtain ⟨a, b⟩ := e
    simp only [List.cons_append, List.lookup]
    cases j == a <;> simp [ih]

theorem lookup_insertNew (m : List (κ × ν)) (k : κ) (v : ν) (j : κ) :
    (insertNew m k v).lookup j = (m.lookup j).or (if j == k then some v else none) := by
  unfold insertNew
  split
  · rename_i h
    cases hm : m.lookup j with
    | some x => rfl
    | none =>
      cases hjk : j == k with
      | false => simp
      | true => rw [eq_of_beq hjk] at hm; rw [hm] at h; simp at h
  · exact lookup_append_single m k v j

/-- Inserting a list of entries. -/
def insertAll (m : List (κ × ν)) (es : List (κ × ν)) : List (κ × ν) := es.foldl (fun m e => insertNew m e.1 e.2) m

theorem lookup_insertAll (es m : List (κ × ν)) (j : κ) :
    (insertAll m es).lookup j = (m.lookup j).or (es.lookup j) := by
  induction es generalizing m with
  | nil => simp [insertAll]
  | cons e es ih =>
    show (insertAll (insertNew m e.1 e.2) es).lookup j = _
    rw [ih, lookup_insertNew]
    obtain ⟨a, b⟩ := e
    simp only [List.lookup]
    cases hja : j == a <;> simp [Option.or_assoc]

theorem lookup_isSome_iff (m : List (κ × ν)) (k : κ) : (m.lookup k).isSome = true ↔ k ∈ m.map (·.1) := by
  induction m with
  | nil => simp
  | cons e m ih =>
    obtain ⟨a, b⟩ := e
    simp only [List.lookup, List.map_cons, List.mem_cons]
    cases h : k == a with
    | true => simp [eq_of_beq h]
    | false =>
      simp only [ih]
      constructor
      · exact Or.inr
      · rintro (h' | h')
        · rw [h'] at h; simp at h
        · exact h'

theorem lookup_of_mem {m : List (κ × ν)} (h : (m.map (·.1)).Nodup) {k : κ} {v : ν} (hm : (k, v) ∈ m) :
    m.lookup k = some v := by
  induction m with
  | nil => cases hm
  | cons e m ih =>
    obtain ⟨a, b⟩ := e
    simp only [List.map_cons, List.nodup_cons] at h
    rcases List.mem_cons.1 hm with h' | h'
    · cases h'; simp [List.lookup]
    · have hne : (k == a) = false := by
        cases hc : k == a with
        | false => rfl
        | true =>
          exact absurd (List.mem_map_of_mem (f := (·.1)) h') (by rw [show (k, v).1 = a from eq_of_beq hc]; exact h.1)
      simp only [List.lookup, hne, ih h.2 h']

theorem mem_of_lookup {m : List (κ × ν)} {k : κ} {v : ν} (h : m.lookup k = some v) : (k, v) ∈ m := by
  induction m with
  | nil => cases h
  | cons e m ih =>
    obtain ⟨a, b⟩ := e
    simp only [List.lookup] at h
    cases hc : k == a with
    | true => rw [hc] at h; cases h; rw [eq_of_beq hc]; simp
    | false => rw [hc] at h; exact List.mem_cons_of_mem _ (ih h)

theorem nodup_insertNew {m : List (κ × ν)} (h : (m.map (·.1)).Nodup) (k : κ) (v : ν) :
    ((insertNew m k v).map (·.1)).Nodup := by
  unfold insertNew
  split
  · exact h
  · rename_i hn
    rw [List.map_append, List.nodup_append]
    refine ⟨h, by simp, ?_⟩
    intro a ha b hb
    rw [List.map_singleton, List.mem_singleton] at hb
    subst hb
    intro hab
    exact hn ((lookup_isSome_iff m _).2 (hab ▸ ha))

theorem nodup_insertAll {m : List (κ × ν)} (h : (m.map (·.1)).Nodup) (es : List (κ × ν)) :
    ((insertAll m es).map (·.1)).Nodup := by
  induction es generalizing m with
  | nil => exact h
  | cons e es ih => exact ih (nodup_insertNew h e.1 e.2)

/-- Entries with distinct new keys are all appended. -/
theorem insertAll_nodup (m es : List (κ × ν)) (h : ((m ++ es).map (·.1)).Nodup) : insertAll m es = m ++ es := by
  induction es generalizing m with
  | nil => simp [insertAll]
  | cons e es ih =>
    have hnew : insertNew m e.1 e.2 = m ++ [e] := by
      unfold insertNew
      rw [if_neg]
      rw [lookup_isSome_iff]
      intro hm
      rw [List.map_append, List.nodup_append] at h
      exact h.2.2 _ hm e.1 (by simp) rfl
    show insertAll (insertNew m e.1 e.2) es = _
    rw [hnew, ih (m ++ [e]) (by simpa using h)]
    simp

theorem lookup_assign (m : List (κ × ν)) (k : κ) (v : ν) (j : κ) :
    (assign m k v).lookup j = if j == k then some v else m.lookup j := by
  unfold assign
  split
  · rename_i h
    induction m with
    | nil => simp at h
    | cons e m ih =>
      obtain ⟨a, b⟩ := e
      simp only [List.map_cons]
      cases hak : a == k with
      | true =>
        have hak' := eq_of_beq hak
        subst hak'
        simp only [if_true, List.lookup]
        cases hja : j == a with
        | true => simp
        | false =>
          simp only [Bool.false_eq_true, if_false]
          clear ih h
          induction m with
          | nil => rfl
          | cons e m ih2 =>
            obtain ⟨a', b'⟩ := e
            simp only [List.map_cons]
            cases hak2 : a' == a with
            | true =>
              have := eq_of_beq hak2; subst this
              simp only [if_true, List.lookup, hja, ih2]
            | false =>
              simp only [Bool.false_eq_true, if_false, List.lookup, ih2]
      | false =>
        simp only [Bool.false_eq_true, if_false, List.lookup]
        simp only [List.lookup] at h
        have hka : (k == a) = false := by
          cases hc : k == a with
          | false => rfl
          | true => rw [eq_of_beq hc] at hak; simp at hak
        rw [hka] at h
        cases hja : j == a with
        | true =>
          have hj := eq_of_beq hja
          subst hj
          simp [hak]
        | false => simp only [ih h]
  · rename_i h
    rw [lookup_append_single]
    cases hjk : j == k with
    | true =>
      rw [eq_of_beq hjk]
      cases hm : m.lookup k with
      | none => rfl
      | some x => rw [hm] at h; simp at h
    | false => cases m.lookup j <;> rfl
end

end Verif.Text

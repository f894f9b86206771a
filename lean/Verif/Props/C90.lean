import Verif.Model.Tidy.Command
import Verif.Props.C89
/-! # C90: the directory of the cache belongs to the configuration -/
namespace Verif.Props
open Verif.Tidy Verif.Spec.Tidy Re

/-- `version ` -/
def versionWord : Bytes := bytes!"version "

/-- The first number behind the word `version` and a space in a text: all its digits. -/
def FirstVersion (text digits : Bytes) : Prop :=
  ∃ pre post, text = pre ++ versionWord ++ digits ++ post ∧ Number digits ∧ (∀ c r, post = c :: r → ¬ (0x30 ≤ c.toNat ∧ c.toNat ≤ 0x39)) ∧
    ∀ pre' d r, text = pre' ++ versionWord ++ d :: r → 0x30 ≤ d.toNat → d.toNat ≤ 0x39 → pre.length ≤ pre'.length

private theorem derives_word {w : Bytes} (hw : w ≠ []) {s t : Pos} : Derives (word w) s t ↔ s.rest = w ++ t.rest ∧ t = s.move w t.rest := by
  induction w generalizing s with
  | nil => exact absurd rfl hw
  | cons c w ih =>
    cases w with
    | nil => rw [word, derives_chr]; rfl
    | cons d w =>
      rw [word, derives_seq]
      · constructor
        · rintro ⟨u, h1, h2⟩
          obtain ⟨e1, f1⟩ := derives_chr.1 h1
          obtain ⟨e2, f2⟩ := (ih (by simp)).1 h2
          refine ⟨by rw [e1, e2]; rfl, ?_⟩
          rw [f2, f1]
          simp [Pos.move]
        · rintro ⟨e, f⟩
          refine ⟨s.move [c] (d :: w ++ t.rest), derives_chr.2 ⟨by rw [e]; rfl, rfl⟩, (ih (by simp)).2 ⟨rfl, ?_⟩⟩
          rw [f]
          simp [Pos.move]
      · simp

private theorem isDigit_iff' (c : UInt8) : isDigit c = true ↔ 0x30 ≤ c.toNat ∧ c.toNat ≤ 0x39 := by
  have := (number_iff [c])
  unfold Number at this
  simpa using this.symm

private theorem versionRe_iff {s t : Pos} : Derives versionRe s t ↔ ∃ ds, Number ds ∧ s.rest = versionWord ++ ds ++ t.rest ∧ t = ⟨(versionWord ++ ds).reverse ++ s.left, t.rest, ds⟩ := by
  unfold versionRe
  rw [derives_seq]
  constructor
  · rintro ⟨u, h1, h2⟩
    obtain ⟨e1, f1⟩ := (derives_word (by decide)).1 h1
    obtain ⟨v, w, h3, e3, e4, e5, e6, e7⟩ := derives_cap.1 h2
    obtain ⟨w', n1, n2, e8, f8⟩ := derives_plus_set.1 h3
    have hw : w' = w := by
      rw [e3] at e8
      rw [e4] at e8
      exact (List.append_cancel_right e8).symm
    subst hw
    refine ⟨w', (number_iff _).2 ⟨n1, n2⟩, ?_, ?_⟩
    · rw [e1, e3]; simp [versionWord]
    · obtain ⟨tl, tr, tg⟩ := t
      simp only at *
      rw [f1] at e6
      simp only [Pos.move] at e6
      rw [e6, e7]
      simp [versionWord]
  · rintro ⟨ds, hn, e, f⟩
    refine ⟨s.move versionWord (ds ++ t.rest), (derives_word (by decide)).2 ⟨?_, rfl⟩, ?_⟩
    · rw [e]; simp [Pos.move, versionWord]
    · refine derives_cap.2 ⟨⟨t.left, t.rest, s.group⟩, ds, derives_plus_set.2 ⟨ds, hn.1, ((number_iff _).1 hn).2, rfl, ?_⟩, rfl, rfl, rfl, ?_, ?_⟩
      · rw [f]; simp [Pos.move]
      · rw [f]; simp [Pos.move]
      · rw [f]

private theorem head_longest {L : List Pos} {t x : Pos} (h : Longest L) (ht : L.head? = some t) (hx : x ∈ L) : x.left.length ≤ t.left.length := by
  cases L with
  | nil => cases ht
  | cons y L =>
    cases ht
    rcases List.mem_cons.1 hx with rfl | hx
    · exact Nat.le_refl _
    · exact Nat.le_of_lt ((List.pairwise_cons.1 h).1 x hx)

private theorem digits_unique {ds ds' post post' : Bytes} (h : Number ds) (h' : Number ds')
    (hp : ∀ c r, post = c :: r → ¬ (0x30 ≤ c.toNat ∧ c.toNat ≤ 0x39)) (hp' : ∀ c r, post' = c :: r → ¬ (0x30 ≤ c.toNat ∧ c.toNat ≤ 0x39))
    (e : ds ++ post = ds' ++ post') : ds = ds' := by
  have key : ∀ {ds post : Bytes}, Number ds → (∀ c r, post = c :: r → ¬ (0x30 ≤ c.toNat ∧ c.toNat ≤ 0x39)) → (ds ++ post).takeWhile isDigit = ds := by
    intro ds post h hp
    rw [List.takeWhile_append_of_pos ((number_iff _).1 h).2]
    cases post with
    | nil => simp
    | cons c r =>
      rw [List.takeWhile_cons, if_neg (fun hc => hp c r rfl ((isDigit_iff' c).1 hc)), List.append_nil]
  rw [← key h hp, ← key h' hp', e]

theorem firstVersion_unique {text ds ds' : Bytes} (h : FirstVersion text ds) (h' : FirstVersion text ds') : ds = ds' := by
  obtain ⟨pre, post, e, hn, hp, hmin⟩ := h
  obtain ⟨pre', post', e', hn', hp', hmin'⟩ := h'
  obtain ⟨d, r, hd⟩ := List.exists_cons_of_ne_nil hn.1
  obtain ⟨d', r', hd'⟩ := List.exists_cons_of_ne_nil hn'.1
  have h1 := hmin pre' d' (r' ++ post') (by rw [e', hd']; simp) (hn'.2 d' (by rw [hd']; simp)).1 (hn'.2 d' (by rw [hd']; simp)).2
  have h2 := hmin' pre d (r ++ post) (by rw [e, hd]; simp) (hn.2 d (by rw [hd]; simp)).1 (hn.2 d (by rw [hd]; simp)).2
  have h3 : pre ++ (versionWord ++ (ds ++ post)) = pre' ++ (versionWord ++ (ds' ++ post')) := by
    rw [← List.append_assoc, ← List.append_assoc, ← e, e']; simp
  obtain ⟨_, h4⟩ := List.append_inj h3 (by omega)
  exact digits_unique hn hn' hp hp' (List.append_cancel_left h4)

private theorem plus_longest' (s : Pos) : Longest (ways (cap (plus (set isDigit))) s) := cap_longest (plus_longest _ _)

/-- The version in the name is the first number behind the word `version`, or `UNKNOWN` if there is none. -/
theorem C90_version (version : Bytes) :
    (∀ digits, FirstVersion version digits → majorVersion version = digits) ∧
      ((∀ digits, ¬ FirstVersion version digits) → majorVersion version = bytes!"UNKNOWN") := by
  have hfound : ∀ a t, search versionRe version.length ⟨[], version, []⟩ = some (a, t) → FirstVersion version t.group := by
    intro a t hs
    obtain ⟨pre, e1, f1, hh, hbefore⟩ := search_some hs
    have hd := (mem_ways _ _ _).1 (List.mem_of_mem_head? (by rw [hh]; rfl))
    obtain ⟨ds, hn, e2, f2⟩ := versionRe_iff.1 hd
    have hg : t.group = ds := by rw [f2]
    rw [hg]
    refine ⟨pre, t.rest, ?_, hn, ?_, ?_⟩
    · simp only at e1
      rw [e1, e2]
      simp
    · -- as many digits as possible
      intro c r hc hdig
      obtain ⟨u, hu, h2, hmax⟩ := head_flatMap (L := ways (word versionWord) a) (f := ways (cap (plus (set isDigit)))) hh
      obtain ⟨eu, fu⟩ := (derives_word (by decide : versionWord ≠ [])).1 ((mem_ways _ _ _).1 hu)
      have hu' : u.rest = ds ++ c :: r := by
        rw [eu, hc] at e2
        simpa using e2
      have hlong : (⟨(ds ++ [c]).reverse ++ u.left, r, ds ++ [c]⟩ : Pos) ∈ ways (cap (plus (set isDigit))) u := by
        refine (mem_ways _ _ _).2 (derives_cap.2 ⟨⟨(ds ++ [c]).reverse ++ u.left, r, u.group⟩, ds ++ [c], derives_plus_set.2 ⟨ds ++ [c], by simp, ?_, ?_, rfl⟩, ?_, rfl, rfl, rfl, rfl⟩)
        · intro x hx
          rcases List.mem_append.1 hx with hx | hx
          · exact ((number_iff _).1 hn).2 x hx
          · rw [List.mem_singleton.1 hx]; exact (isDigit_iff' c).2 hdig
        · rw [hu']; simp
        · rw [hu']; simp
      have hle := head_longest (plus_longest' u) h2 hlong
      rw [f2, fu] at hle
      simp [Pos.move] at hle
      omega
    · intro pre' d r e hd1 hd2
      rcases Nat.lt_or_ge pre'.length pre.length with hlt | hge
      · exfalso
        simp only at e1
        have hx : pre' ++ (versionWord ++ d :: r) = pre ++ a.rest := by rw [← e1, e]; simp
        rcases List.append_eq_append_iff.1 hx with ⟨x, h1, h2⟩ | ⟨x, h1, h2⟩
        · have hne : x ≠ [] := by
            rintro rfl
            rw [List.append_nil] at h1
            rw [h1] at hlt
            omega
          have hnil := hbefore pre' x h1.symm hne
          have hmem : (⟨(versionWord ++ [d]).reverse ++ (Pos.move ⟨[], version, []⟩ pre' (x ++ a.rest)).left, r, [d]⟩ : Pos) ∈ ways versionRe (Pos.move ⟨[], version, []⟩ pre' (x ++ a.rest)) := by
            refine (mem_ways _ _ _).2 (versionRe_iff.2 ⟨[d], ⟨by simp, by simpa using ⟨hd1, hd2⟩⟩, ?_, rfl⟩)
            simp only [Pos.move]
            rw [← h2]
            simp
          rw [hnil] at hmem
          cases hmem
        · have := congrArg List.length h1
          simp at this
          omega
      · exact hge
  constructor
  · intro ds hds
    unfold majorVersion
    cases hs : search versionRe version.length ⟨[], version, []⟩ with
    | some r => exact firstVersion_unique (hfound r.1 r.2 hs) hds
    | none =>
      exfalso
      obtain ⟨pre, post, e, hn, _, _⟩ := hds
      have hnil := search_none (s := ⟨[], version, []⟩) (Nat.le_refl _) hs pre (versionWord ++ ds ++ post) (by simp [e])
      have hmem : (⟨(versionWord ++ ds).reverse ++ (Pos.move ⟨[], version, []⟩ pre (versionWord ++ ds ++ post)).left, post, ds⟩ : Pos) ∈ ways versionRe (Pos.move ⟨[], version, []⟩ pre (versionWord ++ ds ++ post)) :=
        (mem_ways _ _ _).2 (versionRe_iff.2 ⟨ds, hn, rfl, rfl⟩)
      rw [hnil] at hmem
      cases hmem
  · intro hno
    unfold majorVersion
    cases hs : search versionRe version.length ⟨[], version, []⟩ with
    | some r => exact absurd (hfound r.1 r.2 hs) (hno _)
    | none => rfl

private theorem hexDigits_drop (k j v : Nat) : (hexDigits (k + j) v).drop k = hexDigits j v := by
  induction j generalizing v with
  | zero => rw [Nat.add_zero]; exact List.drop_eq_nil_of_le (by rw [hexDigits_length]; exact Nat.le_refl _)
  | succ j ih =>
    rw [← Nat.add_assoc, hexDigits, hexDigits, List.drop_append_of_le_length (by rw [hexDigits_length]; omega), ih]

private theorem hexDigits_mod (k v : Nat) : hexDigits k (v % 16 ^ k) = hexDigits k v := by
  induction k generalizing v with
  | zero => rfl
  | succ k ih =>
    rw [hexDigits, hexDigits]
    have h1 : v % 16 ^ (k + 1) / 16 = v / 16 % 16 ^ k := by
      rw [Nat.pow_succ, Nat.mul_comm, Nat.mod_mul_right_div_self]
    have h2 : v % 16 ^ (k + 1) % 16 = v % 16 := Nat.mod_mod_of_dvd v (by rw [Nat.pow_succ]; exact Nat.dvd_mul_left _ _)
    rw [h1, h2, ih]

private theorem toHex8_iff (a b : BitVec 64) : toHex a 8 = toHex b 8 ↔ a.toNat % 2 ^ 32 = b.toNat % 2 ^ 32 := by
  have h : ∀ v : BitVec 64, toHex v 8 = hexDigits 8 (v.toNat % 16 ^ 8) := fun v => by
    rw [hexDigits_mod]; exact hexDigits_drop 8 8 v.toNat
  rw [h, h]
  constructor
  · intro e
    exact hexDigits_inj (Nat.mod_lt _ (by decide)) (Nat.mod_lt _ (by decide)) e
  · intro e
    have : (16 : Nat) ^ 8 = 2 ^ 32 := by decide
    rw [this, e]

private theorem major_chars (version : Bytes) : (0x76 : UInt8) ∉ majorVersion version := by
  by_cases h : ∃ ds, FirstVersion version ds
  · obtain ⟨ds, h⟩ := h
    rw [(C90_version version).1 ds h]
    obtain ⟨_, _, _, hn, _⟩ := h
    intro hm
    have := hn.2 _ hm
    revert this
    decide
  · rw [(C90_version version).2 fun ds hd => h ⟨ds, hd⟩]
    decide

/-- Two configurations share a directory exactly when the prefix and the version agree and the keys agree in their lower 32 bits. -/
theorem C90_same (hash : Bytes → BitVec 64) (p p' version version' args args' config config' : Bytes) :
    projectDir hash p version args config = projectDir hash p' version' args' config' ↔
      p = p' ∧ majorVersion version = majorVersion version' ∧
        (hash (version ++ args) ^^^ hash config).toNat % 2 ^ 32 = (hash (version' ++ args') ^^^ hash config').toNat % 2 ^ 32 := by
  unfold projectDir
  constructor
  · intro e
    have hlen : ∀ v : BitVec 64, (toHex v 8).length = 8 := fun v => by simp [toHex, hexDigits_length]
    obtain ⟨e1, e2⟩ := List.append_inj' e (by rw [hlen, hlen])
    obtain ⟨e3, _⟩ := List.append_inj' e1 rfl
    have e4 := congrArg List.reverse e3
    rw [List.reverse_append, List.reverse_append, List.reverse_append, List.reverse_append] at e4
    have nv : ∀ version, ∀ c ∈ (majorVersion version).reverse, decide (c ≠ 0x76) = true := fun version c hc => by
      simp only [decide_eq_true_eq]; intro h; exact major_chars version (by rw [← h]; simpa using hc)
    obtain ⟨e5, _, e6⟩ := span_unique (p := fun c => decide (c ≠ 0x76)) (nv version) (nv version') (by decide) (by decide) e4
    exact ⟨List.reverse_inj.1 e6, List.reverse_inj.1 e5, (toHex8_iff _ _).1 e2⟩
  · rintro ⟨rfl, h2, h3⟩
    rw [h2, (toHex8_iff _ _).2 h3]

private theorem xor_low (a b c : BitVec 64) : (a ^^^ b).toNat % 2 ^ 32 = (a ^^^ c).toNat % 2 ^ 32 ↔ b.toNat % 2 ^ 32 = c.toNat % 2 ^ 32 := by
  have h : ∀ x y : BitVec 64, x.toNat % 2 ^ 32 = y.toNat % 2 ^ 32 ↔ x.setWidth 32 = y.setWidth 32 := fun x y => by
    rw [← BitVec.toNat_inj, BitVec.toNat_setWidth, BitVec.toNat_setWidth]
  rw [h, h, BitVec.setWidth_xor, BitVec.setWidth_xor]
  exact BitVec.xor_right_inj _

/-- Another configuration file: another directory, unless the hashes agree in their lower 32 bits. -/
theorem C90_config (hash : Bytes → BitVec 64) (p version args config config' : Bytes) :
    projectDir hash p version args config = projectDir hash p version args config' ↔ (hash config).toNat % 2 ^ 32 = (hash config').toNat % 2 ^ 32 := by
  rw [C90_same, xor_low]
  simp

/-- Another tool or other arguments: another directory, unless the versions and the lower 32 bits of the hashes agree. -/
theorem C90_tool (hash : Bytes → BitVec 64) (p version version' args args' config : Bytes) :
    projectDir hash p version args config = projectDir hash p version' args' config ↔
      majorVersion version = majorVersion version' ∧ (hash (version ++ args)).toNat % 2 ^ 32 = (hash (version' ++ args')).toNat % 2 ^ 32 := by
  rw [C90_same, BitVec.xor_comm _ (hash config), BitVec.xor_comm _ (hash config), xor_low]
  simp

/-! ## Non-vacuity -/

/-- `a version 15.2`: 15. -/
example : majorVersion bytes!"a version 15.2" = bytes!"15" := by decide +kernel

example : FirstVersion bytes!"version 15." bytes!"15" :=
  ⟨[], bytes!".", rfl, ⟨by decide, by decide⟩, by rintro c r h; cases h; decide, by intros; exact Nat.zero_le _⟩

example : ∀ digits, ¬ FirstVersion bytes!"v1" digits := by
  rintro ds ⟨pre, post, e, _⟩
  have := congrArg List.length e
  simp [versionWord] at this
  omega

end Verif.Props

import Verif.Proofs.DbText
/-! # Package pins and mapping files: proofs -/
namespace Verif.Db
open Verif.Text Verif.Spec

theorem notMem_decide {x : UInt8} {s : Bytes} (h : x ∉ s) : ∀ c ∈ s, decide (c = x) = false := by
  intro c hc
  have : c ≠ x := fun e => h (e ▸ hc)
  simpa using this

/-! ## CSV -/

theorem pieces_unique {l : Bytes} {ps : List Bytes} (h : Pieces l ps) :
    splitBy (fun c => decide (c = (0x2c : UInt8))) l = ps := by
  induction h with
  | last s hs => exact splitBy_word s (notMem_decide hs)
  | cons s rest ps hs _ ih =>
    rw [splitBy_word_sep s (notMem_decide hs) (by decide), ih]

theorem pieces_spec (l : Bytes) : Pieces l (splitBy (fun c => decide (c = (0x2c : UInt8))) l) := by
  induction l with
  | nil => exact Pieces.last [] (by simp)
  | cons c r ih =>
    simp only [splitBy]
    split
    · rename_i hc
      have hc' : c = 0x2c := by simpa using hc
      subst hc'
      exact Pieces.cons [] r _ (by simp) ih
    · rename_i hc
      have hc' : c ≠ 0x2c := by simpa using hc
      generalize splitBy (fun c => decide (c = (0x2c : UInt8))) r = ps at ih
      cases ih with
      | last _ hs => exact Pieces.last (c :: r) (by simp [hs, Ne.symm hc'])
      | cons s rest ps hs hr => exact Pieces.cons (c :: s) rest ps (by simp [hs, Ne.symm hc']) hr

/-- The cells as the code computes them. -/
def segs (l : Bytes) : List Bytes := (skipEmpty (splitBy (fun c => decide (c = (0x2c : UInt8))) l)).map strip

theorem cells_unique {l : Bytes} {cs : List Bytes} (h : Cells l cs) : segs l = cs := by
  obtain ⟨ps, hp, hpad, rfl⟩ := h
  unfold segs
  rw [pieces_unique hp]
  clear hp
  induction ps with
  | nil => rfl
  | cons p ps ih =>
    have ih := ih (fun q hq => hpad q (by simp [hq]))
    simp only [List.map_cons, skipEmpty, List.filter_cons] at ih ⊢
    by_cases hp : p.1 = []
    · simp only [hp, List.isEmpty_nil, Bool.not_true, Bool.false_eq_true, if_false, ne_eq, not_true_eq_false,
        decide_false]
      exact ih
    · have h1 : (!p.1.isEmpty) = true := by simpa using hp
      rw [if_pos h1, if_pos (by simpa using hp), List.map_cons, List.map_cons, ih, strip_padded (hpad p (by simp) hp)]

theorem cells_spec (l : Bytes) : Cells l (segs l) := by
  refine ⟨(splitBy (fun c => decide (c = (0x2c : UInt8))) l).map (fun s => (s, strip s)), ?_, ?_, ?_⟩
  · rw [List.map_map]
    have : ((fun p : Bytes × Bytes => p.1) ∘ fun s => (s, strip s)) = id := rfl
    rw [this, List.map_id]
    exact pieces_spec l
  · intro p hp _
    obtain ⟨s, _, rfl⟩ := List.mem_map.1 hp
    exact strip_spec s
  · unfold segs skipEmpty
    rw [List.filter_map, List.map_map]
    congr 1
    apply List.filter_congr
    intro s _
    cases s <;> simp

/-- Data row of the CSV. -/
theorem csvRow_ok {l : Bytes} {e : Option PackagePin} (h : PinRow l e) (out : PackagePins) (n : Nat) (hn : n ≠ 1) :
    csvLine out n l = .ok (out ++ e.toList) := by
  cases h with
  | blank hc =>
    have := cells_unique hc
    unfold segs at this
    unfold csvLine
    simp [hn, this]
  | row p bank hc hb =>
    have := cells_unique hc
    unfold segs at this
    unfold csvLine
    simp only [hn, this, if_false, (atoiU32_iff _ _).2 hb]
    rfl

theorem csvRow_inv {l : Bytes} {out out' : PackagePins} {n : Nat} (hn : n ≠ 1) (h : csvLine out n l = .ok out') :
    ∃ e, PinRow l e := by
  have hc := cells_spec l
  unfold segs at hc
  unfold csvLine at h
  dsimp only at h
  rw [if_neg hn] at h
  split at h
  · rename_i hs
    rw [hs] at hc
    exact ⟨none, PinRow.blank l hc⟩
  · rename_i s0 s1 s2 s3 s4 hs
    rw [hs] at hc
    split at h
    · cases h
    · rename_i bank hb
      exact ⟨some _, PinRow.row l ⟨s0, bank, s2, s3, s4⟩ s1 hc ((atoiU32_iff _ _).1 hb)⟩
  · cases h

theorem csvLine_cases (out : PackagePins) (n : Nat) (l : Bytes) :
    (∃ s, csvLine out n l = .ok s) ∨ csvLine out n l = .err := by
  unfold csvLine
  dsimp only
  repeat' split
  all_goals first | exact Or.inl ⟨_, rfl⟩ | exact Or.inr rfl

theorem csvHeader_line (out : PackagePins) (l : Bytes) :
    csvLine out 1 l = if segs l = headerCells then .ok out else .err := rfl

theorem feed_csv_rows (rows : List (Bytes × Option PackagePin)) (h : ∀ r ∈ rows, PinRow r.1 r.2) (n : Nat) (hn : 1 ≤ n)
    (hlen : n + rows.length ≤ 2 ^ 32) (out : PackagePins) :
    feed csvLine n (rows.map (·.1)) out = .ok (out ++ rows.filterMap (·.2)) := by
  induction rows generalizing n out with
  | nil => simp [feed]
  | cons r rows ih =>
    simp only [List.length_cons] at hlen
    simp only [List.map_cons, feed]
    rw [csvRow_ok (h r (by simp)) out _ (by omega), Outcome.bind_ok,
      ih (fun q hq => h q (by simp [hq])) (n + 1) (by omega) (by omega)]
    cases hr : r.2 <;> simp [List.filterMap_cons, hr]

theorem feed_csv_inv (rows : List Bytes) (n : Nat) (hn : 1 ≤ n) (hlen : n + rows.length ≤ 2 ^ 32)
    (out out' : PackagePins) (h : feed csvLine n rows out = .ok out') : ∀ r ∈ rows, ∃ e, PinRow r e := by
  induction rows generalizing n out with
  | nil => intro r hr; cases hr
  | cons r rows ih =>
    simp only [List.length_cons] at hlen
    obtain ⟨s, h1, h2⟩ := Outcome.bind_eq_ok.1 h
    intro q hq
    rcases List.mem_cons.1 hq with rfl | hq
    · exact csvRow_inv (by omega) h1
    · exact ih (n + 1) (by omega) (by omega) s h2 q hq

theorem feed_cases {σ : Type} (sink : σ → Nat → Bytes → Outcome σ)
    (hok : ∀ l st n, (∃ s, sink st n l = .ok s) ∨ sink st n l = .err) (ls : List Bytes) (n : Nat) (st : σ) :
    (∃ s, feed sink n ls st = .ok s) ∨ feed sink n ls st = .err := by
  induction ls generalizing n st with
  | nil => exact Or.inl ⟨_, rfl⟩
  | cons l ls ih =>
    simp only [feed]
    rcases hok l st ((n + 1) % 2 ^ 32) with ⟨s, hs⟩ | hs
    · rw [hs]; exact ih _ _
    · rw [hs]; exact Or.inr rfl

/-! ## Quotes -/

theorem removeQuotes_spec {q s : Bytes} (h : Quoted q s) : removeQuotes q = s := by
  unfold removeQuotes
  rcases h with rfl | rfl | ⟨rfl, hn⟩
  · rw [if_pos (by simp), if_pos (Or.inl ⟨rfl, by rw [← List.cons_append, List.getLast?_append]; rfl⟩)]
    simp
  · rw [if_pos (by simp), if_pos (Or.inr ⟨rfl, by rw [← List.cons_append, List.getLast?_append]; rfl⟩)]
    simp
  · split
    · rename_i hl
      split
      · rename_i hq
        exfalso
        cases q with
        | nil => simp at hl
        | cons c r =>
          cases hr : r.reverse with
          | nil =>
            have : r = [] := by simpa using hr
            subst this; simp at hl
          | cons x t =>
            have hr' : r = t.reverse ++ [x] := by
              have := congrArg List.reverse hr; simpa using this
            subst hr'
            rw [← List.cons_append, List.getLast?_append] at hq
            simp only [List.cons_append, List.head?_cons, Option.some.injEq, List.getLast?_singleton, Option.some_or] at hq
            rcases hq with ⟨rfl, rfl⟩ | ⟨rfl, rfl⟩
            · exact (hn t.reverse).1 rfl
            · exact (hn t.reverse).2 rfl
      · rfl
    · rfl

theorem quoted_total (q : Bytes) : ∃ s, Quoted q s := by
  by_cases h1 : ∃ t, q = 0x22 :: (t ++ bytes!"\"")
  · obtain ⟨t, h⟩ := h1; exact ⟨t, Or.inl h⟩
  · by_cases h2 : ∃ t, q = 0x27 :: (t ++ bytes!"'")
    · obtain ⟨t, h⟩ := h2; exact ⟨t, Or.inr (Or.inl h)⟩
    · exact ⟨q, Or.inr (Or.inr ⟨rfl, fun t => ⟨fun h => h1 ⟨t, h⟩, fun h => h2 ⟨t, h⟩⟩⟩)⟩

/-! ## YAML lines -/

theorem find_spec (c : UInt8) (a b : Bytes) (ha : c ∉ a) : find c (a ++ c :: b) = some a.length := by
  unfold find
  rw [List.findIdx?_eq_some_iff_getElem]
  refine ⟨by simp, by simp, ?_⟩
  intro j hj
  rw [List.getElem_append_left (by simpa using hj)]
  simp only [decide_eq_true_eq]
  intro he
  exact ha (he ▸ List.getElem_mem _)

theorem find_none (c : UInt8) (s : Bytes) (h : c ∉ s) : find c s = none := by
  unfold find
  rw [List.findIdx?_eq_none_iff]
  intro x hx
  have : x ≠ c := fun e => h (e ▸ hx)
  simpa using this

theorem indent_zero (c : UInt8) (r : Bytes) :
    (c :: r).length - (stripLeading (c :: r)).length = 0 ↔ isSpace c = false := by
  unfold stripLeading
  cases h : isSpace c with
  | false => simp [List.dropWhile_cons, h]
  | true =>
    rw [List.dropWhile_cons, if_pos h]
    have := (List.dropWhile_suffix isSpace (l := r)).length_le
    simp only [List.length_cons]
    constructor
    · intro; omega
    · intro h; cases h

/-- Effect of a line on the state. -/
def yamlStep {σ : Type} (sink : σ → Bytes → List (Bytes × Bytes) → Outcome σ) (st : YamlSt σ) : YamlKind → Outcome (YamlSt σ)
  | .skip => .ok st
  | .key k => do
    let out ← yamlFlush sink st
    pure { key := k, props := [], out := out }
  | .prop k v => .ok { st with props := assign st.props k v }

theorem yamlLine_step {σ : Type} (sink : σ → Bytes → List (Bytes × Bytes) → Outcome σ) (st : YamlSt σ) {l : Bytes}
    {k : YamlKind} (h : YamlLine l k) : yamlLine sink st l = yamlStep sink st k := by
  unfold yamlLine
  dsimp only
  cases h with
  | blank _ hw =>
    have : strip l = [] := strip_padded ⟨l, [], by simp, hw, white_nil, by simp, by simp⟩
    rw [if_pos (Or.inl this)]; rfl
  | comment _ r hp =>
    rw [strip_padded hp, if_pos (Or.inr (by rfl))]; rfl
  | key q w k hw hh hq =>
    have hst : strip (q ++ 0x3a :: w) = q ++ bytes!":" := by
      apply strip_padded
      refine ⟨[], w, by simp, white_nil, hw, fun c hc => (hh c hc).1, ?_⟩
      intro c hc
      rw [List.getLast?_append] at hc
      cases hc
      rw [← isSpace_false_iff]; rfl
    have hhead : ∃ c r, q ++ 0x3a :: w = c :: r ∧ isSpace c = false ∧ c ≠ 0x23 := by
      cases q with
      | nil => exact ⟨0x3a, w, rfl, rfl, by decide⟩
      | cons c r =>
        have := hh c (by simp)
        exact ⟨c, _, rfl, (isSpace_false_iff c).2 this.1, this.2⟩
    have hnot : ¬ (q ++ bytes!":" = [] ∨ (q ++ bytes!":").head? = some 0x23) := by
      rintro (h | h)
      · simp at h
      · exact (hh _ h).2 rfl
    rw [hst, if_neg hnot]
    obtain ⟨c, r, he, hc, _⟩ := hhead
    rw [if_pos (by rw [he]; exact (indent_zero c r).2 hc)]
    have hend : endsWith 0x3a (q ++ bytes!":") = true := by
      unfold endsWith; rw [List.getLast?_append]; rfl
    simp only [hend, if_true, List.dropLast_concat, removeQuotes_spec hq]
    rfl
  | prop _ a b q k v hh hp ha hnc hk hb hq =>
    have hst := strip_padded hp
    have hnot : ¬ (a ++ 0x3a :: b = [] ∨ (a ++ 0x3a :: b).head? = some 0x23) := by
      rintro (h | h)
      · simp at h
      · apply hnc
        cases a with
        | nil => exact h
        | cons c r => exact h
    rw [hst, if_neg hnot]
    have hl : l ≠ [] := by
      rintro rfl
      obtain ⟨w, w', he, _⟩ := hp
      simp at he
    cases l with
    | nil => exact absurd rfl hl
    | cons c r =>
      have hc := (isSpace_iff c).2 (hh c rfl)
      rw [if_neg (by rw [indent_zero]; simp [hc]), find_spec _ _ _ ha]
      dsimp only
      have h1 : (a ++ 0x3a :: b).take a.length = a := by simp
      have h2 : (a ++ 0x3a :: b).drop (a.length + 1) = b := by rw [List.drop_append]; simp
      rw [h1, h2, strip_padded hk, strip_padded hb, removeQuotes_spec hq]
      rfl

theorem yamlLine_bad {σ : Type} (sink : σ → Bytes → List (Bytes × Bytes) → Outcome σ)
    (hsink : ∀ s k p, (∃ s', sink s k p = .ok s') ∨ sink s k p = .err) (st : YamlSt σ) {l : Bytes}
    (h : BadYamlLine l) : yamlLine sink st l = .err := by
  obtain ⟨core, hp, hne, hnc, h⟩ := h
  unfold yamlLine
  dsimp only
  rw [strip_padded hp, if_neg (fun h => h.elim hne hnc)]
  rcases h with ⟨⟨c, hc, hw⟩, hl⟩ | ⟨⟨c, hc, hw⟩, hl⟩
  · cases l with
    | nil => simp at hc
    | cons x r =>
      simp only [List.head?_cons, Option.some.injEq] at hc
      subst hc
      rw [if_pos ((indent_zero _ _).2 ((isSpace_false_iff _).2 hw))]
      have hend : endsWith 0x3a core = false := by unfold endsWith; simpa using hl
      simp only [hend]
      unfold yamlFlush
      split
      · rcases hsink st.out st.key st.props with ⟨s', hs⟩ | hs
        · rw [hs]; rfl
        · rw [hs]; rfl
      · rfl
  · cases l with
    | nil => simp at hc
    | cons x r =>
      simp only [List.head?_cons, Option.some.injEq] at hc
      subst hc
      rw [if_neg (by rw [indent_zero, (isSpace_iff _).2 hw]; simp), find_none _ _ hl]

theorem yamlLine_total (l : Bytes) : (∃ k, YamlLine l k) ∨ BadYamlLine l := by
  have hp := strip_spec l
  by_cases h0 : strip l = []
  · rw [h0] at hp
    obtain ⟨w, w', he, hw, hw', _⟩ := hp
    exact Or.inl ⟨.skip, YamlLine.blank l (by rw [he, List.append_nil, white_append]; exact ⟨hw, hw'⟩)⟩
  · by_cases h1 : (strip l).head? = some 0x23
    · cases hs : strip l with
      | nil => exact absurd hs h0
      | cons c r =>
        rw [hs] at h1 hp
        cases h1
        exact Or.inl ⟨.skip, YamlLine.comment l r hp⟩
    · cases hl : l with
      | nil => rw [hl] at h0; exact absurd rfl h0
      | cons c r =>
        rw [← hl]
        cases hc : isSpace c with
        | false =>
          by_cases h2 : (strip l).getLast? = some 0x3a
          · left
            obtain ⟨w, w', he, hw, hw', hh, _⟩ := hp
            have hw0 : w = [] := by
              cases w with
              | nil => rfl
              | cons x t =>
                rw [hl] at he
                simp only [List.cons_append, List.cons.injEq] at he
                rw [white_cons, ← he.1, hc] at hw
                simp at hw
            subst hw0
            obtain ⟨q, hq⟩ := List.getLast?_eq_some_iff.1 h2
            obtain ⟨k, hk⟩ := quoted_total q
            refine ⟨.key k, ?_⟩
            rw [he, hq, List.nil_append, List.append_assoc, List.singleton_append]
            refine YamlLine.key q w' k hw' ?_ hk
            intro x hx
            rw [← hq] at hx
            exact ⟨hh x hx, fun e => h1 (by rw [hx, e])⟩
          · right
            exact ⟨strip l, hp, h0, h1, Or.inl ⟨⟨c, by rw [hl]; rfl, (isSpace_false_iff c).1 hc⟩, h2⟩⟩
        | true =>
          by_cases h2 : (0x3a : UInt8) ∈ strip l
          · left
            obtain ⟨a, b, hab, ha⟩ := List.eq_append_cons_of_mem h2
            obtain ⟨v, hv⟩ := quoted_total (strip b)
            refine ⟨.prop (strip a) v, ?_⟩
            refine YamlLine.prop l a b (strip b) (strip a) v ?_ (hab ▸ hp) ha ?_ (strip_spec a) (strip_spec b) hv
            · intro x hx
              rw [hl] at hx; cases hx
              exact (isSpace_iff c).1 hc
            · intro hx
              apply h1
              rw [hab]
              cases a with
              | nil => exact hx
              | cons => exact hx
          · right
            exact ⟨strip l, hp, h0, h1, Or.inr ⟨⟨c, by rw [hl]; rfl, (isSpace_iff c).1 hc⟩, h2⟩⟩

/-! ## YAML documents -/

/-- The property map after some assignments. -/
def assignAll (m : List (Bytes × Bytes)) (ps : List (Bytes × Bytes)) : List (Bytes × Bytes) :=
  ps.foldl (fun m e => assign m e.1 e.2) m

theorem lookup_append_list {κ ν : Type} [BEq κ] (a b : List (κ × ν)) (j : κ) :
    (a ++ b).lookup j = (a.lookup j).or (b.lookup j) := by
  induction a with
  | nil => simp
  | cons e a ih =>
    obtain ⟨x, y⟩ := e
    simp only [List.cons_append, List.lookup]
    cases j == x <;> simp [ih]

theorem lookup_assignAll (ps m : List (Bytes × Bytes)) (j : Bytes) :
    (assignAll m ps).lookup j = (propValue ps j).or (m.lookup j) := by
  induction ps generalizing m with
  | nil => simp [assignAll, propValue]
  | cons e ps ih =>
    show (assignAll (assign m e.1 e.2) ps).lookup j = _
    rw [ih, lookup_assign]
    unfold propValue
    rw [List.reverse_cons, lookup_append_list, Option.or_assoc]
    congr 1
    simp only [List.lookup]
    cases h : j == e.1 <;> simp

/-- Calls to the sink for a list of entries. -/
def sinkAll {σ : Type} (sink : σ → Bytes → List (Bytes × Bytes) → Outcome σ) :
    List (Bytes × List (Bytes × Bytes)) → σ → Outcome σ
  | [], st => .ok st
  | e :: es, st => do
    (if e.1 ≠ [] then sink st e.1 (assignAll [] e.2) else .ok st) >>= sinkAll sink es

theorem yamlFold {σ : Type} (sink : σ → Bytes → List (Bytes × Bytes) → Outcome σ) (kinds : List YamlKind)
    (key : Bytes) (props : List (Bytes × Bytes)) (out : σ) :
    (kinds.foldlM (yamlStep sink) { key := key, props := assignAll [] props, out := out } >>= yamlFlush sink) =
      sinkAll sink ((key, props ++ propsUntilKey kinds) :: entriesOf kinds) out := by
  induction kinds generalizing key props out with
  | nil =>
    simp only [List.foldlM_nil, Outcome.pure_eq, Outcome.bind_ok, propsUntilKey, entriesOf, sinkAll, List.append_nil, yamlFlush]
    split
    · cases sink out key (assignAll [] props) <;> rfl
    · rfl
  | cons k kinds ih =>
    rw [List.foldlM_cons]
    cases k with
    | skip => simp only [yamlStep, Outcome.bind_ok, ih, propsUntilKey, entriesOf]
    | prop a b =>
      simp only [yamlStep, Outcome.bind_ok, propsUntilKey, entriesOf]
      have : assign (assignAll [] props) a b = assignAll [] (props ++ [(a, b)]) := by
        simp [assignAll, List.foldl_append]
      rw [this, ih, List.append_assoc]; rfl
    | key k =>
      simp only [yamlStep, propsUntilKey, entriesOf, List.append_nil, yamlFlush]
      rw [sinkAll]
      simp only
      cases hs : (if key ≠ [] then sink out key (assignAll [] props) else Outcome.ok out) with
      | ok s =>
        simp only [Outcome.bind_ok, Outcome.pure_eq]
        have := ih k [] s
        simp only [assignAll, List.foldl_nil, List.nil_append] at this
        exact this
      | err => rfl
      | abort => rfl
      | ub => rfl

theorem splitBy_lines {content : Bytes} {ls : List Bytes} (h : LinesOf content ls) :
    splitBy (fun c => decide (c = (0x0a : UInt8))) content = ls ∨
    splitBy (fun c => decide (c = (0x0a : UInt8))) content = ls ++ [[]] := by
  have key : ∀ (ls : List Bytes) (t : Bytes), (∀ l ∈ ls, (0x0a : UInt8) ∉ l) →
      splitBy (fun c => decide (c = (0x0a : UInt8))) (unlines ls ++ t) =
        ls ++ splitBy (fun c => decide (c = (0x0a : UInt8))) t := by
    intro ls t hl
    induction ls with
    | nil => rfl
    | cons l ls ih =>
      have e : unlines (l :: ls) ++ t = l ++ 0x0a :: (unlines ls ++ t) := by simp [unlines, List.append_assoc]
      have hl0 := hl l (by simp)
      rw [e, splitBy_word_sep l (notMem_decide hl0) (by decide),
        ih (fun l h => hl l (by simp [h]))]
      rfl
  obtain ⟨hnl, rfl | ⟨init, last, rfl, hne, rfl⟩⟩ := h
  · right
    have := key ls [] hnl
    rw [List.append_nil] at this
    rw [this]; rfl
  · left
    rw [key init last (fun l hl => hnl l (by simp [hl]))]
    have hl0 := hnl last (by simp)
    rw [splitBy_word last (notMem_decide hl0)]

theorem yamlLine_nil {σ : Type} (sink : σ → Bytes → List (Bytes × Bytes) → Outcome σ) (st : YamlSt σ) :
    yamlLine sink st [] = .ok st := by
  unfold yamlLine; dsimp only; rw [if_pos (Or.inl (by rfl))]

theorem foldlM_append_nil_line {σ : Type} (sink : σ → Bytes → List (Bytes × Bytes) → Outcome σ) (ls : List Bytes)
    (st : YamlSt σ) : (ls ++ [[]]).foldlM (yamlLine sink) st = ls.foldlM (yamlLine sink) st := by
  rw [List.foldlM_append]
  simp only [List.foldlM_cons, yamlLine_nil, List.foldlM_nil, Outcome.pure_eq, Outcome.bind_ok]
  cases List.foldlM (yamlLine sink) st ls <;> rfl

theorem yamlLines_steps {σ : Type} (sink : σ → Bytes → List (Bytes × Bytes) → Outcome σ)
    (ls : List (Bytes × YamlKind)) (h : ∀ l ∈ ls, YamlLine l.1 l.2) (st : YamlSt σ) :
    (ls.map (·.1)).foldlM (yamlLine sink) st = (ls.map (·.2)).foldlM (yamlStep sink) st := by
  induction ls generalizing st with
  | nil => rfl
  | cons l ls ih =>
    simp only [List.map_cons, List.foldlM_cons, yamlLine_step sink st (h l (by simp))]
    congr 1
    funext s
    exact ih (fun l hl => h l (by simp [hl])) s

theorem parseMappingYAML_spec {σ : Type} (sink : σ → Bytes → List (Bytes × Bytes) → Outcome σ) (content : Bytes)
    (ls : List (Bytes × YamlKind)) (hc : LinesOf content (ls.map (·.1))) (h : ∀ l ∈ ls, YamlLine l.1 l.2) (st : σ) :
    parseMappingYAML content sink st = sinkAll sink (entriesOf (ls.map (·.2))) st := by
  unfold parseMappingYAML
  have e : (splitBy (fun c => decide (c = (0x0a : UInt8))) content).foldlM (yamlLine sink) { out := st } =
      (ls.map (·.2)).foldlM (yamlStep sink) { out := st } := by
    rcases splitBy_lines hc with h' | h' <;> rw [h']
    · exact yamlLines_steps sink ls h _
    · rw [foldlM_append_nil_line]; exact yamlLines_steps sink ls h _
  rw [e]
  have := yamlFold sink (ls.map (·.2)) [] [] st
  simp only [assignAll, List.foldl_nil] at this
  rw [this, sinkAll]
  simp

theorem yamlLines_err {σ : Type} (sink : σ → Bytes → List (Bytes × Bytes) → Outcome σ)
    (hsink : ∀ s k p, (∃ s', sink s k p = .ok s') ∨ sink s k p = .err) (ls : List Bytes) (l : Bytes) (hl : l ∈ ls)
    (hb : BadYamlLine l) (st : YamlSt σ) : ls.foldlM (yamlLine sink) st = .err := by
  have hflush : ∀ st : YamlSt σ, (∃ s, yamlFlush sink st = .ok s) ∨ yamlFlush sink st = .err := by
    intro st; unfold yamlFlush
    split
    · exact hsink _ _ _
    · exact Or.inl ⟨_, rfl⟩
  have hcases : ∀ (st : YamlSt σ) l, (∃ s, yamlLine sink st l = .ok s) ∨ yamlLine sink st l = .err := by
    intro st l
    rcases yamlLine_total l with ⟨k, hk⟩ | hb
    · rw [yamlLine_step sink st hk]
      cases k with
      | skip => exact Or.inl ⟨_, rfl⟩
      | prop => exact Or.inl ⟨_, rfl⟩
      | key k =>
        simp only [yamlStep]
        rcases hflush st with ⟨s, hs⟩ | hs
        · rw [hs]; exact Or.inl ⟨_, rfl⟩
        · rw [hs]; exact Or.inr rfl
    · exact Or.inr (yamlLine_bad sink hsink st hb)
  induction ls generalizing st with
  | nil => cases hl
  | cons x ls ih =>
    rw [List.foldlM_cons]
    rcases List.mem_cons.1 hl with rfl | hl
    · rw [yamlLine_bad sink hsink st hb]; rfl
    · rcases hcases st x with ⟨s, hs⟩ | hs
      · rw [hs, Outcome.bind_ok]; exact ih hl s
      · rw [hs]; rfl

theorem parseMappingYAML_bad {σ : Type} (sink : σ → Bytes → List (Bytes × Bytes) → Outcome σ)
    (hsink : ∀ s k p, (∃ s', sink s k p = .ok s') ∨ sink s k p = .err) (content : Bytes) (ls : List Bytes)
    (hc : LinesOf content ls) (l : Bytes) (hl : l ∈ ls) (hb : BadYamlLine l) (st : σ) :
    parseMappingYAML content sink st = .err := by
  unfold parseMappingYAML
  rcases splitBy_lines hc with h' | h' <;> rw [h']
  · rw [yamlLines_err sink hsink ls l hl hb]; rfl
  · rw [foldlM_append_nil_line, yamlLines_err sink hsink ls l hl hb]; rfl

theorem sinkAll_cases {σ : Type} (sink : σ → Bytes → List (Bytes × Bytes) → Outcome σ)
    (hsink : ∀ s k p, (∃ s', sink s k p = .ok s') ∨ sink s k p = .err) (es : List (Bytes × List (Bytes × Bytes))) (st : σ) :
    (∃ s, sinkAll sink es st = .ok s) ∨ sinkAll sink es st = .err := by
  induction es generalizing st with
  | nil => exact Or.inl ⟨_, rfl⟩
  | cons e es ih =>
    simp only [sinkAll]
    split
    · rcases hsink st e.1 (assignAll [] e.2) with ⟨s, hs⟩ | hs
      · rw [hs]; exact ih s
      · rw [hs]; exact Or.inr rfl
    · exact ih st

/-- A mapping is read or rejected. -/
theorem parseMappingYAML_cases {σ : Type} (sink : σ → Bytes → List (Bytes × Bytes) → Outcome σ)
    (hsink : ∀ s k p, (∃ s', sink s k p = .ok s') ∨ sink s k p = .err) (content : Bytes) (st : σ) :
    (∃ s, parseMappingYAML content sink st = .ok s) ∨ parseMappingYAML content sink st = .err := by
  obtain ⟨ls, hc⟩ := linesOf_exists content
  by_cases hb : ∃ l ∈ ls, BadYamlLine l
  · obtain ⟨l, hl, hb⟩ := hb
    exact Or.inr (parseMappingYAML_bad sink hsink content ls hc l hl hb st)
  · have hk : ∃ ks : List (Bytes × YamlKind), ks.map (·.1) = ls ∧ ∀ l ∈ ks, YamlLine l.1 l.2 := by
      clear hc
      induction ls with
      | nil => exact ⟨[], rfl, by simp⟩
      | cons x ls ih =>
        obtain ⟨ks, h1, h2⟩ := ih (fun ⟨l, hl, h⟩ => hb ⟨l, List.mem_cons_of_mem _ hl, h⟩)
        rcases yamlLine_total x with ⟨k, hk⟩ | hbad
        · refine ⟨(x, k) :: ks, by simp [h1], ?_⟩
          intro l hl
          rcases List.mem_cons.1 hl with rfl | hl
          · exact hk
          · exact h2 l hl
        · exact absurd ⟨x, by simp, hbad⟩ hb
    obtain ⟨ks, rfl, h2⟩ := hk
    rw [parseMappingYAML_spec sink content ks hc h2]
    exact sinkAll_cases sink hsink _ _

/-! ## The join -/

theorem sinkAll_ok {β : Type} (sink : List (Bytes × β) → Bytes → List (Bytes × Bytes) → Outcome (List (Bytes × β)))
    (val : List (Bytes × Bytes) → Option β)
    (hs : ∀ m k ps, sink m k (assignAll [] ps) = (val ps).elim .err fun b => .ok (insertNew m k b))
    (es : List (Bytes × List (Bytes × Bytes))) (m : List (Bytes × β)) :
    ((∀ e ∈ es, e.1 ≠ [] → (val e.2).isSome) →
      ∃ m', sinkAll sink es m = .ok m' ∧
        ∀ k, m'.lookup k = (m.lookup k).or (if k = [] then none else (es.lookup k).bind val)) ∧
    ((∃ e ∈ es, e.1 ≠ [] ∧ val e.2 = none) → sinkAll sink es m = .err) := by
  induction es generalizing m with
  | nil =>
    refine ⟨fun _ => ⟨m, rfl, fun k => by simp⟩, ?_⟩
    rintro ⟨e, he, _⟩; cases he
  | cons e es ih =>
    simp only [sinkAll]
    by_cases hk : e.1 = []
    · rw [if_neg (by simp [hk]), Outcome.bind_ok]
      constructor
      · intro h
        obtain ⟨m', h1, h2⟩ := (ih m).1 (fun x hx => h x (by simp [hx]))
        refine ⟨m', h1, fun k => ?_⟩
        rw [h2]
        congr 1
        by_cases hk0 : k = []
        · simp [hk0]
        · rw [if_neg hk0, if_neg hk0]
          have : (k == e.1) = false := by rw [hk]; simpa using hk0
          simp only [List.lookup, this]
      · rintro ⟨x, hx, hxk, hv⟩
        rcases List.mem_cons.1 hx with rfl | hx
        · exact absurd hk hxk
        · exact (ih m).2 ⟨x, hx, hxk, hv⟩
    · rw [if_pos hk, hs]
      cases hv : val e.2 with
      | none =>
        simp only [Option.elim_none, Outcome.bind_err]
        exact ⟨fun h => by have := h e (by simp) hk; rw [hv] at this; simp at this, fun _ => trivial⟩
      | some b =>
        simp only [Option.elim_some, Outcome.bind_ok]
        constructor
        · intro h
          obtain ⟨m', h1, h2⟩ := (ih (insertNew m e.1 b)).1 (fun x hx => h x (by simp [hx]))
          refine ⟨m', h1, fun k => ?_⟩
          rw [h2, lookup_insertNew, Option.or_assoc]
          congr 1
          simp only [List.lookup]
          cases hke : k == e.1 with
          | true =>
            have := eq_of_beq hke
            subst this
            simp [hk, hv]
          | false => simp
        · rintro ⟨x, hx, hxk, hxv⟩
          rcases List.mem_cons.1 hx with rfl | hx
          · rw [hv] at hxv; cases hxv
          · exact (ih _).2 ⟨x, hx, hxk, hxv⟩

theorem fabricSink_val (m : List (Bytes × Bytes)) (k : Bytes) (ps : List (Bytes × Bytes)) :
    fabricSink m k (assignAll [] ps) = (propValue ps nameFabric).elim .err fun b => .ok (insertNew m k b) := by
  unfold fabricSink valueOrStatus
  have : (assignAll [] ps).lookup kFabric = propValue ps nameFabric := by
    rw [lookup_assignAll]; simp [kFabric, nameFabric]
  rw [this]
  cases propValue ps nameFabric <;> rfl

/-- Value computed by the parts sink. -/
def partVal (fabrics : List (Bytes × Bytes)) (props : List (Bytes × Bytes)) : Option PartInfo :=
  (propValue props nameDevice).bind fun d =>
  (propValue props namePackage).bind fun p =>
  (propValue props nameSpeedgrade).bind fun s =>
  (fabrics.lookup d).map fun f => { device := d, fabric := f, package := p, speedgrade := s }

theorem partSink_val (fabrics : List (Bytes × Bytes)) (m : List (Bytes × PartInfo)) (k : Bytes) (ps : List (Bytes × Bytes)) :
    partSink fabrics m k (assignAll [] ps) =
      (partVal fabrics ps).elim .err fun b => .ok (insertNew m k b) := by
  unfold partSink valueOrStatus partVal
  have hd : (assignAll [] ps).lookup kDevice = propValue ps nameDevice := by
    rw [lookup_assignAll]; simp [kDevice, nameDevice]
  have hp : (assignAll [] ps).lookup kPackage = propValue ps namePackage := by
    rw [lookup_assignAll]; simp [kPackage, namePackage]
  have hs : (assignAll [] ps).lookup kSpeedgrade = propValue ps nameSpeedgrade := by
    rw [lookup_assignAll]; simp [kSpeedgrade, nameSpeedgrade]
  rw [hd, hp, hs]
  cases propValue ps nameDevice with
  | none => rfl
  | some d =>
    cases propValue ps namePackage with
    | none => rfl
    | some p =>
      cases propValue ps nameSpeedgrade with
      | none => rfl
      | some s =>
        simp only [Option.bind_some, Outcome.bind_ok]
        cases List.lookup d fabrics <;> rfl

theorem valueOrStatus_cases (m : List (Bytes × Bytes)) (k : Bytes) :
    (∃ v, valueOrStatus m k = .ok v) ∨ valueOrStatus m k = .err := by
  unfold valueOrStatus; split
  · exact Or.inr rfl
  · exact Or.inl ⟨_, rfl⟩

theorem fabricSink_cases (m : List (Bytes × Bytes)) (k : Bytes) (p : List (Bytes × Bytes)) :
    (∃ s, fabricSink m k p = .ok s) ∨ fabricSink m k p = .err := by
  unfold fabricSink
  rcases valueOrStatus_cases p kFabric with ⟨v, h⟩ | h <;> rw [h]
  · exact Or.inl ⟨_, rfl⟩
  · exact Or.inr rfl

theorem partSink_cases (f : List (Bytes × Bytes)) (m : List (Bytes × PartInfo)) (k : Bytes) (p : List (Bytes × Bytes)) :
    (∃ s, partSink f m k p = .ok s) ∨ partSink f m k p = .err := by
  unfold partSink
  rcases valueOrStatus_cases p kDevice with ⟨d, h⟩ | h <;> rw [h]
  · rcases valueOrStatus_cases p kPackage with ⟨v, h⟩ | h <;> simp only [h, Outcome.bind_ok]
    · rcases valueOrStatus_cases p kSpeedgrade with ⟨v, h⟩ | h <;> simp only [h, Outcome.bind_ok]
      · rcases valueOrStatus_cases f d with ⟨v, h⟩ | h <;> simp only [h, Outcome.bind_ok]
        · exact Or.inl ⟨_, rfl⟩
        · exact Or.inr rfl
      · exact Or.inr rfl
    · exact Or.inr rfl
  · exact Or.inr rfl

end Verif.Db

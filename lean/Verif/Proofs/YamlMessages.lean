import Verif.Proofs.DbLineMessages
import Verif.Proofs.DbCsv
import Verif.Spec.YamlMessages
/-! # Messages about mapping files -/
namespace Verif.Db
open Verif.Text Verif.Spec
open Verif.Fasm (lit)

/-- `yamlStep` with messages. -/
def yamlStepM {σ : Type} (sink : σ → Bytes → List (Bytes × Bytes) → Said σ) (st : YamlSt σ) : YamlKind → Said (YamlSt σ)
  | .skip => .ok st
  | .key k => do
    let out ← yamlFlushM sink st
    pure { key := k, props := [], out := out }
  | .prop k v => .ok { st with props := assign st.props k v }

theorem yamlLineM_step {σ : Type} (sink : σ → Bytes → List (Bytes × Bytes) → Said σ) (st : YamlSt σ) {l : Bytes}
    {k : YamlKind} (h : YamlLine l k) : yamlLineM sink st l = yamlStepM sink st k := by
  unfold yamlLineM
  dsimp only
  cases h with
  | blank _ hw =>
    have : strip l = [] := strip_padded ⟨l, [], by simp, hw, white_nil, by simp, by simp⟩
    rw [if_pos (Or.inl this)]; rfl
  | comment _ r hp =>
    rw [strip_padded hp, if_pos (Or.inr (by rfl))]; rfl
  | key q w k hw hh hq =>
    have hst : strip (q ++ 0x3a :: w) = q ++ bytes!":" := by
      apply strip_padded
      refine ⟨[], w, by simp, white_nil, hw, fun c hc => (hh c hc).1, ?_⟩
      intro c hc
      rw [List.getLast?_append] at hc
      cases hc
      rw [← isSpace_false_iff]; rfl
    have hhead : ∃ c r, q ++ 0x3a :: w = c :: r ∧ isSpace c = false ∧ c ≠ 0x23 := by
      cases q with
      | nil => exact ⟨0x3a, w, rfl, rfl, by decide⟩
      | cons c r =>
        have := hh c (by simp)
        exact ⟨c, _, rfl, (isSpace_false_iff c).2 this.1, this.2⟩
    have hnot : ¬ (q ++ bytes!":" = [] ∨ (q ++ bytes!":").head? = some 0x23) := by
      rintro (h | h)
      · simp at h
      · exact (hh _ h).2 rfl
    rw [hst, if_neg hnot]
    obtain ⟨c, r, he, hc, _⟩ := hhead
    rw [if_pos (by rw [he]; exact (indent_zero c r).2 hc)]
    have hend : endsWith 0x3a (q ++ bytes!":") = true := by
      unfold endsWith; rw [List.getLast?_append]; rfl
    simp only [hend, if_true, List.dropLast_concat, removeQuotes_spec hq]
    rfl
  | prop _ a b q k v hh hp ha hnc hk hb hq =>
    have hst := strip_padded hp
    have hnot : ¬ (a ++ 0x3a :: b = [] ∨ (a ++ 0x3a :: b).head? = some 0x23) := by
      rintro (h | h)
      · simp at h
      · apply hnc
        cases a with
        | nil => exact h
        | cons c r => exact h
    rw [hst, if_neg hnot]
    have hl : l ≠ [] := by
      rintro rfl
      obtain ⟨w, w', he, _⟩ := hp
      simp at he
    cases l with
    | nil => exact absurd rfl hl
    | cons c r =>
      have hc := (isSpace_iff c).2 (hh c rfl)
      rw [if_neg (by rw [indent_zero]; simp [hc]), find_spec _ _ _ ha]
      dsimp only
      have h1 : (a ++ 0x3a :: b).take a.length = a := by simp
      have h2 : (a ++ 0x3a :: b).drop (a.length + 1) = b := by rw [List.drop_append]; simp
      rw [h1, h2, strip_padded hk, strip_padded hb, removeQuotes_spec hq]
      rfl

def msgTop : Bytes := lit "Top-level key missing trailing colon"
def msgNested : Bytes := lit "Nested key-value pair missing colon"

theorem padded_head {l core : Bytes} {c : UInt8} (hp : Padded l core) (hc : l.head? = some c) (hw : NoWhite [c]) :
    core.head? = some c := by
  have key : ∀ w : Bytes, White (c :: w) → False := by
    intro w h
    have h1 := (isSpace_iff c).2 (fun y hy => h y (by rw [List.mem_singleton.1 hy]; simp))
    rw [(isSpace_false_iff c).2 hw] at h1
    cases h1
  obtain ⟨w, w', he, hw1, hw2, h1, h2⟩ := hp
  cases w with
  | cons x w =>
    rw [he] at hc
    simp only [List.cons_append, List.head?_cons, Option.some.injEq] at hc
    subst hc
    exact (key w hw1).elim
  | nil =>
    cases core with
    | nil =>
      rw [he] at hc
      cases w' with
      | nil => simp at hc
      | cons x w' =>
        simp only [List.nil_append, List.head?_cons, Option.some.injEq] at hc
        subst hc
        exact (key w' hw2).elim
    | cons x core =>
      rw [he] at hc
      simpa using hc

theorem yamlLineM_margin {σ : Type} (sink : σ → Bytes → List (Bytes × Bytes) → Said σ) (st : YamlSt σ) {l : Bytes} (h : BadMargin l) :
    yamlLineM sink st l = (yamlFlushM sink st >>= fun _ => .err msgTop) := by
  obtain ⟨core, c, hp, hc, hw, hnc, hl⟩ := h
  have hne : core ≠ [] ∧ core.head? ≠ some 0x23 := by
    have := padded_head hp hc hw
    refine ⟨?_, ?_⟩
    · rintro rfl; simp at this
    · rw [this]; simpa using hnc
  unfold yamlLineM
  dsimp only
  rw [strip_padded hp, if_neg (fun h => h.elim hne.1 hne.2)]
  cases l with
  | nil => simp at hc
  | cons x r =>
    simp only [List.head?_cons, Option.some.injEq] at hc
    subst hc
    rw [if_pos ((indent_zero _ _).2 ((isSpace_false_iff _).2 hw))]
    have hend : endsWith 0x3a core = false := by unfold endsWith; simpa using hl
    simp only [hend]
    rfl

theorem yamlLineM_nested {σ : Type} (sink : σ → Bytes → List (Bytes × Bytes) → Said σ) (st : YamlSt σ) {l : Bytes} (h : BadNested l) :
    yamlLineM sink st l = .err msgNested := by
  obtain ⟨core, c, hp, hne, hnc, hc, hw, hl⟩ := h
  unfold yamlLineM
  dsimp only
  rw [strip_padded hp, if_neg (fun h => h.elim hne hnc)]
  cases l with
  | nil => simp at hc
  | cons x r =>
    simp only [List.head?_cons, Option.some.injEq] at hc
    subst hc
    rw [if_neg (by rw [indent_zero, (isSpace_iff _).2 hw]; simp), find_none _ _ hl]
    rfl

theorem badYaml_cases {l : Bytes} (h : BadYamlLine l) : BadMargin l ∨ BadNested l := by
  obtain ⟨core, hp, hne, hnc, ⟨⟨c, hc, hw⟩, hl⟩ | ⟨⟨c, hc, hw⟩, hl⟩⟩ := h
  · refine Or.inl ⟨core, c, hp, hc, hw, ?_, hl⟩
    rintro rfl
    exact hnc (padded_head hp hc hw)
  · exact Or.inr ⟨core, c, hp, hne, hnc, hc, hw, hl⟩

/-- A line of a mapping file: good, or bad in one of two ways. -/
theorem yamlLine_three (l : Bytes) : (∃ k, YamlLine l k) ∨ BadMargin l ∨ BadNested l :=
  (yamlLine_total l).imp_right badYaml_cases

/-! ## All lines -/

/-- The sink fails with what is to be said about the properties, and only then. -/
structure Judges {σ : Type} (sink : σ → Bytes → List (Bytes × Bytes) → Said σ) (complaint : List (Bytes × Bytes) → Bytes → Prop) : Prop where
  bad : ∀ out k props m, complaint props m → sink out k (assignAll [] props) = .err m
  good : ∀ out k props, (∀ m, ¬ complaint props m) → ∃ out', sink out k (assignAll [] props) = .ok out'

variable {σ : Type} {sink : σ → Bytes → List (Bytes × Bytes) → Said σ} {complaint : List (Bytes × Bytes) → Bytes → Prop}

/-- The entries, with one begun before. -/
def entriesFrom (key : Bytes) (props : List (Bytes × Bytes)) (kinds : List YamlKind) : List (Bytes × List (Bytes × Bytes)) :=
  (key, props ++ propsUntilKey kinds) :: entriesOf kinds

theorem flush_bad (hj : Judges sink complaint) {key : Bytes} {props : List (Bytes × Bytes)} {out : σ} {m : Bytes} (hk : key ≠ [])
    (h : complaint props m) : yamlFlushM sink { key := key, props := assignAll [] props, out := out } = .err m := by
  unfold yamlFlushM
  rw [if_pos hk]
  exact hj.bad _ _ _ _ h

theorem flush_good (hj : Judges sink complaint) {key : Bytes} {props : List (Bytes × Bytes)} {out : σ}
    (h : key ≠ [] → ∀ m, ¬ complaint props m) :
    ∃ out', yamlFlushM sink { key := key, props := assignAll [] props, out := out } = .ok out' := by
  unfold yamlFlushM
  split
  · rename_i hk
    exact hj.good _ _ _ (h hk)
  · exact ⟨_, rfl⟩

theorem assignAll_snoc (props : List (Bytes × Bytes)) (a b : Bytes) :
    assign (assignAll [] props) a b = assignAll [] (props ++ [(a, b)]) := by
  simp [assignAll, List.foldl_append]

theorem stepsM (hj : Judges sink complaint) (kinds : List YamlKind) (key : Bytes) (props : List (Bytes × Bytes)) (out : σ)
    (before : List (Bytes × List (Bytes × Bytes))) (last : Bytes × List (Bytes × Bytes))
    (hes : entriesFrom key props kinds = before ++ [last]) (hf : AllFine complaint before) :
    ∃ out', kinds.foldlM (yamlStepM sink) { key := key, props := assignAll [] props, out := out } =
      .ok { key := last.1, props := assignAll [] last.2, out := out' } := by
  induction kinds generalizing key props out before with
  | nil =>
    simp only [entriesFrom, propsUntilKey, entriesOf, List.append_nil] at hes
    cases before with
    | nil =>
      simp only [List.nil_append, List.cons.injEq, and_true] at hes
      subst hes
      exact ⟨out, rfl⟩
    | cons x before => simp at hes
  | cons k kinds ih =>
    rw [List.foldlM_cons]
    cases k with
    | skip => exact ih key props out before hes hf
    | prop a b =>
      simp only [yamlStepM, Said.bind_ok, assignAll_snoc]
      refine ih key _ out before ?_ hf
      rw [← hes]
      simp [entriesFrom, propsUntilKey, entriesOf]
    | key k =>
      simp only [entriesFrom, propsUntilKey, entriesOf, List.append_nil] at hes
      cases before with
      | nil => simp at hes
      | cons x before =>
        simp only [List.cons_append, List.cons.injEq] at hes
        obtain ⟨rfl, hes⟩ := hes
        obtain ⟨out', ho⟩ := flush_good (out := out) hj (key := key) (props := props) (hf (key, props) (by simp))
        simp only [yamlStepM, ho, Said.bind_ok, Said.pure_eq]
        exact ih k [] out' before (by rw [← hes]; simp [entriesFrom]) (fun e he => hf e (by simp [he]))

theorem linesM_steps (pre : List (Bytes × YamlKind)) (h : ∀ l ∈ pre, YamlLine l.1 l.2) (st : YamlSt σ) :
    (pre.map (·.1)).foldlM (yamlLineM sink) st = (pre.map (·.2)).foldlM (yamlStepM sink) st := by
  induction pre generalizing st with
  | nil => rfl
  | cons l ls ih =>
    simp only [List.map_cons, List.foldlM_cons, yamlLineM_step sink st (h l (by simp))]
    congr 1
    funext s
    exact ih (fun l hl => h l (by simp [hl])) s

/-- `YamlComplaint` with an entry begun before. -/
inductive ComplaintFrom (complaint : List (Bytes × Bytes) → Bytes → Prop) (key : Bytes) (props : List (Bytes × Bytes)) (ls : List Bytes) :
    Bytes → Prop where
  | entry (pre : List (Bytes × YamlKind)) (rest : List Bytes) (before : List (Bytes × List (Bytes × Bytes)))
      (e : Bytes × List (Bytes × Bytes)) (m : Bytes) (hls : ls = pre.map (·.1) ++ rest) (hpre : ∀ l ∈ pre, YamlLine l.1 l.2)
      (hend : rest = [] ∨ ∃ l post, rest = l :: post ∧ ((∃ k, YamlLine l (.key k)) ∨ BadMargin l))
      (hes : entriesFrom key props (pre.map (·.2)) = before ++ [e]) (hbefore : AllFine complaint before) (he : e.1 ≠ [])
      (hm : complaint e.2 m) : ComplaintFrom complaint key props ls m
  | margin (pre : List (Bytes × YamlKind)) (l : Bytes) (post : List Bytes) (hls : ls = pre.map (·.1) ++ l :: post)
      (hpre : ∀ l ∈ pre, YamlLine l.1 l.2) (hl : BadMargin l) (hes : AllFine complaint (entriesFrom key props (pre.map (·.2)))) :
      ComplaintFrom complaint key props ls msgTop
  | nested (pre : List (Bytes × YamlKind)) (l : Bytes) (post : List Bytes) (hls : ls = pre.map (·.1) ++ l :: post)
      (hpre : ∀ l ∈ pre, YamlLine l.1 l.2) (hl : BadNested l)
      (hes : AllFine complaint (entriesFrom key props (pre.map (·.2))).dropLast) : ComplaintFrom complaint key props ls msgNested

theorem entriesFrom_snoc (key : Bytes) (props : List (Bytes × Bytes)) (kinds : List YamlKind) :
    ∃ before last, entriesFrom key props kinds = before ++ [last] :=
  ⟨_, _, (List.dropLast_concat_getLast (l := entriesFrom key props kinds) (by simp [entriesFrom])).symm⟩

theorem complaintFrom_err (hj : Judges sink complaint) (key : Bytes) (props : List (Bytes × Bytes)) (ls : List Bytes) (m : Bytes) (out : σ)
    (h : ComplaintFrom complaint key props ls m) :
    (ls.foldlM (yamlLineM sink) { key := key, props := assignAll [] props, out := out } >>= yamlFlushM sink) = .err m := by
  cases h with
  | entry pre rest before e _ hls hpre hend hes hbefore he hm =>
    subst hls
    rw [List.foldlM_append, linesM_steps pre hpre]
    obtain ⟨out', h⟩ := stepsM hj _ key props out before e hes hbefore
    rw [h, Said.bind_ok]
    rcases hend with rfl | ⟨l, post, rfl, ⟨k, hk⟩ | hb⟩
    · rw [List.foldlM_nil, Said.pure_eq, Said.bind_ok]
      exact flush_bad hj he hm
    · rw [List.foldlM_cons, yamlLineM_step sink _ hk]
      simp only [yamlStepM, flush_bad hj he hm, Said.bind_err]
    · rw [List.foldlM_cons, yamlLineM_margin sink _ hb, flush_bad hj he hm]
      rfl
  | margin pre l post hls hpre hl hes =>
    subst hls
    rw [List.foldlM_append, linesM_steps pre hpre]
    obtain ⟨before, last, hb⟩ := entriesFrom_snoc key props (pre.map (·.2))
    rw [hb] at hes
    obtain ⟨out', h⟩ := stepsM hj _ key props out before last hb (fun e he => hes e (by simp [he]))
    rw [h, Said.bind_ok, List.foldlM_cons, yamlLineM_margin sink _ hl]
    obtain ⟨o2, h2⟩ := flush_good (out := out') hj (key := last.1) (props := last.2) (fun hk => hes last (by simp) hk)
    rw [h2]
    rfl
  | nested pre l post hls hpre hl hes =>
    subst hls
    rw [List.foldlM_append, linesM_steps pre hpre]
    obtain ⟨before, last, hb⟩ := entriesFrom_snoc key props (pre.map (·.2))
    rw [hb, List.dropLast_concat] at hes
    obtain ⟨out', h⟩ := stepsM hj _ key props out before last hb hes
    rw [h, Said.bind_ok, List.foldlM_cons, yamlLineM_nested sink _ hl]
    rfl

/-- One more good line in front. -/
theorem ComplaintFrom.cons {key key' : Bytes} {props props' : List (Bytes × Bytes)} {ls : List Bytes} {m : Bytes} {l : Bytes} {k : YamlKind}
    (hl : YamlLine l k) (extra : List (Bytes × List (Bytes × Bytes)))
    (he : ∀ kinds, entriesFrom key props (k :: kinds) = extra ++ entriesFrom key' props' kinds) (hf : AllFine complaint extra)
    (h : ComplaintFrom complaint key' props' ls m) : ComplaintFrom complaint key props (l :: ls) m := by
  cases h with
  | entry pre rest before e _ hls hpre hend hes hbefore he' hm =>
    refine .entry ((l, k) :: pre) rest (extra ++ before) e m (by simp [hls]) (by simpa using ⟨hl, fun a b => hpre (a, b)⟩) hend ?_ ?_ he' hm
    · rw [List.map_cons, he, hes, List.append_assoc]
    · intro x hx
      rcases List.mem_append.1 hx with hx | hx
      · exact hf x hx
      · exact hbefore x hx
  | margin pre b post hls hpre hb hes =>
    refine .margin ((l, k) :: pre) b post (by simp [hls]) (by simpa using ⟨hl, fun a b => hpre (a, b)⟩) hb ?_
    intro x hx
    rw [List.map_cons, he] at hx
    rcases List.mem_append.1 hx with hx | hx
    · exact hf x hx
    · exact hes x hx
  | nested pre b post hls hpre hb hes =>
    refine .nested ((l, k) :: pre) b post (by simp [hls]) (by simpa using ⟨hl, fun a b => hpre (a, b)⟩) hb ?_
    intro x hx
    rw [List.map_cons, he, List.dropLast_append_of_ne_nil (by simp [entriesFrom])] at hx
    rcases List.mem_append.1 hx with hx | hx
    · exact hf x hx
    · exact hes x hx

theorem err_complaintFrom (hj : Judges sink complaint) (ls : List Bytes) (key : Bytes) (props : List (Bytes × Bytes)) (m : Bytes) (out : σ)
    (h : (ls.foldlM (yamlLineM sink) { key := key, props := assignAll [] props, out := out } >>= yamlFlushM sink) = .err m) :
    ComplaintFrom complaint key props ls m := by
  -- the entry begun before, at a line that ends it
  have now : ∀ (key : Bytes) (props : List (Bytes × Bytes)) (out : σ) (ls : List Bytes) (m : Bytes),
      (ls = [] ∨ ∃ l post, ls = l :: post ∧ ((∃ k, YamlLine l (.key k)) ∨ BadMargin l)) →
      (∃ o, yamlFlushM sink { key := key, props := assignAll [] props, out := out } = .ok o ∧ (key ≠ [] → ∀ m, ¬ complaint props m)) ∨
      (∃ m', yamlFlushM sink { key := key, props := assignAll [] props, out := out } = .err m' ∧ ComplaintFrom complaint key props ls m') := by
    intro key props out ls m hend
    by_cases hk : key ≠ [] ∧ ∃ m, complaint props m
    · obtain ⟨hk, m', hm⟩ := hk
      exact Or.inr ⟨m', flush_bad hj hk hm, .entry [] ls [] (key, props) m' rfl (by simp) hend (by simp [entriesFrom, propsUntilKey, entriesOf])
        (by intro e he; simp at he) hk hm⟩
    · have hk' : key ≠ [] → ∀ m, ¬ complaint props m := fun h1 m hm => hk ⟨h1, m, hm⟩
      obtain ⟨o, ho⟩ := flush_good (out := out) hj hk'
      exact Or.inl ⟨o, ho, hk'⟩
  induction ls generalizing key props out with
  | nil =>
    rw [List.foldlM_nil, Said.pure_eq, Said.bind_ok] at h
    rcases now key props out [] m (Or.inl rfl) with ⟨o, ho, _⟩ | ⟨m', hm', hc⟩
    · rw [ho] at h; cases h
    · rw [hm'] at h; cases h; exact hc
  | cons l ls ih =>
    rw [List.foldlM_cons] at h
    rcases yamlLine_three l with ⟨k, hk⟩ | hb | hb
    · rw [yamlLineM_step sink _ hk] at h
      cases k with
      | skip =>
        exact (ih key props out h).cons hk [] (fun _ => rfl) (by intro e he; simp at he)
      | prop a b =>
        simp only [yamlStepM, Said.bind_ok, assignAll_snoc] at h
        exact (ih key _ out h).cons hk [] (fun _ => by simp [entriesFrom, propsUntilKey, entriesOf]) (by intro e he; simp at he)
      | key k =>
        rcases now key props out (l :: ls) m (Or.inr ⟨l, ls, rfl, Or.inl ⟨k, hk⟩⟩) with ⟨o, ho, hf⟩ | ⟨m', hm', hc⟩
        · simp only [yamlStepM, ho, Said.bind_ok, Said.pure_eq] at h
          refine (ih k [] o h).cons hk [(key, props)] (fun _ => by simp [entriesFrom, propsUntilKey, entriesOf]) ?_
          intro e he
          rw [List.mem_singleton.1 he]
          exact hf
        · simp only [yamlStepM, hm', Said.bind_err, Said.err.injEq] at h
          exact h ▸ hc
    · rw [yamlLineM_margin sink _ hb] at h
      rcases now key props out (l :: ls) m (Or.inr ⟨l, ls, rfl, Or.inr hb⟩) with ⟨o, ho, hf⟩ | ⟨m', hm', hc⟩
      · simp only [ho, Said.bind_ok, Said.bind_err, Said.err.injEq] at h
        subst h
        refine .margin [] l ls rfl (by simp) hb ?_
        intro e he
        simp only [entriesFrom, List.map_nil, propsUntilKey, entriesOf, List.append_nil, List.mem_singleton] at he
        subst he
        exact hf
      · simp only [hm', Said.bind_err, Said.err.injEq] at h
        exact h ▸ hc
    · rw [yamlLineM_nested sink _ hb] at h
      simp only [Said.bind_err, Said.err.injEq] at h
      subst h
      exact .nested [] l ls rfl (by simp) hb (by intro e he; simp [entriesFrom, entriesOf] at he)

theorem complaintFrom_iff (ls : List Bytes) (m : Bytes) : ComplaintFrom complaint [] [] ls m ↔ YamlComplaint complaint ls m := by
  constructor
  · intro h
    cases h with
    | entry pre rest before e _ hls hpre hend hes hbefore he hm =>
      cases before with
      | nil =>
        simp only [entriesFrom, List.nil_append, List.cons.injEq] at hes
        exact absurd (by rw [← hes.1]) he
      | cons x before =>
        simp only [entriesFrom, List.nil_append, List.cons_append, List.cons.injEq] at hes
        exact .entry pre rest before e m hls hpre hend hes.2 (fun y hy => hbefore y (by simp [hy])) he hm
    | margin pre l post hls hpre hl hes => exact .margin pre l post hls hpre hl (fun y hy => hes y (by simp [entriesFrom, hy]))
    | nested pre l post hls hpre hl hes =>
      refine .nested pre l post hls hpre hl (fun y hy => hes y ?_)
      unfold entriesFrom
      cases hE : entriesOf (pre.map (·.2)) with
      | nil => rw [hE] at hy; simp at hy
      | cons a b => rw [hE] at hy; rw [List.dropLast_cons_of_ne_nil (by simp)]; simp [hy]
  · intro h
    cases h with
    | entry pre rest before e _ hls hpre hend hes hbefore he hm =>
      refine .entry pre rest (([], propsUntilKey (pre.map (·.2))) :: before) e m hls hpre hend (by simp [entriesFrom, hes]) ?_ he hm
      intro y hy
      rcases List.mem_cons.1 hy with rfl | hy
      · exact fun h => absurd rfl h
      · exact hbefore y hy
    | margin pre l post hls hpre hl hes =>
      refine .margin pre l post hls hpre hl ?_
      intro y hy
      rcases List.mem_cons.1 hy with rfl | hy
      · exact fun h => absurd rfl h
      · exact hes y hy
    | nested pre l post hls hpre hl hes =>
      refine .nested pre l post hls hpre hl ?_
      intro y hy
      unfold entriesFrom at hy
      cases hE : entriesOf (pre.map (·.2)) with
      | nil => rw [hE] at hy; simp at hy
      | cons a b =>
        rw [hE, List.dropLast_cons_of_ne_nil (by simp)] at hy
        rcases List.mem_cons.1 hy with rfl | hy
        · exact fun h => absurd rfl h
        · rw [hE] at hes
          exact hes y hy

theorem yamlLineM_nil (st : YamlSt σ) : yamlLineM sink st [] = .ok st := by
  unfold yamlLineM; dsimp only; rw [if_pos (Or.inl (by rfl))]

theorem foldlM_nil_lineM (ls : List Bytes) (st : YamlSt σ) :
    (ls ++ [[]]).foldlM (yamlLineM sink) st = ls.foldlM (yamlLineM sink) st := by
  rw [List.foldlM_append]
  simp only [List.foldlM_cons, yamlLineM_nil, List.foldlM_nil, Said.pure_eq, Said.bind_ok]
  cases List.foldlM (yamlLineM sink) st ls <;> rfl

theorem parseMappingYAMLM_err (hj : Judges sink complaint) (content : Bytes) (ls : List Bytes) (hc : LinesOf content ls) (out : σ)
    (m : Bytes) : parseMappingYAMLM content sink out = .err m ↔ YamlComplaint complaint ls m := by
  have e : parseMappingYAMLM content sink out =
      (ls.foldlM (yamlLineM sink) { key := [], props := assignAll [] [], out := out } >>= yamlFlushM sink) := by
    unfold parseMappingYAMLM
    rcases splitBy_lines hc with h' | h' <;> rw [h']
    · rfl
    · rw [foldlM_nil_lineM]; rfl
  rw [e, ← complaintFrom_iff]
  exact ⟨err_complaintFrom hj ls [] [] m out, complaintFrom_err hj [] [] ls m out⟩

/-! ## The two tables -/

theorem fabricSinkM_judges : Judges fabricSinkM DeviceComplaint := by
  have hl : ∀ props : List (Bytes × Bytes), (assignAll [] props).lookup kFabric = propValue props nameFabric := by
    intro props
    rw [lookup_assignAll]
    simp [kFabric, nameFabric]
  constructor
  · rintro out k props m ⟨h, rfl⟩
    unfold fabricSinkM
    rw [hl, h]
    rfl
  · intro out k props h
    unfold fabricSinkM
    rw [hl]
    cases hp : propValue props nameFabric with
    | none => exact absurd ⟨hp, rfl⟩ (h _)
    | some v => exact ⟨_, rfl⟩

theorem partSinkM_judges (fabrics : List (Bytes × Bytes)) (devices : List YamlKind)
    (hf : ∀ d, fabrics.lookup d = fabricOf devices d) : Judges (partSinkM fabrics) (PartComplaint devices) := by
  have hl : ∀ (props : List (Bytes × Bytes)) k, (assignAll [] props).lookup k = propValue props k := by
    intro props k
    rw [lookup_assignAll]
    simp
  have hd : kDevice = nameDevice := rfl
  have hp : kPackage = namePackage := rfl
  have hs : kSpeedgrade = nameSpeedgrade := rfl
  constructor
  · intro out k props m h
    unfold partSinkM valueOrStatusM
    simp only [hl, hd, hp, hs]
    cases h with
    | device h => rw [h]; rfl
    | package h1 h =>
      obtain ⟨d, h1⟩ := Option.isSome_iff_exists.1 h1
      rw [h1, h]; rfl
    | speedgrade h1 h2 h =>
      obtain ⟨d, h1⟩ := Option.isSome_iff_exists.1 h1
      obtain ⟨p, h2⟩ := Option.isSome_iff_exists.1 h2
      rw [h1, h2, h]; rfl
    | fabric d h1 h2 h3 h =>
      obtain ⟨p, h2⟩ := Option.isSome_iff_exists.1 h2
      obtain ⟨s, h3⟩ := Option.isSome_iff_exists.1 h3
      rw [h1, h2, h3]
      simp only [Said.bind_ok, hf, h]
      rw [quoting]
      rfl
  · intro out k props h
    unfold partSinkM valueOrStatusM
    simp only [hl, hd, hp, hs]
    cases h1 : propValue props nameDevice with
    | none => exact absurd (.device h1) (h _)
    | some d =>
      cases h2 : propValue props namePackage with
      | none => exact absurd (.package (by rw [h1]; rfl) h2) (h _)
      | some p =>
        cases h3 : propValue props nameSpeedgrade with
        | none => exact absurd (.speedgrade (by rw [h1]; rfl) (by rw [h2]; rfl) h3) (h _)
        | some s =>
          simp only [Said.bind_ok, hf]
          cases h4 : fabricOf devices d with
          | none => exact absurd (.fabric d h1 (by rw [h2]; rfl) (by rw [h3]; rfl) h4) (h _)
          | some f => exact ⟨_, rfl⟩

end Verif.Db

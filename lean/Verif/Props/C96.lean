import Verif.Proofs.StderrMain
import Verif.Props.C72
import Verif.Props.C104
/-! # C96: what the program says on standard error -/
namespace Verif.Props
open Verif.Db Verif.Asm Verif.Spec Verif.Text Verif.Xc7
open Verif.Fasm (lit)

theorem parseDatabaseM_ok (x : LibTexts) {env : Env} {load : LoadOrder} {root : Path} {part : Bytes} {db : PartDatabase}
    (h : parseDatabase env load root part = .ok db) : parseDatabaseM x env load root part = .ok db :=
  Said.forget_eq_ok.1 (by rw [parseDatabaseM_forget, h])

/-- The program that prints messages is the program of all the other properties: same end, same status, same output. -/
theorem C96_same_program (x : Texts) (env : Env) (load : LoadOrder) (ord : HashOrder) (inv : Invocation) (out : OStream) (fuel : Nat) :
    ((mainM x env load ord inv out fuel).map fun r => r >>= fun s => .ok (s.1, s.2.1)) = main env load ord inv out fuel := by
  unfold mainM main
  by_cases h : inv.args.length > 2
  · rw [if_pos h, if_pos h]; rfl
  rw [if_neg h, if_neg h]
  cases getOptFlagOrFromEnv inv.dbFlag inv.dbEnv with
  | err => rfl
  | abort => rfl
  | ub => rfl
  | ok path =>
    dsimp only
    split
    · rfl
    split
    · rfl
    rw [← parseDatabaseM_forget x.toLibTexts]
    cases parseDatabaseM x.toLibTexts env load [path] inv.part with
    | err => rfl
    | abort => rfl
    | ub => rfl
    | ok db =>
      rw [Said.forget_ok]
      dsimp only
      unfold mainLoadedM mainLoaded
      cases inputText inv with
      | none => rfl
      | some text =>
        dsimp only
        rw [← assembleFramesM_snd]
        cases (assembleFramesM ord text db []).2.2 with
        | err => rfl
        | abort => rfl
        | ub => rfl
        | ok r =>
          dsimp only
          cases encode r.1.tiles.part kFasm kSource inv.date inv.time r.2 out fuel with
          | none => rfl
          | some o => cases o <;> rfl

theorem first_unique {α : Type} (P : α → Prop) {a b a' b' : List α} {x x' : α} (h : a ++ x :: b = a' ++ x' :: b')
    (ha : ∀ y ∈ a, P y) (ha' : ∀ y ∈ a', P y) (hx : ¬ P x) (hx' : ¬ P x') : a = a' ∧ x = x' := by
  induction a generalizing a' with
  | nil =>
    cases a' with
    | nil => cases h; exact ⟨rfl, rfl⟩
    | cons y a' => cases h; exact absurd (ha' _ List.mem_cons_self) hx
  | cons z a ih =>
    cases a' with
    | nil => cases h; exact absurd (ha _ List.mem_cons_self) hx'
    | cons y a' =>
      simp only [List.cons_append, List.cons.injEq] at h
      obtain ⟨rfl, h⟩ := h
      obtain ⟨rfl, rfl⟩ := ih h (fun y hy => ha y (List.mem_cons_of_mem _ hy)) (fun y hy => ha' y (List.mem_cons_of_mem _ hy))
      exact ⟨rfl, rfl⟩

/-- The first statement without a dot, found in the text. -/
theorem dotless_place (text : Bytes) (parsed : List (List FasmFeature)) (h : (getlines text).mapM plainLine = .ok parsed)
    (a : List FasmFeature) (F : FasmFeature) (b : List FasmFeature) (he : parsed.flatten = a ++ F :: b)
    (ha : ∀ G ∈ a, 0x2e ∈ G.name) (hF : 0x2e ∉ F.name) : FirstDotless text F.name := by
  obtain ⟨ps, hps1, rfl, hps3⟩ := (mapM_ok_iff _ _ _).1 h
  rcases first_bad (fun p : Bytes × List FasmFeature => ∀ F ∈ p.2, 0x2e ∈ F.name) ps with hq | ⟨q, p, q', hqe, hq, hp⟩
  · exfalso
    have : F ∈ (ps.map (·.2)).flatten := by rw [he]; simp
    obtain ⟨fs, hfs, hm⟩ := List.mem_flatten.1 this
    obtain ⟨p, hp, rfl⟩ := List.mem_map.1 hfs
    exact hF (hq p hp F hm)
  rcases first_bad (fun F : FasmFeature => 0x2e ∈ F.name) p.2 with h | ⟨a', F', b', he', ha', hF'⟩
  · exact absurd h hp
  have hsplit : ((q.map (·.2)).flatten ++ a') ++ F' :: (b' ++ (q'.map (·.2)).flatten) = a ++ F :: b := by
    rw [← he, hqe]
    simp only [List.map_append, List.map_cons, List.flatten_append, List.flatten_cons, he', List.append_assoc, List.cons_append]
  obtain ⟨_, rfl⟩ := first_unique (fun F : FasmFeature => 0x2e ∈ F.name) hsplit (by
    intro y hy
    rcases List.mem_append.1 hy with hy | hy
    · obtain ⟨fs, hfs, hm⟩ := List.mem_flatten.1 hy
      obtain ⟨p, hp, rfl⟩ := List.mem_map.1 hfs
      exact hq p hp y hm
    · exact ha' y hy) ha hF' hF
  refine ⟨hF, ?_⟩
  have hgl : getlines text = q.map (·.1) ++ p.1 :: q'.map (·.1) := by rw [hps1, hqe]; simp
  obtain ⟨hplace, hpre⟩ := getlines_split _ _ _ _ hgl
  refine ⟨_, p.1, _, F', hplace, ?_, ?_, rfl⟩
  · have hpm : (getlines (q.map (·.1)).flatten).mapM plainLine = .ok (q.map (·.2)) := by
      refine (mapM_ok_iff _ _ _).2 ⟨q, hpre, rfl, fun p hp => hps3 p ?_⟩
      rw [hqe]; exact List.mem_append.2 (Or.inl hp)
    intro G hG
    have := ((parsed_inv _ _ hpm).2 G).2 hG
    obtain ⟨fs, hfs, hGf⟩ := List.mem_flatten.1 this
    obtain ⟨p, hp, rfl⟩ := List.mem_map.1 hfs
    exact hq p hp G hGf
  · obtain ⟨st, h1, _, h2⟩ := plainLine_ok _ _ (hps3 p (by rw [hqe]; simp))
    have hm : F' ∈ p.2 := by rw [he']; simp
    rw [h2] at hm
    obtain ⟨n, h3, h4⟩ := (mem_toFeature _ _).1 hm
    exact ⟨st, n, h1, h3, h4⟩

/-- Assembly that ends in an error. -/
theorem assembleFramesM_err (ord : HashOrder) (text : Bytes) (db : PartDatabase) (hb : BitsNoErr db)
    (h : (assembleFramesM ord text db []).2.2 = .err) :
    (∃ pre bad post ts, InputLines text (pre ++ bad :: post) ∧ (∀ l ∈ pre, Accepted l) ∧ ¬ Accepted bad ∧ AllFirst (pre ++ [bad]) ts ∧
      (assembleFramesM ord text db []).1 = ts ∧ (assembleFramesM ord text db []).2.1 = lit "internal error") ∨
    (∃ ls ts name, InputLines text ls ∧ (∀ l ∈ ls, Accepted l) ∧ AllFirst ls ts ∧ FirstDotless text name ∧
      (assembleFramesM ord text db []).1 = ts ∧ (assembleFramesM ord text db []).2.1 = lit "cannot split feature name " ++ name) := by
  have hin := inputLines_exists text
  have hlike := inputLines_like hin
  unfold assembleFramesM at h ⊢
  cases hp : pudcbFeatures db.tiles.grid with
  | err => exact absurd hp (noErr_pudcb _)
  | abort => rw [hp] at h; cases h
  | ub => rw [hp] at h; cases h
  | ok pudcb =>
    rw [hp] at h
    dsimp only at h ⊢
    have hs := assembleLinesM_snd (getlines text) []
    cases hl : (assembleLinesM [] (getlines text)).2 with
    | abort => rw [hl] at h; cases h
    | ub => rw [hl] at h; cases h
    | err =>
      rw [hs] at hl
      obtain ⟨pre, bad, post, e, h1, h2, h3⟩ := assembleLinesM_err (fun _ => 1) (fun _ => rfl) _ _ 0 hlike hl
      exact Or.inl ⟨pre, bad, post, _, by rw [← e]; exact hin, h1, h2, h3, rfl, rfl⟩
    | ok parsed =>
      rw [hl] at h
      dsimp only at h ⊢
      rw [hs] at hl
      obtain ⟨hacc, hmsg⟩ := assembleLinesM_ok (fun _ => 1) (fun _ => rfl) _ _ 0 hlike parsed hl
      cases hsd : stepdownFeatures ord db.tiles.banks db.tiles.grid (pudcb ++ parsed.flatten) with
      | err => exact absurd hsd (noErr_stepdown _ _ _ _)
      | abort => rw [hsd] at h; cases h
      | ub => rw [hsd] at h; cases h
      | ok sd =>
        rw [hsd] at h
        dsimp only at h ⊢
        obtain ⟨pre, e, post, he, h1, h2, h3⟩ := processFeaturesM_err ord _ _ hb h
        refine Or.inr ⟨_, _, e.1.name, hin, hacc, hmsg, ?_, rfl, h3⟩
        have he' : pudcb ++ parsed.flatten ++ sd = pre.map (·.1) ++ e.1 :: post.map (·.1) := by
          have := congrArg (List.map Prod.fst) he
          rw [List.zipIdx_map_fst, List.map_append, List.map_cons] at this
          exact this
        have hmem : e.1 ∈ pudcb ++ parsed.flatten ++ sd := by rw [he']; simp
        rcases first_bad (fun F : FasmFeature => 0x2e ∈ F.name) parsed.flatten with hall | ⟨a, F, b, hab, ha, hF⟩
        · exfalso
          rcases List.mem_append.1 hmem with hm | hm
          · rcases List.mem_append.1 hm with hm | hm
            · exact h2 (pudcb_dots _ _ hp _ hm)
            · exact h2 (hall _ hm)
          · exact h2 (stepdown_dots _ _ _ _ _ hsd _ hm)
        · have hsplit : (pudcb ++ a) ++ F :: (b ++ sd) = pre.map (·.1) ++ e.1 :: post.map (·.1) := by
            rw [← he', hab]; simp
          obtain ⟨_, rfl⟩ := first_unique (fun F : FasmFeature => 0x2e ∈ F.name) hsplit (by
            intro y hy
            rcases List.mem_append.1 hy with hy | hy
            · exact pudcb_dots _ _ hp _ hy
            · exact ha y hy) (by
            intro y hy
            obtain ⟨z, hz, rfl⟩ := List.mem_map.1 hy
            exact h1 z hz) hF h2
          exact dotless_place text parsed ((lines_plain text parsed).1 hl) a e.1 b hab ha hF

theorem assembleFramesM_ok (ord : HashOrder) (text : Bytes) (db : PartDatabase) (r : PartDatabase × Frames)
    (h : (assembleFramesM ord text db []).2.2 = .ok r) :
    (∀ l ∈ getlines text, Accepted l) ∧ AllFirst (getlines text) (assembleFramesM ord text db []).1 := by
  have hlike := inputLines_like (inputLines_exists text)
  unfold assembleFramesM at h ⊢
  cases hp : pudcbFeatures db.tiles.grid with
  | err => rw [hp] at h; cases h
  | abort => rw [hp] at h; cases h
  | ub => rw [hp] at h; cases h
  | ok pudcb =>
    rw [hp] at h
    dsimp only at h ⊢
    have hs := assembleLinesM_snd (getlines text) []
    cases hl : (assembleLinesM [] (getlines text)).2 with
    | abort => rw [hl] at h; cases h
    | ub => rw [hl] at h; cases h
    | err => rw [hl] at h; cases h
    | ok parsed =>
      rw [hl] at h
      dsimp only at h ⊢
      rw [hs] at hl
      obtain ⟨hacc, hmsg⟩ := assembleLinesM_ok (fun _ => 1) (fun _ => rfl) _ _ 0 hlike parsed hl
      cases hsd : stepdownFeatures ord db.tiles.banks db.tiles.grid (pudcb ++ parsed.flatten) with
      | err => rw [hsd] at h; cases h
      | abort => rw [hsd] at h; cases h
      | ub => rw [hsd] at h; cases h
      | ok sd => exact ⟨hacc, hmsg⟩

theorem loaded_bits (env : Env) (load : LoadOrder) (root : Path) (name : Bytes) (db : PartDatabase)
    (h : parseDatabase env load root name = .ok db) : BitsNoErr db := by
  obtain ⟨info, grid, paths, part, pins, _, _, _, _, _, rfl⟩ := parseDatabase_iff.1 h
  intro ty
  show NoErr (tilesDatabase env paths ty)
  unfold tilesDatabase
  repeat' split
  all_goals first | exact NoErr.ok _ | exact NoErr.abort | exact NoErr.ub

theorem usageLine_eq (inv : Invocation) : usageLine inv = usageText (inv.args.headD []) := by
  unfold usageLine usage usageText
  have e1 : lit "usage: " = ascii "usage: " := rfl
  have e2 : lit " [options] < input.fasm > output.bit\n\nThis tool parses a sequence of fasm lines and assembles them\ninto a set of frames then mapped into bitstream.\nOutput is written to stdout." ++ lit "\n" =
    ascii " [options] < input.fasm > output.bit\n\nThis tool parses a sequence of fasm lines and assembles them\ninto a set of frames then mapped into bitstream.\nOutput is written to stdout.\n" := by decide +kernel
  rw [List.append_assoc, List.append_assoc, e1, e2, List.append_assoc]

theorem noPathLine_eq : statusLine (lit "get prjxray db path") notProvided =
    ascii "get prjxray db path: flag \"prjxray_db_path\" not provided either via commandline or environment variable (PRJXRAY_DB_PATH)\n" := by
  decide +kernel

theorem setting_none {flag env : Option Bytes} (h : ∀ p, getOptFlagOrFromEnv flag env ≠ .ok p) : flag = none ∧ env = none := by
  unfold getOptFlagOrFromEnv at h
  cases flag with
  | some v => exact absurd rfl (h v)
  | none => cases env with
    | some v => exact absurd rfl (h v)
    | none => exact ⟨rfl, rfl⟩

/-- **How a run that ends looks**: with status 1, nothing printed on standard output, and a reason on standard error; or with status
0, the bitstream on standard output, and on standard error what there is to say about the lines, all of which were accepted. -/
theorem C96_run (x : Texts) (env : Env) (load : LoadOrder) (ord : HashOrder) (inv : Invocation) (out o : OStream) (fuel n : Nat)
    (err : List Bytes) (h : mainM x env load ord inv out fuel = some (.ok (n, o, err))) :
    (n = 1 ∧ o = out ∧ Failure x env load inv err) ∨
    (n = 0 ∧ ∃ db text ls, Starts env load inv db text ∧ InputLines text ls ∧ (∀ l ∈ ls, Accepted l) ∧ AllFirst ls err) := by
  unfold mainM at h
  by_cases hargs : inv.args.length > 2
  · rw [if_pos hargs] at h
    cases h
    rw [usageLine_eq]
    exact Or.inl ⟨rfl, rfl, .arguments hargs⟩
  rw [if_neg hargs] at h
  have hargs' : inv.args.length ≤ 2 := by omega
  have hset : (∃ path, getOptFlagOrFromEnv inv.dbFlag inv.dbEnv = .ok path) ∨ ∀ p, getOptFlagOrFromEnv inv.dbFlag inv.dbEnv ≠ .ok p := by
    cases getOptFlagOrFromEnv inv.dbFlag inv.dbEnv with
    | ok p => exact Or.inl ⟨p, rfl⟩
    | err => exact Or.inr (by simp)
    | abort => exact Or.inr (by simp)
    | ub => exact Or.inr (by simp)
  rcases hset with ⟨path, hset⟩ | hset
  rotate_left
  · obtain ⟨h1, h2⟩ := setting_none hset
    rw [h1, h2] at h
    cases h
    rw [usageLine_eq, noPathLine_eq]
    exact Or.inl ⟨rfl, rfl, .noPath hargs' h1 h2⟩
  rw [hset] at h
  have hS := (C61_setting _ _ _).1 hset
  dsimp only at h
  by_cases hpath : path = [] ∨ env.fileExists [path] = false
  · rw [if_pos hpath] at h
    cases h
    rw [List.append_assoc]
    exact Or.inl ⟨rfl, rfl, .badPath path hargs' hS hpath⟩
  rw [if_neg hpath] at h
  rw [not_or] at hpath
  have hex : env.fileExists [path] = true := by simpa using hpath.2
  by_cases hpart : inv.part = []
  · rw [if_pos hpart] at h
    cases h
    rw [usageLine_eq]
    exact Or.inl ⟨rfl, rfl, .noPart path hargs' hS hpath.1 hex hpart⟩
  rw [if_neg hpart] at h
  cases hdbM : parseDatabaseM x.toLibTexts env load [path] inv.part with
  | err message =>
    rw [hdbM] at h
    cases h
    exact Or.inl ⟨rfl, rfl, .database path message hargs' hS hpath.1 hex hpart ((C104_database _ _ _ _ _).2.1 message |>.1 hdbM)⟩
  | abort => rw [hdbM] at h; cases h
  | ub => rw [hdbM] at h; cases h
  | ok db =>
    have hdb : parseDatabase env load [path] inv.part = .ok db := by
      rw [← parseDatabaseM_forget x.toLibTexts, hdbM]; rfl
    rw [hdbM] at h
    dsimp only at h
    unfold mainLoadedM at h
    cases htext : inputText inv with
    | none =>
      rw [htext] at h
      cases h
      refine Or.inl ⟨rfl, rfl, .noInput path db hargs' hS hpath.1 hex hpart hdb ?_⟩
      intro text ht
      rw [(inputText_iff _ _).2 ht] at htext
      cases htext
    | some text =>
      rw [htext] at h
      dsimp only at h
      have hst : Starts env load inv db text := ⟨hargs', hpart, (inputText_iff _ _).1 htext, path, hS, hpath.1, hex, hdb⟩
      cases ha : (assembleFramesM ord text db []).2.2 with
      | abort => rw [ha] at h; cases h
      | ub => rw [ha] at h; cases h
      | err =>
        rw [ha] at h
        dsimp only at h
        rcases assembleFramesM_err ord text db (loaded_bits _ _ _ _ _ hdb) ha with
          ⟨pre, bad, post, ts, h1, h2, h3, h4, h5, h6⟩ | ⟨ls, ts, name, h1, h2, h3, h4, h5, h6⟩
        · rw [h5, h6] at h
          cases h
          exact Or.inl ⟨rfl, rfl, .line db text pre bad post ts hst h1 h2 h3 h4⟩
        · rw [h5, h6] at h
          cases h
          have e : statusLine (lit "could not assemble frames") (lit "cannot split feature name " ++ name) =
              ascii "could not assemble frames: cannot split feature name " ++ name ++ ascii "\n" := by
            unfold statusLine
            rw [← List.append_assoc]
            rfl
          rw [e]
          exact Or.inl ⟨rfl, rfl, .name db text ls ts name hst h1 h2 h3 h4⟩
      | ok r =>
        rw [ha] at h
        dsimp only at h
        cases he : encode r.1.tiles.part kFasm kSource inv.date inv.time r.2 out fuel with
        | none => rw [he] at h; cases h
        | some y =>
          rw [he] at h
          cases y with
          | err => exact absurd he (noErr_encode _ _ _ _ _ _ _ _)
          | abort => cases h
          | ub => cases h
          | ok o' =>
            cases h
            obtain ⟨h1, h2⟩ := assembleFramesM_ok ord text db r ha
            exact Or.inr ⟨rfl, db, text, getlines text, hst, inputLines_exists text, h1, h2⟩

/-! ## Comments on accepted lines -/

/-- What is said about a line the parser comes to an end on: what the parser prints. -/
theorem lineMessages_out (l : Bytes) (ts : List Bytes) (h : LineMessages 1 l ts) (st : Fasm.St)
    (hst : Fasm.parse true (fun _ => true) l = .ok st) :
    ∃ o, Fasm.parseM true (fun _ => true) l = .ok o ∧ o.st = st ∧ o.out = ts := by
  have hlike : LineLike l := by
    cases h with
    | shape s hok hnl h => exact Or.inl ⟨_, rfl, hnl⟩
    | noNewline _ hne h => exact Or.inr h
  obtain ⟨o, h1, h2, h3⟩ := Fasm.parseInM_defined (fun _ => true) l [] hlike st hst
  refine ⟨o, h2, h3, ?_⟩
  cases h with
  | noNewline _ hne h =>
    rw [Fasm.parseInM_no_nl true _ l [] (fun e => h (List.mem_of_getLast? e)) hne] at h1
    cases h1
    rfl
  | shape s hok hnl h =>
    have hnd : ¬ Dangles s.text := by
      intro hd
      have h1 := Fasm.parseIn_overrun true (fun _ => true) s.text [] hd (by simp)
      rw [Fasm.parseIn_nil, show [Fasm.chNl] = [(0x0a : UInt8)] from rfl, hst] at h1
      cases h1
    have hs : s.Swallows = false := by
      cases s with
      | dangling g name r w => exact absurd ⟨g, name, r, w, hok, rfl⟩ hnd
      | bare => rfl
      | feature => rfl
      | openRange => rfl
      | inverted => rfl
      | badFormat => rfl
    rw [show [(0x0a : UInt8)] = [Fasm.chNl] from rfl, Fasm.parseInM_one true _ _ [] hnl (Fasm.shape_not_dangles s hok hs)] at h1
    cases hp : Fasm.lineP true (fun _ => true) {} 1 s.text with
    | oob => rw [hp] at h1; cases h1
    | shift => rw [hp] at h1; cases h1
    | ok st' =>
      rw [hp] at h1
      cases h1
      exact Fasm.lineT_says true 1 (by decide) s hok hs h

theorem lineMessages_ne {n : Nat} {l : Bytes} {ts : List Bytes} (h : LineMessages n l ts) : l ≠ [] := by
  cases h with
  | shape s hok hnl h => simp
  | noNewline _ hne h => exact hne

theorem worst_ge (l : List Fasm.Sev) (s : Fasm.Sev) (h : s ∈ l) : severity s ≤ severity (worst l) := by
  induction l with
  | nil => cases h
  | cons a l ih =>
    unfold worst
    rcases List.mem_cons.1 h with rfl | h
    · split <;> omega
    · have := ih h
      split <;> omega

/-- The messages about an accepted line are comments. -/
theorem lineMessages_comment (l : Bytes) (ts : List Bytes) (hlen : l.length < 2 ^ 31) (h : LineMessages 1 l ts) (ha : Accepted l) :
    ∀ t ∈ ts, Comment t := by
  obtain ⟨st, hst, hr1, hr2⟩ := ha
  obtain ⟨o, hp, rfl, rfl⟩ := lineMessages_out l ts h st hst
  obtain ⟨h1, h2⟩ := C92_tagged true (fun _ => true) l hlen o hp
  intro t ht
  obtain ⟨i, hi⟩ := List.mem_iff_getElem?.1 ht
  have hlt : i < o.st.diags.length := by rw [← h1]; exact (List.getElem?_eq_some_iff.1 hi).1
  have hd : o.st.diags[i]? = some o.st.diags[i] := List.getElem?_eq_getElem hlt
  generalize o.st.diags[i] = d at hd
  obtain ⟨line, sev⟩ := d
  have hb := h2 i line sev t hd hi
  have hmem : (line, sev) ∈ o.st.diags := List.mem_of_getElem? hd
  have hsev : severity sev ≤ severity o.st.result := by
    rw [C28_result true (fun _ => true) l o.st hst]
    exact worst_ge _ _ (List.mem_append.2 (Or.inl (List.mem_map.2 ⟨_, hmem, rfl⟩)))
  have hns : sev ≠ .success := ((Fasm.closed_result (fun _ => true)).parse true l o.st ⟨rfl, by simp⟩ hst).2 _ hmem
  have hone : ∃ body, t = about 1 body := by
    rcases lineMessages_about h t ht with h' | ⟨_, hnl⟩
    · exact h'
    · exfalso
      have hne := lineMessages_ne h
      have e := Fasm.parseInM_no_nl true (fun _ => true) l [] (fun e => hnl (List.mem_of_getLast? e)) hne
      rw [Fasm.parseInM_nil, hp] at e
      cases e
      exact hr2 rfl
  obtain ⟨body, rfl⟩ := hone
  have hpre : ∀ (tag : Bytes), tag <+: body → dec 1 ++ ascii ": " ++ tag <+: about 1 body := by
    rintro tag ⟨r, rfl⟩
    exact ⟨r ++ ascii "\n", by unfold about; simp only [List.append_assoc]⟩
  unfold Belongs at hb
  split at hb
  · exfalso
    have h1 : (about 1 body).head? = some 0x31 := by
      unfold about
      have : dec 1 = [0x31] := by decide
      rw [this]; rfl
    rw [hb] at h1
    exact absurd h1 (by decide)
  · obtain ⟨body', he, hs1, hs2, hs3⟩ := hb
    obtain ⟨_, rfl⟩ := about_number he
    unfold Comment
    cases sev with
    | success => exact absurd rfl hns
    | info => exact Or.inr (Or.inl (hpre _ (hs2 rfl)))
    | nonCritical => exact Or.inr (Or.inr (hpre _ (hs3 rfl)))
    | skipped => exact Or.inl (hpre _ (hs1 rfl))
    | userAbort =>
      exfalso
      revert hsev hr1 hr2
      cases o.st.result <;> simp [severity]
    | error =>
      exfalso
      revert hsev hr1 hr2
      cases o.st.result <;> simp [severity]

theorem messages_comment {number : Nat → Nat} (hnum : ∀ i, number i = 1) {i : Nat} {ls ts : List Bytes} (h : Messages number i ls ts)
    (hlen : ∀ l ∈ ls, l.length < 2 ^ 31) (ha : ∀ l ∈ ls, Accepted l) : ∀ t ∈ ts, Comment t := by
  induction h with
  | nil => simp
  | cons h _ ih =>
    intro t ht
    rcases List.mem_append.1 ht with ht | ht
    · rw [hnum] at h
      exact lineMessages_comment _ _ (hlen _ List.mem_cons_self) h (ha _ List.mem_cons_self) t ht
    · exact ih (fun l hl => hlen l (List.mem_cons_of_mem _ hl)) (fun l hl => ha l (List.mem_cons_of_mem _ hl)) t ht

/-- **A successful run says nothing but comments**: every message on standard error begins with `1: SKIP`,
`1: INFO` or `1: WARN`. -/
theorem C96_success_comments (x : Texts) (env : Env) (load : LoadOrder) (ord : HashOrder) (inv : Invocation) (out o : OStream) (fuel : Nat)
    (err : List Bytes) (h : mainM x env load ord inv out fuel = some (.ok (0, o, err)))
    (hlen : ∀ text, Input inv text → ∀ l, IsLine text l → l.length < 2 ^ 31) : ∀ t ∈ err, Comment t := by
  rcases C96_run x env load ord inv out o fuel 0 err h with ⟨h, _⟩ | ⟨_, db, text, ls, hst, hin, hacc, hmsg⟩
  · cases h
  intro t ht
  have hls := inputLines_getlines hin
  exact messages_comment (fun _ => rfl) hmsg
    (fun l hl => hlen text hst.2.2.1 l ((mem_getlines _ _).1 (by rw [hls]; exact hl))) hacc t ht

/-- A run ends with a status and output exactly when the program with messages does. -/
theorem C96_ends (x : Texts) (env : Env) (load : LoadOrder) (ord : HashOrder) (inv : Invocation) (out o : OStream) (fuel n : Nat) :
    main env load ord inv out fuel = some (.ok (n, o)) ↔ ∃ err, mainM x env load ord inv out fuel = some (.ok (n, o, err)) := by
  rw [← C96_same_program x]
  constructor
  · intro h
    cases hm : mainM x env load ord inv out fuel with
    | none => rw [hm] at h; cases h
    | some r =>
      rw [hm] at h
      cases r with
      | ok s =>
        obtain ⟨n', o', err⟩ := s
        cases h
        exact ⟨err, rfl⟩
      | err => cases h
      | abort => cases h
      | ub => cases h
  · rintro ⟨err, h⟩
    rw [h]
    rfl

/-- **A run that fails says why**: status 1 is never silent. -/
theorem C96_failure (x : Texts) (env : Env) (load : LoadOrder) (ord : HashOrder) (inv : Invocation) (out o : OStream) (fuel : Nat)
    (h : main env load ord inv out fuel = some (.ok (1, o))) :
    ∃ err, mainM x env load ord inv out fuel = some (.ok (1, o, err)) ∧ Failure x env load inv err ∧ err ≠ [] := by
  obtain ⟨err, h⟩ := (C96_ends x env load ord inv out o fuel 1).1 h
  rcases C96_run x env load ord inv out o fuel 1 err h with ⟨_, _, hf⟩ | ⟨h, _⟩
  · refine ⟨err, h, hf, ?_⟩
    cases hf <;> simp
  · cases h

theorem inputText_none (inv : Invocation) (h : ∀ text, ¬ Input inv text) : inputText inv = none := by
  cases hi : inputText inv with
  | none => rfl
  | some text => exact absurd ((inputText_iff _ _).1 hi) (h text)

/-- Conversely, each reason that is found before assembling ends the program with status 1 and that message. -/
theorem C96_before (x : Texts) (env : Env) (load : LoadOrder) (ord : HashOrder) (inv : Invocation) (out : OStream) (fuel : Nat)
    (err : List Bytes) (h : ¬ ∃ db text, Starts env load inv db text) (hf : Failure x env load inv err) :
    mainM x env load ord inv out fuel = some (.ok (1, out, err)) := by
  unfold mainM
  cases hf with
  | arguments h1 => rw [if_pos h1, usageLine_eq]
  | noPath h0 h1 h2 => rw [if_neg (by omega), h1, h2, ← usageLine_eq, ← noPathLine_eq]; rfl
  | badPath path h0 h1 h2 =>
    rw [if_neg (by omega), (C61_setting _ _ _).2 h1]
    dsimp only
    rw [if_pos h2, List.append_assoc]
    rfl
  | noPart path h0 h1 h2 h3 h4 =>
    rw [if_neg (by omega), (C61_setting _ _ _).2 h1]
    dsimp only
    rw [if_neg (by rw [not_or]; exact ⟨h2, by rw [h3]; simp⟩), if_pos h4, ← usageLine_eq]
    rfl
  | database path message h0 h1 h2 h3 h4 h5 =>
    rw [if_neg (by omega), (C61_setting _ _ _).2 h1]
    dsimp only
    rw [if_neg (by rw [not_or]; exact ⟨h2, by rw [h3]; simp⟩), if_neg h4, ((C104_database _ env load _ _).2.1 message).2 h5]
    rfl
  | noInput path db h0 h1 h2 h3 h4 h5 h6 =>
    rw [if_neg (by omega), (C61_setting _ _ _).2 h1]
    dsimp only
    rw [if_neg (by rw [not_or]; exact ⟨h2, by rw [h3]; simp⟩), if_neg h4, parseDatabaseM_ok _ h5]
    dsimp only
    unfold mainLoadedM
    rw [inputText_none inv h6]
    rfl
  | line db text pre bad post ts h1 => exact absurd ⟨db, text, h1⟩ h
  | name db text ls ts name h1 => exact absurd ⟨db, text, h1⟩ h

/-! ## Once it has started -/

theorem mainM_error (x : Texts) (env : Env) (load : LoadOrder) (ord : HashOrder) (inv : Invocation) (out : OStream) (fuel : Nat)
    (db : PartDatabase) (text : Bytes) (h : Starts env load inv db text) (ha : (assembleFramesM ord text db []).2.2 = .err) :
    mainM x env load ord inv out fuel = some (.ok (1, out, (assembleFramesM ord text db []).1 ++
      [statusLine (lit "could not assemble frames") (assembleFramesM ord text db []).2.1])) := by
  obtain ⟨h1, h2, h3, path, h4, h5, h6, h7⟩ := h
  unfold mainM
  rw [if_neg (by omega), (C61_setting _ _ _).2 h4]
  dsimp only
  rw [if_neg (by rw [not_or]; exact ⟨h5, by rw [h6]; simp⟩), if_neg h2, parseDatabaseM_ok _ h7]
  dsimp only
  unfold mainLoadedM
  rw [(inputText_iff _ _).2 h3]
  dsimp only
  rw [ha]

theorem starts_bits {env : Env} {load : LoadOrder} {inv : Invocation} {db : PartDatabase} {text : Bytes} (h : Starts env load inv db text) :
    BitsNoErr db := by
  obtain ⟨_, _, _, path, _, _, _, h7⟩ := h
  exact loaded_bits _ _ _ _ _ h7

theorem messages_append {number : Nat → Nat} (b : List Bytes) : ∀ (a : List Bytes) (i : Nat) (ts : List Bytes),
    Messages number i (a ++ b) ts → ∃ us vs, ts = us ++ vs ∧ Messages number i a us ∧ Messages number (i + a.length) b vs := by
  intro a
  induction a with
  | nil => intro i ts h; exact ⟨[], ts, rfl, .nil i, h⟩
  | cons l a ih =>
    intro i ts h
    cases h with
    | cons h t =>
      obtain ⟨us, vs, rfl, h1, h2⟩ := ih _ _ t
      refine ⟨_ ++ us, vs, (List.append_assoc ..).symm, .cons h h1, ?_⟩
      have : i + (l :: a).length = i + 1 + a.length := by rw [List.length_cons]; omega
      rw [this]
      exact h2

theorem accepted_linesOk {text : Bytes} {ls : List Bytes} (hin : InputLines text ls) : LinesOk text ↔ ∀ l ∈ ls, Accepted l := by
  have e := inputLines_getlines hin
  constructor
  · intro h l hl
    exact h l ((mem_getlines _ _).1 (by rw [e]; exact hl))
  · intro h l hl
    exact h l (by rw [← e]; exact (mem_getlines _ _).2 hl)

/-- **A line that is not accepted is commented on**: all that precedes it is, then the line itself, by at least one message, and the
run ends with `internal error`. -/
theorem C96_bad_line (x : Texts) (env : Env) (load : LoadOrder) (hload : LoadOk load) (ord : HashOrder)
    (inv : Invocation) (out : OStream) (fuel : Nat) (db : PartDatabase) (text : Bytes) (h : Starts env load inv db text)
    (hus : Usable db.tiles) (hdef : TextDefined text) (hbad : ¬ LinesOk text) :
    ∃ pre bad post ts us, InputLines text (pre ++ bad :: post) ∧ (∀ l ∈ pre, Accepted l) ∧ ¬ Accepted bad ∧
      AllFirst pre ts ∧ LineMessages 1 bad us ∧ us ≠ [] ∧
      mainM x env load ord inv out fuel =
        some (.ok (1, out, ts ++ us ++ [ascii "could not assemble frames: internal error\n"])) := by
  obtain ⟨_, _, _, path, _, _, _, h7⟩ := id h
  have hfresh := (C45_loaded env load hload _ _ db h7).2
  have he := C72_bad_line hus ord text hdef db hfresh hbad
  rw [← assembleFramesM_snd] at he
  have hm := mainM_error x env load ord inv out fuel db text h he
  rcases assembleFramesM_err ord text db (starts_bits h) he with
    ⟨pre, bad, post, ts, h1, h2, h3, h4, h5, h6⟩ | ⟨ls, ts, name, h1, h2, _⟩
  · obtain ⟨us, vs, rfl, h8, h9⟩ := messages_append _ _ _ _ h4
    have h10 : LineMessages 1 bad vs := by
      cases h9 with
      | cons h t => cases t; rw [List.append_nil]; exact h
    refine ⟨pre, bad, post, us, vs, h1, h2, h3, h8, h10, ?_, ?_⟩
    · have hl : IsLine text bad := (mem_getlines _ _).1 (by rw [inputLines_getlines h1]; simp)
      obtain ⟨hshort, hd⟩ := hdef bad hl
      cases h10 with
      | noNewline _ hne h => simp
      | shape s hok hnl hs =>
        obtain ⟨st, hst⟩ := (C72_defined s.text hnl (by rw [List.length_append] at hshort; omega)).2 (hd s.text rfl)
        obtain ⟨o, ho, rfl, rfl⟩ := lineMessages_out _ _ (.shape s hok hnl hs) st hst
        intro hout
        have hdl := (C92_tagged true (fun _ => true) _ (by omega) o ho).1
        rw [hout] at hdl
        have hr := (C28_success true (fun _ => true) _ o.st hst).2 ⟨List.eq_nil_of_length_eq_zero hdl.symm, fun _ _ _ _ _ => rfl⟩
        exact h3 ⟨o.st, hst, by rw [hr]; simp, by rw [hr]; simp⟩
    · rw [hm, h5, h6]
      rfl
  · exact absurd ((accepted_linesOk h1).2 h2) hbad

/-- There is one first name without a dot. -/
theorem dotless_unique {text name name' : Bytes} (hok : LinesOk text) (hshort : ∀ l, IsLine text l → l.length < 2 ^ 28)
    (h : FirstDotless text name) (h' : FirstDotless text name') : name = name' := by
  obtain ⟨hd, pre, line, post, F, hp, hpre, hs, rfl⟩ := h
  obtain ⟨hd', pre', line', post', F', hp', hpre', hs', rfl⟩ := h'
  have key : ∀ (pre : Bytes), (∀ G, Written pre G → 0x2e ∈ G.name) → ∀ l ∈ getlines pre, ∀ G, Says l G → 0x2e ∈ G.name := by
    rintro pre hpre l hl G ⟨st, n, h1, h2, h3⟩
    exact hpre G ⟨l, st, n, (mem_getlines _ _).1 hl, h1, h2, h3⟩
  have e := (getlines_place hp).symm.trans (getlines_place hp')
  obtain ⟨_, rfl⟩ := first_unique (fun l => ∀ G, Says l G → 0x2e ∈ G.name) e (key pre hpre) (key pre' hpre')
    (fun hall => hd (hall F hs)) (fun hall => hd' (hall F' hs'))
  have hl := place_isLine hp
  obtain ⟨nm, hnm⟩ := C72_statements text line hok (hshort _ hl) hl
  rw [(hnm F hs).1, (hnm F' hs').1]

/-- **A name without a dot is named**: the first one. -/
theorem C96_dotless (x : Texts) (env : Env) (load : LoadOrder) (hload : LoadOk load) (ord : HashOrder) (hord : Permutes ord)
    (inv : Invocation) (out : OStream) (fuel : Nat) (db : PartDatabase) (text : Bytes) (h : Starts env load inv db text)
    (hus : Usable db.tiles) (hdef : TextDefined text) (hok : LinesOk text) (hsd : StepdownOk db.tiles (Basic db.tiles text))
    (hpudc : ∀ F, PudcFeature db.tiles.grid F → FeatureOk db.tiles F) (pre line post : Bytes) (F : FasmFeature)
    (hplace : Place text pre line post) (hpre : ∀ G, Written pre G → FeatureOk db.tiles G) (hsays : Says line F) (hdot : 0x2e ∉ F.name) :
    ∃ ls ts, InputLines text ls ∧ AllFirst ls ts ∧ mainM x env load ord inv out fuel = some (.ok (1, out,
      ts ++ [ascii "could not assemble frames: cannot split feature name " ++ F.name ++ ascii "\n"])) := by
  obtain ⟨_, _, _, path, _, _, _, h7⟩ := id h
  have hfresh := (C45_loaded env load hload _ _ db h7).2
  have he := (C72_error_iff hus ord hord text hdef db hfresh).2 (Or.inr ⟨hsd, hpudc, pre, line, post, F, hplace, hpre, hsays, hdot⟩)
  rw [← assembleFramesM_snd] at he
  have hm := mainM_error x env load ord inv out fuel db text h he
  rcases assembleFramesM_err ord text db (starts_bits h) he with
    ⟨p, bad, q, ts, h1, h2, h3, _⟩ | ⟨ls, ts, name, h1, h2, h3, h4, h5, h6⟩
  · exact absurd ((accepted_linesOk h1).1 hok bad (by simp)) h3
  · have hn : name = F.name := dotless_unique hok (fun l hl => (hdef l hl).1) h4 ⟨hdot, pre, line, post, F, hplace,
      fun G hG => ((featureOk_iff hus.inside G).1 (hpre G hG)).2.1, hsays, rfl⟩
    refine ⟨ls, ts, h1, h3, ?_⟩
    rw [hm, h5, h6, hn]
    unfold statusLine
    rw [← List.append_assoc (lit "could not assemble frames" ++ lit ": ")]
    rfl

/-! ## Examples -/

theorem file_starts_with (text : Bytes) : Starts fileEnv sameLoad { fileInv with stdin := text } ⟨fileTiles, []⟩ text :=
  ⟨by simp [fileInv], by simp [fileInv], Or.inr ⟨fun _ _ h => by simp [fileInv] at h, rfl⟩, bytes!"d", Or.inr ⟨rfl, rfl⟩, by decide,
    by decide, file_database⟩

/-- `T.F`, `X`: the name is named. -/
example (x : Texts) (out : OStream) (fuel : Nat) :
    mainM x fileEnv sameLoad sameOrder { fileInv with stdin := bytes!"T.F\nX\n" } out fuel =
      some (.ok (1, out, [ascii "could not assemble frames: cannot split feature name X\n"])) := by
  have h1 : (assembleFramesM sameOrder bytes!"T.F\nX\n" ⟨fileTiles, []⟩ []).2.2 = .err := by
    rw [assembleFramesM_snd]; rfl
  have h2 : (assembleFramesM sameOrder bytes!"T.F\nX\n" ⟨fileTiles, []⟩ []).1 = [] := by decide +kernel
  have h3 : (assembleFramesM sameOrder bytes!"T.F\nX\n" ⟨fileTiles, []⟩ []).2.1 = ascii "cannot split feature name X" := by decide +kernel
  rw [mainM_error x _ _ _ _ out fuel _ _ (file_starts_with _) h1, h2, h3, List.nil_append]
  have e : statusLine (lit "could not assemble frames") (ascii "cannot split feature name X") =
    ascii "could not assemble frames: cannot split feature name X\n" := by decide +kernel
  rw [e]

/-- `T.F`, `?`: the line is commented on. -/
theorem C96_line_example (x : Texts) (out : OStream) (fuel : Nat) :
    mainM x fileEnv sameLoad sameOrder { fileInv with stdin := bytes!"T.F\n?\n" } out fuel =
      some (.ok (1, out, [ascii "1: expected newline, got '?'\n"] ++ [ascii "could not assemble frames: internal error\n"])) := by
  have h1 : (assembleFramesM sameOrder bytes!"T.F\n?\n" ⟨fileTiles, []⟩ []).2.2 = .err := by
    rw [assembleFramesM_snd]; rfl
  have h2 : (assembleFramesM sameOrder bytes!"T.F\n?\n" ⟨fileTiles, []⟩ []).1 = [ascii "1: expected newline, got '?'\n"] := by decide +kernel
  have h3 : (assembleFramesM sameOrder bytes!"T.F\n?\n" ⟨fileTiles, []⟩ []).2.1 = ascii "internal error" := by decide +kernel
  rw [mainM_error x _ _ _ _ out fuel _ _ (file_starts_with _) h1, h2, h3]
  have e : statusLine (lit "could not assemble frames") (ascii "internal error") =
    ascii "could not assemble frames: internal error\n" := by decide +kernel
  rw [e]

/-- The hypotheses of `C96_bad_line` hold of it, and those of `C96_dotless` of the text before. -/
example : Usable fileTiles ∧ TextDefined bytes!"T.F\n?\n" ∧ ¬ LinesOk bytes!"T.F\n?\n" := by
  refine ⟨fileTiles_usable, textDefined_of ?_, ?_⟩
  · intro line hl
    have : getlines bytes!"T.F\n?\n" = [bytes!"T.F\n", bytes!"?\n"] := by decide
    rw [this, List.mem_cons, List.mem_singleton] at hl
    rcases hl with rfl | rfl
    · exact ⟨by decide, _, rfl⟩
    · exact ⟨by decide, _, rfl⟩
  · intro h
    obtain ⟨st, hst, _, hr⟩ := h bytes!"?\n" ((mem_getlines _ _).1 (by decide))
    have : Fasm.parse true (fun _ => true) bytes!"?\n" = .ok ⟨.error, [], [(1, .error)]⟩ := by decide
    rw [this] at hst
    cases hst
    exact hr rfl

example : StepdownOk fileTiles (Basic fileTiles bytes!"T.F\nX\n") ∧ (∀ F, PudcFeature fileTiles.grid F → FeatureOk fileTiles F) ∧
    ∃ pre line post F, Place bytes!"T.F\nX\n" pre line post ∧ (∀ G, Written pre G → FeatureOk fileTiles G) ∧ Says line F ∧ 0x2e ∉ F.name := by
  rcases (C72_error_iff fileTiles_usable sameOrder sameOrder_permutes _ C72_error_example.1 _ Reachable.fresh).1 rfl with h | h
  · refine absurd ?_ h
    intro line hl
    have hl := (mem_getlines _ _).2 hl
    have : getlines bytes!"T.F\nX\n" = [bytes!"T.F\n", bytes!"X\n"] := by decide
    rw [this, List.mem_cons, List.mem_singleton] at hl
    rcases hl with rfl | rfl
    · exact ⟨_, rfl, by decide, by decide⟩
    · exact ⟨_, rfl, by decide, by decide⟩
  · exact h

/-- The reasons found before assembling: no database given; a database that is not there; no part. -/
example (x : Texts) (load : LoadOrder) (ord : HashOrder) (out : OStream) (fuel : Nat) :
    mainM x fileEnv load ord { fileInv with dbEnv := none } out fuel = some (.ok (1, out,
      [ascii "get prjxray db path: flag \"prjxray_db_path\" not provided either via commandline or environment variable (PRJXRAY_DB_PATH)\n",
        usageText bytes!"a"])) := by
  refine C96_before x fileEnv load ord _ out fuel _ ?_ (.noPath (by simp [fileInv]) rfl rfl)
  rintro ⟨_, _, _, _, _, _, h | ⟨_, h⟩, _⟩ <;> cases h

example (x : Texts) (load : LoadOrder) (ord : HashOrder) (out : OStream) (fuel : Nat) :
    mainM x fileEnv load ord { fileInv with dbFlag := some bytes!"e" } out fuel = some (.ok (1, out,
      [ascii "invalid prjxray-db path: \"" ++ bytes!"e" ++ ascii "\"\n"])) := by
  refine C96_before x fileEnv load ord _ out fuel _ ?_ (.badPath bytes!"e" (by simp [fileInv]) (Or.inl rfl) (Or.inr (by decide)))
  rintro ⟨_, _, _, _, _, _, h | ⟨h, _⟩, _, h', _⟩
  · cases h; exact absurd h' (by decide)
  · cases h

example (x : Texts) (load : LoadOrder) (ord : HashOrder) (out : OStream) (fuel : Nat) :
    mainM x fileEnv load ord { fileInv with part := [] } out fuel = some (.ok (1, out,
      [ascii "no part provided\n", usageText bytes!"a"])) := by
  refine C96_before x fileEnv load ord _ out fuel _ ?_
    (.noPart bytes!"d" (by simp [fileInv]) (Or.inr ⟨rfl, rfl⟩) (by decide) (by decide) rfl)
  rintro ⟨_, _, _, h, _⟩
  exact h rfl

end Verif.Props

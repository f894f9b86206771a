import Verif.Props.C104
import Verif.Props.C96
/-! # C105: which database file is bad -/
namespace Verif.Props
open Verif.Db Verif.Spec Verif.Text
open Verif.Asm Verif.Xc7
open Verif.Fasm (lit)

/-- The files of a part, in the order they are read. -/
def partFiles (root : Path) (part fabric : Bytes) : List Path :=
  [partsPath root, devicesPath root, root ++ [fabric, bytes!"tilegrid.json"], root ++ [part, bytes!"part.json"],
    root ++ [part, bytes!"package_pins.csv"]]

/-- The same directory, but the file `p` cannot be opened. -/
def without (env : Env) (p : Path) : Env := { env with read := fun q => if q = p then none else env.read q }

theorem mapFileM_without (x : LibTexts) (env : Env) (p q : Path) (h : q ≠ p) : mapFileM x (without env p) q = mapFileM x env q := by
  have e : (without env p).read q = env.read q := if_neg h
  unfold mapFileM
  rw [e]

theorem mapFileM_gone (x : LibTexts) (env : Env) (p : Path) (text : Bytes) (ht : PathText p text) :
    mapFileM x (without env p) p = .err (ascii "could not open file: " ++ text ++ ascii ": " ++ x.strerror p) := by
  have e : (without env p).read p = none := if_pos rfl
  unfold mapFileM
  rw [e, (pathText_iff p text).1 ht]
  rfl

theorem file_ne {root : Path} {a b c d : Bytes} (h : b ≠ d) : root ++ [a, b] ≠ root ++ [c, d] := by
  intro he
  have := List.append_cancel_left he
  simp only [List.cons.injEq] at this
  exact h this.2.1

/-- A file that cannot be opened, in a database that is fine otherwise, is named with its path, and the reason is given. -/
theorem C105_unopened_partial (x : LibTexts) (env : Env) (load : LoadOrder) (root : Path) (part : Bytes) (db : PartDatabase)
    (h : parseDatabase env load root part = .ok db) (info : PartInfo) (hinfo : PartTable env root part (some info)) (p : Path)
    (hp : p ∈ partFiles root part info.fabric) (text : Bytes) (ht : PathText p text) :
    parseDatabaseM x (without env p) load root part = .err (ascii "could not open file: " ++ text ++ ascii ": " ++ x.strerror p) := by
  have hgone := mapFileM_gone x env p text ht
  have hsame := mapFileM_without x env p
  have hM : parseDatabaseM x env load root part = .ok db := Said.forget_eq_ok.1 (by rw [parseDatabaseM_forget, h])
  have hI : parsePartInfoM x env root part = .ok info :=
    Said.forget_eq_ok.1 (by rw [parsePartInfoM_forget]; exact (table_lookup hinfo).1 info rfl)
  have hjson : ∀ {α : Type} (f : Json → Said α) (q : Path), q ≠ p → parseJsonFileM x (without env p) f q = parseJsonFileM x env f q := by
    intro α f q hq
    unfold parseJsonFileM
    rw [hsame q hq]
    rfl
  have hjgone : ∀ {α : Type} (f : Json → Said α), parseJsonFileM x (without env p) f p =
      .err (ascii "could not open file: " ++ text ++ ascii ": " ++ x.strerror p) := by
    intro α f
    unfold parseJsonFileM
    rw [hgone]
    rfl
  have hIsame : (∀ q ∈ [root ++ [kMapping, kPartsYaml], root ++ [kMapping, kDevicesYaml]], q ≠ p) →
      parsePartInfoM x (without env p) root part = .ok info := by
    intro hq
    rw [← hI]
    unfold parsePartInfoM
    rw [hsame _ (hq _ (by simp)), hsame _ (hq _ (by simp))]
  -- the stages of the database that loads
  unfold parseDatabaseM at hM
  rw [hI, Said.bind_ok] at hM
  cases hg : parseJsonFileM x env (parseTileGridM x) (root ++ [info.fabric, kTilegrid]) with
  | err m => rw [hg] at hM; cases hM
  | abort => rw [hg] at hM; cases hM
  | ub => rw [hg] at hM; cases hM
  | ok grid =>
  rw [hg, Said.bind_ok] at hM
  cases hl : (Said.ofOutcome (lit "could not initialize directory iterator") (indexTileTypes env root)) with
  | err m => rw [hl] at hM; cases hM
  | abort => rw [hl] at hM; cases hM
  | ub => rw [hl] at hM; cases hM
  | ok paths =>
  rw [hl, Said.bind_ok] at hM
  cases hpart : parseJsonFileM x env (parsePartM x) (root ++ [part, kPartJson]) with
  | err m => rw [hpart] at hM; cases hM
  | abort => rw [hpart] at hM; cases hM
  | ub => rw [hpart] at hM; cases hM
  | ok pt =>
  have hlist : ∀ q, indexTileTypes (without env q) root = indexTileTypes env root := fun q => rfl
  simp only [partFiles, partsPath, devicesPath, List.mem_cons, List.not_mem_nil, or_false] at hp
  unfold parseDatabaseM
  rcases hp with rfl | rfl | rfl | rfl | rfl
  · unfold parsePartInfoM
    rw [show mapFileM x (without env (root ++ [bytes!"mapping", bytes!"parts.yaml"])) (root ++ [kMapping, kPartsYaml]) = _ from hgone]
    rfl
  · unfold parsePartInfoM
    rw [hsame (root ++ [kMapping, kPartsYaml]) (file_ne (by decide))]
    obtain ⟨_, _, ⟨pc, pb, h1, _⟩, _⟩ := hinfo
    rw [show mapFileM x env (root ++ [kMapping, kPartsYaml]) = .ok (pc, pb) by
      unfold mapFileM; rw [show env.read (root ++ [kMapping, kPartsYaml]) = some (pc, pb) from h1]]
    rw [Said.bind_ok, show mapFileM x (without env (root ++ [bytes!"mapping", bytes!"devices.yaml"])) (root ++ [kMapping, kDevicesYaml]) = _ from hgone]
    rfl
  · rw [hIsame, Said.bind_ok, show parseJsonFileM x (without env (root ++ [info.fabric, bytes!"tilegrid.json"])) (parseTileGridM x)
      (root ++ [info.fabric, kTilegrid]) = _ from hjgone _]
    · rfl
    · intro q hq
      simp only [List.mem_cons, List.not_mem_nil, or_false] at hq
      rcases hq with rfl | rfl <;> exact file_ne (by decide)
  · rw [hIsame, Said.bind_ok, hjson _ _ (file_ne (by decide)), hg, Said.bind_ok, hlist, hl, Said.bind_ok,
      show parseJsonFileM x (without env (root ++ [part, bytes!"part.json"])) (parsePartM x) (root ++ [part, kPartJson]) = _ from hjgone _]
    · rfl
    · intro q hq
      simp only [List.mem_cons, List.not_mem_nil, or_false] at hq
      rcases hq with rfl | rfl <;> exact file_ne (by decide)
  · rw [hIsame, Said.bind_ok, hjson _ _ (file_ne (by decide)), hg, Said.bind_ok, hlist, hl, Said.bind_ok,
      hjson _ _ (file_ne (by decide)), hpart, Said.bind_ok,
      show mapFileM x (without env (root ++ [part, bytes!"package_pins.csv"])) (root ++ [part, kPackagePins]) = _ from hgone]
    · rfl
    · intro q hq
      simp only [List.mem_cons, List.not_mem_nil, or_false] at hq
      rcases hq with rfl | rfl <;> exact file_ne (by decide)

/-- The path of a file below a root that neither is empty nor ends in a slash. -/
theorem C105_path (root a b : Bytes) (h0 : root ≠ []) (h1 : root.getLast? ≠ some 0x2f) (ha : a ≠ []) (ha1 : a.head? ≠ some 0x2f)
    (ha2 : a.getLast? ≠ some 0x2f) (hb : b.head? ≠ some 0x2f) : PathText [root, a, b] (root ++ 0x2f :: (a ++ 0x2f :: b)) := by
  have hr : PathText [root] root := by
    by_cases h : root.head? = some 0x2f
    · exact .absolute [] root h
    · exact .joined (p := []) root .nil h (Or.inl rfl)
  have h2 : PathText ([root] ++ [a]) (root ++ 0x2f :: a) := .slash a hr ha1 h0 h1
  have h3 : PathText (([root] ++ [a]) ++ [b]) ((root ++ 0x2f :: a) ++ 0x2f :: b) := by
    refine .slash b h2 hb (by simp) ?_
    rw [List.getLast?_append]
    cases a with
    | nil => exact absurd rfl ha
    | cons c a => simpa using ha2
  simpa using h3

/-- The example directory without part.json. -/
example (x : LibTexts) (load : LoadOrder) (hload : LoadOk load) :
    parseDatabaseM x (without dirEnv [bytes!"d", bytes!"p", bytes!"part.json"]) load [bytes!"d"] bytes!"p" =
      .err (ascii "could not open file: d/p/part.json: " ++ x.strerror [bytes!"d", bytes!"p", bytes!"part.json"]) := by
  obtain ⟨db, h, _⟩ := C70_loads dirEnv load hload _ _ _ _ _ dir_part _ rfl
  have e := C105_unopened_partial x dirEnv load [bytes!"d"] bytes!"p" db h ⟨bytes!"d", bytes!"f", bytes!"k", bytes!"1"⟩
    (dir_table _ _ (by decide)) [bytes!"d", bytes!"p", bytes!"part.json"] (by decide) _
    (C105_path bytes!"d" bytes!"p" bytes!"part.json" (by decide) (by decide) (by decide) (by decide) (by decide) (by decide))
  rw [e]
  have e1 : ascii "could not open file: " ++ bytes!"d" ++ 0x2f :: (bytes!"p" ++ 0x2f :: bytes!"part.json") ++ ascii ": " =
      ascii "could not open file: d/p/part.json: " := by decide +kernel
  rw [List.append_assoc (ascii "could not open file: ")] at e1
  rw [← e1]

/-- A directory with these two mapping files. -/
def mappingEnv (parts devices : Bytes) : Env :=
  { dirEnv with read := fun p => if p = partsPath [bytes!"d"] then some (parts, none) else if p = devicesPath [bytes!"d"] then some (devices, none)
                                 else dirEnv.read p }

/-- Defect: a bad file that can be opened is not named.  A line without colon in parts.yaml and one in devices.yaml give the same
message. -/
theorem C105_defect (x : LibTexts) (load : LoadOrder) (part : Bytes) :
    parseDatabaseM x (mappingEnv bytes!"p\n" []) load [bytes!"d"] part = .err (ascii "Top-level key missing trailing colon") ∧
    parseDatabaseM x (mappingEnv [] bytes!"d\n") load [bytes!"d"] part = .err (ascii "Top-level key missing trailing colon") := by
  have key : ∀ parts devices m, parsePartsInfosM parts devices = .err m →
      parseDatabaseM x (mappingEnv parts devices) load [bytes!"d"] part = .err m := by
    intro parts devices m h
    unfold parseDatabaseM parsePartInfoM mapFileM
    have e1 : (mappingEnv parts devices).read ([bytes!"d"] ++ [kMapping, kPartsYaml]) = some (parts, none) := rfl
    have e2 : (mappingEnv parts devices).read ([bytes!"d"] ++ [kMapping, kDevicesYaml]) = some (devices, none) := rfl
    rw [e1, e2]
    simp only [Said.bind_ok, h, Said.bind_err]
  exact ⟨key _ _ _ (by decide +kernel), key _ _ _ (by decide +kernel)⟩

/-! ## The program -/

/-- The program prints the message of a database that cannot be loaded, and nothing else, and ends with status 1. -/
theorem C104_program (x : Texts) (env : Env) (load : LoadOrder) (ord : HashOrder) (inv : Invocation) (out : OStream) (fuel : Nat)
    (path m : Bytes) (h0 : inv.args.length ≤ 2) (h1 : Setting inv.dbFlag inv.dbEnv path) (h2 : path ≠ [])
    (h3 : env.fileExists [path] = true) (h4 : inv.part ≠ []) (h5 : parseDatabaseM x.toLibTexts env load [path] inv.part = .err m) :
    mainM x env load ord inv out fuel = some (.ok (1, out, [ascii "part mapping parsing: " ++ m ++ ascii "\n"])) := by
  refine C96_before x env load ord inv out fuel _ ?_
    (.database path m h0 h1 h2 h3 h4 (((C104_database _ env load _ _).2.1 m).1 h5))
  rintro ⟨db, text, _, _, _, p, hp, _, _, hdb⟩
  have e : p = path := by
    have g1 := (C61_setting _ _ _).2 hp
    have g2 := (C61_setting _ _ _).2 h1
    rw [g1] at g2
    exact Outcome.ok.inj g2
  rw [e] at hdb
  rw [parseDatabaseM_ok _ hdb] at h5
  cases h5

/-- The example directory, asked for a part it does not have. -/
example (x : Texts) (load : LoadOrder) (ord : HashOrder) (out : OStream) (fuel : Nat) :
    mainM x dirEnv load ord { fileInv with part := bytes!"q" } out fuel =
      some (.ok (1, out, [ascii "part mapping parsing: invalid or unknown part \"q\"\n"])) := by
  rw [C104_program x dirEnv load ord _ out fuel bytes!"d" _ (by simp [fileInv]) (Or.inr ⟨rfl, rfl⟩) (by decide) (by decide) (by simp)
    (C104_unknown_part _ _ _ _ _ (dir_table bytes!"q" none (by decide)))]
  have e : ascii "part mapping parsing: " ++ (ascii "invalid or unknown part \"" ++ bytes!"q" ++ ascii "\"") ++ ascii "\n" =
    ascii "part mapping parsing: invalid or unknown part \"q\"\n" := by decide +kernel
  rw [e]

end Verif.Props

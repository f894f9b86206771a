import Verif.Model.DbMessages
import Verif.Proofs.DbFiles
import Verif.Proofs.DbCsv
/-! # Messages of the database parsers: the same parsers -/
namespace Verif.Db
open Verif.Text Verif.Spec
open Verif.Fasm (lit printU)

namespace Said
variable {α β : Type}

@[simp] theorem forget_ok (a : α) : (Said.ok a).forget = .ok a := rfl
@[simp] theorem forget_err (m : Bytes) : (Said.err m : Said α).forget = .err := rfl
@[simp] theorem forget_abort : (Said.abort : Said α).forget = .abort := rfl
@[simp] theorem forget_ub : (Said.ub : Said α).forget = .ub := rfl

@[simp] theorem forget_bind (x : Said α) (f : α → Said β) :
    (x >>= f).forget = (x.forget >>= fun a => (f a).forget) := by cases x <;> rfl

@[simp] theorem forget_ofOutcome (m : Bytes) (o : Outcome α) : (Said.ofOutcome m o).forget = o := by cases o <;> rfl

theorem forget_foldlM {σ : Type} (f : σ → α → Said σ) (l : List α) (s : σ) :
    (l.foldlM f s).forget = l.foldlM (fun s a => (f s a).forget) s := by
  induction l generalizing s with
  | nil => rfl
  | cons a l ih => simp only [List.foldlM_cons, forget_bind, ih]

theorem forget_mapM (f : α → Said β) (l : List α) :
    (l.mapM f).forget = l.mapM fun a => (f a).forget := by
  induction l with
  | nil => rfl
  | cons a l ih => simp only [List.mapM_cons, forget_bind, ih, pure_eq, forget_ok, Outcome.pure_eq]

theorem forget_eq_ok {x : Said α} {a : α} : x.forget = .ok a ↔ x = .ok a := by cases x <;> simp [forget]

theorem forget_eq_err {x : Said α} : x.forget = .err ↔ ∃ m, x = .err m := by cases x <;> simp [forget]

theorem bind_eq_err {x : Said α} {f : α → Said β} {m : Bytes} :
    (x >>= f) = .err m ↔ x = .err m ∨ ∃ a, x = .ok a ∧ f a = .err m := by
  cases x <;> simp

end Said
open Said

/-! ## Lines -/

theorem linesLoopM_forget {σ : Type} (after : Option UInt8) (sink : σ → Nat → Bytes → Said σ) (fuel : Nat) (it : Bytes) (n : Nat)
    (st : σ) : (linesLoopM after sink fuel it n st).forget = linesLoop after (fun s n l => (sink s n l).forget) fuel it n st := by
  induction fuel generalizing it n st with
  | zero => rfl
  | succ fuel ih =>
    cases it with
    | nil => rfl
    | cons c r =>
      simp only [linesLoopM, linesLoop, forget_bind, forget_ofOutcome, ih]

theorem linesGeneratorM_forget {σ : Type} (after : Option UInt8) (content : Bytes) (sink : σ → Nat → Bytes → Said σ) (st : σ) :
    (linesGeneratorM after content sink st).forget = linesGenerator after content (fun s n l => (sink s n l).forget) st :=
  linesLoopM_forget _ _ _ _ _ _

theorem ppipTypeM_forget (s : Bytes) : (ppipTypeM s).forget = ppipType s := by
  unfold ppipTypeM ppipType
  repeat' split
  all_goals rfl

theorem ppipLineM_forget (out : PseudoPIPs) (n : Nat) (line : Bytes) : (ppipLineM out n line).forget = ppipLine out n line := by
  unfold ppipLineM ppipLine
  split
  · rfl
  · generalize fields line = L
    rcases L with _ | ⟨a, _ | ⟨b, _ | ⟨c, r⟩⟩⟩
    · rfl
    · rfl
    · simp only [forget_bind, ppipTypeM_forget]; rfl
    · rfl

theorem parsePseudoPIPsM_forget (after : Option UInt8) (content : Bytes) :
    (parsePseudoPIPsM after content).forget = parsePseudoPIPs after content := by
  unfold parsePseudoPIPsM parsePseudoPIPs
  split
  · rfl
  · rw [linesGeneratorM_forget]
    simp only [ppipLineM_forget]

theorem segmentBitM_forget (n : Nat) (line bit : Bytes) : (segmentBitM n line bit).forget = segmentBit bit := by
  unfold segmentBitM segmentBit
  dsimp only
  generalize splitBy (fun x => decide (x = 0x5f)) (if bit.head? ≠ some 0x21 then bit else bit.drop 1) = L
  rcases L with _ | ⟨a, _ | ⟨b, _ | ⟨c, r⟩⟩⟩
  · rfl
  · rfl
  · dsimp only
    cases atoiU32 a with
    | none => rfl
    | some u => cases atoiU32 b <;> rfl
  · rfl

theorem segbitsLineM_forget (junk : Bytes → Nat) (out : SegmentsBits) (n : Nat) (line : Bytes) :
    (segbitsLineM junk out n line).forget = segbitsLine junk out n line := by
  unfold segbitsLineM segbitsLine
  generalize fields line = L
  rcases L with _ | ⟨a, _ | ⟨b, r⟩⟩
  · rfl
  · rfl
  · simp only [forget_bind, forget_mapM, segmentBitM_forget]; rfl

theorem parseSegmentsBitsM_forget (junk : Bytes → Nat) (after : Option UInt8) (content : Bytes) :
    (parseSegmentsBitsM junk after content).forget = parseSegmentsBits junk after content := by
  unfold parseSegmentsBitsM parseSegmentsBits
  split
  · rfl
  · rw [linesGeneratorM_forget]
    simp only [segbitsLineM_forget]

theorem csvLineM_forget (out : PackagePins) (n : Nat) (line : Bytes) : (csvLineM out n line).forget = csvLine out n line := by
  unfold csvLineM csvLine
  dsimp only
  split
  · split <;> rfl
  · generalize (skipEmpty (splitBy (fun x => decide (x = 0x2c)) line)).map strip = L
    rcases L with _ | ⟨a, _ | ⟨b, _ | ⟨c, _ | ⟨d, _ | ⟨e, _ | ⟨f, r⟩⟩⟩⟩⟩⟩
    all_goals first
      | rfl
      | (dsimp only; cases atoiU32 b <;> rfl)

theorem parsePackagePinsM_forget (after : Option UInt8) (content : Bytes) :
    (parsePackagePinsM after content).forget = parsePackagePins after content := by
  unfold parsePackagePinsM parsePackagePins
  split
  · rfl
  · rw [linesGeneratorM_forget]
    simp only [csvLineM_forget]

/-! ## YAML -/

theorem yamlFlushM_forget {σ : Type} (sink : σ → Bytes → List (Bytes × Bytes) → Said σ) (st : YamlSt σ) :
    (yamlFlushM sink st).forget = yamlFlush (fun s k p => (sink s k p).forget) st := by
  unfold yamlFlushM yamlFlush
  split <;> rfl

theorem yamlLineM_forget {σ : Type} (sink : σ → Bytes → List (Bytes × Bytes) → Said σ) (st : YamlSt σ) (line : Bytes) :
    (yamlLineM sink st line).forget = yamlLine (fun s k p => (sink s k p).forget) st line := by
  unfold yamlLineM yamlLine
  dsimp only
  split
  · rfl
  · split
    · simp only [forget_bind, yamlFlushM_forget]
      congr 1
      funext s
      split <;> rfl
    · cases find 0x3a (strip line) <;> rfl

theorem parseMappingYAMLM_forget {σ : Type} (content : Bytes) (sink : σ → Bytes → List (Bytes × Bytes) → Said σ) (st : σ) :
    (parseMappingYAMLM content sink st).forget = parseMappingYAML content (fun s k p => (sink s k p).forget) st := by
  unfold parseMappingYAMLM parseMappingYAML
  simp only [forget_bind, forget_foldlM, yamlLineM_forget, yamlFlushM_forget]

theorem valueOrStatusM_forget (m : List (Bytes × Bytes)) (k : Bytes) : (valueOrStatusM m k).forget = valueOrStatus m k := by
  unfold valueOrStatusM valueOrStatus
  cases m.lookup k <;> rfl

theorem fabricSinkM_forget (m : List (Bytes × Bytes)) (k : Bytes) (p : List (Bytes × Bytes)) :
    (fabricSinkM m k p).forget = fabricSink m k p := by
  unfold fabricSinkM fabricSink valueOrStatus
  cases p.lookup kFabric <;> rfl

theorem partSinkM_forget (f : List (Bytes × Bytes)) (m : List (Bytes × PartInfo)) (k : Bytes) (p : List (Bytes × Bytes)) :
    (partSinkM f m k p).forget = partSink f m k p := by
  unfold partSinkM partSink
  simp only [forget_bind, valueOrStatusM_forget]
  congr 1; funext d
  congr 1; funext q
  congr 1; funext s
  unfold valueOrStatus
  cases f.lookup d <;> rfl

theorem parsePartsInfosM_forget (p d : Bytes) : (parsePartsInfosM p d).forget = parsePartsInfos p d := by
  unfold parsePartsInfosM parsePartsInfos
  simp only [forget_bind, parseMappingYAMLM_forget, fabricSinkM_forget, partSinkM_forget]

/-! ## JSON -/

theorem getMemberM_forget {α : Type} (x : LibTexts) (f : Json → Said α) (j : Json) (name : Bytes) :
    (getMemberM x f j name).forget = getMember (fun v => (f v).forget) j name := by
  unfold getMemberM getMember
  cases j with
  | obj ms => dsimp only; cases findMember ms name <;> rfl
  | _ => rfl

theorem optGetMemberM_forget {α : Type} (f : Json → Said α) (j : Json) (name : Bytes) :
    (optGetMemberM f j name).forget = optGetMember (fun v => (f v).forget) j name := by
  unfold optGetMemberM optGetMember
  cases j with
  | obj ms =>
    dsimp only
    cases findMember ms name with
    | none => rfl
    | some v => simp only [forget_bind]; rfl
  | _ => rfl

theorem asU32M_forget (x : LibTexts) (j : Json) : (asU32M x j).forget = asU32 j := forget_ofOutcome _ _
theorem asI32M_forget (x : LibTexts) (j : Json) : (asI32M x j).forget = asI32 j := forget_ofOutcome _ _
theorem asStringM_forget (x : LibTexts) (j : Json) : (asStringM x j).forget = asString j := forget_ofOutcome _ _
theorem rawStringM_forget (j : Json) : (rawStringM j).forget = rawString j := forget_ofOutcome _ _

theorem asStringMapM_forget (x : LibTexts) (j : Json) : (asStringMapM x j).forget = asStringMap j := by
  unfold asStringMapM asStringMap
  cases j with
  | obj ms =>
    simp only [forget_foldlM, forget_bind, asStringM_forget]; rfl
  | _ => rfl

theorem asStringsM_forget (x : LibTexts) (j : Json) : (asStringsM x j).forget = asStrings j := by
  unfold asStringsM asStrings
  cases j with
  | arr items =>
    dsimp only
    rw [forget_mapM]
    congr 1
    funext i
    cases i <;> rfl
  | _ => rfl

theorem baseAddressM_forget (s : Bytes) : (baseAddressM s).forget = baseAddress s := by
  unfold baseAddressM baseAddress
  cases strtol0 s <;> rfl

theorem asAliasM_forget (x : LibTexts) (j : Json) : (asAliasM x j).forget = asAlias j := by
  unfold asAliasM asAlias
  simp only [forget_bind, getMemberM_forget, asStringMapM_forget, asU32M_forget, asStringM_forget]
  rfl

theorem asBitsBlockM_forget (x : LibTexts) (j : Json) : (asBitsBlockM x j).forget = asBitsBlock j := by
  unfold asBitsBlockM asBitsBlock
  simp only [forget_bind, getMemberM_forget, optGetMemberM_forget, asAliasM_forget, asU32M_forget, asI32M_forget, asStringM_forget, baseAddressM_forget]
  rfl

theorem asBitsM_forget (x : LibTexts) (j : Json) : (asBitsM x j).forget = asBits j := by
  unfold asBitsM asBits
  cases j with
  | obj ms =>
    dsimp only
    rw [forget_foldlM]
    congr 1
    funext m e
    cases busType (cstr e.1) with
    | none => rfl
    | some t => simp only [forget_bind, asBitsBlockM_forget]; rfl
  | _ => rfl

theorem asTileM_forget (x : LibTexts) (j : Json) : (asTileM x j).forget = asTile j := by
  unfold asTileM asTile
  simp only [forget_bind, getMemberM_forget, optGetMemberM_forget, asBitsM_forget, asStringMapM_forget, asStringsM_forget,
    asU32M_forget, asStringM_forget]
  rfl

theorem namedTile_forget (name : Bytes) (r : Said Tile) : (namedTile name r).forget = r.forget := by cases r <;> rfl

theorem parseTileGridM_forget (x : LibTexts) (j : Json) : (parseTileGridM x j).forget = parseTileGrid j := by
  unfold parseTileGridM parseTileGrid
  cases j with
  | obj ms =>
    simp only [forget_foldlM, forget_bind, namedTile_forget, asTileM_forget]; rfl
  | _ => rfl

theorem asBanksM_forget (x : LibTexts) (j : Json) : (asBanksM x j).forget = asBanks j := by
  unfold asBanksM asBanks
  cases j with
  | obj ms =>
    dsimp only
    rw [forget_foldlM]
    congr 1
    funext m e
    cases atoiU32 (cstr e.1) with
    | none => rfl
    | some t => simp only [forget_bind, rawStringM_forget]; rfl
  | _ => rfl

theorem nextKeyM_forget (x : LibTexts) (j : Json) (prev : Int) (name : Bytes) :
    (nextKeyM x j prev name).forget = nextKey prev name := forget_ofOutcome _ _

theorem asColumnsM_forget (x : LibTexts) (j : Json) : (asColumnsM x j).forget = asColumns j := by
  unfold asColumnsM asColumns
  cases j with
  | obj ms =>
    simp only [forget_foldlM, forget_bind, nextKeyM_forget, getMemberM_forget, asU32M_forget]; rfl
  | _ => rfl

theorem asRowM_forget (x : LibTexts) (j : Json) : (asRowM x j).forget = asRow j := by
  unfold asRowM asRow
  cases j with
  | obj ms =>
    dsimp only
    rw [forget_foldlM]
    congr 1
    funext m e
    cases busType (cstr e.1) with
    | none => rfl
    | some t => simp only [forget_bind, getMemberM_forget, asColumnsM_forget]; rfl
  | _ => rfl

theorem asHalfM_forget (x : LibTexts) (j : Json) : (asHalfM x j).forget = asHalf j := by
  unfold asHalfM asHalf
  cases j with
  | obj ms =>
    simp only [forget_foldlM, forget_bind, nextKeyM_forget, getMemberM_forget, asRowM_forget]; rfl
  | _ => rfl

theorem asRegionsM_forget (x : LibTexts) (j : Json) : (asRegionsM x j).forget = asRegions j := by
  unfold asRegionsM asRegions
  cases pointer2 kBottom kRows j with
  | none => rfl
  | some b =>
    simp only [forget_bind, asHalfM_forget]
    congr 1
    funext b
    cases pointer2 kTop kRows j with
    | none => rfl
    | some t => simp only [forget_bind, asHalfM_forget]; rfl

theorem parsePartM_forget (x : LibTexts) (j : Json) : (parsePartM x j).forget = parsePart j := by
  unfold parsePartM parsePart
  cases j with
  | obj ms =>
    simp only [forget_bind, getMemberM_forget, optGetMemberM_forget, asU32M_forget, asBanksM_forget, asRegionsM_forget]; rfl
  | _ => rfl

/-! ## The database -/

theorem parsePartInfoM_forget (x : LibTexts) (env : Env) (root : Path) (part : Bytes) :
    (parsePartInfoM x env root part).forget = parsePartInfo env root part := by
  unfold parsePartInfoM parsePartInfo mapFileM
  simp only [forget_bind, parsePartsInfosM_forget]
  cases env.read (root ++ [kMapping, kPartsYaml]) with
  | none => rfl
  | some p =>
    cases env.read (root ++ [kMapping, kDevicesYaml]) with
    | none => rfl
    | some d =>
      simp only [forget_ok, Outcome.bind_ok]
      congr 1
      funext infos
      cases infos.lookup part <;> rfl

theorem parseJsonFileM_forget {α : Type} (x : LibTexts) (env : Env) (f : Json → Said α) (p : Path) :
    (parseJsonFileM x env f p).forget = parseJsonFile env (fun j => (f j).forget) p := by
  unfold parseJsonFileM parseJsonFile mapFileM
  cases env.read p with
  | none => rfl
  | some c =>
    simp only [bind_ok]
    cases env.json c.1 <;> rfl

theorem parseDatabaseM_forget (x : LibTexts) (env : Env) (order : LoadOrder) (root : Path) (name : Bytes) :
    (parseDatabaseM x env order root name).forget = parseDatabase env order root name := by
  unfold parseDatabaseM parseDatabase
  simp only [forget_bind, parsePartInfoM_forget, parseJsonFileM_forget, parseTileGridM_forget, parsePartM_forget, forget_ofOutcome,
    parsePackagePinsM_forget]
  congr 1; funext info
  congr 1; funext grid
  congr 1; funext paths
  congr 1; funext part
  unfold parseFile mapFileM
  cases env.read (root ++ [name, kPackagePins]) with
  | none => rfl
  | some c => simp only [forget_ok, Outcome.bind_ok]; rfl

end Verif.Db

import Verif.Spec.DbText
import Verif.Spec.Database
import Verif.Model.Database
/-! # Specification: mapping files that say the same -/
namespace Verif.Spec
open Verif.Db

/-- The same entries in any order, each with the same properties in any order; no name twice, and no property twice within an
entry. -/
def SameEntries (ks ks' : List YamlKind) : Prop :=
  ((entriesOf ks).map (·.1)).Nodup ∧
  Reordered (fun ps ps' => ps.Perm ps' ∧ (ps.map (·.1)).Nodup) (entriesOf ks) (entriesOf ks')

/-- Two texts of mapping files that say the same: the same text, or the same entries. -/
def SameMapping (text text' : Bytes) : Prop :=
  text = text' ∨ ∃ ls ls' : List (Bytes × YamlKind),
    LinesOf text (ls.map (·.1)) ∧ (∀ l ∈ ls, YamlLine l.1 l.2) ∧ LinesOf text' (ls'.map (·.1)) ∧ (∀ l ∈ ls', YamlLine l.1 l.2) ∧
    SameEntries (ls.map (·.2)) (ls'.map (·.2))

/-- The same directory, except that files `parts.yaml` and `devices.yaml` are written in another way. -/
structure MappingsRewritten (env env' : Env) : Prop where
  exists_eq : env'.fileExists = env.fileExists
  listing_eq : env'.listing = env.listing
  json_eq : env'.json = env.json
  junk_eq : env'.junk = env.junk
  other : ∀ p name, name ≠ bytes!"parts.yaml" → name ≠ bytes!"devices.yaml" → env'.read (p ++ [name]) = env.read (p ++ [name])
  none_iff : ∀ p, env.read p = none ↔ env'.read p = none
  same : ∀ p name text b text' b', name = bytes!"parts.yaml" ∨ name = bytes!"devices.yaml" → env.read (p ++ [name]) = some (text, b) →
    env'.read (p ++ [name]) = some (text', b') → SameMapping text text'

end Verif.Spec

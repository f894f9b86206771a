import Verif.Spec.JsonText
import Verif.Model.Database
/-! # Specification: JSON files written in another way -/
namespace Verif.Spec
open Verif.Db

/-- Two texts that say the same: the same text, or JSON texts of the same value.  White space, the escapes in strings, a byte
order mark, what stands behind a NUL byte and the spelling of numbers may differ. -/
def SameJson (big : Bytes → Bool) (text text' : Bytes) : Prop :=
  text = text' ∨ ∃ v, JsonGrammar.Reads big text v ∧ JsonGrammar.Reads big text' v

/-- The same directory, except that files `tilegrid.json` and `part.json` are written in another way. -/
structure JsonRespelled (big : Bytes → Bool) (env env' : Env) : Prop where
  exists_eq : env'.fileExists = env.fileExists
  listing_eq : env'.listing = env.listing
  json_eq : env'.json = env.json
  junk_eq : env'.junk = env.junk
  other : ∀ p name, name ≠ bytes!"tilegrid.json" → name ≠ bytes!"part.json" → env'.read (p ++ [name]) = env.read (p ++ [name])
  none_iff : ∀ p, env.read p = none ↔ env'.read p = none
  same : ∀ p name text b text' b', name = bytes!"tilegrid.json" ∨ name = bytes!"part.json" → env.read (p ++ [name]) = some (text, b) →
    env'.read (p ++ [name]) = some (text', b') → SameJson big text text'

end Verif.Spec

import Verif.Spec.Trailing
import Verif.Model.Database
/-! # Specification: a database directory with carriage returns in its files -/
namespace Verif.Spec
open Verif.Db

/-- The same directory, every file with carriage returns.  The byte behind a file matters only when the file does not end
in a newline; then it is readable in both or in neither. -/
structure CrlfOf (env env' : Env) : Prop where
  exists_eq : env'.fileExists = env.fileExists
  listing_eq : env'.listing = env.listing
  json_eq : env'.json = env.json
  junk_eq : env'.junk = env.junk
  none_iff : ∀ p, env.read p = none ↔ env'.read p = none
  read : ∀ p text b text' b', env.read p = some (text, b) → env'.read p = some (text', b') → text' = crlf text ∧
    (text = [] ∨ text.getLast? = some 0x0a ∨ (b = none ↔ b' = none))

/-- No blank line in a file of pseudo PIPs, none and no trailing comma in the pin files. -/
def PlainFiles (env : Env) : Prop :=
  (∀ p name text b, (bytes!"ppips_" : Bytes) <+: name → env.read (p ++ [name]) = some (text, b) → NoBlankLine text) ∧
  (∀ p text b, env.read (p ++ [bytes!"package_pins.csv"]) = some (text, b) → NoOpenLine text)

end Verif.Spec

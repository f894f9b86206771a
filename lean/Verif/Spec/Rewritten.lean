import Verif.Spec.Members
import Verif.Spec.LineOrder
import Verif.Spec.MappingOrder
import Verif.Spec.Respelled
/-! # Specification: a database written in another way -/
namespace Verif.Spec
open Verif.Db

/-- The same database, written in another way, in any number of steps: members of JSON objects moved, lines of text files
moved, mapping files rewritten, JSON texts respelled. -/
inductive Rewritten (big : Bytes → Bool) (env : Env) : Env → Prop
  | same : Rewritten big env env
  | members {b c : Env} : Rewritten big env b → MembersMoved b c → Rewritten big env c
  | lines {b c : Env} : Rewritten big env b → LinesMoved b c → Rewritten big env c
  | mapping {b c : Env} : Rewritten big env b → MappingsRewritten b c → Rewritten big env c
  | json {b c : Env} : Rewritten big env b → JsonRespelled big b c → Rewritten big env c

end Verif.Spec

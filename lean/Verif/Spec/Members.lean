import Verif.Spec.DbJson
import Verif.Spec.Database
/-! # Specification: the members of JSON objects in another order -/
namespace Verif.Spec
open Verif.Db

/-- The same JSON value, the members of its objects, at every depth, in another order.  Items of arrays stay where they are. -/
inductive Permuted : Json → Json → Prop
  | same (j : Json) : Permuted j j
  | arr (zs : List (Json × Json)) (h : ∀ z ∈ zs, Permuted z.1 z.2) : Permuted (.arr (zs.map (·.1))) (.arr (zs.map (·.2)))
  | obj (ms : List (Bytes × Json)) (zs : List (Bytes × Json × Json)) (hp : ms.Perm (zs.map fun z => (z.1, z.2.1)))
      (h : ∀ z ∈ zs, Permuted z.2.1 z.2.2) : Permuted (.obj ms) (.obj (zs.map fun z => (z.1, z.2.2)))

/-- `v` is `j` or stands somewhere inside it. -/
inductive Inside (j : Json) : Json → Prop
  | here : Inside j j
  | item {items : List Json} {v : Json} : Inside j (.arr items) → v ∈ items → Inside j v
  | member {ms : List (Bytes × Json)} {e : Bytes × Json} : Inside j (.obj ms) → e ∈ ms → Inside j e.2

/-- No object, at any depth, has two members of the same name (a name is read up to its first NUL). -/
def DistinctNames (j : Json) : Prop := ∀ ms, Inside j (.obj ms) → (ms.map fun e => untilNul e.1).Nodup

/-- No two members of `iobanks` name the same bank, as `"1"` and `"01"` do. -/
def OneNamePerBank (j : Json) : Prop :=
  ∀ ms, Member j bytes!"iobanks" (.obj ms) → ms.Pairwise fun e f => ∀ n, UIntText (untilNul e.1) n → ¬ UIntText (untilNul f.1) n

/-- The same directory, except that in files `tilegrid.json` and `part.json` members of objects stand in another order (and
white space between them may differ: only the values the texts stand for are compared). -/
structure MembersMoved (env env' : Env) : Prop where
  exists_eq : env'.fileExists = env.fileExists
  listing_eq : env'.listing = env.listing
  json_eq : env'.json = env.json
  junk_eq : env'.junk = env.junk
  other : ∀ p name, name ≠ bytes!"tilegrid.json" → name ≠ bytes!"part.json" → env'.read (p ++ [name]) = env.read (p ++ [name])
  none_iff : ∀ p, env.read p = none ↔ env'.read p = none
  invalid : ∀ p text b text' b', env.read p = some (text, b) → env'.read p = some (text', b') → (env.json text = none ↔ env.json text' = none)
  grid : ∀ p text b text' b' j j', env.read (p ++ [bytes!"tilegrid.json"]) = some (text, b) →
    env'.read (p ++ [bytes!"tilegrid.json"]) = some (text', b') → env.json text = some j → env.json text' = some j' →
    Permuted j j' ∧ DistinctNames j
  part : ∀ p text b text' b' j j', env.read (p ++ [bytes!"part.json"]) = some (text, b) →
    env'.read (p ++ [bytes!"part.json"]) = some (text', b') → env.json text = some j → env.json text' = some j' →
    Permuted j j' ∧ DistinctNames j ∧ OneNamePerBank j ∧ ((∃ d, PartJson j d) ↔ ∃ d, PartJson j' d)

end Verif.Spec

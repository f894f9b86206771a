import Verif.Spec.Walk
/-! # Specification: a database of which part cannot be read -/
namespace Verif.Spec
open Verif.Db

/-- `env'` is the file system `env` with trouble: some files cannot be opened, and the walk over the directory tree finds fewer
`tile_type_T.json` files (it never finds one in a directory where the full walk would not take it from). -/
structure LostFiles (env env' : Env) : Prop where
  /-- the same files exist -/
  fileExists : ∀ p, env'.fileExists p = env.fileExists p
  /-- a file has the same content or cannot be read -/
  read : ∀ p, env'.read p = env.read p ∨ env'.read p = none
  json : ∀ b, env'.json b = env.json b
  junk : ∀ b, env'.junk b = env.junk b
  /-- the walk cannot begin, or a tile type it finds is found where the full walk finds it -/
  listing : ∀ root, env'.listing root = none ∨ ∃ es es', env.listing root = some es ∧ env'.listing root = some es' ∧
    ∀ T dir, FirstTypeDir es' T dir → FirstTypeDir es T dir

end Verif.Spec

import Verif.Spec.DbText
import Verif.Spec.Database
/-! # Specification: the lines of database files in another order -/
namespace Verif.Spec
open Verif.Db

/-- A text file that can be read to its end: its last line has a newline, or there is a byte to read behind it. -/
def Finished (text : Bytes) (after : Option UInt8) : Prop := text = [] ∨ text.getLast? = some 0x0a ∨ after ≠ none

/-- The lines of a segbits file: none has an address that is no number, and no feature is listed twice. -/
def SegLinesApart (ls : List Bytes) : Prop :=
  (∀ l ∈ ls, (∃ e, SegLine l e) ∨ BadSegLine l) ∧
  ls.Pairwise fun l l' => ∀ k bits k' bits', SegLine l (some (k, bits)) → SegLine l' (some (k', bits')) → k ≠ k'

/-- The lines of a ppips file: no feature is listed twice. -/
def PipLinesApart (ls : List Bytes) : Prop :=
  ls.Pairwise fun l l' => ∀ k t k' t', PipLine l (some (k, t)) → PipLine l' (some (k', t')) → k ≠ k'

/-- The rows of a pin file: all pins of a tile are in one bank. -/
def OneBankPerTile (rows : List Bytes) : Prop :=
  ∀ r ∈ rows, ∀ r' ∈ rows, ∀ p p', PinRow r (some p) → PinRow r' (some p') → p.tile = p'.tile → p.bank = p'.bank

/-- The same directory, except that lines of files `segbits_…` and `ppips_…` and rows of files `package_pins.csv` stand in
another order. -/
structure LinesMoved (env env' : Env) : Prop where
  exists_eq : env'.fileExists = env.fileExists
  listing_eq : env'.listing = env.listing
  json_eq : env'.json = env.json
  junk_eq : env'.junk = env.junk
  other : ∀ p name, ¬ (bytes!"segbits_" : Bytes) <+: name → ¬ (bytes!"ppips_" : Bytes) <+: name → name ≠ bytes!"package_pins.csv" →
    env'.read (p ++ [name]) = env.read (p ++ [name])
  none_iff : ∀ p, env.read p = none ↔ env'.read p = none
  segbits : ∀ p name text b text' b', (bytes!"segbits_" : Bytes) <+: name → env.read (p ++ [name]) = some (text, b) →
    env'.read (p ++ [name]) = some (text', b') →
    (text, b) = (text', b') ∨ Finished text b ∧ Finished text' b' ∧ ∃ ls ls', LinesOf text ls ∧ LinesOf text' ls' ∧ ls.Perm ls' ∧ SegLinesApart ls
  ppips : ∀ p name text b text' b', (bytes!"ppips_" : Bytes) <+: name → env.read (p ++ [name]) = some (text, b) →
    env'.read (p ++ [name]) = some (text', b') →
    (text, b) = (text', b') ∨ Finished text b ∧ Finished text' b' ∧ ∃ ls ls', LinesOf text ls ∧ LinesOf text' ls' ∧ ls.Perm ls' ∧ PipLinesApart ls
  pins : ∀ p text b text' b', env.read (p ++ [bytes!"package_pins.csv"]) = some (text, b) →
    env'.read (p ++ [bytes!"package_pins.csv"]) = some (text', b') →
    (text, b) = (text', b') ∨ Finished text b ∧ Finished text' b' ∧ ∃ header rows rows', LinesOf text (header :: rows) ∧ LinesOf text' (header :: rows') ∧ rows.Perm rows' ∧
      rows.length < 2 ^ 32 ∧ OneBankPerTile rows

end Verif.Spec

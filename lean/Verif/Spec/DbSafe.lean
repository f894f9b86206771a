import Verif.Spec.DbJson
/-! # JSON databases the readers can take without crashing -/
namespace Verif.Spec
open Verif.Db

/-- Whatever tile there is, its `bits`, if given, are an object. -/
def GridSafe (j : Json) : Prop :=
  ∀ ms, j = .obj ms → ∀ e ∈ ms, ∀ v, Member e.2 bytes!"bits" v → ∃ o, v = .obj o

/-- A member named by a number is named by its position. -/
def InSequence (ms : List (Bytes × Json)) : Prop :=
  ∀ (i : Nat) e, ms[i]? = some e → ∀ n, IntText (untilNul e.1) n → n = (i : Int)

/-- The banks, if given, are an object of strings, and rows and columns are numbered in sequence. -/
def PartSafe (j : Json) : Prop :=
  -- iobanks
  (∀ v, Member j bytes!"iobanks" v →
    ∃ es, v = .obj es ∧ ∀ e ∈ es, ∃ s, e.2 = .str s) ∧
  -- global_clock_regions, rows, configuration_buses, configuration_columns
  ∀ regions name half rows,
    Member j bytes!"global_clock_regions" regions →
    -- bottom, top
    (name = bytes!"bottom" ∨ name = bytes!"top") →
    Member regions name half → Member half bytes!"rows" (.obj rows) →
    InSequence rows ∧
    ∀ row ∈ rows, ∀ buses, Member row.2 bytes!"configuration_buses" (.obj buses) →
      ∀ bus ∈ buses, ∀ columns, Member bus.2 bytes!"configuration_columns" (.obj columns) → InSequence columns

end Verif.Spec

import Verif.Spec.Geometry
/-! # Specification: meaning of a part description (parsed `part.json`) -/
namespace Verif.Spec
open Verif.Db

/-- Number of the block type a configuration bus is documented to use (UG470: 0 CLB/IO/CLK,
1 block RAM content, 2 CFG_CLB). -/
def busNumber : ConfigBusType → Nat
  | .clbIoClk => 0
  | .blockRam => 1
  | .cfgClb => 2

/-- Frame count the description gives for (half, row, bus, column). -/
def describedCount (p : Db.Part) (bottom : Bool) (row : Nat) (bus : ConfigBusType) (column : Nat) :
    Option Nat :=
  (((if bottom then p.bottomRows else p.topRows)[row]?).bind (·.lookup bus)).bind (·[column]?)

/-- The description is a value the loader can build: unique bus keys per row (hash map) and
vectors shorter than 2^32. -/
def WellFormedDesc (p : Db.Part) : Prop :=
  ∀ half, half = p.topRows ∨ half = p.bottomRows → half.length ≤ 2^32 ∧
    ∀ row ∈ half, (row.map (·.1)).Nodup ∧ ∀ bus ∈ row, bus.2.length ≤ 2^32

/-- No row lists columns on the CFG_CLB bus. -/
def NoCfgClb (p : Db.Part) : Prop :=
  ∀ half, half = p.topRows ∨ half = p.bottomRows → ∀ row ∈ half, ∀ bus ∈ row,
    bus.1 = .cfgClb → bus.2 = []

/-- The described geometry fits the address fields. -/
def DescFits (p : Db.Part) : Prop :=
  ∀ half, half = p.topRows ∨ half = p.bottomRows → half.length ≤ 32 ∧
    ∀ row ∈ half, (row.map (·.1)).Nodup ∧ ∀ bus ∈ row, bus.2.length ≤ 1024 ∧ ∀ n ∈ bus.2, n ≤ 128

end Verif.Spec

namespace Verif.Spec
open Verif.Db

/-- A description without holes (what the shipped `part.json` files look like): it fits the address
fields, has no CFG_CLB bus and no zero-frame column; in each half the rows having a given bus are
numbered from 0; a bus used in the bottom half is also present in row 0 of the top half. -/
structure DescDense (p : Db.Part) : Prop where
  fits : DescFits p
  noCfg : NoCfgClb p
  positive : ∀ half, half = p.topRows ∨ half = p.bottomRows → ∀ row ∈ half, ∀ bus ∈ row,
    ∀ n ∈ bus.2, 0 < n
  rows : ∀ bottom row bus n, describedCount p bottom row bus 0 = some n →
    ∀ row' ≤ row, ∃ n', describedCount p bottom row' bus 0 = some n'
  halves : ∀ row bus n, describedCount p true row bus 0 = some n →
    ∃ n', describedCount p false 0 bus 0 = some n'

/-- The same shape without any bound on the number of rows and columns: no CFG_CLB bus, no
zero-frame column, rows numbered from 0, a bottom bus also in the top half. -/
structure DescShape (p : Db.Part) : Prop where
  noCfg : NoCfgClb p
  positive : ∀ half, half = p.topRows ∨ half = p.bottomRows → ∀ row ∈ half, ∀ bus ∈ row,
    ∀ n ∈ bus.2, 0 < n
  rows : ∀ bottom row bus n, describedCount p bottom row bus 0 = some n →
    ∀ row' ≤ row, ∃ n', describedCount p bottom row' bus 0 = some n'
  halves : ∀ row bus n, describedCount p true row bus 0 = some n →
    ∃ n', describedCount p false 0 bus 0 = some n'

/-- A part description of the documented shape: at most 128 frames per column, but any number of rows and columns. -/
structure DocumentedShape (d : Db.Part) : Prop where
  shape : DescShape d
  frames : ∀ bottom row bus col n, describedCount d bottom row bus col = some n → n ≤ 128

/-- Some described column lies outside what a frame address can name: row 32 or more, or column 1024 or more. -/
def TooLarge (d : Db.Part) : Prop :=
  ∃ bottom row bus col n, describedCount d bottom row bus col = some n ∧ (32 ≤ row ∨ 1024 ≤ col)

end Verif.Spec

import Verif.Model.Basic
/-! # Database record types: `/repo/fpga/database-parsers.h`

A `flat_hash_map` is an association list with distinct keys in some iteration order. -/
namespace Verif.Db

/-- `enum class ConfigBusType` — database-parsers.h:14-18. -/
inductive ConfigBusType where
  | clbIoClk
  | blockRam
  | cfgClb
deriving DecidableEq, Repr

/-- `struct BitsBlockAlias` — database-parsers.h:27-31. -/
structure BitsBlockAlias where
  sites : List (Bytes × Bytes)
  /-- `uint32_t` -/
  startOffset : Nat
  type : Bytes
deriving DecidableEq, Repr

/-- `struct BitsBlock` — database-parsers.h:33-39. -/
structure BitsBlock where
  alias? : Option BitsBlockAlias
  /-- `bits_addr_t = uint64_t` -/
  baseAddress : Nat
  /-- `uint32_t` -/
  frames : Nat
  /-- `int32_t` -/
  offset : Int
  /-- `uint32_t` -/
  words : Nat
deriving DecidableEq, Repr

/-- `Bits` — database-parsers.h:41. -/
abbrev Bits := List (ConfigBusType × BitsBlock)

/-- `struct Tile` with `Location` inlined — database-parsers.h:20-23, 43-68. -/
structure Tile where
  type : Bytes
  x : Nat
  y : Nat
  clockRegion : Option Bytes
  bits : Bits
  pinFunctions : List (Bytes × Bytes)
  sites : List (Bytes × Bytes)
  prohibitedSites : List Bytes
deriving DecidableEq, Repr

/-- `TileGrid` — database-parsers.h:70. -/
abbrev TileGrid := List (Bytes × Tile)

/-- `enum class PseudoPIPType` — database-parsers.h:72-76. -/
inductive PseudoPIPType where
  | always
  | default
  | hint
deriving DecidableEq, Repr

/-- `PseudoPIPs` — database-parsers.h:79. -/
abbrev PseudoPIPs := List (Bytes × PseudoPIPType)

/-- `struct SegmentBit` — database-parsers.h:81-90; coordinates are `uint32_t`. -/
structure SegmentBit where
  wordColumn : Nat
  wordBit : Nat
  isSet : Bool
deriving DecidableEq, Repr

/-- `struct TileFeature` — database-parsers.h:92-104: name and `uint32_t` address; equality is
component-wise (`operator<=>` defaulted). -/
abbrev TileFeature := Bytes × Nat

/-- `SegmentsBits` — database-parsers.h:106. -/
abbrev SegmentsBits := List (TileFeature × List SegmentBit)

/-- `struct PackagePin` — database-parsers.h:108-114. -/
structure PackagePin where
  pin : Bytes
  bank : Nat
  site : Bytes
  tile : Bytes
  pinFunction : Bytes
deriving DecidableEq, Repr

/-- `PackagePins` — database-parsers.h:116. -/
abbrev PackagePins := List PackagePin

/-- `ConfigColumnsFramesCount = std::vector<uint32_t>` — database-parsers.h:121. -/
abbrev ColumnCounts := List Nat

/-- `ClockRegionRow` — database-parsers.h:123-124: a `flat_hash_map`, modelled as an association
list in iteration order. -/
abbrev ClockRegionRow := List (ConfigBusType × ColumnCounts)

/-- `GlobalClockRegionHalf` — database-parsers.h:126. -/
abbrev ClockRegionHalf := List ClockRegionRow

/-- `struct Part` (with `GlobalClockRegions` inlined) — database-parsers.h:128-137. -/
structure Part where
  bottomRows : ClockRegionHalf
  topRows : ClockRegionHalf
  idcode : Word
  /-- `IOBanksIDsToLocation`: bank number to IOB tile location. -/
  iobanks : List (Nat × Bytes)
deriving DecidableEq, Repr

/-- `struct PartInfo` — database-parsers.h:139-144. -/
structure PartInfo where
  device : Bytes
  fabric : Bytes
  package : Bytes
  speedgrade : Bytes
deriving DecidableEq, Repr

end Verif.Db

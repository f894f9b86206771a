import Verif.Model.Database
/-! # Reading files: `/repo/fpga/memory-mapped-file.h`, `memory-mapped-file.cc`

The operating system calls `open`, `fstat`, `mmap` (Linux) are not code of the repository; their contract is stated
here.  Pages have 4096 bytes.  `munmap` and the lifetime of views are not modelled. -/
namespace Verif.Db

/-- What a path leads to: nothing that can be opened, a regular file, or a directory (with its `st_size`). -/
inductive Node where
  | missing
  | regular (content : Bytes)
  | directory (size : Nat)
deriving Repr, DecidableEq

/-- Contract of `open(path, O_RDONLY)`: succeeds on files and directories. -/
def Node.opens : Node → Bool
  | .missing => false
  | _ => true

/-- Contract of `fstat`: `st_size`. -/
def Node.statSize : Node → Nat
  | .missing => 0
  | .regular c => c.length
  | .directory n => n

/-- Contract of `mmap(nullptr, size, PROT_READ, MAP_SHARED, fd, 0)`: `none` is `MAP_FAILED` (length 0, or not a regular
file); else the pages of the mapping: the content, filled with zeros to a whole page. -/
def Node.mmap (n : Node) (size : Nat) : Option Bytes :=
  match n with
  | .regular c => if size = 0 then Option.none else Option.some ((c ++ List.replicate ((4096 - c.length % 4096) % 4096) 0))
  | _ => none

/-- `class MemoryMappedFile` — memory-mapped-file.cc:19-31: the mapped pages (`none`: the pointer `MAP_FAILED`) and the
size of the view. -/
structure Mapping where
  data : Option Bytes
  size : Nat
deriving Repr, DecidableEq

/-- `MemoryMapFile` — memory-mapped-file.cc:34-49: the results of `fstat` and `mmap` are not checked. -/
def memoryMapFile (n : Node) : Outcome Mapping :=
  if n.opens then .ok ⟨n.mmap n.statSize, n.statSize⟩ else .err

/-- Reading the byte at `data() + i`: outside the mapped pages (or through `MAP_FAILED`) it faults. -/
def Mapping.byte (m : Mapping) (i : Nat) : Outcome UInt8 :=
  match m.data.bind (·[i]?) with
  | some b => .ok b
  | none => .ub

/-- All bytes of `AsStringView()` — memory-mapped-file.cc:24. -/
def Mapping.bytes (m : Mapping) : Outcome Bytes := (List.range m.size).mapM m.byte

/-- What a parser works on: the bytes of the view and the byte behind it, if readable. -/
def Mapping.view (m : Mapping) : Outcome (Bytes × Option UInt8) :=
  m.bytes >>= fun c => .ok (c, match m.byte m.size with
    | .ok b => some b
    | _ => none)

end Verif.Db

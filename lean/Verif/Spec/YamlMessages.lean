import Verif.Spec.DbMessages
/-! # Specification: what is said about mapping files -/
namespace Verif.Spec
open Verif.Db

/-- A line with text at the left margin that is neither a comment nor ends in a colon. -/
def BadMargin (l : Bytes) : Prop :=
  ∃ core c, Padded l core ∧ l.head? = some c ∧ NoWhite [c] ∧ c ≠ 0x23 ∧ core.getLast? ≠ some 0x3a

/-- An indented line with text without colon that is not a comment. -/
def BadNested (l : Bytes) : Prop :=
  ∃ core c, Padded l core ∧ core ≠ [] ∧ core.head? ≠ some 0x23 ∧ l.head? = some c ∧ White [c] ∧ 0x3a ∉ core

/-- Nothing is to be said about the entries (those with an empty key do not count). -/
def AllFine (complaint : List (Bytes × Bytes) → Bytes → Prop) (es : List (Bytes × List (Bytes × Bytes))) : Prop :=
  ∀ e ∈ es, e.1 ≠ [] → ∀ m, ¬ complaint e.2 m

/-- What is said about a mapping file, if `complaint` is what is said about the properties of an entry.  An entry is complete at the
end of the file or at the next line at the left margin that is not a comment. -/
inductive YamlComplaint (complaint : List (Bytes × Bytes) → Bytes → Prop) (ls : List Bytes) : Bytes → Prop where
  /-- An entry that is complete. -/
  | entry (pre : List (Bytes × YamlKind)) (rest : List Bytes) (before : List (Bytes × List (Bytes × Bytes)))
      (e : Bytes × List (Bytes × Bytes)) (m : Bytes) (hls : ls = pre.map (·.1) ++ rest) (hpre : ∀ l ∈ pre, YamlLine l.1 l.2)
      (hend : rest = [] ∨ ∃ l post, rest = l :: post ∧ ((∃ k, YamlLine l (.key k)) ∨ BadMargin l))
      (hes : entriesOf (pre.map (·.2)) = before ++ [e]) (hbefore : AllFine complaint before) (he : e.1 ≠ []) (hm : complaint e.2 m) :
      YamlComplaint complaint ls m
  /-- A line at the left margin, if the entries before are fine. -/
  | margin (pre : List (Bytes × YamlKind)) (l : Bytes) (post : List Bytes) (hls : ls = pre.map (·.1) ++ l :: post)
      (hpre : ∀ l ∈ pre, YamlLine l.1 l.2) (hl : BadMargin l) (hes : AllFine complaint (entriesOf (pre.map (·.2)))) :
      YamlComplaint complaint ls (ascii "Top-level key missing trailing colon")
  /-- A line of an entry, if the entries before this one are fine. -/
  | nested (pre : List (Bytes × YamlKind)) (l : Bytes) (post : List Bytes) (hls : ls = pre.map (·.1) ++ l :: post)
      (hpre : ∀ l ∈ pre, YamlLine l.1 l.2) (hl : BadNested l) (hes : AllFine complaint (entriesOf (pre.map (·.2))).dropLast) :
      YamlComplaint complaint ls (ascii "Nested key-value pair missing colon")

/-- What is said about a device. -/
def DeviceComplaint (props : List (Bytes × Bytes)) (m : Bytes) : Prop :=
  propValue props nameFabric = none ∧ m = ascii "parts yaml doesn't contain fabric"

/-- `key "name" not found` -/
def keyNotFound (name : Bytes) : Bytes := ascii "key \"" ++ name ++ ascii "\" not found"

/-- What is said about a part: the first thing missing of device, package and speed grade, or a device without entry. -/
inductive PartComplaint (devices : List YamlKind) (props : List (Bytes × Bytes)) : Bytes → Prop where
  | device (h : propValue props nameDevice = none) : PartComplaint devices props (keyNotFound nameDevice)
  | package (h1 : (propValue props nameDevice).isSome) (h : propValue props namePackage = none) :
      PartComplaint devices props (keyNotFound namePackage)
  | speedgrade (h1 : (propValue props nameDevice).isSome) (h2 : (propValue props namePackage).isSome)
      (h : propValue props nameSpeedgrade = none) : PartComplaint devices props (keyNotFound nameSpeedgrade)
  | fabric (d : Bytes) (h1 : propValue props nameDevice = some d) (h2 : (propValue props namePackage).isSome)
      (h3 : (propValue props nameSpeedgrade).isSome) (h : fabricOf devices d = none) :
      PartComplaint devices props (quoting "could not find fabric for device:" d)

end Verif.Spec

import Verif.Spec.JsonMessages
import Verif.Spec.JsonText
/-! # Specification: JSON values shown in messages -/
namespace Verif.Spec
open Verif.Db

/-- `v` is `j` or stands somewhere inside it. -/
inductive Within (v : Json) : Json → Prop where
  | here : Within v v
  | item {items : List Json} {i : Json} : i ∈ items → Within v i → Within v (.arr items)
  | member {ms : List (Bytes × Json)} {name : Bytes} {w : Json} : (name, w) ∈ ms → Within v w → Within v (.obj ms)

/-- Integers have 64 bits, signed or not: the values a file can have. -/
inductive Readable : Json → Prop
  | null : Readable .null
  | bool (b : Bool) : Readable (.bool b)
  | int (i : Int) : -(2 ^ 63) ≤ i → i < 2 ^ 64 → Readable (.int i)
  | dbl : Readable .dbl
  | str (s : Bytes) : Readable (.str s)
  | arr (vs : List Json) : (∀ v ∈ vs, Readable v) → Readable (.arr vs)
  | obj (ms : List (Bytes × Json)) : (∀ m ∈ ms, Readable m.2) → Readable (.obj ms)

/-- The messages about a JSON value `j`, without the name of a tile in front; `shown v` is how a value is shown. -/
inductive MessageAbout (shown : Json → Bytes) (j : Json) : Bytes → Prop where
  | wrongType (v : Json) : Within v j →
      MessageAbout shown j (ascii "could not unmarshal " ++ shown v ++ ascii ", unexpected type: " ++ kindWord v)
  | missing (v : Json) (name : Bytes) : Within v j → NoMember v name →
      MessageAbout shown j (ascii "json attribute \"" ++ name ++ ascii "\" not found in " ++ shown v)
  | key (ms : List (Bytes × Json)) (name : Bytes) (v : Json) : Within (.obj ms) j → (name, v) ∈ ms →
      MessageAbout shown j (ascii "cannot parse \"" ++ untilNul name ++ ascii "\" for " ++ shown (.obj ms))
  | notObject (v : Json) : Within v j → (∀ ms, v ≠ .obj ms) → MessageAbout shown j (ascii "json value not an object")
  | notArray (v : Json) : Within v j → (∀ is, v ≠ .arr is) → MessageAbout shown j (ascii "json value not an array")
  | bus (ms : List (Bytes × Json)) (name : Bytes) (v : Json) (what : String) : Within (.obj ms) j → (name, v) ∈ ms →
      (what = "unknown frame block type" ∨ what = "unknown config bus type") → (∀ b, untilNul name ≠ busName b) →
      MessageAbout shown j (quoting what (untilNul name))
  | address (s : Bytes) : Within (.str s) j → MessageAbout shown j (ascii "could not parse " ++ s ++ ascii " to bits address")
  | rows (side : String) : (side = "bottom" ∨ side = "top") →
      MessageAbout shown j (ascii "could not find global_clock_region " ++ ascii side ++ ascii " rows")

end Verif.Spec

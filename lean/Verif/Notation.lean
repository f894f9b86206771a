/-!
# Notation for byte strings

`bytes!"abc"` is the list literal `[97, 98, 99]`: one number per character.  It is expanded before elaboration, so that
a statement written with it is the statement with the list written out; only ASCII characters are used.
-/
open Lean in
macro:max "bytes!" s:str : term => do
  let nums := s.getString.toList.toArray.map fun c => Syntax.mkNumLit (toString c.toNat)
  `([$nums,*])

example : bytes!"a=\n\x00" = ([0x61, 0x3d, 0x0a, 0] : List UInt8) := rfl
example : bytes!"" = ([] : List UInt8) := rfl

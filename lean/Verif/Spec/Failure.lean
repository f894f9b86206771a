import Verif.Spec.Assembler
import Verif.Spec.FasmGrammar
/-! # Specification: how assembly fails -/
namespace Verif.Spec
open Verif.Db Verif.Asm

/-- The files of every tile type can be read, or their absence is noticed. -/
def FilesLoad (tiles : Tiles) : Prop := ∀ ty, ∃ o, tiles.bits ty = .ok o

/-- Every bit the database sets lies inside a frame. -/
def BitsInside (tiles : Tiles) : Prop :=
  ∀ tile feature addr bits, FeatureBits tiles tile feature addr bits → ∀ c ∈ bits, c.value = true → c.word < 101

/-- The IO sites of the grid have names. -/
def SitesNamed (grid : TileGrid) : Prop := ∀ tile t, grid.lookup tile = some t → ∀ s ∈ t.sites, s.1 ≠ []

/-- The bits of the statement are in the 64-bit range. -/
def InRange (F : FasmFeature) : Prop := ∀ i : Nat, (i : Int) < F.width → i < 64 ∧ (i : Int) + F.start < 2 ^ 31

/-- The statement asks for a bit the database does not list. -/
def AsksUnlisted (tiles : Tiles) (F : FasmFeature) : Prop :=
  ∃ tile feature addr, Asks F tile feature addr ∧ ∀ bits, ¬ FeatureBits tiles tile feature addr bits

/-- `pre`, then the line, then `post`: a place of the line in the text. -/
def Place (text pre line post : Bytes) : Prop :=
  text = pre ++ line ++ post ∧ (pre = [] ∨ ∃ p, pre = p ++ [0x0a]) ∧
    ((∃ body, line = body ++ [0x0a] ∧ 0x0a ∉ body) ∨ (post = [] ∧ line ≠ [] ∧ 0x0a ∉ line))

/-- The line makes the statement. -/
def Says (line : Bytes) (F : FasmFeature) : Prop :=
  ∃ st n, Fasm.parse true (fun _ => true) line = .ok st ∧
    Fasm.Event.feature n F.name F.start F.width F.bits ∈ st.trace ∧ F.line = n

/-- Lines the parser has no defined reading of: the value stops after the tick, or has not as many 64-bit chunks as the
range has (unless it is a plain, decimal or octal one), or has an unknown format for a range of more than 64 bits. -/
def Undefined (body : Bytes) : Prop :=
  Dangles body ∨
  (∃ g f post, (LineShape.feature g f post).Ok ∧ body = (LineShape.feature g f post).text ∧ ¬ f.FitsRange ∧ ¬ f.TooWide) ∨
  (∃ g name r w c post, (LineShape.badFormat g name r w c post).Ok ∧ body = (LineShape.badFormat g name r w c post).text ∧
    64 < r.size)

/-- The body stops after the tick of its value, for a range of up to 64 bits. -/
def StopsAfterTick (body : Bytes) : Prop :=
  ∃ g name r w, (LineShape.dangling g name r w).Ok ∧ body = (LineShape.dangling g name r w).text ∧ r.size ≤ 64

/-- Some line before is longer, by two characters or more, than the line and than all lines between the two: its newline
is still in memory behind the line. -/
def Overshadowed (pre line : Bytes) : Prop :=
  ∃ a m b, Place pre a m b ∧ line.length + 2 ≤ m.length ∧ ∀ k, IsLine b k → k.length + 2 ≤ m.length

end Verif.Spec

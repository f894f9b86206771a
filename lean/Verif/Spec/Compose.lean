import Verif.Spec.Assembler
/-! # Specification: designs made of parts -/
namespace Verif.Spec
open Verif.Db Verif.Asm Verif.Xc7

/-- The text is empty or ends with a newline. -/
def WholeLines (text : Bytes) : Prop := text = [] ∨ ∃ p, text = p ++ [0x0a]

/-- No statement of the text, or for the PUDC_B pin, uses a tag that mentions `STEPDOWN`. -/
def NoStepdown (tiles : Tiles) (text : Bytes) : Prop :=
  ∀ F tile site tag, Basic tiles text F → HasTag F tile site tag → ¬ Occurs bytes!"STEPDOWN" tag

/-- Every line of `text` is one of `text'`. -/
def LinesWithin (text text' : Bytes) : Prop := ∀ line, IsLine text line → IsLine text' line

/-- A statement of `text'` that is not one of `text` configures this IOB33 site, and no statement of `text` does. -/
def NewlyUsed (tiles : Tiles) (text text' : Bytes) (tile site : Bytes) : Prop :=
  UsedSite (fun F => Written text' F ∧ ¬ Written text F) tile site ∧ ¬ UsedSite (Basic tiles text) tile site

end Verif.Spec

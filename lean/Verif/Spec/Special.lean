import Verif.Spec.Styled
import Verif.Spec.Render
/-! Specification: compounds replaced by special characters. -/
namespace Verif.Spec

/-- What is drawn for a compound in a line of some style: the character the skin has for this compound, in its own style, and otherwise the text
of the compound in the style of its markers. -/
def drawnFor (skin : Skin) (ls : LineStyle) (c : Compound) : Piece :=
  match skin.specialChars c with
  | some sc => (sc.drawn.1, [sc.drawn.2])
  | none => (skin.compoundStyle ls c, c.src)

/-- Compounds cut in parts: each compound gives parts which have its style and, but for some whitespace, its text; a compound made of one visible character
gives itself. -/
inductive CutInto (ws : Char → Bool) : List Compound → List Compound → Prop
  | nil : CutInto ws [] []
  | cons {c : Compound} {cs parts ps : List Compound} : (∀ p ∈ parts, p.flags = c.flags) → (styledChars parts).Sublist (styledChars [c]) →
    ink ws (styledChars parts) = ink ws (styledChars [c]) → (∀ ch, c.src = [ch] → ws ch = false → parts = [c]) →
    CutInto ws cs ps → CutInto ws (c :: cs) (parts ++ ps)

end Verif.Spec

import Verif.Spec.Displayed
import Verif.Spec.Style
/-! Specification of the styles of a displayed text. -/
namespace Verif

/-- A character written in a style. -/
abbrev StyledCell := Char × CompoundStyle

/-- The characters written, each one with its style. -/
def piecesCells (ps : List Piece) : List StyledCell := ps.flatMap fun p => p.2.map fun c => (c, p.1)

/-- `s` is the style of characters with given markers in a line: the colors are those of the strongest of the line style, the italic
style, the strikeout style, the bold style and the code style, among those which apply and have such a color; the attributes are
those of all those which apply. -/
def Spec.Marked (skin : Skin) (ls : LineStyle) (f : Flags) (s : CompoundStyle) : Prop :=
  s.fg = topmost (·.fg) (layers skin ls ⟨[], f⟩) ∧ s.bg = topmost (·.bg) (layers skin ls ⟨[], f⟩) ∧
    ∀ a, s.hasAttr a = true ↔ ∃ l ∈ layers skin ls ⟨[], f⟩, l.hasAttr a = true

/-- A character of the source is written with the style of its markers; an ellipsis may have the style of the ellipsis of the skin. -/
def Spec.StyledAs (skin : Skin) (ls : LineStyle) (p : Char × Flags) (c : StyledCell) : Prop :=
  c.1 = p.1 ∧ (Marked skin ls p.2 c.2 ∨ (p.1 = '…' ∧ c.2 = skin.ellipsis))

/-- Spaces in the style of the line or of the paragraphs. -/
def Spec.Blanks (skin : Skin) (ls : LineStyle) (cells : List StyledCell) : Prop :=
  ∀ c ∈ cells, c = (' ', skin.paragraph.style) ∨ c = (' ', ls.style)

/-- Bullet, quote mark or indentation, with the styles. -/
def Spec.prefixCells (skin : Skin) : Kind → List StyledCell
  | .listItem d => List.replicate d (' ', skin.paragraph.style) ++ [(skin.bullet.drawn.2, skin.bullet.drawn.1), (' ', skin.paragraph.style)]
  | .listItemFollowUp d => if skin.indentMode = .block then List.replicate (d + 2) (' ', skin.paragraph.style) else []
  | .quote => [(skin.quoteMark.drawn.2, skin.quoteMark.drawn.1), (' ', skin.paragraph.style)]
  | _ => []

/-- A row shows a part of a composite with its styles: between blanks, the prefix for its kind and its characters. -/
def Spec.ShowsStyled (skin : Skin) (part : Kind × List (Char × Flags)) (row : List StyledCell) : Prop :=
  ∃ ls before shown after, styleOf skin part.1 = some ls ∧ row = before ++ prefixCells skin part.1 ++ shown ++ after ∧
    Blanks skin ls before ∧ Blanks skin ls after ∧ Matched (StyledAs skin ls) part.2 shown

/-- The parts read as the source, with the same markers: same visible characters, and only whitespace may have been removed. -/
def Spec.ReadsStyled (ws : Char → Bool) (shown source : List (Char × Flags)) : Prop :=
  ink ws shown = ink ws source ∧ shown.Sublist source

/-- The rows displayed for a line of the source, formatted in a given width (if any) and rendered in another one, with the styles. -/
def Spec.DisplayedStyled (ws : Char → Bool) (skin : Skin) (width rendering : Option Nat) : MLine → List (List StyledCell) → Prop
  | .normal kind cs, rows => ∃ first more, Matched (ShowsStyled skin) ((kind, first) :: more) rows ∧
      (∀ p ∈ more, p.1 = match kind with | .listItem d => .listItemFollowUp d | k => k) ∧
      ReadsStyled ws (first ++ more.flatMap (·.2)) (styledChars cs)
  | .tableRow cells, rows => ∃ (nb : Nat) (grid : List (List (Kind × List (Char × Flags)))), grid ≠ [] ∧
      (cells.length ≤ nb ∨ nb = (width.getD (2 ^ 64 - 1) - 1) / 4) ∧
      Matched (fun parts row => ∃ n shown, Matched (ShowsStyled skin) parts shown ∧
        row = List.replicate n (' ', skin.paragraph.style) ++
          shown.flatMap (fun t => (skin.tableBorderChars.vertical, skin.table.style) :: t) ++
          [(skin.tableBorderChars.vertical, skin.table.style)])
        grid rows ∧
      ∀ ic, ic < nb → ReadsStyled ws (grid.flatMap fun parts => match parts[ic]? with | some p => p.2 | none => [])
        (match cells[ic]? with | some c => styledChars c.2 | none => [])
  | .tableRule _, rows => ∃ n pos widths, rows = [List.replicate n (' ', skin.paragraph.style) ++
      (ruleText skin.tableBorderChars pos widths).map fun c => (c, skin.table.style)]
  | .horizontalRule, rows => rows = [List.replicate (rendering.getD 0) (skin.horizontalRule.char, skin.horizontalRule.style)]
  | .codeFence, rows => rows = [List.replicate (rendering.getD 0) (skin.horizontalRule.char, skin.horizontalRule.style)]

end Verif

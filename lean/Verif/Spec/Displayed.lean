import Verif.Spec.FmtText
/-! Specification of what is seen of a displayed text. -/
namespace Verif

/-- The visible characters of a text. -/
def visibleText (ws : Char → Bool) (t : Text) : Text := t.filter fun c => !ws c

/-- The characters of a composite of the source. -/
def sourceText (cs : List Compound) : Text := cs.flatMap (·.src)

/-- Two lists are related element by element. -/
inductive Spec.Matched {α β : Type} (R : α → β → Prop) : List α → List β → Prop
  | nil : Matched R [] []
  | cons {a b as bs} : R a b → Matched R as bs → Matched R (a :: as) (b :: bs)

/-- The elements of a list are related, in order, to blocks of the other one. -/
inductive Spec.InBlocks {α β : Type} (R : α → List β → Prop) : List α → List β → Prop
  | nil : InBlocks R [] []
  | cons {x b xs out} : R x b → InBlocks R xs out → InBlocks R (x :: xs) (b ++ out)

/-- `txt` shows a part of a composite: between blanks, the prefix for its kind (bullet, quote mark, indentation) and its characters. -/
def Spec.ShowsPart (skin : Skin) (part : Kind × Text) (txt : Text) : Prop :=
  ∃ a b, txt = List.replicate a ' ' ++ prefixText skin part.1 ++ part.2 ++ List.replicate b ' '

/-- The text of the parts reads as the source: same visible characters, and only whitespace may have been removed. -/
def Spec.ReadsAs (ws : Char → Bool) (shown source : Text) : Prop :=
  visibleText ws shown = visibleText ws source ∧ shown.Sublist source

/-- The rows displayed for a line of the source, in a given width. -/
def Spec.Displayed (ws : Char → Bool) (skin : Skin) (width : Nat) : MLine → List Text → Prop
  | .normal kind cs, rows => ∃ first more, Matched (ShowsPart skin) ((kind, first) :: more) rows ∧
      (∀ p ∈ more, p.1 = match kind with | .listItem d => .listItemFollowUp d | k => k) ∧
      ReadsAs ws (first ++ more.flatMap (·.2)) (sourceText cs)
  | .tableRow cells, rows => ∃ (nb : Nat) (grid : List (List (Kind × Text))), grid ≠ [] ∧
      (cells.length ≤ nb ∨ nb = (width - 1) / 4) ∧
      Matched (fun parts row => ∃ n txts, Matched (ShowsPart skin) parts txts ∧
        row = List.replicate n ' ' ++ txts.flatMap (fun t => skin.tableBorderChars.vertical :: t) ++ [skin.tableBorderChars.vertical])
        grid rows ∧
      ∀ ic, ic < nb → ReadsAs ws (grid.flatMap fun parts => match parts[ic]? with | some p => p.2 | none => [])
        (match cells[ic]? with | some c => sourceText c.2 | none => [])
  | .tableRule _, rows => ∃ n pos widths, rows = [List.replicate n ' ' ++ ruleText skin.tableBorderChars pos widths]
  | .horizontalRule, rows => rows = [List.replicate width skin.horizontalRule.char]
  | .codeFence, rows => rows = [List.replicate width skin.horizontalRule.char]

end Verif

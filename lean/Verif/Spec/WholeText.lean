import Verif.Spec.FmtText
/-! Specification of what becomes of the content of a text when it's formatted. -/
namespace Verif

/-- Each element is replaced by a block of lines, in order. -/
inductive Spec.ReplacedBy {α : Type} (R : α → List FmtLine → Prop) : List α → List FmtLine → Prop
  | nil : ReplacedBy R [] []
  | cons {x b xs out} : R x b → ReplacedBy R xs out → ReplacedBy R (x :: xs) (b ++ out)

/-- The kind of the lines obtained by wrapping a composite: the first one is of the kind of the composite, the next ones too, but
for list items. -/
def Spec.WrappedKinds (kind : Kind) (fcs : List FmtComposite) : Prop :=
  ∃ first more, fcs = first :: more ∧ first.kind = kind ∧
    ∀ l ∈ more, match kind with
      | .listItem d => l.kind = .listItemFollowUp d
      | k => l.kind = k

/-- `out` holds the content of a line of source, for a text formatted in a given width (if any):
* the composites of `out` read as the source, only whitespace may have disappeared,
* a row of cells is replaced by rows in which each column reads as the original cell: all the columns are there, or as many as
  the width can hold when each has 3 characters and a border,
* rules stay rules. -/
def Spec.Holds (ws : Char → Bool) (width : Option Nat) : MLine → List FmtLine → Prop
  | .normal kind cs, out => ∃ fcs : List FmtComposite, out = fcs.map .normal ∧ WrappedKinds kind fcs ∧
      ink ws (linesChars fcs) = ink ws (styledChars cs) ∧ (linesChars fcs).Sublist (styledChars cs)
  | .tableRow cells, out => ∃ (nb : Nat) (rows : List (List FmtComposite)), out = rows.map .tableRow ∧ rows ≠ [] ∧
      (cells.length ≤ nb ∨ nb = (width.getD (2 ^ 64 - 1) - 1) / 4) ∧
      ∀ ic, ic < nb →
        let source := match cells[ic]? with | some c => styledChars c.2 | none => []
        ink ws (rows.flatMap fun r => cellChars r ic) = ink ws source ∧ (rows.flatMap fun r => cellChars r ic).Sublist source
  | .tableRule _, out => ∃ rule, out = [.tableRule rule]
  | .horizontalRule, out => out = [.horizontalRule]
  | .codeFence, out => out = [.horizontalRule]

end Verif

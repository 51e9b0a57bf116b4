import Verif.Model.Composite
/-! Model of `src/code.rs`. -/
namespace Verif

/-- `CodeBlock`, src/code.rs 7-12. -/
structure CodeBlock where
  start : Nat
  height : Nat
  width : Nat
  deriving DecidableEq, Repr

/-- The change made to a line by `CodeBlock::justify`, src/code.rs 17-22. -/
def setCodeSpacing (width : Nat) : FmtLine → FmtLine
  | .normal fc => .normal { fc with spacing := some ⟨width, .left⟩ }
  | l => l

/-- `CodeBlock::justify`, src/code.rs 15-24. -/
def CodeBlock.justify (b : CodeBlock) (lines : List FmtLine) : List FmtLine :=
  lines.take b.start ++ ((lines.drop b.start).take b.height).map (setCodeSpacing b.width) ++
    lines.drop (b.start + b.height)

/-- `code_line_length`, src/code.rs 27-35. -/
def codeLineLength : FmtLine → Option Nat
  | .normal fc => if fc.kind = .code then some fc.visibleLength else none
  | _ => none

/-- The loop of `find_blocks`, src/code.rs 43-66. -/
def findBlocksLoop : Nat → Option CodeBlock → List FmtLine → List CodeBlock
  | _, none, [] => []
  | _, some b, [] => [b]
  | idx, cur, line :: rest =>
    match codeLineLength line with
    | some ll =>
      match cur with
      | some b => findBlocksLoop (idx + 1) (some { b with height := b.height + 1, width := max b.width ll }) rest
      | none => findBlocksLoop (idx + 1) (some ⟨idx, 1, ll⟩) rest
    | none =>
      match cur with
      | some c => c :: findBlocksLoop (idx + 1) none rest
      | none => findBlocksLoop (idx + 1) none rest

/-- `find_blocks`, src/code.rs 42-68. -/
def findBlocks (lines : List FmtLine) : List CodeBlock := findBlocksLoop 0 none lines

/-- `justify_blocks`, src/code.rs 72-77. -/
def justifyBlocks (lines : List FmtLine) : List FmtLine :=
  (findBlocks lines).foldl (fun ls b => b.justify ls) lines

end Verif

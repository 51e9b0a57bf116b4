import Verif.Model.Ask
/-! Model of what `Question::ask` prints, `src/ask.rs`. -/
namespace Verif.Ask

/-- What is printed by a question: a markdown text (`print_text`), a key in brackets, possibly in bold (`mad_print_inline!`), or the message
telling that an input isn't understood. How texts are printed is modelled elsewhere. See src/ask.rs 72-82 and 97. -/
inductive Shown
  | text (md : Text)
  | key (bold : Bool) (key : Text)
  | notUnderstood (input : Text)
  deriving DecidableEq, Repr

/-- The loop on the answers, src/ask.rs 75-82. -/
def showAnswers (default : Option Text) : List Answer → List Shown
  | [] => []
  | a :: l => .key (if default = some a.key then true else false) a.key :: .text a.md :: showAnswers default l

/-- `Question::ask`, src/ask.rs 71-99: what is printed, and the outcome with the lines which remain, or none if it's still asking. -/
def ask (ws : Char → Bool) (q : Question) (lines : List Line) : List Shown × Option (Outcome × List Line) :=
  let head := match q.md with
    | some md => [.text md]
    | none => []
  let r := askLoop ws q lines
  (head ++ showAnswers q.default q.answers ++ r.1.map .notUnderstood, r.2)

end Verif.Ask

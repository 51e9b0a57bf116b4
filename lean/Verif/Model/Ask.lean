import Verif.Model.Basic
/-! Model of `src/ask.rs`. -/
namespace Verif.Ask

/-- The key of an `Answer` and its text, src/ask.rs 18-21. -/
structure Answer where
  key : Text
  md : Text
  deriving DecidableEq, Repr

/-- `Question`, src/ask.rs 11-15. -/
structure Question where
  md : Option Text := none
  answers : List Answer := []
  default : Option Text := none
  deriving DecidableEq, Repr

namespace Question

/-- `Question::new`, src/ask.rs 25-31. -/
def new (md : Text) : Question := { md := some md }

/-- `Question::add_answer`, src/ask.rs 37-42; `to_string` of the key is done before. -/
def addAnswer (q : Question) (key md : Text) : Question := { q with answers := q.answers ++ [{ key, md }] }

/-- `Question::set_default`, src/ask.rs 48-50. -/
def setDefault (q : Question) (d : Text) : Question := { q with default := some d }

/-- `Question::has_exotic_default`, src/ask.rs 53-64. -/
def hasExoticDefault (q : Question) : Bool :=
  match q.default with
  | some d => let rec go : List Answer → Bool
    | [] => true
    | a :: l => if a.key = d then false else go l
    go q.answers
  | none => false

end Question

/-- What `read_line` gives: an error or the line, with its newline; the line is empty at the end of the input.
See src/ask.rs 85 (`read_line` is of the standard library). -/
inductive Line
  | error
  | line (t : Text)
  deriving DecidableEq, Repr

/-- `input.truncate(input.trim_end().len())`, src/ask.rs 86; `ws` is `char::is_whitespace`. -/
def trimEnd (ws : Char → Bool) : Text → Text
  | [] => []
  | c :: t =>
    match trimEnd ws t with
    | [] => if ws c then [] else [c]
    | u => c :: u

/-- The end of a call to `ask`. See src/ask.rs 71, 85, 89 and 94. -/
inductive Outcome
  | answer (key : Text)
  | error
  deriving DecidableEq, Repr

/-- The search of the input in the answers, src/ask.rs 92-96. -/
def isKey : List Answer → Text → Bool
  | [], _ => false
  | a :: l, input => if a.key = input then true else isKey l input

/-- The loop of `Question::ask`, src/ask.rs 83-98, on the next lines: the lines which aren't understood, each followed by a message, then the outcome, with the lines
which remain, or none if it's still asking. Text printed before (src/ask.rs 72-82) is in `AskShow`.  -/
def askLoop (ws : Char → Bool) (q : Question) : List Line → List Text × Option (Outcome × List Line)
  | [] => ([], none)
  | .error :: rest => ([], some (.error, rest))
  | .line t :: rest =>
    let input := trimEnd ws t
    match (if input = [] then q.default else none) with
    | some d => ([], some (.answer d, rest))
    | none =>
      if isKey q.answers input then ([], some (.answer input, rest))
      else
        let r := askLoop ws q rest
        (input :: r.1, r.2)

/-- How the `ask!` macro ends: it runs the block of an answer, given by its rank, or panics. See src/ask.rs 160-165 and 184-189. -/
inductive Branch
  | block (i : Nat)
  | panic
  deriving DecidableEq, Repr

/-- The `match` of the `ask!` macro, src/ask.rs 159-165: each arm takes the next answer, whose key it compares. -/
def matchKey : List Answer → Text → Nat → Branch
  | [], _, _ => .panic
  | a :: l, key, i => if a.key = key then .block i else matchKey l key (i + 1)

/-- The `ask!` macro, src/ask.rs 147-191; an input error is a panic (`unwrap`), and so is a default which isn't a key. -/
def askMacro (ws : Char → Bool) (md : Text) (answers : List Answer) (default : Option Text) (lines : List Line) : Option Branch :=
  let q : Question := { md := some md, answers, default }
  if q.hasExoticDefault then some .panic
  else
    match (askLoop ws q lines).2 with
    | none => none
    | some (.error, _) => some .panic
    | some (.answer key, _) => some (matchKey answers key 0)

end Verif.Ask

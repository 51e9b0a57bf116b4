import Verif.Model.AskShow
/-! Model of programs made of chained questions: uses of `Question::ask` and of the `ask!` macro in one another, `src/ask.rs` and `examples/ask/main.rs`. -/
namespace Verif.Ask

/-- A program asking questions, as the function `run_app` of examples/ask/main.rs 12-49 and the chained questions of the documentation of the macro, src/ask.rs
122-140. Programs which ask in a loop aren't modelled. -/
inductive Dialog (α : Type) where
  /-- The program ends with a value. -/
  | done (value : α)
  /-- `println!`, then the rest. -/
  | say (t : Text) (next : Dialog α)
  /-- `let a = question.ask(skin)?;`, then the rest, which may depend on the answer. -/
  | ask (q : Question) (next : Text → Dialog α)
  /-- The `ask!` macro, with the block of each answer, given by its rank (what follows the macro is in the blocks). -/
  | choose (md : Text) (answers : List Answer) (default : Option Text) (block : Nat → Dialog α)

/-- How a program ends. See src/ask.rs 71, 158, 164, 180, 182 and 188. -/
inductive Ending (α : Type) where
  | value (v : α)
  /-- The error of `Question::ask` is returned. -/
  | error
  | panic
  deriving DecidableEq, Repr

/-- What the user sees: what a question shows, or a printed line. See src/ask.rs 72-82 and 97, and the `println!` of src/ask.rs 136. -/
inductive Seen
  | shown (s : Shown)
  | said (t : Text)
  deriving DecidableEq, Repr

namespace Dialog

/-- The execution of a program on the next lines of the input: what is seen, then the ending with the lines which remain, or none if it's still asking. The two
forms of the macro are src/ask.rs 147-168 and 169-190. -/
def run (ws : Char → Bool) : Dialog α → List Line → List Seen × Option (Ending α × List Line)
  | done v, lines => ([], some (.value v, lines))
  | say t next, lines =>
    let r := next.run ws lines
    (.said t :: r.1, r.2)
  | ask q next, lines =>
    let a := Ask.ask ws q lines
    match a.2 with
    | none => (a.1.map .shown, none)
    | some (.error, rest) => (a.1.map .shown, some (.error, rest))
    | some (.answer key, rest) =>
      let r := (next key).run ws rest
      (a.1.map .shown ++ r.1, r.2)
  | choose md answers default block, lines =>
    let q : Question := { md := some md, answers, default }
    if q.hasExoticDefault then ([], some (.panic, lines))
    else
      let a := Ask.ask ws q lines
      match a.2 with
      | none => (a.1.map .shown, none)
      | some (.error, rest) => (a.1.map .shown, some (.panic, rest))
      | some (.answer key, rest) =>
        match matchKey answers key 0 with
        | .panic => (a.1.map .shown, some (.panic, rest))
        | .block i =>
          let r := (block i).run ws rest
          (a.1.map .shown ++ r.1, r.2)

end Dialog
end Verif.Ask

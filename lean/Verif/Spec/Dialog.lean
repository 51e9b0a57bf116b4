import Verif.Spec.Ask
import Verif.Model.Dialog
/-! Specification of conversations: what the user types and sees, and how it ends. -/
namespace Verif.Ask

/-- What a question shows before its answer is read. -/
def header (q : Question) : List Seen :=
  (q.md.toList.map fun md => .shown (.text md)) ++
    q.answers.flatMap fun a => [.shown (.key (q.default = some a.key) a.key), .shown (.text a.md)]

/-- The answers of a question: some lines which aren't acceptable, each with a message, then one which is. -/
structure Answered (ws : Char → Bool) (q : Question) (typed : List Text) (seen : List Seen) (key : Text) : Prop where
  answered : ∃ (before : List Text) (last : Text), typed = before ++ [last] ∧ Accepts ws q last key ∧ (∀ b ∈ before, ∀ k, ¬ Accepts ws q b k) ∧
    ∃ trimmed : List Text, trimmed.length = before.length ∧ (∀ (i : Nat) (b u : Text), before[i]? = some b → trimmed[i]? = some u → Trimmed ws b u) ∧
      seen = header q ++ trimmed.map fun u => .shown (.notUnderstood u)

/-- The answer of this rank is the first one with this key. -/
def FirstKey (answers : List Answer) (i : Nat) (key : Text) : Prop :=
  (∃ a, answers[i]? = some a ∧ a.key = key) ∧ ∀ (j : Nat) (b : Answer), j < i → answers[j]? = some b → b.key ≠ key

/-- A whole conversation, with the lines typed, what is seen, and the value at the end. -/
inductive Talk (ws : Char → Bool) {α : Type} : Dialog α → List Text → List Seen → α → Prop
  | done (v : α) : Talk ws (.done v) [] [] v
  | say (t : Text) {d : Dialog α} {typed : List Text} {seen : List Seen} {v : α} : Talk ws d typed seen v → Talk ws (.say t d) typed (.said t :: seen) v
  | ask {q : Question} {next : Text → Dialog α} {typed more : List Text} {seen after : List Seen} {key : Text} {v : α} :
    Answered ws q typed seen key → Talk ws (next key) more after v → Talk ws (.ask q next) (typed ++ more) (seen ++ after) v
  | choose {md : Text} {answers : List Answer} {default : Option Text} {block : Nat → Dialog α} {typed more : List Text} {seen after : List Seen} {key : Text}
      {i : Nat} {v : α} :
    (∀ d, default = some d → ∃ a ∈ answers, a.key = d) → Answered ws { md := some md, answers, default } typed seen key → FirstKey answers i key →
    Talk ws (block i) more after v → Talk ws (.choose md answers default block) (typed ++ more) (seen ++ after) v

/-- All the defaults of the macros are keys of their answers. -/
inductive GoodDefaults {α : Type} : Dialog α → Prop
  | done (v : α) : GoodDefaults (.done v)
  | say (t : Text) {d : Dialog α} : GoodDefaults d → GoodDefaults (.say t d)
  | ask (q : Question) {next : Text → Dialog α} : (∀ k, GoodDefaults (next k)) → GoodDefaults (.ask q next)
  | choose (md : Text) {answers : List Answer} {default : Option Text} {block : Nat → Dialog α} :
    (∀ d, default = some d → ∃ a ∈ answers, a.key = d) → (∀ i, GoodDefaults (block i)) → GoodDefaults (.choose md answers default block)

/-- A way through the macros of a program: the key of the chosen answer of each one, and the value at the end. -/
inductive Way {α : Type} : Dialog α → List Text → α → Prop
  | done (v : α) : Way (.done v) [] v
  | say (t : Text) {d : Dialog α} {keys : List Text} {v : α} : Way d keys v → Way (.say t d) keys v
  | ask {q : Question} {next : Text → Dialog α} {a : Answer} {keys : List Text} {v : α} :
    a ∈ q.answers → Way (next a.key) keys v → Way (.ask q next) (a.key :: keys) v
  | choose {md : Text} {answers : List Answer} {default : Option Text} {block : Nat → Dialog α} {i : Nat} {key : Text} {keys : List Text} {v : α} :
    FirstKey answers i key → Way (block i) keys v → Way (.choose md answers default block) (key :: keys) v

/-- A question whose answers typed so far aren't acceptable, each with a message. -/
structure Unanswered (ws : Char → Bool) (q : Question) (typed : List Text) (seen : List Seen) : Prop where
  refused : ∀ b ∈ typed, ∀ k, ¬ Accepts ws q b k
  seen : ∃ trimmed : List Text, trimmed.length = typed.length ∧ (∀ (i : Nat) (b u : Text), typed[i]? = some b → trimmed[i]? = some u → Trimmed ws b u) ∧
    seen = header q ++ trimmed.map fun u => .shown (.notUnderstood u)

/-- A conversation in which an input error comes while a question isn't answered: this error is the one of `Question::ask`, and a panic of the macro. -/
inductive Cut (ws : Char → Bool) {α : Type} : Dialog α → List Text → List Seen → Ending α → Prop
  | say (t : Text) {d : Dialog α} {typed : List Text} {seen : List Seen} {e : Ending α} : Cut ws d typed seen e → Cut ws (.say t d) typed (.said t :: seen) e
  | atAsk {q : Question} {next : Text → Dialog α} {typed : List Text} {seen : List Seen} : Unanswered ws q typed seen → Cut ws (.ask q next) typed seen .error
  | ask {q : Question} {next : Text → Dialog α} {typed more : List Text} {seen after : List Seen} {key : Text} {e : Ending α} :
    Answered ws q typed seen key → Cut ws (next key) more after e → Cut ws (.ask q next) (typed ++ more) (seen ++ after) e
  | atChoose {md : Text} {answers : List Answer} {default : Option Text} {block : Nat → Dialog α} {typed : List Text} {seen : List Seen} :
    Unanswered ws { md := some md, answers, default } typed seen → Cut ws (.choose md answers default block) typed seen .panic
  | choose {md : Text} {answers : List Answer} {default : Option Text} {block : Nat → Dialog α} {typed more : List Text} {seen after : List Seen} {key : Text}
      {i : Nat} {e : Ending α} :
    Answered ws { md := some md, answers, default } typed seen key → FirstKey answers i key →
    Cut ws (block i) more after e → Cut ws (.choose md answers default block) (typed ++ more) (seen ++ after) e

end Verif.Ask

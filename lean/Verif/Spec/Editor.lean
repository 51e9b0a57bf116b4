import Verif.Spec.InputField
/-! Specification: a reference text editor, which is a text cut by a cursor, and what the keys do in it. -/
namespace Verif.Spec

/-- A text with a cursor: what's before it and what's after it. -/
structure Doc where
  before : Text := []
  after : Text := []
  deriving DecidableEq, Repr

namespace Doc

def insert (s : Text) (d : Doc) : Doc := { d with before := d.before ++ s }

/-- Over a character leftwards, if there's one. -/
def left (d : Doc) : Doc :=
  match d.before.getLast? with
  | some c => ⟨d.before.dropLast, c :: d.after⟩
  | none => d

/-- Over a character rightwards, if there's one. -/
def right (d : Doc) : Doc :=
  match d.after with
  | c :: after => ⟨d.before ++ [c], after⟩
  | [] => d

def backspace (d : Doc) : Doc := { d with before := d.before.dropLast }

/-- Removes the character after the cursor. At the end of the text, a line break just before the cursor is removed. -/
def delete (d : Doc) : Doc :=
  match d.after with
  | _ :: after => { d with after }
  | [] => if d.before.getLast? = some '\n' then d.backspace else d

/-- The end of a text, from its last line break on. -/
def lastLine (t : Text) : Text := (t.reverse.takeWhile (· ≠ '\n')).reverse

/-- The start of a text, up to its first line break. -/
def firstLine (t : Text) : Text := t.takeWhile (· ≠ '\n')

/-- To the start of the line. -/
def home (d : Doc) : Doc := ⟨d.before.take (d.before.length - (lastLine d.before).length), lastLine d.before ++ d.after⟩

/-- To the end of the line. -/
def toEnd (d : Doc) : Doc := ⟨d.before ++ firstLine d.after, d.after.drop (firstLine d.after).length⟩

/-- The number of columns between the start of the line and the cursor. -/
def column (cw : Char → Nat) (d : Doc) : Nat := inputCols cw (lastLine d.before)

/-- To the right, up to a number of columns, inside the line. -/
def seek (cw : Char → Nat) (col : Nat) (before : Text) : Text → Doc
  | [] => ⟨before, []⟩
  | c :: after => if col = 0 ∨ c = '\n' then ⟨before, c :: after⟩ else seek cw (col - inputCols cw [c]) (before ++ [c]) after

/-- To the start of a line, then to a column of it. -/
def homeThenSeek (cw : Char → Nat) (col : Nat) (d : Doc) : Doc := seek cw col d.home.before d.home.after

/-- The same thing, several times. -/
def times (step : Doc → Doc) : Nat → Doc → Doc
  | 0, d => d
  | n + 1, d => times step n (step d)

/-- Up of `n` lines, or to the first line, in the same column. -/
def up (cw : Char → Nat) (n : Nat) (d : Doc) : Doc :=
  if '\n' ∈ d.before then homeThenSeek cw (d.column cw) (times (fun e => e.home.left) n d) else d

/-- Down of `n` lines, or to the last line, in the same column. -/
def down (cw : Char → Nat) (n : Nat) (d : Doc) : Doc :=
  if '\n' ∈ d.after then homeThenSeek cw (d.column cw) (times (fun e => e.toEnd.right) n d) else d

/-- The effect of a key, without selection: `newLine` are the keys of line breaks, `page` is the number of lines of a page. -/
def press (cw : Char → Nat) (newLine : List KeyComb) (page : Nat) (d : Doc) (k : KeyComb) : Doc :=
  if k ∈ newLine then d.insert ['\n']
  else if k.others ≠ [] ∨ (k.mods ≠ .none ∧ k.mods ≠ .shift) then d
  else
    match k.code with
    | .char c => if c = '\r' ∨ c = '\x08' then d else d.insert [c]
    | .backspace => d.backspace
    | .delete => d.delete
    | .home => d.home
    | .end => d.toEnd
    | .left => d.left
    | .right => d.right
    | .up => d.up cw 1
    | .down => d.down cw 1
    | .pageUp => d.up cw page
    | .pageDown => d.down cw page
    | .other _ => d

end Doc

/-- The keys which select text, or start to: keys with shift, but for characters, `Backspace` and `Delete`. -/
def Selects (newLine : List KeyComb) (k : KeyComb) : Prop :=
  k ∉ newLine ∧ k.others = [] ∧ k.mods = .shift ∧ k.code ≠ .backspace ∧ k.code ≠ .delete ∧ ∀ c, k.code ≠ .char c

/-- The keys given one after the other to a field. -/
def pressAll (cw : Char → Nat) : List KeyComb → InputField → Run InputField
  | [], f => some f
  | k :: ks, f => do
    let r ← f.applyKeyCombination cw k
    pressAll cw ks r.1

end Verif.Spec

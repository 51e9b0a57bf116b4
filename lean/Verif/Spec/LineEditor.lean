import Verif.Spec.Editor
/-! Specification: a reference editor of a line of text with selection, and what the keys do in it. -/
namespace Verif.Spec

/-- A line of text, the index of the cursor in it, and the other end of the selection, if there's one. -/
structure LineDoc where
  text : Text := []
  cursor : Nat := 0
  anchor : Option Nat := none
  deriving DecidableEq, Repr

namespace LineDoc

/-- Both ends of the selection. -/
def ends (d : LineDoc) : Nat × Nat := (min (d.anchor.getD d.cursor) d.cursor, max (d.anchor.getD d.cursor) d.cursor)

/-- Whether something is selected: the ends differ. -/
def wide (d : LineDoc) : Bool := d.ends.1 ≠ d.ends.2

/-- The selected text: from one end to the other, the characters at both ends included. -/
def selected (d : LineDoc) : Text := (d.text.drop d.ends.1).take (d.ends.2 + 1 - d.ends.1)

/-- Removes the selected text. -/
def erase (d : LineDoc) : LineDoc := ⟨d.text.take d.ends.1 ++ d.text.drop (d.ends.2 + 1), d.ends.1, none⟩

/-- Inserts a text at the cursor. -/
def insert (s : Text) (d : LineDoc) : LineDoc := ⟨d.text.take d.cursor ++ s ++ d.text.drop d.cursor, d.cursor + s.length, d.anchor⟩

/-- An end of selection stays inside the text. -/
def bound (d : LineDoc) : LineDoc := { d with anchor := d.anchor.map (min · d.text.length) }

/-- Removes the character of index `i` if there's one. -/
def remove (i : Nat) (d : LineDoc) : LineDoc := bound { d with text := d.text.eraseIdx i }

/-- The cursor goes to `i`: with shift it extends the selection, or starts one; without, there's no more selection. -/
def goto (shift : Bool) (i : Nat) (d : LineDoc) : LineDoc :=
  { d with cursor := i, anchor := if shift then some (d.anchor.getD d.cursor) else none }

/-- The effect of a key. -/
def press (d : LineDoc) (k : KeyComb) : LineDoc :=
  if k.others ≠ [] ∨ (k.mods ≠ .none ∧ k.mods ≠ .shift) then d
  else
    let goto := goto (k.mods == .shift)
    match k.code with
    | .char c => (if d.wide then d.erase else d).insert (keptText [c])
    | .backspace => if d.wide then d.erase else if d.cursor = 0 then d else remove (d.cursor - 1) { d with cursor := d.cursor - 1 }
    | .delete => if d.wide then d.erase else remove d.cursor d
    | .home => goto 0 d
    | .end => goto d.text.length d
    | .left => goto (d.cursor - 1) d
    | .right => goto (min (d.cursor + 1) d.text.length) d
    | _ => goto d.cursor d

end LineDoc

/-- What is given to a field: keys, or the usual commands of a clipboard. -/
inductive EditCmd
  | key (k : KeyComb)
  | cut
  | paste (s : Text)

/-- The effect of a command, and the text which was cut. -/
def LineDoc.edit (d : LineDoc) : EditCmd → LineDoc × Text
  | .key k => (d.press k, [])
  | .cut => (if d.wide then d.erase else d.remove d.cursor, d.selected)
  | .paste s => ((if d.wide then d.erase else d).insert (keptText s), [])

/-- All the commands, and the cut texts. -/
def LineDoc.edits (d : LineDoc) : List EditCmd → LineDoc × List Text
  | [] => (d, [])
  | c :: cs => (((d.edit c).1.edits cs).1, (d.edit c).2 :: ((d.edit c).1.edits cs).2)

/-- A command given to a field: the new field and the text which was cut. -/
def giveCmd (cw : Char → Nat) (f : InputField) : EditCmd → Run (InputField × Text)
  | .key k => do
    let r ← f.applyKeyCombination cw k
    some (r.1, [])
  | .cut => f.cutSelection cw
  | .paste s => do
    let f' ← f.replaceSelection cw s
    some (f', [])

/-- The commands given one after the other to a field. -/
def giveCmds (cw : Char → Nat) : InputField → List EditCmd → Run (InputField × List Text)
  | f, [] => some (f, [])
  | f, c :: cs => do
    let r ← giveCmd cw f c
    let q ← giveCmds cw r.1 cs
    some (q.1, r.2 :: q.2)

/-- The command adds no line break. -/
def OneLineCmd (newLine : List KeyComb) : EditCmd → Prop
  | .key k => k ∉ newLine ∧ (k.others = [] → k.mods = .none ∨ k.mods = .shift → k.code ≠ .char '\n')
  | .cut => True
  | .paste s => '\n' ∉ s

end Verif.Spec

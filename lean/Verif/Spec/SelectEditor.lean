import Verif.Spec.LineEditor
/-! Specification: a reference editor of a text of several lines with a selection, and what the keys and the clipboard do in it. -/
namespace Verif.Spec

/-- The lines of a text: there's always one more than line breaks. -/
def textLines : Text → List Text
  | [] => [[]]
  | c :: t =>
    if c = '\n' then [] :: textLines t
    else
      match textLines t with
      | l :: ls => (c :: l) :: ls
      | [] => [[c]]

/-- The number of characters, line breaks included, before the column `p.x` of the line `p.y` of a text. -/
def indexIn (t : Text) (p : Pos) : Nat := (((textLines t).take p.y).map fun l => l.length + 1).sum + p.x

/-- The nearest place of a text: on the same line, at the same column or at the end of a shorter line, or else at the end of the text. -/
def nearest (t : Text) (p : Pos) : Pos :=
  match (textLines t)[p.y]? with
  | some l => ⟨p.y, min p.x l.length⟩
  | none => ⟨(textLines t).length - 1, ((textLines t).getLast?.getD []).length⟩

/-- The lines which stay when a selection is removed. When it's in a line, what is before it and what is after the character at its end (which may be the
line break: this one stays), or nothing of this line if it's selected from its start to its end. When it's on several lines: what is before it in its first line,
if there's something; the other lines, but only if there's just one which is wholly selected; what is in its last line from the character at the end on, if the
end of the selection isn't the one of the line. There's always a line. -/
def leftOver (ls : List Text) (lo hi : Pos) : List Text :=
  let first := ls[lo.y]?.getD []
  let last := ls[hi.y]?.getD []
  let kept :=
    if lo.y = hi.y then
      if lo.x = 0 ∧ hi.x = last.length then [] else [first.take lo.x ++ first.drop (hi.x + 1)]
    else
      let whole := (ls.take (if hi.x < last.length then hi.y else hi.y + 1)).drop (if 0 < lo.x then lo.y + 1 else lo.y)
      (if 0 < lo.x then [first.take lo.x] else []) ++ (if whole.length = 1 then whole else []) ++ (if hi.x < last.length then [last.drop hi.x] else [])
  let all := ls.take lo.y ++ kept ++ ls.drop (hi.y + 1)
  if all = [] then [[]] else all

/-- A text with a cursor, and the line and column of the other end of the selection, if there's one. -/
structure SelDoc where
  doc : Doc := {}
  anchor : Option Pos := none
  deriving DecidableEq, Repr

namespace SelDoc

def text (d : SelDoc) : Text := d.doc.before ++ d.doc.after

/-- The line and column of the cursor. -/
def place (d : SelDoc) : Pos := ⟨d.doc.before.count '\n', (Doc.lastLine d.doc.before).length⟩

/-- Both ends of the selection, as numbers of characters before them. -/
def ends (d : SelDoc) : Nat × Nat :=
  let cursor := d.doc.before.length
  let anchor := d.anchor.elim cursor (indexIn d.text)
  (min anchor cursor, max anchor cursor)

/-- Whether something is selected: the ends differ. -/
def wide (d : SelDoc) : Bool := d.ends.1 ≠ d.ends.2

/-- The selected text: from one end to the other, the characters at both ends included. -/
def selected (d : SelDoc) : Text := (d.text.drop d.ends.1).take (d.ends.2 + 1 - d.ends.1)

/-- Both ends of the selection, as lines and columns. -/
def bounds (d : SelDoc) : Pos × Pos :=
  let anchor := d.anchor.getD d.place
  if indexIn d.text anchor < d.doc.before.length then (anchor, d.place) else (d.place, anchor)

/-- What one expects of the removal of the selected text: nothing else changes. -/
def without (d : SelDoc) : SelDoc := ⟨⟨d.text.take d.ends.1, d.text.drop (d.ends.2 + 1)⟩, none⟩

/-- Removes the selection, and puts the cursor at its start. -/
def erase (d : SelDoc) : SelDoc :=
  let text := joinLines (leftOver (textLines d.text) d.bounds.1 d.bounds.2)
  let start := indexIn text (nearest text d.bounds.1)
  ⟨⟨text.take start, text.drop start⟩, none⟩

/-- The text changes: the other end of the selection stays at the same line and column, or at the nearest place. -/
def keep (d : SelDoc) (doc : Doc) : SelDoc := ⟨doc, d.anchor.map (nearest (doc.before ++ doc.after))⟩

/-- The cursor moves: with shift it extends the selection, or starts one; without, there's no more selection. -/
def goto (shift : Bool) (d : SelDoc) (doc : Doc) : SelDoc := ⟨doc, if shift then some (d.anchor.getD d.place) else none⟩

/-- The effect of a key: `newLine` are the keys of line breaks, `page` is the number of lines of a page. The moves, the insertion of
a character and the removal of one are those of the editor without selection. -/
def press (cw : Char → Nat) (newLine : List KeyComb) (page : Nat) (d : SelDoc) (k : KeyComb) : SelDoc :=
  if k ∈ newLine then d.keep (d.doc.insert ['\n'])
  else if k.others ≠ [] ∨ (k.mods ≠ .none ∧ k.mods ≠ .shift) then d
  else
    let alone := fun doc : Doc => doc.press cw [] page ⟨k.code, [], .none⟩
    match k.code with
    | .char _ => if d.wide then d.erase.keep (alone d.erase.doc) else d.keep (alone d.doc)
    | .backspace => if d.wide then d.erase else d.keep (alone d.doc)
    | .delete => if d.wide then d.erase else d.keep (alone d.doc)
    | _ => d.goto (k.mods == .shift) (alone d.doc)

/-- The effect of a command, and the text which was cut. -/
def edit (cw : Char → Nat) (newLine : List KeyComb) (page : Nat) (d : SelDoc) : EditCmd → SelDoc × Text
  | .key k => (d.press cw newLine page k, [])
  | .cut => (if d.wide then d.erase else d.keep d.doc.delete, d.selected)
  | .paste s => (if d.wide then d.erase.keep (d.erase.doc.insert (keptText s)) else d.keep (d.doc.insert (keptText s)), [])

/-- All the commands, and the cut texts. -/
def edits (cw : Char → Nat) (newLine : List KeyComb) (page : Nat) (d : SelDoc) : List EditCmd → SelDoc × List Text
  | [] => (d, [])
  | c :: cs =>
    let r := d.edit cw newLine page c
    let q := edits cw newLine page r.1 cs
    (q.1, r.2 :: q.2)

/-- At the start of a line. -/
def AtLineStart (before : Text) : Prop := before = [] ∨ before.getLast? = some '\n'

/-- The selection is inside a line (and it isn't the end of the last line from its start on), or it's made of whole lines with
their line breaks, or it's the whole text. -/
def Exact (d : SelDoc) : Prop :=
  ('\n' ∉ d.selected ∧ (d.ends.2 < d.text.length ∨ ¬ AtLineStart (d.text.take d.ends.1))) ∨
    (AtLineStart (d.text.take d.ends.1) ∧ (d.text[d.ends.2]? = some '\n' ∨ (d.ends.1 = 0 ∧ d.ends.2 = d.text.length)))

end SelDoc
end Verif.Spec

import Verif.Spec.InputField
/-! Specification: two users doing the same gestures on a password field, but with other characters. -/
namespace Verif.Spec
open InputField

/-- Not a character with a special role: a line break, or an ignored character. -/
def Ordinary (c : Char) : Prop := c ≠ '\n' ∧ c ≠ '\r' ∧ c ≠ '\x08'

/-- Two characters which can be typed one for the other: the same, or ordinary ones of the same width (a tabulation counting as two columns). -/
def AlikeChar (cw : Char → Nat) (a b : Char) : Prop := a = b ∨ (Ordinary a ∧ Ordinary b ∧ inputCols cw [a] = inputCols cw [b])

/-- Two texts of the same length whose characters are one for the other. -/
def AlikeText (cw : Char → Nat) : Text → Text → Prop
  | [], [] => True
  | a :: s, b :: t => AlikeChar cw a b ∧ AlikeText cw s t
  | _, _ => False

/-- Two codes of keys: the same or alike characters. -/
def AlikeCode (cw : Char → Nat) : KeyCode → KeyCode → Prop
  | .char a, .char b => AlikeChar cw a b
  | k, l => k = l

/-- The key types a character. -/
def TypesChar (k : KeyComb) : Prop := (∃ c, k.code = .char c) ∧ k.others = [] ∧ (k.mods = .none ∨ k.mods = .shift)

/-- A key event of crossterm with another character. -/
def AlikeEvent (cw : Char → Nat) : FieldEvent → FieldEvent → Prop
  | .key a m, .key b n => m = n ∧ (a = b ∨ (AlikeCode cw a b ∧ (m = .none ∨ m = .shift)))
  | .mouse k x y m, e => e = .mouse k x y m
  | .other, e => e = .other
  | _, _ => False

/-- An operation which looks at the characters: moves and deletions by words, selection of a word (a double click), and the setting
of the whole content, which does nothing for the same content. -/
def LooksAtText : FieldOp → Prop
  | .setStr _ => True
  | .wrapped .moveWordLeft | .wrapped .moveWordRight | .wrapped .delWordLeft | .wrapped .delWordRight | .wrapped .selectWordAround => True
  | .mouse .upLeft _ _ _ double => double = true
  | .event (.mouse .upLeft _ _ _) double => double = true
  | _ => False

/-- The same gesture, maybe with other characters. -/
def AlikeOp (cw : Char → Nat) : FieldOp → FieldOp → Prop
  | .putChar a, .putChar b => AlikeChar cw a b
  | .insertStr s, .insertStr t => AlikeText cw s t
  | .replaceSelection s, .replaceSelection t => AlikeText cw s t
  | .key k, .key l => k = l ∨ (TypesChar k ∧ TypesChar l ∧ AlikeCode cw k.code l.code ∧ k.mods = l.mods)
  | .keycode a s, .keycode b t => AlikeCode cw a b ∧ s = t
  | .event e d, .event g d' => AlikeEvent cw e g ∧ d = d' ∧ ¬ LooksAtText (.event e d)
  | .newLineOn k, o => o = .newLineOn k ∧ ¬ TypesChar k
  | o, o' => o' = o ∧ ¬ LooksAtText o

/-- Two histories made of the same gestures. -/
def AlikeOps (cw : Char → Nat) : List FieldOp → List FieldOp → Prop
  | [], [] => True
  | o :: os, p :: ps => AlikeOp cw o p ∧ AlikeOps cw os ps
  | _, _ => False

/-- The operations one after the other: the field, and the booleans returned. -/
def execAll (cw : Char → Nat) (alnum : Char → Bool) (f : InputField) : List FieldOp → Run (InputField × List Bool)
  | [] => some (f, [])
  | o :: os => do
    let r ← o.exec cw alnum f
    let q ← execAll cw alnum r.1 os
    some (q.1, r.2 :: q.2)

/-- What can be seen of the field, when it's in password mode; nothing is said of other fields. -/
def seenIn (cw : Char → Nat) (bar : Char × Char) (f : InputField) : Option (Run (List Row × Option (Nat × Nat))) :=
  if f.passwordMode then some (f.displayOn cw bar) else none

/-- What can be seen after the operations, and the booleans they returned; `none` if one panics. -/
def seenAfter (cw : Char → Nat) (alnum : Char → Bool) (bar : Char × Char) (f : InputField) (ops : List FieldOp) :
    Run (Option (Run (List Row × Option (Nat × Nat))) × List Bool) :=
  (execAll cw alnum f ops).map fun p => (seenIn cw bar p.1, p.2)

/-- The key of a character. -/
def typed (c : Char) : FieldOp := .key ⟨.char c, [], .none⟩

end Verif.Spec

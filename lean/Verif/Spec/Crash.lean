import Verif.Spec.Tty
/-! Specification of a writer which fails: what it was given before is on the terminal, what would have come after isn't. -/
namespace Verif.Spec

/-- The effect of a command of which only the first characters, `kept` of them, are written: the end of the text is missing, and a style
which was set isn't reset. (A sequence of escape is either written or not.) -/
def Tty.execCut (cw : Char → Nat) (t : Tty) (kept : Nat) : TtyCmd → Tty
  | .print text => t.exec cw (.print (text.take kept))
  | .styled s text =>
    { t with cells := printText cw t.y (over s t.pen) t.x (text.take kept) t.cells, x := t.x + textWidth cw (text.take kept), pen := over s t.pen }
  | _ => t

/-- The effect of commands when the writer fails: `done` of them are written, and `kept` characters of the next one. -/
def Tty.playCut (cw : Char → Nat) : Tty → List TtyCmd → (done kept : Nat) → Tty
  | t, [], _, _ => t
  | t, c :: _, 0, kept => t.execCut cw kept c
  | t, c :: cmds, done + 1, kept => (t.exec cw c).playCut cw cmds done kept

/-- A cell is before another one, in the order of reading. -/
def Before (x y px py : Nat) : Prop := y < py ∨ y = py ∧ x < px

instance (x y px py : Nat) : Decidable (Before x y px py) := inferInstanceAs (Decidable (_ ∨ _))

/-- However the writing of these commands is interrupted, the terminal has the final cells up to some place, and the cells it had before
from this place. -/
def WrittenInOrder (cw : Char → Nat) (t : Tty) (cmds : List TtyCmd) : Prop :=
  ∀ done kept, ∃ px py, ∀ x y, (t.playCut cw cmds done kept).cells x y =
    if Before x y px py then (t.play cw cmds).cells x y else t.cells x y

/-- However the writing of these commands is interrupted, no cell out of the area is changed. -/
def OnlyInArea (cw : Char → Nat) (t : Tty) (cmds : List TtyCmd) (area : Area) : Prop :=
  ∀ done kept x y, ¬ InArea area x y → (t.playCut cw cmds done kept).cells x y = t.cells x y

/-- However the writing of these commands is interrupted, writing them again later, the style having been reset, gives what would be there
without the interruption. -/
def Repairable (cw : Char → Nat) (t : Tty) (cmds : List TtyCmd) : Prop :=
  ∀ done kept, ∀ t' : Tty, t'.cells = (t.playCut cw cmds done kept).cells → t'.pen = {} → (t'.play cw cmds).cells = (t.play cw cmds).cells

end Verif.Spec

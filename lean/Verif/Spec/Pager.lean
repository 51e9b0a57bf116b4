import Verif.Model.Pager
import Verif.Spec.Tty
import Verif.Spec.TextView
/-! Specification of a terminal on which an application is running, and of what this application should show. -/
namespace Verif.Spec
open Verif.Pager

/-- A screen on which there's nothing. -/
def blankCells : Cells CompoundStyle := fun _ _ => ({}, ' ', 0)

/-- The effect of a command of the application: clearing gives the background of the pen to all cells. -/
def Tty.execApp (cw : Char → Nat) (t : Tty) : AppCmd → Tty
  | .clearAll => { t with cells := fun _ _ => ({ bg := t.pen.bg }, ' ', 0) }
  | .view c => t.exec cw c

/-- The effect of commands of the application. -/
def Tty.playApp (cw : Char → Nat) (t : Tty) (cmds : List AppCmd) : Tty := cmds.foldl (Tty.execApp cw) t

/-- The terminal when its size changes: nothing is supposed about its cells. -/
def Tty.disturbed (t : Tty) (after : Cells CompoundStyle) : Event → Tty
  | .resize _ _ => { t with cells := after }
  | _ => t

/-- The terminal and the view after the events, the view being drawn at first and after each one. For each event, `after` is the cells left by
the terminal when it changed its size. Nothing if there's a panic, or if the application was left. -/
def runApp (cw : Char → Nat) (ws : Char → Bool) (t : Tty) (m : MadView) : List (Event × Cells CompoundStyle) → Run (Tty × MadView)
  | [] => (draw cw ws m).map fun cmds => (t.playApp cw cmds, m)
  | (e, after) :: es => do
    let cmds ← draw cw ws m
    let next ← handle cw ws m e
    let (more, m') ← next
    runApp cw ws (((t.playApp cw cmds).disturbed after e).playApp cw more) m' es

/-- The keys which don't leave the application. -/
def Scrolls (k : KeyCode) : Prop := k = .up ∨ k = .down ∨ k = .pageUp ∨ k = .pageDown

/-- What should be shown: the size of the terminal and the index of the first displayed line. -/
structure Shown where
  width : Nat
  height : Nat
  scroll : Nat

/-- The width of the text: at most 120 columns. -/
def Shown.textColumns (s : Shown) : Nat := min s.width 120

/-- The part of the screen for the text: it's in the middle. -/
def Shown.area (s : Shown) : Area := ⟨(s.width - 120) / 2, 0, min s.width 120, s.height⟩

/-- What should be shown after an event, when there are `count w` lines in the width `w`: a key moves by a line or a page, and not after the last page;
the text comes back to its start when its width changes. -/
def Shown.next (count : Nat → Nat) (s : Shown) : Event → Shown
  | .key .up => { s with scroll := s.scroll - 1 }
  | .key .down => { s with scroll := min (s.scroll + 1) (count s.textColumns - s.height) }
  | .key .pageUp => { s with scroll := s.scroll - s.height }
  | .key .pageDown => { s with scroll := min (s.scroll + s.height) (count s.textColumns - s.height) }
  | .key _ => s
  | .resize w h => ⟨w, h, if min w 120 = s.textColumns then s.scroll else 0⟩
  | .other => s

/-- A size of terminal in which the text can be displayed, and has `count w` lines in its width `w`. -/
structure GoodSize (cw : Char → Nat) (ws : Char → Bool) (skin : Skin) (mlines : List MLine) (count : Nat → Nat) (width height : Nat) : Prop where
  wide : 4 ≤ width
  high : 1 ≤ height
  small : width < 65536
  margins : NoMarginEdge skin (min width 120)
  fits : FittingText cw skin (min width 120 - 1) mlines
  lines : ∀ t, FmtText.fromText cw ws skin mlines (some (min width 120 - 1)) = some t → t.lines.length = count (min width 120)
  room : count (min width 120) + height < 65536

end Verif.Spec

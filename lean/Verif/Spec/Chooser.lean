import Verif.Model.Chooser
import Verif.Spec.PagerMain
/-! Specification of an application which shows a text until a key chooses what it prints. -/
namespace Verif.Spec
open Verif.Chooser

/-- What happens to the application: an event and, if something else wrote on the screen (or if its size changed), what became the cells. -/
abbrev Choice := Happening Chooser.Event

/-- The key, without modifiers, which leaves the application. -/
def Choosing (e : Choice) : Prop := ∃ k, e.1 = .key k false ∧ ¬ Scrolls k

/-- The part of the screen for the text: it's in the middle, with a margin. -/
def marginArea (width height : Nat) : Area := ⟨1 + (width - 122) / 2, 1, min (width - 2) 120, height - 2⟩

/-- The index of the first displayed line after an event, when there are `count` lines and `height` rows. -/
def nextScroll (count height scroll : Nat) : Chooser.Event → Nat
  | .key .up false => scroll - 1
  | .key .down false => min (scroll + 1) (count - height)
  | .key .pageUp false => scroll - height
  | .key .pageDown false => min (scroll + height) (count - height)
  | _ => scroll

/-- The cells of the screen, out of the view, after some events: those left by the last other program which wrote on it, if any. -/
def leftCells (es : List Choice) : Cells CompoundStyle := es.foldl (fun c e => e.2.getD c) blankCells

/-- A text which can be displayed in an area, in which it has `count` lines. -/
structure GoodView (cw : Char → Nat) (ws : Char → Bool) (skin : Skin) (mlines : List MLine) (count : Nat) (area : Area) : Prop where
  wide : 4 ≤ area.width
  high : 1 ≤ area.height
  onScreen : OnScreen area
  margins : NoMarginEdge skin area.width
  fits : FittingText cw skin (area.width - 1) mlines
  lines : ∀ t, FmtText.fromText cw ws skin mlines (some (area.width - 1)) = some t → t.lines.length = count
  room : area.top + count + area.height < 65536

/-- The texts chosen by keys. -/
def choiceText (c : Char) : Option Text :=
  if c = '1' then some "..".toList else if c = '2' then some "/".toList else if c = '3' then some "~".toList else none

end Verif.Spec

import Verif.Model.PagerMain
import Verif.Spec.AppMain
/-! Specification of a terminal in which a text is shown by a pager. -/
namespace Verif.Spec
open Verif.Pager

/-- What happens to a pager: an event and, if the terminal changed its size, what it did to the cells. -/
abbrev PagerHappening := Happening Event

/-- The cells of the terminal are only changed by the application and the changes of its size. -/
def OnlyResized (es : List PagerHappening) : Prop := ∀ e ∈ es, (∀ w h, e.1 ≠ .resize w h) → e.2 = none

/-- A key which isn't one of those which scroll. -/
def LeavingKey (e : PagerHappening) : Prop := ∃ k, e.1 = .key k ∧ ¬ Scrolls k

/-- The size and the scroll after some events. -/
def shownAfter (count : Nat → Nat) (width height : Nat) (es : List PagerHappening) : Shown :=
  es.foldl (fun s e => s.next count e.1) ⟨width, height, 0⟩

/-- A terminal in the modes of the pager, which doesn't ask for the mouse. -/
structure Paging (t : Terminal) : Prop where
  alternate : t.alternate = true
  raw : t.raw = true
  mouse : t.mouse = false
  hidden : t.cursor = false

end Verif.Spec

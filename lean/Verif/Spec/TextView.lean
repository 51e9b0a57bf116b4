import Verif.Model.TextView
import Verif.Spec.Area
import Verif.Spec.FmtText
import Verif.Spec.Float
/-! Specification vocabulary for text views and their operations as data. -/
namespace Verif

/-- The largest scroll: the last line is in the last row, or there's no scroll when all lines fit. -/
def TextView.maxScroll (v : TextView) : Nat := v.lines.length - v.area.height

/-- The integer with the least absolute value which isn't nearer from 0 than a number and has its sign. -/
def RoundedAway (x : Rat) (n : Int) : Prop :=
  (0 ≤ x → x ≤ n ∧ n < x + 1) ∧ (x < 0 → n ≤ x ∧ x - 1 < n)

/-- The functions changing the scroll of a `TextView`, src/views/text_view.rs 129-241. -/
inductive ViewOp
  | setScroll (n : Nat) | lines (n : Int) | pages (count : Flt)
  | lineUp | lineDown | pageUp | pageDown | key (key : KeyComb)

/-- The call of an operation with its returned boolean, or `true` for the functions not returning a boolean. -/
def ViewOp.exec (v : TextView) : ViewOp → Run (TextView × Bool)
  | .setScroll n => some (v.setScroll n, true)
  | .lines n => (v.tryScrollLines n).map (·, true)
  | .pages count => (v.tryScrollPages count).map (·, true)
  | .lineUp => some v.lineUp
  | .lineDown => some v.lineDown
  | .pageUp => some v.pageUp
  | .pageDown => some v.pageDown
  | .key k => some (v.applyKeyCombination k)

/-- The numbers of lines are `i32`s, other than the least one (and those of the negative numbers of pages are above it). -/
def ViewOp.Allowed (v : TextView) : ViewOp → Prop
  | .lines n => -2147483648 < n ∧ n ≤ 2147483647
  | .pages .nan | .pages .inf => True
  | .pages .negInf => v.area.height = 0
  | .pages (.fin x) => -2147483647 ≤ x * v.area.height
  | _ => True

/-- The requested scroll, before it's bounded. -/
inductive ViewOp.Requests (v : TextView) : ViewOp → Int → Prop
  | setScroll (n : Nat) : Requests v (.setScroll n) n
  | lines (n : Int) : Requests v (.lines n) (v.scroll + n)
  | pages (x y : Rat) (n : Int) : Spec.IsNearest f64 (x * v.area.height) y → RoundedAway y n →
      Requests v (.pages (.fin x)) (v.scroll + if n ≤ 2147483647 then n else 2147483647)
  | pagesInf : v.area.height ≠ 0 → Requests v (.pages .inf) (v.scroll + 2147483647)
  | pagesNan (count : Flt) : count = .nan ∨ (v.area.height = 0 ∧ (count = .inf ∨ count = .negInf)) → Requests v (.pages count) v.scroll
  | lineUp : Requests v .lineUp (v.scroll - 1)
  | lineDown : Requests v .lineDown (v.scroll + 1)
  | pageUp : Requests v .pageUp (v.scroll - v.area.height)
  | pageDown : Requests v .pageDown (v.scroll + v.area.height)
  | keyUp : Requests v (.key ⟨.up, [], .none⟩) (v.scroll - 1)
  | keyDown : Requests v (.key ⟨.down, [], .none⟩) (v.scroll + 1)
  | keyPageUp : Requests v (.key ⟨.pageUp, [], .none⟩) (v.scroll - v.area.height)
  | keyPageDown : Requests v (.key ⟨.pageDown, [], .none⟩) (v.scroll + v.area.height)
  | other (k : KeyComb) : k.mods ≠ .none ∨ k.others ≠ [] ∨ (k.code ≠ .up ∧ k.code ≠ .down ∧ k.code ≠ .pageUp ∧ k.code ≠ .pageDown) →
      Requests v (.key k) v.scroll

/-- A number brought between 0 and a maximum. -/
def clampTo (max : Nat) (n : Int) : Nat := if n < 0 then 0 else if n.toNat ≤ max then n.toNat else max

/-- The views obtained from a new one by operations. -/
inductive ReachableView (area : Area) (lines : List FmtLine) : TextView → Prop
  | init (bar : Bool) : ReachableView area lines { area, lines, showScrollbar := bar }
  | step {v v' : TextView} {b : Bool} (op : ViewOp) : ReachableView area lines v → op.Allowed v → op.exec v = some (v', b) →
      ReachableView area lines v'

/-- The functions changing a `MadView`, src/views/mad_view.rs 47-102. -/
inductive MadOp
  | resize (area : Area) | lines (n : Int) | pages (n : Int) | key (key : KeyComb)

/-- The call of an operation on a `MadView`. -/
def MadOp.exec (cw : Char → Nat) (ws : Char → Bool) (m : MadView) : MadOp → Run MadView
  | .resize a => some (m.resize a)
  | .lines n => m.tryScrollLines cw ws n
  | .pages n => m.tryScrollPages cw ws n
  | .key k => (m.applyKeyCombination cw ws k).map (·.1)

/-- The views obtained from a new one by operations (of which all the resizes may be of a given class). -/
inductive ReachableMad (cw : Char → Nat) (ws : Char → Bool) (okResize : Area → Area → Prop) (m0 : MadView) : MadView → Prop
  | init : ReachableMad cw ws okResize m0 { m0 with scroll := 0 }
  | step {m m' : MadView} (op : MadOp) : ReachableMad cw ws okResize m0 m → (∀ a, op = .resize a → okResize m.area a) →
      op.exec cw ws m = some m' → ReachableMad cw ws okResize m0 m'

/-- The number of lines of the formatted content of a `MadView`. -/
def MadView.HasLines (cw : Char → Nat) (ws : Char → Bool) (m : MadView) (n : Nat) : Prop :=
  ∃ t, FmtText.fromText cw ws m.skin m.mlines (some (m.area.width - 1)) = some t ∧ t.lines.length = n

/-- No style of line has margins which are applied in the given width but not in the width less one. -/
def NoMarginEdge (skin : Skin) (w : Nat) : Prop :=
  ∀ k ls, styleOf skin k = some ls → ls.leftMargin + ls.rightMargin + 3 ≠ w

end Verif

import Verif.Model.FmtText
import Verif.Model.Area
import Verif.Model.InputField
import Verif.Model.Progress
import Verif.Model.Float
/-! Model of `src/views/text_view.rs` and `src/views/mad_view.rs`. -/
namespace Verif

/-- Bounds of `i32`. Built-in of Rust, not a part of termimad. -/
def i32Min : Int := -2147483648
/-- Largest `i32`. Built-in of Rust, not a part of termimad. -/
def i32Max : Int := 2147483647

/-- `x as i32` for a `f64` whose value is the integer `x` (external): saturates. -/
def saturateI32 (x : Int) : Int := max i32Min (min i32Max x)

namespace Flt

/-- `< 0.0` (external): false for NaN. -/
def isNegative : Flt → Bool
  | .negInf => true
  | .fin x => decide (x < 0)
  | .nan | .inf => false

/-- `f64::floor` (external). -/
def floor : Flt → Flt
  | .fin x => .fin x.floor
  | y => y

/-- `f64::ceil` (external). -/
def ceil : Flt → Flt
  | .fin x => .fin x.ceil
  | y => y

/-- `as i32` (external): truncated toward 0, saturated, 0 for NaN. -/
def toI32 : Flt → Int
  | .nan => 0
  | .inf => i32Max
  | .negInf => i32Min
  | .fin x => saturateI32 (ratTrunc x)

end Flt

/-- `TextView`, src/views/text_view.rs 58-63. The text is the list of its lines and the skin is given when writing. -/
structure TextView where
  area : Area
  lines : List FmtLine
  scroll : Nat := 0
  showScrollbar : Bool := true
  deriving DecidableEq, Repr

/-- A written row: where the terminal cursor is moved first, and what is printed. See src/views/text_view.rs 102-127. -/
structure WrittenRow where
  x : Nat
  y : Nat
  pieces : List Piece
  deriving DecidableEq, Repr

namespace TextView

/-- `TextView::content_height`, src/views/text_view.rs 76-78. -/
def contentHeight (v : TextView) : Nat := v.lines.length

/-- `TextView::scrollbar`, src/views/text_view.rs 84-91. -/
def scrollbar (v : TextView) : Run (Option (Nat × Nat)) :=
  if v.showScrollbar then v.area.scrollbar (asU16 v.scroll) (asU16 v.contentHeight) else some none

/-- The width for the lines, src/views/text_view.rs 105-108. -/
def textWidth (v : TextView) (bar : Option (Nat × Nat)) : Run Nat :=
  match bar with
  | some _ => csub v.area.width 1
  | none => some v.area.width

/-- The text of a row, src/views/text_view.rs 112-117 and `Filling::queue_styled`, src/fit/filling.rs 40-52. -/
def writeText (v : TextView) (skin : Skin) (width j : Nat) : Run (List Piece) :=
  match v.lines[v.scroll + j]? with
  | some line => skin.writeFmtLine line (some width) true
  | none => do
    let chunks ← (Filling.fromChar ' ').queue width
    some (chunks.map fun t => (skin.paragraph.style, t))

/-- The scrollbar in a row, src/views/text_view.rs 118-124. -/
def writeBar (skin : Skin) (bar : Option (Nat × Nat)) (y : Nat) : List Piece :=
  match bar with
  | some (t, b) => if t ≤ y ∧ y ≤ b then skin.scrollbar.thumb.display else skin.scrollbar.track.display
  | none => []

/-- The loop on the rows, src/views/text_view.rs 109-125: number of remaining rows and index of the row. -/
def writeRows (v : TextView) (skin : Skin) (width : Nat) (bar : Option (Nat × Nat)) : Nat → Nat → Run (List WrittenRow)
  | 0, _ => some []
  | n + 1, j => do
    let y ← u16Add v.area.top j
    let ps ← v.writeText skin width j
    let rest ← writeRows v skin width bar n (j + 1)
    some (⟨v.area.left, y, ps ++ writeBar skin bar y⟩ :: rest)

/-- `TextView::write_on`, src/views/text_view.rs 102-127. -/
def writeOn (v : TextView) (skin : Skin) : Run (List WrittenRow) := do
  let bar ← v.scrollbar
  let width ← v.textWidth bar
  v.writeRows skin width bar v.area.height 0

/-- `TextView::set_scroll`, src/views/text_view.rs 131-139; the returned value is the new scroll. -/
def setScroll (v : TextView) (scroll : Nat) : TextView :=
  { v with scroll := if v.contentHeight > v.area.height then min scroll (v.contentHeight - v.area.height) else 0 }

/-- `TextView::try_scroll_lines`, src/views/text_view.rs 144-155: the negation of the least `i32` panics. -/
def tryScrollLines (v : TextView) (n : Int) : Run TextView :=
  if n < 0 then
    if n = i32Min then none
    else some { v with scroll := if (-n).toNat ≥ v.scroll then 0 else v.scroll - (-n).toNat }
  else some (v.setScroll (v.scroll + n.toNat))

/-- `TextView::try_scroll_pages`, src/views/text_view.rs 159-168. -/
def tryScrollPages (v : TextView) (pages : Flt) : Run TextView :=
  let lines := Flt.mul f64.round pages (.fin v.area.height)
  let lines := if lines.isNegative then lines.floor else lines.ceil
  v.tryScrollLines lines.toI32

/-- `TextView::line_up`, src/views/text_view.rs 170-177. -/
def lineUp (v : TextView) : TextView × Bool :=
  if v.scroll > 0 then ({ v with scroll := v.scroll - 1 }, true) else (v, false)

/-- `TextView::line_down`, src/views/text_view.rs 179-188. -/
def lineDown (v : TextView) : TextView × Bool :=
  if v.scroll + v.area.height < v.contentHeight then ({ v with scroll := v.scroll + 1 }, true) else (v, false)

/-- `TextView::page_up`, src/views/text_view.rs 190-201. -/
def pageUp (v : TextView) : TextView × Bool :=
  if v.scroll > v.area.height then ({ v with scroll := v.scroll - v.area.height }, true)
  else if v.scroll > 0 then ({ v with scroll := 0 }, true)
  else (v, false)

/-- `TextView::page_down`, src/views/text_view.rs 203-215. -/
def pageDown (v : TextView) : TextView × Bool :=
  if v.scroll + 2 * v.area.height < v.contentHeight then ({ v with scroll := v.scroll + v.area.height }, true)
  else if v.scroll + v.area.height < v.contentHeight then ({ v with scroll := v.contentHeight - v.area.height }, true)
  else (v, false)

/-- `TextView::apply_key_combination`, src/views/text_view.rs 229-241; `apply_key_event`, 221-223, calls it after a
conversion. -/
def applyKeyCombination (v : TextView) (key : KeyComb) : TextView × Bool :=
  if key.mods ≠ .none then (v, false)
  else
    match key.code, key.others with
    | .up, [] => v.lineUp
    | .down, [] => v.lineDown
    | .pageUp, [] => v.pageUp
    | .pageDown, [] => v.pageDown
    | _, _ => (v, false)

end TextView

/-- `MadSkin::area_text`, src/skin.rs 365-367; the markdown is given by its parsed lines. -/
def Skin.areaText (cw : Char → Nat) (ws : Char → Bool) (skin : Skin) (mlines : List MLine) (area : Area) : Run FmtText := do
  let w ← csub area.width 1
  FmtText.fromText cw ws skin mlines (some w)

/-- `MadSkin::write_in_area_on`, src/skin.rs 377-382. -/
def Skin.writeInArea (cw : Char → Nat) (ws : Char → Bool) (skin : Skin) (mlines : List MLine) (area : Area) : Run (List WrittenRow) := do
  let t ← skin.areaText cw ws mlines area
  ({ area, lines := t.lines, showScrollbar := false } : TextView).writeOn skin

/-- `MadView`, src/views/mad_view.rs 17-22, with the parsed lines of its markdown. -/
structure MadView where
  mlines : List MLine
  area : Area
  skin : Skin
  scroll : Nat := 0

namespace MadView

/-- The text view built by the functions of `MadView`, src/views/mad_view.rs 40-42, 63-65 and 83-85. -/
def view (cw : Char → Nat) (ws : Char → Bool) (m : MadView) : Run TextView := do
  let t ← m.skin.areaText cw ws m.mlines m.area
  some { area := m.area, lines := t.lines, scroll := m.scroll }

/-- `MadView::write_on`, src/views/mad_view.rs 39-45. -/
def writeOn (cw : Char → Nat) (ws : Char → Bool) (m : MadView) : Run (List WrittenRow) := do
  let v ← m.view cw ws
  v.writeOn m.skin

/-- `MadView::resize`, src/views/mad_view.rs 48-59. -/
def resize (m : MadView) (area : Area) : MadView :=
  if area = m.area then m
  else { m with scroll := if area.width ≠ m.area.width then 0 else m.scroll, area }

/-- `MadView::try_scroll_lines`, src/views/mad_view.rs 62-68. -/
def tryScrollLines (cw : Char → Nat) (ws : Char → Bool) (m : MadView) (n : Int) : Run MadView := do
  let v ← m.view cw ws
  let v ← v.tryScrollLines n
  some { m with scroll := v.scroll }

/-- `MadView::try_scroll_pages`, src/views/mad_view.rs 71-73: the product of `i32` may panic. -/
def tryScrollPages (cw : Char → Nat) (ws : Char → Bool) (m : MadView) (n : Int) : Run MadView :=
  if i32Min ≤ n * m.area.height ∧ n * m.area.height ≤ i32Max then m.tryScrollLines cw ws (n * m.area.height) else none

/-- `MadView::apply_key_combination`, src/views/mad_view.rs 81-92; `apply_key_event`, 100-102, calls it after a
conversion. -/
def applyKeyCombination (cw : Char → Nat) (ws : Char → Bool) (m : MadView) (key : KeyComb) : Run (MadView × Bool) := do
  let v ← m.view cw ws
  some (if (v.applyKeyCombination key).2 then ({ m with scroll := (v.applyKeyCombination key).1.scroll }, true) else (m, false))

end MadView
end Verif

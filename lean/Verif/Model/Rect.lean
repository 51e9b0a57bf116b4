import Verif.Model.Area
import Verif.Model.Style
import Verif.Model.Fit
/-! Model of `src/rect.rs`. -/
namespace Verif

/-- What is queued on the writer: cursor moves, and texts printed in a style. See src/rect.rs 99-135. -/
inductive Cmd
  | moveTo (x y : Nat)
  | print (style : CompoundStyle) (text : Text)
  deriving DecidableEq, Repr

/-- `RectBorderStyle`, src/rect.rs 15-25. -/
structure RectBorderStyle where
  topLeft : Char
  topRight : Char
  bottomRight : Char
  bottomLeft : Char
  top : Char
  right : Char
  bottom : Char
  left : Char
  deriving DecidableEq, Repr

namespace RectBorderStyle

/-- `BORDER_STYLE_HALF_WIDTH_OUTSIDE`, src/rect.rs 27-36. -/
def halfWidthOutside : RectBorderStyle where
  topLeft := '▛'
  top := '▀'
  topRight := '▜'
  bottom := '▄'
  bottomRight := '▟'
  right := '▐'
  bottomLeft := '▙'
  left := '▌'

/-- `BORDER_STYLE_MIDDLE_SQUARE_LINE`, src/rect.rs 38-47. -/
def middleSquareLine : RectBorderStyle where
  topLeft := '┌'
  top := '─'
  topRight := '┐'
  bottom := '─'
  bottomRight := '┘'
  right := '│'
  bottomLeft := '└'
  left := '│'

/-- `BORDER_STYLE_MIDDLE_ROUND_LINE`, src/rect.rs 49-58. -/
def middleRoundLine : RectBorderStyle where
  topLeft := '╭'
  top := '─'
  topRight := '╮'
  bottom := '─'
  bottomRight := '╯'
  right := '│'
  bottomLeft := '╰'
  left := '│'

/-- `BORDER_STYLE_BLAND`, src/rect.rs 60-69. -/
def bland : RectBorderStyle where
  topLeft := ' '
  top := ' '
  topRight := ' '
  bottom := ' '
  bottomRight := ' '
  right := ' '
  bottomLeft := ' '
  left := ' '

end RectBorderStyle

/-- `Rect`, src/rect.rs 76-82. -/
structure Rect where
  area : Area
  colors : CompoundStyle
  fill : Bool
  borderStyle : RectBorderStyle
  deriving DecidableEq, Repr

namespace Rect

/-- `Rect::new`, src/rect.rs 85-92. -/
def new (area : Area) (colors : CompoundStyle) : Rect := { area, colors, fill := false, borderStyle := .bland }

/-- `Rect::set_border_style`, src/rect.rs 93-95. -/
def setBorderStyle (r : Rect) (bs : RectBorderStyle) : Rect := { r with borderStyle := bs }

/-- `Rect::set_fill`, src/rect.rs 96-98. -/
def setFill (r : Rect) (fill : Bool) : Rect := { r with fill }

/-- A horizontal border, src/rect.rs 104-111 and 127-133: both ends, and the middle repeated if the width is more than 2. -/
def border (r : Rect) (y : Nat) (first middle last : Char) : List Cmd :=
  [.moveTo r.area.left y, .print r.colors [first]] ++
    (if r.area.width > 2 then List.replicate (r.area.width - 2) (.print r.colors [middle]) else []) ++
    [.print r.colors [last]]

/-- What is between the left and the right of a row, src/rect.rs 116-122. -/
def inside (r : Rect) (y : Nat) : Run (List Cmd) :=
  if r.fill then
    (if r.area.width > 2 then do
      let chunks ← (Filling.fromChar ' ').queue (r.area.width - 2)
      some (chunks.map (.print r.colors))
    else some [])
  else do
    let x ← u16Add r.area.left r.area.width
    let x ← csub x 1
    some [.moveTo x y]

/-- The loop on the rows, src/rect.rs 113-125; `stop` is `area.top + area.height - 1`. The first argument bounds the number of turns:
reaching it is a failure. -/
def sidesLoop (r : Rect) (stop : Nat) : Nat → Nat → Run (List Cmd)
  | 0, y => if y < stop then none else some []
  | turns + 1, y =>
    if y < stop then do
      let mid ← r.inside y
      let next ← u16Add y 1
      let rest ← sidesLoop r stop turns next
      some ([.moveTo r.area.left y, .print r.colors [r.borderStyle.left]] ++ mid ++ [.print r.colors [r.borderStyle.right]] ++ rest)
    else some []

/-- The rows between the borders, src/rect.rs 113-125. -/
def sides (r : Rect) (stop y : Nat) : Run (List Cmd) := r.sidesLoop stop (stop - y) y

/-- `Rect::draw`, src/rect.rs 99-135. -/
def draw (r : Rect) : Run (List Cmd) := do
  let bs := r.borderStyle
  let y ← u16Add r.area.top 1
  let bottom ← u16Add r.area.top r.area.height
  let stop ← csub bottom 1
  let rows ← r.sides stop y
  let bottom ← r.area.bottom
  let last ← csub bottom 1
  some (r.border r.area.top bs.topLeft bs.top bs.topRight ++ rows ++ r.border last bs.bottomLeft bs.bottom bs.bottomRight)

end Rect
end Verif

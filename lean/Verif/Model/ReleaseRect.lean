import Verif.Model.Rect
import Verif.Model.ReleaseArea
/-! Model of `Rect::draw` in a release build. -/
namespace Verif.Release

/-- What is between the left and the right of a row, src/rect.rs 116-122, release build. -/
def rectInside (r : Rect) (y : Nat) : Run (List Cmd) :=
  if r.fill then
    (if r.area.width > 2 then do
      let chunks ← (Filling.fromChar ' ').queue (r.area.width - 2)
      some (chunks.map (.print r.colors))
    else some [])
  else some [.moveTo (subU16 (addU16 r.area.left r.area.width) 1) y]

/-- The loop on the rows, src/rect.rs 113-125, release build; `stop` is `area.top + area.height - 1`. The first argument bounds the number of turns:
reaching it is a failure. -/
def rectSidesLoop (r : Rect) (stop : Nat) : Nat → Nat → Run (List Cmd)
  | 0, y => if y < stop then none else some []
  | turns + 1, y =>
    if y < stop then do
      let mid ← rectInside r y
      let rest ← rectSidesLoop r stop turns (addU16 y 1)
      some ([.moveTo r.area.left y, .print r.colors [r.borderStyle.left]] ++ mid ++ [.print r.colors [r.borderStyle.right]] ++ rest)
    else some []

/-- `Rect::draw`, src/rect.rs 99-135, release build. -/
def rectDraw (r : Rect) : Run (List Cmd) := do
  let bs := r.borderStyle
  let y := addU16 r.area.top 1
  let stop := subU16 (addU16 r.area.top r.area.height) 1
  let rows ← rectSidesLoop r stop (stop - y) y
  some (r.border r.area.top bs.topLeft bs.top bs.topRight ++ rows ++
    r.border (subU16 (bottom r.area) 1) bs.bottomLeft bs.bottom bs.bottomRight)

end Verif.Release

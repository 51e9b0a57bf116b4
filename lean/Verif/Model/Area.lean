import Verif.Model.Basic
/-! Model of `src/area.rs`. -/
namespace Verif

/-- `Area`, src/area.rs 16-22. Fields are `u16` in the code. -/
structure Area where
  left : Nat
  top : Nat
  width : Nat
  height : Nat
  deriving DecidableEq, Repr

namespace Area

/-- All fields are in the `u16` range (what the Rust type ensures). The types are in src/area.rs 17-22. -/
def WF (a : Area) : Prop :=
  a.left < u16Size ∧ a.top < u16Size ∧ a.width < u16Size ∧ a.height < u16Size

/-- `Area::right`, src/area.rs 63-65. -/
def right (a : Area) : Run Nat := u16Add a.left a.width

/-- `Area::bottom`, src/area.rs 67-69. -/
def bottom (a : Area) : Run Nat := u16Add a.top a.height

/-- `Area::contains`, src/area.rs 72-74. `&&` is lazy, so the additions are evaluated only when reached. -/
def contains (a : Area) (x y : Nat) : Run Bool :=
  if a.left ≤ x then do
    let r ← u16Add a.left a.width
    if x < r then
      if a.top ≤ y then do
        let b ← u16Add a.top a.height
        pure (decide (y < b))
      else pure false
    else pure false
  else pure false

/-- `Area::pad`, src/area.rs 77-83. -/
def pad (a : Area) (dx dy : Nat) : Run Area := do
  let left ← u16Add a.left dx
  let top ← u16Add a.top dy
  let dx2 ← u16Mul 2 dx
  let width ← csub a.width dx2
  let dy2 ← u16Mul 2 dy
  let height ← csub a.height dy2
  pure { left, top, width, height }

/-- `Area::pad_for_max_width`, src/area.rs 86-93. -/
def padForMaxWidth (a : Area) (maxWidth : Nat) : Run Area :=
  if maxWidth ≥ a.width then pure a
  else do
    let pw ← csub a.width maxWidth
    let left ← u16Add a.left (pw / 2)
    let width ← csub a.width pw
    pure { a with left, width }

end Area

/-- `compute_scrollbar`, src/area.rs 117-154, for `U2 = u16` (the drawing type used by `Area`).
The outer `Run` is the panic of the `try_into().unwrap()`s. The multiplication and addition of `usize` are
unbounded; `top + available_height - 2` cannot underflow since `available_height > 3` there, but is checked. -/
def computeScrollbar (scroll contentHeight availableHeight top : Nat) : Run (Option (Nat × Nat)) :=
  if contentHeight ≤ availableHeight then pure none
  else do
    let trackBefore := scroll * availableHeight / contentHeight
    let trackBefore := if trackBefore = 0 ∧ scroll > 0 then 1 else trackBefore
    let thumbHeight := availableHeight * availableHeight / contentHeight
    let scrollbarTop := top + trackBefore
    let scrollbarBottom := scrollbarTop + thumbHeight
    let scrollbarBottom ←
      if scroll + availableHeight < contentHeight ∧ availableHeight > 3 then do
        let m ← csub (top + availableHeight) 2
        pure (max (min scrollbarBottom m) scrollbarTop)
      else pure scrollbarBottom
    let t ← toU16 scrollbarTop
    let b ← toU16 scrollbarBottom
    pure (some (t, b))

/-- `Area::scrollbar`, src/area.rs 99-108. -/
def Area.scrollbar (a : Area) (scroll contentHeight : Nat) : Run (Option (Nat × Nat)) :=
  computeScrollbar scroll contentHeight a.height a.top

end Verif

import Verif.Model.Area
/-! Model of the operations of `src/area.rs` on `u16` in a release build, where they wrap instead of panicking. `compute_scrollbar` operates on `usize`, with no underflow:
its model is the one of the debug build. -/
namespace Verif.Release

/-- `a + b` on `u16` in a release build. Built-in of Rust, not a part of termimad. -/
def addU16 (a b : Nat) : Nat := (a + b) % 65536

/-- `a - b` on `u16` in a release build. Built-in of Rust, not a part of termimad. -/
def subU16 (a b : Nat) : Nat := (a + 65536 - b) % 65536

/-- `a * b` on `u16` in a release build. Built-in of Rust, not a part of termimad. -/
def mulU16 (a b : Nat) : Nat := (a * b) % 65536

/-- `Area::right`, src/area.rs 63-65, release build. -/
def right (a : Area) : Nat := addU16 a.left a.width

/-- `Area::bottom`, src/area.rs 67-69, release build. -/
def bottom (a : Area) : Nat := addU16 a.top a.height

/-- `Area::contains`, src/area.rs 72-74, release build. -/
def contains (a : Area) (x y : Nat) : Bool :=
  a.left ≤ x && x < addU16 a.left a.width && a.top ≤ y && y < addU16 a.top a.height

/-- `Area::pad`, src/area.rs 77-83, release build. -/
def pad (a : Area) (dx dy : Nat) : Area :=
  { left := addU16 a.left dx
    top := addU16 a.top dy
    width := subU16 a.width (mulU16 2 dx)
    height := subU16 a.height (mulU16 2 dy) }

/-- `Area::pad_for_max_width`, src/area.rs 86-93, release build. -/
def padForMaxWidth (a : Area) (maxWidth : Nat) : Area :=
  if maxWidth ≥ a.width then a
  else
    let pw := subU16 a.width maxWidth
    { a with left := addU16 a.left (pw / 2), width := subU16 a.width pw }

end Verif.Release

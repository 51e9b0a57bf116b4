/-!
# Conventions shared by all the model files

* `Run α`: the result of running Rust code which may panic; `none` is a panic (debug build semantics:
  arithmetic overflow, out of bounds index or slice, failed `unwrap`/`expect`, `unreachable!`).
* `usize` is `Nat` with checked subtraction (`csub`); overflow of `usize` additions and multiplications is not
  modelled. `u16` values are `Nat`s below 65536 with checked operations.
* Rust strings are `List Char`; offsets in bytes are used where the code uses them.
-/
namespace Verif

/-- Result of Rust code which may panic (`none`). Not a model of a Rust function. -/
abbrev Run (α : Type u) : Type u := Option α

/-- `a - b` on `usize`, panicking on underflow. Models the built-in operator (debug build). Not a part of termimad. -/
def csub (a b : Nat) : Run Nat := if b ≤ a then some (a - b) else none

/-- Largest `u16` plus one. Built-in of Rust, not a part of termimad. -/
def u16Size : Nat := 65536

/-- `a + b` on `u16`, panicking on overflow. Built-in of Rust, not a part of termimad. -/
def u16Add (a b : Nat) : Run Nat := if a + b < u16Size then some (a + b) else none

/-- `a * b` on `u16`, panicking on overflow. Built-in of Rust, not a part of termimad. -/
def u16Mul (a b : Nat) : Run Nat := if a * b < u16Size then some (a * b) else none

/-- `usize.try_into::<u16>().unwrap()`. Built-in of Rust, not a part of termimad. -/
def toU16 (a : Nat) : Run Nat := if a < u16Size then some a else none

/-- `x as u16` for an unsigned `x`: wraps silently. Built-in of Rust, not a part of termimad. -/
def asU16 (a : Nat) : Nat := a % u16Size

/-- A Rust string, as its characters. Built-in of Rust, not a part of termimad. -/
abbrev Text := List Char

/-- `str::len`: size in bytes. Standard library. -/
def byteLen : Text → Nat
  | [] => 0
  | c :: t => c.utf8Size + byteLen t

/-- `&s[..n]`: panics unless `n` is a character boundary. Standard library. -/
def takeBytes : Text → Nat → Run Text
  | _, 0 => some []
  | [], _ + 1 => none
  | c :: t, n + 1 =>
    if c.utf8Size ≤ n + 1 then (takeBytes t (n + 1 - c.utf8Size)).map (c :: ·) else none

/-- `&s[n..]`: panics unless `n` is a character boundary. Standard library. -/
def dropBytes : Text → Nat → Run Text
  | t, 0 => some t
  | [], _ + 1 => none
  | c :: t, n + 1 => if c.utf8Size ≤ n + 1 then dropBytes t (n + 1 - c.utf8Size) else none

/-- `&s[a..b]`. Standard library. -/
def sliceBytes (t : Text) (a b : Nat) : Run Text :=
  if a ≤ b then (dropBytes t a).bind (fun t' => takeBytes t' (b - a)) else none

/-- `UnicodeWidthStr::width`, taken to be the sum of the widths `cw` of the characters (unicode-width 0.1.11). External crate. -/
def textWidth (cw : Char → Nat) : Text → Nat
  | [] => 0
  | c :: t => cw c + textWidth cw t

/-- Insert `x` before the first `y` such that `le x y`.
A step of the stable sort of the standard library (`sort_by`), as used in src/fit/tbl_fit.rs and src/views/list_view.rs. -/
def insertBy (le : α → α → Bool) (x : α) : List α → List α
  | [] => [x]
  | y :: ys => if le x y then x :: y :: ys else y :: insertBy le x ys

/-- A stable sort, for `slice::sort_by`, `sort_by_key` (documented as stable in the standard library).
Any stable sort gives the same result. -/
def sortBy (le : α → α → Bool) : List α → List α
  | [] => []
  | x :: xs => insertBy le x (sortBy le xs)

/-- `minimad::Alignment`. External crate. -/
inductive Alignment
  | unspecified | left | center | right
  deriving DecidableEq, Repr

/-- The four style flags of a `minimad::Compound`. External crate. -/
structure Flags where
  bold : Bool := false
  italic : Bool := false
  code : Bool := false
  strikeout : Bool := false
  deriving DecidableEq, Repr

/-- `minimad::Compound`: a text with a style. External crate. -/
structure Compound where
  src : Text
  flags : Flags := {}
  deriving DecidableEq, Repr

/-- `Compound::raw_str`. External crate. -/
def Compound.raw (t : Text) : Compound := { src := t }

/-- Equality of Rust `Result`s, to evaluate examples. -/
instance exceptDecEq [DecidableEq ε] [DecidableEq α] : DecidableEq (Except ε α)
  | .ok a, .ok b => if h : a = b then isTrue (by rw [h]) else isFalse (by intro h'; cases h'; exact h rfl)
  | .error a, .error b => if h : a = b then isTrue (by rw [h]) else isFalse (by intro h'; cases h'; exact h rfl)
  | .ok _, .error _ => isFalse (by intro h; cases h)
  | .error _, .ok _ => isFalse (by intro h; cases h)

end Verif

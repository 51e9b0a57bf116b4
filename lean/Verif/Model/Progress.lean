import Verif.Model.FmtText
/-! Model of `src/views/progress.rs`. -/
namespace Verif

/-- `CHARS`, src/views/progress.rs 4. -/
def progressChars : List Char := ['▏', '▎', '▍', '▌', '▋', '▊', '▉', '█']

/-- The integer part of a number (`as usize` and `f32::fract` truncate toward 0). Used in src/views/progress.rs 25 and 29. -/
def ratTrunc (x : Rat) : Int := if x < 0 then -(-x).floor else x.floor

/-- `f32::fract`, which is exact. Used in src/views/progress.rs 29. -/
def ratFract (x : Rat) : Rat := x - ratTrunc x

/-- `f32::round`, half away from 0. Used in src/views/progress.rs 29. -/
def ratRound (x : Rat) : Int := if x < 0 then -(-x + 1 / 2).floor else (x + 1 / 2).floor

/-- `as usize` of an integral number: negative numbers give 0, numbers too large give the greatest one. Used in src/views/progress.rs 25 and 29. -/
def intToUsize (x : Int) : Nat := min x.toNat usizeMax

/-- `ProgressBar`, src/views/progress.rs 7-10. The part is a rational: NaN and the infinites are not modelled. -/
structure ProgressBar where
  part : Rat
  charsLen : Nat

namespace ProgressBar

/-- `mp`, src/views/progress.rs 24. `rnd` is the rounding of the exact result of an operation to a f32. -/
def mp (rnd : Rat → Rat) (p : ProgressBar) : Rat := rnd (rnd (p.charsLen : Rat) * p.part)

/-- `fmt`, src/views/progress.rs 22-34: the string before it is padded. The multiplication by 8 is exact in f32. -/
def render (rnd : Rat → Rat) (p : ProgressBar) : Run Text :=
  let mp := p.mp rnd
  let full := intToUsize (ratTrunc mp)
  let remain := intToUsize (ratRound (ratFract mp * 8))
  if remain > 0 then do
    let c ← progressChars[remain - 1]?
    some (List.replicate full '█' ++ [c])
  else some (List.replicate full '█')

/-- The parameters of a format, as in `{:>8.3}` (external). -/
structure FormatSpec where
  fill : Char := ' '
  align : Alignment := .unspecified
  width : Option Nat := none
  precision : Option Nat := none

/-- `Formatter::pad` (external): characters beyond the precision are removed, then the width is reached with filling characters, on the
right if no alignment is asked. -/
def FormatSpec.pad (f : FormatSpec) (s : Text) : Text :=
  let s := match f.precision with
    | some n => s.take n
    | none => s
  let missing := f.width.getD 0 - s.length
  match f.align with
  | .right => List.replicate missing f.fill ++ s
  | .center => List.replicate (missing / 2) f.fill ++ s ++ List.replicate (missing - missing / 2) f.fill
  | _ => s ++ List.replicate missing f.fill

/-- `fmt`, src/views/progress.rs 22-34. -/
def display (rnd : Rat → Rat) (f : FormatSpec) (p : ProgressBar) : Run Text := (p.render rnd).map f.pad

end ProgressBar
end Verif

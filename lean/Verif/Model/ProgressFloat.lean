import Verif.Model.Progress
import Verif.Model.Float
/-! Model of `src/views/progress.rs` on all the values of `f32`, NaN and the infinites included. -/
namespace Verif

namespace Flt

/-- `as usize` (external): truncated toward 0, saturated, 0 for NaN. -/
def toUsize : Flt → Nat
  | .nan | .negInf => 0
  | .inf => usizeMax
  | .fin x => intToUsize (ratTrunc x)

/-- `f32::fract` (external), that is `x - x.trunc()`, which is NaN for an infinite. -/
def fract : Flt → Flt
  | .fin x => .fin (ratFract x)
  | _ => .nan

/-- The product by 8, which is exact for a fractional part. See src/views/progress.rs 29. -/
def times8 : Flt → Flt
  | .fin x => .fin (x * 8)
  | y => y

/-- `f32::round` (external). -/
def round : Flt → Flt
  | .fin x => .fin (ratRound x)
  | y => y

end Flt

/-- `ProgressBar`, src/views/progress.rs 7-10. -/
structure ProgressBarF where
  part : Flt
  charsLen : Nat

/-- `fmt`, src/views/progress.rs 22-34: the string before it is padded, with any part. -/
def ProgressBarF.render (rnd : Rat → Flt) (p : ProgressBarF) : Run Text :=
  let mp := Flt.mul rnd (rnd p.charsLen) p.part
  let full := mp.toUsize
  let remain := mp.fract.times8.round.toUsize
  if remain > 0 then do
    let c ← progressChars[remain - 1]?
    some (List.replicate full '█' ++ [c])
  else some (List.replicate full '█')

end Verif

import Verif.Model.Basic
/-! Model of `src/fit/tbl_fit.rs`. -/
namespace Verif

/-- `div_ceil`, src/fit/tbl_fit.rs 181-187; panics on a zero divisor. -/
def divCeil (q r : Nat) : Run Nat :=
  if r = 0 then none
  else some (if q % r ≠ 0 then q / r + 1 else q / r)

/-- `ColData` and its default, src/fit/tbl_fit.rs 15-29. -/
structure ColData where
  sumWidths : Nat := 0
  width : Nat := 3
  count : Nat := 0
  deriving DecidableEq, Repr

namespace ColData

/-- `ColData::avg_width`, src/fit/tbl_fit.rs 32-38. -/
def avgWidth (c : ColData) : Run Nat :=
  if c.count = 0 then pure 0 else divCeil c.sumWidths c.count

/-- `ColData::see_cell`, src/fit/tbl_fit.rs 39-43. -/
def seeCell (c : ColData) (w : Nat) : ColData :=
  { sumWidths := c.sumWidths + w, width := max c.width w, count := c.count + 1 }

end ColData

/-- `TblFit`, src/fit/tbl_fit.rs 8-11. -/
structure TblFit where
  cols : List ColData
  availableSumWidth : Nat
  deriving DecidableEq, Repr

/-- `TblFitResult`, src/fit/tbl_fit.rs 47-54. -/
structure TblFitResult where
  reduced : Bool
  colWidths : List Nat
  deriving DecidableEq, Repr

/-- `ColFit`, src/fit/tbl_fit.rs 99-104. -/
structure ColFit where
  idx : Nat
  stdWidth : Nat
  avgWidth : Nat
  width : Nat
  deriving DecidableEq, Repr

namespace TblFit

/-- `TblFit::new`, src/fit/tbl_fit.rs 61-71. The inner `Option` is `None` for `Err(InsufficientWidthError)`. -/
def new (colsCount availableWidth : Nat) : Run (Option TblFit) :=
  if availableWidth < colsCount * 4 + 1 then pure none
  else do
    let a ← csub availableWidth 1
    let s ← csub a colsCount
    pure (some { cols := List.replicate colsCount {}, availableSumWidth := s })

/-- `TblFit::see_cell`, src/fit/tbl_fit.rs 72-76. -/
def seeCell (f : TblFit) (col w : Nat) : TblFit :=
  { f with cols := f.cols.modify col (·.seeCell w) }

/-- The building of the `ColFit`s, src/fit/tbl_fit.rs 105-115. -/
def makeFits : List ColData → (idx : Nat) → Run (List ColFit)
  | [], _ => pure []
  | c :: cs, idx => do
    let avg ← c.avgWidth
    let rest ← makeFits cs (idx + 1)
    pure ({ idx, stdWidth := c.width, avgWidth := avg, width := c.width } :: rest)

/-- `potential_uncut_gain_1`, src/fit/tbl_fit.rs 130-134. -/
def potentialUncutGain1 : List ColFit → Run Nat
  | [] => pure 0
  | c :: cs => do
    let rest ← potentialUncutGain1 cs
    if c.width > 4 ∧ c.width > c.avgWidth + 1 then do
      let d ← csub c.width c.avgWidth
      pure (min d 4 + rest)
    else pure rest

/-- The loop of step 1, src/fit/tbl_fit.rs 137-150. -/
def step1 (cut uncut : Nat) : List ColFit → (excess : Nat) → Run (List ColFit × Nat)
  | [], e => pure ([], e)
  | c :: cs, e =>
    if c.stdWidth > 4 ∧ c.stdWidth > c.avgWidth then do
      let d ← csub c.width c.avgWidth
      let g ← divCeil (d * cut) uncut
      let w4 ← csub c.width 4
      let g := min (min g e) w4
      let w ← csub c.width g
      let e ← csub e g
      if e = 0 then pure ({ c with width := w } :: cs, 0)
      else do
        let (cs, e) ← step1 cut uncut cs e
        pure ({ c with width := w } :: cs, e)
    else do
      let (cs, e) ← step1 cut uncut cs e
      pure (c :: cs, e)

/-- `fits.iter().map(|c| c.width - 3).sum()`, src/fit/tbl_fit.rs 157. -/
def sumOver3 : List ColFit → Run Nat
  | [] => pure 0
  | c :: cs => do
    let d ← csub c.width 3
    let rest ← sumOver3 cs
    pure (d + rest)

/-- The loop of step 2, src/fit/tbl_fit.rs 159-167. -/
def step2 (before pot : Nat) : List ColFit → (excess : Nat) → Run (List ColFit × Nat)
  | [], e => pure ([], e)
  | c :: cs, e => do
    let d ← csub c.width 3
    let g ← divCeil (d * before) pot
    let g := min (min g e) d
    let w ← csub c.width g
    let e ← csub e g
    if e = 0 then pure ({ c with width := w } :: cs, 0)
    else do
      let (cs, e) ← step2 before pot cs e
      pure ({ c with width := w } :: cs, e)

/-- Step 1, src/fit/tbl_fit.rs 130-151. -/
def doStep1 (fits : List ColFit) (excess : Nat) : Run (List ColFit × Nat) := do
  let uncut ← potentialUncutGain1 fits
  let cut := min uncut excess
  if cut > 0 then step1 cut uncut fits excess else pure (fits, excess)

/-- Step 2, src/fit/tbl_fit.rs 155-168. -/
def doStep2 (fits : List ColFit) (excess : Nat) : Run (List ColFit × Nat) :=
  if excess > 0 then do
    let s ← sumOver3 fits
    step2 excess (min s excess) fits excess
  else pure (fits, excess)

/-- `TblFit::fit`, src/fit/tbl_fit.rs 78-177. `sort_by_key` is a stable sort. The redundant test of
lines 117-122 cannot succeed after the one of line 80 but is kept. -/
def fit (f : TblFit) : Run TblFitResult :=
  let natural := f.cols.map (·.width)
  let sumWidths := natural.sum
  if sumWidths ≤ f.availableSumWidth then pure { reduced := false, colWidths := natural }
  else if f.cols.length = 0 then pure { reduced := false, colWidths := [] }
  else if f.cols.length = 1 then pure { reduced := false, colWidths := [f.availableSumWidth] }
  else do
    let fits ← makeFits f.cols 0
    if f.availableSumWidth ≥ sumWidths then pure { reduced := false, colWidths := natural }
    else do
      let excess ← csub sumWidths f.availableSumWidth
      let p1 ← doStep1 (sortBy (fun a b => decide (b.width ≤ a.width)) fits) excess
      let p2 ← doStep2 p1.1 p1.2
      pure { reduced := true, colWidths := (sortBy (fun a b => decide (a.idx ≤ b.idx)) p2.1).map (·.width) }

/-- Seeing a list of cells, given as (column, width). The loop is in src/tbl.rs 96-105. -/
def seeCells (f : TblFit) (cells : List (Nat × Nat)) : TblFit :=
  cells.foldl (fun f c => f.seeCell c.1 c.2) f

end TblFit
end Verif

import Verif.Model.Fitter
import Verif.Model.Release
/-! Model of `src/fit/composite_fit.rs` in a release build: the subtraction of the ellipsis from the removed width (line 182) wraps instead of panicking. Only the
functions which are different from those of the debug build are here. -/
namespace Verif.Release

/-- `Zone::cut`, src/fit/composite_fit.rs 145-183, release build: the last subtraction wraps. -/
def cut (cw : Char → Nat) (z : Zone) (cs : List Compound) (toRemove : Nat) : Run (List Compound × Nat) :=
  if z.removableWidth < 2 then some (cs, 0)
  else do
    let c ← cs[z.compoundIdx]?
    let len := z.infos.length
    let p ← cutLoop cw c.src z toRemove (len + 1) (len / 2) (len / 2) 0
    let a ← z.infos[p.1]?
    let b ← z.infos[p.2.1]?
    let head ← takeBytes c.src (z.byteStart + a.byteIdx)
    let tail ← dropBytes c.src (z.byteStart + b.byteIdx)
    some (cs.take z.compoundIdx ++
      ({ c with src := head } :: Compound.raw ellipsisText :: { c with src := tail } :: cs.drop (z.compoundIdx + 1)), wsub p.2.2 1)

/-- An elision loop, src/fit/composite_fit.rs 224-233 and 238-249, release build. The first argument is a bound on the number of turns (the excess is enough since it
decreases; the exhaustion would be reported as a panic). -/
def elideLoop (cw : Char → Nat) (zones : List Compound → Run (List Zone)) : Nat → Nat → List Compound → Run (List Compound × Nat)
  | _, 0, cs => some (cs, 0)
  | 0, _ + 1, _ => none
  | fuel + 1, excess + 1, cs => do
    let zs ← zones cs
    match biggestZone zs with
    | none => some (cs, excess + 1)
    | some z => do
      let r ← cut cw z cs (excess + 2)
      if r.2 = 0 then some (r.1, excess + 1)
      else elideLoop cw zones fuel (excess + 1 - min r.2 (excess + 1)) r.1

/-- The elision of tokens, src/fit/composite_fit.rs 222-234, release build. -/
def elideTokens (cw : Char → Nat) (ws : Char → Bool) (f : Fitter) (excess : Nat) (cs : List Compound) : Run (List Compound × Nat) :=
  if f.midToken then elideLoop cw (tokenZones cw ws 3 0) excess excess cs else some (cs, excess)

/-- The elision of compounds, src/fit/composite_fit.rs 236-250, release build. -/
def elideCompounds (cw : Char → Nat) (f : Fitter) (excess : Nat) (cs : List Compound) : Run (List Compound × Nat) :=
  if f.midCompound then elideLoop cw (compoundZones cw 2 0) excess excess cs else some (cs, excess)

/-- `Fitter::fit`, src/fit/composite_fit.rs 202-331, release build. -/
def fit (cw : Char → Nat) (ws : Char → Bool) (f : Fitter) (fc : FmtComposite) (maxWidth : Nat) (skin : Skin) : Run FmtComposite :=
  if fc.visibleLength ≤ maxWidth then some fc
  else if maxWidth = 0 then some { fc with compounds := [], visibleLength := 0 }
  else if maxWidth = 1 then some { fc with compounds := [Compound.raw ellipsisText], visibleLength := 1 }
  else do
    let r1 ← elideTokens cw ws f (fc.visibleLength - maxWidth) fc.compounds
    let r2 ← elideCompounds cw f r1.2 r1.1
    let cs ← f.truncate cw r2.2 r2.1
    some (FmtComposite.recomputeWidth skin cw { fc with compounds := cs })

/-- `FmtComposite::fit_width`, src/composite.rs 78-80, release build. -/
def fitWidth (cw : Char → Nat) (ws : Char → Bool) (fc : FmtComposite) (width : Nat) (align : Alignment) (skin : Skin) : Run FmtComposite :=
  fit cw ws (Fitter.forAlign align) fc width skin

end Verif.Release

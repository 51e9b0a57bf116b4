import Verif.Model.Composite
/-! Model of `src/fit/composite_fit.rs`, and of `FmtComposite::fit_width` and `fill_width`. `cw` is the width of a character,
`ws` is `char::is_whitespace`. -/
namespace Verif

/-- `ELLIPSIS`, src/fit/composite_fit.rs 10. -/
def ellipsisText : Text := ['…']

/-- `CharInfo`, src/fit/composite_fit.rs 37-41. -/
structure CharInfo where
  byteIdx : Nat
  width : Nat
  deriving DecidableEq, Repr

/-- `str_char_infos`, src/fit/composite_fit.rs 42-49, from a given byte index. -/
def charInfosFrom (cw : Char → Nat) : Nat → Text → List CharInfo
  | _, [] => []
  | idx, c :: t => ⟨idx, cw c⟩ :: charInfosFrom cw (idx + c.utf8Size) t

/-- `str_char_infos`, src/fit/composite_fit.rs 42-49. -/
def charInfos (cw : Char → Nat) (s : Text) : List CharInfo := charInfosFrom cw 0 s

/-- `Zone`, src/fit/composite_fit.rs 52-57. -/
structure Zone where
  compoundIdx : Nat
  byteStart : Nat
  infos : List CharInfo
  removableWidth : Nat
  deriving DecidableEq, Repr

/-- The test and building of a token zone, src/fit/composite_fit.rs 70-82 and 91-103. `start ≤ stop` always holds there. -/
def tokenZone (cw : Char → Nat) (s : Text) (minW idx start stop : Nat) : Run (List Zone) :=
  if stop - start ≥ minW + 2 then do
    let zs ← sliceBytes s start stop
    some (if textWidth cw zs ≥ minW then [⟨idx, start, charInfos cw zs, textWidth cw zs⟩] else [])
  else some []

/-- The loop on the characters of a compound, src/fit/composite_fit.rs 66-104: `pos` is the byte index of the
remaining text, `st` the variable `byte_start`. -/
def tokenZonesLoop (cw : Char → Nat) (ws : Char → Bool) (s : Text) (minW idx : Nat) :
    Nat → Option Nat → Text → Run (List Zone)
  | _, none, [] => some []
  | _, some start, [] => tokenZone cw s minW idx start (byteLen s)
  | pos, none, c :: rest =>
    tokenZonesLoop cw ws s minW idx (pos + c.utf8Size) (if ws c then none else some pos) rest
  | pos, some start, c :: rest =>
    if ws c then do
      let z ← tokenZone cw s minW idx start pos
      let zs ← tokenZonesLoop cw ws s minW idx (pos + c.utf8Size) none rest
      some (z ++ zs)
    else tokenZonesLoop cw ws s minW idx (pos + c.utf8Size) (some start) rest

/-- The token zones of a compound, src/fit/composite_fit.rs 62-104. -/
def compoundTokenZones (cw : Char → Nat) (ws : Char → Bool) (minW idx : Nat) (s : Text) : Run (List Zone) :=
  if byteLen s < minW + 2 then some []
  else tokenZonesLoop cw ws s minW idx 0 none s

/-- `Zone::token`, src/fit/composite_fit.rs 59-107. `idx` is the index of the first compound. -/
def tokenZones (cw : Char → Nat) (ws : Char → Bool) (minW : Nat) : Nat → List Compound → Run (List Zone)
  | _, [] => some []
  | idx, c :: cs => do
    let z ← compoundTokenZones cw ws minW idx c.src
    let zs ← tokenZones cw ws minW (idx + 1) cs
    some (z ++ zs)

/-- `max_by_key` on the removable width, src/fit/composite_fit.rs 111 and 142: the last of the biggest ones. -/
def biggestZone (zs : List Zone) : Option Zone :=
  zs.foldl (fun acc z =>
    match acc with
    | none => some z
    | some m => if m.removableWidth ≤ z.removableWidth then some z else some m) none

/-- The body of `Zone::compounds`, src/fit/composite_fit.rs 118-136. -/
def compoundZone (cw : Char → Nat) (minW idx : Nat) (s : Text) : Run (Option Zone) :=
  let infos := charInfos cw s
  if infos.length < 2 + minW then some none
  else do
    let a ← infos[1]?
    let l ← csub infos.length 1
    let b ← infos[l]?
    let removable ← sliceBytes s a.byteIdx b.byteIdx
    some (if textWidth cw removable < minW then none else some ⟨idx, 0, infos, textWidth cw removable⟩)

/-- `Zone::compounds`, src/fit/composite_fit.rs 114-138. -/
def compoundZones (cw : Char → Nat) (minW : Nat) : Nat → List Compound → Run (List Zone)
  | _, [] => some []
  | idx, c :: cs => do
    let z ← compoundZone cw minW idx c.src
    let zs ← compoundZones cw minW (idx + 1) cs
    some (z.toList ++ zs)

/-- The width removed between two characters of a zone, src/fit/composite_fit.rs 167-169. -/
def removedWidth (cw : Char → Nat) (s : Text) (z : Zone) (start stop : Nat) : Run Nat := do
  let a ← z.infos[start]?
  let b ← z.infos[stop]?
  let removed ← sliceBytes s (z.byteStart + a.byteIdx) (z.byteStart + b.byteIdx)
  some (textWidth cw removed)

/-- The loop of `Zone::cut`, src/fit/composite_fit.rs 154-173. The first argument is a bound on the number of turns (the
length of the zone is enough, and the exhaustion would be reported as a panic). -/
def cutLoop (cw : Char → Nat) (s : Text) (z : Zone) (toRemove : Nat) : Nat → Nat → Nat → Nat → Run (Nat × Nat × Nat)
  | 0, _, _, _ => none
  | fuel + 1, start, stop, removed =>
    if (stop - start) % 2 = 0 then
      if stop + 1 ≥ z.infos.length then some (start, stop, removed)
      else do
        let r ← removedWidth cw s z start (stop + 1)
        if r ≥ toRemove then some (start, stop + 1, r) else cutLoop cw s z toRemove fuel start (stop + 1) r
    else
      if start ≤ 1 then some (start, stop, removed)
      else do
        let r ← removedWidth cw s z (start - 1) stop
        if r ≥ toRemove then some (start - 1, stop, r) else cutLoop cw s z toRemove fuel (start - 1) stop r

/-- `Zone::cut`, src/fit/composite_fit.rs 145-183: the compounds and the gain. `Compound::sub` and `Compound::tail` (of
the minimad crate) take a part of the text with the same style. -/
def Zone.cut (cw : Char → Nat) (z : Zone) (cs : List Compound) (toRemove : Nat) : Run (List Compound × Nat) :=
  if z.removableWidth < 2 then some (cs, 0)
  else do
    let c ← cs[z.compoundIdx]?
    let len := z.infos.length
    let p ← cutLoop cw c.src z toRemove (len + 1) (len / 2) (len / 2) 0
    let a ← z.infos[p.1]?
    let b ← z.infos[p.2.1]?
    let head ← takeBytes c.src (z.byteStart + a.byteIdx)
    let tail ← dropBytes c.src (z.byteStart + b.byteIdx)
    let gain ← csub p.2.2 1
    some (cs.take z.compoundIdx ++
      ({ c with src := head } :: Compound.raw ellipsisText :: { c with src := tail } :: cs.drop (z.compoundIdx + 1)), gain)

/-- `Fitter`, src/fit/composite_fit.rs 16-25. -/
structure Fitter where
  midToken : Bool := true
  midCompound : Bool := true
  align : Alignment := .unspecified
  deriving DecidableEq, Repr

/-- `Fitter::for_align`, src/fit/composite_fit.rs 191-198. -/
def Fitter.forAlign (align : Alignment) : Fitter :=
  { midToken := align = .unspecified, midCompound := align = .unspecified, align }

/-- An elision loop, src/fit/composite_fit.rs 224-233 and 238-249: `zones` finds the zones. The first argument is a
bound on the number of turns (the excess is enough since it decreases; the exhaustion would be reported as a panic). -/
def elideLoop (cw : Char → Nat) (zones : List Compound → Run (List Zone)) :
    Nat → Nat → List Compound → Run (List Compound × Nat)
  | _, 0, cs => some (cs, 0)
  | 0, _ + 1, _ => none
  | fuel + 1, excess + 1, cs => do
    let zs ← zones cs
    match biggestZone zs with
    | none => some (cs, excess + 1)
    | some z => do
      let r ← z.cut cw cs (excess + 2)
      if r.2 = 0 then some (r.1, excess + 1)
      else elideLoop cw zones fuel (excess + 1 - min r.2 (excess + 1)) r.1

/-- The inner loop of the left truncation, src/fit/composite_fit.rs 281-288: index of the last removed character and
removed width. Panics if there's no character. -/
def leftLoop (excess : Nat) : Nat → Nat → List CharInfo → Run (Nat × Nat)
  | _, _, [] => none
  | idx, removed, ci :: rest =>
    if removed + ci.width ≥ excess ∨ rest.length = 0 then some (idx, removed + ci.width)
    else leftLoop excess (idx + 1) (removed + ci.width) rest

/-- The loop of the left truncation, src/fit/composite_fit.rs 276-298. -/
def leftTrunc (cw : Char → Nat) : Nat → List Compound → Run (List Compound)
  | 0, cs => some cs
  | _ + 1, [] => some []
  | excess + 1, c :: cs => do
    let infos := charInfos cw c.src
    let p ← leftLoop (excess + 1) 0 0 infos
    if p.1 + 1 = infos.length then leftTrunc cw (excess + 1 - min p.2 (excess + 1)) cs
    else do
      let ci ← infos[p.1 + 1]?
      let src ← dropBytes c.src ci.byteIdx
      some ({ c with src } :: cs)

/-- The inner loop of the right truncation, src/fit/composite_fit.rs 310-316, on the reversed list of characters: byte
index of the cut and removed width. -/
def rightLoop (excess : Nat) : Nat → Nat → List CharInfo → Nat × Nat
  | stop, removed, [] => (stop, removed)
  | _, removed, ci :: rest =>
    if removed + ci.width ≥ excess then (ci.byteIdx, removed + ci.width)
    else rightLoop excess ci.byteIdx (removed + ci.width) rest

/-- The loop of the right truncation, src/fit/composite_fit.rs 304-326, on the reversed list of compounds. -/
def rightTruncRev (cw : Char → Nat) : Nat → List Compound → Run (List Compound)
  | 0, cs => some cs
  | _ + 1, [] => some []
  | excess + 1, c :: cs =>
    let p := rightLoop (excess + 1) (byteLen c.src) 0 (charInfos cw c.src).reverse
    if p.1 = 0 then rightTruncRev cw (excess + 1 - min p.2 (excess + 1)) cs
    else do
      let src ← takeBytes c.src p.1
      some ({ c with src } :: cs)

/-- The left truncation, src/fit/composite_fit.rs 274-300. -/
def truncateLeft (cw : Char → Nat) (excess : Nat) (cs : List Compound) : Run (List Compound) :=
  if excess > 0 then (leftTrunc cw excess cs).map (Compound.raw ellipsisText :: ·) else some cs

/-- The right truncation, src/fit/composite_fit.rs 302-328. -/
def truncateRight (cw : Char → Nat) (excess : Nat) (cs : List Compound) : Run (List Compound) :=
  if excess > 0 then (rightTruncRev cw excess cs.reverse).map (fun r => r.reverse ++ [Compound.raw ellipsisText])
  else some cs

/-- The excess for each side, src/fit/composite_fit.rs 260-272. -/
def Fitter.excesses (f : Fitter) (excess : Nat) : Nat × Nat :=
  match f.align with
  | .right => (excess + 1, 0)
  | .left | .unspecified => (0, excess + 1)
  | .center => if excess / 2 > 0 then (excess / 2 + 1, excess - excess / 2 + 1) else (0, excess - excess / 2 + 1)

/-- The truncations, src/fit/composite_fit.rs 257-330. -/
def Fitter.truncate (cw : Char → Nat) (f : Fitter) (excess : Nat) (cs : List Compound) : Run (List Compound) :=
  if excess = 0 then some cs
  else do
    let l ← truncateLeft cw (f.excesses excess).1 cs
    truncateRight cw (f.excesses excess).2 l

/-- The elision of tokens, src/fit/composite_fit.rs 222-234. -/
def Fitter.elideTokens (cw : Char → Nat) (ws : Char → Bool) (f : Fitter) (excess : Nat) (cs : List Compound) :
    Run (List Compound × Nat) :=
  if f.midToken then elideLoop cw (tokenZones cw ws 3 0) excess excess cs else some (cs, excess)

/-- The elision of compounds, src/fit/composite_fit.rs 236-250. -/
def Fitter.elideCompounds (cw : Char → Nat) (f : Fitter) (excess : Nat) (cs : List Compound) :
    Run (List Compound × Nat) :=
  if f.midCompound then elideLoop cw (compoundZones cw 2 0) excess excess cs else some (cs, excess)

/-- `Fitter::fit`, src/fit/composite_fit.rs 202-331. -/
def Fitter.fit (cw : Char → Nat) (ws : Char → Bool) (f : Fitter) (fc : FmtComposite) (maxWidth : Nat) (skin : Skin) :
    Run FmtComposite :=
  if fc.visibleLength ≤ maxWidth then some fc
  else if maxWidth = 0 then some { fc with compounds := [], visibleLength := 0 }
  else if maxWidth = 1 then some { fc with compounds := [Compound.raw ellipsisText], visibleLength := 1 }
  else do
    let r1 ← f.elideTokens cw ws (fc.visibleLength - maxWidth) fc.compounds
    let r2 ← f.elideCompounds cw r1.2 r1.1
    let cs ← f.truncate cw r2.2 r2.1
    some (FmtComposite.recomputeWidth skin cw { fc with compounds := cs })

/-- `FmtComposite::fit_width`, src/composite.rs 78-80. -/
def FmtComposite.fitWidth (cw : Char → Nat) (ws : Char → Bool) (fc : FmtComposite) (width : Nat) (align : Alignment)
    (skin : Skin) : Run FmtComposite :=
  (Fitter.forAlign align).fit cw ws fc width skin

/-- `FmtComposite::fill_width`, src/composite.rs 97-100. -/
def FmtComposite.fillWidth (cw : Char → Nat) (ws : Char → Bool) (fc : FmtComposite) (width : Nat) (align : Alignment)
    (skin : Skin) : Run FmtComposite :=
  (fc.fitWidth cw ws width align skin).map fun fc => fc.extendWidth width align

end Verif

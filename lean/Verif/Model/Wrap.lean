import Verif.Model.Composite
/-! Model of `src/tokens.rs` and `src/fit/wrap.rs`.

`cw` is the width of a character (`UnicodeWidthChar::width().unwrap_or(0)`), `ws` is `char::is_whitespace`. -/
namespace Verif

/-- `Token`, src/tokens.rs 8-14. -/
structure Token where
  compound : Compound
  blank : Bool
  width : Nat
  start : Nat
  stop : Nat
  deriving DecidableEq, Repr

/-- `Token::to_compound`, src/tokens.rs 17-21: panics if the range isn't on character boundaries. -/
def Token.toCompound (t : Token) : Run Compound :=
  (sliceBytes t.compound.src t.start t.stop).map fun s => { t.compound with src := s }

/-- The loop over the characters of a compound in `tokenize`, src/tokens.rs 32-56: `idx` is the byte index, `cur`
is the `token` variable. -/
def tokenizeLoop (cw : Char → Nat) (ws : Char → Bool) (c : Compound) (max : Nat) :
    Nat → Option Token → Text → List Token
  | _, none, [] => []
  | _, some t, [] => [t]
  | idx, none, ch :: rest =>
    tokenizeLoop cw ws c max (idx + ch.utf8Size)
      (some ⟨c, ws ch && !c.flags.code, cw ch, idx, idx + ch.utf8Size⟩) rest
  | idx, some t, ch :: rest =>
    if t.blank = (ws ch && !c.flags.code) ∧ t.width + cw ch ≤ max then
      tokenizeLoop cw ws c max (idx + ch.utf8Size)
        (some { t with width := t.width + cw ch, stop := t.stop + ch.utf8Size }) rest
    else
      t :: tokenizeLoop cw ws c max (idx + ch.utf8Size)
        (some ⟨c, ws ch && !c.flags.code, cw ch, idx, idx + ch.utf8Size⟩) rest

/-- `tokenize`, src/tokens.rs 26-59. -/
def tokenize (cw : Char → Nat) (ws : Char → Bool) (cs : List Compound) (max : Nat) : List Token :=
  cs.flatMap fun c => tokenizeLoop cw ws c max 0 none c.src

/-- The kind of `follow_up_composite`, src/fit/wrap.rs 12-15. -/
def followUpKind : Kind → Kind
  | .listItem l => .listItemFollowUp l
  | k => k

/-- The initial visible length of `follow_up_composite`, src/fit/wrap.rs 16-24. -/
def followUpLength (mode : IndentMode) : Kind → Nat
  | .listItemFollowUp l =>
    match mode with
    | .block => 2 + l
    | .firstLineOnly => 0
  | .quote => 2
  | _ => 0

/-- `follow_up_composite`, src/fit/wrap.rs 11-31. -/
def followUpComposite (skin : Skin) (fc : FmtComposite) : FmtComposite :=
  { kind := followUpKind fc.kind
    compounds := []
    visibleLength := followUpLength skin.indentMode (followUpKind fc.kind)
    spacing := fc.spacing }

/-- `composite_kind_widths`, src/fit/wrap.rs 35-56. -/
def compositeKindWidths (skin : Skin) : Kind → Nat × Nat
  | .paragraph => (0, 0)
  | .header _ => (0, 0)
  | .listItem depth =>
    match skin.indentMode with
    | .firstLineOnly => (2 + depth, 0)
    | .block => (2 + depth, 2 + depth)
  | .listItemFollowUp depth =>
    match skin.indentMode with
    | .firstLineOnly => (0, 0)
    | .block => (2 + depth, 2 + depth)
  | .code => (0, 0)
  | .quote => (2, 2)

/-- `InsufficientWidthError`, src/fit/fit_error.rs. -/
structure InsufficientWidth where
  available : Nat
  deriving DecidableEq, Repr

/-- The test of strategy 1, src/fit/wrap.rs 85-96. When it holds, the result is the pair of the first and last
compounds. -/
def cleanCut (cw : Char → Nat) (ws : Char → Bool) (first other width : Nat) :
    List Compound → Option (Compound × Compound)
  | [a, b] =>
    if textWidth cw a.src + first ≤ width ∧ textWidth cw b.src + other ≤ width then some (a, b) else none
  | [a, m, b] =>
    if textWidth cw a.src + first ≤ width ∧ textWidth cw b.src + other ≤ width ∧ m.src.all ws = true then
      some (a, b)
    else none
  | _ => none

/-- The loop of strategy 2, src/fit/wrap.rs 108-122: `dst` is the composite being filled. -/
def wrapTokens (cw : Char → Nat) (skin : Skin) (width : Nat) : FmtComposite → List Token → Run (List FmtComposite)
  | dst, [] => some [dst]
  | dst, t :: ts =>
    if dst.visibleLength + t.width > width then
      if t.blank = false then do
        let c ← t.toCompound
        let rest ← wrapTokens cw skin width ((followUpComposite skin dst).addCompound cw c) ts
        some (dst :: rest)
      else wrapTokens cw skin width dst ts
    else do
      let c ← t.toCompound
      wrapTokens cw skin width (dst.addCompound cw c) ts

/-- `hard_wrap_composite`, src/fit/wrap.rs 61-124. The `debug_assert` of line 71 and the subtraction of line 105
panic (debug build). -/
def hardWrapComposite (cw : Char → Nat) (ws : Char → Bool) (skin : Skin) (src : FmtComposite) (width : Nat) :
    Run (Except InsufficientWidth (List FmtComposite)) :=
  if width < 3 then some (.error ⟨width⟩)
  else if ¬ src.visibleLength > width then none
  else
    let ws12 := compositeKindWidths skin src.kind
    let dst : FmtComposite :=
      { kind := src.kind, compounds := [], visibleLength := ws12.1, spacing := src.spacing }
    match cleanCut cw ws ws12.1 ws12.2 width src.compounds with
    | some (a, b) =>
      let dst' := dst.addCompound cw a
      some (.ok [dst', (followUpComposite skin dst').addCompound cw b])
    | none => do
      let max ← csub width ws12.1
      let ls ← wrapTokens cw skin width dst (tokenize cw ws src.compounds max)
      some (.ok ls)

/-- What `hard_wrap_lines` does of a normal line, src/fit/wrap.rs 140-147. -/
def hardWrapLine (cw : Char → Nat) (ws : Char → Bool) (skin : Skin) (width : Nat) (fc : FmtComposite) :
    Run (Except InsufficientWidth (List FmtComposite)) := do
  let ls ← skin.lineStyle fc.kind
  let m := ls.marginsIn (some width)
  if fc.visibleLength + m.1 + m.2 ≤ width then some (.ok [fc])
  else do
    let w1 ← csub width m.1
    let w2 ← csub w1 m.2
    hardWrapComposite cw ws skin fc w2

/-- `hard_wrap_lines`, src/fit/wrap.rs 131-153. -/
def hardWrapLines (cw : Char → Nat) (ws : Char → Bool) (skin : Skin) (width : Nat) :
    List FmtLine → Run (Except InsufficientWidth (List FmtLine))
  | [] => some (.ok [])
  | .normal fc :: rest => do
    let r ← hardWrapLine cw ws skin width fc
    match r with
    | .error e => some (.error e)
    | .ok fcs => do
      let r' ← hardWrapLines cw ws skin width rest
      match r' with
      | .error e => some (.error e)
      | .ok ls => some (.ok (fcs.map .normal ++ ls))
  | line :: rest => do
    let r' ← hardWrapLines cw ws skin width rest
    match r' with
    | .error e => some (.error e)
    | .ok ls => some (.ok (line :: ls))

end Verif

import Verif.Lemmas.SkinRender
import Verif.Spec.SkinRender
/-! Skins which only differ by colors and attributes give the same text. -/
namespace Verif
open Spec

variable {a b : Skin} {cw : Char → Nat} {ws : Char → Bool}

theorem Spec.SameShape.lineStyle (h : SameShape a b) (k : Kind) :
    (a.lineStyle k = none ∧ b.lineStyle k = none) ∨
      ∃ la lb, a.lineStyle k = some la ∧ b.lineStyle k = some lb ∧ lineShape la = lineShape lb := by
  cases k with
  | code => exact .inr ⟨_, _, rfl, rfl, h.codeBlock⟩
  | header level =>
    simp only [Skin.lineStyle]
    by_cases h1 : level ≤ 8
    · rw [if_pos h1, if_pos h1]
      by_cases h2 : 1 ≤ level ∧ level - 1 < 8
      · rw [dif_pos h2, dif_pos h2]
        exact .inr ⟨_, _, rfl, rfl, h.headers _⟩
      · rw [dif_neg h2, dif_neg h2]
        exact .inl ⟨rfl, rfl⟩
    · rw [if_neg h1, if_neg h1]
      exact .inr ⟨_, _, rfl, rfl, h.paragraph⟩
  | _ => exact .inr ⟨_, _, rfl, rfl, h.paragraph⟩

theorem lineShape_margins {la lb : LineStyle} (h : lineShape la = lineShape lb) (w : Option Nat) : la.marginsIn w = lb.marginsIn w := by
  simp only [lineShape, Prod.mk.injEq] at h
  simp only [LineStyle.marginsIn, h.2.1, h.2.2]

theorem lineShape_align {la lb : LineStyle} (h : lineShape la = lineShape lb) : la.align = lb.align := by
  simp only [lineShape, Prod.mk.injEq] at h
  exact h.1

theorem Spec.SameShape.followUp (h : SameShape a b) (fc : FmtComposite) : followUpComposite a fc = followUpComposite b fc := by
  simp only [followUpComposite, h.indentMode]

theorem Spec.SameShape.kindWidths (h : SameShape a b) (k : Kind) : compositeKindWidths a k = compositeKindWidths b k := by
  cases k <;> simp only [compositeKindWidths, h.indentMode]

theorem Spec.SameShape.ofComposite (h : SameShape a b) (k : Kind) (cs : List Compound) :
    FmtComposite.ofComposite a cw k cs = FmtComposite.ofComposite b cw k cs := by
  simp only [FmtComposite.ofComposite, Skin.visibleCompositeLength]
  cases k <;> simp only [h.indentMode]

theorem Spec.SameShape.wrapTokens (h : SameShape a b) (width : Nat) : ∀ (ts : List Token) (d : FmtComposite),
    wrapTokens cw a width d ts = wrapTokens cw b width d ts := by
  intro ts
  induction ts with
  | nil => intro d; rfl
  | cons t ts ih => intro d; simp only [Verif.wrapTokens, ih, h.followUp]

theorem Spec.SameShape.hardWrapComposite (h : SameShape a b) (fc : FmtComposite) (w : Nat) :
    hardWrapComposite cw ws a fc w = hardWrapComposite cw ws b fc w := by
  simp only [Verif.hardWrapComposite, h.kindWidths, h.wrapTokens, h.followUp]

theorem Spec.SameShape.hardWrapLine (h : SameShape a b) (w : Nat) (fc : FmtComposite) :
    hardWrapLine cw ws a w fc = hardWrapLine cw ws b w fc := by
  simp only [Verif.hardWrapLine]
  rcases h.lineStyle fc.kind with ⟨h1, h2⟩ | ⟨la, lb, h1, h2, h3⟩
  · rw [h1, h2]; rfl
  · rw [h1, h2]
    simp only [Option.bind_eq_bind, Option.bind_some, lineShape_margins h3, h.hardWrapComposite]

theorem Spec.SameShape.hardWrapLines (h : SameShape a b) (w : Nat) : ∀ lines : List FmtLine,
    hardWrapLines cw ws a w lines = hardWrapLines cw ws b w lines := by
  intro lines
  induction lines with
  | nil => rfl
  | cons l ls ih => cases l <;> simp only [Verif.hardWrapLines, ih, h.hardWrapLine]

theorem Spec.SameShape.wrapCells (h : SameShape a b) : ∀ (cells : List FmtComposite) (w : List Nat),
    wrapCells cw ws a cells w = wrapCells cw ws b cells w := by
  intro cells
  induction cells with
  | nil => intro w; simp only [Verif.wrapCells]
  | cons c cs ih =>
    intro w
    cases w with
    | nil => rfl
    | cons w ws' => simp only [Verif.wrapCells, wrapCell, ih, h.hardWrapComposite]

theorem Spec.SameShape.splitRows (h : SameShape a b) (n : Nat) (w : List Nat) : ∀ lines : List FmtLine,
    splitRows cw ws a n w lines = splitRows cw ws b n w lines := by
  intro lines
  induction lines with
  | nil => rfl
  | cons l ls ih => cases l <;> simp only [Verif.splitRows, splitRow, ih, h.wrapCells]

theorem Spec.SameShape.fixTables (h : SameShape a b) (w : Nat) : ∀ (ts : List Table) (lines : List FmtLine),
    fixTables cw ws a w ts lines = fixTables cw ws b w ts lines := by
  intro ts
  induction ts with
  | nil => intro lines; rfl
  | cons t ts ih => intro lines; simp only [Verif.fixTables, Table.fixColumns, fixTableLines, layoutRows, h.splitRows, ih]

theorem Spec.SameShape.fromText (h : SameShape a b) (mlines : List MLine) (width : Option Nat) :
    FmtText.fromText cw ws a mlines width = FmtText.fromText cw ws b mlines width := by
  have hm : FmtLine.ofMLine a cw = FmtLine.ofMLine b cw := by
    funext l
    cases l <;> simp only [FmtLine.ofMLine, h.ofComposite]
  simp only [FmtText.fromText, fixAllTables, wrapText, h.fixTables, h.hardWrapLines, hm]

/-- Same failure or same text. -/
def SameOut (x y : Run (List Piece)) : Prop := x.map piecesText = y.map piecesText

theorem Spec.SameShape.prefix (h : SameShape a b) (k : Kind) : SameOut (a.writePrefix k) (b.writePrefix k) := by
  have hrep (s s' : CompoundStyle) (n : Nat) (t : Text) : piecesText (List.replicate n (s, t)) = piecesText (List.replicate n (s', t)) := by
    induction n with
    | zero => rfl
    | succ n ih => simp only [List.replicate_succ, piecesText_cons, ih]
  cases k with
  | listItem d =>
    simp only [SameOut, Skin.writePrefix, Option.map_some, piecesText_append, piecesText_cons, StyledChar.display, h.bullet,
      hrep a.paragraph.style b.paragraph.style]
  | listItemFollowUp d =>
    simp only [SameOut, Skin.writePrefix, h.indentMode]
    by_cases h1 : b.indentMode = .block
    · rw [if_pos h1, if_pos h1]
      by_cases h2 : d + 1 < 256
      · rw [if_pos h2, if_pos h2]
        simp only [Option.map_some, piecesText_append, piecesText_cons, hrep a.paragraph.style b.paragraph.style]
      · rw [if_neg h2, if_neg h2]
    · rw [if_neg h1, if_neg h1]
  | quote => simp only [SameOut, Skin.writePrefix, Option.map_some, piecesText_append, piecesText_cons, StyledChar.display, h.quoteMark]
  | _ => rfl

theorem Spec.SameShape.compounds (h : SameShape a b) (la lb : LineStyle) : ∀ cs : List Compound,
    piecesText (cs.flatMap (a.writeCompound la)) = piecesText (cs.flatMap (b.writeCompound lb)) := by
  intro cs
  induction cs with
  | nil => rfl
  | cons c cs ih =>
    simp only [List.flatMap_cons, piecesText_append, ih]
    congr 1
    have := h.special c
    simp only [Skin.writeCompound]
    cases ha : a.specialChars c <;> cases hb : b.specialChars c <;> rw [ha, hb] at this <;> simp at this
    · simp [piecesText]
    · simp [StyledChar.display, piecesText, this]

theorem Spec.SameShape.composite (h : SameShape a b) (fc : FmtComposite) (outer : Option Nat) (rc m : Bool) :
    SameOut (a.writeFmtComposite fc outer rc m) (b.writeFmtComposite fc outer rc m) := by
  simp only [SameOut, Skin.writeFmtComposite]
  rcases h.lineStyle fc.kind with ⟨h1, h2⟩ | ⟨la, lb, h1, h2, h3⟩
  · rw [h1, h2]; rfl
  · rw [h1, h2]
    simp only [Option.bind_eq_bind, Option.bind_some, lineShape_margins h3, lineShape_align h3]
    have hp := h.prefix fc.kind
    simp only [SameOut] at hp
    cases ha : a.writePrefix fc.kind <;> cases hb : b.writePrefix fc.kind <;> rw [ha, hb] at hp <;> simp at hp
    · rfl
    · simp only [Option.bind_some, Option.map_some, piecesText_append, piecesText_repeat, hp, h.compounds la lb]
      cases rc <;> simp [piecesText_repeat, piecesText_nil]

theorem Spec.SameShape.cells (h : SameShape a b) : ∀ cells : List FmtComposite, SameOut (a.writeCells cells) (b.writeCells cells) := by
  intro cells
  induction cells with
  | nil => rfl
  | cons c cs ih =>
    have hc := h.composite c none false false
    simp only [SameOut] at ih hc ⊢
    simp only [Skin.writeCells]
    cases ha : a.writeFmtComposite c none false false <;> cases hb : b.writeFmtComposite c none false false <;>
      rw [ha, hb] at hc <;> simp at hc
    · rfl
    · simp only [Option.bind_eq_bind, Option.bind_some]
      cases ha' : a.writeCells cs <;> cases hb' : b.writeCells cs <;> rw [ha', hb'] at ih <;> simp at ih
      · rfl
      · simp only [Option.bind_some, Option.map_some, List.cons_append, piecesText_cons, piecesText_append, h.borders, hc, ih]

theorem Spec.SameShape.ruleCols (h : SameShape a b) (j : Char) : ∀ (w : List Nat) (f : Bool),
    piecesText (a.writeRuleCols j f w) = piecesText (b.writeRuleCols j f w) := by
  intro w
  induction w with
  | nil => intro f; rfl
  | cons w ws ih =>
    intro f
    simp only [Skin.writeRuleCols, piecesText_append, piecesText_repeat, h.borders, ih]
    cases f <;> simp [piecesText]

theorem Spec.SameShape.line (h : SameShape a b) (line : FmtLine) (width : Option Nat) (rc : Bool) :
    SameOut (a.writeFmtLine line width rc) (b.writeFmtLine line width rc) := by
  cases line with
  | normal fc => exact h.composite fc width rc true
  | tableRow cells =>
    have hc := h.cells cells
    simp only [SameOut] at hc ⊢
    simp only [Skin.writeFmtLine, h.table, h.borders]
    cases ha : a.writeCells cells <;> cases hb : b.writeCells cells <;> rw [ha, hb] at hc <;> simp at hc
    · rfl
    · simp only [Option.bind_eq_bind, Option.bind_some, Option.map_some, piecesText_append, piecesText_repeat, hc, piecesText_cons]
      cases rc <;> simp [piecesText_repeat, piecesText_nil]
  | tableRule rule =>
    simp only [SameOut, Skin.writeFmtLine, h.table, h.borders, Option.map_some, piecesText_append, piecesText_repeat, piecesText_cons, h.ruleCols]
    cases rc <;> simp [piecesText_repeat, piecesText_nil]
  | horizontalRule =>
    cases width <;> simp [SameOut, Skin.writeFmtLine, StyledChar.repeated, h.horizontalRule, piecesText]

theorem Spec.SameShape.mapM (h : SameShape a b) (width : Option Nat) : ∀ lines : List FmtLine,
    (lines.mapM fun l => a.writeFmtLine l width false).map (·.map piecesText) = (lines.mapM fun l => b.writeFmtLine l width false).map (·.map piecesText) := by
  intro lines
  induction lines with
  | nil => rfl
  | cons l ls ih =>
    have hl := h.line l width false
    simp only [SameOut] at hl
    simp only [List.mapM_cons]
    cases ha : a.writeFmtLine l width false <;> cases hb : b.writeFmtLine l width false <;> rw [ha, hb] at hl <;> simp at hl
    · rfl
    · simp only [Option.bind_eq_bind, Option.bind_some]
      cases ha' : ls.mapM (fun l => a.writeFmtLine l width false) <;> cases hb' : ls.mapM (fun l => b.writeFmtLine l width false) <;>
        rw [ha', hb'] at ih <;> simp at ih
      · rfl
      · simp [hl, ih]

end Verif

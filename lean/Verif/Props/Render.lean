import Verif.Lemmas.Render
/-! Property C10: columns taken by a rendered line. -/
namespace Verif.Props
open Verif

/-- C10: with right completion, a line takes exactly the outer width, or its own number of columns (content, spacing,
borders and margins) if it's larger. -/
theorem C10_columns (cw : Char → Nat) (skin : Skin) (hs : OneColumnSkin cw skin) (line : FmtLine)
    (hd : DrawableLine cw skin line) (w : Nat) :
    ∃ ps, skin.writeFmtLine line (some w) true = some ps ∧ piecesCols cw ps = max w (ownCols skin w line) := by
  have one : ∀ (st : CompoundStyle) (c : Char), piecesCols cw [(st, [c])] = cw c := by
    intro st c; simp [piecesCols, piecesText, textWidth]
  cases line with
  | normal fc =>
    obtain ⟨ls, pre, h1, h2, h3⟩ := writeFmtComposite_ok hd (some w) true
    simp only [if_true] at h3
    refine ⟨_, h3.2, ?_⟩
    rw [piecesCols_append, front_width hs hd ls pre h2, repeat_cols hs]
    simp only [Spacing.optionalCompletions, ownCols, h1, Option.map_some, Option.getD_some]
    have := completions_sum ls.align (spacedCols fc + (ls.marginsIn (some w)).1 + (ls.marginsIn (some w)).2) w
    have := margins_sum ls w
    omega
  | tableRow cells =>
    obtain ⟨ps, h1, h2⟩ := writeCells_ok hs cells hd
    have hv : cw skin.tableBorderChars.vertical = 1 := hs.border _ (by simp)
    refine ⟨_, by simp only [Skin.writeFmtLine, h1, Option.bind_eq_bind, Option.bind_some]; rfl, ?_⟩
    simp only [piecesCols_append, h2, repeat_cols hs, if_true, one, hv, Spacing.optionalCompletions, ownCols]
    rw [foldl_sum_aux (fun c => FmtComposite.innerWidth c)]
    have := completions_sum skin.table.align (1 + (0 + (cells.map fun c => FmtComposite.innerWidth c + 1).sum)) w
    have e : (cells.map fun c => FmtComposite.innerWidth c + 1) = cells.map fun c => spacedCols c + 1 := rfl
    rw [e] at this ⊢
    omega
  | tableRule rule =>
    obtain ⟨c1, c2, c3⟩ := ruleChars_one hs rule.position
    have := (writeRuleCols_cols (skin := skin) (hs.border _ (by simp)) _ c2 rule.widths).2 hd
    refine ⟨_, rfl, ?_⟩
    simp only [piecesCols_append, repeat_cols hs, if_true, one, c1, c3, Spacing.optionalCompletions, ownCols]
    rw [foldl_sum_aux (fun w => w)]
    have := completions_sum skin.table.align (1 + (0 + (rule.widths.map fun w => w + 1).sum)) w
    omega
  | horizontalRule =>
    refine ⟨_, rfl, ?_⟩
    simp [piecesCols, StyledChar.repeated, piecesText, textWidth_replicate, hs.rule, ownCols]

/-- C10: without right completion, the same thing is written but for the blanks of the end. -/
theorem C10_completion (cw : Char → Nat) (skin : Skin) (line : FmtLine) (hd : DrawableLine cw skin line)
    (hs : OneColumnSkin cw skin) (width : Option Nat) :
    ∃ ps n, skin.writeFmtLine line width false = some ps ∧
      skin.writeFmtLine line width true = some (ps ++ repeatChar skin.paragraph.style ' ' n) := by
  cases line with
  | normal fc =>
    obtain ⟨ls, pre, h1, h2, h3⟩ := writeFmtComposite_ok hd width true
    exact ⟨_, _, h3.1, h3.2⟩
  | tableRow cells =>
    obtain ⟨ps, h1, h2⟩ := writeCells_ok hs cells hd
    refine ⟨_, (Spacing.optionalCompletions skin.table.align
        (1 + cells.foldl (fun sum c => sum + c.innerWidth + 1) 0) width).2,
      by simp only [Skin.writeFmtLine, h1, Option.bind_eq_bind, Option.bind_some]; rfl, ?_⟩
    simp [Skin.writeFmtLine, h1]
  | tableRule rule =>
    refine ⟨_, (Spacing.optionalCompletions skin.table.align
        (1 + rule.widths.foldl (fun sum w => sum + w + 1) 0) width).2, rfl, ?_⟩
    simp [Skin.writeFmtLine]
  | horizontalRule =>
    cases width with
    | none => exact ⟨[], 0, rfl, rfl⟩
    | some w => exact ⟨_, 0, rfl, by simp [Skin.writeFmtLine, repeatChar]⟩

/-- C10: without right completion a line never takes more than its own columns or the outer width. -/
theorem C10_no_completion_columns (cw : Char → Nat) (skin : Skin) (hs : OneColumnSkin cw skin) (line : FmtLine)
    (hd : DrawableLine cw skin line) (w : Nat) :
    ∃ ps, skin.writeFmtLine line (some w) false = some ps ∧ piecesCols cw ps ≤ max w (ownCols skin w line) := by
  obtain ⟨ps, n, h1, h2⟩ := C10_completion cw skin line hd hs (some w)
  obtain ⟨ps', h3, h4⟩ := C10_columns cw skin hs line hd w
  rw [h2] at h3
  simp only [Option.some.injEq] at h3
  subst h3
  rw [piecesCols_append] at h4
  exact ⟨ps, h1, by omega⟩

/-- C10: an inline snippet (no outer width) takes its spacing (or its length) and its left margin. -/
theorem C10_inline (cw : Char → Nat) (skin : Skin) (hs : OneColumnSkin cw skin) (fc : FmtComposite)
    (hd : Drawable cw skin fc) :
    ∃ ps ls, skin.writeInline fc = some ps ∧ styleOf skin fc.kind = some ls ∧
      piecesCols cw ps = ls.leftMargin + spacedCols fc := by
  obtain ⟨ls, pre, h1, h2, h3⟩ := writeFmtComposite_ok hd none true
  simp only [if_true] at h3
  refine ⟨_, ls, h3.1, h1, ?_⟩
  rw [front_width hs hd ls pre h2]
  simp [Spacing.optionalCompletions, LineStyle.marginsIn]

/-- C10: what is drawn is the text of the composite (bullet, quote mark or indentation, then the characters of its compounds) between
blanks; without inner spacing and in a wide enough width, the blanks are distributed around it as the alignment of
the line style says, margins kept. -/
theorem C10_text (cw : Char → Nat) (skin : Skin) (fc : FmtComposite) (hd : Drawable cw skin fc)
    (hsp : ∀ c ∈ fc.compounds, skin.specialChars c = none) (w : Nat) (ls : LineStyle)
    (hls : styleOf skin fc.kind = some ls) :
    ∃ ps a b, skin.writeFmtLine (.normal fc) (some w) true = some ps ∧
      piecesText ps = List.replicate a ' ' ++ compositeText skin fc ++ List.replicate b ' ' ∧
      (fc.spacing = none → ls.leftMargin + ls.rightMargin + 3 ≤ w →
        fc.visibleLength + ls.leftMargin + ls.rightMargin ≤ w →
        Placed ls.align ls.leftMargin ls.rightMargin a b) := by
  obtain ⟨ls', pre, h1, h2, h3⟩ := writeFmtComposite_ok hd (some w) true
  rw [hls] at h1
  simp only [Option.some.injEq] at h1
  subst h1
  simp only [if_true] at h3
  generalize hm : ls.marginsIn (some w) = m at h3
  generalize hpo : Spacing.optionalCompletions ls.align (spacedCols fc + m.1 + m.2) (some w) = po at h3
  refine ⟨_, po.1 + m.1 + fc.completions.1, fc.completions.2 + (po.2 + m.2), h3.2, ?_, ?_⟩
  · simp only [piecesText_append, piecesText_repeat, h2, writeCompounds_text ls fc.compounds hsp, compositeText]
    simp only [← List.replicate_append_replicate, List.append_assoc]
  · intro hnone hmar hfit
    have hm' : m = (ls.leftMargin, ls.rightMargin) := by
      rw [← hm]; simp only [LineStyle.marginsIn]; rw [if_neg (by omega)]
    subst hm'
    have hc : fc.completions = (0, 0) := by simp [FmtComposite.completions, hnone]
    have hsc : spacedCols fc = fc.visibleLength := by simp [spacedCols, hnone]
    rw [hsc] at hpo
    simp only [Spacing.optionalCompletions, Spacing.completions] at hpo
    rw [hc]
    split at hpo
    · subst hpo
      cases ls.align <;> simp [Placed]
    · cases hal : ls.align <;> rw [hal] at hpo <;> simp only at hpo <;> subst hpo <;> simp [Placed] <;> omega

/-- C10: each compound is written as one piece, in its style, in order. -/
theorem C10_styles (cw : Char → Nat) (skin : Skin) (fc : FmtComposite) (hd : Drawable cw skin fc)
    (hsp : ∀ c ∈ fc.compounds, skin.specialChars c = none) (outer : Option Nat) (rc margins : Bool) :
    ∃ ps ls, skin.writeFmtComposite fc outer rc margins = some ps ∧ styleOf skin fc.kind = some ls ∧
      (fc.compounds.map fun c => (skin.compoundStyle ls c, c.src)) <:+: ps := by
  obtain ⟨ls, pre, h1, h2, h3⟩ := writeFmtComposite_ok hd outer margins
  have e : fc.compounds.flatMap (skin.writeCompound ls) = fc.compounds.map fun c => (skin.compoundStyle ls c, c.src) := by
    generalize fc.compounds = cs at hsp
    induction cs with
    | nil => rfl
    | cons c cs ih =>
      simp only [List.flatMap_cons, List.map_cons, ih (fun c hc => hsp c (by simp [hc]))]
      simp [Skin.writeCompound, hsp c (by simp)]
  simp only [e] at h3
  cases rc with
  | false =>
    refine ⟨_, ls, h3.1, h1, ?_⟩
    rw [List.append_assoc _ (List.map _ _)]
    exact ⟨_, _, (List.append_assoc _ _ _)⟩
  | true =>
    refine ⟨_, ls, h3.2, h1, ?_⟩
    rw [List.append_assoc _ (repeatChar ls.style ' ' _), List.append_assoc _ (List.map _ _)]
    exact ⟨_, _, (List.append_assoc _ _ _)⟩

/-- C10: a row of a table reads as its cells, each one with its spacing and alignment, between vertical borders. -/
theorem C10_row_text (cw : Char → Nat) (skin : Skin) (cells : List FmtComposite) (hd : DrawableLine cw skin (.tableRow cells))
    (hsp : ∀ c ∈ cells, ∀ cp ∈ c.compounds, skin.specialChars cp = none) (w : Option Nat) :
    ∃ ps n, ∃ txts : List Text, skin.writeFmtLine (.tableRow cells) w false = some ps ∧ txts.length = cells.length ∧
      piecesText ps = List.replicate n ' ' ++ txts.flatMap (fun t => skin.tableBorderChars.vertical :: t) ++
        [skin.tableBorderChars.vertical] ∧
      ∀ (i : Nat) (c : FmtComposite) (t : Text), cells[i]? = some c → txts[i]? = some t → CellText skin c t := by
  obtain ⟨ps, txts, h1, h2, h3, h4⟩ := writeCells_text cells hd hsp
  refine ⟨_, (Spacing.optionalCompletions skin.table.align (1 + cells.foldl (fun sum c => sum + c.innerWidth + 1) 0) w).1,
    txts, by simp only [Skin.writeFmtLine, h1, Option.bind_eq_bind, Option.bind_some]; rfl, h2, ?_, h4⟩
  simp only [piecesText_append, piecesText_repeat, h3, piecesText_cons, piecesText_nil, Bool.false_eq_true, if_false,
    List.append_nil]

/-- C10: a rule of a table is drawn with the corners and junctions of its position. -/
theorem C10_rule_text (skin : Skin) (rule : FmtTableRule) (w : Option Nat) :
    ∃ ps n, skin.writeFmtLine (.tableRule rule) w false = some ps ∧
      piecesText ps = List.replicate n ' ' ++ ruleText skin.tableBorderChars rule.position rule.widths := by
  refine ⟨_, (Spacing.optionalCompletions skin.table.align (1 + rule.widths.foldl (fun sum w => sum + w + 1) 0) w).1,
    rfl, ?_⟩
  simp only [piecesText_append, piecesText_repeat, piecesText_cons, piecesText_nil, Bool.false_eq_true, if_false,
    List.append_nil, (writeRuleCols_text _ _).2, List.append_assoc]
  cases rule.position <;> rfl

/-- Widths: all characters take one column but '一'. -/
def renderCw : Char → Nat := fun c => if c = '一' then 2 else 1

/-- A skin with right aligned margins. -/
def renderSkin : Skin := { paragraph := { align := .right, leftMargin := 2, rightMargin := 1 } }

/-- A quote, with its length. -/
def renderQuote : FmtComposite :=
  FmtComposite.ofComposite renderSkin renderCw .quote [⟨"a一".toList, { bold := true }⟩, ⟨" b".toList, {}⟩]

example : OneColumnSkin renderCw renderSkin := by
  refine ⟨by decide, by decide, by decide, by decide, by decide, ?_⟩
  intro c sc h
  simp [renderSkin] at h

example : Drawable renderCw renderSkin renderQuote := by
  refine ⟨by simp [renderQuote, FmtComposite.ofComposite, styleOf], by decide, by decide, by intro d h; cases h⟩

example : (renderSkin.writeFmtLine (.normal renderQuote) (some 12) true).map (fun ps => String.ofList (piecesText ps)) =
    some "    ▐ a一 b " := by decide

example : (renderSkin.writeFmtLine (.normal renderQuote) (some 12) true).map (piecesCols renderCw) = some 12 := by decide

example : (({} : Skin).writeFmtLine (.tableRow [{ renderQuote with spacing := some ⟨8, .center⟩ }, renderQuote]) (some 20) false).map
    (fun ps => String.ofList (piecesText ps)) = some "│▐ a一 b │▐ a一 b│" := by decide

example : DrawableLine renderCw {} (.tableRow [{ renderQuote with spacing := some ⟨8, .center⟩ }, renderQuote]) := by
  intro c hc
  simp only [List.mem_cons, List.not_mem_nil, or_false] at hc
  rcases hc with rfl | rfl <;>
  exact ⟨by simp [renderQuote, FmtComposite.ofComposite, styleOf], by decide, by decide, by intro d h; cases h⟩

example : ruleText TableBorderChars.standard .top [2, 3] = "┌──┬───┐".toList := by decide

/-- The length of a content larger than its spacing is not taken into account: more columns than the outer width are
written although they would be enough. -/
theorem C10_spacing_counterexample :
    ∃ fc : FmtComposite, fc.visibleLength = lineCols renderCw .block fc ∧ fc.visibleLength ≤ 6 ∧
      (({} : Skin).writeFmtLine (.normal fc) (some 6) true).map (piecesCols renderCw) = some 8 :=
  ⟨{ FmtComposite.ofComposite {} renderCw .paragraph [⟨"abcde".toList, {}⟩] with spacing := some ⟨3, .left⟩ },
    by decide, by decide, by decide⟩

/-- A rule without column writes one column more than asked. -/
theorem C10_empty_rule_counterexample :
    (({} : Skin).writeFmtLine (.tableRule { aligns := [] }) (some 6) true).map (piecesCols renderCw) = some 7 := by decide

/-- Rendering a follow-up line of a list item of depth 255 panics. -/
theorem C10_depth_counterexample (w : Option Nat) :
    ({} : Skin).writeFmtLine (.normal { kind := .listItemFollowUp 255 }) w true = none := rfl

end Verif.Props

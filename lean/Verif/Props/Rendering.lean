import Verif.Spec.Rendering
import Verif.Props.FmtText
import Verif.Props.Table
import Verif.Props.Displayed
/-! C57: the rendering width only moves lines, and the content width is the one of the widest line. -/
namespace Verif.Props
open Verif

private theorem repeat_spaces (st : CompoundStyle) (n : Nat) : repeatChar st ' ' n = Spec.spaces st n := by
  cases n <;> rfl

private theorem completions_share (al : Alignment) (inner outer : Nat) :
    (Spacing.completions al inner outer).1 = Spec.share al (outer - inner) := by
  unfold Spacing.completions Spec.share
  by_cases h : inner ≥ outer
  · rw [if_pos h, Nat.sub_eq_zero_of_le h]
    cases al <;> rfl
  · rw [if_neg h]
    cases al <;> rfl

private theorem content_of {cw : Char → Nat} {skin : Skin} (hs : OneColumnSkin cw skin) (line : FmtLine) (hd : DrawableLine cw skin line) :
    ∃ content, (line ≠ .horizontalRule → piecesCols cw content = Spec.contentCols line) ∧
      ∀ w, ∃ written, skin.writeFmtLine line (some w) false = some written ∧ Spec.Rendered skin w line content written := by
  cases line with
  | normal fc =>
    cases hls : styleOf skin fc.kind with
    | none => exact absurd hls hd.styled
    | some ls =>
      obtain ⟨pre, hp, ht⟩ := writePrefix_ok skin fc.kind hd.depth
      refine ⟨repeatChar ls.style ' ' fc.completions.1 ++ pre ++ fc.compounds.flatMap (skin.writeCompound ls) ++
        repeatChar ls.style ' ' fc.completions.2, ?_, ?_⟩
      · intro _
        have := front_width hs hd ls pre ht 0
        simpa [repeatChar, Spec.contentCols] using this
      · intro w
        have e : fc.innerWidth = spacedCols fc := rfl
        have hm : Spec.margins skin w (.normal fc) = ls.marginsIn (some w) := by
          simp only [Spec.margins, hls, LineStyle.marginsIn]
          by_cases h : ls.leftMargin + ls.rightMargin + 3 ≤ w
          · rw [if_pos h, if_neg (by omega)]
          · rw [if_neg h, if_pos (by omega)]
        refine ⟨_, by simp only [Skin.writeFmtLine, Skin.writeFmtComposite, lineStyle_eq, hls, hp, Option.bind_eq_bind,
          Option.bind_some]; rfl, ?_⟩
        simp only [Spec.Rendered, Spec.startCol, hm, Spec.alignOf, hls, Spacing.optionalCompletions, completions_share, e,
          Spec.contentCols, repeat_spaces, if_true, Bool.false_eq_true, if_false, List.append_nil, List.append_assoc]
        rw [Nat.add_comm]
  | tableRow cells =>
    obtain ⟨ps, h1, h2⟩ := writeCells_ok hs cells hd
    have hv : cw skin.tableBorderChars.vertical = 1 := hs.border _ (by simp)
    refine ⟨ps ++ [(skin.table.style, [skin.tableBorderChars.vertical])], ?_, ?_⟩
    · intro _
      simp only [piecesCols_append, h2, Spec.contentCols]
      simp only [piecesCols, piecesText, List.flatMap_cons, List.flatMap_nil, List.append_nil, textWidth, hv]
      omega
    · intro w
      refine ⟨_, by simp only [Skin.writeFmtLine, h1, Option.bind_eq_bind, Option.bind_some]; rfl, ?_⟩
      have e : (cells.map fun c => FmtComposite.innerWidth c + 1) = cells.map fun c => spacedCols c + 1 := rfl
      simp only [Spec.Rendered, Spec.startCol, Spec.margins, Spec.alignOf, Spacing.optionalCompletions, completions_share,
        Spec.contentCols, repeat_spaces, Bool.false_eq_true, if_false, List.append_nil, List.append_assoc, Nat.add_zero, Nat.zero_add]
      rw [foldl_sum_aux (fun c => FmtComposite.innerWidth c), e, Nat.zero_add]
  | tableRule rule =>
    obtain ⟨c1, c2, c3⟩ := ruleChars_one hs rule.position
    have := (writeRuleCols_cols (skin := skin) (hs.border _ (by simp)) _ c2 rule.widths).2 hd
    refine ⟨[(skin.table.style, [(skin.tableBorderChars.ruleChars rule.position).1])] ++
      skin.writeRuleCols (skin.tableBorderChars.ruleChars rule.position).2.1 true rule.widths ++
      [(skin.table.style, [(skin.tableBorderChars.ruleChars rule.position).2.2])], ?_, ?_⟩
    · intro _
      have one : ∀ (st : CompoundStyle) (c : Char), piecesCols cw [(st, [c])] = cw c := by
        intro st c; simp [piecesCols, piecesText, textWidth]
      simp only [piecesCols_append, one, c1, c3, Spec.contentCols]
      omega
    · intro w
      refine ⟨_, rfl, ?_⟩
      simp only [Spec.Rendered, Spec.startCol, Spec.margins, Spec.alignOf, Spacing.optionalCompletions, completions_share,
        Spec.contentCols, repeat_spaces, Bool.false_eq_true, if_false, List.append_nil, List.append_assoc, Nat.add_zero, Nat.zero_add]
      rw [foldl_sum_aux (fun w => w), Nat.zero_add]
  | horizontalRule =>
    exact ⟨[], fun h => absurd rfl h, fun w => ⟨_, rfl, by simp [Spec.Rendered, StyledChar.repeated, piecesText]⟩⟩

/-- C57: whatever the rendering width, what is written for a line is the same content, at the place given by the margins and alignment
of the line in this width; only horizontal rules depend otherwise on the width, that they fill. -/
theorem C57_moved (cw : Char → Nat) (skin : Skin) (hs : OneColumnSkin cw skin) (t : FmtText)
    (hd : ∀ l ∈ t.lines, DrawableLine cw skin l) :
    ∃ contents : List (List Piece),
      Spec.Matched (fun line content => line ≠ .horizontalRule → piecesCols cw content = Spec.contentCols line) t.lines contents ∧
      ∀ w, ∃ drawn, (t.setRenderingWidth w).display skin = some drawn ∧
        Spec.Matched (fun (p : FmtLine × List Piece) written => Spec.Rendered skin w p.1 p.2 written) (t.lines.zip contents) drawn := by
  obtain ⟨lines, width⟩ := t
  simp only at hd
  suffices h : ∃ contents : List (List Piece),
      Spec.Matched (fun line content => line ≠ .horizontalRule → piecesCols cw content = Spec.contentCols line) lines contents ∧
      ∀ w, ∃ drawn, (lines.mapM fun l => skin.writeFmtLine l (some w) false) = some drawn ∧
        Spec.Matched (fun (p : FmtLine × List Piece) written => Spec.Rendered skin w p.1 p.2 written) (lines.zip contents) drawn from h
  induction lines with
  | nil => exact ⟨[], .nil, fun w => ⟨[], by simp, .nil⟩⟩
  | cons l lines ih =>
    obtain ⟨content, c1, c2⟩ := content_of hs l (hd l (by simp))
    obtain ⟨contents, i1, i2⟩ := ih fun l hl => hd l (by simp [hl])
    refine ⟨content :: contents, .cons c1 i1, ?_⟩
    intro w
    obtain ⟨written, e1, e2⟩ := c2 w
    obtain ⟨drawn, d1, d2⟩ := i2 w
    exact ⟨written :: drawn, by simp [List.mapM_cons, e1, d1], .cons e2 d2⟩

private theorem foldl_max (f : FmtLine → Nat) : ∀ (ls : List FmtLine) (m : Nat),
    m ≤ ls.foldl (fun m l => max m (f l)) m ∧ (∀ l ∈ ls, f l ≤ ls.foldl (fun m l => max m (f l)) m) ∧
    (ls.foldl (fun m l => max m (f l)) m = m ∨ ∃ l ∈ ls, f l = ls.foldl (fun m l => max m (f l)) m) := by
  intro ls
  induction ls with
  | nil => intro m; simp
  | cons a ls ih =>
    intro m
    obtain ⟨h1, h2, h3⟩ := ih (max m (f a))
    simp only [List.foldl_cons]
    refine ⟨by omega, ?_, ?_⟩
    · intro l hl
      rcases List.mem_cons.1 hl with rfl | hl
      · omega
      · exact h2 l hl
    · rcases h3 with h3 | ⟨l, hl, h3⟩
      · rw [h3]
        by_cases h : f a ≤ m
        · left; omega
        · right; exact ⟨a, by simp, by omega⟩
      · exact .inr ⟨l, by simp [hl], h3⟩

private theorem sum_succ (l : List Nat) : (l.map fun w => w + 1).sum = l.sum + l.length := by
  induction l with
  | nil => rfl
  | cons a l ih => simp only [List.map_cons, List.sum_cons, List.length_cons, ih]; omega

/-- The visible length of a line is never more than the number of its columns, and only differs for spaced lines. -/
private theorem visible_le {cw : Char → Nat} {skin : Skin} {l : FmtLine} (hd : DrawableLine cw skin l) :
    l.visibleLength ≤ Spec.contentCols l := by
  cases l with
  | normal fc => exact hd.fits
  | tableRow cells =>
    have : ∀ (cells : List FmtComposite) (n : Nat), (∀ c ∈ cells, Drawable cw skin c) →
        cells.foldl (fun s c => s + c.visibleLength) n ≤ n + (cells.map fun c => spacedCols c + 1).sum := by
      intro cells
      induction cells with
      | nil => intro n _; simp
      | cons c cells ih =>
        intro n h
        have h1 := (h c (by simp)).fits
        have h2 := ih (n + c.visibleLength) fun c hc => h c (by simp [hc])
        simp only [List.foldl_cons, List.map_cons, List.sum_cons]
        omega
    have := this cells 0 hd
    simp only [FmtLine.visibleLength, Spec.contentCols]
    omega
  | tableRule rule =>
    simp only [FmtLine.visibleLength, Spec.contentCols]
    rw [foldl_sum_aux (fun w => w), Nat.zero_add]
    exact Nat.le_refl _
  | horizontalRule => exact Nat.le_refl _

private theorem TablesFixed.memOut {R : List FmtLine → List FmtLine → Prop} {lines out : List FmtLine}
    (h : TablesFixed R lines out) : ∀ l ∈ out, (¬ IsTableLine l ∧ l ∈ lines) ∨
      ∃ tbl tbl', R tbl tbl' ∧ l ∈ tbl' ∧ ∀ x ∈ tbl', x ∈ out := by
  induction h with
  | nil => simp
  | @other x ls out hl h ih =>
    intro l hm
    rcases List.mem_cons.1 hm with rfl | hm
    · exact .inl ⟨hl, by simp⟩
    · rcases ih l hm with ⟨h1, h2⟩ | ⟨t, t', h1, h2, h3⟩
      · exact .inl ⟨h1, by simp [h2]⟩
      · exact .inr ⟨t, t', h1, h2, fun x hx => by simp [h3 x hx]⟩
  | @table tbl tbl' ls out hne hl hmax hR h ih =>
    intro l hm
    rcases List.mem_append.1 hm with hm | hm
    · exact .inr ⟨tbl, tbl', hR, hm, fun x hx => by simp [hx]⟩
    · rcases ih l hm with ⟨h1, h2⟩ | ⟨t, t', h1, h2, h3⟩
      · exact .inl ⟨h1, by simp [h2]⟩
      · exact .inr ⟨t, t', h1, h2, fun x hx => by simp [h3 x hx]⟩

private theorem Blocks.rule {ws : Char → Bool} {nb : Nat} {tbl out : List FmtLine} (h : Blocks (LineKept ws nb) tbl out)
    {rule : FmtTableRule} (hr : .tableRule rule ∈ tbl) : ∃ rule', .tableRule rule' ∈ out := by
  induction h with
  | nil => simp at hr
  | @cons l b ls out hl _ ih =>
    rcases List.mem_cons.1 hr with rfl | hr
    · obtain ⟨r, e, _⟩ := hl
      exact ⟨r, by simp [e]⟩
    · obtain ⟨r, e⟩ := ih hr
      exact ⟨r, by simp [e]⟩

private theorem Blocks.tableLines {ws : Char → Bool} {nb : Nat} {tbl out : List FmtLine} (h : Blocks (LineKept ws nb) tbl out) :
    ∀ l ∈ out, IsTableLine l := by
  induction h with
  | nil => simp
  | @cons a b ls out ha _ ih =>
    intro l hlm
    rcases List.mem_append.1 hlm with hlm | hlm
    · cases a with
      | tableRow cells =>
        obtain ⟨rows, e, _⟩ := ha
        rw [e] at hlm
        simp only [List.mem_map] at hlm
        obtain ⟨r, _, rfl⟩ := hlm
        trivial
      | tableRule rule =>
        obtain ⟨r, e, _⟩ := ha
        rw [e] at hlm
        simp only [List.mem_singleton] at hlm
        subst hlm
        trivial
      | _ => exact absurd ha id
    · exact ih l hlm

/-- When all tables of the source have a rule, a row has the width of a rule. -/
private theorem row_rule {cw : Char → Nat} {ws : Char → Bool} {skin : Skin} {w : Nat} {mlines : List MLine} (h3 : 3 ≤ w)
    (h : FittingText cw skin w mlines)
    (hrules : ∀ tbl, IsTableOf (mlines.map (FmtLine.ofMLine skin cw)) tbl → ∃ rule, .tableRule rule ∈ tbl)
    {out : List FmtLine} (ho : fixAllTables cw ws skin w (mlines.map (FmtLine.ofMLine skin cw)) = some out)
    {cells : List FmtComposite} (hc : .tableRow cells ∈ out) :
    ∃ rule, .tableRule rule ∈ out ∧ Spec.contentCols (.tableRule rule) = Spec.contentCols (.tableRow cells) := by
  obtain ⟨out', ho', hfix'⟩ := C07_fix cw ws skin w _ (by omega) fun tbl ht => (h.tables tbl ht).1
  rw [ho] at ho'
  simp only [Option.some.injEq] at ho'
  subst ho'
  have hfix := (fixAllTables_spec (R := fun tbl tbl' => fixTableLines cw ws skin (tableColumns tbl) w tbl = some tbl')
    (fun _ _ _ h => h) _ out ho).isTable
  rcases TablesFixed.memOut hfix _ hc with ⟨h1, _⟩ | ⟨tbl, tbl', ⟨ht, hf⟩, hmem, hsub⟩
  · exact absurd trivial h1
  obtain ⟨rule, hr⟩ := hrules tbl ht
  have hne : tableColumns tbl ≠ 0 := by
    intro h0
    have := (h.tables tbl ht).2
    rw [h0] at this
    simp only [keptColumns, Nat.mul_zero, Nat.zero_add] at this
    rw [if_pos (by omega)] at this
    omega
  rcases fixTableLines_text ht.2.1 hf with ⟨h1, _⟩ | ⟨_, _, hb, _⟩
  · omega
  obtain ⟨rule', hr'⟩ := Blocks.rule hb hr
  obtain ⟨o, ho', widths, w1, _, _, w4⟩ := fixTableLines_fit (ws := ws) ht.2.1 (h.tables tbl ht).1 hne (by omega)
  rw [ho'] at hf
  simp only [Option.some.injEq] at hf
  subst hf
  refine ⟨rule', hsub _ hr', ?_⟩
  have hrw : rule'.widths = widths := by
    rcases w4 _ hr' with ⟨_, e, _⟩ | ⟨r, e, e2⟩
    · cases e
    · simp only [FmtLine.tableRule.injEq] at e
      rw [e, e2]
  have hsp : cells.map spacedCols = widths := by
    rcases w4 _ hmem with ⟨cs, e, hlen, hcs⟩ | ⟨_, e, _⟩
    · simp only [FmtLine.tableRow.injEq] at e
      subst e
      apply List.ext_getElem?
      intro i
      by_cases hi : i < cells.length
      · obtain ⟨w, a, e1, e2, _⟩ := hcs i cells[i] (List.getElem?_eq_getElem hi)
        rw [e1, List.getElem?_map, List.getElem?_eq_getElem hi]
        simp [spacedCols, e2]
      · rw [List.getElem?_eq_none (by simp; omega), List.getElem?_eq_none (by omega)]
    · cases e
  simp only [Spec.contentCols, hrw, ← hsp, List.map_map]
  rfl

private theorem Justified.keeps {lines out : List FmtLine} (h : Justified lines out) :
    (∀ l ∈ lines, ¬ IsCodeLine l → l ∈ out) ∧
    ∀ fc, .normal fc ∈ lines → fc.kind = .code → ∃ w, .normal { fc with spacing := some ⟨w, .left⟩ } ∈ out := by
  induction h with
  | nil => simp
  | @other x ls out hl h ih =>
    refine ⟨?_, ?_⟩
    · intro l hm hc
      rcases List.mem_cons.1 hm with rfl | hm
      · simp
      · simp [ih.1 l hm hc]
    · intro fc hm hc
      rcases List.mem_cons.1 hm with rfl | hm
      · exact absurd hc hl
      · obtain ⟨w, hw⟩ := ih.2 fc hm hc
        exact ⟨w, by simp [hw]⟩
  | @block blk blk' ls out w hne hc hmax hlong hlen hsp h ih =>
    refine ⟨?_, ?_⟩
    · intro l hm hcl
      rcases List.mem_append.1 hm with hm | hm
      · exact absurd (hc l hm) hcl
      · simp [ih.1 l hm hcl]
    · intro fc hm hcl
      rcases List.mem_append.1 hm with hm | hm
      · obtain ⟨i, hi, he⟩ := List.getElem_of_mem hm
        have hi' : i < blk'.length := by omega
        obtain ⟨fc0, e1, e2⟩ := hsp i _ _ (by rw [List.getElem?_eq_getElem hi, he]) (List.getElem?_eq_getElem hi')
        simp only [FmtLine.normal.injEq] at e1
        subst e1
        exact ⟨w, by rw [← e2]; simp⟩
      · obtain ⟨w, hw⟩ := ih.2 fc hm hcl
        exact ⟨w, by simp [hw]⟩

/-- How the lines of the text come from the lines before wrapping. -/
private theorem wrapped {cw : Char → Nat} {ws : Char → Bool} {skin : Skin} {ow : Option Nat} (h3 : ∀ w, ow = some w → 3 ≤ w)
    {lines : List FmtLine} (hj : ∀ l ∈ lines, ReadyLine cw skin (ow.getD usizeMax) l) :
    ∃ out, wrapText cw ws skin ow lines = some out ∧
      (∀ l ∈ out, DrawableLine cw skin l ∧ (l ∈ lines ∨ ∃ fc, l = .normal fc ∧ fc.spacing = none)) ∧
      ∀ l ∈ lines, (FinalLine cw skin (ow.getD usizeMax) l) → l ∈ out := by
  have hsc : ∀ c : FmtComposite, c.spacing = none → spacedCols c = c.visibleLength := by
    intro c hc; simp [spacedCols, hc]
  cases ow with
  | none =>
    refine ⟨lines, rfl, ?_, fun l h _ => h⟩
    intro l hl
    refine ⟨?_, .inl hl⟩
    rcases hj l hl with h | ⟨fc, rfl, hg, hs, _⟩
    · exact h.1
    · exact hg.drawable (by rw [hsc _ hs]; exact Nat.le_refl _)
  | some w =>
    have h3 := h3 w rfl
    simp only [Option.getD_some] at hj
    obtain ⟨out, ho, hfin⟩ := hardWrapLines_final (ws := ws) h3 hj
    obtain ⟨e1, e2⟩ := hardWrapLines_ok ho
    have one : ∀ l, (∀ fc, l = .normal fc → ∃ ls, styleOf skin fc.kind = some ls ∧ fc.visibleLength + marginSum ls w ≤ w) →
        wrapOne cw ws skin w l = some (.ok [l]) := by
      intro l hl
      cases l with
      | normal fc =>
        obtain ⟨ls, h1, h2⟩ := hl fc rfl
        simp only [wrapOne]
        rw [hardWrapLine_eq, h1]
        simp [h2, Except.map]
      | _ => rfl
    have final_one : ∀ l, FinalLine cw skin w l → wrapOne cw ws skin w l = some (.ok [l]) := by
      intro l hf
      apply one
      rintro fc rfl
      cases hs : styleOf skin fc.kind with
      | none => exact absurd hs hf.1.styled
      | some ls =>
        refine ⟨ls, rfl, ?_⟩
        have ho := hf.2
        simp only [ownCols, hs, Option.map_some, Option.getD_some] at ho
        have := hf.1.fits
        omega
    refine ⟨out, by simp [wrapText, h3, ho], ?_, ?_⟩
    · intro l hl
      refine ⟨(hfin l hl).1, ?_⟩
      rw [e1] at hl
      simp only [List.mem_flatMap] at hl
      obtain ⟨x, hx, hl⟩ := hl
      rcases hj x hx with hf | ⟨fc, rfl, hg, hs, _⟩
      · have e := e2 x hx
        rw [final_one x hf] at e
        simp only [Option.some.injEq, Except.ok.injEq] at e
        rw [← e] at hl
        simp only [List.mem_singleton] at hl
        subst hl
        exact .inl hx
      · right
        have e := e2 _ hx
        simp only [wrapOne, hardWrapLine_eq] at e
        cases hst : styleOf skin fc.kind with
        | none => exact absurd hst hg.styled
        | some ls =>
          simp only [hst, Option.bind_some] at e
          by_cases hle : fc.visibleLength + marginSum ls w ≤ w
          · rw [if_pos hle] at e
            simp only [Option.map_some, Except.map, Option.some.injEq, Except.ok.injEq, List.map_cons, List.map_nil] at e
            rw [← e] at hl
            simp only [List.mem_singleton] at hl
            exact ⟨fc, hl, hs⟩
          · rw [if_neg hle] at e
            cases hw : hardWrapComposite cw ws skin fc (w - marginSum ls w) with
            | none => simp [hw] at e
            | some r =>
              cases r with
              | error _ => simp [hw, Except.map] at e
              | ok fcs =>
                simp only [hw, Option.map_some, Except.map, Option.some.injEq, Except.ok.injEq] at e
                rw [← e] at hl
                simp only [List.mem_map] at hl
                obtain ⟨g, hg', rfl⟩ := hl
                obtain ⟨_, _, _, l0, more, w6, _, w9, w8⟩ := hardWrapComposite_text hw
                refine ⟨g, rfl, ?_⟩
                rw [w6] at hg'
                rcases List.mem_cons.1 hg' with rfl | hg'
                · rw [w9, hs]
                · rw [(w8 g hg').2, hs]
    · intro l hl hf
      rw [e1]
      simp only [List.mem_flatMap]
      refine ⟨l, hl, ?_⟩
      have e := e2 l hl
      rw [final_one l hf] at e
      simp only [Option.some.injEq, Except.ok.injEq] at e
      rw [← e]
      simp

/-- C57: for every text (whose lines can have a place in the width it's made for, if there's one), whose tables have a rule, the
content width is the number of columns of the widest line, without margins. -/
theorem C57_content_width (cw : Char → Nat) (ws : Char → Bool) (skin : Skin) (ow : Option Nat) (h3 : ∀ w, ow = some w → 3 ≤ w)
    (mlines : List MLine) (h : FittingText cw skin (ow.getD usizeMax) mlines)
    (hrules : ∀ tbl, IsTableOf (mlines.map (FmtLine.ofMLine skin cw)) tbl → ∃ rule, .tableRule rule ∈ tbl) :
    ∃ t, FmtText.fromText cw ws skin mlines ow = some t ∧
      (∀ l ∈ t.lines, DrawableLine cw skin l ∧ Spec.contentCols l ≤ t.contentWidth) ∧
      (t.lines ≠ [] → ∃ l ∈ t.lines, Spec.contentCols l = t.contentWidth) := by
  have h3' : 3 ≤ ow.getD usizeMax := by
    cases ow with
    | none => decide
    | some w => exact h3 w rfl
  obtain ⟨lines, hl, hready⟩ := fixAll_ready (ws := ws) h3' h
  have hj := justify_ready h hready
  obtain ⟨out, ho, hout, hkeep⟩ := wrapped (ws := ws) h3 hj
  refine ⟨⟨out, ow⟩, by simp [FmtText.fromText, hl, ho], ?_⟩
  have hJ := justifyBlocks_spec lines
  have key : ∀ l ∈ out, ∃ l' ∈ out, Spec.contentCols l ≤ l'.visibleLength := by
    intro l hm
    have hnone : ∀ fc, l = .normal fc → fc.spacing = none → ∃ l' ∈ out, Spec.contentCols l ≤ l'.visibleLength := by
      rintro fc rfl hs
      refine ⟨_, hm, ?_⟩
      simp [Spec.contentCols, spacedCols, hs, FmtLine.visibleLength]
    rcases (hout l hm).2 with hmJ | ⟨fc, e, hs⟩
    · rcases hJ.mem l hmJ with ⟨h1, h2⟩ | ⟨fc, w, h1, h2, rfl, h4, fc', h5, h6, h7⟩
      · rcases hready l h2 with ⟨hf, _⟩ | ⟨k, cs, _, e⟩
        · cases l with
          | normal fc =>
            have hsp : ∀ fc, .normal fc ∈ lines → fc.spacing = none := by
              intro fc hfc
              have hfix := fixAllTables_spec (R := fun tbl tbl' => ∀ l ∈ tbl', IsTableLine l) (cw := cw) (ws := ws) (skin := skin)
                (width := ow.getD usizeMax) (by
                  intro tbl tbl' hl hf
                  rcases fixTableLines_text hl hf with ⟨_, e⟩ | ⟨_, _, hb, _⟩
                  · rw [e]; exact hl
                  · exact Blocks.tableLines hb) _ _ hl
              rcases TablesFixed.mem hfix _ hfc with ⟨_, hmem⟩ | ⟨tbl, tbl', hR, _, hm⟩
              · simp only [List.mem_map] at hmem
                obtain ⟨m, _, hm⟩ := hmem
                cases m with
                | normal k cs => simp only [FmtLine.ofMLine, FmtLine.normal.injEq] at hm; rw [← hm]; rfl
                | _ => simp [FmtLine.ofMLine] at hm
              · exact absurd (hR _ hm) id
            exact hnone fc rfl (hsp fc h2)
          | tableRow cells =>
            obtain ⟨rule, hr, e⟩ := row_rule h3' h hrules hl h2
            have hrJ : .tableRule rule ∈ justifyBlocks lines := (Justified.keeps hJ).1 _ hr id
            have hrf : FinalLine cw skin (ow.getD usizeMax) (.tableRule rule) := by
              rcases hready _ hr with ⟨hf, _⟩ | ⟨_, _, _, e⟩
              · exact hf
              · cases e
            refine ⟨_, hkeep _ hrJ hrf, ?_⟩
            rw [← e]
            simp only [FmtLine.visibleLength, Spec.contentCols]
            rw [foldl_sum_aux (fun w => w), Nat.zero_add]
            exact Nat.le_refl _
          | tableRule rule =>
            refine ⟨_, hm, ?_⟩
            simp only [FmtLine.visibleLength, Spec.contentCols]
            rw [foldl_sum_aux (fun w => w), Nat.zero_add]
            exact Nat.le_refl _
          | horizontalRule => exact ⟨_, hm, Nat.zero_le _⟩
        · exact hnone _ e rfl
      · obtain ⟨w', hw'⟩ := (Justified.keeps hJ).2 fc' h5 h6
        have hf : FinalLine cw skin (ow.getD usizeMax) (.normal { fc' with spacing := some ⟨w', .left⟩ }) := by
          rcases hj _ hw' with hf | ⟨g, e, _, hs, _⟩
          · exact hf
          · simp only [FmtLine.normal.injEq] at e
            rw [← e] at hs
            simp at hs
        refine ⟨_, hkeep _ hw' hf, ?_⟩
        simp [Spec.contentCols, spacedCols, FmtLine.visibleLength, h7]
    · exact hnone fc e hs
  obtain ⟨_, f2, f3⟩ := foldl_max FmtLine.visibleLength out 0
  have le : ∀ l ∈ out, Spec.contentCols l ≤ FmtText.contentWidth ⟨out, ow⟩ := by
    intro l hm
    obtain ⟨l', hm', h1⟩ := key l hm
    exact Nat.le_trans h1 (f2 l' hm')
  refine ⟨fun l hm => ⟨(hout l hm).1, le l hm⟩, ?_⟩
  intro hne
  rcases f3 with f3 | ⟨l, hm, f3⟩
  · obtain ⟨l, hm⟩ := List.exists_mem_of_ne_nil _ hne
    refine ⟨l, hm, ?_⟩
    have := le l hm
    have e : FmtText.contentWidth ⟨out, ow⟩ = 0 := f3
    omega
  · refine ⟨l, hm, ?_⟩
    have h1 := le l hm
    have h2 := visible_le (hout l hm).1
    have e : l.visibleLength = FmtText.contentWidth ⟨out, ow⟩ := f3
    omega

/-- C57: rendering such a text in a width which is at least its content width, and leaves place for the margins, keeps all lines in
this width. -/
theorem C57_fits (cw : Char → Nat) (ws : Char → Bool) (skin : Skin) (hs : OneColumnSkin cw skin) (ow : Option Nat)
    (h3 : ∀ w, ow = some w → 3 ≤ w) (mlines : List MLine) (h : FittingText cw skin (ow.getD usizeMax) mlines)
    (hrules : ∀ tbl, IsTableOf (mlines.map (FmtLine.ofMLine skin cw)) tbl → ∃ rule, .tableRule rule ∈ tbl) :
    ∃ t, FmtText.fromText cw ws skin mlines ow = some t ∧ ∀ w,
      (∀ l ∈ t.lines, t.contentWidth + (Spec.margins skin w l).1 + (Spec.margins skin w l).2 ≤ w) →
      ∃ drawn, (t.setRenderingWidth w).display skin = some drawn ∧ drawn.length = t.lines.length ∧
        ∀ ps ∈ drawn, piecesCols cw ps ≤ w := by
  obtain ⟨t, ht, h1, _⟩ := C57_content_width cw ws skin ow h3 mlines h hrules
  refine ⟨t, ht, ?_⟩
  intro w hw
  have hdraw : ∀ l ∈ t.lines, ∃ ps, skin.writeFmtLine l (some w) false = some ps ∧ piecesCols cw ps ≤ w := by
    intro l hm
    obtain ⟨ps, p1, p2⟩ := C10_no_completion_columns cw skin hs l (h1 l hm).1 w
    refine ⟨ps, p1, ?_⟩
    have e : ownCols skin w l = Spec.contentCols l + (Spec.margins skin w l).1 + (Spec.margins skin w l).2 := by
      cases l with
      | normal fc =>
        simp only [ownCols, Spec.contentCols, Spec.margins]
        cases styleOf skin fc.kind with
        | none => rfl
        | some ls =>
          simp only [Option.map_some, Option.getD_some, marginSum]
          by_cases hm : ls.leftMargin + ls.rightMargin + 3 ≤ w
          · rw [if_pos hm, if_pos hm]; omega
          · rw [if_neg hm, if_neg hm]; rfl
      | _ => rfl
    have := hw l hm
    have := (h1 l hm).2
    omega
  obtain ⟨drawn, hdr⟩ := mapM_some (f := fun l => skin.writeFmtLine l (some w) false) (l := t.lines)
    (fun l hm => by obtain ⟨ps, p1, _⟩ := hdraw l hm; exact ⟨ps, p1⟩)
  obtain ⟨e1, e2, _⟩ := mapM_get hdr
  refine ⟨drawn, hdr, e1, ?_⟩
  intro ps hps
  obtain ⟨l, hm, he⟩ := e2 ps hps
  obtain ⟨ps', p1, p2⟩ := hdraw l hm
  rw [p1] at he
  simp only [Option.some.injEq] at he
  subst he
  exact p2

/-- A table without rule is larger than the content width: neither its borders nor the widths of its columns are counted. -/
theorem C57_no_rule_counterexample :
    (FmtText.fromText renderCw (· == ' ') {} [.tableRow [(.paragraph, [⟨"a".toList, {}⟩]), (.paragraph, [⟨"b".toList, {}⟩])]] none).map
      (fun t => (t.contentWidth, t.lines.map Spec.contentCols)) = some (2, [9]) := by decide +kernel

theorem exText_fits_max : FittingText renderCw renderSkin usizeMax exText := by
  refine ⟨?_, ?_, C11_tables _ _ _ 2 _ (by decide +kernel) ?_ ?_⟩
  · intro kind cs hm
    simp only [exText, List.mem_cons, MLine.normal.injEq, reduceCtorEq, List.not_mem_nil, or_false] at hm
    rcases hm with ⟨rfl, rfl⟩ | ⟨rfl, rfl⟩ | ⟨rfl, rfl⟩ | ⟨rfl, rfl⟩
    · exact ⟨by intro d h; simp at h, _, rfl, by simp, by decide +kernel, by decide +kernel⟩
    · exact ⟨by intro d h; simp at h; omega, _, rfl, by simp, by decide +kernel, by decide +kernel⟩
    · exact ⟨by intro d h; simp at h, _, rfl, by decide +kernel, by decide +kernel, by decide +kernel⟩
    · exact ⟨by intro d h; simp at h, _, rfl, by decide +kernel, by decide +kernel, by decide +kernel⟩
  · exact exText_fits.cells
  · decide
  · intro cells hm
    simp only [exText, List.map_cons, List.map_nil, FmtLine.ofMLine, List.mem_cons, FmtLine.tableRow.injEq, reduceCtorEq,
      List.not_mem_nil, or_false, false_or] at hm
    rcases hm with rfl | rfl
    · decide
    · decide

theorem exText_rules : ∀ tbl, IsTableOf (exText.map (FmtLine.ofMLine renderSkin renderCw)) tbl → ∃ rule, .tableRule rule ∈ tbl := by
  rintro tbl ⟨hne, htl, before, after, e, hb, ha⟩
  generalize hL : exText.map (FmtLine.ofMLine renderSkin renderCw) = L at e
  have hlen : L.length = 8 := by rw [← hL]; rfl
  have hk : ∀ i l, L[i]? = some l → (IsTableLine l ↔ 4 ≤ i ∧ i ≤ 6) := by
    have : ∀ i : Fin 8, ∀ l, L[i.1]? = some l → (IsTableLine l ↔ 4 ≤ i.1 ∧ i.1 ≤ 6) := by
      rw [← hL]
      intro i l h
      have : ∀ i : Fin 8, ((exText.map (FmtLine.ofMLine renderSkin renderCw))[i.1]?.all fun l => decide (IsTableLine l) = decide (4 ≤ i.1 ∧ i.1 ≤ 6)) = true := by
        decide
      have := this i
      rw [h] at this
      simpa [decide_eq_decide, ← Bool.decide_and] using this
    intro i l h
    by_cases hi : i < 8
    · exact this ⟨i, hi⟩ l h
    · rw [List.getElem?_eq_none (by omega)] at h; cases h
  have h5 : L[5]? = some (.tableRule { position := .other, widths := [], aligns := [.center, .left] }) := by rw [← hL]; rfl
  cases tbl with
  | nil => exact absurd rfl hne
  | cons a tbl =>
    have h1 := (hk before.length a (by rw [e]; simp)).1 (htl a (by simp))
    have h2 : before.length = 4 := by
      by_cases h : before.length = 4
      · exact h
      · exfalso
        cases hlast : before.getLast? with
        | none => rw [List.getLast?_eq_none_iff] at hlast; subst hlast; simp at h1
        | some x =>
          have hx : L[before.length - 1]? = some x := by
            rw [e, List.append_assoc, List.getElem?_append_left (by omega), ← List.getLast?_eq_getElem?, hlast]
          exact hb x hlast ((hk _ x hx).2 (by omega))
    cases tbl with
    | nil =>
      exfalso
      have hx : L[5]? = after.head? := by
        rw [e, List.getElem?_append_right (by simp [h2]), List.head?_eq_getElem?]; simp [h2]
      rw [h5] at hx
      exact ha _ hx.symm trivial
    | cons b tbl =>
      have hx : L[5]? = some b := by
        rw [e, List.append_assoc, List.getElem?_append_right (by omega)]; simp [h2]
      rw [h5] at hx
      simp only [Option.some.injEq] at hx
      exact ⟨_, by rw [hx]; exact List.mem_cons_of_mem _ (List.mem_cons_self ..)⟩

/-- The content width of the text of C11 is the one of its list item, aligned on the right in the rendering width. -/
example : (FmtText.fromText renderCw (· == ' ') renderSkin exText none).map (fun t => (t.contentWidth, t.lines.map Spec.contentCols)) =
    some (20, [7, 20, 6, 6, 16, 16, 16, 0]) := by decide +kernel

example : ((FmtText.fromText renderCw (· == ' ') renderSkin exText none).bind fun t => ((t.setRenderingWidth 23).display renderSkin).map
      fun rows => rows.map fun ps => String.ofList (piecesText ps)) =
    some ["A title", "  • some words to wrap", "fn f()", "{}    ", "│col │一 second│", "├────┼─────────┤", "│cell│         │",
      "―――――――――――――――――――――――"] := by decide +kernel

example : ((FmtText.fromText renderCw (· == ' ') renderSkin exText none).bind fun t => ((t.setRenderingWidth 26).display renderSkin).map
      fun rows => rows.map fun ps => String.ofList (piecesText ps)) =
    some ["A title", "     • some words to wrap", "fn f()", "{}    ", "│col │一 second│", "├────┼─────────┤", "│cell│         │",
      "――――――――――――――――――――――――――"] := by decide +kernel

end Verif.Props

import Verif.Props.Chunks
import Verif.Props.Special
import Verif.Props.WholeText
import Verif.Props.Render
import Verif.Props.Wrap
import Verif.Lemmas.Panics
import Verif.Spec.CodeRect
/-! C103: a block of code is displayed as a rectangle. -/
namespace Verif.Props
open Verif Spec

/-- A line of the block, once the block is justified. -/
def spacedLine (cw : Char → Nat) (m : Nat) (line : List Compound) : FmtComposite :=
  { kind := .code, compounds := line, visibleLength := codeCols cw line, spacing := some ⟨m, .left⟩ }

theorem ofComposite_code (cw : Char → Nat) (skin : Skin) (line : List Compound) :
    FmtComposite.ofComposite skin cw .code line = { kind := .code, compounds := line, visibleLength := codeCols cw line, spacing := none } := by
  have h := (C03_creation cw skin .code line ⟨[], {}⟩ FmtComposite.new).1
  have e : (FmtComposite.ofComposite skin cw .code line).visibleLength = codeCols cw line := by
    rw [h]; simp [lineCols, prefixCols, codeCols, FmtComposite.ofComposite]
  simp only [FmtComposite.ofComposite] at e ⊢
  rw [e]

theorem longestCols_ge {cw : Char → Nat} : ∀ {block : List (List Compound)} {l : List Compound}, l ∈ block → codeCols cw l ≤ longestCols cw block
  | x :: xs, l, h => by
    simp only [longestCols, List.map_cons, List.foldr_cons] 
    rcases List.mem_cons.1 h with rfl | h
    · omega
    · have := longestCols_ge (cw := cw) h
      simp only [longestCols] at this
      omega

theorem longestCols_mem {cw : Char → Nat} : ∀ {block : List (List Compound)}, block ≠ [] → ∃ l ∈ block, codeCols cw l = longestCols cw block
  | [x], _ => ⟨x, by simp, by simp [longestCols]⟩
  | x :: y :: ys, _ => by
    obtain ⟨l, h1, h2⟩ := longestCols_mem (cw := cw) (block := y :: ys) (by simp)
    simp only [longestCols, List.map_cons, List.foldr_cons] at h2 ⊢
    by_cases hle : codeCols cw x ≤ max (codeCols cw y) ((ys.map (codeCols cw)).foldr max 0)
    · exact ⟨l, by simp_all, by omega⟩
    · exact ⟨x, by simp, by omega⟩

theorem maxLen_cols (cw : Char → Nat) (skin : Skin) : ∀ block : List (List Compound),
    maxLen ((codeBlockOf block).map (FmtLine.ofMLine skin cw)) = longestCols cw block
  | [] => rfl
  | x :: xs => by
    have ih := maxLen_cols cw skin xs
    simp only [codeBlockOf, longestCols, List.map_cons, List.foldr_cons, maxLen, FmtLine.ofMLine, ofComposite_code, FmtLine.visibleLength] at ih ⊢
    rw [ih]

theorem tables_code {cw : Char → Nat} {ws : Char → Bool} {skin : Skin} {width : Nat} : ∀ block : List (List Compound),
    fixAllTables cw ws skin width ((codeBlockOf block).map (FmtLine.ofMLine skin cw)) = some ((codeBlockOf block).map (FmtLine.ofMLine skin cw))
  | [] => rfl
  | x :: xs => by
    have ih := tables_code (cw := cw) (ws := ws) (skin := skin) (width := width) xs
    simp only [codeBlockOf, List.map_cons] at ih ⊢
    rw [fixAllTables_other (by simp [FmtLine.ofMLine, IsTableLine]), ih]
    rfl

theorem justify_code {cw : Char → Nat} {skin : Skin} {block : List (List Compound)} (hne : block ≠ []) :
    justifyBlocks ((codeBlockOf block).map (FmtLine.ofMLine skin cw)) = block.map fun l => .normal (spacedLine cw (longestCols cw block) l) := by
  have h := justifyBlocks_block (blk := (codeBlockOf block).map (FmtLine.ofMLine skin cw)) (lines := []) (by simpa [codeBlockOf] using hne)
    (by intro l hl; simp only [codeBlockOf, List.mem_map] at hl; obtain ⟨_, ⟨c, _, rfl⟩, rfl⟩ := hl; simp [FmtLine.ofMLine, IsCodeLine, ofComposite_code])
    (by simp)
  rw [List.append_nil] at h
  rw [h, maxLen_cols]
  simp only [codeBlockOf, List.map_map]
  have e : justifyBlocks [] = [] := rfl
  rw [e, List.append_nil]
  apply List.map_congr_left
  intro l _
  simp [Function.comp, FmtLine.ofMLine, ofComposite_code, setCodeSpacing, spacedLine]

theorem sublist_sum {α : Type} (f : α → Nat) : ∀ {a b : List α}, a.Sublist b → (a.map f).sum ≤ (b.map f).sum := by
  intro a b h
  induction h with
  | slnil => simp
  | cons x _ ih => simp only [List.map_cons, List.sum_cons]; omega
  | cons_cons x _ ih => simp only [List.map_cons, List.sum_cons]; omega

/-- The lines a line of code is wrapped in. -/
structure RowsOf (cw : Char → Nat) (m : Nat) (line : List Compound) (fcs : List FmtComposite) : Prop where
  kind : ∀ fc ∈ fcs, fc.kind = .code
  spacing : ∀ fc ∈ fcs, fc.spacing = some ⟨m, .left⟩
  cached : ∀ fc ∈ fcs, fc.visibleLength = codeCols cw fc.compounds
  cols : ∀ fc ∈ fcs, codeCols cw fc.compounds ≤ codeCols cw line

theorem RowsOf.one (cw : Char → Nat) (m : Nat) (line : List Compound) : RowsOf cw m line [spacedLine cw m line] := by
  constructor <;> (intro fc hfc; simp only [List.mem_singleton] at hfc; subst hfc; simp [spacedLine])

theorem wrap_code_line (cw : Char → Nat) (ws : Char → Bool) (skin : Skin) (width : Option Nat) (m : Nat) (line : List Compound) :
    ∃ fcs : List FmtComposite, wrapText cw ws skin width [.normal (spacedLine cw m line)] = some (fcs.map .normal) ∧ fcs ≠ [] ∧
      RowsOf cw m line fcs ∧
      ((∀ w, width = some w → codeCols cw line + marginSum skin.codeBlock w ≤ w) → fcs = [spacedLine cw m line]) := by
  cases width with
  | none => exact ⟨_, rfl, by simp, RowsOf.one cw m line, fun _ => rfl⟩
  | some w =>
    simp only [wrapText]
    by_cases hw : w ≥ 3
    · rw [if_pos hw]
      have e : hardWrapLine cw ws skin w (spacedLine cw m line) =
          if codeCols cw line + marginSum skin.codeBlock w ≤ w then some (.ok [spacedLine cw m line])
          else hardWrapComposite cw ws skin (spacedLine cw m line) (w - marginSum skin.codeBlock w) := by
        rw [hardWrapLine_eq]; rfl
      by_cases hf : codeCols cw line + marginSum skin.codeBlock w ≤ w
      · rw [if_pos hf] at e
        refine ⟨[spacedLine cw m line], ?_, by simp, RowsOf.one cw m line, fun _ => rfl⟩
        simp [hardWrapLines, e]
      · rw [if_neg hf] at e
        have hms : 3 ≤ w - marginSum skin.codeBlock w := by simp only [marginSum]; split <;> omega
        obtain ⟨fcs, hfcs⟩ := hardWrapComposite_total cw ws skin (spacedLine cw m line) (w - marginSum skin.codeBlock w) hms
          (by simp only [spacedLine]; omega) (by simp [spacedLine, prefixCols])
        obtain ⟨t1, _, t3, l0, more, t4, t5, t6, t7⟩ := hardWrapComposite_text hfcs
        have hk : ∀ fc ∈ fcs, fc.kind = .code ∧ fc.spacing = some ⟨m, .left⟩ := by
          intro fc hfc
          rw [t4] at hfc
          rcases List.mem_cons.1 hfc with rfl | hfc
          · exact ⟨t5, t6⟩
          · exact t7 fc hfc
        have hc : ∀ fc ∈ fcs, fc.visibleLength = codeCols cw fc.compounds := by
          intro fc hfc
          rw [t3 fc hfc]
          simp [lineCols, (hk fc hfc).1, prefixCols, codeCols]
        refine ⟨fcs, ?_, by rw [t4]; simp, ⟨fun fc h => (hk fc h).1, fun fc h => (hk fc h).2, hc, ?_⟩, fun h => absurd (h w rfl) hf⟩
        · simp [hardWrapLines, e, hfcs]
        · intro fc hfc
          refine sublist_sum _ (List.Sublist.trans ?_ t1)
          obtain ⟨a, b, rfl⟩ := List.append_of_mem hfc
          simp only [linesChars, List.flatMap_append, List.flatMap_cons]
          exact (List.sublist_append_left _ _).trans (List.sublist_append_right _ _)
    · rw [if_neg hw]
      exact ⟨_, rfl, by simp, RowsOf.one cw m line, fun _ => rfl⟩

theorem wrap_code (cw : Char → Nat) (ws : Char → Bool) (skin : Skin) (width : Option Nat) (m : Nat) : ∀ block : List (List Compound),
    (∀ l ∈ block, codeCols cw l ≤ m) →
    ∃ fcs : List FmtComposite, wrapText cw ws skin width (block.map fun l => .normal (spacedLine cw m l)) = some (fcs.map .normal) ∧
      block.length ≤ fcs.length ∧
      (∀ fc ∈ fcs, fc.kind = .code ∧ fc.spacing = some ⟨m, .left⟩ ∧ fc.visibleLength = codeCols cw fc.compounds ∧ codeCols cw fc.compounds ≤ m) ∧
      ((∀ w, width = some w → ∀ l ∈ block, codeCols cw l + marginSum skin.codeBlock w ≤ w) → fcs.map (·.compounds) = block)
  | [], _ => by
    refine ⟨[], ?_, by simp, by simp, fun _ => rfl⟩
    cases width with
    | none => rfl
    | some w => simp only [wrapText]; split <;> rfl
  | x :: xs, h => by
    obtain ⟨more, m1, m2, m3, m4⟩ := wrap_code cw ws skin width m xs (fun l hl => h l (by simp [hl]))
    obtain ⟨fcs, f1, f2, f3, f4⟩ := wrap_code_line cw ws skin width m x
    refine ⟨fcs ++ more, ?_, ?_, ?_, ?_⟩
    · have e := ChunksLemmas.wrapText_append (cw := cw) (ws := ws) (skin := skin) width [.normal (spacedLine cw m x)] (xs.map fun l => .normal (spacedLine cw m l))
      simp only [List.map_cons]
      rw [List.singleton_append] at e
      rw [e, f1, m1]
      simp
    · have : 1 ≤ fcs.length := by
        cases fcs with
        | nil => exact absurd rfl f2
        | cons a b => simp
      simp only [List.length_cons, List.length_append]; omega
    · intro fc hfc
      rcases List.mem_append.1 hfc with hfc | hfc
      · have := f3.cols fc hfc
        have := h x (by simp)
        exact ⟨f3.kind fc hfc, f3.spacing fc hfc, f3.cached fc hfc, by omega⟩
      · exact m3 fc hfc
    · intro hf
      rw [List.map_append, f4 (fun w hw => hf w hw x (by simp)), m4 (fun w hw l hl => hf w hw l (by simp [hl]))]
      rfl

/-- The columns before and after a rectangle of `m` columns. -/
def rectX (ls : LineStyle) (m : Nat) (rendering : Option Nat) : Nat × Nat :=
  let mg := ls.marginsIn rendering
  let po := Spacing.optionalCompletions ls.align (m + mg.1 + mg.2) rendering
  (po.1 + mg.1, po.2 + mg.2)

theorem rectX_placed (ls : LineStyle) (m : Nat) (rendering : Option Nat) :
    RectanglePlaced ls m (rectX ls m rendering).1 (rectX ls m rendering).2 rendering := by
  cases rendering with
  | none => simp [RectanglePlaced, rectX, LineStyle.marginsIn, Spacing.optionalCompletions]
  | some w =>
    intro h1 h2
    have e : ls.marginsIn (some w) = (ls.leftMargin, ls.rightMargin) := by
      simp only [LineStyle.marginsIn]; rw [if_neg (by omega)]
    simp only [rectX, e, Spacing.optionalCompletions, Spacing.completions]
    cases ls.align <;> simp only [Placed] <;> split <;> simp <;> omega

theorem row_of_code {cw : Char → Nat} {skin : Skin} {fc : FmtComposite} {m : Nat} (hk : fc.kind = .code) (hs : fc.spacing = some ⟨m, .left⟩)
    (hc : fc.visibleLength = codeCols cw fc.compounds) (hle : codeCols cw fc.compounds ≤ m) (rendering : Option Nat) :
    ∃ row, IsRowOfCode cw skin (rectX skin.codeBlock m rendering).1 m fc.compounds row ∧
      skin.writeFmtLine (.normal fc) rendering false = some row ∧
      skin.writeFmtLine (.normal fc) rendering true = some (row ++ repeatChar skin.paragraph.style ' ' (rectX skin.codeBlock m rendering).2) := by
  refine ⟨_, ⟨m - codeCols cw fc.compounds, by omega, rfl⟩, ?_⟩
  have e1 : fc.innerWidth = m := by simp [FmtComposite.innerWidth, hs]
  have e2 : fc.completions = (0, m - codeCols cw fc.compounds) := by
    simp only [FmtComposite.completions, hs, Spacing.completionsFor, Spacing.completions, hc]
    split
    · simp; omega
    · rfl
  simp only [Skin.writeFmtLine, Skin.writeFmtComposite, hk, Skin.lineStyle, Skin.writePrefix, Option.bind_eq_bind, Option.bind_some, e1, e2, rectX,
    writeCompounds_drawnFor]
  simp [repeatChar]

/-- C103: a block of code, alone, can always be formatted. Whatever the width it's then written in, its rows make a rectangle: they start at the
same column and end at the same column, the rectangle having the columns of the longest line of the source; this rectangle is placed according to
the margins and alignment of the style of code blocks. When no line is too long for the width, the rows are the lines of the source. -/
theorem C103_block (cw : Char → Nat) (ws : Char → Bool) (skin : Skin) (block : List (List Compound)) (width : Option Nat) :
    ∃ fcs : List FmtComposite, FmtText.fromText cw ws skin (codeBlockOf block) width = some { lines := fcs.map .normal, width } ∧
      (∀ fc ∈ fcs, fc.kind = .code) ∧ block.length ≤ fcs.length ∧
      ((∀ w, width = some w → ∀ l ∈ block, codeCols cw l + marginSum skin.codeBlock w ≤ w) → fcs.map (·.compounds) = block) ∧
      ∀ rendering, ∃ x y, RectanglePlaced skin.codeBlock (longestCols cw block) x y rendering ∧
        ∀ fc ∈ fcs, ∃ row, IsRowOfCode cw skin x (longestCols cw block) fc.compounds row ∧
          skin.writeFmtLine (.normal fc) rendering false = some row ∧
          skin.writeFmtLine (.normal fc) rendering true = some (row ++ repeatChar skin.paragraph.style ' ' y) := by
  obtain ⟨fcs, f1, f2, f3, f4⟩ := wrap_code cw ws skin width (longestCols cw block) block (fun l hl => longestCols_ge hl)
  refine ⟨fcs, ?_, fun fc hfc => (f3 fc hfc).1, f2, f4, ?_⟩
  · simp only [FmtText.fromText, tables_code, Option.bind_eq_bind, Option.bind_some]
    by_cases hne : block = []
    · subst hne
      have e : justifyBlocks ((codeBlockOf []).map (FmtLine.ofMLine skin cw)) = [] := rfl
      rw [e]
      rw [List.map_nil] at f1
      rw [f1]
      rfl
    · rw [justify_code hne, f1]
      rfl
  · intro rendering
    refine ⟨_, _, rectX_placed skin.codeBlock (longestCols cw block) rendering, ?_⟩
    intro fc hfc
    obtain ⟨h1, h2, h3, h4⟩ := f3 fc hfc
    exact row_of_code h1 h2 h3 h4 rendering

/-- C103: a block of code of a text, with other lines before and after it: the lines of the formatted text are those of what's before, then the rows of
the block, which make a rectangle, then the lines of what's after. -/
theorem C103_in_text (cw : Char → Nat) (ws : Char → Bool) (skin : Skin) (before after : List MLine) (block : List (List Compound)) (hne : block ≠ [])
    (hb : ∀ cs, before.getLast? ≠ some (.normal .code cs)) (ha : ∀ cs, after.head? ≠ some (.normal .code cs)) (width : Option Nat) (t : FmtText)
    (h : FmtText.fromText cw ws skin (before ++ codeBlockOf block ++ after) width = some t) :
    ∃ (above below : List FmtLine) (fcs : List FmtComposite), t.lines = above ++ fcs.map .normal ++ below ∧
      ReplacedBy (Holds ws width) before above ∧ ReplacedBy (Holds ws width) (codeBlockOf block) (fcs.map .normal) ∧
      ReplacedBy (Holds ws width) after below ∧
      ((∀ w, width = some w → ∀ l ∈ block, codeCols cw l + marginSum skin.codeBlock w ≤ w) → fcs.map (·.compounds) = block) ∧
      ∀ rendering, ∃ x y, RectanglePlaced skin.codeBlock (longestCols cw block) x y rendering ∧
        ∀ fc ∈ fcs, ∃ row, IsRowOfCode cw skin x (longestCols cw block) fc.compounds row ∧
          skin.writeFmtLine (.normal fc) rendering false = some row ∧
          skin.writeFmtLine (.normal fc) rendering true = some (row ++ repeatChar skin.paragraph.style ' ' y) := by
  obtain ⟨fcs, f1, f2, f3, f4, f5⟩ := C103_block cw ws skin block width
  have hcode : ∀ m, m ∈ codeBlockOf block → ∃ cs, m = .normal .code cs := by
    intro m hm
    simp only [codeBlockOf, List.mem_map] at hm
    obtain ⟨c, _, rfl⟩ := hm
    exact ⟨c, rfl⟩
  have hcs : ∀ m, CodeSource m → ∃ cs, m = .normal .code cs := by
    intro m hm
    unfold CodeSource at hm
    split at hm
    · exact ⟨_, rfl⟩
    · exact hm.elim
  have hs2 : Separated (before ++ codeBlockOf block) after := by
    intro x y hx hy
    have hmem : x ∈ codeBlockOf block := by
      cases hl : (codeBlockOf block).getLast? with
      | none => exact absurd (List.getLast?_eq_none_iff.1 hl) (by simpa [codeBlockOf] using hne)
      | some z =>
        rw [List.getLast?_append, hl] at hx
        simp only [Option.some.injEq, Option.some_or] at hx
        subst hx
        exact List.mem_of_getLast? hl
    obtain ⟨c, rfl⟩ := hcode x hmem
    refine ⟨fun h => h.1.elim, fun h => ?_⟩
    obtain ⟨c', rfl⟩ := hcs y h.2
    exact ha c' hy
  have hs1 : Separated before (codeBlockOf block) := by
    intro x y hx hy
    obtain ⟨c, rfl⟩ := hcode y (List.mem_of_mem_head? hy)
    refine ⟨fun h => h.2.elim, fun h => ?_⟩
    obtain ⟨c', rfl⟩ := hcs x h.1
    exact hb c' hx
  rw [C98_lines width _ _ hs2] at h
  simp only [Option.bind_eq_some_iff, Option.map_eq_some_iff] at h
  obtain ⟨tab, h1, tc, h2, h3⟩ := h
  rw [C98_lines width _ _ hs1] at h1
  simp only [Option.bind_eq_some_iff, Option.map_eq_some_iff] at h1
  obtain ⟨ta, h4, tb, h5, h6⟩ := h1
  have e : tb.lines = fcs.map .normal := by
    rw [f1] at h5
    cases h5
    rfl
  have c1 := C51_content cw ws skin _ width ta h4
  have c2 := C51_content cw ws skin _ width tb h5
  have c3 := C51_content cw ws skin _ width tc h2
  rw [e] at c2
  refine ⟨ta.lines, tc.lines, fcs, ?_, c1, c2, c3, f4, f5⟩
  rw [← h3, ← h6, e]

/-- C103: the columns written: with characters of the expected widths, each row ends `longestCols` columns after the start of the rectangle. -/
theorem C103_columns {cw : Char → Nat} {skin : Skin} (hs : OneColumnSkin cw skin) {x m : Nat} {line : List Compound} {row : List Piece}
    (h : IsRowOfCode cw skin x m line row) : piecesCols cw row = x + m := by
  obtain ⟨n, h1, rfl⟩ := h
  have := writeCompounds_width hs skin.codeBlock line
  rw [writeCompounds_drawnFor] at this
  have hc : compoundsWidth cw line = codeCols cw line := by
    simp only [codeCols]
    rw [styledChars_width]
  simp only [piecesCols_append, repeat_cols hs]
  simp only [piecesCols, this, hc]
  omega

/-- A block between two paragraphs, with a left margin. -/
def rectBlock : List (List Compound) := [[⟨"let a".toList, {}⟩], [⟨"a".toList, {}⟩], [⟨"".toList, {}⟩]]
def rectText : List MLine := [.normal .paragraph [⟨"some words".toList, {}⟩]] ++ codeBlockOf rectBlock ++ [.normal .paragraph [⟨"end".toList, {}⟩]]
def rectSkin : Skin := { ({} : Skin) with codeBlock := { ({} : Skin).codeBlock with leftMargin := 4 } }

example : ((FmtText.fromText (fun _ => 1) (· == ' ') rectSkin rectText (some 20)).bind fun t => t.display rectSkin).map
      (List.map fun r => String.ofList (piecesText r)) =
    some ["some words", "    let a", "    a    ", "         ", "end"] := by decide +kernel

/-- Centered. -/
example : ((FmtText.fromText (fun _ => 1) (· == ' ') { rectSkin with codeBlock := { rectSkin.codeBlock with leftMargin := 0, align := .center } } rectText
      (some 15)).bind fun t => t.display { rectSkin with codeBlock := { rectSkin.codeBlock with leftMargin := 0, align := .center } }).map
      (List.map fun r => String.ofList (piecesText r)) =
    some ["some words", "     let a", "     a    ", "          ", "end"] := by decide +kernel

example : longestCols (fun _ => 1) rectBlock = 5 ∧ rectBlock ≠ [] ∧ (∀ l ∈ rectBlock, codeCols (fun _ => 1) l + marginSum rectSkin.codeBlock 20 ≤ 20) ∧
    ∃ t, FmtText.fromText (fun _ => 1) (· == ' ') rectSkin rectText (some 20) = some t :=
  ⟨by decide, by decide, by decide, Option.isSome_iff_exists.1 (by decide +kernel)⟩

/-- When a line is cut because it's too long, the rectangle keeps the columns of the whole line, so that the rows don't fit in the width. -/
theorem C103_too_long_counterexample : ∃ (block : List (List Compound)) (t : FmtText) (rows : List (List Piece)),
    FmtText.fromText (fun _ => 1) (· == ' ') {} (codeBlockOf block) (some 10) = some t ∧ t.display {} = some rows ∧
      rows.map (piecesCols fun _ => 1) = [12, 12, 12] :=
  ⟨[[⟨"aaaa bbbb cc".toList, {}⟩], [⟨"d".toList, {}⟩]], _, _, rfl, rfl, by decide +kernel⟩

end Verif.Props

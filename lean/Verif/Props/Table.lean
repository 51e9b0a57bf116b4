import Verif.Lemmas.FmtText
/-! Properties C07 and C08: tables. -/
namespace Verif.Props
open Verif

/-- C07: when every table of the text has a shape which can be laid out (`TableShape`), fixing the tables does not panic,
and each table becomes a rectangular one: same number of cells in all rows, same width for all cells of a column and for the
rules, all of it with the borders in the available width. Cells are aligned according to the last rule above them, and
the first and last rules become the top and bottom borders. (A table without column is left as it is.) -/
theorem C07_fix (cw : Char → Nat) (ws : Char → Bool) (skin : Skin) (width : Nat) (lines : List FmtLine)
    (hw : 0 < width) (hs : ∀ tbl, IsTableOf lines tbl → TableShape cw skin.indentMode width tbl) :
    ∃ out, fixAllTables cw ws skin width lines = some out ∧
      TablesFixed (fun tbl tbl' => tableColumns tbl = 0 ∧ tbl' = tbl ∨ tableColumns tbl ≠ 0 ∧
        Rectangular width (keptColumns (tableColumns tbl) width) tbl' ∧
        Aligned tbl' ∧ RulesPlaced tbl tbl') lines out := by
  obtain ⟨out, ho⟩ := fixAllTables_ok (cw := cw) (ws := ws) (skin := skin) (width := width) lines (by
    intro tbl ht
    by_cases h0 : tableColumns tbl = 0
    · exact ⟨tbl, by simp [fixTableLines, h0]⟩
    · obtain ⟨o, ho, _⟩ := fixTableLines_fit (ws := ws) ht.2.1 (hs tbl ht) h0 (by omega)
      exact ⟨o, ho⟩)
  have hfix := (fixAllTables_spec (R := fun tbl tbl' => fixTableLines cw ws skin (tableColumns tbl) width tbl = some tbl')
    (fun _ _ _ h => h) lines out ho).isTable
  refine ⟨out, ho, hfix.imp ?_⟩
  rintro tbl tbl' ⟨ht, h⟩
  rcases fixTableLines_text ht.2.1 h with ⟨h1, h2⟩ | ⟨h1, h2, h3, h4, h5⟩
  · left; exact ⟨by omega, h2⟩
  · right
    refine ⟨h1, ?_, h4, h5⟩
    obtain ⟨o, ho, hr⟩ := fixTableLines_fit (ws := ws) ht.2.1 (hs tbl ht) h1 h2
    rw [h] at ho
    simp only [Option.some.injEq] at ho
    subst ho
    exact hr

/-- C07: a table for which there is enough width never panics as soon as its characters take at most 3 columns, however
ragged its rows are. -/
theorem C07_wide (cw : Char → Nat) (ws : Char → Bool) (skin : Skin) (width : Nat) (tbl : List FmtLine)
    (hl : ∀ l ∈ tbl, IsTableLine l) (hw : 4 * tableColumns tbl + 1 ≤ width)
    (hroom : ∀ cells c, .tableRow cells ∈ tbl → c ∈ cells → prefixCols skin.indentMode c.kind ≤ 3 ∧
      ∀ p ∈ styledChars c.compounds, prefixCols skin.indentMode c.kind + cw p.1 ≤ 3) :
    ∃ out, fixTableLines cw ws skin (tableColumns tbl) width tbl = some out := by
  by_cases h0 : tableColumns tbl = 0
  · exact ⟨tbl, by simp [fixTableLines, h0]⟩
  · obtain ⟨o, ho, _⟩ := fixTableLines_fit (ws := ws) (width := width) hl
      (fun cells hc => ⟨fun c h => hroom cells c hc h, .inl hw⟩) h0 (by omega)
    exact ⟨o, ho⟩

/-- One column per character. -/
def tblCw : Char → Nat := fun _ => 1
/-- Spaces are the whitespace. -/
def tblWs : Char → Bool := fun c => c == ' '
/-- A cell of a table. -/
def tblCell (s : String) : FmtComposite := FmtComposite.ofComposite {} tblCw .paragraph [⟨s.toList, {}⟩]

/-- A ragged table, in a text. -/
def exTable : List FmtLine :=
  [.tableRow [tblCell "name", tblCell "some description"], .tableRule ⟨.other, [], [.left, .right]⟩, .tableRow [tblCell "only one cell"],
   .tableRule ⟨.other, [], []⟩]

/-- The hypotheses of C07 are met by this table, and lines are inserted. -/
example : TableShape tblCw .block 18 exTable ∧ tableColumns exTable = 2 ∧
    (fixAllTables tblCw tblWs {} 18 (.horizontalRule :: exTable)).map List.length = some 8 := by
  refine ⟨?_, by decide, by decide⟩
  intro cells hc
  simp only [exTable, List.mem_cons, FmtLine.tableRow.injEq, reduceCtorEq, List.not_mem_nil, or_false, false_or] at hc
  refine ⟨?_, .inl (by decide)⟩
  rcases hc with rfl | rfl <;> decide

/-- The shape hypothesis is needed: a row with less cells than the kept columns, one of them to wrap, in a table
too large for the width, makes the program panic. -/
theorem C07_ragged_panic_counterexample :
    fixAllTables tblCw tblWs {} 10
      [.tableRow [tblCell "a", tblCell "b", tblCell "c"], .tableRow [tblCell "abcdef"]] = none := by decide

/-- Fixing tables never panics for a width of 0: nothing is changed. -/
theorem C07_zero_width (cw : Char → Nat) (ws : Char → Bool) (skin : Skin) (lines : List FmtLine) :
    fixAllTables cw ws skin 0 lines = some lines := by
  have : ∀ ts l, fixTables cw ws skin 0 ts l = some l := by
    intro ts
    induction ts with
    | nil => intro l; rfl
    | cons t ts ih =>
      intro l
      have e : List.take t.start l ++ (List.take t.height (List.drop t.start l) ++ List.drop (t.start + t.height) l) = l := by
        rw [← List.drop_drop, List.take_append_drop, List.take_append_drop]
      simp [fixTables, Table.fixColumns, fixTableLines, ih, e]
  exact this _ _

/-- C08: whenever fixing the tables succeeds, the lines which are not in tables are kept in order, and each table is replaced
by a table with the same rules and the same text in each kept column: a row becomes one or several rows in which each
column, read from top to bottom, holds the original cell, up to dropped whitespace. All the columns are kept when there
are at least 4 columns per table column plus one. -/
theorem C08_text (cw : Char → Nat) (ws : Char → Bool) (skin : Skin) (width : Nat) (lines out : List FmtLine)
    (h : fixAllTables cw ws skin width lines = some out) :
    TablesFixed (fun tbl tbl' => (tableColumns tbl = 0 ∨ width = 0) ∧ tbl' = tbl ∨
      Blocks (LineKept ws (keptColumns (tableColumns tbl) width)) tbl tbl') lines out := by
  refine fixAllTables_spec ?_ lines out h
  intro tbl tbl' hl h
  rcases fixTableLines_text hl h with h1 | ⟨_, _, h3, _⟩
  · exact .inl h1
  · exact .inr h3

/-- The fixing of the example is not trivial: the second row is cut in two and the first one in three. -/
example : (fixAllTables tblCw tblWs {} 18 (.horizontalRule :: exTable)).map (fun ls => ls.map fun l =>
      match l with
      | .tableRow cells => cells.map fun c => String.ofList (c.compounds.flatMap (·.src))
      | _ => []) =
    some [[], ["name", "some "], ["", "descri"], ["", "ption"], [], ["only one ", ""], ["cell", ""], []] := by
  decide

end Verif.Props

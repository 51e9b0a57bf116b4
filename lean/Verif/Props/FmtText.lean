import Verif.Lemmas.FmtText
import Verif.Props.Render
/-! C11: a formatted text fits the terminal width. -/
namespace Verif.Props
open Verif

private theorem goodNew (cw : Char → Nat) (skin : Skin) : GoodFc cw skin FmtComposite.new := by
  refine ⟨by simp [FmtComposite.new, styleOf], ?_, ?_⟩
  · rfl
  · intro d hd; simp [FmtComposite.new] at hd

private theorem final_of_rect {cw : Char → Nat} {skin : Skin} {width nb : Nat} {tbl : List FmtLine} (hnb : 0 < nb)
    (hr : Rectangular width nb tbl) (hg : RowsAll (GoodFc cw skin) tbl) : ∀ l ∈ tbl, FinalLine cw skin width l := by
  obtain ⟨widths, w1, w2, w3, w4⟩ := hr
  have hsum : ∀ l : List Nat, (l.map fun w => w + 1).sum = l.sum + l.length := by
    intro l; induction l with
    | nil => rfl
    | cons a l ih => simp only [List.map_cons, List.sum_cons, List.length_cons, ih]; omega
  intro l hl
  rcases w4 l hl with ⟨cells, rfl, hlen, hc⟩ | ⟨rule, rfl, hrule⟩
  · have hsp : cells.map spacedCols = widths := by
      apply List.ext_getElem? 
      intro i
      by_cases hi : i < cells.length
      · obtain ⟨w, a, e1, e2, _⟩ := hc i cells[i] (List.getElem?_eq_getElem hi)
        rw [e1, List.getElem?_map, List.getElem?_eq_getElem hi]
        simp [spacedCols, e2]
      · rw [List.getElem?_eq_none (by simp; omega), List.getElem?_eq_none (by omega)]
    refine ⟨?_, ?_⟩
    · intro c hcm
      obtain ⟨i, hi, he⟩ := List.getElem_of_mem hcm
      obtain ⟨w, a, e1, e2, e3⟩ := hc i c (by rw [List.getElem?_eq_getElem hi, he])
      exact (hg cells hl c hcm).drawable (by simp [spacedCols, e2, e3])
    · have : (cells.map fun c => spacedCols c + 1) = widths.map fun w => w + 1 := by
        rw [← hsp, List.map_map]; rfl
      simp only [ownCols, this, hsum]
      omega
  · refine ⟨?_, ?_⟩
    · simp only [DrawableLine, hrule]
      intro h0; rw [h0] at w1; simp at w1; omega
    · simp only [ownCols, hrule, hsum]; omega

theorem fixAll_ready {cw : Char → Nat} {ws : Char → Bool} {skin : Skin} {w : Nat} {mlines : List MLine} (h3 : 3 ≤ w)
    (h : FittingText cw skin w mlines) :
    ∃ out, fixAllTables cw ws skin w (mlines.map (FmtLine.ofMLine skin cw)) = some out ∧
      ∀ l ∈ out, FinalLine cw skin w l ∧ ¬ IsCodeLine l ∨
        ∃ k cs, .normal k cs ∈ mlines ∧ l = .normal (FmtComposite.ofComposite skin cw k cs) := by
  have hne : ∀ tbl, IsTableOf (mlines.map (FmtLine.ofMLine skin cw)) tbl → tableColumns tbl ≠ 0 := by
    intro tbl ht h0
    have := (h.tables tbl ht).2
    rw [h0] at this
    simp only [keptColumns, Nat.mul_zero, Nat.zero_add] at this
    rw [if_pos (by omega)] at this
    omega
  obtain ⟨out, ho⟩ := fixAllTables_ok (cw := cw) (ws := ws) (skin := skin) (width := w)
    (mlines.map (FmtLine.ofMLine skin cw)) (by
      intro tbl ht
      obtain ⟨o, ho, _⟩ := fixTableLines_fit (ws := ws) ht.2.1 (h.tables tbl ht).1 (hne tbl ht) (by omega)
      exact ⟨o, ho⟩)
  refine ⟨out, ho, ?_⟩
  have hfix := (fixAllTables_spec (R := fun tbl tbl' => fixTableLines cw ws skin (tableColumns tbl) w tbl = some tbl')
    (fun _ _ _ h => h) _ out ho).isTable
  intro l hl
  rcases hfix.mem l hl with ⟨h1, h2⟩ | ⟨tbl, tbl', ⟨ht, hf⟩, hmem, hlt⟩
  · simp only [List.mem_map] at h2
    obtain ⟨m, hm, rfl⟩ := h2
    cases m with
    | normal k cs => exact .inr ⟨k, cs, hm, rfl⟩
    | tableRow cells => simp [FmtLine.ofMLine, IsTableLine] at h1
    | tableRule a => simp [FmtLine.ofMLine, IsTableLine] at h1
    | horizontalRule => exact .inl ⟨⟨trivial, by simp [FmtLine.ofMLine, ownCols]⟩, fun h => h⟩
    | codeFence => exact .inl ⟨⟨trivial, by simp [FmtLine.ofMLine, ownCols]⟩, fun h => h⟩
  · obtain ⟨o, ho', hrect⟩ := fixTableLines_fit (ws := ws) ht.2.1 (h.tables tbl ht).1 (hne tbl ht) (by omega)
    rw [ho'] at hf
    simp only [Option.some.injEq] at hf
    subst hf
    have hrows : RowsAll (GoodFc cw skin) tbl := by
      intro cells hc c hcm
      have := (hmem _ hc).1
      simp only [List.mem_map] at this
      obtain ⟨m, hm, he⟩ := this
      cases m with
      | tableRow cs =>
        simp only [FmtLine.ofMLine, FmtLine.tableRow.injEq] at he
        subst he
        simp only [List.mem_map] at hcm
        obtain ⟨c0, hc0, rfl⟩ := hcm
        exact GoodFc.ofComposite (h.cells cs hm c0 hc0).2 (h.cells cs hm c0 hc0).1
      | _ => simp [FmtLine.ofMLine] at he
    have hrows' := fixTableLines_all (goodNew cw skin) (fun c sp hc => ⟨hc.styled, hc.cached, hc.depth⟩)
      (fun c w ls hc hw => hc.wrap hw) ht.2.1 ho' hrows
    refine .inl ⟨final_of_rect (h.tables tbl ht).2 hrect hrows' l hlt, ?_⟩
    obtain ⟨_, _, _, _, hl4⟩ := hrect
    rcases hl4 l hlt with ⟨_, rfl, _⟩ | ⟨_, rfl, _⟩ <;> exact fun h => h

/-- Before wrapping, the lines of a text are ready to be wrapped. -/
theorem justify_ready {cw : Char → Nat} {skin : Skin} {w : Nat} {mlines : List MLine} (h : FittingText cw skin w mlines)
    {lines : List FmtLine} (hready : ∀ l ∈ lines, FinalLine cw skin w l ∧ ¬ IsCodeLine l ∨
        ∃ k cs, .normal k cs ∈ mlines ∧ l = .normal (FmtComposite.ofComposite skin cw k cs)) :
    ∀ l ∈ justifyBlocks lines, ReadyLine cw skin w l := by
  have hnorm : ∀ k cs, .normal k cs ∈ mlines → GoodFc cw skin (FmtComposite.ofComposite skin cw k cs) := by
    intro k cs hm
    obtain ⟨hd, ls, hst, _⟩ := h.normal k cs hm
    exact GoodFc.ofComposite (by rw [hst]; simp) hd
  intro l hml
  rcases (justifyBlocks_spec lines).mem l hml with ⟨h1, h2⟩ | ⟨fc, len, h1, h2, rfl, h4, fc', h5, h6, h7⟩
  · rcases hready l h2 with hr | ⟨k, cs, hm, rfl⟩
    · exact .inl hr.1
    · refine .inr ⟨_, rfl, hnorm k cs hm, rfl, ?_⟩
      obtain ⟨hd, ls, hst, _, hp, hc⟩ := h.normal k cs hm
      exact ⟨ls, hst, (hnorm k cs hm).cached, hp, hc⟩
  · left
    rcases hready _ h1 with hr | ⟨k, cs, hm, he⟩
    · exact absurd h2 hr.2
    rcases hready _ h5 with hr | ⟨k', cs', hm', he'⟩
    · exact absurd h6 hr.2
    simp only [FmtLine.normal.injEq] at he he'
    have hk' : k' = .code := by rw [he'] at h6; exact h6
    have hk : k = .code := by rw [he] at h2; exact h2
    have hg := hnorm k cs hm
    have hg' := hnorm k' cs' hm'
    rw [← he] at hg
    rw [← he'] at hg'
    obtain ⟨hd, ls, hst, hcode, _⟩ := h.normal k' cs' hm'
    have hcode := hcode hk'
    have hcach := hg'.cached
    have hcc : fc'.compounds = cs' := by rw [he']; rfl
    simp only [lineCols, h6, prefixCols, hcc] at hcach
    have hlen : len + marginSum ls w ≤ w := by omega
    refine ⟨?_, ?_⟩
    · exact ⟨hg.styled, hg.cached, h4, fun d hd' => hg.depth d (.inr hd')⟩
    · have : styleOf skin fc.kind = some ls := by rw [h2, ← hst, hk']
      simp only [ownCols, this, Option.map_some, Option.getD_some, spacedCols]
      exact hlen

/-- The lines of a formatted text are drawable and have their place. -/
theorem fromText_final {cw : Char → Nat} {ws : Char → Bool} {skin : Skin} {w : Nat} (h3 : 3 ≤ w)
    {mlines : List MLine} (h : FittingText cw skin w mlines) :
    ∃ out, FmtText.fromText cw ws skin mlines (some w) = some ⟨out, some w⟩ ∧ ∀ l ∈ out, FinalLine cw skin w l := by
  obtain ⟨lines, hl, hready⟩ := fixAll_ready (ws := ws) h3 h
  have hj := justify_ready h hready
  obtain ⟨out, ho, hfin⟩ := hardWrapLines_final (ws := ws) h3 hj
  have ht : FmtText.fromText cw ws skin mlines (some w) = some ⟨out, some w⟩ := by
    simp only [FmtText.fromText, Option.getD_some, hl, Option.bind_eq_bind, Option.bind_some, wrapText, ge_iff_le, h3,
      if_true, ho]
  exact ⟨out, ht, hfin⟩

/-- C11: in every width of at least 3, every text whose lines can have a place in this width (see `FittingText`) is
formatted, and all its lines are displayed in at most this width. -/
theorem C11_fits (cw : Char → Nat) (ws : Char → Bool) (skin : Skin) (hs : OneColumnSkin cw skin) (w : Nat) (h3 : 3 ≤ w)
    (mlines : List MLine) (h : FittingText cw skin w mlines) :
    ∃ t drawn, FmtText.fromText cw ws skin mlines (some w) = some t ∧ t.display skin = some drawn ∧
      drawn.length = t.lines.length ∧ ∀ ps ∈ drawn, piecesCols cw ps ≤ w := by
  obtain ⟨out, ht, hfin⟩ := fromText_final (ws := ws) h3 h
  have hdraw : ∀ l ∈ out, ∃ ps, skin.writeFmtLine l (some w) false = some ps ∧ piecesCols cw ps ≤ w := by
    intro l hm
    obtain ⟨hd, hc⟩ := hfin l hm
    obtain ⟨ps, p1, p2⟩ := C10_no_completion_columns cw skin hs l hd w
    exact ⟨ps, p1, by omega⟩
  obtain ⟨drawn, hdr⟩ := mapM_some (f := fun l => skin.writeFmtLine l (some w) false) (l := out)
    (fun l hm => by obtain ⟨ps, p1, _⟩ := hdraw l hm; exact ⟨ps, p1⟩)
  obtain ⟨e1, e2, _⟩ := mapM_get hdr
  refine ⟨_, drawn, ht, hdr, e1, ?_⟩
  intro ps hps
  obtain ⟨l, hm, he⟩ := e2 ps hps
  obtain ⟨ps', p1, p2⟩ := hdraw l hm
  rw [p1] at he
  simp only [Option.some.injEq] at he
  subst he
  exact p2

/-- A simple sufficient condition for the tables: between 1 and `m` columns with `4 * m + 1 ≤ w`. -/
theorem C11_tables (cw : Char → Nat) (mode : IndentMode) (w m : Nat) (lines : List FmtLine) (hm : 4 * m + 1 ≤ w)
    (hc : ∀ l ∈ lines, IsTableLine l → 1 ≤ lineColumns l ∧ lineColumns l ≤ m)
    (hcells : ∀ cells, .tableRow cells ∈ lines → ∀ c ∈ cells, prefixCols mode c.kind ≤ 3 ∧
      ∀ p ∈ styledChars c.compounds, prefixCols mode c.kind + cw p.1 ≤ 3) :
    ∀ tbl, IsTableOf lines tbl → TableShape cw mode w tbl ∧ 0 < keptColumns (tableColumns tbl) w := by
  rintro tbl ⟨h1, h2, before, after, rfl, _⟩
  have hle : ∀ t : List FmtLine, (∀ l ∈ t, lineColumns l ≤ m) → tableColumns t ≤ m := by
    intro t
    induction t with
    | nil => intro _; exact Nat.zero_le _
    | cons a t ih =>
      intro h
      have := ih (fun l hl => h l (by simp [hl]))
      have := h a (by simp)
      simp only [tableColumns]; omega
  have hmem : ∀ l ∈ tbl, 1 ≤ lineColumns l ∧ lineColumns l ≤ m := fun l hl => hc l (by simp [hl]) (h2 l hl)
  have hub := hle tbl (fun l hl => (hmem l hl).2)
  have hlb : 1 ≤ tableColumns tbl := by
    cases tbl with
    | nil => exact absurd rfl h1
    | cons a t =>
      have := (hmem a (by simp)).1
      simp only [tableColumns]; omega
  refine ⟨fun cells hcm => ⟨hcells cells (by simp [hcm]), .inl (by omega)⟩, ?_⟩
  rw [keptColumns, if_pos (by omega)]
  omega

/-- A text with a title, a list item, code, and a table with a wide character. -/
def exText : List MLine := [
  .normal (.header 1) [⟨"A title".toList, { bold := true }⟩],
  .normal (.listItem 0) [⟨"some words to wrap".toList, {}⟩],
  .normal .code [⟨"fn f()".toList, { code := true }⟩],
  .normal .code [⟨"{}".toList, { code := true }⟩],
  .tableRow [(.paragraph, [⟨"col".toList, {}⟩]), (.paragraph, [⟨"一 second".toList, {}⟩])],
  .tableRule [.center, .left],
  .tableRow [(.paragraph, [⟨"cell".toList, {}⟩])],
  .horizontalRule]

theorem exText_fits : FittingText renderCw renderSkin 13 exText := by
  refine ⟨?_, ?_, C11_tables _ _ _ 2 _ (by decide) ?_ ?_⟩
  · intro kind cs hm
    simp only [exText, List.mem_cons, MLine.normal.injEq, reduceCtorEq, List.not_mem_nil, or_false] at hm
    rcases hm with ⟨rfl, rfl⟩ | ⟨rfl, rfl⟩ | ⟨rfl, rfl⟩ | ⟨rfl, rfl⟩
    · exact ⟨by intro d h; simp at h, _, rfl, by simp, by decide, by decide⟩
    · exact ⟨by intro d h; simp at h; omega, _, rfl, by simp, by decide, by decide⟩
    · exact ⟨by intro d h; simp at h, _, rfl, by decide, by decide, by decide⟩
    · exact ⟨by intro d h; simp at h, _, rfl, by decide, by decide, by decide⟩
  · intro cells hm
    simp only [exText, List.mem_cons, MLine.tableRow.injEq, reduceCtorEq, List.not_mem_nil, or_false, false_or] at hm
    rcases hm with rfl | rfl <;> intro c hc <;> simp at hc
    · rcases hc with rfl | rfl <;> exact ⟨by intro d h; simp at h, by simp [styleOf]⟩
    · subst hc; exact ⟨by intro d h; simp at h, by simp [styleOf]⟩
  · decide
  · intro cells hm
    simp only [exText, List.map_cons, List.map_nil, FmtLine.ofMLine, List.mem_cons, FmtLine.tableRow.injEq, reduceCtorEq,
      List.not_mem_nil, or_false, false_or] at hm
    rcases hm with rfl | rfl
    · decide
    · decide

theorem renderSkin_one : OneColumnSkin renderCw renderSkin := by
  refine ⟨by decide, by decide, by decide, by decide, by decide, ?_⟩
  intro c sc h
  simp [renderSkin] at h

/-- A too long line of code is cut but the parts keep the width of the block as spacing: they overflow. -/
theorem C11_code_counterexample :
    ((FmtText.fromText renderCw (· == ' ') {} [.normal .code [⟨"abcdef".toList, { code := true }⟩]] (some 4)).bind
      fun t => (t.display {}).map fun ls => ls.map (piecesCols renderCw)) = some [6, 6] := by decide

/-- A table rule without columns is larger than the width when tables are aligned on the right. -/
theorem C11_empty_table_counterexample :
    ((FmtText.fromText renderCw (· == ' ') { table := { align := .right } } [.tableRule []] (some 4)).bind
      fun t => (t.display { table := { align := .right } }).map fun ls => ls.map (piecesCols renderCw)) = some [5] := by
  decide

/-- With a width of less than 3 the lines aren't wrapped. -/
theorem C11_small_width_counterexample :
    ((FmtText.fromText renderCw (· == ' ') {} [.normal .paragraph [⟨"abcdef".toList, {}⟩]] (some 2)).bind
      fun t => (t.display {}).map fun ls => ls.map (piecesCols renderCw)) = some [6] := by decide

end Verif.Props

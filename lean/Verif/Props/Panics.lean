import Verif.Lemmas.Panics
import Verif.Props.FmtText
/-! C71: exactly which texts can't be formatted. -/
namespace Verif.Props
open Verif Verif.Spec

theorem readable_lines {cw : Char → Nat} {skin : Skin} {mlines : List MLine} (h : Readable skin mlines) :
    (∀ l ∈ mlines.map (FmtLine.ofMLine skin cw), LineOk skin l) ∧
    (∀ fc, .normal fc ∈ mlines.map (FmtLine.ofMLine skin cw) → ∃ kind cs, .normal kind cs ∈ mlines ∧
      fc = FmtComposite.ofComposite skin cw kind cs) ∧
    (∀ cells, .tableRow cells ∈ mlines.map (FmtLine.ofMLine skin cw) → ∀ c ∈ cells, prefixCols skin.indentMode c.kind ≤ 3) := by
  refine ⟨?_, ?_, ?_⟩
  · intro l hl
    obtain ⟨m, hm, rfl⟩ := List.mem_map.1 hl
    cases m with
    | normal k cs => exact h.normal k cs hm
    | tableRow cells =>
      intro c hc
      obtain ⟨x, hx, rfl⟩ := List.mem_map.1 hc
      exact ⟨(h.cells cells hm x hx).1, (h.cells cells hm x hx).2.1⟩
    | _ => trivial
  · intro fc hl
    obtain ⟨m, hm, he⟩ := List.mem_map.1 hl
    cases m with
    | normal k cs => simp only [FmtLine.ofMLine, FmtLine.normal.injEq] at he; exact ⟨k, cs, hm, he.symm⟩
    | _ => simp [FmtLine.ofMLine] at he
  · intro cells hl c hc
    obtain ⟨m, hm, he⟩ := List.mem_map.1 hl
    cases m with
    | tableRow cells' =>
      simp only [FmtLine.ofMLine, FmtLine.tableRow.injEq] at he
      subst he
      obtain ⟨x, hx, rfl⟩ := List.mem_map.1 hc
      exact (h.cells cells' hm x hx).2.2
    | _ => simp [FmtLine.ofMLine] at he

theorem ofComposite_prefix (cw : Char → Nat) (skin : Skin) (kind : Kind) (cs : List Compound) :
    prefixCols skin.indentMode kind ≤ (FmtComposite.ofComposite skin cw kind cs).visibleLength := by
  have h : (FmtComposite.ofComposite skin cw kind cs).visibleLength =
      lineCols cw skin.indentMode (FmtComposite.ofComposite skin cw kind cs) := by rw [lineCols_eq]; rfl
  rw [h]
  exact Nat.le_add_right _ _

/-- Formatting a text which can be read in a source panics in exactly two cases: a table is ragged, or a list item is too
deep. -/
theorem C71_format (cw : Char → Nat) (ws : Char → Bool) (skin : Skin) (mlines : List MLine) (width : Option Nat)
    (h : Readable skin mlines) :
    FmtText.fromText cw ws skin mlines width = none ↔
      (∃ tbl, IsTableOf (mlines.map (FmtLine.ofMLine skin cw)) tbl ∧ Ragged cw ws skin (width.getD usizeMax) tbl) ∨
      (∃ w, width = some w ∧ 3 ≤ w ∧ TooDeep skin mlines w) := by
  obtain ⟨r1, r2, r3⟩ := readable_lines (cw := cw) h
  have hpre : ∀ tbl, IsTableOf (mlines.map (FmtLine.ofMLine skin cw)) tbl →
      (∀ l ∈ tbl, IsTableLine l) ∧
      ∀ cells, .tableRow cells ∈ tbl → ∀ c ∈ cells, prefixCols skin.indentMode c.kind ≤ 3 := by
    rintro tbl ⟨_, t2, b, a, t3, _⟩
    exact ⟨t2, fun cells hc => r3 cells (by rw [t3]; simp [hc])⟩
  simp only [FmtText.fromText, Option.bind_eq_bind]
  cases hf : fixAllTables cw ws skin (width.getD usizeMax) (mlines.map (FmtLine.ofMLine skin cw)) with
  | none =>
    refine iff_of_true rfl (.inl ?_)
    apply Classical.byContradiction
    intro hno
    obtain ⟨out, ho⟩ := fixAllTables_ok (cw := cw) (ws := ws) (skin := skin) (width := width.getD usizeMax)
      (mlines.map (FmtLine.ofMLine skin cw)) (by
        intro tbl ht
        cases hx : fixTableLines cw ws skin (tableColumns tbl) (width.getD usizeMax) tbl with
        | some t => exact ⟨t, rfl⟩
        | none => exact absurd ⟨tbl, ht, (fixTableLines_none (hpre tbl ht).1 (hpre tbl ht).2).1 hx⟩ hno)
    rw [hf] at ho
    cases ho
  | some out =>
    have hnt : ¬ ∃ tbl, IsTableOf (mlines.map (FmtLine.ofMLine skin cw)) tbl ∧ Ragged cw ws skin (width.getD usizeMax) tbl := by
      rintro ⟨tbl, ht, hr⟩
      obtain ⟨t', ht'⟩ := fixAllTables_each _ _ hf tbl ht
      rw [(fixTableLines_none (hpre tbl ht).1 (hpre tbl ht).2).2 hr] at ht'
      cases ht'
    have hnorm : ∀ fc, .normal fc ∈ out ↔ .normal fc ∈ mlines.map (FmtLine.ofMLine skin cw) := fun fc =>
      normal_mem_tables (R := fun _ b => ∀ l ∈ b, IsTableLine l) (fun _ _ h => h)
        (fixAllTables_spec (fun _ _ hl h => fixTableLines_table hl h) _ _ hf) fc
    obtain ⟨j1, j2, _⟩ := (justifyBlocks_spec out).normal_mem
    simp only [Option.bind_some, hnt, false_or]
    cases width with
    | none => simp [wrapText]
    | some w =>
      by_cases h3 : 3 ≤ w
      · simp only [wrapText, Option.some.injEq, exists_eq_left', h3, true_and]
        have hnorm2 : ∀ fc, .normal fc ∈ justifyBlocks out → ∃ kind cs ls, .normal kind cs ∈ mlines ∧ fc.kind = kind ∧
            styleOf skin kind = some ls ∧ prefixCols skin.indentMode fc.kind ≤ fc.visibleLength := by
          intro fc hfc
          obtain ⟨sp, hsp⟩ := j2 fc hfc
          obtain ⟨k, cs, hk, he⟩ := r2 _ ((hnorm _).1 hsp)
          have e1 : fc.kind = k := by have := congrArg FmtComposite.kind he; exact this
          have e2 : fc.visibleLength = (FmtComposite.ofComposite skin cw k cs).visibleLength := by
            have := congrArg FmtComposite.visibleLength he; exact this
          cases hs : styleOf skin k with
          | none => exact absurd hs (h.normal k cs hk).2
          | some ls => exact ⟨k, cs, ls, hk, e1, hs, by rw [e1, e2]; exact ofComposite_prefix cw skin k cs⟩
        constructor
        · intro hnone
          apply Classical.byContradiction
          intro hno
          have : hardWrapLines cw ws skin w (justifyBlocks out) =
              some (.ok ((justifyBlocks out).flatMap (blockOf cw ws skin w))) := by
            refine hardWrapLines_flatMap cw ws skin w _ _ _ ?_ rfl
            intro l hl
            have key : ∃ b, wrapOne cw ws skin w l = some (.ok b) := by
              cases l with
              | normal fc =>
                obtain ⟨k, cs, ls, hk, e1, hs, hv⟩ := hnorm2 fc hl
                apply Classical.byContradiction
                intro hb
                have := (wrapOne_none (cw := cw) (ws := ws) h3 (by rw [e1]; exact hs) hv).1 (fun b hb' => hb ⟨b, hb'⟩)
                exact hno ⟨k, cs, ls, hk, hs, by rw [← e1]; exact this⟩
              | _ => exact ⟨_, rfl⟩
            obtain ⟨b, hb⟩ := key
            rw [hb]; simp [blockOf, hb]
          rw [this] at hnone
          cases hnone
        · rintro ⟨k, cs, ls, hk, hs, hlt⟩
          obtain ⟨sp, hsp⟩ := j1 (FmtComposite.ofComposite skin cw k cs)
            ((hnorm _).2 (List.mem_map.2 ⟨_, hk, rfl⟩))
          have hw := (wrapOne_none (cw := cw) (ws := ws) (skin := skin) h3
            (fc := { FmtComposite.ofComposite skin cw k cs with spacing := sp }) (ls := ls) hs
            (ofComposite_prefix cw skin k cs)).2 hlt
          cases hx : hardWrapLines cw ws skin w (justifyBlocks out) with
          | none => rfl
          | some r =>
            cases r with
            | error e => exact absurd (hardWrapLines_error hx) (by omega)
            | ok ls' => exact absurd ((hardWrapLines_ok hx).2 _ hsp) (hw _)
      · simp [wrapText, h3]

/-- Only list items of depth at least 2 may be too deep. -/
theorem C71_deep {skin : Skin} {mlines : List MLine} {w : Nat} (h3 : 3 ≤ w) (h : TooDeep skin mlines w) :
    ∃ d cs, 2 ≤ d ∧ (.normal (.listItem d) cs ∈ mlines ∨ .normal (.listItemFollowUp d) cs ∈ mlines) := by
  obtain ⟨k, cs, ls, hk, _, hlt⟩ := h
  have := marginSum_3 ls w h3
  cases k with
  | listItem d => simp only [prefixCols] at hlt; exact ⟨d, cs, by omega, .inl hk⟩
  | listItemFollowUp d =>
    simp only [prefixCols] at hlt
    split at hlt
    · exact ⟨d, cs, by omega, .inr hk⟩
    · omega
  | quote => simp only [prefixCols] at hlt; omega
  | _ => simp only [prefixCols] at hlt; omega

/-- A text whose tables have as many cells in each row, and whose list items aren't deeper than 1, is formatted in any
width. -/
theorem C71_regular (cw : Char → Nat) (ws : Char → Bool) (skin : Skin) (mlines : List MLine) (width : Option Nat)
    (h : Readable skin mlines)
    (hdeep : ∀ d cs, .normal (.listItem d) cs ∈ mlines ∨ .normal (.listItemFollowUp d) cs ∈ mlines → d ≤ 1)
    (htbl : ∀ tbl, IsTableOf (mlines.map (FmtLine.ofMLine skin cw)) tbl →
      ∀ cells, .tableRow cells ∈ tbl → cells.length = tableColumns tbl) :
    ∃ t, FmtText.fromText cw ws skin mlines width = some t := by
  cases hf : FmtText.fromText cw ws skin mlines width with
  | some t => exact ⟨t, rfl⟩
  | none =>
    rcases (C71_format cw ws skin mlines width h).1 hf with ⟨tbl, ht, hlt, cells, hc, hlen, _⟩ | ⟨w, _, h3, hd⟩
    · have := htbl tbl ht cells hc
      omega
    · obtain ⟨d, cs, h2, hm⟩ := C71_deep h3 hd
      have := hdeep d cs hm
      omega

/-- The lines of a text whose tables and code blocks are laid out can be displayed. -/
theorem laid_out_ok {cw : Char → Nat} {ws : Char → Bool} {skin : Skin} {mlines : List MLine} {width : Nat}
    (h : Readable skin mlines) {out : List FmtLine} (h1 : fixAllTables cw ws skin width (mlines.map (FmtLine.ofMLine skin cw)) = some out) :
    ∀ l ∈ justifyBlocks out, LineOk skin l := by
  obtain ⟨r1, _, _⟩ := readable_lines (cw := cw) h
  have ok1 : ∀ l ∈ out, LineOk skin l := by
    have ht := fixAllTables_spec (R := fun a b => (∀ l ∈ a, LineOk skin l) → ∀ l ∈ b, LineOk skin l) (by
      intro tbl tbl' hl hfix ha l hl'
      have hk := fixTableLines_all (P := fun c => DepthOk c.kind ∧ styleOf skin c.kind ≠ none)
        ⟨(by intro d hd; rcases hd with hd | hd <;> cases hd), (by simp [FmtComposite.new, styleOf])⟩
        (fun c sp hc => hc) (fun c w ls hc hw => fcOk_wrap hc hw) hl hfix (fun cells hc => ha _ hc)
      have hb := fixTableLines_table hl hfix l hl'
      cases l with
      | tableRow cells => exact hk cells hl'
      | tableRule r => trivial
      | _ => exact False.elim hb) _ _ h1
    intro l hl
    rcases ht.mem l hl with ⟨_, hm⟩ | ⟨a, b, hR, ha, hb⟩
    · exact r1 l hm
    · exact hR (fun x hx => r1 x (ha x hx).1) l hb
  have ok2 : ∀ l ∈ justifyBlocks out, LineOk skin l := by
    obtain ⟨_, j2, j3⟩ := (justifyBlocks_spec out).normal_mem
    intro l hl
    rcases j3 l hl with ⟨fc, rfl⟩ | hm
    · obtain ⟨sp, hsp⟩ := j2 fc hl
      have hx := ok1 _ hsp
      exact hx
    · exact ok1 l hm
  exact ok2

/-- The lines of a formatted text can be displayed. -/
theorem formatted_ok (cw : Char → Nat) (ws : Char → Bool) (skin : Skin) (mlines : List MLine) (width : Option Nat)
    (h : Readable skin mlines) (t : FmtText) (hf : FmtText.fromText cw ws skin mlines width = some t) :
    ∀ l ∈ t.lines, LineOk skin l := by
  simp only [FmtText.fromText, Option.bind_eq_bind, Option.bind_eq_some_iff] at hf
  obtain ⟨out, h1, lines', h2, h3⟩ := hf
  simp only [Option.some.injEq] at h3
  subst h3
  have ok2 := laid_out_ok h h1
  have ok3 : ∀ l ∈ lines', LineOk skin l := by
    cases width with
    | none => simp only [wrapText, Option.some.injEq] at h2; subst h2; exact ok2
    | some w =>
      simp only [wrapText] at h2
      split at h2
      · split at h2
        · rename_i ls hls
          simp only [Option.some.injEq] at h2
          subst h2
          obtain ⟨e, hb⟩ := hardWrapLines_ok hls
          subst e
          intro l hl
          simp only [List.mem_flatMap] at hl
          obtain ⟨src, hs, hl⟩ := hl
          have hsrc := ok2 src hs
          have hbl := hb src hs
          cases src with
          | normal fc =>
            simp only [wrapOne, Option.map_eq_some_iff] at hbl
            obtain ⟨r, hr, he⟩ := hbl
            cases r with
            | error e => simp [Except.map] at he
            | ok fcs =>
              simp only [Except.map, Except.ok.injEq] at he
              rw [← he] at hl
              obtain ⟨g, hg, rfl⟩ := List.mem_map.1 hl
              rw [hardWrapLine_eq] at hr
              cases hst : styleOf skin fc.kind with
              | none => rw [hst] at hr; cases hr
              | some st =>
                rw [hst] at hr
                simp only [Option.bind_some] at hr
                split at hr
                · simp only [Option.some.injEq, Except.ok.injEq] at hr
                  subst hr
                  simp only [List.mem_singleton] at hg
                  subst hg
                  exact hsrc
                · exact fcOk_wrap hsrc hr g hg
          | _ =>
            simp only [wrapOne, Option.some.injEq, Except.ok.injEq] at hbl
            rw [← hbl] at hl
            simp only [List.mem_singleton] at hl
            subst hl
            exact hsrc
        · cases h2
      · simp only [Option.some.injEq] at h2; subst h2; exact ok2
  exact ok3

/-- A formatted text can always be displayed, whatever the rendering width which is set later. -/
theorem C71_display (cw : Char → Nat) (ws : Char → Bool) (skin : Skin) (mlines : List MLine) (width width' : Option Nat)
    (h : Readable skin mlines) (t : FmtText) (hf : FmtText.fromText cw ws skin mlines width = some t) :
    ∃ ps, FmtText.display skin { t with width := width' } = some ps ∧ ps.length = t.lines.length :=
  mapM_total t.lines (fun l hl => writeFmtLine_total (formatted_ok cw ws skin mlines width h t hf l hl) width' false)

/-! Examples. -/

/-- A text with a title, a deep list item, and a table whose last row has a single cell. -/
def panicText : List MLine := [
  .normal (.header 1) [⟨"A title".toList, {}⟩],
  .normal (.listItem 3) [⟨"deep".toList, {}⟩],
  .tableRow [(.paragraph, [⟨"a".toList, {}⟩]), (.paragraph, [⟨"b".toList, {}⟩]), (.paragraph, [⟨"c".toList, {}⟩]),
    (.paragraph, [⟨"d".toList, {}⟩])],
  .tableRow [(.paragraph, [⟨"long cell".toList, {}⟩])]]

theorem panicText_readable : Readable {} panicText := by
  refine ⟨?_, ?_⟩
  · intro kind cs hm
    simp only [panicText, List.mem_cons, MLine.normal.injEq, reduceCtorEq, List.not_mem_nil, or_false] at hm
    rcases hm with ⟨rfl, rfl⟩ | ⟨rfl, rfl⟩
    · exact ⟨by intro d h; simp at h, by decide⟩
    · exact ⟨by intro d h; simp at h; omega, by decide⟩
  · intro cells hm c hc
    have hk : c.1 = .paragraph := by
      simp only [panicText, List.mem_cons, MLine.tableRow.injEq, reduceCtorEq, List.not_mem_nil, or_false, false_or] at hm
      rcases hm with rfl | rfl <;> simp at hc
      · rcases hc with rfl | rfl | rfl | rfl <;> rfl
      · subst hc; rfl
    rw [hk]
    exact ⟨by intro d h; simp at h, by decide, by decide⟩

/-- All cases are met by this text: in 4 columns it's not the table which panics, in 12 columns it's not the list. -/
example : TooDeep {} panicText 4 := ⟨.listItem 3, [⟨"deep".toList, {}⟩], _, by simp [panicText], rfl, by decide⟩
example : ¬ TooDeep {} panicText 12 := by
  rintro ⟨k, cs, ls, hm, hs, hlt⟩
  simp only [panicText, List.mem_cons, MLine.normal.injEq, reduceCtorEq, List.not_mem_nil, or_false] at hm
  rcases hm with ⟨rfl, rfl⟩ | ⟨rfl, rfl⟩ <;> (cases hs; revert hlt; decide)
example : Ragged renderCw (· == ' ') {} 12 ((panicText.map (FmtLine.ofMLine {} renderCw)).drop 2) :=
  ⟨by decide, _, by simp [panicText, FmtLine.ofMLine]; exact .inr rfl, by decide, _, by simp; rfl, by decide,
    _, _, _, rfl⟩
example : FmtText.fromText renderCw (· == ' ') {} panicText (some 4) = none := by decide +kernel
example : FmtText.fromText renderCw (· == ' ') {} panicText (some 12) = none := by decide +kernel
example : FmtText.fromText renderCw (· == ' ') {} panicText (some 9) = none ∧
    FmtText.fromText renderCw (· == ' ') {} panicText (some 8) ≠ none ∧
    FmtText.fromText renderCw (· == ' ') {} panicText (some 2) ≠ none ∧
    FmtText.fromText renderCw (· == ' ') {} panicText (some 17) ≠ none := by decide +kernel
example : ∃ t, FmtText.fromText renderCw (· == ' ') {} panicText (some 17) = some t ∧
    ∃ ps, FmtText.display {} { t with width := some 3 } = some ps ∧ ps.length = t.lines.length := by
  cases h : FmtText.fromText renderCw (· == ' ') {} panicText (some 17) with
  | none => exact absurd h (by decide +kernel)
  | some t => exact ⟨t, rfl, C71_display _ _ _ _ _ _ panicText_readable t h⟩

/-- Without a style for the level of the header, displaying panics. -/
theorem C71_header_counterexample :
    ((FmtText.fromText renderCw (· == ' ') {} [.normal (.header 0) []] none).bind fun t => t.display {}) = none := by decide

end Verif.Props

import Verif.Lemmas.Release
import Verif.Props.Panics
import Verif.Props.WholeText
/-! C93: the formatting of a text in a release build. -/
namespace Verif.Props
open Verif Verif.Spec

/-- C93: when a debug build formats a text, a release build formats it the same. -/
theorem C93_same (cw : Char → Nat) (ws : Char → Bool) (skin : Skin) (mlines : List MLine) (width : Option Nat) (h : Readable skin mlines)
    (t : FmtText) (ht : FmtText.fromText cw ws skin mlines width = some t) : Release.fromText cw ws skin mlines width = some t := by
  obtain ⟨_, _, r3⟩ := readable_lines (cw := cw) h
  simp only [FmtText.fromText, Release.fromText, Option.bind_eq_bind, Option.bind_eq_some_iff] at ht ⊢
  obtain ⟨l1, h1, l2, h2, h3⟩ := ht
  refine ⟨l1, by rw [release_all _ r3]; exact h1, l2, ?_, h3⟩
  cases width with
  | none => exact h2
  | some w =>
    simp only [wrapText, Release.wrapText] at h2 ⊢
    by_cases hw : w ≥ 3
    · rw [if_pos hw] at h2 ⊢
      cases hh : hardWrapLines cw ws skin w (justifyBlocks l1) with
      | none => rw [hh] at h2; cases h2
      | some r => rw [release_lines_same hh]; rw [hh] at h2; exact h2
    · rw [if_neg hw] at h2 ⊢; exact h2

/-- The normal lines of a block are in the width, or have one word at most. -/
private def InWidth (ws : Char → Bool) (skin : Skin) (w : Nat) (b : List FmtLine) : Prop :=
  ∀ fc ls, .normal fc ∈ b → styleOf skin fc.kind = some ls → fc.visibleLength + marginSum ls w ≤ w ∨ OneWord ws fc.compounds

private theorem release_lines_ok {cw : Char → Nat} {ws : Char → Bool} {skin : Skin} {w : Nat} (h3 : 3 ≤ w) : ∀ (lines : List FmtLine),
    (∀ fc, .normal fc ∈ lines → styleOf skin fc.kind ≠ none) →
    ∃ out, Release.hardWrapLines cw ws skin w lines = some (.ok out) ∧ ReplacedBy (WrapStep ws) lines out ∧ InWidth ws skin w out := by
  intro lines
  induction lines with
  | nil => intro _; exact ⟨[], rfl, .nil, by intro fc ls hm; cases hm⟩
  | cons l lines ih =>
    intro hs
    obtain ⟨out, o1, o2, o3⟩ := ih fun fc hfc => hs fc (by simp [hfc])
    cases l with
    | normal fc =>
      have hk := hs fc (by simp)
      cases hst : styleOf skin fc.kind with
      | none => exact absurd hst hk
      | some ls =>
        have hm := marginSum_3 ls w h3
        have key : ∃ fcs, Release.hardWrapLine cw ws skin w fc = some (.ok fcs) ∧ WrapStep ws (.normal fc) (fcs.map .normal) ∧
            InWidth ws skin w (fcs.map .normal) := by
          rw [release_line_eq, hst]
          simp only [Option.bind_some]
          by_cases hf : fc.visibleLength + marginSum ls w ≤ w
          · rw [if_pos hf]
            refine ⟨[fc], rfl, wrapStep_id ws _, ?_⟩
            intro x lx hx hlx
            simp only [List.map_cons, List.map_nil, List.mem_singleton, FmtLine.normal.injEq] at hx
            subst hx
            rw [hst] at hlx
            cases hlx
            exact .inl hf
          · rw [if_neg hf]
            obtain ⟨fcs, f1, f2, f3, f4, l0, more, f5, f6, f7, f8⟩ := release_composite_text (cw := cw) (ws := ws) (skin := skin) (fc := fc)
              (width := w - marginSum ls w) (by omega) (by omega)
            refine ⟨fcs, f1, ⟨fcs, rfl, ⟨l0, more, f5, f6, ?_⟩, f3, f2⟩, ?_⟩
            · intro l hl
              have := (f8 l hl).1
              cases hk : fc.kind <;> rw [hk] at this <;> exact this
            · intro x lx hx hlx
              simp only [List.mem_map, FmtLine.normal.injEq, exists_eq_right] at hx
              have hkx : styleOf skin x.kind = some ls := by
                have hx' := hx
                rw [f5] at hx'
                simp only [List.mem_cons] at hx'
                rcases hx' with rfl | hx'
                · rw [f6]; exact hst
                · rw [(f8 x hx').1, styleOf_followUp]; exact hst
              rw [hkx] at hlx
              cases hlx
              rcases (f4 x hx).2 with h | h
              · left; omega
              · exact .inr h
        obtain ⟨fcs, k1, k2, k3⟩ := key
        refine ⟨fcs.map .normal ++ out, ?_, .cons k2 o2, ?_⟩
        · simp only [Release.hardWrapLines, k1, o1, Option.bind_eq_bind, Option.bind_some]
        · intro x lx hx hlx
          simp only [List.mem_append] at hx
          rcases hx with hx | hx
          · exact k3 x lx hx hlx
          · exact o3 x lx hx hlx
    | tableRow cells =>
      refine ⟨.tableRow cells :: out, by simp only [Release.hardWrapLines, o1, Option.bind_eq_bind, Option.bind_some],
        .cons (b := [_]) (wrapStep_id ws _) o2, ?_⟩
      intro x lx hx hlx
      exact o3 x lx (by simpa using hx) hlx
    | tableRule r =>
      refine ⟨.tableRule r :: out, by simp only [Release.hardWrapLines, o1, Option.bind_eq_bind, Option.bind_some],
        .cons (b := [_]) (wrapStep_id ws _) o2, ?_⟩
      intro x lx hx hlx
      exact o3 x lx (by simpa using hx) hlx
    | horizontalRule =>
      refine ⟨.horizontalRule :: out, by simp only [Release.hardWrapLines, o1, Option.bind_eq_bind, Option.bind_some],
        .cons (b := [_]) (wrapStep_id ws _) o2, ?_⟩
      intro x lx hx hlx
      exact o3 x lx (by simpa using hx) hlx

private theorem release_wrap {cw : Char → Nat} {ws : Char → Bool} {skin : Skin} {width : Option Nat} {lines : List FmtLine}
    (hs : ∀ fc, .normal fc ∈ lines → styleOf skin fc.kind ≠ none) :
    ∃ out, Release.wrapText cw ws skin width lines = some out ∧ ReplacedBy (WrapStep ws) lines out ∧
      ∀ w, width = some w → 3 ≤ w → InWidth ws skin w out := by
  have hid : ReplacedBy (WrapStep ws) lines lines := by
    clear hs
    induction lines with
    | nil => exact .nil
    | cons l ls ih => exact .cons (b := [l]) (wrapStep_id ws l) ih
  cases width with
  | none => exact ⟨lines, rfl, hid, by intro w h; cases h⟩
  | some w =>
    by_cases h3 : 3 ≤ w
    · obtain ⟨out, o1, o2, o3⟩ := release_lines_ok (cw := cw) (ws := ws) (skin := skin) h3 lines hs
      refine ⟨out, ?_, o2, ?_⟩
      · simp only [Release.wrapText]
        rw [if_pos h3, o1]
      · intro w' e _
        cases e
        exact o3
    · refine ⟨lines, ?_, hid, ?_⟩
      · simp only [Release.wrapText]
        rw [if_neg h3]
      · intro w' e h
        cases e
        exact absurd h h3

private theorem release_styles {cw : Char → Nat} {ws : Char → Bool} {skin : Skin} {mlines : List MLine} {width : Nat} (h : Readable skin mlines)
    {out : List FmtLine} (hf : fixAllTables cw ws skin width (mlines.map (FmtLine.ofMLine skin cw)) = some out) :
    ∀ fc, .normal fc ∈ justifyBlocks out → styleOf skin fc.kind ≠ none := by
  obtain ⟨_, r2, _⟩ := readable_lines (cw := cw) h
  have hnorm : ∀ fc, .normal fc ∈ out ↔ .normal fc ∈ mlines.map (FmtLine.ofMLine skin cw) := fun fc =>
    normal_mem_tables (R := fun _ b => ∀ l ∈ b, IsTableLine l) (fun _ _ h => h)
      (fixAllTables_spec (fun _ _ hl h => fixTableLines_table hl h) _ _ hf) fc
  obtain ⟨_, j2, _⟩ := (justifyBlocks_spec out).normal_mem
  intro fc hfc
  obtain ⟨sp, hsp⟩ := j2 fc hfc
  obtain ⟨k, cs, hk, he⟩ := r2 _ ((hnorm _).1 hsp)
  have e1 : fc.kind = k := by have := congrArg FmtComposite.kind he; exact this
  rw [e1]
  exact (h.normal k cs hk).2

/-- C93: in a release build, formatting panics in exactly one case: a table is ragged. -/
theorem C93_panics (cw : Char → Nat) (ws : Char → Bool) (skin : Skin) (mlines : List MLine) (width : Option Nat) (h : Readable skin mlines) :
    Release.fromText cw ws skin mlines width = none ↔
      ∃ tbl, IsTableOf (mlines.map (FmtLine.ofMLine skin cw)) tbl ∧ Ragged cw ws skin (width.getD usizeMax) tbl := by
  obtain ⟨_, _, r3⟩ := readable_lines (cw := cw) h
  have hpre : ∀ tbl, IsTableOf (mlines.map (FmtLine.ofMLine skin cw)) tbl →
      (∀ l ∈ tbl, IsTableLine l) ∧
      ∀ cells, .tableRow cells ∈ tbl → ∀ c ∈ cells, prefixCols skin.indentMode c.kind ≤ 3 := by
    rintro tbl ⟨_, t2, b, a, t3, _⟩
    exact ⟨t2, fun cells hc => r3 cells (by rw [t3]; simp [hc])⟩
  simp only [Release.fromText, release_all _ r3, Option.bind_eq_bind]
  cases hf : fixAllTables cw ws skin (width.getD usizeMax) (mlines.map (FmtLine.ofMLine skin cw)) with
  | none =>
    refine iff_of_true rfl ?_
    apply Classical.byContradiction
    intro hno
    obtain ⟨out, ho⟩ := fixAllTables_ok (cw := cw) (ws := ws) (skin := skin) (width := width.getD usizeMax)
      (mlines.map (FmtLine.ofMLine skin cw)) (by
        intro tbl ht
        cases hx : fixTableLines cw ws skin (tableColumns tbl) (width.getD usizeMax) tbl with
        | some t => exact ⟨t, rfl⟩
        | none => exact absurd ⟨tbl, ht, (fixTableLines_none (hpre tbl ht).1 (hpre tbl ht).2).1 hx⟩ hno)
    rw [hf] at ho
    cases ho
  | some out =>
    obtain ⟨res, w1, _⟩ := release_wrap (cw := cw) (ws := ws) (width := width) (release_styles h hf)
    simp only [Option.bind_some, w1, reduceCtorEq, false_iff]
    rintro ⟨tbl, ht, hr⟩
    obtain ⟨t', ht'⟩ := fixAllTables_each _ _ hf tbl ht
    rw [(fixTableLines_none (hpre tbl ht).1 (hpre tbl ht).2).2 hr] at ht'
    cases ht'

private theorem release_steps {cw : Char → Nat} {ws : Char → Bool} {skin : Skin} {mlines : List MLine} {width : Option Nat} {t : FmtText}
    (h : Readable skin mlines) (ht : Release.fromText cw ws skin mlines width = some t) :
    ReplacedBy (Holds ws width) mlines t.lines ∧ ∀ w, width = some w → 3 ≤ w → InWidth ws skin w t.lines := by
  obtain ⟨_, _, r3⟩ := readable_lines (cw := cw) h
  simp only [Release.fromText, release_all _ r3, Option.bind_eq_bind] at ht
  cases hf : fixAllTables cw ws skin (width.getD usizeMax) (mlines.map (FmtLine.ofMLine skin cw)) with
  | none => rw [hf] at ht; cases ht
  | some out =>
    obtain ⟨res, w1, w2, w3⟩ := release_wrap (cw := cw) (ws := ws) (width := width) (release_styles h hf)
    rw [hf] at ht
    simp only [Option.bind_some, w1, Option.some.injEq] at ht
    subst ht
    exact ⟨holds_of_steps (tables_blocks (C08_text cw ws skin (width.getD usizeMax) _ out hf)) (code_blocks (justifyBlocks_spec out)) w2, w3⟩

/-- C93: the text formatted by a release build holds the content of the source, as in C51, even when a debug build panics. -/
theorem C93_content (cw : Char → Nat) (ws : Char → Bool) (skin : Skin) (mlines : List MLine) (width : Option Nat) (h : Readable skin mlines)
    (t : FmtText) (ht : Release.fromText cw ws skin mlines width = some t) : ReplacedBy (Holds ws width) mlines t.lines :=
  (release_steps h ht).1

/-- C93: a line which isn't a table one and which isn't in the width has one word at most. -/
theorem C93_overflow (cw : Char → Nat) (ws : Char → Bool) (skin : Skin) (mlines : List MLine) (w : Nat) (h : Readable skin mlines) (h3 : 3 ≤ w)
    (t : FmtText) (ht : Release.fromText cw ws skin mlines (some w) = some t) (fc : FmtComposite) (ls : LineStyle)
    (hfc : .normal fc ∈ t.lines) (hls : styleOf skin fc.kind = some ls) :
    fc.visibleLength + marginSum ls w ≤ w ∨ OneWord ws fc.compounds :=
  (release_steps h ht).2 w rfl h3 fc ls hfc hls

private theorem wrapStep_ok {ws : Char → Bool} {skin : Skin} {lines out : List FmtLine} (h : ReplacedBy (WrapStep ws) lines out)
    (hl : ∀ l ∈ lines, LineOk skin l) : ∀ l ∈ out, LineOk skin l := by
  induction h with
  | nil => exact hl
  | @cons x b xs out hx _ ih =>
    intro l hm
    simp only [List.mem_append] at hm
    rcases hm with hm | hm
    · have hxo := hl x (by simp)
      cases x with
      | normal fc =>
        obtain ⟨fcs, rfl, ⟨first, more, rfl, k1, k2⟩, _⟩ := hx
        obtain ⟨g, hg, rfl⟩ := List.mem_map.1 hm
        have hfo : DepthOk fc.kind ∧ styleOf skin fc.kind ≠ none := hxo
        show DepthOk g.kind ∧ styleOf skin g.kind ≠ none
        simp only [List.mem_cons] at hg
        rcases hg with rfl | hg
        · rw [k1]; exact hfo
        · have k3 := k2 g hg
          cases hk : fc.kind with
          | listItem d =>
            rw [hk] at hfo k3
            simp only at k3
            rw [k3]
            refine ⟨?_, hfo.2⟩
            intro d' hd
            rcases hd with hd | hd
            · cases hd
            · cases hd; exact hfo.1 d (.inl rfl)
          | _ => rw [hk] at hfo k3; simp only at k3; rw [k3]; exact hfo
      | _ =>
        have e : b = [_] := hx
        subst e
        simp only [List.mem_singleton] at hm
        subst hm
        exact hxo
    · exact ih (fun l' h' => hl l' (by simp [h'])) l hm

/-- C93: displaying a text formatted by a release build never panics, whatever the rendering width which is set later. -/
theorem C93_display (cw : Char → Nat) (ws : Char → Bool) (skin : Skin) (mlines : List MLine) (width width' : Option Nat) (h : Readable skin mlines)
    (t : FmtText) (ht : Release.fromText cw ws skin mlines width = some t) :
    ∃ ps, FmtText.display skin { t with width := width' } = some ps ∧ ps.length = t.lines.length := by
  obtain ⟨_, _, r3⟩ := readable_lines (cw := cw) h
  simp only [Release.fromText, release_all _ r3, Option.bind_eq_bind] at ht
  cases hf : fixAllTables cw ws skin (width.getD usizeMax) (mlines.map (FmtLine.ofMLine skin cw)) with
  | none => rw [hf] at ht; cases ht
  | some out =>
    obtain ⟨res, w1, w2, _⟩ := release_wrap (cw := cw) (ws := ws) (width := width) (release_styles h hf)
    rw [hf] at ht
    simp only [Option.bind_some, w1, Option.some.injEq] at ht
    subst ht
    exact mapM_total res fun l hl => writeFmtLine_total (wrapStep_ok w2 (laid_out_ok h hf) l hl) width' false

private def deepText : List MLine := [.normal (.listItem 3) [⟨"ab cdefgh".toList, {}⟩]]

private theorem deep_readable : Readable {} deepText := by
  constructor
  · intro k cs hm
    simp only [deepText, List.mem_singleton, MLine.normal.injEq] at hm
    obtain ⟨rfl, rfl⟩ := hm
    refine ⟨?_, by decide⟩
    intro d hd
    rcases hd with h | h <;> cases h
    decide
  · intro cells hm
    simp [deepText] at hm

/-- C93: an item too deep for the width is formatted in lines larger than the width by a release build, and panics in a debug build. -/
theorem C93_deep_counterexample :
    Readable {} deepText ∧ FmtText.fromText (fun _ => 1) (· == ' ') {} deepText (some 4) = none ∧
    (Release.fromText (fun _ => 1) (· == ' ') {} deepText (some 4)).map (fun t => t.lines.map fun l => (l.visibleLength, l.composites.map fun c =>
      (styledChars c.compounds).map (·.1))) = some [(5, [[]]), (7, ["ab".toList]), (11, ["cdefgh".toList])] := by
  exact ⟨deep_readable, by decide, by decide⟩

/-! The text of C71, with its deep item and its ragged table. -/

example : Readable {} panicText := panicText_readable
example : FmtText.fromText renderCw (· == ' ') {} panicText (some 4) = none ∧ Release.fromText renderCw (· == ' ') {} panicText (some 4) ≠ none ∧
    Release.fromText renderCw (· == ' ') {} panicText (some 12) = none ∧ Release.fromText renderCw (· == ' ') {} panicText (some 9) = none ∧
    Release.fromText renderCw (· == ' ') {} panicText (some 2) ≠ none := by decide +kernel
example : FmtText.fromText renderCw (· == ' ') {} panicText (some 17) ≠ none ∧
    Release.fromText renderCw (· == ' ') {} panicText (some 17) = FmtText.fromText renderCw (· == ' ') {} panicText (some 17) := by decide +kernel
/-- In the first line only mode, the lines after the one of the bullet start at the margin, and the word which doesn't hold isn't cut either. -/
example : (Release.fromText (fun _ => 1) (· == ' ') { indentMode := .firstLineOnly } deepText (some 4)).map (fun t => t.lines.map fun l =>
    (l.visibleLength, l.composites.map fun c => (styledChars c.compounds).map (·.1))) = some [(5, [[]]), (3, ["ab ".toList]), (6, ["cdefgh".toList])] := by decide

end Verif.Props

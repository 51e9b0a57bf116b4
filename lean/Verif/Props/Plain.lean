import Verif.Spec.Plain
import Verif.Props.Print
/-! C97: texts printed without any escape sequence. -/
namespace Verif.Props
open Verif Verif.Spec

namespace PlainLemmas

theorem adds {s o : CompoundStyle} (hs : s = {}) (ho : AddsNothing o) : s.overwriteWith o = {} := by
  subst hs
  obtain ⟨h1, h2, h3⟩ := ho
  simp [CompoundStyle.overwriteWith, h1, h2, h3, Attrs.extend]

theorem adds_iff (o : CompoundStyle) : ({} : CompoundStyle).overwriteWith o = {} ↔ AddsNothing o := by
  simp [CompoundStyle.overwriteWith, AddsNothing, Attrs.extend]

theorem plain_compound {skin : Skin} (h : PlainSkin skin) {ls : LineStyle} (hl : ls.style = {}) (c : Compound) : skin.compoundStyle ls c = {} := by
  unfold Skin.compoundStyle
  have hif : ∀ (b : Bool) (s o : CompoundStyle), AddsNothing o → s = {} → (if b then s.overwriteWith o else s) = {} := by
    intro b s o ho hs
    cases b
    · exact hs
    · exact adds hs ho
  split
  · exact h.ellipsis
  · exact hif _ _ _ h.inlineCode (hif _ _ _ h.bold (hif _ _ _ h.strikeout (hif _ _ _ h.italic hl)))

theorem plain_line {skin : Skin} (h : PlainSkin skin) {line : FmtLine} {width : Option Nat} {rc : Bool} {ps : List Piece}
    (hw : skin.writeFmtLine line width rc = some ps) : ∀ p ∈ ps, p.1 = {} := by
  intro p hp
  have disp : ∀ s : StyledChar, p ∈ s.display → p.1 = s.drawn.1 := by
    intro s hs; simp only [StyledChar.display, List.mem_singleton] at hs; rw [hs]
  rcases writeFmtLine_pieces hw p hp with ⟨fc, _, ls, hls, hc⟩ | ⟨_, e⟩ | ⟨_, e, _⟩ | ⟨⟨n, hn⟩, _⟩
  · have hl : ls.style = {} := by
      by_cases hk : fc.kind = .code
      · rw [hk] at hls
        simp only [Skin.lineStyle, Option.some.injEq] at hls
        rw [← hls]; exact h.codeBlock
      · rcases lineStyle_cases hls hk with e | ⟨i, e⟩ <;> rw [e]
        · exact h.paragraph
        · exact h.headers i
    rcases hc with ⟨_, e | e⟩ | ⟨e, _⟩ | ⟨e, _⟩ | ⟨c, _, e⟩
    · rw [e]; exact h.paragraph
    · rw [e]; exact hl
    · rw [disp _ e]; exact h.bullet
    · rw [disp _ e]; exact h.quoteMark
    · unfold Skin.writeCompound at e
      split at e
      · next r hr => rw [disp _ e]; exact h.special c r hr
      · simp only [List.mem_singleton] at e
        rw [e]; exact plain_compound h hl c
  · rw [e]; exact h.paragraph
  · rw [e]; exact h.table
  · simp only [StyledChar.repeated, List.mem_singleton] at hn
    rw [hn]; exact h.horizontalRule

theorem stream_pieces (w : AnsiWriter) (ps : List Piece) (h : ∀ p ∈ ps, p.1 = {}) : w.stream (ps.map Piece.cmd) = piecesText ps := by
  simp only [AnsiWriter.stream, piecesText, List.flatMap_map]
  induction ps with
  | nil => rfl
  | cons p ps ih =>
    have e : w.enc (Piece.cmd p) = p.2 := by
      simp only [Piece.cmd, h p (by simp), w.plain]
    simp only [List.flatMap_cons, e]
    rw [ih fun q hq => h q (by simp [hq])]

theorem stream_lines (w : AnsiWriter) (drawn : List (List Piece)) (h : ∀ ps ∈ drawn, ∀ p ∈ ps, p.1 = {}) :
    w.stream (drawn.flatMap fun ps => ps.map Piece.cmd ++ [.print ['\n']]) = endedLines (drawn.map piecesText) := by
  induction drawn with
  | nil => rfl
  | cons ps drawn ih =>
    have e := stream_pieces w ps (h ps (by simp))
    have ih := ih fun q hq => h q (by simp [hq])
    simp only [AnsiWriter.stream, endedLines, List.flatMap_cons, List.flatMap_append, List.map_cons, List.flatMap_nil, w.print, List.append_nil] at e ih ⊢
    rw [e, ih]

theorem drawn_of {cw : Char → Nat} {ws : Char → Bool} {skin : Skin} {told : Option (Nat × Nat)} {mlines : List MLine} {cmds : List TtyCmd}
    (h : skin.printText cw ws told mlines = some cmds) : ∃ drawn, shownPieces cw ws skin mlines (some (terminalSize told).1) = some drawn ∧
      cmds = drawn.flatMap fun ps => ps.map Piece.cmd ++ [.print ['\n']] := by
  simp only [Skin.printText, Skin.termText, FmtText.print, Option.bind_eq_bind, Option.bind_eq_some_iff, Option.some.injEq] at h
  obtain ⟨t, h1, drawn, h2, h3⟩ := h
  exact ⟨drawn, by simp [shownPieces, h1, h2], h3.symm⟩

theorem plain_drawn {cw : Char → Nat} {ws : Char → Bool} {skin : Skin} (hp : PlainSkin skin) {mlines : List MLine} {width : Option Nat}
    {drawn : List (List Piece)} (h : shownPieces cw ws skin mlines width = some drawn) : ∀ ps ∈ drawn, ∀ p ∈ ps, p.1 = {} := by
  obtain ⟨t, _, hl⟩ := shown_lines h
  intro ps hps
  obtain ⟨l, _, hl⟩ := hl ps hps
  exact plain_line hp hl

theorem put_pen {cw : Char → Nat} {s : CompoundStyle} : ∀ (t : Text) (c c' : Console), t.foldlM (Console.put cw s) c = some c' → c'.pen = c.pen := by
  intro t
  induction t with
  | nil => intro c c' h; simp at h; rw [h]
  | cons a t ih =>
    intro c c' h
    simp only [List.foldlM_cons, Option.bind_eq_bind, Option.bind_eq_some_iff] at h
    obtain ⟨d, h1, h2⟩ := h
    rw [ih d c' h2]
    unfold Console.put at h1
    split at h1
    · simp at h1; rw [← h1]
    · split at h1
      · simp at h1
      · split at h1 <;> · simp at h1; rw [← h1]

theorem exec_plain (cw : Char → Nat) (con : Console) (t : Text) : con.exec cw (.styled {} t) = con.exec cw (.print t) := by
  have e1 : over {} con.pen = con.pen := by
    simp [over]
  have e2 : penAfter {} con.pen = con.pen := by
    simp [penAfter, over]
  simp only [Console.exec, e1, e2]
  cases hr : t.foldlM (Console.put cw con.pen) con with
  | none => rfl
  | some c' =>
    have := put_pen t con c' hr
    simp [← this]

theorem play_prints (cw : Char → Nat) (w : AnsiWriter) : ∀ (cmds : List TtyCmd) (con : Console),
    (∀ c ∈ cmds, ∃ t, c = .print t ∨ c = .styled {} t) → con.play cw cmds = con.exec cw (.print (w.stream cmds)) := by
  intro cmds
  induction cmds with
  | nil => intro con _; simp [Console.play, Console.exec, AnsiWriter.stream]
  | cons c cmds ih =>
    intro con h
    obtain ⟨t, ht⟩ := h c (by simp)
    have e : con.exec cw c = con.exec cw (.print t) := by
      rcases ht with rfl | rfl
      · rfl
      · exact exec_plain cw con t
    have e' : w.stream (c :: cmds) = t ++ w.stream cmds := by
      rcases ht with rfl | rfl
      · simp [AnsiWriter.stream, w.print]
      · simp [AnsiWriter.stream, w.plain]
    rw [Console.play, List.foldlM_cons, e, e']
    have : con.exec cw (.print (t ++ w.stream cmds)) = (con.exec cw (.print t)).bind fun c => c.exec cw (.print (w.stream cmds)) := by
      simp only [Console.exec, List.foldlM_append]
      cases hr : t.foldlM (Console.put cw con.pen) con with
      | none => rfl
      | some c' => simp [put_pen t con c' hr]
    rw [this]
    congr 1
    funext c'
    exact ih c' fun q hq => h q (by simp [hq])

theorem printed_plain {drawn : List (List Piece)} (h : ∀ ps ∈ drawn, ∀ p ∈ ps, p.1 = {}) :
    ∀ c ∈ drawn.flatMap fun ps => ps.map Piece.cmd ++ [.print ['\n']], ∃ t, c = .print t ∨ c = .styled {} t := by
  intro c hc
  simp only [List.mem_flatMap, List.mem_append, List.mem_map, List.mem_singleton] at hc
  obtain ⟨ps, hps, ⟨p, hp, rfl⟩ | rfl⟩ := hc
  · exact ⟨p.2, .inr (by simp [Piece.cmd, h ps hps p hp])⟩
  · exact ⟨_, .inl rfl⟩

/-- What is printed for one line on a narrow terminal, where lines aren't wrapped. -/
theorem esc_of (w : AnsiWriter) {drawn : List (List Piece)} {ps : List Piece} (hps : ps ∈ drawn) {p : Piece} (hp : p ∈ ps) (hne : p.1 ≠ {}) :
    escChar ∈ w.stream (drawn.flatMap fun ps => ps.map Piece.cmd ++ [.print ['\n']]) := by
  simp only [AnsiWriter.stream, List.mem_flatMap]
  exact ⟨p.cmd, ⟨ps, hps, by simp only [List.mem_append, List.mem_map]; exact .inl ⟨p, hp, rfl⟩⟩, w.colored p.1 p.2 hne⟩

theorem narrow_text {cw : Char → Nat} {ws : Char → Bool} {skin : Skin} {kind : Kind} {cs : List Compound} (hk : kind ≠ .code) {ps : List Piece}
    (h : skin.writeFmtLine (.normal (FmtComposite.ofComposite skin cw kind cs)) (some 2) false = some ps) :
    skin.printText cw ws (some (2, 2)) [.normal kind cs] = some ([ps].flatMap fun ps => ps.map Piece.cmd ++ [.print ['\n']]) := by
  have e1 : fixAllTables cw ws skin ((some 2).getD usizeMax) ([MLine.normal kind cs].map (FmtLine.ofMLine skin cw)) =
      some [.normal (FmtComposite.ofComposite skin cw kind cs)] := by
    simp [fixAllTables, findTables, findTablesLoop, FmtLine.ofMLine, FmtLine.tableCols, fixTables]
  have e2 : justifyBlocks [.normal (FmtComposite.ofComposite skin cw kind cs)] = [.normal (FmtComposite.ofComposite skin cw kind cs)] := by
    cases kind <;> first | rfl | exact absurd rfl hk
  simp only [Skin.printText, Skin.termText, terminalSize, FmtText.fromText, Option.getD_some, FmtText.print, FmtText.display] at e1 ⊢
  rw [e1]
  simp only [Option.bind_eq_bind, Option.bind_some, e2]
  simp [wrapText, h]

theorem narrow_code {cw : Char → Nat} {ws : Char → Bool} {skin : Skin} {cs : List Compound} :
    ∃ fc : FmtComposite, fc.kind = .code ∧ fc.compounds = cs ∧ ∀ ps, skin.writeFmtLine (.normal fc) (some 2) false = some ps →
      skin.printText cw ws (some (2, 2)) [.normal .code cs] = some ([ps].flatMap fun ps => ps.map Piece.cmd ++ [.print ['\n']]) := by
  have e1 : fixAllTables cw ws skin ((some 2).getD usizeMax) ([MLine.normal .code cs].map (FmtLine.ofMLine skin cw)) =
      some [.normal (FmtComposite.ofComposite skin cw .code cs)] := by
    simp [fixAllTables, findTables, findTablesLoop, FmtLine.ofMLine, FmtLine.tableCols, fixTables]
  have e2 : ∃ fc : FmtComposite, fc.kind = .code ∧ fc.compounds = cs ∧ justifyBlocks [.normal (FmtComposite.ofComposite skin cw .code cs)] = [.normal fc] :=
    ⟨_, by rfl, by rfl, rfl⟩
  obtain ⟨fc, h1, h2, e2⟩ := e2
  refine ⟨fc, h1, h2, fun ps h => ?_⟩
  simp only [Skin.printText, Skin.termText, terminalSize, FmtText.fromText, Option.getD_some, FmtText.print, FmtText.display] at e1 ⊢
  rw [e1]
  simp only [Option.bind_eq_bind, Option.bind_some, e2]
  simp [wrapText, h]

theorem narrow_row {cw : Char → Nat} {ws : Char → Bool} {skin : Skin} : ∃ ps : List Piece, skin.printText cw ws (some (2, 2)) [.tableRow [(.paragraph, [])]] =
    some ([ps].flatMap fun ps => ps.map Piece.cmd ++ [.print ['\n']]) ∧ (skin.table.style, [skin.tableBorderChars.vertical]) ∈ ps := by
  have e1 : fixAllTables cw ws skin ((some 2).getD usizeMax) ([MLine.tableRow [(.paragraph, [])]].map (FmtLine.ofMLine skin cw)) = some [.tableRow []] := by
    simp [fixAllTables, findTables, findTablesLoop, FmtLine.ofMLine, FmtLine.tableCols, fixTables, Table.fixColumns, fixTableLines, TblFit.new,
      layoutRows, splitRows, splitRow, csub, wrapCells, nbNewLines, alignRows, setSpacings]
  have e2 : justifyBlocks [.tableRow []] = [.tableRow []] := rfl
  obtain ⟨ps, h1, h2⟩ : ∃ ps, skin.writeFmtLine (.tableRow []) (some 2) false = some ps ∧ (skin.table.style, [skin.tableBorderChars.vertical]) ∈ ps :=
    ⟨_, rfl, by simp⟩
  refine ⟨ps, ?_, h2⟩
  simp only [Skin.printText, Skin.termText, terminalSize, FmtText.fromText, Option.getD_some, FmtText.print, FmtText.display] at e1 ⊢
  rw [e1]
  simp only [Option.bind_eq_bind, Option.bind_some, e2]
  simp [wrapText, h1]

end PlainLemmas
open PlainLemmas

/-- C97: with a skin which has neither colors nor attributes, what is written for a text is the characters of its lines and the ends of lines,
and nothing else. -/
theorem C97_text (cw : Char → Nat) (ws : Char → Bool) (w : AnsiWriter) {skin : Skin} (hp : PlainSkin skin) (told : Option (Nat × Nat))
    (mlines : List MLine) (cmds : List TtyCmd) (h : skin.printText cw ws told mlines = some cmds) :
    ∃ lines, shownText cw ws skin mlines (some (terminalSize told).1) = some lines ∧ w.stream cmds = endedLines lines := by
  obtain ⟨drawn, h1, rfl⟩ := drawn_of h
  refine ⟨drawn.map piecesText, ?_, stream_lines w drawn (plain_drawn hp h1)⟩
  simp only [shownPieces, shownText, Option.bind_eq_bind, Option.bind_eq_some_iff] at h1 ⊢
  obtain ⟨t, h2, h3⟩ := h1
  exact ⟨t, h2, drawn, h3, rfl⟩

/-- C97: it's the same for a composite. -/
theorem C97_inline (cw : Char → Nat) (w : AnsiWriter) {skin : Skin} (hp : PlainSkin skin) (kind : Kind) (cs : List Compound) (ps : List Piece)
    (h : skin.writeComposite cw kind cs = some ps) : ∃ cmds, skin.printComposite cw kind cs = some cmds ∧ w.stream cmds = piecesText ps :=
  ⟨ps.map Piece.cmd, by simp [Skin.printComposite, h], stream_pieces w ps
    (plain_line hp (show skin.writeFmtLine (.normal (FmtComposite.ofComposite skin cw kind cs)) none false = some ps from h))⟩

/-- C97: and for a composite cut or completed so that it has a given width. -/
theorem C97_fill (cw : Char → Nat) (ws : Char → Bool) (w : AnsiWriter) {skin : Skin} (hp : PlainSkin skin) (kind : Kind) (cs : List Compound)
    (width : Nat) (align : Alignment) (ps : List Piece) (h : skin.writeCompositeFill cw ws kind cs width align = some ps) :
    w.stream (ps.map Piece.cmd) = piecesText ps := by
  simp only [Skin.writeCompositeFill, Option.bind_eq_bind, Option.bind_eq_some_iff] at h
  obtain ⟨fc, _, h⟩ := h
  exact stream_pieces w ps (plain_line hp (show skin.writeFmtLine (.normal fc) none false = some ps from h))

/-- C97: printing a text with such a skin has the effect of printing its characters: they have the colors and attributes the terminal already
had, and those aren't changed. -/
theorem C97_effect (cw : Char → Nat) (ws : Char → Bool) (w : AnsiWriter) {skin : Skin} (hp : PlainSkin skin) (told : Option (Nat × Nat))
    (mlines : List MLine) (cmds : List TtyCmd) (h : skin.printText cw ws told mlines = some cmds) (con : Console) :
    con.play cw cmds = con.play cw [.print (w.stream cmds)] ∧ ∀ con', con.play cw cmds = some con' → con'.pen = con.pen := by
  obtain ⟨drawn, h1, rfl⟩ := drawn_of h
  have e := play_prints cw w _ con (printed_plain (plain_drawn hp h1))
  refine ⟨?_, fun con' hc => ?_⟩
  · rw [e]; simp [Console.play]
  · rw [e] at hc
    exact put_pen _ _ _ hc

/-- C97: the escape character is only written if it's in the source or in the skin. -/
theorem C97_no_escape (cw : Char → Nat) (ws : Char → Bool) (w : AnsiWriter) {skin : Skin} (hp : PlainSkin skin) (told : Option (Nat × Nat))
    (mlines : List MLine) (cmds : List TtyCmd) (h : skin.printText cw ws told mlines = some cmds) (hsrc : ∀ m ∈ mlines, escChar ∉ sourceChars m)
    (hskin : ¬ IsSkinChar skin escChar) : escChar ∉ w.stream cmds := by
  obtain ⟨lines, h1, h2⟩ := C97_text cw ws w hp told mlines cmds h
  rw [h2]
  intro hc
  simp only [endedLines, List.mem_flatMap, List.mem_append, List.mem_singleton] at hc
  obtain ⟨l, hl, hc | hc⟩ := hc
  · rcases C50_chars cw ws skin mlines _ _ h1 l hl escChar hc with ⟨m, hm, hc⟩ | hc
    · exact hsrc m hm hc
    · exact hskin hc
  · revert hc; decide

/-- C97: `MadSkin::no_style` is such a skin, and `limit_to_ascii`, other borders, margins, alignments or indentation keep it so. -/
theorem C97_skins : PlainSkin .noStyle ∧ ∀ skin, PlainSkin skin → DrawsItsState skin.bullet → DrawsItsState skin.quoteMark →
    PlainSkin skin.limitToAscii ∧ ∀ b m, PlainSkin { skin with tableBorderChars := b, indentMode := m } := by
  refine ⟨⟨rfl, fun _ => rfl, rfl, rfl, rfl, ⟨rfl, rfl, rfl⟩, ⟨rfl, rfl, rfl⟩, ⟨rfl, rfl, rfl⟩, ⟨rfl, rfl, rfl⟩, rfl, rfl, rfl,
    fun _ _ h => by simp [Skin.noStyle] at h⟩, fun skin h hb hq => ⟨⟨h.paragraph, h.headers, h.codeBlock, h.table, h.ellipsis, h.bold, h.italic, h.strikeout,
      h.inlineCode, ?_, ?_, h.horizontalRule, h.special⟩, fun b m => ⟨h.paragraph, h.headers, h.codeBlock, h.table, h.ellipsis, h.bold, h.italic, h.strikeout,
      h.inlineCode, h.bullet, h.quoteMark, h.horizontalRule, h.special⟩⟩⟩
  · have := h.bullet
    simp only [DrawsItsState, StyledChar.display, List.cons.injEq, Prod.mk.injEq, and_true] at hb
    rw [hb.1] at this; exact this
  · have := h.quoteMark
    simp only [DrawsItsState, StyledChar.display, List.cons.injEq, Prod.mk.injEq, and_true] at hq
    rw [hq.1] at this; exact this

/-- C97: the skin of the most limited terminals: with `no_style` then `limit_to_ascii`, an ASCII text is written as ASCII characters, without
escape. -/
theorem C97_ascii (cw : Char → Nat) (ws : Char → Bool) (w : AnsiWriter) (told : Option (Nat × Nat)) (mlines : List MLine) (cmds : List TtyCmd)
    (h : Skin.noStyle.limitToAscii.printText cw ws told mlines = some cmds)
    (hsrc : ∀ m ∈ mlines, ∀ c ∈ sourceChars m, c.toNat < 128 ∧ c ≠ escChar) : ∀ c ∈ w.stream cmds, c.toNat < 128 ∧ c ≠ escChar := by
  have hp : PlainSkin Skin.noStyle.limitToAscii := (C97_skins.2 _ C97_skins.1 rfl rfl).1
  intro c hc
  refine ⟨?_, ?_⟩
  · obtain ⟨lines, h1, h2⟩ := C97_text cw ws w hp told mlines cmds h
    rw [h2] at hc
    simp only [endedLines, List.mem_flatMap, List.mem_append, List.mem_singleton] at hc
    obtain ⟨l, hl, hc | hc⟩ := hc
    · exact C50_ascii cw ws .noStyle (fun _ => rfl) mlines _ lines (fun m hm c hc => (hsrc m hm c hc).1) h1 l hl c hc
    · subst hc; decide
  · rintro rfl
    refine C97_no_escape cw ws w hp told mlines cmds h (fun m hm he => (hsrc m hm _ he).2 rfl) ?_ hc
    rintro (h | h | h | h | h | ⟨c, sc, h, _⟩)
    · revert h; decide
    · revert h; decide
    · revert h; decide
    · revert h; decide
    · revert h; decide
    · simp [Skin.limitToAscii, Skin.noStyle] at h

/-- C97: no other skin is such: if nothing printed has an escape character which isn't in the source, the skin has neither colors nor attributes. -/
theorem C97_only (cw : Char → Nat) (ws : Char → Bool) (w : AnsiWriter) (skin : Skin) (hspecial : ∀ c, skin.specialChars c = none)
    (hall : ∀ told mlines cmds, skin.printText cw ws told mlines = some cmds → (∀ m ∈ mlines, escChar ∉ sourceChars m) → escChar ∉ w.stream cmds) :
    PlainSkin skin := by
  have line : ∀ (kind : Kind) (cs : List Compound), kind ≠ .code → escChar ∉ sourceChars (.normal kind cs) → ∀ ps,
      skin.writeFmtLine (.normal (FmtComposite.ofComposite skin cw kind cs)) (some 2) false = some ps → ∀ p ∈ ps, p.1 = {} := by
    intro kind cs hk hs ps h p hp
    refine Classical.byContradiction fun hne => ?_
    exact hall _ _ _ (narrow_text (ws := ws) hk h) (fun m hm => by rw [List.mem_singleton.1 hm]; exact hs) (esc_of w (by simp) hp hne)
  have comp : ∀ (kind : Kind) (cs : List Compound) (ls : LineStyle), kind ≠ .code → escChar ∉ sourceChars (.normal kind cs) →
      skin.lineStyle kind = some ls → ∀ pre, skin.writePrefix kind = some pre → (∀ p ∈ pre, p.1 = {}) ∧ ∀ c ∈ cs, skin.compoundStyle ls c = {} := by
    intro kind cs ls hk hs hls pre hpre
    obtain ⟨ps, hps, hsub⟩ : ∃ ps, skin.writeFmtLine (.normal (FmtComposite.ofComposite skin cw kind cs)) (some 2) false = some ps ∧
        (∀ p ∈ pre, p ∈ ps) ∧ ∀ c ∈ cs, (skin.compoundStyle ls c, c.src) ∈ ps := by
      refine ⟨_, by simp only [Skin.writeFmtLine, Skin.writeFmtComposite, FmtComposite.ofComposite, hls, hpre, Option.bind_eq_bind, Option.bind_some]; rfl, ?_, ?_⟩
      · intro p hp; simp [hp]
      · intro c hc
        simp only [List.mem_append, List.mem_flatMap]
        exact .inl (.inl (.inr ⟨c, hc, by simp [Skin.writeCompound, hspecial]⟩))
    exact ⟨fun p hp => line kind cs hk hs ps hps p (hsub.1 p hp), fun c hc => line kind cs hk hs ps hps _ (hsub.2 c hc)⟩
  have hpar : skin.paragraph.style = {} := by
    have := (comp .paragraph [⟨['a'], {}⟩] skin.paragraph (by simp) (by decide) rfl [] rfl).2 ⟨['a'], {}⟩ (by simp)
    simpa [Skin.compoundStyle] using this
  have flag : ∀ (f : Flags) (o : CompoundStyle), skin.compoundStyle skin.paragraph ⟨['a'], f⟩ = skin.paragraph.style.overwriteWith o → AddsNothing o := by
    intro f o he
    have := (comp .paragraph [⟨['a'], f⟩] skin.paragraph (by simp) (by simp [sourceChars, styledChars]; decide) rfl [] rfl).2 ⟨['a'], f⟩ (by simp)
    rw [he, hpar] at this
    exact (adds_iff o).1 this
  refine ⟨hpar, fun i => ?_, ?_, ?_, ?_, flag { bold := true } _ (by simp [Skin.compoundStyle]), flag { italic := true } _ (by simp [Skin.compoundStyle]),
    flag { strikeout := true } _ (by simp [Skin.compoundStyle]), flag { code := true } _ (by simp [Skin.compoundStyle]), ?_, ?_, ?_, fun c r h => by simp [hspecial] at h⟩
  · have := (comp (.header (i.1 + 1)) [⟨['a'], {}⟩] (skin.headers i) (by simp) (by show escChar ∉ ['a']; decide)
      (by have := i.2; simp only [Skin.lineStyle]; rw [if_pos (by omega), dif_pos (by omega)]; simp) [] rfl).2 ⟨['a'], {}⟩ (by simp)
    simpa [Skin.compoundStyle] using this
  · obtain ⟨fc, h1, h2, h3⟩ := narrow_code (cw := cw) (ws := ws) (skin := skin) (cs := [⟨['a'], {}⟩])
    refine Classical.byContradiction fun hne => ?_
    obtain ⟨ps, hps, hm⟩ : ∃ ps, skin.writeFmtLine (.normal fc) (some 2) false = some ps ∧ (skin.codeBlock.style, ['a']) ∈ ps := by
      refine ⟨_, by simp only [Skin.writeFmtLine, Skin.writeFmtComposite, h1, Skin.lineStyle, Skin.writePrefix, Option.bind_eq_bind, Option.bind_some]; rfl, ?_⟩
      simp [h2, Skin.writeCompound, hspecial, Skin.compoundStyle]
    exact hall _ _ _ (h3 ps hps) (by decide) (esc_of w (by simp) hm hne)
  · refine Classical.byContradiction fun hne => ?_
    obtain ⟨ps, hps, hm⟩ := narrow_row (cw := cw) (ws := ws) (skin := skin)
    exact hall _ _ _ hps (by decide) (esc_of w (by simp) hm hne)
  · have := (comp .paragraph [⟨['…'], {}⟩] skin.paragraph (by simp) (by decide) rfl [] rfl).2 ⟨['…'], {}⟩ (by simp)
    simpa [Skin.compoundStyle] using this
  · exact (comp (.listItem 0) [] skin.paragraph (by simp) (by decide) rfl _ rfl).1 _ (by simp [StyledChar.display]; exact .inl rfl)
  · exact (comp .quote [] skin.paragraph (by simp) (by decide) rfl _ rfl).1 _ (by simp [StyledChar.display]; exact .inl rfl)
  · refine Classical.byContradiction fun hne => ?_
    obtain ⟨ps, hps, hm⟩ : ∃ ps : List Piece, skin.printText cw ws (some (2, 2)) [.horizontalRule] =
        some ([ps].flatMap fun ps => ps.map Piece.cmd ++ [.print ['\n']]) ∧ (skin.horizontalRule.style, List.replicate 2 skin.horizontalRule.char) ∈ ps :=
      ⟨_, rfl, by simp [StyledChar.repeated, terminalSize]⟩
    exact hall _ _ _ hps (by decide) (esc_of w (by simp) hm hne)

/-- The scrollbar of `no_style` has colors: what is said above isn't true of views. -/
theorem C97_scrollbar_counterexample : ∃ ps : List Piece, PlainSkin .noStyle ∧ Skin.noStyle.scrollbar.thumb.display = ps ∧ ∃ p ∈ ps, p.1 ≠ {} :=
  ⟨_, C97_skins.1, rfl, by decide⟩

/-- A writer which has the properties assumed of crossterm's one. -/
def simpleAnsi : AnsiWriter where
  enc
    | .print t => t
    | .styled s t => if s = {} then t else escChar :: '[' :: 'm' :: t
    | _ => []
  print _ := rfl
  plain _ := rfl
  colored s t h := by simp [h]

/-- The text of the examples, with nearly everything there is in a text. -/
def plainSource : List MLine :=
  [.normal (.header 1) [⟨['T'], {}⟩], .normal .paragraph [⟨['a', ' '], {}⟩, ⟨['b'], { bold := true }⟩], .normal (.listItem 0) [⟨['c'], { code := true }⟩],
   .tableRow [(.paragraph, [⟨['d'], {}⟩])], .horizontalRule]

example : (Skin.noStyle.limitToAscii.printText (fun _ => 1) (· == ' ') (some (6, 9)) plainSource).map (fun cmds => String.ofList (simpleAnsi.stream cmds)) =
    some "T\na b\n* c\n| d |\n------\n" := by decide +kernel

example : ∃ cmds, Skin.default.printText (fun _ => 1) (· == ' ') (some (6, 9)) plainSource = some cmds ∧ escChar ∈ simpleAnsi.stream cmds :=
  ⟨_, rfl, by decide +kernel⟩

example : ∀ m ∈ plainSource, ∀ c ∈ sourceChars m, c.toNat < 128 ∧ c ≠ escChar := by decide

end Verif.Props

import Verif.Model.Print
import Verif.Spec.Print
import Verif.Props.Tty
import Verif.Props.SkinRender
import Verif.Props.PagerMain
import Verif.Props.Write
/-! C85: texts and inlines printed on a terminal. -/
namespace Verif.Props
open Verif Verif.Spec

section
variable {cw : Char → Nat}

theorem columns_append (a b : List (CompoundStyle × Char)) : columns cw (a ++ b) = columns cw a + columns cw b := by
  simp [columns]

theorem columns_text (s : CompoundStyle) (t : Text) : columns cw (t.map fun c => (s, c)) = textWidth cw t := by
  induction t with
  | nil => rfl
  | cons c t ih => simp only [columns, List.map_cons, List.sum_cons, textWidth] at ih ⊢; rw [ih]

theorem not_newline {c : Char} (h : ¬ IsControl c) : c ≠ '\n' := by
  rintro rfl
  exact h (.inl (by decide))

theorem put_text (s : CompoundStyle) : ∀ (t : Text) (con : Console), (∀ c ∈ t, ¬ IsControl c) →
    columns cw con.current + textWidth cw t ≤ con.width →
    t.foldlM (Console.put cw s) con = some { con with current := con.current ++ t.map fun c => (s, c) } := by
  intro t
  induction t with
  | nil => intro con _ _; simp
  | cons c t ih =>
    intro con hc hw
    simp only [textWidth] at hw
    have h1 : Console.put cw s con c = some { con with current := con.current ++ [(s, c)] } := by
      rw [Console.put, if_neg (not_newline (hc c (by simp))), if_neg (hc c (by simp)), if_pos (by omega)]
    rw [List.foldlM_cons, h1]
    have hcol : columns cw [(s, c)] = cw c := by simp [columns]
    have := ih { con with current := con.current ++ [(s, c)] } (fun c hm => hc c (by simp [hm]))
      (by show columns cw (con.current ++ [(s, c)]) + _ ≤ con.width; rw [columns_append, hcol]; omega)
    simp only [Option.bind_eq_bind, Option.bind_some]
    rw [this]
    simp

theorem console_append (con : Console) (a b : List TtyCmd) : con.play cw (a ++ b) = (con.play cw a).bind fun c => c.play cw b := by
  simp only [Console.play, List.foldlM_append]
  rfl

theorem play_printed : ∀ (ps : List Piece) (con : Console), con.pen = {} → (∀ p ∈ ps, Tidy p.1) → (∀ p ∈ ps, ∀ c ∈ p.2, ¬ IsControl c) →
    columns cw con.current + piecesCols cw ps ≤ con.width →
    con.play cw (ps.map Piece.cmd) = some { con with current := con.current ++ pieceChars (seenPieces ps) } := by
  intro ps
  induction ps with
  | nil => intro con _ _ _ _; simp [Console.play, pieceChars, seenPieces]
  | cons p ps ih =>
    intro con hp ht hc hw
    have e : piecesCols cw (p :: ps) = textWidth cw p.2 + piecesCols cw ps := by
      simp [piecesCols, piecesText, textWidth_append]
    rw [e] at hw
    have h1 : con.exec cw p.cmd = some { con with current := con.current ++ p.2.map fun c => (seen p.1, c) } := by
      simp only [Piece.cmd, Console.exec]
      rw [hp, over_default, put_text _ _ _ (hc p (by simp)) (by omega), penAfter_default (ht p (by simp))]
      simp [hp]
    have h2 := ih { con with current := con.current ++ p.2.map fun c => (seen p.1, c) } hp (fun q hq => ht q (by simp [hq]))
      (fun q hq => hc q (by simp [hq]))
      (by show columns cw (con.current ++ _) + _ ≤ con.width; rw [columns_append, columns_text]; omega)
    rw [List.map_cons, Console.play, List.foldlM_cons, h1]
    simp only [Option.bind_eq_bind, Option.bind_some]
    rw [Console.play] at h2
    rw [h2]
    simp [pieceChars, seenPieces]

theorem play_lines : ∀ (drawn : List (List Piece)) (con : Console), con.pen = {} → con.current = [] → (∀ ps ∈ drawn, ∀ p ∈ ps, Tidy p.1) →
    (∀ ps ∈ drawn, ∀ p ∈ ps, ∀ c ∈ p.2, ¬ IsControl c) → (∀ ps ∈ drawn, piecesCols cw ps ≤ con.width) →
    con.play cw (drawn.flatMap fun ps => ps.map Piece.cmd ++ [.print ['\n']]) =
      some { con with rows := con.rows ++ drawn.map fun ps => pieceChars (seenPieces ps) } := by
  intro drawn
  induction drawn with
  | nil => intro con _ _ _ _ _; simp [Console.play]
  | cons ps drawn ih =>
    intro con hp hcur ht hc hw
    have h0 : columns cw con.current = 0 := by rw [hcur]; rfl
    rw [List.flatMap_cons, console_append, console_append,
      play_printed ps con hp (ht ps (by simp)) (hc ps (by simp)) (by rw [h0]; have := hw ps (by simp); omega)]
    simp only [Option.bind_some]
    have h1 : ({ con with current := con.current ++ pieceChars (seenPieces ps) } : Console).play cw [.print ['\n']] =
        some { con with rows := con.rows ++ [pieceChars (seenPieces ps)], current := [] } := by
      simp [Console.play, Console.exec, Console.put, hcur]
    rw [h1]
    simp only [Option.bind_some]
    rw [ih { con with rows := con.rows ++ [pieceChars (seenPieces ps)], current := [] } hp rfl (fun q hq => ht q (by simp [hq])) (fun q hq => hc q (by simp [hq])) (fun q hq => hw q (by simp [hq]))]
    simp [hcur]

end

/-- C85: a text printed from the start of a row takes exactly one row of the terminal per line: the terminal, of at least the width the program
knows, never has to break a line, and the next thing printed is at the start of the row after the text, with the default colors. -/
theorem C85_text (cw : Char → Nat) (ws : Char → Bool) {skin : Skin} (hk : OneColumnSkin cw skin) (hs : TidySkin skin) (mlines : List MLine)
    (told : Option (Nat × Nat)) (h3 : 3 ≤ (terminalSize told).1) (hf : FittingText cw skin (terminalSize told).1 mlines)
    (hsrc : ∀ m ∈ mlines, ∀ c ∈ sourceChars m, ¬ IsControl c) (hskin : ∀ c, IsSkinChar skin c → ¬ IsControl c)
    (con : Console) (hw : (terminalSize told).1 ≤ con.width) (hpen : con.pen = {}) (hcur : con.current = []) :
    ∃ cmds lines, skin.printText cw ws told mlines = some cmds ∧ shownPieces cw ws skin mlines (some (terminalSize told).1) = some lines ∧
      con.play cw cmds = some { con with rows := con.rows ++ lines.map fun ps => pieceChars (seenPieces ps) } := by
  obtain ⟨t, drawn, h1, h2, _, h4⟩ := C11_fits cw ws skin hk _ h3 mlines hf
  have hshown : shownPieces cw ws skin mlines (some (terminalSize told).1) = some drawn := by
    simp [shownPieces, h1, h2]
  refine ⟨drawn.flatMap fun ps => ps.map Piece.cmd ++ [.print ['\n']], drawn, by simp [Skin.printText, Skin.termText, h1, FmtText.print, h2], hshown,
    play_lines drawn con hpen hcur ?_ ?_ (fun ps hps => Nat.le_trans (h4 ps hps) hw)⟩
  · intro ps hps
    obtain ⟨t', _, hl⟩ := shown_lines hshown
    obtain ⟨l, _, hl⟩ := hl ps hps
    exact tidy_line hs hl
  · intro ps hps p hp c hc
    have ht : shownText cw ws skin mlines (some (terminalSize told).1) = some (drawn.map piecesText) := by
      simp [shownText, h1, h2]
    rcases C50_chars cw ws skin mlines _ _ ht (piecesText ps) (List.mem_map.2 ⟨ps, hps, rfl⟩) c
      (by simp only [piecesText, List.mem_flatMap]; exact ⟨p, hp, hc⟩) with ⟨m, hm, hc⟩ | hc
    · exact hsrc m hm c hc
    · exact hskin c hc

/-- C85: what is printed for a composite which has enough place after the characters of the current row is added to this row. -/
theorem C85_inline (cw : Char → Nat) {skin : Skin} (hk : OneColumnSkin cw skin) (hs : TidySkin skin) (kind : Kind) (cs : List Compound) {ls : LineStyle}
    (hls : styleOf skin kind = some ls) (hdepth : ∀ d, kind = .listItemFollowUp d → d < 255)
    (hsrc : ∀ p ∈ styledChars cs, ¬ IsControl p.1) (hskin : ∀ c, IsSkinChar skin c → ¬ IsControl c)
    (con : Console) (hpen : con.pen = {})
    (hw : columns cw con.current + ls.leftMargin + prefixCols skin.indentMode kind + ((styledChars cs).map fun p => cw p.1).sum ≤ con.width) :
    ∃ cmds ps, skin.printComposite cw kind cs = some cmds ∧ skin.writeComposite cw kind cs = some ps ∧
      con.play cw cmds = some { con with current := con.current ++ pieceChars (seenPieces ps) } := by
  have hd : Drawable cw skin (FmtComposite.ofComposite skin cw kind cs) :=
    ⟨by simp [FmtComposite.ofComposite, hls], by rw [lineCols_eq]; rfl, Nat.le_refl _, hdepth⟩
  obtain ⟨ps, ls', p1, p2, p3⟩ := C10_inline cw skin hk _ hd
  have e : ls' = ls := by
    have : styleOf skin kind = some ls' := p2
    rw [hls] at this
    exact (Option.some.inj this).symm
  subst e
  have hl : skin.writeFmtLine (.normal (FmtComposite.ofComposite skin cw kind cs)) none false = some ps := p1
  have hcomp : skin.writeComposite cw kind cs = some ps := p1
  refine ⟨ps.map Piece.cmd, ps, by simp [Skin.printComposite, hcomp], hcomp, play_printed ps con hpen (tidy_line hs hl) ?_ ?_⟩
  · intro p hp ch hch
    rcases writeFmtLine_pieces hl p hp with ⟨fc, hfc, ls, hls, hpc⟩ | ⟨he, _⟩ | ⟨he, _⟩ | ⟨⟨n, he⟩, _⟩
    · have hfc : fc = FmtComposite.ofComposite skin cw kind cs := by simpa [FmtLine.composites] using hfc
      subst hfc
      rcases hpc with ⟨he, _⟩ | ⟨he, _⟩ | ⟨he, _⟩ | ⟨cp, hcp, he⟩
      · exact hskin ch (.inl (by simpa using he ch hch))
      · rw [mem_display he] at hch
        exact hskin ch (.inr (.inl (by simpa using hch)))
      · rw [mem_display he] at hch
        exact hskin ch (.inr (.inr (.inl (by simpa using hch))))
      · simp only [Skin.writeCompound] at he
        split at he
        · rename_i sc hsc
          rw [mem_display he] at hch
          exact hskin ch (.inr (.inr (.inr (.inr (.inr ⟨cp, sc, hsc, by simpa using hch⟩)))))
        · simp only [List.mem_singleton] at he
          subst he
          exact hsrc _ (char_flag hcp hch)
    · exact hskin ch (.inl (by simpa using he ch hch))
    · exact hskin ch (.inr (.inr (.inr (.inr (.inl (he ch hch))))))
    · rw [mem_repeated he] at hch
      simp only [List.mem_replicate] at hch
      exact hskin ch (.inr (.inr (.inr (.inl hch.2))))
  · rw [p3]
    have : spacedCols (FmtComposite.ofComposite skin cw kind cs) = prefixCols skin.indentMode kind + ((styledChars cs).map fun p => cw p.1).sum := hd.cached
    omega

/-- The default skin, and the one of the examples, have no control characters. -/
theorem renderSkin_printable : ∀ c, IsSkinChar renderSkin c → ¬ IsControl c := by
  intro c h
  rcases h with h | h | h | h | h | ⟨c', sc, h, _⟩
  · subst h; decide
  · subst h; decide
  · subst h; decide
  · subst h; decide
  · have : ∀ c ∈ [renderSkin.tableBorderChars.horizontal, renderSkin.tableBorderChars.vertical,
      renderSkin.tableBorderChars.topLeftCorner, renderSkin.tableBorderChars.topRightCorner,
      renderSkin.tableBorderChars.bottomRightCorner, renderSkin.tableBorderChars.bottomLeftCorner,
      renderSkin.tableBorderChars.topJunction, renderSkin.tableBorderChars.rightJunction,
      renderSkin.tableBorderChars.bottomJunction, renderSkin.tableBorderChars.leftJunction, renderSkin.tableBorderChars.cross], ¬ IsControl c := by decide
    exact this c h
  · simp [renderSkin] at h

/-- A terminal on which something was printed. -/
def usedConsole : Console := { width := 13, rows := [[({}, '$')]] }

/-- The hypotheses of C85_text are met: a text with a title, a list, code and a table. -/
example : ∃ cmds lines, renderSkin.printText renderCw (· == ' ') (some (13, 5)) exText = some cmds ∧
    shownPieces renderCw (· == ' ') renderSkin exText (some 13) = some lines ∧
      usedConsole.play renderCw cmds = some { usedConsole with rows := usedConsole.rows ++ lines.map fun ps => pieceChars (seenPieces ps) } :=
  C85_text renderCw (· == ' ') renderSkin_one renderSkin_tidy exText (some (13, 5)) (by decide) exText_fits (by decide) renderSkin_printable usedConsole
    (by decide) rfl rfl

/-- The text of the rows of a terminal. -/
def consoleText (con : Console) : List String := (con.rows ++ [con.current]).map fun row => String.ofList (row.map (·.2))

/-- This is what is on the terminal. -/
example : ((renderSkin.printText renderCw (· == ' ') (some (13, 5)) exText).bind (usedConsole.play renderCw)).map consoleText =
    some ["$", "A title", "     • some ", "    words to", "        wrap", "fn f()", "{}    ", "│col │ 一   │", "│    │second│", "├────┼──────┤",
      "│cell│      │", "―――――――――――――", ""] := by decide +kernel

/-- The hypotheses of C85_inline are met. -/
example : ∃ cmds ps, renderSkin.printComposite renderCw .quote [⟨"a一".toList, { bold := true }⟩, ⟨" b".toList, {}⟩] = some cmds ∧
    renderSkin.writeComposite renderCw .quote [⟨"a一".toList, { bold := true }⟩, ⟨" b".toList, {}⟩] = some ps ∧
    ({ usedConsole with current := [({}, '>')] } : Console).play renderCw cmds =
      some { usedConsole with current := [({}, '>')] ++ pieceChars (seenPieces ps) } :=
  C85_inline renderCw renderSkin_one renderSkin_tidy .quote _ rfl (by simp) (by decide) renderSkin_printable { usedConsole with current := [({}, '>')] } rfl
    (by decide)

/-- C85: the text must be printed from the start of a row. After one character, the lines which take the whole width are broken. -/
theorem C85_start_counterexample :
    ((renderSkin.printText renderCw (· == ' ') (some (13, 5)) [.horizontalRule]).bind
      (({ usedConsole with current := [({}, '>')] } : Console).play renderCw)).map consoleText = some ["$", ">――――――――――――", "―", ""] := by
  decide +kernel

/-- C85: a program which isn't told the size of its terminal prints for 50 columns: lines may be broken by a smaller one. -/
theorem C85_size_counterexample :
    ((renderSkin.printText renderCw (· == ' ') none [.horizontalRule]).bind (usedConsole.play renderCw)).map consoleText =
      some ["$", "―――――――――――――", "―――――――――――――", "―――――――――――――", "―――――――――――", ""] := by
  decide +kernel

/-- C85: the lines made of a line of code which is too long are completed to its whole length: they are broken by the terminal. -/
theorem C85_code_counterexample :
    ((renderSkin.printText renderCw (· == ' ') (some (13, 5)) [.normal .code [⟨"fn some_function()".toList, { code := true }⟩]]).bind
      (usedConsole.play renderCw)).map consoleText = some ["$", "fn some_funct", "     ", "ion()        ", "     ", ""] := by
  decide +kernel

end Verif.Props

import Verif.Props.Displayed
import Verif.Props.Style
import Verif.Props.SkinRender
import Verif.Spec.StyledDisplay
/-! C59: a displayed text has the styles of its markers. -/
namespace Verif.Props
open Verif Spec

theorem piecesCells_append (a b : List Piece) : piecesCells (a ++ b) = piecesCells a ++ piecesCells b := by simp [piecesCells]
theorem piecesCells_nil : piecesCells [] = [] := rfl
theorem piecesCells_cons (p : Piece) (b : List Piece) : piecesCells (p :: b) = p.2.map (fun c => (c, p.1)) ++ piecesCells b := by
  simp [piecesCells]
theorem piecesCells_repeat (s : CompoundStyle) (c : Char) (n : Nat) : piecesCells (repeatChar s c n) = List.replicate n (c, s) := by
  unfold repeatChar
  split
  · simp [piecesCells]
  · have : n = 0 := by omega
    simp [this, piecesCells]
theorem piecesCells_text (ps : List Piece) : (piecesCells ps).map (·.1) = piecesText ps := by
  induction ps with
  | nil => rfl
  | cons p ps ih => rw [piecesCells_cons, piecesText_cons, List.map_append, ih]; simp [Function.comp_def]

theorem matched_append {α β : Type} {R : α → β → Prop} : ∀ {a a' : List α} {b b' : List β}, Matched R a b → Matched R a' b' →
    Matched R (a ++ a') (b ++ b') := by
  intro a a' b b' h h'
  induction h with
  | nil => exact h'
  | cons hx _ ih => exact .cons hx ih

theorem matched_maps {α β γ : Type} {R : β → γ → Prop} (l : List α) (f : α → β) (g : α → γ) (h : ∀ a ∈ l, R (f a) (g a)) :
    Matched R (l.map f) (l.map g) := by
  induction l with
  | nil => exact .nil
  | cons a l ih => exact .cons (h a (by simp)) (ih fun x hx => h x (by simp [hx]))

/-- A compound is written with its characters in the style of its markers. -/
theorem writeCompounds_styled {skin : Skin} (hsp : ∀ c, skin.specialChars c = none) (ls : LineStyle) (cs : List Compound) :
    Matched (StyledAs skin ls) (styledChars cs) (piecesCells (cs.flatMap (skin.writeCompound ls))) := by
  induction cs with
  | nil => exact .nil
  | cons c cs ih =>
    rw [List.flatMap_cons, piecesCells_append]
    have e : styledChars (c :: cs) = (c.src.map fun ch => (ch, c.flags)) ++ styledChars cs := by simp [styledChars]
    rw [e]
    refine matched_append ?_ ih
    have e2 : piecesCells (skin.writeCompound ls c) = c.src.map fun ch => (ch, skin.compoundStyle ls c) := by
      simp [Skin.writeCompound, hsp c, piecesCells]
    rw [e2]
    refine matched_maps _ _ _ ?_
    intro ch hch
    refine ⟨rfl, ?_⟩
    by_cases hc : c.src = ['…']
    · right
      rw [hc, List.mem_singleton] at hch
      exact ⟨hch, by simp only [Skin.compoundStyle, if_pos hc]⟩
    · left
      have hl : layers skin ls c = layers skin ls ⟨[], c.flags⟩ := rfl
      refine ⟨?_, ?_, ?_⟩
      · rw [← hl]; exact (C41_compound_colors skin ls c hc).1
      · rw [← hl]; exact (C41_compound_colors skin ls c hc).2
      · intro a; rw [← hl]; exact C41_compound_attrs skin ls c a hc

theorem writePrefix_cells (skin : Skin) (k : Kind) {pre : List Piece} (h : skin.writePrefix k = some pre) :
    piecesCells pre = prefixCells skin k := by
  have rep : ∀ n (s : CompoundStyle), piecesCells (List.replicate n (s, [' '])) = List.replicate n (' ', s) := by
    intro n s
    induction n with
    | zero => rfl
    | succ n ih => rw [List.replicate_succ, piecesCells_cons, ih]; rfl
  cases k with
  | listItem d =>
    simp only [Skin.writePrefix, Option.some.injEq] at h
    subst h
    simp only [piecesCells_append, rep, StyledChar.display, piecesCells_cons, piecesCells_nil, prefixCells]
    simp
  | listItemFollowUp d =>
    simp only [Skin.writePrefix] at h
    simp only [prefixCells]
    split at h
    · rename_i hb
      rw [if_pos hb]
      split at h
      · simp only [Option.some.injEq] at h
        subst h
        rw [piecesCells_append, rep, show d + 2 = (d + 1) + 1 from rfl, List.replicate_succ' (n := d + 1)]
        rfl
      · cases h
    · rename_i hb
      rw [if_neg hb]
      cases h; rfl
  | quote => simp only [Skin.writePrefix, Option.some.injEq] at h; subst h; rfl
  | paragraph => simp only [Skin.writePrefix, Option.some.injEq] at h; subst h; rfl
  | header n => simp only [Skin.writePrefix, Option.some.injEq] at h; subst h; rfl
  | code => simp only [Skin.writePrefix, Option.some.injEq] at h; subst h; rfl

theorem blanks_append {skin : Skin} {ls : LineStyle} {a b : List StyledCell} (ha : Blanks skin ls a) (hb : Blanks skin ls b) :
    Blanks skin ls (a ++ b) := by
  intro c hc
  rcases List.mem_append.1 hc with h | h
  · exact ha c h
  · exact hb c h

theorem blanks_paragraph (skin : Skin) (ls : LineStyle) (n : Nat) : Blanks skin ls (List.replicate n (' ', skin.paragraph.style)) := by
  intro c hc; exact .inl (List.mem_replicate.1 hc).2
theorem blanks_line (skin : Skin) (ls : LineStyle) (n : Nat) : Blanks skin ls (List.replicate n (' ', ls.style)) := by
  intro c hc; exact .inr (List.mem_replicate.1 hc).2

/-- A composite which is written is shown with its styles. -/
theorem writeFmtComposite_styled {skin : Skin} (hsp : ∀ c, skin.specialChars c = none) {fc : FmtComposite} {outer : Option Nat}
    {rc margins : Bool} {ps : List Piece} (h : skin.writeFmtComposite fc outer rc margins = some ps) :
    ShowsStyled skin (fc.kind, styledChars fc.compounds) (piecesCells ps) := by
  simp only [Skin.writeFmtComposite, Option.bind_eq_bind, Option.bind_eq_some_iff, Option.some.injEq, lineStyle_eq] at h
  obtain ⟨ls, hls, pre, hpre, h⟩ := h
  subst h
  generalize (if margins = true then ls.marginsIn outer else (0, 0)) = m
  generalize Spacing.optionalCompletions ls.align (fc.innerWidth + m.1 + m.2) outer = po
  refine ⟨ls, List.replicate (po.1 + m.1) (' ', skin.paragraph.style) ++ List.replicate fc.completions.1 (' ', ls.style),
    piecesCells (fc.compounds.flatMap (skin.writeCompound ls)),
    List.replicate fc.completions.2 (' ', ls.style) ++ (if rc then List.replicate (po.2 + m.2) (' ', skin.paragraph.style) else []),
    hls, ?_, blanks_append (blanks_paragraph _ _ _) (blanks_line _ _ _), blanks_append (blanks_line _ _ _) ?_,
    writeCompounds_styled hsp ls fc.compounds⟩
  · rw [← writePrefix_cells skin fc.kind hpre]
    cases rc <;> simp only [piecesCells_append, piecesCells_repeat, if_true, Bool.false_eq_true, if_false,
      List.append_assoc, List.append_nil]
  · cases rc
    · intro c hc; cases hc
    · exact blanks_paragraph _ _ _

/-- What is displayed for a formatted line, with the styles. -/
def LineStyled (skin : Skin) (width : Option Nat) : FmtLine → List StyledCell → Prop
  | .normal fc, row => ShowsStyled skin (fc.kind, styledChars fc.compounds) row
  | .tableRow cells, row => ∃ n shown, Matched (ShowsStyled skin) (cells.map fun c => (c.kind, styledChars c.compounds)) shown ∧
      row = List.replicate n (' ', skin.paragraph.style) ++
          shown.flatMap (fun t => (skin.tableBorderChars.vertical, skin.table.style) :: t) ++
          [(skin.tableBorderChars.vertical, skin.table.style)]
  | .tableRule rule, row => ∃ n, row = List.replicate n (' ', skin.paragraph.style) ++
      (ruleText skin.tableBorderChars rule.position rule.widths).map fun c => (c, skin.table.style)
  | .horizontalRule, row => row = List.replicate (width.getD 0) (skin.horizontalRule.char, skin.horizontalRule.style)

theorem writeCells_styled {skin : Skin} (hsp : ∀ c, skin.specialChars c = none) : ∀ (cells : List FmtComposite) (ps : List Piece),
    skin.writeCells cells = some ps → ∃ shown, Matched (ShowsStyled skin) (cells.map fun c => (c.kind, styledChars c.compounds)) shown ∧
      piecesCells ps = shown.flatMap (fun t => (skin.tableBorderChars.vertical, skin.table.style) :: t) := by
  intro cells
  induction cells with
  | nil => intro ps h; rw [Skin.writeCells] at h; cases h; exact ⟨[], .nil, rfl⟩
  | cons c cells ih =>
    intro ps h
    simp only [Skin.writeCells, Option.bind_eq_bind, Option.bind_eq_some_iff, Option.some.injEq] at h
    obtain ⟨p, hp, rest, hr, h⟩ := h
    subst h
    obtain ⟨shown, h1, h2⟩ := ih rest hr
    refine ⟨piecesCells p :: shown, .cons (writeFmtComposite_styled hsp hp) h1, ?_⟩
    simp only [List.cons_append, piecesCells_cons, piecesCells_append, h2, List.flatMap_cons]
    rfl

theorem writeRuleCols_cells (skin : Skin) (j : Char) : ∀ (ws : List Nat) (first : Bool), ∀ c ∈ piecesCells (skin.writeRuleCols j first ws),
    c.2 = skin.table.style := by
  intro ws
  induction ws with
  | nil => intro first c hc; cases hc
  | cons w ws ih =>
    intro first c hc
    simp only [Skin.writeRuleCols, piecesCells_append, List.mem_append, piecesCells_repeat] at hc
    rcases hc with (hc | hc) | hc
    · cases first
      · simp [piecesCells] at hc; rw [hc]
      · cases hc
    · rw [(List.mem_replicate.1 hc).2]
    · exact ih _ _ hc

theorem cells_of_style {l : List StyledCell} {s : CompoundStyle} (h : ∀ c ∈ l, c.2 = s) : l = (l.map (·.1)).map fun c => (c, s) := by
  induction l with
  | nil => rfl
  | cons a l ih =>
    obtain ⟨a1, a2⟩ := a
    have e : a2 = s := h (a1, a2) (by simp)
    subst e
    rw [List.map_cons, List.map_cons, ← ih fun c hc => h c (by simp [hc])]

/-- A line which is written is shown with its styles. -/
theorem lineStyled {skin : Skin} (hsp : ∀ c, skin.specialChars c = none) {l : FmtLine} {w : Option Nat} {rc : Bool} {ps : List Piece}
    (hrc : rc = false) (h : skin.writeFmtLine l w rc = some ps) : LineStyled skin w l (piecesCells ps) := by
  subst hrc
  cases l with
  | normal fc => exact writeFmtComposite_styled hsp h
  | tableRow cells =>
    simp only [Skin.writeFmtLine, Option.bind_eq_bind, Option.bind_eq_some_iff, Option.some.injEq] at h
    obtain ⟨p, hp, h⟩ := h
    subst h
    obtain ⟨shown, h1, h2⟩ := writeCells_styled hsp cells p hp
    generalize Spacing.optionalCompletions _ _ _ = po
    refine ⟨po.1, shown, h1, ?_⟩
    simp only [piecesCells_append, piecesCells_repeat, h2, piecesCells_cons, piecesCells_nil, Bool.false_eq_true, if_false,
      List.append_nil]
    rfl
  | tableRule rule =>
    have ht := C10_rule_text skin rule w
    obtain ⟨ps', n, e1, e2⟩ := ht
    rw [e1] at h
    cases h
    simp only [Skin.writeFmtLine, Option.some.injEq] at e1
    generalize Spacing.optionalCompletions _ _ _ = po at e1
    refine ⟨po.1, ?_⟩
    subst e1
    rw [List.append_assoc, List.append_assoc, List.append_assoc, piecesCells_append, piecesText_append, piecesCells_repeat] at *
    rw [piecesText_repeat] at e2
    congr 1
    generalize hr : ([(skin.table.style, [(skin.tableBorderChars.ruleChars rule.position).1])] ++ _ : List Piece) = r at *
    have hst : ∀ c ∈ piecesCells r, c.2 = skin.table.style := by
      subst hr
      simp only [piecesCells_append, Bool.false_eq_true, if_false, List.mem_append, piecesCells_nil, List.not_mem_nil, or_false]
      rintro c (h | h | h)
      · simp [piecesCells] at h; rw [h]
      · exact writeRuleCols_cells skin _ _ _ c h
      · simp [piecesCells] at h; rw [h]
    rw [cells_of_style hst, piecesCells_text]
    congr 1
    have hrt : piecesText r = ruleText skin.tableBorderChars rule.position rule.widths := by
      subst hr
      simp only [piecesText_append, piecesText_cons, piecesText_nil, Bool.false_eq_true, if_false,
        List.append_nil, (writeRuleCols_text _ _).2]
      cases rule.position <;> rfl
    exact hrt
  | horizontalRule =>
    cases w with
    | none => simp only [Skin.writeFmtLine, Option.some.injEq] at h; subst h; rfl
    | some w =>
    simp only [Skin.writeFmtLine, Option.some.injEq] at h
    subst h
    simp [LineStyled, StyledChar.repeated, piecesCells]

theorem holds_styled {ws : Char → Bool} {skin : Skin} {w wr : Option Nat} {m : MLine} {out : List FmtLine} {rows : List (List StyledCell)}
    (hh : Holds ws w m out) (hm : Matched (LineStyled skin wr) out rows) : DisplayedStyled ws skin w wr m rows := by
  cases m with
  | normal kind cs =>
    obtain ⟨fcs, e, ⟨first, more, e2, hk, hmore⟩, hi, hs⟩ := hh
    subst e; subst e2
    have hm1 : Matched (fun (fc : FmtComposite) row => ShowsStyled skin (fc.kind, styledChars fc.compounds) row) (first :: more) rows :=
      matched_of_map_left (R := LineStyled skin wr) (f := FmtLine.normal) hm
    have hm' := matched_map_left (f := fun fc : FmtComposite => (fc.kind, styledChars fc.compounds)) (R := ShowsStyled skin) hm1
    rw [List.map_cons, hk] at hm'
    refine ⟨styledChars first.compounds, more.map fun fc => (fc.kind, styledChars fc.compounds), hm', ?_, ?_⟩
    · intro p hp
      simp only [List.mem_map] at hp
      obtain ⟨fc, hfc, rfl⟩ := hp
      have := hmore fc hfc
      cases kind <;> exact this
    · have e : linesChars (first :: more) =
          styledChars first.compounds ++ (more.map fun fc => (fc.kind, styledChars fc.compounds)).flatMap (·.2) := by
        simp only [linesChars, List.flatMap_cons, List.flatMap_map]
      rw [e] at hi hs
      exact ⟨hi, hs⟩
  | tableRow cells =>
    obtain ⟨nb, rws, e, hne, hnb, hc⟩ := hh
    subst e
    refine ⟨nb, rws.map fun r => r.map fun c => (c.kind, styledChars c.compounds), by simpa using hne, hnb, ?_, ?_⟩
    · refine matched_map_left ?_
      exact matched_of_map_left hm
    · intro ic hic
      obtain ⟨h1, h2⟩ := hc ic hic
      have e1 : (rws.flatMap fun r => cellChars r ic) =
          (rws.map fun r => r.map fun c => (c.kind, styledChars c.compounds)).flatMap fun parts =>
            match parts[ic]? with | some p => p.2 | none => [] := by
        rw [List.flatMap_map]
        congr 1
        funext r
        simp only [cellChars, List.getElem?_map]
        cases r[ic]? <;> rfl
      rw [e1] at h1 h2
      exact ⟨h1, h2⟩
  | tableRule al =>
    obtain ⟨rule, e⟩ := hh
    subst e
    cases hm with
    | cons h h' => cases h'; obtain ⟨n, e⟩ := h; exact ⟨n, rule.position, rule.widths, by rw [e]⟩
  | horizontalRule =>
    have e : out = [.horizontalRule] := hh
    subst e
    cases hm with
    | cons h h' => cases h'; have e : _ = _ := h; subst e; rfl
  | codeFence =>
    have e : out = [.horizontalRule] := hh
    subst e
    cases hm with
    | cons h h' => cases h'; have e : _ = _ := h; subst e; rfl

theorem matched_mapM' {α β γ : Type} {f : α → Option β} {g : β → γ} {R : α → γ → Prop} (hR : ∀ a b, f a = some b → R a (g b)) :
    ∀ {l : List α} {l' : List β}, l.mapM f = some l' → Matched R l (l'.map g) := by
  intro l
  induction l with
  | nil => intro l' h; simp at h; subst h; exact .nil
  | cons a l ih =>
    intro l' h
    simp only [List.mapM_cons, Option.bind_eq_bind, Option.bind_eq_some_iff] at h
    obtain ⟨b, hb, bs, hbs, e⟩ := h
    simp only [Option.pure_def, Option.some.injEq] at e
    subst e
    exact .cons (hR a b hb) (ih hbs)

/-- C59: whatever the text and the width, or without width, and whatever the rendering width set later, if the text is displayed (C56 says when), each row shows a part of the source with its styles:
each character of the source is in the style given by the skin to its markers in a line of its kind; the blanks have the style of the
line or of the paragraphs; the bullets, the quote marks, the borders and the rules have their own styles. -/
theorem C59_styles (cw : Char → Nat) (ws : Char → Bool) (skin : Skin) (hsp : ∀ c, skin.specialChars c = none) (w : Option Nat)
    (mlines : List MLine) (t t' : FmtText) (drawn : List (List Piece)) (ht : FmtText.fromText cw ws skin mlines w = some t)
    (ht' : t' = t ∨ ∃ n, t' = t.setRenderingWidth n) (hd : t'.display skin = some drawn) :
    InBlocks (DisplayedStyled ws skin w t'.width) mlines (drawn.map piecesCells) := by
  have hb := C51_content cw ws skin mlines w _ ht
  have hl : t'.lines = t.lines := by
    rcases ht' with rfl | ⟨n, rfl⟩ <;> rfl
  unfold FmtText.display at hd
  rw [hl] at hd
  generalize t'.width = wr at hd ⊢
  have hm := matched_mapM' (g := piecesCells) (R := LineStyled skin wr) (fun l ps h => lineStyled hsp rfl h) hd
  generalize drawn.map piecesCells = rows at hm
  generalize t.lines = out at hb hm
  clear hd ht ht' hl
  induction hb generalizing rows with
  | nil => cases hm; exact .nil
  | cons hx _ ih =>
    obtain ⟨oa, ob, e, h1, h2⟩ := matched_split hm
    subst e
    exact .cons (holds_styled hx h1) (ih ob h2)

/-- The text of C11 in 13 columns: the cells of its second row are a bullet and the first words of the item. -/
example : ((FmtText.fromText renderCw (· == ' ') renderSkin exText (some 13)).bind fun t => (t.display renderSkin).map fun rows =>
      (rows.map piecesCells).map fun r => String.ofList (r.map (·.1))) =
    some ["A title", "     • some ", "    words to", "        wrap", "fn f()", "{}    ", "│col │ 一   │", "│    │second│",
      "├────┼──────┤", "│cell│      │", "―――――――――――――"] := by decide +kernel

/-- The attributes of a displayed character, with a skin like the default one. -/
theorem marked_attrs {skin : Skin} {ls : LineStyle} {f : Flags} {s : CompoundStyle} (h : Marked skin ls f s) (a : Attr) :
    s.hasAttr a = true ↔ ls.style.hasAttr a = true ∨ (f.italic = true ∧ skin.italic.hasAttr a = true) ∨
      (f.strikeout = true ∧ skin.strikeout.hasAttr a = true) ∨ (f.bold = true ∧ skin.bold.hasAttr a = true) ∨
      (f.code = true ∧ skin.inlineCode.hasAttr a = true) := by
  rw [h.2.2 a]
  obtain ⟨fb, fi, fc, fs⟩ := f
  cases fb <;> cases fi <;> cases fc <;> cases fs <;> simp [layers]

/-- The styles of the default skins which have attributes. -/
theorem default_layers (skin : Skin) (hs : skin = .default ∨ skin = .defaultDark ∨ skin = .defaultLight) (a : Attr) :
    skin.italic.hasAttr a = decide (a = .italic) ∧ skin.strikeout.hasAttr a = decide (a = .crossedOut) ∧
    skin.bold.hasAttr a = decide (a = .bold) ∧ skin.inlineCode.hasAttr a = false ∧ skin.paragraph.style.hasAttr a = false ∧
    skin.codeBlock.style.hasAttr a = false ∧
    ∀ i, (skin.headers i).style.hasAttr a = (decide (a = .underlined) || (decide (a = .bold) && decide (i = 0))) := by
  rcases hs with rfl | rfl | rfl <;> cases a <;> decide

/-- The style of the lines of a kind, for the default skins: the attributes. -/
theorem default_line_attrs (skin : Skin) (hs : skin = .default ∨ skin = .defaultDark ∨ skin = .defaultLight) (kind : Kind) (ls : LineStyle)
    (hls : styleOf skin kind = some ls) (a : Attr) :
    ls.style.hasAttr a = true ↔ (a = .bold ∧ kind = .header 1) ∨ (a = .underlined ∧ ∃ n, 1 ≤ n ∧ n ≤ 8 ∧ kind = .header n) := by
  obtain ⟨_, _, _, _, hp, hc, hh⟩ := default_layers skin hs a
  have plain : ls = skin.paragraph ∨ ls = skin.codeBlock → ls.style.hasAttr a = false := by
    rintro (rfl | rfl)
    · exact hp
    · exact hc
  cases kind with
  | header n =>
    cases n with
    | zero => cases hls
    | succ n =>
      simp only [styleOf] at hls
      by_cases hn : n < 8
      · rw [dif_pos hn] at hls
        injection hls with hls
        rw [← hls, hh]
        have e : ((⟨n, hn⟩ : Fin 8) = 0) ↔ n = 0 := by rw [Fin.ext_iff]; rfl
        simp only [Bool.or_eq_true, Bool.and_eq_true, decide_eq_true_eq, e, Kind.header.injEq]
        constructor
        · rintro (h | ⟨h, h'⟩)
          · exact .inr ⟨h, n + 1, by omega, by omega, rfl⟩
          · exact .inl ⟨h, by omega⟩
        · rintro (⟨h, h'⟩ | ⟨h, _⟩)
          · exact .inr ⟨h, by omega⟩
          · exact .inl h
      · rw [dif_neg hn] at hls
        injection hls with hls
        rw [plain (.inl hls.symm)]
        simp only [Bool.false_eq_true, Kind.header.injEq, false_iff, not_or, not_and, not_exists]
        exact ⟨fun _ => by omega, fun _ m _ _ => by omega⟩
  | code => injection hls with hls; rw [plain (.inr hls.symm)]; simp
  | paragraph => injection hls with hls; rw [plain (.inl hls.symm)]; simp
  | listItem d => injection hls with hls; rw [plain (.inl hls.symm)]; simp
  | listItemFollowUp d => injection hls with hls; rw [plain (.inl hls.symm)]; simp
  | quote => injection hls with hls; rw [plain (.inl hls.symm)]; simp

/-- C59: with the default skins, what is displayed in bold is what is bold in the source and the main title; what is displayed in
italic is what is in italic; what is crossed out is what is striked out; what is underlined are the headers (down to level 8); there's
no other attribute. -/
theorem C59_default_attrs (skin : Skin) (hs : skin = .default ∨ skin = .defaultDark ∨ skin = .defaultLight) (kind : Kind) (ls : LineStyle)
    (hls : styleOf skin kind = some ls) (f : Flags) (s : CompoundStyle) (h : Marked skin ls f s) (a : Attr) :
    s.hasAttr a = true ↔ (a = .bold ∧ (f.bold = true ∨ kind = .header 1)) ∨ (a = .italic ∧ f.italic = true) ∨
      (a = .crossedOut ∧ f.strikeout = true) ∨ (a = .underlined ∧ ∃ n, 1 ≤ n ∧ n ≤ 8 ∧ kind = .header n) := by
  obtain ⟨h1, h2, h3, h4, _⟩ := default_layers skin hs a
  rw [marked_attrs h a, default_line_attrs skin hs kind ls hls a, h1, h2, h3, h4]
  simp only [decide_eq_true_eq, Bool.false_eq_true, and_false, or_false]
  generalize (∃ n, 1 ≤ n ∧ n ≤ 8 ∧ kind = .header n) = P
  generalize (kind = .header 1) = Q
  grind

/-- C59: with the default skin, code is displayed on a gray background, with its own foreground, and other texts have no color. -/
theorem C59_default_colors (kind : Kind) (ls : LineStyle) (hls : styleOf .default kind = some ls) (f : Flags) (s : CompoundStyle)
    (h : Marked .default ls f s) :
    s.fg = (if f.code = true ∨ kind = .code then some (gray 17) else none) ∧
    s.bg = (if f.code = true ∨ kind = .code then some (gray 3) else none) := by
  have hl : ls.style.fg = (if kind = .code then some (gray 17) else none) ∧ ls.style.bg = (if kind = .code then some (gray 3) else none) := by
    cases kind with
    | header n =>
      cases n with
      | zero => cases hls
      | succ n =>
        simp only [styleOf] at hls
        by_cases hn : n < 8
        · rw [dif_pos hn] at hls
          injection hls with hls
          rw [← hls]
          have : ∀ i : Fin 8, (Skin.default.headers i).style.fg = none ∧ (Skin.default.headers i).style.bg = none := by decide
          simpa using this ⟨n, hn⟩
        · rw [dif_neg hn] at hls
          injection hls with hls
          rw [← hls]; simp [Skin.default]
    | code => injection hls with hls; rw [← hls]; decide
    | paragraph => injection hls with hls; rw [← hls]; decide
    | listItem d => injection hls with hls; rw [← hls]; simp [Skin.default]
    | listItemFollowUp d => injection hls with hls; rw [← hls]; simp [Skin.default]
    | quote => injection hls with hls; rw [← hls]; decide
  rw [h.1, h.2.1]
  have e1 : Skin.default.italic.fg = none ∧ Skin.default.italic.bg = none := by decide
  have e2 : Skin.default.strikeout.fg = none ∧ Skin.default.strikeout.bg = none := by decide
  have e3 : Skin.default.bold.fg = none ∧ Skin.default.bold.bg = none := by decide
  have e4 : Skin.default.inlineCode.fg = some (gray 17) ∧ Skin.default.inlineCode.bg = some (gray 3) := by decide
  obtain ⟨fb, fi, fc, fs⟩ := f
  by_cases hk : kind = .code
  · rw [if_pos hk] at hl
    cases fb <;> cases fi <;> cases fc <;> cases fs <;> simp [layers, topmost, hl, hk, e1, e2, e3, e4]
  · rw [if_neg hk] at hl
    cases fb <;> cases fi <;> cases fc <;> cases fs <;> simp [layers, topmost, hl, hk, e1, e2, e3, e4]

theorem tinted_headers (skin : Skin) (kind : Kind) (ls : LineStyle) (hls : styleOf skin kind = some ls) (hc : kind ≠ .code) (c0 c1 c2 : Color)
    (h0 : (skin.headers 0).style.fg = some c0) (h1 : (skin.headers 1).style.fg = some c1) (h2 : (skin.headers 2).style.fg = some c2)
    (hr : ∀ i : Fin 8, 3 ≤ i.val → (skin.headers i).style.fg = none) (hb : ∀ i, (skin.headers i).style.bg = none)
    (hp : skin.paragraph.style.fg = none ∧ skin.paragraph.style.bg = none) :
    ls.style.fg = (if kind = .header 1 then some c0 else if kind = .header 2 then some c1 else if kind = .header 3 then some c2 else none) ∧ ls.style.bg = none := by
  cases kind with
  | header n =>
    cases n with
    | zero => cases hls
    | succ n =>
      simp only [styleOf] at hls
      by_cases hn : n < 8
      · rw [dif_pos hn] at hls
        injection hls with hls
        subst hls
        refine ⟨?_, hb _⟩
        match n, hn with
        | 0, _ => exact h0
        | 1, _ => simpa using h1
        | 2, _ => simpa using h2
        | n + 3, hn => simpa using hr ⟨n + 3, hn⟩ (by simp)
      · rw [dif_neg hn] at hls
        injection hls with hls
        subst hls
        rw [hp.1, if_neg (by intro h; injection h; omega), if_neg (by intro h; injection h; omega), if_neg (by intro h; injection h; omega)]
        exact ⟨rfl, hp.2⟩
  | code => exact absurd rfl hc
  | paragraph => injection hls with hls; subst hls; simpa using hp
  | listItem d => injection hls with hls; subst hls; simpa using hp
  | listItemFollowUp d => injection hls with hls; subst hls; simpa using hp
  | quote => injection hls with hls; subst hls; simpa using hp

/-- C59: with the default skins for dark and light terminals, code and the three first levels of headers have their own colors, inside which
inline code and nothing else is displayed in its own ones, and other texts have no color. -/
theorem C59_tinted_colors (skin : Skin) (code inline back c0 c1 c2 : Color)
    (hs : (skin = .defaultDark ∧ code = gray 20 ∧ inline = gray 20 ∧ back = gray 5 ∧ c0 = gray 22 ∧ c1 = gray 21 ∧ c2 = gray 20) ∨
      (skin = .defaultLight ∧ code = gray 3 ∧ inline = gray 4 ∧ back = gray 20 ∧ c0 = gray 0 ∧ c1 = gray 2 ∧ c2 = gray 4))
    (kind : Kind) (ls : LineStyle) (hls : styleOf skin kind = some ls) (f : Flags) (s : CompoundStyle) (h : Marked skin ls f s) :
    s.fg = (if f.code = true then some inline else if kind = .code then some code else
      if kind = .header 1 then some c0 else if kind = .header 2 then some c1 else if kind = .header 3 then some c2 else none) ∧
    s.bg = (if f.code = true ∨ kind = .code then some back else none) := by
  have e : (skin.italic.fg = none ∧ skin.italic.bg = none) ∧ (skin.strikeout.fg = none ∧ skin.strikeout.bg = none) ∧
      (skin.bold.fg = none ∧ skin.bold.bg = none) ∧ (skin.inlineCode.fg = some inline ∧ skin.inlineCode.bg = some back) ∧
      (skin.codeBlock.style.fg = some code ∧ skin.codeBlock.style.bg = some back) := by
    rcases hs with ⟨rfl, rfl, rfl, rfl, rfl, rfl, rfl⟩ | ⟨rfl, rfl, rfl, rfl, rfl, rfl, rfl⟩ <;> decide
  have hd : (skin.headers 0).style.fg = some c0 ∧ (skin.headers 1).style.fg = some c1 ∧ (skin.headers 2).style.fg = some c2 ∧
      (∀ i : Fin 8, 3 ≤ i.val → (skin.headers i).style.fg = none) ∧ (∀ i, (skin.headers i).style.bg = none) ∧
      skin.paragraph.style.fg = none ∧ skin.paragraph.style.bg = none := by
    rcases hs with ⟨rfl, rfl, rfl, rfl, rfl, rfl, rfl⟩ | ⟨rfl, rfl, rfl, rfl, rfl, rfl, rfl⟩ <;> decide
  obtain ⟨e1, e2, e3, e4, e5⟩ := e
  rw [h.1, h.2.1]
  obtain ⟨fb, fi, fc, fs⟩ := f
  by_cases hk : kind = .code
  · have hl : ls.style.fg = some code ∧ ls.style.bg = some back := by
      subst hk; injection hls with hls; rw [← hls]; exact e5
    cases fb <;> cases fi <;> cases fc <;> cases fs <;> simp [layers, topmost, hl, hk, e1, e2, e3, e4]
  · have hl := tinted_headers skin kind ls hls hk c0 c1 c2 hd.1 hd.2.1 hd.2.2.1 hd.2.2.2.1 hd.2.2.2.2.1 hd.2.2.2.2.2
    generalize (if kind = .header 1 then some c0 else if kind = .header 2 then some c1 else if kind = .header 3 then some c2 else none) = col at hl ⊢
    cases col <;> cases fb <;> cases fi <;> cases fc <;> cases fs <;> simp [layers, topmost, hl, hk, e1, e2, e3, e4]

/-- C59: with the default skins, the main title is centered and the other lines are not aligned. -/
theorem C59_default_align (skin : Skin) (hs : skin = .default ∨ skin = .defaultDark ∨ skin = .defaultLight) (kind : Kind) (ls : LineStyle)
    (hls : styleOf skin kind = some ls) :
    ls.align = (if kind = .header 1 then .center else .unspecified) ∧ ls.leftMargin = 0 ∧ ls.rightMargin = 0 := by
  have hh : ∀ i : Fin 8, (skin.headers i).align = (if i = 0 then .center else .unspecified) ∧ (skin.headers i).leftMargin = 0 ∧
      (skin.headers i).rightMargin = 0 := by
    rcases hs with rfl | rfl | rfl <;> decide
  have hp : (skin.paragraph.align = .unspecified ∧ skin.paragraph.leftMargin = 0 ∧ skin.paragraph.rightMargin = 0) ∧
      skin.codeBlock.align = .unspecified ∧ skin.codeBlock.leftMargin = 0 ∧ skin.codeBlock.rightMargin = 0 := by
    rcases hs with rfl | rfl | rfl <;> decide
  cases kind with
  | header n =>
    cases n with
    | zero => cases hls
    | succ n =>
      simp only [styleOf] at hls
      by_cases hn : n < 8
      · rw [dif_pos hn] at hls
        injection hls with hls
        have e : ((⟨n, hn⟩ : Fin 8) = 0) ↔ n = 0 := by rw [Fin.ext_iff]; rfl
        have := hh ⟨n, hn⟩
        rw [hls] at this
        simpa [e] using this
      · rw [dif_neg hn] at hls
        injection hls with hls
        rw [← hls, if_neg (by intro h; injection h with h; omega)]
        exact hp.1
  | code => injection hls with hls; rw [← hls]; exact hp.2
  | paragraph => injection hls with hls; rw [← hls]; exact hp.1
  | listItem d => injection hls with hls; rw [← hls]; exact hp.1
  | listItemFollowUp d => injection hls with hls; rw [← hls]; exact hp.1
  | quote => injection hls with hls; rw [← hls]; exact hp.1

/-- A bold word of a second level header. -/
example : ∃ s, Marked .default (Skin.default.headers 1) { bold := true } s ∧ styleOf .default (.header 2) = some (Skin.default.headers 1) :=
  ⟨Skin.default.compoundStyle (Skin.default.headers 1) ⟨['a'], { bold := true }⟩,
    ⟨(C41_compound_colors _ _ ⟨['a'], { bold := true }⟩ (by decide)).1, (C41_compound_colors _ _ ⟨['a'], { bold := true }⟩ (by decide)).2,
      fun a => C41_compound_attrs _ _ ⟨['a'], { bold := true }⟩ a (by decide)⟩, rfl⟩

/-- C59: with the default skins, nothing displayed for a text without code has a background: it's readable whatever the one of the terminal. And with the
main one nothing has a foreground, but the bullets, the quote marks, the rules and the borders of the tables, which are gray and have, but for the bold
quote mark, no attribute. -/
theorem C59_default_drawn (cw : Char → Nat) (ws : Char → Bool) (skin : Skin) (hs : skin = .default ∨ skin = .defaultDark ∨ skin = .defaultLight)
    (mlines : List MLine) (width : Option Nat) (drawn : List (List Piece)) (hnc : ∀ m ∈ mlines, NoCodeSource m)
    (h : shownPieces cw ws skin mlines width = some drawn) :
    ∀ ps ∈ drawn, ∀ p ∈ ps, ∀ ch ∈ p.2, p.1.bg = none ∧
      (skin = .default → p.1.fg = none ∨ (p.1.fg = some (gray 8) ∧ (∀ a, p.1.hasAttr a = false) ∧ p.2 = ['•']) ∨
        (p.1.fg = some (gray 12) ∧ (∀ a, p.1.hasAttr a = decide (a = .bold)) ∧ p.2 = ['▐']) ∨
        (p.1.fg = some (gray 6) ∧ (∀ a, p.1.hasAttr a = false) ∧ ch = '―') ∨
        (p.1.fg = some (gray 7) ∧ (∀ a, p.1.hasAttr a = false) ∧ ch ∈ TableBorderChars.standard.all)) := by
  obtain ⟨t, ht, hd⟩ := shown_lines h
  intro ps hps p hp ch hch
  obtain ⟨l, hl, hw⟩ := hd ps hps
  have hpar : skin.paragraph.style = {} := by rcases hs with rfl | rfl | rfl <;> rfl
  have hmarks : skin.bullet.drawn = (CompoundStyle.withFg (gray 8), '•') ∧
      skin.quoteMark.drawn = (CompoundStyle.new (some (gray 12)) none (Attrs.set 0#32 .bold), '▐') ∧
      (skin.horizontalRule.style = CompoundStyle.withFg (gray 6) ∧ skin.horizontalRule.char = '―') ∧ skin.table.style = CompoundStyle.withFg (gray 7) ∧ skin.ellipsis = {} ∧
      skin.tableBorderChars = TableBorderChars.standard ∧ (∀ c, skin.specialChars c = none) := by
    rcases hs with rfl | rfl | rfl <;> exact ⟨by decide, by decide, by decide, by decide, by decide, rfl, fun _ => rfl⟩
  obtain ⟨m1, m2, m3, m4, m5, m6, m7⟩ := hmarks
  have hf : ∀ c a, (CompoundStyle.withFg c).hasAttr a = false := by
    intro c a
    have h1 := (C41_attrs {} .bold a).2.2.2
    exact h1
  rcases writeFmtLine_pieces hw p hp with ⟨fc, hfc, ls, hls, hpc⟩ | ⟨_, he⟩ | ⟨hbd, he, _⟩ | ⟨⟨n, he⟩, _⟩
  · obtain ⟨hk, hcode⟩ := noCode_lines ht hnc l hl fc hfc
    have hlsbg : ls.style.bg = none ∧ (skin = .default → ls.style.fg = none) := by
      rcases lineStyle_cases hls hk with e | ⟨i, e⟩ <;> rw [e] <;> clear e
      · rw [hpar]; exact ⟨rfl, fun _ => rfl⟩
      · constructor
        · rcases hs with rfl | rfl | rfl <;> revert i <;> decide
        · rintro rfl; revert i; decide
    rcases hpc with ⟨_, he | he⟩ | ⟨he, _⟩ | ⟨he, _⟩ | ⟨cp, hcp, he⟩
    · rw [he, hpar]; exact ⟨rfl, fun _ => .inl rfl⟩
    · rw [he]; exact ⟨hlsbg.1, fun h => .inl (hlsbg.2 h)⟩
    · rw [mem_display he, m1]; exact ⟨rfl, fun _ => .inr (.inl ⟨rfl, hf _, rfl⟩)⟩
    · rw [mem_display he, m2]; exact ⟨rfl, fun _ => .inr (.inr (.inl ⟨rfl, fun a => by cases a <;> decide, rfl⟩))⟩
    · simp only [Skin.writeCompound, m7, List.mem_singleton] at he
      subst he
      by_cases hel : cp.src = ['…']
      · simp only [Skin.compoundStyle, hel, if_true, m5]
        exact ⟨trivial, fun _ => .inl trivial⟩
      · have hcf : cp.flags.code = false := hcode _ (char_flag hcp hch)
        have hbis : (skin.bold.bg = none ∧ skin.italic.bg = none ∧ skin.strikeout.bg = none) ∧
            skin.bold.fg = none ∧ skin.italic.fg = none ∧ skin.strikeout.fg = none := by
          rcases hs with rfl | rfl | rfl <;> decide
        obtain ⟨⟨b1, b2, b3⟩, b4, b5, b6⟩ := hbis
        refine ⟨?_, fun hd => .inl ?_⟩
        · show (skin.compoundStyle ls cp).bg = none
          rw [(C41_compound_colors _ ls cp hel).2]
          simp only [layers, topmost, hcf]
          cases cp.flags.italic <;> cases cp.flags.strikeout <;> cases cp.flags.bold <;> simp [b1, b2, b3, hlsbg.1]
        · show (skin.compoundStyle ls cp).fg = none
          rw [(C41_compound_colors _ ls cp hel).1]
          simp only [layers, topmost, hcf]
          cases cp.flags.italic <;> cases cp.flags.strikeout <;> cases cp.flags.bold <;> simp [b4, b5, b6, hlsbg.2 hd]
  · rw [he, hpar]; exact ⟨rfl, fun _ => .inl rfl⟩
  · rw [he, m4]; exact ⟨rfl, fun _ => .inr (.inr (.inr (.inr ⟨rfl, hf _, m6 ▸ hbd ch hch⟩)))⟩
  · have he := mem_repeated he
    rw [m3.1, m3.2] at he
    subst he
    exact ⟨rfl, fun _ => .inr (.inr (.inr (.inl ⟨rfl, hf _, (List.mem_replicate.1 hch).2⟩)))⟩

example : (shownPieces (fun _ => 1) (· == ' ') .default skinText (some 6)).map (·.map (·.map fun p => (p.1.fg, String.ofList p.2))) =
    some [[(none, "  "), (none, "Hi")], [(some (gray 8), "•"), (none, " "), (none, "a"), (none, "b")],
      [(some (gray 7), "│"), (none, " "), (none, "x"), (none, " "), (some (gray 7), "│")], [(some (gray 6), "――――――")]] := by decide

/-- C59: an ellipsis of the source, alone in its compound, loses its style. -/
theorem C59_ellipsis_counterexample : ∃ drawn : List (List Piece),
    ((FmtText.fromText (fun _ => 1) (· == ' ') .default [.normal .paragraph [⟨"a".toList, {}⟩, ⟨"…".toList, { bold := true }⟩]] (some 9)).bind
      fun t => t.display .default) = some drawn ∧ (['…'], ({} : CompoundStyle)) ∈ drawn.flatten.map fun p => (p.2, p.1) :=
  ⟨[[({}, ['a']), ({}, ['…'])]], rfl, by simp⟩

end Verif.Props

import Verif.Lemmas.FmtText
import Verif.Model.SkinOps
/-! Lemmas on the origin of what is written, and on the skins giving the same text. -/
namespace Verif

/-- All the characters are one of them. -/
def OnlyChars (p : Piece) (cs : List Char) : Prop := ∀ c ∈ p.2, c ∈ cs

theorem mem_repeatChar {s : CompoundStyle} {c : Char} {n : Nat} {p : Piece} (h : p ∈ repeatChar s c n) : p.1 = s ∧ OnlyChars p [c] := by
  simp only [repeatChar] at h
  by_cases hn : n > 0
  · rw [if_pos hn] at h
    simp only [List.mem_singleton] at h
    subst h
    refine ⟨rfl, ?_⟩
    intro x hx
    simp only [List.mem_replicate] at hx
    simp [hx.2]
  · rw [if_neg hn] at h
    simp at h

theorem writePrefix_pieces {skin : Skin} {k : Kind} {ps : List Piece} (h : skin.writePrefix k = some ps) {p : Piece} (hp : p ∈ ps) :
    p = (skin.paragraph.style, [' ']) ∨ (p ∈ skin.bullet.display ∧ ∃ d, k = .listItem d) ∨ (p ∈ skin.quoteMark.display ∧ k = .quote) := by
  cases k with
  | listItem d =>
    simp only [Skin.writePrefix, Option.some.injEq] at h
    subst h
    simp only [List.mem_append, List.mem_replicate, List.mem_singleton] at hp
    rcases hp with (⟨_, hp⟩ | hp) | hp
    · exact .inl hp
    · exact .inr (.inl ⟨hp, d, rfl⟩)
    · exact .inl hp
  | listItemFollowUp d =>
    simp only [Skin.writePrefix] at h
    by_cases h1 : skin.indentMode = .block
    · rw [if_pos h1] at h
      by_cases h2 : d + 1 < 256
      · rw [if_pos h2] at h
        simp only [Option.some.injEq] at h
        subst h
        simp only [List.mem_append, List.mem_replicate, List.mem_singleton] at hp
        rcases hp with ⟨_, hp⟩ | hp <;> exact .inl hp
      · rw [if_neg h2] at h; simp at h
    · rw [if_neg h1] at h
      simp only [Option.some.injEq] at h
      subst h
      simp at hp
  | quote =>
    simp only [Skin.writePrefix, Option.some.injEq] at h
    subst h
    simp only [List.mem_append, List.mem_singleton] at hp
    rcases hp with hp | hp
    · exact .inr (.inr ⟨hp, rfl⟩)
    · exact .inl hp
  | _ =>
    simp only [Skin.writePrefix, Option.some.injEq] at h
    subst h
    simp at hp

/-- Where a piece of a composite comes from. -/
def CompositePiece (skin : Skin) (fc : FmtComposite) (ls : LineStyle) (p : Piece) : Prop :=
  (OnlyChars p [' '] ∧ (p.1 = skin.paragraph.style ∨ p.1 = ls.style)) ∨ (p ∈ skin.bullet.display ∧ ∃ d, fc.kind = .listItem d) ∨
    (p ∈ skin.quoteMark.display ∧ fc.kind = .quote) ∨ ∃ c ∈ fc.compounds, p ∈ skin.writeCompound ls c

theorem writeFmtComposite_pieces {skin : Skin} {fc : FmtComposite} {outer : Option Nat} {rc m : Bool} {ps : List Piece}
    (h : skin.writeFmtComposite fc outer rc m = some ps) :
    ∃ ls, skin.lineStyle fc.kind = some ls ∧ ∀ p ∈ ps, CompositePiece skin fc ls p := by
  simp only [Skin.writeFmtComposite, Option.bind_eq_bind, Option.bind_eq_some_iff, Option.some.injEq] at h
  obtain ⟨ls, h1, pre, h2, h3⟩ := h
  refine ⟨ls, h1, ?_⟩
  subst h3
  intro p hp
  have hsp : ∀ {s n}, p ∈ repeatChar s ' ' n → (s = skin.paragraph.style ∨ s = ls.style) → CompositePiece skin fc ls p := by
    intro s n h hs
    obtain ⟨e1, e2⟩ := mem_repeatChar h
    rw [← e1] at hs
    exact .inl ⟨e2, hs⟩
  simp only [List.mem_append, List.mem_flatMap] at hp
  rcases hp with ((((hp | hp) | hp) | ⟨c, hc, hp⟩) | hp) | hp
  · exact hsp hp (.inl rfl)
  · exact hsp hp (.inr rfl)
  · rcases writePrefix_pieces h2 hp with h | h | h
    · subst h
      exact .inl ⟨fun c hc => hc, .inl rfl⟩
    · exact .inr (.inl h)
    · exact .inr (.inr (.inl h))
  · exact .inr (.inr (.inr ⟨c, hc, hp⟩))
  · exact hsp hp (.inr rfl)
  · by_cases hr : rc = true
    · rw [if_pos hr] at hp; exact hsp hp (.inl rfl)
    · rw [if_neg hr] at hp; simp at hp

/-- The characters of the borders of tables. -/
def TableBorderChars.all (t : TableBorderChars) : List Char :=
  [t.horizontal, t.vertical, t.topLeftCorner, t.topRightCorner, t.bottomRightCorner, t.bottomLeftCorner, t.topJunction,
    t.rightJunction, t.bottomJunction, t.leftJunction, t.cross]

/-- The composites of a line. -/
def FmtLine.composites : FmtLine → List FmtComposite
  | .normal fc => [fc]
  | .tableRow cells => cells
  | _ => []

/-- Where a piece of a line comes from. -/
def LinePiece (skin : Skin) (line : FmtLine) (p : Piece) : Prop :=
  (∃ fc ∈ line.composites, ∃ ls, skin.lineStyle fc.kind = some ls ∧ CompositePiece skin fc ls p) ∨
    (OnlyChars p [' '] ∧ p.1 = skin.paragraph.style) ∨
    (OnlyChars p skin.tableBorderChars.all ∧ p.1 = skin.table.style ∧ ((∃ cells, line = .tableRow cells) ∨ ∃ r, line = .tableRule r)) ∨
    (∃ n, p ∈ skin.horizontalRule.repeated n) ∧ line = .horizontalRule

theorem writeCells_pieces {skin : Skin} : ∀ {cells : List FmtComposite} {ps : List Piece}, skin.writeCells cells = some ps → ∀ p ∈ ps,
    (∃ fc ∈ cells, ∃ ls, skin.lineStyle fc.kind = some ls ∧ CompositePiece skin fc ls p) ∨
      p = (skin.table.style, [skin.tableBorderChars.vertical]) := by
  intro cells
  induction cells with
  | nil =>
    intro ps h p hp
    simp only [Skin.writeCells, Option.some.injEq] at h
    subst h; simp at hp
  | cons c cs ih =>
    intro ps h p hp
    simp only [Skin.writeCells, Option.bind_eq_bind, Option.bind_eq_some_iff, Option.some.injEq] at h
    obtain ⟨p1, h1, rest, h2, h3⟩ := h
    subst h3
    simp only [List.cons_append, List.mem_cons, List.mem_append] at hp
    rcases hp with hp | hp | hp
    · exact .inr hp
    · obtain ⟨ls, e1, e2⟩ := writeFmtComposite_pieces h1
      exact .inl ⟨c, by simp, ls, e1, e2 p hp⟩
    · rcases ih h2 p hp with ⟨fc, hfc, h⟩ | h
      · exact .inl ⟨fc, by simp [hfc], h⟩
      · exact .inr h

theorem writeRuleCols_pieces {skin : Skin} {j : Char} : ∀ {ws : List Nat} {first : Bool}, ∀ p ∈ skin.writeRuleCols j first ws,
    p.1 = skin.table.style ∧ OnlyChars p [j, skin.tableBorderChars.horizontal] := by
  intro ws
  induction ws with
  | nil => intro first p hp; simp [Skin.writeRuleCols] at hp
  | cons w ws ih =>
    intro first p hp
    simp only [Skin.writeRuleCols, List.mem_append] at hp
    rcases hp with (hp | hp) | hp
    · cases first with
      | true => simp at hp
      | false =>
        simp at hp
        subst hp
        exact ⟨rfl, fun c hc => by simp at hc; simp [hc]⟩
    · obtain ⟨e1, e2⟩ := mem_repeatChar hp
      exact ⟨e1, fun c hc => by have := e2 c hc; simp at this; simp [this]⟩
    · exact ih p hp

theorem writeFmtLine_pieces {skin : Skin} {line : FmtLine} {width : Option Nat} {rc : Bool} {ps : List Piece}
    (h : skin.writeFmtLine line width rc = some ps) : ∀ p ∈ ps, LinePiece skin line p := by
  intro p hp
  have hsp : ∀ {n}, p ∈ repeatChar skin.paragraph.style ' ' n → LinePiece skin line p := by
    intro n h
    obtain ⟨e1, e2⟩ := mem_repeatChar h
    exact .inr (.inl ⟨e2, e1⟩)
  cases line with
  | normal fc =>
    obtain ⟨ls, e1, e2⟩ := writeFmtComposite_pieces (show skin.writeFmtComposite fc width rc true = some ps from h)
    exact .inl ⟨fc, by simp [FmtLine.composites], ls, e1, e2 p hp⟩
  | tableRow cells =>
    simp only [Skin.writeFmtLine, Option.bind_eq_bind, Option.bind_eq_some_iff, Option.some.injEq] at h
    obtain ⟨cs, h1, h2⟩ := h
    subst h2
    have hv : p = (skin.table.style, [skin.tableBorderChars.vertical]) → LinePiece skin (.tableRow cells) p := by
      intro he; subst he
      exact .inr (.inr (.inl ⟨fun c hc => by simp at hc; simp [TableBorderChars.all, hc], rfl, .inl ⟨cells, rfl⟩⟩))
    simp only [List.mem_append, List.mem_singleton] at hp
    rcases hp with ((hp | hp) | hp) | hp
    · exact hsp hp
    · rcases writeCells_pieces h1 p hp with h | h
      · exact .inl h
      · exact hv h
    · exact hv hp
    · by_cases hr : rc = true
      · rw [if_pos hr] at hp; exact hsp hp
      · rw [if_neg hr] at hp; simp at hp
  | tableRule rule =>
    simp only [Skin.writeFmtLine, Option.some.injEq] at h
    subst h
    have hcs : (skin.tableBorderChars.ruleChars rule.position).1 ∈ skin.tableBorderChars.all ∧
        (skin.tableBorderChars.ruleChars rule.position).2.1 ∈ skin.tableBorderChars.all ∧
        (skin.tableBorderChars.ruleChars rule.position).2.2 ∈ skin.tableBorderChars.all := by
      cases rule.position <;> simp [TableBorderChars.ruleChars, TableBorderChars.all]
    have hb : ∀ c ∈ skin.tableBorderChars.all, p = (skin.table.style, [c]) → LinePiece skin (.tableRule rule) p := by
      intro c hc he; subst he
      exact .inr (.inr (.inl ⟨fun c' hc' => by simp at hc'; rw [hc']; exact hc, rfl, .inr ⟨rule, rfl⟩⟩))
    simp only [List.mem_append, List.mem_singleton] at hp
    rcases hp with (((hp | hp) | hp) | hp) | hp
    · exact hsp hp
    · exact hb _ hcs.1 hp
    · obtain ⟨e1, e2⟩ := writeRuleCols_pieces p hp
      refine .inr (.inr (.inl ⟨fun c hc => ?_, e1, .inr ⟨rule, rfl⟩⟩))
      have := e2 c hc
      simp only [List.mem_cons, List.not_mem_nil, or_false] at this
      rcases this with h | h
      · rw [h]; exact hcs.2.1
      · rw [h]; simp [TableBorderChars.all]
    · exact hb _ hcs.2.2 hp
    · by_cases hr : rc = true
      · rw [if_pos hr] at hp; exact hsp hp
      · rw [if_neg hr] at hp; simp at hp
  | horizontalRule =>
    cases width with
    | none =>
      simp only [Skin.writeFmtLine, Option.some.injEq] at h
      subst h; simp at hp
    | some w =>
      simp only [Skin.writeFmtLine, Option.some.injEq] at h
      subst h
      exact .inr (.inr (.inr ⟨⟨w, hp⟩, rfl⟩))

end Verif

namespace Verif

theorem alignRows_table {nb : Nat} {widths : List Nat} {cr : Bool} {height : Nat} :
    ∀ {rows : List FmtLine} {idx : Nat} {al : List Alignment} {out : List FmtLine},
    alignRows nb widths cr height idx al rows = some out → ∀ l ∈ out, IsTableLine l := by
  intro rows
  induction rows with
  | nil =>
    intro idx al out h
    simp only [alignRows, Option.some.injEq] at h
    subst h; simp
  | cons r rows ih =>
    intro idx al out h
    cases r with
    | tableRow cells =>
      simp only [alignRows, Option.bind_eq_bind, Option.bind_eq_some_iff, Option.some.injEq] at h
      obtain ⟨c', _, r', h2, h3⟩ := h
      subst h3
      intro l hl
      simp only [List.mem_cons] at hl
      rcases hl with hl | hl
      · subst hl; trivial
      · exact ih h2 l hl
    | tableRule rule =>
      simp only [alignRows] at h
      generalize (if cr = true then rule.setNbcols nb else rule) = rule' at h
      split at h
      · simp at h
      · simp only [Option.bind_eq_bind, Option.bind_eq_some_iff, Option.some.injEq] at h
        obtain ⟨r', h2, h3⟩ := h
        subst h3
        intro l hl
        simp only [List.mem_cons] at hl
        rcases hl with hl | hl
        · subst hl; trivial
        · exact ih h2 l hl
    | _ => simp [alignRows] at h

theorem fixTableLines_table {cw : Char → Nat} {ws : Char → Bool} {skin : Skin} {n width : Nat} {lines out : List FmtLine}
    (hl : ∀ l ∈ lines, IsTableLine l) (h : fixTableLines cw ws skin n width lines = some out) : ∀ l ∈ out, IsTableLine l := by
  by_cases h0 : n = 0 ∨ width = 0
  · simp only [fixTableLines, h0, if_true, Option.some.injEq] at h
    subst h; exact hl
  · obtain ⟨widths, w1, w2, w3, w4, w5⟩ := fixTableLines_eq cw ws skin n width lines hl (by omega) (by omega)
    have key : ∀ cr ls, layoutRows cw ws skin (keptColumns n width) widths cr ls = some out → ∀ l ∈ out, IsTableLine l := by
      intro cr ls h
      simp only [layoutRows, Option.bind_eq_bind, Option.bind_eq_some_iff] at h
      obtain ⟨rows, _, h⟩ := h
      exact alignRows_table h
    by_cases hc : 4 * n + 1 ≤ width
    · rw [w4 hc] at h; exact key _ _ h
    · rw [(w5 hc).2] at h; exact key _ _ h

/-- A property of all the composites, from the source to the formatted text. -/
theorem fromText_all {cw : Char → Nat} {ws : Char → Bool} {skin : Skin} {P : FmtComposite → Prop}
    (hnew : P FmtComposite.new) (hsp : ∀ c sp, P c → P { c with spacing := sp })
    (hwrap : ∀ c w ls, P c → hardWrapComposite cw ws skin c w = some (.ok ls) → ∀ l ∈ ls, P l)
    {mlines : List MLine} {width : Option Nat} {t : FmtText} (h : FmtText.fromText cw ws skin mlines width = some t)
    (hsrc : ∀ m ∈ mlines, ∀ fc ∈ (FmtLine.ofMLine skin cw m).composites, P fc) :
    ∀ l ∈ t.lines, ∀ fc ∈ l.composites, P fc := by
  simp only [FmtText.fromText, Option.bind_eq_bind, Option.bind_eq_some_iff, Option.some.injEq] at h
  obtain ⟨l1, h1, l2, h2, h3⟩ := h
  subst h3
  have hsrc' : ∀ l ∈ mlines.map (FmtLine.ofMLine skin cw), ∀ fc ∈ l.composites, P fc := by
    intro l hl
    simp only [List.mem_map] at hl
    obtain ⟨m, hm, he⟩ := hl
    subst he
    exact hsrc m hm
  have hl1 : ∀ l ∈ l1, ∀ fc ∈ l.composites, P fc := by
    have hfix := (fixAllTables_spec (R := fun tbl tbl' => (∀ l ∈ tbl, IsTableLine l) ∧ ∃ n w, fixTableLines cw ws skin n w tbl = some tbl')
      (fun _ _ h h' => ⟨h, _, _, h'⟩) _ l1 h1)
    intro l hl
    rcases hfix.mem l hl with ⟨_, hm⟩ | ⟨tbl, tbl', ⟨ht, n, w, hf⟩, hmem, hlt⟩
    · exact hsrc' l hm
    · have hrows : RowsAll P tbl := by
        intro cells hc c hcm
        exact hsrc' _ (hmem _ hc).1 c hcm
      have hrows' := fixTableLines_all hnew hsp hwrap ht hf hrows
      cases l with
      | tableRow cells => exact hrows' cells hlt
      | normal fc =>
        exfalso
        have hall : ∀ l ∈ tbl', IsTableLine l := by
          have := fixTableLines_table ht hf
          exact this
        exact hall _ hlt
      | _ => intro fc hfc; simp [FmtLine.composites] at hfc
  have hj : ∀ l ∈ justifyBlocks l1, ∀ fc ∈ l.composites, P fc := by
    intro l hl
    rcases (justifyBlocks_spec l1).mem l hl with ⟨_, hm⟩ | ⟨fc, w, hm, _, he, _⟩
    · exact hl1 l hm
    · subst he
      intro fc' hfc'
      simp only [FmtLine.composites, List.mem_singleton] at hfc'
      subst hfc'
      exact hsp _ _ (hl1 _ hm fc (by simp [FmtLine.composites]))
  simp only
  cases width with
  | none =>
    simp only [wrapText, Option.some.injEq] at h2
    subst h2; exact hj
  | some w =>
    simp only [wrapText] at h2
    by_cases hw : w ≥ 3
    · rw [if_pos hw] at h2
      cases hh : hardWrapLines cw ws skin w (justifyBlocks l1) with
      | none => rw [hh] at h2; simp at h2
      | some r =>
        cases r with
        | error e => rw [hh] at h2; simp at h2
        | ok out =>
          rw [hh] at h2
          simp only [Option.some.injEq] at h2
          subst h2
          obtain ⟨e1, e2⟩ := hardWrapLines_ok hh
          rw [e1]
          intro l hl
          simp only [List.mem_flatMap] at hl
          obtain ⟨line, hline, hl⟩ := hl
          have e2 := e2 line hline
          have hPl := hj line hline
          cases line with
          | normal fc =>
            have hfc : P fc := hPl fc (by simp [FmtLine.composites])
            simp only [wrapOne, hardWrapLine_eq, Option.map_eq_some_iff, Option.bind_eq_some_iff] at e2
            obtain ⟨r, ⟨ls, _, e3⟩, e4⟩ := e2
            cases r with
            | error e => simp [Except.map] at e4
            | ok fcs =>
              simp only [Except.map, Except.ok.injEq] at e4
              rw [← e4] at hl
              simp only [List.mem_map] at hl
              obtain ⟨fc', hm, he⟩ := hl
              subst he
              intro x hx
              simp only [FmtLine.composites, List.mem_singleton] at hx
              subst hx
              split at e3
              · simp only [Option.some.injEq, Except.ok.injEq] at e3
                subst e3
                simp only [List.mem_singleton] at hm
                subst hm; exact hfc
              · exact hwrap _ _ _ hfc e3 x hm
          | _ =>
            simp only [wrapOne, Option.some.injEq, Except.ok.injEq] at e2
            rw [← e2] at hl
            simp only [List.mem_singleton] at hl
            subst hl; exact hPl
    · rw [if_neg hw] at h2
      simp only [Option.some.injEq] at h2
      subst h2; exact hj

end Verif

import Verif.Lemmas.SameShape
import Verif.Props.Style
/-! C48: what the color setters of a skin reach. C49: colors never change the text. C50: where characters come from. -/
namespace Verif.Props
open Verif Spec

/-! ### What is displayed comes from lines -/

theorem shown_lines {cw : Char → Nat} {ws : Char → Bool} {skin : Skin} {mlines : List MLine} {width : Option Nat} {drawn : List (List Piece)}
    (h : shownPieces cw ws skin mlines width = some drawn) : ∃ t, FmtText.fromText cw ws skin mlines width = some t ∧
      ∀ ps ∈ drawn, ∃ l ∈ t.lines, skin.writeFmtLine l t.width false = some ps := by
  simp only [shownPieces, Option.bind_eq_bind, Option.bind_eq_some_iff] at h
  obtain ⟨t, h1, h2⟩ := h
  refine ⟨t, h1, ?_⟩
  exact (mapM_get h2).2.1

theorem mem_display {sc : StyledChar} {p : Piece} (h : p ∈ sc.display) : p = (sc.drawn.1, [sc.drawn.2]) := by
  simpa [StyledChar.display] using h

theorem mem_repeated {sc : StyledChar} {n : Nat} {p : Piece} (h : p ∈ sc.repeated n) : p = (sc.style, List.replicate n sc.char) := by
  simpa [StyledChar.repeated] using h

theorem wrap_kinds {cw : Char → Nat} {ws : Char → Bool} {skin : Skin} {c : FmtComposite} {w : Nat} {ls : List FmtComposite}
    (h : hardWrapComposite cw ws skin c w = some (.ok ls)) : ∀ l ∈ ls, (l.kind = c.kind ∨ l.kind = followUpKind c.kind) ∧
      ∀ p ∈ styledChars l.compounds, p ∈ styledChars c.compounds := by
  obtain ⟨h1, _, _, l0, more, rfl, h5, _, h7⟩ := hardWrapComposite_text h
  intro l hl
  refine ⟨?_, ?_⟩
  · simp only [List.mem_cons] at hl
    rcases hl with hl | hl
    · subst hl; exact .inl h5
    · exact .inr (h7 l hl).1
  · intro p hp
    apply h1.subset
    simp only [linesChars, List.mem_flatMap]
    exact ⟨l, hl, hp⟩

/-- Composites of lines of source. -/
theorem composites_ofMLine {skin : Skin} {cw : Char → Nat} {m : MLine} {fc : FmtComposite} (h : fc ∈ (FmtLine.ofMLine skin cw m).composites) :
    (∃ k cs, m = .normal k cs ∧ fc = FmtComposite.ofComposite skin cw k cs) ∨
      ∃ cells, m = .tableRow cells ∧ ∃ c ∈ cells, fc = FmtComposite.ofComposite skin cw c.1 c.2 := by
  cases m with
  | normal k cs =>
    simp only [FmtLine.ofMLine, FmtLine.composites, List.mem_singleton] at h
    exact .inl ⟨k, cs, rfl, h⟩
  | tableRow cells =>
    simp only [FmtLine.ofMLine, FmtLine.composites, List.mem_map] at h
    obtain ⟨c, hc, he⟩ := h
    exact .inr ⟨cells, rfl, c, hc, he.symm⟩
  | _ => simp [FmtLine.ofMLine, FmtLine.composites] at h

theorem noCode_lines {cw : Char → Nat} {ws : Char → Bool} {skin : Skin} {mlines : List MLine} {width : Option Nat} {t : FmtText}
    (h : FmtText.fromText cw ws skin mlines width = some t) (hnc : ∀ m ∈ mlines, NoCodeSource m) :
    ∀ l ∈ t.lines, ∀ fc ∈ l.composites, NoCode fc.kind fc.compounds := by
  refine fromText_all (P := fun fc => NoCode fc.kind fc.compounds) ?_ (fun c sp h => h) ?_ h ?_
  · exact ⟨by simp [FmtComposite.new], by simp [FmtComposite.new, styledChars]⟩
  · intro c w ls ⟨h1, h2⟩ hw l hl
    obtain ⟨e1, e2⟩ := wrap_kinds hw l hl
    refine ⟨?_, fun p hp => h2 p (e2 p hp)⟩
    rcases e1 with e | e <;> rw [e]
    · exact h1
    · cases hk : c.kind <;> simp_all [followUpKind]
  · intro m hm fc hfc
    rcases composites_ofMLine hfc with ⟨k, cs, rfl, rfl⟩ | ⟨cells, rfl, c, hc, rfl⟩
    · exact hnc _ hm
    · exact hnc _ hm c hc

/-! ### C48 -/

theorem lineStyle_cases {skin : Skin} {k : Kind} {ls : LineStyle} (h : skin.lineStyle k = some ls) (hk : k ≠ .code) :
    ls = skin.paragraph ∨ ∃ i, ls = skin.headers i := by
  cases k with
  | code => exact absurd rfl hk
  | header level =>
    simp only [Skin.lineStyle] at h
    split at h
    · split at h
      · simp at h; exact .inr ⟨_, h.symm⟩
      · simp at h
    · simp at h; exact .inl h.symm
  | _ => simp [Skin.lineStyle] at h; exact .inl h.symm

theorem setBg_compound (skin : Skin) (c : Color) (ls : LineStyle) (hls : ls.style.bg = some c) (cp : Compound) (hc : cp.flags.code = false) :
    ((skin.setBg c).compoundStyle ls cp).bg = some c := by
  by_cases h : cp.src = ['…']
  · simp [Skin.compoundStyle, h, Skin.setBg, CompoundStyle.setBg]
  · rw [(C41_compound_colors _ ls cp h).2]
    simp only [layers, topmost, hc]
    cases cp.flags.italic <;> cases cp.flags.strikeout <;> cases cp.flags.bold <;> simp [Skin.setBg, CompoundStyle.setBg, hls]

theorem setFg_compound (skin : Skin) (c : Color) (ls : LineStyle) (hls : ls.style.fg = some c) (cp : Compound) (hc : cp.flags.code = false) :
    ((skin.setFg c).compoundStyle ls cp).fg = some c := by
  by_cases h : cp.src = ['…']
  · simp [Skin.compoundStyle, h, Skin.setFg, CompoundStyle.setFg]
  · rw [(C41_compound_colors _ ls cp h).1]
    simp only [layers, topmost, hc]
    cases cp.flags.italic <;> cases cp.flags.strikeout <;> cases cp.flags.bold <;> simp [Skin.setFg, CompoundStyle.setFg, hls]

/-- The flag of a compound holding a character is that of this character. -/
theorem char_flag {cs : List Compound} {cp : Compound} (hcp : cp ∈ cs) {ch : Char} (hch : ch ∈ cp.src) : (ch, cp.flags) ∈ styledChars cs := by
  simp only [styledChars, List.mem_flatMap, List.mem_map]
  exact ⟨cp, hcp, ch, hch, rfl⟩

/-- After `set_bg`, all the characters displayed for a text without code have this background: words whatever their style, headers,
bullets, quote marks, rules, tables, ellipsis, margins and completions. -/
theorem C48_set_bg (cw : Char → Nat) (ws : Char → Bool) (skin : Skin) (c : Color) (mlines : List MLine) (width : Option Nat) (drawn : List (List Piece))
    (hnc : ∀ m ∈ mlines, NoCodeSource m) (h : shownPieces cw ws (skin.setBg c) mlines width = some drawn) :
    ∀ ps ∈ drawn, ∀ p ∈ ps, ∀ ch ∈ p.2, p.1.bg = some c := by
  obtain ⟨t, ht, hd⟩ := shown_lines h
  intro ps hps p hp ch hch
  obtain ⟨l, hl, hw⟩ := hd ps hps
  rcases writeFmtLine_pieces hw p hp with ⟨fc, hfc, ls, hls, hpc⟩ | ⟨_, he⟩ | ⟨_, he, _⟩ | ⟨⟨n, he⟩, _⟩
  · obtain ⟨hk, hcode⟩ := noCode_lines ht hnc l hl fc hfc
    have hlsbg : ls.style.bg = some c := by
      rcases lineStyle_cases hls hk with e | ⟨i, e⟩ <;> rw [e] <;> rfl
    rcases hpc with ⟨_, he | he⟩ | ⟨he, _⟩ | ⟨he, _⟩ | ⟨cp, hcp, he⟩
    · rw [he]; rfl
    · rw [he, hlsbg]
    · rw [mem_display he]; rfl
    · rw [mem_display he]; rfl
    · simp only [Skin.writeCompound] at he
      split at he
      · rename_i sc hsc
        simp only [Skin.setBg, Option.map_eq_some_iff] at hsc
        obtain ⟨sc', _, e⟩ := hsc
        rw [mem_display he, ← e]; rfl
      · simp only [List.mem_singleton] at he
        subst he
        exact setBg_compound skin c ls hlsbg cp (hcode _ (char_flag hcp hch))
  · rw [he]; rfl
  · rw [he]; rfl
  · rw [mem_repeated he]; rfl

/-- After `set_fg`, all the characters displayed for a text without code have this foreground, but those of the borders of tables, which keep the
style of the table. -/
theorem C48_set_fg (cw : Char → Nat) (ws : Char → Bool) (skin : Skin) (c : Color) (mlines : List MLine) (width : Option Nat) (drawn : List (List Piece))
    (hnc : ∀ m ∈ mlines, NoCodeSource m) (h : shownPieces cw ws (skin.setFg c) mlines width = some drawn) :
    ∀ ps ∈ drawn, ∀ p ∈ ps, ∀ ch ∈ p.2, p.1.fg = some c ∨ (p.1 = skin.table.style ∧ ch ∈ skin.tableBorderChars.all) := by
  obtain ⟨t, ht, hd⟩ := shown_lines h
  intro ps hps p hp ch hch
  obtain ⟨l, hl, hw⟩ := hd ps hps
  rcases writeFmtLine_pieces hw p hp with ⟨fc, hfc, ls, hls, hpc⟩ | ⟨_, he⟩ | ⟨hb, he, _⟩ | ⟨⟨n, he⟩, _⟩
  · left
    obtain ⟨hk, hcode⟩ := noCode_lines ht hnc l hl fc hfc
    have hlsfg : ls.style.fg = some c := by
      rcases lineStyle_cases hls hk with e | ⟨i, e⟩ <;> rw [e] <;> rfl
    rcases hpc with ⟨_, he | he⟩ | ⟨he, _⟩ | ⟨he, _⟩ | ⟨cp, hcp, he⟩
    · rw [he]; rfl
    · rw [he, hlsfg]
    · rw [mem_display he]; rfl
    · rw [mem_display he]; rfl
    · simp only [Skin.writeCompound] at he
      split at he
      · rename_i sc hsc
        simp only [Skin.setFg, Option.map_eq_some_iff] at hsc
        obtain ⟨sc', _, e⟩ := hsc
        rw [mem_display he, ← e]; rfl
      · simp only [List.mem_singleton] at he
        subst he
        exact setFg_compound skin c ls hlsfg cp (hcode _ (char_flag hcp hch))
  · left; rw [he]; rfl
  · exact .inr ⟨he, hb ch hch⟩
  · left; rw [mem_repeated he]; rfl

/-- `set_bg` also changes the scrollbar, `set_fg` doesn't. -/
theorem C48_scrollbar (skin : Skin) (c : Color) :
    (skin.setBg c).scrollbar.track.style.bg = some c ∧ (skin.setBg c).scrollbar.thumb.style.bg = some c ∧
    (skin.setFg c).scrollbar = skin.scrollbar := ⟨rfl, rfl, rfl⟩

/-- Neither `set_fg` nor `set_bg` changes the colors defined by code styles: inline code keeps those it defines, and what
has no marker in a block of code keeps the style of the block. -/
theorem C48_code (skin : Skin) (c f : Color) (ls : LineStyle) (cp : Compound) (h : cp.src ≠ ['…']) :
    (cp.flags.code = true → skin.inlineCode.fg = some f → ((skin.setFg c).compoundStyle ls cp).fg = some f) ∧
    (cp.flags.code = true → skin.inlineCode.bg = some f → ((skin.setBg c).compoundStyle ls cp).bg = some f) ∧
    (skin.setFg c).lineStyle .code = skin.lineStyle .code ∧ (skin.setBg c).lineStyle .code = skin.lineStyle .code := by
  refine ⟨?_, ?_, rfl, rfl⟩
  · intro hc hf
    rw [(C41_compound_colors _ ls cp h).1]
    simp [layers, topmost, hc, Skin.setFg, Skin.setHeadersFg, hf]
  · intro hc hf
    rw [(C41_compound_colors _ ls cp h).2]
    simp [layers, topmost, hc, Skin.setBg, Skin.setHeadersBg, hf]

/-- A text without headers. -/
def NoHeader : MLine → Prop
  | .normal k _ => ∀ n, k ≠ .header n
  | .tableRow cells => ∀ c ∈ cells, ∀ n, c.1 ≠ .header n
  | _ => True

theorem writeComposite_congr {a b : Skin} {fc : FmtComposite} (h1 : a.lineStyle fc.kind = b.lineStyle fc.kind) (h2 : a.paragraph = b.paragraph)
    (h3 : a.writePrefix fc.kind = b.writePrefix fc.kind) (h4 : ∀ ls cp, a.writeCompound ls cp = b.writeCompound ls cp) (o : Option Nat) (rc m : Bool) :
    a.writeFmtComposite fc o rc m = b.writeFmtComposite fc o rc m := by
  have : ∀ ls, a.writeCompound ls = b.writeCompound ls := fun ls => funext (h4 ls)
  simp only [Skin.writeFmtComposite, h1, h2, h3, this]

theorem writeCells_congr {a b : Skin} (ht : a.table = b.table) (hb : a.tableBorderChars = b.tableBorderChars) : ∀ {cells : List FmtComposite},
    (∀ fc ∈ cells, ∀ o rc m, a.writeFmtComposite fc o rc m = b.writeFmtComposite fc o rc m) → a.writeCells cells = b.writeCells cells := by
  intro cells
  induction cells with
  | nil => intro _; rfl
  | cons c cs ih =>
    intro h
    simp only [Skin.writeCells, h c (by simp), ih (fun fc hf => h fc (by simp [hf])), ht, hb]

theorem writeRuleCols_congr {a b : Skin} (ht : a.table = b.table) (hb : a.tableBorderChars = b.tableBorderChars) (j : Char) : ∀ (w : List Nat) (f : Bool),
    a.writeRuleCols j f w = b.writeRuleCols j f w := by
  intro w
  induction w with
  | nil => intro f; rfl
  | cons w ws ih => intro f; simp only [Skin.writeRuleCols, ht, hb, ih]

theorem writeLine_congr {a b : Skin} {line : FmtLine} (hp : a.paragraph = b.paragraph) (ht : a.table = b.table) (hb : a.tableBorderChars = b.tableBorderChars)
    (hr : a.horizontalRule = b.horizontalRule) (hc : ∀ fc ∈ line.composites, ∀ o rc m, a.writeFmtComposite fc o rc m = b.writeFmtComposite fc o rc m)
    (w : Option Nat) (rc : Bool) : a.writeFmtLine line w rc = b.writeFmtLine line w rc := by
  cases line with
  | normal fc => exact hc fc (by simp [FmtLine.composites]) w rc true
  | tableRow cells =>
    have := writeCells_congr ht hb (cells := cells) hc
    simp only [Skin.writeFmtLine, this, hp, ht, hb]
  | tableRule r => simp only [Skin.writeFmtLine, hp, ht, hb, writeRuleCols_congr ht hb]
  | horizontalRule => simp only [Skin.writeFmtLine, hr]

theorem mapM_congr_run {f g : α → Option β} : ∀ {l : List α}, (∀ x ∈ l, f x = g x) → l.mapM f = l.mapM g := by
  intro l
  induction l with
  | nil => intro _; rfl
  | cons x xs ih => intro h; simp only [List.mapM_cons, h x (by simp), ih (fun y hy => h y (by simp [hy]))]

theorem sameShape_refl (skin : Skin) : SameShape skin skin := ⟨rfl, rfl, fun _ => rfl, rfl, rfl, rfl, rfl, rfl, rfl, fun _ => rfl⟩

theorem headers_shown {cw : Char → Nat} {ws : Char → Bool} {skin : Skin} (hs : Fin 8 → LineStyle) (hsh : ∀ i, lineShape (hs i) = lineShape (skin.headers i))
    {mlines : List MLine} (hno : ∀ m ∈ mlines, NoHeader m) (width : Option Nat) :
    shownPieces cw ws { skin with headers := hs } mlines width = shownPieces cw ws skin mlines width := by
  have hsame : SameShape { skin with headers := hs } skin := { sameShape_refl skin with headers := hsh }
  simp only [shownPieces, hsame.fromText]
  cases ht : FmtText.fromText cw ws skin mlines width with
  | none => rfl
  | some t =>
    have hall : ∀ l ∈ t.lines, ∀ fc ∈ l.composites, ∀ n, fc.kind ≠ .header n := by
      refine fromText_all (P := fun fc => ∀ n, fc.kind ≠ .header n) (by simp [FmtComposite.new]) (fun c sp h => h) ?_ ht ?_
      · intro c w ls h1 hw l hl
        rcases (wrap_kinds hw l hl).1 with e | e <;> rw [e]
        · exact h1
        · intro n; cases hk : c.kind <;> simp_all [followUpKind]
      · intro m hm fc hfc
        rcases composites_ofMLine hfc with ⟨k, cs, rfl, rfl⟩ | ⟨cells, rfl, c, hc, rfl⟩
        · exact hno _ hm
        · exact hno _ hm c hc
    simp only [Option.bind_eq_bind, Option.bind_some, FmtText.display]
    refine mapM_congr_run ?_
    intro l hl
    refine writeLine_congr (a := { skin with headers := hs }) (b := skin) rfl rfl rfl rfl ?_ _ _
    intro fc hfc o rc m
    refine writeComposite_congr (a := { skin with headers := hs }) (b := skin) ?_ rfl ?_ ?_ o rc m
    · have := hall l hl fc hfc
      cases hk : fc.kind <;> simp_all [Skin.lineStyle]
    · cases fc.kind <;> rfl
    · intro ls cp; rfl

/-- `set_headers_fg` and `set_headers_bg` change the colors of all the headers... -/
theorem C48_headers (skin : Skin) (c : Color) (level : Nat) (h : 1 ≤ level ∧ level ≤ 8) (txt : Text) (htxt : txt ≠ ['…']) :
    ∃ ls, skin.lineStyle (.header level) = some ls ∧
      (∃ lf, (skin.setHeadersFg c).lineStyle (.header level) = some lf ∧ lf = { ls with style := { ls.style with fg := some c } } ∧
        ((skin.setHeadersFg c).compoundStyle lf ⟨txt, {}⟩).fg = some c) ∧
      (∃ lb, (skin.setHeadersBg c).lineStyle (.header level) = some lb ∧ lb = { ls with style := { ls.style with bg := some c } } ∧
        ((skin.setHeadersBg c).compoundStyle lb ⟨txt, {}⟩).bg = some c) := by
  have h8 : level - 1 < 8 := by omega
  refine ⟨skin.headers ⟨level - 1, h8⟩, ?_, ⟨_, ?_, rfl, ?_⟩, ⟨_, ?_, rfl, ?_⟩⟩
  · simp [Skin.lineStyle, h.1, h.2, h8]
  · simp [Skin.lineStyle, h.1, h.2, h8, Skin.setHeadersFg, LineStyle.setFg, CompoundStyle.setFg]
  · rw [C41_compound_plain _ _ _ htxt]
  · simp [Skin.lineStyle, h.1, h.2, h8, Skin.setHeadersBg, LineStyle.setBg, CompoundStyle.setBg]
  · rw [C41_compound_plain _ _ _ htxt]

/-- ... and nothing of the texts without headers. -/
theorem C48_headers_only (cw : Char → Nat) (ws : Char → Bool) (skin : Skin) (c : Color) (mlines : List MLine) (width : Option Nat)
    (hno : ∀ m ∈ mlines, NoHeader m) :
    shownPieces cw ws (skin.setHeadersFg c) mlines width = shownPieces cw ws skin mlines width ∧
    shownPieces cw ws (skin.setHeadersBg c) mlines width = shownPieces cw ws skin mlines width :=
  ⟨headers_shown (fun i => (skin.headers i).setFg c) (fun _ => rfl) hno width, headers_shown (fun i => (skin.headers i).setBg c) (fun _ => rfl) hno width⟩

/-- After `set_global_bg`, when bold, italic and strikeout don't define a background, all the characters displayed for a text without code have this
background, but those of the bullets, the quote marks, the special characters, the borders of tables and the ellipsis, which keep their style. -/
theorem C48_global_bg (cw : Char → Nat) (ws : Char → Bool) (skin : Skin) (c : Color) (mlines : List MLine) (width : Option Nat) (drawn : List (List Piece))
    (hb : skin.bold.bg = none) (hi : skin.italic.bg = none) (hs : skin.strikeout.bg = none)
    (hnc : ∀ m ∈ mlines, NoCodeSource m) (h : shownPieces cw ws (skin.setGlobalBg c) mlines width = some drawn) :
    ∀ ps ∈ drawn, ∀ p ∈ ps, ∀ ch ∈ p.2, p.1.bg = some c ∨
      (p.1 = skin.table.style ∧ ch ∈ skin.tableBorderChars.all) ∨
      p = (skin.bullet.drawn.1, [skin.bullet.drawn.2]) ∨ p = (skin.quoteMark.drawn.1, [skin.quoteMark.drawn.2]) ∨
      (∃ replaced sc, skin.specialChars replaced = some sc ∧ p = (sc.drawn.1, [sc.drawn.2])) ∨ p = (skin.ellipsis, ['…']) := by
  obtain ⟨t, ht, hd⟩ := shown_lines h
  intro ps hps p hp ch hch
  obtain ⟨l, hl, hw⟩ := hd ps hps
  rcases writeFmtLine_pieces hw p hp with ⟨fc, hfc, ls, hls, hpc⟩ | ⟨_, he⟩ | ⟨hbd, he, _⟩ | ⟨⟨n, he⟩, _⟩
  · obtain ⟨hk, hcode⟩ := noCode_lines ht hnc l hl fc hfc
    have hlsbg : ls.style.bg = some c := by
      rcases lineStyle_cases hls hk with e | ⟨i, e⟩ <;> rw [e] <;> rfl
    rcases hpc with ⟨_, he | he⟩ | ⟨he, _⟩ | ⟨he, _⟩ | ⟨cp, hcp, he⟩
    · left; rw [he]; rfl
    · left; rw [he, hlsbg]
    · exact .inr (.inr (.inl (mem_display he)))
    · exact .inr (.inr (.inr (.inl (mem_display he))))
    · simp only [Skin.writeCompound] at he
      split at he
      · rename_i sc hsc
        exact .inr (.inr (.inr (.inr (.inl ⟨_, sc, hsc, mem_display he⟩))))
      · simp only [List.mem_singleton] at he
        subst he
        by_cases hel : cp.src = ['…']
        · refine .inr (.inr (.inr (.inr (.inr ?_))))
          simp [Skin.compoundStyle, hel, Skin.setGlobalBg, Skin.setHeadersBg]
        · left
          have hcf : cp.flags.code = false := hcode _ (char_flag hcp hch)
          show ((skin.setGlobalBg c).compoundStyle ls cp).bg = some c
          rw [(C41_compound_colors _ ls cp hel).2]
          simp only [layers, topmost, hcf]
          cases cp.flags.italic <;> cases cp.flags.strikeout <;> cases cp.flags.bold <;>
            simp [Skin.setGlobalBg, Skin.setHeadersBg, hb, hi, hs, hlsbg]
  · left; rw [he]; rfl
  · exact .inr (.inl ⟨he, hbd ch hch⟩)
  · left; rw [mem_repeated he]; rfl

/-- `set_global_bg` changes nothing of the blocks of code, nor of the scrollbar; and the foreground and the attributes of what it changes are kept. -/
theorem C48_global_kept (skin : Skin) (c : Color) :
    (skin.setGlobalBg c).lineStyle .code = skin.lineStyle .code ∧ (skin.setGlobalBg c).inlineCode = skin.inlineCode ∧
    (skin.setGlobalBg c).scrollbar = skin.scrollbar ∧ (skin.setGlobalBg c).table = skin.table ∧
    (∀ k ls, k ≠ .code → skin.lineStyle k = some ls →
      (skin.setGlobalBg c).lineStyle k = some { ls with style := { ls.style with bg := some c } }) ∧
    (skin.setGlobalBg c).horizontalRule.char = skin.horizontalRule.char ∧
    (skin.setGlobalBg c).horizontalRule.style = { skin.horizontalRule.style with bg := some c } := by
  refine ⟨rfl, rfl, rfl, rfl, ?_, rfl, rfl⟩
  intro k ls hk h
  cases k with
  | code => exact absurd rfl hk
  | header level =>
    simp only [Skin.lineStyle] at h ⊢
    split at h
    · split at h
      · rename_i h1 h2
        simp only [Option.some.injEq] at h
        subst h
        rw [if_pos h1, dif_pos h2]; rfl
      · simp at h
    · rename_i h1
      simp only [Option.some.injEq] at h
      subst h
      rw [if_neg h1]; rfl
  | _ => simp [Skin.lineStyle] at h ⊢; subst h; rfl

/-- A text of which all the setters change the display. -/
def skinText : List MLine := [.normal (.header 1) [⟨"Hi".toList, { bold := true }⟩], .normal (.listItem 0) [⟨"a".toList, {}⟩, ⟨"b".toList, { italic := true }⟩],
  .tableRow [(.paragraph, [⟨"x".toList, {}⟩])], .horizontalRule]

example : (∀ m ∈ skinText, NoCodeSource m) ∧
    (shownPieces (fun _ => 1) (· == ' ') (Skin.default.setBg .red) skinText (some 6)).map (·.map piecesText) =
      some ["  Hi".toList, "• ab".toList, "│ x │".toList, "――――――".toList] ∧
    ((shownPieces (fun _ => 1) (· == ' ') (Skin.default.setBg .red) skinText (some 6)).map (·.map (·.map (·.1.bg)))) =
      some [[some .red, some .red], [some .red, some .red, some .red, some .red], [some .red, some .red, some .red, some .red, some .red], [some .red]] := by
  refine ⟨?_, by decide, by decide⟩
  intro m hm
  simp only [skinText, List.mem_cons, List.not_mem_nil, or_false] at hm
  rcases hm with rfl | rfl | rfl | rfl <;> simp [NoCodeSource, NoCode, styledChars]

example : Skin.default.bold.bg = none ∧ Skin.default.italic.bg = none ∧ Skin.default.strikeout.bg = none ∧
    ((shownPieces (fun _ => 1) (· == ' ') (Skin.default.setGlobalBg .red) skinText (some 6)).map (·.map (·.map (·.1.bg)))) =
      some [[some .red, some .red], [none, some .red, some .red, some .red], [none, some .red, some .red, some .red, none], [some .red]] := by
  decide

/-! ### C49 -/

/-- Two skins which only differ by colors and attributes show the same text (or both fail). -/
theorem C49_same_text (cw : Char → Nat) (ws : Char → Bool) (a b : Skin) (h : SameShape a b) (mlines : List MLine) (width : Option Nat) :
    shownText cw ws a mlines width = shownText cw ws b mlines width := by
  simp only [shownText, h.fromText, Option.bind_eq_bind]
  cases FmtText.fromText cw ws b mlines width with
  | none => rfl
  | some t =>
    have := h.mapM t.width t.lines
    simp only [Option.bind_some, FmtText.display]
    generalize t.lines.mapM (fun l => a.writeFmtLine l t.width false) = x at this ⊢
    generalize t.lines.mapM (fun l => b.writeFmtLine l t.width false) = y at this ⊢
    cases x <;> cases y <;> simp at this ⊢
    exact this

/-- The text and the character of the styled characters of a skin are the same. -/
def FreshChars (skin : Skin) : Prop := ∀ sc, IsCharOf skin sc → sc.drawn.2 = sc.char

theorem colorOp_same (skin : Skin) (h : FreshChars skin) (op : ColorOp) : SameShape (op.run skin) skin ∧ FreshChars (op.run skin) := by
  have hb := h skin.bullet (.inl rfl)
  have hq := h skin.quoteMark (.inr (.inl rfl))
  have hs : ∀ c sc, skin.specialChars c = some sc → sc.drawn.2 = sc.char := fun c sc hsc => h sc (.inr (.inr (.inr (.inr (.inr ⟨c, hsc⟩)))))
  constructor
  · cases op
    case setFg c =>
      exact ⟨rfl, rfl, fun _ => rfl, rfl, rfl, hb.symm, hq.symm, rfl, rfl, fun c => by
        simp only [ColorOp.run, Skin.setFg, Option.map_map]
        cases hc : skin.specialChars c with
        | none => rfl
        | some sc => simp [StyledChar.setFg, hs c sc hc]⟩
    case setBg c =>
      exact ⟨rfl, rfl, fun _ => rfl, rfl, rfl, hb.symm, hq.symm, rfl, rfl, fun c => by
        simp only [ColorOp.run, Skin.setBg, Option.map_map]
        cases hc : skin.specialChars c with
        | none => rfl
        | some sc => simp [StyledChar.setBg, hs c sc hc]⟩
    all_goals exact ⟨rfl, rfl, fun _ => rfl, rfl, rfl, rfl, rfl, rfl, rfl, fun _ => rfl⟩
  · intro sc hsc
    cases op <;>
      (rcases hsc with e | e | e | e | e | ⟨c, e⟩
       · subst e; first | rfl | exact h skin.bullet (.inl rfl)
       · subst e; first | rfl | exact h skin.quoteMark (.inr (.inl rfl))
       · subst e; first | rfl | exact h skin.horizontalRule (.inr (.inr (.inl rfl)))
       · subst e; first | rfl | exact h skin.scrollbar.track (.inr (.inr (.inr (.inl rfl))))
       · subst e; first | rfl | exact h skin.scrollbar.thumb (.inr (.inr (.inr (.inr (.inl rfl)))))
       · first
         | exact hs c sc e
         | (simp only [ColorOp.run, Skin.setFg, Skin.setBg, Option.map_eq_some_iff] at e
            obtain ⟨sc', _, e⟩ := e
            subst e; rfl))

/-- Changing the colors of a skin, by any sequence of setters and blends, doesn't change the text shown. -/
theorem C49_colors (cw : Char → Nat) (ws : Char → Bool) (skin : Skin) (h : FreshChars skin) (ops : List ColorOp) (mlines : List MLine) (width : Option Nat) :
    shownText cw ws (ops.foldl ColorOp.run skin) mlines width = shownText cw ws skin mlines width := by
  induction ops generalizing skin with
  | nil => rfl
  | cons op ops ih =>
    obtain ⟨h1, h2⟩ := colorOp_same skin h op
    rw [List.foldl_cons, ih _ h2, C49_same_text cw ws _ _ h1]

/-- The hypothesis is met by all the skins the crate builds, after any of their setters. -/
theorem C49_fresh (skin : Skin) (h : skin = .default ∨ skin = .noStyle ∨ skin = .defaultDark ∨ skin = .defaultLight) (ops : List SkinOp) :
    FreshChars (ops.foldl SkinOp.run skin) := by
  intro sc hsc
  have := C42_skin skin h ops sc hsc
  simp only [DrawsItsState, StyledChar.display, List.cons.injEq, Prod.mk.injEq, and_true] at this
  exact this.2

/-- With the skin without style, nothing displayed has a color or an attribute. -/
theorem C49_no_style (cw : Char → Nat) (ws : Char → Bool) (mlines : List MLine) (width : Option Nat) (drawn : List (List Piece))
    (h : shownPieces cw ws .noStyle mlines width = some drawn) : ∀ ps ∈ drawn, ∀ p ∈ ps, p.1 = {} := by
  obtain ⟨t, ht, hd⟩ := shown_lines h
  intro ps hps p hp
  obtain ⟨l, hl, hw⟩ := hd ps hps
  rcases writeFmtLine_pieces hw p hp with ⟨fc, hfc, ls, hls, hpc⟩ | ⟨_, he⟩ | ⟨_, he, _⟩ | ⟨⟨n, he⟩, _⟩
  · have hls' : ls = {} := by
      by_cases hk : fc.kind = .code
      · rw [hk] at hls; simp only [Skin.lineStyle, Option.some.injEq] at hls; exact hls.symm
      · rcases lineStyle_cases hls hk with e | ⟨i, e⟩ <;> exact e
    subst hls'
    rcases hpc with ⟨_, he | he⟩ | ⟨he, _⟩ | ⟨he, _⟩ | ⟨cp, hcp, he⟩
    · rw [he]; rfl
    · rw [he]
    · rw [mem_display he]; rfl
    · rw [mem_display he]; rfl
    · simp only [Skin.writeCompound, Skin.noStyle, List.mem_singleton] at he
      subst he
      simp only [Skin.compoundStyle]
      split
      · rfl
      · cases cp.flags.italic <;> cases cp.flags.strikeout <;> cases cp.flags.bold <;> cases cp.flags.code <;> decide
  · rw [he]; rfl
  · rw [he]; rfl
  · rw [mem_repeated he]; rfl

example : (shownPieces (fun _ => 1) (· == ' ') .noStyle skinText (some 6)).isSome = true ∧
    shownText (fun _ => 1) (· == ' ') .defaultDark skinText (some 6) = shownText (fun _ => 1) (· == ' ') .defaultLight skinText (some 6) := by decide

/-! ### C50 -/

/-- Every character displayed is in the source or is a character of the skin. -/
theorem C50_chars (cw : Char → Nat) (ws : Char → Bool) (skin : Skin) (mlines : List MLine) (width : Option Nat) (texts : List Text)
    (h : shownText cw ws skin mlines width = some texts) :
    ∀ t ∈ texts, ∀ ch ∈ t, (∃ m ∈ mlines, ch ∈ sourceChars m) ∨ IsSkinChar skin ch := by
  have hp : ∃ drawn, shownPieces cw ws skin mlines width = some drawn ∧ texts = drawn.map piecesText := by
    simp only [shownText, shownPieces, Option.bind_eq_bind, Option.bind_eq_some_iff, Option.some.injEq] at h ⊢
    obtain ⟨t, h1, d, h2, h3⟩ := h
    exact ⟨d, ⟨t, h1, h2⟩, h3.symm⟩
  obtain ⟨drawn, hdr, rfl⟩ := hp
  obtain ⟨t, ht, hd⟩ := shown_lines hdr
  intro txt htxt ch hch
  simp only [List.mem_map] at htxt
  obtain ⟨ps, hps, rfl⟩ := htxt
  obtain ⟨l, hl, hw⟩ := hd ps hps
  simp only [piecesText, List.mem_flatMap] at hch
  obtain ⟨p, hp, hch⟩ := hch
  have hsrc : ∀ l ∈ t.lines, ∀ fc ∈ l.composites, ∀ q ∈ styledChars fc.compounds, ∃ m ∈ mlines, q.1 ∈ sourceChars m := by
    refine fromText_all (P := fun fc => ∀ q ∈ styledChars fc.compounds, ∃ m ∈ mlines, q.1 ∈ sourceChars m) ?_ (fun c sp h => h) ?_ ht ?_
    · simp [FmtComposite.new, styledChars]
    · intro c w ls h1 hw l hl q hq
      exact h1 q ((wrap_kinds hw l hl).2 q hq)
    · intro m hm fc hfc q hq
      refine ⟨m, hm, ?_⟩
      rcases composites_ofMLine hfc with ⟨k, cs, rfl, rfl⟩ | ⟨cells, rfl, c, hc, rfl⟩
      · exact List.mem_map_of_mem hq
      · simp only [sourceChars, List.mem_flatMap]
        exact ⟨c, hc, List.mem_map_of_mem hq⟩
  rcases writeFmtLine_pieces hw p hp with ⟨fc, hfc, ls, hls, hpc⟩ | ⟨he, _⟩ | ⟨he, _⟩ | ⟨⟨n, he⟩, _⟩
  · rcases hpc with ⟨he, _⟩ | ⟨he, _⟩ | ⟨he, _⟩ | ⟨cp, hcp, he⟩
    · exact .inr (.inl (by simpa using he ch hch))
    · rw [mem_display he] at hch
      exact .inr (.inr (.inl (by simpa using hch)))
    · rw [mem_display he] at hch
      exact .inr (.inr (.inr (.inl (by simpa using hch))))
    · simp only [Skin.writeCompound] at he
      split at he
      · rename_i sc hsc
        rw [mem_display he] at hch
        exact .inr (.inr (.inr (.inr (.inr (.inr ⟨cp, sc, hsc, by simpa using hch⟩)))))
      · simp only [List.mem_singleton] at he
        subst he
        exact .inl (hsrc l hl fc hfc _ (char_flag hcp hch))
  · exact .inr (.inl (by simpa using he ch hch))
  · exact .inr (.inr (.inr (.inr (.inr (.inl (he ch hch))))))
  · rw [mem_repeated he] at hch
    simp only [List.mem_replicate] at hch
    exact .inr (.inr (.inr (.inr (.inl hch.2))))

/-- After `limit_to_ascii`, a skin without special characters shows a source in ASCII only with ASCII characters. -/
theorem C50_ascii (cw : Char → Nat) (ws : Char → Bool) (skin : Skin) (hspecial : ∀ c, skin.specialChars c = none) (mlines : List MLine) (width : Option Nat)
    (texts : List Text) (hsrc : ∀ m ∈ mlines, ∀ ch ∈ sourceChars m, ch.toNat < 128)
    (h : shownText cw ws skin.limitToAscii mlines width = some texts) : ∀ t ∈ texts, ∀ ch ∈ t, ch.toNat < 128 := by
  intro t ht ch hch
  rcases C50_chars cw ws _ mlines width texts h t ht ch hch with ⟨m, hm, hc⟩ | h | h | h | h | h | ⟨c, sc, hsc, _⟩
  · exact hsrc m hm ch hc
  · subst h; decide
  · subst h; show ('*' : Char).toNat < 128; decide
  · subst h; show ('>' : Char).toNat < 128; decide
  · subst h; show ('-' : Char).toNat < 128; decide
  · simp only [Skin.limitToAscii, TableBorderChars.ascii, List.mem_cons, List.not_mem_nil, or_false] at h
    rcases h with h | h | h | h | h | h | h | h | h | h | h <;> subst h <;> decide
  · have := hspecial c
    simp only [Skin.limitToAscii] at hsc
    rw [this] at hsc; simp at hsc

example : shownText (fun _ => 1) (· == ' ') Skin.default.limitToAscii skinText (some 7) =
    some ["  Hi".toList, "* ab".toList, "| x |".toList, "-------".toList] := by decide

/-- The special characters aren't limited. -/
theorem C50_special_counterexample : ∃ (skin : Skin) (src : List MLine),
    (∀ m ∈ src, ∀ ch ∈ sourceChars m, ch.toNat < 128) ∧ shownText (fun _ => 1) (· == ' ') skin.limitToAscii src none = some ["→".toList] :=
  ⟨{ specialChars := fun c => if c.src = ['>'] then some (.nude '→') else none }, [.normal .paragraph [⟨['>'], {}⟩]],
    by simp [sourceChars, styledChars], by decide⟩

/-- The scrollbar isn't either. -/
theorem C50_scrollbar_counterexample : (Skin.default.limitToAscii).scrollbar.thumb.char.toNat ≥ 128 := by decide

end Verif.Props

import Verif.Spec.Tty
import Verif.Props.Cells
import Verif.Props.Rect
import Verif.Props.SkinRender
/-! C65: no style leaks. -/
namespace Verif.Props
open Verif Spec

theorem over_default (s : CompoundStyle) : over s {} = seen s := by
  unfold over seen
  obtain ⟨f, b, u, a⟩ := s
  cases f <;> cases b <;> cases u <;> simp

theorem penAfter_default {s : CompoundStyle} (h : Tidy s) : penAfter s {} = {} := by
  unfold penAfter
  split
  · next ha =>
    rcases h with h | h
    · simp [over, h, ha]
    · exact absurd ha h
  · rfl

theorem play_append (cw : Char → Nat) (t : Tty) (a b : List TtyCmd) : t.play cw (a ++ b) = (t.play cw a).play cw b := List.foldl_append

theorem play_pieces (cw : Char → Nat) : ∀ (ps : List Piece) (t : Tty), t.pen = {} → (∀ p ∈ ps, Tidy p.1) →
    t.play cw (ps.map Piece.cmd) = ⟨printPieces cw t.y t.x (seenPieces ps) t.cells, t.x + textWidth cw (ps.flatMap (·.2)), t.y, {}⟩ := by
  intro ps
  induction ps with
  | nil => intro t hp _; obtain ⟨g, x, y, pen⟩ := t; subst hp; rfl
  | cons p ps ih =>
    intro t hp ht
    have e : t.play cw ((p :: ps).map Piece.cmd) = (t.exec cw (.styled p.1 p.2)).play cw (ps.map Piece.cmd) := rfl
    rw [e, ih _ (by simp only [Tty.exec, hp]; exact penAfter_default (ht p (by simp))) (fun q hq => ht q (List.mem_cons_of_mem _ hq))]
    simp only [Tty.exec, hp, over_default, seenPieces, List.map_cons, printPieces, List.flatMap_cons, textWidth_append, Nat.add_assoc]

theorem play_row (cw : Char → Nat) (x y : Nat) (ps : List Piece) (t : Tty) (hp : t.pen = {}) (ht : ∀ p ∈ ps, Tidy p.1) :
    (t.play cw (rowCmds x y ps)).pen = {} ∧ (t.play cw (rowCmds x y ps)).cells = printSeen cw [(x, y, ps)] t.cells := by
  have e : t.play cw (rowCmds x y ps) = ({ t with x, y } : Tty).play cw (ps.map Piece.cmd) := rfl
  rw [e, play_pieces cw ps { t with x, y } hp ht]
  exact ⟨rfl, rfl⟩

theorem printSeen_cons (cw : Char → Nat) (r : Nat × Nat × List Piece) (rows : List (Nat × Nat × List Piece)) (g : Cells CompoundStyle) :
    printSeen cw (r :: rows) g = printSeen cw rows (printSeen cw [r] g) := rfl

theorem play_rows (cw : Char → Nat) : ∀ (rows : List (Nat × Nat × List Piece)) (t : Tty), t.pen = {} →
    (∀ r ∈ rows, ∀ p ∈ r.2.2, Tidy p.1) →
    (t.play cw (rows.flatMap fun r => rowCmds r.1 r.2.1 r.2.2)).pen = {} ∧
    (t.play cw (rows.flatMap fun r => rowCmds r.1 r.2.1 r.2.2)).cells = printSeen cw rows t.cells := by
  intro rows
  induction rows with
  | nil => intro t hp _; exact ⟨hp, rfl⟩
  | cons r rows ih =>
    intro t hp ht
    obtain ⟨a1, a2⟩ := play_row cw r.1 r.2.1 r.2.2 t hp (ht r (by simp))
    rw [List.flatMap_cons, play_append, printSeen_cons, ← a2]
    exact ih _ a1 (fun q hq => ht q (List.mem_cons_of_mem _ hq))

theorem tidy_overwrite {s : CompoundStyle} (h : Tidy s) (o : CompoundStyle) : Tidy (s.overwriteWith o) := by
  rcases h with h | h
  · exact .inl h
  · refine .inr ?_
    intro e
    apply h
    have e' : s.attrs ||| o.attrs = 0#32 := e
    have : s.attrs = s.attrs &&& (s.attrs ||| o.attrs) := by
      apply BitVec.eq_of_getLsbD_eq
      intro i hi
      simp only [BitVec.getLsbD_and, BitVec.getLsbD_or]
      cases s.attrs.getLsbD i <;> simp
    rw [this, e']
    simp

theorem tidy_compound {skin : Skin} (h : TidySkin skin) {ls : LineStyle} (hl : Tidy ls.style) (c : Compound) : Tidy (skin.compoundStyle ls c) := by
  have hif : ∀ (b : Bool) (s o : CompoundStyle), Tidy s → Tidy (if b then s.overwriteWith o else s) := by
    intro b s o hs
    cases b
    · exact hs
    · exact tidy_overwrite hs o
  unfold Skin.compoundStyle
  split
  · exact h.ellipsis
  · exact hif _ _ _ (hif _ _ _ (hif _ _ _ (hif _ _ _ hl)))

theorem tidy_line {skin : Skin} (h : TidySkin skin) {line : FmtLine} {width : Option Nat} {rc : Bool} {ps : List Piece}
    (hw : skin.writeFmtLine line width rc = some ps) : ∀ p ∈ ps, Tidy p.1 := by
  intro p hp
  have disp : ∀ s : StyledChar, p ∈ s.display → p.1 = s.drawn.1 := by
    intro s hs; simp only [StyledChar.display, List.mem_singleton] at hs; rw [hs]
  rcases writeFmtLine_pieces hw p hp with ⟨fc, _, ls, hls, hc⟩ | ⟨_, e⟩ | ⟨_, e, _⟩ | ⟨⟨n, hn⟩, _⟩
  · have hl : Tidy ls.style := by
      by_cases hk : fc.kind = .code
      · rw [hk] at hls
        simp only [Skin.lineStyle, Option.some.injEq] at hls
        rw [← hls]; exact h.codeBlock
      · rcases lineStyle_cases hls hk with e | ⟨i, e⟩ <;> rw [e]
        · exact h.paragraph
        · exact h.headers i
    rcases hc with ⟨_, e | e⟩ | ⟨e, _⟩ | ⟨e, _⟩ | ⟨c, _, e⟩
    · rw [e]; exact h.paragraph
    · rw [e]; exact hl
    · rw [disp _ e]; exact h.bullet
    · rw [disp _ e]; exact h.quoteMark
    · unfold Skin.writeCompound at e
      split at e
      · next r hr => rw [disp _ e]; exact h.special c r hr
      · simp only [List.mem_singleton] at e
        rw [e]; exact tidy_compound h hl c
  · rw [e]; exact h.paragraph
  · rw [e]; exact h.table
  · simp only [StyledChar.repeated, List.mem_singleton] at hn
    rw [hn]; exact h.horizontalRule

theorem tidy_writeRows {skin : Skin} (h : TidySkin skin) (v : TextView) (width : Nat) (bar : Option (Nat × Nat)) :
    ∀ (n j : Nat) (rows : List WrittenRow), v.writeRows skin width bar n j = some rows → ∀ r ∈ rows, ∀ p ∈ r.pieces, Tidy p.1 := by
  intro n
  induction n with
  | zero => intro j rows hr; simp only [TextView.writeRows, Option.some.injEq] at hr; subst hr; simp
  | succ n ih =>
    intro j rows hr
    simp only [TextView.writeRows, Option.bind_eq_bind, Option.bind_eq_some_iff, Option.some.injEq] at hr
    obtain ⟨y, _, ps, hps, rest, hrest, rfl⟩ := hr
    intro r hr
    rcases List.mem_cons.1 hr with rfl | hr
    · intro p hp
      rcases List.mem_append.1 hp with hp | hp
      · unfold TextView.writeText at hps
        split at hps
        · exact tidy_line h hps p hp
        · simp only [Option.bind_eq_bind, Option.bind_eq_some_iff, Option.some.injEq] at hps
          obtain ⟨chunks, _, rfl⟩ := hps
          obtain ⟨c, _, rfl⟩ := List.mem_map.1 hp
          exact h.paragraph
      · unfold TextView.writeBar at hp
        split at hp
        · split at hp <;> simp only [StyledChar.display, List.mem_singleton] at hp <;> rw [hp]
          · exact h.thumb
          · exact h.track
        · simp at hp
    · exact ih _ _ hrest r hr

/-- C65: a formatted line, wherever it's printed, is seen with the styles of its pieces and leaves the pen as it was. -/
theorem C65_line (cw : Char → Nat) {skin : Skin} (hs : TidySkin skin) {line : FmtLine} {width : Option Nat} {rc : Bool} {ps : List Piece}
    (h : skin.writeFmtLine line width rc = some ps) (t : Tty) (ht : t.pen = {}) :
    t.play cw (ps.map Piece.cmd) = ⟨printPieces cw t.y t.x (seenPieces ps) t.cells, t.x + textWidth cw (ps.flatMap (·.2)), t.y, {}⟩ :=
  play_pieces cw ps t ht (tidy_line hs h)

/-- C65: a text view prints its rows, with the styles of their pieces, and leaves the pen as it was. -/
theorem C65_text_view (cw : Char → Nat) (v : TextView) {skin : Skin} (hs : TidySkin skin) {rows : List WrittenRow}
    (h : v.writeOn skin = some rows) (t : Tty) (ht : t.pen = {}) :
    ∃ cmds, v.cmds skin = some cmds ∧ (t.play cw cmds).pen = {} ∧ (t.play cw cmds).cells = printSeen cw (viewRows rows) t.cells := by
  have hs' : ∀ r ∈ rows, ∀ p ∈ r.pieces, Tidy p.1 := by
    simp only [TextView.writeOn, Option.bind_eq_bind, Option.bind_eq_some_iff] at h
    obtain ⟨bar, _, width, _, h⟩ := h
    exact tidy_writeRows hs v width bar _ _ _ h
  refine ⟨rows.flatMap fun r => rowCmds r.x r.y r.pieces, by rw [TextView.cmds, h]; rfl, ?_⟩
  have e : (rows.flatMap fun r => rowCmds r.x r.y r.pieces) = (viewRows rows).flatMap fun r => rowCmds r.1 r.2.1 r.2.2 := by
    simp [viewRows, List.flatMap_map]
  rw [e]
  apply play_rows cw (viewRows rows) t ht
  intro r hr
  obtain ⟨r', hr', rfl⟩ := List.mem_map.1 hr
  exact hs' r' hr'

/-- The pieces of an input field are tidy. -/
theorem field_tidy (cw : Char → Nat) (s : FieldStyles) (f : InputField) {rows : List (Nat × Nat × List Piece)} {cur : Option (Nat × Nat)}
    (h : s.displayOn cw f = some (rows, cur)) (hs : Tidy s.focused ∧ Tidy s.unfocused ∧ Tidy s.cursor) :
    ∀ r ∈ rows, ∀ p ∈ r.2.2, Tidy p.1 := by
  intro r hr p hp
  simp only [FieldStyles.displayOn, Option.map_eq_some_iff, Prod.mk.injEq] at h
  obtain ⟨⟨rs, c⟩, _, h1, _⟩ := h
  subst h1
  obtain ⟨r', hr', rfl⟩ := List.mem_map.1 hr
  simp only [FieldStyles.row, List.mem_flatMap] at hp
  obtain ⟨q, hq, hp⟩ := hp
  have hb : ∀ b : Bool, Tidy (s.scrollbar b).thumb.drawn.1 ∧ Tidy (s.scrollbar b).track.drawn.1 := by
    intro b
    unfold FieldStyles.scrollbar
    split
    · split
      · exact ⟨.inl rfl, .inl rfl⟩
      · exact ⟨.inl rfl, .inl rfl⟩
    · exact ⟨.inl rfl, .inl rfl⟩
  unfold FieldStyles.piece at hp
  split at hp
  · simp only [List.mem_singleton] at hp; subst hp
    simp only [FieldStyles.normal]; split
    · exact hs.1
    · exact hs.2.1
  · simp only [List.mem_singleton] at hp; subst hp; exact hs.2.2
  · simp only [StyledChar.display, List.mem_singleton] at hp; subst hp; exact (hb _).1
  · simp only [StyledChar.display, List.mem_singleton] at hp; subst hp; exact (hb _).2

/-- C65: so does an input field, even if the pen has a background before. -/
theorem C65_input_field (cw : Char → Nat) (s : FieldStyles) (f : InputField) {rows : List (Nat × Nat × List Piece)} {cur : Option (Nat × Nat)}
    (h : s.displayOn cw f = some (rows, cur)) (hs : Tidy s.focused ∧ Tidy s.unfocused ∧ Tidy s.cursor) (t : Tty) (bg : Option Color)
    (ht : t.pen = { bg := bg }) :
    ∃ cmds, s.cmds cw f = some cmds ∧ (t.play cw cmds).pen = {} ∧ (t.play cw cmds).cells = printSeen cw rows t.cells := by
  refine ⟨.setBg .reset :: rows.flatMap fun row => rowCmds row.1 row.2.1 row.2.2, by rw [FieldStyles.cmds, h]; rfl, ?_⟩
  have e : t.play cw (.setBg .reset :: rows.flatMap fun row => rowCmds row.1 row.2.1 row.2.2) =
      ({ t with pen := {} } : Tty).play cw (rows.flatMap fun row => rowCmds row.1 row.2.1 row.2.2) := by
    show (t.exec cw (.setBg .reset)).play cw _ = _
    simp [Tty.exec, ht, penColor]
  rw [e]
  exact play_rows cw rows { t with pen := {} } rfl (field_tidy cw s f h hs)

namespace TtyLemmas
variable {T : Type}

theorem titles_tidy (v : ListView T) (skin : Skin) (h1 : Tidy skin.table.style) (h2 : Tidy (skin.headers 0).style) :
    ∀ (l : List (List Nat)) (first : Bool) ps, v.writeTitles skin first l = some ps → ∀ p ∈ ps, Tidy p.1 := by
  intro l
  induction l with
  | nil => intro first ps h; simp [ListView.writeTitles] at h; subst h; simp
  | cons title rest ih =>
    intro first ps h p hp
    simp only [ListView.writeTitles, Option.bind_eq_bind, Option.bind_eq_some_iff, Option.some.injEq] at h
    obtain ⟨_, _, _, _, _, _, c, _, more, hm, rfl⟩ := h
    rw [List.mem_append, List.mem_append] at hp
    rcases hp with (hp | hp) | hp
    · split at hp
      · simp at hp
      · simp [StyledChar.display, StyledChar.new] at hp; subst hp; exact h1
    · simp at hp; subst hp; exact h2
    · exact ih _ _ hm p hp

theorem titleRule_tidy (v : ListView T) (skin : Skin) (h1 : Tidy skin.table.style) :
    ∀ (l : List Nat) (first : Bool) ps, v.writeTitleRule skin first l = some ps → ∀ p ∈ ps, Tidy p.1 := by
  intro l
  induction l with
  | nil => intro first ps h; simp [ListView.writeTitleRule] at h; subst h; simp
  | cons i rest ih =>
    intro first ps h p hp
    simp only [ListView.writeTitleRule, Option.bind_eq_bind, Option.bind_eq_some_iff, Option.some.injEq] at h
    obtain ⟨_, _, more, hm, rfl⟩ := h
    rw [List.mem_append, List.mem_append] at hp
    rcases hp with (hp | hp) | hp
    · split at hp
      · simp at hp
      · simp [StyledChar.display, StyledChar.new] at hp; subst hp; exact h1
    · simp [StyledChar.display, StyledChar.new] at hp; rw [hp.2]; exact h1
    · exact ih _ _ hm p hp

theorem rule_tidy (v : ListView T) (skin : Skin) (h1 : Tidy skin.table.style) :
    ∀ (l : List (List Nat)) (first : Bool) ps, v.writeRule skin first l = some ps → ∀ p ∈ ps, Tidy p.1 := by
  intro l
  induction l with
  | nil => intro first ps h; simp [ListView.writeRule] at h; subst h; simp
  | cons title rest ih =>
    intro first ps h p hp
    simp only [ListView.writeRule, Option.bind_eq_bind, Option.bind_eq_some_iff, Option.some.injEq] at h
    obtain ⟨r, hr, more, hm, rfl⟩ := h
    rw [List.mem_append, List.mem_append] at hp
    rcases hp with (hp | hp) | hp
    · split at hp
      · simp at hp
      · simp [StyledChar.display, StyledChar.new] at hp; subst hp; exact h1
    · exact titleRule_tidy v skin h1 _ _ _ hr p hp
    · exact ih _ _ hm p hp

/-- The pen before a cell or a separator: nothing, or only a background. -/
theorem over_bg (s : CompoundStyle) (c : Color) (b : Option Color) : over (s.setBg c) { bg := b } = seen (s.setBg c) := by
  obtain ⟨f, b', u, a⟩ := s
  unfold over seen CompoundStyle.setBg
  cases f <;> cases u <;> simp

theorem penAfter_bg {s : CompoundStyle} (h : Tidy s) (c : Color) (b : Option Color) : penAfter (s.setBg c) { bg := b } = {} := by
  unfold penAfter CompoundStyle.setBg
  simp only
  split
  · next ha =>
    rcases h with h | h
    · simp [over, h, ha]
    · exact absurd ha h
  · rfl

theorem over_sep (s : CompoundStyle) (c : Color) : over s { bg := penColor c } = seen { s with bg := s.bg.or (some c) } := by
  obtain ⟨f, b, u, a⟩ := s
  unfold over seen
  cases f <;> cases b <;> cases u <;> simp

theorem penAfter_sep {s : CompoundStyle} (h : Tidy s) (b : Option Color) : ∃ b', penAfter s { bg := b } = { bg := b' } := by
  unfold penAfter
  split
  · next ha =>
    rcases h with h | h
    · exact ⟨if s.bg.isSome then none else b, by simp [over, h, ha]⟩
    · exact absurd ha h
  · exact ⟨none, rfl⟩

theorem sep_play (cw : Char → Nat) (t : Tty) (ht : t.pen = {}) {bar style : CompoundStyle} (h1 : Tidy bar) (h2 : Tidy style) (c : Color) (a b : Text) :
    t.play cw [.setBg c, .styled bar a, .styled (style.setBg c) b] =
      t.play cw [.styled { bar with bg := bar.bg.or (some c) } a, .styled (style.setBg c) b] := by
  obtain ⟨b', hb⟩ := penAfter_sep h1 (penColor c)
  have h1' : Tidy { bar with bg := bar.bg.or (some c) } := h1
  simp only [Tty.play, List.foldl_cons, List.foldl_nil, Tty.exec, ht, hb, over_sep, over_bg, penAfter_bg h2, over_default, penAfter_default h1']

theorem cells_play (cw : Char → Nat) (v : ListView T) (skin : Skin) (h1 : Tidy skin.table.style) (selected : Bool) (data : T) :
    ∀ (cols : List (ListColumn T)) (first : Bool) (t : Tty), t.pen = {} → (∀ c ∈ cols, Tidy (c.extract data).style) →
      t.play cw (v.cellsCmds skin selected data first cols) =
        t.play cw ((ListView.writeCells (if selected then some v.selectionBg else none) skin data first cols).map Piece.cmd) := by
  intro cols
  induction cols with
  | nil => intro first t hp _; rfl
  | cons c cols ih =>
    intro first t hp hc
    have hc0 := hc c (by simp)
    have hc' := fun d hd => hc d (List.mem_cons_of_mem _ hd)
    generalize hx : (Spacing.mk c.width c.align).writeCountedStr (c.extract data).con (c.extract data).con.length = txt
    have step : ∀ (a : List TtyCmd) (b : List Piece), t.play cw a = t.play cw (b.map Piece.cmd) → (∀ p ∈ b, Tidy p.1) →
        t.play cw (a ++ v.cellsCmds skin selected data false cols) =
        t.play cw ((b ++ ListView.writeCells (if selected then some v.selectionBg else none) skin data false cols).map Piece.cmd) := by
      intro a b hab hb
      rw [List.map_append, play_append, play_append, hab]
      apply ih _ _ _ hc'
      rw [play_pieces cw b t hp hb]
    simp only [ListView.cellsCmds, ListView.writeCells, hx]
    apply step
    · cases selected with
      | false => cases first <;> simp [StyledChar.display, StyledChar.new, Piece.cmd]
      | true =>
        cases first
        · exact sep_play cw t hp h1 hc0 v.selectionBg ['│'] txt
        · rfl
    · intro p hp
      rw [List.mem_append] at hp
      rcases hp with hp | hp
      · split at hp
        · simp at hp
        · simp at hp; subst hp; exact h1
      · simp at hp; subst hp
        cases selected
        · exact hc0
        · exact hc0

theorem cells_tidy (bg : Option Color) (skin : Skin) (h1 : Tidy skin.table.style) (data : T) :
    ∀ (cols : List (ListColumn T)) (first : Bool), (∀ c ∈ cols, Tidy (c.extract data).style) →
      ∀ p ∈ ListView.writeCells bg skin data first cols, Tidy p.1 := by
  intro cols
  induction cols with
  | nil => intro first _ p hp; simp [ListView.writeCells] at hp
  | cons c cols ih =>
    intro first hc p hp
    simp only [ListView.writeCells] at hp
    rw [List.mem_append, List.mem_append] at hp
    rcases hp with (hp | hp) | hp
    · split at hp
      · simp at hp
      · simp at hp; subst hp; exact h1
    · simp only [List.mem_singleton] at hp; subst hp
      have := hc c (by simp)
      cases bg <;> exact this
    · exact ih false (fun d hd => hc d (List.mem_cons_of_mem _ hd)) p hp

theorem bar_play (cw : Char → Nat) (skin : Skin) (h3 : Tidy skin.scrollbar.thumb.drawn.1 ∧ Tidy skin.scrollbar.track.drawn.1)
    (bar : Option (Nat × Nat)) (sx top y : Nat) (t : Tty) (hp : t.pen = {}) :
    (t.play cw (ListView.barCmds skin bar sx top y)).pen = {} ∧
    (t.play cw (ListView.barCmds skin bar sx top y)).cells =
      match ListView.writeBar skin bar sx top y with
      | some b => printSeen cw [b] t.cells
      | none => t.cells := by
  cases bar with
  | none => exact ⟨hp, rfl⟩
  | some tb =>
    obtain ⟨a, b⟩ := tb
    simp only [ListView.barCmds, ListView.writeBar]
    split
    · exact play_row cw sx (top + y) skin.scrollbar.thumb.display t hp (by simp [StyledChar.display]; exact h3.1)
    · exact play_row cw sx (top + y) skin.scrollbar.track.display t hp (by simp [StyledChar.display]; exact h3.2)

theorem body_play (cw : Char → Nat) (v : ListView T) (skin : Skin) (h1 : Tidy skin.table.style)
    (h3 : Tidy skin.scrollbar.thumb.drawn.1 ∧ Tidy skin.scrollbar.track.drawn.1)
    (h4 : ∀ c ∈ v.columns, ∀ r ∈ v.rows, Tidy (c.extract r.data).style) (bar : Option (Nat × Nat)) (sx : Nat) :
    ∀ (n y idx : Nat) (body : List ListView.BodyRow), v.writeBody skin bar sx n y idx = some body →
      ∃ cmds, v.bodyCmds skin bar sx n y idx = some cmds ∧ ∀ t : Tty, t.pen = {} →
        (t.play cw cmds).pen = {} ∧ (t.play cw cmds).cells = body.foldl (printBodyRow cw) t.cells := by
  intro n
  induction n with
  | zero =>
    intro y idx body h
    simp only [ListView.writeBody, Option.some.injEq] at h
    subst h
    exact ⟨[], rfl, fun t ht => ⟨ht, rfl⟩⟩
  | succ n ih =>
    intro y idx body h
    simp only [ListView.writeBody, Option.bind_eq_bind, Option.bind_eq_some_iff] at h
    obtain ⟨top, ht, found, hf, h⟩ := h
    cases found with
    | none =>
      simp only [Option.bind_eq_some_iff, Option.some.injEq] at h
      obtain ⟨rest, hr, rfl⟩ := h
      obtain ⟨cs, c1, c2⟩ := ih _ _ _ hr
      refine ⟨.moveTo v.area.left top :: .clearLine :: (ListView.barCmds skin bar sx v.area.top y ++ cs),
        by simp only [ListView.bodyCmds, Option.bind_eq_bind, ht, hf, c1, Option.bind_some], ?_⟩
      intro t hp
      have e : t.play cw (.moveTo v.area.left top :: .clearLine :: (ListView.barCmds skin bar sx v.area.top y ++ cs)) =
          ((⟨clearFrom v.area.left top t.cells, v.area.left, top, {}⟩ : Tty).play cw (ListView.barCmds skin bar sx v.area.top y)).play cw cs := by
        rw [← play_append]
        show (Tty.exec cw (Tty.exec cw t _) _).play cw _ = _
        simp only [Tty.exec, hp]
        rfl
      rw [e]
      obtain ⟨b1, b2⟩ := bar_play cw skin h3 bar sx v.area.top y ⟨clearFrom v.area.left top t.cells, v.area.left, top, {}⟩ rfl
      obtain ⟨d1, d2⟩ := c2 _ b1
      refine ⟨d1, ?_⟩
      rw [d2, b2]
      rfl
    | some p =>
      obtain ⟨i, row⟩ := p
      simp only [Option.bind_eq_some_iff, Option.some.injEq] at h
      obtain ⟨rest, hr, rfl⟩ := h
      obtain ⟨cs, c1, c2⟩ := ih _ _ _ hr
      refine ⟨.moveTo v.area.left top :: (v.cellsCmds skin (some i = v.selection) row.data true v.columns ++
          (ListView.barCmds skin bar sx v.area.top y ++ cs)), by simp only [ListView.bodyCmds, Option.bind_eq_bind, ht, hf, c1, Option.bind_some], ?_⟩
      intro t hp
      have hrow : row ∈ v.rows := by
        unfold ListView.seek at hf
        split at hf
        · simp only [Option.some.injEq] at hf
          have : ∀ (l : List (ListRow T)) (k : Nat), ListView.seekIn l k = some (i, row) → row ∈ l := by
            intro l
            induction l with
            | nil => intro k h; simp [ListView.seekIn] at h
            | cons r l ihl =>
              intro k h
              simp only [ListView.seekIn] at h
              split at h
              · simp only [Option.some.injEq, Prod.mk.injEq] at h; rw [h.2]; simp
              · exact List.mem_cons_of_mem _ (ihl _ h)
          exact List.mem_of_mem_drop (this _ _ hf)
        · simp at hf
      have hty : ∀ c ∈ v.columns, Tidy (c.extract row.data).style := fun c hc => h4 c hc row hrow
      generalize hbg : (if some i = v.selection then some v.selectionBg else none) = bg
      have hbg' : (if decide (some i = v.selection) = true then some v.selectionBg else none) = bg := by rw [← hbg]; simp
      have e : t.play cw (.moveTo v.area.left top :: (v.cellsCmds skin (some i = v.selection) row.data true v.columns ++
            (ListView.barCmds skin bar sx v.area.top y ++ cs))) =
          ((t.play cw (rowCmds v.area.left top (ListView.writeCells bg skin row.data true v.columns))).play cw
            (ListView.barCmds skin bar sx v.area.top y)).play cw cs := by
        show (Tty.exec cw t _).play cw _ = _
        rw [play_append, play_append, cells_play cw v skin h1 _ row.data v.columns true (Tty.exec cw t (.moveTo v.area.left top)) hp hty, hbg']
        rfl
      rw [e]
      obtain ⟨a1, a2⟩ := play_row cw v.area.left top _ t hp (cells_tidy bg skin h1 row.data v.columns true hty)
      obtain ⟨b1, b2⟩ := bar_play cw skin h3 bar sx v.area.top y _ a1
      obtain ⟨d1, d2⟩ := c2 _ b1
      refine ⟨d1, ?_⟩
      rw [d2, b2, a2]
      rfl

end TtyLemmas

/-- C65: a list view prints its titles and rows with the styles of their pieces (those of a selected row have the background of the
selection, separators included), and leaves the pen as it was. -/
theorem C65_list_view {T : Type} (cw : Char → Nat) (v : ListView T) (skin : Skin) {w : ListView.Written} (h : v.writeOn skin = some w)
    (h1 : Tidy skin.table.style) (h2 : Tidy (skin.headers 0).style)
    (h3 : Tidy skin.scrollbar.thumb.drawn.1 ∧ Tidy skin.scrollbar.track.drawn.1)
    (h4 : ∀ c ∈ v.columns, ∀ r ∈ v.rows, Tidy (c.extract r.data).style) (t : Tty) (ht : t.pen = {}) :
    ∃ cmds, v.cmds skin = some cmds ∧ (t.play cw cmds).pen = {} ∧ (t.play cw cmds).cells = printList cw w t.cells := by
  simp only [ListView.writeOn, Option.bind_eq_bind, Option.bind_eq_some_iff, Option.some.injEq] at h
  obtain ⟨sx, e1, titles, e2, y1, e3, rule, e4, bar, e5, body, e6, rfl⟩ := h
  obtain ⟨cs, c1, c2⟩ := TtyLemmas.body_play cw v skin h1 h3 h4 bar sx _ _ _ _ e6
  refine ⟨rowCmds v.area.left v.area.top titles ++ rowCmds v.area.left y1 rule ++ cs, by simp only [ListView.cmds, Option.bind_eq_bind, e1, e2, e3, e4, e5, c1, Option.bind_some], ?_⟩
  rw [play_append, play_append]
  obtain ⟨a1, a2⟩ := play_row cw v.area.left v.area.top titles t ht (TtyLemmas.titles_tidy v skin h1 h2 _ _ _ e2)
  obtain ⟨b1, b2⟩ := play_row cw v.area.left y1 rule _ a1 (TtyLemmas.rule_tidy v skin h1 _ _ _ e4)
  obtain ⟨d1, d2⟩ := c2 _ b1
  refine ⟨d1, ?_⟩
  rw [d2, b2, a2]
  rfl

private theorem rect_prints (r : Rect) {cmds : List Cmd} (h : r.draw = some cmds) :
    ∀ c ∈ cmds, (∃ x y, c = .moveTo x y) ∨ ∃ text, c = .print r.colors text := by
  have border : ∀ y a b d, ∀ c ∈ r.border y a b d, (∃ x y, c = .moveTo x y) ∨ ∃ text, c = .print r.colors text := by
    intro y a b d c hc
    simp only [Rect.border, List.mem_append, List.mem_cons, List.not_mem_nil, or_false] at hc
    rcases hc with ((rfl | rfl) | hc) | rfl
    · exact .inl ⟨_, _, rfl⟩
    · exact .inr ⟨_, rfl⟩
    · split at hc
      · exact .inr ⟨_, (List.mem_replicate.1 hc).2⟩
      · simp at hc
    · exact .inr ⟨_, rfl⟩
  have inside : ∀ y l, r.inside y = some l → ∀ c ∈ l, (∃ x y, c = .moveTo x y) ∨ ∃ text, c = .print r.colors text := by
    intro y l hl c hc
    unfold Rect.inside at hl
    split at hl
    · split at hl
      · simp only [Option.bind_eq_bind, Option.bind_eq_some_iff, Option.some.injEq] at hl
        obtain ⟨ch, _, rfl⟩ := hl
        obtain ⟨x, _, rfl⟩ := List.mem_map.1 hc
        exact .inr ⟨_, rfl⟩
      · simp at hl; subst hl; simp at hc
    · simp only [Option.bind_eq_bind, Option.bind_eq_some_iff, Option.some.injEq] at hl
      obtain ⟨_, _, _, _, rfl⟩ := hl
      simp at hc; subst hc; exact .inl ⟨_, _, rfl⟩
  have sides : ∀ stop turns y l, r.sidesLoop stop turns y = some l → ∀ c ∈ l, (∃ x y, c = .moveTo x y) ∨ ∃ text, c = .print r.colors text := by
    intro stop turns
    induction turns with
    | zero =>
      intro y l hl c hc
      simp only [Rect.sidesLoop] at hl
      split at hl
      · simp at hl
      · simp at hl; subst hl; simp at hc
    | succ turns ih =>
      intro y l hl c hc
      simp only [Rect.sidesLoop] at hl
      split at hl
      · simp only [Option.bind_eq_bind, Option.bind_eq_some_iff, Option.some.injEq] at hl
        obtain ⟨mid, hm, next, _, rest, hr, rfl⟩ := hl
        simp only [List.mem_append, List.mem_cons, List.not_mem_nil, or_false] at hc
        rcases hc with (((rfl | rfl) | hc) | rfl) | hc
        · exact .inl ⟨_, _, rfl⟩
        · exact .inr ⟨_, rfl⟩
        · exact inside _ _ hm c hc
        · exact .inr ⟨_, rfl⟩
        · exact ih _ _ hr c hc
      · simp at hl; subst hl; simp at hc
  intro c hc
  simp only [Rect.draw, Option.bind_eq_bind, Option.bind_eq_some_iff, Option.some.injEq] at h
  obtain ⟨_, _, _, _, _, _, rows, hr, _, _, _, _, rfl⟩ := h
  simp only [List.mem_append] at hc
  rcases hc with (hc | hc) | hc
  · exact border _ _ _ _ c hc
  · exact sides _ _ _ _ hr c hc
  · exact border _ _ _ _ c hc

/-- C65: a rectangle is drawn with its style and leaves the pen as it was. -/
theorem C65_rect (cw : Char → Nat) (hcw : ∀ c, cw c = 1) (r : Rect) (hs : Tidy r.colors) {cmds : List Cmd} (h : r.draw = some cmds)
    (t : Tty) (ht : t.pen = {}) (screen : Screen) (hscreen : ∀ x y, t.cells x y = (seen (screen x y).1, (screen x y).2, 0)) :
    ∃ cs, r.cmds = some cs ∧ (t.play cw cs).pen = {} ∧
      ∀ x y, (t.play cw cs).cells x y =
        (seen ((Term.play ⟨screen, t.x, t.y⟩ cmds).screen x y).1, ((Term.play ⟨screen, t.x, t.y⟩ cmds).screen x y).2, 0) := by
  refine ⟨cmds.map fun c => match c with | .moveTo x y => .moveTo x y | .print style text => .styled style text, by rw [Rect.cmds, h]; rfl, ?_⟩
  have hp := rect_prints r h
  clear h
  have hput : ∀ (style : CompoundStyle) (text : Text) (g : Cells CompoundStyle) (scr : Screen) (x0 y0 : Nat),
      (∀ x y, g x y = (seen (scr x y).1, (scr x y).2, 0)) →
      (Term.put ⟨scr, x0, y0⟩ style text).x = x0 + textWidth cw text ∧ (Term.put ⟨scr, x0, y0⟩ style text).y = y0 ∧
      ∀ x y, printText cw y0 (seen style) x0 text g x y =
        (seen ((Term.put ⟨scr, x0, y0⟩ style text).screen x y).1, ((Term.put ⟨scr, x0, y0⟩ style text).screen x y).2, 0) := by
    intro style text
    induction text with
    | nil => intro g scr x0 y0 hg; exact ⟨rfl, rfl, hg⟩
    | cons c text ih =>
      intro g scr x0 y0 hg
      have := ih (printChar cw x0 y0 (seen style) c g) (fun x y => if x = x0 ∧ y = y0 then (style, c) else scr x y) (x0 + 1) y0 (by
        intro x y
        simp only [printChar, hcw]
        by_cases hh : x = x0 ∧ y = y0
        · obtain ⟨rfl, rfl⟩ := hh
          rw [if_pos ⟨rfl, Nat.le_refl _, by omega⟩, if_pos ⟨rfl, rfl⟩]
          simp
        · rw [if_neg (by omega), if_neg hh]
          exact hg x y)
      simp only [Term.put, printText, textWidth, hcw] at this ⊢
      refine ⟨by omega, this.2.1, this.2.2⟩
  revert t screen
  induction cmds with
  | nil => intro t ht screen hscreen; exact ⟨ht, hscreen⟩
  | cons c cmds ih =>
    intro t ht screen hscreen
    have ih' := ih (fun d hd => hp d (List.mem_cons_of_mem _ hd))
    rcases hp c (by simp) with ⟨x, y, rfl⟩ | ⟨text, rfl⟩
    · exact ih' { t with x, y } ht screen hscreen
    · obtain ⟨p1, p2, p3⟩ := hput r.colors text t.cells screen t.x t.y hscreen
      have := ih' (t.exec cw (.styled r.colors text)) (by simp only [Tty.exec, ht]; exact penAfter_default hs)
        (Term.put ⟨screen, t.x, t.y⟩ r.colors text).screen (by
          simp only [Tty.exec, ht, over_default]; exact p3)
      have e : (⟨(Term.put ⟨screen, t.x, t.y⟩ r.colors text).screen, (t.exec cw (.styled r.colors text)).x, (t.exec cw (.styled r.colors text)).y⟩ : Term) =
          Term.put ⟨screen, t.x, t.y⟩ r.colors text := by
        simp only [Tty.exec]
        generalize Term.put ⟨screen, t.x, t.y⟩ r.colors text = q at p1 p2
        obtain ⟨a, b, d⟩ := q
        simp only at p1 p2
        rw [p1, p2]
      rw [e] at this
      exact this

private theorem play_prints (cw : Char → Nat) : ∀ (chunks : List Text) (t : Tty), t.play cw (chunks.map .print) =
    { t with cells := printText cw t.y t.pen t.x chunks.flatten t.cells, x := t.x + textWidth cw chunks.flatten } := by
  have app : ∀ (a b : Text) (y : Nat) (s : CompoundStyle) (x : Nat) (g : Cells CompoundStyle),
      printText cw y s x (a ++ b) g = printText cw y s (x + textWidth cw a) b (printText cw y s x a g) := by
    intro a
    induction a with
    | nil => intro b y s x g; rfl
    | cons c a ih => intro b y s x g; simp only [List.cons_append, printText, textWidth, ih, Nat.add_assoc]
  intro chunks
  induction chunks with
  | nil => intro t; rfl
  | cons c chunks ih =>
    intro t
    have e : t.play cw ((c :: chunks).map .print) = (t.exec cw (.print c)).play cw (chunks.map .print) := rfl
    rw [e, ih]
    simp only [Tty.exec, List.flatten_cons, app, textWidth_append, Nat.add_assoc]

/-- C65: `fill_bg` prints spaces with the given background, which stays on the terminal. -/
theorem C65_fill (len : Nat) (bg : Color) : ∃ cmds, fillBg len bg = some cmds ∧ ∀ (cw : Char → Nat) (t : Tty),
    t.play cw cmds = ⟨printText cw t.y { t.pen with bg := penColor bg } t.x (List.replicate len ' ') t.cells,
      t.x + len * cw ' ', t.y, { t.pen with bg := penColor bg }⟩ := by
  obtain ⟨chunks, h1, h2⟩ := C17_filling ' ' len
  refine ⟨.setBg bg :: chunks.map .print, by rw [fillBg, h1]; rfl, ?_⟩
  intro cw t
  have e : t.play cw (.setBg bg :: chunks.map .print) = ({ t with pen := { t.pen with bg := penColor bg } } : Tty).play cw (chunks.map .print) := rfl
  rw [e, play_prints, h2]
  simp [textWidth_replicate]

/-- C65: `queue_fg` and `queue_bg` change the color of what will be printed, if the style has such a color, and nothing else. -/
theorem C65_colors (cw : Char → Nat) (s : CompoundStyle) (t : Tty) :
    t.play cw s.queueFg = { t with pen := { t.pen with fg := s.fg.elim t.pen.fg penColor } } ∧
    t.play cw s.queueBg = { t with pen := { t.pen with bg := s.bg.elim t.pen.bg penColor } } := by
  constructor
  · unfold CompoundStyle.queueFg
    cases s.fg <;> rfl
  · unfold CompoundStyle.queueBg
    cases s.bg <;> rfl

/-- C65: `clear` up to the end of the line makes the cells from the cursor on empty, with the background of the style, or the one there was if it has none;
the other cells and the position of the cursor don't change. -/
theorem C65_clear (cw : Char → Nat) (s : CompoundStyle) (t : Tty) :
    let bg := s.bg.elim t.pen.bg penColor
    (t.play cw s.clear).pen = { t.pen with bg := bg } ∧ (t.play cw s.clear).x = t.x ∧ (t.play cw s.clear).y = t.y ∧
    (∀ x, t.x ≤ x → (t.play cw s.clear).cells x t.y = ({ bg := bg }, ' ', 0)) ∧
    ∀ x y, (y ≠ t.y ∨ x < t.x) → (t.play cw s.clear).cells x y = t.cells x y := by
  have e : t.play cw s.clear = (t.play cw s.queueBg).exec cw .clearLine := by
    simp [Tty.play, CompoundStyle.clear]
  rw [e, (C65_colors cw s t).2]
  refine ⟨rfl, rfl, rfl, fun x hx => ?_, fun x y h => ?_⟩
  · show (if t.y = t.y ∧ t.x ≤ x then _ else _) = _
    rw [if_pos ⟨rfl, hx⟩]
  · show (if y = t.y ∧ t.x ≤ x then _ else _) = _
    rw [if_neg (by omega)]

/-- C65: on the contrary the functions setting a color let it on the terminal. -/
theorem C65_fill_counterexample : (∃ cmds, fillBg 3 .red = some cmds ∧ ∀ (cw : Char → Nat) (t : Tty), (t.play cw cmds).pen.bg = some .red) ∧
    ∀ (cw : Char → Nat) (t : Tty), (t.play cw (CompoundStyle.clear { bg := some .red })).pen.bg = some .red := by
  obtain ⟨cmds, h1, h2⟩ := C65_fill 3 .red
  exact ⟨⟨cmds, h1, fun cw t => by rw [h2]; rfl⟩, fun _ _ => rfl⟩

/-! Examples -/

/-- Two columns, the second of which has the selected data in yellow. -/
private def exColumns : List (ListColumn Nat) :=
  [{ title := ['n'], minWidth := 2, maxWidth := 2, width := 2, align := .left, extract := fun n => { con := (toString n).toList } },
   { title := ['m'], minWidth := 1, maxWidth := 1, width := 1, align := .left, extract := fun _ => { con := ['m'], style := { fg := some .yellow } } }]

/-- A list whose second row is selected: on the terminal, the selected row has the background of the selection on its cells and its
separator, and nothing else has it. -/
example : ∃ w cmds, ({ listOf ⟨1, 0, 5, 5⟩ exColumns [10, 11] with selection := some 1 } : ListView Nat).writeOn renderSkin = some w ∧
    ({ listOf ⟨1, 0, 5, 5⟩ exColumns [10, 11] with selection := some 1 } : ListView Nat).cmds renderSkin = some cmds ∧
    (List.range 6).map (fun x => ((Tty.play (fun _ => 1) ⟨fun _ _ => ({}, '.', 0), 0, 0, {}⟩ cmds).cells x 3)) =
      [({}, '.', 0), ({ bg := some (gray 5) }, '1', 0), ({ bg := some (gray 5) }, '1', 0), ({ bg := some (gray 5) }, '│', 0),
       ({ fg := some .yellow, bg := some (gray 5) }, 'm', 0), ({}, '.', 0)] ∧
    (Tty.play (fun _ => 1) ⟨fun _ _ => ({}, '.', 0), 0, 0, {}⟩ cmds).pen = {} := by
  refine ⟨_, _, rfl, rfl, by decide +kernel, by decide +kernel⟩

/-- Skins without color of underline are tidy. -/
example : TidySkin renderSkin :=
  ⟨.inl rfl, fun _ => .inl rfl, .inl rfl, .inl rfl, .inl rfl, .inl rfl, .inl rfl, .inl rfl, .inl rfl, .inl rfl,
    fun _ _ h => by simp [renderSkin] at h⟩

/-- C65: all the given skins are tidy, and stay so when their colors are changed. -/
theorem C65_skins : TidySkin Skin.default ∧ TidySkin Skin.noStyle ∧ TidySkin Skin.defaultDark ∧ TidySkin Skin.defaultLight ∧
    ∀ skin, TidySkin skin → (∀ c, TidySkin (skin.setHeadersFg c) ∧ TidySkin (skin.setHeadersBg c)) ∧ ∀ mix, TidySkin (skin.blendWith mix) := by
  refine ⟨?_, ?_, ?_, ?_, ?_⟩
  · exact ⟨.inl rfl, fun i => .inl (by revert i; decide), .inl rfl, .inl rfl, .inl rfl, .inl rfl, .inl rfl, .inl rfl, .inl rfl, .inl rfl, fun _ _ h => by simp [Skin.default] at h⟩
  · exact ⟨.inl rfl, fun i => .inl (by revert i; decide), .inl rfl, .inl rfl, .inl rfl, .inl rfl, .inl rfl, .inl rfl, .inl rfl, .inl rfl, fun _ _ h => by simp [Skin.noStyle] at h⟩
  · exact ⟨.inl rfl, fun i => .inl (by revert i; decide), .inl rfl, .inl rfl, .inl rfl, .inl rfl, .inl rfl, .inl rfl, .inl rfl, .inl rfl, fun _ _ h => by simp [Skin.defaultDark, Skin.headersFg, Skin.default] at h⟩
  · exact ⟨.inl rfl, fun i => .inl (by revert i; decide), .inl rfl, .inl rfl, .inl rfl, .inl rfl, .inl rfl, .inl rfl, .inl rfl, .inl rfl, fun _ _ h => by simp [Skin.defaultLight, Skin.headersFg, Skin.default] at h⟩
  · intro skin h
    exact ⟨fun c => ⟨⟨h.1, h.2, h.3, h.4, h.5, h.6, h.7, h.8, h.9, h.10, h.11⟩, ⟨h.1, h.2, h.3, h.4, h.5, h.6, h.7, h.8, h.9, h.10, h.11⟩⟩,
      fun mix => ⟨h.1, h.2, h.3, h.4, h.5, h.6, h.7, h.8, h.9, h.10, h.11⟩⟩

/-- The color of underline of a style without attributes leaks on what is printed next. -/
theorem C65_underline_counterexample (cw : Char → Nat) (t : Tty) :
    (t.play cw [Piece.cmd ({ underline := some .red }, ['a'])]).pen.underline = some .red := rfl

end Verif.Props

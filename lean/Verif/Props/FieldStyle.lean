import Verif.Spec.FieldStyle
import Verif.Props.InputField
import Verif.Props.Style
/-! Property C58: the styles of the cells of an input field. -/
namespace Verif.Props
open Verif InputField Spec

theorem styledBy_foldl (ops : List FieldStyleOp) : ∀ (s : FieldStyles), s.cursor = s.focused.addAttr .reverse →
    let r := ops.foldl FieldStyleOp.run s
    r.focused = ((ops.filterMap fun | .setNormalStyle s => some s | _ => none).getLast?).getD s.focused ∧
    r.unfocused = ((ops.filterMap fun | .setUnfocusedStyle s => some s | _ => none).getLast?).getD s.unfocused ∧
    r.cursor = r.focused.addAttr .reverse := by
  induction ops with
  | nil => intro s h; exact ⟨rfl, rfl, h⟩
  | cons op ops ih =>
    intro s h
    cases op with
    | setNormalStyle n =>
      have := ih (s.setNormalStyle n) rfl
      simp only [List.foldl_cons, FieldStyleOp.run, List.filterMap_cons]
      refine ⟨?_, this.2.1, this.2.2⟩
      rw [this.1, List.getLast?_cons]; rfl
    | setUnfocusedStyle n =>
      have := ih (s.setUnfocusedStyle n) h
      simp only [List.foldl_cons, FieldStyleOp.run, List.filterMap_cons]
      refine ⟨this.1, ?_, this.2.2⟩
      rw [this.2.1, List.getLast?_cons]; rfl

theorem styledBy_eq (ops : List FieldStyleOp) :
    styledBy ops = ⟨normalStyle ops, unfocusedStyle ops, (normalStyle ops).addAttr .reverse⟩ := by
  obtain ⟨h1, h2, h3⟩ := styledBy_foldl ops FieldStyles.new rfl
  have e1 : (styledBy ops).focused = normalStyle ops := h1
  have e2 : (styledBy ops).unfocused = unfocusedStyle ops := h2
  have e3 : (styledBy ops).cursor = (styledBy ops).focused.addAttr .reverse := h3
  rw [e1] at e3
  rw [← e1, ← e2] at *
  rw [← e3]

/-- An unfocused field has no cell in the style of the cursor. -/
theorem drawChars_unfocused (cw : Char → Nat) {f : InputField} (hf : f.focused = false) (sel : Range) (y j skip w : Nat) :
    ∀ (chars : Text) (i skipped d : Nat) (cur : Option (Nat × Nat)) (r : Drawn),
      drawChars cw f sel y j skip w i chars skipped d cur = some r → r.cursor = cur ∧ ∀ p ∈ r.pieces, p.1 ≠ .cursor := by
  have hc : ∀ b ch d, f.drawCell b ch d j = some ((.normal, [ch]), none) := by intro b ch d; simp [drawCell, hf]
  intro chars
  induction chars with
  | nil => intro i s d cur r h; rw [drawChars] at h; cases h; simp
  | cons c rest ih =>
    intro i s d cur r h
    rw [drawChars] at h
    simp only [hc, Option.bind_eq_bind, Option.bind_some, Option.none_or] at h
    generalize (if f.passwordMode = true then '*' else c) = ch at h
    split at h
    · exact ih _ _ _ _ _ h
    · split at h
      · cases h; simp
      · split at h
        · cases h; simp
        · rw [Option.bind_eq_some_iff] at h
          obtain ⟨r', h1, h2⟩ := h
          cases h2
          have := ih _ _ _ _ _ h1
          refine ⟨this.1, ?_⟩
          intro p hp
          rcases List.mem_cons.1 hp with rfl | hp
          · simp
          · exact this.2 p hp

theorem drawEnd_unfocused {f : InputField} {w j : Nat} {d r : Drawn} (hd : ∀ p ∈ d.pieces, p.1 ≠ .cursor)
    (h : f.drawEnd false w j d = some r) : r.cursor = d.cursor ∧ ∀ p ∈ r.pieces, p.1 ≠ .cursor := by
  unfold drawEnd at h
  rw [if_neg (by simp)] at h
  cases h
  refine ⟨rfl, ?_⟩
  simp only [List.mem_append, List.mem_replicate]
  rintro p (h | h)
  · exact hd p h
  · rw [h.2]; simp

theorem drawRow_unfocused (cw : Char → Nat) {f : InputField} (hf : f.focused = false) {w j : Nat} {cur : Option (Nat × Nat)} {r : Drawn}
    (h : f.drawRow cw w j cur = some r) : r.cursor = cur ∧ ∀ p ∈ r.pieces, p.1 ≠ .cursor := by
  unfold drawRow at h
  split at h
  · rw [drawLine_eq, hf] at h
    simp only [Bool.false_and] at h
    simp only [Option.map_eq_some_iff, Option.bind_eq_some_iff] at h
    obtain ⟨d', ⟨d, h1, hd⟩, h2⟩ := h
    have a := drawChars_unfocused cw hf _ _ _ _ _ _ _ _ _ _ _ h1
    have b := drawEnd_unfocused a.2 hd
    cases h2
    refine ⟨by rw [← a.1, ← b.1], ?_⟩
    intro p hp
    rcases List.mem_append.1 hp with h | h
    · rw [leftPieces_normal f w p h]; simp
    · exact b.2 p h
  · unfold drawEmpty at h
    simp only [Option.bind_eq_bind, Option.bind_eq_some_iff] at h
    obtain ⟨chunks, _, h2⟩ := h
    cases h2
    refine ⟨rfl, ?_⟩
    simp only [List.mem_map]
    rintro p ⟨t, _, rfl⟩
    simp

theorem drawRows_unfocused (cw : Char → Nat) (bar : Char × Char) {f : InputField} (hf : f.focused = false) {w : Nat}
    (sb : Option (Nat × Nat)) : ∀ (n j : Nat) (cur : Option (Nat × Nat)) (rows : List Row) (cur' : Option (Nat × Nat)),
      drawRows cw bar f w sb n j cur = some (rows, cur') → cur' = cur ∧ ∀ row ∈ rows, ∀ p ∈ row.pieces, p.1 ≠ .cursor := by
  intro n
  induction n with
  | zero => intro j cur rows cur' h; rw [drawRows] at h; cases h; simp
  | succ n ih =>
    intro j cur rows cur' h
    rw [drawRows] at h
    simp only [Option.bind_eq_bind, Option.bind_eq_some_iff, Option.some.injEq, Prod.mk.injEq] at h
    obtain ⟨y, _, d, hd, rest, hrest, rfl, rfl⟩ := h
    have a := drawRow_unfocused cw hf hd
    have b := ih _ _ _ _ hrest
    refine ⟨by rw [b.1, a.1], ?_⟩
    intro row hrow
    rcases List.mem_cons.1 hrow with rfl | hrow
    · intro p hp
      rcases List.mem_append.1 hp with h | h
      · exact a.2 p h
      · unfold drawBar at h
        split at h
        · split at h <;> (rw [List.mem_singleton] at h; rw [h]; simp)
        · cases h
    · exact b.2 row hrow

theorem displayOn_unfocused (cw : Char → Nat) (bar : Char × Char) {f : InputField} (hf : f.focused = false) {rows : List Row}
    {cur : Option (Nat × Nat)} (h : f.displayOn cw bar = some (rows, cur)) :
    cur = none ∧ ∀ row ∈ rows, ∀ p ∈ row.pieces, p.1 ≠ .cursor := by
  unfold InputField.displayOn at h
  simp only [Option.bind_eq_bind, Option.bind_eq_some_iff] at h
  obtain ⟨sb, _, w, _, h⟩ := h
  exact drawRows_unfocused cw bar hf sb _ _ _ _ _ h

/-- The characters drawn for the scrollbar are the given ones. -/
theorem drawRows_bar (cw : Char → Nat) (bar : Char × Char) {f : InputField} {w : Nat}
    (sb : Option (Nat × Nat)) : ∀ (n j : Nat) (cur : Option (Nat × Nat)) (rows : List Row) (cur' : Option (Nat × Nat)),
      (∀ j cur d, f.drawRow cw w j cur = some d → ∀ p ∈ d.pieces, p.1 = .normal ∨ p.1 = .cursor) →
      drawRows cw bar f w sb n j cur = some (rows, cur') →
      ∀ row ∈ rows, ∀ p ∈ row.pieces, (p.1 = .thumb → p.2 = [bar.1]) ∧ (p.1 = .track → p.2 = [bar.2]) := by
  intro n
  induction n with
  | zero => intro j cur rows cur' _ h; rw [drawRows] at h; cases h; simp
  | succ n ih =>
    intro j cur rows cur' hr h
    rw [drawRows] at h
    simp only [Option.bind_eq_bind, Option.bind_eq_some_iff, Option.some.injEq, Prod.mk.injEq] at h
    obtain ⟨y, _, d, hd, rest, hrest, rfl, rfl⟩ := h
    intro row hrow
    rcases List.mem_cons.1 hrow with rfl | hrow
    · intro p hp
      rcases List.mem_append.1 hp with h | h
      · rcases hr _ _ _ hd p h with e | e <;> simp [e]
      · unfold drawBar at h
        split at h
        · split at h <;> (rw [List.mem_singleton] at h; rw [h]; simp)
        · cases h
    · exact ih _ _ _ _ hr hrest row hrow

theorem drawChars_text (cw : Char → Nat) (f : InputField) (sel : Range) (y j skip w : Nat) :
    ∀ (chars : Text) (i skipped d : Nat) (cur : Option (Nat × Nat)) (r : Drawn),
      drawChars cw f sel y j skip w i chars skipped d cur = some r → ∀ p ∈ r.pieces, p.1 = .normal ∨ p.1 = .cursor := by
  have hc : ∀ b ch d p, f.drawCell b ch d j = some p → p.1.1 = .normal ∨ p.1.1 = .cursor := by
    intro b ch d p h
    unfold drawCell at h
    split at h
    · simp only [Option.bind_eq_bind, Option.bind_eq_some_iff] at h
      obtain ⟨q, _, h⟩ := h
      cases h; simp
    · cases h; simp
  intro chars
  induction chars with
  | nil => intro i s d cur r h; rw [drawChars] at h; cases h; simp
  | cons c rest ih =>
    intro i s d cur r h
    rw [drawChars] at h
    simp only [Option.bind_eq_bind] at h
    generalize (if f.passwordMode = true then '*' else c) = ch at h
    split at h
    · exact ih _ _ _ _ _ h
    · split at h
      · rw [Option.bind_eq_some_iff] at h
        obtain ⟨p, h1, h2⟩ := h
        cases h2
        intro q hq
        rw [List.mem_singleton.1 hq]
        exact hc _ _ _ _ h1
      · rw [Option.bind_eq_some_iff] at h
        obtain ⟨p, h1, h2⟩ := h
        split at h2
        · cases h2
          intro q hq
          rw [List.mem_singleton.1 hq]
          exact hc _ _ _ _ h1
        · rw [Option.bind_eq_some_iff] at h2
          obtain ⟨r', h3, h4⟩ := h2
          cases h4
          intro q hq
          rcases List.mem_cons.1 hq with rfl | hq
          · exact hc _ _ _ _ h1
          · exact ih _ _ _ _ _ h3 q hq

theorem drawEnd_text {f : InputField} {b : Bool} {w j : Nat} {d r : Drawn} (hd : ∀ p ∈ d.pieces, p.1 = .normal ∨ p.1 = .cursor)
    (h : f.drawEnd b w j d = some r) : ∀ p ∈ r.pieces, p.1 = .normal ∨ p.1 = .cursor := by
  unfold drawEnd at h
  split at h
  · simp only [Option.bind_eq_bind, Option.bind_eq_some_iff] at h
    obtain ⟨q, _, h⟩ := h
    cases h
    simp only [List.mem_append, List.mem_cons, List.mem_replicate]
    rintro p (h | h | h)
    · exact hd p h
    · rw [h]; simp
    · rw [h.2]; simp
  · cases h
    simp only [List.mem_append, List.mem_replicate]
    rintro p (h | h)
    · exact hd p h
    · rw [h.2]; simp

theorem drawRow_text (cw : Char → Nat) (f : InputField) {w j : Nat} {cur : Option (Nat × Nat)} {r : Drawn}
    (h : f.drawRow cw w j cur = some r) : ∀ p ∈ r.pieces, p.1 = .normal ∨ p.1 = .cursor := by
  unfold drawRow at h
  split at h
  · rw [drawLine_eq] at h
    simp only [Option.map_eq_some_iff, Option.bind_eq_some_iff] at h
    obtain ⟨d', ⟨d, h1, hd⟩, h2⟩ := h
    have a := drawChars_text cw f _ _ _ _ _ _ _ _ _ _ _ h1
    have c := drawEnd_text a hd
    cases h2
    intro p hp
    rcases List.mem_append.1 hp with h | h
    · exact .inl (leftPieces_normal f w p h)
    · exact c p h
  · unfold drawEmpty at h
    simp only [Option.bind_eq_bind, Option.bind_eq_some_iff] at h
    obtain ⟨chunks, _, h2⟩ := h
    cases h2
    simp only [List.mem_map]
    rintro p ⟨t, _, rfl⟩
    simp

theorem scrollbar_chars (s : FieldStyles) (b : Bool) :
    ((s.scrollbar b).thumb.char, (s.scrollbar b).track.char) = ('▐', '▐') := by
  unfold FieldStyles.scrollbar
  cases b <;> cases s.focused.bg <;> rfl

/-- A piece is one piece, with the same text, and in the specified style. -/
theorem piece_styled (ops : List FieldStyleOp) (b : Bool) (p : CellPiece) (hc : b = false → p.1 ≠ .cursor)
    (ht : p.1 = .thumb → p.2 = ['▐']) (hk : p.1 = .track → p.2 = ['▐']) :
    ∃ style, (styledBy ops).piece b p = [(style, p.2)] ∧ CellStyled ops b style p.1 := by
  rw [styledBy_eq]
  obtain ⟨st, t⟩ := p
  cases st with
  | normal => exact ⟨_, rfl, rfl⟩
  | cursor =>
    refine ⟨_, rfl, ?_, rfl, rfl, rfl, ?_⟩
    · cases b
      · exact absurd rfl (hc rfl)
      · rfl
    · intro a
      have := (C41_attrs (normalStyle ops) .reverse a).1
      rw [this, eq_comm]
  | thumb =>
    have e : t = ['▐'] := ht rfl
    subst e
    simp only [FieldStyles.piece, CellStyled, FieldStyles.scrollbar]
    cases b with
    | false => exact ⟨_, rfl, rfl⟩
    | true => cases h : (normalStyle ops).bg <;> exact ⟨_, rfl, rfl⟩
  | track =>
    have e : t = ['▐'] := hk rfl
    subst e
    simp only [FieldStyles.piece, CellStyled, FieldStyles.scrollbar]
    cases b with
    | false => exact ⟨_, rfl, rfl⟩
    | true => cases h : (normalStyle ops).bg <;> exact ⟨_, rfl, rfl⟩

theorem flatMap_single {α β : Type} (g : α → List β) (R : α → β → Prop) (l : List α) (h : ∀ p ∈ l, ∃ q, g p = [q] ∧ R p q) :
    (l.flatMap g).length = l.length ∧ ∀ (k : Nat) (p : α), l[k]? = some p → ∃ q, (l.flatMap g)[k]? = some q ∧ R p q := by
  induction l with
  | nil => simp
  | cons a l ih =>
    obtain ⟨q, h1, h2⟩ := h a (by simp)
    obtain ⟨i1, i2⟩ := ih (fun p hp => h p (by simp [hp]))
    simp only [List.flatMap_cons, h1]
    refine ⟨by simp [i1], ?_⟩
    intro k p hk
    cases k with
    | zero => simp at hk; subst hk; exact ⟨q, by simp, h2⟩
    | succ k => simpa using i2 k p (by simpa using hk)

/-- C58: whatever the calls of the setters of styles, the display writes the cells described by C26 and C27 (with the characters of the
default scrollbar) at the same places and with the same texts, each one in its style: the last normal style given, or the last unfocused
one if the field isn't focused; the normal style with the Reverse attribute for the cursor and the selection; the default scrollbar with
the background of the normal style if the field is focused. The returned position is the same. -/
theorem C58_cells (cw : Char → Nat) (ops : List FieldStyleOp) (f : InputField) :
    (f.displayOn cw ('▐', '▐') = none → (styledBy ops).displayOn cw f = none) ∧
    ∀ (cells : List Row) (cur : Option (Nat × Nat)), f.displayOn cw ('▐', '▐') = some (cells, cur) →
      ∃ rows, (styledBy ops).displayOn cw f = some (rows, cur) ∧ rows.length = cells.length ∧
        ∀ (j : Nat) (row : Row), cells[j]? = some row → ∃ pieces, rows[j]? = some (row.x, row.y, pieces) ∧
          pieces.length = row.pieces.length ∧ ∀ (k : Nat) (st : CellStyle) (t : Text), row.pieces[k]? = some (st, t) →
            ∃ style, pieces[k]? = some (style, t) ∧ CellStyled ops f.focused style st := by
  constructor
  · intro h
    unfold FieldStyles.displayOn
    simp only [scrollbar_chars, h, Option.map_none]
  · intro cells cur h
    refine ⟨cells.map ((styledBy ops).row f.focused), ?_, by simp, ?_⟩
    · unfold FieldStyles.displayOn
      simp only [scrollbar_chars, h, Option.map_some]
    · intro j row hj
      have hmem : row ∈ cells := List.mem_of_getElem? hj
      have hbar : ∀ p ∈ row.pieces, (p.1 = .thumb → p.2 = ['▐']) ∧ (p.1 = .track → p.2 = ['▐']) := by
        have h' := h
        unfold InputField.displayOn at h'
        simp only [Option.bind_eq_bind, Option.bind_eq_some_iff] at h'
        obtain ⟨sb, _, w, _, h'⟩ := h'
        exact drawRows_bar cw ('▐', '▐') sb _ _ _ _ _ (fun j cur d hd => drawRow_text cw f hd) h' row hmem
      have hp : ∀ p ∈ row.pieces, ∃ q : Piece, (styledBy ops).piece f.focused p = [q] ∧
          (q.2 = p.2 ∧ CellStyled ops f.focused q.1 p.1) := by
        intro p hp
        obtain ⟨style, a, b⟩ := piece_styled ops f.focused p
          (fun hf => (displayOn_unfocused cw _ hf h).2 row hmem p hp) (hbar p hp).1 (hbar p hp).2
        exact ⟨_, a, rfl, b⟩
      obtain ⟨g1, g2⟩ := flatMap_single _ _ row.pieces hp
      refine ⟨row.pieces.flatMap ((styledBy ops).piece f.focused), ?_, g1, ?_⟩
      · rw [List.getElem?_map, hj]; rfl
      · intro k st t hk
        obtain ⟨q, a, b, c⟩ := g2 k _ hk
        obtain ⟨q1, q2⟩ := q
        cases b
        exact ⟨q1, a, c⟩

/-- C58: a field which isn't focused is all in its unfocused style, but the scrollbar, and gives no position for the terminal cursor. -/
theorem C58_unfocused (cw : Char → Nat) (ops : List FieldStyleOp) {f : InputField} (hf : f.focused = false)
    {rows : List (Nat × Nat × List Piece)} {cur : Option (Nat × Nat)} (h : (styledBy ops).displayOn cw f = some (rows, cur)) :
    cur = none ∧ ∀ row ∈ rows, ∀ p ∈ row.2.2, p.1 = unfocusedStyle ops ∨
      p = ({ fg := some (gray 21) }, ['▐']) ∨ p = ({ fg := some (gray 5) }, ['▐']) := by
  cases hd : f.displayOn cw ('▐', '▐') with
  | none => rw [(C58_cells cw ops f).1 hd] at h; cases h
  | some r =>
    obtain ⟨cells, cur'⟩ := r
    obtain ⟨rows', e, hlen, hr⟩ := (C58_cells cw ops f).2 cells cur' hd
    rw [h] at e
    cases e
    have hu := displayOn_unfocused cw _ hf hd
    refine ⟨hu.1, ?_⟩
    intro row hrow p hp
    obtain ⟨j, hj, hrj⟩ := List.getElem_of_mem hrow
    have hj' : j < cells.length := by omega
    obtain ⟨pieces, e1, e2, e3⟩ := hr j cells[j] (List.getElem?_eq_getElem hj')
    rw [List.getElem?_eq_getElem hj, hrj] at e1
    cases e1
    obtain ⟨k, hk, hpk⟩ := List.getElem_of_mem hp
    have hk' : k < cells[j].pieces.length := by
      have : k < pieces.length := hk
      omega
    have hmem := List.getElem_mem hk'
    obtain ⟨style, g1, g2⟩ := e3 k cells[j].pieces[k].1 cells[j].pieces[k].2 (List.getElem?_eq_getElem hk')
    have hpk' : pieces[k]? = some p := by rw [← hpk]; exact List.getElem?_eq_getElem hk
    rw [hpk'] at g1
    have hbar : ∀ q ∈ cells[j].pieces, (q.1 = .thumb → q.2 = ['▐']) ∧ (q.1 = .track → q.2 = ['▐']) := by
      have h' := hd
      unfold InputField.displayOn at h'
      simp only [Option.bind_eq_bind, Option.bind_eq_some_iff] at h'
      obtain ⟨sb, _, w, _, h'⟩ := h'
      exact drawRows_bar cw ('▐', '▐') sb _ _ _ _ _ (fun j cur d hd => drawRow_text cw f hd) h' _ (List.getElem_mem hj')
    have hb := hbar _ hmem
    injection g1 with g1
    rw [g1]
    rw [hf] at g2
    generalize cells[j].pieces[k] = q at *
    obtain ⟨st, t⟩ := q
    cases st with
    | normal => left; exact g2
    | cursor => cases g2.1
    | thumb => right; left; rw [hb.1 rfl, show style = _ from g2]; rfl
    | track => right; right; rw [hb.2 rfl, show style = _ from g2]; rfl

/-- An unfocused field with a style, a scrollbar and an empty row at the end of a line. -/
example : (styledBy [.setUnfocusedStyle { fg := some .red }]).displayOn (fun _ => 1)
      { area := ⟨2, 3, 3, 2⟩, focused := false, content := ⟨⟨0, 0⟩, none, ["ab".toList, [], [], [], [], []]⟩ } =
    some ([(2, 3, [({ fg := some .red }, ['a']), ({ fg := some .red }, ['b']), ({ fg := some (gray 21) }, ['▐'])]),
      (2, 4, [({ fg := some .red }, [' ']), ({ fg := some .red }, [' ']), ({ fg := some (gray 5) }, ['▐'])])], none) := rfl

/-- In the cells of a style without Reverse, those of the cursor are those with it. -/
theorem cellStyled_reverse {ops : List FieldStyleOp} (hr : (normalStyle ops).hasAttr .reverse = false) {style : CompoundStyle}
    {st : CellStyle} (h : CellStyled ops true style st) : style.hasAttr .reverse = true ↔ st = .cursor := by
  cases st with
  | normal => rw [show style = normalStyle ops from h, hr]; simp
  | cursor => simp [(h.2.2.2.2 .reverse).2 (.inl rfl)]
  | thumb => rw [show style = _ from h]; simp [CompoundStyle.hasAttr, Attrs.has_eq]
  | track => rw [show style = _ from h]; simp [CompoundStyle.hasAttr, Attrs.has_eq]

/-- C58: a focused field whose normal style hasn't the Reverse attribute and without wide selection has, when the cursor is in the
displayed rows and columns, exactly one reversed piece: the character of the cursor, in the row of the returned position. -/
theorem C58_cursor (cw : Char → Nat) (hs : cw ' ' = 1) (he : cw '…' = 1) (ops : List FieldStyleOp)
    (hr : (normalStyle ops).hasAttr .reverse = false) {f : InputField} (hv : f.content.Valid)
    (ho : OnScreen f.area) (hn : f.content.lines.length < 65536) (hy : f.area.top + f.area.height + f.scroll.y + 1 < 65536)
    (hf : f.focused = true) (hns : f.content.hasWideSelection = false) (hrow : f.RowVisible) (hcol : f.ColVisible cw)
    (h1 : 1 ≤ f.textCols)
    (hpw : f.passwordMode = true → ∀ l ∈ f.content.lines, ∀ c ∈ l, inputCols cw [c] = cw '*') :
    ∃ rows x y before style ch after, (styledBy ops).displayOn cw f = some (rows, some (x, y)) ∧
      rows[f.content.pos.y - f.scroll.y]? = some (f.area.left, y, before ++ (style, [ch]) :: after) ∧
      style.hasAttr .reverse = true ∧ (∀ p ∈ before ++ after, p.1.hasAttr .reverse = false) ∧
      (∀ k row, k ≠ f.content.pos.y - f.scroll.y → rows[k]? = some row → ∀ p ∈ row.2.2, p.1.hasAttr .reverse = false) ∧
      (ch = '…' ∨ ch = ((f.content.lines[f.content.pos.y]?.getD [])[f.content.pos.x]?.map f.shown).getD ' ') := by
  obtain ⟨cells, x, row, before, ch, after, g1, g2, g3, g4, g5, g6, g7, _, _, _⟩ :=
    C26_drawn cw hs he ('▐', '▐') hv ho hn hy hf hns hrow hcol h1 hpw
  obtain ⟨rows, e1, e2, e3⟩ := (C58_cells cw ops f).2 _ _ g1
  rw [hf] at e3
  obtain ⟨pieces, p1, p2, p3⟩ := e3 _ _ g2
  have hx : row.x = f.area.left := by
    obtain ⟨sb, _, s2⟩ := displayOn_ok cw ('▐', '▐') h1 hn hy
    have htc : f.textCols ≤ f.area.width := by unfold textCols; split <;> omega
    obtain ⟨rows', cur', k1, k2, k3, k4⟩ := drawRows_ok cw hs he ('▐', '▐') (f := f) (w := f.textCols) sb
      (by have := ho.1; omega) h1 f.area.height 0 none (by have := ho.2; omega)
    rw [s2, k1] at g1
    cases g1
    exact (k3 _ _ g2).1
  have hlen : before.length < pieces.length := by rw [p2, g3]; simp
  obtain ⟨style, q1, q2⟩ := p3 before.length .cursor [ch] (by rw [g3]; simp)
  have hsplit : pieces = pieces.take before.length ++ (style, [ch]) :: pieces.drop (before.length + 1) := by
    rw [List.getElem?_eq_getElem hlen] at q1
    injection q1 with q1
    rw [← q1, ← List.drop_eq_getElem_cons hlen, List.take_append_drop]
  have hno : ∀ k p, k ≠ before.length → pieces[k]? = some p → p.1.hasAttr .reverse = false := by
    intro k p hk hp
    have hkl : k < row.pieces.length := by
      have := (List.getElem?_eq_some_iff.1 hp).1
      omega
    obtain ⟨style', a, b⟩ := p3 k row.pieces[k].1 row.pieces[k].2 (List.getElem?_eq_getElem hkl)
    rw [hp] at a
    injection a with a
    subst a
    have hc := cellStyled_reverse hr b
    have hm : row.pieces[k] ∈ before ++ after := by
      have h' : row.pieces[k]? = some row.pieces[k] := List.getElem?_eq_getElem hkl
      generalize row.pieces[k] = q at h'
      rw [g3] at h'
      rw [List.mem_append]
      by_cases hlt : k < before.length
      · rw [List.getElem?_append_left hlt] at h'
        exact .inl (List.mem_of_getElem? h')
      · rw [List.getElem?_append_right (by omega)] at h'
        obtain ⟨m, hm⟩ : ∃ m, k - before.length = m + 1 := ⟨k - before.length - 1, by omega⟩
        rw [hm, List.getElem?_cons_succ] at h'
        exact .inr (List.mem_of_getElem? h')
    have := g4 _ hm
    exact Bool.eq_false_iff.2 (fun h => this (hc.1 h))
  refine ⟨rows, x, row.y, pieces.take before.length, style, ch, pieces.drop (before.length + 1), e1, ?_, ?_, ?_, ?_, g6⟩
  · rw [p1, hx, ← hsplit]
  · exact (cellStyled_reverse hr q2).2 rfl
  · intro p hp
    rcases List.mem_append.1 hp with h | h
    · obtain ⟨k, hk, hkp⟩ := List.getElem_of_mem h
      have hk' : k < before.length := by rw [List.length_take] at hk; omega
      refine hno k p (by omega) ?_
      rw [← hkp, List.getElem_take, List.getElem?_eq_getElem]
    · obtain ⟨k, hk, hkp⟩ := List.getElem_of_mem h
      refine hno (before.length + 1 + k) p (by omega) ?_
      rw [← hkp, List.getElem_drop, List.getElem?_eq_getElem]
  · intro k other hk ho p hp
    have hkc : k < cells.length := by rw [← e2]; exact (List.getElem?_eq_some_iff.1 ho).1
    obtain ⟨pieces', r1, r2, r3⟩ := e3 k cells[k] (List.getElem?_eq_getElem hkc)
    rw [ho] at r1
    cases r1
    obtain ⟨i, hi, hip⟩ := List.getElem_of_mem hp
    have hi' : i < cells[k].pieces.length := by rw [← r2]; exact hi
    obtain ⟨style', a, b⟩ := r3 i cells[k].pieces[i].1 cells[k].pieces[i].2 (List.getElem?_eq_getElem hi')
    have hpi : pieces'[i]? = some p := by rw [← hip]; exact List.getElem?_eq_getElem hi
    rw [hpi] at a
    injection a with a
    subst a
    have hc := cellStyled_reverse hr b
    have := g5 k cells[k] hk (List.getElem?_eq_getElem hkc) _ (List.getElem_mem hi')
    exact Bool.eq_false_iff.2 (fun h => this (hc.1 h))

/-- A focused field with a background: the cursor at the end of the text, the scrollbar on the background of the field. -/
example : (styledBy [.setNormalStyle { fg := some .red }, .setNormalStyle { bg := some .blue }, .setUnfocusedStyle { fg := some .red }]).displayOn
      (fun _ => 1) { area := ⟨2, 3, 4, 1⟩, scroll := ⟨1, 0⟩, content := ⟨⟨1, 1⟩, none, ["ab".toList, "c".toList]⟩ } =
    some ([(2, 3, [({ bg := some .blue }, ['c']), (({ bg := some .blue } : CompoundStyle).addAttr .reverse, [' ']),
      ({ bg := some .blue }, [' ']), ({ fg := some (gray 5), bg := some .blue }, ['▐'])])], some (3, 3)) := rfl

/-- C58: when the normal style has the Reverse attribute, the cursor can't be seen: it's drawn as the other cells. -/
theorem C58_reversed_counterexample : ∃ (s : CompoundStyle) (f : InputField), s.hasAttr .reverse = true ∧ f.focused = true ∧
    (styledBy [.setNormalStyle s]).displayOn (fun _ => 1) f = some ([(0, 0, [(s, ['a']), (s, [' ']), (s, [' '])])], some (1, 0)) :=
  ⟨CompoundStyle.withAttr .reverse, { area := ⟨0, 0, 3, 1⟩, content := ⟨⟨0, 1⟩, none, ["a".toList]⟩ }, by decide, rfl, rfl⟩

end Verif.Props

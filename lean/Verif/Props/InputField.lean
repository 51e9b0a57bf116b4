import Verif.Lemmas.InputField3
/-! Properties C26 (cursor visible), C27 (display of input fields), C45 (events of input fields) and C46 (clicks). -/
namespace Verif.Props
open Verif InputField Content Spec

/-- A field of two rows, scrolled, with the cursor on its first row. -/
private def scrolled : InputField :=
  { area := ⟨2, 3, 10, 2⟩, scroll := ⟨2, 0⟩, content := ⟨⟨2, 1⟩, none, ["ab".toList, "cd".toList, "ef".toList, "g".toList]⟩ }

private theorem scrolled_valid : scrolled.content.Valid := ⟨by decide, ⟨_, rfl, by decide⟩, by simp [scrolled], by simp [scrolled, NotStored]⟩

private theorem scrolled_onScreen : OnScreen scrolled.area := by unfold OnScreen; decide

/-- A field of one line, longer than the field. -/
private def oneLine : InputField :=
  { area := ⟨2, 3, 5, 1⟩, scroll := ⟨0, 3⟩, content := ⟨⟨0, 5⟩, none, ["abcdefghij".toList]⟩ }

private theorem oneLine_valid : oneLine.content.Valid := ⟨by decide, ⟨_, rfl, by decide⟩, by simp [oneLine], by simp [oneLine, NotStored]⟩

private theorem oneLine_onScreen : OnScreen oneLine.area := by unfold OnScreen; decide

private theorem inArea_scrolled : InArea scrolled.area 4 4 := ⟨2, 1, by decide⟩

/-! ## C26 -/

/-- C26: after an operation adjusting the scroll, there's no empty row while there are more lines than rows; in a focused
field, the column of the cursor is displayed, with two more columns at its left if the line is scrolled and one more at its right if there's one (if there
are at least 4 columns for the text), and its row is displayed, unless
the cursor is below the rows which were displayed before and isn't on the last line, in which case it's in the next row
after the displayed ones. The horizontal scroll isn't used for a line which fits, and shows at most one column after the end of a
longer one; and with less than 4 columns, the cursor is in the displayed columns or just after the last one, and the character at its left is
displayed if the line is scrolled (when all characters of the line have one column). -/
theorem C26_adjusted (cw : Char → Nat) (alnum : Char → Bool) {f f' : InputField} (hv : f.content.Valid) (hw : 1 ≤ f.area.width)
    (ho : OnScreen f.area) (op : FieldOp) (ha : op.Allowed f) (hadj : op.Adjusts f) (h : op.exec cw alnum f = some (f', true)) :
    (f'.content.lines.length ≤ f'.area.height → f'.scroll.y = 0) ∧
    (f'.area.height < f'.content.lines.length → f'.scroll.y + f'.area.height ≤ f'.content.lines.length) ∧
    (f'.focused = true → 4 ≤ f'.textCols → f'.ColVisible cw ∧ f'.ColAfter cw) ∧
    (f'.focused = true → 1 ≤ f'.area.height → f'.content.pos.y + 1 = f'.content.lines.length → f'.RowVisible) ∧
    (f'.focused = true → 1 ≤ f'.area.height → f'.content.pos.y < f.scroll.y + f'.area.height → f'.RowVisible) ∧
    (f'.focused = true → 1 ≤ f'.area.height →
      f'.RowVisible ∨ f'.content.pos.y = f'.scroll.y + f'.area.height) ∧
    f'.ColsFull cw ∧
    (f'.focused = true → 1 ≤ f'.textCols → (∀ c ∈ f'.cursorLine, inputCols cw [c] = 1) → f'.ColNear) := by
  obtain ⟨g, b, h1, h2, h3⟩ := fieldOp_ok cw alnum ⟨hv, hw, ho⟩ op ha
  rw [h] at h1
  cases h1
  obtain ⟨a1, a2, a3, a4, a5, _⟩ := h3 rfl hadj
  refine ⟨a1.1, fun h => a1.2 (by omega), a3, ?_, ?_, ?_, a4, a5⟩
  · intro hf hh hl
    rcases a2 hf hh with h | h
    · exact h
    · omega
  · intro hf hh hl
    rcases a2 hf hh with h | h
    · exact h
    · omega
  · intro hf hh
    rcases a2 hf hh with h | h
    · exact .inl h
    · exact .inr h.1

/-- Concrete case. -/
example := C26_adjusted (fun _ => 1) (fun _ => true) scrolled_valid (by decide) scrolled_onScreen (.wrapped .moveUp) trivial trivial rfl

/-- C26: how the rows follow the cursor. They move only if it's needed: not at all if the cursor is in the displayed ones (and there's no empty row), up to
the row of the cursor (the one before with more than 4 rows), or down to it, if it's on the last line, or to the row before it. -/
theorem C26_rows (cw : Char → Nat) (alnum : Char → Bool) {f f' : InputField} (hv : f.content.Valid) (hw : 1 ≤ f.area.width)
    (ho : OnScreen f.area) (op : FieldOp) (ha : op.Allowed f) (hadj : op.Adjusts f) (h : op.exec cw alnum f = some (f', true)) :
    f'.RowsFollow f.scroll.y := by
  obtain ⟨g, b, h1, h2, h3⟩ := fieldOp_ok cw alnum ⟨hv, hw, ho⟩ op ha
  rw [h] at h1
  cases h1
  exact (h3 rfl hadj).2.2.2.2.2.1

/-- C26: the hypotheses are met by a move up in a scrolled field. -/
example : ∃ f f' : InputField, f.content.Valid ∧ (FieldOp.wrapped .moveUp).exec (fun _ => 1) (fun _ => true) f = some (f', true) ∧
    f'.scroll.y = 1 ∧ f'.content.pos.y = 1 := by
  refine ⟨{ area := ⟨2, 3, 10, 2⟩, scroll := ⟨2, 0⟩, content := ⟨⟨2, 1⟩, none, ["ab".toList, "cd".toList, "ef".toList, "g".toList]⟩ }, _,
    ⟨by decide, ⟨_, rfl, by decide⟩, by simp, by simp [NotStored]⟩, rfl, by decide, by decide⟩

/-- C26: how the columns follow the cursor, in a line too long to be displayed (in at least 4 columns). They move only if it's needed: not at all if there
are two columns before the cursor and one after it, to the left to have exactly two columns before it, to the right to have exactly one after it; and at most
one column is displayed after the end of the line. -/
theorem C26_cols (cw : Char → Nat) (alnum : Char → Bool) {f f' : InputField} (hv : f.content.Valid) (hw : 1 ≤ f.area.width)
    (ho : OnScreen f.area) (op : FieldOp) (ha : op.Allowed f) (hadj : op.Adjusts f) (h : op.exec cw alnum f = some (f', true)) :
    f'.ColsFollow cw f.scroll.x := by
  obtain ⟨g, b, h1, h2, h3⟩ := fieldOp_ok cw alnum ⟨hv, hw, ho⟩ op ha
  rw [h] at h1
  cases h1
  exact (h3 rfl hadj).2.2.2.2.2.2

/-- C26: the hypotheses are met by a move to the left at the start of the displayed columns of a scrolled line. -/
example : ∃ f f' : InputField, f.content.Valid ∧ (FieldOp.wrapped .moveLeft).exec (fun _ => 1) (fun _ => true) f = some (f', true) ∧
    f'.textCols ≤ inputCols (fun _ => 1) f'.cursorLine ∧ f.scroll.x = 3 ∧ f'.scroll.x = 2 ∧ f'.content.pos.x = 4 := by
  refine ⟨{ area := ⟨2, 3, 5, 1⟩, scroll := ⟨0, 3⟩, content := ⟨⟨0, 5⟩, none, ["abcdefghij".toList]⟩ }, _,
    ⟨by decide, ⟨_, rfl, by decide⟩, by simp, by simp [NotStored]⟩, rfl, by decide, by decide, by decide, by decide⟩

/-- C26: a single-line field without scrollbar, as most are: the cursor stays visible. -/
theorem C26_single_line (cw : Char → Nat) (alnum : Char → Bool) {f f' : InputField} (hv : f.content.Valid)
    (ho : OnScreen f.area) (op : FieldOp) (ha : op.Allowed f) (hadj : op.Adjusts f) (h : op.exec cw alnum f = some (f', true))
    (h4 : 1 ≤ f.area.width) (h4' : 4 ≤ f'.area.width) (hf : f'.focused = true) (hh : 1 ≤ f'.area.height) (hl : f'.content.lines.length = 1) :
    f'.RowVisible ∧ f'.ColVisible cw := by
  obtain ⟨g, b, h1, h2, h3⟩ := fieldOp_ok cw alnum ⟨hv, h4, ho⟩ op ha
  rw [h] at h1
  cases h1
  have ht : f'.textCols = f'.area.width := by unfold textCols; rw [if_neg (by omega)]
  have := C26_adjusted cw alnum hv h4 ho op ha hadj h
  obtain ⟨l, hp1, _⟩ := h2.1.pos
  obtain ⟨hlt, _⟩ := List.getElem?_eq_some_iff.1 hp1
  exact ⟨this.2.2.2.1 hf hh (by omega), (this.2.2.1 hf (by omega)).1⟩

/-- Concrete case. -/
example := C26_single_line (fun _ => 1) (fun _ => true) oneLine_valid oneLine_onScreen (.wrapped .moveLeft) trivial trivial rfl (by decide) (by decide) (by decide) (by decide) (by decide)

/-- C26: the exception is real: with the `Down` key, the cursor gets out of the displayed rows. -/
theorem C26_row_counterexample : ∃ f f' : InputField, ReachableField (fun _ => 1) (fun _ => true) f ∧ f.RowVisible ∧
    f.applyKeycodeEvent (fun _ => 1) .down false = some (f', true) ∧ ¬ f'.RowVisible ∧ f'.content.pos.y + 1 < f'.content.lines.length := by
  have r0 : ReachableField (fun _ => 1) (fun _ => true) (InputField.new ⟨0, 0, 10, 2⟩) := .init _ (by decide) (by unfold OnScreen; decide)
  have r1 : ReachableField (fun _ => 1) (fun _ => true)
      { area := ⟨0, 0, 10, 2⟩, content := ⟨⟨3, 0⟩, none, [[], [], [], []]⟩, scroll := ⟨2, 0⟩ } :=
    .step (.insertStr "\n\n\n".toList) (b := true) r0 trivial (by decide)
  have r2 : ReachableField (fun _ => 1) (fun _ => true)
      { area := ⟨0, 0, 10, 2⟩, content := ⟨⟨0, 0⟩, none, [[], [], [], []]⟩, scroll := ⟨0, 0⟩ } :=
    .step (.wrapped .moveToStart) (b := true) r1 trivial (by decide)
  have r3 : ReachableField (fun _ => 1) (fun _ => true)
      { area := ⟨0, 0, 10, 2⟩, content := ⟨⟨1, 0⟩, none, [[], [], [], []]⟩, scroll := ⟨0, 0⟩ } :=
    .step (.wrapped .moveDown) (b := true) r2 trivial (by decide)
  refine ⟨_, { area := ⟨0, 0, 10, 2⟩, content := ⟨⟨2, 0⟩, none, [[], [], [], []]⟩, scroll := ⟨0, 0⟩ }, r3, ?_, by decide, ?_, by decide⟩
  · unfold RowVisible; decide
  · unfold RowVisible; decide

/-- C26: with less than 4 columns, the cursor may be out of the displayed columns. -/
theorem C26_narrow_counterexample : ∃ f f' : InputField, ReachableField (fun _ => 1) (fun _ => true) f ∧ f.focused = true ∧
    f.applyKeycodeEvent (fun _ => 1) .right false = some (f', true) ∧ f'.textCols = 3 ∧ ¬ f'.ColVisible (fun _ => 1) ∧
    f'.scroll.x + f'.textCols = f'.cursorCol (fun _ => 1) := by
  have r0 : ReachableField (fun _ => 1) (fun _ => true) (InputField.new ⟨0, 0, 3, 1⟩) := .init _ (by decide) (by unfold OnScreen; decide)
  have r1 : ReachableField (fun _ => 1) (fun _ => true)
      { area := ⟨0, 0, 3, 1⟩, content := ⟨⟨0, 5⟩, none, ["abcde".toList]⟩, scroll := ⟨0, 3⟩ } :=
    .step (.insertStr "abcde".toList) (b := true) r0 trivial (by decide)
  have r2 : ReachableField (fun _ => 1) (fun _ => true)
      { area := ⟨0, 0, 3, 1⟩, content := ⟨⟨0, 0⟩, none, ["abcde".toList]⟩, scroll := ⟨0, 0⟩ } :=
    .step (.wrapped .moveToStart) (b := true) r1 trivial (by decide)
  have r3 : ReachableField (fun _ => 1) (fun _ => true)
      { area := ⟨0, 0, 3, 1⟩, content := ⟨⟨0, 1⟩, none, ["abcde".toList]⟩, scroll := ⟨0, 0⟩ } :=
    .step (.wrapped .moveRight) (b := true) r2 trivial (by decide)
  have r4 : ReachableField (fun _ => 1) (fun _ => true)
      { area := ⟨0, 0, 3, 1⟩, content := ⟨⟨0, 2⟩, none, ["abcde".toList]⟩, scroll := ⟨0, 0⟩ } :=
    .step (.wrapped .moveRight) (b := true) r3 trivial (by decide)
  refine ⟨_, { area := ⟨0, 0, 3, 1⟩, content := ⟨⟨0, 3⟩, none, ["abcde".toList]⟩, scroll := ⟨0, 0⟩ }, r4, rfl, by decide, by decide, ?_,
    by decide⟩
  unfold ColVisible; decide

/-- C26: the `Backspace` key doesn't adjust the scroll: after the removal of several lines, nothing of the content may be in the
displayed rows. -/
theorem C26_backspace_counterexample : ∃ f f' : InputField, ReachableField (fun _ => 1) (fun _ => true) f ∧ f.RowVisible ∧
    f.applyKeycodeEvent (fun _ => 1) .backspace false = some (f', true) ∧ f'.content.lines.length ≤ f'.scroll.y := by
  have r0 : ReachableField (fun _ => 1) (fun _ => true) (InputField.new ⟨0, 0, 10, 1⟩) := .init _ (by decide) (by unfold OnScreen; decide)
  have r1 : ReachableField (fun _ => 1) (fun _ => true)
      { area := ⟨0, 0, 10, 1⟩, content := ⟨⟨2, 0⟩, none, [[], [], []]⟩, scroll := ⟨2, 0⟩ } :=
    .step (.insertStr "\n\n".toList) (b := true) r0 trivial (by decide)
  have r2 : ReachableField (fun _ => 1) (fun _ => true)
      { area := ⟨0, 0, 10, 1⟩, content := ⟨⟨0, 0⟩, none, [[], [], []]⟩, scroll := ⟨0, 0⟩ } :=
    .step (.wrapped .moveToStart) (b := true) r1 trivial (by decide)
  have r3 : ReachableField (fun _ => 1) (fun _ => true)
      { area := ⟨0, 0, 10, 1⟩, content := ⟨⟨1, 0⟩, some ⟨0, 0⟩, [[], [], []]⟩, scroll := ⟨0, 0⟩ } :=
    .step (.keycode .down true) (b := true) r2 trivial (by decide)
  have r4 : ReachableField (fun _ => 1) (fun _ => true)
      { area := ⟨0, 0, 10, 1⟩, content := ⟨⟨2, 0⟩, some ⟨0, 0⟩, [[], [], []]⟩, scroll := ⟨2, 0⟩ } :=
    .step (.keycode .down true) (b := true) r3 trivial (by decide)
  refine ⟨_, { area := ⟨0, 0, 10, 1⟩, content := ⟨⟨0, 0⟩, none, [[]]⟩, scroll := ⟨2, 0⟩ }, r4, ?_, by decide, by decide⟩
  unfold RowVisible; decide

/-- C26: what it means to be visible. When the row and the column of the cursor are in the displayed ones, the row of the
cursor is written with exactly one piece in the style of the cursor: the character under the cursor (or an ellipsis, or a space
at the end of the line); the other rows have none. The returned position is the one of this piece, as long as
the row doesn't start with an ellipsis. There must be no wide selection, and in password mode characters must have the same
width as the stars. -/
theorem C26_drawn (cw : Char → Nat) (hs : cw ' ' = 1) (he : cw '…' = 1) (bar : Char × Char) {f : InputField} (hv : f.content.Valid)
    (ho : OnScreen f.area) (hn : f.content.lines.length < 65536) (hy : f.area.top + f.area.height + f.scroll.y + 1 < 65536)
    (hf : f.focused = true) (hns : f.content.hasWideSelection = false) (hrow : f.RowVisible) (hcol : f.ColVisible cw)
    (h1 : 1 ≤ f.textCols)
    (hpw : f.passwordMode = true → ∀ l ∈ f.content.lines, ∀ c ∈ l, inputCols cw [c] = cw '*') :
    ∃ rows x row before ch after, f.displayOn cw bar = some (rows, some (x, row.y)) ∧
      rows[f.content.pos.y - f.scroll.y]? = some row ∧ row.pieces = before ++ (.cursor, [ch]) :: after ∧
      (∀ p ∈ before ++ after, p.1 ≠ .cursor) ∧
      (∀ (k : Nat) (other : Row), k ≠ f.content.pos.y - f.scroll.y → rows[k]? = some other → ∀ p ∈ other.pieces, p.1 ≠ .cursor) ∧
      (ch = '…' ∨ ch = ((f.content.lines[f.content.pos.y]?.getD [])[f.content.pos.x]?.map f.shown).getD ' ') ∧
      row.y = f.area.top + (f.content.pos.y - f.scroll.y) ∧
      inputCols cw (cellsText before) < f.textCols ∧
      (f.scroll.x = 0 ∨ f.textCols ≤ 4 → x = f.area.left + inputCols cw (cellsText before)) ∧
      (0 < f.scroll.x ∧ 4 < f.textCols → x + 1 = f.area.left + inputCols cw (cellsText before)) := by
  obtain ⟨l, hl1, hl2⟩ := hv.pos
  obtain ⟨r1, r2⟩ := hrow
  obtain ⟨c1, c2⟩ := hcol
  obtain ⟨sb, s1, s2⟩ := displayOn_ok cw bar h1 hn hy
  have htc : f.textCols ≤ f.area.width := by unfold textCols; split <;> omega
  have hl : f.area.left + f.textCols < 65536 := by have := ho.1; omega
  have hlc := leftPieces_cols cw he f f.textCols
  generalize ht : f.content.pos.y - f.scroll.y = t at *
  have htop : ∀ i, i ≤ f.area.height → f.area.top + i < 65536 := by intro i hi; have := ho.2; omega
  have hshown : (l.take f.content.pos.x).map f.shown = (l.take f.content.pos.x).map f.shown ∧
      inputCols cw ((l.take f.content.pos.x).map f.shown) = f.cursorCol cw := by
    refine ⟨rfl, ?_⟩
    unfold cursorCol
    rw [hl1, Option.getD_some]
    by_cases hp : f.passwordMode = true
    · have hw : ∀ q : Text, (∀ c ∈ q, c ∈ l) → inputCols cw (q.map f.shown) = inputCols cw q := by
        intro q
        induction q with
        | nil => intro _; rfl
        | cons c q ih =>
          intro hq
          have h3 := hpw hp l (List.mem_of_getElem? hl1) c (hq c (by simp))
          rw [inputCols_cons, inputCols_nil, Nat.add_zero] at h3
          rw [List.map_cons, inputCols_cons, inputCols_cons, ih (fun c h => hq c (by simp [h])), h3]
          simp [shown, hp, inputCharWidth]
      exact hw _ (fun c hc => List.mem_of_mem_take hc)
    · have : f.shown = id := by funext c; simp [shown, hp]
      rw [this, List.map_id]
  have hle : leftCols f f.textCols ≤ 1 := by unfold leftCols; split <;> omega
  have hle0 : f.scroll.x = 0 → leftCols f f.textCols = 0 := by intro h; unfold leftCols; rw [if_neg (by omega)]
  -- the rows
  have hcur : ∀ c0, ∃ before ch after wd k, f.drawRow cw f.textCols t c0 =
      some ⟨leftPieces f f.textCols ++ before ++ (.cursor, [ch]) :: after, wd, some (f.area.left + k, f.area.top + t)⟩ ∧
      k = inputCols cw (cellsText before) ∧ k < f.textCols - leftCols f f.textCols ∧
      (∀ p ∈ before, p.1 = .normal) ∧ (∀ p ∈ after, p.1 = .normal) ∧
      (ch = '…' ∨ ch = (l[f.content.pos.x]?.map f.shown).getD ' ') := by
    intro c0
    have hyt : f.scroll.y + t = f.content.pos.y := by omega
    unfold drawRow
    rw [hyt, hl1]
    exact drawLine_cursor cw c0 hs he hf hl (htop t (by omega)) h1 hns hl2
      (by rw [hshown.2]; rcases c1 with c1 | c1
          · have := hle0 c1; omega
          · omega) (by rw [hshown.2]; exact c2)
  have hother : ∀ i, i < f.area.height → i ≠ t → ∀ c0 r, f.drawRow cw f.textCols i c0 = some r →
      r.cursor = c0 ∧ ∀ p ∈ r.pieces, p.1 = .normal := by
    intro i hi hne c0 r hr
    unfold drawRow at hr
    split at hr
    · exact drawLine_nocursor cw hs he hl (htop i (by omega)) h1 hns (by omega) hr
    · obtain ⟨r', k1, _, k3, k4⟩ := drawEmpty_ok f.textCols c0
      rw [k1] at hr
      cases hr
      exact ⟨k4, k3⟩
  have hbar : ∀ y, ∀ p ∈ drawBar bar sb y, p.1 ≠ .cursor := by
    intro y p hp
    unfold drawBar at hp
    split at hp
    · split at hp <;> (simp only [List.mem_singleton] at hp; subst hp; simp)
    · simp at hp
  obtain ⟨rows, cur', g1, g2, g3, _⟩ := drawRows_ok cw hs he bar (f := f) (w := f.textCols) sb hl h1 f.area.height 0 none
    (by have := ho.2; omega)
  obtain ⟨b0, ch0, a0, wd0, k0, e1, e2, e3, e4, e5, e6⟩ := hcur none
  have hcur' := drawRows_cursor cw bar (f := f) (w := f.textCols) sb (f.area.left + k0, f.area.top + t) t f.area.height 0 none rows cur'
    (by
      intro i _ hi c0 r hr
      by_cases h : i = t
      · subst h
        rw [if_pos rfl]
        -- the column of the cursor doesn't depend on the previous position
        have hind := drawRow_cur cw f f.textCols i c0 none
        rw [hr, e1] at hind
        simp only [Option.map_some, Option.some.injEq, Prod.mk.injEq] at hind
        obtain ⟨b1, ch1, a1, wd1, k1, i1, i2, _, i4, _, _⟩ := hcur c0
        rw [hr] at i1
        cases i1
        have hb : b1 = b0 := first_cursor (by
          intro p hp
          exact by rw [i4 p hp]; simp) (by
          intro p hp
          exact by rw [e4 p hp]; simp) (List.append_cancel_left (by
            have := hind.1
            simpa only [List.append_assoc] using this))
        rw [hb] at i2
        simp only [i2, e2]
      · rw [if_neg h]
        exact (hother i (by omega) h c0 r hr).1) g1
  rw [if_pos ⟨by omega, by omega⟩] at hcur'
  rw [s2, g1, hcur']
  have hrt : t < rows.length := by omega
  have hget : rows[t]? = some rows[t] := List.getElem?_eq_getElem hrt
  obtain ⟨q1, q2, c0, r, q3, q4⟩ := g3 t _ hget
  rw [Nat.zero_add] at q2 q3
  obtain ⟨b1, ch1, a1, wd1, k1, i1, i2, i3, i4, i5, i6⟩ := hcur c0
  have hind := drawRow_cur cw f f.textCols t c0 none
  rw [i1, e1] at hind
  simp only [Option.map_some, Option.some.injEq, Prod.mk.injEq] at hind
  have hb : b1 = b0 := first_cursor (by
    intro p hp
    exact by rw [i4 p hp]; simp) (by
    intro p hp
    exact by rw [e4 p hp]; simp) (List.append_cancel_left (by
      have := hind.1
      simpa only [List.append_assoc] using this))
  rw [i1] at q3
  cases q3
  have hk : k0 = k1 := by rw [e2, i2, hb]
  refine ⟨rows, f.area.left + k0, rows[t], leftPieces f f.textCols ++ b1, ch1, a1 ++ drawBar bar sb rows[t].y, by rw [q2], hget,
    by rw [q4]; simp, ?_, ?_, ?_, q2, ?_, ?_, ?_⟩
  · simp only [List.mem_append]
    rintro p ((h | h) | (h | h))
    · rw [leftPieces_normal f _ p h]; simp
    · rw [i4 p h]; simp
    · rw [i5 p h]; simp
    · exact hbar _ p h
  · intro k other hk hget' p hp
    obtain ⟨_, _, c0', r', w1, w2⟩ := g3 k other hget'
    rw [Nat.zero_add] at w1
    have hkl : k < rows.length := by
      have := List.getElem?_eq_some_iff.1 hget'
      obtain ⟨h, _⟩ := this
      exact h
    have := hother k (by omega) hk c0' r' w1
    rw [w2, List.mem_append] at hp
    rcases hp with hp | hp
    · rw [this.2 p hp]; simp
    · exact hbar _ p hp
  · rw [hl1]; exact i6
  · rw [cellsText_append, inputCols_append, hlc, ← i2]; omega
  · intro h
    have : leftCols f f.textCols = 0 := by unfold leftCols; rw [if_neg (by omega)]
    rw [cellsText_append, inputCols_append, hlc, ← i2, hk]; omega
  · intro h
    have : leftCols f f.textCols = 1 := by unfold leftCols; rw [if_pos (by omega)]
    rw [cellsText_append, inputCols_append, hlc, ← i2, hk]; omega

example : ∃ f : InputField, f.content.Valid ∧ OnScreen f.area ∧ f.focused = true ∧ f.content.hasWideSelection = false ∧ f.RowVisible ∧
    f.ColVisible (fun _ => 1) ∧ 0 < f.scroll.x ∧ 0 < f.scroll.y ∧ 4 < f.textCols ∧ f.passwordMode = true := by
  refine ⟨{ area := ⟨2, 3, 7, 2⟩, scroll := ⟨1, 2⟩, passwordMode := true, content := ⟨⟨2, 5⟩, none, [[], [], "abcdefghij".toList, []]⟩ },
    ⟨by decide, ⟨_, rfl, by decide⟩, by simp, by simp [NotStored]⟩, ?_, rfl, by decide, ?_, ?_, by decide, by decide, by decide, rfl⟩
  · unfold OnScreen; decide
  · unfold RowVisible; decide
  · unfold ColVisible; decide

/-! ## C27 -/

private theorem inputCols_noTab (cw : Char → Nat) (t : Text) (h : '\t' ∉ t) : inputCols cw t = textWidth cw t := by
  induction t with
  | nil => rfl
  | cons c t ih =>
    simp only [List.mem_cons, not_or] at h
    rw [inputCols_cons, ih h.2, textWidth, inputCharWidth, if_neg (fun e => h.1 e.symm)]

/-- C27: the display doesn't panic; it's made of one write per row of the area, from the first column of the area, and which
takes exactly the columns of the area; the returned position is in the area. Lines must have no tab, unless they're hidden. -/
theorem C27_rows (cw : Char → Nat) (hs : cw ' ' = 1) (he : cw '…' = 1) (bar : Char × Char) (hb : cw bar.1 = 1 ∧ cw bar.2 = 1)
    {f : InputField} (ho : OnScreen f.area) (h1 : 1 ≤ f.textCols) (hn : f.content.lines.length < 65536)
    (hy : f.area.top + f.area.height + f.scroll.y + 1 < 65536)
    (htab : f.passwordMode = true ∨ ∀ l ∈ f.content.lines, '\t' ∉ l) :
    ∃ rows cur, f.displayOn cw bar = some (rows, cur) ∧ rows.length = f.area.height ∧
      (∀ (j : Nat) (row : Row), rows[j]? = some row → row.x = f.area.left ∧ row.y = f.area.top + j ∧
        textWidth cw (cellsText row.pieces) = f.area.width) ∧
      (∀ x y, cur = some (x, y) → InArea f.area x y) := by
  obtain ⟨sb, s1, s2⟩ := displayOn_ok cw bar h1 hn hy
  have htc : f.textCols ≤ f.area.width := by unfold textCols; split <;> omega
  have hl : f.area.left + f.textCols < 65536 := by have := ho.1; omega
  obtain ⟨rows, cur', g1, g2, g3, g4⟩ := drawRows_ok cw hs he bar (f := f) (w := f.textCols) sb hl h1 f.area.height 0 none
    (by have := ho.2; omega)
  refine ⟨rows, cur', by rw [s2, g1], g2, ?_, ?_⟩
  · intro j row hrow
    obtain ⟨q1, q2, c0, r, q3, q4⟩ := g3 j row hrow
    rw [Nat.zero_add] at q2 q3
    refine ⟨q1, q2, ?_⟩
    have hj : j < rows.length := by
      obtain ⟨h, _⟩ := List.getElem?_eq_some_iff.1 hrow
      exact h
    obtain ⟨r', k1, k2, k3, _⟩ := drawRow_ok cw hs he (f := f) (w := f.textCols) j c0 hl (by have := ho.2; omega) h1
    rw [q3] at k1
    cases k1
    have hnt : '\t' ∉ cellsText r.pieces := by
      intro hm
      rcases k3 _ hm with h | h | ⟨l, hl1, c, hc, h⟩
      · simp at h
      · simp at h
      · rcases htab with ht | ht
        · simp [shown, ht] at h
        · by_cases hp : f.passwordMode = true
          · simp [shown, hp] at h
          · simp [shown, hp] at h
            subst h
            exact ht l (List.mem_of_getElem? hl1) hc
    have hbar : textWidth cw (cellsText (drawBar bar sb row.y)) = f.area.width - f.textCols := by
      unfold drawBar
      cases sb with
      | none =>
        have : f.textCols = f.area.width := by unfold textCols; rw [if_neg (by have := s1.1 rfl; omega)]
        simp [this]
      | some tb =>
        have hlen : ¬ f.content.lines.length ≤ f.area.height := fun h => by simpa using s1.2 h
        have e : f.textCols = f.area.width - 1 := by unfold textCols; rw [if_pos (by omega)]
        obtain ⟨t, b⟩ := tb
        simp only
        split <;> simp [cellsText, textWidth, hb.1, hb.2] <;> omega
    rw [q4, cellsText_append, textWidth_append, ← inputCols_noTab cw _ hnt, k2, hbar]
    omega
  · intro x y h
    rcases g4 with h' | ⟨k, i, hk, hi, h'⟩
    · rw [h'] at h; cases h
    · rw [h', Nat.zero_add] at h
      cases h
      exact ⟨k, i, by omega, hi, rfl, rfl⟩

/-- Concrete case. -/
example := C27_rows (fun _ => 1) rfl rfl ('#', '|') ⟨rfl, rfl⟩ scrolled_onScreen (by decide) (by decide) (by decide) (.inr (by decide))

/-- C27: there's a scrollbar, in the last column, exactly when there are more lines than rows. -/
theorem C27_scrollbar (cw : Char → Nat) (hs : cw ' ' = 1) (he : cw '…' = 1) (bar : Char × Char)
    {f : InputField} (ho : OnScreen f.area) (h1 : 1 ≤ f.textCols) (hn : f.content.lines.length < 65536)
    (hy : f.area.top + f.area.height + f.scroll.y + 1 < 65536) :
    ∃ rows cur, f.displayOn cw bar = some (rows, cur) ∧ ∀ row ∈ rows,
      (f.area.height < f.content.lines.length → ∃ t b text,
        f.area.scrollbar f.scroll.y f.content.lines.length = some (some (t, b)) ∧ inputCols cw (cellsText text) = f.area.width - 1 ∧
        (t ≤ row.y ∧ row.y ≤ b → row.pieces = text ++ [(.thumb, [bar.1])]) ∧
        (¬ (t ≤ row.y ∧ row.y ≤ b) → row.pieces = text ++ [(.track, [bar.2])])) ∧
      (f.content.lines.length ≤ f.area.height → inputCols cw (cellsText row.pieces) = f.area.width) := by
  obtain ⟨sb, s0, s1, s2⟩ := displayOn_full cw bar h1 hn hy
  have htc : f.textCols ≤ f.area.width := by unfold textCols; split <;> omega
  have hl : f.area.left + f.textCols < 65536 := by have := ho.1; omega
  obtain ⟨rows, cur', g1, g2, g3, g4⟩ := drawRows_ok cw hs he bar (f := f) (w := f.textCols) sb hl h1 f.area.height 0 none
    (by have := ho.2; omega)
  refine ⟨rows, cur', by rw [s2, g1], ?_⟩
  intro row hmem
  obtain ⟨j, hj, hrow⟩ := List.getElem_of_mem hmem
  obtain ⟨q1, q2, c0, r, q3, q4⟩ := g3 j row (by rw [List.getElem?_eq_getElem hj, hrow])
  rw [Nat.zero_add] at q2 q3
  obtain ⟨r', k1, k2, k3, _⟩ := drawRow_ok cw hs he (f := f) (w := f.textCols) j c0 hl (by have := ho.2; omega) h1
  rw [q3] at k1
  cases k1
  constructor
  · intro hlt
    have e : f.textCols = f.area.width - 1 := by unfold textCols; rw [if_pos hlt]
    cases sb with
    | none => have := s1.1 rfl; omega
    | some tb =>
      obtain ⟨t, b⟩ := tb
      refine ⟨t, b, r.pieces, s0, by rw [k2, e], ?_, ?_⟩
      · intro h
        rw [q4, drawBar, if_pos h]
      · intro h
        rw [q4, drawBar, if_neg h]
  · intro hle
    have e : f.textCols = f.area.width := by unfold textCols; rw [if_neg (by omega)]
    rw [q4, s1.2 hle]
    simp only [drawBar, List.append_nil]
    rw [k2, e]

example : (⟨2, 3, 7, 2⟩ : Area).width = 7 ∧ ({ area := ⟨2, 3, 7, 2⟩, content := ⟨⟨0, 0⟩, none, [[], [], []]⟩ } : InputField).textCols = 6 := by decide

/-- C27: a line which fits is entirely drawn, each character with the style of the cursor exactly if the field is focused and the
character is between the ends of the selection (the position of the cursor when there's none); then a space for the cursor if it's
at the end; then spaces. -/
theorem C27_text (cw : Char → Nat) (hs : cw ' ' = 1) (he : cw '…' = 1) (bar : Char × Char) {f : InputField}
    (ho : OnScreen f.area) (h1 : 1 ≤ f.textCols) (hn : f.content.lines.length < 65536)
    (hy : f.area.top + f.area.height + f.scroll.y + 1 < 65536) (hx : f.scroll.x = 0) {y : Nat} {l : Text}
    (hl : f.content.lines[y]? = some l) (hy1 : f.scroll.y ≤ y) (hy2 : y < f.scroll.y + f.area.height)
    (hw : inputCols cw (l.map f.shown) < f.textCols) :
    ∃ rows cur row chars n last, f.displayOn cw bar = some (rows, cur) ∧ rows[y - f.scroll.y]? = some row ∧
      row.pieces = chars ++
        (if f.focused = true ∧ y = f.content.pos.y ∧ f.content.pos.x = l.length then [(.cursor, [' '])] else []) ++
        List.replicate n (.normal, [' ']) ++ last ∧ (∀ p ∈ last, p.1 = .thumb ∨ p.1 = .track) ∧
      chars.length = l.length ∧
      ∀ (i : Nat) (c : Char), l[i]? = some c → ∃ st, chars[i]? = some (st, [f.shown c]) ∧ (st = .normal ∨ st = .cursor) ∧
        (st = .cursor ↔ f.focused = true ∧ (⟨y, i⟩ : Pos).blt f.content.selection.min = false ∧
          f.content.selection.max.blt ⟨y, i⟩ = false) := by
  obtain ⟨sb, s1, s2⟩ := displayOn_ok cw bar h1 hn hy
  have htc : f.textCols ≤ f.area.width := by unfold textCols; split <;> omega
  have hl' : f.area.left + f.textCols < 65536 := by have := ho.1; omega
  obtain ⟨rows, cur', g1, g2, g3, g4⟩ := drawRows_ok cw hs he bar (f := f) (w := f.textCols) sb hl' h1 f.area.height 0 none
    (by have := ho.2; omega)
  have hrt : y - f.scroll.y < rows.length := by omega
  have hget : rows[y - f.scroll.y]? = some rows[y - f.scroll.y] := List.getElem?_eq_getElem hrt
  obtain ⟨q1, q2, c0, r, q3, q4⟩ := g3 _ _ hget
  rw [Nat.zero_add] at q2 q3
  obtain ⟨r', n, k1, k2⟩ := drawLine_fits cw hs (f := f) (w := f.textCols) y (y - f.scroll.y) l c0 hl' (by have := ho.2; omega) hx hw
  unfold drawRow at q3
  rw [show f.scroll.y + (y - f.scroll.y) = y by omega, hl] at q3
  simp only [k1, Option.some.injEq] at q3
  subst q3
  refine ⟨rows, cur', _, _, n, drawBar bar sb rows[y - f.scroll.y].y, by rw [s2, g1], hget, by rw [q4, k2], ?_, by simp, ?_⟩
  · intro p hp
    unfold drawBar at hp
    split at hp
    · split at hp <;> (simp only [List.mem_singleton] at hp; subst hp; simp)
    · simp at hp
  · intro i c hc
    rw [List.getElem?_mapIdx, hc]
    refine ⟨_, rfl, ?_, ?_⟩
    · split <;> simp
    · rw [← contains_iff]
      split <;> simp_all

example : ∃ f : InputField, f.scroll.x = 0 ∧ f.content.lines[2]? = some "abc".toList ∧ f.scroll.y ≤ 2 ∧ 2 < f.scroll.y + f.area.height ∧
    inputCols (fun _ => 1) ("abc".toList.map f.shown) < f.textCols ∧ f.content.hasWideSelection = true :=
  ⟨{ area := ⟨2, 3, 7, 2⟩, scroll := ⟨1, 0⟩, content := ⟨⟨2, 1⟩, some ⟨0, 0⟩, [[], [], "abc".toList, []]⟩ }, by decide⟩

/-- C27: in password mode, the display is the same for all contents with the same numbers of characters. -/
theorem C27_password (cw : Char → Nat) (bar : Char × Char) {f : InputField} (hp : f.passwordMode = true) (lines : List Text)
    (hl : lines.map List.length = f.content.lines.map List.length) :
    displayOn cw bar { f with content := { f.content with lines } } = f.displayOn cw bar := by
  have hlen : lines.length = f.content.lines.length := by simpa using congrArg List.length hl
  generalize hg : ({ f with content := { f.content with lines } } : InputField) = g
  have e1 : g.area = f.area := by rw [← hg]
  have e2 : g.content.lines = lines := by rw [← hg]
  have e3 : g.scroll = f.scroll := by rw [← hg]
  have e4 : g.focused = f.focused := by rw [← hg]
  have e5 : g.content.pos = f.content.pos := by rw [← hg]
  have e6 : g.content.selection = f.content.selection := by rw [← hg]; rfl
  have e7 : g.passwordMode = true := by rw [← hg]; exact hp
  have hrow : ∀ w j cur, g.drawRow cw w j cur = f.drawRow cw w j cur := by
    intro w j cur
    unfold drawRow
    rw [e2, e3]
    have hlj : (lines.map List.length)[f.scroll.y + j]? = (f.content.lines.map List.length)[f.scroll.y + j]? := by rw [hl]
    rw [List.getElem?_map, List.getElem?_map] at hlj
    cases h1 : lines[f.scroll.y + j]? with
    | none =>
      rw [h1] at hlj
      cases h2 : f.content.lines[f.scroll.y + j]? with
      | none => rfl
      | some b => rw [h2] at hlj; simp at hlj
    | some a =>
      rw [h1] at hlj
      cases h2 : f.content.lines[f.scroll.y + j]? with
      | none => rw [h2] at hlj; simp at hlj
      | some b =>
        rw [h2] at hlj
        have hab : a.length = b.length := by simpa using hlj
        simp only [drawLine, e3, e4, e5, e6, hab]
        simp only [drawChars_password cw e7 hp e1 e4 _ _ _ _ _ a b hab, drawEnd, cursorCell, e1]
  have hrows : ∀ w sb n j cur, drawRows cw bar g w sb n j cur = drawRows cw bar f w sb n j cur := by
    intro w sb n
    induction n with
    | zero => intro j cur; rfl
    | succ n ih => intro j cur; simp only [drawRows, hrow, e1, ih]
  simp only [displayOn, e1, e2, e3, hlen, drawWidth, hrows]

example : ([ "secret".toList, "word".toList].map List.length) = ["public".toList, "text".toList].map List.length := by decide

/-- C27: without a tab or a password mode, tabs are written as such although they're counted as two columns. -/
theorem C27_tab_counterexample : ∃ (f : InputField) (rows : List Row) (cur : Option (Nat × Nat)),
    f.displayOn (fun _ => 1) ('#', '|') = some (rows, cur) ∧ ∃ row ∈ rows, '\t' ∈ cellsText row.pieces :=
  ⟨{ area := ⟨0, 0, 6, 1⟩, content := ⟨⟨0, 1⟩, none, ["\t".toList]⟩ },
    [⟨0, 0, [(.normal, ['\t']), (.cursor, [' ']), (.normal, [' ']), (.normal, [' ']), (.normal, [' '])]⟩], some (2, 0), by decide,
    by decide⟩

/-- C27: when the row starts with an ellipsis, the returned position is one column at the left of the cursor. -/
theorem C27_position_counterexample : ∃ (f : InputField) (p : CellPiece),
    ReachableField (fun _ => 1) (fun _ => true) f ∧ p.1 = .cursor ∧
    f.displayOn (fun _ => 1) ('#', '|') = some ([⟨0, 0, [(.normal, ['…']), (.normal, ['d']), (.normal, ['e']), (.normal, ['f']), p]⟩],
      some (3, 0)) := by
  have r0 : ReachableField (fun _ => 1) (fun _ => true) (InputField.new ⟨0, 0, 5, 1⟩) := .init _ (by decide) (by unfold OnScreen; decide)
  have r1 : ReachableField (fun _ => 1) (fun _ => true)
      { area := ⟨0, 0, 5, 1⟩, content := ⟨⟨0, 6⟩, none, ["abcdef".toList]⟩, scroll := ⟨0, 2⟩ } :=
    .step (.insertStr "abcdef".toList) (b := true) r0 trivial (by decide)
  exact ⟨_, (.cursor, [' ']), r1, rfl, by decide⟩

/-! ## C45 -/

/-- C45: the operations never panic and keep a consistent content, when the areas are in the screen and have a column. -/
theorem C45_step (cw : Char → Nat) (alnum : Char → Bool) {f : InputField} (hv : f.content.Valid) (hw : 1 ≤ f.area.width)
    (ho : OnScreen f.area) (op : FieldOp) (ha : op.Allowed f) :
    ∃ f' b, op.exec cw alnum f = some (f', b) ∧ f'.content.Valid ∧ 1 ≤ f'.area.width ∧ OnScreen f'.area := by
  obtain ⟨f', b, h1, h2, _⟩ := fieldOp_ok cw alnum ⟨hv, hw, ho⟩ op ha
  exact ⟨f', b, h1, h2⟩

/-- Concrete case. -/
example := C45_step (fun _ => 1) (fun _ => true) scrolled_valid (by decide) scrolled_onScreen (.insertStr "x\ny".toList) trivial

/-- C45: whatever the history, no operation panics, and the cursor and the selection are on existing positions. -/
theorem C45_reachable (cw : Char → Nat) (alnum : Char → Bool) {f : InputField} (h : ReachableField cw alnum f) :
    f.content.lines ≠ [] ∧ ValidPos f.content.lines f.content.pos ∧ (∀ t, f.content.tail = some t → ValidPos f.content.lines t) ∧
      ∀ op : FieldOp, op.Allowed f → op.exec cw alnum f ≠ none := by
  have hok : FieldOk f := by
    induction h with
    | init area h1 h2 => exact ⟨default_valid, h1, h2⟩
    | step op _ ha he ih =>
      obtain ⟨f', b, h1, h2, _⟩ := fieldOp_ok cw alnum ih op ha
      rw [he] at h1
      cases h1
      exact h2
  refine ⟨hok.1.oneLine, hok.1.pos, hok.1.tail, ?_⟩
  intro op ha
  obtain ⟨f', b, h1, _⟩ := fieldOp_ok cw alnum hok op ha
  rw [h1]; simp

/-- Concrete case. -/
example := C45_reachable (fun _ => 1) (fun _ => true)
  (.step (.insertStr "a\nb".toList) (.init ⟨0, 0, 10, 2⟩ (by decide) (by unfold OnScreen; decide)) trivial rfl)

/-- C45: without a column, moving in a content of several lines panics. -/
theorem C45_width_counterexample : (InputField.new ⟨0, 0, 0, 1⟩).insertStr (fun _ => 1) "\n".toList = none := by decide

/-- C45: keys are ignored by a field which isn't focused, and so are mouse events out of the area; the events say that they
weren't used. -/
theorem C45_ignored (cw : Char → Nat) (alnum : Char → Bool) (f : InputField) (ho : OnScreen f.area) :
    (f.focused = false → ∀ k : KeyComb, f.applyKeyCombination cw k = some (f, false)) ∧
    (f.focused = false → ∀ code mods double, f.applyEvent cw alnum (.key code mods) double = some (f, false)) ∧
    (∀ x y, ¬ InArea f.area x y → f.applyClickEvent cw x y = some (f, false) ∧
      ∀ kind mods double, f.applyEvent cw alnum (.mouse kind x y mods) double = some (f, false)) := by
  refine ⟨fun h k => by simp [applyKeyCombination, h], fun h code mods double => by simp [applyEvent, h], ?_⟩
  intro x y hxy
  obtain ⟨b, h1, h2⟩ := C18_contains f.area ho x y
  have hb : b = false := by
    cases b with
    | false => rfl
    | true => exact absurd (h2.1 rfl) hxy
  subst hb
  exact ⟨by simp [applyClickEvent, h1], fun kind mods double => by simp [applyEvent, applyMouseEvent, h1]⟩

/-- C45: a click in the area of a field which isn't focused only gives it the focus. -/
theorem C45_focus (cw : Char → Nat) (alnum : Char → Bool) (f : InputField) (ho : OnScreen f.area) (hf : f.focused = false) {x y : Nat}
    (hi : InArea f.area x y) (mods : KeyMods) (double : Bool) :
    f.applyClickEvent cw x y = some ({ f with focused := true }, true) ∧
    f.applyEvent cw alnum (.mouse .downLeft x y mods) double = some ({ f with focused := true }, true) ∧
    ∀ kind, kind ≠ .downLeft → f.applyEvent cw alnum (.mouse kind x y mods) double = some (f, true) := by
  obtain ⟨b, h1, h2⟩ := C18_contains f.area ho x y
  have hb : b = true := h2.2 hi
  subst hb
  refine ⟨by simp [applyClickEvent, h1, hf], by simp [applyEvent, applyMouseEvent, h1, hf], ?_⟩
  intro kind hk
  have : (kind == MouseKind.downLeft) = false := by simp [hk]
  simp [applyEvent, applyMouseEvent, h1, hf, this]
  rw [← hf]

/-- Concrete case. -/
example := C45_focus (fun _ => 1) (fun _ => true) { scrolled with focused := false } scrolled_onScreen rfl inArea_scrolled .none false

/-- C45: typing a character inserts it before the text which follows the cursor, when there's no wide selection. -/
theorem C45_type (cw : Char → Nat) {f : InputField} (hv : f.content.Valid) (hw : 1 ≤ f.area.width) (hf : f.focused = true) (ch : Char)
    (hns : f.content.hasWideSelection = false) (mods : KeyMods) (hm : mods = .none ∨ mods = .shift)
    (hk : (⟨.char ch, [], mods⟩ : KeyComb) ∉ f.newLineKeys) :
    ∃ f', f.applyKeyCombination cw ⟨.char ch, [], mods⟩ = some (f', true) ∧
      f'.content.before = f.content.before ++ keptText [ch] ∧ f'.content.after = f.content.after := by
  obtain ⟨c', h1, h2, h3, h4⟩ := insertChar_ok hv ch
  obtain ⟨f', g1, ⟨s, g2⟩, _⟩ := fixScroll_ok cw (f := { f with content := c' }) h2 hw
  refine ⟨f', ?_, by rw [g2]; exact h3, by rw [g2]; exact h4⟩
  have hc : f.newLineKeys.contains ⟨.char ch, [], mods⟩ = false := by simpa using hk
  have e : applyKeycodeEvent cw f (.char ch) false = some (f', true) ∧ applyKeycodeEvent cw f (.char ch) true = some (f', true) := by
    simp [applyKeycodeEvent, charKey, hns, putChar, h1, g1]
  rcases hm with rfl | rfl
  · simp [applyKeyCombination, hf, hk, applyMods, e.1]
  · simp [applyKeyCombination, hf, hk, applyMods, e.2]

/-- Concrete case. -/
example := C45_type (fun _ => 1) scrolled_valid (by decide) rfl 'x' (by decide) .shift (.inr rfl) (by decide)

/-- C45: typing a character, or pasting a string, replaces the selected text (for the selections which are exactly removed). -/
theorem C45_replace (cw : Char → Nat) {f : InputField} (hv : f.content.Valid) (hw : 1 ≤ f.area.width)
    (hws : f.content.hasWideSelection = true) (hec : ExactlyCut f.content) :
    ∃ a sel b, f.content.selectionString = some sel ∧ f.content.toText = a ++ sel ++ b ∧
      (∀ ch shift, ∃ f', f.applyKeycodeEvent cw (.char ch) shift = some (f', true) ∧
        f'.content.before = a ++ keptText [ch] ∧ f'.content.after = b) ∧
      (∀ s, ∃ f', f.replaceSelection cw s = some f' ∧ f'.content.before = a ++ keptText s ∧ f'.content.after = b) ∧
      (∃ f', f.applyKeycodeEvent cw .backspace false = some (f', true) ∧ f'.content.before = a ∧ f'.content.after = b) ∧
      (∃ f', f.applyKeycodeEvent cw .delete false = some (f', true) ∧ f'.content.before = a ∧ f'.content.after = b) ∧
      (∃ f', f.cutSelection cw = some (f', sel) ∧ f'.content.before = a ∧ f'.content.after = b) := by
  obtain ⟨c1, sel, h1, h2, h3, h4, h5, h6⟩ := C23_cut hv hws hec
  refine ⟨c1.before, sel, c1.after, h1, h5, ?_, ?_, ?_, ?_, ?_⟩
  · intro ch shift
    obtain ⟨c', k1, k2, k3, k4⟩ := insertChar_ok h3 ch
    obtain ⟨f', g1, ⟨s, g2⟩, _⟩ := fixScroll_ok cw (f := { f with content := c' }) k2 hw
    have hv' : f'.content.Valid := by rw [g2]; exact k2
    have hw' : 1 ≤ f'.area.width := by rw [g2]; exact hw
    obtain ⟨f'', e1, ⟨s', e2⟩, _⟩ := fixScroll_ok cw (f := f') hv' hw'
    refine ⟨f'', ?_, by rw [e2, g2]; exact k3, by rw [e2, g2]; exact k4⟩
    simp [applyKeycodeEvent, charKey, hws, h2, putChar, k1, g1, e1]
  · intro s
    obtain ⟨c', k1, k2, k3, k4⟩ := insertStr_ok s h3
    obtain ⟨f', g1, ⟨s', g2⟩, _⟩ := fixScroll_ok cw (f := { f with content := c' }) k2 hw
    refine ⟨f', ?_, by rw [g2]; exact k3, by rw [g2]; exact k4⟩
    simp [replaceSelection, delWide, hws, h2, k1, g1]
  · exact ⟨{ f with content := c1 }, by simp [applyKeycodeEvent, delKey, hws, h2], rfl, rfl⟩
  · exact ⟨{ f with content := c1 }, by simp [applyKeycodeEvent, delKey, hws, h2], rfl, rfl⟩
  · obtain ⟨f', g1, ⟨s', g2⟩, _⟩ := fixScroll_ok cw (f := { f with content := c1 }) h3 hw
    exact ⟨f', by simp [cutSelection, h1, h2, g1], by rw [g2], by rw [g2]⟩

example : ExactlyCut ({ area := ⟨0, 0, 5, 1⟩, content := ⟨⟨0, 3⟩, some ⟨0, 1⟩, ["abcdef".toList]⟩ } : InputField).content :=
  ⟨_, rfl, .inl (by decide)⟩

/-- C45: without wide selection, `Backspace` removes the character before the cursor and `Delete` the one after it (at the end
of the text, `Delete` removes an empty last line). -/
theorem C45_delete (cw : Char → Nat) {f : InputField} (hv : f.content.Valid) (hns : f.content.hasWideSelection = false) (shift : Bool) :
    (∃ f' b, f.applyKeycodeEvent cw .backspace shift = some (f', b) ∧
      ((b = false ∧ f' = f ∧ f.content.before = []) ∨
        (b = true ∧ ∃ ch, f.content.before = f'.content.before ++ [ch] ∧ f'.content.after = f.content.after))) ∧
    (∃ f' b, f.applyKeycodeEvent cw .delete shift = some (f', b) ∧
      ((b = false ∧ f' = f ∧ f.content.after = []) ∨
        (b = true ∧ ∃ ch, f.content.after = ch :: f'.content.after ∧ f'.content.before = f.content.before) ∨
        (b = true ∧ f.content.after = [] ∧ f.content.before = f'.content.before ++ ['\n'] ∧ f'.content.after = []))) := by
  obtain ⟨c1, r1, h1, h2, h3⟩ := delCharLeft_ok hv
  obtain ⟨c2, r2, k1, k2, k3⟩ := delCharBelow_ok hv
  refine ⟨⟨{ f with content := c1 }, r1, by simp [applyKeycodeEvent, delKey, hns, h1], ?_⟩,
    ⟨{ f with content := c2 }, r2, by simp [applyKeycodeEvent, delKey, hns, k1], ?_⟩⟩
  · rcases h3 with ⟨a, rfl, b⟩ | ⟨ch, a, b, d⟩
    · exact .inl ⟨b, rfl, a⟩
    · exact .inr ⟨d, ch, a, b⟩
  · rcases k3 with ⟨a, rfl, b, _⟩ | ⟨ch, a, b, d⟩ | ⟨a, b, d, e⟩
    · exact .inl ⟨b, rfl, a⟩
    · exact .inr (.inl ⟨d, ch, a, b⟩)
    · exact .inr (.inr ⟨e, a, b, d⟩)

/-- Concrete case. -/
example := C45_delete (fun _ => 1) scrolled_valid (by decide) false

/-- C45: what the movement keys do. -/
theorem C45_keys (cw : Char → Nat) {f : InputField} (hv : f.content.Valid) (hw : 1 ≤ f.area.width) (shift : Bool) :
    MovedBy cw f .left shift (fun c => (f.content.before = [] ∧ c.before = []) ∨
      ∃ ch, f.content.before = c.before ++ [ch] ∧ c.after = ch :: f.content.after) ∧
    MovedBy cw f .right shift (fun c => (f.content.after = [] ∧ c.after = []) ∨
      ∃ ch, f.content.after = ch :: c.after ∧ c.before = f.content.before ++ [ch]) ∧
    MovedBy cw f .home shift (fun c => ∃ seg, f.content.before = c.before ++ seg ∧ '\n' ∉ seg ∧
      (c.before = [] ∨ ∃ t, c.before = t ++ ['\n'])) ∧
    MovedBy cw f .end shift (fun c => ∃ seg, f.content.after = seg ++ c.after ∧ '\n' ∉ seg ∧
      (c.after = [] ∨ ∃ t, c.after = '\n' :: t)) ∧
    MovedBy cw f .up shift (fun c => c.pos.y = f.content.pos.y - 1) ∧
    MovedBy cw f .down shift (fun c => c.pos.y = min (f.content.pos.y + 1) (f.content.lines.length - 1)) ∧
    MovedBy cw f .pageUp shift (fun c => c.pos.y = f.content.pos.y - f.area.height) ∧
    MovedBy cw f .pageDown shift (fun c => c.pos.y = min (f.content.pos.y + f.area.height) (f.content.lines.length - 1)) := by
  have hb : ∀ c : Content, c.lines = f.content.lines → c.pos = f.content.pos → c.before = f.content.before ∧ c.after = f.content.after :=
    fun c h1 h2 => by simp only [Content.before, Content.after, h1, h2, and_self]
  have hup : ∀ n, ∀ c : Content, c.Valid → c.lines = f.content.lines → c.pos = f.content.pos →
      ∃ c' b, c.moveLinesUp cw n = some (c', b) ∧ c'.Valid ∧ c'.lines = c.lines ∧ c'.tail = c.tail ∧ c'.pos.y = f.content.pos.y - n := by
    intro n c hc h1 h2
    obtain ⟨c', b, g1, g2, ⟨a, rfl, _⟩ | ⟨_, ⟨a1, a2, a3, _⟩, _⟩⟩ := moveLinesUp_ok cw hc n
    · exact ⟨_, _, g1, g2, rfl, rfl, by rw [← h2, a]; omega⟩
    · exact ⟨_, _, g1, g2, a1, a2, by rw [← h2]; exact a3⟩
  have hdown : ∀ n, ∀ c : Content, c.Valid → c.lines = f.content.lines → c.pos = f.content.pos →
      ∃ c' b, c.moveLinesDown cw n = some (c', b) ∧ c'.Valid ∧ c'.lines = c.lines ∧ c'.tail = c.tail ∧
        c'.pos.y = min (f.content.pos.y + n) (f.content.lines.length - 1) := by
    intro n c hc h1 h2
    obtain ⟨c', b, g1, g2, ⟨a, rfl, _⟩ | ⟨_, ⟨a1, a2, a3, _⟩, _⟩⟩ := moveLinesDown_ok cw hc n
    · exact ⟨_, _, g1, g2, rfl, rfl, by rw [← h2, ← h1]; omega⟩
    · exact ⟨_, _, g1, g2, a1, a2, by rw [← h2, ← h1]; exact a3⟩
  refine ⟨?_, ?_, ?_, ?_, ?_, ?_, ?_, ?_⟩
  · refine movedBy_of hw hv (r := Content.moveLeft) rfl fun c hc h1 h2 => ?_
    obtain ⟨c', b, g1, g2, g3, g4, g5⟩ := moveLeft_ok hc
    rw [← (hb c h1 h2).1, ← (hb c h1 h2).2]
    refine ⟨c', b, g1, g2, g3, g4, ?_⟩
    rcases g5 with ⟨a, rfl, _⟩ | ⟨ch, a, b, _⟩
    · exact .inl ⟨a, a⟩
    · exact .inr ⟨ch, a, b⟩
  · refine movedBy_of hw hv (r := Content.moveRight) rfl fun c hc h1 h2 => ?_
    obtain ⟨c', b, g1, g2, g3, g4, g5⟩ := moveRight_ok hc
    rw [← (hb c h1 h2).1, ← (hb c h1 h2).2]
    refine ⟨c', b, g1, g2, g3, g4, ?_⟩
    rcases g5 with ⟨a, rfl, _⟩ | ⟨ch, a, b, _⟩
    · exact .inl ⟨a, a⟩
    · exact .inr ⟨ch, a, b⟩
  · refine movedBy_of hw hv (r := fun c => some c.moveToLineStart) rfl fun c hc h1 h2 => ?_
    obtain ⟨c', seg, g1, g2, g3, g4, g5, g6, g7, g8⟩ := moveToLineStart_ok hc
    rw [← (hb c h1 h2).1]
    exact ⟨c', _, by rw [g1], g2, g3, g4, seg, g5, g7, g8⟩
  · refine movedBy_of hw hv (r := Content.moveToLineEnd) rfl fun c hc h1 h2 => ?_
    obtain ⟨c', seg, g1, g2, g3, g4, g5, g6, g7, g8⟩ := moveToLineEnd_ok hc
    rw [← (hb c h1 h2).2]
    exact ⟨c', _, g1, g2, g3, g4, seg, g6, g7, g8⟩
  · exact movedBy_of hw hv (r := fun c => c.moveLinesUp cw 1) rfl (hup 1)
  · exact movedBy_of hw hv (r := fun c => c.moveLinesDown cw 1) rfl (hdown 1)
  · exact movedBy_of hw hv (r := fun c => c.moveLinesUp cw f.area.height) rfl (hup _)
  · exact movedBy_of hw hv (r := fun c => c.moveLinesDown cw f.area.height) rfl (hdown _)

/-- Concrete case. -/
example := C45_keys (fun _ => 1) scrolled_valid (by decide) true

/-- C45: keys with modifiers other than shift, or with several codes, are ignored unless they're new line keys; new line keys
insert a line break; key events of the terminal do as key combinations without new line keys. -/
theorem C45_dispatch (cw : Char → Nat) (alnum : Char → Bool) {f : InputField} (hv : f.content.Valid) (hw : 1 ≤ f.area.width)
    (hf : f.focused = true) :
    (∀ k ∈ f.newLineKeys, ∃ f', f.applyKeyCombination cw k = some (f', true) ∧
      f'.content.before = f.content.before ++ ['\n'] ∧ f'.content.after = f.content.after) ∧
    (∀ k, k ∉ f.newLineKeys → (k.others ≠ [] ∨ ∃ n, k.mods = .other n) → f.applyKeyCombination cw k = some (f, false)) ∧
    (∀ code shift, (⟨code, [], if shift then .shift else .none⟩ : KeyComb) ∉ f.newLineKeys →
      f.applyKeyCombination cw ⟨code, [], if shift then .shift else .none⟩ = f.applyKeycodeEvent cw code shift) ∧
    (∀ code shift double, f.applyEvent cw alnum (.key code (if shift then .shift else .none)) double = f.applyKeycodeEvent cw code shift) ∧
    (∀ code n double, f.applyEvent cw alnum (.key code (.other n)) double = some (f, false)) := by
  refine ⟨?_, ?_, ?_, ?_, ?_⟩
  · intro k hk
    obtain ⟨c', h1, h2, h3, h4⟩ := insertNewLine_ok hv
    obtain ⟨f', g1, ⟨s, g2⟩, _⟩ := fixScroll_ok cw (f := { f with content := c' }) h2 hw
    have e : f.insertNewLine cw = some (f', true) := by simp [InputField.insertNewLine, h1, g1]
    exact ⟨f', by simp [applyKeyCombination, hf, hk, e], by rw [g2]; exact h3, by rw [g2]; exact h4⟩
  · intro k hk hm
    obtain ⟨code, others, mods⟩ := k
    have : applyMods cw f ⟨code, others, mods⟩ = some (f, false) := by
      rcases hm with hm | ⟨n, hm⟩
      · simp only at hm
        cases others with
        | nil => exact absurd rfl hm
        | cons a l => rfl
      · simp only at hm
        subst hm
        cases others <;> rfl
    simp [applyKeyCombination, hf, hk, this]
  · intro code shift hk
    cases shift
    · simp at hk; simp [applyKeyCombination, hf, hk, applyMods]
    · simp at hk; simp [applyKeyCombination, hf, hk, applyMods]
  · intro code shift double
    cases shift <;> simp [applyEvent, hf]
  · intro code n double
    simp [applyEvent, hf]

/-- Concrete case. -/
example := C45_dispatch (fun _ => 1) (fun _ => true) scrolled_valid (by decide) rfl

/-- C45: `set_str` replaces the whole text, `clear` removes it and `insert_str` inserts at the cursor (the characters which can't
be stored are dropped). -/
theorem C45_set (cw : Char → Nat) {f : InputField} (hv : f.content.Valid) (hw : 1 ≤ f.area.width) (s : Text) :
    (∃ f', f.setStr cw s = some f' ∧ f'.content.toText = keptText s) ∧
    (∃ f', f.clear cw = some f' ∧ f'.content.toText = []) ∧
    (∃ f', f.insertStr cw s = some f' ∧ f'.content.before = f.content.before ++ keptText s ∧ f'.content.after = f.content.after) := by
  refine ⟨?_, ?_, ?_⟩
  · obtain ⟨c', k1, k2, k3, k4⟩ := setStr_ok hv s
    obtain ⟨f', g1, ⟨sc, g2⟩, _⟩ := fixScroll_ok cw (f := { f with content := c' }) k2 hw
    exact ⟨f', by simp [InputField.setStr, k1, g1], by rw [g2, toText, fmtLines_eq]; exact k3⟩
  · obtain ⟨f', g1, ⟨sc, g2⟩, _⟩ := fixScroll_ok cw (f := { f with content := f.content.clear }) default_valid hw
    exact ⟨f', by simp [InputField.clear, g1], by rw [g2]; rfl⟩
  · obtain ⟨c', k1, k2, k3, k4⟩ := insertStr_ok s hv
    obtain ⟨f', g1, ⟨sc, g2⟩, _⟩ := fixScroll_ok cw (f := { f with content := c' }) k2 hw
    exact ⟨f', by simp [InputField.insertStr, k1, g1], by rw [g2]; exact k3, by rw [g2]; exact k4⟩

/-- Concrete case. -/
example := C45_set (fun _ => 1) scrolled_valid (by decide) "x\ny".toList

/-- C45: the functions of the field which are the ones of its content change the content as these do, and return the same. -/
theorem C45_delegated (cw : Char → Nat) (alnum : Char → Bool) {f : InputField} (hv : f.content.Valid) (hw : 1 ≤ f.area.width)
    (ho : OnScreen f.area) (op : WrapOp) :
    ∃ c' b f', op.call cw alnum f = some (c', b) ∧ FieldOp.exec cw alnum f (.wrapped op) = some (f', b) ∧ f'.content = c' ∧
      f'.area = f.area ∧ f'.focused = f.focused ∧ f'.passwordMode = f.passwordMode ∧ f'.newLineKeys = f.newLineKeys := by
  obtain ⟨c', b, h1, h2⟩ := wrapCall_ok cw alnum hv op
  obtain ⟨f', g1, g2, ⟨s, rfl⟩, _⟩ := wrap_ok cw ⟨hv, hw, ho⟩ (b := b) h2
  exact ⟨c', b, { f with content := c', scroll := s }, h1, by simp only [FieldOp.exec, h1]; exact g1, rfl, rfl, rfl, rfl, rfl⟩

/-- Concrete case. -/
example := C45_delegated (fun _ => 1) (fun _ => true) scrolled_valid (by decide) scrolled_onScreen .moveUp

/-! ## C46 -/

/-- The cell `(x, y)` shows the position `p`: the row is the one of the cell, or the last line if there's none in this row,
and the index is the one of the first character starting at the column of the cell or after it, or the end of the line. -/
def CellAt (cw : Char → Nat) (f : InputField) (x y : Nat) (p : Pos) : Prop :=
  p.y = min (f.scroll.y + (y - f.area.top)) (f.content.lines.length - 1) ∧
    ∃ l, f.content.lines[p.y]? = some l ∧ p.x ≤ l.length ∧
      (∀ i < p.x, inputCols cw (l.take i) < f.scroll.x + (x - f.area.left)) ∧
      (p.x = l.length ∨ f.scroll.x + (x - f.area.left) ≤ inputCols cw (l.take p.x))

theorem cellAt_unique {cw : Char → Nat} {f : InputField} {x y : Nat} {p q : Pos} (hp : CellAt cw f x y p) (hq : CellAt cw f x y q) :
    p = q := by
  obtain ⟨a1, l, a2, a3, a4, a5⟩ := hp
  obtain ⟨b1, l', b2, b3, b4, b5⟩ := hq
  obtain ⟨py, px⟩ := p
  obtain ⟨qy, qx⟩ := q
  simp only at *
  subst a1 b1
  rw [a2] at b2
  cases b2
  congr 1
  rcases Nat.lt_trichotomy px qx with h | h | h
  · have := b4 px h
    rcases a5 with a5 | a5 <;> omega
  · exact h
  · have := a4 qx h
    rcases b5 with b5 | b5 <;> omega

theorem posOfCell_at (cw : Char → Nat) {f : InputField} (hok : FieldOk f) {x y : Nat} (hi : InArea f.area x y) :
    ∃ p, f.posOfCell cw x y = some p ∧ CellAt cw f x y p ∧ ValidPos f.content.lines p := by
  obtain ⟨l, h1, h2⟩ := posOfCell_ok cw hok hi
  obtain ⟨k1, k2, k3⟩ := colToCharIdx_ok cw l (x - f.area.left + f.scroll.x) _ rfl
  refine ⟨_, h2, ⟨?_, l, ?_, k1, ?_, ?_⟩, l, h1, k1⟩
  · simp only [Nat.add_comm]
  · exact h1
  · intro i hi; rw [Nat.add_comm f.scroll.x]; exact k2 i hi
  · rw [Nat.add_comm f.scroll.x]; exact k3

/-- C46: a click in a focused field puts the cursor on the clicked cell, and changes nothing else. -/
theorem C46_click (cw : Char → Nat) {f : InputField} (hv : f.content.Valid) (hw : 1 ≤ f.area.width) (ho : OnScreen f.area)
    (hf : f.focused = true) {x y : Nat} (hi : InArea f.area x y) :
    ∃ p, CellAt cw f x y p ∧ (∀ q, CellAt cw f x y q → q = p) ∧
      f.applyClickEvent cw x y = some ({ f with content := { f.content with pos := p } }, true) := by
  obtain ⟨b, h1, h2⟩ := C18_contains f.area ho x y
  have hb : b = true := h2.2 hi
  subst hb
  obtain ⟨p, k1, k2, k3⟩ := posOfCell_at cw ⟨hv, hw, ho⟩ hi
  obtain ⟨c', g1, g2, g3, g4, g5⟩ := setCursorPos_ok hv p
  have e : c' = { f.content with pos := p } := by
    obtain ⟨pos, tail, lines⟩ := c'
    simp only at g3 g4 g5
    rw [g3, g4, g5 k3]
  subst e
  exact ⟨p, k2, fun q hq => cellAt_unique hq k2, by simp [applyClickEvent, h1, hf, k1, g1]⟩

/-- Concrete case. -/
example := C46_click (fun _ => 1) scrolled_valid (by decide) scrolled_onScreen rfl inArea_scrolled

/-- C46: mouse events in a focused field: pressing the left button puts the cursor on the cell, with a selection if shift is
pressed; dragging extends the selection to the cell; the second click of a double click selects the word of the cell; the wheel
changes the vertical scroll, by a row, without going over the start or the end of the text; other events change nothing. -/
theorem C46_mouse (cw : Char → Nat) (alnum : Char → Bool) {f : InputField} (hv : f.content.Valid) (hw : 1 ≤ f.area.width)
    (ho : OnScreen f.area) (hf : f.focused = true) {x y : Nat} (hi : InArea f.area x y) (mods : KeyMods) :
    ∃ p, CellAt cw f x y p ∧
      (∀ double, f.applyMouseEvent cw alnum .downLeft x y mods double = some ({ f with content :=
        ⟨p, if mods = .shift then some (f.content.tail.getD f.content.pos) else none, f.content.lines⟩ }, true)) ∧
      (∀ double, f.applyMouseEvent cw alnum .dragLeft x y mods double = some ({ f with content :=
        ⟨p, some (f.content.tail.getD f.content.pos), f.content.lines⟩ }, true)) ∧
      (∃ c b, Content.selectWordAround alnum { f.content with pos := p } = some (c, b) ∧
        f.applyMouseEvent cw alnum .upLeft x y mods true = some ({ f with content := c }, true)) ∧
      f.applyMouseEvent cw alnum .upLeft x y mods false = some (f, true) ∧
      (∀ double, f.applyMouseEvent cw alnum .scrollUp x y mods double =
        some ({ f with scroll := ⟨f.scroll.y - 1, f.scroll.x⟩ }, true)) ∧
      (∀ double, f.applyMouseEvent cw alnum .scrollDown x y mods double =
        some ({ f with scroll := ⟨if f.scroll.y + f.area.height < f.content.lines.length then f.scroll.y + 1 else f.scroll.y,
          f.scroll.x⟩ }, true)) ∧
      ∀ n double, f.applyMouseEvent cw alnum (.other n) x y mods double = some (f, true) := by
  obtain ⟨b, h1, h2⟩ := C18_contains f.area ho x y
  have hb : b = true := h2.2 hi
  subst hb
  obtain ⟨p, k1, k2, k3⟩ := posOfCell_at cw ⟨hv, hw, ho⟩ hi
  have hset : ∀ c : Content, c.Valid → c.lines = f.content.lines → c.setCursorPos p = some ⟨p, c.tail, f.content.lines⟩ := by
    intro c hc hl
    obtain ⟨c', g1, g2, g3, g4, g5⟩ := setCursorPos_ok hc p
    rw [g1]
    obtain ⟨pos, tail, lines⟩ := c'
    simp only at g3 g4 g5
    rw [g3, g4, g5 (by rw [hl]; exact k3), hl]
  have hmk : f.content.makeSelection.lines = f.content.lines ∧ f.content.makeSelection.tail = some (f.content.tail.getD f.content.pos) := by
    unfold makeSelection
    cases h : f.content.tail <;> simp [h]
  have m0 : ∀ kind double, f.applyMouseEvent cw alnum kind x y mods double = (f.mouseAt alnum kind mods double p).map (·, true) := by
    intro kind double
    simp only [applyMouseEvent, h1, hf, k1, if_true, Option.bind_eq_bind, Option.bind_some]
    cases f.mouseAt alnum kind mods double p <;> rfl
  obtain ⟨c, r, l, w1, _⟩ := selectWordAround_ok alnum (c := { f.content with pos := p }) (clean_lines hv rfl rfl k3)
  refine ⟨p, k2, ?_, ?_, ⟨c, r, w1, ?_⟩, ?_, ?_, ?_, ?_⟩
  · intro double
    rw [m0]
    by_cases hm : mods = .shift
    · simp [mouseAt, hm, hset _ (makeSelection_ok hv) hmk.1, hmk.2]
    · have e := hset _ (unselect_ok hv) rfl
      simp only [mouseAt, if_neg hm, e]
      rfl
  · intro double
    rw [m0]
    simp [mouseAt, hset _ (makeSelection_ok hv) hmk.1, hmk.2]
  · rw [m0]
    simp [mouseAt, hset _ hv rfl, w1]
  · rw [m0]; simp [mouseAt]
  · intro double
    rw [m0]
    simp only [mouseAt, InputField.scrollUp]
    split
    · rfl
    · have : f.scroll.y - 1 = f.scroll.y := by omega
      rw [this]; rfl
  · intro double
    rw [m0]
    simp only [mouseAt, InputField.scrollDown]
    split <;> rfl
  · intro n double; rw [m0]; rfl

/-- Concrete case. -/
example := C46_mouse (fun _ => 1) (fun _ => true) scrolled_valid (by decide) scrolled_onScreen rfl inArea_scrolled .none

/-- C46: scrolling a field changes nothing else than the scroll, by one row, and tells whether it changed something. -/
theorem C46_scroll (f : InputField) :
    (∃ f' b, f.scrollUp = (f', b) ∧ f' = { f with scroll := ⟨f.scroll.y - 1, f.scroll.x⟩ } ∧ (b = true ↔ f' ≠ f)) ∧
    ∃ f' b, f.scrollDown = (f', b) ∧ (b = true ↔ f' ≠ f) ∧ (b = true ↔ f.scroll.y + f.area.height < f.content.lines.length) ∧
      (b = true → f' = { f with scroll := ⟨f.scroll.y + 1, f.scroll.x⟩ }) := by
  have hne : ∀ y, y ≠ f.scroll.y → { f with scroll := { f.scroll with y := y } } ≠ f := by
    intro y hy e
    exact hy (congrArg (fun g : InputField => g.scroll.y) e)
  constructor
  · unfold InputField.scrollUp
    split
    · exact ⟨_, _, rfl, rfl, by simpa using hne _ (by omega)⟩
    · have : f.scroll.y - 1 = f.scroll.y := by omega
      refine ⟨_, _, rfl, by rw [this], by simp⟩
  · unfold InputField.scrollDown
    split
    · rename_i h
      exact ⟨_, _, rfl, by simpa using hne _ (by omega), by simpa using h, fun _ => rfl⟩
    · rename_i h
      exact ⟨_, _, rfl, by simp, by simpa using h, by simp⟩

/-- C46: in a line of characters of one column, the cell on which a character is displayed is the one where a click puts the
cursor on this character. -/
theorem C46_shown (cw : Char → Nat) (hs : cw ' ' = 1) (he : cw '…' = 1) (bar : Char × Char) {f : InputField}
    (hv : f.content.Valid) (ho : OnScreen f.area) (h1 : 1 ≤ f.textCols) (hn : f.content.lines.length < 65536)
    (hy : f.area.top + f.area.height + f.scroll.y + 1 < 65536) (hf : f.focused = true)
    {j d : Nat} {l : Text} {c : Char} (hj : j < f.area.height) (hd : d < f.textCols)
    (hl : f.content.lines[f.scroll.y + j]? = some l) (hc : l[f.scroll.x + d]? = some c)
    (hw1 : ∀ c ∈ l, inputCols cw [c] = 1 ∧ inputCols cw [f.shown c] = 1)
    (hd1 : f.scroll.x = 0 ∨ f.textCols ≤ 4 ∨ 1 ≤ d) (hd2 : d + 1 < f.textCols ∨ f.scroll.x + d + 1 = l.length) :
    ∃ rows cur row st, f.displayOn cw bar = some (rows, cur) ∧ rows[j]? = some row ∧ row.pieces[d]? = some (st, [f.shown c]) ∧
      f.applyClickEvent cw (f.area.left + d) (f.area.top + j) =
        some ({ f with content := { f.content with pos := ⟨f.scroll.y + j, f.scroll.x + d⟩ } }, true) := by
  have htc : f.textCols ≤ f.area.width := by unfold textCols; split <;> omega
  have hcols : ∀ t : Text, (∀ c ∈ t, c ∈ l) → inputCols cw t = t.length := by
    intro t ht
    induction t with
    | nil => rfl
    | cons a t ih =>
      have e1 := (hw1 a (ht a (by simp))).1
      have e2 := ih fun c hc => ht c (by simp [hc])
      simp only [inputCols, List.map_cons, List.sum_cons, List.map_nil, List.sum_nil, List.length_cons] at e1 e2 ⊢
      omega
  obtain ⟨hlt, _⟩ := List.getElem?_eq_some_iff.1 hl
  obtain ⟨hclt, _⟩ := List.getElem?_eq_some_iff.1 hc
  obtain ⟨sb, s1, s2⟩ := displayOn_ok cw bar h1 hn hy
  have hleft : f.area.left + f.textCols < 65536 := by have := ho.1; omega
  obtain ⟨rows, cur', g1, g2, g3, g4⟩ := drawRows_ok cw hs he bar (f := f) (w := f.textCols) sb hleft h1 f.area.height 0 none
    (by have := ho.2; omega)
  have hrj : rows[j]? = some (rows[j]'(by omega)) := List.getElem?_eq_getElem _
  obtain ⟨q1, q2, c0, r, q3, q4⟩ := g3 j _ hrj
  rw [Nat.zero_add] at q3
  have q3' : f.drawLine cw f.textCols (f.scroll.y + j) j l c0 = some r := by
    rw [drawRow, hl] at q3; exact q3
  obtain ⟨r', e1, e2⟩ := drawLine_cell cw hs he (f := f) (w := f.textCols) (f.scroll.y + j) j l c0 hleft (by have := ho.2; omega)
    (fun c hc => by have := (hw1 c hc).2; unfold inputCols at this; simpa [inputCharWidth] using this) hd hc (by unfold leftCols; split <;> omega) hd2
  rw [q3'] at e1
  cases e1
  refine ⟨rows, cur', _, (cellPiece f (f.content.selection.contains (f.scroll.x + d) (f.scroll.y + j)) (f.shown c)).1, by rw [s2, g1],
    hrj, ?_, ?_⟩
  · rw [q4, List.getElem?_append_left]
    · exact e2
    · exact (List.getElem?_eq_some_iff.1 e2).1
  · obtain ⟨p, _, p2, p3⟩ := C46_click cw hv (by omega) ho hf (x := f.area.left + d) (y := f.area.top + j) ⟨d, j, by omega, hj, rfl, rfl⟩
    suffices CellAt cw f (f.area.left + d) (f.area.top + j) ⟨f.scroll.y + j, f.scroll.x + d⟩ by rw [p3, ← p2 _ this]
    refine ⟨by simp only; omega, l, hl, by simp only; omega, ?_, .inr ?_⟩
    · intro i hi
      simp only at hi
      rw [hcols _ fun c hc => List.mem_of_mem_take hc, List.length_take]
      omega
    · simp only
      rw [hcols _ fun c hc => List.mem_of_mem_take hc, List.length_take]
      omega

/-- C46: the hypotheses are met by a scrolled field. -/
example : ∃ f : InputField, f.content.Valid ∧ f.focused = true ∧ f.scroll.x = 2 ∧
    f.applyClickEvent (fun _ => 1) 3 1 = some ({ f with content := { f.content with pos := ⟨0, 4⟩ } }, true) :=
  ⟨{ area := ⟨1, 1, 8, 1⟩, scroll := ⟨0, 2⟩, content := ⟨⟨0, 7⟩, none, ["abcdefghi".toList]⟩ },
    ⟨by decide, ⟨_, rfl, by decide⟩, by simp, by simp [NotStored]⟩, rfl, rfl, by decide⟩

/-- C46: on the second column of a wide character, a click puts the cursor after this character. -/
theorem C46_wide_counterexample : ∃ f : InputField, f.content.Valid ∧
    f.applyClickEvent (fun c => if c = '大' then 2 else 1) 1 0 = some ({ f with content := { f.content with pos := ⟨0, 1⟩ } }, true) :=
  ⟨{ area := ⟨0, 0, 8, 1⟩, content := ⟨⟨0, 3⟩, none, ["大bc".toList]⟩ },
    ⟨by decide, ⟨_, rfl, by decide⟩, by simp, by simp [NotStored]⟩, by decide⟩

end Verif.Props

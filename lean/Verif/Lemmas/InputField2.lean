import Verif.Lemmas.InputField
/-! Lemmas on the display of the cursor of input fields. -/
namespace Verif
open InputField Content

theorem selection_narrow {c : Content} (h : c.hasWideSelection = false) (i y : Nat) :
    c.selection.contains i y = decide (y = c.pos.y ∧ i = c.pos.x) := by
  have e : c.selection = ⟨c.pos, c.pos⟩ := by
    unfold selection
    unfold hasWideSelection at h
    cases ht : c.tail with
    | none => rfl
    | some t =>
      rw [ht] at h
      simp only [ne_eq, decide_not, Bool.not_eq_eq_eq_not, Bool.not_false, decide_eq_true_eq] at h
      subst h
      simp only
      split <;> rfl
  rw [e]
  simp only [Range.contains, if_true]
  by_cases h1 : y = c.pos.y
  · by_cases h2 : i = c.pos.x
    · simp [h1, h2]
    · have : ¬ (c.pos.x ≤ i ∧ i ≤ c.pos.x) := by omega
      simp [h1, h2]
      omega
  · simp [h1]

theorem cellsText_shown (f : InputField) (b : Text) :
    cellsText (b.map fun c => (CellStyle.normal, [f.shown c])) = b.map f.shown := by
  induction b with
  | nil => rfl
  | cons c b ih => rw [List.map_cons, cellsText_cons, ih]; rfl

/-- How the row of a line starts: an ellipsis, or nothing. -/
def leftPieces (f : InputField) (w : Nat) : List CellPiece := if f.scroll.x > 0 ∧ w > 4 then [(.normal, ['…'])] else []

/-- The number of columns of the left ellipsis. -/
def leftCols (f : InputField) (w : Nat) : Nat := if f.scroll.x > 0 ∧ w > 4 then 1 else 0

theorem drawLine_eq (cw : Char → Nat) (f : InputField) (w y j : Nat) (chars : Text) (cur : Option (Nat × Nat)) :
    f.drawLine cw w y j chars cur =
      ((f.drawChars cw f.content.selection y j (f.scroll.x + leftCols f w) (w - leftCols f w) 0 chars 0 0 cur).bind fun d =>
        f.drawEnd (f.focused && (y == f.content.pos.y) && (f.content.pos.x == chars.length)) (w - leftCols f w) j d).map fun d =>
          { d with pieces := leftPieces f w ++ d.pieces, width := d.width + leftCols f w } := by
  unfold drawLine leftCols leftPieces
  simp only
  split
  · simp only [Option.bind_eq_bind]
    cases f.drawChars cw f.content.selection y j (f.scroll.x + 1) (w - 1) 0 chars 0 0 cur with
    | none => rfl
    | some d =>
      simp only [Option.bind_some]
      cases f.drawEnd (f.focused && (y == f.content.pos.y) && (f.content.pos.x == chars.length)) (w - 1) j d <;> rfl
  · simp only [Option.bind_eq_bind, Nat.add_zero, Nat.sub_zero, List.nil_append]
    cases f.drawChars cw f.content.selection y j f.scroll.x w 0 chars 0 0 cur with
    | none => rfl
    | some d =>
      simp only [Option.bind_some]
      cases f.drawEnd (f.focused && (y == f.content.pos.y) && (f.content.pos.x == chars.length)) w j d <;> rfl

theorem leftPieces_normal (f : InputField) (w : Nat) : ∀ p ∈ leftPieces f w, p.1 = .normal := by
  unfold leftPieces; split <;> simp

theorem leftPieces_cols (cw : Char → Nat) (he : cw '…' = 1) (f : InputField) (w : Nat) :
    inputCols cw (cellsText (leftPieces f w)) = leftCols f w := by
  have he' : inputCharWidth cw '…' = 1 := by simp [inputCharWidth, he]
  unfold leftPieces leftCols; split <;> simp [cellsText, inputCols_cons, he']

/-- Lines without the cursor, without wide selection. -/
theorem drawLine_nocursor (cw : Char → Nat) {f : InputField} {w y j : Nat} {chars : Text} {cur : Option (Nat × Nat)} {r : Drawn}
    (hs : cw ' ' = 1) (he : cw '…' = 1)
    (hl : f.area.left + w < 65536) (ht : f.area.top + j < 65536) (hw : 1 ≤ w)
    (hn : f.content.hasWideSelection = false) (hy : y ≠ f.content.pos.y) (h : f.drawLine cw w y j chars cur = some r) :
    r.cursor = cur ∧ ∀ p ∈ r.pieces, p.1 = .normal := by
  have hw' : 1 ≤ w - leftCols f w := by unfold leftCols; split <;> omega
  rw [drawLine_eq] at h
  obtain ⟨d, g1, g2, g3, _, _⟩ := drawChars_width cw he f.content.selection y j (f.scroll.x + leftCols f w) (w - leftCols f w) (f := f)
    (by omega) ht chars 0 0 0 cur hw'
  have hno := drawChars_none cw f.content.selection y j (f.scroll.x + leftCols f w) (w - leftCols f w) (f := f)
    (by omega) ht chars 0 0 0 cur hw' (by intro k _ _; rw [selection_narrow hn]; simp [hy]) d g1
  obtain ⟨d', n, k1, _, _, k2⟩ := drawEnd_ok cw hs (f.focused && (y == f.content.pos.y) && (f.content.pos.x == chars.length)) (f := f)
    (w := w - leftCols f w) (j := j) (d := d) (by omega) ht (by omega) g3
  rw [g1, Option.bind_some, k1] at h
  have hb : (y == f.content.pos.y) = false := by simp [hy]
  rw [if_neg (by simp [hb])] at k2
  cases h
  refine ⟨by rw [← hno.1]; exact k2.2, ?_⟩
  simp only [k2.1, List.mem_append, List.mem_replicate]
  rintro p (h | h | h)
  · exact leftPieces_normal f w p h
  · exact hno.2 p h
  · rw [h.2]

/-- The line of the cursor, without wide selection, when the cursor is in the displayed columns. -/
theorem drawLine_cursor (cw : Char → Nat) {f : InputField} {w j : Nat} {chars : Text} (cur : Option (Nat × Nat))
    (hs : cw ' ' = 1) (he : cw '…' = 1) (hf : f.focused = true)
    (hl : f.area.left + w < 65536) (ht : f.area.top + j < 65536) (hw : 1 ≤ w)
    (hn : f.content.hasWideSelection = false) (hx : f.content.pos.x ≤ chars.length)
    (h1 : f.scroll.x + leftCols f w ≤ inputCols cw ((chars.take f.content.pos.x).map f.shown))
    (h2 : inputCols cw ((chars.take f.content.pos.x).map f.shown) < f.scroll.x + w) :
    ∃ before ch after wd k, f.drawLine cw w f.content.pos.y j chars cur =
        some ⟨leftPieces f w ++ before ++ (.cursor, [ch]) :: after, wd, some (f.area.left + k, f.area.top + j)⟩ ∧
      k = inputCols cw (cellsText before) ∧ k < w - leftCols f w ∧
      (∀ p ∈ before, p.1 = .normal) ∧ (∀ p ∈ after, p.1 = .normal) ∧
      (ch = '…' ∨ ch = (chars[f.content.pos.x]?.map f.shown).getD ' ') := by
  have hw' : 1 ≤ w - leftCols f w := by unfold leftCols; split <;> omega
  have hlc : leftCols f w ≤ w := by unfold leftCols; split <;> omega
  rw [drawLine_eq]
  generalize hskip : f.scroll.x + leftCols f w = skip at *
  generalize hav : w - leftCols f w = av at *
  have hl' : f.area.left + av < 65536 := by omega
  obtain ⟨a, b, e1, _, e3, e4⟩ := drawChars_skip cw f.content.selection f.content.pos.y j skip av (f := f) hl' ht cur
    (chars.take f.content.pos.x) (chars.drop f.content.pos.x) 0 0 (by omega)
  rw [List.take_append_drop] at e4
  rw [e4]
  have hcol : inputCols cw ((chars.take f.content.pos.x).map f.shown) = inputCols cw (a.map f.shown) + inputCols cw (b.map f.shown) := by
    rw [e1, List.map_append, inputCols_append]
  have hlen : (a.length + b.length) = f.content.pos.x := by
    have := congrArg List.length e1
    simp at this; omega
  obtain ⟨cur', c1, c2⟩ := drawChars_shown cw f.content.selection f.content.pos.y j skip av (f := f) hl' ht
    (chars.drop f.content.pos.x) (0 + inputCols cw (a.map f.shown)) (by omega) b (0 + a.length) 0 cur (by omega)
  rw [c2]
  have hcont : ∀ i, f.content.selection.contains i f.content.pos.y = decide (i = f.content.pos.x) := by
    intro i; rw [selection_narrow hn]; simp
  have hbn : b.mapIdx (fun k c => cellPiece f (f.content.selection.contains (0 + a.length + k) f.content.pos.y) (f.shown c)) =
      b.map fun c => (CellStyle.normal, [f.shown c]) := by
    apply List.ext_getElem (by simp)
    intro i hi1 hi2
    simp only [List.length_mapIdx] at hi1
    have hne : ¬ (0 + a.length + i = f.content.pos.x) := by omega
    simp [cellPiece, hcont]
    omega
  have hbt : cellsText (b.map fun c => (CellStyle.normal, [f.shown c])) = b.map f.shown := cellsText_shown f b
  rw [hbn, show 0 + a.length + b.length = f.content.pos.x by omega, show 0 + inputCols cw (b.map f.shown) = inputCols cw (b.map f.shown) by omega]
  have hbfin : ∀ p ∈ b.map (fun c => (CellStyle.normal, [f.shown c])), p.1 = .normal := by simp
  cases hd : chars.drop f.content.pos.x with
  | nil =>
    have hlen' : f.content.pos.x = chars.length := by
      have := List.drop_eq_nil_iff.1 hd; omega
    simp only [drawChars, Option.map_some, Option.bind_some, List.append_nil]
    obtain ⟨d', n, k1, _, _, k2⟩ := drawEnd_ok cw hs (f.focused && (f.content.pos.y == f.content.pos.y) && (f.content.pos.x == chars.length))
      (f := f) (w := av) (j := j) (d := ⟨b.map fun c => (CellStyle.normal, [f.shown c]), inputCols cw (b.map f.shown), cur'⟩)
      hl' ht (by simp only [hbt]) (by simp only; omega)
    rw [if_pos ⟨by simp only; omega, by simp [hf, hlen']⟩] at k2
    rw [k1]
    refine ⟨_, ' ', List.replicate n (.normal, [' ']), d'.width + leftCols f w, inputCols cw (b.map f.shown), ?_, by rw [hbt], by omega,
      hbfin, by simp [List.mem_replicate], .inr ?_⟩
    · simp only [Option.map_some, k2.1, k2.2, List.append_assoc]
    · simp [hlen']
  | cons c rest =>
    have hlt : f.content.pos.x < chars.length := by
      false_or_by_contra
      rw [List.drop_eq_nil_of_le (by omega)] at hd
      cases hd
    have hc : chars[f.content.pos.x]? = some c := by
      have := List.getElem?_drop (xs := chars) (i := f.content.pos.x) (j := 0)
      rw [hd] at this
      simpa using this.symm
    -- the drawing of the cursor and of what follows
    have hcell : ∃ ch after wd, drawChars cw f f.content.selection f.content.pos.y j skip av f.content.pos.x (c :: rest)
        (0 + inputCols cw (a.map f.shown)) (inputCols cw (b.map f.shown)) cur' =
          some ⟨(.cursor, [ch]) :: after, wd, some (f.area.left + inputCols cw (b.map f.shown), f.area.top + j)⟩ ∧
          (∀ p ∈ after, p.1 = .normal) ∧ (ch = '…' ∨ ch = f.shown c) := by
      rw [drawChars_cons cw _ _ j skip av _ c rest _ _ _ hl' (by omega) ht, if_neg (by omega)]
      simp only [hcont, decide_true, cellPiece, cellCur, hf, Bool.and_true, if_true, Option.some_or]
      split
      · exact ⟨_, [], _, rfl, by simp, .inl rfl⟩
      · split
        · exact ⟨_, [], _, rfl, by simp, .inr rfl⟩
        · obtain ⟨r, r1, _, _, _, _⟩ := drawChars_width cw he f.content.selection f.content.pos.y j skip av (f := f) hl' ht rest
            (f.content.pos.x + 1) (0 + inputCols cw (a.map f.shown)) (inputCols cw (b.map f.shown) + inputCharWidth cw (f.shown c))
            (some (f.area.left + inputCols cw (b.map f.shown), f.area.top + j)) (by omega)
          have r2 := drawChars_none cw f.content.selection f.content.pos.y j skip av (f := f) hl' ht rest
            (f.content.pos.x + 1) (0 + inputCols cw (a.map f.shown)) (inputCols cw (b.map f.shown) + inputCharWidth cw (f.shown c))
            (some (f.area.left + inputCols cw (b.map f.shown), f.area.top + j)) (by omega)
            (by intro k h1 h2; rw [hcont]; simp; omega) r r1
          rw [r1, Option.map_some, r2.1]
          exact ⟨_, _, _, rfl, r2.2, .inr rfl⟩
    obtain ⟨ch, after, wd, k1, k2, k3⟩ := hcell
    obtain ⟨d0, d1, d2, d3, _, _⟩ := drawChars_width cw he f.content.selection f.content.pos.y j skip av (f := f) hl' ht (c :: rest)
      f.content.pos.x (0 + inputCols cw (a.map f.shown)) (inputCols cw (b.map f.shown)) cur' (by omega)
    rw [k1] at d1
    cases d1
    simp only at d2 d3
    rw [k1]
    simp only [Option.map_some, Option.bind_some]
    obtain ⟨d', n, m1, _, _, m2⟩ := drawEnd_ok cw hs (f.focused && (f.content.pos.y == f.content.pos.y) && (f.content.pos.x == chars.length))
      (f := f) (w := av) (j := j) (d := ⟨(b.map fun c => (CellStyle.normal, [f.shown c])) ++ (.cursor, [ch]) :: after, wd,
        some (f.area.left + inputCols cw (b.map f.shown), f.area.top + j)⟩)
      hl' ht (by simp only [cellsText_append, hbt, inputCols_append]; omega) (by simp only; omega)
    have hb : (f.content.pos.x == chars.length) = false := by simp; omega
    rw [if_neg (by simp [hb])] at m2
    rw [m1]
    refine ⟨b.map fun c => (CellStyle.normal, [f.shown c]), ch, after ++ List.replicate n (.normal, [' ']), d'.width + leftCols f w,
      inputCols cw (b.map f.shown), ?_, by rw [hbt], by omega, hbfin, ?_, ?_⟩
    · simp only [Option.map_some, m2.1, m2.2, List.append_assoc, List.cons_append]
    · simp only [List.mem_append, List.mem_replicate]
      rintro p (h | h)
      · exact k2 p h
      · rw [h.2]
    · simpa [hc] using k3

/-- The terminal cursor is the one of the only row where it's set. -/
theorem drawRows_cursor (cw : Char → Nat) (bar : Char × Char) {f : InputField} {w : Nat} (sb : Option (Nat × Nat))
    (P : Nat × Nat) (t : Nat) : ∀ (n j : Nat) (cur : Option (Nat × Nat)) (rows : List Row) (cur' : Option (Nat × Nat)),
      (∀ i, j ≤ i → i < j + n → ∀ c0 r, f.drawRow cw w i c0 = some r → r.cursor = if i = t then some P else c0) →
      drawRows cw bar f w sb n j cur = some (rows, cur') → cur' = if j ≤ t ∧ t < j + n then some P else cur := by
  intro n
  induction n with
  | zero => intro j cur rows cur' _ h; rw [drawRows] at h; cases h; rw [if_neg (by omega)]
  | succ n ih =>
    intro j cur rows cur' hr h
    rw [drawRows] at h
    simp only [Option.bind_eq_bind, Option.bind_eq_some_iff, Option.some.injEq, Prod.mk.injEq] at h
    obtain ⟨y, _, d, hd, rest, hrest, _, rfl⟩ := h
    have h1 := hr j (by omega) (by omega) cur d hd
    have h2 := ih (j + 1) d.cursor rest.1 rest.2 (fun i a b => hr i (by omega) (by omega)) hrest
    rw [h2, h1]
    by_cases c : j = t
    · rw [if_neg (by omega), if_pos c, if_pos (by omega)]
    · rw [if_neg c]
      by_cases c2 : j + 1 ≤ t ∧ t < j + 1 + n
      · rw [if_pos c2, if_pos (by omega)]
      · rw [if_neg c2, if_neg (by omega)]

/-- Apart from the terminal cursor, the drawing doesn't depend on the previous terminal cursor. -/
theorem drawChars_cur (cw : Char → Nat) (f : InputField) (sel : Range) (y j skip w : Nat) :
    ∀ (chars : Text) (i skipped d : Nat) (c0 c1 : Option (Nat × Nat)),
      (drawChars cw f sel y j skip w i chars skipped d c0).map (fun r => (r.pieces, r.width)) =
        (drawChars cw f sel y j skip w i chars skipped d c1).map (fun r => (r.pieces, r.width)) := by
  intro chars
  induction chars with
  | nil => intro i s d c0 c1; rfl
  | cons c rest ih =>
    intro i s d c0 c1
    rw [drawChars, drawChars]
    simp only [Option.bind_eq_bind]
    generalize (if f.passwordMode = true then '*' else c) = ch
    split
    · exact ih ..
    · split
      · cases f.drawCell (sel.contains i y) '…' d j <;> rfl
      · cases f.drawCell (sel.contains i y) ch d j with
        | none => rfl
        | some p =>
          simp only [Option.bind_some]
          split
          · rfl
          · have := ih (i + 1) s (d + inputCharWidth cw ch) (p.2.or c0) (p.2.or c1)
            generalize drawChars cw f sel y j skip w (i + 1) rest s (d + inputCharWidth cw ch) (p.2.or c0) = a at *
            generalize drawChars cw f sel y j skip w (i + 1) rest s (d + inputCharWidth cw ch) (p.2.or c1) = b at *
            cases a <;> cases b <;> simp_all

theorem drawRow_cur (cw : Char → Nat) (f : InputField) (w j : Nat) (c0 c1 : Option (Nat × Nat)) :
    (f.drawRow cw w j c0).map (fun r => (r.pieces, r.width)) = (f.drawRow cw w j c1).map (fun r => (r.pieces, r.width)) := by
  unfold drawRow
  split
  · rename_i chars _
    rw [drawLine_eq, drawLine_eq]
    have := drawChars_cur cw f f.content.selection (f.scroll.y + j) j (f.scroll.x + leftCols f w) (w - leftCols f w) chars 0 0 0 c0 c1
    generalize drawChars cw f f.content.selection (f.scroll.y + j) j (f.scroll.x + leftCols f w) (w - leftCols f w) 0 chars 0 0 c0 = a at *
    generalize drawChars cw f f.content.selection (f.scroll.y + j) j (f.scroll.x + leftCols f w) (w - leftCols f w) 0 chars 0 0 c1 = b at *
    cases a with
    | none => cases b <;> simp_all
    | some a =>
      cases b with
      | none => simp at this
      | some b =>
        simp only [Option.map_some, Option.some.injEq, Prod.mk.injEq] at this
        simp only [Option.bind_some, drawEnd, this.1, this.2]
        split
        · cases cursorCell f b.width j <;> rfl
        · rfl
  · unfold drawEmpty
    cases (Filling.fromChar ' ').queue w <;> rfl

/-- The first piece in the cursor style is at the same place. -/
theorem first_cursor {a b a' b' : List CellPiece} {x y : Text} (ha : ∀ p ∈ a, p.1 ≠ .cursor) (hb : ∀ p ∈ b, p.1 ≠ .cursor)
    (h : a ++ (.cursor, x) :: a' = b ++ (.cursor, y) :: b') : a = b := by
  induction a generalizing b with
  | nil =>
    cases b with
    | nil => rfl
    | cons p b =>
      simp only [List.nil_append, List.cons_append, List.cons.injEq] at h
      exact absurd (by rw [← h.1]) (hb p (by simp))
  | cons q a ih =>
    cases b with
    | nil =>
      simp only [List.nil_append, List.cons_append, List.cons.injEq] at h
      exact absurd (by rw [h.1]) (ha q (by simp))
    | cons p b =>
      simp only [List.cons_append, List.cons.injEq] at h
      rw [h.1, ih (fun p hp => ha p (by simp [hp])) (fun p hp => hb p (by simp [hp])) h.2]

end Verif

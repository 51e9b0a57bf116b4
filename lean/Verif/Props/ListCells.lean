import Verif.Props.Cells
import Verif.Props.Tty
import Verif.Props.ListViewDisplay
/-! C64, for list views: which cells of a terminal are changed. -/
namespace Verif.Props
open Verif Spec ListView

variable {T : Type}

/-- All the characters a list view may write but those of its scrollbar take one column: those of the titles and of the cells, spaces and
separators. -/
def _root_.Verif.Spec.OneColumnList (cw : Char → Nat) (v : ListView T) : Prop :=
  (∀ c ∈ [' ', '│', '┬', '┼', '─'], cw c = 1) ∧
  ∀ col ∈ v.columns, (∀ c ∈ col.title, cw c = 1) ∧ ∀ r ∈ v.rows, ∀ c ∈ (col.extract r.data).con, cw c = 1

/-- The number of columns of the table of a list view. -/
def _root_.Verif.Spec.listCols (v : ListView T) : Nat := (v.columns.map (·.width)).sum + (v.columns.length - 1)

private theorem row_at (cw : Char → Nat) (r : Nat × Nat × List Piece) (g : Cells CompoundStyle) (x y : Nat) :
    printSeen cw [r] g x y =
      if y = r.2.1 ∧ r.1 ≤ x then (columnOf cw (pieceChars (seenPieces r.2.2)) (x - r.1)).getD (g x y) else g x y := by
  simp only [printSeen, printRows, List.map_cons, List.map_nil, List.foldl_cons, List.foldl_nil, printPieces_eq]

private theorem bodyRow_other (cw : Char → Nat) (g : Cells CompoundStyle) (r : BodyRow) (hb : ∀ b, r.bar = some b → b.2.1 = r.y) (x y : Nat)
    (hy : y ≠ r.y) : printBodyRow cw g r x y = g x y := by
  unfold printBodyRow
  cases h : r.bar with
  | none =>
    cases r.content with
    | none => simp only [clearFrom]; rw [if_neg (by omega)]
    | some c => simp only [row_at]; rw [if_neg (by omega)]
  | some b =>
    have e := hb b h
    cases r.content with
    | none => simp only [row_at, clearFrom]; rw [if_neg (by omega), if_neg (by omega)]
    | some c => simp only [row_at]; rw [if_neg (by omega), if_neg (by omega)]

private theorem bodyRow_congr (cw : Char → Nat) (g g' : Cells CompoundStyle) (r : BodyRow) (x y : Nat) (hg : g x y = g' x y) :
    printBodyRow cw g r x y = printBodyRow cw g' r x y := by
  unfold printBodyRow
  cases r.content with
  | none => cases r.bar <;> simp only [row_at, clearFrom, hg]
  | some c => cases r.bar <;> simp only [row_at, hg]

private theorem body_at (cw : Char → Nat) : ∀ (body : List BodyRow) (y0 : Nat) (g : Cells CompoundStyle) (x y : Nat),
    (∀ (j : Nat) row, body[j]? = some row → row.y = y0 + j ∧ ∀ b, row.bar = some b → b.2.1 = row.y) →
    (∀ (j : Nat) row, body[j]? = some row → y = y0 + j → body.foldl (printBodyRow cw) g x y = printBodyRow cw g row x y) ∧
    ((y < y0 ∨ y0 + body.length ≤ y) → body.foldl (printBodyRow cw) g x y = g x y) := by
  intro body
  induction body with
  | nil => intro y0 g x y _; exact ⟨fun j row h => by simp at h, fun _ => rfl⟩
  | cons r body ih =>
    intro y0 g x y h
    obtain ⟨e1, e2⟩ := h 0 r rfl
    obtain ⟨i1, i2⟩ := ih (y0 + 1) (printBodyRow cw g r) x y (by
      intro j row hj
      have := h (j + 1) row (by simpa using hj)
      exact ⟨by omega, this.2⟩)
    rw [List.foldl_cons]
    refine ⟨?_, ?_⟩
    · intro j row hj hy
      cases j with
      | zero =>
        simp only [List.getElem?_cons_zero, Option.some.injEq] at hj
        subst hj
        exact i2 (by omega)
      | succ j =>
        rw [i1 j row (by simpa using hj) (by omega)]
        exact bodyRow_congr cw _ _ _ x y (bodyRow_other cw g r e2 x y (by omega))
    · intro hy
      rw [List.length_cons] at hy
      rw [i2 (by omega)]
      exact bodyRow_other cw g r e2 x y (by omega)

private theorem width_one (cw : Char → Nat) : ∀ t : Text, (∀ c ∈ t, cw c = 1) → textWidth cw t = t.length := by
  intro t
  induction t with
  | nil => intro _; rfl
  | cons c t ih =>
    intro h
    simp only [textWidth, List.length_cons]
    rw [h c (by simp), ih fun d hd => h d (by simp [hd])]
    omega

private theorem mem_weave : ∀ (l : List Text) (seps : List Char) (c : Char), c ∈ weave l seps → (∃ t ∈ l, c ∈ t) ∨ c ∈ seps := by
  intro l
  induction l with
  | nil => intro seps c h; simp [weave] at h
  | cons a l ih =>
    intro seps c h
    cases l with
    | nil => exact .inl ⟨a, by simp, by simpa [weave] using h⟩
    | cons b l =>
      cases seps with
      | nil =>
        simp only [weave, List.mem_append] at h
        rcases h with h | h
        · exact .inl ⟨a, by simp, h⟩
        · rcases ih [] c h with ⟨t, ht, hc⟩ | h
          · exact .inl ⟨t, by simp at ht ⊢; exact .inr ht, hc⟩
          · simp at h
      | cons s seps =>
        simp only [weave, List.mem_append, List.mem_cons] at h
        rcases h with h | rfl | h
        · exact .inl ⟨a, by simp, h⟩
        · exact .inr (by simp)
        · rcases ih seps c h with ⟨t, ht, hc⟩ | h
          · exact .inl ⟨t, by simp at ht ⊢; exact .inr ht, hc⟩
          · exact .inr (by simp [h])

private theorem mem_writeStr (sp : Spacing) (s : Text) (c : Char) (h : c ∈ sp.writeStr s) : c ∈ s ∨ c = ' ' := by
  unfold Spacing.writeStr Spacing.writeCountedStr at h
  split at h
  · exact .inl (List.mem_of_mem_take h)
  · simp only [List.mem_append, List.mem_replicate] at h
    rcases h with (h | h) | h
    · exact .inr h.2
    · exact .inl h
    · exact .inr h.2

private theorem chars_sum (cw : Char → Nat) (ps : List Piece) :
    ((pieceChars (seenPieces ps)).map fun p => cw p.2).sum = textWidth cw (piecesText ps) := by
  have e : ∀ t : Text, textWidth cw t = (t.map cw).sum := by
    intro t
    induction t with
    | nil => rfl
    | cons c t ih => simp only [textWidth, List.map_cons, List.sum_cons, ih]
  rw [e]
  congr 1
  induction ps with
  | nil => rfl
  | cons p ps ih =>
    simp only [pieceChars, seenPieces, piecesText, List.map_cons, List.flatMap_cons, List.map_append] at ih ⊢
    rw [ih]
    simp [Function.comp_def]

private theorem in_row {cw : Char → Nat} {ps : List Piece} {n : Nat} (hn : textWidth cw (piecesText ps) = n) (left x : Nat)
    (old : CompoundStyle × Char × Nat) (hx : left ≤ x) :
    (x < left + n → columnOf cw (pieceChars (seenPieces ps)) (x - left) =
      some ((columnOf cw (pieceChars (seenPieces ps)) (x - left)).getD old)) ∧
    (left + n ≤ x → (columnOf cw (pieceChars (seenPieces ps)) (x - left)).getD old = old) := by
  constructor
  · intro h
    obtain ⟨c, hc⟩ := (columnOf_some cw (pieceChars (seenPieces ps)) (x - left)).2 (by rw [chars_sum]; omega)
    rw [hc]; rfl
  · intro h
    cases hc : columnOf cw (pieceChars (seenPieces ps)) (x - left) with
    | none => rfl
    | some c =>
      have := (columnOf_some cw (pieceChars (seenPieces ps)) (x - left)).1 ⟨c, hc⟩
      rw [chars_sum] at this
      omega

/-- C64: a list view whose table has its place in its area changes the columns of its table in its rows, where the title line, the rule and
the displayed rows are seen; it clears the rows of the area without data, up to the end of the lines of the terminal; it draws its scrollbar,
if there's one, in the column after its area. All other cells are as they were, even those of the area at the right of the table. -/
theorem C64_list_view (cw : Char → Nat) (ok : ListOp T → Prop) (area : Area) (columns : List (ListColumn T)) (v : ListView T) (h : ListHistory T)
    (hr : ReachableList ok area columns v h) (skin : Skin) (w : Written) (hw : v.writeOn skin = some w) (hs : v.scroll ≤ v.rows.length)
    (ht : v.area.top + v.area.height < 65536) (hh : 2 ≤ v.area.height) (hc : v.displayedCount < 65536) (hcw : OneColumnList cw v)
    (hb : cw skin.scrollbar.thumb.drawn.2 = 1 ∧ cw skin.scrollbar.track.drawn.2 = 1) (hfit : listCols v ≤ v.area.width)
    (g : Cells CompoundStyle) (x y : Nat) :
    ((x < v.area.left ∨ y < v.area.top ∨ v.area.top + v.area.height ≤ y) → printList cw w g x y = g x y) ∧
    (∀ ps, (y = v.area.top ∧ ps = w.titles.pieces ∨ y = v.area.top + 1 ∧ ps = w.rule.pieces) → v.area.left ≤ x →
      (x < v.area.left + listCols v → columnOf cw (pieceChars (seenPieces ps)) (x - v.area.left) = some (printList cw w g x y)) ∧
      (v.area.left + listCols v ≤ x → printList cw w g x y = g x y)) ∧
    (∀ (j : Nat) (row : BodyRow), w.body[j]? = some row → y = v.area.top + 2 + j → v.area.left ≤ x →
      (v.area.height - 2 < v.displayedCount → x ≠ v.area.left + v.area.width) →
      (∀ i ps, row.content = some (i, ps) →
        (x < v.area.left + listCols v → columnOf cw (pieceChars (seenPieces ps)) (x - v.area.left) = some (printList cw w g x y)) ∧
        (v.area.left + listCols v ≤ x → printList cw w g x y = g x y)) ∧
      (row.content = none → printList cw w g x y = ({}, ' ', 0))) ∧
    (v.area.height - 2 < v.displayedCount → v.area.top + 2 ≤ y → y < v.area.top + v.area.height → x = v.area.left + v.area.width →
      ∃ sc, (sc = skin.scrollbar.thumb ∨ sc = skin.scrollbar.track) ∧ printList cw w g x y = (seen sc.drawn.1, sc.drawn.2, 0)) := by
  obtain ⟨⟨t1, t2, t3, t4⟩, ⟨groups, q1, q2, _, q3⟩, q4⟩ := C47_header ok area columns v h hr skin w hw
  obtain ⟨b1, b2⟩ := C47_rows v skin w hw hs ht
  obtain ⟨a1, a2, a3⟩ := C47_aligned ok area columns v h hr skin w hw hs ht
  obtain ⟨d1, d2⟩ := C47_bar v skin w hw hs ht hc
  obtain ⟨hsep, hcol⟩ := hcw
  -- the widths of the rows
  have wt : textWidth cw (piecesText w.titles.pieces) = listCols v := by
    rw [width_one cw, a1]; rfl
    intro c hc
    rw [q3] at hc
    rcases mem_weave _ _ _ hc with ⟨t, ht, hc⟩ | hc
    · obtain ⟨gr, hgr, rfl⟩ := List.mem_map.1 ht
      cases gr with
      | nil => simp [centeredTitle] at hc
      | cons col gr =>
        rcases mem_writeStr _ _ _ hc with hc | rfl
        · exact (hcol col (by rw [← q1]; exact List.mem_flatten.2 ⟨_, hgr, by simp⟩)).1 c hc
        · exact hsep ' ' (by simp)
    · rw [(List.mem_replicate.1 hc).2]; exact hsep '│' (by simp)
  have wr : textWidth cw (piecesText w.rule.pieces) = listCols v := by
    rw [width_one cw, a2]; rfl
    intro c hc
    rw [q4] at hc
    rcases mem_weave _ _ _ hc with ⟨t, ht, hc⟩ | hc
    · obtain ⟨col, _, rfl⟩ := List.mem_map.1 ht
      rw [(List.mem_replicate.1 hc).2]; exact hsep '─' (by simp)
    · obtain ⟨i, hi, e⟩ := List.getElem_of_mem hc
      simp only [List.getElem_zipWith] at e
      subst e
      split
      · exact hsep '┬' (by simp)
      · exact hsep '┼' (by simp)
  have wb : ∀ row ∈ w.body, ∀ i ps, row.content = some (i, ps) → textWidth cw (piecesText ps) = listCols v := by
    intro row hrow i ps hps
    rw [width_one cw, a3 row hrow i ps hps]; rfl
    intro c hc
    obtain ⟨j, hj⟩ := List.mem_iff_getElem?.1 hrow
    obtain ⟨_, _, _, hrows⟩ := b2 j row hj
    obtain ⟨r, hr1, _, hr2⟩ := hrows i ps hps
    rw [hr2] at hc
    rcases mem_weave _ _ _ hc with ⟨t, ht, hc⟩ | hc
    · obtain ⟨col, hcol1, rfl⟩ := List.mem_map.1 ht
      rcases mem_writeStr _ _ _ hc with hc | rfl
      · exact (hcol col hcol1).2 r (List.mem_of_getElem? hr1) c hc
      · exact hsep ' ' (by simp)
    · rw [(List.mem_replicate.1 hc).2]; exact hsep '│' (by simp)
  -- the scrollbar
  have hbar : ∀ row ∈ w.body, (row.bar = none ∧ v.displayedCount ≤ v.area.height - 2) ∨
      (v.area.height - 2 < v.displayedCount ∧ ∃ sc, (sc = skin.scrollbar.thumb ∨ sc = skin.scrollbar.track) ∧
        row.bar = some (v.area.left + v.area.width, row.y, sc.display)) := by
    intro row hrow
    by_cases hd : v.displayedCount ≤ v.area.height - 2
    · exact .inl ⟨d1 hd row hrow, hd⟩
    · obtain ⟨ps, e, hps⟩ := d2 (by omega) row hrow
      refine .inr ⟨by omega, ?_⟩
      rcases hps with rfl | rfl
      · exact ⟨_, .inl rfl, e⟩
      · exact ⟨_, .inr rfl, e⟩
  obtain ⟨f1, f2⟩ := body_at cw w.body (v.area.top + 2)
    (printSeen cw [(w.titles.x, w.titles.y, w.titles.pieces), (w.rule.x, w.rule.y, w.rule.pieces)] g) x y (by
      intro j row hj
      obtain ⟨_, e, _⟩ := b2 j row hj
      refine ⟨e, ?_⟩
      intro b hb
      rcases hbar row (List.mem_of_getElem? hj) with ⟨h, _⟩ | ⟨_, sc, _, h⟩
      · rw [h] at hb; cases hb
      · rw [h] at hb; cases hb; rfl)
  have hhead : printSeen cw [(w.titles.x, w.titles.y, w.titles.pieces), (w.rule.x, w.rule.y, w.rule.pieces)] g x y =
      if y = v.area.top + 1 ∧ v.area.left ≤ x then (columnOf cw (pieceChars (seenPieces w.rule.pieces)) (x - v.area.left)).getD (g x y)
      else if y = v.area.top ∧ v.area.left ≤ x then (columnOf cw (pieceChars (seenPieces w.titles.pieces)) (x - v.area.left)).getD (g x y)
      else g x y := by
    rw [printSeen_cons, row_at]
    simp only [t1, t2, t3, t4]
    by_cases h1 : y = v.area.top + 1 ∧ v.area.left ≤ x
    · rw [if_pos h1, if_pos h1, row_at, if_neg (by simp only; omega)]
    · rw [if_neg h1, if_neg h1, row_at]
  have hlen : w.body.length = v.area.height - 2 := b1
  refine ⟨?_, ?_, ?_, ?_⟩
  · rintro hout
    by_cases hy : y < v.area.top + 2 ∨ v.area.top + 2 + w.body.length ≤ y
    · unfold printList
      rw [f2 hy, hhead, if_neg (by omega), if_neg (by omega)]
    · have hj : w.body[y - (v.area.top + 2)]? = some w.body[y - (v.area.top + 2)] := List.getElem?_eq_getElem (by omega)
      unfold printList
      rw [f1 _ _ hj (by omega)]
      have hx : x < v.area.left := by omega
      obtain ⟨e1, e2, _⟩ := b2 _ _ hj
      have hm := List.mem_of_getElem? hj
      generalize w.body[y - (v.area.top + 2)] = row at *
      have hg : printSeen cw [(w.titles.x, w.titles.y, w.titles.pieces), (w.rule.x, w.rule.y, w.rule.pieces)] g x y = g x y := by
        rw [hhead, if_neg (by omega), if_neg (by omega)]
      rw [bodyRow_congr cw _ g _ x y hg]
      unfold printBodyRow
      rcases hbar row hm with ⟨hb, _⟩ | ⟨_, sc, _, hb⟩
      · rw [hb]
        cases row.content with
        | none => simp only [clearFrom]; rw [if_neg (by omega)]
        | some c => simp only [row_at]; rw [if_neg (by omega)]
      · rw [hb]
        simp only [row_at]
        rw [if_neg (by omega)]
        cases row.content with
        | none => simp only [clearFrom]; rw [if_neg (by omega)]
        | some c => simp only [row_at]; rw [if_neg (by omega)]
  · rintro ps (⟨hy, rfl⟩ | ⟨hy, rfl⟩) hx
    · have e : printList cw w g x y = (columnOf cw (pieceChars (seenPieces w.titles.pieces)) (x - v.area.left)).getD (g x y) := by
        unfold printList
        rw [f2 (by omega), hhead, if_neg (by omega), if_pos ⟨hy, hx⟩]
      rw [e]
      exact in_row wt _ _ _ hx
    · have e : printList cw w g x y = (columnOf cw (pieceChars (seenPieces w.rule.pieces)) (x - v.area.left)).getD (g x y) := by
        unfold printList
        rw [f2 (by omega), hhead, if_pos ⟨hy, hx⟩]
      rw [e]
      exact in_row wr _ _ _ hx
  · intro j row hj hy hx hne
    obtain ⟨e1, e2, _⟩ := b2 _ _ hj
    have hm := List.mem_of_getElem? hj
    have hg : printSeen cw [(w.titles.x, w.titles.y, w.titles.pieces), (w.rule.x, w.rule.y, w.rule.pieces)] g x y = g x y := by
      rw [hhead, if_neg (by omega), if_neg (by omega)]
    have e : printList cw w g x y = (match row.content with
        | some (_, ps) => printSeen cw [(row.x, row.y, ps)] g
        | none => clearFrom row.x row.y g) x y := by
      unfold printList
      rw [f1 _ _ hj hy, bodyRow_congr cw _ g _ x y hg]
      unfold printBodyRow
      rcases hbar row hm with ⟨hbr, _⟩ | ⟨hgt, sc, hsc, hbr⟩
      · rw [hbr]
        cases row.content <;> rfl
      · rw [hbr]
        have hw1 : cw sc.drawn.2 = 1 := hsc.elim (fun e => e ▸ hb.1) (fun e => e ▸ hb.2)
        simp only [row_at]
        split
        · rename_i hc
          have : columnOf cw (pieceChars (seenPieces sc.display)) (x - (v.area.left + v.area.width)) = none := by
            have := hne hgt
            simp only [StyledChar.display, seenPieces, pieceChars, List.map_cons, List.map_nil, List.flatMap_cons, List.flatMap_nil,
              List.append_nil, columnOf]
            rw [if_neg (by omega)]
          rw [this]; rfl
        · rfl
    constructor
    · intro i ps hps
      have e3 : printList cw w g x y = (columnOf cw (pieceChars (seenPieces ps)) (x - v.area.left)).getD (g x y) := by
        rw [e, hps]
        simp only [row_at]
        rw [if_pos (by omega), e1]
      rw [e3]
      exact in_row (wb row hm i ps hps) _ _ _ hx
    · intro hn
      rw [e, hn]
      simp only [clearFrom]
      rw [if_pos (by omega)]
  · intro hgt hy1 hy2 hx
    have hj : w.body[y - (v.area.top + 2)]? = some w.body[y - (v.area.top + 2)] := List.getElem?_eq_getElem (by omega)
    obtain ⟨e1, e2, _⟩ := b2 _ _ hj
    have hm := List.mem_of_getElem? hj
    unfold printList
    rw [f1 _ _ hj (by omega)]
    generalize w.body[y - (v.area.top + 2)] = row at *
    rcases hbar row hm with ⟨_, hd⟩ | ⟨hgt, sc, hsc, hbr⟩
    · omega
    · refine ⟨sc, hsc, ?_⟩
      have hw1 : cw sc.drawn.2 = 1 := hsc.elim (fun e => e ▸ hb.1) (fun e => e ▸ hb.2)
      unfold printBodyRow
      rw [hbr]
      simp only [row_at]
      rw [if_pos ⟨by omega, by omega⟩]
      simp only [StyledChar.display, seenPieces, pieceChars, List.map_cons, List.map_nil, List.flatMap_cons, List.flatMap_nil,
        List.append_nil, columnOf]
      rw [if_pos (by omega)]
      simp only [Option.getD_some]
      congr 2
      omega

/-- C64: the hypotheses are met by a list of four rows in an area where two of them are seen. -/
example : let v := listOf ⟨3, 1, 15, 4⟩ displayColumns [0, 1, 2, 3]
    ReachableList (fun _ => True) ⟨3, 1, 15, 4⟩ displayColumns v { added := [0, 1, 2, 3] } ∧ (v.writeOn renderSkin).isSome = true ∧
    v.scroll ≤ v.rows.length ∧ v.displayedCount = 4 ∧ OneColumnList (fun _ => 1) v ∧ listCols v = 11 :=
  ⟨listOf_reachable _ (fun _ => trivial) _ _ _, by decide, by decide, by decide, ⟨fun _ _ => rfl, fun _ _ => ⟨fun _ _ => rfl, fun _ _ _ _ => rfl⟩⟩,
    by decide⟩

/-- C64: a list view clears cells out of its area: in the rows without data, all those of the line at the right of the area. -/
theorem C64_clear_counterexample : ∃ w : Written, (listOf ⟨3, 2, 9, 5⟩ displayColumns [0, 1]).writeOn renderSkin = some w ∧
    ∀ (cw : Char → Nat) (g : Cells CompoundStyle) (x : Nat), 12 ≤ x →
      ¬ InArea ⟨3, 2, 9, 5⟩ x 6 ∧ printList cw w g x 6 = ({}, ' ', 0) := by
  refine ⟨_, rfl, ?_⟩
  intro cw g x hx
  refine ⟨?_, ?_⟩
  · rintro ⟨i, j, hi, hj, hx, hy⟩
    simp only at hi hx
    omega
  · show clearFrom 3 6 _ x 6 = _
    simp only [clearFrom]
    rw [if_pos ⟨trivial, by omega⟩]

end Verif.Props

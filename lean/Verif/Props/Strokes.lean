import Verif.Props.Borders
import Verif.Props.Rect
import Verif.Spec.Strokes
/-! C83: the lines of borders join. -/
namespace Verif.Props
open Verif Spec

/-- The characters of a rule by position in the table: at the left, between columns, at the right. -/
private def ruleCorners (t : TableBorderChars) : RelPos → Char × Char × Char
  | .top => (t.topLeftCorner, t.topJunction, t.topRightCorner)
  | .other => (t.leftJunction, t.cross, t.rightJunction)
  | .bottom => (t.bottomLeftCorner, t.bottomJunction, t.bottomRightCorner)

private theorem corners_strokes {t : TableBorderChars} (ht : PredefinedBorders t) (p : RelPos) :
    (strokes (ruleCorners t p).1).right = true ∧ (strokes (ruleCorners t p).2.1).right = true ∧
    (strokes (ruleCorners t p).2.1).left = true ∧ (strokes (ruleCorners t p).2.2).left = true ∧
    (strokes t.horizontal).left = true ∧ (strokes t.horizontal).right = true ∧
    (strokes t.vertical).up = true ∧ (strokes t.vertical).down = true ∧
    (p ≠ .bottom → (strokes (ruleCorners t p).1).down = true ∧ (strokes (ruleCorners t p).2.1).down = true ∧ (strokes (ruleCorners t p).2.2).down = true) ∧
    (p ≠ .top → (strokes (ruleCorners t p).1).up = true ∧ (strokes (ruleCorners t p).2.1).up = true ∧ (strokes (ruleCorners t p).2.2).up = true) := by
  rcases ht with rfl | rfl | rfl <;> cases p <;> decide

private theorem corners_closed {t : TableBorderChars} (ht : t = .standard ∨ t = .rounded) (p : RelPos) :
    (strokes (ruleCorners t p).1).left = false ∧ (strokes (ruleCorners t p).2.2).right = false ∧
    (strokes t.vertical).left = false ∧ (strokes t.vertical).right = false ∧
    (strokes t.horizontal).up = false ∧ (strokes t.horizontal).down = false ∧
    (p = .top → (strokes (ruleCorners t p).1).up = false ∧ (strokes (ruleCorners t p).2.1).up = false ∧ (strokes (ruleCorners t p).2.2).up = false) ∧
    (p = .bottom → (strokes (ruleCorners t p).1).down = false ∧ (strokes (ruleCorners t p).2.1).down = false ∧ (strokes (ruleCorners t p).2.2).down = false) := by
  rcases ht with rfl | rfl <;> cases p <;> decide

/-- A column is between two neighbours. -/
private theorem between_cols : ∀ (cols : List Nat) (first last x : Nat), cols.head? = some first → cols.getLast? = some last → first ≤ x → x < last →
    ∃ (i a b : Nat), cols[i]? = some a ∧ cols[i + 1]? = some b ∧ a ≤ x ∧ x < b
  | [], _, _, _, h, _, _, _ => by cases h
  | [a], _, _, _, h, h', _, _ => by simp at h h'; omega
  | a :: b :: rest, first, last, x, h, h', h1, h2 => by
    simp only [List.head?_cons, Option.some.injEq] at h
    by_cases hx : x < b
    · exact ⟨0, a, b, rfl, rfl, by omega, hx⟩
    · obtain ⟨i, c, d, e1, e2, e3, e4⟩ := between_cols (b :: rest) b last x rfl (by rw [← h', List.getLast?_cons_cons]) (by omega) h2
      exact ⟨i + 1, c, d, e1, e2, e3, e4⟩

private theorem drawn_corner {t : TableBorderChars} {cw : Char → Nat} {cols : List Nat} {rule : FmtTableRule} {row : Text}
    (h : Bordered cw t cols (.tableRule rule) row) (i col : Nat) (hi : cols[i]? = some col) :
    DrawnAt cw row col (if i = 0 then (ruleCorners t rule.position).1 else if i + 1 = cols.length then (ruleCorners t rule.position).2.2
      else (ruleCorners t rule.position).2.1) ∧
    ∀ next, cols[i + 1]? = some next → ∀ c, col < c → c < next → DrawnAt cw row c t.horizontal := by
  have := h i col hi
  revert this
  cases rule.position <;> exact id

private theorem unbroken {t : TableBorderChars} (ht : PredefinedBorders t) {cw : Char → Nat} {cols : List Nat} {rule : FmtTableRule} {row : Text}
    (h : Bordered cw t cols (.tableRule rule) row) : Unbroken cw cols row := by
  intro first last hf hl x h1 h2
  obtain ⟨i, a, b, ha, hb, h3, h4⟩ := between_cols cols first last x hf hl h1 h2
  obtain ⟨s1, s2, s3, s4, s5, s6, _⟩ := corners_strokes ht rule.position
  obtain ⟨d1, d2⟩ := drawn_corner h i a ha
  obtain ⟨d3, _⟩ := drawn_corner h (i + 1) b hb
  have hlen : i + 1 < cols.length := (List.getElem?_eq_some_iff.1 hb).1
  constructor
  · by_cases hx : x = a
    · subst hx
      refine ⟨_, d1, ?_⟩
      by_cases hi : i = 0
      · rw [if_pos hi]; exact s1
      · rw [if_neg hi, if_neg (by omega)]; exact s2
    · exact ⟨_, d2 b hb x (by omega) h4, s6⟩
  · by_cases hx : x + 1 = b
    · rw [hx]
      refine ⟨_, d3, ?_⟩
      rw [if_neg (by omega)]
      by_cases hi : i + 1 + 1 = cols.length
      · rw [if_pos hi]; exact s4
      · rw [if_neg hi]; exact s3
    · exact ⟨_, d2 b hb (x + 1) (by omega) (by omega), s5⟩

/-- What the characters at the borders have in common. -/
private theorem at_border {t : TableBorderChars} {cw : Char → Nat} {cols : List Nat} {l : FmtLine} {row : Text} (h : Bordered cw t cols l row) (p : Strokes → Prop)
    (hv : p (strokes t.vertical)) (hr : ∀ rule, l = .tableRule rule → p (strokes (ruleCorners t rule.position).1) ∧
      p (strokes (ruleCorners t rule.position).2.1) ∧ p (strokes (ruleCorners t rule.position).2.2)) : ∀ col ∈ cols, LineAt cw row col p := by
  intro col hc
  cases l with
  | tableRow cells => exact ⟨_, h col hc, hv⟩
  | tableRule rule =>
    obtain ⟨i, hi, e⟩ := List.getElem_of_mem hc
    obtain ⟨r1, r2, r3⟩ := hr rule rfl
    refine ⟨_, (drawn_corner h i col (by rw [List.getElem?_eq_some_iff]; exact ⟨hi, e⟩)).1, ?_⟩
    split
    · exact r1
    · split
      · exact r3
      · exact r2
  | normal fc => exact absurd h id
  | horizontalRule => exact absurd h id

/-- No line goes out of a rule by the side of the first or last column, nor up if it's the first line of the table, nor down if it's the last one. -/
private theorem rule_closed {t : TableBorderChars} (ht : t = .standard ∨ t = .rounded) {cw : Char → Nat} {cols : List Nat} {rule : FmtTableRule} {row : Text}
    (h : Bordered cw t cols (.tableRule rule) row) (p : Strokes → Prop) (hh : p (strokes t.horizontal))
    (hr : p (strokes (ruleCorners t rule.position).1) ∧ p (strokes (ruleCorners t rule.position).2.1) ∧ p (strokes (ruleCorners t rule.position).2.2)) :
    ∀ first last, cols.head? = some first → cols.getLast? = some last → ∀ x, first ≤ x → x ≤ last → LineAt cw row x p := by
  intro first last hf hl x h1 h2
  obtain ⟨r1, r2, r3⟩ := hr
  have hcorner : ∀ (i : Nat), cols[i]? = some x → LineAt cw row x p := by
    intro i hi
    refine ⟨_, (drawn_corner h i x hi).1, ?_⟩
    split
    · exact r1
    · split
      · exact r3
      · exact r2
  by_cases hx : x = last
  · subst hx
    rw [List.getLast?_eq_getElem?] at hl
    exact hcorner _ hl
  · obtain ⟨i, a, b, ha, hb, h3, h4⟩ := between_cols cols first last x hf hl h1 (by omega)
    by_cases hxa : x = a
    · subst hxa; exact hcorner i ha
    · exact ⟨_, (drawn_corner h i a ha).2 b hb x (by omega) h4, hh⟩

/-- C83: in a text formatted for a width, with one of the predefined sets of border characters, whatever the width it's then rendered with, the borders of each table join: there
are columns, the same for all the lines of the table, in which each line has a stroke going down to the one going up of the next line, and rules have no hole between the first
and the last of them. With the standard and rounded sets, no stroke goes out of the table by its left or right borders, nor by a first or a last rule. -/
theorem C83_table (cw : Char → Nat) (ws : Char → Bool) (skin : Skin) (hs : OneColumnSkin cw skin) (ht : PredefinedBorders skin.tableBorderChars) (w : Nat) (h3 : 3 ≤ w)
    (mlines : List MLine) (h : FittingText cw skin w mlines) :
    ∃ t, FmtText.fromText cw ws skin mlines (some w) = some t ∧ ∀ tbl, IsTableOf t.lines tbl → ∀ rendering : Option Nat,
      ∃ (rows : List Text) (cols : List Nat) (first last : Nat), tbl.map (fun l => (skin.writeFmtLine l rendering false).map piecesText) = rows.map some ∧
        2 ≤ cols.length ∧ cols.head? = some first ∧ cols.getLast? = some last ∧
        (∀ (i : Nat) (a b : Text), rows[i]? = some a → rows[i + 1]? = some b → JoinedBelow cw cols a b) ∧
        (∀ (i : Nat) (rule : FmtTableRule) (a : Text), tbl[i]? = some (.tableRule rule) → rows[i]? = some a → Unbroken cw cols a) ∧
        (skin.tableBorderChars ≠ .ascii →
          (∀ a ∈ rows, LineAt cw a first (·.left = false) ∧ LineAt cw a last (·.right = false)) ∧
          (∀ (i : Nat) (rule : FmtTableRule) (a : Text), tbl[i]? = some (.tableRule rule) → rows[i]? = some a → ∀ x, first ≤ x → x ≤ last →
            (i = 0 → LineAt cw a x (·.up = false)) ∧ (0 < i → i + 1 = tbl.length → LineAt cw a x (·.down = false)))) := by
  obtain ⟨t, e, hb⟩ := C62_borders cw ws skin hs w h3 mlines h
  refine ⟨t, e, ?_⟩
  intro tbl htbl rendering
  obtain ⟨_, _, _, hpos⟩ := fromText_tables h3 h e tbl htbl
  obtain ⟨widths, hne, hw3, _, hall⟩ := hb tbl htbl
  obtain ⟨n, hall, _⟩ := hall rendering
  have hrow : ∀ l ∈ tbl, ∃ row, (skin.writeFmtLine l rendering false).map piecesText = some row ∧
      Bordered cw skin.tableBorderChars (borderCols n widths) l row := by
    intro l hm
    obtain ⟨ps, p1, p2⟩ := hall l hm
    exact ⟨piecesText ps, by rw [p1]; rfl, p2⟩
  have hlen : 2 ≤ (borderCols n widths).length := by
    rw [borderCols_length]
    cases widths with
    | nil => exact absurd rfl hne
    | cons a b => simp
  have hfirst : (borderCols n widths).head? = some n := by cases widths <;> rfl
  obtain ⟨last, hlast⟩ : ∃ last, (borderCols n widths).getLast? = some last := by
    cases hl : (borderCols n widths).getLast? with
    | none => rw [List.getLast?_eq_none_iff] at hl; rw [hl] at hlen; simp at hlen
    | some x => exact ⟨x, rfl⟩
  refine ⟨tbl.map fun l => ((skin.writeFmtLine l rendering false).map piecesText).getD [], borderCols n widths, n, last, ?_, hlen, hfirst, hlast, ?_, ?_, ?_⟩
  · rw [List.map_map]
    apply List.map_congr_left
    intro l hm
    obtain ⟨row, r1, _⟩ := hrow l hm
    simp only [Function.comp_apply, r1, Option.getD_some]
  · intro i a b ha hb col hc
    simp only [List.getElem?_map, Option.map_eq_some_iff] at ha hb
    obtain ⟨l, hl, rfl⟩ := ha
    obtain ⟨l', hl', rfl⟩ := hb
    obtain ⟨row, r1, r2⟩ := hrow l (List.mem_of_getElem? hl)
    obtain ⟨row', r1', r2'⟩ := hrow l' (List.mem_of_getElem? hl')
    rw [r1, r1']
    have hlt := (List.getElem?_eq_some_iff.1 hl').1
    obtain ⟨_, _, _, _, _, _, v1, v2, _, _⟩ := corners_strokes ht .other
    constructor
    · refine at_border r2 (·.down = true) v2 ?_ col hc
      rintro rule rfl
      obtain ⟨_, _, _, _, _, _, _, _, c1, _⟩ := corners_strokes ht rule.position
      apply c1
      rw [hpos i rule hl]
      split
      · simp
      · rw [if_neg (by omega)]; simp
    · refine at_border r2' (·.up = true) v1 ?_ col hc
      rintro rule rfl
      obtain ⟨_, _, _, _, _, _, _, _, _, c2⟩ := corners_strokes ht rule.position
      apply c2
      rw [hpos (i + 1) rule hl', if_neg (by omega)]
      split <;> simp
  · intro i rule a hi ha
    simp only [List.getElem?_map, Option.map_eq_some_iff] at ha
    obtain ⟨l, hl, rfl⟩ := ha
    rw [hi] at hl
    cases hl
    obtain ⟨row, r1, r2⟩ := hrow _ (List.mem_of_getElem? hi)
    rw [r1]
    exact unbroken ht r2
  · intro hna
    have ht' : skin.tableBorderChars = .standard ∨ skin.tableBorderChars = .rounded := by
      rcases ht with h | h | h
      · exact .inl h
      · exact absurd h hna
      · exact .inr h
    obtain ⟨_, _, v1, v2, _, _⟩ := corners_closed ht' .other
    constructor
    · intro a ha
      obtain ⟨l, hl, rfl⟩ := List.mem_map.1 ha
      obtain ⟨row, r1, r2⟩ := hrow l hl
      rw [r1]
      cases l with
      | tableRow cells =>
        exact ⟨⟨_, r2 n (List.mem_of_head? hfirst), v1⟩, ⟨_, r2 last (List.mem_of_getLast? hlast), v2⟩⟩
      | tableRule rule =>
        obtain ⟨c1, c2, _⟩ := corners_closed ht' rule.position
        constructor
        · have := (drawn_corner r2 0 n (by rw [← List.head?_eq_getElem?]; exact hfirst)).1
          rw [if_pos rfl] at this
          exact ⟨_, this, c1⟩
        · have := (drawn_corner r2 _ last (by rw [← List.getLast?_eq_getElem?]; exact hlast)).1
          rw [if_neg (by omega), if_pos (by omega)] at this
          exact ⟨_, this, c2⟩
      | normal fc => exact absurd r2 id
      | horizontalRule => exact absurd r2 id
    · intro i rule a hi ha x h1 h2
      simp only [List.getElem?_map, Option.map_eq_some_iff] at ha
      obtain ⟨l, hl, rfl⟩ := ha
      rw [hi] at hl
      cases hl
      obtain ⟨row, r1, r2⟩ := hrow _ (List.mem_of_getElem? hi)
      rw [r1]
      have hp := hpos i rule hi
      obtain ⟨_, _, _, _, k1, k2, c1, c2⟩ := corners_closed ht' rule.position
      constructor
      · intro h0
        rw [if_pos h0] at hp
        exact rule_closed ht' r2 (·.up = false) k1 (c1 hp) n last hfirst hlast x h1 h2
      · intro h0 hend
        rw [if_neg (by omega), if_pos hend] at hp
        exact rule_closed ht' r2 (·.down = false) k2 (c2 hp) n last hfirst hlast x h1 h2

/-- The hypotheses are met by a text, with a table: `exText_fits`, `renderSkin_one`. -/
example : PredefinedBorders renderSkin.tableBorderChars ∧ renderSkin.tableBorderChars ≠ .ascii ∧
    exDrawn.map (fun ls => ls.drop 6) = some ["│col │ 一   │", "│    │second│", "├────┼──────┤", "│cell│      │", "―――――――――――――"] :=
  ⟨.inl rfl, by decide, by decide +kernel⟩

/-- C83: the corners of tables are arcs with the rounded set, and not with the standard one. -/
theorem C83_corners : (∀ c ∈ [TableBorderChars.rounded.topLeftCorner, TableBorderChars.rounded.topRightCorner, TableBorderChars.rounded.bottomLeftCorner,
      TableBorderChars.rounded.bottomRightCorner], isArc c = true) ∧
    ∀ c ∈ [TableBorderChars.standard.topLeftCorner, TableBorderChars.standard.topRightCorner, TableBorderChars.standard.bottomLeftCorner,
      TableBorderChars.standard.bottomRightCorner], isArc c = false := by decide

/-- With the ASCII set, lines go out of the table: a plus has strokes in all directions. -/
theorem C83_ascii_counterexample : (strokes TableBorderChars.ascii.topLeftCorner).up = true ∧ (strokes TableBorderChars.ascii.topLeftCorner).left = true := by decide

private theorem border_cell (r : Rect) (hw : 2 ≤ r.area.width) (hh : 2 ≤ r.area.height) {x y : Nat} (hb : InBorder r.area x y) :
    rectCell r x y = some (
      if y = r.area.top then (if x = r.area.left then r.borderStyle.topLeft else if x + 1 = r.area.left + r.area.width then r.borderStyle.topRight else r.borderStyle.top)
      else if y + 1 = r.area.top + r.area.height then
        (if x = r.area.left then r.borderStyle.bottomLeft else if x + 1 = r.area.left + r.area.width then r.borderStyle.bottomRight else r.borderStyle.bottom)
      else if x = r.area.left then r.borderStyle.left else r.borderStyle.right) := by
  obtain ⟨⟨i, j, hi, hj, rfl, rfl⟩, hb⟩ := hb
  unfold rectCell
  have c1 : r.area.left + i = r.area.left + r.area.width - 1 ↔ r.area.left + i + 1 = r.area.left + r.area.width := by omega
  have c2 : r.area.top + j = r.area.top + r.area.height - 1 ↔ r.area.top + j + 1 = r.area.top + r.area.height := by omega
  simp only [c1, c2]
  rw [if_neg (by omega)]
  repeat' split
  all_goals first | rfl | (exfalso; omega)

/-- C83: the border of a rectangle with the "middle line" styles is a closed line: the cells of its border have strokes towards the neighbours which are on the same side, and
no other stroke; its corners are arcs with the round one only. -/
theorem C83_rect (r : Rect) (hr : r.borderStyle = .middleSquareLine ∨ r.borderStyle = .middleRoundLine) (hw : 2 ≤ r.area.width) (hh : 2 ≤ r.area.height)
    (hon : OnScreen r.area) : ∃ cmds, r.draw = some cmds ∧ ∀ (t : Term) (x y : Nat), InBorder r.area x y →
      let s := strokes ((t.play cmds).screen x y).2
      let vertical := x = r.area.left ∨ x + 1 = r.area.left + r.area.width
      let horizontal := y = r.area.top ∨ y + 1 = r.area.top + r.area.height
      (s.up = true ↔ vertical ∧ r.area.top < y) ∧ (s.down = true ↔ vertical ∧ y + 1 < r.area.top + r.area.height) ∧
      (s.left = true ↔ horizontal ∧ r.area.left < x) ∧ (s.right = true ↔ horizontal ∧ x + 1 < r.area.left + r.area.width) ∧
      (isArc ((t.play cmds).screen x y).2 = true ↔ r.borderStyle = .middleRoundLine ∧ vertical ∧ horizontal) := by
  obtain ⟨cmds, e, h⟩ := C43_draw r hw hh hon
  refine ⟨cmds, e, ?_⟩
  intro t x y hb
  have hc := border_cell r hw hh hb
  obtain ⟨⟨i, j, hi, hj, rfl, rfl⟩, hb⟩ := hb
  simp only [h, hc]
  rcases hr with hr | hr <;> rw [hr]
  all_goals
    repeat' split
    all_goals simp [RectBorderStyle.middleSquareLine, RectBorderStyle.middleRoundLine, strokes, isArc]
    all_goals omega

/-- C83: the border of a rectangle with the "half width outside" style is the outside half of the cells: a quarter of a cell of the border is filled when it's at the edge of the
rectangle. -/
theorem C83_rect_half (r : Rect) (hr : r.borderStyle = .halfWidthOutside) (hw : 2 ≤ r.area.width) (hh : 2 ≤ r.area.height)
    (hon : OnScreen r.area) : ∃ cmds, r.draw = some cmds ∧ ∀ (t : Term) (x y : Nat), InBorder r.area x y →
      let q := quarters ((t.play cmds).screen x y).2
      let leftEdge := x = r.area.left
      let rightEdge := x + 1 = r.area.left + r.area.width
      let topEdge := y = r.area.top
      let bottomEdge := y + 1 = r.area.top + r.area.height
      (q.upLeft = true ↔ topEdge ∨ leftEdge) ∧ (q.upRight = true ↔ topEdge ∨ rightEdge) ∧
      (q.downLeft = true ↔ bottomEdge ∨ leftEdge) ∧ (q.downRight = true ↔ bottomEdge ∨ rightEdge) := by
  obtain ⟨cmds, e, h⟩ := C43_draw r hw hh hon
  refine ⟨cmds, e, ?_⟩
  intro t x y hb
  have hc := border_cell r hw hh hb
  obtain ⟨⟨i, j, hi, hj, rfl, rfl⟩, hb⟩ := hb
  simp only [h, hc]
  rw [hr]
  repeat' split
  all_goals simp [RectBorderStyle.halfWidthOutside, quarters]
  all_goals omega

/-- C83: the default border of a rectangle is blank. -/
theorem C83_rect_bland (a : Area) (colors : CompoundStyle) (hw : 2 ≤ a.width) (hh : 2 ≤ a.height) (hon : OnScreen a) :
    ∃ cmds, (Rect.new a colors).draw = some cmds ∧ ∀ (t : Term) (x y : Nat), InBorder a x y → (t.play cmds).screen x y = (colors, ' ') := by
  obtain ⟨cmds, e, h⟩ := C43_draw (Rect.new a colors) hw hh hon
  refine ⟨cmds, e, ?_⟩
  intro t x y hb
  have hc := border_cell (Rect.new a colors) hw hh hb
  rw [h, hc]
  dsimp only
  repeat' split
  all_goals rfl

/-- The hypotheses are met by a rectangle, and the border isn't all of it. -/
example : OnScreen ⟨3, 2, 4, 3⟩ ∧ InBorder ⟨3, 2, 4, 3⟩ 6 3 ∧ ¬ InBorder ⟨3, 2, 4, 3⟩ 5 3 :=
  ⟨by unfold OnScreen; decide, ⟨⟨3, 1, by decide, by decide, rfl, rfl⟩, by decide⟩, fun h => absurd h.2 (by decide)⟩

end Verif.Props

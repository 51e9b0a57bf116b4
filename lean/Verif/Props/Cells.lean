import Verif.Props.TextView
import Verif.Props.InputField
import Verif.Props.ListView
import Verif.Spec.Cells
/-! C64: what is written in an area changes the cells of this area and no other one. -/
namespace Verif.Props
open Verif Spec

variable {σ : Type}

theorem printText_eq (cw : Char → Nat) (y : Nat) (s : σ) : ∀ (t : Text) (x : Nat) (g : Cells σ) (x' y' : Nat),
    printText cw y s x t g x' y' =
      if y' = y ∧ x ≤ x' then (columnOf cw (t.map fun c => (s, c)) (x' - x)).getD (g x' y') else g x' y' := by
  intro t
  induction t with
  | nil => intro x g x' y'; simp [printText, columnOf]
  | cons c t ih =>
    intro x g x' y'
    simp only [printText, ih, List.map_cons, columnOf, printChar]
    by_cases hy : y' = y
    · by_cases hx : x ≤ x'
      · by_cases hc : x' < x + cw c
        · rw [if_neg (by omega), if_pos ⟨hy, hx, hc⟩, if_pos ⟨hy, hx⟩, if_pos (by omega)]; rfl
        · rw [if_pos ⟨hy, by omega⟩, if_neg (fun h => hc h.2.2), if_pos ⟨hy, hx⟩, if_neg (by omega)]
          congr 2; omega
      · rw [if_neg (by omega), if_neg (by omega), if_neg (by omega)]
    · rw [if_neg (by omega), if_neg (by omega), if_neg (by omega)]

theorem columnOf_append (cw : Char → Nat) (a b : List (σ × Char)) : ∀ k, columnOf cw (a ++ b) k =
    (columnOf cw a k).or (if (a.map fun p => cw p.2).sum ≤ k then columnOf cw b (k - (a.map fun p => cw p.2).sum) else none) := by
  induction a with
  | nil => intro k; simp [columnOf]
  | cons p a ih =>
    intro k
    simp only [List.cons_append, columnOf, List.map_cons, List.sum_cons]
    by_cases h : k < cw p.2
    · rw [if_pos h, if_pos h]; rfl
    · rw [if_neg h, if_neg h, ih]
      congr 1
      by_cases h2 : (a.map fun p => cw p.2).sum ≤ k - cw p.2
      · rw [if_pos h2, if_pos (by omega)]; congr 1; omega
      · rw [if_neg h2, if_neg (by omega)]

theorem columnOf_some (cw : Char → Nat) (a : List (σ × Char)) : ∀ k, (∃ c, columnOf cw a k = some c) ↔ k < (a.map fun p => cw p.2).sum := by
  induction a with
  | nil => intro k; simp [columnOf]
  | cons p a ih =>
    intro k
    simp only [columnOf, List.map_cons, List.sum_cons]
    by_cases h : k < cw p.2
    · rw [if_pos h]; simp; omega
    · rw [if_neg h, ih]; omega

private theorem sum_map_style (cw : Char → Nat) (s : σ) (t : Text) : ((t.map fun c => (s, c)).map fun p => cw p.2).sum = textWidth cw t := by
  induction t with
  | nil => rfl
  | cons c t ih => simp only [List.map_cons, List.sum_cons, ih, textWidth]

theorem printPieces_eq (cw : Char → Nat) (y : Nat) : ∀ (ps : List (σ × Text)) (x : Nat) (g : Cells σ) (x' y' : Nat),
    printPieces cw y x ps g x' y' =
      if y' = y ∧ x ≤ x' then (columnOf cw (pieceChars ps) (x' - x)).getD (g x' y') else g x' y' := by
  intro ps
  induction ps with
  | nil => intro x g x' y'; simp [printPieces, pieceChars, columnOf]
  | cons p ps ih =>
    intro x g x' y'
    simp only [printPieces, ih, printText_eq]
    have e : pieceChars (p :: ps) = p.2.map (fun c => (p.1, c)) ++ pieceChars ps := by simp [pieceChars]
    rw [e]
    simp only [columnOf_append, sum_map_style]
    by_cases hy : y' = y ∧ x ≤ x'
    · rw [if_pos hy, if_pos hy]
      by_cases hx : x + textWidth cw p.2 ≤ x'
      · have hn : columnOf cw (p.2.map fun c => (p.1, c)) (x' - x) = none := by
          cases h : columnOf cw (p.2.map fun c => (p.1, c)) (x' - x) with
          | none => rfl
          | some c => have := (columnOf_some cw _ _).1 ⟨c, h⟩; rw [sum_map_style] at this; omega
        rw [if_pos ⟨hy.1, hx⟩, hn, if_pos (by omega)]
        simp only [Option.getD_none, Option.none_or]
        congr 2; omega
      · rw [if_neg (by omega), if_neg (by omega), Option.or_none]
    · rw [if_neg (by omega), if_neg hy, if_neg hy]

private theorem rows_eq (cw : Char → Nat) (left w : Nat) : ∀ (rows : List (Nat × Nat × List (σ × Text))) (top : Nat) (g : Cells σ) (x y : Nat),
    (∀ (j : Nat) row, rows[j]? = some row → row.1 = left ∧ row.2.1 = top + j ∧ ((pieceChars row.2.2).map fun p => cw p.2).sum = w) →
    printRows cw rows g x y =
      if top ≤ y ∧ left ≤ x then ((rows[y - top]?.bind fun row => columnOf cw (pieceChars row.2.2) (x - left))).getD (g x y) else g x y := by
  intro rows
  induction rows with
  | nil => intro top g x y _; simp [printRows]
  | cons r rows ih =>
    intro top g x y h
    have h0 := h 0 r rfl
    have hr := ih (top + 1) (printPieces cw r.2.1 r.1 r.2.2 g) x y (by
      intro j row hj
      have := h (j + 1) row (by simpa using hj)
      refine ⟨this.1, by omega, this.2.2⟩)
    have e : printRows cw (r :: rows) g x y = printRows cw rows (printPieces cw r.2.1 r.1 r.2.2 g) x y := rfl
    rw [e, hr, printPieces_eq]
    obtain ⟨e1, e2, _⟩ := h0
    rw [e1, e2]
    by_cases hx : left ≤ x
    · by_cases hy : y = top
      · subst hy
        rw [if_neg (by omega), if_pos ⟨by omega, hx⟩, if_pos ⟨by omega, hx⟩]
        simp
      · by_cases hy2 : top < y
        · rw [if_pos ⟨by omega, hx⟩, if_neg (by omega), if_pos ⟨by omega, hx⟩]
          have ei : y - top = (y - (top + 1)) + 1 := by omega
          rw [ei, List.getElem?_cons_succ]
        · rw [if_neg (by omega), if_neg (by omega), if_neg (by omega)]
    · rw [if_neg (by omega), if_neg (by omega), if_neg (by omega)]

/-- Rows which are in their places and have the width of the area fill it. -/
theorem fills (cw : Char → Nat) (area : Area) (rows : List (Nat × Nat × List (σ × Text))) (hl : rows.length = area.height)
    (h : ∀ (j : Nat) row, rows[j]? = some row → row.1 = area.left ∧ row.2.1 = area.top + j ∧
      ((pieceChars row.2.2).map fun p => cw p.2).sum = area.width) : FillsArea cw area rows := by
  intro g x y
  rw [rows_eq cw area.left area.width rows area.top g x y h]
  constructor
  · rintro ⟨i, j, hi, hj, rfl, rfl⟩
    have ej : area.top + j - area.top = j := by omega
    have ei : area.left + i - area.left = i := by omega
    rw [if_pos ⟨by omega, by omega⟩, ej, ei]
    have hg : rows[j]? = some rows[j] := List.getElem?_eq_getElem (by omega)
    obtain ⟨_, _, hw⟩ := h j _ hg
    obtain ⟨c, hc⟩ := (columnOf_some cw (pieceChars rows[j].2.2) i).2 (by omega)
    exact ⟨rows[j], c, hg, hc, by simp [hg, hc]⟩
  · intro hn
    split
    · next hp =>
      by_cases hy : y - area.top < area.height
      · have hg : rows[y - area.top]? = some rows[y - area.top] := List.getElem?_eq_getElem (by omega)
        obtain ⟨_, _, hw⟩ := h _ _ hg
        have hc : columnOf cw (pieceChars rows[y - area.top].2.2) (x - area.left) = none := by
          cases hc : columnOf cw (pieceChars rows[y - area.top].2.2) (x - area.left) with
          | none => rfl
          | some c =>
            have := (columnOf_some cw _ _).1 ⟨c, hc⟩
            exact absurd ⟨x - area.left, y - area.top, by omega, hy, by omega, by omega⟩ hn
        simp [hg, hc]
      · have : rows[y - area.top]? = none := by simp; omega
        simp [this]
    · rfl

theorem pieceChars_sum (cw : Char → Nat) (ps : List (σ × Text)) :
    ((pieceChars ps).map fun p => cw p.2).sum = textWidth cw (ps.flatMap (·.2)) := by
  induction ps with
  | nil => rfl
  | cons p ps ih =>
    have e : pieceChars (p :: ps) = p.2.map (fun c => (p.1, c)) ++ pieceChars ps := by simp [pieceChars]
    rw [e, List.map_append, List.sum_append, ih, sum_map_style, List.flatMap_cons, textWidth_append]

theorem writeRows_places (v : TextView) (skin : Skin) (width : Nat) (bar : Option (Nat × Nat)) : ∀ (n j : Nat) rows,
    v.writeRows skin width bar n j = some rows → ∀ (i : Nat) row, rows[i]? = some row → row.x = v.area.left ∧ row.y = v.area.top + j + i := by
  intro n
  induction n with
  | zero => intro j rows h; simp [TextView.writeRows] at h; subst h; simp
  | succ n ih =>
    intro j rows h i row hi
    simp only [TextView.writeRows, Option.bind_eq_bind, Option.bind_eq_some_iff, Option.some.injEq] at h
    obtain ⟨y, hy, ps, _, rest, hr, rfl⟩ := h
    cases i with
    | zero =>
      simp at hi; subst hi
      simp only [u16Add] at hy
      split at hy
      · simp at hy; exact ⟨rfl, by simp [hy]⟩
      · simp at hy
    | succ i =>
      simp only [List.getElem?_cons_succ] at hi
      obtain ⟨h1, h2⟩ := ih (j + 1) rest hr i row hi
      exact ⟨h1, by omega⟩

theorem view_fills (cw : Char → Nat) (v : TextView) (skin : Skin) {rows : List WrittenRow} (h : v.writeOn skin = some rows)
    (hl : rows.length = v.area.height) (hw : ∀ row ∈ rows, piecesCols cw row.pieces = v.area.width) : FillsArea cw v.area (viewRows rows) := by
  apply fills cw v.area (viewRows rows) (by simpa [viewRows] using hl)
  intro j row hj
  simp only [viewRows, List.getElem?_map, Option.map_eq_some_iff] at hj
  obtain ⟨r, hr, rfl⟩ := hj
  simp only [TextView.writeOn, Option.bind_eq_bind, Option.bind_eq_some_iff] at h
  obtain ⟨bar, _, w, _, h⟩ := h
  obtain ⟨h1, h2⟩ := writeRows_places v skin w bar _ _ _ h j r hr
  refine ⟨h1, by simpa using h2, ?_⟩
  rw [pieceChars_sum]
  exact hw r (List.mem_of_getElem? hr)

/-- C64: a text view changes all the cells of its area, and no other one. -/
theorem C64_text_view (cw : Char → Nat) (v : TextView) (skin : Skin) (hk : OneColumnSkin cw skin)
    (ht : piecesCols cw skin.scrollbar.thumb.display = 1) (ht' : piecesCols cw skin.scrollbar.track.display = 1)
    (hw : 1 ≤ v.area.width) (hh : 1 ≤ v.area.height) (ho : OnScreen v.area)
    (hn : v.lines.length < 65536) (hs : v.scroll ≤ v.lines.length - v.area.height)
    (hd : ∀ l ∈ v.lines, DrawableLine cw skin l ∧
      ∀ w, (w = if v.showScrollbar = false ∨ v.lines.length ≤ v.area.height then v.area.width else v.area.width - 1) → ownCols skin w l ≤ w) :
    ∃ rows, v.writeOn skin = some rows ∧ FillsArea cw v.area (viewRows rows) := by
  obtain ⟨rows, h1, h2, h3⟩ := C28_columns cw v skin hk ht ht' hw hh ho hn hs hd
  exact ⟨rows, h1, view_fills cw v skin h1 h2 h3⟩

/-- C64: so does a markdown view, or a text written in an area, when the text fits. -/
theorem C64_mad_view (cw : Char → Nat) (ws : Char → Bool) (m : MadView) (hk : OneColumnSkin cw m.skin)
    (ht : piecesCols cw m.skin.scrollbar.thumb.display = 1) (ht' : piecesCols cw m.skin.scrollbar.track.display = 1)
    (hw : 4 ≤ m.area.width) (hh : 1 ≤ m.area.height) (ho : OnScreen m.area) (hm : NoMarginEdge m.skin m.area.width)
    (hf : FittingText cw m.skin (m.area.width - 1) m.mlines) :
    ∃ count, m.HasLines cw ws count ∧ (count < 65536 →
      (m.scroll ≤ count - m.area.height → ∃ rows, m.writeOn cw ws = some rows ∧ FillsArea cw m.area (viewRows rows)) ∧
      ∃ rows, m.skin.writeInArea cw ws m.mlines m.area = some rows ∧ FillsArea cw m.area (viewRows rows)) := by
  obtain ⟨⟨count, h1, h2⟩, h3⟩ := C29_fills_area cw ws m hk ht ht' hw hh ho hm hf
  refine ⟨count, h1, fun hc => ⟨fun hs => ?_, ?_⟩⟩
  · obtain ⟨rows, r1, r2, r3⟩ := h2 hc hs
    refine ⟨rows, r1, ?_⟩
    simp only [MadView.writeOn, MadView.view, Option.bind_eq_bind, Option.bind_eq_some_iff, Option.some.injEq] at r1
    obtain ⟨_, ⟨t, _, rfl⟩, r1⟩ := r1
    exact view_fills cw { area := m.area, lines := t.lines, scroll := m.scroll } m.skin r1 r2 r3
  · obtain ⟨rows, r1, r2, r3⟩ := h3 ⟨count, h1, hc⟩
    refine ⟨rows, r1, ?_⟩
    simp only [Skin.writeInArea, Option.bind_eq_bind, Option.bind_eq_some_iff] at r1
    obtain ⟨t, _, r1⟩ := r1
    exact view_fills cw { area := m.area, lines := t.lines, showScrollbar := false } m.skin r1 r2 r3

/-- C64: so does an input field. -/
theorem C64_input_field (cw : Char → Nat) (hs : cw ' ' = 1) (he : cw '…' = 1) (bar : Char × Char) (hb : cw bar.1 = 1 ∧ cw bar.2 = 1)
    {f : InputField} (ho : OnScreen f.area) (h1 : 1 ≤ f.textCols) (hn : f.content.lines.length < 65536)
    (hy : f.area.top + f.area.height + f.scroll.y + 1 < 65536)
    (htab : f.passwordMode = true ∨ ∀ l ∈ f.content.lines, '\t' ∉ l) :
    ∃ rows cur, f.displayOn cw bar = some (rows, cur) ∧ FillsArea cw f.area (fieldRows rows) := by
  obtain ⟨rows, cur, g1, g2, g3, _⟩ := C27_rows cw hs he bar hb ho h1 hn hy htab
  refine ⟨rows, cur, g1, ?_⟩
  apply fills cw f.area (fieldRows rows) (by simpa [fieldRows] using g2)
  intro j row hj
  simp only [fieldRows, List.getElem?_map, Option.map_eq_some_iff] at hj
  obtain ⟨r, hr, rfl⟩ := hj
  obtain ⟨e1, e2, e3⟩ := g3 j r hr
  refine ⟨e1, e2, ?_⟩
  rw [pieceChars_sum]
  exact e3

/-- C64: hence views whose areas have no common cell can be written in any order. -/
theorem C64_any_order (cw : Char → Nat) (a b : Area) (ra rb : List (Nat × Nat × List (σ × Text))) (ha : FillsArea cw a ra) (hb : FillsArea cw b rb)
    (hd : Spec.Disjoint a b) (g : Cells σ) : printRows cw ra (printRows cw rb g) = printRows cw rb (printRows cw ra g) := by
  funext x y
  by_cases h1 : InArea a x y
  · have h2 : ¬ InArea b x y := fun h => hd x y ⟨h1, h⟩
    obtain ⟨row, cell, e1, e2, e3⟩ := (ha (printRows cw rb g) x y).1 h1
    obtain ⟨row', cell', e1', e2', e3'⟩ := (ha g x y).1 h1
    rw [e1] at e1'
    cases e1'
    rw [e2] at e2'
    cases e2'
    rw [e3, (hb _ x y).2 h2, e3']
  · rw [(ha _ x y).2 h1]
    by_cases h2 : InArea b x y
    · obtain ⟨row, cell, e1, e2, e3⟩ := (hb (printRows cw ra g) x y).1 h2
      obtain ⟨row', cell', e1', e2', e3'⟩ := (hb g x y).1 h2
      rw [e1] at e1'
      cases e1'
      rw [e2] at e2'
      cases e2'
      rw [e3, e3']
    · rw [(hb _ x y).2 h2, (hb _ x y).2 h2, (ha _ x y).2 h1]

/-- C64: and writing again the same view changes nothing. -/
theorem C64_again (cw : Char → Nat) (a : Area) (ra : List (Nat × Nat × List (σ × Text))) (ha : FillsArea cw a ra) (g : Cells σ) :
    printRows cw ra (printRows cw ra g) = printRows cw ra g := by
  funext x y
  by_cases h1 : InArea a x y
  · obtain ⟨row, cell, e1, e2, e3⟩ := (ha (printRows cw ra g) x y).1 h1
    obtain ⟨row', cell', e1', e2', e3'⟩ := (ha g x y).1 h1
    rw [e1] at e1'
    cases e1'
    rw [e2] at e2'
    cases e2'
    rw [e3, e3']
  · rw [(ha _ x y).2 h1]

/-! Examples -/

/-- The margins of the skin of the examples. -/
theorem renderMargin14 : NoMarginEdge renderSkin 14 := by
  intro k ls h
  unfold styleOf at h
  split at h
  · simp only [Option.some.injEq] at h; subst h; decide
  · simp at h
  · split at h <;> simp only [Option.some.injEq] at h <;> subst h <;> simp [renderSkin]
  · simp only [Option.some.injEq] at h; subst h; decide

/-- The markdown text of `exText`, with a table, code and lists, written in an area at some place. -/
example : ∃ rows, renderSkin.writeInArea renderCw (· == ' ') exText ⟨3, 2, 14, 5⟩ = some rows ∧ FillsArea renderCw ⟨3, 2, 14, 5⟩ (viewRows rows) := by
  obtain ⟨count, h1, h2⟩ := C64_mad_view renderCw (· == ' ') { mlines := exText, area := ⟨3, 2, 14, 5⟩, skin := renderSkin } renderSkin_one
    (by decide) (by decide) (by decide) (by decide) ⟨by decide, by decide⟩ renderMargin14 exText_fits
  refine (h2 ?_).2
  obtain ⟨t, e1, rfl⟩ := h1
  have : (FmtText.fromText renderCw (· == ' ') renderSkin exText (some 13)).map (·.lines.length) = some t.lines.length := by
    rw [show FmtText.fromText renderCw (· == ' ') renderSkin exText (some 13) = some t from e1]; rfl
  have e : (FmtText.fromText renderCw (· == ' ') renderSkin exText (some 13)).map (·.lines.length) = some 11 := by decide +kernel
  rw [e] at this
  simp only [Option.some.injEq] at this
  omega

/-- An input field with a wide character. -/
example : ∃ rows cur, ({ area := ⟨3, 2, 4, 2⟩, content := ⟨⟨0, 3⟩, none, [['a', '世', 'b']]⟩ } : InputField).displayOn (fun c => if c = '世' then 2 else 1) ('|', '.') = some (rows, cur) ∧
    FillsArea (fun c => if c = '世' then 2 else 1) ⟨3, 2, 4, 2⟩ (fieldRows rows) :=
  C64_input_field _ (by decide) (by decide) ('|', '.') (by decide) ⟨by decide, by decide⟩ (by decide) (by decide) (by decide) (.inr (by decide))

/-- Two areas side by side. -/
example : Spec.Disjoint ⟨0, 0, 5, 9⟩ ⟨5, 0, 5, 9⟩ := by
  rintro x y ⟨⟨i, j, h1, h2, h3, h4⟩, ⟨i', j', h5, h6, h7, h8⟩⟩
  simp only at *
  omega

/-- What a wide character is on the cells. -/
example : (List.range 6).map (fun x => printRows (fun c => if c = '世' then 2 else 1) [(1, 0, [((), ['a', '世']), ((), ['b'])])] (fun _ _ => ((), '.', 0)) x 0) =
    [((), '.', 0), ((), 'a', 0), ((), '世', 0), ((), '世', 1), ((), 'b', 0), ((), '.', 0)] := by decide

/-- C64: a text view whose lines were formatted for a greater width writes out of its area. -/
theorem C64_unfit_counterexample : ∃ rows,
    (TextView.mk ⟨3, 2, 4, 1⟩ [.normal (FmtComposite.mk .paragraph [⟨['a', 'b', 'c', 'd', 'e'], {}⟩] 5 none)] 0 true).writeOn renderSkin = some rows ∧
    ¬ InArea ⟨3, 2, 4, 1⟩ 7 2 ∧ (printRows renderCw (viewRows rows) (fun _ _ => ({}, '.', 0)) 7 2).2.1 = 'e' := by
  refine ⟨_, rfl, ?_, by decide +kernel⟩
  rintro ⟨i, j, h1, h2, h3, h4⟩
  simp only at *
  omega

/-- C64: a list view which has a scrollbar writes it out of its area, just after its last column. -/
theorem C64_list_counterexample : ∃ w : ListView.Written, (listOf ⟨3, 2, 9, 4⟩ [] [0, 1, 2, 3, 4]).writeOn renderSkin = some w ∧
    (w.body.map fun r => (r.bar.map fun b => (b.1, b.2.1, piecesText b.2.2))) = [some (12, 4, ['▐']), some (12, 5, ['▐'])] ∧
    ¬ InArea ⟨3, 2, 9, 4⟩ 12 4 := by
  refine ⟨_, rfl, by decide +kernel, ?_⟩
  rintro ⟨i, j, h1, h2, h3, h4⟩
  simp only at *
  omega

end Verif.Props

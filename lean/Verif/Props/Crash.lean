import Verif.Spec.Crash
import Verif.Props.Tty
import Verif.Props.FieldStyle
import Verif.Props.ListViewDisplay
/-! C73: what is on the terminal when the writer fails. -/
namespace Verif.Props
open Verif Spec

theorem playCut_append (cw : Char → Nat) : ∀ (a b : List TtyCmd) (t : Tty) (n k : Nat),
    t.playCut cw (a ++ b) n k = if n < a.length then t.playCut cw a n k else (t.play cw a).playCut cw b (n - a.length) k := by
  intro a
  induction a with
  | nil => intro b t n k; simp [Tty.play]
  | cons c a ih =>
    intro b t n k
    cases n with
    | zero => simp [Tty.playCut]
    | succ n =>
      simp only [List.cons_append, Tty.playCut, ih, List.length_cons, Nat.add_lt_add_iff_right, Nat.add_sub_add_right]
      rfl

theorem playCut_all (cw : Char → Nat) : ∀ (a : List TtyCmd) (t : Tty) (n k : Nat), a.length ≤ n → t.playCut cw a n k = t.play cw a := by
  intro a
  induction a with
  | nil => intro t n k _; rfl
  | cons c a ih =>
    intro t n k h
    cases n with
    | zero => simp at h
    | succ n => exact ih _ n k (by simpa using h)

/-- What is written of pieces when the writer fails. -/
private theorem cut_pieces (cw : Char → Nat) : ∀ (ps : List Piece) (t : Tty) (n k : Nat), t.pen = {} → (∀ p ∈ ps, Tidy p.1) →
    ∃ ps' : List Piece, pieceChars ps' <+: pieceChars (seenPieces ps) ∧
      (t.playCut cw (ps.map Piece.cmd) n k).cells = printPieces cw t.y t.x ps' t.cells := by
  intro ps
  induction ps with
  | nil => intro t n k _ _; exact ⟨[], by simp [pieceChars], rfl⟩
  | cons p ps ih =>
    intro t n k hp ht
    have e : pieceChars (seenPieces (p :: ps)) = p.2.map (fun c => (seen p.1, c)) ++ pieceChars (seenPieces ps) := by
      simp [pieceChars, seenPieces]
    cases n with
    | zero =>
      refine ⟨[(seen p.1, p.2.take k)], ?_, ?_⟩
      · rw [e]
        simp only [pieceChars, List.flatMap_cons, List.flatMap_nil, List.append_nil, List.map_take]
        exact (List.take_prefix _ _).trans (List.prefix_append _ _)
      · simp only [List.map_cons, Tty.playCut, Piece.cmd, Tty.execCut, hp, over_default, printPieces]
    | succ n =>
      obtain ⟨ps', h1, h2⟩ := ih (t.exec cw (.styled p.1 p.2)) n k (by simp only [Tty.exec, hp]; exact penAfter_default (ht p (by simp)))
        (fun q hq => ht q (List.mem_cons_of_mem _ hq))
      refine ⟨(seen p.1, p.2) :: ps', ?_, ?_⟩
      · rw [e]
        have e' : pieceChars ((seen p.1, p.2) :: ps') = p.2.map (fun c => (seen p.1, c)) ++ pieceChars ps' := by simp [pieceChars]
        rw [e']
        exact (List.prefix_append_right_inj _).2 h1
      · have e' : t.playCut cw ((p :: ps).map Piece.cmd) (n + 1) k = (t.exec cw (.styled p.1 p.2)).playCut cw (ps.map Piece.cmd) n k := rfl
        rw [e', h2]
        simp only [Tty.exec, hp, over_default, printPieces]

private theorem columnOf_prefix {σ : Type} (cw : Char → Nat) {a b : List (σ × Char)} (h : a <+: b) (k : Nat) :
    columnOf cw a k = if k < (a.map fun p => cw p.2).sum then columnOf cw b k else none := by
  obtain ⟨c, rfl⟩ := h
  rw [columnOf_append]
  by_cases hk : k < (a.map fun p => cw p.2).sum
  · rw [if_pos hk, if_neg (by omega), Option.or_none]
  · rw [if_neg hk]
    cases hc : columnOf cw a k with
    | none => rfl
    | some x => exact absurd ((columnOf_some cw a k).1 ⟨x, hc⟩) hk

private theorem printRows_other {σ : Type} (cw : Char → Nat) : ∀ (rows : List (Nat × Nat × List (σ × Text))) (g : Cells σ) (x y : Nat),
    (∀ r ∈ rows, r.2.1 ≠ y) → printRows cw rows g x y = g x y := by
  intro rows
  induction rows with
  | nil => intro g x y _; rfl
  | cons r rows ih =>
    intro g x y h
    have e : printRows cw (r :: rows) g x y = printRows cw rows (printPieces cw r.2.1 r.1 r.2.2 g) x y := rfl
    rw [e, ih _ x y (fun q hq => h q (List.mem_cons_of_mem _ hq)), printPieces_eq, if_neg (fun hc => h r (by simp) hc.1.symm)]

private theorem printSeen_other (cw : Char → Nat) (rows : List (Nat × Nat × List Piece)) (g : Cells CompoundStyle) (x y : Nat)
    (h : ∀ r ∈ rows, r.2.1 ≠ y) : printSeen cw rows g x y = g x y := by
  apply printRows_other
  intro r hr
  obtain ⟨r', hr', rfl⟩ := List.mem_map.1 hr
  exact h r' hr'

/-- Rows which are one under the other are written in the order of reading. -/
private theorem cut_rows (cw : Char → Nat) : ∀ (rows : List (Nat × Nat × List Piece)) (t : Tty) (top : Nat), t.pen = {} →
    (∀ r ∈ rows, ∀ p ∈ r.2.2, Tidy p.1) → (∀ (j : Nat) row, rows[j]? = some row → row.2.1 = top + j) → ∀ n k,
    ∃ px py, top ≤ py ∧ ∀ x y, (t.playCut cw (rows.flatMap fun r => rowCmds r.1 r.2.1 r.2.2) n k).cells x y =
      if Before x y px py then printSeen cw rows t.cells x y else t.cells x y := by
  intro rows
  induction rows with
  | nil => intro t top _ _ _ n k; exact ⟨0, top, Nat.le_refl _, fun x y => by split <;> rfl⟩
  | cons r rows ih =>
    intro t top hp ht hy n k
    have hr := hy 0 r rfl
    have hys : ∀ (j : Nat) row, rows[j]? = some row → row.2.1 = (top + 1) + j := by
      intro j row hj
      have := hy (j + 1) row (by simpa using hj)
      omega
    have hge : ∀ q ∈ rows, top + 1 ≤ q.2.1 := by
      intro q hq
      obtain ⟨j, hj⟩ := List.getElem?_of_mem hq
      have := hys j q hj
      omega
    have e1 : ∀ g x y, printSeen cw [r] g x y = if y = top ∧ r.1 ≤ x then (columnOf cw (pieceChars (seenPieces r.2.2)) (x - r.1)).getD (g x y) else g x y := by
      intro g x y
      have e : printSeen cw [r] g = printPieces cw r.2.1 r.1 (seenPieces r.2.2) g := rfl
      rw [e, printPieces_eq, hr, Nat.add_zero]
    rw [List.flatMap_cons]
    simp only [playCut_append]
    by_cases hn : n < (rowCmds r.1 r.2.1 r.2.2).length
    · rw [if_pos hn]
      cases n with
      | zero =>
        exact ⟨0, top, Nat.le_refl _, fun x y => by
          rw [show (t.playCut cw (rowCmds r.1 r.2.1 r.2.2) 0 k).cells = t.cells from rfl]
          split
          · next hb =>
            rcases hb with hb | hb
            · rw [printSeen_other]
              intro q hq
              rcases List.mem_cons.1 hq with rfl | hq
              · omega
              · have := hge q hq; omega
            · omega
          · rfl⟩
      | succ n =>
        obtain ⟨ps', h1, h2⟩ := cut_pieces cw r.2.2 { t with x := r.1, y := r.2.1 } n k hp (ht r (by simp))
        have e2 : (t.playCut cw (rowCmds r.1 r.2.1 r.2.2) (n + 1) k).cells = printPieces cw r.2.1 r.1 ps' t.cells := h2
        rw [e2]
        refine ⟨r.1 + ((pieceChars ps').map fun p => cw p.2).sum, top, Nat.le_refl _, fun x y => ?_⟩
        rw [printPieces_eq, columnOf_prefix cw h1, hr, Nat.add_zero]
        by_cases hyt : y = top
        · subst hyt
          have e3 : printSeen cw (r :: rows) t.cells x y = printSeen cw [r] t.cells x y := by
            rw [printSeen_cons, printSeen_other]
            intro q hq
            have := hge q hq
            omega
          rw [e3, e1]
          by_cases hx : r.1 ≤ x
          · rw [if_pos ⟨rfl, hx⟩]
            by_cases hk : x - r.1 < ((pieceChars ps').map fun p => cw p.2).sum
            · rw [if_pos hk, if_pos (.inr ⟨rfl, by omega⟩), if_pos ⟨rfl, hx⟩]
            · rw [if_neg hk, if_neg (fun hb => by unfold Before at hb; omega)]; rfl
          · rw [if_neg (by omega)]
            split
            · rw [if_neg (by omega)]
            · rfl
        · rw [if_neg (fun hc => hyt hc.1)]
          split
          · next hb =>
            rw [printSeen_other]
            intro q hq
            rcases List.mem_cons.1 hq with rfl | hq
            · omega
            · have := hge q hq
              unfold Before at hb
              omega
          · rfl
    · rw [if_neg hn]
      obtain ⟨a1, a2⟩ := play_row cw r.1 r.2.1 r.2.2 t hp (ht r (by simp))
      obtain ⟨px, py, hpy, h⟩ := ih (t.play cw (rowCmds r.1 r.2.1 r.2.2)) (top + 1) a1 (fun q hq => ht q (List.mem_cons_of_mem _ hq)) hys
        (n - (rowCmds r.1 r.2.1 r.2.2).length) k
      refine ⟨px, py, by omega, fun x y => ?_⟩
      rw [h, a2, ← printSeen_cons]
      split
      · rfl
      · next hb =>
        rw [e1, if_neg]
        intro hc
        apply hb
        left
        omega

/-- Rows which fill an area are written in order, in this area, and can be written again. -/
private theorem rows_crash (cw : Char → Nat) (area : Area) (rows : List (Nat × Nat × List Piece)) (hl : rows.length = area.height)
    (h : ∀ (j : Nat) row, rows[j]? = some row → row.1 = area.left ∧ row.2.1 = area.top + j ∧ textWidth cw (row.2.2.flatMap (·.2)) = area.width)
    (ht : ∀ r ∈ rows, ∀ p ∈ r.2.2, Tidy p.1) (t : Tty) (hp : t.pen = {}) :
    let cmds := rows.flatMap fun r => rowCmds r.1 r.2.1 r.2.2
    WrittenInOrder cw t cmds ∧ OnlyInArea cw t cmds area ∧ Repairable cw t cmds := by
  intro cmds
  have hfull := (play_rows cw rows t hp ht).2
  have hord : WrittenInOrder cw t cmds := by
    intro n k
    obtain ⟨px, py, _, h⟩ := cut_rows cw rows t area.top hp ht (fun j row hj => (h j row hj).2.1) n k
    exact ⟨px, py, fun x y => by rw [h, hfull]⟩
  have hfill : FillsArea cw area (rows.map fun r => (r.1, r.2.1, seenPieces r.2.2)) := by
    apply fills cw area _ (by simpa using hl)
    intro j row hj
    simp only [List.getElem?_map, Option.map_eq_some_iff] at hj
    obtain ⟨r, hr, rfl⟩ := hj
    obtain ⟨h1, h2, h3⟩ := h j r hr
    refine ⟨h1, h2, ?_⟩
    rw [pieceChars_sum, ← h3]
    simp [seenPieces, List.flatMap_map]
  have hin : OnlyInArea cw t cmds area := by
    intro n k x y hn
    obtain ⟨px, py, hc⟩ := hord n k
    rw [hc]
    split
    · rw [hfull]; exact (hfill t.cells x y).2 hn
    · rfl
  refine ⟨hord, hin, ?_⟩
  intro n k t' ht' hp'
  rw [(play_rows cw rows t' hp' ht).2, hfull]
  funext x y
  by_cases ha : InArea area x y
  · obtain ⟨row, cell, e1, e2, e3⟩ := (hfill t'.cells x y).1 ha
    obtain ⟨row', cell', e1', e2', e3'⟩ := (hfill t.cells x y).1 ha
    rw [e1] at e1'
    cases e1'
    rw [e2] at e2'
    cases e2'
    show printRows cw _ _ x y = printRows cw _ _ x y
    rw [e3, e3']
  · have a1 := (hfill t'.cells x y).2 ha
    have a2 := (hfill t.cells x y).2 ha
    show printRows cw _ _ x y = printRows cw _ _ x y
    rw [a1, a2, ht']
    exact hin n k x y ha

private theorem view_crash (cw : Char → Nat) (v : TextView) {skin : Skin} (hsk : TidySkin skin) {rows : List WrittenRow}
    (h : v.writeOn skin = some rows) (hl : rows.length = v.area.height) (hw : ∀ row ∈ rows, piecesCols cw row.pieces = v.area.width)
    (t : Tty) (hp : t.pen = {}) :
    ∃ cmds, v.cmds skin = some cmds ∧ WrittenInOrder cw t cmds ∧ OnlyInArea cw t cmds v.area ∧ Repairable cw t cmds := by
  have e : (rows.flatMap fun r => rowCmds r.x r.y r.pieces) = (viewRows rows).flatMap fun r => rowCmds r.1 r.2.1 r.2.2 := by
    simp [viewRows, List.flatMap_map]
  refine ⟨rows.flatMap fun r => rowCmds r.x r.y r.pieces, by rw [TextView.cmds, h]; rfl, ?_⟩
  rw [e]
  simp only [TextView.writeOn, Option.bind_eq_bind, Option.bind_eq_some_iff] at h
  obtain ⟨bar, _, w, _, h⟩ := h
  apply rows_crash cw v.area (viewRows rows) (by simpa [viewRows] using hl) _ _ t hp
  · intro j row hj
    simp only [viewRows, List.getElem?_map, Option.map_eq_some_iff] at hj
    obtain ⟨r, hr, rfl⟩ := hj
    obtain ⟨h1, h2⟩ := writeRows_places v skin w bar _ _ _ h j r hr
    exact ⟨h1, by simpa using h2, hw r (List.mem_of_getElem? hr)⟩
  · intro r hr
    obtain ⟨r', hr', rfl⟩ := List.mem_map.1 hr
    exact tidy_writeRows hsk v w bar _ _ _ h r' hr'

/-- C73: when the writer fails while a text view is written, the cells are the final ones up to some place and the previous ones from there,
nothing is changed out of the area, and writing the view again later gives what would be there without the failure. -/
theorem C73_text_view (cw : Char → Nat) (v : TextView) (skin : Skin) (hsk : TidySkin skin) (hk : OneColumnSkin cw skin)
    (ht : piecesCols cw skin.scrollbar.thumb.display = 1) (ht' : piecesCols cw skin.scrollbar.track.display = 1)
    (hw : 1 ≤ v.area.width) (hh : 1 ≤ v.area.height) (ho : OnScreen v.area)
    (hn : v.lines.length < 65536) (hs : v.scroll ≤ v.lines.length - v.area.height)
    (hd : ∀ l ∈ v.lines, DrawableLine cw skin l ∧
      ∀ w, (w = if v.showScrollbar = false ∨ v.lines.length ≤ v.area.height then v.area.width else v.area.width - 1) → ownCols skin w l ≤ w)
    (t : Tty) (hp : t.pen = {}) :
    ∃ cmds, v.cmds skin = some cmds ∧ WrittenInOrder cw t cmds ∧ OnlyInArea cw t cmds v.area ∧ Repairable cw t cmds := by
  obtain ⟨rows, h1, h2, h3⟩ := C28_columns cw v skin hk ht ht' hw hh ho hn hs hd
  exact view_crash cw v hsk h1 h2 h3 t hp

/-- C73: so it is for a markdown view. -/
theorem C73_mad_view (cw : Char → Nat) (ws : Char → Bool) (m : MadView) (hsk : TidySkin m.skin) (hk : OneColumnSkin cw m.skin)
    (ht : piecesCols cw m.skin.scrollbar.thumb.display = 1) (ht' : piecesCols cw m.skin.scrollbar.track.display = 1)
    (hw : 4 ≤ m.area.width) (hh : 1 ≤ m.area.height) (ho : OnScreen m.area) (hm : NoMarginEdge m.skin m.area.width)
    (hf : FittingText cw m.skin (m.area.width - 1) m.mlines) (t : Tty) (hp : t.pen = {}) :
    ∃ count, m.HasLines cw ws count ∧ (count < 65536 → m.scroll ≤ count - m.area.height →
      ∃ v cmds, m.view cw ws = some v ∧ v.cmds m.skin = some cmds ∧
        WrittenInOrder cw t cmds ∧ OnlyInArea cw t cmds m.area ∧ Repairable cw t cmds) := by
  obtain ⟨⟨count, h1, h2⟩, _⟩ := C29_fills_area cw ws m hk ht ht' hw hh ho hm hf
  refine ⟨count, h1, fun hc hs => ?_⟩
  obtain ⟨rows, r1, r2, r3⟩ := h2 hc hs
  simp only [MadView.writeOn, Option.bind_eq_bind, Option.bind_eq_some_iff] at r1
  obtain ⟨v, e, r1⟩ := r1
  have ev : v.area = m.area := by
    simp only [MadView.view, Option.bind_eq_bind, Option.bind_eq_some_iff, Option.some.injEq] at e
    obtain ⟨_, _, rfl⟩ := e
    rfl
  rw [← ev] at r2 r3 ⊢
  obtain ⟨cmds, c1, c2⟩ := view_crash cw v hsk r1 r2 r3 t hp
  exact ⟨v, cmds, e, c1, c2⟩

/-- C73: so it is for an input field, even if there was a background before. -/
theorem C73_input_field (cw : Char → Nat) (hs : cw ' ' = 1) (he : cw '…' = 1) (s : FieldStyles) (f : InputField)
    (hst : Tidy s.focused ∧ Tidy s.unfocused ∧ Tidy s.cursor) (hb : cw '▐' = 1)
    (ho : OnScreen f.area) (h1 : 1 ≤ f.textCols) (hn : f.content.lines.length < 65536)
    (hy : f.area.top + f.area.height + f.scroll.y + 1 < 65536)
    (htab : f.passwordMode = true ∨ ∀ l ∈ f.content.lines, '\t' ∉ l) (t : Tty) (bg : Option Color) (hp : t.pen = { bg := bg }) :
    ∃ cmds, s.cmds cw f = some cmds ∧ WrittenInOrder cw t cmds ∧ OnlyInArea cw t cmds f.area ∧ Repairable cw t cmds := by
  obtain ⟨rows, cur, g1, g2, g3, _⟩ := C27_rows cw hs he ('▐', '▐') ⟨hb, hb⟩ ho h1 hn hy htab
  have hd : s.displayOn cw f = some (rows.map (s.row f.focused), cur) := by
    simp only [FieldStyles.displayOn, scrollbar_chars, g1, Option.map_some]
  have htext : ∀ r ∈ rows, (r.pieces.flatMap (s.piece f.focused)).flatMap (·.2) = cellsText r.pieces := by
    intro r hr
    have hbar : ∀ p ∈ r.pieces, (p.1 = .thumb → p.2 = ['▐']) ∧ (p.1 = .track → p.2 = ['▐']) := by
      have h' := g1
      unfold InputField.displayOn at h'
      simp only [Option.bind_eq_bind, Option.bind_eq_some_iff] at h'
      obtain ⟨sb, _, w, _, h'⟩ := h'
      exact drawRows_bar cw ('▐', '▐') sb _ _ _ _ _ (fun j cur d hd => drawRow_text cw f hd) h' r hr
    clear hr
    generalize r.pieces = ps at hbar
    induction ps with
    | nil => rfl
    | cons p ps ih =>
      rw [List.flatMap_cons, List.flatMap_append, ih (fun q hq => hbar q (List.mem_cons_of_mem _ hq))]
      have e : (s.piece f.focused p).flatMap (·.2) = p.2 := by
        obtain ⟨st, t⟩ := p
        have hb' := hbar (st, t) (by simp)
        cases st with
        | normal => simp [FieldStyles.piece]
        | cursor => simp [FieldStyles.piece]
        | thumb =>
          rw [hb'.1 rfl]
          unfold FieldStyles.piece FieldStyles.scrollbar
          cases f.focused <;> cases s.focused.bg <;> rfl
        | track =>
          rw [hb'.2 rfl]
          unfold FieldStyles.piece FieldStyles.scrollbar
          cases f.focused <;> cases s.focused.bg <;> rfl
      rw [e]
      rfl
  have key : ∀ t' : Tty, t'.pen = {} → _ := fun t' ht' =>
    rows_crash cw f.area (rows.map (s.row f.focused)) (by simpa using g2) (by
      intro j row hj
      simp only [List.getElem?_map, Option.map_eq_some_iff] at hj
      obtain ⟨r, hr, rfl⟩ := hj
      obtain ⟨a1, a2, a3⟩ := g3 j r hr
      refine ⟨a1, a2, ?_⟩
      show textWidth cw ((r.pieces.flatMap (s.piece f.focused)).flatMap (·.2)) = _
      rw [htext r (List.mem_of_getElem? hr), a3]) (field_tidy cw s f hd hst) t' ht'
  refine ⟨.setBg .reset :: (rows.map (s.row f.focused)).flatMap fun row => rowCmds row.1 row.2.1 row.2.2, by rw [FieldStyles.cmds, hd]; rfl, ?_⟩
  have e0 : ∀ (t' : Tty) (bg : Option Color), t'.pen = { bg := bg } → t'.exec cw (.setBg .reset) = { t' with pen := {} } := by
    intro t' bg h; simp [Tty.exec, h, penColor]
  obtain ⟨k1, k2, k3⟩ := key { t with pen := {} } rfl
  refine ⟨?_, ?_, ?_⟩
  · intro n k
    cases n with
    | zero => exact ⟨0, 0, fun x y => by rw [if_neg (by unfold Before; omega)]; rfl⟩
    | succ n =>
      obtain ⟨px, py, h⟩ := k1 n k
      refine ⟨px, py, fun x y => ?_⟩
      show ((t.exec cw (.setBg .reset)).playCut cw _ n k).cells x y = if _ then ((t.exec cw (.setBg .reset)).play cw _).cells x y else _
      rw [e0 t bg hp]
      exact h x y
  · intro n k x y hn
    cases n with
    | zero => rfl
    | succ n =>
      show ((t.exec cw (.setBg .reset)).playCut cw _ n k).cells x y = _
      rw [e0 t bg hp]
      exact k2 n k x y hn
  · intro n k t' h' hp'
    show ((t'.exec cw (.setBg .reset)).play cw _).cells = ((t.exec cw (.setBg .reset)).play cw _).cells
    rw [e0 t bg hp, e0 t' none hp']
    cases n with
    | zero => exact k3 0 0 { t' with pen := {} } (h'.trans (by cases rows <;> rfl)) rfl
    | succ n =>
      refine k3 n k { t' with pen := {} } ?_ rfl
      rw [← e0 t bg hp]
      exact h'

/-- The cursor is moved at the left or more, on some rows. -/
private def InBand (left top bottom : Nat) : TtyCmd → Prop
  | .moveTo x y => left ≤ x ∧ top ≤ y ∧ y < bottom
  | _ => True

private theorem cut_band (cw : Char → Nat) (left top bottom : Nat) : ∀ (cmds : List TtyCmd) (t : Tty), (∀ c ∈ cmds, InBand left top bottom c) →
    left ≤ t.x → top ≤ t.y → t.y < bottom → ∀ n k x y, (x < left ∨ y < top ∨ bottom ≤ y) → (t.playCut cw cmds n k).cells x y = t.cells x y := by
  intro cmds
  induction cmds with
  | nil => intro t _ _ _ _ n k x y _; rfl
  | cons c cmds ih =>
    intro t hc h1 h2 h3 n k x y hxy
    have hprint : ∀ (s : CompoundStyle) (text : Text), printText cw t.y s t.x text t.cells x y = t.cells x y := by
      intro s text
      rw [printText_eq, if_neg]
      rintro ⟨rfl, hx⟩
      omega
    cases n with
    | zero =>
      cases c with
      | moveTo x' y' => rfl
      | setFg c => rfl
      | setBg c => rfl
      | print text => exact hprint _ _
      | styled s text => exact hprint _ _
      | clearLine => rfl
    | succ n =>
      have hrest : ∀ c ∈ cmds, InBand left top bottom c := fun c h => hc c (List.mem_cons_of_mem _ h)
      have hhead := hc c (by simp)
      show ((t.exec cw c).playCut cw cmds n k).cells x y = _
      cases c with
      | moveTo x' y' => exact ih _ hrest hhead.1 hhead.2.1 hhead.2.2 n k x y hxy
      | setFg c => exact ih (t.exec cw (.setFg c)) hrest h1 h2 h3 n k x y hxy
      | setBg c => exact ih (t.exec cw (.setBg c)) hrest h1 h2 h3 n k x y hxy
      | print text =>
        rw [ih (t.exec cw (.print text)) hrest (Nat.le_trans h1 (Nat.le_add_right _ _)) h2 h3 n k x y hxy]
        exact hprint _ _
      | styled s text =>
        rw [ih (t.exec cw (.styled s text)) hrest (Nat.le_trans h1 (Nat.le_add_right _ _)) h2 h3 n k x y hxy]
        exact hprint _ _
      | clearLine =>
        rw [ih (t.exec cw .clearLine) hrest h1 h2 h3 n k x y hxy]
        show (if y = t.y ∧ t.x ≤ x then _ else _) = _
        rw [if_neg]
        rintro ⟨rfl, hx⟩
        omega

/-- C73: when the writer fails while a list view is written, nothing is changed above it, under it, or at its left. -/
theorem C73_list_view {T : Type} (cw : Char → Nat) (v : ListView T) (skin : Skin) (hh : 2 ≤ v.area.height) {cmds : List TtyCmd}
    (h : v.cmds skin = some cmds) (t : Tty) (done kept x y : Nat) (hxy : x < v.area.left ∨ y < v.area.top ∨ v.area.top + v.area.height ≤ y) :
    (t.playCut cw cmds done kept).cells x y = t.cells x y := by
  have hpieces : ∀ (ps : List Piece), ∀ c ∈ ps.map Piece.cmd, InBand v.area.left v.area.top (v.area.top + v.area.height) c := by
    intro ps c hc
    obtain ⟨p, _, rfl⟩ := List.mem_map.1 hc
    trivial
  have hrow : ∀ (yy : Nat) (ps : List Piece), v.area.top ≤ yy → yy < v.area.top + v.area.height →
      ∀ c ∈ rowCmds v.area.left yy ps, InBand v.area.left v.area.top (v.area.top + v.area.height) c := by
    intro yy ps h1 h2 c hc
    rcases List.mem_cons.1 hc with rfl | hc
    · exact ⟨Nat.le_refl _, h1, h2⟩
    · exact hpieces ps c hc
  have hcells : ∀ (sel : Bool) (data : T) (cs : List (ListColumn T)) (first : Bool), ∀ c ∈ v.cellsCmds skin sel data first cs,
      InBand v.area.left v.area.top (v.area.top + v.area.height) c := by
    intro sel data cs
    induction cs with
    | nil => intro first c hc; simp [ListView.cellsCmds] at hc
    | cons col cs ih =>
      intro first c hc
      simp only [ListView.cellsCmds, List.mem_append] at hc
      rcases hc with (hc | hc) | hc
      · split at hc
        · simp at hc
        · rcases List.mem_append.1 hc with hc | hc
          · split at hc
            · simp only [List.mem_singleton] at hc; subst hc; trivial
            · simp at hc
          · exact hpieces _ c hc
      · simp only [List.mem_singleton] at hc; subst hc; trivial
      · exact ih false c hc
  have hbody : ∀ (bar : Option (Nat × Nat)) (sx : Nat), v.area.left ≤ sx → ∀ (n yy idx : Nat) body, v.bodyCmds skin bar sx n yy idx = some body →
      yy + n ≤ v.area.height → ∀ c ∈ body, InBand v.area.left v.area.top (v.area.top + v.area.height) c := by
    intro bar sx hsx n
    induction n with
    | zero => intro yy idx body hb _; simp only [ListView.bodyCmds, Option.some.injEq] at hb; subst hb; simp
    | succ n ih =>
      intro yy idx body hb hy
      simp only [ListView.bodyCmds, Option.bind_eq_bind, Option.bind_eq_some_iff] at hb
      obtain ⟨top, h1, found, _, hb⟩ := hb
      have htop : top = v.area.top + yy := by
        simp only [u16Add] at h1
        split at h1
        · simpa using h1.symm
        · simp at h1
      have hbar : ∀ c ∈ ListView.barCmds skin bar sx v.area.top yy, InBand v.area.left v.area.top (v.area.top + v.area.height) c := by
        intro c hc
        unfold ListView.barCmds at hc
        split at hc
        · rcases List.mem_cons.1 hc with rfl | hc
          · exact ⟨hsx, by omega, by omega⟩
          · exact hpieces _ c hc
        · simp at hc
      cases found with
      | none =>
        simp only [Option.bind_eq_some_iff, Option.some.injEq] at hb
        obtain ⟨rest, hr, rfl⟩ := hb
        intro c hc
        rcases List.mem_cons.1 hc with rfl | hc
        · exact ⟨Nat.le_refl _, by omega, by omega⟩
        · rcases List.mem_cons.1 hc with rfl | hc
          · trivial
          · rcases List.mem_append.1 hc with hc | hc
            · exact hbar c hc
            · exact ih _ _ _ hr (by omega) c hc
      | some r =>
        obtain ⟨i, row⟩ := r
        simp only [Option.bind_eq_some_iff, Option.some.injEq] at hb
        obtain ⟨rest, hr, rfl⟩ := hb
        intro c hc
        rcases List.mem_cons.1 hc with rfl | hc
        · exact ⟨Nat.le_refl _, by omega, by omega⟩
        · rcases List.mem_append.1 hc with hc | hc
          · exact hcells _ _ _ _ c hc
          · rcases List.mem_append.1 hc with hc | hc
            · exact hbar c hc
            · exact ih _ _ _ hr (by omega) c hc
  simp only [ListView.cmds, Option.bind_eq_bind, Option.bind_eq_some_iff, Option.some.injEq] at h
  obtain ⟨sx, e1, titles, _, y1, e3, rule, _, bar, _, body, e6, rfl⟩ := h
  have hsx : v.area.left ≤ sx := by
    simp only [u16Add] at e1
    split at e1
    · have := Option.some.inj e1; omega
    · simp at e1
  have hy1 : y1 = v.area.top + 1 := by
    simp only [u16Add] at e3
    split at e3
    · simpa using e3.symm
    · simp at e3
  cases done with
  | zero => rfl
  | succ n =>
    show (({ t with x := v.area.left, y := v.area.top } : Tty).playCut cw (titles.map Piece.cmd ++ rowCmds v.area.left y1 rule ++ body) n kept).cells x y = t.cells x y
    refine cut_band cw v.area.left v.area.top (v.area.top + v.area.height) _ _ ?_ (Nat.le_refl _) (Nat.le_refl _) (by show v.area.top < _; omega) n kept x y hxy
    intro c hc
    rcases List.mem_append.1 hc with hc | hc
    · rcases List.mem_append.1 hc with hc | hc
      · exact hpieces titles c hc
      · exact hrow y1 rule (by omega) (by omega) c hc
    · exact hbody bar sx hsx _ _ _ body e6 (by omega) c hc

/-- C73: a failure may let a style on the terminal, so that writing again without resetting it gives something else. -/
theorem C73_style_counterexample (cw : Char → Nat) (hc : cw 'a' = 1) (t : Tty) (hp : t.pen = {}) :
    let cmds := rowCmds 0 0 [({ fg := some .red, attrs := 1#32 }, ['a']), ({}, ['b'])]
    (t.playCut cw cmds 1 0).pen = { fg := some .red, attrs := 1#32 } ∧ (t.playCut cw cmds 1 0).cells = t.cells ∧
    ((t.playCut cw cmds 1 0).play cw (rowCmds 0 0 [({}, ['a'])])).cells 0 0 = ({ fg := some .red, attrs := 1#32 }, 'a', 0) ∧
    (t.play cw (rowCmds 0 0 [({}, ['a'])])).cells 0 0 = ({}, 'a', 0) := by
  refine ⟨?_, rfl, ?_, ?_⟩
  · simp [rowCmds, Tty.playCut, Piece.cmd, Tty.execCut, Tty.exec, hp, over, penColor]
  · simp [rowCmds, Tty.playCut, Piece.cmd, Tty.execCut, Tty.exec, hp, over, penColor, Tty.play, printText, printChar, hc]
  · simp [rowCmds, Piece.cmd, Tty.exec, hp, over, Tty.play, printText, printChar, hc]

/-! Examples -/

/-- The text of `exText`, in an area at some place, whose writing is interrupted at any moment. -/
example (t : Tty) (hp : t.pen = {}) : ∃ v cmds,
    (MadView.mk exText ⟨3, 2, 14, 5⟩ renderSkin 0).view renderCw (· == ' ') = some v ∧ v.cmds renderSkin = some cmds ∧
      WrittenInOrder renderCw t cmds ∧ OnlyInArea renderCw t cmds ⟨3, 2, 14, 5⟩ ∧ Repairable renderCw t cmds := by
  obtain ⟨count, h1, h2⟩ := C73_mad_view renderCw (· == ' ') (MadView.mk exText ⟨3, 2, 14, 5⟩ renderSkin 0)
    ⟨.inl rfl, fun _ => .inl rfl, .inl rfl, .inl rfl, .inl rfl, .inl rfl, .inl rfl, .inl rfl, .inl rfl, .inl rfl, fun _ _ h => by simp [renderSkin] at h⟩
    renderSkin_one (by decide) (by decide) (by decide) (by decide) ⟨by decide, by decide⟩ renderMargin14 exText_fits t hp
  refine h2 ?_ (Nat.zero_le _)
  obtain ⟨t, e1, rfl⟩ := h1
  have : (FmtText.fromText renderCw (· == ' ') renderSkin exText (some 13)).map (·.lines.length) = some t.lines.length := by
    rw [show FmtText.fromText renderCw (· == ' ') renderSkin exText (some 13) = some t from e1]; rfl
  have e : (FmtText.fromText renderCw (· == ' ') renderSkin exText (some 13)).map (·.lines.length) = some 11 := by decide +kernel
  rw [e] at this
  simp only [Option.some.injEq] at this
  omega

/-- An interruption in the middle of a style: the cells are the final ones up to the second column of the second row. -/
example :
    let t : Tty := ⟨fun _ _ => ({}, '.', 0), 0, 0, {}⟩
    let cmds := rowCmds 1 0 [({}, ['a', 'b', 'c'])] ++ rowCmds 1 1 [({ fg := some .red }, ['d', 'e', 'f'])]
    (List.range 2).map (fun y => (List.range 5).map fun x => ((t.playCut (fun _ => 1) cmds 3 2).cells x y).2.1) =
      [['.', 'a', 'b', 'c', '.'], ['.', 'd', 'e', '.', '.']] := by decide

/-- An input field with a wide character. -/
example (t : Tty) (hp : t.pen = { bg := some .red }) : ∃ cmds,
    FieldStyles.new.cmds (fun c => if c = '世' then 2 else 1) ({ area := ⟨3, 2, 4, 2⟩, content := ⟨⟨0, 3⟩, none, [['a', '世', 'b']]⟩ } : InputField) = some cmds ∧
      WrittenInOrder (fun c => if c = '世' then 2 else 1) t cmds ∧ OnlyInArea (fun c => if c = '世' then 2 else 1) t cmds ⟨3, 2, 4, 2⟩ ∧
      Repairable (fun c => if c = '世' then 2 else 1) t cmds :=
  C73_input_field _ (by decide) (by decide) FieldStyles.new _ ⟨.inl rfl, .inl rfl, .inl rfl⟩ (by decide) ⟨by decide, by decide⟩ (by decide) (by decide)
    (by decide) (.inr (by decide)) t (some .red) hp

/-- A list which is written. -/
example : ((listOf ⟨3, 2, 9, 5⟩ displayColumns [0, 1]).cmds renderSkin).isSome = true := by decide +kernel

end Verif.Props

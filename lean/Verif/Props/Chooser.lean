import Verif.Spec.Chooser
import Verif.Props.PagerMain
/-! C90: an application on the error stream, whose user chooses what is printed on the standard output. -/
namespace Verif.Props
open Verif Verif.Spec Verif.AppMain Verif.Chooser

section
variable {cw : Char → Nat} {ws : Char → Bool} {mlines : List MLine} {skin : Skin} {count : Nat} {area : Area}

theorem marginArea_ok {w h : Nat} (hw : 2 ≤ w) (hh : 2 ≤ h) (hw' : (w - 122) / 2 < 65535) : viewArea w h = some (marginArea w h) := by
  have h0 : u16Add 0 1 = some 1 := rfl
  have h1 : u16Mul 2 1 = some 2 := rfl
  have h2 : csub w 2 = some (w - 2) := by unfold csub; rw [if_pos hw]
  have h3 : csub h 2 = some (h - 2) := by unfold csub; rw [if_pos hh]
  simp only [viewArea, Area.pad, h0, h1, h2, h3, Option.bind_eq_bind, Option.bind_some, Option.pure_def, Area.padForMaxWidth, marginArea]
  by_cases c : 120 ≥ w - 2
  · rw [if_pos c]
    simp only [Option.some.injEq, Area.mk.injEq, true_and, and_true]
    omega
  · rw [if_neg c]
    have h4 : csub (w - 2) 120 = some (w - 122) := by unfold csub; rw [if_pos (by omega), show w - 2 - 120 = w - 122 by omega]
    have h5 : u16Add 1 ((w - 122) / 2) = some (1 + (w - 122) / 2) := by unfold u16Add u16Size; rw [if_pos (by omega)]
    have h6 : csub (w - 2) (w - 122) = some (min (w - 2) 120) := by unfold csub; rw [if_pos (by omega), show w - 2 - (w - 122) = min (w - 2) 120 by omega]
    simp only [h4, h5, h6, Option.bind_some]

/-- The view with a scroll. -/
def viewWith (mlines : List MLine) (skin : Skin) (area : Area) (scroll : Nat) : MadView := { mlines, area, skin, scroll }

theorem good_text (hg : GoodView cw ws skin mlines count area) :
    ∃ text, FmtText.fromText cw ws skin mlines (some (area.width - 1)) = some text ∧ text.lines.length = count ∧
      ∀ (P : Prop) [Decidable P], ∀ l ∈ text.lines, DrawableLine cw skin l ∧
        ∀ n, (n = if P then area.width else area.width - 1) → ownCols skin n l ≤ n := by
  have hwide := hg.wide
  obtain ⟨out, e1, e2⟩ := fromText_final (ws := ws) (by omega) hg.fits
  refine ⟨_, e1, hg.lines _ e1, ?_⟩
  intro P _ l hl
  refine ⟨(e2 l hl).1, ?_⟩
  rintro n rfl
  split
  · exact ownCols_succ hg.margins (e2 l hl).2
  · exact (e2 l hl).2

theorem good_view (hg : GoodView cw ws skin mlines count area) {text : FmtText}
    (ht : FmtText.fromText cw ws skin mlines (some (area.width - 1)) = some text) (scroll : Nat) :
    (viewWith mlines skin area scroll).view cw ws = some { area, lines := text.lines, scroll } := by
  have hwide := hg.wide
  have h1 : csub area.width 1 = some (area.width - 1) := by unfold csub; rw [if_pos (by omega)]
  simp only [MadView.view, Skin.areaText, viewWith, h1, ht, Option.bind_eq_bind, Option.bind_some]

theorem good_rows (hk : OneColumnSkin cw skin) (ht : piecesCols cw skin.scrollbar.thumb.display = 1)
    (ht' : piecesCols cw skin.scrollbar.track.display = 1) (hg : GoodView cw ws skin mlines count area) {scroll : Nat} (hs : scroll ≤ count) {text : FmtText}
    (hx : FmtText.fromText cw ws skin mlines (some (area.width - 1)) = some text) :
    ∃ rows, ({ area, lines := text.lines, scroll } : TextView).writeOn skin = some rows ∧ rows.length = area.height ∧
      (∀ row ∈ rows, piecesCols cw row.pieces = area.width) ∧
      ∀ (j : Nat) (row : WrittenRow), rows[j]? = some row → row.x = area.left ∧ row.y = area.top + j := by
  obtain ⟨text', h1, h2, h3⟩ := good_text hg
  rw [hx] at h1
  cases h1
  have hwide := hg.wide
  have hroom := hg.room
  obtain ⟨bar, hb, hbn⟩ : ∃ bar, ({ area, lines := text.lines, scroll } : TextView).scrollbar = some bar ∧
      (bar = none ↔ text.lines.length ≤ area.height) := by
    have e1 : asU16 scroll = scroll := by unfold asU16 u16Size; omega
    have e2 : asU16 text.lines.length = text.lines.length := by unfold asU16 u16Size; omega
    simp only [TextView.scrollbar, TextView.contentHeight, if_true, e1, e2, Area.scrollbar]
    obtain ⟨r, hr⟩ := C19_total scroll text.lines.length area.height area.top (by omega)
    refine ⟨r, hr, ?_⟩
    rw [← C19_none_iff scroll text.lines.length area.height area.top, hr]
    simp
  obtain ⟨rows, r1, r2, r3⟩ := columns_with cw { area, lines := text.lines, scroll } skin hk ht ht' bar hb
    (by rw [hbn]; simp) (by show 1 ≤ area.width; omega) hg.onScreen (h3 _)
  obtain ⟨rows', w1, _, w3⟩ := written_with { area, lines := text.lines, scroll } skin bar hb (by show 1 ≤ area.width; omega) hg.onScreen
    (fun l hl w => by obtain ⟨ps, p1, _⟩ := C10_columns cw skin hk l (h3 True l hl).1 w; exact ⟨ps, p1⟩)
  rw [r1] at w1
  cases w1
  refine ⟨rows, r1, r2, r3, ?_⟩
  intro j row hj
  obtain ⟨a1, a2, _⟩ := w3 j row hj
  exact ⟨a1, a2⟩

/-- A drawing changes the cells of the area, and no others. -/
theorem good_drawn (hsk : TidySkin skin) (hk : OneColumnSkin cw skin) (ht : piecesCols cw skin.scrollbar.thumb.display = 1)
    (ht' : piecesCols cw skin.scrollbar.track.display = 1) (hg : GoodView cw ws skin mlines count area) {scroll : Nat} (hs : scroll ≤ count) :
    ∃ text rows cmds, FmtText.fromText cw ws skin mlines (some (area.width - 1)) = some text ∧ text.lines.length = count ∧
      ({ area, lines := text.lines, scroll } : TextView).writeOn skin = some rows ∧ rows.length = area.height ∧ FillsArea cw area (viewRows rows) ∧
      Pager.draw cw ws (viewWith mlines skin area scroll) = some cmds ∧
      ∀ (t : Tty) (base : Cells CompoundStyle), t.pen = {} → (∀ x y, ¬ InArea area x y → t.cells x y = base x y) →
        (t.playApp cw cmds).pen = {} ∧ (t.playApp cw cmds).cells = printSeen cw (viewRows rows) base := by
  obtain ⟨text, hx, hn, _⟩ := good_text hg
  obtain ⟨rows, r1, r2, r3, r4⟩ := good_rows hk ht ht' hg hs hx
  have hrow : ∀ (j : Nat) row, (viewRows rows)[j]? = some row → row.1 = area.left ∧ row.2.1 = area.top + j ∧ textWidth cw (row.2.2.flatMap (·.2)) = area.width := by
    intro j row hj
    simp only [viewRows, List.getElem?_map, Option.map_eq_some_iff] at hj
    obtain ⟨r, hr', rfl⟩ := hj
    obtain ⟨e1, e2⟩ := r4 j r hr'
    exact ⟨e1, e2, r3 r (List.mem_of_getElem? hr')⟩
  have hfill : FillsArea cw area ((viewRows rows).map fun r => (r.1, r.2.1, seenPieces r.2.2)) :=
    seen_fills cw area (viewRows rows) (by simpa [viewRows] using r2) hrow
  obtain ⟨cmds, c1, _⟩ := C65_text_view cw { area, lines := text.lines, scroll } hsk r1 ⟨blankCells, 0, 0, {}⟩ rfl
  refine ⟨text, rows, cmds.map .view, hx, hn, r1, r2, ?_, ?_, ?_⟩
  · apply fills cw area _ (by simpa [viewRows] using r2)
    intro j row hj
    obtain ⟨e1, e2, e3⟩ := hrow j row hj
    exact ⟨e1, e2, by rw [pieceChars_sum]; exact e3⟩
  · have e : (viewWith mlines skin area scroll).skin = skin := rfl
    simp only [Pager.draw, good_view hg hx, e, c1, Option.bind_eq_bind, Option.bind_some]
  · intro t base hp hb
    obtain ⟨cmds', c1', c2, c3⟩ := C65_text_view cw { area, lines := text.lines, scroll } hsk r1 t hp
    rw [c1] at c1'
    cases c1'
    rw [playApp_view, c2, c3]
    exact ⟨rfl, fills_same cw area _ hfill t.cells base hb⟩

theorem good_scroll (hg : GoodView cw ws skin mlines count area) (scroll : Nat) (n : Int) (hn : i32Min < n) :
    (viewWith mlines skin area scroll).tryScrollLines cw ws n =
      some (viewWith mlines skin area (if n < 0 then scroll - (-n).toNat else min (scroll + n.toNat) (count - area.height))) := by
  obtain ⟨text, h1, h2, _⟩ := good_text hg
  simp only [MadView.tryScrollLines, good_view hg h1, Option.bind_eq_bind, Option.bind_some, TextView.tryScrollLines]
  by_cases c : n < 0
  · rw [if_pos c, if_neg (by omega), if_pos c]
    simp only [Option.bind_some, Option.some.injEq, viewWith]
    congr 1
    split <;> omega
  · rw [if_neg c, if_neg c]
    simp only [Option.bind_some, TextView.setScroll, TextView.contentHeight, Option.some.injEq, h2, viewWith]
    congr 1
    by_cases d : count > area.height
    · rw [if_pos d]
    · rw [if_neg d]; omega

theorem good_pages (hg : GoodView cw ws skin mlines count area) (scroll : Nat) {n : Int} (hn : n = 1 ∨ n = -1) :
    (viewWith mlines skin area scroll).tryScrollPages cw ws n = (viewWith mlines skin area scroll).tryScrollLines cw ws (n * area.height) := by
  have := hg.room
  unfold MadView.tryScrollPages i32Min i32Max
  rw [if_pos (by simp only [viewWith]; rcases hn with rfl | rfl <;> omega)]
  rfl

theorem good_handle (hg : GoodView cw ws skin mlines count area) {scroll : Nat} (hs : scroll ≤ count) (e : Chooser.Event) :
    handle cw ws (viewWith mlines skin area scroll) e = some (viewWith mlines skin area (nextScroll count area.height scroll e)) ∧
      nextScroll count area.height scroll e ≤ count := by
  have hh := hg.high
  have hroom := hg.room
  unfold handle
  split
  · next k => exact ⟨by cases k <;> rfl, by cases k <;> exact hs⟩
  · rw [good_scroll hg scroll (-1) (by decide), if_pos (by decide)]
    exact ⟨rfl, by simp only [nextScroll]; omega⟩
  · rw [good_scroll hg scroll 1 (by decide), if_neg (by decide)]
    exact ⟨rfl, by simp only [nextScroll]; omega⟩
  · rw [good_pages hg scroll (.inr rfl), good_scroll hg scroll _ (by unfold i32Min; omega), if_pos (by omega),
      show (-(-1 * (area.height : Int))).toNat = area.height by omega]
    exact ⟨rfl, by simp only [nextScroll]; omega⟩
  · rw [good_pages hg scroll (.inl rfl), good_scroll hg scroll _ (by unfold i32Min; omega), if_neg (by omega),
      show (1 * (area.height : Int)).toNat = area.height by omega]
    exact ⟨rfl, by simp only [nextScroll]; omega⟩
  · next k h1 h2 h3 h4 => exact ⟨by cases k <;> first | rfl | contradiction, by cases k <;> first | exact hs | contradiction⟩
  · exact ⟨rfl, hs⟩

theorem leaves_iff (e : Choice) : leaves e.1 = true ↔ Choosing e := by
  obtain ⟨e, o⟩ := e
  unfold Choosing Scrolls
  dsimp only
  cases e with
  | other => simp [leaves]
  | key k b => cases b <;> cases k <;> simp [leaves]

/-- The terminal shows the view. -/
structure ShownView (cw : Char → Nat) (ws : Char → Bool) (mlines : List MLine) (skin : Skin) (count : Nat) (area : Area) (scroll : Nat) (base : Cells CompoundStyle) (t : Tty) : Prop where
  pen : t.pen = {}
  shown : ∃ text rows, FmtText.fromText cw ws skin mlines (some (area.width - 1)) = some text ∧ text.lines.length = count ∧
    ({ area, lines := text.lines, scroll } : TextView).writeOn skin = some rows ∧ rows.length = area.height ∧ FillsArea cw area (viewRows rows) ∧
    t.cells = printSeen cw (viewRows rows) base
  out : ∀ x y, ¬ InArea area x y → t.cells x y = base x y

theorem drawn_view (hsk : TidySkin skin) (hk : OneColumnSkin cw skin) (ht : piecesCols cw skin.scrollbar.thumb.display = 1)
    (ht' : piecesCols cw skin.scrollbar.track.display = 1) (hg : GoodView cw ws skin mlines count area) {scroll : Nat} (hs : scroll ≤ count) {cmds : List AppCmd}
    (hd : Pager.draw cw ws (viewWith mlines skin area scroll) = some cmds) {t : Tty} {base : Cells CompoundStyle} (hp : t.pen = {})
    (hb : ∀ x y, ¬ InArea area x y → t.cells x y = base x y) : ShownView cw ws mlines skin count area scroll base (t.playApp cw cmds) := by
  obtain ⟨text, rows, cmds', h1, h2, h3, h4, h5, h6, h7⟩ := good_drawn hsk hk ht ht' hg hs
  rw [hd] at h6
  cases h6
  obtain ⟨h8, h9⟩ := h7 t base hp hb
  refine ⟨h8, ⟨text, rows, h1, h2, h3, h4, h5, h9⟩, fun x y hn => ?_⟩
  rw [h9]
  obtain ⟨rows', r1, r2, r3, r4⟩ := good_rows hk ht ht' hg hs h1
  rw [h3] at r1
  cases r1
  refine (seen_fills cw area (viewRows rows) (by simpa [viewRows] using r2) ?_ base x y).2 hn
  intro j row hj
  simp only [viewRows, List.getElem?_map, Option.map_eq_some_iff] at hj
  obtain ⟨r, hr', rfl⟩ := hj
  obtain ⟨e1, e2⟩ := r4 j r hr'
  exact ⟨e1, e2, r3 r (List.mem_of_getElem? hr')⟩

theorem chooser_loop (hsk : TidySkin skin) (hk : OneColumnSkin cw skin) (ht : piecesCols cw skin.scrollbar.thumb.display = 1)
    (ht' : piecesCols cw skin.scrollbar.track.display = 1) (hg : GoodView cw ws skin mlines count area) {width height : Nat} {torn : MadView → List AppCmd}
    (io : Answers) (t : Terminal) : ∀ (es : List Choice) (p : Proc Choice) (scroll : Nat) (base : Cells CompoundStyle) {p' : Proc Choice} {m : MadView}, scroll ≤ count → p.buf = [] →
      (soon cw t p).alternate = true → ShownView cw ws mlines skin count area scroll base (soon cw t p).app →
      loop (program cw ws mlines skin width height torn) io false p (viewWith mlines skin area scroll) es = (p', .waiting m) →
      received p'.trace = received p.trace ++ es ∧ p'.buf = [] ∧ (∀ e ∈ es, leaves e.1 = false) ∧
        ShownView cw ws mlines skin count area (es.foldl (fun s e => nextScroll count area.height s e.1) scroll) (es.foldl (fun c e => e.2.getD c) base) (soon cw t p').app := by
  intro es
  induction es with
  | nil =>
    intro p scroll base p' m _ hb _ hsh h
    unfold loop at h
    simp only [Bool.false_eq_true, if_false, Prod.mk.injEq, Stop.waiting.injEq] at h
    obtain ⟨rfl, rfl⟩ := h
    exact ⟨by simp, hb, by simp, hsh⟩
  | cons e es ih =>
    intro p scroll base p' m hs hb ha hsh h
    unfold loop at h
    obtain ⟨r1, r2, r3, r4, r5⟩ := receive_spec (cw := cw) t hb e
    split at h
    · simp at h
    next hq =>
    have hq' : leaves e.1 = false := by simpa [program] using hq
    obtain ⟨k1, k2⟩ := good_handle hg hs e.1
    have : (program cw ws mlines skin width height torn).apply (viewWith mlines skin area scroll) e =
        some (viewWith mlines skin area (nextScroll count area.height scroll e.1), true) := by simp [program, k1]
    rw [this] at h
    dsimp only at h
    split at h
    · next p1 hr =>
      have ha' : (soon cw t (p.receive e)).alternate = true := by rw [r1]; exact ha
      obtain ⟨⟨cs, d1, d2⟩, d3, d4, d5, d6, d7⟩ := redraw_spec (cw := cw) _ io t _ ha' _ hr
      obtain ⟨d2, d8⟩ := d2 rfl
      have hsh' : ShownView cw ws mlines skin count area (nextScroll count area.height scroll e.1) (e.2.getD base) (soon cw t p1).app := by
        rw [d1]
        refine drawn_view hsk hk ht ht' hg k2 d8 (by rw [r1]; exact hsh.pen) ?_
        intro x y hn
        rw [r1]
        show e.2.getD (soon cw t p).app.cells x y = _
        cases e.2 with
        | none => exact hsh.out x y hn
        | some c => rfl
      obtain ⟨i1, i2, i3, i4⟩ := ih p1 _ _ k2 d2 (by rw [d1]; exact ha') hsh' h
      refine ⟨by rw [i1, d3, r3]; simp, i2, ?_, i4⟩
      intro e' he'
      rcases List.mem_cons.1 he' with rfl | he'
      · exact hq'
      · exact i3 e' he'
    · next p1 stop hr =>
      obtain ⟨_, _, _, _, d6, _⟩ := redraw_spec (cw := cw) _ io t _ (by rw [r1]; exact ha) _ hr
      simp only [Prod.mk.injEq] at h
      rw [h.2] at d6
      simp at d6

theorem chooser_redraw {width height : Nat} {torn : MadView → List AppCmd} {io : Answers} (hio : NoFailure io) (t : Terminal)
    {p : Proc Choice} (ha : (soon cw t p).alternate = true) {m : MadView} {cmds : List AppCmd} (hd : Pager.draw cw ws m = some cmds) :
    ∃ p', redraw (program cw ws mlines skin width height torn) io p m = (p', none) ∧ p'.buf = [] ∧ (soon cw t p').alternate = true ∧
      received p'.trace = received p.trace := by
  generalize hr : redraw (program cw ws mlines skin width height torn) io p m = x
  obtain ⟨p', r⟩ := x
  obtain ⟨⟨cs, d1, d2⟩, d3, d4, d5, d6, d7⟩ := redraw_spec (cw := cw) _ io t _ ha _ hr
  rcases d7 hio.writes with ⟨_, hn⟩ | rfl
  · simp [program, hd] at hn
  · exact ⟨p', rfl, (d2 rfl).1, by rw [d1]; exact ha, d3⟩

/-- When nothing fails, the loop goes on. -/
theorem chooser_alive (hsk : TidySkin skin) (hk : OneColumnSkin cw skin) (ht : piecesCols cw skin.scrollbar.thumb.display = 1)
    (ht' : piecesCols cw skin.scrollbar.track.display = 1) (hg : GoodView cw ws skin mlines count area) {width height : Nat} {torn : MadView → List AppCmd}
    {io : Answers} (hio : NoFailure io) (t : Terminal) : ∀ (es : List Choice) (p : Proc Choice) (scroll : Nat), scroll ≤ count → p.buf = [] → (soon cw t p).alternate = true →
    (∀ e ∈ es, ¬ Choosing e) →
    ∃ p' m, p'.buf = [] ∧ (soon cw t p').alternate = true ∧ received p'.trace = received p.trace ++ es ∧
      ∀ tail, loop (program cw ws mlines skin width height torn) io false p (viewWith mlines skin area scroll) (es ++ tail) =
        loop (program cw ws mlines skin width height torn) io false p' m tail := by
  intro es
  induction es with
  | nil => intro p scroll _ hb ha _; exact ⟨p, _, hb, ha, by simp, fun _ => rfl⟩
  | cons e es ih =>
    intro p scroll hs hb ha hkeys
    have hq : leaves e.1 = false := by
      cases hx : leaves e.1 with
      | false => rfl
      | true => exact absurd ((leaves_iff e).1 hx) (hkeys e (by simp))
    obtain ⟨k1, k2⟩ := good_handle hg hs e.1
    obtain ⟨r1, r2, r3, _⟩ := receive_spec (cw := cw) t hb e
    obtain ⟨_, _, cmds, _, _, _, _, _, hd, _⟩ := good_drawn hsk hk ht ht' hg k2
    obtain ⟨p1, d1, d2, d3, d4⟩ := chooser_redraw (mlines := mlines) (skin := skin) (width := width) (height := height) (torn := torn) hio t
      (p := p.receive e) (by rw [r1]; exact ha) hd
    obtain ⟨p', m, i1, i2, i3, i4⟩ := ih p1 _ k2 d2 d3 (fun e' he' => hkeys e' (List.mem_cons_of_mem _ he'))
    refine ⟨p', m, i1, i2, by rw [i3, d4, r3]; simp, fun tail => ?_⟩
    rw [← i4, List.cons_append]
    conv => lhs; unfold loop
    have h1 : (program cw ws mlines skin width height torn).quits e = false := hq
    have h2 : (program cw ws mlines skin width height torn).apply (viewWith mlines skin area scroll) e =
        some (viewWith mlines skin area (nextScroll count area.height scroll e.1), true) := by simp [program, k1]
    rw [h1, h2]
    simp only [Bool.false_eq_true, if_false, d1]

theorem lastGot_append {ε : Type} (trace : List (Item ε)) : lastGot trace = (received trace).getLast? := by
  have key : ∀ (l : List (Item ε)) (o : Option ε), l.foldl (fun last i => match i with | .got e => some e | _ => last) o = ((received l).getLast?).or o := by
    intro l
    induction l with
    | nil => intro o; simp [received]
    | cons i l ih =>
      intro o
      rw [List.foldl_cons, ih]
      cases i with
      | got e => simp only [received, List.getLast?_cons]; cases (received l).getLast? <;> simp
      | out c => rfl
      | raw b => rfl
  exact (key trace none).trans (by simp)

theorem start_ok {width height : Nat} (hg : GoodView cw ws skin mlines count (marginArea width height)) (torn : MadView → List AppCmd) :
    (program (α := Option (Cells CompoundStyle)) cw ws mlines skin width height torn).start = some (viewWith mlines skin (marginArea width height) 0) := by
  have h1 := hg.wide
  have h2 := hg.high
  have h3 := hg.onScreen.1
  simp only [marginArea] at h1 h2 h3
  simp only [program, marginArea_ok (w := width) (h := height) (by omega) (by omega) (by omega), Option.map_some]
  rfl

end

/-- C90: as long as the application waits for an event, whatever the failures, the events, and what other programs do to the screen: it received all of the events, no key without modifiers other
than the up, down, page up and page down ones was hit, nothing was printed on the standard output, the terminal is in raw mode, on the alternate screen and without cursor, the screen of the user isn't changed,
and the alternate screen shows the text, from the line given by the events, on the area in the middle, and what was there out of this area. -/
theorem C90_screen (cw : Char → Nat) (ws : Char → Bool) {mlines : List MLine} {skin : Skin} {count : Nat} (hsk : TidySkin skin)
    (hk : OneColumnSkin cw skin) (ht : piecesCols cw skin.scrollbar.thumb.display = 1) (ht' : piecesCols cw skin.scrollbar.track.display = 1)
    {width height : Nat} (hg : GoodView cw ws skin mlines count (marginArea width height)) (torn : MadView → List AppCmd) (told : Option (Nat × Nat)) (io : Answers) {t : Terminal}
    (hr : AtRest t) (es : List Choice) {p : Proc Choice} {m : MadView} {out : Option Printed}
    (h : Chooser.main cw ws mlines skin width height torn told io es = (p, .waiting m, out)) :
    out = none ∧ received p.trace = es ∧ (∀ e ∈ es, ¬ Choosing e) ∧ p.buf = [] ∧ Paging (t.after cw p.trace) ∧ (t.after cw p.trace).user = t.user ∧
      let scroll := es.foldl (fun s e => nextScroll count (height - 2) s e.1) 0
      ∃ text rows, FmtText.fromText cw ws skin mlines (some (min (width - 2) 120 - 1)) = some text ∧ text.lines.length = count ∧
        ({ area := marginArea width height, lines := text.lines, scroll } : TextView).writeOn skin = some rows ∧
        rows.length = height - 2 ∧ FillsArea cw (marginArea width height) (viewRows rows) ∧
        (t.after cw p.trace).app.cells = printSeen cw (viewRows rows) (leftCells es) ∧
        ∀ x y, ¬ InArea (marginArea width height) x y → (t.after cw p.trace).app.cells x y = leftCells es x y := by
  have hrun : Pager.runMain (program cw ws mlines skin width height torn) io es = (p, .waiting m) ∧ out = none := by
    unfold Chooser.main at h
    split at h
    · split at h <;> simp at h
    · next hx => simp only [Prod.mk.injEq, Stop.waiting.injEq] at h; obtain ⟨rfl, rfl, rfl⟩ := h; exact ⟨hx, rfl⟩
    · simp at h
  obtain ⟨hrun, rfl⟩ := hrun
  refine ⟨rfl, ?_⟩
  rcases runMain_cases (cw := cw) _ io t hr es hrun with ⟨_, h, _⟩ | ⟨_, p0, h1, h2, h3, h4, ⟨_, _, h⟩ | ⟨s0, q, hs, ⟨stop, hd, _, rfl⟩ | ⟨hd, r, stop, hl, hc⟩⟩⟩
  · cases h
  · cases h
  · obtain ⟨_, _, _, _, d6, _⟩ := redraw_spec (cw := cw) _ io t _ (by rw [h1]; rfl) _ hd
    simp at d6
  rw [start_ok hg] at hs
  cases hs
  have ha0 : (soon cw t p0).alternate = true := by rw [h1]; rfl
  obtain ⟨⟨cs, d1, d2⟩, d3, d4, d5, d6, d7⟩ := redraw_spec (cw := cw) _ io t _ ha0 _ hd
  obtain ⟨d2, d8⟩ := d2 rfl
  have ha : (soon cw t q).alternate = true := by rw [d1]; exact ha0
  have hwait : stop = .waiting m ∧ p = r := by
    rcases hc with ⟨s', rfl, h5, rfl⟩ | ⟨rfl, h5⟩ | ⟨h5, h6, _⟩
    · cases h5; exact ⟨rfl, rfl⟩
    · obtain ⟨_, k, _⟩ := runRestore_spec (cw := cw) io t r h5
      simp at k
    · rcases h5 with rfl | rfl <;> cases h6
  obtain ⟨rfl, rfl⟩ := hwait
  have hsh : ShownView cw ws mlines skin count (marginArea width height) 0 blankCells (soon cw t q).app := by
    rw [d1, h1]
    exact drawn_view hsk hk ht ht' hg (Nat.zero_le _) d8 hr.pen (fun _ _ _ => rfl)
  obtain ⟨i1, i2, i3, i4⟩ := chooser_loop (cw := cw) hsk hk ht ht' hg io t es q 0 blankCells (Nat.zero_le _) d2 ha hsh hl
  obtain ⟨m1, _⟩ := loop_modes (cw := cw) _ io false t es q _ d2 ha hl
  rw [d1, h1, soon_flushed t i2] at m1
  rw [soon_flushed t i2] at i4
  refine ⟨by rw [i1, d3, h2]; rfl, fun e he hlk => ?_, i2, ⟨m1.alternate, m1.raw, by rw [m1.mouse]; exact hr.silent, m1.cursor⟩, m1.user, ?_⟩
  · have := i3 e he
    rw [(leaves_iff e).2 hlk] at this
    cases this
  obtain ⟨text, rows, t1, t2, t3, t4, t5, t6⟩ := i4.shown
  exact ⟨text, rows, t1, t2, t3, t4, t5, t6, i4.out⟩

/-- C90: what is printed on the standard output is printed at the end, when the terminal is as it was before the launch, and is decided by the first hit key, without modifiers, which isn't one of those which scroll:
`..`, `/` or `~` for 1, 2 and 3, and the text for any other one. -/
theorem C90_printed (cw : Char → Nat) (ws : Char → Bool) {mlines : List MLine} {skin : Skin} (width height : Nat) (torn : MadView → List AppCmd) (told : Option (Nat × Nat)) (io : Answers)
    {t : Terminal} (hr : AtRest t) (es : List Choice) {p : Proc Choice} {stop : Stop MadView} {printed : Printed}
    (h : Chooser.main cw ws mlines skin width height torn told io es = (p, stop, some printed)) :
    stop = .left ∧ p.buf = [] ∧ SameModes t (t.after cw p.trace) ∧
      ∃ got k cells rest, es = got ++ (.key k false, cells) :: rest ∧ ¬ Scrolls k ∧ (∀ e ∈ got, ¬ Choosing e) ∧ received p.trace = got ++ [(.key k false, cells)] ∧
        (∀ c text, k = .char c → choiceText c = some text → printed = .raw text) ∧
        ((∀ c, k = .char c → choiceText c = none) → ∃ cmds, skin.printText cw ws told mlines = some cmds ∧ printed = .formatted cmds) := by
  unfold Chooser.main at h
  split at h
  next p0 hrun =>
    obtain ⟨c1, c2, got, e, rest, c3, c4, c5, c6⟩ := C84_ended cw _ io hr es hrun
    split at h
    next printed' ho =>
      simp only [Prod.mk.injEq, Option.some.injEq] at h
      obtain ⟨rfl, rfl, rfl⟩ := h
      obtain ⟨k, hk1, hk2⟩ := (leaves_iff e).1 c4
      obtain ⟨e1, cells⟩ := e
      dsimp only at hk1
      subst hk1
      rw [lastGot_append, c6, List.getLast?_concat, Option.bind_some] at ho
      refine ⟨rfl, c1, c2, got, k, cells, rest, c3, hk2, ?_, c6, ?_, ?_⟩
      · intro e he hn
        have h1 : leaves e.1 = false := c5 e he
        rw [(leaves_iff e).2 hn] at h1
        cases h1
      · rintro c text rfl hc
        simp only [userChar] at ho
        unfold choiceText at hc
        split at hc
        · next hx => subst hx; cases hc; cases ho; rfl
        split at hc
        · next hx => subst hx; cases hc; cases ho; rfl
        split at hc
        · next hx => subst hx; cases hc; cases ho; rfl
        · cases hc
      · intro hn
        unfold output at ho
        split at ho
        · next hx =>
          cases k <;> simp only [userChar, Option.some.injEq, reduceCtorEq] at hx
          subst hx
          exact absurd (hn _ rfl) (by decide)
        · next hx =>
          cases k <;> simp only [userChar, Option.some.injEq, reduceCtorEq] at hx
          subst hx
          exact absurd (hn _ rfl) (by decide)
        · next hx =>
          cases k <;> simp only [userChar, Option.some.injEq, reduceCtorEq] at hx
          subst hx
          exact absurd (hn _ rfl) (by decide)
        · simp only [Option.map_eq_some_iff] at ho
          obtain ⟨cmds, h1, h2⟩ := ho
          exact ⟨cmds, h1, h2.symm⟩
    · simp at h
  · simp at h
  · simp at h

/-- C90: when nothing fails, the application waits until a key chooses, and does nothing else before. -/
theorem C90_alive (cw : Char → Nat) (ws : Char → Bool) {mlines : List MLine} {skin : Skin} {count : Nat} (hsk : TidySkin skin)
    (hk : OneColumnSkin cw skin) (ht : piecesCols cw skin.scrollbar.thumb.display = 1) (ht' : piecesCols cw skin.scrollbar.track.display = 1)
    {width height : Nat} (hg : GoodView cw ws skin mlines count (marginArea width height)) (torn : MadView → List AppCmd) (told : Option (Nat × Nat)) {io : Answers} (hio : NoFailure io)
    (es : List Choice) (hkeys : ∀ e ∈ es, ¬ Choosing e) :
    (∃ p m, Chooser.main cw ws mlines skin width height torn told io es = (p, .waiting m, none)) ∧
    ∀ e, Choosing e → ∀ rest, ∃ p, Pager.runMain (program cw ws mlines skin width height torn) io (es ++ e :: rest) = (p, .left) := by
  let t : Terminal := { user := ⟨blankCells, 0, 0, {}⟩, app := ⟨blankCells, 0, 0, {}⟩ }
  have hr : AtRest t := ⟨rfl, rfl, rfl, rfl, rfl⟩
  have key : ∀ tail, ∃ p m, ∀ x, Pager.runMain (program cw ws mlines skin width height torn) io (es ++ tail) = x →
      ∃ r stop, loop (program cw ws mlines skin width height torn) io false p m tail = (r, stop) ∧ p.buf = [] ∧
      ((∃ s, stop = .waiting s ∧ x = (r, .waiting s)) ∨ (stop = .left ∧ Pager.runRestore io r = x) ∨ ((stop = .failed ∨ stop = .panicked) ∧ x = (r.abandon io, stop))) := by
    intro tail
    generalize hx : Pager.runMain (program cw ws mlines skin width height torn) io (es ++ tail) = x
    obtain ⟨px, st⟩ := x
    rcases runMain_cases (cw := cw) _ io t hr _ hx with ⟨hn, _⟩ | ⟨_, p0, h1, h2, h3, h4, hc⟩
    · exact absurd ⟨fun k _ => hio.writes k, hio.raws 0⟩ hn
    obtain ⟨_, _, cmds, _, _, _, _, _, hd, _⟩ := good_drawn hsk hk ht ht' hg (Nat.zero_le _)
    obtain ⟨p1, d1, d2, d3, d4⟩ := chooser_redraw (mlines := mlines) (skin := skin) (width := width) (height := height) (torn := torn) hio t
      (p := p0) (by rw [h1]; rfl) hd
    obtain ⟨p2, m2, i1, i2, i3, i4⟩ := chooser_alive (width := width) (height := height) (torn := torn) hsk hk ht ht' hg hio t es p1 0 (Nat.zero_le _) d2 d3 hkeys
    refine ⟨p2, m2, ?_⟩
    rintro _ rfl
    rcases hc with ⟨hn, _⟩ | ⟨s0, q, hs, ⟨stop, hd', _⟩ | ⟨hd', r, stop, hl, hc⟩⟩
    · rw [start_ok hg] at hn; cases hn
    · rw [start_ok hg] at hs
      cases hs
      have := d1.symm.trans hd'
      simp at this
    · rw [start_ok hg] at hs
      cases hs
      have := d1.symm.trans hd'
      simp only [Prod.mk.injEq, and_true] at this
      subst this
      rw [i4] at hl
      refine ⟨r, stop, hl, i1, ?_⟩
      rcases hc with ⟨s, h5, h6, rfl⟩ | ⟨h5, h6⟩ | ⟨h5, h6, rfl⟩
      · exact .inl ⟨s, h5, by rw [h6]⟩
      · exact .inr (.inl ⟨h5, h6⟩)
      · exact .inr (.inr ⟨h5, by rw [h6]⟩)
  constructor
  · obtain ⟨p, m, h⟩ := key []
    obtain ⟨r, stop, h1, _, h3⟩ := h _ rfl
    unfold loop at h1
    simp only [Bool.false_eq_true, if_false, Prod.mk.injEq] at h1
    obtain ⟨rfl, rfl⟩ := h1
    rcases h3 with ⟨s, h4, h5⟩ | ⟨h4, _⟩ | ⟨h4, _⟩
    · rw [List.append_nil] at h5
      exact ⟨p, s, by unfold Chooser.main; rw [h5]⟩
    · cases h4
    · rcases h4 with h4 | h4 <;> cases h4
  · intro e he rest
    obtain ⟨p, m, h⟩ := key (e :: rest)
    obtain ⟨r, stop, h1, _, h3⟩ := h _ rfl
    unfold loop at h1
    rw [if_pos (show (program cw ws mlines skin width height torn).quits e = true from (leaves_iff e).2 he)] at h1
    cases h1
    rcases h3 with ⟨s, h4, _⟩ | ⟨_, h5⟩ | ⟨h4, _⟩
    · cases h4
    · generalize hx : Pager.runMain (program cw ws mlines skin width height torn) io (es ++ e :: rest) = x at h5
      obtain ⟨p', st⟩ := x
      obtain ⟨_, _, _, k4⟩ := runRestore_spec (cw := cw) io t _ h5
      exact ⟨p', by rw [k4 hio]⟩
    · rcases h4 with h4 | h4 <;> cases h4

/-- C90: when nothing fails, hitting 1, 2 or 3 ends the application, which prints exactly `..`, `/` or `~`, without looking at what comes next, and gives back the terminal as it was. With another key
(but those which scroll) it prints the text. -/
theorem C90_chosen (cw : Char → Nat) (ws : Char → Bool) {mlines : List MLine} {skin : Skin} {count : Nat} (hsk : TidySkin skin)
    (hk : OneColumnSkin cw skin) (ht : piecesCols cw skin.scrollbar.thumb.display = 1) (ht' : piecesCols cw skin.scrollbar.track.display = 1)
    {width height : Nat} (hg : GoodView cw ws skin mlines count (marginArea width height)) (torn : MadView → List AppCmd) (told : Option (Nat × Nat)) {io : Answers} (hio : NoFailure io)
    {t : Terminal} (hr : AtRest t) (es : List Choice) (hkeys : ∀ e ∈ es, ¬ Choosing e) (k : KeyCode) (hsc : ¬ Scrolls k) (cells : Option (Cells CompoundStyle)) (rest : List Choice) :
    (∀ c text, k = .char c → choiceText c = some text →
      ∃ p, Chooser.main cw ws mlines skin width height torn told io (es ++ (.key k false, cells) :: rest) = (p, .left, some (.raw text)) ∧
        received p.trace = es ++ [(.key k false, cells)] ∧ p.buf = [] ∧ SameModes t (t.after cw p.trace)) ∧
    ((∀ c, k = .char c → choiceText c = none) → ∀ cmds, skin.printText cw ws told mlines = some cmds →
      ∃ p, Chooser.main cw ws mlines skin width height torn told io (es ++ (.key k false, cells) :: rest) = (p, .left, some (.formatted cmds)) ∧
        received p.trace = es ++ [(.key k false, cells)] ∧ p.buf = [] ∧ SameModes t (t.after cw p.trace)) := by
  have hch : Choosing (.key k false, cells) := ⟨k, rfl, hsc⟩
  obtain ⟨p, hp⟩ := (C90_alive cw ws hsk hk ht ht' hg torn told hio es hkeys).2 (.key k false, cells) hch rest
  obtain ⟨c1, c2, got, e, rest', c3, c4, c5, c6⟩ := C84_ended cw _ io hr _ hp
  have hfirst : ∀ (a b : List Choice) (x y : Choice) (r r' : List Choice), a ++ x :: r = b ++ y :: r' → leaves x.1 = true → leaves y.1 = true →
      (∀ e ∈ a, leaves e.1 = false) → (∀ e ∈ b, leaves e.1 = false) → a = b ∧ x = y := by
    intro a
    induction a with
    | nil =>
      intro b x y r r' h hx hy _ hb
      cases b with
      | nil => simp only [List.nil_append, List.cons.injEq] at h; exact ⟨rfl, h.1⟩
      | cons z b =>
        simp only [List.nil_append, List.cons_append, List.cons.injEq] at h
        have := hb z (by simp)
        rw [← h.1, hx] at this
        cases this
    | cons w a ih =>
      intro b x y r r' h hx hy ha hb
      cases b with
      | nil =>
        simp only [List.nil_append, List.cons_append, List.cons.injEq] at h
        have := ha w (by simp)
        rw [h.1, hy] at this
        cases this
      | cons z b =>
        simp only [List.cons_append, List.cons.injEq] at h
        obtain ⟨h1, h2⟩ := ih b x y r r' h.2 hx hy (fun e he => ha e (List.mem_cons_of_mem _ he)) (fun e he => hb e (List.mem_cons_of_mem _ he))
        exact ⟨by rw [h.1, h1], h2⟩
  obtain ⟨rfl, rfl⟩ := hfirst _ _ _ _ _ _ c3 ((leaves_iff _).2 hch) c4
    (fun e he => by
      cases hx : leaves e.1 with
      | false => rfl
      | true => exact absurd ((leaves_iff e).1 hx) (hkeys e he)) c5
  have hlast : ((lastGot p.trace).bind fun e => userChar e.1) = userChar (.key k false) := by
    rw [lastGot_append, c6, List.getLast?_concat, Option.bind_some]
  constructor
  · rintro c text rfl hc
    refine ⟨p, ?_, c6, c1, c2⟩
    unfold Chooser.main
    rw [hp]
    dsimp only
    rw [hlast]
    simp only [userChar]
    unfold choiceText at hc
    split at hc
    · next hx => subst hx; cases hc; rfl
    split at hc
    · next hx => subst hx; cases hc; rfl
    split at hc
    · next hx => subst hx; cases hc; rfl
    · cases hc
  · intro hn cmds hcmds
    refine ⟨p, ?_, c6, c1, c2⟩
    unfold Chooser.main
    rw [hp]
    dsimp only
    rw [hlast]
    have : output cw ws mlines skin told (userChar (.key k false)) = some (.formatted cmds) := by
      unfold output
      split
      · next hx =>
        cases k <;> simp only [userChar, Option.some.injEq, reduceCtorEq] at hx
        subst hx
        exact absurd (hn _ rfl) (by decide)
      · next hx =>
        cases k <;> simp only [userChar, Option.some.injEq, reduceCtorEq] at hx
        subst hx
        exact absurd (hn _ rfl) (by decide)
      · next hx =>
        cases k <;> simp only [userChar, Option.some.injEq, reduceCtorEq] at hx
        subst hx
        exact absurd (hn _ rfl) (by decide)
      · rw [hcmds]; rfl
    rw [this]

/-- C90: nothing is printed on the standard output when anything else than a normal end happens: an error, a panic, or nothing yet. -/
theorem C90_nothing (cw : Char → Nat) (ws : Char → Bool) {mlines : List MLine} {skin : Skin} (width height : Nat) (torn : MadView → List AppCmd) (told : Option (Nat × Nat)) (io : Answers)
    (es : List Choice) {p : Proc Choice} {st : Stop MadView} (h : Pager.runMain (program cw ws mlines skin width height torn) io es = (p, st)) (hst : st ≠ .left) :
    (Chooser.main cw ws mlines skin width height torn told io es).2.2 = none := by
  unfold Chooser.main
  rw [h]
  cases st with
  | left => exact absurd rfl hst
  | waiting m => rfl
  | failed => rfl
  | panicked => rfl

/-! Examples -/

/-- The text of the examples in a terminal of 16 columns. -/
theorem chooser_good : GoodView renderCw (· == ' ') renderSkin exText 11 (marginArea 16 7) := by
  refine ⟨by decide, by decide, ⟨by decide, by decide⟩, renderMargin14, exText_fits, ?_, by decide⟩
  exact (exText_good14 5 (by decide) (by decide)).lines

/-- A page down, a modified key, something written on the screen by another program, and a line down. -/
def choices (c : Cells CompoundStyle) : List Choice := [(.key .pageDown false, none), (.key (.char '2') true, none), (.other, some c), (.key .down false, none)]

theorem choices_kept (c : Cells CompoundStyle) : ∀ e ∈ choices c, ¬ Choosing e := by
  intro e he
  simp only [choices, List.mem_cons, List.not_mem_nil, or_false] at he
  rcases he with rfl | rfl | rfl | rfl <;> simp [Choosing, Scrolls]

/-- The hypotheses of C90_alive and C90_screen are met: the seventh line is the first of the shown page, and what was written by another program is still around. -/
example (c : Cells CompoundStyle) : ∃ p m rows, Chooser.main renderCw (· == ' ') exText renderSkin 16 7 (fun _ => []) none pagerFine (choices c) = (p, .waiting m, none) ∧
    (choices c).foldl (fun s e => nextScroll 11 5 s e.1) 0 = 6 ∧ leftCells (choices c) = c ∧
    (pagerRest.after renderCw p.trace).app.cells = printSeen renderCw (viewRows rows) c := by
  obtain ⟨p, m, h⟩ := (C90_alive renderCw (· == ' ') renderSkin_tidy renderSkin_one (by decide) (by decide) chooser_good (fun _ => []) none pagerFine_fine (choices c) (choices_kept c)).1
  obtain ⟨_, _, _, _, _, _, text, rows, _, _, _, _, _, h6, _⟩ := C90_screen renderCw (· == ' ') renderSkin_tidy renderSkin_one (by decide) (by decide) chooser_good (fun _ => []) none
    pagerFine pagerRest_rest (choices c) h
  exact ⟨p, m, rows, h, rfl, rfl, h6⟩

/-- The hypotheses of C90_chosen, and so of C90_printed, are met: `/` is printed when 2 is then hit. -/
example (c : Cells CompoundStyle) : ∃ p, Chooser.main renderCw (· == ' ') exText renderSkin 16 7 (fun _ => []) none pagerFine
    (choices c ++ (.key (.char '2') false, none) :: [(.key (.char '1') false, none)]) = (p, .left, some (.raw ['/'])) := by
  obtain ⟨p, h, _⟩ := (C90_chosen renderCw (· == ' ') renderSkin_tidy renderSkin_one (by decide) (by decide) chooser_good (fun _ => []) none pagerFine_fine pagerRest_rest (choices c)
    (choices_kept c) (.char '2') (by simp [Scrolls]) none [(.key (.char '1') false, none)]).1 '2' ['/'] rfl rfl
  exact ⟨p, h⟩

/-- C90: the size matters: in a terminal of less than two columns the application panics, before having shown anything, and leaves the terminal in raw mode, on the alternate screen and without cursor. -/
theorem C90_small_counterexample : ∃ p : Proc Choice, Chooser.main renderCw (· == ' ') exText renderSkin 1 7 (fun _ => []) none pagerFine [] = (p, .panicked, none) ∧
    Paging (pagerRest.after renderCw p.trace) :=
  ⟨_, rfl, ⟨rfl, rfl, rfl, rfl⟩⟩

end Verif.Props

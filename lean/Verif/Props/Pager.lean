import Verif.Spec.Pager
import Verif.Props.Tty
/-! C78: an application which draws its view after each event always shows exactly the view. -/
namespace Verif.Props
open Verif Verif.Spec Verif.Pager

theorem playApp_append (cw : Char → Nat) (t : Tty) (a b : List AppCmd) : t.playApp cw (a ++ b) = (t.playApp cw a).playApp cw b := List.foldl_append

theorem playApp_view (cw : Char → Nat) : ∀ (cmds : List TtyCmd) (t : Tty), t.playApp cw (cmds.map .view) = t.play cw cmds := by
  intro cmds
  induction cmds with
  | nil => intro t; rfl
  | cons c cmds ih => intro t; exact ih (t.exec cw c)

/-- Rows which fill an area fill it as they are seen. -/
theorem seen_fills (cw : Char → Nat) (area : Area) (rows : List (Nat × Nat × List Piece)) (hl : rows.length = area.height)
    (h : ∀ (j : Nat) row, rows[j]? = some row → row.1 = area.left ∧ row.2.1 = area.top + j ∧ textWidth cw (row.2.2.flatMap (·.2)) = area.width) :
    FillsArea cw area (rows.map fun r => (r.1, r.2.1, seenPieces r.2.2)) := by
  apply fills cw area _ (by simpa using hl)
  intro j row hj
  simp only [List.getElem?_map, Option.map_eq_some_iff] at hj
  obtain ⟨r, hr, rfl⟩ := hj
  obtain ⟨h1, h2, h3⟩ := h j r hr
  refine ⟨h1, h2, ?_⟩
  rw [pieceChars_sum, ← h3]
  simp [seenPieces, List.flatMap_map]

/-- What is printed in an area doesn't depend on what was there. -/
theorem fills_same {σ : Type} (cw : Char → Nat) (area : Area) (rows : List (Nat × Nat × List (σ × Text))) (h : FillsArea cw area rows) (g g' : Cells σ)
    (ho : ∀ x y, ¬ InArea area x y → g x y = g' x y) : printRows cw rows g = printRows cw rows g' := by
  funext x y
  by_cases ha : InArea area x y
  · obtain ⟨row, cell, e1, e2, e3⟩ := (h g x y).1 ha
    obtain ⟨row', cell', e1', e2', e3'⟩ := (h g' x y).1 ha
    rw [e1] at e1'
    cases e1'
    rw [e2] at e2'
    cases e2'
    rw [e3, e3']
  · rw [(h g x y).2 ha, (h g' x y).2 ha, ho x y ha]

theorem viewArea_ok {w h : Nat} (hw : w < 65536) (s : Nat) : viewArea w h = some (Shown.area ⟨w, h, s⟩) := by
  simp only [viewArea, Area.padForMaxWidth, Shown.area]
  by_cases c : 120 ≥ w
  · rw [if_pos c]
    simp only [Option.pure_def, Option.some.injEq, Area.mk.injEq, true_and, and_true]
    omega
  · rw [if_neg c]
    have h1 : csub w 120 = some (w - 120) := by unfold csub; rw [if_pos (by omega)]
    have h2 : u16Add 0 ((w - 120) / 2) = some ((w - 120) / 2) := by unfold u16Add u16Size; rw [if_pos (by omega), Nat.zero_add]
    have h3 : csub w (w - 120) = some (min w 120) := by unfold csub; rw [if_pos (by omega), show w - (w - 120) = min w 120 by omega]
    simp only [h1, h2, h3, Option.bind_eq_bind, Option.bind_some, Option.pure_def]

/-- What a view shows is all on the screen. -/
theorem shown_inside (s : Shown) {x y : Nat} (h : InArea s.area x y) : x < s.width ∧ y < s.height := by
  obtain ⟨i, j, h1, h2, rfl, rfl⟩ := h
  simp only [Shown.area] at *
  omega

/-- The application shows what it should. -/
structure Shows (mlines : List MLine) (skin : Skin) (s : Shown) (m : MadView) : Prop where
  mlines : m.mlines = mlines
  skin : m.skin = skin
  area : m.area = s.area
  scroll : m.scroll = s.scroll

section
variable {cw : Char → Nat} {ws : Char → Bool} {mlines : List MLine} {skin : Skin} {count : Nat → Nat}

theorem formatted {w h : Nat} (hg : GoodSize cw ws skin mlines count w h) :
    ∃ text, FmtText.fromText cw ws skin mlines (some (min w 120 - 1)) = some text ∧ text.lines.length = count (min w 120) ∧
      ∀ (P : Prop) [Decidable P], ∀ l ∈ text.lines, DrawableLine cw skin l ∧
        ∀ n, (n = if P then min w 120 else min w 120 - 1) → ownCols skin n l ≤ n := by
  have hwide := hg.wide
  obtain ⟨out, e1, e2⟩ := fromText_final (ws := ws) (by omega) hg.fits
  refine ⟨_, e1, hg.lines _ e1, ?_⟩
  intro P _ l hl
  refine ⟨(e2 l hl).1, ?_⟩
  rintro n rfl
  split
  · exact ownCols_succ hg.margins (e2 l hl).2
  · exact (e2 l hl).2

theorem view_ok {s : Shown} {m : MadView} (hm : Shows mlines skin s m) (hw : 4 ≤ s.width) {text : FmtText}
    (ht : FmtText.fromText cw ws skin mlines (some (min s.width 120 - 1)) = some text) :
    m.view cw ws = some { area := s.area, lines := text.lines, scroll := s.scroll } := by
  have ew : m.area.width = min s.width 120 := by rw [hm.area]; rfl
  simp only [MadView.view, Skin.areaText, csub, Option.bind_eq_bind]
  rw [if_pos (by omega), Option.bind_some, ew, hm.mlines, hm.skin, ht, Option.bind_some, hm.area, hm.scroll]

/-- What is written. -/
theorem rows_ok (hk : OneColumnSkin cw skin) (ht : piecesCols cw skin.scrollbar.thumb.display = 1)
    (ht' : piecesCols cw skin.scrollbar.track.display = 1) {s : Shown} (hg : GoodSize cw ws skin mlines count s.width s.height)
    (hs : s.scroll ≤ count s.textColumns) {text : FmtText}
    (hx : FmtText.fromText cw ws skin mlines (some (min s.width 120 - 1)) = some text) :
    ∃ rows, ({ area := s.area, lines := text.lines, scroll := s.scroll } : TextView).writeOn skin = some rows ∧ rows.length = s.height ∧
      (∀ row ∈ rows, piecesCols cw row.pieces = min s.width 120) ∧
      ∀ (j : Nat) (row : WrittenRow), rows[j]? = some row → row.x = s.area.left ∧ row.y = j ∧
        ∃ shown last, row.pieces = shown ++ last ∧
          (∀ l, text.lines[s.scroll + j]? = some l →
            skin.writeFmtLine l (some (if text.lines.length ≤ s.height then s.textColumns else s.textColumns - 1)) true = some shown) ∧
          (text.lines[s.scroll + j]? = none → ∀ p ∈ shown, p.1 = skin.paragraph.style ∧ ∀ c ∈ p.2, c = ' ') ∧
          (text.lines.length ≤ s.height → last = []) ∧
          (s.height < text.lines.length → last = skin.scrollbar.thumb.display ∨ last = skin.scrollbar.track.display) := by
  obtain ⟨text', h1, h2, h3⟩ := formatted hg
  rw [hx] at h1
  cases h1
  have hwide := hg.wide
  have hroom := hg.room
  have hsmall := hg.small
  unfold Shown.textColumns at *
  obtain ⟨bar, hb, hbn⟩ : ∃ bar, ({ area := s.area, lines := text.lines, scroll := s.scroll } : TextView).scrollbar = some bar ∧
      (bar = none ↔ text.lines.length ≤ s.height) := by
    have e1 : asU16 s.scroll = s.scroll := by unfold asU16 u16Size; omega
    have e2 : asU16 text.lines.length = text.lines.length := by unfold asU16 u16Size; omega
    simp only [TextView.scrollbar, TextView.contentHeight, if_true, e1, e2, Area.scrollbar]
    obtain ⟨r, hr⟩ := C19_total s.scroll text.lines.length s.area.height s.area.top (by simp only [Shown.area]; omega)
    refine ⟨r, hr, ?_⟩
    rw [show s.height = s.area.height from rfl]
    rw [← C19_none_iff s.scroll text.lines.length s.area.height s.area.top, hr]
    simp
  have hon : OnScreen s.area := by unfold OnScreen Shown.area; simp only; omega
  have hw1 : 1 ≤ s.area.width := by simp only [Shown.area]; omega
  obtain ⟨rows, r1, r2, r3⟩ := columns_with cw { area := s.area, lines := text.lines, scroll := s.scroll } skin hk ht ht' bar hb
    (by rw [hbn]; simp [Shown.area]) hw1 hon (h3 _)
  obtain ⟨rows', w1, _, w3⟩ := written_with { area := s.area, lines := text.lines, scroll := s.scroll } skin bar hb hw1 hon
    (fun l hl w => by obtain ⟨ps, p1, _⟩ := C10_columns cw skin hk l (h3 True l hl).1 w; exact ⟨ps, p1⟩)
  rw [r1] at w1
  cases w1
  refine ⟨rows, r1, r2, r3, ?_⟩
  intro j row hj
  obtain ⟨a1, a2, shown, last, a3, a4, a5, a6, a7⟩ := w3 j row hj
  refine ⟨a1, by simpa [Shown.area] using a2, shown, last, a3, ?_, ?_, ?_, ?_⟩
  · intro l hl
    have := a4 l hl
    simp only [hbn] at this
    exact this
  · intro hl p hp
    obtain ⟨b1, b2⟩ := a5 hl
    refine ⟨b2 p hp, ?_⟩
    intro c hc
    have : c ∈ piecesText shown := by unfold piecesText; exact List.mem_flatMap.2 ⟨p, hp, hc⟩
    rw [b1] at this
    exact List.eq_of_mem_replicate this
  · intro hle; exact a6 (hbn.2 hle)
  · intro hlt
    cases hbar : bar with
    | none => have := hbn.1 hbar; omega
    | some tb =>
      obtain ⟨a, b⟩ := tb
      rw [a7 a b hbar]
      split
      · exact .inl rfl
      · exact .inr rfl

/-- The terminal after a drawing. -/
theorem draw_ok (hsk : TidySkin skin) (hk : OneColumnSkin cw skin) (ht : piecesCols cw skin.scrollbar.thumb.display = 1)
    (ht' : piecesCols cw skin.scrollbar.track.display = 1) {s : Shown} (hg : GoodSize cw ws skin mlines count s.width s.height)
    (hs : s.scroll ≤ count s.textColumns) {m : MadView} (hm : Shows mlines skin s m) {text : FmtText}
    (hx : FmtText.fromText cw ws skin mlines (some (min s.width 120 - 1)) = some text) {rows : List WrittenRow}
    (hr : ({ area := s.area, lines := text.lines, scroll := s.scroll } : TextView).writeOn skin = some rows)
    (t : Tty) (hp : t.pen = {}) (hc : ∀ x y, ¬ InArea s.area x y → t.cells x y = blankCells x y) :
    ∃ cmds, draw cw ws m = some cmds ∧ (t.playApp cw cmds).pen = {} ∧ (t.playApp cw cmds).cells = printSeen cw (viewRows rows) blankCells ∧
      ∀ x y, ¬ InArea s.area x y → printSeen cw (viewRows rows) blankCells x y = blankCells x y := by
  obtain ⟨rows', r1, r2, r3, r4⟩ := rows_ok hk ht ht' hg hs hx
  rw [hr] at r1
  cases r1
  obtain ⟨cmds, c1, c2, c3⟩ := C65_text_view cw { area := s.area, lines := text.lines, scroll := s.scroll } hsk hr t hp
  have hfill : FillsArea cw s.area ((viewRows rows).map fun r => (r.1, r.2.1, seenPieces r.2.2)) := by
    apply seen_fills cw s.area (viewRows rows) (by simpa [viewRows, Shown.area] using r2)
    intro j row hj
    simp only [viewRows, List.getElem?_map, Option.map_eq_some_iff] at hj
    obtain ⟨r, hr', rfl⟩ := hj
    obtain ⟨e1, e2, _⟩ := r4 j r hr'
    exact ⟨e1, by simp [Shown.area, e2], r3 r (List.mem_of_getElem? hr')⟩
  refine ⟨cmds.map .view, ?_, ?_, ?_, ?_⟩
  · simp only [draw, view_ok hm hg.wide hx, hm.skin, c1, Option.bind_eq_bind, Option.bind_some]
  · rw [playApp_view, c2]
  · rw [playApp_view, c3]
    exact fills_same cw s.area _ hfill t.cells blankCells hc
  · intro x y hn
    exact (hfill blankCells x y).2 hn

theorem clampTo_min (max : Nat) (n : Nat) : clampTo max n = min n max := by
  unfold clampTo
  rw [if_neg (by omega)]
  simp only [Int.toNat_natCast]
  split <;> omega

/-- Scrolls of the view. -/
theorem scroll_ok {s : Shown} (hg : GoodSize cw ws skin mlines count s.width s.height) {m : MadView} (hm : Shows mlines skin s m) (n : Int)
    (hn : i32Min < n) :
    m.tryScrollLines cw ws n = some { m with scroll := if n < 0 then s.scroll - (-n).toNat else min (s.scroll + n.toNat) (count s.textColumns - s.height) } := by
  obtain ⟨text, h1, h2, _⟩ := formatted hg
  simp only [MadView.tryScrollLines, view_ok hm hg.wide h1, Option.bind_eq_bind, Option.bind_some, TextView.tryScrollLines]
  by_cases c : n < 0
  · rw [if_pos c, if_neg (by omega), if_pos c]
    simp only [Option.bind_some, Option.some.injEq]
    congr 1
    split <;> omega
  · rw [if_neg c, if_neg c]
    simp only [Option.bind_some, TextView.setScroll, TextView.contentHeight, Option.some.injEq, h2, Shown.textColumns]
    congr 1
    show (if count (min s.width 120) > s.height then min (s.scroll + n.toNat) (count (min s.width 120) - s.height) else 0) = _
    by_cases d : count (min s.width 120) > s.height
    · rw [if_pos d]
    · rw [if_neg d]; omega

/-- The view after an event. -/
theorem handle_ok {s : Shown} (hg : GoodSize cw ws skin mlines count s.width s.height) (hs : s.scroll ≤ count s.textColumns)
    {m : MadView} (hm : Shows mlines skin s m) (e : Event) (hq : ∀ k, e = .key k → Scrolls k)
    (hsize : ∀ w h, e = .resize w h → GoodSize cw ws skin mlines count w h) :
    ∃ more m', handle cw ws m e = some (some (more, m')) ∧ Shows mlines skin (s.next count e) m' ∧
      GoodSize cw ws skin mlines count (s.next count e).width (s.next count e).height ∧
      (s.next count e).scroll ≤ count (s.next count e).textColumns ∧
      ((∃ w h, e = .resize w h) ∧ more = [.clearAll] ∨ (¬ ∃ w h, e = .resize w h) ∧ more = [] ∧ (s.next count e).area = s.area) := by
  have eh : m.area.height = s.height := by rw [hm.area]; rfl
  have hroom := hg.room
  have pages : ∀ n : Int, (n = 1 ∨ n = -1) → m.tryScrollPages cw ws n = m.tryScrollLines cw ws (n * m.area.height) := by
    intro n hn
    unfold MadView.tryScrollPages i32Min i32Max
    rw [if_pos (by rcases hn with rfl | rfl <;> omega)]
  cases e with
  | other => exact ⟨[], m, rfl, hm, hg, hs, .inr ⟨by simp, rfl, rfl⟩⟩
  | resize w h =>
    have hz := hsize w h rfl
    refine ⟨[.clearAll], m.resize (Shown.area ⟨w, h, 0⟩), ?_, ?_, hz, ?_, .inl ⟨⟨w, h, rfl⟩, rfl⟩⟩
    · simp only [handle, viewArea_ok hz.small 0, Option.map_some]
    · obtain ⟨r1, r2, r3⟩ := C29_resize m (Shown.area ⟨w, h, 0⟩)
      have e1 : m.area.width = min s.width 120 := by rw [hm.area]; rfl
      have e2 : (Shown.area ⟨w, h, 0⟩).width = min w 120 := rfl
      constructor
      · rw [r2, hm.mlines]
      · unfold MadView.resize; split <;> exact hm.skin
      · rw [r1]; rfl
      · rw [r3, hm.scroll, e1, e2]; rfl
    · have hs' : s.scroll ≤ count (min s.width 120) := hs
      show (if min w 120 = min s.width 120 then s.scroll else 0) ≤ count (min w 120)
      by_cases c : min w 120 = min s.width 120
      · rw [if_pos c, c]; exact hs'
      · rw [if_neg c]; exact Nat.zero_le _
  | key k =>
    rcases hq k rfl with rfl | rfl | rfl | rfl
    · have h := scroll_ok hg hm (-1) (by decide)
      rw [if_pos (by decide)] at h
      refine ⟨[], { m with scroll := s.scroll - 1 }, by simp only [handle]; rw [h]; rfl, ⟨hm.mlines, hm.skin, hm.area, rfl⟩, hg, ?_, .inr ⟨by simp, rfl, rfl⟩⟩
      show s.scroll - 1 ≤ count s.textColumns
      omega
    · have h := scroll_ok hg hm 1 (by decide)
      rw [if_neg (by decide)] at h
      refine ⟨[], { m with scroll := min (s.scroll + 1) (count s.textColumns - s.height) }, by simp only [handle]; rw [h]; rfl,
        ⟨hm.mlines, hm.skin, hm.area, rfl⟩, hg, ?_, .inr ⟨by simp, rfl, rfl⟩⟩
      show min (s.scroll + 1) (count s.textColumns - s.height) ≤ count s.textColumns
      omega
    · have hh := hg.high
      have h := scroll_ok hg hm (-1 * (m.area.height : Int)) (by unfold i32Min; omega)
      rw [if_pos (by omega), show (-(-1 * (m.area.height : Int))).toNat = s.height by omega] at h
      refine ⟨[], { m with scroll := s.scroll - s.height }, by simp only [handle]; rw [pages _ (.inr rfl), h]; rfl,
        ⟨hm.mlines, hm.skin, hm.area, rfl⟩, hg, ?_, .inr ⟨by simp, rfl, rfl⟩⟩
      show s.scroll - s.height ≤ count s.textColumns
      omega
    · have h := scroll_ok hg hm (1 * (m.area.height : Int)) (by unfold i32Min; omega)
      rw [if_neg (by omega), show (1 * (m.area.height : Int)).toNat = s.height by omega] at h
      refine ⟨[], { m with scroll := min (s.scroll + s.height) (count s.textColumns - s.height) }, by simp only [handle]; rw [pages _ (.inl rfl), h]; rfl,
        ⟨hm.mlines, hm.skin, hm.area, rfl⟩, hg, ?_, .inr ⟨by simp, rfl, rfl⟩⟩
      show min (s.scroll + s.height) (count s.textColumns - s.height) ≤ count s.textColumns
      omega

/-- The application from any state. -/
theorem run_ok (hsk : TidySkin skin) (hk : OneColumnSkin cw skin) (ht : piecesCols cw skin.scrollbar.thumb.display = 1)
    (ht' : piecesCols cw skin.scrollbar.track.display = 1) : ∀ (es : List (Event × Cells CompoundStyle)) (s : Shown) (t : Tty) (m : MadView),
    GoodSize cw ws skin mlines count s.width s.height → s.scroll ≤ count s.textColumns → Shows mlines skin s m →
    t.pen = {} → (∀ x y, ¬ InArea s.area x y → t.cells x y = blankCells x y) →
    (∀ e ∈ es, (∀ k, e.1 = .key k → Scrolls k) ∧ ∀ w h, e.1 = .resize w h → GoodSize cw ws skin mlines count w h) →
    ∃ t' m', runApp cw ws t m es = some (t', m') ∧
      let s' := es.foldl (fun s e => s.next count e.1) s
      GoodSize cw ws skin mlines count s'.width s'.height ∧ s'.scroll ≤ count s'.textColumns ∧ t'.pen = {} ∧
      ∀ text rows, FmtText.fromText cw ws skin mlines (some (s'.textColumns - 1)) = some text →
        ({ area := s'.area, lines := text.lines, scroll := s'.scroll } : TextView).writeOn skin = some rows →
        t'.cells = printSeen cw (viewRows rows) blankCells ∧ ∀ x y, ¬ InArea s'.area x y → t'.cells x y = blankCells x y := by
  intro es
  induction es with
  | nil =>
    intro s t m hg hs hm hp hc _
    obtain ⟨text, h1, _, _⟩ := formatted hg
    obtain ⟨rows, r1, _⟩ := rows_ok hk ht ht' hg hs h1
    obtain ⟨cmds, c1, c2, c3, c4⟩ := draw_ok hsk hk ht ht' hg hs hm h1 r1 t hp hc
    refine ⟨t.playApp cw cmds, m, by simp only [runApp, c1, Option.map_some], hg, hs, c2, ?_⟩
    intro text' rows' ht2 hr2
    have e : text' = text := by
      have : FmtText.fromText cw ws skin mlines (some (min s.width 120 - 1)) = some text' := ht2
      rw [h1] at this
      exact (Option.some.inj this).symm
    subst e
    have hr2' : ({ area := s.area, lines := text'.lines, scroll := s.scroll } : TextView).writeOn skin = some rows' := hr2
    rw [r1] at hr2'
    cases hr2'
    refine ⟨c3, fun x y hn => ?_⟩
    rw [c3]
    exact c4 x y hn
  | cons e es ih =>
    intro s t m hg hs hm hp hc hes
    obtain ⟨text, h1, _, _⟩ := formatted hg
    obtain ⟨rows, r1, _⟩ := rows_ok hk ht ht' hg hs h1
    obtain ⟨cmds, c1, c2, c3, c4⟩ := draw_ok hsk hk ht ht' hg hs hm h1 r1 t hp hc
    obtain ⟨hq, hz⟩ := hes e (by simp)
    obtain ⟨more, m', k1, k2, k3, k4, k5⟩ := handle_ok hg hs hm e.1 hq hz
    have hrun : runApp cw ws t m (e :: es) = runApp cw ws (((t.playApp cw cmds).disturbed e.2 e.1).playApp cw more) m' es := by
      obtain ⟨e1, e2⟩ := e
      simp only [runApp, c1, k1, Option.bind_eq_bind, Option.bind_some]
    rw [hrun, List.foldl_cons]
    apply ih _ _ _ k3 k4 k2 _ _ (fun e' he' => hes e' (List.mem_cons_of_mem _ he'))
    · rcases k5 with ⟨⟨w, h, he⟩, rfl⟩ | ⟨hne, rfl, _⟩
      · rw [he]
        exact c2
      · show ((t.playApp cw cmds).disturbed e.2 e.1).pen = {}
        unfold Tty.disturbed
        split <;> exact c2
    · intro x y hn
      rcases k5 with ⟨⟨w, h, he⟩, rfl⟩ | ⟨hne, rfl, harea⟩
      · rw [he]
        simp only [Tty.playApp, List.foldl_cons, List.foldl_nil, Tty.execApp, Tty.disturbed]
        have : (List.foldl (Tty.execApp cw) t cmds).pen = {} := c2
        rw [this]
        rfl
      · have hd : (t.playApp cw cmds).disturbed e.2 e.1 = t.playApp cw cmds := by
          unfold Tty.disturbed
          split
          · next w h he => exact absurd ⟨w, h, he⟩ hne
          · rfl
        show ((t.playApp cw cmds).disturbed e.2 e.1).cells x y = blankCells x y
        rw [hd, c3]
        exact c4 x y (by rw [harea] at hn; exact hn)

end

/-- C78: whatever the events (keys which scroll, changes of the size of the terminal, whatever they do to its cells, other events), after each of
them the application shows exactly its text: the whole screen is what is obtained by displaying, on an empty screen, the view of the lines which are
wrapped for the present size and start at the present scroll. Nothing is left of what was shown before. -/
theorem C78_screen (cw : Char → Nat) (ws : Char → Bool) {mlines : List MLine} {skin : Skin} (count : Nat → Nat) (hsk : TidySkin skin)
    (hk : OneColumnSkin cw skin) (ht : piecesCols cw skin.scrollbar.thumb.display = 1) (ht' : piecesCols cw skin.scrollbar.track.display = 1)
    {width height : Nat} (hg : GoodSize cw ws skin mlines count width height) (es : List (Event × Cells CompoundStyle))
    (hes : ∀ e ∈ es, (∀ k, e.1 = .key k → Scrolls k) ∧ ∀ w h, e.1 = .resize w h → GoodSize cw ws skin mlines count w h) :
    ∃ m0 t m, start mlines skin width height = some m0 ∧ runApp cw ws ⟨blankCells, 0, 0, {}⟩ m0 es = some (t, m) ∧ t.pen = {} ∧
      let s : Shown := es.foldl (fun s e => s.next count e.1) ⟨width, height, 0⟩
      ∃ text rows, FmtText.fromText cw ws skin mlines (some (s.textColumns - 1)) = some text ∧ text.lines.length = count s.textColumns ∧
        ({ area := s.area, lines := text.lines, scroll := s.scroll } : TextView).writeOn skin = some rows ∧
        t.cells = printSeen cw (viewRows rows) blankCells ∧
        (∀ x y, InArea s.area x y → x < s.width ∧ y < s.height) ∧
        (∀ x y, ¬ InArea s.area x y → t.cells x y = blankCells x y) := by
  obtain ⟨t, m, r1, r2, r3, r4, r5⟩ := run_ok hsk hk ht ht' es ⟨width, height, 0⟩ ⟨blankCells, 0, 0, {}⟩
    { mlines, area := Shown.area ⟨width, height, 0⟩, skin } hg (Nat.zero_le _) ⟨rfl, rfl, rfl, rfl⟩ rfl (fun _ _ _ => rfl) hes
  refine ⟨_, t, m, by simp only [start, viewArea_ok hg.small 0, Option.map_some], r1, r4, ?_⟩
  obtain ⟨text, h1, h2, _⟩ := formatted r2
  obtain ⟨rows, w1, _⟩ := rows_ok hk ht ht' r2 r3 h1
  obtain ⟨c1, c2⟩ := r5 text rows h1 w1
  exact ⟨text, rows, h1, h2, w1, c1, fun x y h => shown_inside _ h, c2⟩

/-- C78: the rows of the shown text. They are all those of the terminal, one per row, and fill the columns of the text: they show, one after the other
from the scroll, the lines of the text in its width (one less if there's a scrollbar), then, if there are more lines than rows, the scrollbar. -/
theorem C78_rows (cw : Char → Nat) (ws : Char → Bool) {mlines : List MLine} {skin : Skin} (count : Nat → Nat)
    (hk : OneColumnSkin cw skin) (ht : piecesCols cw skin.scrollbar.thumb.display = 1) (ht' : piecesCols cw skin.scrollbar.track.display = 1)
    {width height : Nat} (hg : GoodSize cw ws skin mlines count width height) (es : List (Event × Cells CompoundStyle))
    (hes : ∀ e ∈ es, (∀ k, e.1 = .key k → Scrolls k) ∧ ∀ w h, e.1 = .resize w h → GoodSize cw ws skin mlines count w h) :
    let s : Shown := es.foldl (fun s e => s.next count e.1) ⟨width, height, 0⟩
    s.scroll ≤ count s.textColumns ∧
    ∀ text rows, FmtText.fromText cw ws skin mlines (some (s.textColumns - 1)) = some text →
      ({ area := s.area, lines := text.lines, scroll := s.scroll } : TextView).writeOn skin = some rows →
      rows.length = s.height ∧ FillsArea cw s.area (viewRows rows) ∧
      ∀ (j : Nat) (row : WrittenRow), rows[j]? = some row → row.x = s.area.left ∧ row.y = j ∧
        ∃ shown last, row.pieces = shown ++ last ∧
          (∀ l, text.lines[s.scroll + j]? = some l →
            skin.writeFmtLine l (some (if text.lines.length ≤ s.height then s.textColumns else s.textColumns - 1)) true = some shown) ∧
          (text.lines[s.scroll + j]? = none → ∀ p ∈ shown, p.1 = skin.paragraph.style ∧ ∀ c ∈ p.2, c = ' ') ∧
          (text.lines.length ≤ s.height → last = []) ∧
          (s.height < text.lines.length → last = skin.scrollbar.thumb.display ∨ last = skin.scrollbar.track.display) := by
  have key : ∀ (es : List (Event × Cells CompoundStyle)) (s : Shown), GoodSize cw ws skin mlines count s.width s.height → s.scroll ≤ count s.textColumns →
      (∀ e ∈ es, (∀ k, e.1 = .key k → Scrolls k) ∧ ∀ w h, e.1 = .resize w h → GoodSize cw ws skin mlines count w h) →
      let s' := es.foldl (fun s e => s.next count e.1) s
      GoodSize cw ws skin mlines count s'.width s'.height ∧ s'.scroll ≤ count s'.textColumns := by
    intro es
    induction es with
    | nil => intro s h1 h2 _; exact ⟨h1, h2⟩
    | cons e es ih =>
      intro s h1 h2 h3
      obtain ⟨_, _, _, _, k3, k4, _⟩ := handle_ok (ws := ws) h1 h2 (m := { mlines, area := s.area, skin, scroll := s.scroll }) ⟨rfl, rfl, rfl, rfl⟩ e.1
        (h3 e (by simp)).1 (h3 e (by simp)).2
      exact ih _ k3 k4 (fun e' he' => h3 e' (List.mem_cons_of_mem _ he'))
  obtain ⟨h1, h2⟩ := key es ⟨width, height, 0⟩ hg (Nat.zero_le _) hes
  refine ⟨h2, ?_⟩
  intro text rows hx hr
  obtain ⟨rows', w1, w2, w3, w4⟩ := rows_ok hk ht ht' h1 h2 hx
  rw [w1] at hr
  cases hr
  refine ⟨w2, ?_, w4⟩
  apply fills cw _ _ (by simpa [viewRows, Shown.area] using w2)
  intro j row hj
  simp only [viewRows, List.getElem?_map, Option.map_eq_some_iff] at hj
  obtain ⟨r, hr', rfl⟩ := hj
  obtain ⟨e1, e2, _⟩ := w4 j r hr'
  refine ⟨e1, by simp [Shown.area, e2], ?_⟩
  rw [pieceChars_sum]
  exact w3 r (List.mem_of_getElem? hr')

/-- C78: the application is left with any key other than the up, down, page up and page down ones, and in no other way. -/
theorem C78_quits (cw : Char → Nat) (ws : Char → Bool) (m : MadView) (e : Event) :
    handle cw ws m e = some none ↔ ∃ k, e = .key k ∧ ¬ Scrolls k := by
  unfold Scrolls
  constructor
  · intro h
    unfold handle at h
    split at h
    · simp only [Option.map_eq_some_iff, reduceCtorEq, and_false, exists_false] at h
    · simp only [Option.map_eq_some_iff, reduceCtorEq, and_false, exists_false] at h
    · simp only [Option.map_eq_some_iff, reduceCtorEq, and_false, exists_false] at h
    · simp only [Option.map_eq_some_iff, reduceCtorEq, and_false, exists_false] at h
    · next k h1 h2 h3 h4 => exact ⟨k, rfl, by rintro (rfl | rfl | rfl | rfl) <;> contradiction⟩
    · simp only [Option.map_eq_some_iff, reduceCtorEq, and_false, exists_false] at h
    · simp at h
  · rintro ⟨k, rfl, hk⟩
    unfold handle
    split <;> simp_all

/-! Examples -/

/-- The text of the examples in a width of 14 columns. -/
theorem exText_good14 (height : Nat) (h : 1 ≤ height) (h' : height < 60000) :
    GoodSize renderCw (· == ' ') renderSkin exText (fun _ => 11) 14 height := by
  refine ⟨by decide, h, by decide, renderMargin14, exText_fits, ?_, by omega⟩
  intro t ht
  have : (FmtText.fromText renderCw (· == ' ') renderSkin exText (some 13)).map (·.lines.length) = some t.lines.length := by
    rw [show FmtText.fromText renderCw (· == ' ') renderSkin exText (some 13) = some t from ht]; rfl
  have e : (FmtText.fromText renderCw (· == ' ') renderSkin exText (some 13)).map (·.lines.length) = some 11 := by decide +kernel
  rw [e] at this
  exact (Option.some.inj this).symm

theorem renderSkin_tidy : TidySkin renderSkin :=
  ⟨.inl rfl, fun _ => .inl rfl, .inl rfl, .inl rfl, .inl rfl, .inl rfl, .inl rfl, .inl rfl, .inl rfl, .inl rfl, fun _ _ h => by simp [renderSkin] at h⟩

/-- The hypotheses are met, with events after which the seventh of the 11 lines is the first one shown: the page is the one of a terminal of 5 rows when the
key is hit, then 4 rows are added, which leave an empty screen of 9 rows with the 7th to 11th lines. -/
example (c : Cells CompoundStyle) : ∃ m0 t m rows, start exText renderSkin 14 5 = some m0 ∧
    runApp renderCw (· == ' ') ⟨blankCells, 0, 0, {}⟩ m0 [(.key .pageDown, c), (.key .pageDown, c), (.other, c), (.resize 14 9, c)] = some (t, m) ∧
    t.cells = printSeen renderCw (viewRows rows) blankCells ∧ rows.length = 9 := by
  have hes : ∀ e ∈ [(Event.key .pageDown, c), (.key .pageDown, c), (.other, c), (.resize 14 9, c)], (∀ k, e.1 = .key k → Scrolls k) ∧
      ∀ w h, e.1 = .resize w h → GoodSize renderCw (· == ' ') renderSkin exText (fun _ => 11) w h := by
    intro e he
    simp only [List.mem_cons, List.not_mem_nil, or_false] at he
    rcases he with rfl | rfl | rfl | rfl <;> refine ⟨?_, ?_⟩ <;> simp (config := { contextual := true }) [Scrolls]
    exact exText_good14 9 (by decide) (by decide)
  obtain ⟨m0, t, m, h1, h2, _, text, rows, h3, _, h4, h5, _⟩ := C78_screen renderCw (· == ' ') (fun _ => 11) renderSkin_tidy renderSkin_one (by decide) (by decide)
    (exText_good14 5 (by decide) (by decide)) _ hes
  obtain ⟨_, w⟩ := C78_rows renderCw (· == ' ') (fun _ => 11) renderSkin_one (by decide) (by decide)
    (exText_good14 5 (by decide) (by decide)) _ hes
  exact ⟨m0, t, m, rows, h1, h2, h5, (w text rows h3 h4).1⟩

example : [Event.key .pageDown, .key .pageDown, .other, .resize 14 9].foldl (Shown.next fun _ => 11) ⟨14, 5, 0⟩ = ⟨14, 9, 6⟩ := rfl

/-- C78: a condition on the size is needed: nothing can be drawn in a terminal without column. -/
theorem C78_small_counterexample : ∃ m, start exText renderSkin 0 5 = some m ∧ draw renderCw (· == ' ') m = none := ⟨_, rfl, rfl⟩

end Verif.Props

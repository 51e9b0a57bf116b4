import Verif.Props.Panics
import Verif.Props.TextView
import Verif.Props.ListView
import Verif.Props.StyledDisplay
/-! C72: a markdown view can be written whatever its history, and entirely read with the page keys. -/
namespace Verif.Props
open Verif Verif.Spec Verif.TextView

/-- `C28_written` without the condition on the scroll. -/
theorem writeOn_any (v : TextView) (skin : Skin) (hw : 1 ≤ v.area.width) (ho : OnScreen v.area)
    (hs : v.area.top + v.scroll + v.area.height < 65536) (hd : ∀ l ∈ v.lines, LineOk skin l) :
    ∃ rows bar, v.writeOn skin = some rows ∧ v.scrollbar = some bar ∧ rows.length = v.area.height ∧
      ∀ (j : Nat) (row : WrittenRow), rows[j]? = some row → row.x = v.area.left ∧ row.y = v.area.top + j ∧
        ∀ l, v.lines[v.scroll + j]? = some l → ∃ text,
          skin.writeFmtLine l (some (if bar = none then v.area.width else v.area.width - 1)) true = some text ∧
          row.pieces = text ++ writeBar skin bar row.y := by
  obtain ⟨bar, hb⟩ : ∃ bar, v.scrollbar = some bar := by
    unfold scrollbar
    split
    · have h1 : asU16 v.scroll ≤ v.scroll := Nat.mod_le _ _
      generalize asU16 v.scroll = s at h1
      generalize asU16 v.contentHeight = c
      rw [Area.scrollbar]
      exact C19_total s c v.area.height v.area.top (by omega)
    · exact ⟨none, rfl⟩
  have hwd : v.textWidth bar = some (if bar = none then v.area.width else v.area.width - 1) := by
    cases bar with
    | none => rfl
    | some p => simp [TextView.textWidth, csub, hw]
  generalize hwe : (if bar = none then v.area.width else v.area.width - 1) = w at hwd
  have key : ∀ n j, v.area.top + j + n < 65536 → ∃ rows, v.writeRows skin w bar n j = some rows ∧ rows.length = n ∧
      ∀ (i : Nat) (row : WrittenRow), rows[i]? = some row → row.x = v.area.left ∧ row.y = v.area.top + (j + i) ∧
        ∃ text, row.pieces = text ++ writeBar skin bar row.y ∧ v.writeText skin w (j + i) = some text := by
    intro n
    induction n with
    | zero => intro j _; exact ⟨[], rfl, rfl, by simp⟩
    | succ n ih =>
      intro j hj
      obtain ⟨rest, h1, h2, h3⟩ := ih (j + 1) (by omega)
      obtain ⟨text, ht⟩ : ∃ text, v.writeText skin w j = some text := by
        unfold writeText
        cases hl : v.lines[v.scroll + j]? with
        | none =>
          obtain ⟨ch, e, _⟩ := filling_queue ' ' w
          exact ⟨ch.map fun t => (skin.paragraph.style, t), by simp only [e, Option.bind_eq_bind, Option.bind_some]⟩
        | some l => exact writeFmtLine_total (hd l (List.mem_of_getElem? hl)) (some w) true
      have hu : u16Add v.area.top j = some (v.area.top + j) := by unfold u16Add u16Size; rw [if_pos (by omega)]
      refine ⟨⟨v.area.left, v.area.top + j, text ++ writeBar skin bar (v.area.top + j)⟩ :: rest, by simp only [writeRows, hu, ht, h1, Option.bind_eq_bind, Option.bind_some], by simp [h2], ?_⟩
      intro i row hi
      cases i with
      | zero =>
        simp only [List.getElem?_cons_zero, Option.some.injEq] at hi
        subst hi
        exact ⟨rfl, rfl, text, rfl, ht⟩
      | succ i =>
        simp only [List.getElem?_cons_succ] at hi
        have := h3 i row hi
        rw [show j + 1 + i = j + (i + 1) by omega] at this
        exact this
  obtain ⟨rows, h1, h2, h3⟩ := key v.area.height 0 (by have := ho.2; omega)
  refine ⟨rows, bar, by simp only [writeOn, hb, hwd, h1, Option.bind_eq_bind, Option.bind_some], hb, h2, ?_⟩
  intro j row hj
  obtain ⟨a1, a2, text, a3, a4⟩ := h3 j row hj
  rw [Nat.zero_add] at a2 a4
  refine ⟨a1, a2, ?_⟩
  intro l hl
  simp only [writeText, hl] at a4
  exact ⟨text, by rw [hwe]; exact a4, a3⟩

/-- A view in an area of at least one column can be written exactly when its text can be formatted in this width (less the
column of the scrollbar). -/
theorem C72_write (cw : Char → Nat) (ws : Char → Bool) (m : MadView) (hr : Readable m.skin m.mlines)
    (hw : 1 ≤ m.area.width) (ho : OnScreen m.area) (hs : m.area.top + m.scroll + m.area.height < 65536) :
    m.writeOn cw ws = none ↔ FmtText.fromText cw ws m.skin m.mlines (some (m.area.width - 1)) = none := by
  cases ht : FmtText.fromText cw ws m.skin m.mlines (some (m.area.width - 1)) with
  | none =>
    refine iff_of_true ?_ rfl
    simp [MadView.writeOn, MadView.view, Skin.areaText, csub, hw, ht]
  | some t =>
    obtain ⟨rows, _, h, _⟩ := writeOn_any { area := m.area, lines := t.lines, scroll := m.scroll } m.skin hw ho hs
      (formatted_ok cw ws m.skin m.mlines _ hr t ht)
    rw [(C29_delegates cw ws m t hw ht).1, h]
    simp

/-- It's so after any history of keys, scrolls and resizes, on a screen with enough lines for the text. -/
theorem C72_history (cw : Char → Nat) (ws : Char → Bool) (m0 m : MadView) (h : ReachableMad cw ws (fun _ _ => True) m0 m)
    (hr : Readable m.skin m.mlines) (hw : 1 ≤ m.area.width) (ho : OnScreen m.area) (t : FmtText)
    (ht : FmtText.fromText cw ws m.skin m.mlines (some (m.area.width - 1)) = some t)
    (hs : m.area.top + t.lines.length + m.area.height < 65536) :
    ∃ rows, m.writeOn cw ws = some rows ∧ rows.length = m.area.height := by
  have hb := C29_bound cw ws m0 m h t.lines.length ⟨t, ht, rfl⟩
  obtain ⟨rows, _, h1, _, h2, _⟩ := writeOn_any { area := m.area, lines := t.lines, scroll := m.scroll } m.skin hw ho
    (by simp only; omega) (formatted_ok cw ws m.skin m.mlines _ hr t ht)
  exact ⟨rows, by rw [(C29_delegates cw ws m t hw ht).1, h1], h2⟩

/-- The view after some keys. -/
def pressAll (cw : Char → Nat) (ws : Char → Bool) : MadView → List KeyComb → Run MadView
  | m, [] => some m
  | m, k :: ks => do
    let p ← m.applyKeyCombination cw ws k
    pressAll cw ws p.1 ks

theorem pressAll_append (cw : Char → Nat) (ws : Char → Bool) (ks' : List KeyComb) : ∀ (ks : List KeyComb) (m m' : MadView),
    pressAll cw ws m ks = some m' → pressAll cw ws m (ks ++ ks') = pressAll cw ws m' ks' := by
  intro ks
  induction ks with
  | nil => intro m m' h; simp only [pressAll, Option.some.injEq] at h; subst h; rfl
  | cons k ks ih =>
    intro m m' h
    simp only [pressAll, List.cons_append, Option.bind_eq_bind] at h ⊢
    cases hk : m.applyKeyCombination cw ws k with
    | none => rw [hk] at h; simp at h
    | some p => rw [hk] at h; exact ih _ _ h

theorem pageUp_scroll (v : TextView) : v.pageUp.1.scroll = v.scroll - v.area.height := by
  unfold pageUp
  split
  · rfl
  · split <;> simp only <;> omega

theorem pageDown_scroll (v : TextView) (h : v.scroll ≤ v.lines.length - v.area.height) :
    v.pageDown.1.scroll = min (v.scroll + v.area.height) (v.lines.length - v.area.height) := by
  unfold pageDown contentHeight
  split
  · simp only; omega
  · split <;> simp only <;> omega

theorem press_up (cw : Char → Nat) (ws : Char → Bool) (m : MadView) (t : FmtText) (hw : 1 ≤ m.area.width)
    (ht : FmtText.fromText cw ws m.skin m.mlines (some (m.area.width - 1)) = some t) : ∀ k s,
    pressAll cw ws { m with scroll := s } (List.replicate k ⟨.pageUp, [], .none⟩) =
      some { m with scroll := s - k * m.area.height } := by
  intro k
  induction k with
  | zero => intro s; simp [pressAll]
  | succ k ih =>
    intro s
    rw [List.replicate_succ, pressAll, (C29_delegates cw ws { m with scroll := s } t hw ht).2]
    simp only [Option.bind_eq_bind, Option.bind_some]
    have e := pageUp_scroll { area := m.area, lines := t.lines, scroll := s }
    have e : ((({ area := m.area, lines := t.lines, scroll := s } : TextView).applyKeyCombination ⟨.pageUp, [], .none⟩).1).scroll
        = s - m.area.height := e
    rw [e, ih, Nat.succ_mul]
    congr 2
    omega

theorem press_down (cw : Char → Nat) (ws : Char → Bool) (m : MadView) (t : FmtText) (hw : 1 ≤ m.area.width)
    (ht : FmtText.fromText cw ws m.skin m.mlines (some (m.area.width - 1)) = some t) : ∀ k s,
    s ≤ t.lines.length - m.area.height →
    pressAll cw ws { m with scroll := s } (List.replicate k ⟨.pageDown, [], .none⟩) =
      some { m with scroll := min (s + k * m.area.height) (t.lines.length - m.area.height) } := by
  intro k
  induction k with
  | zero => intro s hs; simp [pressAll]; congr 1; omega
  | succ k ih =>
    intro s hs
    rw [List.replicate_succ, pressAll, (C29_delegates cw ws { m with scroll := s } t hw ht).2]
    simp only [Option.bind_eq_bind, Option.bind_some]
    have e := pageDown_scroll { area := m.area, lines := t.lines, scroll := s } hs
    have e : ((({ area := m.area, lines := t.lines, scroll := s } : TextView).applyKeyCombination ⟨.pageDown, [], .none⟩).1).scroll
        = min (s + m.area.height) (t.lines.length - m.area.height) := e
    rw [e, ih _ (by omega), Nat.succ_mul]
    congr 2
    omega

/-- From any state, each line of the text is displayed after some page ups and some page downs: the numbers of keys are the
numbers of pages to the top and then to the line. -/
theorem C72_read (cw : Char → Nat) (ws : Char → Bool) (m : MadView) (hr : Readable m.skin m.mlines)
    (hw : 1 ≤ m.area.width) (hh : 1 ≤ m.area.height) (ho : OnScreen m.area) (t : FmtText)
    (ht : FmtText.fromText cw ws m.skin m.mlines (some (m.area.width - 1)) = some t)
    (hs : m.area.top + t.lines.length + m.area.height < 65536) (i : Nat) (line : FmtLine) (hi : t.lines[i]? = some line) :
    ∃ m' rows row text last,
      pressAll cw ws m (List.replicate (m.scroll / m.area.height + 1) ⟨.pageUp, [], .none⟩ ++
        List.replicate (i / m.area.height) ⟨.pageDown, [], .none⟩) = some m' ∧
      m'.writeOn cw ws = some rows ∧ row ∈ rows ∧ row.x = m.area.left ∧ m.area.top ≤ row.y ∧ row.y < m.area.top + m.area.height ∧
      row.pieces = text ++ last ∧
      m.skin.writeFmtLine line (some (if t.lines.length ≤ m.area.height then m.area.width else m.area.width - 1)) true = some text := by
  have hlt : i < t.lines.length := (List.getElem?_eq_some_iff.1 hi).1
  have hup := press_up cw ws m t hw ht (m.scroll / m.area.height + 1) m.scroll
  have h0 : m.scroll - (m.scroll / m.area.height + 1) * m.area.height = 0 := by
    have h1 := Nat.div_add_mod m.scroll m.area.height
    have h2 := Nat.mod_lt m.scroll (show m.area.height > 0 by omega)
    rw [Nat.mul_comm] at h1
    rw [Nat.add_mul]
    omega
  rw [h0] at hup
  have hdown := press_down cw ws m t hw ht (i / m.area.height) 0 (Nat.zero_le _)
  rw [Nat.zero_add] at hdown
  have hall := (pressAll_append cw ws _ _ _ _ hup).trans hdown
  generalize hsc : min (i / m.area.height * m.area.height) (t.lines.length - m.area.height) = s at hall hdown
  have hle : s ≤ i ∧ i < s + m.area.height := by
    have h1 := Nat.div_add_mod i m.area.height
    have h2 := Nat.mod_lt i (show m.area.height > 0 by omega)
    rw [Nat.mul_comm] at h1
    omega
  obtain ⟨rows, bar, r1, rb, r2, r3⟩ := writeOn_any { area := m.area, lines := t.lines, scroll := s } m.skin hw ho
    (by simp only; omega) (formatted_ok cw ws m.skin m.mlines _ hr t ht)
  have hbar : bar = none ↔ t.lines.length ≤ m.area.height := by
    have e : asU16 t.lines.length = t.lines.length := Nat.mod_eq_of_lt (by unfold u16Size; omega)
    have := C19_none_iff (asU16 s) t.lines.length m.area.height m.area.top
    rw [← this]
    have rb : computeScrollbar (asU16 s) (asU16 t.lines.length) m.area.height m.area.top = some bar := rb
    rw [e] at rb
    rw [rb]
    simp
  simp only [hbar] at r2 r3
  have hj : i - s < rows.length := by omega
  obtain ⟨q1, q2, q3⟩ := r3 (i - s) _ (List.getElem?_eq_getElem hj)
  obtain ⟨text, q4, q5⟩ := q3 line (by rw [show s + (i - s) = i by omega]; exact hi)
  refine ⟨_, rows, rows[i - s], text, _, hall, ?_, List.getElem_mem hj, q1, by omega, by omega, q5, q4⟩
  rw [(C29_delegates cw ws { m with scroll := s } t hw ht).1]
  exact r1

theorem mapM_at {α β : Type} {f : α → Option β} : ∀ {l : List α} {l' : List β}, l.mapM f = some l' → ∀ (i : Nat) (a : α), l[i]? = some a →
    l'[i]? = f a := by
  intro l
  induction l with
  | nil => intro l' _ i a h; simp at h
  | cons x l ih =>
    intro l' h i a hi
    simp only [List.mapM_cons, Option.bind_eq_bind, Option.bind_eq_some_iff] at h
    obtain ⟨b, hb, bs, hbs, e⟩ := h
    simp only [Option.pure_def, Option.some.injEq] at e
    subst e
    cases i with
    | zero => simp only [List.getElem?_cons_zero, Option.some.injEq] at hi; subst hi; rw [hb]; rfl
    | succ i => simp only [List.getElem?_cons_succ] at hi ⊢; exact ih hbs i a hi

theorem writeFmtLine_completed (skin : Skin) (l : FmtLine) (w : Option Nat) (text : List Piece)
    (h : skin.writeFmtLine l w true = some text) :
    ∃ text' n, skin.writeFmtLine l w false = some text' ∧ text = text' ++ repeatChar skin.paragraph.style ' ' n := by
  cases l with
  | normal fc =>
    simp only [Skin.writeFmtLine, Skin.writeFmtComposite, Option.bind_eq_bind, Option.bind_eq_some_iff, Option.some.injEq] at h ⊢
    obtain ⟨ls, h1, pre, h2, rfl⟩ := h
    exact ⟨_, _, ⟨ls, h1, pre, h2, rfl⟩, by simp only [if_true, Bool.false_eq_true, if_false, List.append_nil]; rfl⟩
  | tableRow cells =>
    simp only [Skin.writeFmtLine, Option.bind_eq_bind, Option.bind_eq_some_iff, Option.some.injEq] at h ⊢
    obtain ⟨ps, h1, rfl⟩ := h
    exact ⟨_, _, ⟨ps, h1, rfl⟩, by simp only [if_true, Bool.false_eq_true, if_false, List.append_nil]; rfl⟩
  | tableRule rule =>
    simp only [Skin.writeFmtLine, Option.some.injEq] at h ⊢
    subst h
    exact ⟨_, _, rfl, by simp only [if_true, Bool.false_eq_true, if_false, List.append_nil]; rfl⟩
  | horizontalRule => exact ⟨text, 0, h, by simp [repeatChar]⟩

/-- Hence the whole source is displayed, with its styles: the rows of its lines, as described in C59, are all displayed after some page
ups and some page downs, completed with blanks and the scrollbar (if any). -/
theorem C72_source (cw : Char → Nat) (ws : Char → Bool) (m : MadView) (hr : Readable m.skin m.mlines)
    (hsp : ∀ c, m.skin.specialChars c = none)
    (hw : 1 ≤ m.area.width) (hh : 1 ≤ m.area.height) (ho : OnScreen m.area) (t : FmtText)
    (ht : FmtText.fromText cw ws m.skin m.mlines (some (m.area.width - 1)) = some t)
    (hs : m.area.top + t.lines.length + m.area.height < 65536) :
    ∃ w shown, (w = m.area.width - 1 ∨ w = m.area.width ∧ shown.length ≤ m.area.height) ∧
      InBlocks (DisplayedStyled ws m.skin (some (m.area.width - 1)) (some w)) m.mlines shown ∧
      ∀ (i : Nat) (cells : List StyledCell), shown[i]? = some cells → ∃ m' rows row n last,
        pressAll cw ws m (List.replicate (m.scroll / m.area.height + 1) ⟨.pageUp, [], .none⟩ ++
          List.replicate (i / m.area.height) ⟨.pageDown, [], .none⟩) = some m' ∧
        m'.writeOn cw ws = some rows ∧ row ∈ rows ∧ row.x = m.area.left ∧ m.area.top ≤ row.y ∧ row.y < m.area.top + m.area.height ∧
        piecesCells row.pieces = cells ++ List.replicate n (' ', m.skin.paragraph.style) ++ last := by
  generalize hwe : (if t.lines.length ≤ m.area.height then m.area.width else m.area.width - 1) = w
  obtain ⟨drawn, hd, hlen⟩ := C71_display cw ws m.skin m.mlines _ (some w) hr t ht
  have hd' : (t.setRenderingWidth w).display m.skin = some drawn := hd
  have hb := C59_styles cw ws m.skin hsp _ m.mlines t _ drawn ht (.inr ⟨w, rfl⟩) hd'
  refine ⟨w, drawn.map piecesCells, ?_, hb, ?_⟩
  · by_cases c : t.lines.length ≤ m.area.height
    · rw [if_pos c] at hwe; exact .inr ⟨hwe.symm, by simp [hlen, c]⟩
    · rw [if_neg c] at hwe; exact .inl hwe.symm
  intro i cells hi
  rw [List.getElem?_map] at hi
  obtain ⟨ps, hps, rfl⟩ := Option.map_eq_some_iff.1 hi
  have hlt : i < t.lines.length := by rw [← hlen]; exact (List.getElem?_eq_some_iff.1 hps).1
  obtain ⟨m', rows, row, text, last, a1, a2, a3, a4, a5, a6, a7, a8⟩ :=
    C72_read cw ws m hr hw hh ho t ht hs i _ (List.getElem?_eq_getElem hlt)
  rw [hwe] at a8
  obtain ⟨text', n, b1, b2⟩ := writeFmtLine_completed _ _ _ _ a8
  have e : ps = text' := by
    have := mapM_at hd' i _ (List.getElem?_eq_getElem hlt)
    rw [hps] at this
    have hw' : (t.setRenderingWidth w).width = some w := rfl
    simp only [hw'] at this
    rw [b1] at this
    injection this
  subst e
  refine ⟨m', rows, row, n, piecesCells last, a1, a2, a3, a4, a5, a6, ?_⟩
  rw [a7, b2, piecesCells_append, piecesCells_append, piecesCells_repeat]

/-! ### Lists -/

/-- `k` pages down in a list. -/
def listPages {T : Type} : ListView T → Nat → Run (ListView T)
  | v, 0 => some v
  | v, k + 1 => do
    let v' ← v.tryScrollPages 1
    listPages v' k

theorem displayedBetween_le {T : Type} (v : ListView T) (a b : Nat) :
    v.displayedBetween a b ≤ b - a := by
  unfold ListView.displayedBetween
  refine Nat.le_trans (List.length_filter_le _ _) ?_
  simp
  omega

theorem listPages_scroll {T : Type} : ∀ (k : Nat) (v : ListView T), v.selection = none → 3 ≤ v.area.height →
    v.area.height < 65536 → v.tbodyHeight ≤ v.displayedCount → v.scroll ≤ v.displayedCount - v.tbodyHeight + 1 →
    listPages v k = some { v with scroll := min (v.scroll + k * v.tbodyHeight) (v.displayedCount - v.tbodyHeight + 1) } := by
  intro k
  induction k with
  | zero => intro v _ _ _ _ hm; simp only [listPages, Nat.zero_mul, Nat.add_zero, Option.some.injEq]; rw [Nat.min_eq_left hm]
  | succ k ih =>
    intro v hs hh hu hc hm
    have ht : v.tbodyHeight = v.area.height - 2 := by unfold ListView.tbodyHeight; rw [if_pos (by omega)]
    have e0 : (if v.area.height > 2 then v.area.height - 2 else v.area.height) = v.tbodyHeight := rfl
    have hp := C32_pages v 1 (by rw [e0]; omega) (by rw [e0]; omega)
    rw [e0] at hp
    rw [Int.one_mul] at hp
    cases hl : v.tryScrollLines (v.tbodyHeight : Int) with
    | none =>
      have h := (C32_scroll_panics v (v.tbodyHeight : Int)).1 hl
      rw [hs] at h
      rcases h with h | h | ⟨_, _, _, h⟩
      · omega
      · omega
      · cases h
    | some v' =>
      obtain ⟨a1, _, a3⟩ := C32_amount v v' (v.tbodyHeight : Int) hs hl
      have a3 := a3 (by omega)
      have hsc : v'.scroll = min (v.scroll + v.tbodyHeight) (v.displayedCount - v.tbodyHeight + 1) := by omega
      simp only [listPages, hp, hl, Option.bind_eq_bind, Option.bind_some]
      have e1 : v'.tbodyHeight = v.tbodyHeight := by rw [a1]; rfl
      have e2 : v'.displayedCount = v.displayedCount := by rw [a1]
      rw [ih v' (by rw [a1]; exact hs) (by rw [a1]; exact hh) (by rw [a1]; exact hu) (by rw [e1, e2]; exact hc)
        (by rw [e1, e2]; omega)]
      rw [e1, e2, hsc, a1]
      simp only [Option.some.injEq]
      congr 1
      rw [Nat.succ_mul]
      omega

/-- From the top of a list without filter and selection, each row is displayed after the pages which are before it. -/
theorem C72_list {T : Type} (v : ListView T) (hs : v.selection = none) (hh : 3 ≤ v.area.height) (hu : v.area.height < 65536)
    (hall : ∀ r ∈ v.rows, r.displayed = true) (hc : v.displayedCount = v.rows.length) (h0 : v.scroll = 0) (i : Nat)
    (hi : i < v.rows.length) : ∃ v', listPages v (i / (v.area.height - 2)) = some v' ∧ v'.rows = v.rows ∧ v'.Visible i := by
  have ht : v.tbodyHeight = v.area.height - 2 := by unfold ListView.tbodyHeight; rw [if_pos (by omega)]
  have hdisp : v.isDisplayed i = true := by
    unfold ListView.isDisplayed
    rw [List.getElem?_eq_getElem hi]
    simpa using hall _ (List.getElem_mem hi)
  have vis : ∀ s, s ≤ i → i < s + (v.area.height - 2) → ({ v with scroll := s } : ListView T).Visible i := by
    intro s h1 h2
    refine ⟨hdisp, h1, ?_⟩
    have := displayedBetween_le { v with scroll := s } s i
    simp only at this ⊢
    omega
  have h1 := Nat.div_add_mod i (v.area.height - 2)
  have h2 := Nat.mod_lt i (show v.area.height - 2 > 0 by omega)
  rw [Nat.mul_comm] at h1
  by_cases hsmall : v.rows.length < v.area.height - 2
  · have : i / (v.area.height - 2) = 0 := Nat.div_eq_of_lt (by omega)
    rw [this]
    refine ⟨v, rfl, rfl, ?_⟩
    have := vis 0 (by omega) (by omega)
    rw [← h0] at this
    exact this
  · refine ⟨_, listPages_scroll _ v hs hh hu (by omega) (by omega), rfl, ?_⟩
    apply vis
    · rw [h0, ht]; omega
    · rw [h0, ht, hc]; omega

/-! Examples. -/

theorem exMad_readable : Readable exMad.skin exMad.mlines := by
  refine ⟨?_, ?_⟩
  · intro kind cs hm
    simp only [exMad, List.mem_replicate, MLine.normal.injEq] at hm
    rw [hm.2.1]
    exact ⟨by intro d h; simp at h, by simp [styleOf]⟩
  · intro cells hm
    simp [exMad] at hm

/-- The view of 10 lines in 3 rows, scrolled then made taller. -/
example : ∃ rows, ({ exMad with area := ⟨0, 0, 10, 9⟩, scroll := 7 } : MadView).writeOn renderCw (· == ' ') = some rows ∧ rows.length = 9 :=
  C72_history renderCw (· == ' ') exMad _ C29_taller_counterexample.1 exMad_readable (by decide) ⟨by decide, by decide⟩ _ rfl (by decide)
example : ∃ m', pressAll renderCw (· == ' ') { exMad with scroll := 5 }
    (List.replicate 2 ⟨.pageUp, [], .none⟩ ++ List.replicate 3 ⟨.pageDown, [], .none⟩) = some m' ∧ m'.scroll = 7 := ⟨_, rfl, by decide⟩
example : ∃ t, FmtText.fromText renderCw (· == ' ') exMad.skin exMad.mlines (some (exMad.area.width - 1)) = some t ∧
    exMad.area.top + t.lines.length + exMad.area.height < 65536 ∧ (t.lines[9]?).isSome := ⟨_, rfl, by decide, by decide⟩
/-- Seven rows in an area which can show three of them: the sixth one is displayed after one page. -/
def exList : ListView Nat :=
  { titles := [], columns := [], rows := (List.range 7).map (fun n => ⟨n, true⟩), area := ⟨0, 0, 9, 5⟩, displayedCount := 7 }
example : ∃ v', listPages exList (5 / 3) = some v' ∧ v'.rows = exList.rows ∧ v'.Visible 5 :=
  C72_list exList rfl (by decide) (by decide) (by decide) rfl rfl 5 (by decide)
example : (listPages exList 1).map (·.scroll) = some 3 := by decide

end Verif.Props

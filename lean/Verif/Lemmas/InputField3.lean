import Verif.Lemmas.InputField2
import Verif.Props.Input
import Verif.Props.Area
/-! Lemmas on the operations of input fields. -/
namespace Verif
open InputField Content

/-- What the adjustment of the scroll ensures, `s` being the scroll before. -/
def Adjusted (cw : Char → Nat) (s : Pos) (f' : InputField) : Prop :=
  f'.RowsFull ∧
  (f'.focused = true → 1 ≤ f'.area.height → f'.RowVisible ∨
    (f'.content.pos.y = f'.scroll.y + f'.area.height ∧ f'.content.pos.y + 1 < f'.content.lines.length ∧
      s.y + f'.area.height ≤ f'.content.pos.y)) ∧
  (f'.focused = true → 4 ≤ f'.textCols → f'.ColVisible cw ∧ f'.ColAfter cw) ∧ f'.ColsFull cw ∧
  (f'.focused = true → 1 ≤ f'.textCols → (∀ c ∈ f'.cursorLine, inputCols cw [c] = 1) → f'.ColNear) ∧
  f'.RowsFollow s.y ∧ f'.ColsFollow cw s.x

/-- A consistent field. -/
def FieldOk (f : InputField) : Prop := f.content.Valid ∧ 1 ≤ f.area.width ∧ Spec.OnScreen f.area

theorem fixScroll_adj (cw : Char → Nat) {f : InputField} (h : FieldOk f) :
    ∃ f', fixScroll cw f = some f' ∧ (∃ s, f' = { f with scroll := s }) ∧ FieldOk f' ∧ Adjusted cw f.scroll f' := by
  obtain ⟨f', h1, ⟨s, rfl⟩, h3, h4, h5⟩ := fixScroll_ok cw h.1 h.2.1
  exact ⟨_, h1, ⟨s, rfl⟩, h, h3, h4, h5⟩

/-- The operation on the content. -/
def WrapOp.contentOp (f : InputField) : WrapOp → ContentOp
  | .moveUp => .moveUp | .moveDown => .moveDown | .moveLeft => .moveLeft | .moveRight => .moveRight
  | .moveToStart => .moveToStart | .moveToEnd => .moveToEnd | .moveToLineStart => .moveToLineStart
  | .moveToLineEnd => .moveToLineEnd | .moveWordLeft => .moveWordLeft | .moveWordRight => .moveWordRight
  | .delCharBelow => .delCharBelow | .delSelection => .delSelection | .delCharLeft => .delCharLeft
  | .delWordLeft => .delWordLeft | .delWordRight => .delWordRight | .moveCurrentLineUp => .moveCurrentLineUp
  | .moveCurrentLineDown => .moveCurrentLineDown | .selectWordAround => .selectWordAround
  | .pageUp => .moveLinesUp f.area.height | .pageDown => .moveLinesDown f.area.height

theorem wrapCall_ok (cw : Char → Nat) (alnum : Char → Bool) {f : InputField} (h : f.content.Valid) (op : WrapOp) :
    ∃ c' b, op.call cw alnum f = some (c', b) ∧ c'.Valid := by
  have hs : ∀ x : Run (Content × Bool), (op.contentOp f).exec cw alnum f.content = x.map Prod.fst → (op.contentOp f).Allowed f.content →
      ∃ c' b, x = some (c', b) ∧ c'.Valid := by
    intro x hx ha
    obtain ⟨c', h1, h2⟩ := Props.C20_step cw alnum h (op.contentOp f) ha
    rw [hx] at h1
    obtain ⟨⟨a, b⟩, h3, rfl⟩ := Option.map_eq_some_iff.1 h1
    exact ⟨_, _, h3, h2⟩
  cases op <;> exact hs _ rfl trivial

theorem wrap_ok (cw : Char → Nat) {f : InputField} (h : FieldOk f) {c' : Content} {b : Bool} (hc : c'.Valid) :
    ∃ f', f.wrap cw (some (c', b)) = some (f', b) ∧ FieldOk f' ∧ (∃ s, f' = { f with content := c', scroll := s }) ∧
      (b = true → Adjusted cw f.scroll f') ∧ (b = false → f'.scroll = f.scroll) := by
  unfold wrap
  simp only [Option.bind_eq_bind, Option.bind_some]
  cases b with
  | true =>
    obtain ⟨f', h1, ⟨s, h2⟩, h3, h4⟩ := fixScroll_adj cw (f := { f with content := c' }) ⟨hc, h.2.1, h.2.2⟩
    rw [if_pos rfl, h1]
    exact ⟨f', rfl, h3, ⟨s, h2⟩, fun _ => h4, by simp⟩
  | false => exact ⟨{ f with content := c' }, by simp, ⟨hc, h.2.1, h.2.2⟩, ⟨f.scroll, rfl⟩, by simp, fun _ => rfl⟩

theorem delWideSel_ok {f : InputField} (h : FieldOk f) : ∃ c' b, f.content.delSelection = some (c', b) ∧ c'.Valid := by
  obtain ⟨c', b, h1, h2⟩ := wrapCall_ok (fun _ => 0) (fun _ => false) h.1 .delSelection
  exact ⟨c', b, h1, h2⟩

theorem delWide_ok {f : InputField} (h : FieldOk f) : ∃ c', f.delWide = some { f with content := c' } ∧ c'.Valid := by
  unfold delWide
  split
  · obtain ⟨c', b, h1, h2⟩ := delWideSel_ok h
    exact ⟨c', by rw [h1]; rfl, h2⟩
  · exact ⟨f.content, rfl, h.1⟩

theorem putChar_ok (cw : Char → Nat) {f : InputField} (h : FieldOk f) (ch : Char) :
    ∃ f', f.putChar cw ch = some (f', true) ∧ FieldOk f' ∧ Adjusted cw f.scroll f' ∧ f'.area = f.area ∧ f'.focused = f.focused := by
  obtain ⟨c', h1, h2, _⟩ := insertChar_ok h.1 ch
  obtain ⟨f', g1, ⟨s, g2⟩, g3, g4⟩ := fixScroll_adj cw (f := { f with content := c' }) ⟨h2, h.2.1, h.2.2⟩
  refine ⟨f', ?_, g3, g4, by rw [g2], by rw [g2]⟩
  simp only [putChar, h1, g1, Option.bind_eq_bind, Option.bind_some]

theorem fieldInsertNewLine_ok (cw : Char → Nat) {f : InputField} (h : FieldOk f) :
    ∃ f', f.insertNewLine cw = some (f', true) ∧ FieldOk f' ∧ Adjusted cw f.scroll f' := by
  obtain ⟨c', h1, h2, _⟩ := insertNewLine_ok h.1
  obtain ⟨f', g1, _, g3, g4⟩ := fixScroll_adj cw (f := { f with content := c' }) ⟨h2, h.2.1, h.2.2⟩
  refine ⟨f', ?_, g3, g4⟩
  simp only [InputField.insertNewLine, h1, g1, Option.bind_eq_bind, Option.bind_some]

theorem charKey_ok (cw : Char → Nat) {f : InputField} (h : FieldOk f) (ch : Char) :
    ∃ f', f.charKey cw ch = some (f', true) ∧ FieldOk f' ∧ Adjusted cw f.scroll f' := by
  unfold charKey
  split
  · obtain ⟨c', b, h1, h2⟩ := delWideSel_ok h
    obtain ⟨f1, g1, g2, g3, g4, g5⟩ := putChar_ok cw (f := { f with content := c' }) ⟨h2, h.2.1, h.2.2⟩ ch
    obtain ⟨f2, k1, ⟨s, k2⟩, k3, k4⟩ := fixScroll_adj cw g2
    refine ⟨f2, by simp only [h1, g1, k1, Option.bind_eq_bind, Option.bind_some], k3, k4.1, ?_, k4.2.2.1, k4.2.2.2.1, k4.2.2.2.2.1, ?_, ?_⟩
    all_goals
      have ea : f2.area = f1.area := by rw [k2]
      have ec : f2.content = f1.content := by rw [k2]
      have ef : f2.focused = f1.focused := by rw [k2]
    rotate_left
    · intro hlt
      have a0 := k4.2.2.2.2.2.1 hlt
      have b0 := g3.2.2.2.2.2.1 (by rw [← ea, ← ec]; exact hlt)
      obtain ⟨l, hl, _⟩ := k3.1.pos
      have hlt' := (List.getElem?_eq_some_iff.1 hl).1
      simp only [ea, ec, ef] at *
      refine ⟨fun hf => ?_, fun hf hh => ?_⟩
      · have := a0.1 hf
        have := b0.1 hf
        omega
      · have a := a0.2 hf hh
        have b := b0.2 hf hh
        refine ⟨fun x y => ?_, fun x => ?_, fun x => ?_⟩
        · have b := b.1 x y
          have a := a.1 (by omega) (by omega)
          omega
        · have b := b.2.1 x
          by_cases c : 4 < f1.area.height
          · rw [if_pos c] at b ⊢
            have a := a.1 (by omega) (by omega)
            omega
          · rw [if_neg c] at b ⊢
            have a := a.1 (by omega) (by omega)
            omega
        · have b := b.2.2 x
          by_cases c : f1.content.pos.y + 1 = f1.content.lines.length
          · rw [if_pos c] at b ⊢
            have a := a.1 (by omega) (by omega)
            omega
          · rw [if_neg c] at b ⊢
            have a := a.2.2 (by omega)
            rw [if_neg c] at a
            omega
    · have et : f2.textCols = f1.textCols := by simp only [textCols, ea, ec]
      have el : f2.cursorLine = f1.cursorLine := by simp only [cursorLine, ec]
      have eo : f2.cursorCol cw = f1.cursorCol cw := by simp only [cursorCol, ec]
      have hle : f1.cursorCol cw ≤ inputCols cw f1.cursorLine := inputCols_take_le cw _ _
      intro hlt
      have a0 := k4.2.2.2.2.2.2 hlt
      have b0 := g3.2.2.2.2.2.2 (by rw [← et, ← el]; exact hlt)
      simp only [et, el, eo, ef] at *
      refine ⟨fun hf => ?_, fun hf hh => ?_⟩
      · have := a0.1 hf
        have := b0.1 hf
        omega
      · have a := a0.2 hf hh
        have b := b0.2 hf hh
        clear a0 b0 g3 k4
        refine ⟨fun x y => ?_, fun x => ?_, fun x => ?_⟩
        · have b := b.1 x y
          omega
        · have b := b.2.1 x
          omega
        · have b := b.2.2 x
          omega
    intro hf hh
    have a1 := k4.2.1 hf hh
    have a2 := g3.2.1 (by rw [← ef]; exact hf) (by rw [← ea]; exact hh)
    simp only [RowVisible, ea, ec] at *
    omega
  · obtain ⟨f1, g1, g2, g3, _, _⟩ := putChar_ok cw h ch
    exact ⟨f1, g1, g2, g3⟩

theorem moveKey_ok (cw : Char → Nat) {f : InputField} (h : FieldOk f) (code : KeyCode) :
    ∃ f' b, f.moveKey cw code = some (f', b) ∧ FieldOk f' ∧ (b = true → Adjusted cw f.scroll f') := by
  have key : ∀ op : WrapOp, ∃ f' b, f.wrap cw (op.call cw (fun _ => false) f) = some (f', b) ∧ FieldOk f' ∧
      (b = true → Adjusted cw f.scroll f') := by
    intro op
    obtain ⟨c', b, h1, h2⟩ := wrapCall_ok cw (fun _ => false) h.1 op
    obtain ⟨f', g1, g2, _, g3, _⟩ := wrap_ok cw h (b := b) h2
    exact ⟨f', b, by rw [h1]; exact g1, g2, g3⟩
  unfold moveKey
  split
  · exact key .moveToLineStart
  · exact key .moveToLineEnd
  · exact key .moveUp
  · exact key .moveDown
  · exact key .moveLeft
  · exact key .pageUp
  · exact key .pageDown
  · exact key .moveRight
  · exact ⟨f, false, rfl, h, by simp⟩

theorem delKey_ok {f : InputField} (h : FieldOk f) {r : Run (Content × Bool)}
    (hr : ∃ c' b, r = some (c', b) ∧ c'.Valid) : ∃ f' b, f.delKey r = some (f', b) ∧ FieldOk f' := by
  unfold delKey
  split
  · obtain ⟨c', b, h1, h2⟩ := delWideSel_ok h
    exact ⟨{ f with content := c' }, true, by rw [h1]; rfl, ⟨h2, h.2.1, h.2.2⟩⟩
  · obtain ⟨c', b, h1, h2⟩ := hr
    exact ⟨{ f with content := c' }, b, by rw [h1]; rfl, ⟨h2, h.2.1, h.2.2⟩⟩

theorem keycode_ok (cw : Char → Nat) {f : InputField} (h : FieldOk f) (code : KeyCode) (shift : Bool) :
    ∃ f' b, f.applyKeycodeEvent cw code shift = some (f', b) ∧ FieldOk f' ∧
      (b = true → AdjustingCode code → Adjusted cw f.scroll f') := by
  unfold applyKeycodeEvent
  split
  · obtain ⟨f', b, h1, h2⟩ := delKey_ok h (wrapCall_ok cw (fun _ => false) h.1 .delCharLeft)
    exact ⟨f', b, h1, h2, by simp [AdjustingCode]⟩
  · obtain ⟨f', b, h1, h2⟩ := delKey_ok h (wrapCall_ok cw (fun _ => false) h.1 .delCharBelow)
    exact ⟨f', b, h1, h2, by simp [AdjustingCode]⟩
  · rename_i ch
    obtain ⟨f', h1, h2, h3⟩ := charKey_ok cw h ch
    exact ⟨f', true, h1, h2, fun _ _ => h3⟩
  · have hv : FieldOk { f with content := if shift then f.content.makeSelection else f.content.unselect } := by
      refine ⟨?_, h.2.1, h.2.2⟩
      dsimp only
      split
      · exact makeSelection_ok h.1
      · exact unselect_ok h.1
    obtain ⟨f', b, h1, h2, h3⟩ := moveKey_ok cw hv code
    exact ⟨f', b, h1, h2, fun hb _ => h3 hb⟩

theorem key_ok (cw : Char → Nat) {f : InputField} (h : FieldOk f) (k : KeyComb) :
    ∃ f' b, f.applyKeyCombination cw k = some (f', b) ∧ FieldOk f' ∧
      (b = true → (k ∈ f.newLineKeys ∨ AdjustingCode k.code) → Adjusted cw f.scroll f') := by
  unfold applyKeyCombination
  split
  · exact ⟨f, false, rfl, h, by simp⟩
  · split
    · obtain ⟨f', h1, h2, h3⟩ := fieldInsertNewLine_ok cw h
      exact ⟨f', true, h1, h2, fun _ _ => h3⟩
    · rename_i hk
      simp only [List.contains_iff_mem] at hk
      unfold applyMods
      split
      · obtain ⟨f', b, h1, h2, h3⟩ := keycode_ok cw h k.code false
        exact ⟨f', b, h1, h2, fun hb ha => h3 hb (ha.resolve_left hk)⟩
      · obtain ⟨f', b, h1, h2, h3⟩ := keycode_ok cw h k.code true
        exact ⟨f', b, h1, h2, fun hb ha => h3 hb (ha.resolve_left hk)⟩
      · exact ⟨f, false, rfl, h, by simp⟩

theorem posOfCell_ok (cw : Char → Nat) {f : InputField} (h : FieldOk f) {x y : Nat} (hi : Spec.InArea f.area x y) :
    ∃ l, f.content.lines[min (y - f.area.top + f.scroll.y) (f.content.lines.length - 1)]? = some l ∧
      f.posOfCell cw x y = some ⟨min (y - f.area.top + f.scroll.y) (f.content.lines.length - 1),
        (colToCharIdx cw l (x - f.area.left + f.scroll.x)).getD l.length⟩ := by
  obtain ⟨i, j, _, _, rfl, rfl⟩ := hi
  have hn : 0 < f.content.lines.length := List.length_pos_iff.2 h.1.oneLine
  generalize hr : min (f.area.top + j - f.area.top + f.scroll.y) (f.content.lines.length - 1) = row
  have hl : f.content.lines[row]? = some (f.content.lines[row]'(by omega)) := List.getElem?_eq_getElem _
  refine ⟨_, hl, ?_⟩
  simp only [posOfCell, csub_of_le (show f.area.top ≤ f.area.top + j by omega), csub_of_le (show 1 ≤ f.content.lines.length by omega),
    csub_of_le (show f.area.left ≤ f.area.left + i by omega), Option.bind_eq_bind, Option.bind_some, hr, hl]

theorem click_ok (cw : Char → Nat) {f : InputField} (h : FieldOk f) (x y : Nat) :
    ∃ f' b, f.applyClickEvent cw x y = some (f', b) ∧ FieldOk f' := by
  obtain ⟨b, h1, h2⟩ := Props.C18_contains f.area h.2.2 x y
  unfold applyClickEvent
  simp only [h1, Option.bind_eq_bind, Option.bind_some]
  cases b with
  | false => exact ⟨f, false, rfl, h⟩
  | true =>
    rw [if_pos rfl]
    split
    · obtain ⟨l, _, h3⟩ := posOfCell_ok cw h (h2.1 rfl)
      obtain ⟨c', h4, h5, _⟩ := setCursorPos_ok h.1 ⟨min (y - f.area.top + f.scroll.y) (f.content.lines.length - 1),
        (colToCharIdx cw l (x - f.area.left + f.scroll.x)).getD l.length⟩
      exact ⟨{ f with content := c' }, true, by simp only [h3, h4, Option.bind_some], ⟨h5, h.2.1, h.2.2⟩⟩
    · exact ⟨_, true, rfl, h⟩

theorem mouse_ok (cw : Char → Nat) (alnum : Char → Bool) {f : InputField} (h : FieldOk f) (kind : MouseKind) (x y : Nat) (mods : KeyMods)
    (double : Bool) : ∃ f' b, f.applyMouseEvent cw alnum kind x y mods double = some (f', b) ∧ FieldOk f' := by
  obtain ⟨b, h1, h2⟩ := Props.C18_contains f.area h.2.2 x y
  unfold applyMouseEvent
  simp only [h1, Option.bind_eq_bind, Option.bind_some]
  cases b with
  | false => exact ⟨f, false, rfl, h⟩
  | true =>
    rw [if_pos rfl]
    split
    · obtain ⟨l, _, h3⟩ := posOfCell_ok cw h (h2.1 rfl)
      simp only [h3, Option.bind_some]
      generalize (⟨min (y - f.area.top + f.scroll.y) (f.content.lines.length - 1),
        (colToCharIdx cw l (x - f.area.left + f.scroll.x)).getD l.length⟩ : Pos) = p
      have : ∃ f', f.mouseAt alnum kind mods double p = some f' ∧ FieldOk f' := by
        unfold mouseAt
        split
        · have hv : (if mods = .shift then f.content.makeSelection else f.content.unselect).Valid := by
            split
            · exact makeSelection_ok h.1
            · exact unselect_ok h.1
          obtain ⟨c', h4, h5, _⟩ := setCursorPos_ok hv p
          exact ⟨{ f with content := c' }, by rw [h4]; rfl, ⟨h5, h.2.1, h.2.2⟩⟩
        · split
          · obtain ⟨c', h4, h5, _⟩ := setCursorPos_ok h.1 p
            obtain ⟨c'', b, h6, h7⟩ := wrapCall_ok cw alnum (f := { f with content := c' }) h5 .selectWordAround
            have h6' : c'.selectWordAround alnum = some (c'', b) := h6
            exact ⟨{ f with content := c'' }, by rw [h4]; simp only [Option.bind_eq_bind, Option.bind_some, h6'], ⟨h7, h.2.1, h.2.2⟩⟩
          · exact ⟨f, rfl, h⟩
        · obtain ⟨c', h4, h5, _⟩ := setCursorPos_ok (makeSelection_ok h.1) p
          exact ⟨{ f with content := c' }, by rw [h4]; rfl, ⟨h5, h.2.1, h.2.2⟩⟩
        · exact ⟨_, rfl, by unfold scrollDown; split <;> exact h⟩
        · exact ⟨_, rfl, by unfold scrollUp; split <;> exact h⟩
        · exact ⟨f, rfl, h⟩
      obtain ⟨f', h4, h5⟩ := this
      exact ⟨f', true, by rw [h4]; rfl, h5⟩
    · exact ⟨_, true, rfl, h⟩

theorem event_ok (cw : Char → Nat) (alnum : Char → Bool) {f : InputField} (h : FieldOk f) (e : FieldEvent) (double : Bool) :
    ∃ f' b, f.applyEvent cw alnum e double = some (f', b) ∧ FieldOk f' ∧
      (b = true → ∀ code mods, e = .key code mods → AdjustingCode code → Adjusted cw f.scroll f') := by
  unfold applyEvent
  split
  · rename_i kind x y mods
    obtain ⟨f', b, h1, h2⟩ := mouse_ok cw alnum h kind x y mods double
    exact ⟨f', b, h1, h2, by simp⟩
  · rename_i code mods
    split
    · split
      · obtain ⟨f', b, h1, h2, h3⟩ := keycode_ok cw h code false
        exact ⟨f', b, h1, h2, by rintro hb _ _ ⟨⟩ ha; exact h3 hb ha⟩
      · obtain ⟨f', b, h1, h2, h3⟩ := keycode_ok cw h code true
        exact ⟨f', b, h1, h2, by rintro hb _ _ ⟨⟩ ha; exact h3 hb ha⟩
      · exact ⟨f, false, rfl, h, by simp⟩
    · exact ⟨f, false, rfl, h, by simp⟩
  · exact ⟨f, false, rfl, h, by simp⟩

/-- All the operations. -/
theorem fieldOp_ok (cw : Char → Nat) (alnum : Char → Bool) {f : InputField} (h : FieldOk f) (op : FieldOp) (ha : op.Allowed f) :
    ∃ f' b, op.exec cw alnum f = some (f', b) ∧ FieldOk f' ∧ (b = true → op.Adjusts f → Adjusted cw f.scroll f') := by
  have fix : ∀ g : InputField, FieldOk g → g.scroll = f.scroll → ∃ f', fixScroll cw g = some f' ∧ FieldOk f' ∧ Adjusted cw f.scroll f' := by
    intro g hg hs
    obtain ⟨f', g1, _, g3, g4⟩ := fixScroll_adj cw hg
    exact ⟨f', g1, g3, by rw [← hs]; exact g4⟩
  cases op with
  | setMonoLine => exact ⟨_, _, rfl, h, by simp [FieldOp.Adjusts]⟩
  | newLineOn k => exact ⟨_, _, rfl, h, by simp [FieldOp.Adjusts]⟩
  | setPasswordMode b => exact ⟨_, _, rfl, h, by simp [FieldOp.Adjusts]⟩
  | changeArea x y w =>
    obtain ⟨f', g1, g2, g3⟩ := fix { f with area := { f.area with left := x, top := y, width := w } } ⟨h.1, ha.1, ha.2⟩ rfl
    simp only [FieldOp.exec, changeArea]
    split
    · exact ⟨f', true, by rw [g1]; rfl, g2, fun _ _ => g3⟩
    · rename_i hc
      refine ⟨f, true, rfl, h, fun _ hadj => absurd ?_ hadj⟩
      simp only [ne_eq, not_or, Decidable.not_not] at hc
      rw [hc.1, hc.2.1, hc.2.2]
  | setArea area =>
    obtain ⟨f', g1, g2, g3⟩ := fix { f with area } ⟨h.1, ha.1, ha.2⟩ rfl
    simp only [FieldOp.exec, setArea]
    split
    · exact ⟨f', true, by rw [g1]; rfl, g2, fun _ _ => g3⟩
    · rename_i hc
      refine ⟨f, true, rfl, h, fun _ hadj => absurd ?_ hadj⟩
      simp only [ne_eq, Decidable.not_not] at hc
      exact hc.symm
  | setFocus b =>
    obtain ⟨f', g1, g2, g3⟩ := fix { f with focused := b } h rfl
    simp only [FieldOp.exec, setFocus]
    split
    · rename_i hc
      refine ⟨f, true, rfl, h, fun _ hadj => ?_⟩
      have := hadj.1; have := hadj.2; simp_all
    · split
      · exact ⟨f', true, by rw [g1]; rfl, g2, fun _ _ => g3⟩
      · rename_i hb
        exact ⟨_, true, rfl, h, fun _ hadj => absurd hadj.1 hb⟩
  | cutSelection =>
    obtain ⟨s, hs, _⟩ := selectionString_ok h.1
    obtain ⟨c', b, h1, h2⟩ := delWideSel_ok h
    obtain ⟨f', g1, g2, g3⟩ := fix { f with content := c' } ⟨h2, h.2.1, h.2.2⟩ rfl
    exact ⟨f', true, by simp only [FieldOp.exec, cutSelection, hs, h1, g1, Option.bind_eq_bind, Option.bind_some, Option.map_some], g2,
      fun _ _ => g3⟩
  | replaceSelection s =>
    obtain ⟨c', h1, h2⟩ := delWide_ok h
    obtain ⟨c'', h3, h4, _⟩ := insertStr_ok s h2
    obtain ⟨f', g1, g2, g3⟩ := fix { f with content := c'' } ⟨h4, h.2.1, h.2.2⟩ rfl
    exact ⟨f', true, by simp only [FieldOp.exec, replaceSelection, h1, h3, g1, Option.bind_eq_bind, Option.bind_some, Option.map_some],
      g2, fun _ _ => g3⟩
  | setStr s =>
    obtain ⟨c'', h3, h4, _⟩ := setStr_ok h.1 s
    obtain ⟨f', g1, g2, g3⟩ := fix { f with content := c'' } ⟨h4, h.2.1, h.2.2⟩ rfl
    exact ⟨f', true, by simp only [FieldOp.exec, InputField.setStr, h3, g1, Option.bind_eq_bind, Option.bind_some, Option.map_some],
      g2, fun _ _ => g3⟩
  | insertNewLine =>
    obtain ⟨f', h1, h2, h3⟩ := fieldInsertNewLine_ok cw h
    exact ⟨f', true, h1, h2, fun _ _ => h3⟩
  | putChar ch =>
    obtain ⟨f', h1, h2, h3, _, _⟩ := putChar_ok cw h ch
    exact ⟨f', true, h1, h2, fun _ _ => h3⟩
  | clear =>
    obtain ⟨f', g1, g2, g3⟩ := fix { f with content := f.content.clear } ⟨default_valid, h.2.1, h.2.2⟩ rfl
    exact ⟨f', true, by simp only [FieldOp.exec, InputField.clear, g1, Option.map_some], g2, fun _ _ => g3⟩
  | insertStr s =>
    obtain ⟨c'', h3, h4, _⟩ := insertStr_ok s h.1
    obtain ⟨f', g1, g2, g3⟩ := fix { f with content := c'' } ⟨h4, h.2.1, h.2.2⟩ rfl
    exact ⟨f', true, by simp only [FieldOp.exec, InputField.insertStr, h3, g1, Option.bind_eq_bind, Option.bind_some, Option.map_some],
      g2, fun _ _ => g3⟩
  | wrapped op =>
    obtain ⟨c', b, h1, h2⟩ := wrapCall_ok cw alnum h.1 op
    obtain ⟨f', g1, g2, _, g3, _⟩ := wrap_ok cw h (b := b) h2
    exact ⟨f', b, by simp only [FieldOp.exec, h1]; exact g1, g2, fun hb _ => g3 hb⟩
  | key k =>
    obtain ⟨f', b, h1, h2, h3⟩ := key_ok cw h k
    exact ⟨f', b, h1, h2, h3⟩
  | keycode code shift =>
    obtain ⟨f', b, h1, h2, h3⟩ := keycode_ok cw h code shift
    exact ⟨f', b, h1, h2, h3⟩
  | click x y =>
    obtain ⟨f', b, h1, h2⟩ := click_ok cw h x y
    exact ⟨f', b, h1, h2, by simp [FieldOp.Adjusts]⟩
  | mouse kind x y mods double =>
    obtain ⟨f', b, h1, h2⟩ := mouse_ok cw alnum h kind x y mods double
    exact ⟨f', b, h1, h2, by simp [FieldOp.Adjusts]⟩
  | event e double =>
    obtain ⟨f', b, h1, h2, h3⟩ := event_ok cw alnum h e double
    refine ⟨f', b, h1, h2, fun hb hadj => ?_⟩
    cases e with
    | mouse => exact absurd hadj (by simp [FieldOp.Adjusts])
    | key code mods => exact h3 hb code mods rfl hadj
    | other => exact absurd hadj (by simp [FieldOp.Adjusts])
  | scrollUp => exact ⟨f.scrollUp.1, f.scrollUp.2, rfl, by unfold scrollUp; split <;> exact h, by simp [FieldOp.Adjusts]⟩
  | scrollDown => exact ⟨f.scrollDown.1, f.scrollDown.2, rfl, by unfold scrollDown; split <;> exact h, by simp [FieldOp.Adjusts]⟩

theorem contains_iff (r : Range) (x y : Nat) :
    r.contains x y = true ↔ (⟨y, x⟩ : Pos).blt r.min = false ∧ r.max.blt ⟨y, x⟩ = false := by
  rw [blt_false, blt_false]
  simp only [Range.contains]
  split
  · simp only [Bool.and_eq_true, beq_iff_eq, decide_eq_true_eq]; omega
  · split
    · rename_i h2
      simp only [Bool.or_eq_true, decide_eq_true_eq] at h2
      simp only [Bool.false_eq_true, false_iff]; omega
    · rename_i h2
      simp only [Bool.or_eq_true, decide_eq_true_eq] at h2
      split
      · simp only [decide_eq_true_eq]; omega
      · split
        · simp only [decide_eq_true_eq]; omega
        · simp only [true_iff]; omega

theorem cellsText_mapIdx (f : InputField) (l : Text) : ∀ (g : Nat → Bool),
    cellsText (l.mapIdx (fun i c => cellPiece f (g i) (f.shown c))) = l.map f.shown := by
  induction l with
  | nil => intro g; rfl
  | cons c l ih =>
    intro g
    rw [List.mapIdx_cons, List.map_cons, ← ih (fun i => g (i + 1))]
    simp [cellsText, cellPiece]

/-- A line which fits is drawn with all its characters. -/
theorem drawLine_fits (cw : Char → Nat) (hs : cw ' ' = 1) {f : InputField} {w : Nat} (y j : Nat) (l : Text) (cur : Option (Nat × Nat))
    (hl : f.area.left + w < 65536) (ht : f.area.top + j < 65536) (hx : f.scroll.x = 0) (hw : inputCols cw (l.map f.shown) < w) :
    ∃ r n, f.drawLine cw w y j l cur = some r ∧
      r.pieces = l.mapIdx (fun i c => cellPiece f (f.content.selection.contains i y) (f.shown c)) ++
        (if f.focused = true ∧ y = f.content.pos.y ∧ f.content.pos.x = l.length then [(.cursor, [' '])] else []) ++
        List.replicate n (.normal, [' ']) := by
  rw [drawLine_eq]
  have e1 : leftCols f w = 0 := by unfold leftCols; rw [if_neg (by omega)]
  have e2 : leftPieces f w = [] := by unfold leftPieces; rw [if_neg (by omega)]
  rw [e1, e2, hx]
  obtain ⟨cur', _, c2⟩ := drawChars_shown cw f.content.selection y j 0 w (f := f) hl ht [] 0 (by omega) l 0 0 cur (by omega)
  rw [List.append_nil] at c2
  rw [Nat.add_zero, Nat.sub_zero, c2, drawChars]
  simp only [Option.map_some, Option.bind_some, List.append_nil, Nat.zero_add, List.nil_append]
  have hpt : cellsText (l.mapIdx (fun i c => cellPiece f (f.content.selection.contains i y) (f.shown c))) = l.map f.shown :=
    cellsText_mapIdx f l _
  obtain ⟨d', n, m1, _, _, m2⟩ := drawEnd_ok cw hs (f.focused && (y == f.content.pos.y) && (f.content.pos.x == l.length))
    (f := f) (w := w) (j := j) (d := ⟨l.mapIdx (fun i c => cellPiece f (f.content.selection.contains i y) (f.shown c)),
      inputCols cw (l.map f.shown), cur'⟩) hl ht (by simp only [hpt]) (by simp only; omega)
  refine ⟨_, n, by rw [m1]; rfl, ?_⟩
  by_cases c : f.focused = true ∧ y = f.content.pos.y ∧ f.content.pos.x = l.length
  · rw [if_pos ⟨hw, by simp [c]⟩] at m2
    rw [if_pos c]
    simp only [m2.1, List.append_assoc, List.singleton_append]
  · rw [if_neg (by simp only [Bool.and_eq_true, beq_iff_eq]; intro h; exact c ⟨h.2.1.1, h.2.1.2, h.2.2⟩)] at m2
    rw [if_neg c]
    simp only [m2.1, List.append_nil]

/-- The cell of a character, for a line whose characters are one column wide. -/
theorem drawLine_cell (cw : Char → Nat) (hs : cw ' ' = 1) (he : cw '…' = 1) {f : InputField} {w : Nat} (y j : Nat) (l : Text)
    (cur : Option (Nat × Nat)) (hl : f.area.left + w < 65536) (ht : f.area.top + j < 65536)
    (h1 : ∀ c ∈ l, inputCharWidth cw (f.shown c) = 1) {d : Nat} {c : Char} (hd : d < w) (hc : l[f.scroll.x + d]? = some c)
    (hd1 : leftCols f w ≤ d) (hd2 : d + 1 < w ∨ f.scroll.x + d + 1 = l.length) :
    ∃ r, f.drawLine cw w y j l cur = some r ∧ r.pieces[d]? = some (cellPiece f (f.content.selection.contains (f.scroll.x + d) y) (f.shown c)) := by
  rw [drawLine_eq]
  have hle : leftCols f w ≤ 1 := by unfold leftCols; split <;> omega
  have hlp : (leftPieces f w).length = leftCols f w := by unfold leftPieces leftCols; split <;> rfl
  generalize hskip : f.scroll.x + leftCols f w = skip at *
  generalize hav : w - leftCols f w = av at *
  have hl' : f.area.left + av < 65536 := by omega
  have hcols : ∀ t : Text, (∀ c ∈ t, c ∈ l) → inputCols cw (t.map f.shown) = t.length := by
    intro t htl
    induction t with
    | nil => rfl
    | cons x t ih =>
      rw [List.map_cons, inputCols_cons, h1 x (htl x (by simp)), ih (fun c hc => htl c (by simp [hc])), List.length_cons]; omega
  obtain ⟨hlt, hget⟩ := List.getElem?_eq_some_iff.1 hc
  have hsplit : l = l.take skip ++ ((l.drop skip).take (d - leftCols f w) ++ c :: l.drop (f.scroll.x + d + 1)) := by
    have e1 : l.drop skip = (l.drop skip).take (d - leftCols f w) ++ l.drop (f.scroll.x + d) := by
      have := List.take_append_drop (d - leftCols f w) (l.drop skip)
      rw [List.drop_drop] at this
      rw [show skip + (d - leftCols f w) = f.scroll.x + d by omega] at this
      exact this.symm
    have e2 : l.drop (f.scroll.x + d) = c :: l.drop (f.scroll.x + d + 1) := by
      rw [List.drop_eq_getElem_cons hlt, hget]
    rw [← e2, ← e1, List.take_append_drop]
  generalize hA : l.take skip = A at hsplit
  generalize hB : (l.drop skip).take (d - leftCols f w) = B at hsplit
  generalize l.drop (f.scroll.x + d + 1) = rest at hsplit
  have hAl : A.length = skip := by rw [← hA]; simp; omega
  have hBl : B.length = d - leftCols f w := by rw [← hB]; simp; omega
  have hAc : inputCols cw (A.map f.shown) = skip := by
    rw [hcols A (by intro c hc; rw [hsplit]; simp [hc]), hAl]
  have hBc : inputCols cw (B.map f.shown) = d - leftCols f w := by
    rw [hcols B (by intro c hc; rw [hsplit]; simp [hc]), hBl]
  obtain ⟨a, b, e1, e2, e3, e4⟩ := drawChars_skip cw f.content.selection y j skip av (f := f) hl' ht cur A
    (B ++ c :: rest) 0 0 (by omega)
  have hac : inputCols cw (a.map f.shown) = a.length := hcols a (by intro c hc; rw [hsplit, e1]; simp [hc])
  have hb : b = [] := by
    have : a.length + b.length = A.length := by rw [e1]; simp
    have : b.length = 0 := by omega
    exact List.eq_nil_of_length_eq_zero this
  subst hb
  rw [List.append_nil] at e1
  subst e1
  rw [← hsplit, List.nil_append] at e4
  rw [e4]
  obtain ⟨cur', _, c2⟩ := drawChars_shown cw f.content.selection y j skip av (f := f) hl' ht
    (c :: rest) (0 + inputCols cw (A.map f.shown)) (by omega) B (0 + A.length) 0 cur (by omega)
  rw [c2, show 0 + A.length + B.length = f.scroll.x + d by omega]
  have hcw : inputCharWidth cw (f.shown c) = 1 := h1 c (by rw [hsplit]; simp)
  have hrest : d + 1 < w ∨ rest = [] := by
    rcases hd2 with h | h
    · exact .inl h
    · right
      have := congrArg List.length hsplit
      simp only [List.length_append, List.length_cons] at this
      exact List.eq_nil_of_length_eq_zero (by omega)
  have hcell : ∃ r, drawChars cw f f.content.selection y j skip av (f.scroll.x + d) (c :: rest)
      (0 + inputCols cw (A.map f.shown)) (0 + inputCols cw (B.map f.shown)) cur' = some r ∧
      r.pieces[0]? = some (cellPiece f (f.content.selection.contains (f.scroll.x + d) y) (f.shown c)) ∧
      r.width = d - leftCols f w + inputCols cw (cellsText r.pieces) ∧ r.width ≤ av := by
    obtain ⟨d0, d1, d2, d3, _, _⟩ := drawChars_width cw he f.content.selection y j skip av (f := f) hl' ht (c :: rest)
      (f.scroll.x + d) (0 + inputCols cw (A.map f.shown)) (0 + inputCols cw (B.map f.shown)) cur' (by omega)
    refine ⟨d0, d1, ?_, by omega, d3⟩
    rw [drawChars_cons cw _ _ j skip av _ c rest _ _ _ hl' (by omega) ht, if_neg (by omega), if_neg ?_] at d1
    · split at d1
      · cases d1; rfl
      · rw [Option.map_eq_some_iff] at d1
        obtain ⟨r', _, h2⟩ := d1
        cases h2; rfl
    · rw [hcw]
      rintro ⟨h1, h2 | h2⟩
      · rcases hrest with h | h
        · omega
        · exact h2 h
      · omega
  obtain ⟨r, k1, k2, k3, k4⟩ := hcell
  rw [k1]
  simp only [Option.map_some, Option.bind_some]
  obtain ⟨d', n, m1, _, _, m2⟩ := drawEnd_ok cw hs (f.focused && (y == f.content.pos.y) && (f.content.pos.x == l.length))
    (f := f) (w := av) (j := j)
    (d := { r with pieces := B.mapIdx (fun k c => cellPiece f (f.content.selection.contains (0 + A.length + k) y) (f.shown c)) ++ r.pieces })
    hl' ht (by simp only [cellsText_append, inputCols_append, cellsText_mapIdx f B (fun k => f.content.selection.contains (0 + A.length + k) y)]; omega) k4
  rw [m1]
  refine ⟨_, rfl, ?_⟩
  have hr0 : 0 < r.pieces.length := by
    have := List.getElem?_eq_some_iff.1 k2
    obtain ⟨h, _⟩ := this
    exact h
  have hfin : ∀ tl : List CellPiece, (leftPieces f w ++ (B.mapIdx (fun k c => cellPiece f (f.content.selection.contains (0 + A.length + k) y) (f.shown c)) ++ r.pieces ++ tl))[d]?
      = r.pieces[0]? := by
    intro tl
    rw [List.getElem?_append_right (by omega), List.append_assoc, List.getElem?_append_right (by simp; omega)]
    simp only [List.length_mapIdx, hlp, hBl, Nat.sub_self]
    rw [List.getElem?_append_left hr0]
  rw [← k2]
  split at m2
  · simp only [m2.1, hfin]
  · simp only [m2.1, hfin]

/-- The drawing in password mode depends only on the number of characters. -/
theorem drawChars_password (cw : Char → Nat) {f g : InputField} (hf : f.passwordMode = true) (hg : g.passwordMode = true)
    (ha : f.area = g.area) (hfo : f.focused = g.focused) (sel : Range) (y j skip w : Nat) :
    ∀ (a b : Text), a.length = b.length → ∀ i skipped d cur,
      drawChars cw f sel y j skip w i a skipped d cur = drawChars cw g sel y j skip w i b skipped d cur := by
  intro a
  induction a with
  | nil => intro b h i s d cur; cases b <;> simp_all [drawChars]
  | cons x a ih =>
    intro b h i s d cur
    cases b with
    | nil => simp at h
    | cons z b =>
      have hl : a.length = b.length := by simpa using h
      have hne : (a ≠ []) = (b ≠ []) := by
        cases a <;> cases b <;> simp_all
      rw [drawChars, drawChars]
      simp only [hf, hg, if_true, hne, ih b hl, drawCell, cursorCell, ha, hfo]

theorem movedBy_of {cw : Char → Nat} {f : InputField} {code : KeyCode} {shift : Bool} {move : Content → Prop} (hw : 1 ≤ f.area.width)
    {r : Content → Run (Content × Bool)} (hv : f.content.Valid)
    (hk : f.applyKeycodeEvent cw code shift =
      wrap cw { f with content := if shift then f.content.makeSelection else f.content.unselect }
        (r (if shift then f.content.makeSelection else f.content.unselect)))
    (hr : ∀ c : Content, c.Valid → c.lines = f.content.lines → c.pos = f.content.pos →
      ∃ c' b, r c = some (c', b) ∧ c'.Valid ∧ c'.lines = c.lines ∧ c'.tail = c.tail ∧ move c') :
    MovedBy cw f code shift move := by
  generalize hc0 : (if shift then f.content.makeSelection else f.content.unselect) = c0 at hk
  have hl : c0.lines = f.content.lines := by
    rw [← hc0]; cases shift
    · rfl
    · simp only [if_true, makeSelection]; split <;> rfl
  have hp : c0.pos = f.content.pos := by
    rw [← hc0]; cases shift
    · rfl
    · simp only [if_true, makeSelection]; split <;> rfl
  have ht : c0.tail = (if shift then some (f.content.tail.getD f.content.pos) else none) := by
    rw [← hc0]; cases shift
    · rfl
    · simp only [if_true, makeSelection]
      cases h : f.content.tail <;> simp [h]
  have hv0 : c0.Valid := by
    rw [← hc0]; cases shift
    · exact unselect_ok hv
    · exact makeSelection_ok hv
  obtain ⟨c', b, g1, g2, g3, g4, g5⟩ := hr c0 hv0 hl hp
  unfold MovedBy
  rw [hk, g1]
  cases b with
  | false => exact ⟨{ f with content := c' }, false, by simp [wrap], by rw [← hl]; exact g3, by rw [← ht]; exact g4, g5⟩
  | true =>
    obtain ⟨f', e1, ⟨s, e2⟩, _⟩ := fixScroll_ok cw (f := { f with content := c' }) g2 hw
    refine ⟨f', true, by simp [wrap, e1], ?_, ?_, ?_⟩
    · rw [e2, ← hl]; exact g3
    · rw [e2, ← ht]; exact g4
    · rw [e2]; exact g5

end Verif

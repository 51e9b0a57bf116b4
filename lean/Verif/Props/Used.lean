import Verif.Spec.Used
import Verif.Props.InputField
import Verif.Props.TextView
import Verif.Model.Tty
/-! C79: what changed when a view says that an event was used or not. -/
namespace Verif.Props
open Verif Verif.Spec InputField

section
variable {cw : Char → Nat} {alnum : Char → Bool}

/-- A call which changes nothing when it returns false. -/
def Honest {α : Type} (c : α) (r : Run (α × Bool)) : Prop := ∀ c', r = some (c', false) → c' = c

theorem honest_false {α : Type} (c : α) : Honest c (some (c, false)) := by intro c' h; simp at h; exact h.symm
theorem honest_true {α : Type} (c d : α) : Honest c (some (d, true)) := by intro c' h; simp at h
theorem honest_bind {α β : Type} (c : α) (r : Run β) (k : β → Run (α × Bool)) (h : ∀ a, Honest c (k a)) : Honest c (r.bind k) := by
  intro c' hc
  obtain ⟨a, _, ha⟩ := Option.bind_eq_some_iff.1 hc
  exact h a c' ha
theorem honest_ite {α : Type} (c : α) (P : Prop) [Decidable P] (r r' : Run (α × Bool)) (h : Honest c r) (h' : Honest c r') :
    Honest c (if P then r else r') := by split <;> assumption

/-- A function of the content which returns false changed nothing. -/
theorem call_honest (f : InputField) (op : WrapOp) : Honest f.content (op.call cw alnum f) := by
  have swap : ∀ (a b : Nat), Honest f.content (f.content.swapLines a b) := by
    intro a b
    simp only [Content.swapLines, Option.bind_eq_bind]
    repeat (first | apply honest_false | apply honest_true | (apply honest_ite) | (apply honest_bind; intro _))
  have back : ∀ (r : Run (Content × Bool)) (k : Content → Run (Content × Bool)), Honest f.content r → (∀ d, Honest f.content (k d)) →
      Honest f.content (r.bind fun p => if p.2 = true then k p.1 else some (p.1, false)) := by
    intro r k h hk c' hc
    obtain ⟨⟨d, b⟩, h1, h2⟩ := Option.bind_eq_some_iff.1 hc
    cases b with
    | true => exact hk d c' (by simpa using h2)
    | false => simp at h2; rw [← h2]; exact h d h1
  cases op
  case moveCurrentLineUp =>
    simp only [WrapOp.call, Content.moveCurrentLineUp, Option.bind_eq_bind]
    apply honest_ite
    · apply back _ (fun d => (csub d.pos.y 1).bind fun y => (Content.fixSelection { d with pos := { d.pos with y } }).bind fun c' => some (c', true)) (swap _ _)
      intro d
      repeat (first | apply honest_true | (apply honest_bind; intro _))
    · apply honest_false
  case moveCurrentLineDown =>
    simp only [WrapOp.call, Content.moveCurrentLineDown, Option.bind_eq_bind]
    apply back _ (fun d => (Content.fixSelection { d with pos := { d.pos with y := d.pos.y + 1 } }).bind fun c' => some (c', true)) (swap _ _)
    intro d
    repeat (first | apply honest_true | (apply honest_bind; intro _))
  all_goals simp only [WrapOp.call, Content.moveUp, Content.moveDown, Content.moveLinesUp, Content.moveLinesDown, Content.moveLeft, Content.moveRight,
    Content.moveToStart, Content.moveToEnd, Content.moveToLineStart, Content.moveToLineEnd, Content.moveWordLeft, Content.moveWordRight, Content.delCharBelow,
    Content.delSelection, Content.delCharLeft, Content.delWordLeft, Content.delWordRight, Content.selectWordAround, Option.bind_eq_bind]
  all_goals first
    | (split <;> first | apply honest_false | apply honest_true)
    | (repeat (first | apply honest_false | apply honest_true | (apply honest_ite) | (apply honest_bind; intro _)))

/-- The calls which adjust the scroll. -/
theorem wrap_honest {f : InputField} {r : Run (Content × Bool)} {f' : InputField} (hr : Honest f.content r) (h : f.wrap cw r = some (f', false)) : f' = f := by
  simp only [wrap, Option.bind_eq_bind, Option.bind_eq_some_iff] at h
  obtain ⟨⟨c, b⟩, h1, h2⟩ := h
  cases b with
  | true => simp [Option.bind_eq_some_iff] at h2
  | false => simp at h2; rw [← h2, hr c h1]

/-- The deletion keys. -/
theorem delKey_honest {f : InputField} {r : Run (Content × Bool)} {f' : InputField} (hr : Honest f.content r) (h : f.delKey r = some (f', false)) : f' = f := by
  simp only [delKey, Option.bind_eq_bind] at h
  split at h
  · simp only [Option.bind_eq_some_iff, Option.some.injEq, Prod.mk.injEq, Bool.true_eq_false, and_false, exists_false] at h
  · obtain ⟨⟨c, b⟩, h1, h2⟩ := Option.bind_eq_some_iff.1 h
    cases b with
    | true => simp at h2
    | false => simp at h2; rw [← h2, hr c h1]

theorem newLine_true {f : InputField} {f' : InputField} (h : f.insertNewLine cw = some (f', false)) : False := by
  simp [insertNewLine, Option.bind_eq_some_iff] at h

theorem moveKey_honest {f : InputField} {code : KeyCode} {f' : InputField} (h : f.moveKey cw code = some (f', false)) : f' = f := by
  unfold moveKey at h
  split at h
  · exact wrap_honest (call_honest (cw := cw) (alnum := fun _ => true) f .moveToLineStart) h
  · exact wrap_honest (call_honest (cw := cw) (alnum := fun _ => true) f .moveToLineEnd) h
  · exact wrap_honest (call_honest (cw := cw) (alnum := fun _ => true) f .moveUp) h
  · exact wrap_honest (call_honest (cw := cw) (alnum := fun _ => true) f .moveDown) h
  · exact wrap_honest (call_honest (cw := cw) (alnum := fun _ => true) f .moveLeft) h
  · exact wrap_honest (call_honest (cw := cw) (alnum := fun _ => true) f .pageUp) h
  · exact wrap_honest (call_honest (cw := cw) (alnum := fun _ => true) f .pageDown) h
  · exact wrap_honest (call_honest (cw := cw) (alnum := fun _ => true) f .moveRight) h
  · simp at h; exact h.symm

theorem keycode_false {f : InputField} {code : KeyCode} {shift : Bool} {f' : InputField} (h : f.applyKeycodeEvent cw code shift = some (f', false)) :
    f' = f ∨ MovingCode code ∧ f' = if shift then selecting f else unselected f := by
  unfold applyKeycodeEvent at h
  split at h
  · exact .inl (delKey_honest (call_honest (cw := cw) (alnum := fun _ => true) f .delCharLeft) h)
  · exact .inl (delKey_honest (call_honest (cw := cw) (alnum := fun _ => true) f .delCharBelow) h)
  · next ch =>
    simp only [charKey, putChar, Option.bind_eq_bind] at h
    split at h <;> simp [Option.bind_eq_some_iff] at h
  · next code h1 h2 h3 =>
    refine .inr ⟨?_, ?_⟩
    · cases code <;> simp_all [MovingCode]
    · rw [moveKey_honest h]
      cases shift with
      | false => rfl
      | true =>
        show ({ f with content := f.content.makeSelection } : InputField) = selecting f
        simp only [selecting, Content.makeSelection]
        obtain ⟨⟨p, tail, ls⟩, a, pm, fo, sc, nl⟩ := f
        cases tail <;> rfl
end

/-- C79: when a call on an input field returns false, nothing changed, unless it was a key which doesn't edit: it may then have removed the
selection, or started an empty one if the shift key was hit. -/
theorem C79_unused (cw : Char → Nat) (alnum : Char → Bool) {f f' : InputField} (op : FieldOp) (h : op.exec cw alnum f = some (f', false)) :
    f' = f ∨ (IsMove false op ∧ f' = unselected f) ∨ (IsMove true op ∧ f' = selecting f) := by
  have mouse : ∀ kind x y mods double, f.applyMouseEvent cw alnum kind x y mods double = some (f', false) → f' = f := by
    intro kind x y mods double h
    simp only [applyMouseEvent, Option.bind_eq_bind, Option.bind_eq_some_iff] at h
    obtain ⟨b, _, h⟩ := h
    split at h
    · split at h
      · simp [Option.bind_eq_some_iff] at h
      · simp at h
    · simp at h; exact h.symm
  cases op with
  | setMonoLine | newLineOn | setPasswordMode | changeArea | setArea | setFocus | cutSelection | replaceSelection | setStr | clear | insertStr =>
    simp [FieldOp.exec] at h
  | insertNewLine => exact (newLine_true h).elim
  | putChar ch => simp [FieldOp.exec, putChar, Option.bind_eq_some_iff] at h
  | wrapped op => exact .inl (wrap_honest (call_honest f op) h)
  | key k =>
    simp only [FieldOp.exec, applyKeyCombination] at h
    split at h
    · simp at h; exact .inl h.symm
    · split at h
      · exact (newLine_true h).elim
      · unfold applyMods at h
        split at h
        · next h1 h2 =>
          rcases keycode_false h with h | ⟨hm, h⟩
          · exact .inl h
          · exact .inr (.inl ⟨⟨h1, h2, hm⟩, h⟩)
        · next h1 h2 =>
          rcases keycode_false h with h | ⟨hm, h⟩
          · exact .inl h
          · exact .inr (.inr ⟨⟨h1, h2, hm⟩, h⟩)
        · simp at h; exact .inl h.symm
  | keycode code shift =>
    rcases keycode_false h with h | ⟨hm, h⟩
    · exact .inl h
    · cases shift with
      | false => exact .inr (.inl ⟨⟨rfl, hm⟩, h⟩)
      | true => exact .inr (.inr ⟨⟨rfl, hm⟩, h⟩)
  | click x y =>
    simp only [FieldOp.exec, applyClickEvent, Option.bind_eq_bind, Option.bind_eq_some_iff] at h
    obtain ⟨b, _, h⟩ := h
    split at h
    · split at h
      · simp [Option.bind_eq_some_iff] at h
      · simp at h
    · simp at h; exact .inl h.symm
  | mouse kind x y mods double => exact .inl (mouse kind x y mods double h)
  | event e double =>
    simp only [FieldOp.exec, applyEvent] at h
    split at h
    · exact .inl (mouse _ _ _ _ _ h)
    · next code mods =>
      split at h
      · split at h
        · rcases keycode_false h with h | ⟨hm, h⟩
          · exact .inl h
          · exact .inr (.inl ⟨⟨rfl, hm⟩, h⟩)
        · rcases keycode_false h with h | ⟨hm, h⟩
          · exact .inl h
          · exact .inr (.inr ⟨⟨rfl, hm⟩, h⟩)
        · simp at h; exact .inl h.symm
      · simp at h; exact .inl h.symm
    · simp at h; exact .inl h.symm
  | scrollUp =>
    simp only [FieldOp.exec, scrollUp] at h
    split at h <;> simp at h
    exact .inl h.symm
  | scrollDown =>
    simp only [FieldOp.exec, scrollDown] at h
    split at h <;> simp at h
    exact .inl h.symm

/-- What is displayed depends on the selection only by its ends. -/
theorem displayOn_tail (cw : Char → Nat) (bar : Char × Char) (f : InputField) (tail : Option Pos)
    (hs : ({ f.content with tail := tail } : Content).selection = f.content.selection) :
    displayOn cw bar { f with content := { f.content with tail } } = f.displayOn cw bar := by
  generalize hg : ({ f with content := { f.content with tail } } : InputField) = g
  have e1 : g.area = f.area := by rw [← hg]
  have e2 : g.content.lines = f.content.lines := by rw [← hg]
  have e3 : g.scroll = f.scroll := by rw [← hg]
  have e4 : g.focused = f.focused := by rw [← hg]
  have e5 : g.content.pos = f.content.pos := by rw [← hg]
  have e6 : g.content.selection = f.content.selection := by rw [← hg]; exact hs
  have e7 : g.passwordMode = f.passwordMode := by rw [← hg]
  have hchars : ∀ sel y j skip width (t : Text) i a b cur, g.drawChars cw sel y j skip width i t a b cur = f.drawChars cw sel y j skip width i t a b cur := by
    intro sel y j skip width t
    induction t with
    | nil => intros; rfl
    | cons c t ih => intro i a b cur; simp only [drawChars, drawCell, cursorCell, ih, e1, e4, e7]
  have hrow : ∀ w j cur, g.drawRow cw w j cur = f.drawRow cw w j cur := by
    intro w j cur
    unfold drawRow
    rw [e2, e3]
    cases f.content.lines[f.scroll.y + j]? with
    | none => rfl
    | some l => simp only [drawLine, e3, e4, e5, e6, hchars, drawEnd, cursorCell, e1]
  have hrows : ∀ w sb n j cur, drawRows cw bar g w sb n j cur = drawRows cw bar f w sb n j cur := by
    intro w sb n
    induction n with
    | zero => intro j cur; rfl
    | succ n ih => intro j cur; simp only [drawRows, hrow, e1, ih]
  simp only [displayOn, e1, e2, e3, drawWidth, hrows]

/-- C79: when a call returns false, what is displayed (and what is queued for this) is the same as before, as long as there was no wide selection. So an
application may redraw a field only when a call returns true. -/
theorem C79_same_display (cw : Char → Nat) (alnum : Char → Bool) {f f' : InputField} (op : FieldOp) (h : op.exec cw alnum f = some (f', false))
    (hs : f.content.hasWideSelection = false) :
    (∀ bar, f'.displayOn cw bar = f.displayOn cw bar) ∧ ∀ s : FieldStyles, s.cmds cw f' = s.cmds cw f := by
  have key : f'.focused = f.focused ∧ ∀ bar, f'.displayOn cw bar = f.displayOn cw bar := by
    have htail : f.content.tail = none ∨ f.content.tail = some f.content.pos := by
      unfold Content.hasWideSelection at hs
      split at hs
      · next t ht => rw [ht]; simp at hs; exact .inr (by rw [hs])
      · next ht => exact .inl ht
    have nb : f.content.pos.blt f.content.pos = false := by simp [Pos.blt]
    have sel : f.content.selection = ⟨f.content.pos, f.content.pos⟩ := by
      unfold Content.selection
      rcases htail with ht | ht <;> rw [ht]
      simp
    rcases C79_unused cw alnum op h with rfl | ⟨_, rfl⟩ | ⟨_, rfl⟩
    · exact ⟨rfl, fun _ => rfl⟩
    · exact ⟨rfl, fun bar => displayOn_tail cw bar f none (by rw [sel]; rfl)⟩
    · refine ⟨rfl, fun bar => displayOn_tail cw bar f _ ?_⟩
      rw [sel]
      rcases htail with ht | ht <;> rw [ht] <;> simp [Content.selection]
  refine ⟨key.2, fun s => ?_⟩
  simp only [FieldStyles.cmds, FieldStyles.displayOn, key.1, key.2]

/-- C79: the condition is needed: after a key which returns false, a selection which was displayed isn't there any more. -/
theorem C79_selection_counterexample : ∃ f f' : InputField, ReachableField (fun _ => 1) (fun _ => true) f ∧
    f.applyKeyCombination (fun _ => 1) ⟨.left, [], .none⟩ = some (f', false) ∧ f'.displayOn (fun _ => 1) ('#', '|') ≠ f.displayOn (fun _ => 1) ('#', '|') := by
  have r0 : ReachableField (fun _ => 1) (fun _ => true) (InputField.new ⟨0, 0, 5, 1⟩) := .init _ (by decide) (by unfold OnScreen; decide)
  have r1 := ReachableField.step (.insertStr "ab".toList) r0 trivial (f' := _) (b := true) rfl
  have r2 := ReachableField.step (.keycode .left true) r1 trivial (f' := _) (b := true) rfl
  have r3 := ReachableField.step (.keycode .left true) r2 trivial (f' := _) (b := true) rfl
  exact ⟨_, _, r3, rfl, by decide⟩

/-- C79: true doesn't say that something changed: a mouse event in a focused field always gives it. -/
theorem C79_true_counterexample : ∃ f : InputField, f.applyMouseEvent (fun _ => 1) (fun _ => true) (.other 0) 2 0 .none false = some (f, true) :=
  ⟨InputField.new ⟨0, 0, 5, 1⟩, by decide⟩

/-- C79: the wheel of a field: true exactly when the scroll changes, and nothing else changes. -/
theorem C79_wheel (f : InputField) :
    (f.scrollUp.2 = true ↔ f.scrollUp.1.scroll ≠ f.scroll) ∧ (f.scrollDown.2 = true ↔ f.scrollDown.1.scroll ≠ f.scroll) ∧
      f.scrollUp.1 = { f with scroll := f.scrollUp.1.scroll } ∧ f.scrollDown.1 = { f with scroll := f.scrollDown.1.scroll } := by
  obtain ⟨c, a, p, fo, ⟨sy, sx⟩, n⟩ := f
  unfold scrollUp scrollDown
  refine ⟨?_, ?_, ?_, ?_⟩
  · split
    · simp at *; omega
    · simp
  · split
    · simp
    · simp
  · split <;> rfl
  · split <;> rfl

/-- C79: a text view tells exactly whether a key changed its scroll, and a key changes nothing else. -/
theorem C79_text_view (v : TextView) (hh : 1 ≤ v.area.height) (k : KeyComb) :
    ((v.applyKeyCombination k).2 = true ↔ (v.applyKeyCombination k).1.scroll ≠ v.scroll) ∧
      (v.applyKeyCombination k).1 = { v with scroll := (v.applyKeyCombination k).1.scroll } := by
  unfold TextView.applyKeyCombination TextView.lineUp TextView.lineDown TextView.pageUp TextView.pageDown
  split
  · simp
  · split
    · split <;> simp; omega
    · split <;> simp
    · split
      · simp; omega
      · split <;> simp; omega
    · split
      · simp; omega
      · split <;> simp; omega
    · simp

/-- C79: and so does a markdown view. -/
theorem C79_mad_view (cw : Char → Nat) (ws : Char → Bool) (m : MadView) (hh : 1 ≤ m.area.height) (k : KeyComb) {m' : MadView} {b : Bool}
    (h : m.applyKeyCombination cw ws k = some (m', b)) : (b = true ↔ m'.scroll ≠ m.scroll) ∧ m' = { m with scroll := m'.scroll } := by
  simp only [MadView.applyKeyCombination, Option.bind_eq_bind, Option.bind_eq_some_iff, Option.some.injEq] at h
  obtain ⟨v, hv, h⟩ := h
  have e : v.scroll = m.scroll ∧ v.area = m.area := by
    simp only [MadView.view, Option.bind_eq_bind, Option.bind_eq_some_iff, Option.some.injEq] at hv
    obtain ⟨t, _, rfl⟩ := hv
    exact ⟨rfl, rfl⟩
  have ht := C79_text_view v (by rw [e.2]; exact hh) k
  cases hb : (v.applyKeyCombination k).2 with
  | true =>
    rw [hb] at h ht
    simp only [if_true, Prod.mk.injEq] at h
    obtain ⟨rfl, rfl⟩ := h
    exact ⟨by simpa [e.1] using ht.1, rfl⟩
  | false =>
    rw [hb] at h
    simp at h
    obtain ⟨rfl, rfl⟩ := h
    simp

/-- The keys do scroll. -/
example : ((TextView.mk ⟨0, 0, 4, 1⟩ [.horizontalRule, .horizontalRule] 0 true).applyKeyCombination ⟨.down, [], .none⟩).2 = true := by decide

end Verif.Props

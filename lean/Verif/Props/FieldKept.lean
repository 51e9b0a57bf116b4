import Verif.Props.InputField
/-! C45: what the operations on an input field don't change. -/
namespace Verif.Props
open Verif Spec InputField

/-- Only the content and the scroll may have changed. -/
def SameFrame (f f' : InputField) : Prop := ∃ c s, f' = { f with content := c, scroll := s }

theorem SameFrame.trans {f g h : InputField} (a : SameFrame f g) (b : SameFrame g h) : SameFrame f h := by
  obtain ⟨c, s, rfl⟩ := a
  obtain ⟨c', s', rfl⟩ := b
  exact ⟨c', s', rfl⟩

theorem SameFrame.refl (f : InputField) : SameFrame f f := ⟨f.content, f.scroll, rfl⟩

theorem SameFrame.content (f : InputField) (c : Content) : SameFrame f { f with content := c } := ⟨c, f.scroll, rfl⟩

section
variable {cw : Char → Nat} {f f' : InputField}

theorem fixScroll_frame (h : fixScroll cw f = some f') : SameFrame f f' := by
  simp only [fixScroll, Option.bind_eq_bind, Option.bind_eq_some_iff, Option.some.injEq] at h
  obtain ⟨_, _, _, _, _, _, rfl⟩ := h
  exact ⟨f.content, _, rfl⟩

theorem wrap_frame {r : Run (Content × Bool)} {b : Bool} (h : f.wrap cw r = some (f', b)) : SameFrame f f' := by
  simp only [wrap, Option.bind_eq_bind, Option.bind_eq_some_iff] at h
  obtain ⟨p, _, h⟩ := h
  split at h
  · simp only [Option.bind_eq_some_iff, Option.some.injEq, Prod.mk.injEq] at h
    obtain ⟨g, hg, rfl, _⟩ := h
    exact (SameFrame.content f _).trans (fixScroll_frame hg)
  · simp only [Option.some.injEq, Prod.mk.injEq] at h
    rw [← h.1]
    exact .content f _

theorem delKey_frame {r : Run (Content × Bool)} {b : Bool} (h : f.delKey r = some (f', b)) : SameFrame f f' := by
  simp only [delKey, Option.bind_eq_bind] at h
  split at h <;> simp only [Option.bind_eq_some_iff, Option.some.injEq, Prod.mk.injEq] at h <;> obtain ⟨_, _, rfl, _⟩ := h <;> exact .content f _

theorem putChar_frame {ch : Char} {b : Bool} (h : f.putChar cw ch = some (f', b)) : SameFrame f f' := by
  simp only [putChar, Option.bind_eq_bind, Option.bind_eq_some_iff, Option.some.injEq, Prod.mk.injEq] at h
  obtain ⟨c, _, g, hg, rfl, _⟩ := h
  exact (SameFrame.content f _).trans (fixScroll_frame hg)

theorem newLine_frame {b : Bool} (h : f.insertNewLine cw = some (f', b)) : SameFrame f f' := by
  simp only [insertNewLine, Option.bind_eq_bind, Option.bind_eq_some_iff, Option.some.injEq, Prod.mk.injEq] at h
  obtain ⟨c, _, g, hg, rfl, _⟩ := h
  exact (SameFrame.content f _).trans (fixScroll_frame hg)

theorem keycode_frame {code : KeyCode} {shift b : Bool} (h : f.applyKeycodeEvent cw code shift = some (f', b)) : SameFrame f f' := by
  have move : ∀ k, moveKey cw { f with content := if shift then f.content.makeSelection else f.content.unselect } k = some (f', b) → SameFrame f f' := by
    intro k hk
    refine (SameFrame.content f (if shift then f.content.makeSelection else f.content.unselect)).trans ?_
    unfold moveKey at hk
    split at hk
    all_goals first
      | exact wrap_frame hk
      | (simp only [Option.some.injEq, Prod.mk.injEq] at hk; rw [← hk.1]; exact .refl _)
  unfold applyKeycodeEvent at h
  split at h
  · exact delKey_frame h
  · exact delKey_frame h
  · unfold charKey at h
    split at h
    · simp only [Option.bind_eq_bind, Option.bind_eq_some_iff, Option.some.injEq, Prod.mk.injEq] at h
      obtain ⟨p, _, q, hq, g, hg, rfl, _⟩ := h
      exact ((SameFrame.content f _).trans (putChar_frame hq)).trans (fixScroll_frame hg)
    · exact putChar_frame h
  · exact move _ h

theorem key_frame {k : KeyComb} {b : Bool} (h : f.applyKeyCombination cw k = some (f', b)) : SameFrame f f' := by
  unfold applyKeyCombination at h
  split at h
  · simp only [Option.some.injEq, Prod.mk.injEq] at h; rw [← h.1]; exact .refl _
  split at h
  · exact newLine_frame h
  · unfold applyMods at h
    split at h
    · exact keycode_frame h
    · exact keycode_frame h
    · simp only [Option.some.injEq, Prod.mk.injEq] at h; rw [← h.1]; exact .refl _

theorem mouse_frame {alnum : Char → Bool} {kind : MouseKind} {x y : Nat} {mods : KeyMods} {double b : Bool}
    (h : f.applyMouseEvent cw alnum kind x y mods double = some (f', b)) :
    SameFrame f f' ∨ (f' = { f with focused := true } ∧ kind = .downLeft ∧ f.area.contains x y = some true ∧ f.focused = false) := by
  simp only [applyMouseEvent, Option.bind_eq_bind, Option.bind_eq_some_iff] at h
  obtain ⟨c, hc, h⟩ := h
  split at h
  · split at h
    · simp only [Option.bind_eq_some_iff, Option.some.injEq, Prod.mk.injEq] at h
      obtain ⟨p, _, g, hg, rfl, _⟩ := h
      left
      unfold mouseAt at hg
      split at hg
      · simp only [Option.bind_eq_bind, Option.bind_eq_some_iff, Option.some.injEq] at hg
        obtain ⟨_, _, rfl⟩ := hg
        exact .content f _
      · split at hg
        · simp only [Option.bind_eq_bind, Option.bind_eq_some_iff, Option.some.injEq] at hg
          obtain ⟨_, _, _, _, rfl⟩ := hg
          exact .content f _
        · simp only [Option.some.injEq] at hg; rw [← hg]; exact .refl _
      · simp only [Option.bind_eq_bind, Option.bind_eq_some_iff, Option.some.injEq] at hg
        obtain ⟨_, _, rfl⟩ := hg
        exact .content f _
      · simp only [Option.some.injEq] at hg
        rw [← hg]
        unfold scrollDown
        split
        · exact ⟨f.content, _, rfl⟩
        · exact .refl _
      · simp only [Option.some.injEq] at hg
        rw [← hg]
        unfold scrollUp
        split
        · exact ⟨f.content, _, rfl⟩
        · exact .refl _
      · simp only [Option.some.injEq] at hg; rw [← hg]; exact .refl _
    · next hb hf =>
      simp only [Option.some.injEq, Prod.mk.injEq] at h
      rw [← h.1]
      by_cases hk : kind = .downLeft
      · right
        have : f.focused = false := by simpa using hf
        refine ⟨by simp [hk], hk, by rw [hc, hb], this⟩
      · left
        have : (kind == MouseKind.downLeft) = false := by simpa using hk
        rw [this, Bool.or_false]
        exact .refl _
  · simp only [Option.some.injEq, Prod.mk.injEq] at h; rw [← h.1]; exact .refl _ |> .inl

end

theorem setCursorPos_lines {c c' : Content} {p : Pos} (h : c.setCursorPos p = some c') : c'.lines = c.lines := by
  simp only [Content.setCursorPos, Option.bind_eq_bind, Option.bind_eq_some_iff, Option.some.injEq] at h
  obtain ⟨_, _, rfl⟩ := h
  rfl

theorem selectWord_lines {alnum : Char → Bool} {c : Content} {q : Content × Bool} (h : c.selectWordAround alnum = some q) : q.1.lines = c.lines := by
  simp only [Content.selectWordAround, Option.bind_eq_bind, Option.bind_eq_some_iff] at h
  obtain ⟨_, _, h⟩ := h
  split at h
  · simp only [Option.some.injEq] at h; rw [← h]
  · simp only [Option.bind_eq_some_iff] at h
    obtain ⟨_, _, h⟩ := h
    split at h
    · simp only [Option.bind_eq_some_iff, Option.some.injEq] at h
      obtain ⟨_, _, _, _, rfl⟩ := h
      rfl
    · simp only [Option.some.injEq] at h; rw [← h]

/-- C45: the mouse never changes the text of a field, and changes nothing but the focus of one which isn't focused. -/
theorem C45_mouse (cw : Char → Nat) (alnum : Char → Bool) {f f' : InputField} {kind : MouseKind} {x y : Nat} {mods : KeyMods} {double b : Bool}
    (h : f.applyMouseEvent cw alnum kind x y mods double = some (f', b)) :
    f'.content.lines = f.content.lines ∧ (f.focused = false → f' = f ∨ f' = { f with focused := true }) := by
  simp only [applyMouseEvent, Option.bind_eq_bind, Option.bind_eq_some_iff] at h
  obtain ⟨c, hc, h⟩ := h
  split at h
  · split at h
    · next hf =>
      simp only [Option.bind_eq_some_iff, Option.some.injEq, Prod.mk.injEq] at h
      obtain ⟨p, _, g, hg, rfl, _⟩ := h
      refine ⟨?_, fun hu => by rw [hu] at hf; cases hf⟩
      have hsel : ∀ s : Bool, (if s then f.content.makeSelection else f.content.unselect).lines = f.content.lines := by
        intro s
        cases s
        · rfl
        · show f.content.makeSelection.lines = _
          unfold Content.makeSelection
          split <;> rfl
      unfold mouseAt at hg
      split at hg
      · simp only [Option.bind_eq_bind, Option.bind_eq_some_iff, Option.some.injEq] at hg
        obtain ⟨_, hp, rfl⟩ := hg
        show Content.lines _ = _
        rw [setCursorPos_lines hp]
        have := hsel (decide (mods = .shift))
        simpa using this
      · split at hg
        · simp only [Option.bind_eq_bind, Option.bind_eq_some_iff, Option.some.injEq] at hg
          obtain ⟨_, hp, _, hq, rfl⟩ := hg
          show Content.lines _ = _
          rw [selectWord_lines hq, setCursorPos_lines hp]
        · simp only [Option.some.injEq] at hg; rw [← hg]
      · simp only [Option.bind_eq_bind, Option.bind_eq_some_iff, Option.some.injEq] at hg
        obtain ⟨_, hp, rfl⟩ := hg
        show Content.lines _ = _
        rw [setCursorPos_lines hp]
        exact hsel true
      · simp only [Option.some.injEq] at hg; rw [← hg]; unfold scrollDown; split <;> rfl
      · simp only [Option.some.injEq] at hg; rw [← hg]; unfold scrollUp; split <;> rfl
      · simp only [Option.some.injEq] at hg; rw [← hg]
    · next hf =>
      simp only [Option.some.injEq, Prod.mk.injEq] at h
      have hu : f.focused = false := by simpa using hf
      rw [← h.1]
      refine ⟨rfl, fun _ => ?_⟩
      by_cases hk : kind = .downLeft
      · right; simp [hk]
      · left
        have : (kind == MouseKind.downLeft) = false := by simpa using hk
        rw [this, Bool.or_false]
  · simp only [Option.some.injEq, Prod.mk.injEq] at h; rw [← h.1]; exact ⟨rfl, fun _ => .inl rfl⟩

/-- C45: only the functions made for this change the area of a field, whether it's in password mode, and which keys make a new line; and the focus
is changed only by the function made for this, and given by a click in the area (a press of the left button, for events). All the other calls and events
change only the content (with the cursor and the selection) and the scroll. -/
theorem C45_kept (cw : Char → Nat) (alnum : Char → Bool) {f f' : InputField} {b : Bool} (ho : OnScreen f.area) (op : FieldOp)
    (h : op.exec cw alnum f = some (f', b)) :
    ((∀ x y w, op ≠ .changeArea x y w) → (∀ a, op ≠ .setArea a) → f'.area = f.area) ∧
    ((∀ p, op ≠ .setPasswordMode p) → f'.passwordMode = f.passwordMode) ∧
    (op ≠ .setMonoLine → (∀ k, op ≠ .newLineOn k) → f'.newLineKeys = f.newLineKeys) ∧
    ((∀ b, op ≠ .setFocus b) → f'.focused = f.focused ∨ (f'.focused = true ∧ f' = { f with focused := true } ∧ ∃ x y, InArea f.area x y ∧
      (op = .click x y ∨ (∃ mods double, op = .mouse .downLeft x y mods double) ∨ ∃ mods double, op = .event (.mouse .downLeft x y mods) double))) := by
  have same : SameFrame f f' → (((∀ x y w, op ≠ .changeArea x y w) → (∀ a, op ≠ .setArea a) → f'.area = f.area) ∧
    ((∀ p, op ≠ .setPasswordMode p) → f'.passwordMode = f.passwordMode) ∧
    (op ≠ .setMonoLine → (∀ k, op ≠ .newLineOn k) → f'.newLineKeys = f.newLineKeys) ∧
    ((∀ b, op ≠ .setFocus b) → f'.focused = f.focused ∨ (f'.focused = true ∧ f' = { f with focused := true } ∧ ∃ x y, InArea f.area x y ∧
      (op = .click x y ∨ (∃ mods double, op = .mouse .downLeft x y mods double) ∨ ∃ mods double, op = .event (.mouse .downLeft x y mods) double)))) := by
    rintro ⟨c, s, rfl⟩
    exact ⟨fun _ _ => rfl, fun _ => rfl, fun _ _ => rfl, fun _ => .inl rfl⟩
  have inside : ∀ x y, f.area.contains x y = some true → InArea f.area x y := by
    intro x y hc
    obtain ⟨b, h1, h2⟩ := C18_contains f.area ho x y
    rw [hc] at h1
    cases h1
    exact h2.1 rfl
  have fixed : ∀ {g : InputField}, fixScroll cw g = some f' → SameFrame g f' := fun h => fixScroll_frame h
  cases op with
  | setMonoLine => simp only [FieldOp.exec, Option.some.injEq, Prod.mk.injEq] at h; rw [← h.1]; simp
  | newLineOn k => simp only [FieldOp.exec, Option.some.injEq, Prod.mk.injEq] at h; rw [← h.1]; simp
  | setPasswordMode p => simp only [FieldOp.exec, Option.some.injEq, Prod.mk.injEq] at h; rw [← h.1]; simp
  | changeArea x y w =>
    simp only [FieldOp.exec, Option.map_eq_some_iff, Prod.mk.injEq] at h
    obtain ⟨_, h, rfl, _⟩ := h
    unfold changeArea at h
    split at h
    · obtain ⟨c, s, rfl⟩ := fixed h
      exact ⟨fun h _ => absurd rfl (h x y w), fun _ => rfl, fun _ _ => rfl, fun _ => .inl rfl⟩
    · simp only [Option.some.injEq] at h; rw [← h]; exact ⟨fun _ _ => rfl, fun _ => rfl, fun _ _ => rfl, fun _ => .inl rfl⟩
  | setArea a =>
    simp only [FieldOp.exec, Option.map_eq_some_iff, Prod.mk.injEq] at h
    obtain ⟨_, h, rfl, _⟩ := h
    unfold setArea at h
    split at h
    · obtain ⟨c, s, rfl⟩ := fixed h
      exact ⟨fun _ h => absurd rfl (h a), fun _ => rfl, fun _ _ => rfl, fun _ => .inl rfl⟩
    · simp only [Option.some.injEq] at h; rw [← h]; exact ⟨fun _ _ => rfl, fun _ => rfl, fun _ _ => rfl, fun _ => .inl rfl⟩
  | setFocus p =>
    simp only [FieldOp.exec, Option.map_eq_some_iff, Prod.mk.injEq] at h
    obtain ⟨f1, h, hf, _⟩ := h
    rw [hf] at h
    have : ∃ c s o, f' = { f with content := c, scroll := s, focused := o } := by
      unfold setFocus at h
      split at h
      · simp only [Option.some.injEq] at h; rw [← h]; exact ⟨f.content, f.scroll, f.focused, rfl⟩
      · split at h
        · obtain ⟨c, s, rfl⟩ := fixed h
          exact ⟨c, s, p, rfl⟩
        · simp only [Option.some.injEq] at h; rw [← h]; exact ⟨f.content, f.scroll, p, rfl⟩
    obtain ⟨c, s, o, rfl⟩ := this
    exact ⟨fun _ _ => rfl, fun _ => rfl, fun _ _ => rfl, fun h => absurd rfl (h p)⟩
  | cutSelection =>
    apply same
    simp only [FieldOp.exec, cutSelection, Option.bind_eq_bind, Option.map_eq_some_iff, Option.bind_eq_some_iff, Option.some.injEq, Prod.mk.injEq] at h
    obtain ⟨_, ⟨_, _, p, _, g, hg, rfl⟩, rfl, _⟩ := h
    exact (SameFrame.content f _).trans (fixScroll_frame hg)
  | replaceSelection s =>
    apply same
    simp only [FieldOp.exec, replaceSelection, Option.bind_eq_bind, Option.map_eq_some_iff, Option.bind_eq_some_iff, Prod.mk.injEq] at h
    obtain ⟨_, ⟨g, hg, c, _, h⟩, rfl, _⟩ := h
    have hg' : SameFrame f g := by
      unfold delWide at hg
      split at hg
      · simp only [Option.bind_eq_bind, Option.bind_eq_some_iff, Option.some.injEq] at hg
        obtain ⟨_, _, rfl⟩ := hg
        exact .content f _
      · simp only [Option.some.injEq] at hg; rw [← hg]; exact .refl _
    exact (hg'.trans (.content g _)).trans (fixScroll_frame h)
  | setStr s =>
    apply same
    simp only [FieldOp.exec, setStr, Option.bind_eq_bind, Option.map_eq_some_iff, Option.bind_eq_some_iff, Prod.mk.injEq] at h
    obtain ⟨_, ⟨c, _, h⟩, rfl, _⟩ := h
    exact (SameFrame.content f _).trans (fixScroll_frame h)
  | insertNewLine => exact same (newLine_frame h)
  | putChar ch => exact same (putChar_frame h)
  | clear =>
    apply same
    simp only [FieldOp.exec, clear, Option.map_eq_some_iff, Prod.mk.injEq] at h
    obtain ⟨_, h, rfl, _⟩ := h
    exact (SameFrame.content f _).trans (fixScroll_frame h)
  | insertStr s =>
    apply same
    simp only [FieldOp.exec, insertStr, Option.bind_eq_bind, Option.map_eq_some_iff, Option.bind_eq_some_iff, Prod.mk.injEq] at h
    obtain ⟨_, ⟨c, _, h⟩, rfl, _⟩ := h
    exact (SameFrame.content f _).trans (fixScroll_frame h)
  | wrapped op => exact same (wrap_frame h)
  | key k => exact same (key_frame h)
  | keycode code shift => exact same (keycode_frame h)
  | click x y =>
    simp only [FieldOp.exec, applyClickEvent, Option.bind_eq_bind, Option.bind_eq_some_iff] at h
    obtain ⟨c, hc, h⟩ := h
    split at h
    · next hb =>
      split at h
      · simp only [Option.bind_eq_some_iff, Option.some.injEq, Prod.mk.injEq] at h
        obtain ⟨_, _, _, _, rfl, _⟩ := h
        exact same (.content f _)
      · simp only [Option.some.injEq, Prod.mk.injEq] at h
        rw [← h.1]
        exact ⟨fun _ _ => rfl, fun _ => rfl, fun _ _ => rfl, fun _ => .inr ⟨rfl, rfl, x, y, inside x y (by rw [hc, hb]), .inl rfl⟩⟩
    · simp only [Option.some.injEq, Prod.mk.injEq] at h; rw [← h.1]; exact ⟨fun _ _ => rfl, fun _ => rfl, fun _ _ => rfl, fun _ => .inl rfl⟩
  | mouse kind x y mods double =>
    rcases mouse_frame h with hs | ⟨rfl, rfl, hc, _⟩
    · exact same hs
    · exact ⟨fun _ _ => rfl, fun _ => rfl, fun _ _ => rfl, fun _ => .inr ⟨rfl, rfl, x, y, inside x y hc, .inr (.inl ⟨mods, double, rfl⟩)⟩⟩
  | event e double =>
    cases e with
    | mouse kind x y mods =>
      rcases mouse_frame h with hs | ⟨rfl, rfl, hc, _⟩
      · exact same hs
      · exact ⟨fun _ _ => rfl, fun _ => rfl, fun _ _ => rfl, fun _ => .inr ⟨rfl, rfl, x, y, inside x y hc, .inr (.inr ⟨mods, double, rfl⟩)⟩⟩
    | key code mods =>
      apply same
      simp only [FieldOp.exec, applyEvent] at h
      split at h
      · split at h
        · exact keycode_frame h
        · exact keycode_frame h
        · simp only [Option.some.injEq, Prod.mk.injEq] at h; rw [← h.1]; exact .refl _
      · simp only [Option.some.injEq, Prod.mk.injEq] at h; rw [← h.1]; exact .refl _
    | other => apply same; simp only [FieldOp.exec, applyEvent, Option.some.injEq, Prod.mk.injEq] at h; rw [← h.1]; exact .refl _
  | scrollUp =>
    apply same
    simp only [FieldOp.exec, scrollUp, Option.some.injEq] at h
    split at h <;> simp only [Prod.mk.injEq] at h <;> rw [← h.1]
    · exact ⟨f.content, _, rfl⟩
    · exact .refl _
  | scrollDown =>
    apply same
    simp only [FieldOp.exec, scrollDown, Option.some.injEq] at h
    split at h <;> simp only [Prod.mk.injEq] at h <;> rw [← h.1]
    · exact ⟨f.content, _, rfl⟩
    · exact .refl _

/-- C45: a click on a field without focus. -/
example : FieldOp.exec (fun _ => 1) (fun _ => true) ({ area := ⟨2, 1, 5, 1⟩, focused := false } : InputField) (.mouse .downLeft 3 1 .none false) =
    some (({ area := ⟨2, 1, 5, 1⟩ } : InputField), true) := by decide

end Verif.Props

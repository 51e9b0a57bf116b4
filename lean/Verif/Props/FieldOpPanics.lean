import Verif.Lemmas.ReleaseField
import Verif.Props.ReleaseField
/-! C45: exactly when the calls of the API of input fields panic. -/
namespace Verif
open InputField Content Release

/-- The field has no column for its text, and more lines than rows. -/
private def InputField.Stuck (f : InputField) : Prop := f.area.width = 0 ∧ f.area.height < f.content.lines.length

/-- The first run panics exactly when the second one ends with true and a stuck field. -/
private def PanicAs (x y : Run (InputField × Bool)) : Prop := x = none ↔ ∃ f', y = some (f', true) ∧ f'.Stuck

/-- Adjusting the scroll of a field of consistent content panics exactly when the field is stuck. -/
private theorem fixScroll_none (cw : Char → Nat) {f : InputField} (hv : f.content.Valid) : fixScroll cw f = none ↔ f.Stuck := by
  by_cases hw : 1 ≤ f.area.width
  · obtain ⟨f', h, _⟩ := fixScroll_ok cw hv hw
    rw [h]
    exact ⟨fun h => (by cases h), fun h => (by have := h.1; omega)⟩
  · have h0 : f.area.width = 0 := by omega
    unfold Stuck
    by_cases c : f.area.height < f.content.lines.length
    · refine ⟨fun _ => ⟨h0, c⟩, fun _ => ?_⟩
      unfold fixScroll fixY
      rw [if_pos c, h0]
      rfl
    · refine ⟨fun h => ?_, fun h => absurd h.2 c⟩
      have e : fixScroll cw f = fieldFixScroll cw f := by
        unfold fixScroll fieldFixScroll fixY fieldFixY
        rw [if_neg c, if_neg c]
      obtain ⟨s, hs⟩ := fieldFixScroll_ok cw hv
      rw [e, hs] at h
      cases h

private theorem PanicAs.fixed (cw : Char → Nat) {f : InputField} (hv : f.content.Valid) :
    PanicAs ((fixScroll cw f).map (·, true)) ((fieldFixScroll cw f).map (·, true)) := by
  obtain ⟨s, hs⟩ := fieldFixScroll_ok cw hv
  unfold PanicAs
  rw [Option.map_eq_none_iff, fixScroll_none cw hv, hs]
  constructor
  · intro h; exact ⟨_, rfl, h⟩
  · rintro ⟨f', h, hs⟩
    cases h
    exact hs

private theorem PanicAs.none {x y : Run (InputField × Bool)} (p : InputField × Bool) (h : x = some p) (hy : ∀ f', y ≠ some (f', true)) : PanicAs x y := by
  unfold PanicAs
  rw [h]
  exact ⟨fun h => (by cases h), fun ⟨f', h, _⟩ => absurd h (hy f')⟩

private theorem PanicAs.still (f g : InputField) : PanicAs (some (f, false)) (some (g, false)) := PanicAs.none _ rfl (by intro f' h; cases h)

private theorem PanicAs.wrap (cw : Char → Nat) {f : InputField} {r : Run (Content × Bool)} (hr : ∃ c b, r = Option.some (c, b) ∧ c.Valid) :
    PanicAs (f.wrap cw r) (fieldWrap cw f r) := by
  obtain ⟨c, b, rfl, hc⟩ := hr
  unfold fieldWrap InputField.wrap
  simp only [Option.bind_eq_bind, Option.bind_some]
  cases b with
  | true => simpa only [if_true, ← Option.bind_eq_bind, bind_pair] using PanicAs.fixed cw (f := { f with content := c }) hc
  | false => exact PanicAs.still _ _

private theorem PanicAs.putChar (cw : Char → Nat) {f : InputField} (hv : f.content.Valid) (ch : Char) : PanicAs (f.putChar cw ch) (fieldPutChar cw f ch) := by
  obtain ⟨c, h1, h2, _⟩ := insertChar_ok hv ch
  unfold fieldPutChar InputField.putChar
  rw [h1]
  simp only [bind_pair]
  exact PanicAs.fixed cw (f := { f with content := c }) h2

private theorem PanicAs.newLine (cw : Char → Nat) {f : InputField} (hv : f.content.Valid) : PanicAs (f.insertNewLine cw) (fieldInsertNewLine cw f) := by
  obtain ⟨c, h1, h2, _⟩ := insertNewLine_ok hv
  unfold fieldInsertNewLine InputField.insertNewLine
  rw [h1]
  simp only [bind_pair]
  exact PanicAs.fixed cw (f := { f with content := c }) h2

private theorem PanicAs.charKey (cw : Char → Nat) {f : InputField} (hv : f.content.Valid) (ch : Char) : PanicAs (f.charKey cw ch) (fieldCharKey cw f ch) := by
  unfold fieldCharKey InputField.charKey
  split
  · obtain ⟨c, b, h1, h2⟩ := delSelection_valid hv
    obtain ⟨c', h3, h4, _⟩ := insertChar_ok h2 ch
    obtain ⟨s, hs⟩ := fieldFixScroll_ok cw (f := { f with content := c' }) h4
    obtain ⟨s2, hs2⟩ := fieldFixScroll_ok cw (f := { f with content := c', scroll := s }) h4
    have hn := fixScroll_none cw (f := { f with content := c' }) h4
    rw [h1]
    simp only [Option.bind_eq_bind, Option.bind_some, InputField.putChar, fieldPutChar, h3, hs, hs2]
    cases hx : fixScroll cw { f with content := c' } with
    | none =>
      refine ⟨fun _ => ⟨_, rfl, hn.1 hx⟩, fun _ => rfl⟩
    | some g =>
      have hg := fieldFixScroll_same cw _ g hx
      rw [hs] at hg
      cases hg
      simp only [Option.bind_some]
      have hn2 := fixScroll_none cw (f := { f with content := c', scroll := s }) h4
      cases hx2 : fixScroll cw { f with content := c', scroll := s } with
      | none => exact ⟨fun _ => ⟨_, rfl, hn2.1 hx2⟩, fun _ => rfl⟩
      | some g2 =>
        refine ⟨fun h => (by cases h), ?_⟩
        rintro ⟨f', h, hst⟩
        cases h
        have := hn.2 hst
        rw [hx] at this
        cases this
  · exact PanicAs.putChar cw hv ch

private theorem PanicAs.moveKey (cw : Char → Nat) {f : InputField} (hv : f.content.Valid) (code : KeyCode) : PanicAs (f.moveKey cw code) (fieldMoveKey cw f code) := by
  have ok := wrapCall_ok cw (fun _ => false) hv
  cases code with
  | home => exact PanicAs.wrap cw (ok .moveToLineStart)
  | «end» => exact PanicAs.wrap cw (ok .moveToLineEnd)
  | up => exact PanicAs.wrap cw (ok .moveUp)
  | down => exact PanicAs.wrap cw (ok .moveDown)
  | left => exact PanicAs.wrap cw (ok .moveLeft)
  | right => exact PanicAs.wrap cw (ok .moveRight)
  | pageUp => exact PanicAs.wrap cw (ok .pageUp)
  | pageDown => exact PanicAs.wrap cw (ok .pageDown)
  | _ => exact PanicAs.still _ _

private theorem delKey_some {f : InputField} (hv : f.content.Valid) {r : Run (Content × Bool)} (hr : ∃ c b, r = some (c, b) ∧ c.Valid) :
    f.delKey r ≠ none := by
  unfold InputField.delKey
  split
  · obtain ⟨c, b, h1, h2⟩ := delSelection_valid hv
    rw [h1]
    exact fun h => by cases h
  · obtain ⟨c, b, rfl, h2⟩ := hr
    exact fun h => by cases h

/-- As `PanicAs`, if the condition is met; without panic otherwise. -/
private def PanicIf (p : Prop) (x y : Run (InputField × Bool)) : Prop := (p → PanicAs x y) ∧ (¬ p → x ≠ none)

private theorem PanicIf.keycode (cw : Char → Nat) {f : InputField} (hv : f.content.Valid) (code : KeyCode) (shift : Bool) :
    PanicIf (AdjustingCode code) (f.applyKeycodeEvent cw code shift) (fieldKeycode cw f code shift) := by
  have ok := wrapCall_ok cw (fun _ => false) hv
  have mv : (if shift then f.content.makeSelection else f.content.unselect).Valid := by
    split
    · exact makeSelection_ok hv
    · exact unselect_ok hv
  cases code with
  | backspace => exact ⟨fun h => h.elim, fun _ => delKey_some hv (ok .delCharLeft)⟩
  | delete => exact ⟨fun h => h.elim, fun _ => delKey_some hv (ok .delCharBelow)⟩
  | char ch => exact ⟨fun _ => PanicAs.charKey cw hv ch, fun h => absurd trivial h⟩
  | _ =>
    refine ⟨fun _ => ?_, fun h => absurd trivial h⟩
    simp only [applyKeycodeEvent, fieldKeycode]
    exact PanicAs.moveKey cw (f := { f with content := if shift then f.content.makeSelection else f.content.unselect }) mv _

private theorem PanicIf.still (p : Prop) (f : InputField) : PanicIf p (some (f, false)) (some (f, false)) :=
  ⟨fun _ => PanicAs.still _ _, fun _ h => by cases h⟩

private theorem PanicIf.key (cw : Char → Nat) {f : InputField} (hv : f.content.Valid) (k : KeyComb) :
    PanicIf (k ∈ f.newLineKeys ∨ AdjustingCode k.code) (f.applyKeyCombination cw k) (fieldKey cw f k) := by
  unfold fieldKey applyKeyCombination
  split
  · exact .still _ _
  · by_cases hk : k ∈ f.newLineKeys
    · have : f.newLineKeys.contains k = true := by simpa using hk
      rw [if_pos this, if_pos this]
      exact ⟨fun _ => PanicAs.newLine cw hv, fun h => absurd (Or.inl hk) h⟩
    · have : ¬ f.newLineKeys.contains k = true := by simpa using hk
      rw [if_neg this, if_neg this]
      have go : PanicIf (AdjustingCode k.code) (f.applyMods cw k) (fieldMods cw f k) := by
        obtain ⟨code, others, mods⟩ := k
        unfold applyMods fieldMods
        cases others with
        | nil =>
          cases mods with
          | none => exact PanicIf.keycode cw hv _ _
          | shift => exact PanicIf.keycode cw hv _ _
          | other n => exact .still _ _
        | cons _ _ => exact .still _ _
      exact ⟨fun h => go.1 (h.resolve_left hk), fun h => go.2 fun h' => h (.inr h')⟩

namespace Props
open Spec

/-- The cell of the mouse, for the operations which have one. -/
def mouseCell : FieldOp → Option (Nat × Nat)
  | .click x y | .mouse _ x y _ _ | .event (.mouse _ x y _) _ => some (x, y)
  | _ => none

private theorem mouse_none (cw : Char → Nat) (alnum : Char → Bool) {f : InputField} (hv : f.content.Valid) (h : f.area.WF) (x y : Nat) :
    (f.applyClickEvent cw x y = none ↔ f.area.contains x y = none) ∧
    ∀ kind mods double, f.applyMouseEvent cw alnum kind x y mods double = none ↔ f.area.contains x y = none := by
  cases hc : f.area.contains x y with
  | none => exact ⟨by simp [applyClickEvent, hc], fun kind mods double => by simp [applyMouseEvent, hc]⟩
  | some b =>
    cases b with
    | false => exact ⟨by simp [applyClickEvent, hc], fun kind mods double => by simp [applyMouseEvent, hc]⟩
    | true =>
      obtain ⟨ho, hi⟩ := (C107_contains f.area h x y).1 ((C107_same f.area h x y 0 0 0).1 _ hc)
      have hw : 1 ≤ f.area.width := by
        obtain ⟨i, j, hi, _⟩ := hi
        omega
      refine ⟨iff_of_false ?_ (by simp), fun kind mods double => iff_of_false ?_ (by simp)⟩
      · intro hn
        obtain ⟨f', b, h1, _⟩ := C45_step cw alnum hv hw ho (.click x y) trivial
        have h1 : f.applyClickEvent cw x y = some (f', b) := h1
        rw [hn] at h1
        cases h1
      · intro hn
        obtain ⟨f', b, h1, _⟩ := C45_step cw alnum hv hw ho (.mouse kind x y mods double) trivial
        have h1 : f.applyMouseEvent cw alnum kind x y mods double = some (f', b) := h1
        rw [hn] at h1
        cases h1

/-- C45: a call panics exactly when it adjusts the scroll of a field which ends with no column and with more lines than rows, the result of the call being
the one of a release build, where nothing panics; or when it can't be known whether the mouse is in the area (C18_contains_panics says when, for areas out of the screen). -/
theorem C45_panics (cw : Char → Nat) (alnum : Char → Bool) {f : InputField} (hv : f.content.Valid) (hu : f.area.WF) (op : FieldOp) :
    op.exec cw alnum f = none ↔
      (op.Adjusts f ∧ ∃ f', op.releaseExec cw alnum f = some (f', true) ∧ f'.area.width = 0 ∧ f'.area.height < f'.content.lines.length) ∨
      ∃ x y, mouseCell op = some (x, y) ∧ f.area.contains x y = none := by
  have other : PanicIf (op.Adjusts f) (op.exec cw alnum f) (op.releaseExec cw alnum f) → mouseCell op = none → (op.exec cw alnum f = none ↔
      (op.Adjusts f ∧ ∃ f', op.releaseExec cw alnum f = some (f', true) ∧ f'.area.width = 0 ∧ f'.area.height < f'.content.lines.length) ∨
      ∃ x y, mouseCell op = some (x, y) ∧ f.area.contains x y = none) := by
    intro h hm
    rw [hm]
    simp only [reduceCtorEq, false_and, exists_const, or_false]
    constructor
    · intro hn
      by_cases hp : op.Adjusts f
      · exact ⟨hp, (h.1 hp).1 hn⟩
      · exact absurd hn (h.2 hp)
    · rintro ⟨hp, hf⟩
      exact (h.1 hp).2 hf
  have always : ∀ {x y : Run (InputField × Bool)}, PanicAs x y → PanicIf True x y := fun h => ⟨fun _ => h, fun h => absurd trivial h⟩
  have never : ∀ {x y : Run (InputField × Bool)}, x ≠ none → PanicIf False x y := fun h => ⟨fun h => h.elim, fun _ => h⟩
  cases op with
  | setMonoLine => refine other ?_ rfl; exact never fun h => by cases h
  | newLineOn k => refine other ?_ rfl; exact never fun h => by cases h
  | setPasswordMode b => refine other ?_ rfl; exact never fun h => by cases h
  | changeArea x y w =>
    refine other ?_ rfl
    simp only [FieldOp.exec, FieldOp.releaseExec, FieldOp.Adjusts, changeArea, fieldChangeArea]
    by_cases c : f.area.left ≠ x ∨ f.area.top ≠ y ∨ f.area.width ≠ w
    · rw [if_pos c, if_pos c]
      refine ⟨fun _ => PanicAs.fixed cw (f := { f with area := { f.area with left := x, top := y, width := w } }) hv, fun h => absurd ?_ h⟩
      intro e
      cases e
      simp at c
    · rw [if_neg c, if_neg c]
      refine ⟨fun h => absurd ?_ h, fun _ h => by cases h⟩
      have : f.area.left = x ∧ f.area.top = y ∧ f.area.width = w := by omega
      rw [this.1, this.2.1, this.2.2]
  | setArea a =>
    refine other ?_ rfl
    simp only [FieldOp.exec, FieldOp.releaseExec, FieldOp.Adjusts, setArea, fieldSetArea]
    by_cases c : f.area = a
    · rw [if_neg (not_not_intro c), if_neg (not_not_intro c)]
      exact ⟨fun h => absurd c.symm h, fun _ h => by cases h⟩
    · rw [if_pos c, if_pos c]
      exact ⟨fun _ => PanicAs.fixed cw (f := { f with area := a }) hv, fun h => absurd (fun e => c e.symm) h⟩
  | setFocus b =>
    refine other ?_ rfl
    simp only [FieldOp.exec, FieldOp.releaseExec, FieldOp.Adjusts, setFocus, fieldSetFocus]
    by_cases c : f.focused = b
    · rw [if_pos c, if_pos c]
      refine ⟨fun h => ?_, fun _ h => by cases h⟩
      rw [h.1, h.2] at c
      cases c
    · rw [if_neg c, if_neg c]
      cases b with
      | false => exact ⟨fun h => (by cases h.1), fun _ h => (by cases h)⟩
      | true => exact ⟨fun _ => PanicAs.fixed cw (f := { f with focused := true }) hv, fun h => absurd ⟨rfl, by simpa using c⟩ h⟩
  | cutSelection =>
    refine other ?_ rfl
    obtain ⟨t, h1, _⟩ := selectionString_ok hv
    obtain ⟨c, b, h2, h3⟩ := delSelection_valid hv
    refine always ?_
    have e := PanicAs.fixed cw (f := { f with content := c }) h3
    simp only [FieldOp.exec, FieldOp.releaseExec, cutSelection, fieldCutSelection, h1, h2, bind_pair, Option.bind_eq_bind, Option.bind_some]
    simpa only [← Option.bind_eq_bind, bind_pair, Option.map_map, Function.comp_def] using e
  | replaceSelection s =>
    refine other ?_ rfl
    refine always ?_
    simp only [FieldOp.exec, FieldOp.releaseExec, replaceSelection, fieldReplaceSelection, InputField.delWide]
    split
    · obtain ⟨c, b, h2, h3⟩ := delSelection_valid hv
      obtain ⟨c', h4, h5, _⟩ := insertStr_ok s h3
      rw [h2]
      simp only [Option.bind_eq_bind, Option.bind_some, h4]
      exact PanicAs.fixed cw (f := { f with content := c' }) h5
    · obtain ⟨c', h4, h5, _⟩ := insertStr_ok s hv
      simp only [Option.bind_eq_bind, Option.bind_some, h4]
      exact PanicAs.fixed cw (f := { f with content := c' }) h5
  | setStr s =>
    refine other ?_ rfl
    obtain ⟨c, h1, h2, _⟩ := setStr_ok hv s
    refine always ?_
    simp only [FieldOp.releaseExec, FieldOp.exec, fieldSetStr, InputField.setStr, h1, Option.bind_eq_bind, Option.bind_some]
    exact PanicAs.fixed cw (f := { f with content := c }) h2
  | insertNewLine => refine other ?_ rfl; exact always (PanicAs.newLine cw hv)
  | putChar ch => refine other ?_ rfl; exact always (PanicAs.putChar cw hv ch)
  | clear => refine other ?_ rfl; exact always (PanicAs.fixed cw (f := { f with content := f.content.clear }) Content.default_valid)
  | insertStr s =>
    refine other ?_ rfl
    obtain ⟨c, h1, h2, _⟩ := insertStr_ok s hv
    refine always ?_
    simp only [FieldOp.releaseExec, FieldOp.exec, fieldInsertStr, InputField.insertStr, h1, Option.bind_eq_bind, Option.bind_some]
    exact PanicAs.fixed cw (f := { f with content := c }) h2
  | wrapped op => refine other ?_ rfl; exact always (PanicAs.wrap cw (wrapCall_ok cw alnum hv op))
  | key k => refine other ?_ rfl; exact PanicIf.key cw hv k
  | keycode code shift => refine other ?_ rfl; exact PanicIf.keycode cw hv code shift
  | click x y =>
    simp only [mouseCell, Option.some.injEq, Prod.mk.injEq, FieldOp.Adjusts, false_and, false_or]
    exact (mouse_none cw alnum hv hu x y).1.trans ⟨fun h => ⟨x, y, ⟨rfl, rfl⟩, h⟩, fun ⟨_, _, ⟨h1, h2⟩, h⟩ => by rw [h1, h2]; exact h⟩
  | mouse kind x y mods double =>
    simp only [mouseCell, Option.some.injEq, Prod.mk.injEq, FieldOp.Adjusts, false_and, false_or]
    exact ((mouse_none cw alnum hv hu x y).2 kind mods double).trans ⟨fun h => ⟨x, y, ⟨rfl, rfl⟩, h⟩, fun ⟨_, _, ⟨h1, h2⟩, h⟩ => by rw [h1, h2]; exact h⟩
  | event e double =>
    cases e with
    | mouse kind x y mods =>
      simp only [mouseCell, Option.some.injEq, Prod.mk.injEq, FieldOp.Adjusts, false_and, false_or]
      exact ((mouse_none cw alnum hv hu x y).2 kind mods double).trans ⟨fun h => ⟨x, y, ⟨rfl, rfl⟩, h⟩, fun ⟨_, _, ⟨h1, h2⟩, h⟩ => by rw [h1, h2]; exact h⟩
    | key code mods =>
      refine other ?_ rfl
      simp only [FieldOp.exec, FieldOp.releaseExec, FieldOp.Adjusts, applyEvent, fieldEvent]
      split
      · cases mods with
        | none => exact PanicIf.keycode cw hv _ _
        | shift => exact PanicIf.keycode cw hv _ _
        | other n => exact .still _ _
      · exact .still _ _
    | other => refine other ?_ rfl; exact never fun h => by cases h
  | scrollUp => refine other ?_ rfl; exact never fun h => by cases h
  | scrollDown => refine other ?_ rfl; exact never fun h => by cases h

/-- Concrete case: in an area without column, a second line makes the call panic if there's one row, and not if there are two. -/
example : (FieldOp.insertStr "a\nb".toList).exec (fun _ => 1) (fun _ => true) (InputField.new ⟨0, 0, 0, 1⟩) = none ∧
    (FieldOp.insertStr "a\nb".toList).exec (fun _ => 1) (fun _ => true) (InputField.new ⟨0, 0, 0, 2⟩) ≠ none :=
  ⟨(C45_panics (fun _ => 1) (fun _ => true) (f := InputField.new ⟨0, 0, 0, 1⟩) default_valid (by unfold Area.WF u16Size; decide) (.insertStr "a\nb".toList)).2
    (.inl ⟨trivial, _, rfl, by decide, by decide⟩), by decide⟩

/-- Concrete case: a field out of the screen, where a click panics. -/
example : (FieldOp.click 65535 0).exec (fun _ => 1) (fun _ => true) (InputField.new ⟨65530, 0, 10, 1⟩) = none :=
  (C45_panics (fun _ => 1) (fun _ => true) (f := InputField.new ⟨65530, 0, 10, 1⟩) default_valid (by unfold Area.WF u16Size; decide) (.click 65535 0)).2
    (.inr ⟨65535, 0, rfl, by decide⟩)

/-- C45: whatever its width, a field which ends with no more lines than rows doesn't panic, and the call does as in a release build. -/
theorem C45_fits (cw : Char → Nat) (alnum : Char → Bool) {f : InputField} (hv : f.content.Valid) (ho : OnScreen f.area) (op : FieldOp) {f' : InputField} {b : Bool}
    (h : op.releaseExec cw alnum f = some (f', b)) (hl : f'.content.lines.length ≤ f'.area.height) : op.exec cw alnum f = some (f', b) := by
  have hu : f.area.WF := by unfold OnScreen at ho; unfold Area.WF u16Size; omega
  cases he : op.exec cw alnum f with
  | none =>
    rcases (C45_panics cw alnum hv hu op).1 he with ⟨_, g, h1, _, h3⟩ | ⟨x, y, _, hc⟩
    · rw [h] at h1
      cases h1
      omega
    · obtain ⟨b, hb, _⟩ := C18_contains f.area ho x y
      rw [hc] at hb
      cases hb
  | some r =>
    rw [← releaseExec_same cw alnum f hu op r he, h]

/-- Concrete case. -/
example := C45_fits (fun _ => 1) (fun _ => true) (f := InputField.new ⟨0, 0, 0, 2⟩) default_valid (by unfold OnScreen; decide) (.insertStr "a\nb".toList)
  (b := true) rfl (by decide)

/-! ### Sessions -/

/-- The operation of an event of a session. -/
private def opOf : SessionEvent → FieldOp
  | .cmd (.key k) => .key k
  | .cmd .cut => .cutSelection
  | .cmd (.paste s) => .replaceSelection s
  | .mouse m => .mouse m.kind m.x m.y m.mods m.double
  | .click x y => .click x y
  | .focus b => .setFocus b
  | .area a => .setArea a

private theorem opOf_none (cw : Char → Nat) (alnum : Char → Bool) (f : InputField) (e : SessionEvent) (h : giveEvent cw alnum f e = none) :
    (opOf e).exec cw alnum f = none := by
  cases e with
  | cmd c =>
    cases c with
    | key k =>
      cases hx : f.applyKeyCombination cw k with
      | none => exact hx
      | some r => simp [giveEvent, giveCmd, hx] at h
    | cut => simpa [giveEvent, giveCmd, opOf, FieldOp.exec] using h
    | paste s =>
      cases hx : f.replaceSelection cw s with
      | none => simp [opOf, FieldOp.exec, hx]
      | some r => simp [giveEvent, giveCmd, hx] at h
  | mouse m =>
    cases hx : f.applyMouseEvent cw alnum m.kind m.x m.y m.mods m.double with
    | none => exact hx
    | some r => simp [giveEvent, hx] at h
  | click x y =>
    cases hx : f.applyClickEvent cw x y with
    | none => exact hx
    | some r => simp [giveEvent, hx] at h
  | focus b =>
    cases hx : f.setFocus cw b with
    | none => simp [opOf, FieldOp.exec, hx]
    | some r => simp [giveEvent, hx] at h
  | area a =>
    cases hx : f.setArea cw a with
    | none => simp [opOf, FieldOp.exec, hx]
    | some r => simp [giveEvent, hx] at h

private theorem opOf_release (cw : Char → Nat) (alnum : Char → Bool) (f f' : InputField) (b : Bool) (e : SessionEvent)
    (h : (opOf e).releaseExec cw alnum f = some (f', b)) : ∃ t, giveReleaseEvent cw alnum f e = some (f', t) := by
  cases e with
  | cmd c =>
    cases c with
    | key k =>
      have h : fieldKey cw f k = some (f', b) := h
      exact ⟨[], by simp only [giveReleaseEvent, giveReleaseCmd, h, Option.bind_eq_bind, Option.bind_some]⟩
    | cut =>
      simp only [opOf, FieldOp.releaseExec, Option.map_eq_some_iff, Prod.mk.injEq] at h
      obtain ⟨⟨g, t⟩, h1, h2, _⟩ := h
      exact ⟨t, by simp only [giveReleaseEvent, giveReleaseCmd, h1]; rw [← h2]⟩
    | paste s =>
      simp only [opOf, FieldOp.releaseExec, Option.map_eq_some_iff, Prod.mk.injEq] at h
      obtain ⟨g, h1, h2, _⟩ := h
      exact ⟨_, by simp only [giveReleaseEvent, giveReleaseCmd, h1, Option.bind_eq_bind, Option.bind_some]; rw [h2]⟩
  | mouse m =>
    have h : fieldMouse cw alnum f m.kind m.x m.y m.mods m.double = some (f', b) := h
    exact ⟨[], by simp only [giveReleaseEvent, h, Option.bind_eq_bind, Option.bind_some]⟩
  | click x y =>
    have h : fieldClick cw f x y = some (f', b) := h
    exact ⟨[], by simp only [giveReleaseEvent, h, Option.bind_eq_bind, Option.bind_some]⟩
  | focus c =>
    simp only [opOf, FieldOp.releaseExec, Option.map_eq_some_iff, Prod.mk.injEq] at h
    obtain ⟨g, h1, h2, _⟩ := h
    exact ⟨_, by simp only [giveReleaseEvent, h1, Option.bind_eq_bind, Option.bind_some]; rw [h2]⟩
  | area a =>
    simp only [opOf, FieldOp.releaseExec, Option.map_eq_some_iff, Prod.mk.injEq] at h
    obtain ⟨g, h1, h2, _⟩ := h
    exact ⟨_, by simp only [giveReleaseEvent, h1, Option.bind_eq_bind, Option.bind_some]; rw [h2]⟩

/-- All along a session in a release build, the area of the field has a column, or a row for each line. -/
def AlwaysRoom (cw : Char → Nat) (alnum : Char → Bool) : InputField → List SessionEvent → Prop
  | _, [] => True
  | f, e :: es => ∀ f' t, giveReleaseEvent cw alnum f e = some (f', t) →
      (1 ≤ f'.area.width ∨ f'.content.lines.length ≤ f'.area.height) ∧ AlwaysRoom cw alnum f' es

/-- C110: a debug build does as a release build, without panic, as long as the area of the field has a column or a row for each line. -/
theorem C110_debug_room (cw : Char → Nat) (alnum : Char → Bool) (es : List SessionEvent) {f : InputField} (hv : f.content.Valid) (ho : OnScreen f.area)
    (ha : ∀ e ∈ es, OnScreenEvent e) (hr : AlwaysRoom cw alnum f es) :
    ∃ r, giveEvents cw alnum f es = some r ∧ giveReleaseEvents cw alnum f es = some r := by
  induction es generalizing f with
  | nil => exact ⟨_, rfl, rfl⟩
  | cons e es ih =>
    cases he : giveEvent cw alnum f e with
    | none =>
      exfalso
      rcases (C45_panics cw alnum hv (onScreen_wf ho) (opOf e)).1 (opOf_none cw alnum f e he) with ⟨_, f', h1, h2, h3⟩ | ⟨x, y, _, hc⟩
      · obtain ⟨t, ht⟩ := opOf_release cw alnum f f' true e h1
        have := (hr f' t ht).1
        omega
      · obtain ⟨b, hb, _⟩ := C18_contains f.area ho x y
        rw [hc] at hb
        cases hb
    | some p =>
      obtain ⟨f1, t⟩ := p
      have h4 := giveRelease_same cw alnum f (onScreen_wf ho) e _ he
      obtain ⟨ps, hl, hps⟩ := C110_places cw alnum [e] hv ho (fun x hx => by rw [List.mem_singleton.1 hx]; exact ha e (by simp))
      obtain ⟨q, rfl⟩ : ∃ q, ps = [q] := by
        cases ps with
        | nil => cases hl
        | cons q qs =>
          cases qs with
          | nil => exact ⟨q, rfl⟩
          | cons _ _ => simp at hl
      obtain ⟨g1, t1, k1, k2, k4, _⟩ := releaseEvent_ok cw alnum hv ho e (ha e (by simp)) q hps.1
      rw [h4] at k1
      cases k1
      obtain ⟨r, i1, i2⟩ := ih k2 k4 (fun x hm => ha x (by simp [hm])) (hr f1 t h4).2
      exact ⟨(r.1, t :: r.2), by simp only [giveEvents, he, i1, Option.bind_eq_bind, Option.bind_some],
        by simp only [giveReleaseEvents, h4, i2, Option.bind_eq_bind, Option.bind_some]⟩

/-- Concrete case: a field which gets no column, then two lines in two rows. -/
example : ∃ r, giveEvents (fun _ => 1) (fun c => c.isAlphanum) (InputField.new ⟨2, 1, 9, 2⟩) [.area ⟨2, 1, 0, 2⟩, .cmd (.paste "a\nb".toList)] = some r ∧
    giveReleaseEvents (fun _ => 1) (fun c => c.isAlphanum) (InputField.new ⟨2, 1, 9, 2⟩) [.area ⟨2, 1, 0, 2⟩, .cmd (.paste "a\nb".toList)] = some r := by
  refine C110_debug_room _ _ _ default_valid (by unfold OnScreen; decide) (by simp [OnScreenEvent, OnScreen]) ?_
  intro f' t h
  cases h
  refine ⟨.inr (by decide), ?_⟩
  intro f' t h
  cases h
  exact ⟨.inr (by decide), trivial⟩

end Props
end Verif

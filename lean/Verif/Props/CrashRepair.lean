import Verif.Props.Crash
import Verif.Props.Rect
import Verif.Props.ListCells
/-! C73, for all that is written: what is interrupted can be repaired, and interrupting never changes a cell which isn't changed otherwise. -/
namespace Verif.Props
open Verif Spec

/-- What commands change: the cells which have a value here have it after the commands, the other ones are as they were. -/
private abbrev Marks := Nat → Nat → Option (CompoundStyle × Char × Nat)

private def Marks.on (m : Marks) (g : Cells CompoundStyle) : Cells CompoundStyle := fun x y => (m x y).getD (g x y)

private def textMarks (cw : Char → Nat) (x y : Nat) (s : CompoundStyle) (text : Text) : Marks :=
  fun x' y' => if y' = y ∧ x ≤ x' then columnOf cw (text.map fun c => (s, c)) (x' - x) else none

private theorem text_marks (cw : Char → Nat) (x y : Nat) (s : CompoundStyle) (text : Text) (g : Cells CompoundStyle) :
    printText cw y s x text g = (textMarks cw x y s text).on g := by
  funext x' y'
  rw [printText_eq]
  unfold Marks.on textMarks
  split <;> rfl

private theorem text_marks_take (cw : Char → Nat) (x y : Nat) (s : CompoundStyle) (text : Text) (k x' y' : Nat)
    (h : textMarks cw x y s text x' y' = none) : textMarks cw x y s (text.take k) x' y' = none := by
  unfold textMarks at h ⊢
  split
  · next hc =>
    rw [if_pos hc] at h
    have e : text.map (fun c => (s, c)) = (text.take k).map (fun c => (s, c)) ++ (text.drop k).map (fun c => (s, c)) := by
      rw [← List.map_append, List.take_append_drop]
    rw [e, columnOf_append] at h
    exact (Option.or_eq_none_iff.1 h).1
  · rfl

/-- The effect of a command on the cells, the place and the pen being given. -/
private theorem exec_marks (cw : Char → Nat) (c : TtyCmd) (x y : Nat) (pen : CompoundStyle) :
    ∃ (m : Marks) (x' y' : Nat) (pen' : CompoundStyle), (∀ g, Tty.exec cw ⟨g, x, y, pen⟩ c = ⟨m.on g, x', y', pen'⟩) ∧
      ∀ k, ∃ m' : Marks, (∀ g, (Tty.execCut cw ⟨g, x, y, pen⟩ k c).cells = m'.on g) ∧ ∀ a b, m a b = none → m' a b = none := by
  cases c with
  | moveTo a b => exact ⟨fun _ _ => none, a, b, pen, fun g => rfl, fun k => ⟨fun _ _ => none, fun g => rfl, fun _ _ h => h⟩⟩
  | setFg c => exact ⟨fun _ _ => none, x, y, { pen with fg := penColor c }, fun g => rfl, fun k => ⟨fun _ _ => none, fun g => rfl, fun _ _ h => h⟩⟩
  | setBg c => exact ⟨fun _ _ => none, x, y, { pen with bg := penColor c }, fun g => rfl, fun k => ⟨fun _ _ => none, fun g => rfl, fun _ _ h => h⟩⟩
  | print text =>
    refine ⟨textMarks cw x y pen text, x + textWidth cw text, y, pen, fun g => ?_, fun k => ⟨textMarks cw x y pen (text.take k), fun g => ?_, fun a b h =>
      text_marks_take cw x y pen text k a b h⟩⟩
    · simp only [Tty.exec, text_marks]
    · simp only [Tty.execCut, Tty.exec, text_marks]
  | styled s text =>
    refine ⟨textMarks cw x y (over s pen) text, x + textWidth cw text, y, penAfter s pen, fun g => ?_,
      fun k => ⟨textMarks cw x y (over s pen) (text.take k), fun g => ?_, fun a b h => text_marks_take cw x y (over s pen) text k a b h⟩⟩
    · simp only [Tty.exec, text_marks]
    · simp only [Tty.execCut, text_marks]
  | clearLine =>
    refine ⟨fun a b => if b = y ∧ x ≤ a then some ({ bg := pen.bg }, ' ', 0) else none, x, y, pen, fun g => ?_,
      fun k => ⟨fun _ _ => none, fun g => rfl, fun _ _ _ => rfl⟩⟩
    simp only [Tty.exec, Tty.mk.injEq, and_self, and_true]
    funext a b
    unfold Marks.on
    by_cases h : b = y ∧ x ≤ a
    · simp only [if_pos h]; rfl
    · simp only [if_neg h]; rfl

/-- The effect of commands on the cells, complete or interrupted. -/
private theorem play_marks (cw : Char → Nat) : ∀ (cmds : List TtyCmd) (x y : Nat) (pen : CompoundStyle),
    ∃ (m : Marks), (∀ g, (Tty.play cw ⟨g, x, y, pen⟩ cmds).cells = m.on g) ∧
      ∀ n k, ∃ m' : Marks, (∀ g, (Tty.playCut cw ⟨g, x, y, pen⟩ cmds n k).cells = m'.on g) ∧ ∀ a b, m a b = none → m' a b = none := by
  intro cmds
  induction cmds with
  | nil => intro x y pen; exact ⟨fun _ _ => none, fun g => rfl, fun n k => ⟨fun _ _ => none, fun g => rfl, fun _ _ h => h⟩⟩
  | cons c cmds ih =>
    intro x y pen
    obtain ⟨m1, x1, y1, pen1, h1, h2⟩ := exec_marks cw c x y pen
    obtain ⟨m2, h3, h4⟩ := ih x1 y1 pen1
    have hon : ∀ (m m' : Marks) (g : Cells CompoundStyle), m.on (m'.on g) = Marks.on (fun a b => (m a b).or (m' a b)) g := by
      intro m m' g
      funext a b
      unfold Marks.on
      cases h : m a b <;> simp [h]
    refine ⟨fun a b => (m2 a b).or (m1 a b), fun g => ?_, fun n k => ?_⟩
    · show (Tty.play cw (Tty.exec cw ⟨g, x, y, pen⟩ c) cmds).cells = _
      rw [h1, h3, hon]
    · cases n with
      | zero =>
        obtain ⟨m', e1, e2⟩ := h2 k
        exact ⟨m', e1, fun a b h => e2 a b (Option.or_eq_none_iff.1 h).2⟩
      | succ n =>
        obtain ⟨m', e1, e2⟩ := h4 n k
        refine ⟨fun a b => (m' a b).or (m1 a b), fun g => ?_, fun a b h => ?_⟩
        · show (Tty.playCut cw (Tty.exec cw ⟨g, x, y, pen⟩ c) cmds n k).cells = _
          rw [h1, e1, hon]
        · obtain ⟨e3, e4⟩ := Option.or_eq_none_iff.1 h
          exact Option.or_eq_none_iff.2 ⟨e2 a b e3, e4⟩

private theorem untouched (cw : Char → Nat) (cmds : List TtyCmd) (t : Tty) (x y : Nat) {g g' : Cells CompoundStyle} (hg : g x y ≠ g' x y)
    (h : ({ t with cells := g }.play cw cmds).cells x y = g x y) (h' : ({ t with cells := g' }.play cw cmds).cells x y = g' x y) (done kept : Nat) :
    (t.playCut cw cmds done kept).cells x y = t.cells x y := by
  obtain ⟨m, h1, h2⟩ := play_marks cw cmds t.x t.y t.pen
  obtain ⟨m', h3, h4⟩ := h2 done kept
  rw [h1] at h h'
  have hm : m x y = none := by
    unfold Marks.on at h h'
    cases hc : m x y with
    | none => rfl
    | some v => rw [hc] at h h'; exact absurd (h.symm.trans h') hg
  have e : (t.playCut cw cmds done kept).cells = m'.on t.cells := h3 t.cells
  rw [e]
  unfold Marks.on
  rw [h4 x y hm]
  rfl

/-- C73: whatever is written, when the writer fails, a cell which wouldn't have been changed without the failure isn't changed. -/
theorem C73_untouched (cw : Char → Nat) (cmds : List TtyCmd) (t : Tty) (x y : Nat)
    (h : ∀ cells, ({ t with cells }.play cw cmds).cells x y = cells x y) (done kept : Nat) :
    (t.playCut cw cmds done kept).cells x y = t.cells x y :=
  untouched cw cmds t x y (g := fun _ _ => ({}, 'a', 0)) (g' := fun _ _ => ({}, 'b', 0)) (by simp) (h _) (h _) done kept

/-- C73: whatever is written, if it starts with a move of the cursor, writing it again after a failure, the style having been reset, gives what
would be there without the failure. -/
theorem C73_repair (cw : Char → Nat) (a b : Nat) (cmds : List TtyCmd) (t : Tty) (hp : t.pen = {}) : Repairable cw t (.moveTo a b :: cmds) := by
  intro n k t' h' hp'
  obtain ⟨m, h1, h2⟩ := play_marks cw cmds a b {}
  have e : ∀ t : Tty, t.pen = {} → (t.play cw (.moveTo a b :: cmds)).cells = m.on t.cells := by
    intro t ht
    rw [← h1]
    show (Tty.play cw ⟨t.cells, a, b, t.pen⟩ cmds).cells = _
    rw [ht]
  rw [e t' hp', e t hp]
  cases n with
  | zero => rw [h']; rfl
  | succ n =>
    obtain ⟨m', h3, h4⟩ := h2 n k
    have e' : (t.playCut cw (.moveTo a b :: cmds) (n + 1) k).cells = m'.on t.cells := by
      rw [← h3]
      show (Tty.playCut cw ⟨t.cells, a, b, t.pen⟩ cmds n k).cells = _
      rw [hp]
    rw [h', e']
    funext x y
    unfold Marks.on
    cases hm : m x y with
    | none => rw [h4 x y hm]; rfl
    | some v => rfl

/-- C73: so it is of any text view (even if its lines don't fit), list view and rectangle. -/
theorem C73_repair_views (cw : Char → Nat) (t : Tty) (hp : t.pen = {}) :
    (∀ (v : TextView) (skin : Skin) (cmds : List TtyCmd), v.cmds skin = some cmds → Repairable cw t cmds) ∧
    (∀ (T : Type) (v : ListView T) (skin : Skin) (cmds : List TtyCmd), v.cmds skin = some cmds → Repairable cw t cmds) ∧
    (∀ (r : Rect) (cmds : List TtyCmd), r.cmds = some cmds → Repairable cw t cmds) := by
  refine ⟨fun v skin cmds h => ?_, fun T v skin cmds h => ?_, fun r cmds h => ?_⟩
  · simp only [TextView.cmds, Option.map_eq_some_iff] at h
    obtain ⟨rows, _, rfl⟩ := h
    cases rows with
    | nil => intro n k t' h' _; exact h'
    | cons r rows => exact C73_repair cw _ _ _ t hp
  · simp only [ListView.cmds, Option.bind_eq_bind, Option.bind_eq_some_iff, Option.some.injEq] at h
    obtain ⟨_, _, _, _, _, _, _, _, _, _, _, _, rfl⟩ := h
    exact C73_repair cw _ _ _ t hp
  · simp only [Rect.cmds, Rect.draw, Option.map_eq_some_iff, Option.bind_eq_bind, Option.bind_eq_some_iff, Option.some.injEq] at h
    obtain ⟨_, ⟨_, _, _, _, _, _, _, _, _, _, _, _, rfl⟩, rfl⟩ := h
    exact C73_repair cw _ _ _ t hp

/-- C73: when the writer fails while a rectangle is drawn, nothing is changed out of its area, nor inside when it isn't filled, and it can be drawn
again. -/
theorem C73_rect (cw : Char → Nat) (hcw : ∀ c, cw c = 1) (r : Rect) (hs : Tidy r.colors) (hw : 2 ≤ r.area.width) (hh : 2 ≤ r.area.height)
    (hon : OnScreen r.area) (t : Tty) (hp : t.pen = {}) :
    ∃ cmds, r.cmds = some cmds ∧ Repairable cw t cmds ∧ OnlyInArea cw t cmds r.area ∧
      ∀ done kept x y, rectCell r x y = none → (t.playCut cw cmds done kept).cells x y = t.cells x y := by
  obtain ⟨cs, h1, h2⟩ := C43_draw r hw hh hon
  obtain ⟨cmds, e1, _⟩ := C65_rect cw hcw r hs h1 ⟨fun _ _ => (seen {}, 'a', 0), t.x, t.y, {}⟩ rfl (fun _ _ => ({}, 'a')) (fun _ _ => rfl)
  have key : ∀ x y, rectCell r x y = none → ∀ done kept, (t.playCut cw cmds done kept).cells x y = t.cells x y := by
    intro x y hn
    have one : ∀ c, ({ t with cells := fun _ _ => (seen {}, c, 0) }.play cw cmds).cells x y = (seen {}, c, 0) := by
      intro c
      obtain ⟨cmds', e1', _, e3⟩ := C65_rect cw hcw r hs h1 { t with cells := fun _ _ => (seen {}, c, 0) } hp (fun _ _ => ({}, c)) (fun _ _ => rfl)
      rw [e1] at e1'
      cases e1'
      rw [e3, h2, hn]
    exact untouched cw cmds t x y (g := fun _ _ => (seen {}, 'a', 0)) (g' := fun _ _ => (seen {}, 'b', 0)) (by simp) (one 'a') (one 'b')
  refine ⟨cmds, e1, (C73_repair_views cw t hp).2.2 r cmds e1, fun n k x y hi => key x y ?_ n k, fun n k x y hn => key x y hn n k⟩
  cases hc : rectCell r x y with
  | none => rfl
  | some c => exact absurd ((C43_cells r hw hh x y).1 (by rw [hc]; rfl)) hi

/-- A half drawn rectangle, on a screen of dots. -/
example :
    let r : Rect := ⟨⟨1, 0, 4, 3⟩, { fg := some .red }, false, .middleSquareLine⟩
    let t : Tty := ⟨fun _ _ => ({}, '.', 0), 0, 0, {}⟩
    (r.cmds.map fun cmds => (List.range 3).map (fun y => (List.range 6).map fun x => ((t.playCut (fun _ => 1) cmds 7 0).cells x y).2.1)) =
      some [['.', '┌', '─', '─', '┐', '.'], ['.', '│', '.', '.', '.', '.'], ['.', '.', '.', '.', '.', '.']] := by decide

end Verif.Props

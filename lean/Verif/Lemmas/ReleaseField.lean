import Verif.Spec.ReleaseField
import Verif.Props.ReleaseArea
import Verif.Props.InputField
/-! Lemmas on input fields in release builds. -/
namespace Verif
open InputField Content Release

/-- What succeeds in the first run gives the same in the second one. -/
def Same {α : Type} (x y : Run α) : Prop := ∀ r, x = some r → y = some r

theorem Same.refl {α : Type} (x : Run α) : Same x x := fun _ h => h

theorem Same.bind {α β : Type} {x y : Run α} {k l : α → Run β} (h : Same x y) (hk : ∀ a, Same (k a) (l a)) : Same (x.bind k) (y.bind l) := by
  intro r hr
  obtain ⟨a, h1, h2⟩ := Option.bind_eq_some_iff.1 hr
  exact Option.bind_eq_some_iff.2 ⟨a, h a h1, hk a r h2⟩

theorem Same.map {α β : Type} {x y : Run α} (h : Same x y) (k : α → β) : Same (x.map k) (y.map k) := by
  intro r hr
  obtain ⟨a, h1, h2⟩ := Option.map_eq_some_iff.1 hr
  exact Option.map_eq_some_iff.2 ⟨a, h a h1, h2⟩

theorem Same.ite {α : Type} {c : Prop} [Decidable c] {x y x' y' : Run α} (h : Same x y) (h' : Same x' y') :
    Same (if c then x else x') (if c then y else y') := by
  split
  · exact h
  · exact h'

theorem wsub_same {a b w : Nat} (h : csub a b = some w) : wsub a b = w := by
  unfold csub at h
  unfold wsub
  split at h
  · rename_i c; rw [if_pos c]; exact Option.some.inj h
  · cases h

theorem addU16_same {a b w : Nat} (h : u16Add a b = some w) : addU16 a b = w := by
  unfold u16Add at h
  unfold u16Size at h
  unfold addU16
  split at h
  · cases h; omega
  · cases h

theorem fieldFixScroll_same (cw : Char → Nat) (f : InputField) : Same (fixScroll cw f) (fieldFixScroll cw f) := by
  unfold fixScroll fieldFixScroll
  refine Same.bind ?_ fun _ => .refl _
  unfold fixY fieldFixY
  refine Same.ite ?_ (.refl _)
  intro r hr
  simp only [Option.bind_eq_bind, Option.bind_eq_some_iff] at hr ⊢
  obtain ⟨w, hw, s, hs, e⟩ := hr
  exact ⟨s, hs, by rw [wsub_same hw]; exact e⟩

theorem fieldWrap_same (cw : Char → Nat) (f : InputField) (r : Run (Content × Bool)) : Same (f.wrap cw r) (fieldWrap cw f r) := by
  unfold wrap fieldWrap
  exact (Same.refl r).bind fun p => .ite ((fieldFixScroll_same cw _).bind fun _ => .refl _) (.refl _)

theorem fieldPutChar_same (cw : Char → Nat) (f : InputField) (ch : Char) : Same (f.putChar cw ch) (fieldPutChar cw f ch) := by
  unfold putChar fieldPutChar
  exact (Same.refl _).bind fun _ => (fieldFixScroll_same cw _).bind fun _ => .refl _

theorem fieldInsertNewLine_same (cw : Char → Nat) (f : InputField) : Same (f.insertNewLine cw) (fieldInsertNewLine cw f) := by
  unfold InputField.insertNewLine fieldInsertNewLine
  exact (Same.refl _).bind fun _ => (fieldFixScroll_same cw _).bind fun _ => .refl _

theorem fieldCharKey_same (cw : Char → Nat) (f : InputField) (ch : Char) : Same (f.charKey cw ch) (fieldCharKey cw f ch) := by
  unfold charKey fieldCharKey
  exact .ite ((Same.refl _).bind fun _ => (fieldPutChar_same cw _ ch).bind fun _ => (fieldFixScroll_same cw _).bind fun _ => .refl _) (fieldPutChar_same cw f ch)

theorem fieldMoveKey_same (cw : Char → Nat) (f : InputField) (code : KeyCode) : Same (f.moveKey cw code) (fieldMoveKey cw f code) := by
  unfold moveKey fieldMoveKey
  cases code <;> first | exact .refl _ | exact fieldWrap_same cw f _

theorem fieldKeycode_same (cw : Char → Nat) (f : InputField) (code : KeyCode) (shift : Bool) :
    Same (f.applyKeycodeEvent cw code shift) (fieldKeycode cw f code shift) := by
  cases code with
  | backspace => exact .refl _
  | delete => exact .refl _
  | char ch => exact fieldCharKey_same cw f ch
  | _ => simp only [applyKeycodeEvent, fieldKeycode]; exact fieldMoveKey_same cw _ _

theorem fieldKey_same (cw : Char → Nat) (f : InputField) (k : KeyComb) : Same (f.applyKeyCombination cw k) (fieldKey cw f k) := by
  unfold applyKeyCombination fieldKey
  refine .ite (.refl _) (.ite (fieldInsertNewLine_same cw f) ?_)
  obtain ⟨code, others, mods⟩ := k
  unfold applyMods fieldMods
  cases others with
  | nil =>
    cases mods with
    | none => exact fieldKeycode_same cw f _ _
    | shift => exact fieldKeycode_same cw f _ _
    | other n => exact .refl _
  | cons _ _ => exact .refl _

theorem fieldCell_same (cw : Char → Nat) (f : InputField) (x y : Nat) (hx : x < 65536) (hy : y < 65536) : Same (f.posOfCell cw x y) (fieldCell cw f x y) := by
  intro r hr
  unfold posOfCell at hr
  unfold fieldCell
  simp only [Option.bind_eq_bind, Option.bind_eq_some_iff] at hr ⊢
  obtain ⟨dy, h1, n, h2, line, h3, dx, h4, h5⟩ := hr
  have e : ∀ {a b d : Nat}, csub a b = some d → a < 65536 → subU16 a b = d := by
    intro a b d h ha
    unfold csub at h
    unfold subU16
    split at h
    · cases h; omega
    · cases h
  rw [e h1 hy, e h4 hx, wsub_same h2]
  exact ⟨line, h3, h5⟩

theorem contains_lt {a : Area} (h : a.WF) {x y : Nat} (hc : Release.contains a x y = true) : x < 65536 ∧ y < 65536 := by
  have := (Props.C107_contains a h x y).1 hc
  obtain ⟨⟨h1, h2⟩, i, j, h3, h4, h5, h6⟩ := this
  omega

theorem fieldClick_same (cw : Char → Nat) (f : InputField) (h : f.area.WF) (x y : Nat) : Same (f.applyClickEvent cw x y) (fieldClick cw f x y) := by
  intro r hr
  unfold applyClickEvent at hr
  unfold fieldClick
  simp only [Option.bind_eq_bind, Option.bind_eq_some_iff] at hr
  obtain ⟨b, h1, h2⟩ := hr
  have hc := (Props.C107_same f.area h x y 0 0 0).1 b h1
  rw [hc]
  cases b with
  | false => exact h2
  | true =>
    obtain ⟨hx, hy⟩ := contains_lt h hc
    rw [if_pos rfl] at h2 ⊢
    revert h2
    exact Same.ite ((fieldCell_same cw f x y hx hy).bind fun _ => .refl _) (.refl _) r

theorem fieldMouse_same (cw : Char → Nat) (alnum : Char → Bool) (f : InputField) (h : f.area.WF) (kind : MouseKind) (x y : Nat) (mods : KeyMods)
    (double : Bool) : Same (f.applyMouseEvent cw alnum kind x y mods double) (fieldMouse cw alnum f kind x y mods double) := by
  intro r hr
  unfold applyMouseEvent at hr
  unfold fieldMouse
  simp only [Option.bind_eq_bind, Option.bind_eq_some_iff] at hr
  obtain ⟨b, h1, h2⟩ := hr
  have hc := (Props.C107_same f.area h x y 0 0 0).1 b h1
  rw [hc]
  cases b with
  | false => exact h2
  | true =>
    obtain ⟨hx, hy⟩ := contains_lt h hc
    rw [if_pos rfl] at h2 ⊢
    revert h2
    exact Same.ite ((fieldCell_same cw f x y hx hy).bind fun _ => .refl _) (.refl _) r

theorem fieldEvent_same (cw : Char → Nat) (alnum : Char → Bool) (f : InputField) (h : f.area.WF) (e : FieldEvent) (double : Bool) :
    Same (f.applyEvent cw alnum e double) (fieldEvent cw alnum f e double) := by
  unfold applyEvent fieldEvent
  cases e with
  | mouse kind x y mods => exact fieldMouse_same cw alnum f h kind x y mods double
  | key code mods =>
    refine .ite ?_ (.refl _)
    cases mods with
    | none => exact fieldKeycode_same cw f _ _
    | shift => exact fieldKeycode_same cw f _ _
    | other n => exact .refl _
  | other => exact .refl _

theorem releaseExec_same (cw : Char → Nat) (alnum : Char → Bool) (f : InputField) (h : f.area.WF) (op : FieldOp) :
    Same (op.exec cw alnum f) (op.releaseExec cw alnum f) := by
  have fix := fieldFixScroll_same cw
  cases op with
  | setMonoLine => exact .refl _
  | newLineOn k => exact .refl _
  | setPasswordMode b => exact .refl _
  | changeArea x y w => exact (Same.ite (fix _) (.refl _)).map _
  | setArea a => exact (Same.ite (fix _) (.refl _)).map _
  | setFocus b => exact (Same.ite (.refl _) (Same.ite (fix _) (.refl _))).map _
  | cutSelection => exact ((Same.refl _).bind fun _ => (Same.refl _).bind fun _ => (fix _).bind fun _ => .refl _).map _
  | replaceSelection s => exact ((Same.refl _).bind fun _ => (Same.refl _).bind fun _ => fix _).map _
  | setStr s => exact ((Same.refl _).bind fun _ => fix _).map _
  | insertNewLine => exact fieldInsertNewLine_same cw f
  | putChar ch => exact fieldPutChar_same cw f ch
  | clear => exact (fix _).map _
  | insertStr s => exact ((Same.refl _).bind fun _ => fix _).map _
  | wrapped op => exact fieldWrap_same cw f _
  | key k => exact fieldKey_same cw f k
  | keycode code shift => exact fieldKeycode_same cw f code shift
  | click x y => exact fieldClick_same cw f h x y
  | mouse kind x y mods double => exact fieldMouse_same cw alnum f h kind x y mods double
  | event e double => exact fieldEvent_same cw alnum f h e double
  | scrollUp => exact .refl _
  | scrollDown => exact .refl _

/-! ### Fields which differ by their areas -/

/-- The same fields but for the place and width of the areas, and for the scroll. -/
def Alike (f g : InputField) : Prop := ∃ (a : Area) (s : Pos), a.height = g.area.height ∧ f = { g with area := a, scroll := s }

theorem fieldFixScroll_ok (cw : Char → Nat) {f : InputField} (hv : f.content.Valid) : ∃ s, fieldFixScroll cw f = some { f with scroll := s } := by
  obtain ⟨l, h1, h2⟩ := hv.pos
  obtain ⟨hlt, _⟩ := List.getElem?_eq_some_iff.1 h1
  unfold fieldFixScroll fieldFixY Content.currentLine
  rw [h1]
  by_cases c : f.content.lines.length > f.area.height
  · rw [if_pos c]
    obtain ⟨y, hy1, _⟩ := fixScrollY_ok f.area.height f.content.lines.length f.content.pos.y f.focused f.scroll.y hlt c
    obtain ⟨x, hx1, _⟩ := fixScrollX_ok cw (wsub f.area.width 1) l f.content.pos.x f.focused f.scroll.x h2
    simp only [Option.bind_eq_bind, Option.bind_some, hy1, hx1]
    exact ⟨_, rfl⟩
  · rw [if_neg c]
    obtain ⟨x, hx1, _⟩ := fixScrollX_ok cw f.area.width l f.content.pos.x f.focused f.scroll.x h2
    simp only [Option.bind_eq_bind, Option.bind_some, hx1]
    exact ⟨_, rfl⟩

theorem Alike.fix (cw : Char → Nat) {f g : InputField} (h : Alike f g) (hv : g.content.Valid) (hw : 1 ≤ g.area.width) :
    ∃ f' s, fieldFixScroll cw f = some f' ∧ fixScroll cw g = some { g with scroll := s } ∧ Alike f' { g with scroll := s } ∧ f'.area = f.area := by
  obtain ⟨a, s, e, rfl⟩ := h
  obtain ⟨g', h1, ⟨s2, rfl⟩, _⟩ := fixScroll_ok cw hv hw
  obtain ⟨s3, h3⟩ := fieldFixScroll_ok cw (f := { g with area := a, scroll := s }) hv
  exact ⟨_, s2, h3, h1, ⟨a, s3, e, rfl⟩, rfl⟩

theorem Alike.content {f g : InputField} (h : Alike f g) (c : Content) : Alike { f with content := c } { g with content := c } := by
  obtain ⟨a, s, e, rfl⟩ := h
  exact ⟨a, s, e, rfl⟩

/-- The first run, in a release build, does as the second one, in a debug build. -/
def Sim {β : Type} (a : Area) (w : Nat) (x y : Run (InputField × β)) : Prop :=
  ∃ f g b, x = some (f, b) ∧ y = some (g, b) ∧ Alike f g ∧ g.content.Valid ∧ g.area.width = w ∧ f.area = a

theorem Sim.fixed {β : Type} (cw : Char → Nat) {f g : InputField} (h : Alike f g) (hv : g.content.Valid) (hw : 1 ≤ g.area.width) (b : β) :
    Sim f.area g.area.width ((fieldFixScroll cw f).map (·, b)) ((fixScroll cw g).map (·, b)) := by
  obtain ⟨f', s, h1, h2, h3, h4⟩ := h.fix cw hv hw
  exact ⟨f', _, b, by rw [h1]; rfl, by rw [h2]; rfl, h3, hv, rfl, h4⟩

theorem Sim.some {β : Type} {f g : InputField} (h : Alike f g) (hv : g.content.Valid) (b : β) : Sim f.area g.area.width (Option.some (f, b)) (Option.some (g, b)) :=
  ⟨f, g, b, rfl, rfl, h, hv, rfl, rfl⟩

theorem bind_pair {β : Type} (x : Run InputField) (b : β) : (do let f ← x; Option.some (f, b)) = x.map (·, b) := by cases x <;> rfl

theorem Sim.wrap (cw : Char → Nat) {f g : InputField} (h : Alike f g) (hw : 1 ≤ g.area.width) {x y : Run (Content × Bool)} (hx : x = y)
    (hr : ∃ c b, y = Option.some (c, b) ∧ c.Valid) : Sim f.area g.area.width (fieldWrap cw f x) (g.wrap cw y) := by
  subst hx
  obtain ⟨c, b, rfl, hc⟩ := hr
  unfold fieldWrap InputField.wrap
  simp only [Option.bind_eq_bind, Option.bind_some]
  cases b with
  | true => simpa only [if_true, ← Option.bind_eq_bind, bind_pair] using Sim.fixed cw (h.content c) hc hw true
  | false => exact Sim.some (h.content c) hc false

theorem Sim.putChar (cw : Char → Nat) {f g : InputField} (h : Alike f g) (hv : g.content.Valid) (hw : 1 ≤ g.area.width) (ch : Char) :
    Sim f.area g.area.width (fieldPutChar cw f ch) (g.putChar cw ch) := by
  have e : f.content = g.content := by obtain ⟨a, s, _, rfl⟩ := h; rfl
  obtain ⟨c, h1, h2, _⟩ := insertChar_ok hv ch
  unfold fieldPutChar InputField.putChar
  rw [e, h1]
  simp only [bind_pair]
  exact Sim.fixed cw (h.content c) h2 hw true

theorem Sim.newLine (cw : Char → Nat) {f g : InputField} (h : Alike f g) (hv : g.content.Valid) (hw : 1 ≤ g.area.width) :
    Sim f.area g.area.width (fieldInsertNewLine cw f) (g.insertNewLine cw) := by
  have e : f.content = g.content := by obtain ⟨a, s, _, rfl⟩ := h; rfl
  obtain ⟨c, h1, h2, _⟩ := insertNewLine_ok hv
  unfold fieldInsertNewLine InputField.insertNewLine
  rw [e, h1]
  simp only [bind_pair]
  exact Sim.fixed cw (h.content c) h2 hw true

theorem delSelection_valid {c : Content} (h : c.Valid) : ∃ c' b, c.delSelection = some (c', b) ∧ c'.Valid :=
  wrapCall_ok (fun _ => 0) (fun _ => false) (f := { content := c, area := ⟨0, 0, 0, 0⟩ }) h .delSelection

theorem Sim.charKey (cw : Char → Nat) {f g : InputField} (h : Alike f g) (hv : g.content.Valid) (hw : 1 ≤ g.area.width) (ch : Char) :
    Sim f.area g.area.width (fieldCharKey cw f ch) (g.charKey cw ch) := by
  have e : f.content = g.content := by obtain ⟨a, s, _, rfl⟩ := h; rfl
  unfold fieldCharKey InputField.charKey
  rw [e]
  split
  · obtain ⟨c, b, h1, h2⟩ := delSelection_valid hv
    obtain ⟨f1, g1, b1, k1, k2, k3, k4, k5, k6⟩ := Sim.putChar cw (h.content c) h2 (by exact hw) ch
    rw [h1]
    simp only [Option.bind_eq_bind, Option.bind_some, k1, k2]
    have := Sim.fixed cw k3 k4 (by rw [k5]; exact hw) true
    rw [k5, k6] at this
    simpa only [← Option.bind_eq_bind, bind_pair] using this
  · exact Sim.putChar cw h hv hw ch

theorem Sim.delKey {f g : InputField} (h : Alike f g) (hv : g.content.Valid) {x y : Run (Content × Bool)} (hx : x = y)
    (hr : ∃ c b, y = Option.some (c, b) ∧ c.Valid) : Sim f.area g.area.width (f.delKey x) (g.delKey y) := by
  subst hx
  have e : f.content = g.content := by obtain ⟨a, s, _, rfl⟩ := h; rfl
  unfold InputField.delKey
  rw [e]
  split
  · obtain ⟨c, b, h1, h2⟩ := delSelection_valid hv
    rw [h1]
    exact Sim.some (h.content c) h2 true
  · obtain ⟨c, b, rfl, h2⟩ := hr
    exact Sim.some (h.content c) h2 b

theorem Sim.moveKey (cw : Char → Nat) {f g : InputField} (h : Alike f g) (hv : g.content.Valid) (hw : 1 ≤ g.area.width) (code : KeyCode) :
    Sim f.area g.area.width (fieldMoveKey cw f code) (g.moveKey cw code) := by
  have e : f.content = g.content := by obtain ⟨a, s, _, rfl⟩ := h; rfl
  have eh : f.area.height = g.area.height := by obtain ⟨a, s, ea, rfl⟩ := h; exact ea
  have ok := wrapCall_ok cw (fun _ => false) hv
  cases code with
  | home => exact Sim.wrap cw h hw (by rw [e]) (ok .moveToLineStart)
  | «end» => exact Sim.wrap cw h hw (by rw [e]) (ok .moveToLineEnd)
  | up => exact Sim.wrap cw h hw (by rw [e]) (ok .moveUp)
  | down => exact Sim.wrap cw h hw (by rw [e]) (ok .moveDown)
  | left => exact Sim.wrap cw h hw (by rw [e]) (ok .moveLeft)
  | right => exact Sim.wrap cw h hw (by rw [e]) (ok .moveRight)
  | pageUp => exact Sim.wrap cw h hw (by rw [e, eh]) (ok .pageUp)
  | pageDown => exact Sim.wrap cw h hw (by rw [e, eh]) (ok .pageDown)
  | backspace => exact Sim.some h hv false
  | delete => exact Sim.some h hv false
  | char ch => exact Sim.some h hv false
  | other n => exact Sim.some h hv false

theorem Sim.keycode (cw : Char → Nat) {f g : InputField} (h : Alike f g) (hv : g.content.Valid) (hw : 1 ≤ g.area.width) (code : KeyCode) (shift : Bool) :
    Sim f.area g.area.width (fieldKeycode cw f code shift) (g.applyKeycodeEvent cw code shift) := by
  have e : f.content = g.content := by obtain ⟨a, s, _, rfl⟩ := h; rfl
  have ok := wrapCall_ok cw (fun _ => false) hv
  have mv : (if shift then g.content.makeSelection else g.content.unselect).Valid := by
    split
    · exact makeSelection_ok hv
    · exact unselect_ok hv
  have ha : Alike { f with content := if shift then f.content.makeSelection else f.content.unselect }
      { g with content := if shift then g.content.makeSelection else g.content.unselect } := by rw [e]; exact h.content _
  cases code with
  | backspace => exact Sim.delKey h hv (by rw [e]) (ok .delCharLeft)
  | delete => exact Sim.delKey h hv (by rw [e]) (ok .delCharBelow)
  | char ch => exact Sim.charKey cw h hv hw ch
  | _ => simp only [applyKeycodeEvent, fieldKeycode]; exact Sim.moveKey cw ha mv hw _

theorem Sim.key (cw : Char → Nat) {f g : InputField} (h : Alike f g) (hv : g.content.Valid) (hw : 1 ≤ g.area.width) (k : KeyComb) :
    Sim f.area g.area.width (fieldKey cw f k) (g.applyKeyCombination cw k) := by
  have e1 : f.focused = g.focused := by obtain ⟨a, s, _, rfl⟩ := h; rfl
  have e2 : f.newLineKeys = g.newLineKeys := by obtain ⟨a, s, _, rfl⟩ := h; rfl
  unfold fieldKey applyKeyCombination
  rw [e1, e2]
  split
  · exact Sim.some h hv false
  · split
    · exact Sim.newLine cw h hv hw
    · obtain ⟨code, others, mods⟩ := k
      unfold applyMods fieldMods
      cases others with
      | nil =>
        cases mods with
        | none => exact Sim.keycode cw h hv hw _ _
        | shift => exact Sim.keycode cw h hv hw _ _
        | other n => exact Sim.some h hv false
      | cons _ _ => exact Sim.some h hv false

theorem Sim.cut (cw : Char → Nat) {f g : InputField} (h : Alike f g) (hv : g.content.Valid) (hw : 1 ≤ g.area.width) :
    Sim f.area g.area.width (fieldCutSelection cw f) (g.cutSelection cw) := by
  have e : f.content = g.content := by obtain ⟨a, s, _, rfl⟩ := h; rfl
  obtain ⟨t, h1, _⟩ := selectionString_ok hv
  obtain ⟨c, b, h2, h3⟩ := delSelection_valid hv
  unfold fieldCutSelection cutSelection
  rw [e, h1, h2]
  simp only [bind_pair]
  exact Sim.fixed cw (h.content c) h3 hw t

theorem Sim.replace {β : Type} (cw : Char → Nat) {f g : InputField} (h : Alike f g) (hv : g.content.Valid) (hw : 1 ≤ g.area.width) (t : Text) (b : β) :
    Sim f.area g.area.width ((fieldReplaceSelection cw f t).map (·, b)) ((g.replaceSelection cw t).map (·, b)) := by
  have e : f.content = g.content := by obtain ⟨a, s, _, rfl⟩ := h; rfl
  unfold fieldReplaceSelection replaceSelection InputField.delWide
  rw [e]
  split
  · obtain ⟨c, b, h2, h3⟩ := delSelection_valid hv
    obtain ⟨c', h4, h5, _⟩ := insertStr_ok t h3
    rw [h2]
    simp only [Option.bind_eq_bind, Option.bind_some, h4]
    exact Sim.fixed cw (h.content c') h5 hw _
  · obtain ⟨c', h4, h5, _⟩ := insertStr_ok t hv
    simp only [Option.bind_eq_bind, Option.bind_some, e, h4]
    exact Sim.fixed cw (h.content c') h5 hw _

theorem Sim.focus {β : Type} (cw : Char → Nat) {f g : InputField} (h : Alike f g) (hv : g.content.Valid) (hw : 1 ≤ g.area.width) (b : Bool) (r : β) :
    Sim f.area g.area.width ((fieldSetFocus cw f b).map (·, r)) ((g.setFocus cw b).map (·, r)) := by
  have e1 : f.focused = g.focused := by obtain ⟨a, s, _, rfl⟩ := h; rfl
  have ha : Alike { f with focused := b } { g with focused := b } := by obtain ⟨a, s, e, rfl⟩ := h; exact ⟨a, s, e, rfl⟩
  unfold fieldSetFocus setFocus
  rw [e1]
  split
  · exact Sim.some h hv r
  · split
    · exact Sim.fixed cw ha hv hw r
    · exact Sim.some ha hv r

theorem Sim.textual (cw : Char → Nat) (alnum : Char → Bool) {f g : InputField} (h : Alike f g) (hv : g.content.Valid) (hw : 1 ≤ g.area.width)
    (op : FieldOp) (ho : op.Textual) : Sim f.area g.area.width (op.releaseExec cw alnum f) (op.exec cw alnum g) := by
  have e : f.content = g.content := by obtain ⟨a, s, _, rfl⟩ := h; rfl
  have e1 : f.focused = g.focused := by obtain ⟨a, s, _, rfl⟩ := h; rfl
  have eh : f.area.height = g.area.height := by obtain ⟨a, s, ea, rfl⟩ := h; exact ea
  cases op with
  | setMonoLine =>
    obtain ⟨a, s, ea, rfl⟩ := h
    exact ⟨_, _, true, rfl, rfl, ⟨a, s, ea, rfl⟩, hv, rfl, rfl⟩
  | newLineOn k =>
    obtain ⟨a, s, ea, rfl⟩ := h
    exact ⟨_, _, true, rfl, rfl, ⟨a, s, ea, rfl⟩, hv, rfl, rfl⟩
  | setPasswordMode b =>
    obtain ⟨a, s, ea, rfl⟩ := h
    exact ⟨_, _, true, rfl, rfl, ⟨a, s, ea, rfl⟩, hv, rfl, rfl⟩
  | changeArea x y w => exact ho.elim
  | setArea a => exact ho.elim
  | setFocus b => exact Sim.focus cw h hv hw b true
  | cutSelection =>
    obtain ⟨f1, g1, t, h1, h2, h3⟩ := Sim.cut cw h hv hw
    exact ⟨f1, g1, true, by simp [FieldOp.releaseExec, h1], by simp [FieldOp.exec, h2], h3⟩
  | replaceSelection s => exact Sim.replace cw h hv hw s true
  | setStr s =>
    obtain ⟨c, h1, h2, _⟩ := setStr_ok hv s
    simp only [FieldOp.releaseExec, FieldOp.exec, fieldSetStr, InputField.setStr, e, h1, Option.bind_eq_bind, Option.bind_some]
    exact Sim.fixed cw (h.content c) h2 hw true
  | insertNewLine => exact Sim.newLine cw h hv hw
  | putChar ch => exact Sim.putChar cw h hv hw ch
  | clear =>
    simp only [FieldOp.releaseExec, FieldOp.exec, fieldClear, InputField.clear, e]
    exact Sim.fixed cw (h.content _) Content.default_valid hw true
  | insertStr s =>
    obtain ⟨c, h1, h2, _⟩ := insertStr_ok s hv
    simp only [FieldOp.releaseExec, FieldOp.exec, fieldInsertStr, InputField.insertStr, e, h1, Option.bind_eq_bind, Option.bind_some]
    exact Sim.fixed cw (h.content c) h2 hw true
  | wrapped op =>
    refine Sim.wrap cw h hw ?_ (wrapCall_ok cw alnum hv op)
    cases op <;> simp only [WrapOp.call, e, eh]
  | key k => exact Sim.key cw h hv hw k
  | keycode code shift => exact Sim.keycode cw h hv hw code shift
  | click x y => exact ho.elim
  | mouse kind x y mods double => exact ho.elim
  | event ev double =>
    cases ev with
    | mouse kind x y mods => exact ho.elim
    | key code mods =>
      simp only [FieldOp.releaseExec, FieldOp.exec, fieldEvent, applyEvent, e1]
      split
      · cases mods with
        | none => exact Sim.keycode cw h hv hw _ _
        | shift => exact Sim.keycode cw h hv hw _ _
        | other n => exact Sim.some h hv false
      · exact Sim.some h hv false
    | other => exact Sim.some h hv false
  | scrollUp => exact ho.elim
  | scrollDown => exact ho.elim

end Verif

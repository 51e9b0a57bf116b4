import Verif.Lemmas.Password
/-! Lemmas on input fields whose contents are alike. -/
namespace Verif
open InputField Content Spec

/-- None of the keys of line breaks types a character. -/
def NoCharBreak (keys : List KeyComb) : Prop := ∀ k ∈ keys, ¬ TypesChar k

/-- Fields which differ only by the characters of their contents, of the same widths at the same places. -/
structure AlikeField (cw : Char → Nat) (f g : InputField) : Prop where
  content : AlikeContent cw f.content g.content
  area : f.area = g.area
  password : f.passwordMode = g.passwordMode
  focused : f.focused = g.focused
  scroll : f.scroll = g.scroll
  keys : f.newLineKeys = g.newLineKeys ∧ NoCharBreak g.newLineKeys

/-- The same, with the same boolean. -/
def AlikeFieldB (cw : Char → Nat) (p q : InputField × Bool) : Prop := AlikeField cw p.1 q.1 ∧ p.2 = q.2

section
variable {cw : Char → Nat}

theorem fixScrollX_via {l l' : Text} (h : l.map (inputCharWidth cw) = l'.map (inputCharWidth cw)) (w x : Nat) (foc : Bool) (s : Nat) :
    fixScrollX cw w l x foc s = fixScrollX cw w l' x foc s := by
  unfold fixScrollX
  rw [lineWidth_via h, charIdxToCol_via h]

namespace AlikeField
variable {f g : InputField}

theorem refl {f : InputField} (hk : NoCharBreak f.newLineKeys) : AlikeField cw f f := ⟨.refl _, rfl, rfl, rfl, rfl, rfl, hk⟩

theorem setContent (h : AlikeField cw f g) {c d : Content} (hc : AlikeContent cw c d) :
    AlikeField cw { f with content := c } { g with content := d } := ⟨hc, h.area, h.password, h.focused, h.scroll, h.keys⟩

theorem fixScroll (h : AlikeField cw f g) : RelRun (AlikeField cw) (f.fixScroll cw) (g.fixScroll cw) := by
  have hY : f.fixY = g.fixY := by
    unfold fixY
    rw [h.content.len, h.area, h.content.pos, h.focused, h.scroll]
  unfold InputField.fixScroll
  rw [hY]
  refine (RelRun.rfl_of (fun _ => rfl) g.fixY).bind fun p q e => ?_
  subst e
  unfold Content.currentLine
  rw [h.content.pos, h.focused, h.scroll]
  refine (h.content.get _).bind fun l l' hl => ?_
  rw [fixScrollX_via hl]
  refine (RelRun.rfl_of (fun _ => rfl) (fixScrollX cw p.1 l' g.content.pos.x g.focused g.scroll.x)).bind fun x y e => ?_
  subst e
  exact ⟨h.content, h.area, h.password, rfl, rfl, h.keys⟩

theorem fixB (h : AlikeField cw f g) (b : Bool) :
    RelRun (AlikeFieldB cw) (do let f' ← f.fixScroll cw; some (f', b)) (do let f' ← g.fixScroll cw; some (f', b)) :=
  h.fixScroll.bind fun _ _ h' => ⟨h', rfl⟩

theorem wrap (h : AlikeField cw f g) {r s : Run (Content × Bool)} (hr : RelRun (AlikeB cw) r s) :
    RelRun (AlikeFieldB cw) (f.wrap cw r) (g.wrap cw s) := by
  unfold InputField.wrap
  refine hr.bind fun p q hpq => ?_
  rw [hpq.2]
  refine .ite Iff.rfl (fun _ => fixB (h.setContent hpq.1) _) fun _ => ⟨h.setContent hpq.1, rfl⟩

theorem setFocused (h : AlikeField cw f g) (b : Bool) : AlikeField cw { f with focused := b } { g with focused := b } :=
  ⟨h.content, h.area, h.password, rfl, h.scroll, h.keys⟩

theorem setAreaTo (h : AlikeField cw f g) (a : Area) : AlikeField cw { f with area := a } { g with area := a } :=
  ⟨h.content, rfl, h.password, h.focused, h.scroll, h.keys⟩

theorem setScroll (h : AlikeField cw f g) (p : Pos) : AlikeField cw { f with scroll := p } { g with scroll := p } :=
  ⟨h.content, h.area, h.password, h.focused, rfl, h.keys⟩

theorem changeArea (h : AlikeField cw f g) (x y w : Nat) : RelRun (AlikeField cw) (f.changeArea cw x y w) (g.changeArea cw x y w) := by
  unfold InputField.changeArea
  rw [h.area]
  exact .ite Iff.rfl (fun _ => (h.setAreaTo _).fixScroll) fun _ => h

theorem setArea (h : AlikeField cw f g) (a : Area) : RelRun (AlikeField cw) (f.setArea cw a) (g.setArea cw a) := by
  unfold InputField.setArea
  rw [h.area]
  exact .ite Iff.rfl (fun _ => (h.setAreaTo _).fixScroll) fun _ => h

theorem setFocus (h : AlikeField cw f g) (b : Bool) : RelRun (AlikeField cw) (f.setFocus cw b) (g.setFocus cw b) := by
  unfold InputField.setFocus
  rw [h.focused]
  exact .ite Iff.rfl (fun _ => h) fun _ => .ite Iff.rfl (fun _ => (h.setFocused _).fixScroll) fun _ => h.setFocused _

theorem cutSelection (h : AlikeField cw f g) : RelRun (fun p q => AlikeField cw p.1 q.1) (f.cutSelection cw) (g.cutSelection cw) := by
  unfold InputField.cutSelection
  refine h.content.selectionString.bind fun s t _ => ?_
  refine h.content.delSelection.bind fun p q hpq => ?_
  exact (h.setContent hpq.1).fixScroll.bind fun _ _ h' => .some h'

theorem delWide (h : AlikeField cw f g) : RelRun (AlikeField cw) f.delWide g.delWide := by
  unfold InputField.delWide
  rw [h.content.hasWide]
  exact .ite Iff.rfl (fun _ => h.content.delSelection.bind fun p q hpq => .some (h.setContent hpq.1)) fun _ => h

theorem insertStr (h : AlikeField cw f g) {s t : Text} (hst : AlikeText cw s t) :
    RelRun (AlikeField cw) (f.insertStr cw s) (g.insertStr cw t) := by
  unfold InputField.insertStr
  exact (AlikeContent.insertStr s t h.content hst).bind fun c d hc => (h.setContent hc).fixScroll

theorem replaceSelection (h : AlikeField cw f g) {s t : Text} (hst : AlikeText cw s t) :
    RelRun (AlikeField cw) (f.replaceSelection cw s) (g.replaceSelection cw t) := by
  unfold InputField.replaceSelection
  exact h.delWide.bind fun f' g' h' => (AlikeContent.insertStr s t h'.content hst).bind fun c d hc => (h'.setContent hc).fixScroll

theorem insertNewLine (h : AlikeField cw f g) : RelRun (AlikeFieldB cw) (f.insertNewLine cw) (g.insertNewLine cw) := by
  unfold InputField.insertNewLine
  exact h.content.insertNewLine.bind fun c d hc => fixB (h.setContent hc) _

theorem putChar (h : AlikeField cw f g) {a b : Char} (hab : AlikeChar cw a b) : RelRun (AlikeFieldB cw) (f.putChar cw a) (g.putChar cw b) := by
  unfold InputField.putChar
  exact (h.content.insertChar hab).bind fun c d hc => fixB (h.setContent hc) _

theorem clear (h : AlikeField cw f g) : RelRun (AlikeField cw) (f.clear cw) (g.clear cw) := (h.setContent (.refl _)).fixScroll

theorem delKey (h : AlikeField cw f g) {r s : Run (Content × Bool)} (hr : RelRun (AlikeB cw) r s) :
    RelRun (AlikeFieldB cw) (f.delKey r) (g.delKey s) := by
  unfold InputField.delKey
  rw [h.content.hasWide]
  refine .ite Iff.rfl (fun _ => ?_) fun _ => ?_
  · exact h.content.delSelection.bind fun p q hpq => ⟨h.setContent hpq.1, rfl⟩
  · exact hr.bind fun p q hpq => ⟨h.setContent hpq.1, hpq.2⟩

theorem charKey (h : AlikeField cw f g) {a b : Char} (hab : AlikeChar cw a b) : RelRun (AlikeFieldB cw) (f.charKey cw a) (g.charKey cw b) := by
  unfold InputField.charKey
  rw [h.content.hasWide]
  refine .ite Iff.rfl (fun _ => ?_) fun _ => h.putChar hab
  refine h.content.delSelection.bind fun p q hpq => ?_
  exact ((h.setContent hpq.1).putChar hab).bind fun p q hpq => fixB hpq.1 _

theorem pageUp (h : AlikeField cw f g) : RelRun (AlikeFieldB cw) (f.pageUp cw) (g.pageUp cw) := by
  unfold InputField.pageUp
  rw [h.area]
  exact h.wrap (h.content.moveLinesUp _)

theorem pageDown (h : AlikeField cw f g) : RelRun (AlikeFieldB cw) (f.pageDown cw) (g.pageDown cw) := by
  unfold InputField.pageDown
  rw [h.area]
  exact h.wrap (h.content.moveLinesDown _)

theorem moveKey (h : AlikeField cw f g) (k : KeyCode) : RelRun (AlikeFieldB cw) (f.moveKey cw k) (g.moveKey cw k) := by
  cases k with
  | home => exact h.wrap (.some h.content.moveToLineStart)
  | «end» => exact h.wrap h.content.moveToLineEnd
  | up => exact h.wrap (h.content.moveLinesUp 1)
  | down => exact h.wrap (h.content.moveLinesDown 1)
  | left => exact h.wrap h.content.moveLeft
  | right => exact h.wrap h.content.moveRight
  | pageUp => exact h.pageUp
  | pageDown => exact h.pageDown
  | backspace => exact ⟨h, rfl⟩
  | delete => exact ⟨h, rfl⟩
  | char c => exact ⟨h, rfl⟩
  | other n => exact ⟨h, rfl⟩

theorem applyKeycodeEvent (h : AlikeField cw f g) {a b : KeyCode} (hab : AlikeCode cw a b) (shift : Bool) :
    RelRun (AlikeFieldB cw) (f.applyKeycodeEvent cw a shift) (g.applyKeycodeEvent cw b shift) := by
  have hsel : AlikeContent cw (if shift then f.content.makeSelection else f.content.unselect)
      (if shift then g.content.makeSelection else g.content.unselect) := by
    cases shift
    · exact h.content.unselect
    · exact h.content.makeSelection
  cases a with
  | char a =>
    cases b with
    | char b => exact h.charKey hab
    | _ => cases hab
  | backspace => cases hab; exact h.delKey h.content.delCharLeft
  | delete => cases hab; exact h.delKey h.content.delCharBelow
  | home => cases hab; exact (h.setContent hsel).moveKey .home
  | «end» => cases hab; exact (h.setContent hsel).moveKey .end
  | up => cases hab; exact (h.setContent hsel).moveKey .up
  | down => cases hab; exact (h.setContent hsel).moveKey .down
  | left => cases hab; exact (h.setContent hsel).moveKey .left
  | right => cases hab; exact (h.setContent hsel).moveKey .right
  | pageUp => cases hab; exact (h.setContent hsel).moveKey .pageUp
  | pageDown => cases hab; exact (h.setContent hsel).moveKey .pageDown
  | other n => cases hab; exact (h.setContent hsel).moveKey (.other n)

theorem alikeCode_refl (k : KeyCode) : AlikeCode cw k k := by
  cases k <;> first | exact Or.inl rfl | rfl

theorem applyMods (h : AlikeField cw f g) (k : KeyComb) : RelRun (AlikeFieldB cw) (f.applyMods cw k) (g.applyMods cw k) := by
  unfold InputField.applyMods
  cases k.others with
  | nil =>
    cases k.mods with
    | none => exact h.applyKeycodeEvent (alikeCode_refl _) _
    | shift => exact h.applyKeycodeEvent (alikeCode_refl _) _
    | other n => exact ⟨h, rfl⟩
  | cons _ _ => cases k.mods <;> exact ⟨h, rfl⟩

theorem applyKey (h : AlikeField cw f g) (k : KeyComb) : RelRun (AlikeFieldB cw) (f.applyKeyCombination cw k) (g.applyKeyCombination cw k) := by
  unfold InputField.applyKeyCombination
  rw [h.focused, h.keys.1]
  exact .ite Iff.rfl (fun _ => ⟨h, rfl⟩) fun _ => .ite Iff.rfl (fun _ => h.insertNewLine) fun _ => h.applyMods k

theorem applyTyped (h : AlikeField cw f g) {k l : KeyComb} (hk : TypesChar k) (hl : TypesChar l)
    (hc : AlikeCode cw k.code l.code) (hm : k.mods = l.mods) :
    RelRun (AlikeFieldB cw) (f.applyKeyCombination cw k) (g.applyKeyCombination cw l) := by
  have nc : ∀ k : KeyComb, TypesChar k → g.newLineKeys.contains k = false := by
    intro k hk
    cases hc : g.newLineKeys.contains k with
    | false => rfl
    | true => exact absurd hk (h.keys.2 k (by simpa using hc))
  unfold InputField.applyKeyCombination
  rw [h.focused, h.keys.1, nc k hk, nc l hl]
  refine .ite Iff.rfl (fun _ => ⟨h, rfl⟩) fun _ => ?_
  obtain ⟨-, ho, hmod⟩ := hk
  obtain ⟨-, ho', -⟩ := hl
  simp only [Bool.false_eq_true, if_false]
  unfold InputField.applyMods
  rw [ho, ho', hm]
  rcases hmod with e | e <;> rw [hm] at e <;> rw [e]
  · exact h.applyKeycodeEvent hc _
  · exact h.applyKeycodeEvent hc _

theorem posOfCell (h : AlikeField cw f g) (x y : Nat) : RelRun (· = ·) (f.posOfCell cw x y) (g.posOfCell cw x y) := by
  unfold InputField.posOfCell
  rw [h.area, h.content.len, h.scroll]
  refine (RelRun.rfl_of (fun _ => rfl) (csub y g.area.top)).bind fun a b e => ?_
  subst e
  refine (RelRun.rfl_of (fun _ => rfl) (csub g.content.lines.length 1)).bind fun n b e => ?_
  subst e
  refine (h.content.get _).bind fun l l' hl => ?_
  refine (RelRun.rfl_of (fun _ => rfl) (csub x g.area.left)).bind fun dx b e => ?_
  subst e
  rw [colToCharIdx_via hl, line_length hl]
  exact .some rfl

theorem applyClick (h : AlikeField cw f g) (x y : Nat) : RelRun (AlikeFieldB cw) (f.applyClickEvent cw x y) (g.applyClickEvent cw x y) := by
  unfold InputField.applyClickEvent
  rw [h.area, h.focused]
  refine (RelRun.rfl_of (fun _ => rfl) (g.area.contains x y)).bind fun a b e => ?_
  subst e
  refine .ite Iff.rfl (fun _ => .ite Iff.rfl (fun _ => ?_) fun _ => ⟨⟨h.content, rfl, h.password, rfl, h.scroll, h.keys⟩, rfl⟩) fun _ => ⟨h, rfl⟩
  refine (h.posOfCell x y).bind fun p q e => ?_
  subst e
  exact (h.content.setCursorPos p).bind fun c d hc => ⟨⟨hc, rfl, h.password, rfl, h.scroll, h.keys⟩, rfl⟩

theorem scrollUp (h : AlikeField cw f g) : AlikeFieldB cw f.scrollUp g.scrollUp := by
  unfold InputField.scrollUp
  rw [h.scroll]
  split
  · exact ⟨h.setScroll _, rfl⟩
  · exact ⟨h, rfl⟩

theorem scrollDown (h : AlikeField cw f g) : AlikeFieldB cw f.scrollDown g.scrollDown := by
  unfold InputField.scrollDown
  rw [h.scroll, h.area, h.content.len]
  split
  · exact ⟨⟨h.content, rfl, h.password, h.focused, rfl, h.keys⟩, rfl⟩
  · exact ⟨h, rfl⟩

theorem mouseAt (h : AlikeField cw f g) (alnum : Char → Bool) (k : MouseKind) (m : KeyMods) (double : Bool) (p : Pos)
    (hk : k = .upLeft → double = false) : RelRun (AlikeField cw) (f.mouseAt alnum k m double p) (g.mouseAt alnum k m double p) := by
  cases k with
  | downLeft =>
    have hsel : AlikeContent cw (if m = .shift then f.content.makeSelection else f.content.unselect)
        (if m = .shift then g.content.makeSelection else g.content.unselect) := by
      split
      · exact h.content.makeSelection
      · exact h.content.unselect
    exact (hsel.setCursorPos p).bind fun c d hc => .some (h.setContent hc)
  | upLeft =>
    rw [hk rfl]
    exact h
  | dragLeft => exact (h.content.makeSelection.setCursorPos p).bind fun c d hc => .some (h.setContent hc)
  | scrollDown => exact h.scrollDown.1
  | scrollUp => exact h.scrollUp.1
  | other n => exact h

theorem applyMouse (h : AlikeField cw f g) (alnum : Char → Bool) (k : MouseKind) (x y : Nat) (m : KeyMods) (double : Bool)
    (hk : k = .upLeft → double = false) :
    RelRun (AlikeFieldB cw) (f.applyMouseEvent cw alnum k x y m double) (g.applyMouseEvent cw alnum k x y m double) := by
  unfold InputField.applyMouseEvent
  rw [h.area, h.focused]
  refine (RelRun.rfl_of (fun _ => rfl) (g.area.contains x y)).bind fun a b e => ?_
  subst e
  refine .ite Iff.rfl (fun _ => .ite Iff.rfl (fun _ => ?_) fun _ => ⟨⟨h.content, rfl, h.password, rfl, h.scroll, h.keys⟩, rfl⟩) fun _ => ⟨h, rfl⟩
  refine (h.posOfCell x y).bind fun p q e => ?_
  subst e
  exact (h.mouseAt alnum k m double p hk).bind fun c d hc => ⟨hc, rfl⟩

theorem applyEvent (h : AlikeField cw f g) (alnum : Char → Bool) {e e' : FieldEvent} (double : Bool) (he : AlikeEvent cw e e')
    (hl : ¬ LooksAtText (.event e double)) :
    RelRun (AlikeFieldB cw) (f.applyEvent cw alnum e double) (g.applyEvent cw alnum e' double) := by
  cases e with
  | mouse k x y m =>
    cases he
    refine h.applyMouse alnum k x y m double ?_
    rintro rfl
    cases double with
    | false => rfl
    | true => exact (hl rfl).elim
  | other => cases he; exact ⟨h, rfl⟩
  | key a m =>
    cases e' with
    | mouse => exact he.elim
    | other => exact he.elim
    | key b n =>
      obtain ⟨rfl, hc⟩ := he
      have hc' : AlikeCode cw a b := by
        rcases hc with rfl | ⟨hc, -⟩
        · exact alikeCode_refl _
        · exact hc
      unfold InputField.applyEvent
      rw [h.focused]
      refine .ite Iff.rfl (fun _ => ?_) fun _ => ⟨h, rfl⟩
      cases m with
      | none => exact h.applyKeycodeEvent hc' _
      | shift => exact h.applyKeycodeEvent hc' _
      | other n => exact ⟨h, rfl⟩

theorem wrapped (h : AlikeField cw f g) (alnum : Char → Bool) (op : WrapOp) (hl : ¬ LooksAtText (.wrapped op)) :
    RelRun (AlikeFieldB cw) (f.wrap cw (op.call cw alnum f)) (g.wrap cw (op.call cw alnum g)) := by
  refine h.wrap ?_
  cases op with
  | moveUp => exact h.content.moveLinesUp 1
  | moveDown => exact h.content.moveLinesDown 1
  | moveLeft => exact h.content.moveLeft
  | moveRight => exact h.content.moveRight
  | moveToStart => exact .some h.content.moveToStart
  | moveToEnd => exact h.content.moveToEnd
  | moveToLineStart => exact .some h.content.moveToLineStart
  | moveToLineEnd => exact h.content.moveToLineEnd
  | moveWordLeft => exact (hl trivial).elim
  | moveWordRight => exact (hl trivial).elim
  | delCharBelow => exact h.content.delCharBelow
  | delSelection => exact h.content.delSelection
  | delCharLeft => exact h.content.delCharLeft
  | delWordLeft => exact (hl trivial).elim
  | delWordRight => exact (hl trivial).elim
  | moveCurrentLineUp => exact h.content.moveCurrentLineUp
  | moveCurrentLineDown => exact h.content.moveCurrentLineDown
  | selectWordAround => exact (hl trivial).elim
  | pageUp => unfold WrapOp.call; rw [h.area]; exact h.content.moveLinesUp _
  | pageDown => unfold WrapOp.call; rw [h.area]; exact h.content.moveLinesDown _

theorem mapTrue {r s : Run InputField} (h : RelRun (AlikeField cw) r s) :
    RelRun (AlikeFieldB cw) (r.map (·, true)) (s.map (·, true)) := h.map fun _ _ h => ⟨h, rfl⟩

theorem exec (h : AlikeField cw f g) (alnum : Char → Bool) {o p : FieldOp} (ho : AlikeOp cw o p) :
    RelRun (AlikeFieldB cw) (o.exec cw alnum f) (p.exec cw alnum g) := by
  cases o with
  | setMonoLine => obtain ⟨rfl, -⟩ := ho; exact ⟨⟨h.content, h.area, h.password, h.focused, h.scroll, rfl, fun _ hk => by cases hk⟩, rfl⟩
  | newLineOn k =>
    obtain ⟨rfl, hk⟩ := ho
    refine ⟨⟨h.content, h.area, h.password, h.focused, h.scroll, ?_, ?_⟩, rfl⟩
    · show f.newLineKeys ++ [k] = g.newLineKeys ++ [k]
      rw [h.keys.1]
    · intro k' hk'
      rcases List.mem_append.1 hk' with hk' | hk'
      · exact h.keys.2 k' hk'
      · rw [List.mem_singleton.1 hk']; exact hk
  | setPasswordMode b => obtain ⟨rfl, -⟩ := ho; exact ⟨⟨h.content, h.area, rfl, h.focused, h.scroll, h.keys⟩, rfl⟩
  | changeArea x y w => obtain ⟨rfl, -⟩ := ho; exact mapTrue (h.changeArea x y w)
  | setArea a => obtain ⟨rfl, -⟩ := ho; exact mapTrue (h.setArea a)
  | setFocus b => obtain ⟨rfl, -⟩ := ho; exact mapTrue (h.setFocus b)
  | cutSelection => obtain ⟨rfl, -⟩ := ho; exact h.cutSelection.map fun _ _ h => ⟨h, rfl⟩
  | replaceSelection s =>
    cases p with
    | replaceSelection t => exact mapTrue (h.replaceSelection ho)
    | _ => cases ho.1
  | setStr s => exact (ho.2 trivial).elim
  | insertNewLine => obtain ⟨rfl, -⟩ := ho; exact h.insertNewLine
  | putChar a =>
    cases p with
    | putChar b => exact h.putChar ho
    | _ => cases ho.1
  | clear => obtain ⟨rfl, -⟩ := ho; exact mapTrue h.clear
  | insertStr s =>
    cases p with
    | insertStr t => exact mapTrue (h.insertStr ho)
    | _ => cases ho.1
  | wrapped op => obtain ⟨rfl, hl⟩ := ho; exact h.wrapped alnum op hl
  | key k =>
    cases p with
    | key l =>
      rcases ho with rfl | ⟨hk, hl, hc, hm⟩
      · exact h.applyKey k
      · exact h.applyTyped hk hl hc hm
    | _ => cases ho.1
  | keycode a s =>
    cases p with
    | keycode b t => obtain ⟨hc, rfl⟩ := ho; exact h.applyKeycodeEvent hc s
    | _ => cases ho.1
  | click x y => obtain ⟨rfl, -⟩ := ho; exact h.applyClick x y
  | mouse k x y m double =>
    obtain ⟨rfl, hl⟩ := ho
    refine h.applyMouse alnum k x y m double ?_
    rintro rfl
    cases double with
    | false => rfl
    | true => exact (hl rfl).elim
  | event e double =>
    cases p with
    | event e' d => obtain ⟨he, rfl, hl⟩ := ho; exact h.applyEvent alnum double he hl
    | _ => cases ho.1
  | scrollUp => obtain ⟨rfl, -⟩ := ho; exact .some h.scrollUp
  | scrollDown => obtain ⟨rfl, -⟩ := ho; exact .some h.scrollDown

theorem execAll (alnum : Char → Bool) : ∀ {ops ops' : List FieldOp} {f g : InputField}, AlikeField cw f g → AlikeOps cw ops ops' →
    RelRun (fun p q => AlikeField cw p.1 q.1 ∧ p.2 = q.2) (Spec.execAll cw alnum f ops) (Spec.execAll cw alnum g ops')
  | [], [], _, _, h, _ => ⟨h, rfl⟩
  | _ :: _, _ :: _, _, _, h, ho => by
    refine (h.exec alnum ho.1).bind fun p q hpq => ?_
    refine (execAll alnum hpq.1 ho.2).bind fun r s hrs => ?_
    refine ⟨hrs.1, ?_⟩
    show p.2 :: r.2 = q.2 :: s.2
    rw [hpq.2, hrs.2]
  | [], _ :: _, _, _, _, ho => ho.elim
  | _ :: _, [], _, _, _, ho => ho.elim

end AlikeField
end
end Verif

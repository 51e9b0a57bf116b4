import Verif.Lemmas.ContentHistory
/-! C95: histories of calls of the methods of input contents and input fields. -/
namespace Verif.Props
open Verif.Spec InputField

/-- C95: whatever the methods called one after the other on a content, it has the text, the cursor and the selection of the reference editor. -/
theorem C95_calls (cw : Char → Nat) (alnum : Char → Bool) : ∀ (ops : List ContentOp) {c : Content}, c.Valid →
    (⟨⟨c.before, c.after⟩, c.tail⟩ : SelDoc).AllRegular cw alnum ops →
    ∃ c', callAll cw alnum ops c = some c' ∧ c'.Valid ∧ c'.toText = c'.before ++ c'.after ∧
      (⟨⟨c'.before, c'.after⟩, c'.tail⟩ : SelDoc) = (⟨⟨c.before, c.after⟩, c.tail⟩ : SelDoc).calls cw alnum ops
  | [], c, hv, _ => ⟨c, rfl, hv, (C22_parts hv).symm, rfl⟩
  | op :: ops, c, hv, hr => by
    obtain ⟨c1, h1, h2, h3⟩ := contentOp_doc cw alnum hv op hr.1
    have hr2 := hr.2
    change SelDoc.AllRegular cw alnum ((selDocOf c).call cw alnum op) ops at hr2
    rw [← h3] at hr2
    obtain ⟨c2, k1, k2, k3, k4⟩ := C95_calls cw alnum ops h2 hr2
    refine ⟨c2, by simp [callAll, h1, k1], k2, k3, ?_⟩
    rw [k4]
    show (selDocOf c1).calls cw alnum ops = ((selDocOf c).call cw alnum op).calls cw alnum ops
    rw [← h3]

/-- C95: for a new content. -/
theorem C95_new (cw : Char → Nat) (alnum : Char → Bool) (ops : List ContentOp) (hr : ({} : SelDoc).AllRegular cw alnum ops) :
    ∃ c', callAll cw alnum ops {} = some c' ∧ c'.toText = (({} : SelDoc).calls cw alnum ops).text ∧
      (⟨⟨c'.before, c'.after⟩, c'.tail⟩ : SelDoc) = ({} : SelDoc).calls cw alnum ops := by
  obtain ⟨c', h1, _, h3, h4⟩ := C95_calls cw alnum ops (c := {}) Content.default_valid hr
  exact ⟨c', h1, by rw [h3]; exact congrArg SelDoc.text h4, h4⟩

private instance (d : SelDoc) (op : ContentOp) : Decidable (d.Regular op) := by cases op <;> (unfold SelDoc.Regular; infer_instance)

private instance regularDec (cw : Char → Nat) (alnum : Char → Bool) : ∀ (ops : List ContentOp) (d : SelDoc), Decidable (d.AllRegular cw alnum ops)
  | [], _ => .isTrue trivial
  | op :: ops, d => by
    have := regularDec cw alnum ops (d.call cw alnum op)
    unfold SelDoc.AllRegular
    infer_instance

/-- Lines are inserted, then moved; words are removed; a word is selected and removed. -/
private def calling : List ContentOp :=
  [.insertStr "one two\nab cd\nlast".toList, .moveCurrentLineUp, .moveWordLeft, .delWordRight, .pushChar '!', .setCursorPos ⟨0, 4⟩, .selectWordAround,
    .delSelection, .moveDown, .makeSelection, .moveToLineEnd, .delWordLeft, .setSelectionTail ⟨9, 9⟩, .swapLines 0 2]

private def callingAlnum (c : Char) : Bool := c.isAlphanum

set_option maxRecDepth 8000 in
/-- What this history gives. -/
example : (callAll (fun _ => 1) callingAlnum calling {}).map (fun c => (c.toText, c.pos, c.tail)) =
    some ("ab cd!\n\none ".toList, ⟨1, 0⟩, some ⟨2, 4⟩) := by decide +kernel

set_option maxRecDepth 8000 in
/-- The hypothesis of C95 holds for this history. -/
example : ({} : SelDoc).AllRegular (fun _ => 1) callingAlnum calling := by decide +kernel

/-- C95: the end of the selection set on another line, after the end of this line, isn't a place of the text. -/
theorem C95_tail_counterexample :
    callAll (fun _ => 1) callingAlnum [.insertStr "a\nbcd".toList, .setSelectionTail ⟨0, 3⟩] {} = some ⟨⟨1, 3⟩, some ⟨0, 3⟩, ["a".toList, "bcd".toList]⟩ ∧
      ¬ ValidPos ["a".toList, "bcd".toList] ⟨0, 3⟩ ∧
      ¬ (({} : SelDoc).calls (fun _ => 1) callingAlnum [.insertStr "a\nbcd".toList]).Regular (.setSelectionTail ⟨0, 3⟩) := by
  refine ⟨by decide +kernel, ?_, by decide +kernel⟩
  rintro ⟨l, h1, h2⟩
  cases h1
  simp at h2

/-- C95: the selection of parts of several lines isn't removed exactly. -/
theorem C95_lines_counterexample :
    let ops := [.insertStr "ab\ncd\nef".toList, .moveLeft, .makeSelection, .moveLinesUp 2]
    (callAll (fun _ => 1) callingAlnum (ops ++ [.delSelection]) {}).map Content.toText = some "a\ncd\nf".toList ∧
      (({} : SelDoc).calls (fun _ => 1) callingAlnum ops).without.text = "a".toList := by decide +kernel

private theorem field_scrolled (cw : Char → Nat) {f : InputField} {c : Content} (h : c.Valid) (hw : 1 ≤ f.area.width) :
    ∃ f', fixScroll cw { f with content := c } = some f' ∧ f'.content = c ∧ SameSettings f f' := by
  obtain ⟨f', g1, ⟨s, g2⟩, _⟩ := fixScroll_ok cw (f := { f with content := c }) h hw
  exact ⟨f', g1, by rw [g2], by rw [g2]; exact ⟨rfl, rfl, rfl⟩⟩

/-- One method of a field. -/
private theorem method_ok (cw : Char → Nat) (alnum : Char → Bool) {f : InputField} (h : f.content.Valid) (hw : 1 ≤ f.area.width) (m : FieldMethod) :
    ∃ f' b, m.op.exec cw alnum f = some (f', b) ∧ f'.content.Valid ∧
      selDocOf f'.content = (m.onContent f.area.height).elim (selDocOf f.content) ((selDocOf f.content).call cw alnum) ∧ SameSettings f f' := by
  -- methods of the content without boolean
  have plain : ∀ (op : ContentOp) (k : InputField → InputField × Bool), (∀ g, (k g).1 = g) → (selDocOf f.content).Regular op →
      ∃ f' b, (do let c ← op.exec cw alnum f.content; (fixScroll cw { f with content := c }).map k) = some (f', b) ∧ f'.content.Valid ∧
        selDocOf f'.content = (selDocOf f.content).call cw alnum op ∧ SameSettings f f' := by
    intro op k hk hr
    obtain ⟨c, h1, h2, h3⟩ := contentOp_doc cw alnum h op hr
    obtain ⟨f', g1, g2, g3⟩ := field_scrolled cw (f := f) h2 hw
    have hkf := hk f'
    refine ⟨f', (k f').2, ?_, by rw [g2]; exact h2, by rw [g2]; exact h3, g3⟩
    rw [h1]
    simp only [Option.bind_eq_bind, Option.bind_some, g1, Option.map_some]
    congr 1
    exact Prod.ext hkf rfl
  -- methods of the content with a boolean
  have wrap : ∀ (op : ContentOp) (r : Run (Content × Bool)), op.exec cw alnum f.content = r.map Prod.fst → (selDocOf f.content).Regular op →
      ∃ f' b, wrap cw f r = some (f', b) ∧ f'.content.Valid ∧ selDocOf f'.content = (selDocOf f.content).call cw alnum op ∧ SameSettings f f' := by
    intro op r hr hg
    obtain ⟨c, h1, h2, h3⟩ := contentOp_doc cw alnum h op hg
    rw [hr, Option.map_eq_some_iff] at h1
    obtain ⟨⟨c1, b⟩, rfl, rfl⟩ := h1
    cases b with
    | false => exact ⟨{ f with content := c1 }, false, rfl, h2, h3, rfl, rfl, rfl⟩
    | true =>
      obtain ⟨f', g1, g2, g3⟩ := field_scrolled cw (f := f) h2 hw
      exact ⟨f', true, by simp [InputField.wrap, g1], by rw [g2]; exact h2, by rw [g2]; exact h3, g3⟩
  cases m with
  | setStr s =>
    obtain ⟨f', b, g1, g2⟩ := plain (.setStr s) (·, true) (fun _ => rfl) trivial
    refine ⟨f', b, ?_, g2⟩
    rw [← g1]
    simp only [FieldMethod.op, FieldOp.exec, InputField.setStr, ContentOp.exec]
    cases f.content.setStr s <;> rfl
  | insertNewLine =>
    obtain ⟨f', b, g1, g2⟩ := plain .insertNewLine (·, true) (fun _ => rfl) trivial
    refine ⟨f', b, ?_, g2⟩
    rw [← g1]
    simp only [FieldMethod.op, FieldOp.exec, InputField.insertNewLine, ContentOp.exec]
    cases f.content.insertNewLine with
    | none => rfl
    | some c => cases hc : fixScroll cw { f with content := c } <;> simp [hc]
  | putChar ch =>
    obtain ⟨f', b, g1, g2⟩ := plain (.insertChar ch) (·, true) (fun _ => rfl) trivial
    refine ⟨f', b, ?_, g2⟩
    rw [← g1]
    simp only [FieldMethod.op, FieldOp.exec, InputField.putChar, ContentOp.exec]
    cases f.content.insertChar ch with
    | none => rfl
    | some c => cases hc : fixScroll cw { f with content := c } <;> simp [hc]
  | clear =>
    obtain ⟨f', b, g1, g2⟩ := plain .clear (·, true) (fun _ => rfl) trivial
    exact ⟨f', b, g1, g2⟩
  | insertStr s =>
    obtain ⟨f', b, g1, g2⟩ := plain (.insertStr s) (·, true) (fun _ => rfl) trivial
    refine ⟨f', b, ?_, g2⟩
    rw [← g1]
    simp only [FieldMethod.op, FieldOp.exec, InputField.insertStr, ContentOp.exec]
    cases f.content.insertStr s <;> rfl
  | wrapped op =>
    cases op with
    | delSelection => exact wrap .delSelection _ rfl trivial
    | moveUp => exact wrap .moveUp _ rfl trivial
    | moveDown => exact wrap .moveDown _ rfl trivial
    | moveLeft => exact wrap .moveLeft _ rfl trivial
    | moveRight => exact wrap .moveRight _ rfl trivial
    | moveToStart => exact wrap .moveToStart _ rfl trivial
    | moveToEnd => exact wrap .moveToEnd _ rfl trivial
    | moveToLineStart => exact wrap .moveToLineStart _ rfl trivial
    | moveToLineEnd => exact wrap .moveToLineEnd _ rfl trivial
    | moveWordLeft => exact wrap .moveWordLeft _ rfl trivial
    | moveWordRight => exact wrap .moveWordRight _ rfl trivial
    | delCharBelow => exact wrap .delCharBelow _ rfl trivial
    | delCharLeft => exact wrap .delCharLeft _ rfl trivial
    | delWordLeft => exact wrap .delWordLeft _ rfl trivial
    | delWordRight => exact wrap .delWordRight _ rfl trivial
    | moveCurrentLineUp => exact wrap .moveCurrentLineUp _ rfl trivial
    | moveCurrentLineDown => exact wrap .moveCurrentLineDown _ rfl trivial
    | selectWordAround => exact wrap .selectWordAround _ rfl trivial
    | pageUp => exact wrap (.moveLinesUp f.area.height) _ rfl trivial
    | pageDown => exact wrap (.moveLinesDown f.area.height) _ rfl trivial
  | scrollUp =>
    show ∃ f' b, some f.scrollUp = some (f', b) ∧ _
    unfold InputField.scrollUp
    split
    · exact ⟨_, _, rfl, h, rfl, rfl, rfl, rfl⟩
    · exact ⟨_, _, rfl, h, rfl, rfl, rfl, rfl⟩
  | scrollDown =>
    show ∃ f' b, some f.scrollDown = some (f', b) ∧ _
    unfold InputField.scrollDown
    split
    · exact ⟨_, _, rfl, h, rfl, rfl, rfl, rfl⟩
    · exact ⟨_, _, rfl, h, rfl, rfl, rfl, rfl⟩

/-- The places of the text where the mouse is for each event, in the field as it's then. -/
def PlacesOf (cw : Char → Nat) (alnum : Char → Bool) : InputField → List FieldCall → Prop
  | _, [] => True
  | f, a :: as =>
    (∀ e p x y, a = .event e p → (e = .click x y ∨ ∃ m : MouseInput, e = .mouse m ∧ m.x = x ∧ m.y = y) → InArea f.area x y → CellAt cw f x y p) ∧
      ∀ f' t, a.give cw alnum f = some (f', t) → PlacesOf cw alnum f' as

/-- C95: sessions in which methods of the field are called between the events of the user: the text, the cursor, the selection, the focus and the area are
those of the reference, and the cut texts are the same. -/
theorem C95_session (cw : Char → Nat) (alnum : Char → Bool) : ∀ (as : List FieldCall) {f : InputField}, f.content.Valid →
    1 ≤ f.area.width → OnScreen f.area → (∀ a ∈ as, AllowedCall a) → PlacesOf cw alnum f as →
    ∃ f' cuts, giveCalls cw alnum f as = some (f', cuts) ∧ f'.content.toText = f'.content.before ++ f'.content.after ∧
      (fieldDocOf f', cuts) = (fieldDocOf f).acts cw alnum f.newLineKeys as
  | [], f, hv, _, _, _, _ => ⟨f, [], rfl, (C22_parts hv).symm, rfl⟩
  | a :: as, f, hv, hw, ho, ha, hc => by
    have one : ∃ f' t, a.give cw alnum f = some (f', t) ∧ f'.content.Valid ∧ 1 ≤ f'.area.width ∧ OnScreen f'.area ∧ f'.newLineKeys = f.newLineKeys ∧
        (fieldDocOf f', t) = (fieldDocOf f).act cw alnum f.newLineKeys a := by
      cases a with
      | event e p => exact sessionEvent_ok cw alnum hv hw ho e (ha (.event e p) (by simp)) p (fun x y => hc.1 e p x y rfl)
      | method m =>
        obtain ⟨f', b, h1, h2, h3, h4, h5, h6⟩ := method_ok cw alnum hv hw m
        refine ⟨f', [], by simp [FieldCall.give, h1], h2, by rw [h4]; exact hw, by rw [h4]; exact ho, h6, ?_⟩
        show ((⟨selDocOf f'.content, f'.focused, f'.area⟩ : FieldDoc), ([] : Text)) = _
        rw [h3, h4, h5]
        rfl
    obtain ⟨f1, t, h1, h2, h3, h4, h5, h6⟩ := one
    obtain ⟨f2, cuts, k1, k2, k3⟩ := C95_session cw alnum as h2 h3 h4 (fun x hm => ha x (by simp [hm])) (hc.2 f1 t h1)
    refine ⟨f2, t :: cuts, by simp [giveCalls, h1, k1], k2, ?_⟩
    simp only [FieldDoc.acts]
    rw [← h6, ← h5, ← k3]

/-- The same calls, but for the places of the mouse. -/
def SameCalls (as bs : List FieldCall) : Prop :=
  as.map (fun | .event e _ => FieldCall.event e ⟨0, 0⟩ | a => a) = bs.map (fun | .event e _ => FieldCall.event e ⟨0, 0⟩ | a => a)

private theorem give_fieldOk (cw : Char → Nat) (alnum : Char → Bool) {f f' : InputField} {t : Text} (h : FieldOk f) (a : FieldCall) (ha : AllowedCall a)
    (hg : a.give cw alnum f = some (f', t)) : FieldOk f' := by
  cases a with
  | event e p => exact sessionEvent_fieldOk cw alnum h e ha hg
  | method m =>
    have ho : m.op.Allowed f := by cases m <;> trivial
    obtain ⟨f1, b, h1, h2, _⟩ := fieldOp_ok cw alnum h m.op ho
    simp only [FieldCall.give, h1, Option.bind_eq_bind, Option.bind_some] at hg
    cases hg
    exact h2

/-- C95: the mouse always is at a place of the text: every session can be given the places wanted by `C95_session`. -/
theorem C95_places (cw : Char → Nat) (alnum : Char → Bool) (as : List FieldCall) {f : InputField} (hv : f.content.Valid) (hw : 1 ≤ f.area.width)
    (ho : OnScreen f.area) (ha : ∀ a ∈ as, AllowedCall a) : ∃ bs, SameCalls as bs ∧ (∀ b ∈ bs, AllowedCall b) ∧ PlacesOf cw alnum f bs := by
  have key : ∀ (as : List FieldCall) (f : InputField), FieldOk f → (∀ a ∈ as, AllowedCall a) →
      ∃ bs, SameCalls as bs ∧ (∀ b ∈ bs, AllowedCall b) ∧ PlacesOf cw alnum f bs := by
    intro as
    induction as with
    | nil => exact fun _ _ _ => ⟨[], rfl, by simp, trivial⟩
    | cons a as ih =>
      intro f h ha
      have rest : ∃ bs, SameCalls as bs ∧ (∀ b ∈ bs, AllowedCall b) ∧ ∀ f' t, a.give cw alnum f = some (f', t) → PlacesOf cw alnum f' bs := by
        cases hg : a.give cw alnum f with
        | none => exact ⟨as, rfl, fun b hb => ha b (by simp [hb]), by simp⟩
        | some r =>
          obtain ⟨bs, b1, b2, b3⟩ := ih r.1 (give_fieldOk cw alnum h a (ha a (by simp)) hg) fun b hb => ha b (by simp [hb])
          refine ⟨bs, b1, b2, ?_⟩
          intro f' t e
          cases e
          exact b3
      obtain ⟨bs, b1, b2, b3⟩ := rest
      cases a with
      | method m =>
        refine ⟨.method m :: bs, by simp only [SameCalls, List.map_cons, List.cons.injEq, true_and]; exact b1, ?_, ?_, b3⟩
        · intro b hb
          rcases List.mem_cons.1 hb with rfl | hb
          · trivial
          · exact b2 b hb
        · intro e p x y he
          cases he
      | event e p0 =>
        have cell : ∃ p, ∀ x y, (e = .click x y ∨ ∃ m : MouseInput, e = .mouse m ∧ m.x = x ∧ m.y = y) → InArea f.area x y → CellAt cw f x y p := by
          have here : ∀ x y, ∃ p, InArea f.area x y → CellAt cw f x y p := by
            intro x y
            by_cases hi : InArea f.area x y
            · obtain ⟨p, _, h2, _⟩ := posOfCell_at cw h hi
              exact ⟨p, fun _ => h2⟩
            · exact ⟨⟨0, 0⟩, fun h => absurd h hi⟩
          cases e with
          | click x y =>
            obtain ⟨p, hp⟩ := here x y
            refine ⟨p, ?_⟩
            rintro _ _ (h | ⟨m, h, _⟩)
            · cases h; exact hp
            · cases h
          | mouse m =>
            obtain ⟨p, hp⟩ := here m.x m.y
            refine ⟨p, ?_⟩
            rintro _ _ (h | ⟨m', h, rfl, rfl⟩)
            · cases h
            · cases h; exact hp
          | cmd c => exact ⟨⟨0, 0⟩, by rintro _ _ (h | ⟨m, h, _⟩) <;> cases h⟩
          | focus b => exact ⟨⟨0, 0⟩, by rintro _ _ (h | ⟨m, h, _⟩) <;> cases h⟩
          | area a => exact ⟨⟨0, 0⟩, by rintro _ _ (h | ⟨m, h, _⟩) <;> cases h⟩
        obtain ⟨p, hp⟩ := cell
        refine ⟨.event e p :: bs, by simp only [SameCalls, List.map_cons, List.cons.injEq, true_and]; exact b1, ?_, ?_, b3⟩
        · intro b hb
          rcases List.mem_cons.1 hb with rfl | hb
          · exact ha (.event e p0) (by simp)
          · exact b2 b hb
        · intro e' p' x y he
          cases he
          exact hp x y
  exact key as f ⟨hv, hw, ho⟩ ha

/-- An application sets a text in a field without focus, the user clicks and types, and the application moves the line, removes a word, and scrolls. -/
private def talk : List FieldCall :=
  [.method (.setStr "one two\nab\ncd\nlast".toList), .event (.cmd (.key { code := .char 'x' })) ⟨0, 0⟩, .event (.focus true) ⟨0, 0⟩,
    .event (.cmd (.key { code := .char 'x' })) ⟨0, 0⟩, .method (.wrapped .moveCurrentLineUp), .method (.wrapped .pageUp), .method (.wrapped .moveWordRight),
    .method (.wrapped .delWordLeft), .method .scrollDown, .method (.wrapped .selectWordAround), .event (.cmd .cut) ⟨0, 0⟩]

private def talkField : InputField := { area := ⟨2, 1, 12, 2⟩, focused := false }

set_option maxRecDepth 8000 in
/-- What this session gives. -/
example : (giveCalls (fun _ => 1) callingAlnum talkField talk).map (fun r => (r.1.content.toText, r.1.content.pos, r.2.filter (· ≠ []))) =
    some ("one \nab\nlastx\ncd".toList, ⟨0, 4⟩, ["o".toList]) := by decide +kernel

set_option maxRecDepth 8000 in
/-- The hypotheses of C95 hold for this session. -/
example : talkField.content.Valid ∧ 1 ≤ talkField.area.width ∧ OnScreen talkField.area ∧ (∀ a ∈ talk, AllowedCall a) ∧
    PlacesOf (fun _ => 1) callingAlnum talkField talk := by
  refine ⟨Content.default_valid, by decide, by simp [OnScreen, talkField], by simp [talk, AllowedCall, AllowedEvent], ?_⟩
  have key : ∀ (as : List FieldCall) (f : InputField), (∀ a ∈ as, ∀ e p, a = .event e p → (∀ x y, e ≠ .click x y) ∧ ∀ m, e ≠ .mouse m) →
      PlacesOf (fun _ => 1) callingAlnum f as := by
    intro as
    induction as with
    | nil => exact fun _ _ => trivial
    | cons a as ih =>
      refine fun f h => ⟨?_, fun f' _ _ => ih f' fun b hb => h b (by simp [hb])⟩
      rintro e p x y he (rfl | ⟨m, rfl, _⟩) _
      · exact absurd rfl ((h a (by simp) _ p he).1 x y)
      · exact absurd rfl ((h a (by simp) _ p he).2 m)
  exact key talk talkField (by simp [talk])

end Verif.Props

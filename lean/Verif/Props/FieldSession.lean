import Verif.Spec.FieldSession
import Verif.Props.SelectEditor
import Verif.Props.InputField
/-! C88: sessions with the keyboard, the clipboard and the mouse in an input field. -/
namespace Verif.Props
open Verif.Spec InputField

/-- The reference of a field. -/
def fieldDocOf (f : InputField) : FieldDoc := ⟨⟨⟨f.content.before, f.content.after⟩, f.content.tail⟩, f.focused, f.area⟩

/-- The places of the text where the mouse is for each event, in the field as it's then. -/
def CellsOf (cw : Char → Nat) (alnum : Char → Bool) : InputField → List (SessionEvent × Pos) → Prop
  | _, [] => True
  | f, (e, p) :: es =>
    (∀ x y, (e = .click x y ∨ ∃ m : MouseInput, e = .mouse m ∧ m.x = x ∧ m.y = y) → InArea f.area x y → CellAt cw f x y p) ∧
      ∀ f' t, giveEvent cw alnum f e = some (f', t) → CellsOf cw alnum f' es

private theorem has_iff (f : InputField) (x y : Nat) : (fieldDocOf f).has x y = true ↔ InArea f.area x y := by
  rw [FieldDoc.has, decide_eq_true_iff]
  simp only [fieldDocOf, InArea]
  constructor
  · rintro ⟨a, b, c, d⟩
    exact ⟨x - f.area.left, y - f.area.top, by omega, by omega, by omega, by omega⟩
  · rintro ⟨i, j, a, b, rfl, rfl⟩
    omega

private theorem cellAt_valid {cw : Char → Nat} {f : InputField} {x y : Nat} {p : Pos} (h : CellAt cw f x y p) : ValidPos f.content.lines p := by
  obtain ⟨_, l, h1, h2, _⟩ := h
  exact ⟨l, h1, h2⟩

theorem selDoc_putAt {c : Content} (h : c.Valid) {p : Pos} (hp : ValidPos c.lines p) :
    (selDocOf c).putAt p = ⟨textBefore c.lines p, textAfter c.lines p⟩ := by
  rw [SelDoc.putAt, selDoc_text h, indexIn_eq h.cleanLines hp, ← text_split hp, List.take_left, List.drop_left]

theorem selDoc_moved {c : Content} (h : c.Valid) {p : Pos} (hp : ValidPos c.lines p) (t : Option Pos) :
    selDocOf ⟨p, t, c.lines⟩ = ⟨(selDocOf c).putAt p, t⟩ := by
  rw [selDoc_putAt h hp]
  rfl

theorem takeWhile_index (q : Char → Bool) : ∀ (l : Text) (n : Nat), n ≤ l.length → (∀ i < n, ∃ c, l[i]? = some c ∧ q c = true) →
    (n = l.length ∨ ∃ c, l[n]? = some c ∧ q c = false) → (l.takeWhile q).length = n
  | [], n, hn, _, _ => by simp at hn; simp [hn]
  | c :: l, 0, _, _, he => by
    rcases he with he | ⟨d, h1, h2⟩
    · simp at he
    · simp at h1
      subst h1
      simp [h2]
  | c :: l, n + 1, hn, hi, he => by
    obtain ⟨d, h1, h2⟩ := hi 0 (by omega)
    simp at h1
    subst h1
    rw [List.takeWhile_cons, if_pos h2, List.length_cons,
      takeWhile_index q l n (by simpa using hn) (fun i hl => by simpa using hi (i + 1) (by omega)) (by simpa using he)]

theorem wordAround_eq (alnum : Char → Bool) (l : Text) (x a b : Nat) (ha : a ≤ x) (hb : x ≤ b)
    (hi : ∀ i, a ≤ i → i ≤ b → ∃ ch, l[i]? = some ch ∧ (alnum ch = true ∨ ch = '_'))
    (hl : a = 0 ∨ ∃ ch, l[a - 1]? = some ch ∧ alnum ch = false ∧ ch ≠ '_')
    (hr : b + 1 = l.length ∨ ∃ ch, l[b + 1]? = some ch ∧ alnum ch = false ∧ ch ≠ '_') : wordAround alnum l x = some (a, b) := by
  obtain ⟨_, hbl, _⟩ := hi b (by omega) (by omega)
  have hbl := (List.getElem?_eq_some_iff.1 hbl).1
  unfold wordAround
  have e1 : ((l.drop x).takeWhile fun c => alnum c || c == '_').length = b + 1 - x := by
    apply takeWhile_index
    · simp; omega
    · intro i hlt
      obtain ⟨ch, h1, h2⟩ := hi (x + i) (by omega) (by omega)
      exact ⟨ch, by rw [List.getElem?_drop]; exact h1, by simpa using h2⟩
    · rcases hr with hr | ⟨ch, h1, h2⟩
      · left; simp; omega
      · right
        exact ⟨ch, by rw [List.getElem?_drop, show x + (b + 1 - x) = b + 1 by omega]; exact h1, by simp [h2]⟩
  have e2 : ((l.take x).reverse.takeWhile fun c => alnum c || c == '_').length = x - a := by
    have get : ∀ i < x, (l.take x).reverse[i]? = l[x - 1 - i]? := by
      intro i hlt
      rw [List.getElem?_reverse (by simp; omega), List.getElem?_take]
      rw [if_pos (by simp; omega)]
      congr 1
      simp
      omega
    apply takeWhile_index
    · simp; omega
    · intro i hlt
      obtain ⟨ch, h1, h2⟩ := hi (x - 1 - i) (by omega) (by omega)
      exact ⟨ch, by rw [get i (by omega)]; exact h1, by simpa using h2⟩
    · rcases hl with hl | ⟨ch, h1, h2⟩
      · left; simp; omega
      · by_cases h0 : a = 0
        · left; simp; omega
        right
        exact ⟨ch, by rw [get _ (by omega), show x - 1 - (x - a) = a - 1 by omega]; exact h1, by simp [h2]⟩
  simp only [e1, e2]
  rw [if_neg (by omega)]
  congr 1
  congr 1 <;> omega

theorem wordAround_none (alnum : Char → Bool) (l : Text) (x : Nat) (h : ∀ ch, l[x]? = some ch → alnum ch = false ∧ ch ≠ '_') :
    wordAround alnum l x = none := by
  unfold wordAround
  rw [if_pos]
  cases hd : l.drop x with
  | nil => rfl
  | cons c r =>
    have : l[x]? = some c := by
      have := List.getElem?_drop (xs := l) (i := x) (j := 0)
      rw [hd] at this
      simpa using this.symm
    have := h c this
    simp [this]

/-- A mouse event in the area of a focused field. -/
private theorem mouse_ok (cw : Char → Nat) (alnum : Char → Bool) {f : InputField} (hv : f.content.Valid) (hw : 1 ≤ f.area.width)
    (ho : OnScreen f.area) (hf : f.focused = true) (m : MouseInput) (hi : InArea f.area m.x m.y) {p : Pos} (hp : CellAt cw f m.x m.y p) :
    ∃ f' b, f.applyMouseEvent cw alnum m.kind m.x m.y m.mods m.double = some (f', b) ∧ f'.content.Valid ∧
      selDocOf f'.content = (selDocOf f.content).mouse alnum m.kind (m.mods == .shift) m.double p ∧ SameSettings f f' := by
  obtain ⟨q, h1, h2, h3, h4, h5, h6, h7, h8⟩ := C46_mouse cw alnum hv hw ho hf hi m.mods
  have hq := cellAt_unique h1 hp
  subst hq
  have vp := cellAt_valid hp
  obtain ⟨kind, x, y, mods, double⟩ := m
  simp only at *
  cases kind with
  | downLeft =>
    refine ⟨_, _, h2 double, ⟨hv.oneLine, vp, ?_, hv.clean⟩, ?_, rfl, rfl, rfl⟩
    · intro t ht
      simp only at ht
      split at ht
      · cases hc : f.content.tail with
        | none => rw [hc] at ht; cases ht; exact hv.pos
        | some s => rw [hc] at ht; cases ht; exact hv.tail s hc
      · cases ht
    · show selDocOf ⟨q, _, f.content.lines⟩ = _
      rw [selDoc_moved hv vp, SelDoc.mouse, SelDoc.goto, selDoc_place hv]
      cases mods <;> rfl
  | dragLeft =>
    refine ⟨_, _, h3 double, ⟨hv.oneLine, vp, ?_, hv.clean⟩, ?_, rfl, rfl, rfl⟩
    · intro t ht
      simp only at ht
      cases hc : f.content.tail with
      | none => rw [hc] at ht; cases ht; exact hv.pos
      | some s => rw [hc] at ht; cases ht; exact hv.tail s hc
    · show selDocOf ⟨q, _, f.content.lines⟩ = _
      rw [selDoc_moved hv vp, SelDoc.mouse, SelDoc.goto, selDoc_place hv]
      rfl
  | upLeft =>
    cases double with
    | false => exact ⟨_, _, h5, hv, rfl, rfl, rfl, rfl⟩
    | true =>
      obtain ⟨c, b, g1, g2⟩ := h4
      have v1 : ({ f.content with pos := q } : Content).Valid := ⟨hv.oneLine, vp, hv.tail, hv.clean⟩
      obtain ⟨c', r, l, k1, k2, k3, k4, k5⟩ := C25_select alnum v1
      rw [k1] at g1
      obtain ⟨rfl, rfl⟩ : c' = c ∧ r = b := by simpa using g1
      refine ⟨_, _, g2, k2, ?_, rfl, rfl, rfl⟩
      have hl : (textLines (selDocOf f.content).text)[q.y]?.getD [] = l := by
        rw [selDoc_text hv, textLines_join hv.oneLine hv.cleanLines, show f.content.lines[q.y]? = some l from k4]
        rfl
      simp only [SelDoc.mouse, if_true, hl]
      rcases k5 with ⟨_, rfl, k6⟩ | ⟨_, a, b', t1, t2, t3, t4, t5, t6, t7⟩
      · rw [wordAround_none alnum l q.x k6]
        exact selDoc_moved hv vp f.content.tail
      · rw [wordAround_eq alnum l q.x a b' t3 t4 t5 t6 t7]
        have e : c' = ⟨⟨q.y, b'⟩, some ⟨q.y, a⟩, f.content.lines⟩ := by
          obtain ⟨pos, tail, lines⟩ := c'
          simp only at t1 t2 k3
          rw [t1, t2, k3]
        subst e
        exact selDoc_moved hv (c := f.content) k2.pos _
  | scrollUp => exact ⟨_, _, h6 double, hv, rfl, rfl, rfl, rfl⟩
  | scrollDown => exact ⟨_, _, h7 double, hv, rfl, rfl, rfl, rfl⟩
  | other n => exact ⟨_, _, h8 n double, hv, rfl, rfl, rfl, rfl⟩

/-- One event. -/
theorem sessionEvent_ok (cw : Char → Nat) (alnum : Char → Bool) {f : InputField} (hv : f.content.Valid) (hw : 1 ≤ f.area.width)
    (ho : OnScreen f.area) (e : SessionEvent) (ha : AllowedEvent e) (p : Pos)
    (hp : ∀ x y, (e = .click x y ∨ ∃ m : MouseInput, e = .mouse m ∧ m.x = x ∧ m.y = y) → InArea f.area x y → CellAt cw f x y p) :
    ∃ f' t, giveEvent cw alnum f e = some (f', t) ∧ f'.content.Valid ∧ 1 ≤ f'.area.width ∧ OnScreen f'.area ∧ f'.newLineKeys = f.newLineKeys ∧
      (fieldDocOf f', t) = (fieldDocOf f).play cw alnum f.newLineKeys e p := by
  have doc : ∀ {g : InputField} {d : SelDoc}, selDocOf g.content = d → SameSettings f g → fieldDocOf g = { fieldDocOf f with sel := d } := by
    rintro g d rfl ⟨s1, s2, _⟩
    simp only [fieldDocOf, s1, s2, selDocOf]
  cases e with
  | cmd c =>
    by_cases hk : ∀ k, c = .key k → f.focused = true
    · obtain ⟨f', t, h1, h2, h3, h4⟩ := selCmd_ok cw hv hw c hk
      refine ⟨f', t, h1, h2, by rw [h4.1]; exact hw, by rw [h4.1]; exact ho, h4.2.2, ?_⟩
      have h3' := congrArg Prod.fst h3
      have h3'' := congrArg Prod.snd h3
      rw [doc h3' h4]
      cases c with
      | key k =>
        simp only [FieldDoc.play]
        rw [if_pos (show (fieldDocOf f).focused = true from hk k rfl)]
        exact congrArg _ h3''
      | cut => exact congrArg _ h3''
      | paste s => exact congrArg _ h3''
    · cases c with
      | key k =>
        have hf : f.focused = false := by
          cases hb : f.focused with
          | false => rfl
          | true => exact absurd (fun _ _ => hb) hk
        refine ⟨f, [], by simp [giveEvent, giveCmd, applyKeyCombination, hf], hv, hw, ho, rfl, ?_⟩
        simp only [FieldDoc.play]
        rw [if_neg (by simp [fieldDocOf, hf])]
      | cut => exact absurd (fun k h => by cases h) hk
      | paste s => exact absurd (fun k h => by cases h) hk
  | mouse m =>
    simp only [giveEvent, FieldDoc.play]
    by_cases hi : InArea f.area m.x m.y
    · rw [if_pos ((has_iff f _ _).2 hi)]
      cases hf : f.focused with
      | true =>
        obtain ⟨f', b, h1, h2, h3, h4⟩ := mouse_ok cw alnum hv hw ho hf m hi (hp _ _ (.inr ⟨m, rfl, rfl, rfl⟩) hi)
        refine ⟨f', [], by rw [h1]; rfl, h2, by rw [h4.1]; exact hw, by rw [h4.1]; exact ho, h4.2.2, ?_⟩
        rw [doc h3 h4, if_pos (show (fieldDocOf f).focused = true from hf)]
        rfl
      | false =>
        obtain ⟨b, h1, h2⟩ := C18_contains f.area ho m.x m.y
        have hb : b = true := h2.2 hi
        subst hb
        refine ⟨{ f with focused := m.kind == .downLeft }, [], by simp [applyMouseEvent, h1, hf], hv, hw, ho, rfl, ?_⟩
        rw [if_neg (by simp [fieldDocOf, hf])]
        rfl
    · rw [if_neg (fun h => hi ((has_iff f _ _).1 h))]
      have := ((C45_ignored cw alnum f ho).2.2 _ _ hi).2 m.kind m.mods m.double
      have : f.applyMouseEvent cw alnum m.kind m.x m.y m.mods m.double = some (f, false) := this
      exact ⟨f, [], by rw [this]; rfl, hv, hw, ho, rfl, rfl⟩
  | click x y =>
    simp only [giveEvent, FieldDoc.play]
    by_cases hi : InArea f.area x y
    · rw [if_pos ((has_iff f _ _).2 hi)]
      cases hf : f.focused with
      | true =>
        obtain ⟨q, h1, _, h2⟩ := C46_click cw hv hw ho hf hi
        have := cellAt_unique h1 (hp _ _ (.inl rfl) hi)
        subst this
        have vp := cellAt_valid h1
        refine ⟨{ f with content := { f.content with pos := q } }, [], by rw [h2]; rfl, ⟨hv.oneLine, vp, hv.tail, hv.clean⟩, hw, ho, rfl, ?_⟩
        rw [if_pos (show (fieldDocOf f).focused = true from hf)]
        rw [doc (g := { f with content := { f.content with pos := q } }) (selDoc_moved hv vp f.content.tail) ⟨rfl, rfl, rfl⟩]
        rfl
      | false =>
        obtain ⟨b, h1, h2⟩ := C18_contains f.area ho x y
        have hb : b = true := h2.2 hi
        subst hb
        refine ⟨{ f with focused := true }, [], by simp [applyClickEvent, h1, hf], hv, hw, ho, rfl, ?_⟩
        rw [if_neg (by simp [fieldDocOf, hf])]
        rfl
    · rw [if_neg (fun h => hi ((has_iff f _ _).1 h))]
      have := ((C45_ignored cw alnum f ho).2.2 _ _ hi).1
      exact ⟨f, [], by rw [this]; rfl, hv, hw, ho, rfl, rfl⟩
  | focus b =>
    simp only [giveEvent, FieldDoc.play, setFocus]
    split
    · rename_i h
      exact ⟨f, [], rfl, hv, hw, ho, rfl, by simp [fieldDocOf, h]⟩
    · split
      · obtain ⟨f', g1, ⟨s, g2⟩, _⟩ := fixScroll_ok cw (f := { f with focused := b }) hv hw
        subst g2
        exact ⟨{ f with focused := b, scroll := s }, [], by rw [g1]; rfl, hv, hw, ho, rfl, rfl⟩
      · exact ⟨{ f with focused := b }, [], rfl, hv, hw, ho, rfl, rfl⟩
  | area a =>
    simp only [giveEvent, FieldDoc.play, setArea]
    split
    · obtain ⟨f', g1, ⟨s, g2⟩, _⟩ := fixScroll_ok cw (f := { f with area := a }) hv ha.1
      subst g2
      exact ⟨{ f with area := a, scroll := s }, [], by rw [g1]; rfl, hv, ha.1, ha.2, rfl, rfl⟩
    · rename_i h
      have h := Classical.not_not.1 h
      exact ⟨f, [], rfl, hv, hw, ho, rfl, by simp [fieldDocOf, h]⟩

/-- C88: whatever the keys, cuts, pastes, mouse events, clicks, changes of focus and of area given one after the other to a field, it has the text, the cursor,
the selection, the focus and the area of the reference, and the cut texts are the same;
the place of the text where the mouse is, for each event, is the one of the clicked cell in the field as it's then. -/
theorem C88_session (cw : Char → Nat) (alnum : Char → Bool) : ∀ (es : List (SessionEvent × Pos)) {f : InputField}, f.content.Valid →
    1 ≤ f.area.width → OnScreen f.area → (∀ e ∈ es, AllowedEvent e.1) → CellsOf cw alnum f es →
    ∃ f' cuts, giveEvents cw alnum f (es.map Prod.fst) = some (f', cuts) ∧ f'.content.toText = f'.content.before ++ f'.content.after ∧
      (fieldDocOf f', cuts) = (fieldDocOf f).plays cw alnum f.newLineKeys es
  | [], f, hv, _, _, _, _ => ⟨f, [], rfl, (C22_parts hv).symm, rfl⟩
  | (e, p) :: es, f, hv, hw, ho, ha, hc => by
    obtain ⟨f1, t, h1, h2, h3, h4, h5, h6⟩ := sessionEvent_ok cw alnum hv hw ho e (ha (e, p) (by simp)) p hc.1
    obtain ⟨f2, cuts, k1, k2, k3⟩ := C88_session cw alnum es h2 h3 h4 (fun x hm => ha x (by simp [hm])) (hc.2 f1 t h1)
    refine ⟨f2, t :: cuts, by simp [giveEvents, h1, k1], k2, ?_⟩
    simp only [FieldDoc.plays]
    rw [← h6, ← h5, ← k3]

theorem sessionEvent_fieldOk (cw : Char → Nat) (alnum : Char → Bool) {f f1 : InputField} {t : Text} (h : FieldOk f) (e : SessionEvent)
    (ha : AllowedEvent e) (hg : giveEvent cw alnum f e = some (f1, t)) : FieldOk f1 := by
  have key : ∀ op : FieldOp, op.Allowed f → (∃ b, op.exec cw alnum f = some (f1, b)) → FieldOk f1 := by
    rintro op ho ⟨b, hb⟩
    obtain ⟨f', b', h1, h2, _⟩ := fieldOp_ok cw alnum h op ho
    rw [hb] at h1
    cases h1
    exact h2
  have one : ∀ {r : Run (InputField × Bool)}, (do let x ← r; some (x.1, ([] : Text))) = some (f1, t) → ∃ b, r = some (f1, b) := by
    intro r hr
    cases r with
    | none => cases hr
    | some x => cases hr; exact ⟨x.2, rfl⟩
  have map : ∀ {r : Run InputField}, (do let x ← r; some (x, ([] : Text))) = some (f1, t) → r = some f1 := by
    intro r hr
    cases r with
    | none => cases hr
    | some x => cases hr; rfl
  cases e with
  | cmd c =>
    cases c with
    | key k => exact key (.key k) trivial (one hg)
    | cut =>
      have hg : f.cutSelection cw = some (f1, t) := hg
      exact key .cutSelection trivial ⟨true, by simp [FieldOp.exec, hg]⟩
    | paste s => exact key (.replaceSelection s) trivial ⟨true, by simp [FieldOp.exec, map hg]⟩
  | mouse m => exact key (.mouse m.kind m.x m.y m.mods m.double) trivial (one hg)
  | click x y => exact key (.click x y) trivial (one hg)
  | focus b => exact key (.setFocus b) trivial ⟨true, by simp [FieldOp.exec, map hg]⟩
  | area a => exact key (.setArea a) ha ⟨true, by simp [FieldOp.exec, map hg]⟩

/-- The places of the text where the mouse is, as the code computes them. -/
private def placesOf (cw : Char → Nat) (alnum : Char → Bool) : InputField → List SessionEvent → List Pos
  | _, [] => []
  | f, e :: es =>
    (match e with
      | .click x y => (f.posOfCell cw x y).getD ⟨0, 0⟩
      | .mouse m => (f.posOfCell cw m.x m.y).getD ⟨0, 0⟩
      | _ => ⟨0, 0⟩) :: placesOf cw alnum (((giveEvent cw alnum f e).map Prod.fst).getD f) es

private theorem placesOf_length (cw : Char → Nat) (alnum : Char → Bool) : ∀ (es : List SessionEvent) (f : InputField),
    (placesOf cw alnum f es).length = es.length
  | [], _ => rfl
  | e :: es, f => by simp [placesOf, placesOf_length cw alnum es]

private theorem placesOf_ok (cw : Char → Nat) (alnum : Char → Bool) : ∀ (es : List SessionEvent) {f : InputField}, FieldOk f →
    (∀ e ∈ es, AllowedEvent e) → CellsOf cw alnum f (es.zip (placesOf cw alnum f es))
  | [], _, _, _ => trivial
  | e :: es, f, h, ha => by
    have cell : ∀ x y, InArea f.area x y → CellAt cw f x y ((f.posOfCell cw x y).getD ⟨0, 0⟩) := by
      intro x y hi
      obtain ⟨p, h1, h2, _⟩ := posOfCell_at cw h hi
      rw [h1]
      exact h2
    refine ⟨?_, fun f' t hg => ?_⟩
    · rintro x y (rfl | ⟨m, rfl, rfl, rfl⟩) hi
      · exact cell _ _ hi
      · exact cell _ _ hi
    · have h1 := sessionEvent_fieldOk cw alnum h e (ha e (by simp)) hg
      rw [hg]
      exact placesOf_ok cw alnum es h1 fun x hm => ha x (by simp [hm])

/-- C88: the mouse always is at a place of the text: for every session there are places as wanted by `C88_session`. -/
theorem C88_places (cw : Char → Nat) (alnum : Char → Bool) (es : List SessionEvent) {f : InputField} (hv : f.content.Valid) (hw : 1 ≤ f.area.width)
    (ho : OnScreen f.area) (ha : ∀ e ∈ es, AllowedEvent e) : ∃ ps : List Pos, ps.length = es.length ∧ CellsOf cw alnum f (es.zip ps) :=
  ⟨_, placesOf_length cw alnum es f, placesOf_ok cw alnum es ⟨hv, hw, ho⟩ ha⟩

/-- A session: a text is pasted in a field without focus; a key is lost, a click gives the focus; a word is selected with a double click, then cut; the
area gets smaller, and whole lines are selected by a drag, and replaced by a character. -/
private def session : List SessionEvent :=
  [.cmd (.paste "one two\nab\ncd\nlast".toList), .cmd (.key { code := .char 'x' }), .mouse ⟨.downLeft, 3, 1, .none, false⟩,
    .mouse ⟨.downLeft, 7, 1, .none, false⟩, .mouse ⟨.upLeft, 7, 1, .none, true⟩, .cmd .cut, .area ⟨2, 1, 9, 3⟩, .mouse ⟨.scrollDown, 4, 2, .none, false⟩,
    .click 2 1, .mouse ⟨.dragLeft, 8, 2, .shift, false⟩, .cmd (.key { code := .char 'Z' }), .focus false]

private def sessionAlnum (c : Char) : Bool := c.isAlphanum

private def sessionField : InputField := { area := ⟨2, 1, 12, 5⟩, focused := false }

set_option maxRecDepth 8000 in
/-- What this session gives. -/
example : (giveEvents (fun _ => 1) sessionAlnum sessionField session).map (fun r => (r.1.content.toText, r.1.focused, r.2.filter (· ≠ []))) =
    some ("one \nZlast".toList, false, ["two".toList]) := by decide +kernel

set_option maxRecDepth 8000 in
/-- The hypotheses of C88 hold for this session. -/
example : sessionField.content.Valid ∧ 1 ≤ sessionField.area.width ∧ OnScreen sessionField.area ∧ (∀ e ∈ session, AllowedEvent e) ∧
    ∃ ps : List Pos, ps.length = session.length ∧ CellsOf (fun _ => 1) sessionAlnum sessionField (session.zip ps) := by
  have hv : sessionField.content.Valid := Content.default_valid
  have hw : 1 ≤ sessionField.area.width := by decide
  have ho : OnScreen sessionField.area := by simp [OnScreen, sessionField]
  have ha : ∀ e ∈ session, AllowedEvent e := by simp [session, AllowedEvent, OnScreen]
  exact ⟨hv, hw, ho, ha, _, placesOf_length (fun _ => 1) sessionAlnum _ _, placesOf_ok _ _ _ ⟨hv, hw, ho⟩ ha⟩

end Verif.Props

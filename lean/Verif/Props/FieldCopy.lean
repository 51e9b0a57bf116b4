import Verif.Spec.FieldCopy
import Verif.Props.InputField
import Verif.Props.Input
/-! Property C66: the selection with the mouse, and what's highlighted is what's copied. -/
namespace Verif.Props
open Verif InputField Content Spec

/-- The fields of the properties: a valid content in an area of the screen. -/
private def Ok (f : InputField) : Prop := f.content.Valid ∧ 1 ≤ f.area.width ∧ OnScreen f.area

private theorem outside (cw : Char → Nat) (alnum : Char → Bool) {f : InputField} (ho : OnScreen f.area) {e : MouseInput}
    (hi : ¬ InArea f.area e.x e.y) : f.applyMouseEvent cw alnum e.kind e.x e.y e.mods e.double = some (f, false) := by
  obtain ⟨b, h1, h2⟩ := C18_contains f.area ho e.x e.y
  have hb : b = false := by
    cases b with
    | false => rfl
    | true => exact absurd (h2.1 rfl) hi
  subst hb
  simp [applyMouseEvent, h1]

/-- An event which doesn't press keeps the text, the area, the focus, and the start of the selection, which is the cursor
when there's none. -/
private theorem noPress_ok (cw : Char → Nat) (alnum : Char → Bool) {f : InputField} (h : Ok f) (hf : f.focused = true)
    {e : MouseInput} (he : NoPress e) :
    ∃ f' b, f.applyMouseEvent cw alnum e.kind e.x e.y e.mods e.double = some (f', b) ∧ Ok f' ∧ f'.focused = true ∧
      f'.content.lines = f.content.lines ∧ f'.content.tail.getD f'.content.pos = f.content.tail.getD f.content.pos ∧
      (e.kind ≠ .dragLeft → f'.content = f.content) ∧ f'.area = f.area := by
  obtain ⟨hv, hw, ho⟩ := h
  obtain ⟨k1, k2⟩ := he
  by_cases hi : InArea f.area e.x e.y
  · obtain ⟨p, q1, q2, q3, q4, q5, q6, q7, q8⟩ := C46_mouse cw alnum hv hw ho hf hi e.mods
    obtain ⟨p', w1, w2, w3⟩ := posOfCell_at cw ⟨hv, hw, ho⟩ hi
    have hp : p' = p := cellAt_unique w2 q1
    subst hp
    have ht : ValidPos f.content.lines (f.content.tail.getD f.content.pos) := by
      cases h : f.content.tail with
      | none => exact hv.pos
      | some t => exact hv.tail t h
    rw [k2]
    cases hk : e.kind with
    | downLeft => exact absurd hk k1
    | upLeft => exact ⟨_, _, q5, ⟨hv, hw, ho⟩, hf, rfl, rfl, fun _ => rfl, rfl⟩
    | dragLeft =>
      exact ⟨_, _, q3 false, ⟨⟨hv.oneLine, w3, fun t h => by cases h; exact ht, hv.clean⟩, hw, ho⟩, hf, rfl, rfl, fun h => absurd rfl h, rfl⟩
    | scrollUp => exact ⟨_, _, q6 false, ⟨hv, hw, ho⟩, hf, rfl, rfl, fun _ => rfl, rfl⟩
    | scrollDown => exact ⟨_, _, q7 false, ⟨hv, hw, ho⟩, hf, rfl, rfl, fun _ => rfl, rfl⟩
    | other n => exact ⟨_, _, q8 n false, ⟨hv, hw, ho⟩, hf, rfl, rfl, fun _ => rfl, rfl⟩
  · exact ⟨f, false, outside cw alnum ho hi, ⟨hv, hw, ho⟩, hf, rfl, rfl, fun _ => rfl, rfl⟩

private theorem noPress_run (cw : Char → Nat) (alnum : Char → Bool) (es : List MouseInput) :
    ∀ {f : InputField}, Ok f → f.focused = true → (∀ e ∈ es, NoPress e) →
    ∃ f', f.applyMouseEvents cw alnum es = some f' ∧ Ok f' ∧ f'.focused = true ∧
      f'.content.lines = f.content.lines ∧ f'.content.tail.getD f'.content.pos = f.content.tail.getD f.content.pos ∧
      ((∀ e ∈ es, e.kind ≠ .dragLeft) → f'.content = f.content) ∧ f'.area = f.area := by
  induction es with
  | nil => intro f h hf _; exact ⟨f, rfl, h, hf, rfl, rfl, fun _ => rfl, rfl⟩
  | cons e es ih =>
    intro f h hf he
    obtain ⟨f1, b, a1, a2, a3, a4, a5, a6, a7⟩ := noPress_ok cw alnum h hf (he e (by simp))
    obtain ⟨f2, b1, b2, b3, b4, b5, b6, b7⟩ := ih a2 a3 fun x hx => he x (by simp [hx])
    refine ⟨f2, ?_, b2, b3, by rw [b4, a4], by rw [b5, a5], fun hd => ?_, by rw [b7, a7]⟩
    · simp [applyMouseEvents, a1, b1]
    · rw [b6 fun x hx => hd x (by simp [hx]), a6 (hd e (by simp))]

private theorem textBetween_of {c : Content} (h : c.Valid) {t : Pos} (ht : c.tail = some t) :
    ∃ s, c.selectionString = some s ∧ TextBetween c.lines t c.pos s := by
  obtain ⟨s, h1, _, h2⟩ := C23_string h
  refine ⟨s, h1, ?_, ?_⟩
  · intro hle
    have : c.selection.min = t ∧ c.selection.max = c.pos := by
      unfold selection
      rw [ht]
      by_cases hb : t.blt c.pos = true
      · simp [hb]
      · have h3 := blt_false.1 (Bool.eq_false_iff.2 hb)
        have : t = c.pos := pos_eq (by omega) (by omega)
        simp [this]
    rw [this.1, this.2] at h2
    exact h2
  · intro hle
    have : c.selection.min = c.pos ∧ c.selection.max = t := by
      unfold selection
      rw [ht]
      have hb : t.blt c.pos = false := blt_false.2 (by omega)
      simp [hb]
    rw [this.1, this.2] at h2
    exact h2

/-- C66: a press of the left button on a cell, then any events (drags, wheel, releases, in the area or not) without another press,
then a drag on a cell of the area, then any events without press and drag: what's copied is the text from the character of the
first cell to the character of the last one, both included, whatever their order. Cells are relative to the scroll at the time of
the event. The text isn't changed. -/
theorem C66_drag (cw : Char → Nat) (alnum : Char → Bool) {f : InputField} (hv : f.content.Valid) (hw : 1 ≤ f.area.width)
    (ho : OnScreen f.area) (hf : f.focused = true) {x y x' y' : Nat} (hi : InArea f.area x y) (hi' : InArea f.area x' y')
    {mods mods' : KeyMods} (hm : mods ≠ .shift) (double double' : Bool) {es es' : List MouseInput} (he : ∀ e ∈ es, NoPress e)
    (he' : ∀ e ∈ es', NoSelect e) :
    ∃ f1 f2 f' p q s, f.applyMouseEvents cw alnum [⟨.downLeft, x, y, mods, double⟩] = some f1 ∧
      f1.applyMouseEvents cw alnum es = some f2 ∧
      f2.applyMouseEvents cw alnum (⟨.dragLeft, x', y', mods', double'⟩ :: es') = some f' ∧
      CellAt cw f x y p ∧ CellAt cw f2 x' y' q ∧ f'.content.lines = f.content.lines ∧ f'.content.tail = some p ∧
      f'.content.pos = q ∧ f'.copySelection = some s ∧ TextBetween f.content.lines p q s := by
  obtain ⟨p, q1, q2, _⟩ := C46_mouse cw alnum hv hw ho hf hi mods
  obtain ⟨p', w1, w2, w3⟩ := posOfCell_at cw ⟨hv, hw, ho⟩ hi
  have hp : p' = p := cellAt_unique w2 q1
  subst hp
  have q2 := q2 double
  rw [if_neg hm] at q2
  have ok1 : Ok { f with content := ⟨p', none, f.content.lines⟩ } := ⟨⟨hv.oneLine, w3, fun t h => (by cases h), hv.clean⟩, hw, ho⟩
  obtain ⟨f2, a1, a2, a3, a4, a5, _, ha2⟩ := noPress_run cw alnum es ok1 hf he
  obtain ⟨v2, hw2, o2⟩ := a2
  have hi2 : InArea f2.area x' y' := by rw [ha2]; exact hi'
  obtain ⟨q, c1, _, c2, _⟩ := C46_mouse cw alnum v2 hw2 o2 a3 hi2 mods'
  obtain ⟨q', w1', w2', w3'⟩ := posOfCell_at cw ⟨v2, hw2, o2⟩ hi2
  have hq : q' = q := cellAt_unique w2' c1
  subst hq
  simp only at a4 a5
  have c2 := c2 double'
  rw [a5] at c2
  have ok3 : Ok { f2 with content := ⟨q', some p', f2.content.lines⟩ } :=
    ⟨⟨v2.oneLine, w3', fun t h => by cases h; rw [a4]; exact w3, v2.clean⟩, hw2, o2⟩
  obtain ⟨f4, d1, d2, d3, d4, d5, d6, _⟩ := noPress_run cw alnum es' ok3 a3 fun e h => (he' e h).1
  have d6 := d6 fun e h => (he' e h).2
  obtain ⟨s, s1, s2⟩ := textBetween_of (c := f4.content) d2.1 (t := p') (by rw [d6])
  refine ⟨_, f2, f4, p', q', s, ?_, a1, ?_, q1, c1, ?_, ?_, ?_, s1, ?_⟩
  · simp only [applyMouseEvents, q2]; rfl
  · simp only [applyMouseEvents, c2]; exact d1
  · rw [d6]; exact a4
  · rw [d6]
  · rw [d6]
  · rw [d6] at s2
    simp only at s2
    rw [a4] at s2
    exact s2

/-- C66: the hypotheses are met: in the text "abcd\nefgh", a press on "c" and a drag to "f" (through a cell out of the area)
copies "cd\nef". -/
example : let f : InputField := { area := ⟨1, 1, 8, 2⟩, content := ⟨⟨0, 0⟩, none, ["abcd".toList, "efgh".toList]⟩ }
    InArea f.area 3 1 ∧ InArea f.area 2 2 ∧ ∃ f', f.applyMouseEvents (fun _ => 1) (fun _ => true)
      [⟨.downLeft, 3, 1, .none, false⟩, ⟨.dragLeft, 40, 1, .none, false⟩, ⟨.dragLeft, 2, 2, .none, false⟩, ⟨.upLeft, 2, 2, .none, false⟩] =
        some f' ∧ f'.copySelection = some "cd\nef".toList :=
  ⟨⟨2, 0, by decide, by decide, rfl, rfl⟩, ⟨1, 1, by decide, by decide, rfl, rfl⟩, _, rfl, by decide⟩

/-- C66: after a double click in a focused field, what's copied is the word around the character of the cell: alphanumeric
characters and underscores, up to another character or the bounds of the line; or only the character of the cell when it's not
in a word. -/
theorem C66_word (cw : Char → Nat) (alnum : Char → Bool) {f : InputField} (hv : f.content.Valid) (hw : 1 ≤ f.area.width)
    (ho : OnScreen f.area) (hf : f.focused = true) {x y : Nat} (hi : InArea f.area x y) {mods mods' : KeyMods} (hm : mods ≠ .shift)
    (double : Bool) :
    ∃ f' p l s, f.applyMouseEvents cw alnum [⟨.downLeft, x, y, mods, double⟩, ⟨.upLeft, x, y, mods', true⟩] = some f' ∧
      CellAt cw f x y p ∧ f.content.lines[p.y]? = some l ∧ f'.content.lines = f.content.lines ∧ f'.copySelection = some s ∧
      ((s = (textAfter f.content.lines p).take 1 ∧ ∀ ch, l[p.x]? = some ch → alnum ch = false ∧ ch ≠ '_') ∨
        ∃ before after, l = before ++ s ++ after ∧ before.length ≤ p.x ∧ p.x < (before ++ s).length ∧
          (∀ ch ∈ s, alnum ch = true ∨ ch = '_') ∧ (∀ ch, before.getLast? = some ch → alnum ch = false ∧ ch ≠ '_') ∧
          ∀ ch, after.head? = some ch → alnum ch = false ∧ ch ≠ '_') := by
  obtain ⟨p, q1, q2, _⟩ := C46_mouse cw alnum hv hw ho hf hi mods
  obtain ⟨p', w1, w2, w3⟩ := posOfCell_at cw ⟨hv, hw, ho⟩ hi
  have hp : p' = p := cellAt_unique w2 q1
  subst hp
  have q2 := q2 double
  rw [if_neg hm] at q2
  have v1 : ({ f with content := ⟨p', none, f.content.lines⟩ } : InputField).content.Valid :=
    ⟨hv.oneLine, w3, fun t h => (by cases h), hv.clean⟩
  obtain ⟨p2, u1, _, _, ⟨c, b, u2, u3⟩, _⟩ := C46_mouse cw alnum v1 hw ho hf hi mods'
  have hp2 : p2 = p' := cellAt_unique (f := f) u1 w2
  subst hp2
  obtain ⟨c', r, l, g1, g2, g3, g4, g5⟩ := C25_select alnum v1
  have hcc : (c, b) = (c', r) := by
    have : (some (c, b) : Option (Content × Bool)) = some (c', r) := by rw [← u2, ← g1]
    exact Option.some.inj this
  cases hcc
  obtain ⟨s, s1, s2⟩ : ∃ s, c.selectionString = some s ∧ textBefore c.lines c.selection.min ++ s =
      textBefore c.lines c.selection.max ++ (textAfter c.lines c.selection.max).take 1 := by
    obtain ⟨s, h1, _, h2⟩ := C23_string g2
    exact ⟨s, h1, h2⟩
  refine ⟨{ f with content := c }, p2, l, s, ?_, q1, g4, g3, s1, ?_⟩
  · simp only [applyMouseEvents, q2]
    show (do let r ← applyMouseEvent _ _ _ _ _ _ _ _; some r.1) = _
    rw [u3]
    rfl
  · simp only at g3 g4 g5
    rcases g5 with ⟨_, h1, h2⟩ | ⟨_, start, stop, t1, t2, t3, t4, t5, t6, t7⟩
    · left
      refine ⟨?_, h2⟩
      subst h1
      exact List.append_cancel_left s2
    · right
      have hsel : c.selection.min = ⟨p2.y, start⟩ ∧ c.selection.max = ⟨p2.y, stop⟩ := by
        unfold selection
        rw [t1, t2]
        simp only
        by_cases hb : (⟨p2.y, start⟩ : Pos).blt ⟨p2.y, stop⟩ = true
        · simp [hb]
        · have h3 := blt_false.1 (Bool.eq_false_iff.2 hb)
          simp only at h3
          have : start = stop := by omega
          subst this
          simp
      obtain ⟨hlt, _⟩ := List.getElem?_eq_some_iff.1 g4
      obtain ⟨ch, e1, e2⟩ := t5 stop (by omega) (by omega)
      obtain ⟨hst, _⟩ := List.getElem?_eq_some_iff.1 e1
      have hs : s = (l.take (stop + 1)).drop start := by
        rw [hsel.1, hsel.2, g3] at s2
        simp only [textBefore, textAfter, g4, Option.getD_some, joinLines_mid, joinLines_cons] at s2
        simp only [linesR, List.flatMap_nil, List.append_nil, List.append_assoc] at s2
        have s3 := List.append_cancel_left s2
        rw [List.take_append_of_le_length (by rw [List.length_drop]; omega), ← List.take_add] at s3
        have := congrArg (List.drop start) s3
        rwa [List.drop_append_of_le_length (by rw [List.length_take]; omega), List.drop_take_self, List.nil_append] at this
      have hsl : (l.take start ++ s).length = stop + 1 := by
        rw [hs]; simp only [List.length_append, List.length_take, List.length_drop]; omega
      refine ⟨l.take start, l.drop (stop + 1), ?_, ?_, by omega, ?_, ?_, ?_⟩
      · rw [hs]
        have : l.take start = (l.take (stop + 1)).take start := by rw [List.take_take, Nat.min_eq_left (by omega)]
        rw [this, List.take_append_drop, List.take_append_drop]
      · rw [List.length_take]; omega
      · intro ch hch
        rw [hs] at hch
        obtain ⟨i, hi⟩ := List.mem_iff_getElem?.1 hch
        rw [List.getElem?_drop, List.getElem?_take] at hi
        split at hi
        · obtain ⟨ch', k1, k2⟩ := t5 (start + i) (by omega) (by omega)
          rw [hi] at k1
          cases k1
          exact k2
        · exact absurd hi (by simp)
      · intro ch hch
        rcases t6 with t6 | ⟨ch', k1, k2⟩
        · subst t6; simp at hch
        · rw [List.getLast?_take] at hch
          by_cases h0 : start = 0
          · subst h0; simp at hch
          · rw [if_neg h0, k1] at hch
            simp at hch
            subst hch
            exact k2
      · intro ch hch
        rw [List.head?_drop] at hch
        rcases t7 with t7 | ⟨ch', k1, k2⟩
        · rw [t7, List.getElem?_eq_none (by omega)] at hch; simp at hch
        · rw [k1] at hch
          cases hch
          exact k2

/-- C66: the hypotheses are met, with a word. -/
example : let f : InputField := { area := ⟨1, 1, 12, 2⟩, content := ⟨⟨0, 0⟩, none, ["a".toList, "to be_in it".toList]⟩ }
    InArea f.area 6 2 ∧ ∃ f', f.applyMouseEvents (fun _ => 1) (fun c => c != ' ' && c != '_')
      [⟨.downLeft, 6, 2, .none, false⟩, ⟨.upLeft, 6, 2, .none, true⟩] = some f' ∧ f'.copySelection = some "be_in".toList :=
  ⟨⟨5, 1, by decide, by decide, rfl, rfl⟩, _, rfl, by decide⟩

/-! ### What's highlighted is what's copied -/

private theorem highlighted_append (a b : List CellPiece) : highlighted (a ++ b) = highlighted a ++ highlighted b := by
  simp [highlighted]

private theorem highlighted_none {ps : List CellPiece} (h : ∀ p ∈ ps, p.1 ≠ .cursor) : highlighted ps = [] := by
  unfold highlighted
  rw [List.filter_eq_nil_iff.2 fun p hp => by simpa using h p hp]
  rfl

/-- The cells of a line whose characters from `lo` to `hi` (not included) are in the style of the cursor. -/
private theorem highlighted_chars : ∀ (l : Text) (chars : List CellPiece) (lo hi : Nat), chars.length = l.length →
    (∀ (i : Nat) (c : Char), l[i]? = some c → ∃ st, chars[i]? = some (st, [c]) ∧ (st = .cursor ↔ lo ≤ i ∧ i < hi)) →
    highlighted chars = (l.take hi).drop lo := by
  intro l
  induction l with
  | nil =>
    intro chars lo hi hlen _
    rw [List.eq_nil_of_length_eq_zero hlen]
    simp [highlighted]
  | cons c l ih =>
    intro chars lo hi hlen h
    cases chars with
    | nil => simp at hlen
    | cons p chars =>
      obtain ⟨st, h1, h2⟩ := h 0 c rfl
      simp only [List.getElem?_cons_zero, Option.some.injEq] at h1
      subst h1
      have ih' := ih chars (lo - 1) (hi - 1) (by simpa using hlen) (by
        intro i c hc
        obtain ⟨st, k1, k2⟩ := h (i + 1) c (by simpa using hc)
        have hl : ¬ (lo = 0 ∧ False) := by simp
        refine ⟨st, by simpa using k1, k2.trans ?_⟩
        omega)
      have hcons : highlighted ((st, [c]) :: chars) = (if st = .cursor then [c] else []) ++ highlighted chars := by
        unfold highlighted
        by_cases hst : st = .cursor
        · simp [hst]
        · simp [hst]
      rw [hcons, ih']
      cases hi with
      | zero =>
        rw [if_neg (by rw [h2]; omega)]
        simp
      | succ hi =>
        cases lo with
        | zero => rw [if_pos (h2.2 (by omega))]; simp
        | succ lo => rw [if_neg (by rw [h2]; omega)]; simp

/-- The characters of the line `y` which are between two positions. -/
private def part (ls : List Text) (a b : Pos) (y : Nat) : Text :=
  ((ls[y]?.getD []).take (if y < b.y then (ls[y]?.getD []).length else if y = b.y then b.x + 1 else 0)).drop
    (if a.y < y then 0 else if y = a.y then a.x else (ls[y]?.getD []).length)

private theorem part_out {ls : List Text} {a b : Pos} {y : Nat} (h : y < a.y ∨ b.y < y) : part ls a b y = [] := by
  unfold part
  rcases h with h | h
  · rw [if_neg (by omega : ¬ a.y < y), if_neg (by omega : ¬ y = a.y)]
    apply List.drop_eq_nil_of_le
    rw [List.length_take]
    omega
  · rw [if_neg (by omega : ¬ y < b.y), if_neg (by omega : ¬ y = b.y)]
    simp

/-- The selected string is made of the parts of the lines. -/
private theorem between_parts {ls : List Text} {a b : Pos} {s : Text} (ha : ValidPos ls a) (hb : ValidPos ls b)
    (hab : a.y < b.y ∨ (a.y = b.y ∧ a.x ≤ b.x))
    (h : textBefore ls a ++ s = textBefore ls b ++ (textAfter ls b).take 1) :
    s = joinLines ((List.range' a.y (b.y + 1 - a.y)).map (part ls a b)) ++
      (if b.x = (ls[b.y]?.getD []).length ∧ b.y + 1 < ls.length then ['\n'] else []) := by
  obtain ⟨la, ha1, ha2⟩ := ha
  obtain ⟨lb, hb1, hb2⟩ := hb
  obtain ⟨hbl, _⟩ := List.getElem?_eq_some_iff.1 hb1
  generalize hnl : (if b.x = (ls[b.y]?.getD []).length ∧ b.y + 1 < ls.length then ['\n'] else []) = nl
  have hX : lb.take b.x ++ (textAfter ls b).take 1 = lb.take (b.x + 1) ++ nl := by
    rw [textAfter, hb1, Option.getD_some, joinLines_cons]
    rw [hb1, Option.getD_some] at hnl
    by_cases hx : b.x = lb.length
    · rw [hx, List.drop_length, List.nil_append, List.take_length, List.take_of_length_le (by omega : lb.length ≤ lb.length + 1)]
      congr 1
      rw [← hnl]
      by_cases hy : b.y + 1 < ls.length
      · rw [if_pos ⟨hx, hy⟩, List.drop_eq_getElem_cons hy]
        rfl
      · rw [if_neg (fun h => hy h.2), List.drop_eq_nil_of_le (by omega)]
        simp [linesR]
    · rw [if_neg (fun h => hx h.1)] at hnl
      rw [← hnl, List.append_nil, List.take_append_of_le_length (by rw [List.length_drop]; omega), ← List.take_add]
  have hB : ∀ (p : Pos) (l : Text), ls[p.y]? = some l → textBefore ls p = linesL (ls.take p.y) ++ l.take p.x := by
    intro p l hl
    rw [textBefore, hl, Option.getD_some, joinLines_mid]
    simp [linesR]
  rw [hB a la ha1, hB b lb hb1, List.append_assoc, List.append_assoc, hX] at h
  rcases hab with hab | ⟨hab, hx⟩
  · have e0 : ls.take b.y = ls.take a.y ++ la :: (ls.take b.y).drop (a.y + 1) := by
      have h1 : (ls.take b.y).take a.y = ls.take a.y := by rw [List.take_take, Nat.min_eq_left (by omega)]
      have h2 : (ls.take b.y).drop a.y = la :: (ls.take b.y).drop (a.y + 1) := by
        have h3 : a.y < (ls.take b.y).length := by rw [List.length_take]; omega
        rw [List.drop_eq_getElem_cons h3]
        congr 1
        have : (ls.take b.y)[a.y]? = some la := by rw [List.getElem?_take, if_pos hab, ha1]
        rw [List.getElem?_eq_getElem h3] at this
        exact Option.some.inj this
      rw [← h1, ← h2, List.take_append_drop]
    rw [e0, linesL_append, List.append_assoc] at h
    have h := List.append_cancel_left h
    have e1 : linesL (la :: (ls.take b.y).drop (a.y + 1)) = la.take a.x ++ linesL (la.drop a.x :: (ls.take b.y).drop (a.y + 1)) := by
      simp [linesL, ← List.append_assoc]
    rw [e1, List.append_assoc] at h
    have h := List.append_cancel_left h
    have e2 : (List.range' a.y (b.y + 1 - a.y)).map (part ls a b) =
        (la.drop a.x :: (ls.take b.y).drop (a.y + 1)) ++ [lb.take (b.x + 1)] := by
      apply List.ext_getElem?
      intro i
      rw [List.getElem?_map]
      have hlen : (la.drop a.x :: (ls.take b.y).drop (a.y + 1)).length = b.y - a.y := by
        rw [List.length_cons, List.length_drop, List.length_take]; omega
      rcases Nat.lt_trichotomy i (b.y - a.y) with hi | hi | hi
      · rw [List.getElem?_append_left (by omega), List.getElem?_range' (by omega), Option.map_some, Nat.one_mul]
        cases i with
        | zero =>
          rw [Nat.add_zero, List.getElem?_cons_zero, part, ha1, Option.getD_some, if_pos hab, if_neg (by omega), if_pos rfl, List.take_length]
        | succ i =>
          have hlt : a.y + (i + 1) < ls.length := by omega
          rw [List.getElem?_cons_succ, List.getElem?_drop, List.getElem?_take, if_pos (by omega), part,
            if_pos (by omega), if_pos (by omega), List.drop_zero, List.take_length,
            show a.y + 1 + i = a.y + (i + 1) by omega, List.getElem?_eq_getElem hlt, Option.getD_some]
      · rw [List.getElem?_append_right (by omega), hlen, show i - (b.y - a.y) = 0 by omega, List.getElem?_cons_zero,
          List.getElem?_range' (by omega), Option.map_some, Nat.one_mul, show a.y + i = b.y by omega, part, hb1, Option.getD_some,
          if_neg (Nat.lt_irrefl b.y), if_pos rfl, if_pos hab, List.drop_zero]
      · rw [List.getElem?_eq_none (by simp only [List.length_range']; omega), List.getElem?_eq_none (by
          rw [List.length_append, hlen, List.length_singleton]; omega)]
        rfl
    rw [h, e2, joinLines_mid]
    simp [linesR]
  · rw [← hab] at h
    have h := List.append_cancel_left h
    rw [← hab, ha1] at hb1
    cases hb1
    rw [show b.y + 1 - a.y = 1 by omega, List.range'_one, List.map_cons, List.map_nil, joinLines_one, part, ha1, Option.getD_some,
      if_neg (by omega : ¬ a.y < b.y), if_pos hab, if_neg (Nat.lt_irrefl a.y), if_pos rfl]
    have := congrArg (List.drop a.x) h
    rwa [List.drop_append_of_le_length (by rw [List.length_take]; omega), List.drop_take_self, List.nil_append,
      List.drop_append_of_le_length (by rw [List.length_take]; omega)] at this

/-- C66: what's highlighted is what's copied. In a focused field whose lines fit in its width, every row shows in the style of the
cursor the part of the copied string which is in its line (and a space when the cursor is at the end of the line), and nothing
in rows out of the selection: the copied string is made of those parts, one per line, separated by newlines, and followed by
a newline when the selection ends at the end of a line which isn't the last one. -/
theorem C66_highlighted (cw : Char → Nat) (hs : cw ' ' = 1) (he : cw '…' = 1) (bar : Char × Char) {f : InputField}
    (hv : f.content.Valid) (ho : OnScreen f.area) (h1 : 1 ≤ f.textCols) (hf : f.focused = true)
    (hp : f.passwordMode = false) (hx : f.scroll.x = 0) (hn : f.content.lines.length < 65536)
    (hy : f.area.top + f.area.height + f.scroll.y + 1 < 65536)
    (hw : ∀ l ∈ f.content.lines, inputCols cw l < f.textCols) :
    ∃ rows cur s, ∃ parts : Nat → Text, f.displayOn cw bar = some (rows, cur) ∧ rows.length = f.area.height ∧
      f.copySelection = some s ∧
      (∀ j row, rows[j]? = some row → highlighted row.pieces = parts (f.scroll.y + j) ++
        (if f.scroll.y + j = f.content.pos.y ∧ f.content.lines[f.scroll.y + j]?.map List.length = some f.content.pos.x
          then [' '] else [])) ∧
      (∀ y, y < f.content.selection.min.y ∨ f.content.selection.max.y < y → parts y = []) ∧
      s = joinLines ((List.range' f.content.selection.min.y (f.content.selection.max.y + 1 - f.content.selection.min.y)).map parts) ++
        (if f.content.lines[f.content.selection.max.y]?.map List.length = some f.content.selection.max.x ∧
          f.content.selection.max.y + 1 < f.content.lines.length then ['\n'] else []) := by
  obtain ⟨sb, s1, s2⟩ := displayOn_ok cw bar h1 hn hy
  have htc : f.textCols ≤ f.area.width := by unfold textCols; split <;> omega
  have hl' : f.area.left + f.textCols < 65536 := by have := ho.1; omega
  obtain ⟨rows, cur, g1, g2, g3, g4⟩ := drawRows_ok cw hs he bar (f := f) (w := f.textCols) sb hl' h1 f.area.height 0 none
    (by have := ho.2; omega)
  have hdisp : f.displayOn cw bar = some (rows, cur) := by rw [s2, g1]
  obtain ⟨v1, v2, v3, v4⟩ := C23_selection hv
  obtain ⟨s, t1, _, t2⟩ := C23_string hv
  obtain ⟨lm, m1, m2⟩ := id v2
  obtain ⟨hmlt, _⟩ := List.getElem?_eq_some_iff.1 m1
  refine ⟨rows, cur, s, part f.content.lines f.content.selection.min f.content.selection.max, hdisp, g2, t1, ?_,
    fun y h => part_out h, ?_⟩
  · intro j row hrow
    obtain ⟨hjlt, _⟩ := List.getElem?_eq_some_iff.1 hrow
    cases hl : f.content.lines[f.scroll.y + j]? with
    | some l =>
      have hwl : inputCols cw (l.map f.shown) < f.textCols := by
        have : l.map f.shown = l := by
          have : f.shown = id := by funext c; simp [shown, hp]
          rw [this, List.map_id]
        rw [this]
        exact hw l (List.mem_iff_getElem?.2 ⟨_, hl⟩)
      obtain ⟨rows', cur', row', chars, n, last, a1, a2, a3, a4, a5, a6⟩ := C27_text cw hs he bar ho h1 hn hy hx hl (by omega)
        (by omega) hwl
      rw [hdisp] at a1
      cases a1
      rw [show f.scroll.y + j - f.scroll.y = j by omega, hrow] at a2
      cases a2
      rw [a3, highlighted_append, highlighted_append, highlighted_append,
        highlighted_none (ps := List.replicate n _) (by intro p hp; rw [List.eq_of_mem_replicate hp]; simp),
        highlighted_none (ps := last) (by
          intro p hp
          rcases a4 p hp with h | h <;> simp [h])]
      rw [List.append_nil, List.append_nil]
      congr 1
      · rw [part, hl, Option.getD_some]
        refine highlighted_chars l chars _ _ a5 fun i c hc => ?_
        obtain ⟨hil, _⟩ := List.getElem?_eq_some_iff.1 hc
        obtain ⟨st, b1, b2, b3⟩ := a6 i c hc
        refine ⟨st, by rw [b1]; simp [shown, hp], b3.trans ?_⟩
        rw [blt_false, blt_false]
        simp only [hf, true_and]
        split <;> split <;> (try split) <;> (try split) <;> omega
      · simp only [Option.map_some, Option.some.injEq]
        by_cases hc : f.scroll.y + j = f.content.pos.y ∧ l.length = f.content.pos.x
        · rw [if_pos hc, if_pos ⟨hf, hc.1, hc.2.symm⟩]
          rfl
        · rw [if_neg hc, if_neg fun h => hc ⟨h.2.1, h.2.2.symm⟩]
          rfl
    | none =>
      have hout : f.content.lines.length ≤ f.scroll.y + j := List.getElem?_eq_none_iff.1 hl
      rw [part_out (.inr (by omega)), Option.map_none, if_neg (by simp)]
      obtain ⟨q1, q2, c0, r, q3, q4⟩ := g3 _ _ hrow
      rw [Nat.zero_add] at q3
      unfold drawRow at q3
      rw [hl] at q3
      simp only [drawEmpty, Option.bind_eq_bind, Option.bind_eq_some_iff, Option.some.injEq] at q3
      obtain ⟨chunks, _, q3⟩ := q3
      rw [q4, highlighted_append, ← q3, List.append_nil]
      rw [highlighted_none (by
        intro p hp
        obtain ⟨t, _, rfl⟩ := List.mem_map.1 hp
        simp)]
      apply highlighted_none
      intro p hp
      unfold drawBar at hp
      split at hp
      · split at hp <;> (simp only [List.mem_singleton] at hp; subst hp; simp)
      · simp at hp
  · have := between_parts v1 v2 v3 t2
    rw [m1, Option.getD_some] at this
    simp only [m1, Option.map_some, Option.some.injEq]
    rw [this]
    congr 1
    by_cases hc : lm.length = f.content.selection.max.x ∧ f.content.selection.max.y + 1 < f.content.lines.length
    · rw [if_pos hc, if_pos ⟨hc.1.symm, hc.2⟩]
    · rw [if_neg hc, if_neg fun h => hc ⟨h.1.symm, h.2⟩]

/-- C66: the hypotheses are met by a scrolled field with a selection over three lines. -/
example : ∃ f : InputField, f.content.Valid ∧ OnScreen f.area ∧ 1 ≤ f.textCols ∧ f.focused = true ∧ f.passwordMode = false ∧
    f.scroll.x = 0 ∧ f.scroll.y = 1 ∧ (∀ l ∈ f.content.lines, inputCols (fun _ => 1) l < f.textCols) ∧
    f.copySelection = some "b\ncde\n".toList :=
  ⟨{ area := ⟨2, 3, 7, 2⟩, scroll := ⟨1, 0⟩, content := ⟨⟨2, 3⟩, some ⟨1, 1⟩, [[], "ab".toList, "cde".toList, []]⟩ },
    ⟨by decide, ⟨_, rfl, by decide⟩, fun t h => by cases h; exact ⟨_, rfl, by decide⟩, by simp [NotStored]⟩, ⟨by decide, by decide⟩, by decide, rfl, rfl,
    rfl, rfl, by decide, by decide⟩

end Verif.Props

import Verif.Props.Input
/-! C69: edits of an input can be undone. -/
namespace Verif
open Content

/-- Repeated removal of the character before the cursor. -/
def Spec.delLeftTimes : Nat → Content → Run Content
  | 0, c => some c
  | n + 1, c => do
    let p ← c.delCharLeft
    Spec.delLeftTimes n p.1

/-- Same text, and same position of the cursor. -/
def Spec.SameTextAndCursor (c c' : Content) : Prop := c.lines = c'.lines ∧ c.pos = c'.pos

namespace Props
open Spec

private theorem linesL_inj : ∀ (A A' : List Text) (a a' : Text), (∀ l ∈ A, '\n' ∉ l) → (∀ l ∈ A', '\n' ∉ l) → '\n' ∉ a → '\n' ∉ a' →
    linesL A ++ a = linesL A' ++ a' → A = A' ∧ a = a' := by
  have first : ∀ (l l' r r' : Text), '\n' ∉ l → '\n' ∉ l' → l ++ '\n' :: r = l' ++ '\n' :: r' → l = l' ∧ r = r' := by
    intro l
    induction l with
    | nil =>
      intro l' r r' _ h' e
      cases l' with
      | nil => simpa using e
      | cons c l' => simp only [List.nil_append, List.cons_append, List.cons.injEq] at e; exact absurd (List.mem_cons.2 (.inl e.1)) h'
    | cons c l ih =>
      intro l' r r' h h' e
      cases l' with
      | nil => simp only [List.nil_append, List.cons_append, List.cons.injEq] at e; exact absurd (by simp [e.1]) h
      | cons d l' =>
        simp only [List.cons_append, List.cons.injEq] at e
        obtain ⟨e1, e2⟩ := ih l' r r' (fun hn => h (by simp [hn])) (fun hn => h' (by simp [hn])) e.2
        exact ⟨by rw [e.1, e1], e2⟩
  intro A
  induction A with
  | nil =>
    intro A' a a' _ _ ha _ e
    cases A' with
    | nil => exact ⟨rfl, by simpa [linesL] using e⟩
    | cons l A' =>
      exfalso; apply ha
      have e : a = linesL (l :: A') ++ a' := by simpa [linesL] using e
      rw [e]; simp [linesL]
  | cons l A ih =>
    intro A' a a' h h' ha ha' e
    cases A' with
    | nil =>
      exfalso; apply ha'
      have e : a' = linesL (l :: A) ++ a := by simpa [linesL] using e.symm
      rw [e]; simp [linesL]
    | cons l' A' =>
      have e : l ++ '\n' :: (linesL A ++ a) = l' ++ '\n' :: (linesL A' ++ a') := by simpa [linesL] using e
      obtain ⟨e1, e2⟩ := first _ _ _ _ (h l (by simp)) (h' l' (by simp)) e
      obtain ⟨e3, e4⟩ := ih A' a a' (fun x hx => h x (by simp [hx])) (fun x hx => h' x (by simp [hx])) ha ha' e2
      exact ⟨by rw [e1, e3], e4⟩

private theorem linesR_inj : ∀ (B B' : List Text) (b b' : Text), (∀ l ∈ B, '\n' ∉ l) → (∀ l ∈ B', '\n' ∉ l) → '\n' ∉ b → '\n' ∉ b' →
    b ++ linesR B = b' ++ linesR B' → B = B' ∧ b = b' := by
  have shift : ∀ (B : List Text) (b : Text), ∃ (A : List Text) (a : Text), b ++ linesR B = linesL A ++ a ∧ A ++ [a] = b :: B := by
    intro B
    induction B with
    | nil => intro b; exact ⟨[], b, by simp [linesL, linesR], rfl⟩
    | cons l B ih =>
      intro b
      obtain ⟨A, a, e1, e2⟩ := ih l
      refine ⟨b :: A, a, ?_, by rw [List.cons_append, e2]⟩
      have : b ++ linesR (l :: B) = b ++ '\n' :: (l ++ linesR B) := by simp [linesR]
      rw [this, e1]; simp [linesL]
  intro B B' b b' h h' hb hb' e
  obtain ⟨A, a, e1, e2⟩ := shift B b
  obtain ⟨A', a', e1', e2'⟩ := shift B' b'
  have hm : ∀ l ∈ A ++ [a], '\n' ∉ l := by
    rw [e2]; intro l hl; rcases List.mem_cons.1 hl with rfl | hl
    · exact hb
    · exact h l hl
  have hm' : ∀ l ∈ A' ++ [a'], '\n' ∉ l := by
    rw [e2']; intro l hl; rcases List.mem_cons.1 hl with rfl | hl
    · exact hb'
    · exact h' l hl
  obtain ⟨rfl, rfl⟩ := linesL_inj A A' a a' (fun l hl => hm l (by simp [hl])) (fun l hl => hm' l (by simp [hl])) (hm a (by simp)) (hm' a' (by simp))
    (by rw [← e1, ← e1', e])
  rw [e2] at e2'
  simp only [List.cons.injEq] at e2'
  exact ⟨e2'.2, e2'.1⟩

/-- C69: a content is determined by its text before and after the cursor. -/
theorem C69_determined {c c' : Content} (h : c.Valid) (h' : c'.Valid) (hb : c.before = c'.before) (ha : c.after = c'.after) : SameTextAndCursor c c' := by
  obtain ⟨A, a, b, B, e1, e2⟩ := h.pos.split
  obtain ⟨A', a', b', B', e1', e2'⟩ := h'.pos.split
  have hn : ∀ l ∈ c.lines, '\n' ∉ l := fun l hl hm => h.clean l hl _ hm (.inl rfl)
  have hn' : ∀ l ∈ c'.lines, '\n' ∉ l := fun l hl hm => h'.clean l hl _ hm (.inl rfl)
  rw [e1] at hn; rw [e1'] at hn'
  rw [before_eq e1 e2, before_eq e1' e2'] at hb
  rw [after_eq e1 e2, after_eq e1' e2'] at ha
  have m := hn (a ++ b) (by simp)
  have m' := hn' (a' ++ b') (by simp)
  obtain ⟨rfl, rfl⟩ := linesL_inj A A' a a' (fun l hl => hn l (by simp [hl])) (fun l hl => hn' l (by simp [hl]))
    (fun hm => m (by simp [hm])) (fun hm => m' (by simp [hm])) hb
  obtain ⟨rfl, rfl⟩ := linesR_inj B B' b b' (fun l hl => hn l (by simp [hl])) (fun l hl => hn' l (by simp [hl]))
    (fun hm => m (by simp [hm])) (fun hm => m' (by simp [hm])) ha
  exact ⟨by rw [e1, e1'], by rw [e2, e2']⟩

private theorem delLeft_times : ∀ (n : Nat) (c : Content), c.Valid → ∃ c', delLeftTimes n c = some c' ∧ c'.Valid ∧
    c'.before = c.before.take (c.before.length - n) ∧ c'.after = c.after := by
  intro n
  induction n with
  | zero => intro c h; exact ⟨c, rfl, h, by simp, rfl⟩
  | succ n ih =>
    intro c h
    obtain ⟨c1, r, h1, h2, _, h4, h5⟩ := C22_delete_left h
    obtain ⟨c2, g1, g2, g3, g4⟩ := ih c1 h2
    refine ⟨c2, ?_, g2, ?_, by rw [g4, h5]⟩
    · simp only [delLeftTimes, Option.bind_eq_bind]; rw [h1]; exact g1
    · rw [g3, h4, List.dropLast_eq_take, List.take_take, List.length_take]
      congr 1; omega

/-- C69: what was typed or pasted is removed by as many removals on the left as it has stored characters: the text and the cursor are back to
what they were. -/
theorem C69_undo_insert {c : Content} (h : c.Valid) (s : Text) :
    ∃ c' c'', c.insertStr s = some c' ∧ delLeftTimes (keptText s).length c' = some c'' ∧ c''.Valid ∧ SameTextAndCursor c'' c := by
  obtain ⟨c', h1, h2, h3, h4⟩ := C22_insert h s
  obtain ⟨c'', g1, g2, g3, g4⟩ := delLeft_times (keptText s).length c' h2
  refine ⟨c', c'', h1, g1, g2, C69_determined g2 h ?_ (by rw [g4, h4])⟩
  rw [g3, h3]
  simp

/-- C69: a newline is removed by one removal on the left. -/
theorem C69_undo_new_line {c : Content} (h : c.Valid) :
    ∃ c' c'', c.insertNewLine = some c' ∧ c'.delCharLeft = some (c'', true) ∧ c''.Valid ∧ SameTextAndCursor c'' c := by
  obtain ⟨c', h1, h2, h3, h4⟩ := C22_insert_new_line h
  obtain ⟨c'', r, g1, g2, g3, g4, g5⟩ := C22_delete_left h2
  have hr : r = true := by rw [g3, h3]; simp
  subst hr
  exact ⟨c', c'', h1, g1, g2, C69_determined g2 h (by rw [g4, h3]; simp) (by rw [g5, h4])⟩

private theorem stored {c : Content} (h : c.Valid) : keptText (c.before ++ c.after) = c.before ++ c.after := by
  rw [C22_parts h, C21_text]; exact kept_of_clean h

private theorem kept_of_mem {c : Content} (h : c.Valid) {s : Text} (hs : ∀ ch ∈ s, ch ∈ c.before ++ c.after) : keptText s = s := by
  have := stored h
  unfold keptText at this ⊢
  rw [List.filter_eq_self] at this ⊢
  exact fun ch hc => this ch (hs ch hc)

/-- C69: a removed character can be typed again: the last one before the cursor (which may be a newline)... -/
theorem C69_redo_left {c : Content} (h : c.Valid) {t : Text} {ch : Char} (hb : c.before = t ++ [ch]) :
    ∃ c' c'', c.delCharLeft = some (c', true) ∧ c'.insertStr [ch] = some c'' ∧ c''.Valid ∧ SameTextAndCursor c'' c := by
  obtain ⟨c', r, h1, h2, h3, h4, h5⟩ := C22_delete_left h
  have hr : r = true := by rw [h3, hb]; simp
  subst hr
  obtain ⟨c'', g1, g2, g3, g4⟩ := C22_insert h2 [ch]
  have hk : keptText [ch] = [ch] := kept_of_mem h fun x hx => by
    rw [List.mem_singleton.1 hx, hb]; simp
  exact ⟨c', c'', h1, g1, g2, C69_determined g2 h (by rw [g3, h4, hb, hk]; simp) (by rw [g4, h5])⟩

/-- C69: ...or the one below it, the cursor going back before it. -/
theorem C69_redo_below {c : Content} (h : c.Valid) {t : Text} {ch : Char} (ha : c.after = ch :: t) :
    ∃ c' c'' c''', c.delCharBelow = some (c', true) ∧ c'.insertStr [ch] = some c'' ∧ c''.moveLeft = some (c''', true) ∧ c'''.Valid ∧
      SameTextAndCursor c''' c := by
  obtain ⟨c', r, h1, h2, h3, h4, h5⟩ := C22_delete_below h (by rw [ha]; simp)
  have hr : r = true := by rw [h3, ha]; simp
  subst hr
  have hk : keptText [ch] = [ch] := kept_of_mem h fun x hx => by
    rw [List.mem_singleton.1 hx, ha]; simp
  obtain ⟨c'', g1, g2, g3, g4⟩ := C22_insert h2 [ch]
  obtain ⟨c3, r, k1, k2, _, _, k3, k4, k5, _⟩ := C22_move_left g2
  have hb3 : c3.before = c.before := by rw [k4, g3, hk, h4]; simp
  have hr : r = true := by rw [k3, g3, hk]; simp
  subst hr
  refine ⟨c', c'', c3, h1, g1, k1, k2, C69_determined k2 h hb3 ?_⟩
  rw [hb3, g3, g4, hk, h4, h5, ha] at k5
  simp only [List.append_assoc] at k5
  rw [List.append_cancel_left k5, ha]
  simp

/-- C69: pasting a text is the same as pasting its parts one after the other, for all ways to cut it (one character at a time included). -/
theorem C69_parts {c : Content} (h : c.Valid) (parts : List Text) :
    ∃ c' c'', c.insertStr parts.flatten = some c' ∧ parts.foldlM (fun c s => c.insertStr s) c = some c'' ∧ c''.Valid ∧ SameTextAndCursor c' c'' := by
  have key : ∀ (parts : List Text) (c : Content), c.Valid → ∃ c'', parts.foldlM (fun c s => c.insertStr s) c = some c'' ∧ c''.Valid ∧
      c''.before = c.before ++ keptText parts.flatten ∧ c''.after = c.after := by
    intro parts
    induction parts with
    | nil => intro c h; exact ⟨c, rfl, h, by simp [keptText], rfl⟩
    | cons s parts ih =>
      intro c h
      obtain ⟨c1, h1, h2, h3, h4⟩ := C22_insert h s
      obtain ⟨c2, g1, g2, g3, g4⟩ := ih c1 h2
      refine ⟨c2, ?_, g2, by rw [g3, h3]; simp [keptText], by rw [g4, h4]⟩
      rw [List.foldlM_cons, h1]; exact g1
  obtain ⟨c', h1, h2, h3, h4⟩ := C22_insert h parts.flatten
  obtain ⟨c'', g1, g2, g3, g4⟩ := key parts c h
  exact ⟨c', c'', h1, g1, g2, C69_determined h2 g2 (by rw [h3, g3]) (by rw [h4, g4])⟩

/-- C69: moves by one character are undone by the opposite one. -/
theorem C69_move_back {c : Content} (h : c.Valid) :
    (∀ c', c.moveRight = some (c', true) → c'.moveLeft = some (c, true)) ∧
    (∀ c', c.moveLeft = some (c', true) → c'.moveRight = some (c, true)) := by
  constructor
  · intro c' hc
    obtain ⟨c1, r, h1, h2, h3, h4, h5, h6, h7, _⟩ := C22_move_right h
    rw [h1] at hc; cases hc
    obtain ⟨c2, r, g1, g2, g3, g4, g5, g6, g7, _⟩ := C22_move_left h2
    have hne : c.after ≠ [] := by simpa using h5.symm
    obtain ⟨ch, t, ha⟩ := List.exists_cons_of_ne_nil hne
    have hb : c2.before = c.before := by rw [g6, h6, ha]; simp
    have hr : r = true := by rw [g5, h6, ha]; simp
    subst hr
    have hs := C69_determined g2 h hb (by
      rw [hb, h6, h7, ha] at g7
      simp only [List.append_assoc] at g7
      rw [List.append_cancel_left g7, ha]; simp)
    have : c2 = c := by
      obtain ⟨p, t, l⟩ := c; obtain ⟨p2, t2, l2⟩ := c2
      obtain ⟨e1, e2⟩ := hs
      simp only at e1 e2 h4 g4
      rw [e1, e2, g4, h4]
    rw [g1, this]
  · intro c' hc
    obtain ⟨c1, r, h1, h2, h3, h4, h5, h6, h7, _⟩ := C22_move_left h
    rw [h1] at hc; cases hc
    obtain ⟨c2, r, g1, g2, g3, g4, g5, g6, g7, _⟩ := C22_move_right h2
    have hne : c.before ≠ [] := by simpa using h5.symm
    have hlast : c.before = c.before.dropLast ++ [c.before.getLast hne] := (List.dropLast_concat_getLast hne).symm
    have ha : c'.after = c.before.getLast hne :: c.after := by
      rw [h6] at h7
      have : c.before.dropLast ++ c'.after = c.before.dropLast ++ (c.before.getLast hne :: c.after) := by
        rw [h7]; conv => lhs; rw [hlast]
        simp
      exact List.append_cancel_left this
    have hb : c2.before = c.before := by rw [g6, h6, ha]; exact List.dropLast_concat_getLast hne
    have hr : r = true := by rw [g5, ha]; simp
    subst hr
    have hs := C69_determined g2 h hb (by rw [g7, ha]; rfl)
    have : c2 = c := by
      obtain ⟨p, t, l⟩ := c; obtain ⟨p2, t2, l2⟩ := c2
      obtain ⟨e1, e2⟩ := hs
      simp only at e1 e2 h4 g4
      rw [e1, e2, g4, h4]
    rw [g1, this]

/-- C69: pasting what was cut where it was restores the text, when the selection was exactly cut. -/
theorem C69_cut_paste {c : Content} (h : c.Valid) (hw : c.hasWideSelection = true) (he : ExactlyCut c) :
    ∃ s c' c'', c.selectionString = some s ∧ c.delSelection = some (c', true) ∧ c'.insertStr s = some c'' ∧ c''.Valid ∧ c''.toText = c.toText := by
  obtain ⟨c', s, h1, h2, h3, _, h5, _⟩ := C23_cut h hw he
  obtain ⟨c'', g1, g2, g3, g4⟩ := C22_insert h3 s
  refine ⟨s, c', c'', h1, h2, g1, g2, ?_⟩
  have hk : keptText s = s := kept_of_mem h fun x hx => by
    rw [C22_parts h, h5]; simp [hx]
  rw [← C22_parts g2, g3, g4, hk, h5]

/-- C69: a valid content of several lines, with the cursor inside. -/
example : (⟨⟨1, 1⟩, some ⟨1, 0⟩, ["ab".toList, "cde".toList]⟩ : Content).Valid ∧ (⟨⟨1, 1⟩, some ⟨1, 0⟩, ["ab".toList, "cde".toList]⟩ : Content).before = "ab\nc".toList ∧
    (⟨⟨1, 1⟩, some ⟨1, 0⟩, ["ab".toList, "cde".toList]⟩ : Content).after = "de".toList :=
  ⟨⟨by decide, ⟨_, rfl, by decide⟩, by intro t ht; cases ht; exact ⟨_, rfl, by decide⟩, by simp [NotStored]⟩, by decide, by decide⟩

/-- C69: the edits of the theorems do change this content: a text of two lines inserted then erased, a line break inserted then erased, the character on the left, then
the one below the cursor, deleted then typed again, and the selected text cut then pasted. -/
example : let c : Content := ⟨⟨1, 1⟩, some ⟨1, 0⟩, ["ab".toList, "cde".toList]⟩
    (c.insertStr "x\r\ny".toList).map Content.toText = some "ab\ncx\nyde".toList ∧
    ((c.insertStr "x\r\ny".toList).bind (delLeftTimes 3)).map (fun c => (c.toText, c.pos)) = some ("ab\ncde".toList, ⟨1, 1⟩) ∧
    (c.insertNewLine.bind fun c => c.delCharLeft).map (fun r => (r.1.toText, r.1.pos)) = some ("ab\ncde".toList, ⟨1, 1⟩) ∧
    (c.delCharLeft.map fun r => r.1.toText) = some "ab\nde".toList ∧
    (c.delCharLeft.bind fun r => r.1.insertStr "c".toList).map (fun c => (c.toText, c.pos)) = some ("ab\ncde".toList, ⟨1, 1⟩) ∧
    (c.delCharBelow.map fun r => r.1.toText) = some "ab\nce".toList ∧
    (c.moveRight.map fun r => (r.1.pos, r.2)) = some (⟨1, 2⟩, true) := by decide

/-- C69: a selection in a line, as required for the cut. -/
example : let c : Content := ⟨⟨1, 2⟩, some ⟨1, 1⟩, ["ab".toList, "cdef".toList]⟩
    c.hasWideSelection = true ∧ ExactlyCut c ∧ c.selectionString = some "de".toList ∧ (c.delSelection.map fun r => r.1.toText) = some "ab\ncf".toList := by
  refine ⟨by decide, ?_, by decide, by decide⟩
  exact ⟨_, rfl, .inl (by decide)⟩

end Props
end Verif

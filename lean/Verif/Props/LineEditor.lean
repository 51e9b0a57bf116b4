import Verif.Props.Editor
import Verif.Spec.LineEditor
/-! C63: histories of keys and of clipboard commands in an input field of one line, with selection. -/
namespace Verif.Props
open Verif.Spec InputField

/-- The content of the field for a state of the reference editor. -/
private def shown (d : LineDoc) : Content := ⟨⟨0, d.cursor⟩, d.anchor.map (Pos.mk 0), [d.text]⟩

private structure Ok (d : LineDoc) : Prop where
  cursor : d.cursor ≤ d.text.length
  anchor : ∀ a, d.anchor = some a → a ≤ d.text.length
  clean : ∀ ch ∈ d.text, ¬ NotStored ch

private theorem Ok.valid {d : LineDoc} (h : Ok d) : (shown d).Valid := by
  refine ⟨by simp [shown], ⟨d.text, rfl, h.cursor⟩, ?_, ?_⟩
  · intro t ht
    simp only [shown, Option.map_eq_some_iff] at ht
    obtain ⟨a, ha, rfl⟩ := ht
    exact ⟨d.text, rfl, h.anchor a ha⟩
  · intro l hl ch hc
    simp [shown] at hl
    subst hl
    exact h.clean ch hc

private theorem shown_wide (d : LineDoc) : (shown d).hasWideSelection = d.wide := by
  unfold Content.hasWideSelection LineDoc.wide LineDoc.ends shown
  cases d.anchor with
  | none => simp
  | some a =>
    simp only [Option.map_some, Option.getD_some, Pos.mk.injEq, true_and, ne_eq, decide_not]
    by_cases h : a = d.cursor
    · simp [h]
    · have h2 : ¬ (min a d.cursor = max a d.cursor) := by omega
      simp [h, h2]

private theorem shown_selection (d : LineDoc) : (shown d).selection = ⟨⟨0, d.ends.1⟩, ⟨0, d.ends.2⟩⟩ := by
  unfold Content.selection LineDoc.ends shown
  cases d.anchor with
  | none => simp
  | some a =>
    simp only [Option.map_some, Option.getD_some, Pos.blt]
    by_cases h : a < d.cursor
    · have e1 : min a d.cursor = a := by omega
      have e2 : max a d.cursor = d.cursor := by omega
      simp [h, e1, e2]
    · have e1 : min a d.cursor = d.cursor := by omega
      have e2 : max a d.cursor = a := by omega
      simp [h, e1, e2]

private theorem ends_le {d : LineDoc} (h : Ok d) : d.ends.1 ≤ d.ends.2 ∧ d.ends.2 ≤ d.text.length := by
  unfold LineDoc.ends
  have := h.cursor
  cases ha : d.anchor with
  | none => simp; omega
  | some a => have := h.anchor a ha; simp; omega

private theorem erase_ok {d : LineDoc} (h : Ok d) : Ok d.erase := by
  have := ends_le h
  refine ⟨by simp [LineDoc.erase]; omega, by simp [LineDoc.erase], ?_⟩
  intro ch hc
  simp only [LineDoc.erase, List.mem_append] at hc
  rcases hc with hc | hc
  · exact h.clean ch (List.mem_of_mem_take hc)
  · exact h.clean ch (List.mem_of_mem_drop hc)

private theorem shown_erase {d : LineDoc} (h : Ok d) (hw : d.wide = true) : (shown d).delSelection = some (shown d.erase, true) := by
  have he := ends_le h
  simp only [LineDoc.wide, ne_eq, decide_not, Bool.not_eq_eq_eq_not, Bool.not_true, decide_eq_false_iff_not] at hw
  unfold Content.delSelection
  simp only [shown_selection]
  rw [if_neg (by omega)]
  have hr : (shown d).delRange ⟨⟨0, d.ends.1⟩, ⟨0, d.ends.2⟩⟩ = some [d.erase.text] := by
    simp only [Content.delRange, if_true, Content.delInLine, shown]
    simp only [List.getElem?_cons_zero, Option.bind_eq_bind, Option.bind_some]
    by_cases h2 : d.ends.2 = d.text.length
    · rw [if_pos h2]
      have ed : d.text.drop (d.ends.2 + 1) = [] := by rw [List.drop_eq_nil_iff]; omega
      by_cases h1 : d.ends.1 = 0
      · rw [if_pos h1]
        simp [vecDrain, Content.atLeastOneLine, LineDoc.erase, ed, h1]
      · rw [if_neg h1]
        simp only [vecDrain]
        rw [if_pos (by omega)]
        simp [vecSet, LineDoc.erase, ed]
    · rw [if_neg h2]
      simp only [vecDrain]
      rw [if_pos (by omega)]
      simp [vecSet, LineDoc.erase]
  rw [hr]
  have hl : d.ends.1 ≤ d.erase.text.length := by simp [LineDoc.erase]; omega
  simp only [Option.bind_eq_bind, Option.bind_some, Content.setCursorPos, Content.makeValidPos]
  simp [shown, LineDoc.erase, Nat.min_eq_left, hl]
  simp [LineDoc.erase] at hl
  omega

private theorem bound_fix {d : LineDoc} (h : d.cursor ≤ d.text.length) : (shown d).fixSelection = some (shown d.bound) := by
  have e : min d.cursor d.text.length = d.cursor := by omega
  unfold Content.fixSelection Content.fixSelectionTail
  cases ha : d.anchor with
  | none => simp [shown, Content.makeValidPos, e, LineDoc.bound, ha]
  | some a => simp [shown, Content.makeValidPos, e, LineDoc.bound, ha]

private theorem bound_ok {d : LineDoc} (h : d.cursor ≤ d.text.length) (hc : ∀ ch ∈ d.text, ¬ NotStored ch) : Ok d.bound := by
  refine ⟨h, ?_, hc⟩
  intro a ha
  simp only [LineDoc.bound, Option.map_eq_some_iff] at ha
  obtain ⟨b, _, rfl⟩ := ha
  simp only [LineDoc.bound]
  omega

private theorem bound_id {d : LineDoc} (h : Ok d) : d.bound = d := by
  obtain ⟨t, x, a⟩ := d
  cases a with
  | none => rfl
  | some a => have := h.anchor a rfl; simp at this; simp [LineDoc.bound]; omega

private theorem remove_ok {d : LineDoc} (i : Nat) (h : d.cursor ≤ (d.text.eraseIdx i).length) (hc : ∀ ch ∈ d.text, ¬ NotStored ch) :
    Ok (d.remove i) := bound_ok h fun ch hm => hc ch (List.mem_of_mem_eraseIdx hm)

private theorem erase_length {d : LineDoc} (h : Ok d) : d.cursor ≤ (d.text.eraseIdx d.cursor).length := by
  have := h.cursor
  rw [List.length_eraseIdx]; split <;> omega

private theorem shown_below {d : LineDoc} (h : Ok d) : ∃ b, (shown d).delCharBelow = some (shown (d.remove d.cursor), b) := by
  have hc := h.cursor
  unfold Content.delCharBelow shown
  simp only [Content.currentLine, List.getElem?_cons_zero, Option.bind_eq_bind, Option.bind_some, List.length_singleton]
  by_cases h0 : d.text.length = 0
  · rw [if_pos h0, if_neg (by omega)]
    have e : d.remove d.cursor = d := by
      unfold LineDoc.remove
      rw [List.eraseIdx_of_length_le (by omega)]
      exact bound_id h
    exact ⟨false, by rw [e]⟩
  · rw [if_neg h0]
    by_cases h1 : d.cursor < d.text.length
    · rw [if_pos h1]
      have hb := bound_fix (d := { d with text := d.text.eraseIdx d.cursor }) (erase_length h)
      simp only [shown] at hb
      refine ⟨true, ?_⟩
      simp only [vecRemove, if_pos h1, Option.bind_some, vecSet, List.length_singleton, Nat.zero_lt_one, if_true, List.set_cons_zero,
        ← List.eraseIdx_eq_take_drop_succ, hb]
      rfl
    · rw [if_neg h1, if_neg (by omega)]
      have e : d.remove d.cursor = d := by
        unfold LineDoc.remove
        rw [List.eraseIdx_of_length_le (by omega)]
        exact bound_id h
      exact ⟨false, by rw [e]⟩

private theorem shown_left {d : LineDoc} (h : Ok d) (h0 : d.cursor ≠ 0) :
    (shown d).delCharLeft = some (shown (LineDoc.remove (d.cursor - 1) { d with cursor := d.cursor - 1 }), true) := by
  have hc := h.cursor
  have hlen : d.cursor - 1 < d.text.length := by omega
  unfold Content.delCharLeft shown
  rw [if_pos (by show d.cursor > 0; omega)]
  have hne : d.text ≠ [] := by intro e; rw [e] at hlen; simp at hlen
  have hl : d.cursor - 1 ≤ (d.text.eraseIdx (d.cursor - 1)).length := by rw [List.length_eraseIdx]; split <;> omega
  have hb := bound_fix (d := ⟨d.text.eraseIdx (d.cursor - 1), d.cursor - 1, d.anchor⟩) hl
  simp only [shown] at hb
  simp only [List.getElem?_cons_zero, Option.bind_eq_bind, Option.bind_some, Content.removeLeft, List.isEmpty_iff, hne, if_false, vecRemove,
    if_pos hlen, vecSet, List.length_singleton, Nat.zero_lt_one, if_true, List.set_cons_zero, ← List.eraseIdx_eq_take_drop_succ, hb]
  rfl

private theorem insert_ok {d : LineDoc} (h : Ok d) (s : Text) (hs : ∀ ch ∈ s, ¬ NotStored ch) : Ok (d.insert s) := by
  have := h.cursor
  refine ⟨by simp [LineDoc.insert]; omega, ?_, ?_⟩
  · intro a ha
    have := h.anchor a ha
    simp [LineDoc.insert]; omega
  · intro ch hc
    simp only [LineDoc.insert, List.mem_append] at hc
    rcases hc with (hc | hc) | hc
    · exact h.clean ch (List.mem_of_mem_take hc)
    · exact hs ch hc
    · exact h.clean ch (List.mem_of_mem_drop hc)

private theorem kept_clean {s : Text} (h : '\n' ∉ s) : ∀ ch ∈ keptText s, ¬ NotStored ch := by
  intro ch hc hn
  simp only [keptText, List.mem_filter, decide_eq_true_eq] at hc
  rcases hn with rfl | rfl | rfl
  · exact h hc.1
  · exact hc.2.1 rfl
  · exact hc.2.2 rfl

private theorem shown_insertChar {d : LineDoc} (h : Ok d) (ch : Char) (hn : ch ≠ '\n') :
    (shown d).insertChar ch = some (shown (d.insert (keptText [ch]))) := by
  have hc := h.cursor
  unfold Content.insertChar
  rw [if_neg hn]
  by_cases hs : ch = '\r' ∨ ch = '\x08'
  · rw [if_pos hs]
    have e : keptText [ch] = [] := by rcases hs with rfl | rfl <;> rfl
    rw [e]
    simp [LineDoc.insert, shown]
  · rw [if_neg hs]
    have e : keptText [ch] = [ch] := by
      rw [not_or] at hs
      simp [keptText, hs]
    rw [e]
    simp [shown, vecInsert, hc, vecSet, LineDoc.insert]

private theorem insert_insert (d : LineDoc) (a b : Text) (h : d.cursor ≤ d.text.length) : (d.insert a).insert b = d.insert (a ++ b) := by
  simp only [LineDoc.insert, LineDoc.mk.injEq, List.length_append, and_true]
  refine ⟨?_, by omega⟩
  have e : d.cursor + a.length = (d.text.take d.cursor ++ a).length := by simp; omega
  rw [e, List.take_left, List.drop_left]
  simp

private theorem shown_insertStr : ∀ (s : Text) {d : LineDoc}, Ok d → '\n' ∉ s →
    (shown d).insertStr s = some (shown (d.insert (keptText s)))
  | [], d, h, _ => by simp [Content.insertStr, keptText, LineDoc.insert]
  | ch :: s, d, h, hn => by
    simp only [List.mem_cons, not_or] at hn
    have h1 := shown_insertChar h ch (fun e => hn.1 e.symm)
    have hok := insert_ok h (keptText [ch]) (kept_clean (by simpa using hn.1))
    simp only [Content.insertStr, h1, Option.bind_eq_bind, Option.bind_some]
    rw [shown_insertStr s hok hn.2, insert_insert _ _ _ h.cursor]
    congr 3
    simp only [keptText, List.filter_cons]
    split <;> simp

private theorem goto_ok {d : LineDoc} (h : Ok d) (sh : Bool) (i : Nat) (hi : i ≤ d.text.length) : Ok (d.goto sh i) := by
  refine ⟨hi, ?_, h.clean⟩
  intro a ha
  simp only [LineDoc.goto] at ha
  cases sh with
  | false => simp at ha
  | true =>
    simp at ha
    subst ha
    cases hx : d.anchor with
    | none => simpa [LineDoc.goto] using h.cursor
    | some b => simpa [LineDoc.goto] using h.anchor b hx

/-- The selection made or ended before a move. -/
private theorem goto_stay (d : LineDoc) (sh : Bool) :
    (if sh then (shown d).makeSelection else (shown d).unselect) = shown (d.goto sh d.cursor) := by
  cases sh with
  | false => simp [shown, Content.unselect, LineDoc.goto]
  | true =>
    simp only [if_true, Content.makeSelection, LineDoc.goto, shown]
    cases d.anchor with
    | none => simp
    | some a => simp

private theorem goto_goto (d : LineDoc) (sh : Bool) (i : Nat) : shown (d.goto sh i) = { shown (d.goto sh d.cursor) with pos := ⟨0, i⟩ } := rfl

private theorem wrapped {cw : Char → Nat} {f : InputField} {d : LineDoc} (h : Ok d) (hw : 1 ≤ f.area.width) (b : Bool) :
    ∃ f' b', wrap cw f (some (shown d, b)) = some (f', b') ∧ f'.content = shown d ∧ f'.area = f.area ∧ f'.focused = f.focused ∧
      f'.newLineKeys = f.newLineKeys := by
  cases b with
  | false => exact ⟨_, _, rfl, rfl, rfl, rfl, rfl⟩
  | true =>
    obtain ⟨f', g1, ⟨s, g2⟩, _⟩ := fixScroll_ok cw (f := { f with content := shown d }) h.valid hw
    refine ⟨f', true, by simp [wrap, g1], ?_⟩
    rw [g2]
    exact ⟨rfl, rfl, rfl, rfl⟩

private theorem scrolled {cw : Char → Nat} {f : InputField} {d : LineDoc} (h : Ok d) (hw : 1 ≤ f.area.width) :
    ∃ f', fixScroll cw { f with content := shown d } = some f' ∧ f'.content = shown d ∧ f'.area = f.area ∧ f'.focused = f.focused ∧
      f'.newLineKeys = f.newLineKeys := by
  obtain ⟨f', g1, ⟨s, g2⟩, _⟩ := fixScroll_ok cw (f := { f with content := shown d }) h.valid hw
  refine ⟨f', g1, ?_⟩
  rw [g2]
  exact ⟨rfl, rfl, rfl, rfl⟩

private theorem erased_or {d : LineDoc} (h : Ok d) : Ok (if d.wide then d.erase else d) := by
  split
  · exact erase_ok h
  · exact h

/-- A move key. -/
private theorem move_ok (cw : Char → Nat) {f : InputField} {d : LineDoc} (h : Ok d) (hc : f.content = shown d) (hw : 1 ≤ f.area.width) (sh : Bool)
    (code : KeyCode) (i : Nat) (hi : i ≤ d.text.length)
    (hm : ∀ g : InputField, g.content = shown (d.goto sh d.cursor) → ∃ b, moveKey cw g code = wrap cw g (some (shown (d.goto sh i), b))
      ∨ (moveKey cw g code = some (g, b) ∧ i = d.cursor)) :
    ∃ f' b, moveKey cw { f with content := if sh then f.content.makeSelection else f.content.unselect } code = some (f', b) ∧
      f'.content = shown (d.goto sh i) ∧ Ok (d.goto sh i) ∧ f'.area = f.area ∧ f'.focused = f.focused ∧ f'.newLineKeys = f.newLineKeys := by
  rw [hc, goto_stay]
  have hok := goto_ok h sh i hi
  obtain ⟨b, hb | ⟨hb, rfl⟩⟩ := hm { f with content := shown (d.goto sh d.cursor) } rfl
  · rw [hb]
    obtain ⟨f', b', g1, g2, g3, g4, g5⟩ := wrapped (cw := cw) (f := { f with content := shown (d.goto sh d.cursor) }) hok hw b
    exact ⟨f', b', g1, g2, hok, g3, g4, g5⟩
  · rw [hb]
    exact ⟨_, _, rfl, rfl, hok, rfl, rfl, rfl⟩

private theorem content_self {g : InputField} {c : Content} (h : g.content = c) : { g with content := c } = g := by rw [← h]

/-- A key. -/
private theorem lineKey_ok (cw : Char → Nat) {f : InputField} {d : LineDoc} (h : Ok d) (hc : f.content = shown d) (hw : 1 ≤ f.area.width)
    (hf : f.focused = true) (k : KeyComb) (hk : OneLineCmd f.newLineKeys (.key k)) :
    ∃ f' b, f.applyKeyCombination cw k = some (f', b) ∧ f'.content = shown (d.press k) ∧ Ok (d.press k) ∧ f'.area = f.area ∧
      f'.focused = f.focused ∧ f'.newLineKeys = f.newLineKeys := by
  obtain ⟨hk1, hk2⟩ := hk
  unfold applyKeyCombination LineDoc.press
  rw [if_neg (by simp [hf]), if_neg (by simpa using hk1)]
  by_cases hm : k.others ≠ [] ∨ (k.mods ≠ .none ∧ k.mods ≠ .shift)
  · rw [if_pos hm]
    have e : f.applyMods cw k = some (f, false) := by
      unfold applyMods
      split
      · next h1 h2 => rw [h1, h2] at hm; simp at hm
      · next h1 h2 => rw [h1, h2] at hm; simp at hm
      · rfl
    exact ⟨f, false, e, hc, h, rfl, rfl, rfl⟩
  · rw [if_neg hm]
    simp only [ne_eq, not_or, Decidable.not_and_iff_not_or_not, Decidable.not_not] at hm
    obtain ⟨ho, hmod⟩ := hm
    generalize hsh : (k.mods == KeyMods.shift) = sh
    have e : f.applyMods cw k = f.applyKeycodeEvent cw k.code sh := by
      unfold applyMods
      rcases hmod with hmod | hmod
      · have e2 : sh = false := by rw [← hsh, hmod]; rfl
        rw [ho, hmod, e2]
      · have e2 : sh = true := by rw [← hsh, hmod]; rfl
        rw [ho, hmod, e2]
    rw [e]
    have hcur := h.cursor
    have hk3 := hk2 ho hmod
    have dels : ∀ (r : Run (Content × Bool)) (d' : LineDoc), (d.wide = false → ∃ b, r = some (shown d', b)) → (d.wide = false → Ok d') →
        ∃ f' b, f.delKey r = some (f', b) ∧ f'.content = shown (if d.wide then d.erase else d') ∧ Ok (if d.wide then d.erase else d') ∧
          f'.area = f.area ∧ f'.focused = f.focused ∧ f'.newLineKeys = f.newLineKeys := by
      intro r d' hr hok
      unfold delKey
      rw [hc, shown_wide]
      cases hwd : d.wide with
      | true =>
        simp only [if_true, shown_erase h hwd, Option.bind_eq_bind, Option.bind_some]
        exact ⟨_, _, rfl, rfl, erase_ok h, rfl, rfl, rfl⟩
      | false =>
        obtain ⟨b, hb⟩ := hr hwd
        simp only [Bool.false_eq_true, if_false, hb, Option.bind_eq_bind, Option.bind_some]
        exact ⟨_, _, rfl, rfl, hok hwd, rfl, rfl, rfl⟩
    have stays : ∀ code, (∀ g : InputField, g.content = shown (d.goto sh d.cursor) → ∃ b, moveKey cw g code = some (g, b)) →
        ∃ f' b, moveKey cw { f with content := if sh then f.content.makeSelection else f.content.unselect } code = some (f', b) ∧
          f'.content = shown (d.goto sh d.cursor) ∧ Ok (d.goto sh d.cursor) ∧ f'.area = f.area ∧ f'.focused = f.focused ∧
          f'.newLineKeys = f.newLineKeys := by
      intro code hs
      apply move_ok cw h hc hw sh code d.cursor hcur
      intro g hg
      obtain ⟨b, hb⟩ := hs g hg
      exact ⟨b, .inr ⟨hb, rfl⟩⟩
    cases hcode : k.code with
    | char c =>
      have hn : c ≠ '\n' := by intro e; rw [hcode, e] at hk3; exact hk3 rfl
      have hkc := kept_clean (s := [c]) (by simpa using fun e => hn e.symm)
      have put : ∀ d' : LineDoc, Ok d' → ∃ f' b, putChar cw { f with content := shown d' } c = some (f', b) ∧
          f'.content = shown (d'.insert (keptText [c])) ∧ f'.area = f.area ∧ f'.focused = f.focused ∧ f'.newLineKeys = f.newLineKeys := by
        intro d' h'
        obtain ⟨f', g1, g2⟩ := scrolled (cw := cw) (f := f) (insert_ok h' _ hkc) hw
        refine ⟨f', true, ?_, g2⟩
        unfold putChar
        simp only [shown_insertChar h' c hn, Option.bind_eq_bind, Option.bind_some]
        rw [g1]; rfl
      simp only [applyKeycodeEvent, charKey]
      rw [hc, shown_wide]
      cases hwd : d.wide with
      | false =>
        simp only [Bool.false_eq_true, if_false]
        obtain ⟨f', b, g1, g2, g3⟩ := put d h
        rw [content_self hc] at g1
        exact ⟨f', b, g1, g2, insert_ok h _ hkc, g3⟩
      | true =>
        simp only [if_true, shown_erase h hwd, Option.bind_eq_bind, Option.bind_some]
        obtain ⟨f', b, g1, g2, g3, g4, g5⟩ := put d.erase (erase_ok h)
        rw [g1]
        simp only [Option.bind_some]
        have hok := insert_ok (erase_ok h) _ hkc
        obtain ⟨f2, e1, e2, e3, e4, e5⟩ := scrolled (cw := cw) (f := f') hok (by rw [g3]; exact hw)
        rw [content_self g2] at e1
        rw [e1]
        exact ⟨f2, true, rfl, e2, hok, e3.trans g3, e4.trans g4, e5.trans g5⟩
    | backspace =>
      have := dels (f.content.delCharLeft) (if d.cursor = 0 then d else LineDoc.remove (d.cursor - 1) { d with cursor := d.cursor - 1 })
        (by
          intro _
          rw [hc]
          by_cases h0 : d.cursor = 0
          · rw [if_pos h0]
            refine ⟨false, ?_⟩
            unfold Content.delCharLeft
            rw [if_neg (by show ¬ d.cursor > 0; omega), if_neg (by simp [shown])]
          · rw [if_neg h0]; exact ⟨true, shown_left h h0⟩)
        (by
          intro _
          split
          · exact h
          · refine remove_ok _ ?_ h.clean
            show d.cursor - 1 ≤ (d.text.eraseIdx (d.cursor - 1)).length
            rw [List.length_eraseIdx]; split <;> omega)
      simpa only [applyKeycodeEvent] using this
    | delete =>
      have := dels (f.content.delCharBelow) (LineDoc.remove d.cursor d) (by intro _; rw [hc]; exact shown_below h)
        (by intro _; exact remove_ok _ (erase_length h) h.clean)
      simpa only [applyKeycodeEvent] using this
    | home =>
      apply move_ok cw h hc hw sh .home 0 (by omega)
      intro g hg
      simp only [moveKey, hg]
      by_cases h0 : d.cursor > 0
      · exact ⟨true, .inl (by simp [Content.moveToLineStart, shown, LineDoc.goto, h0])⟩
      · have : d.cursor = 0 := by omega
        exact ⟨false, .inl (by simp [Content.moveToLineStart, shown, LineDoc.goto, this])⟩
    | «end» =>
      apply move_ok cw h hc hw sh .end d.text.length (by omega)
      intro g hg
      simp only [moveKey, hg]
      by_cases h0 : d.cursor < d.text.length
      · exact ⟨true, .inl (by simp [Content.moveToLineEnd, shown, LineDoc.goto, h0])⟩
      · have : d.cursor = d.text.length := by omega
        exact ⟨false, .inl (by simp [Content.moveToLineEnd, shown, LineDoc.goto, this])⟩
    | left =>
      apply move_ok cw h hc hw sh .left (d.cursor - 1) (by omega)
      intro g hg
      simp only [moveKey, hg]
      by_cases h0 : d.cursor > 0
      · exact ⟨true, .inl (by simp [Content.moveLeft, shown, LineDoc.goto, h0])⟩
      · have : d.cursor = 0 := by omega
        exact ⟨false, .inl (by simp [Content.moveLeft, shown, LineDoc.goto, this])⟩
    | right =>
      apply move_ok cw h hc hw sh .right (min (d.cursor + 1) d.text.length) (by omega)
      intro g hg
      simp only [moveKey, hg]
      by_cases h0 : d.cursor < d.text.length
      · have e2 : min (d.cursor + 1) d.text.length = d.cursor + 1 := by omega
        exact ⟨true, .inl (by rw [e2]; simp [Content.moveRight, shown, LineDoc.goto, h0])⟩
      · have : d.cursor = d.text.length := by omega
        have e2 : min (d.cursor + 1) d.text.length = d.cursor := by omega
        exact ⟨false, .inl (by rw [e2]; simp [Content.moveRight, shown, LineDoc.goto, this, csub])⟩
    | up =>
      refine stays .up fun g hg => ⟨false, ?_⟩
      simp only [moveKey, hg, Content.moveUp, Content.moveLinesUp]
      rw [if_neg (by simp [shown])]
      rw [← hg]; rfl
    | down =>
      refine stays .down fun g hg => ⟨false, ?_⟩
      simp only [moveKey, hg, Content.moveDown, Content.moveLinesDown]
      rw [if_neg (by simp [shown])]
      rw [← hg]; rfl
    | pageUp =>
      refine stays .pageUp fun g hg => ⟨false, ?_⟩
      simp only [moveKey, InputField.pageUp, hg, Content.moveLinesUp]
      rw [if_neg (by simp [shown])]
      rw [← hg]; rfl
    | pageDown =>
      refine stays .pageDown fun g hg => ⟨false, ?_⟩
      simp only [moveKey, InputField.pageDown, hg, Content.moveLinesDown]
      rw [if_neg (by simp [shown])]
      rw [← hg]; rfl
    | other n => exact stays (.other n) fun g hg => ⟨false, rfl⟩


/-! ### Commands of the clipboard -/

private theorem collect_line (t : Text) (pos : Pos) (tail : Option Pos) (hi : Nat) : ∀ (n lo fuel : Nat), hi + 1 - lo = n → n < fuel →
    Content.charsCollect ⟨pos, tail, [t]⟩ ⟨0, hi⟩ fuel ⟨0, lo⟩ = some ((t.drop lo).take (hi + 1 - lo)) := by
  intro n
  induction n with
  | zero =>
    intro lo fuel hn hf
    cases fuel with
    | zero => omega
    | succ fuel =>
      have hb : (⟨0, hi⟩ : Pos).blt ⟨0, lo⟩ = true := by simp [Pos.blt]; omega
      simp [Content.charsCollect, Content.charsNext, hb, hn]
  | succ n ih =>
    intro lo fuel hn hf
    cases fuel with
    | zero => omega
    | succ fuel =>
      have hb : (⟨0, hi⟩ : Pos).blt ⟨0, lo⟩ = false := by simp [Pos.blt]; omega
      by_cases hl : lo < t.length
      · have hg : t[lo]? = some t[lo] := List.getElem?_eq_getElem hl
        simp only [Content.charsCollect, Content.charsNext, hb, Bool.false_eq_true, if_false, List.getElem?_cons_zero, Option.bind_eq_bind,
          Option.bind_some, hg]
        rw [ih (lo + 1) fuel (by omega) (by omega)]
        have e : hi + 1 - lo = (hi + 1 - (lo + 1)) + 1 := by omega
        rw [List.drop_eq_getElem_cons hl, e, List.take_succ_cons]
        rfl
      · have hg : t[lo]? = none := by simp; omega
        have hd : t.drop lo = [] := by simp; omega
        simp [Content.charsCollect, Content.charsNext, hb, hg, hd]

private theorem shown_selected {d : LineDoc} (h : Ok d) : (shown d).selectionString = some d.selected := by
  have he := ends_le h
  unfold Content.selectionString
  rw [shown_selection]
  exact collect_line d.text _ _ d.ends.2 _ d.ends.1 _ rfl (by simp [Content.size, shown]; omega)

private theorem cut_ok {d : LineDoc} (h : Ok d) :
    Ok (d.edit .cut).1 ∧ ∃ b, (shown d).delSelection = some (shown (d.edit .cut).1, b) := by
  simp only [LineDoc.edit]
  cases hwd : d.wide with
  | true => exact ⟨erase_ok h, true, shown_erase h hwd⟩
  | false =>
    refine ⟨remove_ok _ (erase_length h) h.clean, ?_⟩
    simp only [LineDoc.wide, ne_eq, decide_not, Bool.not_eq_eq_eq_not, Bool.not_false, decide_eq_true_eq] at hwd
    unfold Content.delSelection
    simp only [shown_selection]
    rw [if_pos ⟨trivial, hwd⟩]
    exact shown_below h

/-- A command. -/
private theorem cmd_ok (cw : Char → Nat) {f : InputField} {d : LineDoc} (h : Ok d) (hc : f.content = shown d) (hw : 1 ≤ f.area.width)
    (hf : f.focused = true) (cmd : EditCmd) (hk : OneLineCmd f.newLineKeys cmd) :
    ∃ f', giveCmd cw f cmd = some (f', (d.edit cmd).2) ∧ f'.content = shown (d.edit cmd).1 ∧ Ok (d.edit cmd).1 ∧ f'.area = f.area ∧
      f'.focused = f.focused ∧ f'.newLineKeys = f.newLineKeys := by
  cases cmd with
  | key k =>
    obtain ⟨f', b, g1, g2⟩ := lineKey_ok cw h hc hw hf k hk
    exact ⟨f', by simp [giveCmd, g1, LineDoc.edit], g2⟩
  | cut =>
    obtain ⟨hok, b, hb⟩ := cut_ok h
    obtain ⟨f', g1, g2, g3⟩ := scrolled (cw := cw) (f := f) hok hw
    refine ⟨f', ?_, g2, hok, g3⟩
    simp only [giveCmd, cutSelection, hc, shown_selected h, hb, Option.bind_eq_bind, Option.bind_some, g1]
    rfl
  | paste s =>
    have hok := insert_ok (erased_or h) _ (kept_clean hk)
    obtain ⟨f', g1, g2, g3⟩ := scrolled (cw := cw) (f := f) hok hw
    refine ⟨f', ?_, g2, hok, g3⟩
    have hd : f.delWide = some { f with content := shown (if d.wide then d.erase else d) } := by
      unfold delWide
      rw [hc, shown_wide]
      cases hwd : d.wide with
      | true => simp [shown_erase h hwd]
      | false => simp only [Bool.false_eq_true, if_false]; rw [content_self hc]
    simp only [giveCmd, replaceSelection, hd, Option.bind_eq_bind, Option.bind_some, shown_insertStr s (erased_or h) hk, g1]
    rfl

/-- The state of the reference editor which corresponds to a content of one line. -/
def lineDocOf (c : Content) : LineDoc := ⟨c.lines.headD [], c.pos.x, c.tail.map (·.x)⟩

/-- C63: whatever the sequence of keys and of clipboard commands, none of which adds a line break, given to a focused field of one
line, with or without selection, there's no panic, and the text, the cursor, the selection and the cut texts are those of
the reference editor to which the same commands are given; and there's still one line. -/
theorem C63_history (cw : Char → Nat) : ∀ (cmds : List EditCmd) (f : InputField), f.content.Valid → f.content.lines.length = 1 →
    1 ≤ f.area.width → f.focused = true → (∀ c ∈ cmds, OneLineCmd f.newLineKeys c) →
    ∃ f' cuts, giveCmds cw f cmds = some (f', cuts) ∧ f'.content.lines.length = 1 ∧
      (lineDocOf f'.content, cuts) = (lineDocOf f.content).edits cmds := by
  have main : ∀ (cmds : List EditCmd) {f : InputField} {d : LineDoc}, Ok d → f.content = shown d → 1 ≤ f.area.width → f.focused = true →
      (∀ c ∈ cmds, OneLineCmd f.newLineKeys c) →
      ∃ f', giveCmds cw f cmds = some (f', (d.edits cmds).2) ∧ f'.content = shown (d.edits cmds).1 := by
    intro cmds
    induction cmds with
    | nil => intro f d h hc _ _ _; exact ⟨f, rfl, hc⟩
    | cons c cs ih =>
      intro f d h hc hw hf hk
      obtain ⟨f1, g1, g2, g3, g4, g5, g6⟩ := cmd_ok cw h hc hw hf c (hk c (by simp))
      obtain ⟨f2, e1, e2⟩ := ih (f := f1) g3 g2 (by rw [g4]; exact hw) (by rw [g5]; exact hf) (fun x hx => by rw [g6]; exact hk x (by simp [hx]))
      exact ⟨f2, by simp [giveCmds, g1, e1, LineDoc.edits], e2⟩
  intro cmds f hv hl hw hf hk
  have hone : ∀ d : LineDoc, lineDocOf (shown d) = d := by
    intro d
    obtain ⟨t, x, a⟩ := d
    cases a <;> simp [lineDocOf, shown]
  obtain ⟨t, ht⟩ := List.length_eq_one_iff.1 hl
  have hsh : f.content = shown (lineDocOf f.content) ∧ Ok (lineDocOf f.content) := by
    generalize f.content = c at hv ht
    obtain ⟨⟨y, x⟩, tail, lines⟩ := c
    simp only at ht
    subst ht
    obtain ⟨l, p1, p2⟩ := hv.pos
    have hy : ∀ (p : Pos) (l : Text), [t][p.y]? = some l → p.y = 0 ∧ l = t := by
      intro p l h
      cases hp : p.y with
      | zero => rw [hp] at h; simp at h; exact ⟨rfl, h.symm⟩
      | succ n => rw [hp] at h; simp at h
    obtain ⟨y0, rfl⟩ := hy ⟨y, x⟩ l p1
    simp only at y0
    subst y0
    refine ⟨?_, p2, ?_, ?_⟩
    · simp only [shown, lineDocOf, List.headD_cons, Content.mk.injEq, true_and, and_true, Option.map_map]
      cases tail with
      | none => rfl
      | some q =>
        obtain ⟨l', q1, q2⟩ := hv.tail q rfl
        obtain ⟨q0, _⟩ := hy q l' q1
        simp only [Option.map_some, Function.comp_apply, ← q0]
    · intro a ha
      simp only [lineDocOf, Option.map_eq_some_iff] at ha
      obtain ⟨q, hq, rfl⟩ := ha
      obtain ⟨l', q1, q2⟩ := hv.tail q hq
      obtain ⟨_, rfl⟩ := hy q l' q1
      exact q2
    · exact hv.clean l (by simp)
  obtain ⟨f', g1, g2⟩ := main cmds hsh.2 hsh.1 hw hf hk
  exact ⟨f', _, g1, by rw [g2]; rfl, by rw [g2, hone]⟩

/-- C63: in a new field. -/
theorem C63_new (cw : Char → Nat) (area : Area) (hw : 1 ≤ area.width) (cmds : List EditCmd) (hk : ∀ c ∈ cmds, OneLineCmd [] c) :
    ∃ f cuts, giveCmds cw (InputField.new area) cmds = some (f, cuts) ∧
      f.content.toText = (LineDoc.edits {} cmds).1.text ∧ cuts = (LineDoc.edits {} cmds).2 := by
  obtain ⟨f, cuts, g1, g2, g3⟩ := C63_history cw cmds (InputField.new area) Content.default_valid rfl hw rfl hk
  refine ⟨f, cuts, g1, ?_⟩
  have e : lineDocOf (InputField.new area).content = {} := rfl
  rw [e] at g3
  rw [← g3]
  obtain ⟨t, ht⟩ := List.length_eq_one_iff.1 g2
  refine ⟨?_, rfl⟩
  simp [Content.toText, Content.fmtLines, lineDocOf, ht]

private def sh (c : KeyCode) : EditCmd := .key ⟨c, [], .shift⟩
private def no (c : KeyCode) : EditCmd := .key ⟨c, [], .none⟩

/-- Typing, selecting the last word, cutting it and pasting it at the start. -/
private def exCmds : List EditCmd :=
  "one two".toList.map (fun c => no (.char c)) ++ [sh .left, sh .left, sh .left, .cut, no .home, .paste "two".toList, no .end, sh .left, no .backspace]

private instance (newLine : List KeyComb) (c : EditCmd) : Decidable (OneLineCmd newLine c) := by
  cases c <;> unfold OneLineCmd <;> infer_instance

example : ∀ c ∈ exCmds, OneLineCmd [] c := by decide

example : LineDoc.edits {} exCmds = (⟨"twoone".toList, 6, none⟩, List.replicate 10 [] ++ ["two".toList] ++ List.replicate 5 []) := by decide

end Verif.Props

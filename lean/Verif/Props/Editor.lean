import Verif.Lemmas.Editor
/-! C60: histories of keys in an input field. -/
namespace Verif.Props
open Verif.Spec InputField

private theorem narrow {c : Content} (h : c.tail = none) : c.hasWideSelection = false := by simp [Content.hasWideSelection, h]

private theorem moved {cw : Char → Nat} {f : InputField} (hv : f.content.Valid) (hw : 1 ≤ f.area.width) {r : Content → Run (Content × Bool)} {d : Doc}
    (hr : ∀ c : Content, c.Valid → c.doc = f.content.doc → ∃ c' b, r c = some (c', b) ∧ c'.Valid ∧ c'.tail = c.tail ∧ c'.doc = d) :
    ∃ f' b, wrap cw { f with content := f.content.unselect } (r f.content.unselect) = some (f', b) ∧ f'.content.Valid ∧ f'.content.tail = none ∧
      f'.content.doc = d ∧ f'.area = f.area ∧ f'.focused = f.focused ∧ f'.newLineKeys = f.newLineKeys := by
  have hu : f.content.unselect.Valid := ⟨hv.oneLine, hv.pos, by simp [Content.unselect], hv.clean⟩
  obtain ⟨c', b, h1, h2, h3, h4⟩ := hr _ hu rfl
  rw [h1]
  cases b with
  | false => exact ⟨_, _, rfl, h2, by rw [h3]; rfl, h4, rfl, rfl, rfl⟩
  | true =>
    obtain ⟨f', g1, ⟨s, g2⟩, _⟩ := fixScroll_ok cw (f := { f with content := c' }) h2 hw
    refine ⟨f', true, ?_, ?_, ?_, ?_, ?_, ?_, ?_⟩
    · simp [wrap, g1]
    · rw [g2]; exact h2
    · rw [g2]; exact h3
    · rw [g2]; exact h4
    all_goals rw [g2]

private theorem doc_left {d : Doc} {c' : Content} (h : (d.before = [] ∧ c'.doc = d) ∨ ∃ ch, d.before = c'.before ++ [ch] ∧ c'.after = ch :: d.after) :
    c'.doc = d.left := by
  obtain ⟨p, r⟩ := d
  rcases h with ⟨h1, h2⟩ | ⟨ch, h1, h2⟩
  · simp only at h1
    subst h1
    exact h2
  · simp only at h1 h2
    subst h1
    rw [Doc.left_snoc, Content.doc, h2]

private theorem doc_right {d : Doc} {c' : Content} (h : (d.after = [] ∧ c'.doc = d) ∨ ∃ ch, d.after = ch :: c'.after ∧ c'.before = d.before ++ [ch]) :
    c'.doc = d.right := by
  obtain ⟨p, r⟩ := d
  rcases h with ⟨h1, h2⟩ | ⟨ch, h1, h2⟩
  · simp only at h1
    subst h1
    exact h2
  · simp only at h1 h2
    subst h1
    simp only [Doc.right, Content.doc, h2]

/-- One key. -/
theorem press_ok (cw : Char → Nat) {f : InputField} (hv : f.content.Valid) (hw : 1 ≤ f.area.width) (hf : f.focused = true) (ht : f.content.tail = none)
    (k : KeyComb) (hk : ¬ Selects f.newLineKeys k) :
    ∃ f' b, f.applyKeyCombination cw k = some (f', b) ∧ f'.content.Valid ∧ f'.content.tail = none ∧
      f'.content.doc = f.content.doc.press cw f.newLineKeys f.area.height k ∧ f'.area = f.area ∧ f'.focused = f.focused ∧ f'.newLineKeys = f.newLineKeys := by
  unfold applyKeyCombination Doc.press
  simp only [hf, Bool.not_true, Bool.false_eq_true, if_false]
  by_cases hn : k ∈ f.newLineKeys
  · rw [if_pos (by simpa using hn), if_pos hn]
    obtain ⟨c', h1, h2, h3, h4⟩ := Content.insertNewLine_ok hv
    obtain ⟨f', g1, ⟨s, g2⟩, _⟩ := fixScroll_ok cw (f := { f with content := c' }) h2 hw
    refine ⟨f', true, by simp [InputField.insertNewLine, h1, g1], ?_, ?_, ?_, ?_, ?_, ?_⟩
    · rw [g2]; exact h2
    · rw [g2]; exact Content.insertNewLine_none h1 ht
    · rw [g2]; simp [Content.doc, h3, h4, Doc.insert]
    · rw [g2]
    · rw [g2]; exact hf
    · rw [g2]
  rw [if_neg (by simpa using hn), if_neg hn]
  obtain ⟨code, others, mods⟩ := k
  have ignored : ∃ f' b, some (f, false) = some (f', b) ∧ f'.content.Valid ∧ f'.content.tail = none ∧
      f'.content.doc = f.content.doc ∧ f'.area = f.area ∧ f'.focused = true ∧ f'.newLineKeys = f.newLineKeys :=
    ⟨f, false, rfl, hv, ht, rfl, rfl, hf, rfl⟩
  cases others with
  | cons o os => rw [if_pos (.inl (by simp))]; exact ignored
  | nil =>
  by_cases hm : ¬ (mods = .none ∨ mods = .shift)
  · have hm1 : mods ≠ .none := fun e => hm (.inl e)
    have hm2 : mods ≠ .shift := fun e => hm (.inr e)
    rw [if_pos (.inr ⟨hm1, hm2⟩)]
    cases mods with
    | none => exact absurd rfl hm1
    | shift => exact absurd rfl hm2
    | other n => exact ignored
  have hm := Classical.not_not.1 hm
  rw [if_neg (by rcases hm with rfl | rfl <;> simp)]
  have hnw := narrow ht
  -- the modifiers don't matter for the keys which don't select
  have happ : ∃ sh : Bool, applyMods cw f ⟨code, [], mods⟩ = f.applyKeycodeEvent cw code sh ∧
      (sh = true → code = .backspace ∨ code = .delete ∨ ∃ c, code = .char c) := by
    rcases hm with rfl | rfl
    · exact ⟨false, rfl, by simp⟩
    · refine ⟨true, rfl, fun _ => ?_⟩
      by_cases h1 : code = .backspace
      · exact .inl h1
      by_cases h2 : code = .delete
      · exact .inr (.inl h2)
      refine .inr (.inr ?_)
      apply Classical.byContradiction
      intro h3
      exact hk ⟨hn, rfl, rfl, h1, h2, fun c hc => h3 ⟨c, hc⟩⟩
  obtain ⟨sh, happ, hsh⟩ := happ
  rw [happ]
  have move : ∀ (r : Content → Run (Content × Bool)) (d : Doc), (sh = false → f.applyKeycodeEvent cw code sh =
      wrap cw { f with content := f.content.unselect } (r f.content.unselect)) → sh = false →
      (∀ c : Content, c.Valid → c.doc = f.content.doc → ∃ c' b, r c = some (c', b) ∧ c'.Valid ∧ c'.tail = c.tail ∧ c'.doc = d) →
      ∃ f' b, f.applyKeycodeEvent cw code sh = some (f', b) ∧ f'.content.Valid ∧ f'.content.tail = none ∧
        f'.content.doc = d ∧ f'.area = f.area ∧ f'.focused = true ∧ f'.newLineKeys = f.newLineKeys := by
    intro r d h1 h2 h3
    rw [h1 h2]
    obtain ⟨f', b, q1, q2, q3, q4, q5, q6, q7⟩ := moved (cw := cw) hv hw h3
    exact ⟨f', b, q1, q2, q3, q4, q5, q6.trans hf, q7⟩
  cases code with
  | backspace =>
    obtain ⟨c', r, h1, h2, h3⟩ := Content.delCharLeft_ok hv
    refine ⟨{ f with content := c' }, r, by simp [applyKeycodeEvent, delKey, hnw, h1], h2, Content.delCharLeft_none h1 ht, ?_, rfl, hf, rfl⟩
    simp only [Content.doc, Doc.backspace]
    rcases h3 with ⟨e, rfl, _⟩ | ⟨ch, e1, e2, _⟩
    · simp [e]
    · simp [e1, e2]
  | delete =>
    obtain ⟨c', r, h1, h2, h3⟩ := Content.delCharBelow_ok hv
    refine ⟨{ f with content := c' }, r, by simp [applyKeycodeEvent, delKey, hnw, h1], h2, Content.delCharBelow_none h1 ht, ?_, rfl, hf, rfl⟩
    simp only [Content.doc, Doc.delete]
    rcases h3 with ⟨e, rfl, _, e3⟩ | ⟨ch, e1, e2, _⟩ | ⟨e1, e2, e3, _⟩
    · simp only [e]
      rw [if_neg]
      intro hl
      obtain ⟨t, ht⟩ := List.getLast?_eq_some_iff.1 hl
      exact e3 t ht
    · simp only [e1, e2]
    · simp [e1, e2, e3, Doc.backspace]
  | char ch =>
    obtain ⟨c', h1, h2, h3, h4⟩ := Content.insertChar_ok hv ch
    obtain ⟨f', g1, ⟨s, g2⟩, _⟩ := fixScroll_ok cw (f := { f with content := c' }) h2 hw
    refine ⟨f', true, by simp [applyKeycodeEvent, charKey, hnw, putChar, h1, g1], ?_, ?_, ?_, ?_, ?_, ?_⟩
    · rw [g2]; exact h2
    · rw [g2]; exact Content.insertChar_none h1 ht
    · rw [g2]
      simp only [Content.doc, h3, h4]
      by_cases hc : ch = '\r' ∨ ch = '\x08'
      · rw [if_pos hc]
        rcases hc with rfl | rfl <;> simp [keptText]
      · have : keptText [ch] = [ch] := by
          have hc1 : ch ≠ '\r' := fun e => hc (.inl e)
          have hc2 : ch ≠ '\x08' := fun e => hc (.inr e)
          simp [keptText, hc1, hc2]
        rw [if_neg hc, this]
        rfl
    · rw [g2]
    · rw [g2]; exact hf
    · rw [g2]
  | home =>
    cases sh with
    | true => have := hsh rfl; simp at this
    | false =>
    refine move (fun c => some c.moveToLineStart) _ (fun _ => rfl) rfl fun c hc hd => ?_
    obtain ⟨c', seg, k1, k2, k3, k4, k5, k6, k7, k8⟩ := Content.moveToLineStart_ok hc
    refine ⟨c', _, by rw [k1], k2, k4, ?_⟩
    show c'.doc = f.content.doc.home
    rw [← hd, show c.doc = ⟨c'.before ++ seg, c.after⟩ by simp [Content.doc, k5], Doc.home_eq _ _ _ k7 k8, Content.doc, k6]
  | «end» =>
    cases sh with
    | true => have := hsh rfl; simp at this
    | false =>
    refine move (fun c => c.moveToLineEnd) _ (fun _ => rfl) rfl fun c hc hd => ?_
    obtain ⟨c', seg, k1, k2, k3, k4, k5, k6, k7, k8⟩ := Content.moveToLineEnd_ok hc
    refine ⟨c', _, k1, k2, k4, ?_⟩
    show c'.doc = f.content.doc.toEnd
    rw [← hd, show c.doc = ⟨c.before, seg ++ c'.after⟩ by simp [Content.doc, k6], Doc.toEnd_eq _ _ _ k7 k8, Content.doc, k5]
  | up =>
    cases sh with
    | true => have := hsh rfl; simp at this
    | false =>
    refine move (fun c => c.moveLinesUp cw 1) _ (fun _ => rfl) rfl fun c hc hd => ?_
    obtain ⟨c', r, k1, k2, k3, k4⟩ := Content.moveLinesUp_doc cw hc 1
    exact ⟨c', r, k1, k2, k3, by rw [k4, hd]⟩
  | down =>
    cases sh with
    | true => have := hsh rfl; simp at this
    | false =>
    refine move (fun c => c.moveLinesDown cw 1) _ (fun _ => rfl) rfl fun c hc hd => ?_
    obtain ⟨c', r, k1, k2, k3, k4⟩ := Content.moveLinesDown_doc cw hc 1
    exact ⟨c', r, k1, k2, k3, by rw [k4, hd]⟩
  | left =>
    cases sh with
    | true => have := hsh rfl; simp at this
    | false =>
    refine move (fun c => c.moveLeft) _ (fun _ => rfl) rfl fun c hc hd => ?_
    obtain ⟨c', r, k1, k2, k3, k4, k5⟩ := Content.moveLeft_ok hc
    refine ⟨c', r, k1, k2, k4, ?_⟩
    rw [← hd]
    apply doc_left
    rcases k5 with ⟨e1, rfl, _⟩ | ⟨ch, e1, e2, _⟩
    · exact .inl ⟨e1, rfl⟩
    · exact .inr ⟨ch, e1, e2⟩
  | right =>
    cases sh with
    | true => have := hsh rfl; simp at this
    | false =>
    refine move (fun c => c.moveRight) _ (fun _ => rfl) rfl fun c hc hd => ?_
    obtain ⟨c', r, k1, k2, k3, k4, k5⟩ := Content.moveRight_ok hc
    refine ⟨c', r, k1, k2, k4, ?_⟩
    rw [← hd]
    apply doc_right
    rcases k5 with ⟨e1, rfl, _⟩ | ⟨ch, e1, e2, _⟩
    · exact .inl ⟨e1, rfl⟩
    · exact .inr ⟨ch, e1, e2⟩
  | pageUp =>
    cases sh with
    | true => have := hsh rfl; simp at this
    | false =>
    refine move (fun c => c.moveLinesUp cw f.area.height) _ (fun _ => rfl) rfl fun c hc hd => ?_
    obtain ⟨c', r, k1, k2, k3, k4⟩ := Content.moveLinesUp_doc cw hc f.area.height
    exact ⟨c', r, k1, k2, k3, by rw [k4, hd]⟩
  | pageDown =>
    cases sh with
    | true => have := hsh rfl; simp at this
    | false =>
    refine move (fun c => c.moveLinesDown cw f.area.height) _ (fun _ => rfl) rfl fun c hc hd => ?_
    obtain ⟨c', r, k1, k2, k3, k4⟩ := Content.moveLinesDown_doc cw hc f.area.height
    exact ⟨c', r, k1, k2, k3, by rw [k4, hd]⟩
  | other n =>
    cases sh with
    | true => have := hsh rfl; simp at this
    | false =>
    exact ⟨{ f with content := f.content.unselect }, false, rfl, ⟨hv.oneLine, hv.pos, by simp [Content.unselect], hv.clean⟩, rfl, rfl, rfl, hf, rfl⟩

/-- C60: whatever the keys given one after the other to a focused field without selection, if none of them selects, the field has
the text and the cursor of the reference editor. -/
theorem C60_keys (cw : Char → Nat) : ∀ (keys : List KeyComb) {f : InputField}, f.content.Valid → 1 ≤ f.area.width → f.focused = true →
    f.content.tail = none → (∀ k ∈ keys, ¬ Selects f.newLineKeys k) →
    ∃ f', pressAll cw keys f = some f' ∧
      ⟨f'.content.before, f'.content.after⟩ = keys.foldl (Doc.press cw f.newLineKeys f.area.height) ⟨f.content.before, f.content.after⟩
  | [], f, _, _, _, _, _ => ⟨f, rfl, rfl⟩
  | k :: ks, f, hv, hw, hf, ht, hk => by
    obtain ⟨f', b, h1, h2, h3, h4, h5, h6, h7⟩ := press_ok cw hv hw hf ht k (hk k (by simp))
    obtain ⟨f'', k1, k2⟩ := C60_keys cw ks h2 (by rw [h5]; exact hw) (by rw [h6]; exact hf) h3
      (fun k hm => by rw [h7]; exact hk k (by simp [hm]))
    refine ⟨f'', by simp [pressAll, h1, k1], ?_⟩
    rw [k2, List.foldl_cons, h5, h7]
    congr 1

/-- C60: a new field holds exactly what the reference editor, empty at first, holds after the same keys. -/
theorem C60_new (cw : Char → Nat) (area : Area) (hw : 1 ≤ area.width) (newLine keys : List KeyComb) (hk : ∀ k ∈ keys, ¬ Selects newLine k) :
    ∃ f, pressAll cw keys { InputField.new area with newLineKeys := newLine } = some f ∧
      f.content.toText = (keys.foldl (Doc.press cw newLine area.height) {}).before ++ (keys.foldl (Doc.press cw newLine area.height) {}).after := by
  have hv : ({ InputField.new area with newLineKeys := newLine } : InputField).content.Valid := Content.default_valid
  obtain ⟨f, h1, h2⟩ := C60_keys cw keys hv hw rfl rfl hk
  have hvalid : f.content.Valid := by
    have : ∀ (keys : List KeyComb) {g g' : InputField}, g.content.Valid → 1 ≤ g.area.width → g.focused = true → g.content.tail = none →
        (∀ k ∈ keys, ¬ Selects g.newLineKeys k) → pressAll cw keys g = some g' → g'.content.Valid := by
      intro keys
      induction keys with
      | nil => intro g g' hg _ _ _ _ e; cases e; exact hg
      | cons k ks ih =>
        intro g g' hg hw hf ht hk e
        obtain ⟨f', b, h1, h2, h3, h4, h5, h6, h7⟩ := press_ok cw hg hw hf ht k (hk k (by simp))
        simp only [pressAll, h1, Option.bind_eq_bind, Option.bind_some] at e
        exact ih h2 (by rw [h5]; exact hw) (by rw [h6]; exact hf) h3 (fun k hm => by rw [h7]; exact hk k (by simp [hm])) e
    exact this keys hv hw rfl rfl hk h1
  refine ⟨f, h1, ?_⟩
  have e : (keys.foldl (Doc.press cw newLine area.height) {}) = ⟨f.content.before, f.content.after⟩ := h2.symm
  rw [e, show f.content.toText = joinLines f.content.lines from fmtLines_eq _]
  exact (text_split hvalid.pos).symm

/-- The key typed for a character, with the given one for line breaks. -/
def keyOf (enter : KeyComb) (c : Char) : KeyComb := if c = '\n' then enter else ⟨.char c, [], .none⟩

private theorem typed (cw : Char → Nat) (enter : KeyComb) (hcode : ∀ c, enter.code ≠ .char c) (page : Nat) (s : Text) (hs : ∀ c ∈ s, c ≠ '\r' ∧ c ≠ '\x08') :
    ∀ d : Doc, (s.map (keyOf enter)).foldl (Doc.press cw [enter] page) d = ⟨d.before ++ s, d.after⟩ := by
  induction s with
  | nil => intro d; simp
  | cons c s ih =>
    intro d
    have hp : Doc.press cw [enter] page d (keyOf enter c) = ⟨d.before ++ [c], d.after⟩ := by
      unfold keyOf Doc.press
      by_cases hc : c = '\n'
      · subst hc
        simp [Doc.insert]
      · have hne : (⟨.char c, [], .none⟩ : KeyComb) ≠ enter := fun e => hcode c (by rw [← e])
        have := hs c (by simp)
        simp [hc, hne, this.1, this.2, Doc.insert]
    rw [List.map_cons, List.foldl_cons, hp, ih (fun c hm => hs c (by simp [hm]))]
    simp

/-- C60: typing a text in a new field gives this text, `enter` being the key declared for line breaks. -/
theorem C60_typed (cw : Char → Nat) (area : Area) (hw : 1 ≤ area.width) (enter : KeyComb) (hcode : ∀ c, enter.code ≠ .char c) (s : Text)
    (hs : ∀ c ∈ s, c ≠ '\r' ∧ c ≠ '\x08') :
    ∃ f, pressAll cw (s.map (keyOf enter)) { InputField.new area with newLineKeys := [enter] } = some f ∧ f.content.toText = s := by
  obtain ⟨f, h1, h2⟩ := C60_new cw area hw [enter] (s.map (keyOf enter)) (by
    intro k hk hsel
    obtain ⟨c, _, rfl⟩ := List.mem_map.1 hk
    unfold keyOf at hsel
    by_cases hc : c = '\n'
    · rw [if_pos hc] at hsel
      exact hsel.1 (by simp)
    · rw [if_neg hc] at hsel
      exact hsel.2.2.2.2.2 c rfl)
  refine ⟨f, h1, ?_⟩
  rw [h2, typed cw enter hcode area.height s hs]
  simp

/-- C60: typing a text then `Backspace` as many times as it has characters gives back the text there was, and the cursor. -/
theorem C60_erased (cw : Char → Nat) (enter : KeyComb) (hcode : ∀ c, enter.code ≠ .char c) (hback : enter.code ≠ .backspace) (s : Text)
    (hs : ∀ c ∈ s, c ≠ '\r' ∧ c ≠ '\x08') {f : InputField} (hv : f.content.Valid) (hw : 1 ≤ f.area.width) (hf : f.focused = true)
    (ht : f.content.tail = none) (hn : f.newLineKeys = [enter]) :
    ∃ f', pressAll cw (s.map (keyOf enter) ++ List.replicate s.length ⟨.backspace, [], .none⟩) f = some f' ∧
      f'.content.before = f.content.before ∧ f'.content.after = f.content.after := by
  obtain ⟨f', h1, h2⟩ := C60_keys cw (s.map (keyOf enter) ++ List.replicate s.length ⟨.backspace, [], .none⟩) hv hw hf ht (by
    intro k hk hsel
    rw [hn] at hsel
    rcases List.mem_append.1 hk with hk | hk
    · obtain ⟨c, _, rfl⟩ := List.mem_map.1 hk
      unfold keyOf at hsel
      by_cases hc : c = '\n'
      · rw [if_pos hc] at hsel
        exact hsel.1 (by simp)
      · rw [if_neg hc] at hsel
        exact hsel.2.2.2.2.2 c rfl
    · rw [(List.mem_replicate.1 hk).2] at hsel
      exact hsel.2.2.2.1 rfl)
  refine ⟨f', h1, ?_⟩
  rw [List.foldl_append, hn, typed cw enter hcode _ s hs] at h2
  have back : ∀ (n : Nat) (d : Doc), (List.replicate n (⟨.backspace, [], .none⟩ : KeyComb)).foldl (Doc.press cw [enter] f.area.height) d =
      ⟨d.before.take (d.before.length - n), d.after⟩ := by
    intro n
    induction n with
    | zero => intro d; simp
    | succ n ih =>
      intro d
      have hne : (⟨.backspace, [], .none⟩ : KeyComb) ≠ enter := fun e => hback (by rw [← e])
      rw [List.replicate_succ, List.foldl_cons, ih]
      simp only [Doc.press, List.mem_singleton, hne, if_false, ne_eq, not_true, false_and, or_self, Doc.backspace]
      rw [List.dropLast_eq_take, List.take_take, List.length_take]
      congr 2
      omega
  rw [back] at h2
  injection h2 with h2 h3
  exact ⟨by rw [h2]; simp, h3⟩

/-- C60: from a selection on, there's no more such editor: a key with shift which isn't used starts a selection, then the second
typed character replaces the first one. -/
theorem C60_selection_counterexample :
    (pressAll (fun _ => 1) [⟨.other 0, [], .shift⟩, ⟨.char 'a', [], .none⟩, ⟨.char 'b', [], .none⟩] (InputField.new ⟨0, 0, 10, 1⟩)).map
      (fun f => f.content.toText) = some ['b'] := by decide

/-- Keys with all codes, in a field of 2 rows. -/
example : (pressAll (fun _ => 1) ("ab\ncd\ne".toList.map (keyOf ⟨.other 1, [], .none⟩) ++
      [⟨.up, [], .none⟩, ⟨.char 'X', [], .shift⟩, ⟨.pageUp, [], .none⟩, ⟨.delete, [], .none⟩, ⟨.pageDown, [], .none⟩, ⟨.backspace, [], .none⟩, ⟨.left, [], .none⟩,
       ⟨.home, [], .none⟩, ⟨.char 'Y', [], .none⟩, ⟨.end, [], .none⟩, ⟨.down, [], .none⟩, ⟨.right, [], .none⟩, ⟨.char 'Z', [], .none⟩])
      { InputField.new ⟨0, 0, 10, 2⟩ with newLineKeys := [⟨.other 1, [], .none⟩] }).map (fun f => f.content.toText) = some "YabcXd\nZ".toList := by
  decide

end Verif.Props

import Verif.Spec.InputField
import Verif.Lemmas.Input
import Verif.Lemmas.Input2
import Verif.Lemmas.Fit
/-! Lemmas for input fields. -/
namespace Verif
open InputField Content

theorem csub_of_le {a b : Nat} (h : b ≤ a) : csub a b = some (a - b) := by rw [csub, if_pos h]

theorem inputCols_append (cw : Char → Nat) (a b : Text) : inputCols cw (a ++ b) = inputCols cw a + inputCols cw b := by
  simp [inputCols]

theorem inputCols_cons (cw : Char → Nat) (c : Char) (b : Text) : inputCols cw (c :: b) = inputCharWidth cw c + inputCols cw b := by
  simp [inputCols, inputCharWidth]

@[simp] theorem inputCols_nil (cw : Char → Nat) : inputCols cw [] = 0 := rfl

theorem lineWidth_eq (cw : Char → Nat) (l : Text) : lineWidth cw l = inputCols cw l := rfl

theorem inputCols_take_le (cw : Char → Nat) (l : Text) (i : Nat) : inputCols cw (l.take i) ≤ inputCols cw l := by
  have := inputCols_append cw (l.take i) (l.drop i)
  rw [List.take_append_drop] at this
  omega

/-! ### Scroll -/

theorem fixScrollY_ok (h n p : Nat) (foc : Bool) (s : Nat) (hp : p < n) (hn : h < n) :
    ∃ s', fixScrollY h n p foc s = some s' ∧ s' + h ≤ n ∧
      (foc = true → 1 ≤ h → s' ≤ p ∧ (p < s' + h ∨ (p = s' + h ∧ p + 1 < n ∧ s + h ≤ p))) := by
  unfold fixScrollY
  generalize hs : (if s + h > n then n - h else s) = t
  have ht : t + h ≤ n ∧ t ≤ s := by split at hs <;> omega
  simp only
  cases foc with
  | false => exact ⟨t, by simp, ht.1, by simp⟩
  | true =>
    simp only [if_true, forall_const]
    by_cases c1 : t > p
    · rw [if_pos c1]
      refine ⟨_, rfl, ?_, ?_⟩ <;> split <;> omega
    · rw [if_neg c1]
      by_cases c2 : p ≥ t + h
      · rw [if_pos c2, csub_of_le (by omega)]
        simp only [Option.bind_eq_bind, Option.bind_some]
        by_cases c3 : p + 1 < n
        · rw [if_pos c3, csub_of_le (by omega)]
          refine ⟨_, rfl, by omega, fun _ => ⟨by omega, .inr ⟨by omega, by omega, ?_⟩⟩⟩
          split at hs <;> omega
        · rw [if_neg c3]
          exact ⟨_, rfl, by omega, fun _ => ⟨by omega, .inl (by omega)⟩⟩
      · rw [if_neg c2]
        exact ⟨_, rfl, by omega, fun _ => ⟨by omega, .inl (by omega)⟩⟩

theorem fixScrollY_follow (h n p : Nat) (foc : Bool) (s s' : Nat) (hp : p < n) (hn : h < n) (he : fixScrollY h n p foc s = some s') :
    (foc = false → s' = min s (n - h)) ∧
    (foc = true → 1 ≤ h →
      (min s (n - h) ≤ p → p < min s (n - h) + h → s' = min s (n - h)) ∧
      (p < min s (n - h) → s' = if 4 < h then p - 1 else p) ∧
      (min s (n - h) + h ≤ p → s' + h = if p + 1 = n then p + 1 else p)) := by
  unfold fixScrollY at he
  have hs : (if s + h > n then n - h else s) = min s (n - h) := by split <;> omega
  rw [hs] at he
  generalize min s (n - h) = t at he ⊢
  simp only at he
  cases foc with
  | false => simp at he; simp [he]
  | true =>
    simp only [if_true] at he
    refine ⟨by simp, fun _ h1 => ?_⟩
    by_cases c1 : t > p
    · rw [if_pos c1] at he
      simp only [Option.some.injEq] at he
      refine ⟨fun _ _ => by omega, fun _ => ?_, fun _ => by omega⟩
      rw [← he]
      split <;> split <;> omega
    · rw [if_neg c1] at he
      by_cases c2 : p ≥ t + h
      · rw [if_pos c2, csub_of_le (by omega)] at he
        simp only [Option.bind_eq_bind, Option.bind_some] at he
        refine ⟨fun _ _ => by omega, fun _ => by omega, fun _ => ?_⟩
        by_cases c3 : p + 1 < n
        · rw [if_pos c3, csub_of_le (by omega)] at he
          simp only [Option.some.injEq] at he
          rw [if_neg (by omega)]
          omega
        · rw [if_neg c3] at he
          simp only [Option.some.injEq] at he
          rw [if_pos (by omega)]
          omega
      · rw [if_neg c2] at he
        simp only [Option.some.injEq] at he
        exact ⟨fun _ _ => he.symm, fun _ => by omega, fun _ => by omega⟩

theorem fixScrollX_ok (cw : Char → Nat) (w : Nat) (l : Text) (x : Nat) (foc : Bool) (s : Nat) (hx : x ≤ l.length) :
    ∃ s', fixScrollX cw w l x foc s = some s' ∧ (inputCols cw l < w → s' = 0) ∧ (w ≤ inputCols cw l → s' + w ≤ inputCols cw l + 1) ∧
      (foc = true → 4 ≤ w → (s' = 0 ∨ s' + 2 ≤ inputCols cw (l.take x)) ∧ inputCols cw (l.take x) < s' + w ∧
        (inputCols cw (l.take x) + 2 ≤ s' + w ∨ inputCols cw l < s' + w)) := by
  have hle := inputCols_take_le cw l x
  unfold fixScrollX
  rw [lineWidth_eq, charIdxToCol_eq cw l x hx]
  by_cases c : inputCols cw l < w
  · rw [if_pos c]
    exact ⟨0, rfl, fun _ => rfl, fun _ => by omega, fun _ _ => ⟨.inl rfl, by omega, by omega⟩⟩
  · rw [if_neg c]
    simp only [Option.bind_eq_bind, Option.bind_some]
    refine ⟨_, rfl, fun h => absurd h c, fun _ => ?_, ?_⟩
    · generalize (if foc = true then fixScrollXFocused w x (inputCols cw (l.take x)) s else s) = t
      split <;> omega
    intro hf h4
    subst hf
    simp only [if_true]
    generalize inputCols cw (l.take x) = wpx at *
    unfold fixScrollXFocused
    rw [if_neg (by omega : ¬ w < 4)]
    split <;> split <;> split <;> try omega

theorem inputCols_single {cw : Char → Nat} : ∀ {l : Text}, (∀ c ∈ l, inputCols cw [c] = 1) → inputCols cw l = l.length
  | [], _ => rfl
  | c :: l, h => by
    have h1 := h c (by simp)
    have h2 := inputCols_single (l := l) fun d hd => h d (by simp [hd])
    rw [List.length_cons, ← h2, ← h1, show c :: l = [c] ++ l from rfl, inputCols_append]
    omega

theorem fixScrollX_near (cw : Char → Nat) (w : Nat) (l : Text) (x : Nat) (s s' : Nat) (hx : x ≤ l.length) (hw : 1 ≤ w)
    (hl : ∀ c ∈ l, inputCols cw [c] = 1) (h : fixScrollX cw w l x true s = some s') : s' ≤ x ∧ x ≤ s' + w ∧ (2 ≤ w → s' = 0 ∨ s' < x) := by
  have e1 := inputCols_single hl
  have e2 : inputCols cw (l.take x) = x := by
    rw [inputCols_single fun c hc => hl c (List.mem_of_mem_take hc), List.length_take]
    omega
  unfold fixScrollX at h
  rw [lineWidth_eq, charIdxToCol_eq cw l x hx, e1, e2] at h
  by_cases c : l.length < w
  · rw [if_pos c] at h
    cases h
    omega
  · rw [if_neg c] at h
    simp only [Option.bind_eq_bind, Option.bind_some, if_true, Option.some.injEq] at h
    subst h
    unfold fixScrollXFocused
    by_cases c4 : w < 4
    · rw [if_pos c4]
      split <;> split <;> (try split) <;> (try split) <;> omega
    · rw [if_neg c4]
      split <;> split <;> (try split) <;> omega

theorem fixScrollX_follow (cw : Char → Nat) (w : Nat) (l : Text) (x : Nat) (foc : Bool) (s s' : Nat) (hx : x ≤ l.length)
    (h : fixScrollX cw w l x foc s = some s') (hl : w ≤ inputCols cw l) :
    (foc = false → s' = min s (inputCols cw l + 1 - w)) ∧
    (foc = true → 4 ≤ w →
      (s = 0 ∨ s + 2 ≤ inputCols cw (l.take x) → inputCols cw (l.take x) + 2 ≤ s + w → s' = min s (inputCols cw l + 1 - w)) ∧
      (inputCols cw (l.take x) < s + 2 → s' = min (inputCols cw (l.take x) - 2) (inputCols cw l + 1 - w)) ∧
      (s + w < inputCols cw (l.take x) + 2 → s' = min (inputCols cw (l.take x) + 2 - w) (inputCols cw l + 1 - w))) := by
  unfold fixScrollX at h
  rw [lineWidth_eq, charIdxToCol_eq cw l x hx, if_neg (by omega)] at h
  simp only [Option.bind_eq_bind, Option.bind_some, Option.some.injEq] at h
  generalize inputCols cw (l.take x) = wpx at *
  refine ⟨fun hf => ?_, fun hf h4 => ?_⟩
  · rw [hf] at h
    simp only [Bool.false_eq_true, if_false] at h
    split at h <;> omega
  · subst hf
    simp only [if_true] at h
    unfold fixScrollXFocused at h
    rw [if_neg (by omega : ¬ w < 4)] at h
    refine ⟨fun a b => ?_, fun a => ?_, fun a => ?_⟩ <;> (split at h <;> split at h <;> (try split at h) <;> omega)

theorem fixScroll_ok (cw : Char → Nat) {f : InputField} (hv : f.content.Valid) (hw : 1 ≤ f.area.width) :
    ∃ f', fixScroll cw f = some f' ∧ (∃ s, f' = { f with scroll := s }) ∧ f'.RowsFull ∧
      (f.focused = true → 1 ≤ f.area.height →
        f'.RowVisible ∨ (f.content.pos.y = f'.scroll.y + f.area.height ∧ f.content.pos.y + 1 < f.content.lines.length ∧
          f.scroll.y + f.area.height ≤ f.content.pos.y)) ∧
      (f.focused = true → 4 ≤ f.textCols → f'.ColVisible cw ∧ f'.ColAfter cw) ∧ f'.ColsFull cw ∧
      (f.focused = true → 1 ≤ f.textCols → (∀ c ∈ f.cursorLine, inputCols cw [c] = 1) → f'.ColNear) ∧
      f'.RowsFollow f.scroll.y ∧ f'.ColsFollow cw f.scroll.x := by
  obtain ⟨l, h1, h2⟩ := hv.pos
  obtain ⟨hlt, _⟩ := List.getElem?_eq_some_iff.1 h1
  unfold fixScroll fixY Content.currentLine
  rw [h1]
  by_cases c : f.content.lines.length > f.area.height
  · rw [if_pos c, csub_of_le hw]
    obtain ⟨y, hy1, hy2, hy3⟩ := fixScrollY_ok f.area.height f.content.lines.length f.content.pos.y f.focused f.scroll.y hlt c
    obtain ⟨x, hx1, hx2, hx3, hx4⟩ := fixScrollX_ok cw (f.area.width - 1) l f.content.pos.x f.focused f.scroll.x h2
    simp only [Option.bind_eq_bind, Option.bind_some, hy1, hx1]
    refine ⟨_, rfl, ⟨_, rfl⟩, ⟨by simp only; omega, by simp only; omega⟩, ?_, ?_, ?_, ?_, ?_, ?_⟩
    · intro hf hh
      have := hy3 hf hh
      simp only [RowVisible]
      omega
    · intro hf h4
      have ht : f.textCols = f.area.width - 1 := by simp only [textCols]; rw [if_pos c]
      rw [ht] at h4
      have := hx4 hf h4
      simp only [ColVisible, ColAfter, textCols, cursorCol, cursorLine, h1, Option.getD_some]
      rw [if_pos c]
      exact ⟨⟨this.1, this.2.1⟩, this.2.2⟩
    · simp only [ColsFull, textCols, cursorLine, h1, Option.getD_some]
      rw [if_pos c]
      exact ⟨hx2, hx3⟩
    · intro hf h4 hl
      have ht : f.textCols = f.area.width - 1 := by simp only [textCols]; rw [if_pos c]
      rw [ht] at h4
      rw [hf] at hx1
      simp only [cursorLine, h1, Option.getD_some] at hl
      have := fixScrollX_near cw _ l _ _ _ h2 h4 hl hx1
      simp only [ColNear, textCols]
      rw [if_pos c]
      exact this
    · intro _
      exact fixScrollY_follow _ _ _ _ _ _ hlt c hy1
    · simp only [ColsFollow, textCols, cursorCol, cursorLine, h1, Option.getD_some]
      rw [if_pos c]
      exact fixScrollX_follow cw _ l _ _ _ _ h2 hx1
  · rw [if_neg c]
    obtain ⟨x, hx1, hx2, hx3, hx4⟩ := fixScrollX_ok cw f.area.width l f.content.pos.x f.focused f.scroll.x h2
    simp only [Option.bind_eq_bind, Option.bind_some, hx1]
    refine ⟨_, rfl, ⟨_, rfl⟩, ⟨fun _ => rfl, by simp only; omega⟩, ?_, ?_, ?_, ?_, ?_, ?_⟩
    · intro hf hh
      simp only [RowVisible]
      omega
    · intro hf h4
      have ht : f.textCols = f.area.width := by simp only [textCols]; rw [if_neg c]
      rw [ht] at h4
      have := hx4 hf h4
      simp only [ColVisible, ColAfter, textCols, cursorCol, cursorLine, h1, Option.getD_some]
      rw [if_neg c]
      exact ⟨⟨this.1, this.2.1⟩, this.2.2⟩
    · simp only [ColsFull, textCols, cursorLine, h1, Option.getD_some]
      rw [if_neg c]
      exact ⟨hx2, hx3⟩
    · intro hf h4 hl
      have ht : f.textCols = f.area.width := by simp only [textCols]; rw [if_neg c]
      rw [ht] at h4
      rw [hf] at hx1
      simp only [cursorLine, h1, Option.getD_some] at hl
      have := fixScrollX_near cw _ l _ _ _ h2 h4 hl hx1
      simp only [ColNear, textCols]
      rw [if_neg c]
      exact this
    · intro h
      exact absurd h c
    · simp only [ColsFollow, textCols, cursorCol, cursorLine, h1, Option.getD_some]
      rw [if_neg c]
      exact fixScrollX_follow cw _ l _ _ _ _ h2 hx1

/-! ### Display -/

theorem cellsText_append (a b : List CellPiece) : cellsText (a ++ b) = cellsText a ++ cellsText b := by simp [cellsText]
theorem cellsText_cons (s : CellStyle) (t : Text) (b : List CellPiece) : cellsText ((s, t) :: b) = t ++ cellsText b := by
  simp [cellsText]
@[simp] theorem cellsText_nil : cellsText [] = [] := rfl

theorem cursorCell_ok {f : InputField} {d j w : Nat} (hl : f.area.left + w < 65536) (hd : d ≤ w) (ht : f.area.top + j < 65536) :
    f.cursorCell d j = some (f.area.left + d, f.area.top + j) := by
  have : asU16 d = d := by simp only [asU16, u16Size]; omega
  have h1 : u16Add f.area.left d = some (f.area.left + d) := by unfold u16Add u16Size; rw [if_pos (by omega)]
  have h2 : u16Add f.area.top j = some (f.area.top + j) := by unfold u16Add u16Size; rw [if_pos (by omega)]
  simp only [cursorCell, this, h1, h2, Option.bind_eq_bind, Option.bind_some]

/-- The styled character of a cell. -/
def cellPiece (f : InputField) (sel : Bool) (ch : Char) : CellPiece := (if f.focused && sel then .cursor else .normal, [ch])

/-- The terminal cursor given by a cell. -/
def cellCur (f : InputField) (sel : Bool) (d j : Nat) : Option (Nat × Nat) :=
  if f.focused && sel then some (f.area.left + d, f.area.top + j) else none

theorem drawCell_ok {f : InputField} {d j w : Nat} (sel : Bool) (ch : Char) (hl : f.area.left + w < 65536) (hd : d ≤ w)
    (ht : f.area.top + j < 65536) : f.drawCell sel ch d j = some (cellPiece f sel ch, cellCur f sel d j) := by
  unfold drawCell cellPiece cellCur
  rw [cursorCell_ok hl hd ht]
  cases h : (f.focused && sel) <;> simp

/-- One step of the loop on characters, without panics. -/
theorem drawChars_cons (cw : Char → Nat) {f : InputField} (sel : Range) (y j skip w i : Nat) (c : Char) (rest : Text)
    (skipped d : Nat) (cur : Option (Nat × Nat)) (hl : f.area.left + w < 65536) (hd : d ≤ w) (ht : f.area.top + j < 65536) :
    drawChars cw f sel y j skip w i (c :: rest) skipped d cur =
      if skipped < skip then drawChars cw f sel y j skip w (i + 1) rest (skipped + inputCharWidth cw (f.shown c)) d cur
      else if d + inputCharWidth cw (f.shown c) ≥ w ∧ (rest ≠ [] ∨ d + inputCharWidth cw (f.shown c) > w) then
        some ⟨[cellPiece f (sel.contains i y) '…'], d + 1, (cellCur f (sel.contains i y) d j).or cur⟩
      else if d + inputCharWidth cw (f.shown c) ≥ w then
        some ⟨[cellPiece f (sel.contains i y) (f.shown c)], d + inputCharWidth cw (f.shown c), (cellCur f (sel.contains i y) d j).or cur⟩
      else (drawChars cw f sel y j skip w (i + 1) rest skipped (d + inputCharWidth cw (f.shown c))
        ((cellCur f (sel.contains i y) d j).or cur)).map fun r =>
          { r with pieces := cellPiece f (sel.contains i y) (f.shown c) :: r.pieces } := by
  rw [drawChars]
  have e : (if f.passwordMode = true then '*' else c) = f.shown c := rfl
  simp only [e, drawCell_ok _ _ hl hd ht, Option.bind_eq_bind, Option.bind_some]
  split
  · rfl
  · split
    · rfl
    · split
      · rfl
      · cases drawChars cw f sel y j skip w (i + 1) rest skipped (d + inputCharWidth cw (f.shown c))
          ((cellCur f (sel.contains i y) d j).or cur) <;> rfl

/-- The pieces fit, and have the announced width. -/
theorem drawChars_width (cw : Char → Nat) (he : cw '…' = 1) {f : InputField} (sel : Range) (y j skip w : Nat)
    (hl : f.area.left + w < 65536) (ht : f.area.top + j < 65536) : ∀ (chars : Text) (i skipped d : Nat) (cur : Option (Nat × Nat)),
    d < w → ∃ r, drawChars cw f sel y j skip w i chars skipped d cur = some r ∧
      r.width = d + inputCols cw (cellsText r.pieces) ∧ r.width ≤ w ∧
      (∀ ch ∈ cellsText r.pieces, ch = '…' ∨ ∃ c ∈ chars, ch = f.shown c) ∧
      (r.cursor = cur ∨ ∃ k, k < w ∧ r.cursor = some (f.area.left + k, f.area.top + j)) := by
  intro chars
  have he' : inputCharWidth cw '…' = 1 := by simp [inputCharWidth, he]
  have hcur : ∀ (b : Bool) (d : Nat) (cur), d < w → ((cellCur f b d j).or cur = cur ∨
      ∃ k, k < w ∧ (cellCur f b d j).or cur = some (f.area.left + k, f.area.top + j)) := by
    intro b d cur hd
    unfold cellCur
    split
    · exact .inr ⟨d, hd, rfl⟩
    · exact .inl rfl
  induction chars with
  | nil => intro i skipped d cur hd; exact ⟨⟨[], d, cur⟩, rfl, by simp, by simp; omega, by simp, .inl rfl⟩
  | cons c rest ih =>
    intro i skipped d cur hd
    rw [drawChars_cons cw sel y j skip w i c rest skipped d cur hl (by omega) ht]
    have mem : ∀ (q : Text), (∀ ch ∈ q, ch = '…' ∨ ∃ c ∈ rest, ch = f.shown c) → ∀ ch ∈ q, ch = '…' ∨ ∃ c' ∈ c :: rest, ch = f.shown c' := by
      intro q h ch hch
      rcases h ch hch with h | ⟨c', hc, h⟩
      · exact .inl h
      · exact .inr ⟨c', by simp [hc], h⟩
    split
    · obtain ⟨r, h1, h2, h3, h4, h5⟩ := ih (i + 1) (skipped + inputCharWidth cw (f.shown c)) d cur hd
      exact ⟨r, h1, h2, h3, mem _ h4, h5⟩
    · split
      · exact ⟨_, rfl, by simp [cellsText, cellPiece, inputCols_cons, he'], by simp only; omega, by simp [cellsText, cellPiece],
          hcur _ d cur hd⟩
      · rename_i hn
        split
        · refine ⟨_, rfl, by simp [cellsText, cellPiece, inputCols_cons], ?_, by simp [cellsText, cellPiece], hcur _ d cur hd⟩
          simp only
          false_or_by_contra
          exact hn ⟨by omega, .inr (by omega)⟩
        · obtain ⟨r, h1, h2, h3, h4, h5⟩ := ih (i + 1) skipped (d + inputCharWidth cw (f.shown c))
            ((cellCur f (sel.contains i y) d j).or cur) (by omega)
          rw [h1]
          refine ⟨_, rfl, ?_, h3, ?_, ?_⟩
          · simp only [cellPiece, cellsText_cons, List.singleton_append, inputCols_cons, h2]; omega
          · simp only [cellPiece, cellsText_cons, List.singleton_append, List.mem_cons, forall_eq_or_imp]
            exact ⟨.inr ⟨c, by simp, rfl⟩, by simpa using mem _ h4⟩
          · rcases h5 with h5 | h5
            · simp only [h5]; exact hcur _ d cur hd
            · exact .inr h5

/-- No cursor if no character is selected. -/
theorem drawChars_none (cw : Char → Nat) {f : InputField} (sel : Range) (y j skip w : Nat)
    (hl : f.area.left + w < 65536) (ht : f.area.top + j < 65536) : ∀ (chars : Text) (i skipped d : Nat) (cur : Option (Nat × Nat)),
    d < w → (∀ k, i ≤ k → k < i + chars.length → sel.contains k y = false) →
    ∀ r, drawChars cw f sel y j skip w i chars skipped d cur = some r →
      r.cursor = cur ∧ ∀ p ∈ r.pieces, p.1 = .normal := by
  intro chars
  induction chars with
  | nil => intro i skipped d cur hd hs r hr; rw [drawChars] at hr; cases hr; simp
  | cons c rest ih =>
    intro i skipped d cur hd hs r hr
    rw [drawChars_cons cw sel y j skip w i c rest skipped d cur hl (by omega) ht] at hr
    have hi : sel.contains i y = false := hs i (by omega) (by simp)
    have hs' : ∀ k, i + 1 ≤ k → k < i + 1 + rest.length → sel.contains k y = false :=
      fun k h1 h2 => hs k (by omega) (by simp; omega)
    simp only [hi, cellPiece, cellCur, Bool.and_false, Bool.false_eq_true, if_false, Option.none_or] at hr
    split at hr
    · exact ih _ _ _ _ hd hs' r hr
    · split at hr
      · cases hr; simp
      · split at hr
        · cases hr; simp
        · rw [Option.map_eq_some_iff] at hr
          obtain ⟨r', h1, h2⟩ := hr
          cases h2
          have := ih _ _ _ _ (by omega) hs' r' h1
          exact ⟨this.1, by simpa using this.2⟩

/-- The characters before the end of the row, once the scrolled ones are skipped. -/
theorem drawChars_shown (cw : Char → Nat) {f : InputField} (sel : Range) (y j skip w : Nat)
    (hl : f.area.left + w < 65536) (ht : f.area.top + j < 65536) (rest : Text) (skipped : Nat) (hsk : skip ≤ skipped) :
    ∀ (pre : Text) (i d : Nat) (cur : Option (Nat × Nat)), d + inputCols cw (pre.map f.shown) < w →
      ∃ cur', ((∀ k, i ≤ k → k < i + pre.length → sel.contains k y = false) → cur' = cur) ∧
      drawChars cw f sel y j skip w i (pre ++ rest) skipped d cur =
        (drawChars cw f sel y j skip w (i + pre.length) rest skipped (d + inputCols cw (pre.map f.shown)) cur').map fun r =>
          { r with pieces := pre.mapIdx (fun k c => cellPiece f (sel.contains (i + k) y) (f.shown c)) ++ r.pieces } := by
  intro pre
  induction pre with
  | nil => intro i d cur _; exact ⟨cur, fun _ => rfl, by simp⟩
  | cons c pre ih =>
    intro i d cur hd
    rw [List.map_cons, inputCols_cons] at hd
    obtain ⟨cur', hc, hr⟩ := ih (i + 1) (d + inputCharWidth cw (f.shown c)) ((cellCur f (sel.contains i y) d j).or cur) (by omega)
    refine ⟨cur', ?_, ?_⟩
    · intro h
      rw [hc (fun k h1 h2 => h k (by omega) (by simp; omega))]
      simp [cellCur, h i (by omega) (by simp)]
    · rw [List.cons_append, drawChars_cons cw sel y j skip w i c (pre ++ rest) skipped d cur hl (by omega) ht, if_neg (by omega),
        if_neg (by omega), if_neg (by omega), hr]
      rw [List.map_cons, inputCols_cons, Nat.add_assoc d, Nat.add_right_comm i 1, List.length_cons, Nat.add_assoc i,
        Option.map_map]
      congr 1
      funext r
      simp [List.mapIdx_cons, Nat.add_assoc, Nat.add_comm 1]

/-- The scrolled characters are skipped. -/
theorem drawChars_skip (cw : Char → Nat) {f : InputField} (sel : Range) (y j skip w : Nat)
    (hl : f.area.left + w < 65536) (ht : f.area.top + j < 65536) (cur : Option (Nat × Nat)) :
    ∀ (pre rest : Text) (i skipped : Nat), skip ≤ skipped + inputCols cw (pre.map f.shown) →
      ∃ a b, pre = a ++ b ∧ (∀ q, q <+: a → q ≠ a → skipped + inputCols cw (q.map f.shown) < skip) ∧
        skip ≤ skipped + inputCols cw (a.map f.shown) ∧
        drawChars cw f sel y j skip w i (pre ++ rest) skipped 0 cur =
          drawChars cw f sel y j skip w (i + a.length) (b ++ rest) (skipped + inputCols cw (a.map f.shown)) 0 cur := by
  intro pre
  induction pre with
  | nil => intro rest i skipped h; exact ⟨[], [], rfl, by simp, h, by simp⟩
  | cons c pre ih =>
    intro rest i skipped h
    by_cases hs : skipped < skip
    · rw [List.map_cons, inputCols_cons] at h
      obtain ⟨a, b, h1, h2, h3, h4⟩ := ih rest (i + 1) (skipped + inputCharWidth cw (f.shown c)) (by omega)
      refine ⟨c :: a, b, by simp [h1], ?_, ?_, ?_⟩
      · intro q hq hne
        cases q with
        | nil => simpa using hs
        | cons x q =>
          rw [List.cons_prefix_cons] at hq
          obtain ⟨rfl, hq⟩ := hq
          have := h2 q hq (by rintro rfl; exact hne rfl)
          rw [List.map_cons, inputCols_cons]; omega
      · rw [List.map_cons, inputCols_cons]; omega
      · rw [List.cons_append, drawChars_cons cw sel y j skip w i c (pre ++ rest) skipped 0 cur hl (by omega) ht, if_pos hs, h4,
          List.map_cons, inputCols_cons, List.length_cons, Nat.add_assoc skipped, Nat.add_right_comm i 1, Nat.add_assoc i]
    · exact ⟨[], c :: pre, rfl, by simp, by simp; omega, by simp⟩

theorem inputCols_replicate (cw : Char → Nat) (hs : cw ' ' = 1) (n : Nat) : inputCols cw (List.replicate n ' ') = n := by
  induction n with
  | zero => rfl
  | succ n ih => rw [List.replicate_succ, inputCols_cons, ih]; simp [inputCharWidth, hs]; omega

theorem cellsText_spaces (n : Nat) : cellsText (List.replicate n (CellStyle.normal, [' '])) = List.replicate n ' ' := by
  simp [cellsText, List.flatten_replicate_singleton]

theorem drawEnd_ok (cw : Char → Nat) (hs : cw ' ' = 1) {f : InputField} (b : Bool) {w j : Nat} {d : Drawn}
    (hl : f.area.left + w < 65536) (ht : f.area.top + j < 65536) (h1 : d.width = inputCols cw (cellsText d.pieces)) (h2 : d.width ≤ w) :
    ∃ r n, f.drawEnd b w j d = some r ∧ inputCols cw (cellsText r.pieces) = w ∧ r.width = w ∧
      if d.width < w ∧ b = true then
        r.pieces = d.pieces ++ (.cursor, [' ']) :: List.replicate n (.normal, [' ']) ∧
          r.cursor = some (f.area.left + d.width, f.area.top + j)
      else r.pieces = d.pieces ++ List.replicate n (.normal, [' ']) ∧ r.cursor = d.cursor := by
  have he : inputCharWidth cw ' ' = 1 := by simp [inputCharWidth, hs]
  unfold drawEnd
  by_cases c : d.width < w ∧ b = true
  · rw [if_pos c, cursorCell_ok hl h2 ht]
    refine ⟨_, w - (d.width + 1), rfl, ?_, by simp only; omega, ?_⟩
    · simp only [cellsText_append, cellsText_cons, cellsText_spaces, inputCols_append, inputCols_cons, List.singleton_append, he,
        inputCols_replicate cw hs]
      omega
    · rw [if_pos c]; exact ⟨rfl, rfl⟩
  · rw [if_neg c]
    refine ⟨_, w - d.width, rfl, ?_, by simp only; omega, ?_⟩
    · simp only [cellsText_append, cellsText_spaces, inputCols_append, inputCols_replicate cw hs]
      omega
    · rw [if_neg c]; exact ⟨rfl, rfl⟩

theorem drawLine_width (cw : Char → Nat) (hs : cw ' ' = 1) (he : cw '…' = 1) {f : InputField} {w : Nat} (y j : Nat) (chars : Text)
    (cur : Option (Nat × Nat)) (hl : f.area.left + w < 65536) (ht : f.area.top + j < 65536) (hw : 1 ≤ w) :
    ∃ r, f.drawLine cw w y j chars cur = some r ∧ inputCols cw (cellsText r.pieces) = w ∧
      (∀ ch ∈ cellsText r.pieces, ch = '…' ∨ ch = ' ' ∨ ∃ c ∈ chars, ch = f.shown c) ∧
      (r.cursor = cur ∨ ∃ k, k < w ∧ r.cursor = some (f.area.left + k, f.area.top + j)) := by
  have he' : inputCharWidth cw '…' = 1 := by simp [inputCharWidth, he]
  have key : ∀ (skip w' : Nat) (b : Bool), w' ≤ w → 1 ≤ w' → ∃ d r, f.drawChars cw f.content.selection y j skip w' 0 chars 0 0 cur = some d ∧
      f.drawEnd b w' j d = some r ∧ inputCols cw (cellsText r.pieces) = w' ∧
      (∀ ch ∈ cellsText r.pieces, ch = '…' ∨ ch = ' ' ∨ ∃ c ∈ chars, ch = f.shown c) ∧
      (r.cursor = cur ∨ ∃ k, k < w ∧ r.cursor = some (f.area.left + k, f.area.top + j)) := by
    intro skip w' b hw1 hw2
    obtain ⟨d, g1, g2, g3, g4, g5⟩ := drawChars_width cw he f.content.selection y j skip w' (f := f) (by omega) ht chars 0 0 0 cur hw2
    obtain ⟨r, n, k1, k2, _, k3⟩ := drawEnd_ok cw hs b (f := f) (w := w') (j := j) (d := d) (by omega) ht (by omega) g3
    refine ⟨d, r, g1, k1, k2, ?_, ?_⟩
    · intro ch hch
      have : ch ∈ cellsText d.pieces ∨ ch = ' ' := by
        split at k3
        · rw [k3.1, cellsText_append, cellsText_cons, cellsText_spaces] at hch
          simp only [List.mem_append, List.mem_singleton, List.mem_replicate] at hch
          rcases hch with h | h | h
          · exact .inl h
          · exact .inr h
          · exact .inr h.2
        · rw [k3.1, cellsText_append, cellsText_spaces] at hch
          simp only [List.mem_append, List.mem_replicate] at hch
          rcases hch with h | h
          · exact .inl h
          · exact .inr h.2
      rcases this with h | h
      · rcases g4 ch h with h | h
        · exact .inl h
        · exact .inr (.inr h)
      · exact .inr (.inl h)
    · split at k3
      · exact .inr ⟨d.width, by omega, k3.2⟩
      · rw [k3.2]
        rcases g5 with h | ⟨k, hk, h⟩
        · exact .inl h
        · exact .inr ⟨k, by omega, h⟩
  unfold drawLine
  simp only
  split
  · obtain ⟨d, r, h1, h2, h3, h4, h5⟩ := key (f.scroll.x + 1) (w - 1)
      (f.focused && (y == f.content.pos.y) && (f.content.pos.x == chars.length)) (by omega) (by omega)
    simp only [h1, h2, Option.bind_eq_bind, Option.bind_some]
    refine ⟨_, rfl, ?_, ?_, h5⟩
    · simp only [cellsText_cons, List.singleton_append, inputCols_cons, h3, he']; omega
    · simp only [cellsText_cons, List.singleton_append, List.mem_cons, forall_eq_or_imp]
      exact ⟨.inl trivial, h4⟩
  · obtain ⟨d, r, h1, h2, h3, h4, h5⟩ := key f.scroll.x w
      (f.focused && (y == f.content.pos.y) && (f.content.pos.x == chars.length)) (by omega) (by omega)
    simp only [h1, Option.bind_eq_bind, Option.bind_some]
    exact ⟨r, h2, h3, h4, h5⟩

theorem drawEmpty_ok (w : Nat) (cur : Option (Nat × Nat)) :
    ∃ r, drawEmpty w cur = some r ∧ cellsText r.pieces = List.replicate w ' ' ∧ (∀ p ∈ r.pieces, p.1 = .normal) ∧ r.cursor = cur := by
  obtain ⟨ch, h1, h2⟩ := filling_queue ' ' w
  refine ⟨⟨ch.map fun t => (.normal, t), w, cur⟩, by simp [drawEmpty, h1], ?_, by simp, rfl⟩
  rw [← h2]
  simp [cellsText, Function.comp_def]

theorem drawRow_ok (cw : Char → Nat) (hs : cw ' ' = 1) (he : cw '…' = 1) {f : InputField} {w : Nat} (j : Nat)
    (cur : Option (Nat × Nat)) (hl : f.area.left + w < 65536) (ht : f.area.top + j < 65536) (hw : 1 ≤ w) :
    ∃ r, drawRow cw f w j cur = some r ∧ inputCols cw (cellsText r.pieces) = w ∧
      (∀ ch ∈ cellsText r.pieces, ch = '…' ∨ ch = ' ' ∨ ∃ l, f.content.lines[f.scroll.y + j]? = some l ∧ ∃ c ∈ l, ch = f.shown c) ∧
      (r.cursor = cur ∨ ∃ k, k < w ∧ r.cursor = some (f.area.left + k, f.area.top + j)) := by
  unfold drawRow
  cases h : f.content.lines[f.scroll.y + j]? with
  | none =>
    obtain ⟨r, h1, h2, _, h3⟩ := drawEmpty_ok w cur
    refine ⟨r, h1, by rw [h2, inputCols_replicate cw hs], ?_, .inl h3⟩
    rw [h2]
    intro ch hch
    exact .inr (.inl (List.mem_replicate.1 hch).2)
  | some l =>
    obtain ⟨r, h1, h2, h3, h4⟩ := drawLine_width cw hs he (f := f) (f.scroll.y + j) j l cur hl ht hw
    refine ⟨r, h1, h2, ?_, h4⟩
    intro ch hch
    rcases h3 ch hch with h | h | h
    · exact .inl h
    · exact .inr (.inl h)
    · exact .inr (.inr ⟨l, rfl, h⟩)

/-- The rows are the drawings of the lines. -/
theorem drawRows_ok (cw : Char → Nat) (hs : cw ' ' = 1) (he : cw '…' = 1) (bar : Char × Char) {f : InputField} {w : Nat}
    (sb : Option (Nat × Nat)) (hl : f.area.left + w < 65536) (hw : 1 ≤ w) :
    ∀ (n j : Nat) (cur : Option (Nat × Nat)), f.area.top + j + n < 65536 →
      ∃ rows cur', drawRows cw bar f w sb n j cur = some (rows, cur') ∧ rows.length = n ∧
        (∀ (k : Nat) (row : Row), rows[k]? = some row → row.x = f.area.left ∧ row.y = f.area.top + (j + k) ∧
          ∃ (c0 : Option (Nat × Nat)) (r : Drawn), drawRow cw f w (j + k) c0 = some r ∧
            row.pieces = r.pieces ++ drawBar bar sb row.y) ∧
        (cur' = cur ∨ ∃ k i, k < w ∧ i < n ∧ cur' = some (f.area.left + k, f.area.top + (j + i))) := by
  intro n
  induction n with
  | zero => intro j cur h; exact ⟨[], cur, rfl, rfl, by simp, .inl rfl⟩
  | succ n ih =>
    intro j cur h
    obtain ⟨r, h1, h2, h3, h4⟩ := drawRow_ok cw hs he (f := f) (w := w) j cur hl (by omega) hw
    obtain ⟨rows, cur', g1, g2, g3, g4⟩ := ih (j + 1) r.cursor (by omega)
    have hu : u16Add j f.area.top = some (j + f.area.top) := by unfold u16Add u16Size; rw [if_pos (by omega)]
    have e : drawRows cw bar f w sb (n + 1) j cur =
        (do let y ← u16Add j f.area.top
            let d ← drawRow cw f w j cur
            let rest ← drawRows cw bar f w sb n (j + 1) d.cursor
            some (⟨f.area.left, y, d.pieces ++ drawBar bar sb y⟩ :: rest.1, rest.2)) := rfl
    rw [e]
    simp only [hu, h1, g1, Option.bind_eq_bind, Option.bind_some]
    refine ⟨_, _, rfl, by simp [g2], ?_, ?_⟩
    · intro k row hrow
      cases k with
      | zero =>
        simp only [List.getElem?_cons_zero, Option.some.injEq] at hrow
        subst hrow
        exact ⟨rfl, by simp only; omega, cur, r, h1, rfl⟩
      | succ k =>
        simp only [List.getElem?_cons_succ] at hrow
        have := g3 k row hrow
        have e : j + 1 + k = j + (k + 1) := by omega
        rw [e] at this
        exact this
    · rcases g4 with h | ⟨k, i, hk, hi, h⟩
      · rw [h]
        rcases h4 with h | ⟨k, hk, h⟩
        · exact .inl h
        · exact .inr ⟨k, 0, hk, by omega, h⟩
      · exact .inr ⟨k, i + 1, hk, by omega, by rw [h, Nat.add_assoc j 1 i, Nat.add_comm 1 i]⟩

/-- The scrollbar doesn't panic when the rows of the scrolled content could be numbered. -/
theorem scrollbar_ok (s c a t : Nat) (h : t + a + s + 1 < 65536) :
    (c ≤ a → computeScrollbar s c a t = some none) ∧
    (a < c → ∃ x y, computeScrollbar s c a t = some (some (x, y))) := by
  constructor
  · intro hc
    rw [computeScrollbar, if_pos hc]; rfl
  · intro hc
    have h1 : s * a / c ≤ s := by
      apply Nat.div_le_of_le_mul
      rw [Nat.mul_comm c s]
      exact Nat.mul_le_mul_left s (by omega)
    have h2 : a * a / c ≤ a := by
      apply Nat.div_le_of_le_mul
      exact Nat.mul_le_mul_right a (by omega)
    unfold computeScrollbar
    rw [if_neg (by omega : ¬ c ≤ a)]
    simp only
    generalize htb : (if s * a / c = 0 ∧ s > 0 then 1 else s * a / c) = tb
    have h3 : tb ≤ s + 1 := by split at htb <;> omega
    have h3' : tb ≤ s := by split at htb <;> omega
    have hu : ∀ n, n < 65536 → toU16 n = some n := by intro n hn; unfold toU16 u16Size; rw [if_pos hn]
    by_cases c1 : s + a < c ∧ a > 3
    · rw [if_pos c1, csub_of_le (by omega)]
      simp only [Option.bind_eq_bind, Option.bind_some, Option.pure_def]
      rw [hu _ (by omega), hu _ (by omega)]
      exact ⟨_, _, rfl⟩
    · rw [if_neg c1]
      simp only [Option.bind_eq_bind, Option.bind_some, Option.pure_def]
      rw [hu _ (by omega), hu _ (by omega)]
      exact ⟨_, _, rfl⟩

/-- The display, as rows with or without the bar. -/
theorem displayOn_full (cw : Char → Nat) (bar : Char × Char) {f : InputField} (hw : 1 ≤ f.textCols) (hn : f.content.lines.length < 65536)
    (hy : f.area.top + f.area.height + f.scroll.y + 1 < 65536) :
    ∃ sb, f.area.scrollbar f.scroll.y f.content.lines.length = some sb ∧ (sb = none ↔ f.content.lines.length ≤ f.area.height) ∧
      f.displayOn cw bar = drawRows cw bar f f.textCols sb f.area.height 0 none := by
  have a1 : asU16 f.scroll.y = f.scroll.y := by unfold asU16 u16Size; omega
  have a2 : asU16 f.content.lines.length = f.content.lines.length := by unfold asU16 u16Size; omega
  obtain ⟨s1, s2⟩ := scrollbar_ok f.scroll.y f.content.lines.length f.area.height f.area.top hy
  unfold displayOn Area.scrollbar
  rw [a1, a2]
  by_cases c : f.content.lines.length ≤ f.area.height
  · refine ⟨none, s1 c, by simp [c], ?_⟩
    rw [s1 c]
    have : f.textCols = f.area.width := by unfold textCols; rw [if_neg (by omega)]
    rw [this]
    rfl
  · obtain ⟨x, y, h⟩ := s2 (by omega)
    refine ⟨some (x, y), h, by simp [c], ?_⟩
    have e : f.textCols = f.area.width - 1 := by unfold textCols; rw [if_pos (by omega)]
    rw [e] at hw
    rw [h, e]
    simp only [Option.bind_eq_bind, Option.bind_some, drawWidth]
    rw [csub_of_le (by omega)]
    rfl

theorem displayOn_ok (cw : Char → Nat) (bar : Char × Char) {f : InputField} (hw : 1 ≤ f.textCols) (hn : f.content.lines.length < 65536)
    (hy : f.area.top + f.area.height + f.scroll.y + 1 < 65536) :
    ∃ sb, (sb = none ↔ f.content.lines.length ≤ f.area.height) ∧
      f.displayOn cw bar = drawRows cw bar f f.textCols sb f.area.height 0 none := by
  obtain ⟨sb, _, h⟩ := displayOn_full cw bar hw hn hy
  exact ⟨sb, h⟩

end Verif

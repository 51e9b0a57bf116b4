import Verif.Spec.Input
/-! Lemmas on the model of input contents. -/
namespace Verif

/-! ### Vectors -/

theorem get_mid (A : List α) (l : α) (B : List α) : (A ++ l :: B)[A.length]? = some l := by simp

theorem get_mid1 (A : List α) (l m : α) (B : List α) : (A ++ l :: m :: B)[A.length + 1]? = some m := by
  rw [List.getElem?_append_right (by omega)]; simp

theorem take_mid (A B : List α) : (A ++ B).take A.length = A := by simp
theorem drop_mid (A : List α) (l : α) (B : List α) : (A ++ l :: B).drop (A.length + 1) = B := by
  rw [List.drop_append]; simp
theorem set_mid (A : List α) (l m : α) (B : List α) : (A ++ l :: B).set A.length m = A ++ m :: B := by simp

theorem vecSet_mid (A : List α) (l m : α) (B : List α) : vecSet (A ++ l :: B) A.length m = some (A ++ m :: B) := by
  simp [vecSet]
theorem vecRemove_mid (A : List α) (l : α) (B : List α) : vecRemove (A ++ l :: B) A.length = some (A ++ B) := by
  simp [vecRemove, drop_mid]
theorem vecRemove_mid1 (A : List α) (l m : α) (B : List α) :
    vecRemove (A ++ l :: m :: B) (A.length + 1) = some (A ++ l :: B) := by
  have := vecRemove_mid (A ++ [l]) m B
  simpa using this
theorem vecInsert_mid (A B : List α) (m : α) : vecInsert (A ++ B) A.length m = some (A ++ m :: B) := by
  simp [vecInsert]
theorem vecSplitOff_mid (A B : List α) : vecSplitOff (A ++ B) A.length = some (A, B) := by
  simp [vecSplitOff]
theorem vecInsert_mid1 (A : List α) (l : α) (B : List α) (m : α) :
    vecInsert (A ++ l :: B) (A.length + 1) m = some (A ++ l :: m :: B) := by
  have := vecInsert_mid (A ++ [l]) B m
  simpa using this

/-! ### Positions -/

theorem ValidPos.split {ls : List Text} {p : Pos} (h : ValidPos ls p) :
    ∃ A a b B, ls = A ++ (a ++ b) :: B ∧ p = ⟨A.length, a.length⟩ := by
  obtain ⟨l, h1, h2⟩ := h
  obtain ⟨hlt, hl⟩ := List.getElem?_eq_some_iff.1 h1
  refine ⟨ls.take p.y, l.take p.x, l.drop p.x, ls.drop (p.y + 1), ?_, ?_⟩
  · rw [List.take_append_drop, ← hl, List.getElem_cons_drop, List.take_append_drop]
  · obtain ⟨y, x⟩ := p
    simp only [List.length_take, Pos.mk.injEq]
    simp only at hlt h2
    omega

theorem validPos_mid (A : List Text) (a b : Text) (B : List Text) : ValidPos (A ++ (a ++ b) :: B) ⟨A.length, a.length⟩ :=
  ⟨a ++ b, by simp, by simp⟩

theorem validPos_at (A : List Text) (l : Text) (B : List Text) (x : Nat) (h : x ≤ l.length) :
    ValidPos (A ++ l :: B) ⟨A.length, x⟩ := ⟨l, by simp, h⟩

/-- All the lines but with a newline after each. -/
def linesL (A : List Text) : Text := A.flatMap (· ++ ['\n'])
/-- All the lines but with a newline before each. -/
def linesR (B : List Text) : Text := B.flatMap ('\n' :: ·)

theorem joinLines_nil : joinLines [] = [] := rfl
theorem joinLines_one (a : Text) : joinLines [a] = a := by simp [joinLines, List.intercalate]
theorem joinLines_cons (b : Text) (B : List Text) : joinLines (b :: B) = b ++ linesR B := by
  induction B generalizing b with
  | nil => simp [joinLines_one, linesR]
  | cons c B ih =>
    have : joinLines (b :: c :: B) = b ++ '\n' :: joinLines (c :: B) := by
      simp [joinLines, List.intercalate]
    rw [this, ih]
    simp [linesR]

theorem linesL_append (A B : List Text) : linesL (A ++ B) = linesL A ++ linesL B := by simp [linesL]
theorem linesR_append (A B : List Text) : linesR (A ++ B) = linesR A ++ linesR B := by simp [linesR]

theorem joinLines_mid (A : List Text) (b : Text) (B : List Text) : joinLines (A ++ b :: B) = linesL A ++ b ++ linesR B := by
  induction A with
  | nil => simp [joinLines_cons, linesL]
  | cons a A ih =>
    rw [List.cons_append, joinLines_cons]
    have : linesR (A ++ b :: B) = '\n' :: joinLines (A ++ b :: B) := by
      cases A with
      | nil => simp [joinLines_cons, linesR]
      | cons a' A => simp [joinLines_cons, linesR]
    rw [this, ih]
    simp [linesL]

theorem textBefore_mid (A : List Text) (a b : Text) (B : List Text) :
    textBefore (A ++ (a ++ b) :: B) ⟨A.length, a.length⟩ = linesL A ++ a := by
  simp only [textBefore, get_mid, take_mid, Option.getD_some, joinLines_mid]
  simp [linesR]

theorem textAfter_mid (A : List Text) (a b : Text) (B : List Text) :
    textAfter (A ++ (a ++ b) :: B) ⟨A.length, a.length⟩ = b ++ linesR B := by
  simp only [textAfter, get_mid, drop_mid, Option.getD_some, joinLines_cons]
  simp

theorem fmtLines_eq (ls : List Text) : Content.fmtLines ls = joinLines ls := by
  induction ls with
  | nil => rfl
  | cons l ls ih =>
    cases ls with
    | nil => simp [Content.fmtLines, joinLines_one]
    | cons m ls =>
      simp only [Content.fmtLines, ih, joinLines_cons]
      simp [linesR]

theorem text_split {ls : List Text} {p : Pos} (h : ValidPos ls p) : textBefore ls p ++ textAfter ls p = joinLines ls := by
  obtain ⟨A, a, b, B, rfl, rfl⟩ := h.split
  rw [textBefore_mid, textAfter_mid, joinLines_mid]
  simp

namespace Content

theorem endPos_ok {c : Content} (h : c.lines ≠ []) : ∃ p, c.endPos = some p ∧ ValidPos c.lines p ∧ textAfter c.lines p = [] ∧
    p.y + 1 = c.lines.length := by
  rcases List.eq_nil_or_concat c.lines with h0 | ⟨A, l, hl⟩
  · exact absurd h0 h
  · rw [List.concat_eq_append] at hl
    refine ⟨⟨A.length, l.length⟩, ?_, ?_, ?_, ?_⟩
    · simp [endPos, hl, csub]
    · rw [hl]; exact validPos_at A l [] _ (Nat.le_refl _)
    · rw [hl]
      have := textAfter_mid A l [] []
      simpa [linesR] using this
    · rw [hl]; simp

theorem makeValidPos_ok {c : Content} (h : c.lines ≠ []) (p : Pos) :
    ∃ q, c.makeValidPos p = some q ∧ ValidPos c.lines q ∧ (ValidPos c.lines p → q = p) ∧
      (p.y < c.lines.length → q.y = p.y ∧ q.x ≤ p.x) := by
  unfold makeValidPos
  by_cases hy : p.y ≥ c.lines.length
  · rw [if_pos hy]
    obtain ⟨e, h1, h2, _⟩ := endPos_ok h
    refine ⟨e, h1, h2, ?_, by omega⟩
    rintro ⟨l, h3, _⟩
    have := (List.getElem?_eq_some_iff.1 h3).1
    omega
  · rw [if_neg hy]
    have hl : c.lines[p.y]? = some (c.lines[p.y]'(by omega)) := List.getElem?_eq_getElem _
    rw [hl]
    refine ⟨_, rfl, ⟨_, hl, Nat.min_le_right _ _⟩, ?_, ?_⟩
    · rintro ⟨l, h3, h4⟩
      rw [hl] at h3
      cases h3
      cases p
      simp only [Pos.mk.injEq, true_and] at *
      omega
    · intro _; exact ⟨rfl, Nat.min_le_left _ _⟩

theorem fixSelection_ok {c : Content} (h : c.lines ≠ []) :
    ∃ c', c.fixSelection = some c' ∧ c'.lines = c.lines ∧ ValidPos c.lines c'.pos ∧
      (∀ t, c'.tail = some t → ValidPos c.lines t) ∧ (ValidPos c.lines c.pos → c'.pos = c.pos) ∧
      (c.pos.y < c.lines.length → c'.pos.y = c.pos.y ∧ c'.pos.x ≤ c.pos.x) := by
  obtain ⟨q, h1, h2, h3, h4⟩ := makeValidPos_ok h c.pos
  unfold fixSelection
  rw [h1]
  simp only [Option.bind_eq_bind, Option.bind_some, fixSelectionTail]
  cases ht : c.tail with
  | none => exact ⟨{ c with pos := q, tail := none }, rfl, rfl, h2, by simp, h3, h4⟩
  | some t =>
    obtain ⟨r, k1, k2, k3, _⟩ := makeValidPos_ok (c := { c with pos := q, tail := some t }) h t
    exact ⟨{ c with pos := q, tail := some r }, by simp [k1], rfl, h2, by intro t' h'; cases h'; exact k2, h3, h4⟩

theorem Valid.mk' {ls : List Text} {p : Pos} {c' : Content} (hl : c'.lines = ls) (hp : c'.pos = p) (h1 : ValidPos ls p)
    (ht : ∀ t, c'.tail = some t → ValidPos ls t) (hc : ∀ l ∈ ls, ∀ ch ∈ l, ¬ NotStored ch) : c'.Valid := by
  subst hl hp
  refine ⟨?_, h1, ht, hc⟩
  obtain ⟨l, h, _⟩ := h1
  intro h0
  rw [h0] at h
  simp at h

/-- A content seen around its cursor. -/
theorem Valid.split {c : Content} (h : c.Valid) :
    ∃ A a b B, c.lines = A ++ (a ++ b) :: B ∧ c.pos = ⟨A.length, a.length⟩ ∧ c.before = linesL A ++ a ∧
      c.after = b ++ linesR B ∧ (∀ l ∈ A, ∀ ch ∈ l, ¬ NotStored ch) ∧ (∀ ch ∈ a, ¬ NotStored ch) ∧
      (∀ ch ∈ b, ¬ NotStored ch) ∧ (∀ l ∈ B, ∀ ch ∈ l, ¬ NotStored ch) := by
  obtain ⟨A, a, b, B, h1, h2⟩ := h.pos.split
  refine ⟨A, a, b, B, h1, h2, ?_, ?_, ?_, ?_, ?_, ?_⟩
  · rw [before, h1, h2, textBefore_mid]
  · rw [after, h1, h2, textAfter_mid]
  all_goals
    have hc := h.clean
    rw [h1] at hc
    intro l hl
  · exact hc l (by simp [hl])
  · exact hc (a ++ b) (by simp) l (by simp [hl])
  · exact hc (a ++ b) (by simp) l (by simp [hl])
  · exact hc l (by simp [hl])

theorem before_eq {c : Content} {A : List Text} {a b : Text} {B : List Text} (h1 : c.lines = A ++ (a ++ b) :: B)
    (h2 : c.pos = ⟨A.length, a.length⟩) : c.before = linesL A ++ a := by rw [before, h1, h2, textBefore_mid]

theorem after_eq {c : Content} {A : List Text} {a b : Text} {B : List Text} (h1 : c.lines = A ++ (a ++ b) :: B)
    (h2 : c.pos = ⟨A.length, a.length⟩) : c.after = b ++ linesR B := by rw [after, h1, h2, textAfter_mid]

/-- After a change of lines and position followed by a fix of the selection. -/
theorem fixed_ok {c : Content} {A : List Text} {a b : Text} {B : List Text} (h1 : c.lines = A ++ (a ++ b) :: B)
    (h2 : c.pos = ⟨A.length, a.length⟩) (hA : ∀ l ∈ A, ∀ ch ∈ l, ¬ NotStored ch) (ha : ∀ ch ∈ a, ¬ NotStored ch)
    (hb : ∀ ch ∈ b, ¬ NotStored ch) (hB : ∀ l ∈ B, ∀ ch ∈ l, ¬ NotStored ch) :
    ∃ c', c.fixSelection = some c' ∧ c'.Valid ∧ c'.lines = c.lines ∧ c'.pos = c.pos ∧ c'.before = linesL A ++ a ∧
      c'.after = b ++ linesR B := by
  obtain ⟨c', k1, k2, k3, k4, k5, _⟩ := fixSelection_ok (c := c) (by rw [h1]; simp)
  have hv : ValidPos c.lines c.pos := by rw [h1, h2]; exact validPos_mid A a b B
  refine ⟨c', k1, ?_, k2, k5 hv, before_eq (by rw [k2, h1]) (by rw [k5 hv, h2]), after_eq (by rw [k2, h1]) (by rw [k5 hv, h2])⟩
  refine Valid.mk' k2 (k5 hv) hv k4 ?_
  rw [h1]
  intro l hl ch hch
  simp only [List.mem_append, List.mem_cons] at hl
  rcases hl with hl | rfl | hl
  · exact hA l hl ch hch
  · rcases List.mem_append.1 hch with h | h
    · exact ha ch h
    · exact hb ch h
  · exact hB l hl ch hch

/-! ### Edits -/

theorem insertNewLine_ok {c : Content} (h : c.Valid) :
    ∃ c', c.insertNewLine = some c' ∧ c'.Valid ∧ c'.before = c.before ++ ['\n'] ∧ c'.after = c.after := by
  obtain ⟨A, a, b, B, h1, h2, h3, h4, hA, ha, hb, hB⟩ := h.split
  obtain ⟨c', k1, k2, k3, k4, k5, k6⟩ := fixed_ok (c := { c with lines := (A ++ [a]) ++ ([] ++ b) :: B, pos := ⟨A.length + 1, 0⟩ })
    (A := A ++ [a]) (a := []) rfl (by simp) (by
      intro l hl
      simp only [List.mem_append, List.mem_singleton] at hl
      rcases hl with hl | rfl
      · exact hA l hl
      · exact ha) (by simp) hb hB
  refine ⟨c', ?_, k2, ?_, ?_⟩
  · simp only [insertNewLine, h1, h2, get_mid, Option.bind_eq_bind, Option.bind_some, vecSplitOff_mid, vecSet_mid, vecInsert_mid1]
    simpa using k1
  · rw [k5, h3]; simp [linesL]
  · rw [k6, h4]

theorem tail_grow {c : Content} {A : List Text} {l l' : Text} {B : List Text} (h1 : c.lines = A ++ l :: B)
    (hle : l.length ≤ l'.length) {t : Pos} (ht : ValidPos c.lines t) : ValidPos (A ++ l' :: B) t := by
  obtain ⟨m, h2, h3⟩ := ht
  rw [h1] at h2
  by_cases hy : t.y = A.length
  · rw [hy, get_mid] at h2
    cases h2
    exact ⟨l', by rw [hy, get_mid], by omega⟩
  · refine ⟨m, ?_, h3⟩
    rw [← set_mid A l l' B, List.getElem?_set_ne (Ne.symm hy), h2]

theorem insertChar_ok {c : Content} (h : c.Valid) (ch : Char) :
    ∃ c', c.insertChar ch = some c' ∧ c'.Valid ∧ c'.before = c.before ++ keptText [ch] ∧ c'.after = c.after := by
  unfold insertChar
  by_cases hn : ch = '\n'
  · rw [if_pos hn]
    subst hn
    exact insertNewLine_ok h
  rw [if_neg hn]
  by_cases hr : ch = '\r' ∨ ch = '\x08'
  · rw [if_pos hr]
    refine ⟨c, rfl, h, ?_, rfl⟩
    have : keptText [ch] = [] := by rcases hr with rfl | rfl <;> rfl
    rw [this, List.append_nil]
  · rw [if_neg hr]
    obtain ⟨A, a, b, B, h1, h2, h3, h4, hA, ha, hb, hB⟩ := h.split
    have hk : keptText [ch] = [ch] := by
      have : ch ≠ '\r' ∧ ch ≠ '\x08' := by simpa using hr
      simp [keptText, this]
    have e1 : (A ++ (a ++ ch :: b) :: B) = A ++ ((a ++ [ch]) ++ b) :: B := by simp
    refine ⟨{ c with lines := A ++ ((a ++ [ch]) ++ b) :: B, pos := ⟨A.length, (a ++ [ch]).length⟩ }, ?_, ?_, ?_, ?_⟩
    · simp only [h1, h2, get_mid, Option.bind_eq_bind, Option.bind_some, vecInsert_mid, vecSet_mid, e1]
      simp
    · refine Valid.mk' rfl rfl (validPos_mid _ _ _ _) ?_ ?_
      · intro t ht
        exact tail_grow h1 (by simp) (h.tail t ht)
      · intro l hl c' hc'
        simp only [List.mem_append, List.mem_cons] at hl
        rcases hl with hl | rfl | hl
        · exact hA l hl c' hc'
        · simp only [List.mem_append, List.mem_singleton] at hc'
          rcases hc' with (hc' | rfl) | hc'
          · exact ha c' hc'
          · rintro (h | h)
            · exact hn h
            · exact hr h
          · exact hb c' hc'
        · exact hB l hl c' hc'
    · rw [before_eq rfl rfl, h3, hk]; simp
    · rw [after_eq rfl rfl, h4]

theorem insertStr_ok (s : Text) : ∀ {c : Content}, c.Valid →
    ∃ c', c.insertStr s = some c' ∧ c'.Valid ∧ c'.before = c.before ++ keptText s ∧ c'.after = c.after := by
  induction s with
  | nil => intro c h; exact ⟨c, rfl, h, by simp [keptText], rfl⟩
  | cons ch s ih =>
    intro c h
    obtain ⟨c1, k1, k2, k3, k4⟩ := insertChar_ok h ch
    obtain ⟨c2, m1, m2, m3, m4⟩ := ih k2
    refine ⟨c2, by simp [insertStr, k1, m1], m2, ?_, by rw [m4, k4]⟩
    rw [m3, k3, List.append_assoc]
    simp only [keptText, ← List.filter_append]
    rfl

theorem clean_lines {c : Content} (h : c.Valid) {c' : Content} (hl : c'.lines = c.lines) (ht : c'.tail = c.tail)
    (hp : ValidPos c.lines c'.pos) : c'.Valid := by
  refine Valid.mk' hl rfl hp ?_ ?_
  · rw [ht]; exact h.tail
  · exact h.clean

theorem concat_cases (l : List α) : l = [] ∨ ∃ i x, l = i ++ [x] := by
  rcases List.eq_nil_or_concat l with h | ⟨i, x, h⟩
  · exact .inl h
  · exact .inr ⟨i, x, by simpa using h⟩

theorem delCharLeft_ok {c : Content} (h : c.Valid) :
    ∃ c' r, c.delCharLeft = some (c', r) ∧ c'.Valid ∧
      ((c.before = [] ∧ c' = c ∧ r = false) ∨ (∃ ch, c.before = c'.before ++ [ch] ∧ c'.after = c.after ∧ r = true)) := by
  obtain ⟨A, a, b, B, h1, h2, h3, h4, hA, ha, hb, hB⟩ := h.split
  unfold delCharLeft
  rcases concat_cases a with rfl | ⟨a0, ch, rfl⟩
  · rw [if_neg (by rw [h2]; simp)]
    rcases concat_cases A with rfl | ⟨A0, l, rfl⟩
    · rw [if_neg (by rw [h2]; simp)]
      exact ⟨c, false, rfl, h, .inl ⟨by rw [h3]; rfl, rfl, rfl⟩⟩
    · rw [if_pos (by rw [h2, h1]; simp; omega)]
      obtain ⟨c', k1, k2, k3, k4, k5, k6⟩ := fixed_ok (c := { c with lines := A0 ++ (l ++ b) :: B, pos := ⟨A0.length, l.length⟩ })
        rfl rfl (fun m hm => hA m (by simp [hm])) (hA l (by simp)) hb hB
      refine ⟨c', true, ?_, k2, .inr ⟨'\n', ?_, ?_, rfl⟩⟩
      · have e1 : (A0 ++ [l]).length - 1 = A0.length := by simp
        have e2 : A0 ++ [l] ++ B = A0 ++ l :: B := by simp
        simp only [h1, h2, List.nil_append, get_mid, Option.bind_eq_bind, Option.bind_some, vecRemove_mid, e1, e2, vecSet_mid, k1]
      · rw [h3, k5]; simp [linesL]
      · rw [h4, k6]
  · rw [if_pos (by rw [h2]; simp)]
    obtain ⟨c', k1, k2, k3, k4, k5, k6⟩ := fixed_ok (c := { c with lines := A ++ (a0 ++ b) :: B, pos := ⟨A.length, a0.length⟩ })
      rfl rfl hA (fun m hm => ha m (by simp [hm])) hb hB
    refine ⟨c', true, ?_, k2, .inr ⟨ch, ?_, ?_, rfl⟩⟩
    · have e1 : (a0 ++ [ch]).length - 1 = a0.length := by simp
      have e2 : a0 ++ [ch] ++ b = a0 ++ ch :: b := by simp
      have e3 : (a0 ++ ch :: b).isEmpty = false := by simp
      simp only [h1, h2, get_mid, Option.bind_eq_bind, Option.bind_some, e1, e2, removeLeft, e3, vecRemove_mid, vecSet_mid]
      simp [k1]
    · rw [h3, k5]; simp
    · rw [h4, k6]

theorem delCharBelow_ok {c : Content} (h : c.Valid) :
    ∃ c' r, c.delCharBelow = some (c', r) ∧ c'.Valid ∧
      ((c.after = [] ∧ c' = c ∧ r = false ∧ ∀ t, c.before ≠ t ++ ['\n']) ∨
        (∃ ch, c.after = ch :: c'.after ∧ c'.before = c.before ∧ r = true) ∨
        (c.after = [] ∧ c.before = c'.before ++ ['\n'] ∧ c'.after = [] ∧ r = true)) := by
  obtain ⟨A, a, b, B, h1, h2, h3, h4, hA, ha, hb, hB⟩ := h.split
  have hcur : c.currentLine = some (a ++ b) := by rw [currentLine, h1, h2]; simp
  unfold delCharBelow
  rw [hcur]
  simp only [Option.bind_eq_bind, Option.bind_some]
  by_cases h0 : (a ++ b).length = 0
  · have h0' := List.eq_nil_of_length_eq_zero h0
    obtain ⟨rfl, rfl⟩ := List.append_eq_nil_iff.1 h0'
    rw [if_pos h0]
    cases B with
    | cons m B =>
      rw [if_pos (by rw [h1]; simp; omega)]
      obtain ⟨c', k1, k2, k3, k4, k5, k6⟩ := fixed_ok (c := { c with lines := A ++ ([] ++ m) :: B })
        (a := []) rfl h2 hA (by simp) (hB m (by simp)) (fun l hl => hB l (by simp [hl]))
      refine ⟨c', true, ?_, k2, .inr (.inl ⟨'\n', ?_, ?_, rfl⟩)⟩
      · have : vecRemove c.lines c.pos.y = some (A ++ ([] ++ m) :: B) := by rw [h1, h2]; exact vecRemove_mid A _ _
        simp only [this, Option.bind_some, k1]
      · rw [h4, k6]; simp [linesR]
      · rw [h3, k5]
    | nil =>
      rcases concat_cases A with rfl | ⟨A0, l, rfl⟩
      · rw [if_neg (by rw [h1]; simp)]
        refine ⟨c, false, rfl, h, .inl ⟨by rw [h4]; rfl, rfl, rfl, ?_⟩⟩
        intro t ht
        rw [h3] at ht
        simp [linesL] at ht
      · rw [if_pos (by rw [h1]; simp)]
        have hr : vecRemove c.lines c.pos.y = some (A0 ++ [l]) := by
          rw [h1, h2]
          have := vecRemove_mid (A0 ++ [l]) [] []
          simpa using this
        simp only [hr, Option.bind_some]
        have hne : (A0 ++ [l]) ≠ [] := by simp
        obtain ⟨c', k1, k2, k3, k4, _⟩ := fixSelection_ok (c := { c with lines := A0 ++ [l] }) hne
        have hpos : c'.pos = ⟨A0.length, l.length⟩ := by
          have hq : ({ c with lines := A0 ++ [l] } : Content).makeValidPos c.pos = some ⟨A0.length, l.length⟩ := by
            simp only [makeValidPos, h2]
            rw [if_pos (Nat.le_refl _)]
            simp [endPos, csub]
          unfold fixSelection at k1
          rw [hq] at k1
          simp only [Option.bind_eq_bind, Option.bind_some, fixSelectionTail] at k1
          split at k1
          · cases k1; rfl
          · rename_i t _
            cases hm : ({ c with lines := A0 ++ [l], pos := ⟨A0.length, l.length⟩ } : Content).makeValidPos t with
            | none => rw [hm] at k1; simp at k1
            | some q => rw [hm] at k1; simp only [Option.bind_some, Option.some.injEq] at k1; rw [← k1]
        have hl2 : c'.lines = A0 ++ (l ++ []) :: [] := by rw [k2]; simp
        refine ⟨c', true, by rw [k1]; rfl, ?_, .inr (.inr ⟨by rw [h4]; rfl, ?_, ?_, rfl⟩)⟩
        · refine Valid.mk' k2 rfl k3 k4 ?_
          exact fun m hm => hA m hm
        · rw [before_eq hl2 hpos, h3]; simp [linesL]
        · rw [after_eq hl2 hpos]; rfl
  · rw [if_neg h0]
    cases b with
    | cons ch b =>
      rw [if_pos (by rw [h2]; simp)]
      obtain ⟨c', k1, k2, k3, k4, k5, k6⟩ := fixed_ok (c := { c with lines := A ++ (a ++ b) :: B })
        rfl h2 hA ha (fun m hm => hb m (by simp [hm])) hB
      refine ⟨c', true, ?_, k2, .inr (.inl ⟨ch, ?_, ?_, rfl⟩)⟩
      · have e1 : vecRemove (a ++ ch :: b) c.pos.x = some (a ++ b) := by rw [h2]; exact vecRemove_mid a ch b
        have e2 : vecSet c.lines c.pos.y (a ++ b) = some (A ++ (a ++ b) :: B) := by rw [h1, h2]; exact vecSet_mid _ _ _ _
        simp only [e1, e2, Option.bind_some, k1]
      · rw [h4, k6]; rfl
      · rw [h3, k5]
    | nil =>
      rw [if_neg (by rw [h2]; simp)]
      simp only [List.append_nil] at h1 hcur
      cases B with
      | cons m B =>
        rw [if_pos (by rw [h1, h2]; simp)]
        obtain ⟨c', k1, k2, k3, k4, k5, k6⟩ := fixed_ok (c := { c with lines := A ++ (a ++ m) :: B })
          rfl h2 hA ha (hB m (by simp)) (fun l hl => hB l (by simp [hl]))
        refine ⟨c', true, ?_, k2, .inr (.inl ⟨'\n', ?_, ?_, rfl⟩)⟩
        · have e1 : c.lines[c.pos.y + 1]? = some m := by rw [h1, h2]; exact get_mid1 _ _ _ _
          have e2 : vecRemove c.lines (c.pos.y + 1) = some (A ++ a :: B) := by rw [h1, h2]; exact vecRemove_mid1 _ _ _ _
          have e3 : (A ++ a :: B)[c.pos.y]? = some a := by rw [h2]; exact get_mid _ _ _
          have e4 : vecSet (A ++ a :: B) c.pos.y (a ++ m) = some (A ++ (a ++ m) :: B) := by rw [h2]; exact vecSet_mid _ _ _ _
          simp only [e1, e2, e3, e4, Option.bind_some, k1]
        · rw [h4, k6]; simp [linesR]
        · rw [h3, k5]
      | nil =>
        rw [if_neg (by rw [h1, h2]; simp)]
        refine ⟨c, false, rfl, h, .inl ⟨by rw [h4]; rfl, rfl, rfl, ?_⟩⟩
        intro t ht
        rw [h3] at ht
        rcases concat_cases a with rfl | ⟨a0, x, rfl⟩
        · simp at h0
        · rw [← List.append_assoc] at ht
          have := (List.append_inj' ht rfl).2
          simp at this
          exact ha x (by simp) (.inl this)

/-! ### Moves -/

theorem moveRight_ok {c : Content} (h : c.Valid) :
    ∃ c' r, c.moveRight = some (c', r) ∧ c'.Valid ∧ c'.lines = c.lines ∧ c'.tail = c.tail ∧
      ((c.after = [] ∧ c' = c ∧ r = false) ∨ (∃ ch, c.after = ch :: c'.after ∧ c'.before = c.before ++ [ch] ∧ r = true)) := by
  obtain ⟨A, a, b, B, h1, h2, h3, h4, hA, ha, hb, hB⟩ := h.split
  have hl : c.lines[c.pos.y]? = some (a ++ b) := by rw [h1, h2]; simp
  unfold moveRight
  rw [hl]
  simp only [Option.bind_eq_bind, Option.bind_some]
  cases b with
  | cons ch b =>
    rw [if_pos (by rw [h2]; simp)]
    have e1 : c.lines = A ++ ((a ++ [ch]) ++ b) :: B := by rw [h1]; simp
    have e2 : ({ c.pos with x := c.pos.x + 1 } : Pos) = ⟨A.length, (a ++ [ch]).length⟩ := by rw [h2]; simp
    refine ⟨_, _, rfl, ?_, rfl, rfl, .inr ⟨ch, ?_, ?_, rfl⟩⟩
    · refine clean_lines h rfl rfl ?_
      show ValidPos c.lines { c.pos with x := c.pos.x + 1 }
      rw [e2, e1]
      exact validPos_mid _ _ _ _
    · rw [h4, after_eq (c := { c with pos := { c.pos with x := c.pos.x + 1 } }) e1 e2]; rfl
    · rw [h3, before_eq (c := { c with pos := { c.pos with x := c.pos.x + 1 } }) e1 e2]; simp
  | nil =>
    rw [if_neg (by rw [h2]; simp)]
    have hc : csub c.lines.length 1 = some (A.length + B.length) := by rw [h1]; simp [csub]
    rw [hc]
    simp only [Option.bind_some]
    cases B with
    | nil =>
      rw [if_neg (by rw [h2]; simp)]
      exact ⟨c, false, rfl, h, rfl, rfl, .inl ⟨by rw [h4]; rfl, rfl, rfl⟩⟩
    | cons m B =>
      rw [if_pos (by rw [h2]; simp)]
      have e1 : c.lines = (A ++ [a]) ++ ([] ++ m) :: B := by rw [h1]; simp
      have e2 : (⟨c.pos.y + 1, 0⟩ : Pos) = ⟨(A ++ [a]).length, ([] : Text).length⟩ := by rw [h2]; simp
      refine ⟨_, _, rfl, ?_, rfl, rfl, .inr ⟨'\n', ?_, ?_, rfl⟩⟩
      · refine clean_lines h rfl rfl ?_
        show ValidPos c.lines ⟨c.pos.y + 1, 0⟩
        rw [e2, e1]
        exact validPos_mid _ _ _ _
      · rw [h4, after_eq (c := { c with pos := ⟨c.pos.y + 1, 0⟩ }) e1 e2]; simp [linesR]
      · rw [h3, before_eq (c := { c with pos := ⟨c.pos.y + 1, 0⟩ }) e1 e2]; simp [linesL]

theorem moveLeft_ok {c : Content} (h : c.Valid) :
    ∃ c' r, c.moveLeft = some (c', r) ∧ c'.Valid ∧ c'.lines = c.lines ∧ c'.tail = c.tail ∧
      ((c.before = [] ∧ c' = c ∧ r = false) ∨ (∃ ch, c.before = c'.before ++ [ch] ∧ c'.after = ch :: c.after ∧ r = true)) := by
  obtain ⟨A, a, b, B, h1, h2, h3, h4, hA, ha, hb, hB⟩ := h.split
  unfold moveLeft
  rcases concat_cases a with rfl | ⟨a0, ch, rfl⟩
  · rw [if_neg (by rw [h2]; simp)]
    rcases concat_cases A with rfl | ⟨A0, l, rfl⟩
    · rw [if_neg (by rw [h2]; simp)]
      exact ⟨c, false, rfl, h, rfl, rfl, .inl ⟨by rw [h3]; rfl, rfl, rfl⟩⟩
    · rw [if_pos (by rw [h2]; simp)]
      have e0 : c.lines[c.pos.y - 1]? = some l := by
        have e : c.pos.y - 1 = A0.length := by rw [h2]; simp
        have e' : c.lines = A0 ++ l :: b :: B := by rw [h1]; simp
        rw [e, e']; exact get_mid _ _ _
      have e1 : c.lines = A0 ++ (l ++ []) :: (b :: B) := by rw [h1]; simp
      have e2 : (⟨c.pos.y - 1, l.length⟩ : Pos) = ⟨A0.length, l.length⟩ := by rw [h2]; simp
      rw [e0]
      refine ⟨_, _, rfl, ?_, rfl, rfl, .inr ⟨'\n', ?_, ?_, rfl⟩⟩
      · refine clean_lines h rfl rfl ?_
        show ValidPos c.lines ⟨c.pos.y - 1, l.length⟩
        rw [e2, e1]
        exact validPos_mid _ _ _ _
      · rw [h3, before_eq (c := { c with pos := ⟨c.pos.y - 1, l.length⟩ }) e1 e2]; simp [linesL]
      · rw [h4, after_eq (c := { c with pos := ⟨c.pos.y - 1, l.length⟩ }) e1 e2]; simp [linesR]
  · rw [if_pos (by rw [h2]; simp)]
    have e1 : c.lines = A ++ (a0 ++ (ch :: b)) :: B := by rw [h1]; simp
    have e2 : ({ c.pos with x := c.pos.x - 1 } : Pos) = ⟨A.length, a0.length⟩ := by rw [h2]; simp
    refine ⟨_, _, rfl, ?_, rfl, rfl, .inr ⟨ch, ?_, ?_, rfl⟩⟩
    · refine clean_lines h rfl rfl ?_
      show ValidPos c.lines { c.pos with x := c.pos.x - 1 }
      rw [e2, e1]
      exact validPos_mid _ _ _ _
    · rw [h3, before_eq (c := { c with pos := { c.pos with x := c.pos.x - 1 } }) e1 e2]; simp
    · rw [h4, after_eq (c := { c with pos := { c.pos with x := c.pos.x - 1 } }) e1 e2]; simp

theorem moveToEnd_ok {c : Content} (h : c.Valid) :
    ∃ c', c.moveToEnd = some (c', decide (c' ≠ c)) ∧ c'.Valid ∧ c'.lines = c.lines ∧ c'.tail = c.tail ∧ c'.after = [] := by
  obtain ⟨p, h1, h2, h3, _⟩ := endPos_ok h.oneLine
  unfold moveToEnd
  rw [h1]
  simp only [Option.bind_eq_bind, Option.bind_some]
  by_cases hp : p = c.pos
  · rw [if_pos hp]
    exact ⟨c, by simp, h, rfl, rfl, by rw [after, ← hp]; exact h3⟩
  · rw [if_neg hp]
    refine ⟨{ c with pos := p }, ?_, clean_lines h rfl rfl h2, rfl, rfl, h3⟩
    have : ({ c with pos := p } : Content) ≠ c := by
      intro h0
      exact hp (congrArg Content.pos h0)
    simp [this]

theorem moveToStart_ok {c : Content} (h : c.Valid) :
    ∃ c', c.moveToStart = (c', decide (c' ≠ c)) ∧ c'.Valid ∧ c'.lines = c.lines ∧ c'.tail = c.tail ∧ c'.before = [] := by
  have hv : ValidPos c.lines ⟨0, 0⟩ := by
    obtain ⟨l, ls, hl⟩ := List.exists_cons_of_ne_nil h.oneLine
    rw [hl]
    exact validPos_at [] l ls 0 (by simp)
  have hb : ∀ c' : Content, c'.pos = ⟨0, 0⟩ → c'.before = [] := by
    intro c' hc
    simp [before, textBefore, hc, joinLines_one]
  unfold moveToStart
  by_cases hp : (⟨0, 0⟩ : Pos) = c.pos
  · rw [if_pos hp]
    exact ⟨c, by simp, h, rfl, rfl, hb c hp.symm⟩
  · rw [if_neg hp]
    refine ⟨{ c with pos := ⟨0, 0⟩ }, ?_, clean_lines h rfl rfl hv, rfl, rfl, hb _ rfl⟩
    have : ({ c with pos := ⟨0, 0⟩ } : Content) ≠ c := by
      intro h0
      exact hp (congrArg Content.pos h0)
    simp [this]

theorem moveToLineEnd_ok {c : Content} (h : c.Valid) :
    ∃ c' seg, c.moveToLineEnd = some (c', decide (c' ≠ c)) ∧ c'.Valid ∧ c'.lines = c.lines ∧ c'.tail = c.tail ∧
      c'.before = c.before ++ seg ∧ c.after = seg ++ c'.after ∧ '\n' ∉ seg ∧ (c'.after = [] ∨ ∃ t, c'.after = '\n' :: t) := by
  obtain ⟨A, a, b, B, h1, h2, h3, h4, hA, ha, hb, hB⟩ := h.split
  have hl : c.lines[c.pos.y]? = some (a ++ b) := by rw [h1, h2]; simp
  unfold moveToLineEnd
  rw [hl]
  simp only [Option.bind_eq_bind, Option.bind_some]
  have hR : linesR B = [] ∨ ∃ t, linesR B = '\n' :: t := by
    cases B with
    | nil => left; rfl
    | cons m B => right; exact ⟨_, rfl⟩
  cases b with
  | nil =>
    rw [if_neg (by rw [h2]; simp)]
    exact ⟨c, [], by simp, h, rfl, rfl, by simp, rfl, by simp, by rw [h4]; exact hR⟩
  | cons ch b =>
    rw [if_pos (by rw [h2]; simp)]
    have e1 : c.lines = A ++ ((a ++ ch :: b) ++ []) :: B := by rw [h1]; simp
    have e2 : ({ c.pos with x := (a ++ ch :: b).length } : Pos) = ⟨A.length, (a ++ ch :: b).length⟩ := by rw [h2]
    have e3 := after_eq (c := { c with pos := { c.pos with x := (a ++ ch :: b).length } }) e1 e2
    refine ⟨{ c with pos := { c.pos with x := (a ++ ch :: b).length } }, ch :: b, ?_, ?_, rfl, rfl, ?_, ?_, ?_, ?_⟩
    · have : ({ c with pos := { c.pos with x := (a ++ ch :: b).length } } : Content) ≠ c := by
        intro h0
        have h5 : (a ++ ch :: b).length = c.pos.x := congrArg (fun d : Content => d.pos.x) h0
        rw [h2] at h5
        simp at h5
      simp only [ne_eq, this, not_false_eq_true, decide_true]
    · refine clean_lines h rfl rfl ?_
      show ValidPos c.lines { c.pos with x := (a ++ ch :: b).length }
      rw [e2, e1]
      exact validPos_mid _ _ _ _
    · rw [h3, before_eq (c := { c with pos := { c.pos with x := (a ++ ch :: b).length } }) e1 e2]; simp
    · rw [h4, e3]; simp
    · intro hn; exact hb _ hn (.inl rfl)
    · rw [e3]; exact hR

theorem moveToLineStart_ok {c : Content} (h : c.Valid) :
    ∃ c' seg, c.moveToLineStart = (c', decide (c' ≠ c)) ∧ c'.Valid ∧ c'.lines = c.lines ∧ c'.tail = c.tail ∧
      c.before = c'.before ++ seg ∧ c'.after = seg ++ c.after ∧ '\n' ∉ seg ∧ (c'.before = [] ∨ ∃ t, c'.before = t ++ ['\n']) := by
  obtain ⟨A, a, b, B, h1, h2, h3, h4, hA, ha, hb, hB⟩ := h.split
  have hL : linesL A = [] ∨ ∃ t, linesL A = t ++ ['\n'] := by
    rcases concat_cases A with rfl | ⟨A0, l, rfl⟩
    · left; rfl
    · right; exact ⟨linesL A0 ++ l, by simp [linesL]⟩
  unfold moveToLineStart
  cases a with
  | nil =>
    rw [if_neg (by rw [h2]; simp)]
    exact ⟨c, [], by simp, h, rfl, rfl, by simp, rfl, by simp, by rw [h3, List.append_nil]; exact hL⟩
  | cons ch a =>
    rw [if_pos (by rw [h2]; simp)]
    have e1 : c.lines = A ++ ([] ++ (ch :: a ++ b)) :: B := by rw [h1]; simp
    have e2 : ({ c.pos with x := 0 } : Pos) = ⟨A.length, ([] : Text).length⟩ := by rw [h2]; rfl
    have e3 := before_eq (c := { c with pos := { c.pos with x := 0 } }) e1 e2
    refine ⟨{ c with pos := { c.pos with x := 0 } }, ch :: a, ?_, ?_, rfl, rfl, ?_, ?_, ?_, ?_⟩
    · have : ({ c with pos := { c.pos with x := 0 } } : Content) ≠ c := by
        intro h0
        have h5 : 0 = c.pos.x := congrArg (fun d : Content => d.pos.x) h0
        rw [h2] at h5
        simp at h5
      simp only [ne_eq, this, not_false_eq_true, decide_true]
    · refine clean_lines h rfl rfl ?_
      show ValidPos c.lines { c.pos with x := 0 }
      rw [e2, e1]
      exact validPos_mid _ _ _ _
    · rw [h3, e3]; simp
    · rw [h4, after_eq (c := { c with pos := { c.pos with x := 0 } }) e1 e2]; simp
    · intro hn; exact ha _ hn (.inl rfl)
    · rw [e3, List.append_nil]; exact hL

/-! ### Columns and vertical moves -/

theorem charIdxToCol_eq (cw : Char → Nat) (l : Text) (i : Nat) (h : i ≤ l.length) :
    charIdxToCol cw l i = some (inputCols cw (l.take i)) := by
  rw [charIdxToCol, if_pos h]; rfl

theorem colLoop_ok (cw : Char → Nat) (col : Nat) : ∀ (t : Text) (idx sum : Nat),
    match colToCharIdxLoop cw col idx sum t with
    | some i => ∃ k, i = idx + k ∧ k < t.length ∧ col ≤ sum + inputCols cw (t.take k) ∧
        ∀ j < k, sum + inputCols cw (t.take j) < col
    | none => ∀ j < t.length, sum + inputCols cw (t.take j) < col := by
  intro t
  induction t with
  | nil => intro idx sum; simp [colToCharIdxLoop]
  | cons ch t ih =>
    intro idx sum
    simp only [colToCharIdxLoop]
    by_cases h : col ≤ sum
    · rw [if_pos h]
      exact ⟨0, rfl, by simp, by simp [inputCols]; omega, by intro j hj; omega⟩
    · rw [if_neg h]
      have := ih (idx + 1) (sum + inputCharWidth cw ch)
      have step : ∀ j, sum + inputCharWidth cw ch + inputCols cw (t.take j) = sum + inputCols cw ((ch :: t).take (j + 1)) := by
        intro j
        simp only [List.take_succ_cons, inputCols, List.map_cons, List.sum_cons, inputCharWidth]
        omega
      cases hr : colToCharIdxLoop cw col (idx + 1) (sum + inputCharWidth cw ch) t with
      | none =>
        rw [hr] at this
        simp only at this ⊢
        intro j hj
        cases j with
        | zero => simp [inputCols]; omega
        | succ j => rw [← step]; exact this j (by simp at hj; omega)
      | some i =>
        rw [hr] at this
        obtain ⟨k, h1, h2, h3, h4⟩ := this
        refine ⟨k + 1, by omega, by simp; omega, by rw [← step]; exact h3, ?_⟩
        intro j hj
        cases j with
        | zero => simp [inputCols]; omega
        | succ j => rw [← step]; exact h4 j (by omega)

theorem colToCharIdx_ok (cw : Char → Nat) (l : Text) (col x : Nat) (hx : (colToCharIdx cw l col).getD l.length = x) :
    x ≤ l.length ∧ (∀ j < x, inputCols cw (l.take j) < col) ∧ (x = l.length ∨ col ≤ inputCols cw (l.take x)) := by
  have := colLoop_ok cw col l 0 0
  rw [colToCharIdx] at hx
  cases hr : colToCharIdxLoop cw col 0 0 l with
  | none =>
    rw [hr] at this hx
    simp only [Option.getD_none] at hx
    subst hx
    simp only [Nat.zero_add] at this
    exact ⟨Nat.le_refl _, this, .inl rfl⟩
  | some i =>
    rw [hr] at this hx
    simp only [Option.getD_some] at hx
    obtain ⟨k, h1, h2, h3, h4⟩ := this
    simp only [Nat.zero_add] at h1 h3 h4
    subst h1 hx
    exact ⟨by omega, h4, .inr h3⟩

/-- What a vertical move does. -/
def VerticalMove (cw : Char → Nat) (c c' : Content) (y : Nat) : Prop :=
  c'.lines = c.lines ∧ c'.tail = c.tail ∧ c'.pos.y = y ∧
    ∃ l l', c.lines[c.pos.y]? = some l ∧ c.lines[y]? = some l' ∧
      (∀ j < c'.pos.x, inputCols cw (l'.take j) < inputCols cw (l.take c.pos.x)) ∧
      (c'.pos.x = l'.length ∨ inputCols cw (l.take c.pos.x) ≤ inputCols cw (l'.take c'.pos.x))

theorem moveLinesUp_ok (cw : Char → Nat) {c : Content} (h : c.Valid) (n : Nat) :
    ∃ c' r, c.moveLinesUp cw n = some (c', r) ∧ c'.Valid ∧
      ((c.pos.y = 0 ∧ c' = c ∧ r = false) ∨ (0 < c.pos.y ∧ VerticalMove cw c c' (c.pos.y - n) ∧ r = true)) := by
  obtain ⟨l, h1, h2⟩ := h.pos
  obtain ⟨hlt, _⟩ := List.getElem?_eq_some_iff.1 h1
  unfold moveLinesUp
  by_cases h0 : c.pos.y > 0
  · rw [if_pos h0, h1]
    have e : c.pos.y - min n c.pos.y = c.pos.y - n := by omega
    have hl : c.lines[c.pos.y - n]? = some (c.lines[c.pos.y - n]'(by omega)) := List.getElem?_eq_getElem _
    generalize c.lines[c.pos.y - n]'(by omega) = l' at hl
    simp only [Option.bind_eq_bind, Option.bind_some, charIdxToCol_eq cw l _ h2, e, hl]
    obtain ⟨k1, k2, k3⟩ := colToCharIdx_ok cw l' (inputCols cw (l.take c.pos.x)) _ rfl
    exact ⟨_, _, rfl, clean_lines h rfl rfl ⟨l', hl, k1⟩, .inr ⟨h0, ⟨rfl, rfl, rfl, l, l', h1, hl, k2, k3⟩, rfl⟩⟩
  · rw [if_neg h0]
    exact ⟨c, false, rfl, h, .inl ⟨by omega, rfl, rfl⟩⟩

theorem moveLinesDown_ok (cw : Char → Nat) {c : Content} (h : c.Valid) (n : Nat) :
    ∃ c' r, c.moveLinesDown cw n = some (c', r) ∧ c'.Valid ∧
      ((c.pos.y + 1 = c.lines.length ∧ c' = c ∧ r = false) ∨
        (c.pos.y + 1 < c.lines.length ∧ VerticalMove cw c c' (min (c.pos.y + n) (c.lines.length - 1)) ∧ r = true)) := by
  obtain ⟨l, h1, h2⟩ := h.pos
  obtain ⟨hlt, _⟩ := List.getElem?_eq_some_iff.1 h1
  unfold moveLinesDown
  by_cases h0 : c.pos.y + 1 < c.lines.length
  · rw [if_pos h0, h1]
    have e : c.pos.y + min n (c.lines.length - c.pos.y - 1) = min (c.pos.y + n) (c.lines.length - 1) := by omega
    have hl : c.lines[min (c.pos.y + n) (c.lines.length - 1)]? = some (c.lines[min (c.pos.y + n) (c.lines.length - 1)]'(by omega)) :=
      List.getElem?_eq_getElem _
    generalize c.lines[min (c.pos.y + n) (c.lines.length - 1)]'(by omega) = l' at hl
    simp only [Option.bind_eq_bind, Option.bind_some, charIdxToCol_eq cw l _ h2, e, hl]
    obtain ⟨k1, k2, k3⟩ := colToCharIdx_ok cw l' (inputCols cw (l.take c.pos.x)) _ rfl
    exact ⟨_, _, rfl, clean_lines h rfl rfl ⟨l', hl, k1⟩, .inr ⟨h0, ⟨rfl, rfl, rfl, l, l', h1, hl, k2, k3⟩, rfl⟩⟩
  · rw [if_neg h0]
    exact ⟨c, false, rfl, h, .inl ⟨by omega, rfl, rfl⟩⟩

/-! ### Words -/

theorem wordLeftLoop_ok (alnum : Char → Bool) (chars : Text) : ∀ x, 0 < x → x ≤ chars.length →
    ∃ x', wordLeftLoop alnum chars x = some x' ∧ x' < x ∧
      (∀ i, x' ≤ i → i + 1 < x → ∃ ch, chars[i]? = some ch ∧ alnum ch = true) ∧
      (x' = 0 ∨ ∃ ch, chars[x' - 1]? = some ch ∧ alnum ch = false) := by
  intro x
  induction x with
  | zero => intro h; omega
  | succ x ih =>
    intro _ hx
    simp only [wordLeftLoop]
    by_cases h0 : x = 0
    · rw [if_pos h0]
      exact ⟨0, rfl, by omega, by intro i _ hi; omega, .inl rfl⟩
    · rw [if_neg h0]
      have hg : chars[x - 1]? = some (chars[x - 1]'(by omega)) := List.getElem?_eq_getElem _
      generalize chars[x - 1]'(by omega) = ch at hg
      rw [hg]
      simp only [Option.bind_eq_bind, Option.bind_some]
      by_cases ha : alnum ch = true
      · rw [if_pos ha]
        obtain ⟨x', h1, h2, h3, h4⟩ := ih (by omega) (by omega)
        refine ⟨x', h1, by omega, ?_, h4⟩
        intro i hi hi2
        by_cases hi3 : i + 1 < x
        · exact h3 i hi hi3
        · have : i = x - 1 := by omega
          subst this
          exact ⟨ch, hg, ha⟩
      · rw [if_neg ha]
        exact ⟨x, rfl, by omega, by intro i hi hi2; omega, .inr ⟨ch, hg, by simpa using ha⟩⟩

theorem wordRightLoop_ok (alnum : Char → Bool) (chars : Text) : ∀ fuel x, x < chars.length → chars.length ≤ x + fuel →
    ∃ x', wordRightLoop alnum chars fuel x = some x' ∧ x < x' ∧ x' ≤ chars.length ∧
      (∀ i, x + 2 ≤ i → i ≤ x' → ∃ ch, chars[i]? = some ch ∧ alnum ch = true) ∧
      (chars.length ≤ x' + 1 ∨ ∃ ch, chars[x' + 1]? = some ch ∧ alnum ch = false) := by
  intro fuel
  induction fuel with
  | zero => intro x h1 h2; omega
  | succ fuel ih =>
    intro x hx hf
    simp only [wordRightLoop]
    by_cases h0 : x + 2 ≥ chars.length
    · rw [if_pos h0]
      exact ⟨x + 1, rfl, by omega, by omega, by intro i _ _; omega, .inl h0⟩
    · rw [if_neg h0]
      have hg : chars[x + 2]? = some (chars[x + 2]'(by omega)) := List.getElem?_eq_getElem _
      generalize chars[x + 2]'(by omega) = ch at hg
      rw [hg]
      simp only [Option.bind_eq_bind, Option.bind_some]
      by_cases ha : alnum ch = true
      · rw [if_pos ha]
        obtain ⟨x', h1, h2, h3, h4, h5⟩ := ih (x + 1) (by omega) (by omega)
        refine ⟨x', h1, by omega, h3, ?_, h5⟩
        intro i hi hi2
        by_cases hi3 : x + 1 + 2 ≤ i
        · exact h4 i hi3 hi2
        · have : i = x + 2 := by omega
          subst this
          exact ⟨ch, hg, ha⟩
      · rw [if_neg ha]
        exact ⟨x + 1, rfl, by omega, by omega, by intro i _ _; omega, .inr ⟨ch, hg, by simpa using ha⟩⟩

theorem delWordLeftLoop_ok (alnum : Char → Bool) : ∀ (x : Nat) (a b : Text), a.length = x → 0 < x →
    ∃ a1 w, a = a1 ++ w ∧ w ≠ [] ∧ delWordLeftLoop alnum x (a ++ b) = some (a1 ++ b, a1.length) ∧
      (∀ ch ∈ w.dropLast, alnum ch = true) ∧ (∀ t ch, a1 = t ++ [ch] → alnum ch = false) := by
  intro x
  induction x with
  | zero => intro a b _ h; omega
  | succ x ih =>
    intro a b hx _
    rcases concat_cases a with rfl | ⟨a0, ch, rfl⟩
    · simp at hx
    · have hx' : a0.length = x := by simpa using hx
      have e : a0 ++ [ch] ++ b = a0 ++ ch :: b := by simp
      simp only [delWordLeftLoop, e]
      rw [← hx', vecRemove_mid]
      simp only [Option.bind_eq_bind, Option.bind_some]
      rcases concat_cases a0 with rfl | ⟨t, y, rfl⟩
      · exact ⟨[], [ch], rfl, by simp, by simp, by simp, by simp⟩
      · rw [if_neg (by simp)]
        have hg : (t ++ [y] ++ b)[(t ++ [y]).length - 1]? = some y := by
          have e : t ++ [y] ++ b = t ++ y :: b := by simp
          have e' : (t ++ [y]).length - 1 = t.length := by simp
          rw [e, e', get_mid]
        rw [hg]
        simp only [Option.bind_some]
        by_cases ha : alnum y = true
        · rw [if_pos ha, hx']
          obtain ⟨a1, w, h1, h2, h3, h4, h5⟩ := ih (t ++ [y]) b hx' (by simp at hx'; omega)
          refine ⟨a1, w ++ [ch], by rw [h1]; simp, by simp, h3, ?_, h5⟩
          rw [List.dropLast_concat]
          intro z hz
          rcases concat_cases w with rfl | ⟨w0, z', rfl⟩
          · simp at hz
          · have : y = z' := by
              have h6 : t ++ [y] = (a1 ++ w0) ++ [z'] := by rw [h1]; simp
              have := (List.append_inj' h6 rfl).2
              simpa using this
            subst this
            rw [List.dropLast_concat] at h4
            simp only [List.mem_append, List.mem_singleton] at hz
            rcases hz with hz | rfl
            · exact h4 z hz
            · exact ha
        · rw [if_neg ha]
          refine ⟨t ++ [y], [ch], by simp, by simp, rfl, by simp, ?_⟩
          intro t' z hz
          have := (List.append_inj' hz rfl).2
          simp at this
          subst this
          simpa using ha

theorem delWordRightLoop_ok (alnum : Char → Bool) (a : Text) : ∀ (fuel : Nat) (b : Text), b ≠ [] → b.length ≤ fuel →
    ∃ w b', b = w ++ b' ∧ w ≠ [] ∧
      ((∃ u ch, w = u ++ [ch] ∧ (∀ z ∈ u, alnum z = true) ∧ alnum ch = false ∧
          delWordRightLoop alnum a.length fuel (a ++ b) = some (a ++ b', a.length)) ∨
        (b' = [] ∧ (∀ z ∈ w, alnum z = true) ∧ delWordRightLoop alnum a.length fuel (a ++ b) = some (a, a.length - 1))) := by
  intro fuel
  induction fuel with
  | zero => intro b hb hl; exact absurd (List.eq_nil_of_length_eq_zero (by omega)) hb
  | succ fuel ih =>
    intro b hb hl
    cases b with
    | nil => exact absurd rfl hb
    | cons ch b =>
      simp only [delWordRightLoop, get_mid, vecRemove_mid, Option.bind_eq_bind, Option.bind_some]
      by_cases ha : alnum ch = true
      · rw [if_pos ha]
        cases b with
        | nil =>
          refine ⟨[ch], [], rfl, by simp, .inr ⟨rfl, by simpa using ha, ?_⟩⟩
          simp
        | cons d b =>
          rw [if_neg (by simp)]
          obtain ⟨w, b', h1, h2, h3⟩ := ih (d :: b) (by simp) (by simp at hl ⊢; omega)
          refine ⟨ch :: w, b', by rw [h1]; rfl, by simp, ?_⟩
          rcases h3 with ⟨u, z, k1, k2, k3, k4⟩ | ⟨k1, k2, k3⟩
          · refine .inl ⟨ch :: u, z, by rw [k1]; rfl, ?_, k3, k4⟩
            intro y hy
            simp only [List.mem_cons] at hy
            rcases hy with rfl | hy
            · exact ha
            · exact k2 y hy
          · refine .inr ⟨k1, ?_, k3⟩
            intro y hy
            simp only [List.mem_cons] at hy
            rcases hy with rfl | hy
            · exact ha
            · exact k2 y hy
      · rw [if_neg ha]
        exact ⟨[ch], b, rfl, by simp, .inl ⟨[], ch, rfl, by simp, by simpa using ha, rfl⟩⟩

theorem wordStart_ok (alnum : Char → Bool) (chars : Text) : ∀ x, x ≤ chars.length →
    ∃ s, wordStart alnum chars x = some s ∧ s ≤ x ∧
      (∀ i, s ≤ i → i < x → ∃ ch, chars[i]? = some ch ∧ isWordChar alnum ch = true) ∧
      (s = 0 ∨ ∃ ch, chars[s - 1]? = some ch ∧ isWordChar alnum ch = false) := by
  intro x
  induction x with
  | zero => intro _; exact ⟨0, rfl, Nat.le_refl _, by intro i _ hi; omega, .inl rfl⟩
  | succ x ih =>
    intro hx
    have hg : chars[x]? = some (chars[x]'(by omega)) := List.getElem?_eq_getElem _
    generalize chars[x]'(by omega) = ch at hg
    simp only [wordStart, hg, Option.bind_eq_bind, Option.bind_some]
    by_cases ha : isWordChar alnum ch = true
    · rw [if_pos ha]
      obtain ⟨s, h1, h2, h3, h4⟩ := ih (by omega)
      refine ⟨s, h1, by omega, ?_, h4⟩
      intro i hi hi2
      by_cases hi3 : i < x
      · exact h3 i hi hi3
      · have : i = x := by omega
        subst this
        exact ⟨ch, hg, ha⟩
    · rw [if_neg ha]
      exact ⟨x + 1, rfl, Nat.le_refl _, by intro i hi hi2; omega, .inr ⟨ch, hg, by simpa using ha⟩⟩

theorem wordEnd_ok (alnum : Char → Bool) (chars : Text) : ∀ fuel x, x < chars.length → chars.length ≤ x + fuel →
    ∃ e, wordEnd alnum chars fuel x = some e ∧ x ≤ e ∧ e < chars.length ∧
      (∀ i, x < i → i ≤ e → ∃ ch, chars[i]? = some ch ∧ isWordChar alnum ch = true) ∧
      (e + 1 = chars.length ∨ ∃ ch, chars[e + 1]? = some ch ∧ isWordChar alnum ch = false) := by
  intro fuel
  induction fuel with
  | zero => intro x h1 h2; omega
  | succ fuel ih =>
    intro x hx hf
    simp only [wordEnd]
    by_cases h0 : x + 1 < chars.length
    · rw [if_pos h0]
      have hg : chars[x + 1]? = some (chars[x + 1]'(by omega)) := List.getElem?_eq_getElem _
      generalize chars[x + 1]'(by omega) = ch at hg
      rw [hg]
      simp only [Option.bind_eq_bind, Option.bind_some]
      by_cases ha : isWordChar alnum ch = true
      · rw [if_pos ha]
        obtain ⟨e, h1, h2, h3, h4, h5⟩ := ih (x + 1) h0 (by omega)
        refine ⟨e, h1, by omega, h3, ?_, h5⟩
        intro i hi hi2
        by_cases hi3 : x + 1 < i
        · exact h4 i hi3 hi2
        · have : i = x + 1 := by omega
          subst this
          exact ⟨ch, hg, ha⟩
      · rw [if_neg ha]
        exact ⟨x, rfl, Nat.le_refl _, hx, by intro i hi hi2; omega, .inr ⟨ch, hg, by simpa using ha⟩⟩
    · rw [if_neg h0]
      exact ⟨x, rfl, Nat.le_refl _, hx, by intro i hi hi2; omega, .inl (by omega)⟩

theorem moveWordLeft_ok (alnum : Char → Bool) {c : Content} (h : c.Valid) :
    ∃ c' r, c.moveWordLeft alnum = some (c', r) ∧ c'.Valid ∧ c'.lines = c.lines ∧ c'.tail = c.tail ∧ c'.pos.y = c.pos.y ∧
      ((c.pos.x = 0 ∧ c' = c ∧ r = false) ∨ (r = true ∧ ∃ l, c.lines[c.pos.y]? = some l ∧ c'.pos.x < c.pos.x ∧
        (∀ i, c'.pos.x ≤ i → i + 1 < c.pos.x → ∃ ch, l[i]? = some ch ∧ alnum ch = true) ∧
        (c'.pos.x = 0 ∨ ∃ ch, l[c'.pos.x - 1]? = some ch ∧ alnum ch = false))) := by
  obtain ⟨l, h1, h2⟩ := h.pos
  unfold moveWordLeft
  by_cases h0 : c.pos.x > 0
  · rw [if_pos h0, h1]
    obtain ⟨x', k1, k2, k3, k4⟩ := wordLeftLoop_ok alnum l c.pos.x h0 h2
    simp only [Option.bind_eq_bind, Option.bind_some, k1]
    exact ⟨_, _, rfl, clean_lines h rfl rfl ⟨l, h1, Nat.le_trans (Nat.le_of_lt k2) h2⟩, rfl, rfl, rfl, .inr ⟨rfl, l, rfl, k2, k3, k4⟩⟩
  · rw [if_neg h0]
    exact ⟨c, false, rfl, h, rfl, rfl, rfl, .inl ⟨by omega, rfl, rfl⟩⟩

theorem moveWordRight_ok (alnum : Char → Bool) {c : Content} (h : c.Valid) :
    ∃ c' r, c.moveWordRight alnum = some (c', r) ∧ c'.Valid ∧ c'.lines = c.lines ∧ c'.tail = c.tail ∧ c'.pos.y = c.pos.y ∧
      ∃ l, c.lines[c.pos.y]? = some l ∧ ((c.pos.x = l.length ∧ c' = c ∧ r = false) ∨ (r = true ∧ c.pos.x < c'.pos.x ∧
        c'.pos.x ≤ l.length ∧
        (∀ i, c.pos.x + 2 ≤ i → i ≤ c'.pos.x → ∃ ch, l[i]? = some ch ∧ alnum ch = true) ∧
        (l.length ≤ c'.pos.x + 1 ∨ ∃ ch, l[c'.pos.x + 1]? = some ch ∧ alnum ch = false))) := by
  obtain ⟨l, h1, h2⟩ := h.pos
  unfold moveWordRight
  rw [h1]
  simp only [Option.bind_eq_bind, Option.bind_some]
  by_cases h0 : c.pos.x < l.length
  · rw [if_pos h0]
    obtain ⟨x', k1, k2, k3, k4, k5⟩ := wordRightLoop_ok alnum l (l.length + 1) c.pos.x h0 (by omega)
    simp only [Option.bind_some, k1]
    exact ⟨_, _, rfl, clean_lines h rfl rfl ⟨l, h1, k3⟩, rfl, rfl, rfl, l, rfl, .inr ⟨rfl, k2, k3, k4, k5⟩⟩
  · rw [if_neg h0]
    exact ⟨c, false, rfl, h, rfl, rfl, rfl, l, rfl, .inl ⟨by omega, rfl, rfl⟩⟩

theorem delWordLeft_ok (alnum : Char → Bool) {c : Content} (h : c.Valid) :
    ∃ c' r, c.delWordLeft alnum = some (c', r) ∧ c'.Valid ∧
      ((c.pos.x = 0 ∧ c' = c ∧ r = false) ∨
        (r = true ∧ c'.pos.y = c.pos.y ∧ c'.after = c.after ∧ ∃ w, c.before = c'.before ++ w ∧ w ≠ [] ∧ '\n' ∉ w ∧
          (∀ ch ∈ w.dropLast, alnum ch = true) ∧
          (c'.pos.x = 0 ∨ ∀ t ch, c'.before = t ++ [ch] → alnum ch = false))) := by
  obtain ⟨A, a, b, B, h1, h2, h3, h4, hA, ha, hb, hB⟩ := h.split
  unfold delWordLeft
  by_cases h0 : c.pos.x > 0
  · rw [if_pos h0]
    rw [h2] at h0
    obtain ⟨a1, w, k1, k2, k3, k4, k5⟩ := delWordLeftLoop_ok alnum a.length a b rfl h0
    have hl : c.lines[c.pos.y]? = some (a ++ b) := by rw [h1, h2]; simp
    have hs : vecSet c.lines c.pos.y (a1 ++ b) = some (A ++ (a1 ++ b) :: B) := by rw [h1, h2]; exact vecSet_mid _ _ _ _
    obtain ⟨c', m1, m2, m3, m4, m5, m6⟩ := fixed_ok (c := { c with lines := A ++ (a1 ++ b) :: B, pos := ⟨A.length, a1.length⟩ })
      rfl rfl hA (fun z hz => ha z (by rw [k1]; simp [hz])) hb hB
    have hp : ({ c.pos with x := a1.length } : Pos) = ⟨A.length, a1.length⟩ := by rw [h2]
    have hx : c.pos.x = a.length := by rw [h2]
    simp only [hl, Option.bind_eq_bind, Option.bind_some, hx, k3, hs, hp, m1]
    refine ⟨c', true, rfl, m2, .inr ⟨rfl, by rw [m4, h2], by rw [h4, m6], w, by rw [h3, m5, k1]; simp, k2, ?_, k4, ?_⟩⟩
    · intro hn
      exact ha '\n' (by rw [k1]; simp [hn]) (.inl rfl)
    · rcases concat_cases a1 with rfl | ⟨t, z, rfl⟩
      · left; rw [m4]; rfl
      · right
        intro t' ch ht'
        rw [m5, ← List.append_assoc] at ht'
        have := (List.append_inj' ht' rfl).2
        simp at this
        subst this
        exact k5 t z rfl
  · rw [if_neg h0]
    exact ⟨c, false, rfl, h, .inl ⟨by omega, rfl, rfl⟩⟩

theorem delWordRight_ok (alnum : Char → Bool) {c : Content} (h : c.Valid) :
    ∃ c' r, c.delWordRight alnum = some (c', r) ∧ c'.Valid ∧ c'.pos.y = c.pos.y ∧
      ((r = false ∧ c' = c ∧ c.pos.x = 0) ∨
        (∃ w, r = true ∧ w ≠ [] ∧ '\n' ∉ w ∧ c.after = w ++ c'.after ∧ c'.before = c.before ∧
          ∃ u ch, w = u ++ [ch] ∧ (∀ z ∈ u, alnum z = true) ∧ alnum ch = false) ∨
        (∃ w, r = true ∧ '\n' ∉ w ∧ (∀ z ∈ w, alnum z = true) ∧ (w = [] → 0 < c.pos.x) ∧
          (∃ rest, c.after = w ++ rest ∧ (rest = [] ∨ ∃ t, rest = '\n' :: t) ∧
            c'.before ++ c'.after = c.before ++ rest) ∧ c'.pos.x = c.pos.x - 1)) := by
  obtain ⟨A, a, b, B, h1, h2, h3, h4, hA, ha, hb, hB⟩ := h.split
  have hl : c.lines[c.pos.y]? = some (a ++ b) := by rw [h1, h2]; simp
  have hx : c.pos.x = a.length := by rw [h2]
  have hR : linesR B = [] ∨ ∃ t, linesR B = '\n' :: t := by
    cases B with
    | nil => left; rfl
    | cons m B => right; exact ⟨_, rfl⟩
  unfold delWordRight
  rw [hl]
  simp only [Option.bind_eq_bind, Option.bind_some]
  cases b with
  | nil =>
    rw [if_neg (by rw [hx]; simp)]
    by_cases h0 : c.pos.x > 0
    · rw [if_pos ⟨by rw [hx]; simp, h0⟩]
      have hv : ValidPos c.lines { c.pos with x := c.pos.x - 1 } := ⟨a ++ [], hl, by simp only [hx]; simp⟩
      refine ⟨_, _, rfl, clean_lines h rfl rfl hv, rfl, .inr (.inr ⟨[], rfl, by simp, by simp, fun _ => h0, ?_, rfl⟩)⟩
      refine ⟨c.after, rfl, by rw [h4]; exact hR, ?_⟩
      have e1 := text_split hv
      have e2 := text_split h.pos
      show textBefore c.lines _ ++ textAfter c.lines _ = textBefore c.lines _ ++ textAfter c.lines _
      rw [e1, e2]
    · rw [if_neg (by omega)]
      exact ⟨c, false, rfl, h, rfl, .inl ⟨rfl, rfl, by omega⟩⟩
  | cons d b =>
    rw [if_pos (by rw [hx]; simp)]
    obtain ⟨w, b', k1, k2, k3⟩ := delWordRightLoop_ok alnum a ((a ++ d :: b).length + 1) (d :: b) (by simp) (by simp; omega)
    have hwn : '\n' ∉ w := by
      intro hn
      exact hb '\n' (by rw [k1]; simp [hn]) (.inl rfl)
    rcases k3 with ⟨u, ch, q1, q2, q3, q4⟩ | ⟨q1, q2, q3⟩
    · obtain ⟨c', m1, m2, m3, m4, m5, m6⟩ := fixed_ok (c := { c with lines := A ++ (a ++ b') :: B, pos := ⟨A.length, a.length⟩ })
        rfl rfl hA ha (fun z hz => hb z (by rw [k1]; simp [hz])) hB
      have hs : vecSet c.lines c.pos.y (a ++ b') = some (A ++ (a ++ b') :: B) := by rw [h1, h2]; exact vecSet_mid _ _ _ _
      have hp : ({ c.pos with x := a.length } : Pos) = ⟨A.length, a.length⟩ := by rw [h2]
      simp only [hx, q4, Option.bind_some, hs, hp, m1]
      refine ⟨c', true, rfl, m2, by rw [m4, h2], .inr (.inl ⟨w, rfl, k2, hwn, by rw [h4, m6, k1]; simp, by rw [h3, m5], u, ch, q1, q2, q3⟩)⟩
    · subst q1
      rw [List.append_nil] at k1
      have e0 : a = a.take (a.length - 1) ++ a.drop (a.length - 1) := (List.take_append_drop _ _).symm
      have hs : vecSet c.lines c.pos.y a = some (A ++ a :: B) := by rw [h1, h2]; exact vecSet_mid _ _ _ _
      obtain ⟨c', m1, m2, m3, m4, m5, m6⟩ := fixed_ok (c := { c with lines := A ++ a :: B, pos := ⟨A.length, a.length - 1⟩ })
        (a := a.take (a.length - 1)) (b := a.drop (a.length - 1)) (by rw [← e0])
        (by rw [List.length_take, Nat.min_eq_left (Nat.sub_le _ _)]) hA
        (fun z hz => ha z (List.mem_of_mem_take hz)) (fun z hz => ha z (List.mem_of_mem_drop hz)) hB
      have hp : ({ c.pos with x := a.length - 1 } : Pos) = ⟨A.length, a.length - 1⟩ := by rw [h2]
      simp only [hx, q3, Option.bind_some, hs, hp, m1]
      refine ⟨c', true, rfl, m2, by rw [m4, h2], .inr (.inr ⟨w, rfl, hwn, q2, fun h0 => absurd h0 k2, ⟨linesR B, by rw [h4, k1], hR, ?_⟩, by rw [m4]⟩)⟩
      rw [m5, m6, h3]
      have : linesL A ++ a.take (a.length - 1) ++ (a.drop (a.length - 1) ++ linesR B) =
          linesL A ++ (a.take (a.length - 1) ++ a.drop (a.length - 1)) ++ linesR B := by simp only [List.append_assoc]
      rw [this, ← e0]

theorem selectWordAround_ok (alnum : Char → Bool) {c : Content} (h : c.Valid) :
    ∃ c' r l, c.selectWordAround alnum = some (c', r) ∧ c'.Valid ∧ c'.lines = c.lines ∧ c.lines[c.pos.y]? = some l ∧
      ((r = false ∧ c' = c ∧ ∀ ch, l[c.pos.x]? = some ch → isWordChar alnum ch = false) ∨
        (r = true ∧ ∃ start stop, c'.tail = some ⟨c.pos.y, start⟩ ∧ c'.pos = ⟨c.pos.y, stop⟩ ∧ start ≤ c.pos.x ∧ c.pos.x ≤ stop ∧
          (∀ i, start ≤ i → i ≤ stop → ∃ ch, l[i]? = some ch ∧ isWordChar alnum ch = true) ∧
          (start = 0 ∨ ∃ ch, l[start - 1]? = some ch ∧ isWordChar alnum ch = false) ∧
          (stop + 1 = l.length ∨ ∃ ch, l[stop + 1]? = some ch ∧ isWordChar alnum ch = false))) := by
  obtain ⟨l, h1, h2⟩ := h.pos
  unfold selectWordAround
  rw [h1]
  simp only [Option.bind_eq_bind, Option.bind_some]
  by_cases h0 : c.pos.x ≥ l.length
  · rw [if_pos h0]
    refine ⟨c, false, l, rfl, h, rfl, rfl, .inl ⟨rfl, rfl, ?_⟩⟩
    intro ch hch
    have := (List.getElem?_eq_some_iff.1 hch).1
    omega
  · rw [if_neg h0]
    have hg : l[c.pos.x]? = some (l[c.pos.x]'(by omega)) := List.getElem?_eq_getElem _
    generalize l[c.pos.x]'(by omega) = ch at hg
    rw [hg]
    simp only [Option.bind_some]
    by_cases hw : isWordChar alnum ch = true
    · rw [if_pos hw]
      obtain ⟨s, s1, s2, s3, s4⟩ := wordStart_ok alnum l c.pos.x h2
      obtain ⟨e, e1, e2, e3, e4, e5⟩ := wordEnd_ok alnum l (l.length + 1) c.pos.x (by omega) (by omega)
      simp only [s1, e1, Option.bind_some]
      refine ⟨_, _, l, rfl, ?_, rfl, rfl, .inr ⟨rfl, s, e, rfl, rfl, s2, e2, ?_, s4, e5⟩⟩
      · refine Valid.mk' rfl rfl ⟨l, h1, Nat.le_of_lt e3⟩ ?_ h.clean
        intro t ht
        cases ht
        exact ⟨l, h1, Nat.le_trans s2 h2⟩
      · intro i hi hi2
        by_cases ha : i < c.pos.x
        · exact s3 i hi ha
        · by_cases hb : i = c.pos.x
          · subst hb; exact ⟨ch, hg, hw⟩
          · exact e4 i (by omega) hi2
    · rw [if_neg hw]
      refine ⟨c, false, l, rfl, h, rfl, rfl, .inl ⟨rfl, rfl, ?_⟩⟩
      intro ch' hch
      rw [hg] at hch
      cases hch
      simpa using hw

/-! ### Iteration on characters -/

theorem blt_true {p q : Pos} : p.blt q = true ↔ p.y < q.y ∨ (p.y = q.y ∧ p.x < q.x) := by
  simp [Pos.blt]

theorem blt_false {p q : Pos} : p.blt q = false ↔ q.y < p.y ∨ (p.y = q.y ∧ q.x ≤ p.x) := by
  rw [← Bool.not_eq_true, blt_true]
  omega

theorem pos_eq {p q : Pos} (hy : p.y = q.y) (hx : p.x = q.x) : p = q := by
  cases p; cases q; simp_all

theorem charsNext_ok {c : Content} {stop p : Pos} (hs : ValidPos c.lines stop) (hp : ValidPos c.lines p)
    (hle : stop.blt p = false) :
    (c.charsNext stop p = some none ∧ textAfter c.lines p = [] ∧ p = stop) ∨
    (∃ ch p', c.charsNext stop p = some (some (ch, p')) ∧ ValidPos c.lines p' ∧ textBefore c.lines p' = textBefore c.lines p ++ [ch] ∧
      textAfter c.lines p = ch :: textAfter c.lines p' ∧ (stop.blt p' = true → p = stop)) := by
  obtain ⟨A, a, b, B, h1, h2⟩ := hp.split
  obtain ⟨sl, s1, s2⟩ := hs
  have hsy := (List.getElem?_eq_some_iff.1 s1).1
  have hl : c.lines[p.y]? = some (a ++ b) := by rw [h1, h2]; simp
  have hB : textBefore c.lines p = linesL A ++ a := by rw [h1, h2, textBefore_mid]
  have hAft : textAfter c.lines p = b ++ linesR B := by rw [h1, h2, textAfter_mid]
  unfold charsNext
  rw [hle, hl]
  simp only [Option.bind_eq_bind, Option.bind_some, Bool.false_eq_true, if_false]
  cases b with
  | cons ch b =>
    have hx : (a ++ ch :: b)[p.x]? = some ch := by rw [h2]; simp
    rw [hx]
    right
    have e1 : c.lines = A ++ ((a ++ [ch]) ++ b) :: B := by rw [h1]; simp
    have e2 : ({ p with x := p.x + 1 } : Pos) = ⟨A.length, (a ++ [ch]).length⟩ := by rw [h2]; simp
    refine ⟨ch, _, rfl, ?_, ?_, ?_, ?_⟩
    · rw [e2, e1]; exact validPos_mid _ _ _ _
    · rw [hB, e2, e1, textBefore_mid]; simp
    · rw [hAft, e2, e1, textAfter_mid]; rfl
    · intro hlt
      rw [blt_true] at hlt
      rw [blt_false] at hle
      simp only at hlt
      exact pos_eq (by omega) (by omega)
  | nil =>
    have hx : (a ++ [])[p.x]? = none := by rw [h2]; simp
    rw [hx]
    simp only
    simp only [List.append_nil] at h1 hl
    cases B with
    | nil =>
      rw [if_neg (by rw [h1, h2]; simp)]
      left
      refine ⟨rfl, by rw [hAft]; rfl, ?_⟩
      have hlen : c.lines.length = A.length + 1 := by rw [h1]; simp
      have hsl : stop.y = A.length → sl = a := by
        intro h0
        rw [h0, h1, get_mid] at s1
        exact (Option.some.inj s1).symm
      rw [blt_false] at hle
      rw [h2] at hle ⊢
      simp only at hle
      have hy : stop.y = A.length := by omega
      have := hsl hy
      subst this
      exact pos_eq hy.symm (by simp only; omega)
    | cons m B =>
      rw [if_pos (by rw [h1, h2]; simp)]
      right
      have e1 : c.lines = (A ++ [a]) ++ ([] ++ m) :: B := by rw [h1]; simp
      have e2 : (⟨p.y + 1, 0⟩ : Pos) = ⟨(A ++ [a]).length, ([] : Text).length⟩ := by rw [h2]; simp
      refine ⟨'\n', _, rfl, ?_, ?_, ?_, ?_⟩
      · rw [e2, e1]; exact validPos_mid _ _ _ _
      · rw [hB, e2, e1, textBefore_mid]; simp [linesL]
      · rw [hAft, e2, e1, textAfter_mid]; simp [linesR]
      · intro hlt
        have hsl : stop.y = A.length → sl = a := by
          intro h0
          rw [h0, h1, get_mid] at s1
          exact (Option.some.inj s1).symm
        rw [blt_false] at hle
        rw [blt_true] at hlt
        rw [h2] at hle hlt ⊢
        simp only at hle hlt
        have hy : stop.y = A.length := by omega
        have := hsl hy
        subst this
        exact pos_eq hy.symm (by simp only; omega)

theorem charsCollect_ok {c : Content} {stop : Pos} (hs : ValidPos c.lines stop) : ∀ (fuel : Nat) (p : Pos),
    ValidPos c.lines p → stop.blt p = false → (textAfter c.lines p).length < fuel →
    ∃ out, c.charsCollect stop fuel p = some out ∧
      textBefore c.lines p ++ out = textBefore c.lines stop ++ (textAfter c.lines stop).take 1 := by
  intro fuel
  induction fuel with
  | zero => intro p _ _ h; omega
  | succ fuel ih =>
    intro p hp hle hf
    rcases charsNext_ok hs hp hle with ⟨h1, h2, h3⟩ | ⟨ch, p', h1, h2, h3, h4, h5⟩
    · subst h3
      exact ⟨[], by simp [charsCollect, h1], by simp [h2]⟩
    · by_cases hb : stop.blt p' = true
      · have := h5 hb
        subst this
        have hstop : c.charsCollect p fuel p' = some [] := by
          cases fuel with
          | zero => rw [h4] at hf; simp at hf
          | succ n => simp [charsCollect, charsNext, hb]
        exact ⟨[ch], by simp [charsCollect, h1, hstop], by rw [h4]; simp⟩
      · obtain ⟨out, k1, k2⟩ := ih p' h2 (by simpa using hb) (by rw [h4] at hf; simp at hf; omega)
        refine ⟨ch :: out, by simp [charsCollect, h1, k1], ?_⟩
        rw [← k2, h3]
        simp

theorem linesR_length (B : List Text) : (linesR B).length = (B.map (fun l => l.length + 1)).sum := by
  induction B with
  | nil => rfl
  | cons b B ih =>
    have : linesR (b :: B) = '\n' :: b ++ linesR B := by simp [linesR]
    rw [this]
    simp only [List.length_append, List.length_cons, ih, List.map_cons, List.sum_cons]

theorem after_lt_size {c : Content} {p : Pos} (hp : ValidPos c.lines p) : (textAfter c.lines p).length < c.size := by
  have h := congrArg List.length (text_split hp)
  rw [List.length_append] at h
  have : (joinLines c.lines).length + 1 ≤ c.size := by
    unfold size
    cases c.lines with
    | nil => simp [joinLines_nil]
    | cons l ls =>
      rw [joinLines_cons, List.length_append, linesR_length]
      simp only [List.map_cons, List.sum_cons]
      omega
  omega

theorem blt_irrefl (p : Pos) : p.blt p = false := by simp [Pos.blt]

theorem blt_asymm {p q : Pos} (h : p.blt q = true) : q.blt p = false := by
  cases p; cases q
  simp [Pos.blt] at *
  omega

theorem selection_valid {c : Content} (h : c.Valid) :
    ValidPos c.lines c.selection.min ∧ ValidPos c.lines c.selection.max ∧ c.selection.max.blt c.selection.min = false := by
  unfold selection
  cases ht : c.tail with
  | none => exact ⟨h.pos, h.pos, blt_irrefl _⟩
  | some t =>
    have hv := h.tail t ht
    simp only
    by_cases hb : t.blt c.pos = true
    · rw [if_pos hb]; exact ⟨hv, h.pos, blt_asymm hb⟩
    · rw [if_neg hb]; exact ⟨h.pos, hv, by simpa using hb⟩

theorem selectionString_ok {c : Content} (h : c.Valid) :
    ∃ s, c.selectionString = some s ∧
      textBefore c.lines c.selection.min ++ s =
        textBefore c.lines c.selection.max ++ (textAfter c.lines c.selection.max).take 1 := by
  obtain ⟨h1, h2, h3⟩ := selection_valid h
  exact charsCollect_ok h2 _ _ h1 h3 (after_lt_size h1)

theorem start_valid {c : Content} (h : c.lines ≠ []) : ValidPos c.lines ⟨0, 0⟩ := by
  obtain ⟨l, ls, hl⟩ := List.exists_cons_of_ne_nil h
  rw [hl]
  exact validPos_at [] l ls 0 (by simp)

theorem start_after {c : Content} (h : c.lines ≠ []) : textAfter c.lines ⟨0, 0⟩ = joinLines c.lines := by
  have := text_split (start_valid h)
  simpa [textBefore, joinLines_one] using this

theorem not_end_blt {c : Content} {e p : Pos} (he : textAfter c.lines e = []) (hy : e.y + 1 = c.lines.length)
    (hve : ValidPos c.lines e) (hp : ValidPos c.lines p) : e.blt p = false := by
  obtain ⟨A, a, b, B, h1, h2⟩ := hve.split
  rw [h1, h2, textAfter_mid] at he
  obtain ⟨rfl, hB⟩ := List.append_eq_nil_iff.1 he
  obtain ⟨l, k1, k2⟩ := hp
  have hlt := (List.getElem?_eq_some_iff.1 k1).1
  rw [h2] at hy ⊢
  simp only at hy
  rw [blt_false]
  simp only
  by_cases h0 : p.y = A.length
  · right
    rw [h0, h1, get_mid] at k1
    cases k1
    exact ⟨h0.symm, by simpa using k2⟩
  · left; omega

theorem chars_ok {c : Content} (h : c.lines ≠ []) : c.chars = some (joinLines c.lines) := by
  obtain ⟨e, h1, h2, h3, h4⟩ := endPos_ok h
  obtain ⟨out, k1, k2⟩ := charsCollect_ok h2 c.size ⟨0, 0⟩ (start_valid h) (not_end_blt h3 h4 h2 (start_valid h))
    (after_lt_size (start_valid h))
  have : out = joinLines c.lines := by
    have h5 := text_split h2
    rw [h3, List.append_nil] at h5
    rw [h3, List.take_nil, List.append_nil, h5] at k2
    simpa [textBefore, joinLines_one] using k2
  rw [chars, h1]
  simp [k1, this]

theorem isStrLoop_ok {c : Content} {e : Pos} (he : textAfter c.lines e = []) (hy : e.y + 1 = c.lines.length)
    (hve : ValidPos c.lines e) : ∀ (s : Text) (p : Pos), ValidPos c.lines p →
    c.isStrLoop e p s = some (decide (textAfter c.lines p = s)) := by
  intro s
  induction s with
  | nil =>
    intro p hp
    rcases charsNext_ok hve hp (not_end_blt he hy hve hp) with ⟨h1, h2, h3⟩ | ⟨ch, p', h1, h2, h3, h4, h5⟩
    · simp [isStrLoop, h1, h2]
    · simp [isStrLoop, h1, h4]
  | cons b s ih =>
    intro p hp
    rcases charsNext_ok hve hp (not_end_blt he hy hve hp) with ⟨h1, h2, h3⟩ | ⟨ch, p', h1, h2, h3, h4, h5⟩
    · simp [isStrLoop, h1, h2]
    · simp only [isStrLoop, h1, h4, Option.bind_eq_bind, Option.bind_some, List.cons.injEq]
      by_cases hb : ch = b
      · rw [if_pos hb, ih p' h2]
        simp [hb]
      · rw [if_neg hb]
        simp [hb]

theorem isStr_ok {c : Content} (h : c.lines ≠ []) (s : Text) : c.isStr s = some (decide (joinLines c.lines = s)) := by
  obtain ⟨e, h1, h2, h3, h4⟩ := endPos_ok h
  rw [isStr, h1]
  simp only [Option.bind_eq_bind, Option.bind_some]
  rw [isStrLoop_ok h3 h4 h2 s _ (start_valid h), start_after h]

theorem default_valid : ({} : Content).Valid :=
  ⟨by simp, ⟨[], rfl, by simp⟩, by simp, by simp⟩

theorem kept_of_clean {c : Content} (h : c.Valid) : keptText (joinLines c.lines) = joinLines c.lines := by
  have hR : ∀ B : List Text, (∀ l ∈ B, ∀ ch ∈ l, ¬ NotStored ch) → ∀ ch ∈ linesR B, ch ≠ '\r' ∧ ch ≠ '\x08' := by
    intro B hB ch hch
    simp only [linesR, List.mem_flatMap, List.mem_cons] at hch
    obtain ⟨l, hl, h | h⟩ := hch
    · subst h; decide
    · have := hB l hl ch h
      simp only [NotStored, not_or] at this
      exact this.2
  rw [keptText, List.filter_eq_self]
  intro ch hch
  have := hR c.lines h.clean ch
  have hmem : ch ∈ linesR c.lines := by
    cases hl : c.lines with
    | nil => rw [hl] at hch; simp [joinLines_nil] at hch
    | cons l ls =>
      rw [hl, joinLines_cons] at hch
      have : linesR (l :: ls) = '\n' :: (l ++ linesR ls) := by simp [linesR]
      rw [this]
      simp [hch]
  simpa using this hmem

theorem setStr_ok {c : Content} (h : c.Valid) (s : Text) :
    ∃ c', c.setStr s = some c' ∧ c'.Valid ∧ joinLines c'.lines = keptText s ∧
      (joinLines c.lines = s → c' = c) ∧ (joinLines c.lines ≠ s → c'.after = [] ∧ c'.tail = none) := by
  unfold setStr
  rw [isStr_ok h.oneLine]
  simp only [Option.bind_eq_bind, Option.bind_some]
  by_cases hs : joinLines c.lines = s
  · subst hs
    simp only [decide_true, if_true]
    exact ⟨c, rfl, h, (kept_of_clean h).symm, fun _ => rfl, fun h => absurd rfl h⟩
  · rw [if_neg (by simpa using hs)]
    obtain ⟨c', h1, h2, h3, h4⟩ := insertStr_ok s default_valid
    have ha : ({} : Content).after = [] := by decide
    have hb : ({} : Content).before = [] := by decide
    refine ⟨c', h1, h2, ?_, fun h => absurd h hs, fun _ => ⟨by rw [h4, ha], ?_⟩⟩
    · have := text_split h2.pos
      rw [← this]
      show c'.before ++ c'.after = _
      rw [h3, h4, ha, hb]; simp
    · have key : ∀ (s : Text) (c : Content) (c' : Content), c.tail = none → c.insertStr s = some c' → c'.tail = none := by
        intro s
        induction s with
        | nil => intro c c' ht h; cases h; exact ht
        | cons ch s ih =>
          intro c c' ht h
          simp only [insertStr, Option.bind_eq_bind] at h
          cases h1 : c.insertChar ch with
          | none => rw [h1] at h; simp at h
          | some d =>
            rw [h1] at h
            refine ih d c' ?_ h
            unfold insertChar at h1
            split at h1
            · simp only [insertNewLine, Option.bind_eq_bind] at h1
              cases k1 : c.lines[c.pos.y]? with
              | none => rw [k1] at h1; simp at h1
              | some l =>
                rw [k1] at h1
                simp only [Option.bind_some] at h1
                cases k2 : vecSplitOff l c.pos.x with
                | none => rw [k2] at h1; simp at h1
                | some q =>
                  rw [k2] at h1
                  simp only [Option.bind_some] at h1
                  cases k3 : vecSet c.lines c.pos.y q.1 with
                  | none => rw [k3] at h1; simp at h1
                  | some ls =>
                    rw [k3] at h1
                    simp only [Option.bind_some] at h1
                    cases k4 : vecInsert ls (c.pos.y + 1) q.2 with
                    | none => rw [k4] at h1; simp at h1
                    | some ls2 =>
                      rw [k4] at h1
                      simp only [Option.bind_some, fixSelection, fixSelectionTail, ht, Option.bind_eq_bind] at h1
                      cases k5 : ({ c with lines := ls2, pos := ⟨c.pos.y + 1, 0⟩, tail := none } : Content).makeValidPos ⟨c.pos.y + 1, 0⟩ with
                      | none => rw [k5] at h1; simp at h1
                      | some q => rw [k5] at h1; simp only [Option.bind_some, Option.some.injEq] at h1; rw [← h1]
            · split at h1
              · cases h1; exact ht
              · simp only [Option.bind_eq_bind] at h1
                cases k1 : c.lines[c.pos.y]? with
                | none => rw [k1] at h1; simp at h1
                | some l =>
                  rw [k1] at h1
                  simp only [Option.bind_some] at h1
                  cases k2 : vecInsert l c.pos.x ch with
                  | none => rw [k2] at h1; simp at h1
                  | some q =>
                    rw [k2] at h1
                    simp only [Option.bind_some] at h1
                    cases k3 : vecSet c.lines c.pos.y q with
                    | none => rw [k3] at h1; simp at h1
                    | some ls => rw [k3] at h1; simp only [Option.bind_some, Option.some.injEq] at h1; rw [← h1]; exact ht
      exact key s {} c' rfl h1

end Content
end Verif

import Verif.Spec.SelectEditor
import Verif.Lemmas.Editor
/-! Lemmas on the reference editor with selection. -/
namespace Verif
open Spec Content

theorem textLines_ne : ∀ t : Text, textLines t ≠ []
  | [] => by simp [textLines]
  | c :: t => by
    unfold textLines
    split
    · simp
    · split <;> simp

theorem textLines_append : ∀ (a r : Text) {l : Text} {ls : List Text}, '\n' ∉ a → textLines r = l :: ls → textLines (a ++ r) = (a ++ l) :: ls
  | [], r, l, ls, _, h => by simpa using h
  | c :: a, r, l, ls, ha, h => by
    have h1 : c ≠ '\n' := fun e => ha (by simp [e])
    have h2 : '\n' ∉ a := fun e => ha (by simp [e])
    rw [List.cons_append, textLines, if_neg h1, textLines_append a r h2 h]
    rfl

theorem textLines_linesR : ∀ (B : List Text) (l : Text), CleanLines (l :: B) → textLines (l ++ linesR B) = l :: B
  | [], l, h => by
    have := textLines_append l [] (h l (by simp)) (l := []) (ls := []) rfl
    simpa [linesR] using this
  | m :: B, l, h => by
    have ih := textLines_linesR B m (fun x hx => h x (by simp [hx]))
    have := textLines_append l ('\n' :: (m ++ linesR B)) (h l (by simp)) (l := []) (ls := m :: B) (by rw [textLines, if_pos rfl, ih])
    simpa [linesR] using this

theorem textLines_join {ls : List Text} (h : ls ≠ []) (hc : CleanLines ls) : textLines (joinLines ls) = ls := by
  cases ls with
  | nil => exact absurd rfl h
  | cons l B => rw [joinLines_cons, textLines_linesR B l hc]

theorem linesL_length (A : List Text) : (linesL A).length = (A.map fun l => l.length + 1).sum := by
  simp [linesL, List.length_flatMap]

theorem linesL_count : ∀ {A : List Text}, CleanLines A → (linesL A).count '\n' = A.length
  | [], _ => rfl
  | l :: A, h => by
    have e : linesL (l :: A) = l ++ '\n' :: linesL A := by simp [linesL]
    have := linesL_count (A := A) (fun x hx => h x (by simp [hx]))
    rw [e, List.count_append, List.count_cons, this, List.count_eq_zero.2 (h l (by simp))]
    simp

/-- A valid position is at the length of the text before it. -/
theorem indexIn_eq {ls : List Text} (hc : CleanLines ls) {p : Pos} (hp : ValidPos ls p) : indexIn (joinLines ls) p = (textBefore ls p).length := by
  obtain ⟨A, a, b, B, rfl, rfl⟩ := hp.split
  rw [textBefore_mid, indexIn, textLines_join (by simp) hc]
  simp [linesL_length]

theorem Content.Valid.cleanLines {c : Content} (h : c.Valid) : CleanLines c.lines := fun l hl hm => h.clean l hl _ hm (.inl rfl)

theorem Content.Valid.join {c : Content} (h : c.Valid) : c.before ++ c.after = joinLines c.lines := text_split h.pos

theorem Content.Valid.textLines {c : Content} (h : c.Valid) : textLines (c.before ++ c.after) = c.lines := by
  rw [h.join, textLines_join h.oneLine h.cleanLines]

theorem nearest_valid {t : Text} {p : Pos} (h : ValidPos (textLines t) p) : nearest t p = p := by
  obtain ⟨l, h1, h2⟩ := h
  rw [nearest, h1]
  obtain ⟨y, x⟩ := p
  simp only [Pos.mk.injEq, true_and]
  exact Nat.min_eq_left h2

theorem makeValidPos_nearest {c : Content} (h : c.lines ≠ []) (hc : CleanLines c.lines) (p : Pos) :
    c.makeValidPos p = some (nearest (joinLines c.lines) p) := by
  rw [nearest, textLines_join h hc]
  unfold makeValidPos
  by_cases hy : p.y ≥ c.lines.length
  · rw [if_pos hy, List.getElem?_eq_none hy]
    rcases List.eq_nil_or_concat c.lines with h0 | ⟨A, l, hl⟩
    · exact absurd h0 h
    · rw [List.concat_eq_append] at hl
      simp [endPos, hl, csub]
  · rw [if_neg hy]
    have hl : c.lines[p.y]? = some (c.lines[p.y]'(by omega)) := List.getElem?_eq_getElem _
    rw [hl]
    rfl

/-- The other end of the selection after a change. -/
def FollowsTail (tail : Option Pos) (c' : Content) : Prop := c'.tail = tail.map (nearest (joinLines c'.lines))

theorem FollowsTail.same {tail : Option Pos} {c' : Content} (h' : c'.Valid) (h : c'.tail = tail) : FollowsTail tail c' := by
  unfold FollowsTail
  rw [← h]
  cases ht : c'.tail with
  | none => rfl
  | some t =>
    rw [Option.map_some, nearest_valid]
    rw [textLines_join h'.oneLine h'.cleanLines]
    exact h'.tail t ht

theorem fixSelection_follows {c c' : Content} (h : c.fixSelection = some c') (h' : c'.Valid) : FollowsTail c.tail c' := by
  unfold fixSelection at h
  simp only [Option.bind_eq_bind, Option.bind_eq_some_iff] at h
  obtain ⟨p, _, h⟩ := h
  unfold fixSelectionTail at h
  revert h
  cases ht : c.tail with
  | none =>
    intro h
    cases h
    exact .same h' rfl
  | some t =>
    simp only [Option.bind_eq_bind, Option.bind_eq_some_iff]
    rintro ⟨q, hq, h⟩
    cases h
    have := makeValidPos_nearest (c := { c with pos := p, tail := some t }) h'.oneLine h'.cleanLines t
    rw [hq] at this
    exact this

theorem insertNewLine_follows {c c' : Content} (h : c.insertNewLine = some c') (h' : c'.Valid) : FollowsTail c.tail c' := by
  unfold insertNewLine at h
  simp only [Option.bind_eq_bind, Option.bind_eq_some_iff] at h
  obtain ⟨_, _, _, _, _, _, _, _, h⟩ := h
  exact (fixSelection_follows h h' :)

theorem insertChar_follows {c c' : Content} {ch : Char} (h : c.insertChar ch = some c') (h' : c'.Valid) : FollowsTail c.tail c' := by
  unfold insertChar at h
  split at h
  · exact insertNewLine_follows h h'
  · split at h
    · cases h; exact .same h' rfl
    · simp only [Option.bind_eq_bind, Option.bind_eq_some_iff] at h
      obtain ⟨_, _, _, _, _, _, h⟩ := h
      cases h
      exact .same h' rfl

theorem delCharLeft_follows {c c' : Content} {b : Bool} (h : c.delCharLeft = some (c', b)) (h' : c'.Valid) : FollowsTail c.tail c' := by
  unfold delCharLeft at h
  split at h
  · simp only [Option.bind_eq_bind, Option.bind_eq_some_iff] at h
    obtain ⟨_, _, _, _, _, _, d, hd, h⟩ := h
    cases h
    exact (fixSelection_follows hd h' :)
  · split at h
    · simp only [Option.bind_eq_bind, Option.bind_eq_some_iff] at h
      obtain ⟨_, _, _, _, _, _, _, _, d, hd, h⟩ := h
      cases h
      exact (fixSelection_follows hd h' :)
    · cases h; exact .same h' rfl

theorem delCharBelow_follows {c c' : Content} {b : Bool} (h : c.delCharBelow = some (c', b)) (h' : c'.Valid) : FollowsTail c.tail c' := by
  unfold delCharBelow at h
  simp only [Option.bind_eq_bind, Option.bind_eq_some_iff] at h
  obtain ⟨l, _, h⟩ := h
  split at h
  · split at h
    · simp only [Option.bind_eq_some_iff] at h
      obtain ⟨_, _, d, hd, h⟩ := h
      cases h
      exact (fixSelection_follows hd h' :)
    · cases h; exact .same h' rfl
  · split at h
    · simp only [Option.bind_eq_some_iff] at h
      obtain ⟨_, _, _, _, d, hd, h⟩ := h
      cases h
      exact (fixSelection_follows hd h' :)
    · split at h
      · simp only [Option.bind_eq_some_iff] at h
        obtain ⟨_, _, _, _, _, _, _, _, d, hd, h⟩ := h
        cases h
        exact (fixSelection_follows hd h' :)
      · cases h; exact .same h' rfl

/-! ### Order of the positions -/

/-- A position before another one: the text before it is a strict prefix of the one before the other. -/
theorem textBefore_lt {ls : List Text} {p q : Pos} (hp : ValidPos ls p) (hq : ValidPos ls q) (h : p.blt q = true) :
    ∃ m, textBefore ls q = textBefore ls p ++ m ∧ m ≠ [] := by
  obtain ⟨A, a, b, B, rfl, rfl⟩ := hq.split
  rw [textBefore_mid]
  obtain ⟨y, x⟩ := p
  simp only [Pos.blt, Bool.or_eq_true, decide_eq_true_eq, Bool.and_eq_true, beq_iff_eq] at h
  by_cases hy : y < A.length
  · obtain ⟨l, h1, h2⟩ := hp
    simp only at h1 h2
    rw [List.getElem?_append_left hy] at h1
    obtain ⟨A1, A2, rfl, rfl⟩ : ∃ A1 A2, A = A1 ++ l :: A2 ∧ y = A1.length := by
      refine ⟨A.take y, A.drop (y + 1), ?_, by simp; omega⟩
      obtain ⟨_, hl⟩ := List.getElem?_eq_some_iff.1 h1
      rw [← hl, List.getElem_cons_drop, List.take_append_drop]
    have e : A1 ++ l :: A2 ++ (a ++ b) :: B = A1 ++ (l.take x ++ l.drop x) :: (A2 ++ (a ++ b) :: B) := by simp
    have hx : x = (l.take x).length := by simp; omega
    refine ⟨l.drop x ++ '\n' :: (linesL A2 ++ a), ?_, by simp⟩
    have := textBefore_mid A1 (l.take x) (l.drop x) (A2 ++ (a ++ b) :: B)
    rw [← hx] at this
    rw [e, this]
    simp only [linesL, List.flatMap_append, List.flatMap_cons, List.append_assoc, List.cons_append, List.nil_append]
    rw [← List.append_assoc (l.take x), List.take_append_drop]
  · have hy' : y = A.length := by omega
    have hx : x < a.length := by omega
    subst hy'
    have e : A ++ (a ++ b) :: B = A ++ (a.take x ++ (a.drop x ++ b)) :: B := by
      rw [← List.append_assoc (a.take x), List.take_append_drop]
    have hl : x = (a.take x).length := by simp; omega
    have := textBefore_mid A (a.take x) (a.drop x ++ b) B
    rw [← hl, ← e] at this
    refine ⟨a.drop x, ?_, ?_⟩
    · rw [this, List.append_assoc, List.take_append_drop]
    · simp; omega

theorem Pos.blt_or {p q : Pos} (h : p ≠ q) : p.blt q = true ∨ q.blt p = true := by
  obtain ⟨y, x⟩ := p
  obtain ⟨y', x'⟩ := q
  simp only [ne_eq, Pos.mk.injEq] at h
  simp only [Pos.blt, Bool.or_eq_true, decide_eq_true_eq, Bool.and_eq_true, beq_iff_eq]
  omega

theorem textBefore_length_lt {ls : List Text} {p q : Pos} (hp : ValidPos ls p) (hq : ValidPos ls q) (h : p.blt q = true) :
    (textBefore ls p).length < (textBefore ls q).length := by
  obtain ⟨m, h1, h2⟩ := textBefore_lt hp hq h
  have := List.length_pos_iff.2 h2
  rw [h1, List.length_append]
  omega

/-! ### Insertion of a text -/

/-- The other end of the selection isn't after the cursor. -/
def TailBefore (c : Content) : Prop := ∀ t, c.tail = some t → c.pos.blt t = false

theorem insertChar_tail {c : Content} (h : c.Valid) (hb : TailBefore c) (ch : Char) :
    ∃ c', c.insertChar ch = some c' ∧ c'.Valid ∧ c'.before = c.before ++ keptText [ch] ∧ c'.after = c.after ∧ c'.tail = c.tail ∧ TailBefore c' := by
  obtain ⟨c', h1, h2, h3, h4⟩ := insertChar_ok h ch
  have hf := insertChar_follows h1 h2
  have key : c'.tail = c.tail ∧ TailBefore c' := by
    cases ht : c.tail with
    | none =>
      have : c'.tail = none := by rw [hf, ht]; rfl
      exact ⟨this, by intro t e; rw [this] at e; cases e⟩
    | some t =>
      have hlt := hb t ht
      obtain ⟨A, a, b, B, k1, k2, _⟩ := h.split
      by_cases hn : ch = '\n'
      · have hl : c'.lines = (A ++ [a]) ++ b :: B ∧ c'.pos = ⟨A.length + 1, 0⟩ := by
          rw [insertChar, if_pos hn] at h1
          simp only [insertNewLine, k1, k2, get_mid, Option.bind_eq_bind, Option.bind_some, vecSplitOff_mid, vecSet_mid, vecInsert_mid1] at h1
          obtain ⟨c'', g1, g2, _, g4, _⟩ := fixSelection_ok (c := { c with lines := A ++ a :: b :: B, pos := ⟨A.length + 1, 0⟩ }) (by simp)
          rw [h1] at g1
          cases g1
          refine ⟨by rw [g2]; simp, ?_⟩
          have hv : ValidPos (A ++ a :: b :: B) ⟨A.length + 1, 0⟩ := ⟨b, by rw [get_mid1], by simp⟩
          rename_i g5
          exact g5.1 hv
        have hv : ValidPos c'.lines t := by
          obtain ⟨l, e1, e2⟩ := h.tail t ht
          rw [k1] at e1
          rw [hl.1]
          rw [k2] at hlt
          simp only [Pos.blt, Bool.or_eq_false_iff, decide_eq_false_iff_not, Bool.and_eq_false_iff, beq_eq_false_iff_ne] at hlt
          by_cases hy : t.y < A.length
          · refine ⟨l, ?_, e2⟩
            rw [List.getElem?_append_left hy] at e1
            rw [List.append_assoc, List.getElem?_append_left hy, e1]
          · have hy : t.y = A.length := by omega
            exact ⟨a, by rw [hy]; simp, by omega⟩
        have ht' : c'.tail = some t := by
          rw [hf, ht, Option.map_some, nearest_valid]
          rw [textLines_join h2.oneLine h2.cleanLines]
          exact hv
        refine ⟨ht', fun u hu => ?_⟩
        rw [ht'] at hu
        cases hu
        rw [hl.2]
        rw [k2] at hlt
        simp only [Pos.blt, Bool.or_eq_false_iff, decide_eq_false_iff_not, Bool.and_eq_false_iff, beq_eq_false_iff_ne] at hlt ⊢
        omega
      · rw [insertChar, if_neg hn] at h1
        split at h1
        · cases h1; exact ⟨ht, hb⟩
        · simp only [Option.bind_eq_bind, Option.bind_eq_some_iff] at h1
          obtain ⟨_, _, _, _, _, _, h1⟩ := h1
          cases h1
          refine ⟨ht, fun u hu => ?_⟩
          rw [ht] at hu
          cases hu
          simp only [Pos.blt, Bool.or_eq_false_iff, decide_eq_false_iff_not, Bool.and_eq_false_iff, beq_eq_false_iff_ne] at hlt ⊢
          omega
  exact ⟨c', h1, h2, h3, h4, key.1, key.2⟩

theorem insertStr_tail : ∀ (s : Text) {c : Content}, c.Valid → TailBefore c →
    ∃ c', c.insertStr s = some c' ∧ c'.Valid ∧ c'.before = c.before ++ keptText s ∧ c'.after = c.after ∧ c'.tail = c.tail
  | [], c, h, _ => ⟨c, rfl, h, by simp [keptText], rfl, rfl⟩
  | ch :: s, c, h, hb => by
    obtain ⟨c1, h1, h2, h3, h4, h5, h6⟩ := insertChar_tail h hb ch
    obtain ⟨c2, k1, k2, k3, k4, k5⟩ := insertStr_tail s h2 h6
    refine ⟨c2, by simp [Content.insertStr, h1, k1], k2, ?_, by rw [k4, h4], by rw [k5, h5]⟩
    rw [k3, h3, List.append_assoc]
    congr 1
    rw [keptText, keptText, keptText, ← List.filter_append]
    rfl

end Verif

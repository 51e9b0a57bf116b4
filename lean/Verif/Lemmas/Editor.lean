import Verif.Spec.Editor
import Verif.Lemmas.InputField3
/-! Lemmas on the reference editor. -/
namespace Verif
open Spec Content

namespace Spec.Doc

theorem takeWhile_clean (a r : Text) (ha : '\n' ∉ a) (hr : r = [] ∨ ∃ t, r = '\n' :: t) : (a ++ r).takeWhile (· ≠ '\n') = a := by
  induction a with
  | nil =>
    rcases hr with rfl | ⟨t, rfl⟩
    · rfl
    · simp
  | cons c a ih =>
    have h1 : c ≠ '\n' := fun h => ha (by simp [h])
    have h2 : '\n' ∉ a := fun h => ha (by simp [h])
    rw [List.cons_append, List.takeWhile_cons_of_pos (by simp [h1]), ih h2]

theorem firstLine_eq (a r : Text) (ha : '\n' ∉ a) (hr : r = [] ∨ ∃ t, r = '\n' :: t) : firstLine (a ++ r) = a := takeWhile_clean a r ha hr

theorem lastLine_eq (p a : Text) (ha : '\n' ∉ a) (hp : p = [] ∨ ∃ t, p = t ++ ['\n']) : lastLine (p ++ a) = a := by
  unfold lastLine
  rw [List.reverse_append, takeWhile_clean]
  · simp
  · simpa using ha
  · rcases hp with rfl | ⟨t, rfl⟩
    · exact .inl rfl
    · exact .inr ⟨t.reverse, by simp⟩

theorem home_eq (p a r : Text) (ha : '\n' ∉ a) (hp : p = [] ∨ ∃ t, p = t ++ ['\n']) : home ⟨p ++ a, r⟩ = ⟨p, a ++ r⟩ := by
  unfold home
  simp only [lastLine_eq p a ha hp]
  simp

theorem toEnd_eq (p a r : Text) (ha : '\n' ∉ a) (hr : r = [] ∨ ∃ t, r = '\n' :: t) : toEnd ⟨p, a ++ r⟩ = ⟨p ++ a, r⟩ := by
  unfold toEnd
  simp only [firstLine_eq a r ha hr]
  simp

theorem left_snoc (p r : Text) (c : Char) : left ⟨p ++ [c], r⟩ = ⟨p, c :: r⟩ := by simp [left]

theorem left_nil (r : Text) : left ⟨[], r⟩ = ⟨[], r⟩ := rfl

theorem seek_ok (cw : Char → Nat) (r : Text) (hr : r = [] ∨ ∃ t, r = '\n' :: t) : ∀ (l : Text) (col : Nat) (p : Text), '\n' ∉ l →
    ∃ k, k ≤ l.length ∧ seek cw col p (l ++ r) = ⟨p ++ l.take k, l.drop k ++ r⟩ ∧
      (∀ j < k, inputCols cw (l.take j) < col) ∧ (k = l.length ∨ col ≤ inputCols cw (l.take k))
  | [], col, p, _ => by
    refine ⟨0, by simp, ?_, by simp, .inl rfl⟩
    rcases hr with rfl | ⟨t, rfl⟩
    · simp [seek]
    · simp [seek]
  | c :: l, col, p, hl => by
    have h1 : c ≠ '\n' := fun h => hl (by simp [h])
    have h2 : '\n' ∉ l := fun h => hl (by simp [h])
    rw [List.cons_append, seek]
    by_cases h0 : col = 0
    · rw [if_pos (.inl h0)]
      exact ⟨0, by simp, by simp, by simp, .inr (by simp [h0])⟩
    · rw [if_neg (by simp [h0, h1])]
      obtain ⟨k, k1, k2, k3, k4⟩ := seek_ok cw r hr l (col - inputCols cw [c]) (p ++ [c]) h2
      have e : ∀ j, inputCols cw ((c :: l).take (j + 1)) = inputCols cw [c] + inputCols cw (l.take j) := by
        intro j; simp [inputCols]
      refine ⟨k + 1, by simpa using k1, by rw [k2]; simp, ?_, ?_⟩
      · intro j hj
        cases j with
        | zero => simp [inputCols]; omega
        | succ j =>
          rw [e]
          have := k3 j (by omega)
          omega
      · rcases k4 with k4 | k4
        · exact .inl (by simp [k4])
        · exact .inr (by rw [e]; omega)

end Spec.Doc

/-- The reference document of a cursor in some lines. -/
def docOf (A : List Text) (a b : Text) (B : List Text) : Doc := ⟨linesL A ++ a, b ++ linesR B⟩

theorem linesL_end (A : List Text) : linesL A = [] ∨ ∃ t, linesL A = t ++ ['\n'] := by
  rcases concat_cases A with rfl | ⟨A0, l, rfl⟩
  · exact .inl rfl
  · exact .inr ⟨linesL A0 ++ l, by simp [linesL]⟩

theorem linesR_start (B : List Text) : linesR B = [] ∨ ∃ t, linesR B = '\n' :: t := by
  cases B with
  | nil => exact .inl rfl
  | cons b B => exact .inr ⟨b ++ linesR B, by simp [linesR]⟩

def CleanLines (ls : List Text) : Prop := ∀ l ∈ ls, '\n' ∉ l

theorem docOf_home {A : List Text} {a b : Text} {B : List Text} (h : CleanLines (A ++ (a ++ b) :: B)) :
    (docOf A a b B).home = docOf A [] (a ++ b) B := by
  have ha : '\n' ∉ a := fun hm => h (a ++ b) (by simp) (by simp [hm])
  rw [docOf, Doc.home_eq _ _ _ ha (linesL_end A)]
  simp [docOf]

theorem docOf_toEnd {A : List Text} {a b : Text} {B : List Text} (h : CleanLines (A ++ (a ++ b) :: B)) :
    (docOf A a b B).toEnd = docOf A (a ++ b) [] B := by
  have hb : '\n' ∉ b := fun hm => h (a ++ b) (by simp) (by simp [hm])
  rw [docOf, Doc.toEnd_eq _ _ _ hb (linesR_start B)]
  simp [docOf]

theorem docOf_upStep {A : List Text} {a b : Text} {B : List Text} (h : CleanLines (A ++ (a ++ b) :: B)) :
    ∃ a' b' B', (docOf A a b B).home.left = docOf (A.take (A.length - 1)) a' b' B' ∧
      A.take (A.length - 1) ++ (a' ++ b') :: B' = A ++ (a ++ b) :: B := by
  rw [docOf_home h]
  rcases concat_cases A with rfl | ⟨A0, l, rfl⟩
  · exact ⟨[], a ++ b, B, by simp [docOf, linesL, Doc.left_nil], by simp⟩
  · have e : linesL (A0 ++ [l]) ++ [] = (linesL A0 ++ l) ++ ['\n'] := by simp [linesL]
    refine ⟨l, [], (a ++ b) :: B, ?_, by simp⟩
    rw [docOf, e, Doc.left_snoc]
    simp [docOf, linesR]

theorem docOf_ups : ∀ (n : Nat) {A : List Text} {a b : Text} {B : List Text}, CleanLines (A ++ (a ++ b) :: B) →
    ∃ a' b' B', Doc.times (fun e => e.home.left) n (docOf A a b B) = docOf (A.take (A.length - n)) a' b' B' ∧
      A.take (A.length - n) ++ (a' ++ b') :: B' = A ++ (a ++ b) :: B
  | 0, A, a, b, B, h => ⟨a, b, B, by simp [Doc.times], by simp⟩
  | n + 1, A, a, b, B, h => by
    obtain ⟨a1, b1, B1, h1, h2⟩ := docOf_upStep h
    obtain ⟨a2, b2, B2, k1, k2⟩ := docOf_ups n (A := A.take (A.length - 1)) (a := a1) (b := b1) (B := B1) (by rw [h2]; exact h)
    have e : (A.take (A.length - 1)).take ((A.take (A.length - 1)).length - n) = A.take (A.length - (n + 1)) := by
      rw [List.take_take, List.length_take]
      congr 1
      omega
    rw [e] at k1 k2
    exact ⟨a2, b2, B2, by rw [Doc.times, h1, k1], by rw [k2, h2]⟩

theorem docOf_downStep {A : List Text} {a b : Text} {B : List Text} (h : CleanLines (A ++ (a ++ b) :: B)) :
    ∃ A' a' b', (docOf A a b B).toEnd.right = docOf A' a' b' (B.drop 1) ∧
      A' ++ (a' ++ b') :: B.drop 1 = A ++ (a ++ b) :: B := by
  rw [docOf_toEnd h]
  cases B with
  | nil => exact ⟨A, a ++ b, [], by simp [docOf, linesR, Doc.right], by simp⟩
  | cons m B =>
    refine ⟨A ++ [a ++ b], [], m, ?_, by simp⟩
    simp [docOf, linesR, linesL, Doc.right]

theorem docOf_downs : ∀ (n : Nat) {A : List Text} {a b : Text} {B : List Text}, CleanLines (A ++ (a ++ b) :: B) →
    ∃ A' a' b', Doc.times (fun e => e.toEnd.right) n (docOf A a b B) = docOf A' a' b' (B.drop n) ∧
      A' ++ (a' ++ b') :: B.drop n = A ++ (a ++ b) :: B
  | 0, A, a, b, B, h => ⟨A, a, b, by simp [Doc.times], by simp⟩
  | n + 1, A, a, b, B, h => by
    obtain ⟨A1, a1, b1, h1, h2⟩ := docOf_downStep h
    obtain ⟨A2, a2, b2, k1, k2⟩ := docOf_downs n (A := A1) (a := a1) (b := b1) (B := B.drop 1) (by rw [h2]; exact h)
    rw [List.drop_drop, Nat.add_comm 1 n] at k1 k2
    exact ⟨A2, a2, b2, by rw [Doc.times, h1, k1], by rw [k2, h2]⟩

theorem docOf_column (cw : Char → Nat) {A : List Text} {a b : Text} {B : List Text} (h : CleanLines (A ++ (a ++ b) :: B)) :
    (docOf A a b B).column cw = inputCols cw a := by
  have ha : '\n' ∉ a := fun hm => h (a ++ b) (by simp) (by simp [hm])
  simp only [Doc.column, docOf, Doc.lastLine_eq _ _ ha (linesL_end A)]

/-- The end of a vertical move. -/
theorem docOf_seek (cw : Char → Nat) {A : List Text} {a b : Text} {B : List Text} (h : CleanLines (A ++ (a ++ b) :: B)) (col : Nat) {x : Nat}
    (hx : x ≤ (a ++ b).length) (h1 : ∀ j < x, inputCols cw ((a ++ b).take j) < col) (h2 : x = (a ++ b).length ∨ col ≤ inputCols cw ((a ++ b).take x)) :
    (docOf A a b B).homeThenSeek cw col = docOf A ((a ++ b).take x) ((a ++ b).drop x) B := by
  rw [Doc.homeThenSeek, docOf_home h, docOf]
  obtain ⟨k, k1, k2, k3, k4⟩ := Doc.seek_ok cw (linesR B) (linesR_start B) (a ++ b) col (linesL A ++ []) (h (a ++ b) (by simp))
  have hk : k = x := by
    rcases Nat.lt_trichotomy k x with hlt | heq | hgt
    · have := h1 k hlt
      rcases k4 with k4 | k4
      · omega
      · omega
    · exact heq
    · have := k3 x hgt
      rcases h2 with h2 | h2
      · omega
      · omega
  rw [k2, hk, docOf]
  simp

namespace Content

/-- The document of a content. -/
def doc (c : Content) : Doc := ⟨c.before, c.after⟩

theorem Valid.docSplit {c : Content} (h : c.Valid) : ∃ A a b B, c.lines = A ++ (a ++ b) :: B ∧ c.pos = ⟨A.length, a.length⟩ ∧ c.doc = docOf A a b B ∧
    CleanLines c.lines := by
  obtain ⟨A, a, b, B, h1, h2, h3, h4, _⟩ := h.split
  exact ⟨A, a, b, B, h1, h2, by simp [doc, docOf, h3, h4], fun l hl hm => h.clean l hl _ hm (.inl rfl)⟩

theorem doc_eq {c : Content} {A : List Text} {a b : Text} {B : List Text} (h1 : c.lines = A ++ (a ++ b) :: B)
    (h2 : c.pos = ⟨A.length, a.length⟩) : c.doc = docOf A a b B := by simp [doc, docOf, before_eq h1 h2, after_eq h1 h2]

theorem mem_linesL (A : List Text) (hA : ∀ l ∈ A, '\n' ∉ l) : '\n' ∈ linesL A ↔ 0 < A.length := by
  cases A with
  | nil => simp [linesL]
  | cons a A => simp [linesL]

theorem mem_linesR (B : List Text) : '\n' ∈ linesR B ↔ 0 < B.length := by
  cases B with
  | nil => simp [linesR]
  | cons a A => simp [linesR]

theorem moveLinesUp_doc (cw : Char → Nat) {c : Content} (h : c.Valid) (n : Nat) :
    ∃ c' r, c.moveLinesUp cw n = some (c', r) ∧ c'.Valid ∧ c'.tail = c.tail ∧ c'.doc = c.doc.up cw n := by
  obtain ⟨c', r, h1, h2, h3⟩ := moveLinesUp_ok cw h n
  obtain ⟨A, a, b, B, k1, k2, k3, k4⟩ := h.docSplit
  have hc := k4
  rw [k1] at hc
  have ha : '\n' ∉ a := fun hm => hc (a ++ b) (by simp) (by simp [hm])
  have hA : '\n' ∈ c.doc.before ↔ 0 < A.length := by
    rw [k3, docOf]
    simp only [List.mem_append, mem_linesL A (fun l hl => hc l (by simp [hl]))]
    exact ⟨fun hm => hm.elim id (fun hm => absurd hm ha), .inl⟩
  rcases h3 with ⟨g1, rfl, _⟩ | ⟨g1, ⟨e1, e2, e3, l, l', e4, e5, e6, e7⟩, _⟩
  · refine ⟨c', r, h1, h2, rfl, ?_⟩
    rw [Doc.up, if_neg]
    rw [hA]
    rw [k2] at g1
    simp only at g1
    omega
  · refine ⟨c', r, h1, h2, e2, ?_⟩
    rw [Doc.up, if_pos (hA.2 (by rw [k2] at g1; exact g1))]
    obtain ⟨a', b', B', u1, u2⟩ := docOf_ups n hc
    have hy : c.pos.y = A.length := by rw [k2]
    have hlen : (A.take (A.length - n)).length = c.pos.y - n := by simp [hy]
    have hl' : l' = a' ++ b' := by
      rw [k1, ← u2, ← hlen, get_mid] at e5
      exact (Option.some.inj e5).symm
    have hl : l = a ++ b := by
      rw [k1, hy, get_mid] at e4
      exact (Option.some.inj e4).symm
    subst hl hl'
    have hx : (a ++ b).take c.pos.x = a := by rw [k2]; simp
    rw [hx] at e6 e7
    have hxl : c'.pos.x ≤ (a' ++ b').length := by
      obtain ⟨m, m1, m2⟩ := h2.pos
      rw [e1, e3, e5] at m1
      cases m1
      exact m2
    rw [k3, docOf_column cw hc, u1, docOf_seek cw (by rw [u2]; exact hc) _ hxl e6 e7]
    apply doc_eq
    · rw [e1, k1, ← u2, List.take_append_drop]
    · apply pos_eq
      · simpa [hy] using e3
      · simp only [List.length_take (l := a' ++ b')]; omega

theorem moveLinesDown_doc (cw : Char → Nat) {c : Content} (h : c.Valid) (n : Nat) :
    ∃ c' r, c.moveLinesDown cw n = some (c', r) ∧ c'.Valid ∧ c'.tail = c.tail ∧ c'.doc = c.doc.down cw n := by
  obtain ⟨c', r, h1, h2, h3⟩ := moveLinesDown_ok cw h n
  obtain ⟨A, a, b, B, k1, k2, k3, k4⟩ := h.docSplit
  have hc := k4
  rw [k1] at hc
  have hb : '\n' ∉ b := fun hm => hc (a ++ b) (by simp) (by simp [hm])
  have hB : '\n' ∈ c.doc.after ↔ 0 < B.length := by
    rw [k3, docOf]
    simp only [List.mem_append, mem_linesR]
    exact ⟨fun hm => hm.elim (fun hm => absurd hm hb) id, .inr⟩
  have hy : c.pos.y = A.length := by rw [k2]
  have hn : c.lines.length = A.length + 1 + B.length := by rw [k1]; simp; omega
  rcases h3 with ⟨g1, rfl, _⟩ | ⟨g1, ⟨e1, e2, e3, l, l', e4, e5, e6, e7⟩, _⟩
  · refine ⟨c', r, h1, h2, rfl, ?_⟩
    rw [Doc.down, if_neg]
    rw [hB]
    omega
  · refine ⟨c', r, h1, h2, e2, ?_⟩
    rw [Doc.down, if_pos (hB.2 (by omega))]
    obtain ⟨A', a', b', u1, u2⟩ := docOf_downs n hc
    have hlen : A'.length = min (c.pos.y + n) (c.lines.length - 1) := by
      have := congrArg List.length u2
      simp at this
      omega
    have hl' : l' = a' ++ b' := by
      rw [k1, ← u2] at e5
      rw [k1, ← u2] at hlen
      rw [← hlen, get_mid] at e5
      exact (Option.some.inj e5).symm
    have hl : l = a ++ b := by
      rw [k1, hy, get_mid] at e4
      exact (Option.some.inj e4).symm
    subst hl hl'
    have hx : (a ++ b).take c.pos.x = a := by rw [k2]; simp
    rw [hx] at e6 e7
    have hxl : c'.pos.x ≤ (a' ++ b').length := by
      obtain ⟨m, m1, m2⟩ := h2.pos
      rw [e1, e3, e5] at m1
      cases m1
      exact m2
    rw [k3, docOf_column cw hc, u1, docOf_seek cw (by rw [u2]; exact hc) _ hxl e6 e7]
    apply doc_eq
    · rw [e1, k1, ← u2, List.take_append_drop]
    · apply pos_eq
      · rw [e3, ← hlen]
      · simp only [List.length_take (l := a' ++ b')]; omega

theorem fixSelection_none {c c' : Content} (h : c.fixSelection = some c') (ht : c.tail = none) : c'.tail = none := by
  unfold fixSelection fixSelectionTail at h
  simp only [ht, Option.bind_eq_bind, Option.bind_eq_some_iff] at h
  obtain ⟨p, _, h⟩ := h
  cases h
  rfl

theorem insertNewLine_none {c c' : Content} (h : c.insertNewLine = some c') (ht : c.tail = none) : c'.tail = none := by
  unfold insertNewLine at h
  simp only [Option.bind_eq_bind, Option.bind_eq_some_iff] at h
  obtain ⟨_, _, _, _, _, _, _, _, h⟩ := h
  exact fixSelection_none h ht

theorem insertChar_none {c c' : Content} {ch : Char} (h : c.insertChar ch = some c') (ht : c.tail = none) : c'.tail = none := by
  unfold insertChar at h
  split at h
  · exact insertNewLine_none h ht
  · split at h
    · cases h; exact ht
    · simp only [Option.bind_eq_bind, Option.bind_eq_some_iff] at h
      obtain ⟨_, _, _, _, _, _, h⟩ := h
      cases h
      exact ht

theorem delCharLeft_none {c c' : Content} {b : Bool} (h : c.delCharLeft = some (c', b)) (ht : c.tail = none) : c'.tail = none := by
  unfold delCharLeft at h
  split at h
  · simp only [Option.bind_eq_bind, Option.bind_eq_some_iff] at h
    obtain ⟨_, _, _, _, _, _, d, hd, h⟩ := h
    cases h
    exact fixSelection_none hd ht
  · split at h
    · simp only [Option.bind_eq_bind, Option.bind_eq_some_iff] at h
      obtain ⟨_, _, _, _, _, _, _, _, d, hd, h⟩ := h
      cases h
      exact fixSelection_none hd ht
    · cases h; exact ht

theorem delCharBelow_none {c c' : Content} {b : Bool} (h : c.delCharBelow = some (c', b)) (ht : c.tail = none) : c'.tail = none := by
  unfold delCharBelow at h
  simp only [Option.bind_eq_bind, Option.bind_eq_some_iff] at h
  obtain ⟨l, _, h⟩ := h
  split at h
  · split at h
    · simp only [Option.bind_eq_some_iff] at h
      obtain ⟨_, _, d, hd, h⟩ := h
      cases h
      exact fixSelection_none hd ht
    · cases h; exact ht
  · split at h
    · simp only [Option.bind_eq_some_iff] at h
      obtain ⟨_, _, _, _, d, hd, h⟩ := h
      cases h
      exact fixSelection_none hd ht
    · split at h
      · simp only [Option.bind_eq_some_iff] at h
        obtain ⟨_, _, _, _, _, _, _, _, d, hd, h⟩ := h
        cases h
        exact fixSelection_none hd ht
      · cases h; exact ht

end Content
end Verif

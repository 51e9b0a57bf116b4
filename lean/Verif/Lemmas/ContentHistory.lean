import Verif.Spec.ContentHistory
import Verif.Props.FieldSession
/-! Lemmas for C95: each method of a content against the reference editor. -/
namespace Verif.Props
open Verif.Spec Content

/-! ### Words -/

private theorem times_left : ∀ (w p r : Text), Doc.times Doc.left w.length ⟨p ++ w, r⟩ = ⟨p, w ++ r⟩ := by
  intro w
  rcases concat_cases w with rfl | ⟨u, c, rfl⟩
  · intro p r; simp [Doc.times]
  · intro p r
    rw [List.length_append, List.length_singleton, Doc.times, ← List.append_assoc, Doc.left_snoc, times_left u]
    simp
termination_by w => w.length

private theorem times_right : ∀ (w p r : Text), Doc.times Doc.right w.length ⟨p, w ++ r⟩ = ⟨p ++ w, r⟩
  | [], p, r => by simp [Doc.times]
  | c :: w, p, r => by
    rw [List.length_cons, Doc.times]
    show Doc.times Doc.right w.length ⟨p ++ [c], w ++ r⟩ = _
    rw [times_right w]
    simp

private theorem times_backspace : ∀ (w p r : Text), Doc.times Doc.backspace w.length ⟨p ++ w, r⟩ = ⟨p, r⟩ := by
  intro w
  rcases concat_cases w with rfl | ⟨u, c, rfl⟩
  · intro p r; simp [Doc.times]
  · intro p r
    rw [List.length_append, List.length_singleton, Doc.times, ← List.append_assoc]
    have : Doc.backspace ⟨p ++ u ++ [c], r⟩ = ⟨p ++ u, r⟩ := by simp [Doc.backspace]
    rw [this, times_backspace u]
termination_by w => w.length

private theorem lastLine_append (q w : Text) (hw : '\n' ∉ w) : Doc.lastLine (q ++ w) = Doc.lastLine q ++ w := by
  unfold Doc.lastLine
  rw [List.reverse_append, List.takeWhile_append_of_pos, List.reverse_append, List.reverse_reverse]
  intro c hc
  have : c ≠ '\n' := fun e => hw (by rw [← e]; simpa using hc)
  simpa using this

private theorem lastLine_last {q t : Text} {ch : Char} (h : Doc.lastLine q = t ++ [ch]) : ∃ t', q = t' ++ [ch] := by
  rcases concat_cases q with rfl | ⟨t', c, rfl⟩
  · simp [Doc.lastLine] at h
  · refine ⟨t', ?_⟩
    by_cases hc : c = '\n'
    · subst hc; simp [Doc.lastLine] at h
    · rw [lastLine_append t' [c] (by simpa using Ne.symm hc)] at h
      have := (List.append_inj' h rfl).2
      simp at this
      rw [this]

/-- The number of characters of a move by a word to the left. -/
private theorem wordLeftCount_eq (alnum : Char → Bool) (q w r : Text) (hw : w ≠ []) (hn : '\n' ∉ w) (ha : ∀ ch ∈ w.dropLast, alnum ch = true)
    (hq : ∀ t ch, Doc.lastLine q = t ++ [ch] → alnum ch = false) : Doc.wordLeftCount alnum ⟨q ++ w, r⟩ = w.length := by
  rcases concat_cases w with rfl | ⟨u, c, rfl⟩
  · exact absurd rfl hw
  unfold Doc.wordLeftCount
  simp only
  rw [lastLine_append _ _ hn]
  rw [List.dropLast_concat] at ha
  have e : (Doc.lastLine q ++ (u ++ [c])).reverse = c :: (u.reverse ++ (Doc.lastLine q).reverse) := by simp
  rw [e]
  simp only
  have e2 : (u.reverse ++ (Doc.lastLine q).reverse).takeWhile alnum = u.reverse := by
    rw [List.takeWhile_append_of_pos (by intro x hx; exact ha x (by simpa using hx))]
    have : (Doc.lastLine q).reverse.takeWhile alnum = [] := by
      rcases concat_cases (Doc.lastLine q) with h0 | ⟨t, ch, h0⟩
      · simp [h0]
      · have := hq t ch h0
        simp [h0, this]
    rw [this, List.append_nil]
  rw [e2]
  simp
  omega

theorem moveWordLeft_doc (alnum : Char → Bool) {c : Content} (h : c.Valid) : ∃ c' b, c.moveWordLeft alnum = some (c', b) ∧ c'.Valid ∧
    selDocOf c' = ⟨Doc.times Doc.left ((selDocOf c).doc.wordLeftCount alnum) (selDocOf c).doc, (selDocOf c).anchor⟩ := by
  obtain ⟨A, a, b, B, h1, h2, h3, h4, hA, ha, hb, hB⟩ := h.split
  obtain ⟨c', r, k1, k2, k3, k4, k5, k6⟩ := moveWordLeft_ok alnum h
  refine ⟨c', r, k1, k2, ?_⟩
  have hd : (selDocOf c).doc = ⟨linesL A ++ a, b ++ linesR B⟩ := by simp [selDocOf, h3, h4]
  have hna : '\n' ∉ a := fun hm => ha _ hm (.inl rfl)
  rw [hd]
  have hl : c.lines[c.pos.y]? = some (a ++ b) := by rw [h1, h2]; simp
  rcases k6 with ⟨e1, rfl, _⟩ | ⟨_, l, e1, e2, e3, e4⟩
  · have : a = [] := List.eq_nil_of_length_eq_zero (by rw [h2] at e1; exact e1)
    subst this
    have hl0 : Doc.lastLine (linesL A ++ []) = [] := Doc.lastLine_eq _ _ (by simp) (linesL_end A)
    simp only [Doc.wordLeftCount]
    rw [hl0]
    simp only [List.reverse_nil, Doc.times]
    simp [selDocOf, h3, h4]
  · rw [hl] at e1
    cases e1
    have hx : c.pos.x = a.length := by rw [h2]
    rw [hx] at e2 e3
    generalize hx' : c'.pos.x = x' at e2 e3 e4
    have esp : a = a.take x' ++ a.drop x' := (List.take_append_drop _ _).symm
    have ew : a.drop x' ≠ [] := by
      intro e0
      have := congrArg List.length e0
      simp at this
      omega
    have hna' := hna
    rw [esp] at hna'
    have en : '\n' ∉ a.drop x' := fun hm => hna (List.mem_of_mem_drop hm)
    have en' : '\n' ∉ a.take x' := fun hm => hna (List.mem_of_mem_take hm)
    have ealn : ∀ ch ∈ (a.drop x').dropLast, alnum ch = true := by
      intro ch hch
      obtain ⟨i, hi⟩ := List.mem_iff_getElem?.1 hch
      have hil := (List.getElem?_eq_some_iff.1 hi).1
      simp at hil
      rw [List.dropLast_eq_take, List.getElem?_take, if_pos (by simp; omega), List.getElem?_drop] at hi
      obtain ⟨ch', g1, g2⟩ := e3 (x' + i) (by omega) (by omega)
      rw [List.getElem?_append_left (by omega), hi] at g1
      cases g1
      exact g2
    have elast : ∀ t ch, Doc.lastLine (linesL A ++ a.take x') = t ++ [ch] → alnum ch = false := by
      intro t ch ht
      rw [Doc.lastLine_eq _ _ en' (linesL_end A)] at ht
      rcases e4 with e4 | ⟨ch', g1, g2⟩
      · subst e4; simp at ht
      · have hpos : 0 < x' := by
          rcases Nat.eq_zero_or_pos x' with h0 | h0
          · subst h0; simp at ht
          · exact h0
        rw [List.getElem?_append_left (by omega)] at g1
        have : (a.take x').getLast? = some ch := by rw [ht]; simp
        rw [List.getLast?_eq_getElem?, List.length_take, Nat.min_eq_left (by omega), List.getElem?_take, if_pos (by omega), g1] at this
        cases this
        exact g2
    have ecount := wordLeftCount_eq alnum (linesL A ++ a.take x') (a.drop x') (b ++ linesR B) ew en ealn elast
    have eb : linesL A ++ a = linesL A ++ a.take x' ++ a.drop x' := by rw [List.append_assoc, ← esp]
    rw [eb, ecount, times_left]
    have hp' : c'.pos = ⟨A.length, (a.take x').length⟩ := by
      rw [List.length_take, Nat.min_eq_left (by omega), ← hx']
      have : c'.pos.y = A.length := by rw [k5, h2]
      rw [← this]
    have hl' : c'.lines = A ++ (a.take x' ++ (a.drop x' ++ b)) :: B := by rw [k3, h1, ← List.append_assoc, ← esp]
    rw [selDocOf, before_eq hl' hp', after_eq hl' hp', k4]
    simp [selDocOf]

/-- The number of characters of a move by a word to the right. -/
private theorem wordRightCount_eq (alnum : Char → Bool) (p b r : Text) (n : Nat) (hb : '\n' ∉ b) (hr : r = [] ∨ ∃ t, r = '\n' :: t) (h0 : 0 < n)
    (hn : n ≤ b.length) (hi : ∀ i, 2 ≤ i → i ≤ n → ∃ ch, b[i]? = some ch ∧ alnum ch = true)
    (he : b.length ≤ n + 1 ∨ ∃ ch, b[n + 1]? = some ch ∧ alnum ch = false) : Doc.wordRightCount alnum ⟨p, b ++ r⟩ = n := by
  unfold Doc.wordRightCount
  simp only
  rw [Doc.firstLine_eq b r hb hr]
  cases b with
  | nil => simp at hn; omega
  | cons ch l =>
    simp only
    have hlen : n - 1 ≤ (l.drop 1).length := by
      by_cases h1 : n = 1
      · omega
      · obtain ⟨_, g, _⟩ := hi n (by omega) (Nat.le_refl _)
        have := (List.getElem?_eq_some_iff.1 g).1
        simp at this ⊢
        omega
    have idx : ∀ i, (l.drop 1)[i]? = (ch :: l)[i + 2]? := by
      intro i
      rw [List.getElem?_drop, Nat.add_comm 1 i]
      rfl
    rw [takeWhile_index alnum (l.drop 1) (n - 1) hlen]
    · omega
    · intro i hl
      rw [idx]
      exact hi (i + 2) (by omega) (by omega)
    · rcases he with he | he
      · left
        simp at he hlen ⊢
        omega
      · right
        rw [idx, show n - 1 + 2 = n + 1 by omega]
        exact he

theorem moveWordRight_doc (alnum : Char → Bool) {c : Content} (h : c.Valid) : ∃ c' b, c.moveWordRight alnum = some (c', b) ∧ c'.Valid ∧
    selDocOf c' = ⟨Doc.times Doc.right ((selDocOf c).doc.wordRightCount alnum) (selDocOf c).doc, (selDocOf c).anchor⟩ := by
  obtain ⟨A, a, b, B, h1, h2, h3, h4, hA, ha, hb, hB⟩ := h.split
  obtain ⟨c', r, k1, k2, k3, k4, k5, l, k6, k7⟩ := moveWordRight_ok alnum h
  refine ⟨c', r, k1, k2, ?_⟩
  have hd : (selDocOf c).doc = ⟨linesL A ++ a, b ++ linesR B⟩ := by simp [selDocOf, h3, h4]
  have hnb : '\n' ∉ b := fun hm => hb _ hm (.inl rfl)
  rw [hd]
  have hl : c.lines[c.pos.y]? = some (a ++ b) := by rw [h1, h2]; simp
  rw [hl] at k6
  cases k6
  have hx : c.pos.x = a.length := by rw [h2]
  rw [hx] at k7
  rcases k7 with ⟨e1, rfl, _⟩ | ⟨_, e1, e2, e3, e4⟩
  · have : b = [] := List.eq_nil_of_length_eq_zero (by simp at e1; simp [e1])
    subst this
    simp only [Doc.wordRightCount]
    rw [Doc.firstLine_eq [] _ (by simp) (linesR_start B)]
    simp only [Doc.times]
    simp [selDocOf, h3, h4]
  · generalize hx' : c'.pos.x = x' at e1 e2 e3 e4
    simp only [List.length_append] at e2 e4
    have ecount := wordRightCount_eq alnum (linesL A ++ a) b (linesR B) (x' - a.length) hnb (linesR_start B) (by omega) (by omega)
      (by
        intro i h2i hin
        obtain ⟨ch, g1, g2⟩ := e3 (a.length + i) (by omega) (by omega)
        rw [List.getElem?_append_right (by omega), show a.length + i - a.length = i by omega] at g1
        exact ⟨ch, g1, g2⟩)
      (by
        rcases e4 with e4 | ⟨ch, g1, g2⟩
        · left; omega
        · right
          rw [List.getElem?_append_right (by omega), show x' + 1 - a.length = x' - a.length + 1 by omega] at g1
          exact ⟨ch, g1, g2⟩)
    rw [ecount]
    have esp : b = b.take (x' - a.length) ++ b.drop (x' - a.length) := (List.take_append_drop _ _).symm
    have elen : (b.take (x' - a.length)).length = x' - a.length := by rw [List.length_take]; omega
    have et := times_right (b.take (x' - a.length)) (linesL A ++ a) (b.drop (x' - a.length) ++ linesR B)
    rw [elen, ← List.append_assoc, ← esp] at et
    rw [et]
    have hp' : c'.pos = ⟨A.length, (a ++ b.take (x' - a.length)).length⟩ := by
      rw [List.length_append, elen, show a.length + (x' - a.length) = x' by omega, ← hx']
      have : c'.pos.y = A.length := by rw [k5, h2]
      rw [← this]
    have hl' : c'.lines = A ++ ((a ++ b.take (x' - a.length)) ++ b.drop (x' - a.length)) :: B := by rw [k3, h1, List.append_assoc, ← esp]
    rw [selDocOf, before_eq hl' hp', after_eq hl' hp', k4]
    simp [selDocOf]

private theorem delWordLeft_follows (alnum : Char → Bool) {c c' : Content} {b : Bool} (h : c.delWordLeft alnum = some (c', b)) (h' : c'.Valid) :
    FollowsTail c.tail c' := by
  unfold delWordLeft at h
  split at h
  · simp only [Option.bind_eq_bind, Option.bind_eq_some_iff] at h
    obtain ⟨_, _, _, _, _, _, d, hd, h⟩ := h
    cases h
    exact (fixSelection_follows hd h' :)
  · cases h
    exact .same h' rfl

private theorem delWordRight_follows (alnum : Char → Bool) {c c' : Content} {b : Bool} (h : c.delWordRight alnum = some (c', b)) (h' : c'.Valid) :
    FollowsTail c.tail c' := by
  unfold delWordRight at h
  simp only [Option.bind_eq_bind, Option.bind_eq_some_iff] at h
  obtain ⟨_, _, h⟩ := h
  split at h
  · simp only [Option.bind_eq_some_iff] at h
    obtain ⟨_, _, _, _, d, hd, h⟩ := h
    cases h
    exact (fixSelection_follows hd h' :)
  · split at h
    · cases h
      exact .same h' rfl
    · cases h
      exact .same h' rfl

theorem delWordLeft_doc (alnum : Char → Bool) {c : Content} (h : c.Valid) : ∃ c' b, c.delWordLeft alnum = some (c', b) ∧ c'.Valid ∧
    selDocOf c' = (selDocOf c).keep (Doc.times Doc.backspace ((selDocOf c).doc.wordLeftCount alnum) (selDocOf c).doc) := by
  obtain ⟨c', r, k1, k2, k3⟩ := delWordLeft_ok alnum h
  refine ⟨c', r, k1, k2, ?_⟩
  rw [selDoc_keep k2 (delWordLeft_follows alnum k1 k2)]
  congr 1
  show _ = Doc.times Doc.backspace (Doc.wordLeftCount alnum ⟨c.before, c.after⟩) ⟨c.before, c.after⟩
  have start : ∀ {d : Content}, d.Valid → d.pos.x = 0 → Doc.lastLine d.before = [] := by
    intro d hd h0
    have := congrArg Pos.x (selDoc_place hd)
    rw [h0] at this
    exact List.eq_nil_of_length_eq_zero this
  rcases k3 with ⟨e, rfl, _⟩ | ⟨_, _, e2, w, e3, e4, e5, e6, e7⟩
  · have := start h e
    simp only [Doc.wordLeftCount, this, List.reverse_nil, Doc.times]
  · rw [e3, wordLeftCount_eq alnum _ _ _ e4 e5 e6, times_backspace, e2]
    intro t ch ht
    rcases e7 with e7 | e7
    · rw [start k2 e7] at ht
      simp at ht
    · obtain ⟨t', ht'⟩ := lastLine_last ht
      exact e7 t' ch ht'

private theorem takeWhile_all (alnum : Char → Bool) (u r : Text) (hu : ∀ z ∈ u, alnum z = true) (hr : ∀ z t, r = z :: t → alnum z = false) :
    (u ++ r).takeWhile alnum = u := by
  rw [List.takeWhile_append_of_pos hu]
  cases r with
  | nil => simp
  | cons z t => simp [hr z t rfl]

theorem delWordRight_doc (alnum : Char → Bool) {c : Content} (h : c.Valid) : ∃ c' b, c.delWordRight alnum = some (c', b) ∧ c'.Valid ∧
    selDocOf c' = (selDocOf c).keep ((selDocOf c).doc.deleteWordRight alnum) := by
  obtain ⟨A, a, b, B, h1, h2, h3, h4, hA, ha, hb, hB⟩ := h.split
  obtain ⟨c', r, k1, k2, k3⟩ := delWordRight_ok alnum h
  refine ⟨c', r, k1, k2, ?_⟩
  rw [selDoc_keep k2 (delWordRight_follows alnum k1 k2)]
  congr 1
  show _ = Doc.deleteWordRight alnum ⟨c.before, c.after⟩
  have hx : c.pos.x = a.length := by rw [h2]
  have hl : c.lines[c.pos.y]? = some (a ++ b) := by rw [h1, h2]; simp
  have hna : '\n' ∉ a := fun hm => ha _ hm (.inl rfl)
  have hnb : '\n' ∉ b := fun hm => hb _ hm (.inl rfl)
  have hfl : Doc.firstLine (b ++ linesR B) = b := Doc.firstLine_eq b _ hnb (linesR_start B)
  have hll : Doc.lastLine (linesL A ++ a) = a := Doc.lastLine_eq _ _ hna (linesL_end A)
  rw [h3, h4]
  unfold Doc.deleteWordRight
  simp only [hfl, hll]
  unfold delWordRight at k1
  rw [hl] at k1
  simp only [Option.bind_eq_bind, Option.bind_some] at k1
  cases b with
  | nil =>
    rw [if_neg (by rw [hx]; simp)] at k1
    simp only [List.takeWhile_nil, List.length_nil, Nat.lt_irrefl, if_false, List.drop_zero]
    by_cases h0 : c.pos.x > 0
    · rw [if_pos ⟨by rw [hx]; simp, h0⟩] at k1
      cases k1
      rcases concat_cases a with rfl | ⟨a', z, rfl⟩
      · rw [hx] at h0; simp at h0
      · rw [if_neg (by simp), ← List.append_assoc, Doc.left_snoc]
        have hp' : ({ c.pos with x := c.pos.x - 1 } : Pos) = ⟨A.length, a'.length⟩ := by rw [h2]; simp
        have hl' : c.lines = A ++ (a' ++ [z]) :: B := by rw [h1]; simp
        rw [before_eq (c := ⟨{ c.pos with x := c.pos.x - 1 }, c.tail, c.lines⟩) hl' hp', after_eq (c := ⟨{ c.pos with x := c.pos.x - 1 }, c.tail, c.lines⟩) hl' hp']
        rfl
    · rw [if_neg (by omega)] at k1
      cases k1
      have : a = [] := List.eq_nil_of_length_eq_zero (by omega)
      rw [if_pos this, h3, h4]
  | cons d b =>
    rw [if_pos (by rw [hx]; simp)] at k1
    obtain ⟨w, b', m1, m2, m3⟩ := delWordRightLoop_ok alnum a ((a ++ d :: b).length + 1) (d :: b) (by simp) (by simp; omega)
    rcases m3 with ⟨u, ch, q1, q2, q3, q4⟩ | ⟨q1, q2, q3⟩
    · have etw : (d :: b).takeWhile alnum = u := by
        rw [m1, q1, List.append_assoc]
        exact takeWhile_all alnum u _ q2 (by intro z t hz; simp at hz; rw [← hz.1]; exact q3)
      rw [etw, if_pos (by rw [m1, q1]; simp)]
      have hs : vecSet c.lines c.pos.y (a ++ b') = some (A ++ (a ++ b') :: B) := by rw [h1, h2]; exact vecSet_mid _ _ _ _
      have hp : ({ c.pos with x := a.length } : Pos) = ⟨A.length, a.length⟩ := by rw [h2]
      obtain ⟨c1, n1, n2, n3, n4, n5, n6⟩ := fixed_ok (c := { c with lines := A ++ (a ++ b') :: B, pos := ⟨A.length, a.length⟩ })
        rfl rfl hA ha (fun z hz => hb z (by rw [m1]; simp [hz])) hB
      rw [hx, q4] at k1
      simp only [Option.bind_some, hs, hp, n1] at k1
      cases k1
      rw [n5, n6]
      congr 1
      rw [m1, q1]
      simp
    · subst q1
      rw [List.append_nil] at m1
      have etw : (d :: b).takeWhile alnum = d :: b := by
        rw [m1]
        have := takeWhile_all alnum w [] q2 (by simp)
        simpa using this
      rw [etw, if_neg (Nat.lt_irrefl _)]
      rw [List.drop_left]
      have hs : vecSet c.lines c.pos.y a = some (A ++ a :: B) := by rw [h1, h2]; exact vecSet_mid _ _ _ _
      rw [hx, q3] at k1
      have hp : ({ c.pos with x := a.length - 1 } : Pos) = ⟨A.length, a.length - 1⟩ := by rw [h2]
      simp only [Option.bind_some, hs, hp] at k1
      rcases concat_cases a with rfl | ⟨a', z, rfl⟩
      · obtain ⟨c1, n1, n2, n3, n4, n5, n6⟩ := fixed_ok (c := { c with lines := A ++ [] :: B, pos := ⟨A.length, 0⟩ })
          (a := []) (b := []) rfl rfl hA (by simp) (by simp) hB
        simp only [List.length_nil, Nat.zero_sub, n1, Option.bind_some] at k1
        cases k1
        rw [if_pos rfl, n5, n6]
        rfl
      · obtain ⟨c1, n1, n2, n3, n4, n5, n6⟩ := fixed_ok (c := { c with lines := A ++ (a' ++ [z]) :: B, pos := ⟨A.length, a'.length⟩ })
          (a := a') (b := [z]) rfl rfl hA (fun x hx => ha x (by simp [hx])) (fun x hx => ha x (by simp at hx; simp [hx])) hB
        simp only [List.length_append, List.length_singleton, Nat.add_sub_cancel, n1, Option.bind_some] at k1
        cases k1
        rw [if_neg (by simp), ← List.append_assoc, Doc.left_snoc, n5, n6]
        rfl

/-! ### Lines -/

private theorem swapLines_follows {c c' : Content} {i j : Nat} {b : Bool} (h : c.swapLines i j = some (c', b)) (h' : c'.Valid) :
    FollowsTail c.tail c' := by
  unfold swapLines at h
  split at h
  · simp only [Option.bind_eq_bind, Option.bind_eq_some_iff] at h
    obtain ⟨_, _, _, _, d, hd, h⟩ := h
    cases h
    exact (fixSelection_follows hd h' :)
  · cases h
    exact .same h' rfl

private theorem fixSelection_lines {c c' : Content} (h : c.fixSelection = some c') (hc : c.lines ≠ []) : c'.lines = c.lines := by
  obtain ⟨d, k1, k2, _⟩ := fixSelection_ok hc
  rw [h] at k1
  cases k1
  exact k2

private theorem FollowsTail.twice {tail tail' : Option Pos} {c' : Content} (hc : c'.Valid) (h1 : tail' = tail.map (nearest (joinLines c'.lines)))
    (h2 : FollowsTail tail' c') : FollowsTail tail c' := by
  unfold FollowsTail at *
  rw [h2, h1]
  cases tail with
  | none => rfl
  | some t =>
    simp only [Option.map_some]
    rw [nearest_valid]
    rw [textLines_join hc.oneLine hc.cleanLines]
    obtain ⟨q, g1, g2, _⟩ := makeValidPos_ok hc.oneLine t
    rw [makeValidPos_nearest hc.oneLine hc.cleanLines] at g1
    cases g1
    exact g2

private theorem exchange_eq {ls ls' : List Text} {i j : Nat} (h : Swapped ls ls' i j) (hi : i < ls.length) (hj : j < ls.length) :
    exchange ls i j = ls' := by
  apply List.ext_getElem?
  intro k
  rw [h.2 k]
  unfold exchange
  rw [List.getElem?_map]
  by_cases hk : k < ls.length
  · rw [List.getElem?_range hk]
    simp only [Option.map_some]
    by_cases h1 : k = i
    · simp only [if_pos h1, List.getElem?_eq_getElem hj, Option.getD_some]
    · by_cases h2 : k = j
      · simp only [if_neg h1, if_pos h2, List.getElem?_eq_getElem hi, Option.getD_some]
      · simp only [if_neg h1, if_neg h2, List.getElem?_eq_getElem hk, Option.getD_some]
  · rw [if_neg (by omega), if_neg (by omega), List.getElem?_eq_none (by simpa using hk), List.getElem?_eq_none (by omega)]
    rfl

private theorem exchanged_eq {c c' : Content} (h : c.Valid) (h' : c'.Valid) {i j : Nat} (hs : Swapped c.lines c'.lines i j) (hi : i < c.lines.length)
    (hj : j < c.lines.length) {p : Pos} (hp : c'.pos = nearest (joinLines c'.lines) p) (hf : FollowsTail c.tail c') :
    selDocOf c' = (selDocOf c).exchanged i j p := by
  rw [SelDoc.exchanged, selDoc_text h, textLines_join h.oneLine h.cleanLines, exchange_eq hs hi hj]
  rw [← hp, indexIn_eq h'.cleanLines h'.pos, ← text_split h'.pos, List.take_left, List.drop_left]
  exact selDoc_keep h' hf

private theorem nearest_eq {c : Content} (h : c.Valid) {y x : Nat} {l : Text} (hl : c.lines[y]? = some l) (hx : x ≤ l.length) :
    nearest (joinLines c.lines) ⟨y, x⟩ = ⟨y, x⟩ := by
  apply nearest_valid
  rw [textLines_join h.oneLine h.cleanLines]
  exact ⟨l, hl, hx⟩

theorem swapLines_doc {c : Content} (h : c.Valid) (i j : Nat) : ∃ c' b, c.swapLines i j = some (c', b) ∧ c'.Valid ∧
    selDocOf c' = if i < c.lines.length ∧ j < c.lines.length then (selDocOf c).exchanged i j c.pos else selDocOf c := by
  obtain ⟨c', r, k1, k2, k3, k4, k5⟩ := swapLines_ok h i j
  refine ⟨c', r, k1, k2, ?_⟩
  have hf := swapLines_follows k1 k2
  by_cases hij : i < c.lines.length ∧ j < c.lines.length
  · rw [if_pos hij]
    by_cases he : i = j
    · subst he
      cases r with
      | true => exact absurd rfl (k4.1 rfl).1
      | false =>
        have := k3 rfl
        subst this
        refine exchanged_eq h h ⟨rfl, ?_⟩ hij.1 hij.1 ?_ (.same h rfl)
        · intro k
          by_cases hk : k = i
          · rw [if_pos hk, hk]
          · rw [if_neg hk, if_neg hk]
        · obtain ⟨l, q1, q2⟩ := h.pos
          exact (nearest_eq h q1 q2).symm
    · have hr := k4.2 ⟨he, hij⟩
      obtain ⟨q1, _, l, q2, q3⟩ := k5 hr
      refine exchanged_eq h k2 q1 hij.1 hij.2 ?_ hf
      rw [nearest, textLines_join k2.oneLine k2.cleanLines, q2]
      exact q3
  · rw [if_neg hij]
    cases r with
    | true => exact absurd (k4.1 rfl).2 hij
    | false => rw [k3 rfl]

private theorem carried_eq {c c1 c' : Content} (h : c.Valid) (h1 : c1.Valid) (h' : c'.Valid) {y : Nat} (hy : y < c.lines.length) {b : Bool}
    (hs : c.swapLines y c.pos.y = some (c1, b)) {p : Pos} (hl : c'.lines = c1.lines) (hfix : fixSelection { c1 with pos := p } = some c')
    (hsw : Swapped c.lines c'.lines y c.pos.y) {l : Text} (hyl : c.lines[y]? = some l) (hp : c'.pos = ⟨y, min c.pos.x l.length⟩) :
    selDocOf c' = (selDocOf c).carried y := by
  unfold SelDoc.carried
  rw [selDoc_text h, textLines_join h.oneLine h.cleanLines, hyl, selDoc_place h]
  simp only
  obtain ⟨l0, q1, q2⟩ := h.pos
  refine exchanged_eq h h' hsw hy (List.getElem?_eq_some_iff.1 q1).1 ?_ ?_
  · obtain ⟨l', g1, g2⟩ := h'.pos
    rw [hp] at g1 g2 ⊢
    exact (nearest_eq h' g1 g2).symm
  · have f1 := swapLines_follows hs h1
    have f2 : FollowsTail c1.tail c' := (fixSelection_follows hfix h' :)
    unfold FollowsTail at f1
    rw [← hl] at f1
    exact FollowsTail.twice h' f1 f2

theorem moveCurrentLineUp_doc {c : Content} (h : c.Valid) : ∃ c' b, c.moveCurrentLineUp = some (c', b) ∧ c'.Valid ∧
    selDocOf c' = if c.pos.y = 0 then selDocOf c else (selDocOf c).carried (c.pos.y - 1) := by
  obtain ⟨c', r, k1, k2, k3, k4, k5⟩ := moveCurrentLineUp_ok h
  refine ⟨c', r, k1, k2, ?_⟩
  by_cases h0 : c.pos.y = 0
  · rw [if_pos h0]
    cases r with
    | true => have := k4.1 rfl; omega
    | false => rw [k3 rfl]
  · rw [if_neg h0]
    have hr := k4.2 (by omega)
    subst hr
    obtain ⟨q1, _, l, q2, q3⟩ := k5 rfl
    unfold moveCurrentLineUp at k1
    rw [if_pos (by omega)] at k1
    obtain ⟨c1, r1, m1, m2, _⟩ := swapLines_ok h (c.pos.y - 1) c.pos.y
    rw [m1] at k1
    simp only [Option.bind_eq_bind, Option.bind_some] at k1
    cases r1 with
    | false => simp at k1
    | true =>
      simp only [if_true, Option.bind_eq_some_iff] at k1
      obtain ⟨y, _, d, hd, k1⟩ := k1
      cases k1
      exact carried_eq h m2 k2 (List.getElem?_eq_some_iff.1 q2).1 m1 (by have := fixSelection_lines hd m2.oneLine; exact this) hd q1 q2 q3

theorem moveCurrentLineDown_doc {c : Content} (h : c.Valid) : ∃ c' b, c.moveCurrentLineDown = some (c', b) ∧ c'.Valid ∧
    selDocOf c' = (selDocOf c).carried (c.pos.y + 1) := by
  obtain ⟨c', r, k1, k2, k3, k4, k5⟩ := moveCurrentLineDown_ok h
  refine ⟨c', r, k1, k2, ?_⟩
  cases r with
  | false =>
    have : ¬ c.pos.y + 1 < c.lines.length := fun hl => by simpa using k4.2 hl
    rw [k3 rfl, SelDoc.carried, selDoc_text h, textLines_join h.oneLine h.cleanLines, List.getElem?_eq_none (by omega)]
  | true =>
    obtain ⟨q1, _, l, q2, q3⟩ := k5 rfl
    unfold moveCurrentLineDown at k1
    obtain ⟨c1, r1, m1, m2, _⟩ := swapLines_ok h (c.pos.y + 1) c.pos.y
    rw [m1] at k1
    simp only [Option.bind_eq_bind, Option.bind_some] at k1
    cases r1 with
    | false => simp at k1
    | true =>
      simp only [if_true, Option.bind_eq_some_iff] at k1
      obtain ⟨d, hd, k1⟩ := k1
      cases k1
      exact carried_eq h m2 k2 (List.getElem?_eq_some_iff.1 q2).1 m1 (by have := fixSelection_lines hd m2.oneLine; exact this) hd q1 q2 q3

/-! ### Insertions -/

private theorem linesR_append (B C : List Text) : linesR (B ++ C) = linesR B ++ linesR C := by simp [linesR]

theorem pushChar_doc {c : Content} (h : c.Valid) (ch : Char) : ∃ c', c.pushChar ch = some c' ∧ c'.Valid ∧
    selDocOf c' = ⟨⟨c.before, c.after ++ keptText [ch]⟩, c.tail⟩ := by
  obtain ⟨A, a, b, B, h1, h2, h3, h4, hA, ha, hb, hB⟩ := h.split
  obtain ⟨c', k1, k2, k3, k4, k5⟩ := pushChar_ok h ch
  refine ⟨c', k1, k2, ?_⟩
  have fin : ∀ b' B', c'.lines = A ++ (a ++ b') :: B' → selDocOf c' = ⟨⟨c.before, c.after ++ keptText [ch]⟩, c.tail⟩ := by
    intro b' B' hl
    have hb' := before_eq hl (by rw [k3, h2])
    have e : c'.before = c.before := by rw [hb', h3]
    rw [selDocOf, k4, e]
    have hj := k2.join
    rw [k5, ← h.join, e, List.append_assoc] at hj
    rw [List.append_cancel_left hj]
  unfold pushChar at k1
  split at k1
  · cases k1
    exact fin b (B ++ [[]]) (by rw [h1]; simp)
  · split at k1
    · cases k1
      exact fin b B h1
    · simp only [Option.bind_eq_bind, Option.bind_eq_some_iff] at k1
      obtain ⟨y, hy, l, hl, ls, hls, k1⟩ := k1
      cases k1
      have hy : y = c.lines.length - 1 := by
        unfold csub at hy
        split at hy
        · cases hy; rfl
        · cases hy
      unfold vecSet at hls
      split at hls
      · cases hls
        subst hy
        rcases concat_cases B with rfl | ⟨B0, m, rfl⟩
        · refine fin (b ++ [ch]) [] ?_
          simp only [h1] at hl ⊢
          simp at hl
          subst hl
          simp
        · refine fin b (B0 ++ [m ++ [ch]]) ?_
          simp only [h1] at hl ⊢
          have e : A ++ (a ++ b) :: (B0 ++ [m]) = (A ++ (a ++ b) :: B0) ++ [m] := by simp
          rw [e] at hl ⊢
          simp at hl
          subst hl
          rw [List.set_append_right _ _ (by simp)]
          simp
      · cases hls

theorem insertChar_doc {c : Content} (h : c.Valid) (ch : Char) : ∃ c', c.insertChar ch = some c' ∧ c'.Valid ∧
    selDocOf c' = (selDocOf c).typeChar ch := by
  obtain ⟨c', h1, h2, h3, h4⟩ := insertChar_ok h ch
  refine ⟨c', h1, h2, ?_⟩
  rw [selDoc_keep h2 (insertChar_follows h1 h2), h3, h4]
  rfl

theorem insertStr_doc : ∀ (s : Text) {c : Content}, c.Valid → ∃ c', c.insertStr s = some c' ∧ c'.Valid ∧
    selDocOf c' = s.foldl SelDoc.typeChar (selDocOf c)
  | [], c, h => ⟨c, rfl, h, rfl⟩
  | ch :: s, c, h => by
    obtain ⟨c1, h1, h2, h3⟩ := insertChar_doc h ch
    obtain ⟨c2, k1, k2, k3⟩ := insertStr_doc s h2
    refine ⟨c2, by simp [Content.insertStr, h1] at k1 ⊢; exact k1, k2, ?_⟩
    rw [k3, h3]
    rfl

/-! ### All the methods -/

/-- One method. -/
theorem contentOp_doc (cw : Char → Nat) (alnum : Char → Bool) {c : Content} (h : c.Valid) (op : ContentOp) (hr : (selDocOf c).Regular op) :
    ∃ c', op.exec cw alnum c = some c' ∧ c'.Valid ∧ selDocOf c' = (selDocOf c).call cw alnum op := by
  have pair : ∀ {r : Run (Content × Bool)} {d : SelDoc}, (∃ c' b, r = some (c', b) ∧ c'.Valid ∧ selDocOf c' = d) →
      ∃ c', r.map Prod.fst = some c' ∧ c'.Valid ∧ selDocOf c' = d := by
    rintro r d ⟨c', b, h1, h2, h3⟩
    exact ⟨c', by rw [h1]; rfl, h2, h3⟩
  have moved : ∀ {r : Run (Content × Bool)} {d : Doc}, (∃ c' b, r = some (c', b) ∧ c'.Valid ∧ c'.tail = c.tail ∧ c'.doc = d) →
      ∃ c', r.map Prod.fst = some c' ∧ c'.Valid ∧ selDocOf c' = ⟨d, (selDocOf c).anchor⟩ := by
    rintro r d ⟨c', b, h1, h2, h3, h4⟩
    refine ⟨c', by rw [h1]; rfl, h2, ?_⟩
    show (⟨c'.doc, c'.tail⟩ : SelDoc) = _
    rw [h4, h3]
    rfl
  have hcur : ∃ l, c.lines[c.pos.y]? = some l ∧ c.pos.x ≤ l.length ∧
      Doc.lastLine (selDocOf c).doc.before ++ Doc.firstLine (selDocOf c).doc.after = l := by
    obtain ⟨A, a, b, B, h1, h2, h3, h4, hA, ha, hb, hB⟩ := h.split
    refine ⟨a ++ b, by rw [h1, h2]; simp, by rw [h2]; simp, ?_⟩
    show Doc.lastLine c.before ++ Doc.firstLine c.after = _
    rw [h3, h4, Doc.lastLine_eq _ _ (fun hm => ha _ hm (.inl rfl)) (linesL_end A),
      Doc.firstLine_eq _ _ (fun hm => hb _ hm (.inl rfl)) (linesR_start B)]
  have htl : textLines (selDocOf c).text = c.lines := by rw [selDoc_text h, textLines_join h.oneLine h.cleanLines]
  cases op with
  | setCursorPos p =>
    obtain ⟨q, g1, g2, _⟩ := makeValidPos_ok h.oneLine p
    have e := g1
    rw [makeValidPos_nearest h.oneLine h.cleanLines] at e
    cases e
    refine ⟨⟨nearest (joinLines c.lines) p, c.tail, c.lines⟩, by simp only [ContentOp.exec, setCursorPos, g1, Option.bind_eq_bind, Option.bind_some],
      ⟨h.oneLine, g2, h.tail, h.clean⟩, ?_⟩
    rw [selDoc_moved h g2, SelDoc.call, selDoc_text h]
    rfl
  | makeSelection =>
    refine ⟨_, rfl, makeSelection_ok h, ?_⟩
    rw [SelDoc.call, selDoc_place h]
    unfold Content.makeSelection
    cases ht : c.tail with
    | none => simp [selDocOf, ht, Content.before, Content.after]
    | some t => simp [selDocOf, ht]
  | unselect => exact ⟨_, rfl, unselect_ok h, rfl⟩
  | setSelectionTail p =>
    obtain ⟨l, l1, l2, l3⟩ := hcur
    have hr : p.y < (textLines (selDocOf c).text).length → p.y = (selDocOf c).place.y ∨ nearest (selDocOf c).text p = p := hr
    rw [htl, selDoc_place h] at hr
    have hp : c.lines.length ≤ p.y ∨ p.y = c.pos.y ∨ ValidPos c.lines p := by
      by_cases hy : p.y < c.lines.length
      · rcases hr hy with hr | hr
        · exact .inr (.inl hr)
        · right; right
          rw [nearest, htl, List.getElem?_eq_getElem hy] at hr
          refine ⟨_, List.getElem?_eq_getElem hy, ?_⟩
          have := congrArg Pos.x hr
          simp only at this
          omega
      · left; omega
    obtain ⟨c', k1, k2, k3, k4⟩ := setSelectionTail_ok h p hp
    refine ⟨c', k1, k2, ?_⟩
    rw [SelDoc.call, htl, l3]
    unfold setSelectionTail at k1
    by_cases hy : p.y < c.lines.length
    · rw [if_neg (by omega), l1] at k1
      simp only [Option.bind_eq_bind, Option.bind_some] at k1
      cases k1
      rw [if_pos hy]
      rfl
    · rw [if_pos (by omega)] at k1
      simp only [Option.bind_eq_bind, Option.bind_eq_some_iff] at k1
      obtain ⟨e, he, k1⟩ := k1
      cases k1
      rw [if_neg hy]
      have : c.makeValidPos p = some e := by rw [makeValidPos, if_pos (by omega)]; exact he
      rw [makeValidPos_nearest h.oneLine h.cleanLines, ← selDoc_text h] at this
      cases this
      rfl
  | pushChar ch => exact pushChar_doc h ch
  | clear => exact ⟨{}, rfl, Content.default_valid, rfl⟩
  | insertNewLine =>
    obtain ⟨c', h1, h2, h3, h4⟩ := insertNewLine_ok h
    refine ⟨c', h1, h2, ?_⟩
    rw [selDoc_keep h2 (insertNewLine_follows h1 h2), h3, h4]
    rfl
  | insertChar ch => exact insertChar_doc h ch
  | insertStr s => exact insertStr_doc s h
  | setStr s =>
    obtain ⟨c', h1, h2, h3, h4, h5⟩ := setStr_ok h s
    refine ⟨c', h1, h2, ?_⟩
    rw [SelDoc.call, selDoc_text h]
    by_cases hs : joinLines c.lines = s
    · rw [if_pos hs, h4 hs]
    · rw [if_neg hs]
      obtain ⟨e1, e2⟩ := h5 hs
      have := h2.join
      rw [e1, List.append_nil, h3] at this
      rw [selDocOf, this, e1, e2]
  | delCharLeft => exact pair (selDoc_backspace h)
  | selectWordAround =>
    obtain ⟨c', r, l, k1, k2, k3, k4, k5⟩ := C25_select alnum h
    obtain ⟨l', l1, l2, l3⟩ := hcur
    rw [k4] at l1
    cases l1
    refine pair ⟨c', r, k1, k2, ?_⟩
    simp only [SelDoc.call]
    rw [l3, selDoc_place h]
    rcases k5 with ⟨_, rfl, k6⟩ | ⟨_, a, b', t1, t2, t3, t4, t5, t6, t7⟩
    · rw [wordAround_none alnum l _ k6]
    · rw [wordAround_eq alnum l _ a b' t3 t4 t5 t6 t7]
      have e : c' = ⟨⟨c.pos.y, b'⟩, some ⟨c.pos.y, a⟩, c.lines⟩ := by
        obtain ⟨pos, tail, lines⟩ := c'
        simp only at t1 t2 k3
        rw [t1, t2, k3]
      subst e
      exact selDoc_moved h k2.pos _
  | delCharBelow => exact pair (selDoc_delete h)
  | delSelection =>
    simp only [SelDoc.call]
    rw [selDoc_wide h]
    by_cases hw : c.hasWideSelection = true
    · obtain ⟨c', h1, h2, h3⟩ := selDoc_erase h hw
      exact pair ⟨c', true, h1, h2, by rw [hw, h3]; rfl⟩
    · have hw : c.hasWideSelection = false := by simpa using hw
      obtain ⟨c', b, h1, h2, h3⟩ := selDoc_delete h
      exact pair ⟨c', b, by rw [C23_cut_narrow hw, h1], h2, by rw [hw, h3]; rfl⟩
  | swapLines i j =>
    simp only [SelDoc.call]
    rw [htl, selDoc_place h]
    exact pair (swapLines_doc h i j)
  | moveCurrentLineUp =>
    simp only [SelDoc.call]
    rw [selDoc_place h]
    exact pair (moveCurrentLineUp_doc h)
  | moveCurrentLineDown =>
    simp only [SelDoc.call]
    rw [selDoc_place h]
    exact pair (moveCurrentLineDown_doc h)
  | moveRight =>
    obtain ⟨c', r, k1, k2, k3, k4, k5⟩ := Content.moveRight_ok h
    refine moved ⟨c', r, k1, k2, k4, selDoc_right ?_⟩
    rcases k5 with ⟨e1, rfl, _⟩ | ⟨ch, e1, e2, _⟩
    · exact .inl ⟨e1, rfl⟩
    · exact .inr ⟨ch, e1, e2⟩
  | moveLinesUp n => exact moved (Content.moveLinesUp_doc cw h n)
  | moveUp => exact moved (Content.moveLinesUp_doc cw h 1)
  | moveLinesDown n => exact moved (Content.moveLinesDown_doc cw h n)
  | moveDown => exact moved (Content.moveLinesDown_doc cw h 1)
  | moveLeft =>
    obtain ⟨c', r, k1, k2, k3, k4, k5⟩ := Content.moveLeft_ok h
    refine moved ⟨c', r, k1, k2, k4, selDoc_left ?_⟩
    rcases k5 with ⟨e1, rfl, _⟩ | ⟨ch, e1, e2, _⟩
    · exact .inl ⟨e1, rfl⟩
    · exact .inr ⟨ch, e1, e2⟩
  | moveToEnd =>
    obtain ⟨c', k1, k2, k3, k4, k5⟩ := moveToEnd_ok h
    refine moved ⟨c', _, k1, k2, k4, ?_⟩
    have := k2.join
    rw [k5, List.append_nil, k3, ← selDoc_text h] at this
    rw [Content.doc, this, k5]
  | moveToStart =>
    obtain ⟨c', k1, k2, k3, k4, k5⟩ := moveToStart_ok h
    have e := moved (r := some c.moveToStart) (d := ⟨[], (selDocOf c).text⟩) ⟨c', _, by rw [k1], k2, k4, by
      have := k2.join
      rw [k5, List.nil_append, k3, ← selDoc_text h] at this
      rw [Content.doc, this, k5]⟩
    exact e
  | moveToLineEnd =>
    obtain ⟨c', seg, k1, k2, k3, k4, k5, k6, k7, k8⟩ := Content.moveToLineEnd_ok h
    refine moved ⟨c', _, k1, k2, k4, ?_⟩
    show c'.doc = c.doc.toEnd
    rw [show c.doc = ⟨c.before, seg ++ c'.after⟩ by simp [Content.doc, k6], Doc.toEnd_eq _ _ _ k7 k8, Content.doc, k5]
  | moveToLineStart =>
    obtain ⟨c', seg, k1, k2, k3, k4, k5, k6, k7, k8⟩ := Content.moveToLineStart_ok h
    have e := moved (r := some c.moveToLineStart) (d := c.doc.home) ⟨c', _, by rw [k1], k2, k4, by
      rw [show c.doc = ⟨c'.before ++ seg, c.after⟩ by simp [Content.doc, k5], Doc.home_eq _ _ _ k7 k8, Content.doc, k6]⟩
    exact e
  | moveWordLeft => exact pair (moveWordLeft_doc alnum h)
  | moveWordRight => exact pair (moveWordRight_doc alnum h)
  | delWordLeft => exact pair (delWordLeft_doc alnum h)
  | delWordRight => exact pair (delWordRight_doc alnum h)

end Verif.Props

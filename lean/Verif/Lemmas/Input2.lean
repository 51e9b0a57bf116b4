import Verif.Lemmas.Input
/-! Lemmas on the removal of selections and on the moves of lines in input contents. -/
namespace Verif
namespace Content

theorem vecDrain_mid (A M B : List α) (i j : Nat) (hi : i = A.length) (hj : j = A.length + M.length) :
    vecDrain (A ++ (M ++ B)) i j = some (A ++ B) := by
  subst hi hj
  rw [vecDrain, if_pos (by simp), List.take_left, ← List.append_assoc]
  have : A.length + M.length = (A ++ M).length := by simp
  rw [this, List.drop_left]

/-- Lines without special characters. -/
def Clean (ls : List Text) : Prop := ∀ l ∈ ls, ∀ ch ∈ l, ¬ NotStored ch

theorem clean_sub {ls ls' : List Text} (h : Clean ls) (hs : ∀ l' ∈ ls', l' = [] ∨ ∃ l ∈ ls, l'.Sublist l) : Clean ls' := by
  intro l' hl' ch hch
  rcases hs l' hl' with rfl | ⟨l, hl, h1⟩
  · simp at hch
  · exact h l hl ch (h1.subset hch)

/-- Two positions in the same line. -/
theorem split_in_line {ls : List Text} {p q : Pos} (hp : ValidPos ls p) (hq : ValidPos ls q) (hy : p.y = q.y) (hx : p.x < q.x) :
    ∃ A a b e B, ls = A ++ (a ++ (b ++ e)) :: B ∧ p = ⟨A.length, a.length⟩ ∧ q = ⟨A.length, a.length + b.length⟩ ∧ b ≠ [] := by
  obtain ⟨A, a, r, B, h1, h2⟩ := hp.split
  obtain ⟨l, h3, h4⟩ := hq
  rw [← hy, h2, h1, get_mid] at h3
  cases h3
  rw [h2] at hx
  simp only at hx
  refine ⟨A, a, r.take (q.x - a.length), r.drop (q.x - a.length), B, by rw [List.take_append_drop]; exact h1, h2, ?_, ?_⟩
  · refine pos_eq (by rw [← hy, h2]) ?_
    simp only [List.length_take]
    simp only [List.length_append] at h4
    omega
  · intro h0
    have := congrArg List.length h0
    simp only [List.length_take, List.length_nil] at this
    simp only [List.length_append] at h4
    omega

/-- Two positions in different lines. -/
theorem split_in_lines {ls : List Text} {p q : Pos} (hp : ValidPos ls p) (hq : ValidPos ls q) (hy : p.y < q.y) :
    ∃ A a b M d e B, ls = A ++ (a ++ b) :: (M ++ (d ++ e) :: B) ∧ p = ⟨A.length, a.length⟩ ∧
      q = ⟨A.length + 1 + M.length, d.length⟩ := by
  obtain ⟨A, a, b, R, h1, h2⟩ := hp.split
  obtain ⟨l, h3, h4⟩ := hq
  have hlt := (List.getElem?_eq_some_iff.1 h3).1
  rw [h2] at hy
  simp only at hy
  have hR : R[q.y - (A.length + 1)]? = some l := by
    rw [h1] at h3
    rw [show q.y = (A ++ [a ++ b]).length + (q.y - (A.length + 1)) by simp; omega] at h3
    rw [show A ++ (a ++ b) :: R = (A ++ [a ++ b]) ++ R by simp] at h3
    rw [List.getElem?_append_right (by omega)] at h3
    simpa using h3
  obtain ⟨hj, hl⟩ := List.getElem?_eq_some_iff.1 hR
  refine ⟨A, a, b, R.take (q.y - (A.length + 1)), l.take q.x, l.drop q.x, R.drop (q.y - (A.length + 1) + 1), ?_, h2, ?_⟩
  · rw [List.take_append_drop, ← hl, List.getElem_cons_drop, List.take_append_drop]
    exact h1
  · refine pos_eq ?_ ?_
    · simp only [List.length_take]; omega
    · simp only [List.length_take]; omega

/-- After the change of the lines, the cursor is put at the given position. -/
theorem cursor_ok {c : Content} {A : List Text} {a b : Text} {B : List Text} (hc : Clean (A ++ (a ++ b) :: B)) (p : Pos)
    (hp : p = ⟨A.length, a.length⟩) :
    ∃ c', (setCursorPos { c with lines := A ++ (a ++ b) :: B } p).map (fun c' => ({ c' with tail := none } : Content)) = some c' ∧
      c'.Valid ∧ c'.tail = none ∧ c'.before = linesL A ++ a ∧ c'.after = b ++ linesR B := by
  subst hp
  obtain ⟨q, h1, h2, h3, _⟩ := makeValidPos_ok (c := { c with lines := A ++ (a ++ b) :: B }) (by simp) ⟨A.length, a.length⟩
  have := h3 (validPos_mid A a b B)
  subst this
  refine ⟨{ c with lines := A ++ (a ++ b) :: B, pos := ⟨A.length, a.length⟩, tail := none }, by simp [setCursorPos, h1], ?_, rfl,
    before_eq rfl rfl, after_eq rfl rfl⟩
  exact Valid.mk' rfl rfl h2 (by simp) hc

/-- After the removal of the last lines, the cursor is put at the end. -/
theorem cursor_end_ok {c : Content} {A : List Text} {l : Text} (hc : Clean (A ++ [l])) (p : Pos) (hp : p.y = A.length + 1) :
    ∃ c', (setCursorPos { c with lines := A ++ [l] } p).map (fun c' => ({ c' with tail := none } : Content)) = some c' ∧
      c'.Valid ∧ c'.tail = none ∧ c'.before = linesL A ++ l ∧ c'.after = [] := by
  refine ⟨{ c with lines := A ++ [l], pos := ⟨A.length, l.length⟩, tail := none }, ?_, ?_, rfl, ?_, ?_⟩
  · simp [setCursorPos, makeValidPos, hp, endPos, csub]
  · exact Valid.mk' rfl rfl (validPos_at A l [] _ (Nat.le_refl _)) (by simp) hc
  · exact before_eq (A := A) (a := l) (b := []) (B := []) (by simp) rfl
  · exact after_eq (A := A) (a := l) (b := []) (B := []) (by simp) rfl

/-- What a removal does: the lines are replaced, and the cursor goes at the start. -/
def CutOk (c : Content) (ls : List Text) (p q : Pos) (mid : Text) : Prop :=
  ∃ c', (setCursorPos { c with lines := ls } p).map (fun c' => ({ c' with tail := none } : Content)) = some c' ∧
    c'.Valid ∧ c'.tail = none ∧
    ((c'.before = textBefore c.lines p ∧ c'.after = mid ++ (textAfter c.lines q).drop 1) ∨
      (mid = [] ∧ q.y + 1 = c.lines.length ∧ p.x = 0 ∧ 0 < p.y ∧
        textBefore c.lines p = c'.before ++ ['\n'] ∧ textAfter c.lines q = [] ∧ c'.after = []))

theorem whole_lines_ok {c : Content} {A M B : List Text} (hc : Clean c.lines) (hl : c.lines = A ++ (M ++ B)) {p q : Pos}
    (hp : p = ⟨A.length, 0⟩) (hb : textBefore c.lines p = linesL A) (ha : textAfter c.lines q = linesR B)
    (hq : q.y + 1 = A.length + M.length) : CutOk c (atLeastOneLine (A ++ B)) p q [] := by
  have hAB : Clean (A ++ B) := by
    intro l h
    refine hc l ?_
    rw [hl]
    simp only [List.mem_append] at *
    rcases h with h | h
    · exact .inl h
    · exact .inr (.inr h)
  cases B with
  | cons m B =>
    have : atLeastOneLine (A ++ m :: B) = A ++ ([] ++ m) :: B := by simp [atLeastOneLine]
    rw [this]
    obtain ⟨c', k1, k2, k3, k4, k5⟩ := cursor_ok (c := c) (A := A) (a := []) (b := m) (B := B) hAB p hp
    refine ⟨c', k1, k2, k3, .inl ⟨by rw [k4, hb]; simp, ?_⟩⟩
    rw [k5, ha]; simp [linesR]
  | nil =>
    rcases concat_cases A with rfl | ⟨A0, l, rfl⟩
    · have : atLeastOneLine (([] : List Text) ++ []) = [] ++ ([] ++ []) :: [] := rfl
      rw [this]
      obtain ⟨c', k1, k2, k3, k4, k5⟩ := cursor_ok (c := c) (A := []) (a := []) (b := []) (B := []) (by
        intro l h; simp at h; subst h; simp) p hp
      refine ⟨c', k1, k2, k3, .inl ⟨by rw [k4, hb]; simp, ?_⟩⟩
      rw [k5, ha]; simp [linesR]
    · have : atLeastOneLine (A0 ++ [l] ++ []) = A0 ++ [l] := by simp [atLeastOneLine]
      rw [this]
      obtain ⟨c', k1, k2, k3, k4, k5⟩ := cursor_end_ok (c := c) (A := A0) (l := l) (by simpa using hAB) p (by rw [hp]; simp)
      refine ⟨c', k1, k2, k3, .inr ⟨rfl, ?_, by rw [hp], by rw [hp]; simp, ?_, ?_, k5⟩⟩
      · rw [hq, hl]; simp only [List.length_append, List.length_cons, List.length_nil]; omega
      · rw [hb, k4]; simp [linesL]
      · rw [ha]; rfl

theorem delInLine_ok {c : Content} (hc : Clean c.lines) {p q : Pos} (hp : ValidPos c.lines p) (hq : ValidPos c.lines q)
    (hy : p.y = q.y) (hx : p.x < q.x) {s : Text}
    (hs : textBefore c.lines p ++ s = textBefore c.lines q ++ (textAfter c.lines q).take 1) :
    ∃ ls l mid, c.delInLine p q = some ls ∧ CutOk c ls p q mid ∧ c.lines[q.y]? = some l ∧ mid.Sublist s ∧
      (mid ≠ [] → q.x = l.length ∧ q.y + 1 < c.lines.length ∧ 0 < p.x) := by
  obtain ⟨A, a, b, e, B, h1, h2, h3, h4⟩ := split_in_line hp hq hy hx
  have tb1 : textBefore c.lines p = linesL A ++ a := by rw [h1, h2, textBefore_mid]
  have e1 : A ++ (a ++ (b ++ e)) :: B = A ++ ((a ++ b) ++ e) :: B := by simp
  have e3 : q = ⟨A.length, (a ++ b).length⟩ := by rw [h3]; simp
  have tb2 : textBefore c.lines q = linesL A ++ a ++ b := by rw [h1, e1, e3, textBefore_mid]; simp
  have ta2 : textAfter c.lines q = e ++ linesR B := by rw [h1, e1, e3, textAfter_mid]
  have hl : c.lines[p.y]? = some (a ++ (b ++ e)) := by rw [h1, h2, get_mid]
  have hs' : s = b ++ (e ++ linesR B).take 1 := by
    rw [tb1, tb2, ta2, List.append_assoc, List.append_assoc, List.append_assoc] at hs
    exact List.append_cancel_left (List.append_cancel_left hs)
  unfold delInLine
  rw [hl]
  simp only [Option.bind_eq_bind, Option.bind_some]
  cases e with
  | cons ch e =>
    rw [if_neg (by rw [h3]; simp)]
    have hd : vecDrain (a ++ (b ++ ch :: e)) p.x (q.x + 1) = some (a ++ e) := by
      have := vecDrain_mid a (b ++ [ch]) e p.x (q.x + 1) (by rw [h2]) (by rw [h3]; simp; omega)
      simpa using this
    have hset : vecSet c.lines p.y (a ++ e) = some (A ++ (a ++ e) :: B) := by
      rw [h1, h2]; exact vecSet_mid _ _ _ _
    rw [hd]
    simp only [Option.bind_some, hset]
    obtain ⟨c', k1, k2, k3, k4, k5⟩ := cursor_ok (c := c) (A := A) (a := a) (b := e) (B := B) (by
      refine clean_sub hc ?_
      rw [h1]
      intro l hl
      simp only [List.mem_append, List.mem_cons] at hl
      right
      rcases hl with hl | rfl | hl
      · exact ⟨l, by simp [hl], List.Sublist.refl _⟩
      · refine ⟨a ++ (b ++ ch :: e), by simp, (List.Sublist.refl _).append ?_⟩
        exact (List.sublist_cons_self ch e).trans (List.sublist_append_right b (ch :: e))
      · exact ⟨l, by simp [hl], List.Sublist.refl _⟩) p h2
    refine ⟨_, a ++ (b ++ ch :: e), [], rfl, ⟨c', k1, k2, k3, .inl ⟨by rw [k4, tb1], by rw [k5, ta2]; simp⟩⟩, by rw [← hy, hl], List.nil_sublist _, by simp⟩
  | nil =>
    rw [if_pos (by rw [h3]; simp)]
    by_cases ha : p.x = 0
    · rw [if_pos ha]
      have : a = [] := by rw [h2] at ha; exact List.eq_nil_of_length_eq_zero ha
      subst this
      have hd : vecDrain c.lines p.y (p.y + 1) = some (A ++ B) := by
        have := vecDrain_mid A [[] ++ (b ++ [])] B p.y (p.y + 1) (by rw [h2]) (by rw [h2]; simp)
        rw [h1]; simpa using this
      rw [hd]
      simp only [Option.bind_some]
      refine ⟨_, [] ++ (b ++ []), [], rfl, ?_, by rw [← hy, hl], List.nil_sublist _, by simp⟩
      exact whole_lines_ok (M := [[] ++ (b ++ [])]) hc (by rw [h1]; simp) h2 (by rw [tb1]; simp) (by rw [ta2]; simp) (by rw [h3]; simp)
    · rw [if_neg ha]
      have hd : vecDrain (a ++ (b ++ [])) p.x (a ++ (b ++ [])).length = some a := by
        have := vecDrain_mid a b [] p.x (a ++ (b ++ [])).length (by rw [h2]) (by simp)
        simpa using this
      have hset : vecSet c.lines p.y a = some (A ++ (a ++ []) :: B) := by
        rw [h1, h2, List.append_nil a]; exact vecSet_mid _ _ _ _
      rw [hd]
      simp only [Option.bind_some, hset]
      obtain ⟨c', k1, k2, k3, k4, k5⟩ := cursor_ok (c := c) (A := A) (a := a) (b := []) (B := B) (by
        refine clean_sub hc ?_
        rw [h1]
        intro l hl
        simp only [List.mem_append, List.mem_cons] at hl
        right
        rcases hl with hl | rfl | hl
        · exact ⟨l, by simp [hl], List.Sublist.refl _⟩
        · refine ⟨a ++ (b ++ []), by simp, ?_⟩
          simp
        · exact ⟨l, by simp [hl], List.Sublist.refl _⟩) p h2
      refine ⟨_, a ++ (b ++ []), (linesR B).take 1, rfl, ⟨c', k1, k2, k3, .inl ⟨by rw [k4, tb1], ?_⟩⟩, by rw [← hy, hl], ?_, ?_⟩
      · rw [k5, ta2, List.nil_append, List.take_append_drop]
      · rw [hs']; simp
      · intro hm
        refine ⟨by rw [h3]; simp, ?_, by omega⟩
        cases B with
        | nil => simp [linesR] at hm
        | cons m B => rw [h1, h3]; simp

theorem delFirstLine_ok (A : List Text) (a b : Text) (B : List Text) :
    delFirstLine (A ++ (a ++ b) :: B) ⟨A.length, a.length⟩ =
      some (if a = [] then (A ++ b :: B, A.length) else (A ++ a :: B, A.length + 1)) := by
  unfold delFirstLine
  by_cases h : a = []
  · subst h; simp
  · have : 0 < a.length := List.length_pos_iff.2 h
    rw [if_pos this, if_neg h]
    simp only [get_mid, Option.bind_eq_bind, Option.bind_some, vecSet_mid, List.take_left]

theorem delLastLine_ok (A : List Text) (d e : Text) (B : List Text) (p : Pos) (hp : p = ⟨A.length, d.length⟩) (hA : 0 < A.length) :
    delLastLine (A ++ (d ++ e) :: B) p =
      some (if e = [] then (A ++ d :: B, A.length) else (A ++ e :: B, A.length - 1)) := by
  subst hp
  unfold delLastLine
  simp only [get_mid, Option.bind_eq_bind, Option.bind_some]
  by_cases h : e = []
  · subst h; simp
  · have : 0 < e.length := List.length_pos_iff.2 h
    have hd : vecDrain (d ++ e) 0 d.length = some e := by
      have := vecDrain_mid [] d e 0 d.length rfl (by simp)
      simpa using this
    rw [if_pos (by simp; omega), if_neg h, hd]
    simp only [Option.bind_some, vecSet_mid]
    rw [csub, if_pos (by omega)]
    rfl

theorem delInLines_ok {c : Content} (hc : Clean c.lines) {p q : Pos} (hp : ValidPos c.lines p) (hq : ValidPos c.lines q)
    (hy : p.y < q.y) {s : Text}
    (hs : textBefore c.lines p ++ s = textBefore c.lines q ++ (textAfter c.lines q).take 1) :
    ∃ ls l mid, c.delInLines p q = some ls ∧ CutOk c ls p q mid ∧ c.lines[q.y]? = some l ∧ mid.Sublist s ∧
      (mid ≠ [] → q.x < l.length ∨ 0 < p.x) := by
  obtain ⟨A, a, b, M, d, e, B, h1, h2, h3⟩ := split_in_lines hp hq hy
  have tb1 : textBefore c.lines p = linesL A ++ a := by rw [h1, h2, textBefore_mid]
  have e1 : A ++ (a ++ b) :: (M ++ (d ++ e) :: B) = (A ++ (a ++ b) :: M) ++ (d ++ e) :: B := by simp
  have e3 : q = ⟨(A ++ (a ++ b) :: M).length, d.length⟩ := by rw [h3]; simp; omega
  have lin : linesL (A ++ (a ++ b) :: M) = linesL A ++ a ++ b ++ linesR M ++ ['\n'] := by
    have : ∀ M : List Text, '\n' :: linesL M = linesR M ++ ['\n'] := by
      intro M
      induction M with
      | nil => rfl
      | cons m M ih =>
        have h5 : linesL (m :: M) = m ++ '\n' :: linesL M := by simp [linesL]
        have h6 : linesR (m :: M) = '\n' :: (m ++ linesR M) := by simp [linesR]
        rw [h5, h6, ih]; simp
    rw [linesL_append]
    have h5 : linesL ((a ++ b) :: M) = (a ++ b) ++ '\n' :: linesL M := by simp [linesL]
    rw [h5, this]; simp
  have tb2 : textBefore c.lines q = linesL A ++ a ++ b ++ linesR M ++ ['\n'] ++ d := by
    rw [h1, e1, e3, textBefore_mid, lin]
  have ta2 : textAfter c.lines q = e ++ linesR B := by rw [h1, e1, e3, textAfter_mid]
  have hl : c.lines[q.y]? = some (d ++ e) := by rw [h1, e1, e3, get_mid]
  have hs' : s = b ++ linesR M ++ ['\n'] ++ d ++ (e ++ linesR B).take 1 := by
    rw [tb1, tb2, ta2] at hs
    simp only [List.append_assoc] at hs ⊢
    exact List.append_cancel_left (List.append_cancel_left hs)
  have hsub : ∀ l ∈ [a, b, d, e], ∃ m ∈ c.lines, l.Sublist m := by
    intro l hl
    simp only [List.mem_cons, List.not_mem_nil, or_false] at hl
    rw [h1]
    rcases hl with rfl | rfl | rfl | rfl
    · exact ⟨l ++ b, by simp, List.sublist_append_left _ _⟩
    · exact ⟨a ++ l, by simp, List.sublist_append_right _ _⟩
    · exact ⟨l ++ e, by simp, List.sublist_append_left _ _⟩
    · exact ⟨d ++ l, by simp, List.sublist_append_right _ _⟩
  have hcl : ∀ R : List Text, (∀ l ∈ R, l ∈ A ∨ l ∈ M ∨ l ∈ B ∨ l ∈ [a, b, d, e]) → Clean R := by
    intro R hR
    refine clean_sub hc ?_
    intro l hl
    right
    rcases hR l hl with h | h | h | h
    · exact ⟨l, by rw [h1]; simp [h], List.Sublist.refl _⟩
    · exact ⟨l, by rw [h1]; simp [h], List.Sublist.refl _⟩
    · exact ⟨l, by rw [h1]; simp [h], List.Sublist.refl _⟩
    · exact hsub l h
  unfold delInLines
  rw [h1, h2, delFirstLine_ok]
  simp only [Option.bind_eq_bind, Option.bind_some]
  by_cases ha : a = []
  · rw [if_pos ha]
    simp only
    rw [show A ++ b :: (M ++ (d ++ e) :: B) = (A ++ b :: M) ++ (d ++ e) :: B by simp,
      delLastLine_ok _ _ _ _ q (by rw [h3]; simp; omega) (by simp; omega)]
    simp only [Option.bind_some]
    by_cases he : e = []
    · rw [if_pos he]
      subst ha he
      simp only
      rw [if_pos (by simp)]
      have hd : vecDrain (A ++ b :: M ++ d :: B) A.length (min ((A ++ b :: M).length + 1) (A ++ b :: M ++ d :: B).length) = some (A ++ B) := by
        have := vecDrain_mid A (b :: M ++ [d]) B A.length (min ((A ++ b :: M).length + 1) (A ++ b :: M ++ d :: B).length) rfl
          (by simp; omega)
        simpa using this
      rw [hd]
      refine ⟨_, d ++ [], [], rfl, ?_, by rw [← h1]; exact hl, List.nil_sublist _, by simp⟩
      rw [← h2]
      exact whole_lines_ok (M := b :: M ++ [d]) hc (by rw [h1]; simp) h2 (by rw [tb1]; simp) (by rw [ta2]; simp)
        (by rw [h3]; simp; omega)
    · rw [if_neg he]
      simp only
      obtain ⟨ch, e', rfl⟩ := List.exists_cons_of_ne_nil he
      subst ha
      cases M with
      | nil =>
        rw [if_neg (by simp)]
        obtain ⟨c', k1, k2, k3, k4, k5⟩ := cursor_ok (c := c) (A := A) (a := []) (b := b) (B := (ch :: e') :: B) (by
          refine hcl _ ?_
          intro l hl
          simp only [List.mem_append, List.mem_cons, List.nil_append] at hl ⊢
          rcases hl with h | h | h | h
          · exact .inl h
          · exact .inr (.inr (.inr (.inr (.inl h))))
          · exact .inr (.inr (.inr (.inr (.inr (.inr (.inl h))))))
          · exact .inr (.inr (.inl h))) p h2
        refine ⟨_, d ++ ch :: e', b ++ ['\n', ch], rfl, ?_, by rw [← h1]; exact hl, ?_, ?_⟩
        · rw [← h2]
          refine ⟨c', by simpa using k1, k2, k3, .inl ⟨by rw [k4, tb1], ?_⟩⟩
          rw [k5, ta2]; simp [linesR]
        · rw [hs']
          have : (b ++ ['\n', ch]).Sublist (b ++ ('\n' :: (d ++ [ch]))) :=
            (List.Sublist.refl _).append (List.Sublist.cons_cons _ (List.sublist_append_right _ _))
          simp [linesR]
        · intro _; left; rw [h3]; simp
      | cons m M =>
        rw [if_pos (by simp)]
        have hd : vecDrain (A ++ b :: m :: M ++ (ch :: e') :: B) A.length
            (min ((A ++ b :: m :: M).length - 1 + 1) (A ++ b :: m :: M ++ (ch :: e') :: B).length) = some (A ++ (ch :: e') :: B) := by
          have := vecDrain_mid A (b :: m :: M) ((ch :: e') :: B) A.length
            (min ((A ++ b :: m :: M).length - 1 + 1) (A ++ b :: m :: M ++ (ch :: e') :: B).length) rfl
            (by simp; omega)
          simpa using this
        rw [hd]
        obtain ⟨c', k1, k2, k3, k4, k5⟩ := cursor_ok (c := c) (A := A) (a := []) (b := ch :: e') (B := B) (by
          refine hcl _ ?_
          intro l hl
          simp only [List.mem_append, List.mem_cons, List.nil_append] at hl ⊢
          rcases hl with h | h | h
          · exact .inl h
          · exact .inr (.inr (.inr (.inr (.inr (.inr (.inl h))))))
          · exact .inr (.inr (.inl h))) p h2
        refine ⟨_, d ++ ch :: e', [ch], rfl, ?_, by rw [← h1]; exact hl, ?_, ?_⟩
        · rw [← h2]
          have : atLeastOneLine (A ++ (ch :: e') :: B) = A ++ ([] ++ (ch :: e')) :: B := by simp [atLeastOneLine]
          rw [this]
          refine ⟨c', k1, k2, k3, .inl ⟨by rw [k4, tb1], ?_⟩⟩
          rw [k5, ta2]; simp
        · rw [hs']; simp
        · intro _; left; rw [h3]; simp
  · rw [if_neg ha]
    simp only
    have hpx : 0 < p.x := by rw [h2]; exact List.length_pos_iff.2 ha
    rw [show A ++ a :: (M ++ (d ++ e) :: B) = (A ++ a :: M) ++ (d ++ e) :: B by simp,
      delLastLine_ok _ _ _ _ q (by rw [h3]; simp; omega) (by simp; omega)]
    simp only [Option.bind_some]
    by_cases he : e = []
    · rw [if_pos he]
      subst he
      simp only
      cases M with
      | nil =>
        rw [if_neg (by simp)]
        obtain ⟨c', k1, k2, k3, k4, k5⟩ := cursor_ok (c := c) (A := A) (a := a) (b := []) (B := d :: B) (by
          refine hcl _ ?_
          intro l hl
          simp only [List.mem_append, List.mem_cons, List.append_nil] at hl ⊢
          rcases hl with h | h | h | h
          · exact .inl h
          · exact .inr (.inr (.inr (.inl h)))
          · exact .inr (.inr (.inr (.inr (.inr (.inl h)))))
          · exact .inr (.inr (.inl h))) p h2
        refine ⟨_, d ++ [], '\n' :: (d ++ (linesR B).take 1), rfl, ?_, by rw [← h1]; exact hl, ?_, fun _ => .inr (List.length_pos_iff.2 ha)⟩
        · rw [← h2]
          refine ⟨c', by simpa using k1, k2, k3, .inl ⟨by rw [k4, tb1], ?_⟩⟩
          rw [k5, ta2, List.nil_append, List.nil_append]
          have : linesR (d :: B) = '\n' :: (d ++ linesR B) := by simp [linesR]
          rw [this, List.cons_append, List.append_assoc, List.take_append_drop]
        · rw [hs']
          simp [linesR]
      | cons m M =>
        rw [if_pos (by simp)]
        have hd : vecDrain (A ++ a :: m :: M ++ d :: B) (A.length + 1)
            (min ((A ++ a :: m :: M).length + 1) (A ++ a :: m :: M ++ d :: B).length) = some (A ++ a :: B) := by
          have := vecDrain_mid (A ++ [a]) (m :: M ++ [d]) B (A.length + 1)
            (min ((A ++ a :: m :: M).length + 1) (A ++ a :: m :: M ++ d :: B).length) (by simp)
            (by simp; omega)
          simpa using this
        rw [hd]
        obtain ⟨c', k1, k2, k3, k4, k5⟩ := cursor_ok (c := c) (A := A) (a := a) (b := []) (B := B) (by
          refine hcl _ ?_
          intro l hl
          simp only [List.mem_append, List.mem_cons, List.append_nil] at hl ⊢
          rcases hl with h | h | h
          · exact .inl h
          · exact .inr (.inr (.inr (.inl h)))
          · exact .inr (.inr (.inl h))) p h2
        refine ⟨_, d ++ [], (linesR B).take 1, rfl, ?_, by rw [← h1]; exact hl, ?_, fun _ => .inr (List.length_pos_iff.2 ha)⟩
        · rw [← h2]
          have : atLeastOneLine (A ++ a :: B) = A ++ (a ++ []) :: B := by simp [atLeastOneLine]
          rw [this]
          refine ⟨c', k1, k2, k3, .inl ⟨by rw [k4, tb1], ?_⟩⟩
          rw [k5, ta2, List.nil_append, List.take_append_drop]
        · rw [hs', List.nil_append]; exact List.sublist_append_right _ _
    · rw [if_neg he]
      simp only
      obtain ⟨ch, e', rfl⟩ := List.exists_cons_of_ne_nil he
      by_cases hM : 2 ≤ M.length
      · rw [if_pos (by simp; omega)]
        have hd : vecDrain (A ++ a :: M ++ (ch :: e') :: B) (A.length + 1)
            (min ((A ++ a :: M).length - 1 + 1) (A ++ a :: M ++ (ch :: e') :: B).length) = some (A ++ a :: (ch :: e') :: B) := by
          have := vecDrain_mid (A ++ [a]) M ((ch :: e') :: B) (A.length + 1)
            (min ((A ++ a :: M).length - 1 + 1) (A ++ a :: M ++ (ch :: e') :: B).length) (by simp)
            (by simp; omega)
          simpa using this
        rw [hd]
        obtain ⟨c', k1, k2, k3, k4, k5⟩ := cursor_ok (c := c) (A := A) (a := a) (b := []) (B := (ch :: e') :: B) (by
          refine hcl _ ?_
          intro l hl
          simp only [List.mem_append, List.mem_cons, List.append_nil] at hl ⊢
          rcases hl with h | h | h | h
          · exact .inl h
          · exact .inr (.inr (.inr (.inl h)))
          · exact .inr (.inr (.inr (.inr (.inr (.inr (.inl h))))))
          · exact .inr (.inr (.inl h))) p h2
        refine ⟨_, d ++ ch :: e', ['\n', ch], rfl, ?_, by rw [← h1]; exact hl, ?_, fun _ => .inr (List.length_pos_iff.2 ha)⟩
        · rw [← h2]
          have : atLeastOneLine (A ++ a :: (ch :: e') :: B) = A ++ (a ++ []) :: (ch :: e') :: B := by simp [atLeastOneLine]
          rw [this]
          refine ⟨c', k1, k2, k3, .inl ⟨by rw [k4, tb1], ?_⟩⟩
          rw [k5, ta2]; simp [linesR]
        · rw [hs']
          have : ['\n', ch].Sublist ((b ++ linesR M) ++ ('\n' :: (d ++ [ch]))) :=
            (List.Sublist.cons_cons _ (List.sublist_append_right _ _)).trans (List.sublist_append_right _ _)
          simp
      · rw [if_neg (by simp; omega)]
        obtain ⟨c', k1, k2, k3, k4, k5⟩ := cursor_ok (c := c) (A := A) (a := a) (b := []) (B := M ++ (ch :: e') :: B) (by
          refine hcl _ ?_
          intro l hl
          simp only [List.mem_append, List.mem_cons, List.append_nil] at hl ⊢
          rcases hl with h | h | h | h | h
          · exact .inl h
          · exact .inr (.inr (.inr (.inl h)))
          · exact .inr (.inl h)
          · exact .inr (.inr (.inr (.inr (.inr (.inr (.inl h))))))
          · exact .inr (.inr (.inl h))) p h2
        refine ⟨_, d ++ ch :: e', linesR M ++ ['\n', ch], rfl, ?_, by rw [← h1]; exact hl, ?_, fun _ => .inr (List.length_pos_iff.2 ha)⟩
        · rw [← h2]
          refine ⟨c', by simpa using k1, k2, k3, .inl ⟨by rw [k4, tb1], ?_⟩⟩
          rw [k5, ta2, linesR_append]; simp [linesR]
        · rw [hs']
          have : (linesR M ++ ['\n', ch]).Sublist (b ++ (linesR M ++ ('\n' :: (d ++ [ch])))) :=
            ((List.Sublist.refl _).append (List.Sublist.cons_cons _ (List.sublist_append_right _ _))).trans (List.sublist_append_right _ _)
          simp

theorem delSelection_ok {c : Content} (h : c.Valid) :
    ∃ c' r, c.delSelection = some (c', r) ∧ c'.Valid ∧
      (c.selection.min = c.selection.max → c.delCharBelow = some (c', r)) ∧
      (c.selection.min ≠ c.selection.max → r = true ∧ c'.tail = none ∧ ∃ l s mid, c.lines[c.selection.max.y]? = some l ∧
        c.selectionString = some s ∧ mid.Sublist s ∧
        ((c'.before = textBefore c.lines c.selection.min ∧ c'.after = mid ++ (textAfter c.lines c.selection.max).drop 1) ∨
          (mid = [] ∧ c.selection.max.y + 1 = c.lines.length ∧ c.selection.min.x = 0 ∧ 0 < c.selection.min.y ∧
            textBefore c.lines c.selection.min = c'.before ++ ['\n'] ∧ textAfter c.lines c.selection.max = [] ∧ c'.after = [])) ∧
        (mid ≠ [] → if c.selection.min.y = c.selection.max.y
          then c.selection.max.x = l.length ∧ c.selection.max.y + 1 < c.lines.length ∧ 0 < c.selection.min.x
          else c.selection.max.x < l.length ∨ 0 < c.selection.min.x)) := by
  obtain ⟨s, hs1, hs2⟩ := selectionString_ok h
  obtain ⟨v1, v2, v3⟩ := selection_valid h
  unfold delSelection
  generalize c.selection = sel at *
  obtain ⟨mn, mx⟩ := sel
  simp only at *
  by_cases heq : mn = mx
  · subst heq
    obtain ⟨c', r, k1, k2, _⟩ := delCharBelow_ok h
    rw [if_pos ⟨rfl, rfl⟩]
    exact ⟨c', r, k1, k2, fun _ => k1, fun h => absurd rfl h⟩
  · rw [if_neg (by rintro ⟨a, b⟩; exact heq (pos_eq a b))]
    rw [blt_false] at v3
    have fin : ∀ ls : List Text, (do
          let c' ← setCursorPos { c with lines := ls } mn
          some (({ c' with tail := none } : Content), true)) =
        ((setCursorPos { c with lines := ls } mn).map (fun c' => ({ c' with tail := none } : Content))).map (fun c' => (c', true)) := by
      intro ls
      cases setCursorPos { c with lines := ls } mn <;> rfl
    by_cases hy : mn.y = mx.y
    · have hx : mn.x < mx.x := by
        rcases v3 with h1 | ⟨h1, h2⟩
        · omega
        · rcases Nat.lt_or_ge mn.x mx.x with h3 | h3
          · exact h3
          · exact absurd (pos_eq hy (by omega)) heq
      obtain ⟨ls, l, mid, k1, ⟨c', m1, m2, m3, m4⟩, k3, k4, k5⟩ := delInLine_ok h.clean v1 v2 hy hx hs2
      refine ⟨c', true, ?_, m2, fun h => absurd h heq, fun _ => ⟨rfl, m3, l, s, mid, k3, hs1, k4, m4, ?_⟩⟩
      · simp only [delRange, if_pos hy, k1, Option.bind_eq_bind, Option.bind_some]
        have := fin ls
        simp only [Option.bind_eq_bind] at this
        rw [this, m1]; rfl
      · rw [if_pos hy]; exact k5
    · obtain ⟨ls, l, mid, k1, ⟨c', m1, m2, m3, m4⟩, k3, k4, k5⟩ := delInLines_ok h.clean v1 v2 (by omega) hs2
      refine ⟨c', true, ?_, m2, fun h => absurd h heq, fun _ => ⟨rfl, m3, l, s, mid, k3, hs1, k4, m4, ?_⟩⟩
      · simp only [delRange, if_neg hy, k1, Option.bind_eq_bind, Option.bind_some]
        have := fin ls
        simp only [Option.bind_eq_bind] at this
        rw [this, m1]; rfl
      · rw [if_neg hy]; exact k5

/-! ### Moves of lines -/

theorem makeValidPos_in {c : Content} {p : Pos} {l : Text} (h : c.lines[p.y]? = some l) :
    c.makeValidPos p = some ⟨p.y, min p.x l.length⟩ := by
  have := (List.getElem?_eq_some_iff.1 h).1
  rw [makeValidPos, if_neg (by omega), h]
  rfl

theorem fixSelection_in {c : Content} {l : Text} (h : c.lines[c.pos.y]? = some l) :
    ∃ c', c.fixSelection = some c' ∧ c'.lines = c.lines ∧ c'.pos = ⟨c.pos.y, min c.pos.x l.length⟩ ∧
      (∀ t, c'.tail = some t → ValidPos c.lines t) ∧ (c'.tail = none ↔ c.tail = none) := by
  have hne : c.lines ≠ [] := by
    intro h0; rw [h0] at h; simp at h
  unfold fixSelection
  rw [makeValidPos_in h]
  simp only [Option.bind_eq_bind, Option.bind_some, fixSelectionTail]
  cases ht : c.tail with
  | none => exact ⟨{ c with pos := ⟨c.pos.y, min c.pos.x l.length⟩, tail := none }, rfl, rfl, rfl, by simp, by simp⟩
  | some t =>
    obtain ⟨r, k1, k2, _⟩ := makeValidPos_ok (c := { c with pos := ⟨c.pos.y, min c.pos.x l.length⟩, tail := some t }) hne t
    exact ⟨{ c with pos := ⟨c.pos.y, min c.pos.x l.length⟩, tail := some r }, by simp [k1], rfl, rfl,
      by intro t' h'; cases h'; exact k2, by simp⟩

/-- The lines are the same ones but for two of them which are exchanged. -/
def Swapped (ls ls' : List Text) (i j : Nat) : Prop :=
  ls'.length = ls.length ∧ ∀ k, ls'[k]? = if k = i then ls[j]? else if k = j then ls[i]? else ls[k]?

theorem swapped_set {ls : List Text} {i j : Nat} {a b : Text} (hi : ls[i]? = some a) (hj : ls[j]? = some b) :
    Swapped ls ((ls.set i b).set j a) i j := by
  have h1 := (List.getElem?_eq_some_iff.1 hi).1
  have h2 := (List.getElem?_eq_some_iff.1 hj).1
  refine ⟨by simp, ?_⟩
  intro k
  rw [List.getElem?_set, List.getElem?_set]
  simp only [List.length_set]
  by_cases hk : k = i
  · subst hk
    rw [if_pos rfl]
    by_cases hjk : j = k
    · subst hjk
      rw [if_pos rfl, if_pos h2, hi]; simp
    · rw [if_neg hjk, if_pos rfl, if_pos h1, hj]
  · rw [if_neg hk]
    by_cases hjk : k = j
    · subst hjk
      rw [if_pos rfl, if_pos h2, hi, if_pos rfl]
    · rw [if_neg hjk, if_neg (Ne.symm hjk), if_neg (Ne.symm hk)]

theorem swapped_mem {ls ls' : List Text} {i j : Nat} (h : Swapped ls ls' i j) : ∀ l ∈ ls', l ∈ ls := by
  intro l hl
  obtain ⟨k, hk⟩ := List.mem_iff_getElem?.1 hl
  rw [h.2 k] at hk
  split at hk
  · exact List.mem_of_getElem? hk
  · split at hk <;> exact List.mem_of_getElem? hk

theorem swapLines_ok {c : Content} (h : c.Valid) (i j : Nat) :
    ∃ c' r, c.swapLines i j = some (c', r) ∧ c'.Valid ∧ (r = false → c' = c) ∧
      (r = true ↔ i ≠ j ∧ i < c.lines.length ∧ j < c.lines.length) ∧
      (r = true → Swapped c.lines c'.lines i j ∧ (c'.tail = none ↔ c.tail = none) ∧
        ∃ l, c'.lines[c.pos.y]? = some l ∧ c'.pos = ⟨c.pos.y, min c.pos.x l.length⟩) := by
  unfold swapLines
  by_cases hc : i ≠ j ∧ i < c.lines.length ∧ j < c.lines.length
  · rw [if_pos hc]
    have hi : c.lines[i]? = some (c.lines[i]'hc.2.1) := List.getElem?_eq_getElem _
    have hj : c.lines[j]? = some (c.lines[j]'hc.2.2) := List.getElem?_eq_getElem _
    generalize c.lines[i]'hc.2.1 = a at hi
    generalize c.lines[j]'hc.2.2 = b at hj
    simp only [hi, hj, Option.bind_eq_bind, Option.bind_some]
    have hsw := swapped_set hi hj
    obtain ⟨l0, p1, p2⟩ := h.pos
    have hlt := (List.getElem?_eq_some_iff.1 p1).1
    have hl : ((c.lines.set i b).set j a)[c.pos.y]? = some (((c.lines.set i b).set j a)[c.pos.y]'(by simpa using hlt)) :=
      List.getElem?_eq_getElem _
    generalize ((c.lines.set i b).set j a)[c.pos.y]'(by simpa using hlt) = l at hl
    obtain ⟨c', k1, k2, k3, k4, k5⟩ := fixSelection_in (c := { c with lines := (c.lines.set i b).set j a }) hl
    rw [k1]
    simp only [Option.bind_some]
    refine ⟨c', true, rfl, ?_, by simp, by simp [hc], fun _ => ⟨by rw [k2]; exact hsw, k5, l, by rw [k2]; exact hl, k3⟩⟩
    refine Valid.mk' k2 k3 ⟨l, hl, Nat.min_le_right _ _⟩ k4 ?_
    intro m hm
    exact h.clean m (swapped_mem hsw m hm)
  · rw [if_neg hc]
    exact ⟨c, false, rfl, h, by simp, by simp [hc], by simp⟩

theorem moveCurrentLineUp_ok {c : Content} (h : c.Valid) :
    ∃ c' r, c.moveCurrentLineUp = some (c', r) ∧ c'.Valid ∧ (r = false → c' = c) ∧ (r = true ↔ 0 < c.pos.y) ∧
      (r = true → Swapped c.lines c'.lines (c.pos.y - 1) c.pos.y ∧ (c'.tail = none ↔ c.tail = none) ∧
        ∃ l, c.lines[c.pos.y - 1]? = some l ∧ c'.pos = ⟨c.pos.y - 1, min c.pos.x l.length⟩) := by
  unfold moveCurrentLineUp
  by_cases h0 : c.pos.y > 0
  · rw [if_pos h0]
    obtain ⟨l0, p1, p2⟩ := h.pos
    have hlt := (List.getElem?_eq_some_iff.1 p1).1
    obtain ⟨c1, r, k1, k2, _, k3, k4⟩ := swapLines_ok h (c.pos.y - 1) c.pos.y
    have hr := k3.2 ⟨by omega, by omega, hlt⟩
    obtain ⟨hsw, htl, l, hl, hp⟩ := k4 hr
    have hl' : c.lines[c.pos.y - 1]? = some l := by
      rw [hsw.2, if_neg (by omega), if_pos rfl] at hl
      exact hl
    have hup : c1.lines[c.pos.y - 1]? = some l0 := by
      rw [hsw.2, if_pos rfl]; exact p1
    have hcs : csub c1.pos.y 1 = some (c.pos.y - 1) := by rw [hp, csub, if_pos (by simp only; omega)]
    rw [k1]
    simp only [Option.bind_eq_bind, Option.bind_some, hr, if_true, hcs]
    obtain ⟨c', m1, m2, m3, m4, m5⟩ := fixSelection_in (c := { c1 with pos := { c1.pos with y := c.pos.y - 1 } }) hup
    rw [m1]
    simp only [Option.bind_some]
    have hpos : c'.pos = ⟨c.pos.y - 1, min c.pos.x l.length⟩ := by
      rw [m3, hp]; simp only [Pos.mk.injEq, true_and]; omega
    refine ⟨c', true, rfl, ?_, by simp, by simp [h0], fun _ => ⟨by rw [m2]; exact hsw, m5.trans htl, l, hl', hpos⟩⟩
    refine Valid.mk' m2 m3 ⟨l0, hup, Nat.min_le_right _ _⟩ m4 ?_
    exact k2.clean
  · rw [if_neg h0]
    exact ⟨c, false, rfl, h, by simp, by simp; omega, by simp⟩

theorem moveCurrentLineDown_ok {c : Content} (h : c.Valid) :
    ∃ c' r, c.moveCurrentLineDown = some (c', r) ∧ c'.Valid ∧ (r = false → c' = c) ∧ (r = true ↔ c.pos.y + 1 < c.lines.length) ∧
      (r = true → Swapped c.lines c'.lines (c.pos.y + 1) c.pos.y ∧ (c'.tail = none ↔ c.tail = none) ∧
        ∃ l, c.lines[c.pos.y + 1]? = some l ∧ c'.pos = ⟨c.pos.y + 1, min c.pos.x l.length⟩) := by
  unfold moveCurrentLineDown
  obtain ⟨l0, p1, p2⟩ := h.pos
  have hlt := (List.getElem?_eq_some_iff.1 p1).1
  obtain ⟨c1, r, k1, k2, k2', k3, k4⟩ := swapLines_ok h (c.pos.y + 1) c.pos.y
  rw [k1]
  simp only [Option.bind_eq_bind, Option.bind_some]
  cases r with
  | false =>
    refine ⟨c1, false, rfl, k2, k2', ?_, by simp⟩
    constructor
    · simp
    · intro hh
      exact k3.2 ⟨by omega, hh, hlt⟩
  | true =>
    have hr := k3.1 rfl
    obtain ⟨hsw, htl, l, hl, hp⟩ := k4 rfl
    have hl' : c.lines[c.pos.y + 1]? = some l := by
      rw [hsw.2, if_neg (by omega), if_pos rfl] at hl
      exact hl
    have hup : c1.lines[c.pos.y + 1]? = some l0 := by
      rw [hsw.2, if_pos rfl]; exact p1
    have hup' : c1.lines[c1.pos.y + 1]? = some l0 := by rw [hp]; exact hup
    obtain ⟨c', m1, m2, m3, m4, m5⟩ := fixSelection_in (c := { c1 with pos := { c1.pos with y := c1.pos.y + 1 } }) hup'
    rw [if_pos rfl, m1]
    simp only [Option.bind_some]
    have hpos : c'.pos = ⟨c.pos.y + 1, min c.pos.x l.length⟩ := by
      rw [m3, hp]; simp only [Pos.mk.injEq, true_and]; omega
    refine ⟨c', true, rfl, ?_, by simp, by simp [hr], fun _ => ⟨by rw [m2]; exact hsw, m5.trans htl, l, hl', hpos⟩⟩
    refine Valid.mk' m2 m3 ⟨l0, by rw [hp]; exact hup, Nat.min_le_right _ _⟩ m4 ?_
    exact k2.clean

/-! ### Other operations -/

theorem setCursorPos_ok {c : Content} (h : c.Valid) (p : Pos) :
    ∃ c', c.setCursorPos p = some c' ∧ c'.Valid ∧ c'.lines = c.lines ∧ c'.tail = c.tail ∧
      (ValidPos c.lines p → c'.pos = p) := by
  obtain ⟨q, h1, h2, h3, _⟩ := makeValidPos_ok h.oneLine p
  exact ⟨{ c with pos := q }, by simp [setCursorPos, h1], clean_lines h rfl rfl h2, rfl, rfl, h3⟩

theorem setSelectionTail_ok {c : Content} (h : c.Valid) (p : Pos)
    (hp : c.lines.length ≤ p.y ∨ p.y = c.pos.y ∨ ValidPos c.lines p) :
    ∃ c', c.setSelectionTail p = some c' ∧ c'.Valid ∧ c'.lines = c.lines ∧ c'.pos = c.pos := by
  unfold setSelectionTail
  by_cases hy : p.y ≥ c.lines.length
  · rw [if_pos hy]
    obtain ⟨e, h1, h2, _⟩ := endPos_ok h.oneLine
    refine ⟨{ c with tail := some e }, by simp [h1], Valid.mk' rfl rfl h.pos ?_ h.clean, rfl, rfl⟩
    intro t ht; cases ht; exact h2
  · rw [if_neg hy]
    obtain ⟨l, h1, h2⟩ := h.pos
    rw [h1]
    simp only [Option.bind_eq_bind, Option.bind_some]
    refine ⟨_, rfl, Valid.mk' rfl rfl h.pos ?_ h.clean, rfl, rfl⟩
    intro t ht
    cases ht
    rcases hp with hp | hp | ⟨l', k1, k2⟩
    · omega
    · exact ⟨l, by simp only; rw [hp]; exact h1, Nat.min_le_right _ _⟩
    · exact ⟨l', k1, by simp only; omega⟩

theorem makeSelection_ok {c : Content} (h : c.Valid) : c.makeSelection.Valid := by
  unfold makeSelection
  split
  · exact Valid.mk' rfl rfl h.pos (by intro t ht; cases ht; exact h.pos) h.clean
  · exact h

theorem unselect_ok {c : Content} (h : c.Valid) : c.unselect.Valid :=
  Valid.mk' rfl rfl h.pos (by simp [unselect]) h.clean

theorem pushChar_ok {c : Content} (h : c.Valid) (ch : Char) :
    ∃ c', c.pushChar ch = some c' ∧ c'.Valid ∧ c'.pos = c.pos ∧ c'.tail = c.tail ∧
      joinLines c'.lines = joinLines c.lines ++ keptText [ch] := by
  have grow : ∀ ls' : List Text, (∀ (i : Nat) (l : Text), c.lines[i]? = some l → ∃ l', ls'[i]? = some l' ∧ l.length ≤ l'.length) →
      ∀ p, ValidPos c.lines p → ValidPos ls' p := by
    rintro ls' hls p ⟨l, h1, h2⟩
    obtain ⟨l', h3, h4⟩ := hls _ _ h1
    exact ⟨l', h3, by omega⟩
  rcases concat_cases c.lines with h0 | ⟨A, l, hl⟩
  · exact absurd h0 h.oneLine
  unfold pushChar
  by_cases hn : ch = '\n'
  · rw [if_pos hn]
    have g := grow (c.lines ++ [[]]) (by
      intro i l hi
      refine ⟨l, ?_, Nat.le_refl _⟩
      rw [List.getElem?_append_left (List.getElem?_eq_some_iff.1 hi).1, hi])
    refine ⟨_, rfl, Valid.mk' rfl rfl (g _ h.pos) (fun t ht => g t (h.tail t ht)) ?_, rfl, rfl, ?_⟩
    · intro l hl c0 hc0
      simp only [List.mem_append, List.mem_singleton] at hl
      rcases hl with hl | rfl
      · exact h.clean l hl c0 hc0
      · simp at hc0
    · subst hn
      rw [hl]
      have : A ++ [l] ++ [[]] = A ++ l :: [[]] := by simp
      show joinLines (A ++ [l] ++ [[]]) = _
      rw [this, joinLines_mid, joinLines_mid]
      simp [linesR, keptText]
  · rw [if_neg hn]
    by_cases hr : ch = '\r' ∨ ch = '\x08'
    · rw [if_pos hr]
      refine ⟨c, rfl, h, rfl, rfl, ?_⟩
      have : keptText [ch] = [] := by rcases hr with rfl | rfl <;> rfl
      rw [this, List.append_nil]
    · rw [if_neg hr]
      have hk : keptText [ch] = [ch] := by
        have : ch ≠ '\r' ∧ ch ≠ '\x08' := by simpa using hr
        simp [keptText, this]
      have e1 : csub c.lines.length 1 = some A.length := by rw [hl]; simp [csub]
      have e2 : c.lines[A.length]? = some l := by rw [hl, get_mid]
      have e3 : vecSet c.lines A.length (l ++ [ch]) = some (A ++ [l ++ [ch]]) := by rw [hl]; exact vecSet_mid _ _ _ _
      rw [e1]
      simp only [Option.bind_eq_bind, Option.bind_some, e2, e3]
      refine ⟨_, rfl, Valid.mk' rfl rfl (tail_grow hl (by simp) h.pos) (fun t ht => tail_grow hl (by simp) (h.tail t ht)) ?_, rfl, rfl, ?_⟩
      · intro m hm c0 hc0
        simp only [List.mem_append, List.mem_singleton] at hm
        rcases hm with hm | rfl
        · exact h.clean m (by rw [hl]; simp [hm]) c0 hc0
        · simp only [List.mem_append, List.mem_singleton] at hc0
          rcases hc0 with hc0 | rfl
          · exact h.clean l (by rw [hl]; simp) c0 hc0
          · rintro (h5 | h5)
            · exact hn h5
            · exact hr h5
      · show joinLines (A ++ [l ++ [ch]]) = _
        rw [hl, joinLines_mid, joinLines_mid, hk]
        simp [linesR]

end Content
end Verif

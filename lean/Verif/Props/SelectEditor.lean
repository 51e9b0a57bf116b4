import Verif.Lemmas.SelectEditor
import Verif.Props.Input
/-! C87: histories of keys, cuts and pastes in an input field of several lines, with a selection. -/
namespace Verif.Props
open Verif.Spec InputField

/-- The reference document of a content: its text, its cursor, and the other end of its selection. -/
def selDocOf (c : Content) : SelDoc := ⟨⟨c.before, c.after⟩, c.tail⟩

theorem selDoc_text {c : Content} (h : c.Valid) : (selDocOf c).text = joinLines c.lines := h.join

theorem selDoc_place {c : Content} (h : c.Valid) : (selDocOf c).place = c.pos := by
  obtain ⟨A, a, b, B, h1, h2, h3, h4, hA, ha, _⟩ := h.split
  have ha' : '\n' ∉ a := fun hm => ha _ hm (.inl rfl)
  have hA' : CleanLines A := fun l hl hm => hA l hl _ hm (.inl rfl)
  have e : (selDocOf c).doc.before = linesL A ++ a := h3
  rw [SelDoc.place, e, Doc.lastLine_eq _ _ ha' (linesL_end A), List.count_append, linesL_count hA', List.count_eq_zero.2 ha', h2]
  rfl

private theorem ends_eq {c : Content} (h : c.Valid) :
    (selDocOf c).ends = ((textBefore c.lines c.selection.min).length, (textBefore c.lines c.selection.max).length) := by
  unfold SelDoc.ends
  rw [selDoc_text h]
  show (min (c.tail.elim c.before.length _) c.before.length, max (c.tail.elim c.before.length _) c.before.length) = _
  unfold Content.selection
  cases ht : c.tail with
  | none => simp [Content.before]
  | some t =>
    have hv := h.tail t ht
    simp only [Option.elim_some, indexIn_eq h.cleanLines hv]
    by_cases hb : t.blt c.pos = true
    · rw [if_pos hb]
      have := textBefore_length_lt hv h.pos hb
      rw [Content.before, Nat.min_eq_left (by omega), Nat.max_eq_right (by omega)]
    · rw [if_neg hb]
      by_cases he : t = c.pos
      · simp [he, Content.before]
      · have := textBefore_length_lt h.pos hv ((Pos.blt_or he).resolve_left hb)
        rw [Content.before, Nat.min_eq_right (by omega), Nat.max_eq_left (by omega)]

theorem selDoc_wide {c : Content} (h : c.Valid) : (selDocOf c).wide = c.hasWideSelection := by
  have e := ends_eq h
  rw [SelDoc.wide, e]
  unfold Content.selection Content.hasWideSelection
  cases ht : c.tail with
  | none => simp
  | some t =>
    have hv := h.tail t ht
    by_cases he : t = c.pos
    · subst he; simp
    · simp only [he, ne_eq, not_false_eq_true, decide_true, decide_eq_true_eq]
      rcases Pos.blt_or he with hb | hb
      · have := textBefore_length_lt hv h.pos hb
        rw [if_pos hb]
        simp only
        omega
      · have := textBefore_length_lt h.pos hv hb
        split
        · simp only; omega
        · simp only; omega

theorem selected_eq {c : Content} (h : c.Valid) : c.selectionString = some (selDocOf c).selected ∧
    textBefore c.lines c.selection.min ++ (selDocOf c).selected = textBefore c.lines c.selection.max ++ (textAfter c.lines c.selection.max).take 1 ∧
    (selDocOf c).text.take (selDocOf c).ends.1 = textBefore c.lines c.selection.min ∧
    (selDocOf c).text.drop (selDocOf c).ends.2 = textAfter c.lines c.selection.max := by
  obtain ⟨s, h1, h2, h3⟩ := C23_string h
  obtain ⟨_, v2, _⟩ := C23_selection h
  rw [Content.toText, fmtLines_eq] at h2
  have hm := text_split v2
  have hs : (selDocOf c).selected = s := by
    rw [SelDoc.selected, ends_eq h, selDoc_text h, ← h2]
    have hlen := congrArg List.length h3
    simp only [List.length_append, List.length_take] at hlen
    rw [List.append_assoc, List.drop_left]
    simp only
    cases ha : textAfter c.lines c.selection.max with
    | nil =>
      rw [ha] at hlen
      simp only [List.drop_nil, List.append_nil]
      apply List.take_of_length_le
      simp at hlen
      omega
    | cons x r =>
      rw [ha] at hlen
      have : (textBefore c.lines c.selection.max).length + 1 - (textBefore c.lines c.selection.min).length = s.length := by
        simp at hlen
        omega
      rw [this, List.take_left]
  rw [hs]
  refine ⟨h1, h3, ?_, ?_⟩
  · rw [ends_eq h, selDoc_text h, ← h2, List.append_assoc, List.take_left]
  · rw [ends_eq h, selDoc_text h, ← hm, List.drop_left]

private theorem atLineStart {ls : List Text} (hc : CleanLines ls) {p : Pos} (hp : ValidPos ls p) :
    SelDoc.AtLineStart (textBefore ls p) ↔ p.x = 0 := by
  obtain ⟨A, a, b, B, rfl, rfl⟩ := hp.split
  rw [textBefore_mid]
  have ha : '\n' ∉ a := fun hm => hc (a ++ b) (by simp) (by simp [hm])
  constructor
  · rintro (h | h)
    · have := List.append_eq_nil_iff.1 h
      simp [this.2]
    · rcases Content.concat_cases a with rfl | ⟨a0, x, rfl⟩
      · rfl
      · rw [← List.append_assoc, List.getLast?_concat] at h
        cases h
        exact absurd (by simp) ha
  · intro h
    simp only [List.length_eq_zero_iff] at h
    subst h
    rw [List.append_nil]
    rcases linesL_end A with h | ⟨t, h⟩
    · exact .inl h
    · exact .inr (by rw [h]; simp)

private theorem newline_between {ls : List Text} {p q : Pos} (hp : ValidPos ls p) (hq : ValidPos ls q) (h : p.y < q.y) :
    ∃ m, textBefore ls q = textBefore ls p ++ m ∧ '\n' ∈ m := by
  obtain ⟨A, a, b, B, rfl, rfl⟩ := hp.split
  obtain ⟨l, h1, h2⟩ := hq
  obtain ⟨y, x⟩ := q
  simp only at h h1 h2
  have : ∃ C D, B = C ++ l :: D ∧ y = A.length + 1 + C.length := by
    have e : (A ++ (a ++ b) :: B)[y]? = B[y - (A.length + 1)]? := by
      rw [List.getElem?_append_right (by omega), List.getElem?_cons, if_neg (by omega)]
      congr 1
    rw [e] at h1
    obtain ⟨hl, he⟩ := List.getElem?_eq_some_iff.1 h1
    refine ⟨B.take (y - (A.length + 1)), B.drop (y - (A.length + 1) + 1), ?_, ?_⟩
    · rw [← he, List.getElem_cons_drop, List.take_append_drop]
    · simp; omega
  obtain ⟨C, D, rfl, rfl⟩ := this
  have e : A ++ (a ++ b) :: (C ++ l :: D) = (A ++ (a ++ b) :: C) ++ (l.take x ++ l.drop x) :: D := by simp
  have t := textBefore_mid (A ++ (a ++ b) :: C) (l.take x) (l.drop x) D
  rw [← e, show (l.take x).length = x by simp; omega, show (A ++ (a ++ b) :: C).length = A.length + 1 + C.length by simp; omega] at t
  refine ⟨b ++ '\n' :: (linesL C ++ l.take x), ?_, by simp⟩
  rw [t, textBefore_mid]
  simp [linesL]

private theorem exact_ok {c : Content} (h : c.Valid) (he : (selDocOf c).Exact) : ExactlyCut c := by
  obtain ⟨s1, s2, s3, s4⟩ := selected_eq h
  obtain ⟨v1, v2, v3, _⟩ := C23_selection h
  have hc := h.cleanLines
  obtain ⟨C, a, b, D, k1, k2⟩ := v2.split
  have hl : c.lines[c.selection.max.y]? = some (a ++ b) := by rw [k2, k1, get_mid]
  have hq : c.selection.max.x = a.length := by rw [k2]
  have hy : c.selection.max.y = C.length := by rw [k2]
  have hn : c.lines.length = C.length + 1 + D.length := by rw [k1]; simp; omega
  have hta : textAfter c.lines c.selection.max = b ++ linesR D := by rw [k2, k1, textAfter_mid]
  have hb : '\n' ∉ b := fun hm => hc (a ++ b) (by rw [k1]; simp) (by simp [hm])
  have hhi : (selDocOf c).text.length - (selDocOf c).ends.2 = (textAfter c.lines c.selection.max).length := by rw [← s4, List.length_drop]
  have hlo : (selDocOf c).ends.1 = (textBefore c.lines c.selection.min).length := by rw [ends_eq h]
  refine ⟨a ++ b, hl, ?_⟩
  rw [SelDoc.Exact, s3, atLineStart hc v1] at he
  rcases he with ⟨g1, g2⟩ | ⟨g1, g2⟩
  · have same : c.selection.min.y = c.selection.max.y := by
      rcases v3 with v3 | v3
      · exfalso
        obtain ⟨m, m1, m2⟩ := newline_between v1 v2 v3
        rw [m1, List.append_assoc, List.append_cancel_left_eq] at s2
        exact g1 (by rw [s2]; simp [m2])
      · exact v3.1
    cases b with
    | cons x b => exact .inl ⟨same, by simp [hq]⟩
    | nil =>
      have hD : D = [] := by
        cases D with
        | nil => rfl
        | cons d D =>
          exfalso
          have : '\n' ∈ textBefore c.lines c.selection.min ++ (selDocOf c).selected := by
            rw [s2, hta]; simp [linesR]
          -- the selected text ends with the line break
          have hlast : (textBefore c.lines c.selection.min ++ (selDocOf c).selected).getLast? = some '\n' := by
            rw [s2, hta]; simp [linesR]
          have hne : (selDocOf c).selected ≠ [] := by
            intro e
            rw [e, hta] at s2
            have s2 := congrArg List.length s2
            simp [linesR] at s2
            rcases v3 with v3 | v3
            · omega
            · by_cases hx : c.selection.min = c.selection.max
              · rw [hx] at s2; omega
              · have hblt : c.selection.min.blt c.selection.max = true := by
                  rcases Pos.blt_or hx with hx | hx
                  · exact hx
                  · simp only [Pos.blt, Bool.or_eq_true, decide_eq_true_eq, Bool.and_eq_true, beq_iff_eq] at hx
                    omega
                have := textBefore_length_lt v1 v2 hblt
                omega
          rcases Content.concat_cases (selDocOf c).selected with e | ⟨u, x, e⟩
          · exact hne e
          · rw [e, ← List.append_assoc, List.getLast?_concat] at hlast
            cases hlast
            exact g1 (by rw [e]; simp)
      subst hD
      rcases g2 with g2 | g2
      · rw [hta] at hhi
        simp [linesR] at hhi
        omega
      · refine .inr (.inl ⟨same, ?_, by omega⟩)
        rw [hn, hy]; simp
  · rcases g2 with g2 | ⟨g2, g3⟩
    · have hd : (textAfter c.lines c.selection.max)[0]? = some '\n' := by rw [← s4, List.getElem?_drop]; simpa using g2
      rw [hta] at hd
      cases b with
      | cons x b =>
        simp at hd
        subst hd
        exact absurd (by simp) hb
      | nil =>
        cases D with
        | nil => simp [linesR] at hd
        | cons d D => exact .inr (.inr ⟨g1, by simp [hq], .inl (by rw [hn, hy]; simp)⟩)
    · have he : textAfter c.lines c.selection.max = [] := List.length_eq_zero_iff.1 (by omega)
      rw [hta] at he
      have hb0 := (List.append_eq_nil_iff.1 he).1
      subst hb0
      refine .inr (.inr ⟨g1, by simp [hq], .inr ?_⟩)
      obtain ⟨A, a', b', B, q1, q2⟩ := v1.split
      rw [hlo, q2, q1, textBefore_mid] at g2
      have := List.append_eq_nil_iff.1 (List.length_eq_zero_iff.1 g2)
      rw [q2]
      cases A with
      | nil => rfl
      | cons l A => simp [linesL] at this

private theorem inLine_left {c : Content} {A : List Text} {a b e : Text} {B : List Text} (hl : c.lines = A ++ (a ++ (b ++ e)) :: B) (hb : b ≠ []) :
    c.delInLine ⟨A.length, a.length⟩ ⟨A.length, a.length + b.length⟩ = some (leftOver c.lines ⟨A.length, a.length⟩ ⟨A.length, a.length + b.length⟩) := by
  have hg : (A ++ (a ++ (b ++ e)) :: B)[A.length]? = some (a ++ (b ++ e)) := get_mid _ _ _
  have hd : (A ++ (a ++ (b ++ e)) :: B).drop (A.length + 1) = B := by
    rw [show A ++ (a ++ (b ++ e)) :: B = (A ++ [a ++ (b ++ e)]) ++ B by simp, show A.length + 1 = (A ++ [a ++ (b ++ e)]).length by simp, List.drop_left]
  have hbl : 0 < b.length := List.length_pos_iff.2 hb
  have hone : ∀ (x : Text), (if A ++ [x] ++ B = [] then [[]] else A ++ [x] ++ B) = A ++ [x] ++ B := fun x => if_neg (by simp)
  have hset : ∀ x : Text, vecSet (A ++ (a ++ (b ++ e)) :: B) A.length x = some (A ++ [x] ++ B) := fun x => by simp [vecSet]
  unfold Content.delInLine leftOver
  simp only [hl, hg, hd, Option.bind_eq_bind, Option.bind_some, Option.getD_some, if_true, List.take_left]
  generalize hk : (if a.length = 0 ∧ a.length + b.length = (a ++ (b ++ e)).length then ([] : List Text)
    else [a ++ (a ++ (b ++ e)).drop (a.length + b.length + 1)]) = kept
  cases e with
  | nil =>
    rw [if_pos (by simp)]
    cases a with
    | nil =>
      rw [if_pos (by simp)] at hk ⊢
      subst hk
      have : vecDrain (A ++ ([] ++ (b ++ [])) :: B) A.length (A.length + 1) = some (A ++ B) := by
        rw [vecDrain, if_pos (by simp), List.take_left]
        rw [hd]
      rw [this]
      simp only [Option.bind_some, Content.atLeastOneLine, List.append_nil]
      cases h : A ++ B <;> simp
    | cons x a =>
      rw [if_neg (by simp)] at hk ⊢
      subst hk
      rw [hone]
      have : vecDrain (x :: a ++ (b ++ [])) (x :: a).length (x :: a ++ (b ++ [])).length = some (x :: a) := by
        rw [vecDrain, if_pos (by simp), List.drop_length, List.take_left, List.append_nil]
      rw [this]
      simp only [Option.bind_some]
      rw [hset, List.drop_of_length_le (by simp), List.append_nil]
  | cons x e =>
    rw [if_neg (by simp)] at hk ⊢
    subst hk
    rw [hone]
    have h1 : (a ++ (b ++ x :: e)).drop (a.length + b.length + 1) = e := by
      rw [show a ++ (b ++ x :: e) = (a ++ (b ++ [x])) ++ e by simp, show a.length + b.length + 1 = (a ++ (b ++ [x])).length by simp; omega, List.drop_left]
    have : vecDrain (a ++ (b ++ x :: e)) a.length (a.length + b.length + 1) = some (a ++ e) := by
      rw [vecDrain, if_pos (by simp; omega), List.take_left, h1]
    rw [this, h1]
    exact hset _

private theorem inLines_left {c : Content} {A : List Text} {a b : Text} {M : List Text} {d e : Text} {B : List Text}
    (hl : c.lines = A ++ (a ++ b) :: (M ++ (d ++ e) :: B)) :
    c.delInLines ⟨A.length, a.length⟩ ⟨A.length + 1 + M.length, d.length⟩ =
      some (leftOver c.lines ⟨A.length, a.length⟩ ⟨A.length + 1 + M.length, d.length⟩) := by
  have hm : ∀ x : Text, A ++ x :: (M ++ (d ++ e) :: B) = (A ++ x :: M) ++ (d ++ e) :: B := fun x => by simp
  have hlen : ∀ x : Text, (A ++ x :: M).length = A.length + 1 + M.length := fun x => by simp; omega
  have hg1 : ∀ (x : Text) (R : List Text), (A ++ x :: R)[A.length]? = some x := fun x R => get_mid _ _ _
  have hg2 : ∀ x : Text, (A ++ x :: (M ++ (d ++ e) :: B))[A.length + 1 + M.length]? = some (d ++ e) := fun x => by
    rw [hm, ← hlen x]; exact get_mid _ _ _
  have hd1 : ∀ x y : Text, (A ++ x :: (M ++ y :: B)).drop (A.length + 1 + M.length + 1) = B := fun x y => by
    rw [show A ++ x :: (M ++ y :: B) = (A ++ x :: (M ++ [y])) ++ B by simp, show A.length + 1 + M.length + 1 = (A ++ x :: (M ++ [y])).length by simp; omega, List.drop_left]
  have hd2 : ∀ x y : Text, (A ++ x :: (M ++ y :: B)).drop (A.length + 1 + M.length) = y :: B := fun x y => by
    rw [show A ++ x :: (M ++ y :: B) = (A ++ x :: M) ++ y :: B by simp, ← hlen x, List.drop_left]
  have ht1 : ∀ (x : Text) (R : List Text), (A ++ x :: R).take (A.length + 1) = A ++ [x] := fun x R => by
    rw [show A ++ x :: R = (A ++ [x]) ++ R by simp, show A.length + 1 = (A ++ [x]).length by simp, List.take_left]
  have ht2 : ∀ x y : Text, (A ++ x :: (M ++ y :: B)).take (A.length + 1 + M.length) = A ++ x :: M := fun x y => by
    rw [show A ++ x :: (M ++ y :: B) = (A ++ x :: M) ++ y :: B by simp, ← hlen x, List.take_left]
  have ht3 : ∀ x y : Text, (A ++ x :: (M ++ y :: B)).take (A.length + 1 + M.length + 1) = A ++ x :: (M ++ [y]) := fun x y => by
    rw [show A ++ x :: (M ++ y :: B) = (A ++ x :: (M ++ [y])) ++ B by simp, show A.length + 1 + M.length + 1 = (A ++ x :: (M ++ [y])).length by simp; omega, List.take_left]
  have hdr : ∀ (x : Text) (R : List Text), (A ++ x :: R).drop (A.length + 1) = R := fun x R => by
    rw [show A ++ x :: R = (A ++ [x]) ++ R by simp, show A.length + 1 = (A ++ [x]).length by simp, List.drop_left]
  have hs1 : ∀ (x y : Text) (R : List Text), vecSet (A ++ x :: R) A.length y = some (A ++ y :: R) := fun x y R => by simp [vecSet]
  have hs2 : ∀ x y z : Text, vecSet (A ++ x :: (M ++ y :: B)) (A.length + 1 + M.length) z = some (A ++ x :: (M ++ z :: B)) := fun x y z => by
    rw [show A ++ x :: (M ++ y :: B) = (A ++ x :: M) ++ y :: B by simp, ← hlen x]
    simp [vecSet]
  have htot : ∀ x y : Text, (A ++ x :: (M ++ y :: B)).length = A.length + 1 + M.length + 1 + B.length := fun x y => by simp; omega
  have first : Content.delFirstLine c.lines ⟨A.length, a.length⟩ =
      if 0 < a.length then some (A ++ a :: (M ++ (d ++ e) :: B), A.length + 1) else some (A ++ (a ++ b) :: (M ++ (d ++ e) :: B), A.length) := by
    unfold Content.delFirstLine
    simp only [hl, hg1, Option.bind_eq_bind, Option.bind_some, hs1, List.take_left, gt_iff_lt]
  have last : ∀ x : Text, Content.delLastLine (A ++ x :: (M ++ (d ++ e) :: B)) ⟨A.length + 1 + M.length, d.length⟩ =
      if 0 < e.length then some (A ++ x :: (M ++ e :: B), A.length + M.length) else some (A ++ x :: (M ++ (d ++ e) :: B), A.length + 1 + M.length) := by
    intro x
    unfold Content.delLastLine
    simp only [hg2, Option.bind_eq_bind, Option.bind_some]
    by_cases he : 0 < e.length
    · rw [if_pos (by simp; omega), if_pos he]
      have : vecDrain (d ++ e) 0 d.length = some e := by rw [vecDrain, if_pos (by simp), List.drop_left]; rfl
      rw [this]
      simp only [Option.bind_some, hs2, csub]
      rw [if_pos (by omega)]
      simp only [Option.bind_some]
      rw [show A.length + 1 + M.length - 1 = A.length + M.length by omega]
    · rw [if_neg (by rw [List.length_append]; omega), if_neg he]
  have hcond : (d.length < (d ++ e).length) ↔ 0 < e.length := by simp
  unfold Content.delInLines leftOver
  rw [first]
  simp only [hl, hg1, hg2, hd1, Option.getD_some, List.take_left, List.drop_left, hcond]
  rw [if_neg (show ¬ A.length = A.length + 1 + M.length by omega)]
  have nonempty : ∀ {l : List Text} {x : List Text}, l ≠ [] → (if l = [] then x else l) = l := fun h => if_neg h
  by_cases ha : 0 < a.length
  · simp only [if_pos ha, Option.bind_eq_bind, Option.bind_some, last]
    by_cases he : 0 < e.length
    · simp only [if_pos he, Option.bind_some]
      rw [ht2, hdr, nonempty (by simp)]
      by_cases hM : 2 ≤ M.length
      · rw [if_pos (by omega), if_neg (show ¬ M.length = 1 by omega)]
        rw [show Min.min (A.length + M.length + 1) (A ++ a :: (M ++ e :: B)).length = A.length + 1 + M.length by rw [htot]; omega]
        rw [vecDrain, if_pos (by rw [htot]; omega), ht1, hd2]
        simp [Content.atLeastOneLine]
      · rw [if_neg (by omega)]
        match M, hM with
        | [], _ => simp
        | [m], _ => simp
        | _ :: _ :: _, h => exact absurd (by simp) h
    · simp only [if_neg he, Option.bind_some]
      have he0 : e = [] := List.length_eq_zero_iff.1 (by omega)
      subst he0
      rw [ht3, hdr, nonempty (by simp)]
      by_cases hM : 1 ≤ M.length
      · rw [if_pos (by omega), if_neg (show ¬ (M ++ [d ++ ([] : Text)] : List Text).length = 1 by intro h; simp only [List.length_append, List.length_cons, List.length_nil] at h; omega)]
        rw [show Min.min (A.length + 1 + M.length + 1) (A ++ a :: (M ++ (d ++ []) :: B)).length = A.length + 1 + M.length + 1 by rw [htot]; omega]
        rw [vecDrain, if_pos (by rw [htot]; omega), ht1, hd1]
        simp [Content.atLeastOneLine]
      · rw [if_neg (by omega)]
        match M, hM with
        | [], _ => simp
        | _ :: _, h => exact absurd (by simp) h
  · have ha0 : a = [] := List.length_eq_zero_iff.1 (by omega)
    subst ha0
    simp only [if_neg ha, Option.bind_eq_bind, Option.bind_some, last]
    by_cases he : 0 < e.length
    · simp only [if_pos he, Option.bind_some]
      rw [ht2, List.drop_left, nonempty (by simp)]
      by_cases hM : 1 ≤ M.length
      · rw [if_pos (by omega), if_neg (show ¬ ((([] : Text) ++ b) :: M : List Text).length = 1 by intro h; simp only [List.length_cons] at h; omega)]
        rw [show Min.min (A.length + M.length + 1) (A ++ ([] ++ b) :: (M ++ e :: B)).length = A.length + 1 + M.length by rw [htot]; omega]
        rw [vecDrain, if_pos (by rw [htot]; omega), List.take_left, hd2]
        simp [Content.atLeastOneLine]
      · rw [if_neg (by omega)]
        match M, hM with
        | [], _ => simp
        | _ :: _, h => exact absurd (by simp) h
    · simp only [if_neg he, Option.bind_some]
      have he0 : e = [] := List.length_eq_zero_iff.1 (by omega)
      subst he0
      rw [ht3, List.drop_left, if_pos (by omega), if_neg (show ¬ ((([] : Text) ++ b) :: (M ++ [d ++ ([] : Text)]) : List Text).length = 1 by intro h; simp only [List.length_append, List.length_cons, List.length_nil] at h; omega)]
      rw [show Min.min (A.length + 1 + M.length + 1) (A ++ ([] ++ b) :: (M ++ (d ++ []) :: B)).length = A.length + 1 + M.length + 1 by rw [htot]; omega]
      rw [vecDrain, if_pos (by rw [htot]; omega), List.take_left, hd1]
      simp only [Option.bind_some, Content.atLeastOneLine, List.append_nil]
      cases h : A ++ B <;> simp

private theorem bounds_eq {c : Content} (h : c.Valid) : (selDocOf c).bounds = (c.selection.min, c.selection.max) := by
  unfold SelDoc.bounds
  rw [selDoc_place h, selDoc_text h]
  show (if indexIn _ (c.tail.getD c.pos) < c.before.length then _ else _) = _
  unfold Content.selection
  cases ht : c.tail with
  | none =>
    simp only [Option.getD_none]
    split
    · simp [selDocOf, ht]
    · simp [selDocOf, ht]
  | some t =>
    have hv := h.tail t ht
    rw [Option.getD_some, indexIn_eq h.cleanLines hv]
    simp only [selDocOf, ht, Option.getD_some]
    by_cases hb : t.blt c.pos = true
    · rw [if_pos (show _ < c.before.length from textBefore_length_lt hv h.pos hb), if_pos hb]
    · rw [if_neg hb]
      by_cases he : t = c.pos
      · rw [he]; simp
      · have := textBefore_length_lt h.pos hv ((Pos.blt_or he).resolve_left hb)
        rw [if_neg (by rw [Content.before]; omega)]

private theorem delRange_left {c : Content} (h : c.Valid) (hw : c.selection.min ≠ c.selection.max) :
    c.delRange c.selection = some (leftOver c.lines c.selection.min c.selection.max) := by
  obtain ⟨v1, v2, v3, _⟩ := C23_selection h
  unfold Content.delRange
  by_cases hy : c.selection.min.y = c.selection.max.y
  · rw [if_pos hy]
    have hx : c.selection.min.x < c.selection.max.x := by
      rcases Nat.lt_or_ge c.selection.min.x c.selection.max.x with h1 | h1
      · exact h1
      · exact absurd (Content.pos_eq hy (by omega)) hw
    obtain ⟨A, a, b, e, B, h1, h2, h3, h4⟩ := Content.split_in_line v1 v2 hy hx
    rw [h2, h3]
    exact inLine_left h1 h4
  · rw [if_neg hy]
    obtain ⟨A, a, b, M, d, e, B, h1, h2, h3⟩ := Content.split_in_lines v1 v2 (by omega)
    rw [h2, h3]
    exact inLines_left h1

theorem selDoc_erase {c : Content} (h : c.Valid) (hw : c.hasWideSelection = true) :
    ∃ c', c.delSelection = some (c', true) ∧ c'.Valid ∧ selDocOf c' = (selDocOf c).erase := by
  obtain ⟨c', _, _, _, h1, h2, h3, _⟩ := C23_cut_outside h hw
  refine ⟨c', h1, h2, ?_⟩
  have hne : c.selection.min ≠ c.selection.max := fun he => by
    have := selDoc_wide h
    rw [hw, SelDoc.wide, ends_eq h, he] at this
    simp at this
  unfold Content.delSelection at h1
  simp only at h1
  rw [if_neg (by
    rintro ⟨g1, g2⟩
    exact hne (Content.pos_eq g1 g2)),
    delRange_left h hne] at h1
  simp only [Option.bind_eq_bind, Option.bind_some, Content.setCursorPos] at h1
  cases hq : Content.makeValidPos { c with lines := leftOver c.lines c.selection.min c.selection.max } c.selection.min with
  | none => rw [hq] at h1; simp at h1
  | some q =>
    rw [hq] at h1
    simp only [Option.bind_some, Option.some.injEq, Prod.mk.injEq, and_true] at h1
    subst h1
    rw [makeValidPos_nearest (c := { c with lines := leftOver c.lines c.selection.min c.selection.max }) h2.oneLine h2.cleanLines] at hq
    have hq : nearest (joinLines (leftOver c.lines c.selection.min c.selection.max)) c.selection.min = q := Option.some.inj hq
    have hv : ValidPos (leftOver c.lines c.selection.min c.selection.max) q := h2.pos
    have hcl : CleanLines (leftOver c.lines c.selection.min c.selection.max) := h2.cleanLines
    rw [SelDoc.erase, bounds_eq h, selDoc_text h, textLines_join h.oneLine h.cleanLines]
    simp only
    rw [hq, indexIn_eq hcl hv, ← text_split hv, List.take_left, List.drop_left]
    rfl

/-- C87: the selections inside a line, those of whole lines and the one of the whole text are removed exactly. -/
theorem C87_removed {c : Content} (h : c.Valid) (hw : (⟨⟨c.before, c.after⟩, c.tail⟩ : SelDoc).wide = true)
    (he : (⟨⟨c.before, c.after⟩, c.tail⟩ : SelDoc).Exact) : (⟨⟨c.before, c.after⟩, c.tail⟩ : SelDoc).erase = (⟨⟨c.before, c.after⟩, c.tail⟩ : SelDoc).without := by
  have hw : (selDocOf c).wide = true := hw
  have he : (selDocOf c).Exact := he
  rw [selDoc_wide h] at hw
  show (selDocOf c).erase = (selDocOf c).without
  obtain ⟨c2, k1, _, k3⟩ := selDoc_erase h hw
  obtain ⟨c', s, h1, h2, h3, h4, h5, h6⟩ := C23_cut h hw (exact_ok h he)
  rw [k1] at h2
  cases h2
  obtain ⟨s1, s2, s3, s4⟩ := selected_eq h
  rw [h1] at s1
  cases s1
  have hx : c2.after = (selDocOf c).text.drop ((selDocOf c).ends.2 + 1) := by
    rw [← List.drop_drop, s4]
    rw [Content.toText, fmtLines_eq, ← text_split (C23_selection h).2.1, h6, s2] at h5
    have : textAfter c.lines c.selection.max = (textAfter c.lines c.selection.max).take 1 ++ c2.after := by
      simpa using h5
    exact (List.append_cancel_left ((List.take_append_drop 1 _).trans this)).symm
  rw [← k3, SelDoc.without, s3, selDocOf, h4, h6, hx]

theorem selDoc_keep {c c' : Content} (h' : c'.Valid) (hf : FollowsTail c.tail c') :
    selDocOf c' = (selDocOf c).keep ⟨c'.before, c'.after⟩ := by
  unfold FollowsTail at hf
  rw [SelDoc.keep, selDocOf, hf, h'.join]
  rfl

/-- What is kept of a field. -/
def SameSettings (f f' : InputField) : Prop := f'.area = f.area ∧ f'.focused = f.focused ∧ f'.newLineKeys = f.newLineKeys

private theorem scrolled (cw : Char → Nat) {f : InputField} {c : Content} (h : c.Valid) (hw : 1 ≤ f.area.width) :
    ∃ f', fixScroll cw { f with content := c } = some f' ∧ f'.content = c ∧ SameSettings f f' := by
  obtain ⟨f', g1, ⟨s, g2⟩, _⟩ := fixScroll_ok cw (f := { f with content := c }) h hw
  exact ⟨f', g1, by rw [g2], by rw [g2]; exact ⟨rfl, rfl, rfl⟩⟩

private theorem wrapped (cw : Char → Nat) {f : InputField} {c : Content} (h : c.Valid) (hw : 1 ≤ f.area.width) {r : Run (Content × Bool)} {b : Bool}
    (hr : r = some (c, b)) : ∃ f', wrap cw f r = some (f', b) ∧ f'.content = c ∧ SameSettings f f' := by
  subst hr
  cases b with
  | false => exact ⟨_, rfl, rfl, rfl, rfl, rfl⟩
  | true =>
    obtain ⟨f', g1, g2, g3⟩ := scrolled cw (f := f) h hw
    exact ⟨f', by simp [wrap, g1], g2, g3⟩

theorem selDoc_left {d : Doc} {c' : Content} (h : (d.before = [] ∧ c'.doc = d) ∨ ∃ ch, d.before = c'.before ++ [ch] ∧ c'.after = ch :: d.after) :
    c'.doc = d.left := by
  obtain ⟨p, r⟩ := d
  rcases h with ⟨h1, h2⟩ | ⟨ch, h1, h2⟩
  · simp only at h1
    subst h1
    exact h2
  · simp only at h1 h2
    subst h1
    rw [Doc.left_snoc, Content.doc, h2]

theorem selDoc_right {d : Doc} {c' : Content} (h : (d.after = [] ∧ c'.doc = d) ∨ ∃ ch, d.after = ch :: c'.after ∧ c'.before = d.before ++ [ch]) :
    c'.doc = d.right := by
  obtain ⟨p, r⟩ := d
  rcases h with ⟨h1, h2⟩ | ⟨ch, h1, h2⟩
  · simp only at h1
    subst h1
    exact h2
  · simp only at h1 h2
    subst h1
    simp only [Doc.right, Content.doc, h2]

/-- A move, whatever the selection. -/
private theorem move_ok (cw : Char → Nat) {f : InputField} (h : f.content.Valid) (hw : 1 ≤ f.area.width) (code : KeyCode)
    (h1 : code ≠ .backspace) (h2 : code ≠ .delete) (h3 : ∀ c, code ≠ .char c) :
    ∃ f' b, moveKey cw f code = some (f', b) ∧ f'.content.Valid ∧ f'.content.tail = f.content.tail ∧
      f'.content.doc = f.content.doc.press cw [] f.area.height ⟨code, [], .none⟩ ∧ SameSettings f f' := by
  have fin : ∀ {r : Run (Content × Bool)} {c : Content} {b : Bool} {d : Doc}, r = some (c, b) → c.Valid → c.tail = f.content.tail → c.doc = d →
      ∃ f' b, wrap cw f r = some (f', b) ∧ f'.content.Valid ∧ f'.content.tail = f.content.tail ∧ f'.content.doc = d ∧ SameSettings f f' := by
    intro r c b d e1 e2 e3 e4
    obtain ⟨f', g1, g2, g3⟩ := wrapped cw (f := f) e2 hw e1
    exact ⟨f', b, g1, by rw [g2]; exact e2, by rw [g2]; exact e3, by rw [g2]; exact e4, g3⟩
  have hd : ∀ d : Doc, d = d := fun _ => rfl
  cases code with
  | backspace => exact absurd rfl h1
  | delete => exact absurd rfl h2
  | char c => exact absurd rfl (h3 c)
  | home =>
    obtain ⟨c', seg, k1, k2, k3, k4, k5, k6, k7, k8⟩ := Content.moveToLineStart_ok h
    refine fin (congrArg some k1) k2 k4 ?_
    show c'.doc = f.content.doc.home
    rw [show f.content.doc = ⟨c'.before ++ seg, f.content.after⟩ by simp [Content.doc, k5], Doc.home_eq _ _ _ k7 k8, Content.doc, k6]
  | «end» =>
    obtain ⟨c', seg, k1, k2, k3, k4, k5, k6, k7, k8⟩ := Content.moveToLineEnd_ok h
    refine fin k1 k2 k4 ?_
    show c'.doc = f.content.doc.toEnd
    rw [show f.content.doc = ⟨f.content.before, seg ++ c'.after⟩ by simp [Content.doc, k6], Doc.toEnd_eq _ _ _ k7 k8, Content.doc, k5]
  | up =>
    obtain ⟨c', r, k1, k2, k3, k4⟩ := Content.moveLinesUp_doc cw h 1
    exact fin k1 k2 k3 k4
  | down =>
    obtain ⟨c', r, k1, k2, k3, k4⟩ := Content.moveLinesDown_doc cw h 1
    exact fin k1 k2 k3 k4
  | left =>
    obtain ⟨c', r, k1, k2, k3, k4, k5⟩ := Content.moveLeft_ok h
    refine fin k1 k2 k4 (selDoc_left ?_)
    rcases k5 with ⟨e1, rfl, _⟩ | ⟨ch, e1, e2, _⟩
    · exact .inl ⟨e1, rfl⟩
    · exact .inr ⟨ch, e1, e2⟩
  | right =>
    obtain ⟨c', r, k1, k2, k3, k4, k5⟩ := Content.moveRight_ok h
    refine fin k1 k2 k4 (selDoc_right ?_)
    rcases k5 with ⟨e1, rfl, _⟩ | ⟨ch, e1, e2, _⟩
    · exact .inl ⟨e1, rfl⟩
    · exact .inr ⟨ch, e1, e2⟩
  | pageUp =>
    obtain ⟨c', r, k1, k2, k3, k4⟩ := Content.moveLinesUp_doc cw h f.area.height
    exact fin k1 k2 k3 k4
  | pageDown =>
    obtain ⟨c', r, k1, k2, k3, k4⟩ := Content.moveLinesDown_doc cw h f.area.height
    exact fin k1 k2 k3 k4
  | other n => exact ⟨f, false, rfl, h, rfl, rfl, rfl, rfl, rfl⟩

private theorem char_doc {c c' : Content} {ch : Char} (h3 : c'.before = c.before ++ keptText [ch]) (h4 : c'.after = c.after) (cw : Char → Nat) (page : Nat) :
    (⟨c'.before, c'.after⟩ : Doc) = (⟨c.before, c.after⟩ : Doc).press cw [] page ⟨.char ch, [], .none⟩ := by
  rw [h3, h4]
  simp only [Doc.press, List.not_mem_nil, if_false, ne_eq, not_true_eq_false, false_and, or_false, reduceCtorEq, not_false_eq_true]
  by_cases hc : ch = '\r' ∨ ch = '\x08'
  · rw [if_pos hc]
    rcases hc with rfl | rfl <;> simp [keptText]
  · have : keptText [ch] = [ch] := by
      have hc1 : ch ≠ '\r' := fun e => hc (.inl e)
      have hc2 : ch ≠ '\x08' := fun e => hc (.inr e)
      simp [keptText, hc1, hc2]
    rw [if_neg hc, this]
    rfl

theorem selDoc_backspace {c : Content} (h : c.Valid) : ∃ c' b, c.delCharLeft = some (c', b) ∧ c'.Valid ∧
    selDocOf c' = (selDocOf c).keep (selDocOf c).doc.backspace := by
  obtain ⟨c', r, h1, h2, h3⟩ := Content.delCharLeft_ok h
  refine ⟨c', r, h1, h2, ?_⟩
  rw [selDoc_keep h2 (delCharLeft_follows h1 h2)]
  congr 1
  show _ = Doc.backspace ⟨c.before, c.after⟩
  rcases h3 with ⟨e, rfl, _⟩ | ⟨ch, e1, e2, _⟩
  · simp [Doc.backspace, e]
  · simp [Doc.backspace, e1, e2]

theorem selDoc_delete {c : Content} (h : c.Valid) : ∃ c' b, c.delCharBelow = some (c', b) ∧ c'.Valid ∧
    selDocOf c' = (selDocOf c).keep (selDocOf c).doc.delete := by
  obtain ⟨c', r, h1, h2, h3⟩ := Content.delCharBelow_ok h
  refine ⟨c', r, h1, h2, ?_⟩
  rw [selDoc_keep h2 (delCharBelow_follows h1 h2)]
  congr 1
  show _ = Doc.delete ⟨c.before, c.after⟩
  simp only [Doc.delete]
  rcases h3 with ⟨e, rfl, _, e3⟩ | ⟨ch, e1, e2, _⟩ | ⟨e1, e2, e3, _⟩
  · simp only [e]
    rw [if_neg]
    intro hl
    obtain ⟨t, ht⟩ := List.getLast?_eq_some_iff.1 hl
    exact e3 t ht
  · simp only [e1, e2]
  · simp [e1, e2, e3, Doc.backspace]

/-- One key. -/
private theorem key_ok (cw : Char → Nat) {f : InputField} (h : f.content.Valid) (hw : 1 ≤ f.area.width) (hf : f.focused = true) (k : KeyComb) :
    ∃ f' b, f.applyKeyCombination cw k = some (f', b) ∧ f'.content.Valid ∧
      selDocOf f'.content = (selDocOf f.content).press cw f.newLineKeys f.area.height k ∧ SameSettings f f' := by
  unfold applyKeyCombination SelDoc.press
  simp only [hf, Bool.not_true, Bool.false_eq_true, if_false]
  by_cases hn : k ∈ f.newLineKeys
  · rw [if_pos (by simpa using hn), if_pos hn]
    obtain ⟨c', h1, h2, h3, h4⟩ := Content.insertNewLine_ok h
    obtain ⟨f', g1, g2, g3⟩ := scrolled cw (f := f) h2 hw
    refine ⟨f', true, by simp [InputField.insertNewLine, h1, g1], by rw [g2]; exact h2, ?_, g3⟩
    rw [g2, selDoc_keep h2 (insertNewLine_follows h1 h2), h3, h4]
    rfl
  rw [if_neg (by simpa using hn), if_neg hn]
  obtain ⟨code, others, mods⟩ := k
  have ignored : ∃ f' b, some (f, false) = some (f', b) ∧ f'.content.Valid ∧ selDocOf f'.content = selDocOf f.content ∧ SameSettings f f' :=
    ⟨f, false, rfl, h, rfl, rfl, rfl, rfl⟩
  cases others with
  | cons o os => rw [if_pos (.inl (by simp))]; exact ignored
  | nil =>
  by_cases hm : ¬ (mods = .none ∨ mods = .shift)
  · have hm1 : mods ≠ .none := fun e => hm (.inl e)
    have hm2 : mods ≠ .shift := fun e => hm (.inr e)
    rw [if_pos (.inr ⟨hm1, hm2⟩)]
    cases mods with
    | none => exact absurd rfl hm1
    | shift => exact absurd rfl hm2
    | other n => exact ignored
  have hm := Classical.not_not.1 hm
  rw [if_neg (by rcases hm with rfl | rfl <;> simp)]
  have happ : applyMods cw f ⟨code, [], mods⟩ = f.applyKeycodeEvent cw code (mods == .shift) := by
    rcases hm with rfl | rfl <;> rfl
  rw [happ]
  simp only [selDoc_wide h]
  have moves : code ≠ .backspace → code ≠ .delete → (∀ c, code ≠ .char c) →
      ∃ f' b, moveKey cw { f with content := if (mods == .shift) = true then f.content.makeSelection else f.content.unselect } code = some (f', b) ∧
        f'.content.Valid ∧ selDocOf f'.content = (selDocOf f.content).goto (mods == .shift)
          ((selDocOf f.content).doc.press cw [] f.area.height ⟨code, [], .none⟩) ∧ SameSettings f f' := by
    intro c1 c2 c3
    generalize hg : (if (mods == .shift) = true then f.content.makeSelection else f.content.unselect) = g
    have hgv : g.Valid ∧ g.doc = f.content.doc ∧ g.tail = if (mods == .shift) = true then some (f.content.tail.getD f.content.pos) else none := by
      subst hg
      split
      · refine ⟨Content.makeSelection_ok h, ?_, ?_⟩
        · unfold Content.makeSelection; cases f.content.tail <;> rfl
        · unfold Content.makeSelection
          cases ht : f.content.tail with
          | none => rfl
          | some t => simp [ht]
      · exact ⟨Content.unselect_ok h, rfl, rfl⟩
    obtain ⟨f', b, q1, q2, q3, q4, q5⟩ := move_ok cw (f := { f with content := g }) hgv.1 hw code c1 c2 c3
    refine ⟨f', b, q1, q2, ?_, q5⟩
    rw [selDocOf, SelDoc.goto, q3, selDoc_place h]
    show (⟨f'.content.doc, g.tail⟩ : SelDoc) = _
    rw [q4, hgv.2.2]
    show (⟨g.doc.press cw [] f.area.height ⟨code, [], .none⟩, _⟩ : SelDoc) = _
    rw [hgv.2.1]
    rfl
  cases code with
  | backspace =>
    show ∃ f' b, f.delKey _ = _ ∧ _
    unfold delKey
    by_cases hww : f.content.hasWideSelection = true
    · rw [if_pos hww]
      obtain ⟨c', h1, h2, h3⟩ := selDoc_erase h hww
      exact ⟨{ f with content := c' }, _, by rw [h1]; rfl, h2, by rw [hww]; exact h3, rfl, rfl, rfl⟩
    · rw [if_neg hww]
      obtain ⟨c', b, h1, h2, h3⟩ := selDoc_backspace h
      exact ⟨{ f with content := c' }, _, by rw [h1]; rfl, h2, by simp only [hww]; exact h3, rfl, rfl, rfl⟩
  | delete =>
    show ∃ f' b, f.delKey _ = _ ∧ _
    unfold delKey
    by_cases hww : f.content.hasWideSelection = true
    · rw [if_pos hww]
      obtain ⟨c', h1, h2, h3⟩ := selDoc_erase h hww
      exact ⟨{ f with content := c' }, _, by rw [h1]; rfl, h2, by rw [hww]; exact h3, rfl, rfl, rfl⟩
    · rw [if_neg hww]
      obtain ⟨c', b, h1, h2, h3⟩ := selDoc_delete h
      exact ⟨{ f with content := c' }, _, by rw [h1]; rfl, h2, by simp only [hww]; exact h3, rfl, rfl, rfl⟩
  | char ch =>
    show ∃ f' b, f.charKey cw ch = _ ∧ _
    unfold charKey
    by_cases hww : f.content.hasWideSelection = true
    · rw [if_pos hww]
      obtain ⟨c', h1, h2, h3⟩ := selDoc_erase h hww
      obtain ⟨c2, k1, k2, k3, k4⟩ := Content.insertChar_ok h2 ch
      obtain ⟨f1, g1, g2, g3⟩ := scrolled cw (f := f) k2 hw
      obtain ⟨f2, g4, g5, g6⟩ := scrolled cw (f := f1) k2 (by rw [g3.1]; exact hw)
      have hf1 : { f1 with content := c2 } = f1 := by rw [← g2]
      rw [hf1] at g4
      refine ⟨f2, true, ?_, by rw [g5]; exact k2, ?_, g6.1.trans g3.1, g6.2.1.trans g3.2.1, g6.2.2.trans g3.2.2⟩
      · simp [h1, putChar, k1, g1, g4]
      · rw [g5, selDoc_keep k2 (insertChar_follows k1 k2), char_doc k3 k4 cw f.area.height]
        simp only [hww, if_true]
        rw [← h3]
        rfl
    · rw [if_neg hww]
      obtain ⟨c2, k1, k2, k3, k4⟩ := Content.insertChar_ok h ch
      obtain ⟨f1, g1, g2, g3⟩ := scrolled cw (f := f) k2 hw
      refine ⟨f1, true, by simp [putChar, k1, g1], by rw [g2]; exact k2, ?_, g3⟩
      rw [g2, selDoc_keep k2 (insertChar_follows k1 k2), char_doc k3 k4 cw f.area.height]
      simp only [hww]
      rfl
  | home => exact moves (by simp) (by simp) (by simp)
  | «end» => exact moves (by simp) (by simp) (by simp)
  | up => exact moves (by simp) (by simp) (by simp)
  | down => exact moves (by simp) (by simp) (by simp)
  | left => exact moves (by simp) (by simp) (by simp)
  | right => exact moves (by simp) (by simp) (by simp)
  | pageUp => exact moves (by simp) (by simp) (by simp)
  | pageDown => exact moves (by simp) (by simp) (by simp)
  | other n => exact moves (by simp) (by simp) (by simp)

/-- A text inserted without wide selection. -/
private theorem paste_ok {c : Content} (h : c.Valid) (hn : c.hasWideSelection = false) (s : Text) :
    ∃ c', c.insertStr s = some c' ∧ c'.Valid ∧ selDocOf c' = (selDocOf c).keep ((selDocOf c).doc.insert (keptText s)) := by
  have hb : TailBefore c := by
    intro t ht
    have : t = c.pos := by simpa [Content.hasWideSelection, ht] using hn
    simp [this, Pos.blt]
  obtain ⟨c', h1, h2, h3, h4, h5⟩ := insertStr_tail s h hb
  refine ⟨c', h1, h2, ?_⟩
  rw [selDoc_keep h2 (.same h2 h5), h3, h4]
  rfl

/-- One command. -/
theorem selCmd_ok (cw : Char → Nat) {f : InputField} (h : f.content.Valid) (hw : 1 ≤ f.area.width) (cmd : EditCmd)
    (hf : ∀ k, cmd = .key k → f.focused = true) :
    ∃ f' t, giveCmd cw f cmd = some (f', t) ∧ f'.content.Valid ∧
      (selDocOf f'.content, t) = (selDocOf f.content).edit cw f.newLineKeys f.area.height cmd ∧ SameSettings f f' := by
  cases cmd with
  | key k =>
    obtain ⟨f', b, h1, h2, h3, h4⟩ := key_ok cw h hw (hf k rfl) k
    exact ⟨f', [], by simp [giveCmd, h1], h2, by rw [h3]; rfl, h4⟩
  | cut =>
    obtain ⟨s1, _⟩ := selected_eq h
    show ∃ f' t, f.cutSelection cw = _ ∧ _
    unfold cutSelection SelDoc.edit
    rw [s1, selDoc_wide h]
    by_cases hww : f.content.hasWideSelection = true
    · obtain ⟨c', h1, h2, h3⟩ := selDoc_erase h hww
      obtain ⟨f1, g1, g2, g3⟩ := scrolled cw (f := f) h2 hw
      refine ⟨f1, (selDocOf f.content).selected, by simp only [Option.bind_eq_bind, Option.bind_some, h1, g1], by rw [g2]; exact h2, ?_, g3⟩
      rw [g2, h3, hww]
      rfl
    · have hww : f.content.hasWideSelection = false := by simpa using hww
      obtain ⟨c', b, h1, h2, h3⟩ := selDoc_delete h
      obtain ⟨f1, g1, g2, g3⟩ := scrolled cw (f := f) h2 hw
      refine ⟨f1, (selDocOf f.content).selected, by simp only [Option.bind_eq_bind, Option.bind_some, C23_cut_narrow hww, h1, g1], by rw [g2]; exact h2, ?_, g3⟩
      rw [g2, h3, hww]
      rfl
  | paste s =>
    simp only [giveCmd, replaceSelection, delWide, SelDoc.edit]
    rw [selDoc_wide h]
    by_cases hww : f.content.hasWideSelection = true
    · obtain ⟨c', h1, h2, h3⟩ := selDoc_erase h hww
      have hn : c'.hasWideSelection = false := by
        have : c'.tail = none := congrArg SelDoc.anchor h3
        simp [Content.hasWideSelection, this]
      obtain ⟨c2, k1, k2, k3⟩ := paste_ok h2 hn s
      obtain ⟨f1, g1, g2, g3⟩ := scrolled cw (f := f) k2 hw
      refine ⟨f1, [], ?_, by rw [g2]; exact k2, ?_, g3⟩
      · rw [if_pos hww]
        simp only [Option.bind_eq_bind, Option.bind_some, h1, k1, g1]
      · rw [g2, k3, h3, hww]
        rfl
    · have hww : f.content.hasWideSelection = false := by simpa using hww
      obtain ⟨c2, k1, k2, k3⟩ := paste_ok h hww s
      obtain ⟨f1, g1, g2, g3⟩ := scrolled cw (f := f) k2 hw
      refine ⟨f1, [], ?_, by rw [g2]; exact k2, ?_, g3⟩
      · rw [if_neg (by simp [hww])]
        simp only [Option.bind_eq_bind, Option.bind_some, k1, g1]
      · rw [g2, k3, hww]
        rfl

/-- C87: whatever the keys, cuts and pastes given one after the other to a focused field, it has the text, the cursor and the selection
of the reference editor, and the cut texts are the same. -/
theorem C87_history (cw : Char → Nat) : ∀ (cmds : List EditCmd) {f : InputField}, f.content.Valid → 1 ≤ f.area.width → f.focused = true →
    ∃ f' cuts, giveCmds cw f cmds = some (f', cuts) ∧ f'.content.toText = f'.content.before ++ f'.content.after ∧
      (⟨⟨f'.content.before, f'.content.after⟩, f'.content.tail⟩, cuts) =
        (⟨⟨f.content.before, f.content.after⟩, f.content.tail⟩ : SelDoc).edits cw f.newLineKeys f.area.height cmds
  | [], f, hv, _, _ => ⟨f, [], rfl, (C22_parts hv).symm, rfl⟩
  | c :: cs, f, hv, hw, hf => by
    obtain ⟨f1, t, h1, h2, h3, h4, h5, h6⟩ := selCmd_ok cw hv hw c (fun _ _ => hf)
    obtain ⟨f2, cuts, k1, k3, k2⟩ := C87_history cw cs (f := f1) h2 (by rw [h4]; exact hw) (by rw [h5]; exact hf)
    refine ⟨f2, t :: cuts, by simp [giveCmds, h1, k1], k3, ?_⟩
    show _ = SelDoc.edits cw f.newLineKeys f.area.height (selDocOf f.content) (c :: cs)
    simp only [SelDoc.edits]
    rw [← h3, ← h4, ← h6]
    simp only
    rw [show selDocOf f1.content = ⟨⟨f1.content.before, f1.content.after⟩, f1.content.tail⟩ from rfl, ← k2]

/-- C87: for a new field. -/
theorem C87_new (cw : Char → Nat) (area : Area) (hw : 1 ≤ area.width) (newLine : List KeyComb) (cmds : List EditCmd) :
    ∃ f' cuts, giveCmds cw { InputField.new area with newLineKeys := newLine } cmds = some (f', cuts) ∧
      f'.content.toText = f'.content.before ++ f'.content.after ∧
      (⟨⟨f'.content.before, f'.content.after⟩, f'.content.tail⟩, cuts) = ({} : SelDoc).edits cw newLine area.height cmds :=
  C87_history cw cmds (f := { InputField.new area with newLineKeys := newLine }) Content.default_valid hw rfl

/-- A text of several lines is typed, whole lines are cut, a word is replaced, and the lines are pasted. -/
private def story : List EditCmd :=
  let k := fun (c : KeyCode) => EditCmd.key { code := c }
  let s := fun (c : KeyCode) => EditCmd.key { code := c, mods := .shift }
  [.paste "ab\ncd\nefg".toList, k .up, k .home, s .end, .cut, s .right, .key { code := .char 'X' }, k (.other 0), k .end, .paste "cd\n".toList]

private def storyEnter : KeyComb := { code := .other 0 }

set_option maxRecDepth 4000 in
example : (giveCmds (fun _ => 1) { InputField.new ⟨0, 0, 5, 2⟩ with newLineKeys := [storyEnter] } story).map (fun r => (r.1.content.toText, r.2)) =
      some ("ab\nX\ngcd\n".toList, [[], [], [], [], "cd\n".toList, [], [], [], [], []]) ∧
    (({} : SelDoc).edits (fun _ => 1) [storyEnter] 2 story).1 = ⟨⟨"ab\nX\ngcd\n".toList, []⟩, none⟩ := by decide

private instance (t : Text) : Decidable (SelDoc.AtLineStart t) := by unfold SelDoc.AtLineStart; infer_instance
private instance (d : SelDoc) : Decidable d.Exact := by unfold SelDoc.Exact; infer_instance

set_option maxRecDepth 4000 in
/-- The two selections which are removed in this history are exact ones. -/
example : (({} : SelDoc).edits (fun _ => 1) [storyEnter] 2 (story.take 4)).1.Exact ∧
    (({} : SelDoc).edits (fun _ => 1) [storyEnter] 2 (story.take 6)).1.Exact := by decide

/-- C87: the selection of parts of several lines isn't removed exactly: the line in the middle stays, and so do the last character and the line breaks. -/
theorem C87_lines_counterexample :
    let k := fun (c : KeyCode) => EditCmd.key { code := c }
    let s := fun (c : KeyCode) => EditCmd.key { code := c, mods := .shift }
    let cmds := [.paste "ab\ncd\nef".toList, k .left, s .up, s .up]
    (giveCmds (fun _ => 1) (InputField.new ⟨0, 0, 5, 2⟩) (cmds ++ [k .backspace])).map (fun r => r.1.content.toText) = some "a\ncd\nf".toList ∧
    (({} : SelDoc).edits (fun _ => 1) [] 2 cmds).1.erase.text = "a\ncd\nf".toList ∧
    (({} : SelDoc).edits (fun _ => 1) [] 2 cmds).1.without.text = "a".toList := by decide

end Verif.Props

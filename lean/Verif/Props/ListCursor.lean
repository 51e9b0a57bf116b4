import Verif.Spec.ListCursor
import Verif.Props.ListViewCycle
/-! C102: a list view follows a list split at its selected row. -/
namespace Verif.Props
open Verif Verif.Spec ListView
variable {T : Type}

private def ok (p : T → Bool) (l : List T) (i : Nat) : Bool := (l[i]?.map p).getD false

private theorem firstIn_at {p : T → Bool} : ∀ {l : List T} {j : Nat} {y : T}, l[j]? = some y → p y = true → (∀ i, i < j → ok p l i = false) →
    firstIn p l = some (l.take j, y, l.drop (j + 1)) := by
  intro l
  induction l with
  | nil => intro j y h; simp at h
  | cons x l ih =>
    intro j y h hp hn
    cases j with
    | zero =>
      simp only [List.getElem?_cons_zero, Option.some.injEq] at h
      subst h
      simp [firstIn, hp]
    | succ j =>
      have hx : p x = false := by simpa [ok] using hn 0 (by omega)
      rw [List.getElem?_cons_succ] at h
      simp [firstIn, hx, ih h hp fun i hi => by simpa [ok] using hn (i + 1) (by omega)]

private theorem firstIn_none {p : T → Bool} : ∀ {l : List T}, (∀ i, i < l.length → ok p l i = false) → firstIn p l = none := by
  intro l
  induction l with
  | nil => intro _; rfl
  | cons x l ih =>
    intro hn
    have hx : p x = false := by simpa [ok] using hn 0 (by simp)
    simp [firstIn, hx, ih fun i hi => by simpa [ok] using hn (i + 1) (by simpa using hi)]

private theorem lastIn_none {p : T → Bool} : ∀ {l : List T}, (∀ i, i < l.length → ok p l i = false) → lastIn p l = none := by
  intro l
  induction l with
  | nil => intro _; rfl
  | cons x l ih =>
    intro hn
    have hx : p x = false := by simpa [ok] using hn 0 (by simp)
    simp [lastIn, hx, ih fun i hi => by simpa [ok] using hn (i + 1) (by simpa using hi)]

private theorem lastIn_at {p : T → Bool} : ∀ {l : List T} {j : Nat} {y : T}, l[j]? = some y → p y = true →
    (∀ i, j < i → i < l.length → ok p l i = false) → lastIn p l = some (l.take j, y, l.drop (j + 1)) := by
  intro l
  induction l with
  | nil => intro j y h; simp at h
  | cons x l ih =>
    intro j y h hp hn
    cases j with
    | zero =>
      simp only [List.getElem?_cons_zero, Option.some.injEq] at h
      subst h
      simp [lastIn, hp, lastIn_none (p := p) (l := l) fun i hi => by simpa [ok] using hn (i + 1) (by omega) (by simpa using hi)]
    | succ j =>
      rw [List.getElem?_cons_succ] at h
      simp [lastIn, ih h hp fun i h1 h2 => by simpa [ok] using hn (i + 1) (by omega) (by simpa using h2)]

/-- The reference and the list view. -/
private structure Rel (v : ListView T) (s : Picked T) : Prop where
  data : v.rows.map (·.data) = s.rows
  sel : v.selection = s.sel.map fun _ => s.before.length
  start : s.sel = none → s.before = []
  flags : ∀ r ∈ v.rows, r.displayed = s.filter r.data
  accepts : ∀ d, v.accepts d = s.filter d
  order : v.order = s.order

private theorem displayed_eq {v : ListView T} {s : Picked T} (h : Rel v s) (i : Nat) : v.isDisplayed i = ok s.filter s.rows i := by
  unfold isDisplayed ok
  rw [← h.data, List.getElem?_map]
  cases hr : v.rows[i]? with
  | none => rfl
  | some r => simpa using h.flags r (List.mem_of_getElem? hr)

/-- A row is selected at an index. -/
private theorem rel_at {v v' : ListView T} {s : Picked T} (h : Rel v s) (h1 : v'.rows = v.rows) (h2 : v'.filter = v.filter) (h3 : v'.order = v.order)
    {a : List T} {y : T} {b : List T} (hr : a ++ y :: b = s.rows) (ht : v'.selection = some a.length) : Rel v' (s.at_ a y b) where
  data := by rw [h1, h.data, ← hr]; simp [Picked.rows, Picked.at_]
  sel := ht
  start := by simp [Picked.at_]
  flags := by rw [h1]; exact h.flags
  accepts := by intro d; have := h.accepts d; unfold accepts at *; rw [h2]; exact this
  order := by rw [h3]; exact h.order

private theorem rel_same {v v' : ListView T} {s : Picked T} (h : Rel v s) (h1 : v'.rows = v.rows) (h2 : v'.filter = v.filter) (h3 : v'.order = v.order)
    (h4 : v'.selection = v.selection) : Rel v' s where
  data := by rw [h1, h.data]
  sel := by rw [h4, h.sel]
  start := h.start
  flags := by rw [h1]; exact h.flags
  accepts := by intro d; have := h.accepts d; unfold accepts at *; rw [h2]; exact this
  order := by rw [h3]; exact h.order

private theorem rel_nothing {v v' : ListView T} {s : Picked T} (h : Rel v s) (h1 : v'.rows = v.rows) (h2 : v'.filter = v.filter) (h3 : v'.order = v.order)
    (h4 : v'.selection = none) : Rel v' s.nothing where
  data := by rw [h1, h.data]; simp [Picked.nothing, Picked.rows]
  sel := by rw [h4]; rfl
  start := fun _ => rfl
  flags := by rw [h1]; exact h.flags
  accepts := by intro d; have := h.accepts d; unfold accepts at *; rw [h2]; exact this
  order := by rw [h3]; exact h.order

private theorem ok_some {p : T → Bool} {l : List T} {i : Nat} (h : ok p l i = true) : ∃ y, l[i]? = some y ∧ p y = true ∧ i < l.length := by
  unfold ok at h
  cases hi : l[i]? with
  | none => rw [hi] at h; simp at h
  | some y =>
    rw [hi] at h
    refine ⟨y, rfl, by simpa using h, ?_⟩
    rcases Nat.lt_or_ge i l.length with c | c
    · exact c
    · rw [List.getElem?_eq_none c] at hi; simp at hi

private theorem split_at {l : List T} {j : Nat} {y : T} (h : l[j]? = some y) : l.take j ++ y :: l.drop (j + 1) = l ∧ (l.take j).length = j := by
  have hj : j < l.length := by
    rcases Nat.lt_or_ge j l.length with c | c
    · exact c
    · rw [List.getElem?_eq_none c] at h; simp at h
  rw [List.getElem?_eq_getElem hj] at h
  cases h
  refine ⟨?_, by simp; omega⟩
  conv => rhs; rw [← List.take_append_drop j l]
  rw [List.drop_eq_getElem_cons hj]

private theorem rows_some {s : Picked T} {x : T} (h : s.sel = some x) : s.rows = s.before ++ x :: s.after := by simp [Picked.rows, h]

private theorem ok_before {p : T → Bool} {a b : List T} {x : T} {i : Nat} (h : i < a.length) : ok p a i = ok p (a ++ x :: b) i := by
  unfold ok; rw [List.getElem?_append_left h]

private theorem ok_after {p : T → Bool} {a b : List T} {x : T} {i : Nat} : ok p b i = ok p (a ++ x :: b) (a.length + 1 + i) := by
  unfold ok; rw [List.getElem?_append_right (by omega), show a.length + 1 + i - a.length = i + 1 by omega, List.getElem?_cons_succ]

/-- The cyclic search. -/
private theorem next_rel {v v' : ListView T} {s : Picked T} (h : Rel v s) (h1 : v'.rows = v.rows) (h2 : v'.filter = v.filter) (h3 : v'.order = v.order)
    {x : T} (hx : s.sel = some x) {toUp : Bool} {t : Nat} (ht : v'.selection = some t)
    (ha : Around v.rows.length v.isDisplayed toUp s.before.length t) : Rel v' (if toUp then s.up x else s.down x) := by
  have hlen : v.rows.length = s.before.length + 1 + s.after.length := by
    rw [show v.rows.length = (v.rows.map (·.data)).length by simp, h.data, rows_some hx]; simp; omega
  have hd : v.isDisplayed = ok s.filter (s.before ++ x :: s.after) := by
    funext i; rw [displayed_eq h, rows_some hx]
  rw [hlen, hd] at ha
  obtain ⟨a1, a2, a3⟩ := ha
  have inAfter : s.before.length < t → ∃ y, s.after[t - s.before.length - 1]? = some y ∧ s.filter y = true ∧
      Rel v' (s.at_ (s.before ++ x :: s.after.take (t - s.before.length - 1)) y (s.after.drop (t - s.before.length - 1 + 1))) := by
    intro c
    have : ok s.filter s.after (t - s.before.length - 1) = true := by
      rw [ok_after (a := s.before) (x := x), show s.before.length + 1 + (t - s.before.length - 1) = t by omega]
      exact a2
    obtain ⟨y, y1, y2, y3⟩ := ok_some this
    obtain ⟨e1, e2⟩ := split_at y1
    refine ⟨y, y1, y2, rel_at h h1 h2 h3 ?_ ?_⟩
    · rw [rows_some hx]
      conv => rhs; rw [← e1]
      simp
    · rw [ht, List.length_append, List.length_cons, e2]
      congr 1
      omega
  have inBefore : t < s.before.length → ∃ y, s.before[t]? = some y ∧ s.filter y = true ∧
      Rel v' (s.at_ (s.before.take t) y (s.before.drop (t + 1) ++ x :: s.after)) := by
    intro c
    have : ok s.filter s.before t = true := by rw [ok_before c]; exact a2
    obtain ⟨y, y1, y2, y3⟩ := ok_some this
    obtain ⟨e1, e2⟩ := split_at y1
    refine ⟨y, y1, y2, rel_at h h1 h2 h3 ?_ ?_⟩
    · rw [rows_some hx]
      conv => rhs; rw [← e1]
      simp
    · rw [ht, e2]
  have stay : t = s.before.length → Rel v' s := by
    intro c
    refine rel_same h h1 h2 h3 ?_
    rw [ht, h.sel, hx, c]
    rfl
  cases toUp with
  | true =>
    simp only [if_true] at a3 ⊢
    unfold Picked.up
    rcases a3 with ⟨c, a3⟩ | ⟨c, a3⟩
    · obtain ⟨y, y1, y2, y3⟩ := inBefore c
      rw [lastIn_at y1 y2 fun i c1 c2 => by rw [ok_before c2]; exact a3 i c1 c2]
      exact y3
    · rw [lastIn_none fun i ci => by rw [ok_before ci]; exact a3 i (by omega) (.inl ci)]
      by_cases c2 : s.before.length < t
      · obtain ⟨y, y1, y2, y3⟩ := inAfter c2
        simp only
        rw [lastIn_at y1 y2 fun i c1 c2 => by rw [ok_after (a := s.before) (x := x)]; exact a3 _ (by omega) (.inr (by omega))]
        exact y3
      · simp only
        rw [lastIn_none fun i ci => by rw [ok_after (a := s.before) (x := x)]; exact a3 _ (by omega) (.inr (by omega))]
        exact stay (by omega)
  | false =>
    simp only [Bool.false_eq_true, if_false] at a3 ⊢
    unfold Picked.down
    rcases a3 with ⟨c, a3⟩ | ⟨c, a3⟩
    · obtain ⟨y, y1, y2, y3⟩ := inAfter c
      rw [firstIn_at y1 y2 fun i c1 => by rw [ok_after (a := s.before) (x := x)]; exact a3 _ (by omega) (by omega)]
      exact y3
    · rw [firstIn_none fun i ci => by rw [ok_after (a := s.before) (x := x)]; exact a3 _ (by omega) (.inl (by omega))]
      by_cases c2 : t < s.before.length
      · obtain ⟨y, y1, y2, y3⟩ := inBefore c2
        simp only
        rw [firstIn_at y1 y2 fun i c1 => by rw [ok_before (by omega)]; exact a3 i (by omega) (.inr c1)]
        exact y3
      · simp only
        rw [firstIn_none fun i ci => by rw [ok_before ci]; exact a3 i (by omega) (.inr (by omega))]
        exact stay (by omega)

/-- The search from the scroll. -/
private theorem from_rel {v v' : ListView T} {s : Picked T} (h : Rel v s) (h1 : v'.rows = v.rows) (h2 : v'.filter = v.filter) (h3 : v'.order = v.order)
    {t k scroll : Nat} (ht : v'.selection = some t) (hk : k < v.rows.length) (e : t = (scroll + k) % v.rows.length) (hd : v.isDisplayed t = true)
    (hn : ∀ j, j < k → v.isDisplayed ((scroll + j) % v.rows.length) = false) : Rel v' (s.from_ (scroll % s.rows.length)) := by
  have hlen : v.rows.length = s.rows.length := by rw [← h.data]; simp
  rw [hlen] at hk e hn
  simp only [displayed_eq h] at hd hn
  have hm : scroll % s.rows.length < s.rows.length := Nat.mod_lt _ (by omega)
  have e0 : ∀ j, (scroll + j) % s.rows.length = (scroll % s.rows.length + j) % s.rows.length := by intro j; rw [Nat.mod_add_mod]
  simp only [e0] at e hn
  generalize scroll % s.rows.length = m at *
  have near : ∀ i, ok s.filter (s.rows.drop m) i = ok s.filter s.rows (m + i) := by intro i; unfold ok; rw [List.getElem?_drop]
  have far : ∀ i, i < m → ok s.filter (s.rows.take m) i = ok s.filter s.rows i := by intro i hi; unfold ok; rw [List.getElem?_take_of_lt hi]
  unfold Picked.from_
  by_cases c : m + k < s.rows.length
  · rw [Nat.mod_eq_of_lt c] at e
    have : ok s.filter (s.rows.drop m) k = true := by rw [near, ← e]; exact hd
    obtain ⟨y, y1, y2, y3⟩ := ok_some this
    obtain ⟨e1, e2⟩ := split_at y1
    rw [firstIn_at y1 y2 fun i c1 => by rw [near]; have := hn i c1; rwa [Nat.mod_eq_of_lt (by omega)] at this]
    refine rel_at h h1 h2 h3 ?_ ?_
    · rw [List.append_assoc, e1, List.take_append_drop]
    · rw [ht, List.length_append, e2, List.length_take, e]
      congr 1
      omega
  · have e' : t = m + k - s.rows.length := by
      rw [e, show m + k = (m + k - s.rows.length) + s.rows.length by omega, Nat.add_mod_right, Nat.mod_eq_of_lt (by omega)]
      omega
    have : ok s.filter (s.rows.take m) t = true := by rw [far _ (by omega)]; exact hd
    obtain ⟨y, y1, y2, y3⟩ := ok_some this
    obtain ⟨e1, e2⟩ := split_at y1
    rw [firstIn_none fun i ci => by
      rw [near]
      rw [List.length_drop] at ci
      have := hn i (by omega)
      rwa [Nat.mod_eq_of_lt (by omega)] at this]
    simp only
    rw [firstIn_at y1 y2 fun i c1 => by
      rw [far _ (by omega)]
      have := hn (i + s.rows.length - m) (by omega)
      rwa [show m + (i + s.rows.length - m) = i + s.rows.length by omega, Nat.add_mod_right, Nat.mod_eq_of_lt (by omega)] at this]
    refine rel_at h h1 h2 h3 ?_ ?_
    · rw [← List.cons_append, ← List.append_assoc, e1, List.take_append_drop]
    · rw [ht, e2]

/-- Nothing is displayed. -/
private theorem none_rel {s : Picked T} (h : ∀ x ∈ s.rows, s.filter x = false) (scroll : Nat) (toUp : Bool) :
    s.step scroll (.selectNext toUp) = s := by
  have none1 : ∀ {l : List T}, (∀ x ∈ l, x ∈ s.rows) → firstIn s.filter l = none ∧ lastIn s.filter l = none := by
    intro l hl
    have : ∀ i, i < l.length → ok s.filter l i = false := by
      intro i hi
      unfold ok
      rw [List.getElem?_eq_getElem hi]
      exact h _ (hl _ (List.getElem_mem hi))
    exact ⟨firstIn_none this, lastIn_none this⟩
  have hb := none1 (l := s.before) fun x hx => by simp [Picked.rows, hx]
  have ha := none1 (l := s.after) fun x hx => by simp [Picked.rows, hx]
  have hd := none1 (l := s.rows.drop (scroll % s.rows.length)) fun x hx => List.mem_of_mem_drop hx
  have ht := none1 (l := s.rows.take (scroll % s.rows.length)) fun x hx => List.mem_of_mem_take hx
  simp only [Picked.step]
  split
  · simp only [Picked.up, Picked.down, hb.1, hb.2, ha.1, ha.2]
    split <;> rfl
  · simp only [Picked.from_, hd.1, ht.1]

private theorem step_rel {area : Area} {columns : List (ListColumn T)} {v v' : ListView T} {s : Picked T} {hist : ListHistory T}
    (hr : ReachableList (fun _ => True) area columns v hist) (h : Rel v s) (op : ListOp T) (he : op.exec v = some v') : Rel v' (s.step v.scroll op) := by
  have hsel : s.rows.length = v.rows.length := by rw [← h.data]; simp
  have keep : (∀ d, op ≠ .addRow d) → op ≠ .clearRows → (∀ f, op ≠ .setFilter f) → op ≠ .removeFilter → (∀ o, op ≠ .sort o) →
      v'.rows = v.rows ∧ v'.filter = v.filter ∧ v'.order = v.order := by
    intro h1 h2 h3 h4 h5
    obtain ⟨a, b, _, c, _⟩ := frame he h1 h2 h3 h4 h5
    exact ⟨a, b, c⟩
  have plain : v'.rows = v.rows ∧ v'.filter = v.filter ∧ v'.order = v.order → (∀ up, op ≠ .selectNext up) → op ≠ .selectFirst → op ≠ .selectLast →
      op ≠ .unselect → op ≠ .clearRows → Rel v' s := by
    intro ⟨a, b, c⟩ h1 h2 h3 h4 h5
    exact rel_same h a b c ((C30_selection_kept (fun _ => True) area columns v v' hist hr op he h1 h2 h3 h4).2.1 h5)
  cases op with
  | addRow d =>
    have hsel' := (C30_selection_kept (fun _ => True) area columns v v' hist hr _ he (by simp) (by simp) (by simp) (by simp)).2.1 (by simp)
    cases he
    obtain ⟨f1, f2, f3, _⟩ := addRow_fields v d
    have hperm : (v.addRow d).rows.Perm (v.rows ++ [⟨d, v.accepts d⟩]) := by rw [addRow_rows]; exact insertRow_perm v _
    have hflags : ∀ r ∈ (v.addRow d).rows, r.displayed = s.filter r.data := by
      intro r hm
      have := hperm.mem_iff.1 hm
      rw [List.mem_append, List.mem_singleton] at this
      rcases this with hm | rfl
      · exact h.flags r hm
      · exact h.accepts d
    have hacc : ∀ x, (v.addRow d).accepts x = s.filter x := by
      intro x; have := h.accepts x; unfold accepts at *; rw [f1]; exact this
    cases ho : s.order with
    | none =>
      have hs : s.step v.scroll (.addRow d) = { s with after := s.after ++ [d] } := by simp only [Picked.step, ho]
      rw [hs]
      refine ⟨?_, ?_, h.start, hflags, hacc, by rw [f2, h.order]⟩
      · rw [(C30_order v d).1 (by rw [h.order, ho]), h.data]
        simp [Picked.rows]
      · rw [hsel', h.sel]
    | some o =>
      have hdata : (v.addRow d).rows.map (·.data) = (s.rows ++ [d]).mergeSort fun a b => (o a b).isLE := by
        rw [addRow_rows]
        unfold insertRow
        rw [h.order, ho]
        simp only
        rw [List.map_mergeSort (s := fun a b => (o a b).isLE) (fun _ _ _ _ => rfl), List.map_append, h.data]
        rfl
      have hlen : ((s.rows ++ [d]).mergeSort fun a b => (o a b).isLE).length = s.rows.length + 1 := by simp
      cases hx : s.sel with
      | none =>
        have hs : s.step v.scroll (.addRow d) = { s with after := (s.rows ++ [d]).mergeSort fun a b => (o a b).isLE } := by
          simp only [Picked.step, ho, hx]
        rw [hs]
        refine ⟨?_, ?_, h.start, hflags, hacc, by rw [f2, h.order]⟩
        · rw [hdata]
          simp [Picked.rows, hx, h.start hx]
        · rw [hsel', h.sel]
      | some x =>
        have hs : s.step v.scroll (.addRow d) = { s with
            before := ((s.rows ++ [d]).mergeSort fun a b => (o a b).isLE).take s.before.length
            sel := ((s.rows ++ [d]).mergeSort fun a b => (o a b).isLE)[s.before.length]?
            after := ((s.rows ++ [d]).mergeSort fun a b => (o a b).isLE).drop (s.before.length + 1) } := by
          simp only [Picked.step, ho, hx]
        rw [hs]
        generalize hsort : (s.rows ++ [d]).mergeSort (fun a b => (o a b).isLE) = sorted at *
        have hb : s.before.length < sorted.length := by rw [hlen, rows_some hx]; simp; omega
        have hg : sorted[s.before.length]? = some sorted[s.before.length] := List.getElem?_eq_getElem hb
        obtain ⟨e1, e2⟩ := split_at hg
        refine ⟨?_, ?_, ?_, hflags, hacc, by rw [f2, h.order]⟩
        · rw [hdata]
          simp only [Picked.rows, hg, Option.toList]
          conv => lhs; rw [← e1]
          simp
        · rw [hsel', h.sel, hx]
          simp only [hg, Option.map_some, e2]
        · simp only [hg, reduceCtorEq, false_implies]
  | clearRows =>
    cases he
    exact ⟨rfl, rfl, fun _ => rfl, by simp [clearRows], h.accepts, h.order⟩
  | setFilter f =>
    cases he
    refine ⟨?_, h.sel, h.start, ?_, fun d => rfl, h.order⟩
    · show List.map _ (List.map _ v.rows) = _
      rw [List.map_map]
      exact h.data
    · intro r hm
      simp only [setFilter, List.mem_map] at hm
      obtain ⟨r', _, rfl⟩ := hm
      rfl
  | removeFilter =>
    cases he
    refine ⟨?_, h.sel, h.start, ?_, fun d => rfl, h.order⟩
    · show List.map _ (List.map _ v.rows) = _
      rw [List.map_map]
      exact h.data
    · intro r hm
      simp only [removeFilter, List.mem_map] at hm
      obtain ⟨r', _, rfl⟩ := hm
      rfl
  | sort o =>
    cases he
    exact ⟨h.data, h.sel, h.start, h.flags, h.accepts, rfl⟩
  | unselect =>
    obtain ⟨a, b, c⟩ := keep (by simp) (by simp) (by simp) (by simp) (by simp)
    cases he
    exact rel_nothing h a b c rfl
  | selectFirst =>
    obtain ⟨a, b, c⟩ := keep (by simp) (by simp) (by simp) (by simp) (by simp)
    have he' := (C31_ends v v').1 he
    simp only [displayed_eq h] at he'
    simp only [Picked.step]
    cases hv : v'.selection with
    | none =>
      have : ∀ i, i < s.rows.length → ok s.filter s.rows i = false := by
        intro i
        induction i using Nat.strongRecOn with
        | ind i ih =>
          intro hi
          cases hc : ok s.filter s.rows i with
          | false => rfl
          | true =>
            have := (he' i).2 ⟨hc, fun j hj => by
              rcases Nat.lt_or_ge j i with g | g
              · rw [ih j g (by omega)] at hj; simp at hj
              · exact g⟩
            rw [hv] at this
            simp at this
      rw [firstIn_none this]
      exact rel_nothing h a b c hv
    | some t =>
      obtain ⟨g1, g2⟩ := (he' t).1 hv
      obtain ⟨y, y1, y2, y3⟩ := ok_some g1
      obtain ⟨e1, e2⟩ := split_at y1
      rw [firstIn_at y1 y2 fun i ci => by
        cases hc : ok s.filter s.rows i with
        | false => rfl
        | true => have := g2 i hc; omega]
      exact rel_at h a b c e1 (by rw [hv, e2])
  | selectLast =>
    obtain ⟨a, b, c⟩ := keep (by simp) (by simp) (by simp) (by simp) (by simp)
    have he' := (C31_ends v v').2 he
    simp only [displayed_eq h] at he'
    simp only [Picked.step]
    cases hv : v'.selection with
    | none =>
      have : ∀ k i, i < s.rows.length → s.rows.length - i ≤ k → ok s.filter s.rows i = false := by
        intro k
        induction k with
        | zero => intro i hi hk; omega
        | succ k ih =>
          intro i hi hk
          cases hc : ok s.filter s.rows i with
          | false => rfl
          | true =>
            have := (he' i).2 ⟨hc, fun j hj => by
              rcases Nat.lt_or_ge i j with g | g
              · obtain ⟨_, _, _, hj'⟩ := ok_some hj
                rw [ih j hj' (by omega)] at hj; simp at hj
              · exact g⟩
            rw [hv] at this
            simp at this
      rw [lastIn_none fun i hi => this s.rows.length i hi (by omega)]
      exact rel_nothing h a b c hv
    | some t =>
      obtain ⟨g1, g2⟩ := (he' t).1 hv
      obtain ⟨y, y1, y2, y3⟩ := ok_some g1
      obtain ⟨e1, e2⟩ := split_at y1
      rw [lastIn_at y1 y2 fun i ci _ => by
        cases hc : ok s.filter s.rows i with
        | false => rfl
        | true => have := g2 i hc; omega]
      exact rel_at h a b c e1 (by rw [hv, e2])
  | selectNext toUp =>
    obtain ⟨a, b, c⟩ := keep (by simp) (by simp) (by simp) (by simp) (by simp)
    obtain ⟨n1, n2⟩ := C31_next (fun _ => True) area columns v v' hist hr toUp he
    by_cases hex : ∃ r ∈ v.rows, r.displayed = true
    · obtain ⟨t, t1, t2, t3⟩ := n2 hex
      simp only [Picked.step]
      cases hx : s.sel with
      | none =>
        obtain ⟨k, k1, k2, k3, k4⟩ := t3 (by rw [h.sel, hx]; rfl)
        exact from_rel h a b c t1 k1 k2 k3 k4
      | some x =>
        have hs : v.selection = some s.before.length := by rw [h.sel, hx]; rfl
        refine next_rel h a b c hx t1 (around_of_cyclicNext ?_ (t2 _ hs))
        rw [← hsel, rows_some hx]
        simp
    · have hno : ∀ r ∈ v.rows, r.displayed = false := by
        intro r hm
        cases hc : r.displayed with
        | false => rfl
        | true => exact absurd ⟨r, hm, hc⟩ hex
      rw [n1 hno, none_rel]
      · exact h
      · intro x hm
        rw [← h.data, List.mem_map] at hm
        obtain ⟨r, hm, rfl⟩ := hm
        rw [← h.flags r hm]
        exact hno r hm
  | updateDimensions => exact plain (keep (by simp) (by simp) (by simp) (by simp) (by simp)) (by simp) (by simp) (by simp) (by simp) (by simp)
  | setArea a => exact plain (keep (by simp) (by simp) (by simp) (by simp) (by simp)) (by simp) (by simp) (by simp) (by simp) (by simp)
  | scrollLines n => exact plain (keep (by simp) (by simp) (by simp) (by simp) (by simp)) (by simp) (by simp) (by simp) (by simp) (by simp)
  | scrollPages n => exact plain (keep (by simp) (by simp) (by simp) (by simp) (by simp)) (by simp) (by simp) (by simp) (by simp) (by simp)
  | scrollToBottom => exact plain (keep (by simp) (by simp) (by simp) (by simp) (by simp)) (by simp) (by simp) (by simp) (by simp) (by simp)
  | makeSelectionVisible => exact plain (keep (by simp) (by simp) (by simp) (by simp) (by simp)) (by simp) (by simp) (by simp) (by simp) (by simp)

private theorem picks_rel {area : Area} {columns : List (ListColumn T)} {v : ListView T} {s : Picked T} (h : Picks area columns v s) :
    (∃ hist, ReachableList (fun _ => True) area columns v hist) ∧ Rel v s := by
  induction h with
  | init => exact ⟨⟨_, .init⟩, rfl, rfl, fun _ => rfl, by simp [ListView.new], fun d => rfl, rfl⟩
  | step op _ he ih =>
    obtain ⟨⟨hist, hr⟩, hrel⟩ := ih
    exact ⟨⟨_, .step op hr trivial he⟩, step_rel hr hrel op he⟩

/-- C102: whatever the operations, the selected row, all the rows, the displayed ones in their order and their counts are those of the reference. -/
theorem C102_list (area : Area) (columns : List (ListColumn T)) (v : ListView T) (s : Picked T) (h : Picks area columns v s) :
    v.getSelection = some s.sel ∧ v.hasSelection = s.sel.isSome ∧ v.rows.map (·.data) = s.rows ∧
    (v.rows.filter (·.displayed)).map (·.data) = s.shown ∧ v.rowCounts = (s.shown.length, s.rows.length) := by
  obtain ⟨⟨hist, hr⟩, hrel⟩ := picks_rel h
  have hshown : (v.rows.filter (·.displayed)).map (·.data) = s.shown := by
    unfold Picked.shown
    rw [← hrel.data, List.filter_map]
    congr 1
    exact List.filter_congr fun r hm => hrel.flags r hm
  have hlen : v.rows.length = s.rows.length := by rw [← hrel.data]; simp
  refine ⟨?_, ?_, hrel.data, hshown, ?_⟩
  · unfold getSelection
    rw [hrel.sel]
    cases hx : s.sel with
    | none => rfl
    | some x =>
      have := congrArg (fun l => l[s.before.length]?) hrel.data
      simp only [rows_some hx, List.getElem?_map] at this
      rw [List.getElem?_append_right (by omega), Nat.sub_self, List.getElem?_cons_zero] at this
      cases hr' : v.rows[s.before.length]? with
      | none => rw [hr'] at this; simp at this
      | some r =>
        rw [hr'] at this
        simp only [Option.map_some, Option.some.injEq] at this
        simp [hr', this]
  · unfold hasSelection
    rw [hrel.sel]
    cases s.sel <;> rfl
  · unfold rowCounts
    rw [(known_of_reachable hr).count', ← hshown, hlen]
    simp

/-- A list view and its reference after some operations. -/
private def both : List (ListOp Nat) → Run (ListView Nat × Picked Nat) :=
  List.foldlM (fun (p : ListView Nat × Picked Nat) op => (op.exec p.1).map fun v => (v, p.2.step p.1.scroll op)) (ListView.new ⟨0, 0, 9, 9⟩ [], {})

private theorem both_picks (ops : List (ListOp Nat)) (r : ListView Nat × Picked Nat) (h : both ops = some r) : Picks ⟨0, 0, 9, 9⟩ [] r.1 r.2 := by
  have : ∀ (ops : List (ListOp Nat)) (p : ListView Nat × Picked Nat), Picks ⟨0, 0, 9, 9⟩ [] p.1 p.2 →
      List.foldlM (fun (p : ListView Nat × Picked Nat) op => (op.exec p.1).map fun v => (v, p.2.step p.1.scroll op)) p ops = some r →
      Picks ⟨0, 0, 9, 9⟩ [] r.1 r.2 := by
    intro ops
    induction ops with
    | nil => intro p hp h; cases h; exact hp
    | cons op ops ih =>
      intro p hp h
      simp only [List.foldlM_cons, Option.bind_eq_bind, Option.bind_eq_some_iff, Option.map_eq_some_iff] at h
      obtain ⟨q, ⟨v, hv, rfl⟩, h⟩ := h
      exact ih _ (.step op hp hv) h
  exact this ops _ .init h

private def someOps : List (ListOp Nat) :=
  [.addRow 3, .addRow 8, .addRow 5, .selectNext false, .selectNext true, .addRow 4, .setFilter (· ≠ 4), .selectNext false, .selectNext true, .selectNext true,
   .setFilter (· ≠ 8), .addRow 1]

/-- C102: a row which is then hidden by the filter stays selected. -/
example : (both someOps).map (fun r => (r.1.getSelection, r.2.sel, r.2.before, r.2.after)) = some (some (some 8), some 8, [3], [5, 4, 1]) ∧
    (both someOps).map (fun r => (r.2.shown, r.1.rowCounts)) = some ([3, 5, 4, 1], 4, 5) := by decide +kernel

/-- C102: the next row is then found from the hidden one. -/
example : (both (someOps ++ [.selectNext false])).map (fun r => (r.1.getSelection, r.2.sel, r.2.before, r.2.after)) =
    some (some (some 5), some 5, [3, 8], [4, 1]) := by decide +kernel

/-- C102: the hypothesis holds after these operations. -/
example : ∃ v s, Picks ⟨0, 0, 9, 9⟩ [] v s ∧ s.sel = some 8 ∧ s.shown = [3, 5, 4, 1] := by
  have : ((both someOps).map fun r => (r.2.sel, r.2.shown)) = some (some 8, [3, 5, 4, 1]) := by decide +kernel
  rw [Option.map_eq_some_iff] at this
  obtain ⟨r, h1, h2⟩ := this
  simp only [Prod.mk.injEq] at h2
  exact ⟨r.1, r.2, both_picks _ _ h1, h2.1, h2.2⟩

end Verif.Props

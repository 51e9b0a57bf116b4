import Verif.Spec.ListView
import Verif.Lemmas.Table
/-! Lemmas on list views. -/
namespace Verif
namespace ListView
variable {T : Type}

theorem msv_fields {v v' : ListView T} (h : v.makeSelectionVisible = some v') : v' = { v with scroll := v'.scroll } := by
  unfold makeSelectionVisible at h
  split at h
  · cases h; rfl
  · split at h
    · split at h
      · cases h; rfl
      · split at h
        · cases hc : csub ‹Nat› v.tbodyHeight with
          | none => rw [hc] at h; simp at h
          | some d => rw [hc] at h; simp at h; subst h; rfl
        · cases h; rfl
    · cases h; rfl

/-- When making the selection visible panics. -/
theorem msv_none {v : ListView T} : v.makeSelectionVisible = none ↔
    v.tbodyHeight < v.displayedCount ∧ 2 ≤ v.tbodyHeight ∧ v.scroll = 0 ∧ v.selection = some (v.tbodyHeight - 1) := by
  unfold makeSelectionVisible
  by_cases c : v.displayedCount ≤ v.tbodyHeight
  · rw [if_pos c]; simp; omega
  · rw [if_neg c]
    cases hs : v.selection with
    | none => simp
    | some sel =>
      simp only [Option.some.injEq]
      by_cases c1 : sel ≤ v.scroll
      · rw [if_pos c1]; simp; omega
      · rw [if_neg c1]
        by_cases c2 : sel + 1 ≥ v.scroll + v.tbodyHeight
        · rw [if_pos c2]
          unfold csub
          by_cases c3 : v.tbodyHeight ≤ sel
          · rw [if_pos c3]; simp; omega
          · rw [if_neg c3]; simp; omega
        · rw [if_neg c2]; simp; omega

theorem isDisplayed_lt {v : ListView T} {i : Nat} (h : v.isDisplayed i = true) : i < v.rows.length := by
  unfold isDisplayed at h
  cases hr : v.rows[i]? with
  | none => rw [hr] at h; simp at h
  | some r => exact (List.getElem?_eq_some_iff.1 hr).1

theorem find_range {p : Nat → Bool} {n : Nat} : ∀ {i}, (List.range n).find? p = some i ↔
    i < n ∧ p i = true ∧ ∀ j, j < i → p j = false := by
  intro i
  rw [List.find?_range_eq_some]
  simp only [List.mem_range, Bool.not_eq_true']
  constructor
  · rintro ⟨a, b, c⟩; exact ⟨b, a, c⟩
  · rintro ⟨a, b, c⟩; exact ⟨b, a, c⟩

theorem find_range_none {p : Nat → Bool} {n : Nat} : (List.range n).find? p = none ↔ ∀ j, j < n → p j = false := by
  rw [List.find?_eq_none]
  simp

/-- The operations which don't change the rows. -/
theorem frame {v v' : ListView T} {op : ListOp T} (h : op.exec v = some v')
    (h1 : ∀ d, op ≠ .addRow d) (h2 : op ≠ .clearRows) (h3 : ∀ f, op ≠ .setFilter f) (h4 : op ≠ .removeFilter) (h5 : ∀ o, op ≠ .sort o) :
    v'.rows = v.rows ∧ v'.filter = v.filter ∧ v'.displayedCount = v.displayedCount ∧ v'.order = v.order ∧
      (v'.selection = v.selection ∨ v'.selection = none ∨ ∃ i, v'.selection = some i ∧ v.isDisplayed i = true) := by
  have hm : ∀ {w w' : ListView T}, w.makeSelectionVisible = some w' → w.rows = v.rows → w.filter = v.filter →
      w.displayedCount = v.displayedCount → w.order = v.order →
      (w.selection = v.selection ∨ w.selection = none ∨ ∃ i, w.selection = some i ∧ v.isDisplayed i = true) →
      w'.rows = v.rows ∧ w'.filter = v.filter ∧ w'.displayedCount = v.displayedCount ∧ w'.order = v.order ∧
      (w'.selection = v.selection ∨ w'.selection = none ∨ ∃ i, w'.selection = some i ∧ v.isDisplayed i = true) := by
    intro w w' hw a b c d e
    rw [msv_fields hw]
    exact ⟨a, b, c, d, e⟩
  have hl : ∀ n, v.tryScrollLines n = some v' → v'.rows = v.rows ∧ v'.filter = v.filter ∧ v'.displayedCount = v.displayedCount ∧
      v'.order = v.order ∧ (v'.selection = v.selection ∨ v'.selection = none ∨ ∃ i, v'.selection = some i ∧ v.isDisplayed i = true) := by
    intro n h
    unfold tryScrollLines at h
    split at h
    · split at h
      · simp at h
      · exact hm h rfl rfl rfl rfl (.inl rfl)
    · cases hc : csub v.displayedCount v.tbodyHeight with
      | none => rw [hc] at h; simp at h
      | some d =>
        rw [hc] at h
        simp only [Option.bind_eq_bind, Option.bind_some] at h
        exact hm h rfl rfl rfl rfl (.inl rfl)
  have ha : ∀ up, v.selectAfter up = some v' → v'.rows = v.rows ∧ v'.filter = v.filter ∧ v'.displayedCount = v.displayedCount ∧
      v'.order = v.order ∧ (v'.selection = v.selection ∨ v'.selection = none ∨ ∃ i, v'.selection = some i ∧ v.isDisplayed i = true) := by
    intro up h
    unfold selectAfter at h
    split at h
    · cases h; exact ⟨rfl, rfl, rfl, rfl, .inl rfl⟩
    · split at h
      · simp at h
      · split at h
        · rename_i hf
          exact hm h rfl rfl rfl rfl (.inr (.inr ⟨_, rfl, (find_range.1 hf).2.1⟩))
        · cases h; exact ⟨rfl, rfl, rfl, rfl, .inl rfl⟩
  cases op with
  | addRow d => exact absurd rfl (h1 d)
  | clearRows => exact absurd rfl h2
  | setFilter f => exact absurd rfl (h3 f)
  | removeFilter => exact absurd rfl h4
  | sort o => exact absurd rfl (h5 o)
  | updateDimensions =>
    simp only [ListOp.exec, updateDimensions, Option.bind_eq_bind, Option.bind_eq_some_iff] at h
    obtain ⟨a, _, b, _, c, _, d, _, h⟩ := h
    split at h
    · cases h; exact ⟨rfl, rfl, rfl, rfl, .inl rfl⟩
    · simp only [Option.bind_eq_some_iff] at h
      obtain ⟨_, _, _, _, h⟩ := h
      cases h; exact ⟨rfl, rfl, rfl, rfl, .inl rfl⟩
  | setArea area => cases h; exact ⟨rfl, rfl, rfl, rfl, .inl rfl⟩
  | scrollLines n => exact hl n h
  | scrollPages n =>
    simp only [ListOp.exec, tryScrollPages, Option.bind_eq_bind, Option.bind_eq_some_iff] at h
    obtain ⟨_, _, h⟩ := h
    exact hl _ h
  | scrollToBottom => cases h; exact ⟨rfl, rfl, rfl, rfl, .inl rfl⟩
  | selectNext up =>
    simp only [ListOp.exec, trySelectNext] at h
    split at h
    · cases h; exact ⟨rfl, rfl, rfl, rfl, .inl rfl⟩
    · split at h
      · split at h
        · rename_i hf
          exact hm h rfl rfl rfl rfl (.inr (.inr ⟨_, rfl, (find_range.1 hf).2.1⟩))
        · exact ha up h
      · exact ha up h
  | selectFirst =>
    simp only [ListOp.exec, selectFirstLine] at h
    split at h
    · rename_i hf
      exact hm h rfl rfl rfl rfl (.inr (.inr ⟨_, rfl, (find_range.1 hf).2.1⟩))
    · cases h; exact ⟨rfl, rfl, rfl, rfl, .inr (.inl rfl)⟩
  | selectLast =>
    simp only [ListOp.exec, selectLastLine] at h
    split at h
    · rename_i hf
      exact hm h rfl rfl rfl rfl (.inr (.inr ⟨_, rfl, List.find?_some hf⟩))
    · cases h; exact ⟨rfl, rfl, rfl, rfl, .inr (.inl rfl)⟩
  | unselect => cases h; exact ⟨rfl, rfl, rfl, rfl, .inr (.inl rfl)⟩
  | makeSelectionVisible => exact hm h rfl rfl rfl rfl (.inl rfl)

/-- The rows after an addition are a permutation of the rows and the new one. -/
theorem insertRow_perm (v : ListView T) (row : ListRow T) : (v.insertRow row).Perm (v.rows ++ [row]) := by
  unfold insertRow
  split
  · exact List.mergeSort_perm _ _
  · exact .refl _

theorem addRow_rows (v : ListView T) (d : T) : (v.addRow d).rows = v.insertRow ⟨d, v.accepts d⟩ := by
  unfold addRow
  simp only
  cases v.accepts d <;> cases (v.order.isNone && v.doScrollShowBottom) <;> rfl

theorem addRow_fields (v : ListView T) (d : T) : (v.addRow d).filter = v.filter ∧ (v.addRow d).order = v.order ∧
    (v.addRow d).selection = v.selection ∧ (v.addRow d).area = v.area ∧
    (v.addRow d).displayedCount = v.displayedCount + if v.accepts d then 1 else 0 := by
  unfold addRow
  simp only
  cases v.accepts d <;> cases (v.order.isNone && v.doScrollShowBottom) <;> exact ⟨rfl, rfl, rfl, rfl, rfl⟩

/-- What is known about a list after a history. -/
structure Known (v : ListView T) (h : ListHistory T) : Prop where
  data : (v.rows.map (·.data)).Perm h.added
  flags : ∀ r ∈ v.rows, r.displayed = h.filter r.data
  count : v.displayedCount = (h.added.filter h.filter).length
  sel : ∀ i, v.selection = some i → i < v.rows.length
  accepts : ∀ d, v.accepts d = h.filter d
  order : v.order = h.order

theorem Known.length {v : ListView T} {h : ListHistory T} (k : Known v h) : v.rows.length = h.added.length := by
  have := k.data.length_eq
  simpa using this

theorem Known.count' {v : ListView T} {h : ListHistory T} (k : Known v h) : v.displayedCount = (v.rows.filter (·.displayed)).length := by
  rw [k.count, ← (k.data.filter h.filter).length_eq, List.filter_map, List.length_map]
  congr 1
  apply List.filter_congr
  intro r hr
  exact (k.flags r hr).symm

theorem known_step {v v' : ListView T} {h : ListHistory T} (k : Known v h) {op : ListOp T} (he : op.exec v = some v') :
    Known v' (h.step op) := by
  have hframe : (∀ d, op ≠ .addRow d) → op ≠ .clearRows → (∀ f, op ≠ .setFilter f) → op ≠ .removeFilter → (∀ o, op ≠ .sort o) →
      h.step op = h → Known v' (h.step op) := by
    intro h1 h2 h3 h4 h5 hs
    obtain ⟨e1, e2, e3, e4, e5⟩ := frame he h1 h2 h3 h4 h5
    rw [hs]
    refine ⟨by rw [e1]; exact k.data, by rw [e1]; exact k.flags, by rw [e3]; exact k.count, ?_, ?_, by rw [e4]; exact k.order⟩
    · intro i hi
      rw [e1]
      rcases e5 with e | e | ⟨j, e, hj⟩
      · exact k.sel i (e ▸ hi)
      · rw [e] at hi; simp at hi
      · rw [e] at hi; simp only [Option.some.injEq] at hi; subst hi; exact isDisplayed_lt hj
    · intro d
      have := k.accepts d
      unfold ListView.accepts at this ⊢
      rw [e2]; exact this
  cases op with
  | addRow d =>
    cases he
    obtain ⟨f1, f2, f3, f4, f5⟩ := addRow_fields v d
    have hp := insertRow_perm v ⟨d, v.accepts d⟩
    refine ⟨?_, ?_, ?_, ?_, ?_, ?_⟩
    · rw [addRow_rows]
      refine (hp.map _).trans ?_
      simp only [List.map_append, List.map_cons, List.map_nil, ListHistory.step]
      exact k.data.append (.refl _)
    · rw [addRow_rows]
      intro r hr
      have := hp.mem_iff.1 hr
      simp only [List.mem_append, List.mem_singleton] at this
      rcases this with hr | rfl
      · exact k.flags r hr
      · exact k.accepts d
    · rw [f5, k.count]
      simp only [ListHistory.step, List.filter_append, List.length_append, List.filter_cons, List.filter_nil, k.accepts]
      split <;> rfl
    · rw [f3, addRow_rows, hp.length_eq]
      intro i hi
      have := k.sel i hi
      simp; omega
    · intro d'
      have := k.accepts d'
      unfold ListView.accepts at this ⊢
      rw [f1]; exact this
    · rw [f2]; exact k.order
  | clearRows =>
    cases he
    exact ⟨.refl _, by simp [clearRows], rfl, by simp [clearRows], k.accepts, k.order⟩
  | setFilter f =>
    cases he
    have hd : (v.rows.map fun r => { r with displayed := f r.data : ListRow T }).map (·.data) = v.rows.map (·.data) := by
      rw [List.map_map]; rfl
    refine ⟨?_, ?_, ?_, ?_, fun _ => rfl, k.order⟩
    · simp only [setFilter, ListHistory.step]; rw [hd]; exact k.data
    · intro r hr
      simp only [setFilter, List.mem_map] at hr
      obtain ⟨r0, _, rfl⟩ := hr
      rfl
    · simp only [setFilter, ListHistory.step]
      rw [← (k.data.filter f).length_eq, List.filter_map, List.filter_map, List.length_map, List.length_map]
      rfl
    · intro i hi
      simp only [setFilter, List.length_map]
      exact k.sel i hi
  | removeFilter =>
    cases he
    have hd : (v.rows.map fun r => { r with displayed := true : ListRow T }).map (·.data) = v.rows.map (·.data) := by
      rw [List.map_map]; rfl
    refine ⟨?_, ?_, ?_, ?_, fun _ => rfl, k.order⟩
    · simp only [removeFilter, ListHistory.step]; rw [hd]; exact k.data
    · intro r hr
      simp only [removeFilter, List.mem_map] at hr
      obtain ⟨r0, _, rfl⟩ := hr
      rfl
    · simp only [removeFilter, ListHistory.step]
      rw [k.length, List.filter_eq_self.2 (by simp)]
    · intro i hi
      simp only [removeFilter, List.length_map]
      exact k.sel i hi
  | sort o => cases he; exact ⟨k.data, k.flags, k.count, k.sel, k.accepts, rfl⟩
  | _ => exact hframe (by simp) (by simp) (by simp) (by simp) (by simp) rfl

theorem known_of_reachable {ok : ListOp T → Prop} {area : Area} {columns : List (ListColumn T)} {v : ListView T} {h : ListHistory T}
    (hr : ReachableList ok area columns v h) : Known v h := by
  induction hr with
  | init => exact ⟨.refl _, by simp [ListView.new], rfl, by simp [ListView.new], fun _ => rfl, rfl⟩
  | step op _ _ he ih => exact known_step ih he

theorem filter_pos_of_mem {p : ListRow T → Bool} {l : List (ListRow T)} {r : ListRow T} (h : r ∈ l) (hp : p r = true) :
    1 ≤ (l.filter p).length := by
  rcases Nat.eq_zero_or_pos (l.filter p).length with h0 | h0
  · rw [List.length_eq_zero_iff, List.filter_eq_nil_iff] at h0
    exact absurd hp (h0 r h)
  · exact h0

theorem isDisplayed_iff {v : ListView T} {i : Nat} : v.isDisplayed i = true ↔ ∃ h : i < v.rows.length, (v.rows[i]).displayed = true := by
  unfold isDisplayed
  by_cases c : i < v.rows.length
  · rw [List.getElem?_eq_getElem c]; simp [c]
  · rw [List.getElem?_eq_none (by omega)]; simp [c]

/-- Two displayed rows are the same if there's one displayed row. -/
theorem unique_displayed {v : ListView T} (h : (v.rows.filter (·.displayed)).length = 1) {a b : Nat} (ha : v.isDisplayed a = true)
    (hb : v.isDisplayed b = true) : a = b := by
  have key : ∀ a b, a < b → v.isDisplayed a = true → v.isDisplayed b = true → False := by
    intro a b hlt ha hb
    obtain ⟨ha1, ha2⟩ := isDisplayed_iff.1 ha
    obtain ⟨hb1, hb2⟩ := isDisplayed_iff.1 hb
    have e : v.rows = v.rows.take b ++ v.rows.drop b := (List.take_append_drop b v.rows).symm
    rw [e, List.filter_append, List.length_append] at h
    have h1 := filter_pos_of_mem (p := (·.displayed)) (l := v.rows.take b) (r := v.rows[a])
      (List.mem_take_iff_getElem.2 ⟨a, by omega, rfl⟩) ha2
    have h2 := filter_pos_of_mem (p := (·.displayed)) (l := v.rows.drop b) (r := v.rows[b])
      (List.mem_drop_iff_getElem.2 ⟨0, by omega, by simp⟩) hb2
    omega
  rcases Nat.lt_trichotomy a b with hlt | he | hlt
  · exact (key a b hlt ha hb).elim
  · exact he
  · exact (key b a hlt hb ha).elim

/-- Every index is reached when going in circle. -/
theorem reach_mod {len i s : Nat} (hi : i < len) (hs : s < len) (up : Bool) :
    ∃ j, j < len ∧ ((if up then len - 1 - j else j + 1) + s) % len = i := by
  cases up with
  | true =>
    by_cases c : i < s
    · refine ⟨s - 1 - i, by omega, ?_⟩
      simp only [if_true]
      rw [show len - 1 - (s - 1 - i) + s = i + len by omega, Nat.add_mod_right, Nat.mod_eq_of_lt hi]
    · refine ⟨len - 1 - (i - s), by omega, ?_⟩
      simp only [if_true]
      rw [show len - 1 - (len - 1 - (i - s)) + s = i by omega, Nat.mod_eq_of_lt hi]
  | false =>
    by_cases c : s < i
    · refine ⟨i - s - 1, by omega, ?_⟩
      simp only [Bool.false_eq_true, if_false]
      rw [show i - s - 1 + 1 + s = i by omega, Nat.mod_eq_of_lt hi]
    · refine ⟨i + len - s - 1, by omega, ?_⟩
      simp only [Bool.false_eq_true, if_false]
      rw [show i + len - s - 1 + 1 + s = i + len by omega, Nat.add_mod_right, Nat.mod_eq_of_lt hi]

theorem cyclicNext_of_find {len s j : Nat} {p : Nat → Bool} {up : Bool}
    (h : (List.range len).find? (fun i => p (((if up then len - 1 - i else i + 1) + s) % len)) = some j) :
    CyclicNext len p up s (((if up then len - 1 - j else j + 1) + s) % len) := by
  obtain ⟨h1, h2, h3⟩ := find_range.1 h
  have e : ∀ i, i < len → ((if up then len - 1 - i else i + 1) + s) = (if up then s + len - (i + 1) else s + (i + 1)) := by
    intro i hi; split <;> omega
  refine ⟨j + 1, by omega, by omega, by rw [e j h1], h2, ?_⟩
  intro i hi1 hi2
  have := h3 (i - 1) (by omega)
  rw [e (i - 1) (by omega), show i - 1 + 1 = i by omega] at this
  exact this

end ListView
end Verif

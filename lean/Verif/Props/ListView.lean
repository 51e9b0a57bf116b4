import Verif.Lemmas.ListView
import Verif.Props.Area
/-! Properties C30 to C33 and C47: list views. -/
namespace Verif.Props
open Verif ListView

variable {T : Type}

/-! ## C30 -/

/-- C30: whatever the history of a list, its rows are those added since the last clear, the counts are the number of these rows which
are accepted by the current filter and their total number, and reading the selection gives one of these rows, or none. -/
theorem C30_consistent (ok : ListOp T → Prop) (area : Area) (columns : List (ListColumn T)) (v : ListView T) (h : ListHistory T)
    (hr : ReachableList ok area columns v h) :
    (v.rows.map (·.data)).Perm h.added ∧ (∀ r ∈ v.rows, r.displayed = h.filter r.data) ∧
    v.rowCounts = ((h.added.filter h.filter).length, h.added.length) ∧
    ∃ s, v.getSelection = some s ∧ v.hasSelection = s.isSome ∧ ∀ d, s = some d → d ∈ h.added := by
  have k := known_of_reachable hr
  refine ⟨k.data, k.flags, by rw [rowCounts, k.count, k.length], ?_⟩
  unfold getSelection hasSelection
  cases hs : v.selection with
  | none => exact ⟨none, rfl, rfl, by simp⟩
  | some i =>
    have hi := k.sel i hs
    refine ⟨some (v.rows[i]).data, by simp only [List.getElem?_eq_getElem hi, Option.map_some], rfl, ?_⟩
    rintro d ⟨⟩
    exact k.data.mem_iff.1 (List.mem_map_of_mem (List.getElem_mem hi))

/-- C30: the operations which aren't about the selection leave the same row selected, except the removal of all rows, which removes
the selection, and the additions in a list with an order, which only keep the index. -/
theorem C30_selection_kept (ok : ListOp T → Prop) (area : Area) (columns : List (ListColumn T)) (v v' : ListView T) (h : ListHistory T)
    (hr : ReachableList ok area columns v h) (op : ListOp T) (he : op.exec v = some v')
    (h1 : ∀ up, op ≠ .selectNext up) (h2 : op ≠ .selectFirst) (h3 : op ≠ .selectLast) (h4 : op ≠ .unselect) :
    (op = .clearRows → v'.getSelection = some none) ∧ (op ≠ .clearRows → v'.selection = v.selection) ∧
    (op ≠ .clearRows → (∀ d, op = .addRow d → h.order = none) → v'.getSelection = v.getSelection) := by
  have k := known_of_reachable hr
  have msv : ∀ {w w' : ListView T}, w.makeSelectionVisible = some w' → w.rows = v.rows → w.selection = v.selection →
      w'.rows = v.rows ∧ w'.selection = v.selection := by
    intro w w' hw a b
    rw [msv_fields hw]; exact ⟨a, b⟩
  have hl : ∀ n, v.tryScrollLines n = some v' → v'.rows = v.rows ∧ v'.selection = v.selection := by
    intro n h
    unfold tryScrollLines at h
    split at h
    · split at h
      · simp at h
      · exact msv h rfl rfl
    · simp only [Option.bind_eq_bind, Option.bind_eq_some_iff] at h
      obtain ⟨_, _, h⟩ := h
      exact msv h rfl rfl
  have same : v'.rows.map (·.data) = v.rows.map (·.data) → v'.selection = v.selection → op ≠ .clearRows →
      (op = .clearRows → v'.getSelection = some none) ∧ (op ≠ .clearRows → v'.selection = v.selection) ∧
      (op ≠ .clearRows → (∀ d, op = .addRow d → h.order = none) → v'.getSelection = v.getSelection) := by
    intro a b c
    refine ⟨fun h => absurd h c, fun _ => b, fun _ _ => ?_⟩
    unfold getSelection
    rw [b]
    cases v.selection with
    | none => rfl
    | some i =>
      simp only
      have := congrArg (fun l => (l[i]?).map some) a
      simp only [List.getElem?_map, Option.map_map] at this
      exact this
  have frame' : v'.rows = v.rows ∧ v'.selection = v.selection → op ≠ .clearRows →
      (op = .clearRows → v'.getSelection = some none) ∧ (op ≠ .clearRows → v'.selection = v.selection) ∧
      (op ≠ .clearRows → (∀ d, op = .addRow d → h.order = none) → v'.getSelection = v.getSelection) :=
    fun h => same (by rw [h.1]) h.2
  cases op with
  | addRow d =>
    cases he
    obtain ⟨f1, f2, f3, f4, f5⟩ := addRow_fields v d
    refine ⟨by simp, fun _ => f3, fun _ ho => ?_⟩
    have ho := ho d rfl
    rw [← k.order] at ho
    unfold getSelection
    rw [f3, addRow_rows]
    cases hs : v.selection with
    | none => rfl
    | some i =>
      simp only [insertRow, ho]
      rw [List.getElem?_append_left (k.sel i hs)]
  | clearRows => cases he; exact ⟨fun _ => rfl, by simp, by simp⟩
  | setFilter f => cases he; exact same (by simp [setFilter]) rfl (by simp)
  | removeFilter => cases he; exact same (by simp [removeFilter]) rfl (by simp)
  | sort o => cases he; exact frame' ⟨rfl, rfl⟩ (by simp)
  | updateDimensions =>
    refine frame' ?_ (by simp)
    simp only [ListOp.exec, updateDimensions, Option.bind_eq_bind, Option.bind_eq_some_iff] at he
    obtain ⟨a, _, b, _, c, _, d, _, he⟩ := he
    split at he
    · cases he; exact ⟨rfl, rfl⟩
    · simp only [Option.bind_eq_some_iff] at he
      obtain ⟨_, _, _, _, he⟩ := he
      cases he; exact ⟨rfl, rfl⟩
  | setArea area => cases he; exact frame' ⟨rfl, rfl⟩ (by simp)
  | scrollLines n => exact frame' (hl n he) (by simp)
  | scrollPages n =>
    simp only [ListOp.exec, tryScrollPages, Option.bind_eq_bind, Option.bind_eq_some_iff] at he
    obtain ⟨_, _, he⟩ := he
    exact frame' (hl _ he) (by simp)
  | scrollToBottom => cases he; exact frame' ⟨rfl, rfl⟩ (by simp)
  | selectNext up => exact absurd rfl (h1 up)
  | selectFirst => exact absurd rfl h2
  | selectLast => exact absurd rfl h3
  | unselect => exact absurd rfl h4
  | makeSelectionVisible => exact frame' (msv he rfl rfl) (by simp)

/-- C30: rows are in the order of their addition, or, for an order which is total and transitive, sorted after each addition, rows
which are equal in this order keeping their respective positions (as all rows already in order). -/
theorem C30_order (v : ListView T) (d : T) :
    (v.order = none → (v.addRow d).rows.map (·.data) = v.rows.map (·.data) ++ [d]) ∧
    (∀ o, v.order = some o → (∀ a b c, (o a b).isLE → (o b c).isLE → (o a c).isLE) → (∀ a b, (o a b).isLE ∨ (o b a).isLE) →
      ((v.addRow d).rows.map (·.data)).Pairwise (fun a b => (o a b).isLE) ∧
      ∀ rows : List (ListRow T), rows.Sublist (v.rows ++ [⟨d, v.accepts d⟩]) → rows.Pairwise (fun a b => (o a.data b.data).isLE) →
        rows.Sublist (v.addRow d).rows) := by
  rw [addRow_rows]
  unfold insertRow
  constructor
  · intro h; rw [h]; simp
  · intro o h ht htot
    rw [h]
    have ht' : ∀ a b c : ListRow T, (o a.data b.data).isLE → (o b.data c.data).isLE → (o a.data c.data).isLE := fun _ _ _ => ht _ _ _
    have htot' : ∀ a b : ListRow T, (o a.data b.data).isLE || (o b.data a.data).isLE := by
      intro a b; simpa using htot a.data b.data
    constructor
    · rw [List.pairwise_map]
      exact List.pairwise_mergeSort ht' htot' _
    · intro rows h1 h2
      exact List.sublist_mergeSort ht' htot' h2 h1

/-- C30: in a list with an order, an addition may change the selected row. -/
theorem C30_order_counterexample : ∃ (v v' : ListView Nat) (h : ListHistory Nat), ReachableList (fun _ => True) ⟨0, 0, 9, 9⟩ [] v h ∧
    (ListOp.addRow 1).exec v = some v' ∧ v.getSelection = some (some 2) ∧ v'.getSelection = some (some 1) := by
  have e1 : ((new ⟨0, 0, 9, 9⟩ []).sort compare).addRow 2 =
      { (new ⟨0, 0, 9, 9⟩ [] : ListView Nat) with order := some compare, displayedCount := 1, rows := [⟨2, true⟩] } := by
    simp [addRow, sort, accepts, insertRow, new]
  refine ⟨{ (new ⟨0, 0, 9, 9⟩ [] : ListView Nat) with order := some compare, displayedCount := 1, rows := [⟨2, true⟩], selection := some 0 }, _, _,
    .step .selectFirst (.step (.addRow 2) (.step (.sort compare) .init trivial rfl) trivial (congrArg some e1)) trivial (by rfl), rfl, by decide, ?_⟩
  rw [getSelection, addRow_rows, (addRow_fields _ _).2.2.1]
  simp [insertRow, accepts, new, List.mergeSort, compare, compareOfLessAndEq]

/-! ## C31 -/

/-- The next row, from what is known of a list. -/
theorem next_of_known {v v' : ListView T} {h : ListHistory T} (k : Known v h) (up : Bool) (he : v.trySelectNext up = some v') :
    ((∀ r ∈ v.rows, r.displayed = false) → v' = v) ∧
    ((∃ r ∈ v.rows, r.displayed = true) → ∃ t, v'.selection = some t ∧
      (∀ s, v.selection = some s → CyclicNext v.rows.length v.isDisplayed up s t) ∧
      (v.selection = none → ∃ k, k < v.rows.length ∧ t = (v.scroll + k) % v.rows.length ∧ v.isDisplayed t = true ∧
        ∀ j, j < k → v.isDisplayed ((v.scroll + j) % v.rows.length) = false)) := by
  have hc := k.count'
  constructor
  · intro hn
    have : v.displayedCount = 0 := by
      rw [hc, List.length_eq_zero_iff, List.filter_eq_nil_iff]
      intro r hr'; rw [hn r hr']; simp
    unfold trySelectNext at he
    rw [if_pos this] at he
    cases he; rfl
  · rintro ⟨r, hrm, hrd⟩
    have hpos : v.displayedCount ≠ 0 := by
      rw [hc]
      intro h0
      rw [List.length_eq_zero_iff, List.filter_eq_nil_iff] at h0
      exact h0 r hrm hrd
    obtain ⟨i, hi, rfl⟩ := List.mem_iff_getElem.1 hrm
    have hid : v.isDisplayed i = true := by unfold isDisplayed; rw [List.getElem?_eq_getElem hi]; exact hrd
    have hlen : 0 < v.rows.length := by omega
    -- there's always a next row
    have next : ∀ s, s < v.rows.length → ∃ j, (List.range v.rows.length).find? (fun i =>
        v.isDisplayed (((if up then v.rows.length - 1 - i else i + 1) + s) % v.rows.length)) = some j := by
      intro s hs
      cases hf : (List.range v.rows.length).find? (fun i =>
        v.isDisplayed (((if up then v.rows.length - 1 - i else i + 1) + s) % v.rows.length)) with
      | some j => exact ⟨j, rfl⟩
      | none =>
        obtain ⟨j, hj, e⟩ := reach_mod hi hs up
        have := find_range_none.1 hf j hj
        rw [e, hid] at this
        simp at this
    have first : ∃ j, (List.range v.rows.length).find? (fun i => v.isDisplayed ((i + v.scroll) % v.rows.length)) = some j := by
      cases hf : (List.range v.rows.length).find? (fun i => v.isDisplayed ((i + v.scroll) % v.rows.length)) with
      | some j => exact ⟨j, rfl⟩
      | none =>
        have hm := Nat.mod_lt v.scroll hlen
        obtain ⟨j, hj, e⟩ := reach_mod hi hm false
        simp only [Bool.false_eq_true, if_false] at e
        by_cases cj : j + 1 < v.rows.length
        · have := find_range_none.1 hf (j + 1) cj
          rw [← Nat.add_mod_mod, e, hid] at this
          simp at this
        · have := find_range_none.1 hf 0 hlen
          have e2 : j + 1 = v.rows.length := by omega
          rw [e2, Nat.add_mod_left, Nat.mod_mod] at e
          rw [Nat.zero_add, e, hid] at this
          simp at this
    unfold trySelectNext at he
    rw [if_neg hpos] at he
    obtain ⟨j0, hj0⟩ := first
    by_cases c : v.displayedCount = 1 ∨ v.selection = none
    · rw [if_pos c, hj0] at he
      simp only at he
      obtain ⟨a1, a2, a3⟩ := find_range.1 hj0
      rw [msv_fields he]
      refine ⟨_, rfl, ?_, ?_⟩
      · intro s hs
        rcases c with c | c
        · obtain ⟨j, hj⟩ := next s (k.sel s hs)
          have hcn := cyclicNext_of_find hj
          have := unique_displayed (by rw [← hc]; exact c) a2 (find_range.1 hj).2.1
          rw [this]
          exact hcn
        · rw [hs] at c; simp at c
      · intro _
        refine ⟨j0, a1, by rw [Nat.add_comm], a2, ?_⟩
        intro j hj
        have := a3 j hj
        rw [Nat.add_comm] at this
        exact this
    · rw [if_neg c] at he
      have hsome : v.selection ≠ none := fun h => c (.inr h)
      cases hs : v.selection with
      | none => exact absurd hs hsome
      | some s =>
        obtain ⟨j, hj⟩ := next s (k.sel s hs)
        unfold selectAfter at he
        rw [if_neg (by omega)] at he
        simp only [hs, hj] at he
        rw [msv_fields he]
        refine ⟨_, rfl, ?_, by simp⟩
        rintro s' ⟨⟩
        exact cyclicNext_of_find hj

theorem between_le (v : ListView T) (a b : Nat) : v.displayedBetween a b ≤ b - a := by
  unfold displayedBetween
  refine Nat.le_trans (List.length_filter_le _ _) ?_
  rw [List.length_drop, List.length_take]
  omega

theorem between_lt (v : ListView T) (a b : Nat) (hb : v.isDisplayed b = true) :
    v.displayedBetween a b < (v.rows.filter (·.displayed)).length := by
  obtain ⟨hb1, hb2⟩ := isDisplayed_iff.1 hb
  have e : v.rows = v.rows.take b ++ v.rows.drop b := (List.take_append_drop b v.rows).symm
  have h2 := filter_pos_of_mem (p := (·.displayed)) (l := v.rows.drop b) (r := v.rows[b])
    (List.mem_drop_iff_getElem.2 ⟨0, by omega, by simp⟩) hb2
  have h1 : (v.rows.filter (·.displayed)).length = ((v.rows.take b).filter (·.displayed)).length + ((v.rows.drop b).filter (·.displayed)).length := by
    conv => lhs; rw [e, List.filter_append, List.length_append]
  have h3 : v.displayedBetween a b ≤ ((v.rows.take b).filter (·.displayed)).length :=
    ((List.drop_sublist _ _).filter _).length_le
  omega

/-- C31: when a row is selected and some are displayed, the next selected one is the first displayed row found going down, or up,
in circle; when none is, it's the first displayed one starting from the scroll. -/
theorem C31_next (ok : ListOp T → Prop) (area : Area) (columns : List (ListColumn T)) (v v' : ListView T) (h : ListHistory T)
    (hr : ReachableList ok area columns v h) (up : Bool) (he : v.trySelectNext up = some v') :
    ((∀ r ∈ v.rows, r.displayed = false) → v' = v) ∧
    ((∃ r ∈ v.rows, r.displayed = true) → ∃ t, v'.selection = some t ∧
      (∀ s, v.selection = some s → CyclicNext v.rows.length v.isDisplayed up s t) ∧
      (v.selection = none → ∃ k, k < v.rows.length ∧ t = (v.scroll + k) % v.rows.length ∧ v.isDisplayed t = true ∧
        ∀ j, j < k → v.isDisplayed ((v.scroll + j) % v.rows.length) = false)) :=
  next_of_known (known_of_reachable hr) up he

/-- Making the selection visible makes it visible. -/
private theorem msv_visible {v v' : ListView T} (hc : v.displayedCount = (v.rows.filter (·.displayed)).length) (hh : 5 ≤ v.area.height)
    {i : Nat} (hs : v.selection = some i) (hd : v.isDisplayed i = true) (h0 : v.displayedCount ≤ v.area.height - 2 → v.scroll ≤ i)
    (he : v.makeSelectionVisible = some v') : v'.Visible i := by
  have ht : v.tbodyHeight = v.area.height - 2 := by unfold tbodyHeight; rw [if_pos (by omega)]
  have hf := msv_fields he
  have hd' : v'.isDisplayed i = true := by rw [hf]; exact hd
  have ha : v'.area = v.area := by rw [hf]
  have hr : v'.rows = v.rows := by rw [hf]
  refine ⟨hd', ?_⟩
  rw [ha]
  have hb := between_le v' v'.scroll i
  unfold makeSelectionVisible at he
  rw [hs, ht] at he
  split at he
  · rename_i c
    cases he
    have := between_lt v v.scroll i hd
    exact ⟨h0 c, by omega⟩
  · simp only at he
    split at he
    · cases he
      simp only at hb ⊢
      constructor
      · split <;> omega
      · split at hb <;> rename_i c <;> simp only [c, if_true, if_false] <;> omega
    · split at he
      · unfold csub at he
        split at he
        · simp only [Option.bind_eq_bind, Option.bind_some, Option.some.injEq] at he
          subst he
          simp only at hb ⊢
          omega
        · simp at he
      · cases he; omega

/-- C31: in an area of at least 5 rows, a row which was selected by a function is visible, if the list is too long for the area or
isn't scrolled. -/
theorem C31_visible (ok : ListOp T → Prop) (area : Area) (columns : List (ListColumn T)) (v v' : ListView T) (h : ListHistory T)
    (hr : ReachableList ok area columns v h) (hh : 5 ≤ v.area.height) (op : ListOp T)
    (hop : (∃ up, op = .selectNext up) ∨ op = .selectFirst ∨ op = .selectLast) (he : op.exec v = some v')
    (hs : v.scroll = 0 ∨ v.area.height - 2 < v.rowCounts.1) (hd : ∃ r ∈ v.rows, r.displayed = true) :
    ∃ i, v'.selection = some i ∧ v'.Visible i := by
  have k := known_of_reachable hr
  have hc := k.count'
  have msv : ∀ {i : Nat} {w' : ListView T}, v.isDisplayed i = true → ({ v with selection := some i } : ListView T).makeSelectionVisible = some w' →
      ∃ i, w'.selection = some i ∧ w'.Visible i := by
    intro i w' hi hw
    refine ⟨i, by rw [msv_fields hw], msv_visible (v := { v with selection := some i }) hc hh rfl hi ?_ hw⟩
    intro hle
    rcases hs with hs | hs
    · exact hs ▸ Nat.zero_le _
    · simp only [rowCounts] at hs hle; omega
  obtain ⟨r, hrm, hrd⟩ := hd
  have hpos : v.displayedCount ≠ 0 := by
    rw [hc]; have := filter_pos_of_mem (p := (·.displayed)) hrm hrd; omega
  obtain ⟨i, hi, rfl⟩ := List.mem_iff_getElem.1 hrm
  have hid : v.isDisplayed i = true := isDisplayed_iff.2 ⟨hi, hrd⟩
  rcases hop with ⟨up, rfl⟩ | rfl | rfl
  · obtain ⟨t, ht, h1, h2⟩ := (C31_next ok area columns v v' h hr up he).2 ⟨_, hrm, hrd⟩
    simp only [ListOp.exec, trySelectNext] at he
    rw [if_neg hpos] at he
    have after : v.selectAfter up = some v' → ∃ i, v'.selection = some i ∧ v'.Visible i := by
      intro he
      unfold selectAfter at he
      rw [if_neg (by omega)] at he
      split at he
      · simp at he
      · rename_i s hs'
        split at he
        · rename_i hf; exact msv (find_range.1 hf).2.1 he
        · rename_i hf
          obtain ⟨j, hj, e⟩ := reach_mod hi (k.sel s hs') up
          have := find_range_none.1 hf j hj
          rw [e, hid] at this
          simp at this
    split at he
    · split at he
      · rename_i hf; exact msv (find_range.1 hf).2.1 he
      · exact after he
    · exact after he
  · simp only [ListOp.exec, selectFirstLine] at he
    split at he
    · rename_i hf; exact msv (find_range.1 hf).2.1 he
    · rename_i hf
      have := find_range_none.1 hf i hi
      rw [hid] at this; simp at this
  · simp only [ListOp.exec, selectLastLine] at he
    split at he
    · rename_i hf; exact msv (List.find?_some hf) he
    · rename_i hf
      rw [List.find?_eq_none] at hf
      exact absurd hid (hf i (by simp [hi]))

/-- C31: the first and last displayed rows, when asked, are selected. -/
theorem C31_ends (v v' : ListView T) :
    (v.selectFirstLine = some v' → (∀ i, v'.selection = some i ↔ v.isDisplayed i = true ∧ ∀ j, v.isDisplayed j = true → i ≤ j)) ∧
    (v.selectLastLine = some v' → (∀ i, v'.selection = some i ↔ v.isDisplayed i = true ∧ ∀ j, v.isDisplayed j = true → j ≤ i)) := by
  constructor
  · intro he i
    unfold selectFirstLine at he
    split at he
    · rename_i i0 hf
      rw [msv_fields he]
      obtain ⟨a1, a2, a3⟩ := find_range.1 hf
      simp only [Option.some.injEq]
      constructor
      · rintro rfl
        refine ⟨a2, fun j hj => ?_⟩
        rcases Nat.lt_or_ge j i0 with hlt | hge
        · rw [a3 j hlt] at hj; simp at hj
        · exact hge
      · rintro ⟨b1, b2⟩
        have := b2 i0 a2
        rcases Nat.lt_or_ge i i0 with hlt | hge
        · rw [a3 i hlt] at b1; simp at b1
        · omega
    · rename_i hf
      cases he
      simp only [reduceCtorEq, false_iff, not_and]
      intro hi
      have := find_range_none.1 hf i (isDisplayed_lt hi)
      rw [hi] at this; simp at this
  · intro he i
    unfold selectLastLine at he
    have hlast : ∀ n i0, (List.range n).reverse.find? v.isDisplayed = some i0 → i0 < n ∧ v.isDisplayed i0 = true ∧ ∀ j, j < n → v.isDisplayed j = true → j ≤ i0 := by
      intro n
      induction n with
      | zero => simp
      | succ n ih =>
        intro i0 h
        rw [List.range_succ, List.reverse_append, List.reverse_singleton, List.singleton_append, List.find?_cons] at h
        split at h
        · rename_i hn
          simp only [Option.some.injEq] at h
          subst h
          exact ⟨by omega, hn, fun j hj _ => by omega⟩
        · rename_i hn
          obtain ⟨b1, b2, b3⟩ := ih i0 h
          refine ⟨by omega, b2, fun j hj hjd => ?_⟩
          by_cases c : j = n
          · subst c; rw [hjd] at hn; simp at hn
          · exact b3 j (by omega) hjd
    split at he
    · rename_i i0 hf
      rw [msv_fields he]
      obtain ⟨a1, a2, a3⟩ := hlast _ _ hf
      simp only [Option.some.injEq]
      constructor
      · rintro rfl
        exact ⟨a2, fun j hj => a3 j (isDisplayed_lt hj) hj⟩
      · rintro ⟨b1, b2⟩
        have h1 := b2 i0 a2
        have h2 := a3 i (isDisplayed_lt b1) b1
        omega
    · rename_i hf
      cases he
      simp only [reduceCtorEq, false_iff, not_and]
      intro hi
      rw [List.find?_eq_none] at hf
      exact absurd hi (hf i (by simp [isDisplayed_lt hi]))

/-- A list with the given data, built by additions. -/
def listOf (area : Area) (columns : List (ListColumn T)) (data : List T) : ListView T := data.foldl addRow (new area columns)

theorem listOf_reachable (ok : ListOp T → Prop) (hok : ∀ d, ok (.addRow d)) (area : Area) (columns : List (ListColumn T)) (data : List T) :
    ReachableList ok area columns (listOf area columns data) { added := data } := by
  have : ∀ (l : List T) (v : ListView T) (h : ListHistory T), ReachableList ok area columns v h →
      ReachableList ok area columns (l.foldl addRow v) { h with added := h.added ++ l } := by
    intro l
    induction l with
    | nil => intro v h hr; simpa using hr
    | cons a l ih =>
      intro v h hr
      have := ih _ _ (.step (.addRow a) hr (hok a) rfl)
      simpa [ListHistory.step] using this
  have := this data _ _ .init
  simp only [List.nil_append] at this
  exact this

/-- C31: selecting again and again in a filtered list. -/
example : (do
    let v ← ((listOf ⟨0, 0, 9, 9⟩ [] [0, 1, 2, 3, 4]).setFilter (· % 2 == 0)).trySelectNext false
    let v1 ← v.trySelectNext false
    let v2 ← v1.trySelectNext false
    let v3 ← v2.trySelectNext false
    let v4 ← v3.trySelectNext true
    some [v.selection, v1.selection, v2.selection, v3.selection, v4.selection]) = some [some 0, some 2, some 4, some 0, some 4] := by decide

/-- C31: in an area of 4 rows, hence with 2 rows of data, going up hides the selected row. -/
theorem C31_height_counterexample : ((({ listOf ⟨0, 0, 9, 4⟩ [] [0, 1, 2, 3, 4, 5, 6, 7] with scroll := 5, selection := some 5 } : ListView Nat).trySelectNext true).map
    fun v => (v.selection, v.scroll, v.displayedBetween v.scroll 4)) = some (some 4, 2, 2) := by decide

/-- C31: a filter may hide the selected row, which stays selected. -/
theorem C31_filter_counterexample : (((listOf ⟨0, 0, 9, 9⟩ [] [0, 1, 2]).selectFirstLine).map
    fun v => ((v.setFilter (· > 0)).getSelection, (v.setFilter (· > 0)).isDisplayed 0)) = some (some (some 0), false) := by decide

/-! ## C32 -/

/-- C32: scrolling panics exactly in these cases: the least `i32`; a scroll downwards of a list which is shorter than the area;
when the scroll becomes 0 and the selected row is then the last visible one. -/
theorem C32_scroll_panics (v : ListView T) (n : Int) :
    v.tryScrollLines n = none ↔ n = -2147483648 ∨ (0 ≤ n ∧ v.displayedCount < v.tbodyHeight) ∨
      (v.scroll + n ≤ 0 ∧ v.tbodyHeight < v.displayedCount ∧ 2 ≤ v.tbodyHeight ∧ v.selection = some (v.tbodyHeight - 1)) := by
  unfold tryScrollLines
  by_cases c : n < 0
  · rw [if_pos c]
    by_cases c1 : n = i32Min
    · rw [if_pos c1]; simp [c1, i32Min]
    · rw [if_neg c1, msv_none]
      have c2 : n ≠ -2147483648 := c1
      have ht : ({ v with scroll := if (-n).toNat ≥ v.scroll then 0 else v.scroll - (-n).toNat } : ListView T).tbodyHeight = v.tbodyHeight := rfl
      rw [ht]
      have e : (if (-n).toNat ≥ v.scroll then 0 else v.scroll - (-n).toNat) = 0 ↔ (v.scroll : Int) + n ≤ 0 := by
        split <;> omega
      simp only [e]
      constructor
      · rintro ⟨a, b, d, f⟩; exact .inr (.inr ⟨d, a, b, f⟩)
      · rintro (h | ⟨h, _⟩ | ⟨a, b, d, f⟩)
        · exact absurd h c2
        · omega
        · exact ⟨b, d, a, f⟩
  · rw [if_neg c]
    unfold csub
    by_cases c1 : v.tbodyHeight ≤ v.displayedCount
    · rw [if_pos c1]
      simp only [Option.bind_eq_bind, Option.bind_some]
      rw [msv_none]
      have ht : ({ v with scroll := min (v.scroll + n.toNat) (v.displayedCount - v.tbodyHeight + 1) } : ListView T).tbodyHeight = v.tbodyHeight := rfl
      rw [ht]
      have e : min (v.scroll + n.toNat) (v.displayedCount - v.tbodyHeight + 1) = 0 ↔ (v.scroll : Int) + n ≤ 0 := by omega
      simp only [e]
      constructor
      · rintro ⟨a, b, d, f⟩; exact .inr (.inr ⟨d, a, b, f⟩)
      · rintro (h | ⟨_, h⟩ | ⟨a, b, d, f⟩)
        · omega
        · omega
        · exact ⟨b, d, a, f⟩
    · rw [if_neg c1]
      simp only [Option.bind_eq_bind, Option.bind_none, true_iff]
      exact .inr (.inl ⟨by omega, by omega⟩)

/-- C32: selecting never panics in a list which is already scrolled, nor in a list which isn't longer than the area. -/
theorem C32_select_no_panic (ok : ListOp T → Prop) (area : Area) (columns : List (ListColumn T)) (v : ListView T) (h : ListHistory T)
    (hr : ReachableList ok area columns v h) (hs : v.scroll ≠ 0 ∨ v.displayedCount ≤ v.tbodyHeight) (op : ListOp T)
    (hop : (∃ up, op = .selectNext up) ∨ op = .selectFirst ∨ op = .selectLast) : op.exec v ≠ none := by
  have k := known_of_reachable hr
  have hc := k.count'
  have msv : ∀ i, ({ v with selection := some i } : ListView T).makeSelectionVisible ≠ none := by
    intro i he
    obtain ⟨a, _, b, _⟩ := msv_none.1 he
    have ht : ({ v with selection := some i } : ListView T).tbodyHeight = v.tbodyHeight := rfl
    rw [ht] at a
    simp only at a b
    rcases hs with hs | hs
    · exact hs b
    · omega
  have after : ∀ up, v.selection ≠ none → v.selectAfter up ≠ none := by
    intro up hsel
    unfold selectAfter
    split
    · simp
    · cases hs : v.selection with
      | none => exact absurd hs hsel
      | some s =>
        simp only
        split
        · exact msv _
        · simp
  rcases hop with ⟨up, rfl⟩ | rfl | rfl
  · simp only [ListOp.exec, trySelectNext]
    split
    · simp
    · rename_i hpos
      split
      · split
        · exact msv _
        · rename_i hcase hf
          by_cases hsel : v.selection = none
          · -- there's a displayed row, hence one is found
            exfalso
            have hne : (v.rows.filter (·.displayed)) ≠ [] := by
              intro h0; rw [hc, h0] at hpos; simp at hpos
            obtain ⟨r, hr'⟩ := List.exists_mem_of_ne_nil _ hne
            rw [List.mem_filter] at hr'
            obtain ⟨i, hi, rfl⟩ := List.mem_iff_getElem.1 hr'.1
            have hid : v.isDisplayed i = true := isDisplayed_iff.2 ⟨hi, hr'.2⟩
            have hlen : 0 < v.rows.length := by omega
            have hm := Nat.mod_lt v.scroll hlen
            obtain ⟨j, hj, e⟩ := reach_mod hi hm false
            simp only [Bool.false_eq_true, if_false] at e
            by_cases cj : j + 1 < v.rows.length
            · have := find_range_none.1 hf (j + 1) cj
              rw [← Nat.add_mod_mod, e, hid] at this
              simp at this
            · have := find_range_none.1 hf 0 hlen
              have e2 : j + 1 = v.rows.length := by omega
              rw [e2, Nat.add_mod_left, Nat.mod_mod] at e
              rw [Nat.zero_add, e, hid] at this
              simp at this
          · exact after up hsel
      · rename_i hcase
        exact after up (fun h => hcase (.inr h))
  · simp only [ListOp.exec, selectFirstLine]
    split
    · exact msv _
    · simp
  · simp only [ListOp.exec, selectLastLine]
    split
    · exact msv _
    · simp

theorem listOf_area (area : Area) (columns : List (ListColumn T)) (data : List T) : (listOf area columns data).area = area := by
  have : ∀ (l : List T) (v : ListView T), (l.foldl addRow v).area = v.area := by
    intro l
    induction l with
    | nil => intro v; rfl
    | cons a l ih => intro v; rw [List.foldl_cons, ih, (addRow_fields v a).2.2.2.1]
  exact this data _

/-- C32: selecting the next row panics in all lists which are longer than the area, when they're not scrolled and the selected row is
the one before the last visible one. -/
theorem C32_select_counterexample (area : Area) (columns : List (ListColumn T)) (data : List T) (h2 : 4 ≤ area.height)
    (hl : area.height - 2 < data.length) :
    ({ listOf area columns data with scroll := 0, selection := some (area.height - 4) } : ListView T).trySelectNext false = none := by
  have k := known_of_reachable (listOf_reachable (fun _ => True) (fun _ => trivial) area columns data)
  have hlen := k.length
  have hc := k.count
  have ha := listOf_area area columns data
  have hft : data.filter (fun _ => true) = data := List.filter_eq_self.2 (fun _ _ => rfl)
  rw [hft] at hc
  have hd : ∀ i, i < data.length → (listOf area columns data).isDisplayed i = true := by
    intro i hi
    exact isDisplayed_iff.2 ⟨by simp only at hlen; omega, k.flags _ (List.getElem_mem (by simp only at hlen; omega))⟩
  generalize hv : ({ listOf area columns data with scroll := 0, selection := some (area.height - 4) } : ListView T) = v
  have e1 : v.displayedCount = data.length := by rw [← hv]; exact hc
  have e2 : v.rows.length = data.length := by rw [← hv]; exact hlen
  have e3 : v.selection = some (area.height - 4) := by rw [← hv]
  have e4 : v.tbodyHeight = area.height - 2 := by rw [← hv]; unfold tbodyHeight; simp only [ha]; rw [if_pos (by omega)]
  have e5 : v.scroll = 0 := by rw [← hv]
  have e6 : ∀ i, i < data.length → v.isDisplayed i = true := by rw [← hv]; exact hd
  unfold trySelectNext
  rw [if_neg (by omega), if_neg (by rw [e3]; simp; omega)]
  unfold selectAfter
  rw [if_neg (by omega)]
  simp only [e3, e2, Bool.false_eq_true, if_false]
  have hm : (0 + 1 + (area.height - 4)) % data.length = area.height - 3 := by
    rw [show 0 + 1 + (area.height - 4) = area.height - 3 by omega, Nat.mod_eq_of_lt (by omega)]
  have hf : (List.range data.length).find? (fun i => v.isDisplayed ((i + 1 + (area.height - 4)) % data.length)) = some 0 := by
    refine find_range.2 ⟨by omega, ?_, by omega⟩
    rw [hm]; exact e6 _ (by omega)
  rw [hf]
  simp only
  rw [hm, msv_none]
  refine ⟨?_, ?_, e5, ?_⟩
  · show v.tbodyHeight < v.displayedCount; omega
  · show 2 ≤ v.tbodyHeight; omega
  · show some (area.height - 3) = some (v.tbodyHeight - 1); rw [e4]; congr 1

/-- C32: an operation of scroll panics when the list is shorter than the area, and a list can be scrolled so that its last row isn't
in the last row of the area. -/
theorem C32_scroll_counterexample :
    (listOf ⟨0, 0, 9, 9⟩ [] [0, 1, 2]).tryScrollLines 1 = none ∧
    (((({ listOf ⟨0, 0, 9, 5⟩ [] [0, 1, 2, 3, 4] with scroll := 0 } : ListView Nat)).tryScrollLines 100).map (·.scroll)) = some 3 := by decide

private theorem scroll_unselected {v v' : ListView T} {n : Int} (hs : v.selection = none) (h : v.tryScrollLines n = some v') :
    v' = { v with scroll := v'.scroll } ∧ (v'.scroll ≤ v.scroll ∨ v'.scroll ≤ v.displayedCount - v.tbodyHeight + 1) := by
  have msv : ∀ s, ({ v with scroll := s } : ListView T).makeSelectionVisible = some { v with scroll := s } := by
    intro s
    unfold makeSelectionVisible
    split
    · rfl
    · rename_i c; simp only [hs]
  unfold tryScrollLines at h
  split at h
  · split at h
    · simp at h
    · rw [msv] at h
      cases h
      exact ⟨rfl, .inl (by simp only; split <;> omega)⟩
  · simp only [Option.bind_eq_bind, Option.bind_eq_some_iff] at h
    obtain ⟨d, hd, h⟩ := h
    unfold csub at hd
    split at hd
    · simp only [Option.some.injEq] at hd
      rw [msv] at h
      cases h
      exact ⟨rfl, .inr (by simp only; omega)⟩
    · simp at hd

/-- A list of ten rows, whose filter keeps the five last ones, in an area showing three rows. -/
def filteredList : ListView Nat := (listOf ⟨0, 0, 9, 5⟩ [] [0, 1, 2, 3, 4, 5, 6, 7, 8, 9]).setFilter (· ≥ 5)

/-- C32: in a filtered list, scrolling may never reach the last displayed rows, because the limit of the scroll is the number of
displayed rows, but the scroll is an index among all the rows. -/
theorem C32_filter_counterexample :
    filteredList.scroll ≤ 3 ∧
    ∀ (n : Int) (v' : ListView Nat) (scroll : Nat), scroll ≤ 3 → ({ filteredList with scroll := scroll } : ListView Nat).tryScrollLines n = some v' →
      v' = { filteredList with scroll := v'.scroll } ∧ v'.scroll ≤ 3 ∧ v'.isDisplayed 9 = true ∧ ¬ v'.Visible 9 := by
  have hd : filteredList.displayedCount = 5 := by decide
  have ht : filteredList.tbodyHeight = 3 := by decide
  have hsel : filteredList.selection = none := by decide
  have h9 : filteredList.isDisplayed 9 = true := by decide
  have hh : filteredList.area.height = 5 := by decide
  have hb : ∀ k : Nat, k < 4 → ¬ filteredList.displayedBetween k 9 < 3 := by decide
  refine ⟨by decide, ?_⟩
  generalize filteredList = w at *
  intro n v' scroll hs h
  obtain ⟨h1, h2⟩ := scroll_unselected (v := { w with scroll := scroll }) hsel h
  have h3 : v'.scroll ≤ 3 := by
    rcases h2 with h2 | h2
    · exact Nat.le_trans h2 hs
    · have : v'.scroll ≤ w.displayedCount - w.tbodyHeight + 1 := h2
      omega
  refine ⟨h1, h3, by rw [h1]; exact h9, ?_⟩
  rintro ⟨_, _, h4⟩
  rw [h1] at h4
  have : w.displayedBetween v'.scroll 9 < w.area.height - 2 := h4
  rw [hh] at this
  exact hb _ (by omega) this

private theorem msv_scroll {v v' : ListView T} (h : v.makeSelectionVisible = some v') (hsel : ∀ i, v.selection = some i → i < v.rows.length) :
    v'.scroll ≤ v.scroll ∨ (v.tbodyHeight < v.rows.length ∨ 1 ≤ v.rows.length) ∧ v'.scroll + v.tbodyHeight ≤ v.rows.length + 1 := by
  unfold makeSelectionVisible at h
  split at h
  · cases h; exact .inl (Nat.le_refl _)
  · split at h
    · rename_i sel hs
      have := hsel sel hs
      split at h
      · cases h; left; simp only; split <;> omega
      · split at h
        · unfold csub at h
          split at h
          · simp only [Option.bind_eq_bind, Option.bind_some, Option.some.injEq] at h
            subst h
            right; simp only; omega
          · simp at h
        · cases h; exact .inl (Nat.le_refl _)
    · cases h; exact .inl (Nat.le_refl _)

/-- One step on the scroll: it doesn't increase or isn't more than one row after the last page. -/
theorem step_scroll_list {v v' : ListView T} {h : ListHistory T} (k : Known v h) {op : ListOp T} (he : op.exec v = some v') :
    (v'.scroll ≤ v.scroll ∧ (v.rows.length ≤ v'.rows.length ∨ v'.scroll = 0)) ∨ v'.scroll + v.tbodyHeight ≤ v'.rows.length + 1 := by
  have hcount : v.displayedCount ≤ v.rows.length := by rw [k.count']; exact List.length_filter_le _ _
  have msv : ∀ {w w' : ListView T}, w.makeSelectionVisible = some w' → (∀ i, w.selection = some i → i < w.rows.length) → w.rows = v.rows →
      w.area = v.area → (w.scroll ≤ v.scroll ∨ w.scroll + v.tbodyHeight ≤ v.rows.length + 1) →
      (w'.scroll ≤ v.scroll ∧ (v.rows.length ≤ w'.rows.length ∨ w'.scroll = 0)) ∨ w'.scroll + v.tbodyHeight ≤ w'.rows.length + 1 := by
    intro w w' hw hsel hr ha hs
    have h1 := msv_scroll hw hsel
    have h2 : w'.rows = w.rows := by rw [msv_fields hw]
    have h3 : w.tbodyHeight = v.tbodyHeight := by unfold tbodyHeight; rw [ha]
    rw [h2, hr]
    rw [hr, h3] at h1
    omega
  have hl : ∀ n, v.tryScrollLines n = some v' → (v'.scroll ≤ v.scroll ∧ (v.rows.length ≤ v'.rows.length ∨ v'.scroll = 0)) ∨ v'.scroll + v.tbodyHeight ≤ v'.rows.length + 1 := by
    intro n h
    unfold tryScrollLines at h
    split at h
    · split at h
      · simp at h
      · refine msv h k.sel rfl rfl (.inl ?_)
        simp only; split <;> omega
    · simp only [Option.bind_eq_bind, Option.bind_eq_some_iff] at h
      obtain ⟨d, hd, h⟩ := h
      unfold csub at hd
      split at hd
      · simp only [Option.some.injEq] at hd
        refine msv h k.sel rfl rfl (.inr ?_)
        simp only; omega
      · simp at hd
  have after : ∀ up, v.selectAfter up = some v' → (v'.scroll ≤ v.scroll ∧ (v.rows.length ≤ v'.rows.length ∨ v'.scroll = 0)) ∨ v'.scroll + v.tbodyHeight ≤ v'.rows.length + 1 := by
    intro up h
    unfold selectAfter at h
    split at h
    · cases h; exact .inl ⟨Nat.le_refl _, .inl (Nat.le_refl _)⟩
    · split at h
      · simp at h
      · split at h
        · rename_i hf
          refine msv h ?_ rfl rfl (.inl (Nat.le_refl _))
          rintro i ⟨⟩
          exact isDisplayed_lt (find_range.1 hf).2.1
        · cases h; exact .inl ⟨Nat.le_refl _, .inl (Nat.le_refl _)⟩
  cases op with
  | addRow d =>
    cases he
    have hrl : (v.addRow d).rows.length = v.rows.length + 1 := by
      rw [addRow_rows, (insertRow_perm v _).length_eq]; simp
    rw [hrl]
    have hs : (v.addRow d).scroll ≤ v.scroll ∨ (v.addRow d).scroll ≤ v.displayedCount + 1 - v.tbodyHeight := by
      unfold addRow
      simp only
      cases v.accepts d <;> cases (v.order.isNone && v.doScrollShowBottom)
      · exact .inl (Nat.le_refl _)
      · right
        simp only [scrollToBottom, Bool.false_eq_true, if_false, if_true]
        split <;> omega
      · exact .inl (Nat.le_refl _)
      · right
        have ht : ({ v with displayedCount := v.displayedCount + 1 } : ListView T).tbodyHeight = v.tbodyHeight := rfl
        simp only [scrollToBottom, if_true, ht]
        split <;> omega
    by_cases c : v.tbodyHeight ≤ v.displayedCount + 1
    · omega
    · left
      have : (v.addRow d).scroll ≤ v.scroll := by omega
      exact ⟨this, .inl (by omega)⟩
  | clearRows => cases he; exact .inl ⟨Nat.zero_le _, .inr rfl⟩
  | setFilter f => cases he; exact .inl ⟨Nat.zero_le _, .inr rfl⟩
  | removeFilter => cases he; exact .inl ⟨Nat.le_refl _, .inl (by simp [removeFilter])⟩
  | sort o => cases he; exact .inl ⟨Nat.le_refl _, .inl (Nat.le_refl _)⟩
  | updateDimensions =>
    simp only [ListOp.exec, updateDimensions, Option.bind_eq_bind, Option.bind_eq_some_iff] at he
    obtain ⟨a, _, b, _, c, _, d, _, he⟩ := he
    split at he
    · cases he; exact .inl ⟨Nat.le_refl _, .inl (Nat.le_refl _)⟩
    · simp only [Option.bind_eq_some_iff] at he
      obtain ⟨_, _, _, _, he⟩ := he
      cases he; exact .inl ⟨Nat.le_refl _, .inl (Nat.le_refl _)⟩
  | setArea area => cases he; exact .inl ⟨Nat.le_refl _, .inl (Nat.le_refl _)⟩
  | scrollLines n => exact hl n he
  | scrollPages n =>
    simp only [ListOp.exec, tryScrollPages, Option.bind_eq_bind, Option.bind_eq_some_iff] at he
    obtain ⟨_, _, he⟩ := he
    exact hl _ he
  | scrollToBottom =>
    cases he
    simp only [scrollToBottom]
    split <;> omega
  | selectNext up =>
    simp only [ListOp.exec, trySelectNext] at he
    split at he
    · cases he; exact .inl ⟨Nat.le_refl _, .inl (Nat.le_refl _)⟩
    · split at he
      · split at he
        · rename_i hf
          refine msv he ?_ rfl rfl (.inl (Nat.le_refl _))
          rintro i ⟨⟩
          exact isDisplayed_lt (find_range.1 hf).2.1
        · exact after up he
      · exact after up he
  | selectFirst =>
    simp only [ListOp.exec, selectFirstLine] at he
    split at he
    · rename_i hf
      refine msv he ?_ rfl rfl (.inl (Nat.le_refl _))
      rintro i ⟨⟩
      exact (find_range.1 hf).1
    · cases he; exact .inl ⟨Nat.le_refl _, .inl (Nat.le_refl _)⟩
  | selectLast =>
    simp only [ListOp.exec, selectLastLine] at he
    split at he
    · rename_i hf
      refine msv he ?_ rfl rfl (.inl (Nat.le_refl _))
      rintro i ⟨⟩
      exact isDisplayed_lt (List.find?_some hf)
    · cases he; exact .inl ⟨Nat.le_refl _, .inl (Nat.le_refl _)⟩
  | unselect => cases he; exact .inl ⟨Nat.le_refl _, .inl (Nat.le_refl _)⟩
  | makeSelectionVisible => exact msv he k.sel rfl rfl (.inl (Nat.le_refl _))

theorem step_area {v v' : ListView T} {op : ListOp T} (he : op.exec v = some v') (hop : ∀ a, op ≠ .setArea a) : v'.area = v.area := by
  have msv : ∀ {w w' : ListView T}, w.makeSelectionVisible = some w' → w.area = v.area → w'.area = v.area := by
    intro w w' hw ha; rw [msv_fields hw]; exact ha
  have hl : ∀ n, v.tryScrollLines n = some v' → v'.area = v.area := by
    intro n h
    unfold tryScrollLines at h
    split at h
    · split at h
      · simp at h
      · exact msv h rfl
    · simp only [Option.bind_eq_bind, Option.bind_eq_some_iff] at h
      obtain ⟨d, hd, h⟩ := h
      exact msv h rfl
  have after : ∀ up, v.selectAfter up = some v' → v'.area = v.area := by
    intro up h
    unfold selectAfter at h
    split at h
    · cases h; rfl
    · split at h
      · simp at h
      · split at h
        · exact msv h rfl
        · cases h; rfl
  cases op with
  | addRow d => cases he; exact (addRow_fields v d).2.2.2.1
  | clearRows => cases he; rfl
  | setFilter f => cases he; rfl
  | removeFilter => cases he; rfl
  | sort o => cases he; rfl
  | updateDimensions =>
    simp only [ListOp.exec, updateDimensions, Option.bind_eq_bind, Option.bind_eq_some_iff] at he
    obtain ⟨a, _, b, _, c, _, d, _, he⟩ := he
    split at he
    · cases he; rfl
    · simp only [Option.bind_eq_some_iff] at he
      obtain ⟨_, _, _, _, he⟩ := he
      cases he; rfl
  | setArea area => exact absurd rfl (hop area)
  | scrollLines n => exact hl n he
  | scrollPages n =>
    simp only [ListOp.exec, tryScrollPages, Option.bind_eq_bind, Option.bind_eq_some_iff] at he
    obtain ⟨_, _, he⟩ := he
    exact hl _ he
  | scrollToBottom => cases he; rfl
  | selectNext up =>
    simp only [ListOp.exec, trySelectNext] at he
    split at he
    · cases he; rfl
    · split at he
      · split at he
        · exact msv he rfl
        · exact after up he
      · exact after up he
  | selectFirst =>
    simp only [ListOp.exec, selectFirstLine] at he
    split at he
    · exact msv he rfl
    · cases he; rfl
  | selectLast =>
    simp only [ListOp.exec, selectLastLine] at he
    split at he
    · exact msv he rfl
    · cases he; rfl
  | unselect => cases he; rfl
  | makeSelectionVisible => exact msv he rfl

/-- C32: whatever the history, in areas having a row, the scroll isn't more than the number of rows. -/
theorem C32_bound (area : Area) (columns : List (ListColumn T)) (v : ListView T) (h : ListHistory T) (h1 : 1 ≤ area.height)
    (hr : ReachableList (fun op => ∀ a, op = .setArea a → 1 ≤ a.height) area columns v h) :
    v.scroll ≤ h.added.length := by
  have key : 1 ≤ v.area.height ∧ v.scroll ≤ v.rows.length := by
    induction hr with
    | init => exact ⟨h1, Nat.zero_le _⟩
    | @step v v' h op hr hop he ih =>
      have ht : 1 ≤ v.tbodyHeight := by unfold tbodyHeight; split <;> omega
      have hs := step_scroll_list (known_of_reachable hr) he
      refine ⟨?_, by omega⟩
      by_cases c : ∃ a, op = .setArea a
      · obtain ⟨a, rfl⟩ := c
        cases he
        exact hop a rfl
      · rw [step_area he (fun a ha => c ⟨a, ha⟩)]; exact ih.1
  rw [← (known_of_reachable hr).length]
  exact key.2

/-- C32: in an area which doesn't change, whatever the history, the scroll doesn't go more than one row after the last page. -/
theorem C32_last_page (area : Area) (columns : List (ListColumn T)) (v : ListView T) (h : ListHistory T)
    (hr : ReachableList (fun op => ∀ a, op ≠ .setArea a) area columns v h) :
    v.scroll = 0 ∨ v.scroll + (if area.height > 2 then area.height - 2 else area.height) ≤ h.added.length + 1 := by
  have key : v.area = area ∧ (v.scroll = 0 ∨ v.scroll + v.tbodyHeight ≤ v.rows.length + 1) := by
    induction hr with
    | init => exact ⟨rfl, .inl rfl⟩
    | @step v v' h op hr hop he ih =>
      have hs := step_scroll_list (known_of_reachable hr) he
      have ha := step_area he hop
      have ht : v'.tbodyHeight = v.tbodyHeight := by unfold tbodyHeight; rw [ha]
      exact ⟨by rw [ha]; exact ih.1, by omega⟩
  rw [← (known_of_reachable hr).length, ← key.1]
  exact key.2

/-- C32: the bound on the scroll is tight: it's possible to scroll to the row after the last page, but not further. -/
example : ({ listOf ⟨0, 0, 9, 5⟩ [] [0, 1, 2, 3, 4] with scroll := 0 } : ListView Nat).tryScrollLines 100 =
    some { listOf ⟨0, 0, 9, 5⟩ [] [0, 1, 2, 3, 4] with scroll := 3 } := by rfl

/-- C32: without selection, a scroll which doesn't panic moves by the given number of lines, between the first row and the row after the last page. -/
theorem C32_amount (v v' : ListView T) (n : Int) (hsel : v.selection = none) (h : v.tryScrollLines n = some v') :
    v' = { v with scroll := v'.scroll } ∧
    (n < 0 → (v'.scroll : Int) = max 0 (v.scroll + n)) ∧
    (0 ≤ n → (v'.scroll : Int) = min (v.scroll + n) (v.displayedCount - v.tbodyHeight + 1)) := by
  refine ⟨(scroll_unselected hsel h).1, ?_⟩
  have msv : ∀ s, ({ v with scroll := s } : ListView T).makeSelectionVisible = some { v with scroll := s } := by
    intro s
    unfold makeSelectionVisible
    split
    · rfl
    · simp only [hsel]
  unfold tryScrollLines at h
  split at h
  · rename_i hn
    refine ⟨fun _ => ?_, fun h0 => by omega⟩
    split at h
    · simp at h
    · rw [msv] at h
      cases h
      show ((if (-n).toNat ≥ v.scroll then 0 else v.scroll - (-n).toNat : Nat) : Int) = _
      split <;> omega
  · refine ⟨fun h0 => by omega, fun _ => ?_⟩
    simp only [Option.bind_eq_bind, Option.bind_eq_some_iff] at h
    obtain ⟨d, hd, h⟩ := h
    unfold csub at hd
    split at hd
    · simp only [Option.some.injEq] at hd
      rw [msv] at h
      cases h
      show ((min (v.scroll + n.toNat) (d + 1) : Nat) : Int) = _
      omega
    · simp at hd

/-- C32: a page is the number of rows of the body. -/
theorem C32_pages (v : ListView T) (n : Int) (h1 : -2147483648 ≤ n * (if v.area.height > 2 then v.area.height - 2 else v.area.height : Nat))
    (h2 : n * (if v.area.height > 2 then v.area.height - 2 else v.area.height : Nat) ≤ 2147483647) :
    v.tryScrollPages n = v.tryScrollLines (n * (if v.area.height > 2 then v.area.height - 2 else v.area.height : Nat)) := by
  unfold tryScrollPages i32Check i32Min i32Max
  have : v.tbodyHeight = (if v.area.height > 2 then v.area.height - 2 else v.area.height) := rfl
  rw [this, if_pos ⟨h1, h2⟩]
  rfl

example : (({ listOf ⟨0, 0, 9, 5⟩ [] [0, 1, 2, 3, 4, 5, 6, 7, 8] with scroll := 1 } : ListView Nat).tryScrollPages 1).map (·.scroll) = some 4 ∧
    (({ listOf ⟨0, 0, 9, 5⟩ [] [0, 1, 2, 3, 4, 5, 6, 7, 8] with scroll := 1 } : ListView Nat).tryScrollPages (-1)).map (·.scroll) = some 0 := by decide

/-- C32: a list which isn't sorted and shows its last rows still shows them after an addition; if it doesn't show them or if it's sorted, the scroll is kept. -/
theorem C32_stick (v : ListView T) (d : T) :
    (v.order = none → v.displayedCount ≤ v.scroll + v.tbodyHeight →
      (v.addRow d).scroll = (v.addRow d).displayedCount - (v.addRow d).tbodyHeight) ∧
    (v.order ≠ none ∨ v.scroll + v.tbodyHeight < v.displayedCount → (v.addRow d).scroll = v.scroll) := by
  have ht : (v.addRow d).tbodyHeight = v.tbodyHeight := by unfold tbodyHeight; rw [(addRow_fields v d).2.2.2.1]
  rw [ht]
  constructor
  · intro ho hs
    have hstick : (v.order.isNone && v.doScrollShowBottom) = true := by simp [ho, doScrollShowBottom, hs]
    unfold addRow
    simp only [hstick, if_true]
    cases v.accepts d
    · simp only [Bool.false_eq_true, if_false, scrollToBottom]
      split <;> omega
    · have e : ({ v with displayedCount := v.displayedCount + 1 } : ListView T).tbodyHeight = v.tbodyHeight := rfl
      simp only [if_true, scrollToBottom, e]
      split <;> omega
  · intro h
    have hstick : (v.order.isNone && v.doScrollShowBottom) = false := by
      rcases h with h | h
      · cases ho : v.order with
        | none => exact absurd ho h
        | some o => rfl
      · simp [doScrollShowBottom]; intro _; omega
    unfold addRow
    simp only [hstick, Bool.false_eq_true, if_false]
    cases v.accepts d <;> rfl

example : ((listOf ⟨0, 0, 9, 5⟩ [] [0, 1, 2, 3, 4]).scroll, ({ listOf ⟨0, 0, 9, 5⟩ [] [0, 1, 2, 3, 4] with scroll := 1 } : ListView Nat).addRow 5 |>.scroll) =
    (2, 1) := by decide

end Verif.Props

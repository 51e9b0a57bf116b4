import Verif.Props.ListView
/-! Property C32: exactly when selecting a row of a list panics. -/
namespace Verif.Props
open Verif ListView

variable {T : Type}

/-- The row found by the selection of the next one, from what is known of a list. -/
theorem next_target {v : ListView T} {h : ListHistory T} (k : Known v h) (up : Bool) (hpos : v.displayedCount ≠ 0) :
    ∃ t, v.trySelectNext up = ({ v with selection := some t } : ListView T).makeSelectionVisible ∧
      (∀ s, v.selection = some s → CyclicNext v.rows.length v.isDisplayed up s t) ∧
      (v.selection = none → ∃ k, k < v.rows.length ∧ t = (v.scroll + k) % v.rows.length ∧ v.isDisplayed t = true ∧
        ∀ j, j < k → v.isDisplayed ((v.scroll + j) % v.rows.length) = false) := by
  have hc := k.count'
  have hne : (v.rows.filter (·.displayed)) ≠ [] := by
    intro h0; rw [hc, h0] at hpos; simp at hpos
  obtain ⟨r, hr'⟩ := List.exists_mem_of_ne_nil _ hne
  rw [List.mem_filter] at hr'
  obtain ⟨i, hi, rfl⟩ := List.mem_iff_getElem.1 hr'.1
  have hid : v.isDisplayed i = true := isDisplayed_iff.2 ⟨hi, hr'.2⟩
  have hlen : 0 < v.rows.length := by omega
  have next : ∀ s, s < v.rows.length → ∃ j, (List.range v.rows.length).find? (fun i =>
      v.isDisplayed (((if up then v.rows.length - 1 - i else i + 1) + s) % v.rows.length)) = some j := by
    intro s hs
    cases hf : (List.range v.rows.length).find? (fun i =>
      v.isDisplayed (((if up then v.rows.length - 1 - i else i + 1) + s) % v.rows.length)) with
    | some j => exact ⟨j, rfl⟩
    | none =>
      obtain ⟨j, hj, e⟩ := reach_mod hi hs up
      have := find_range_none.1 hf j hj
      rw [e, hid] at this
      simp at this
  have first : ∃ j, (List.range v.rows.length).find? (fun i => v.isDisplayed ((i + v.scroll) % v.rows.length)) = some j := by
    cases hf : (List.range v.rows.length).find? (fun i => v.isDisplayed ((i + v.scroll) % v.rows.length)) with
    | some j => exact ⟨j, rfl⟩
    | none =>
      have hm := Nat.mod_lt v.scroll hlen
      obtain ⟨j, hj, e⟩ := reach_mod hi hm false
      simp only [Bool.false_eq_true, if_false] at e
      by_cases cj : j + 1 < v.rows.length
      · have := find_range_none.1 hf (j + 1) cj
        rw [← Nat.add_mod_mod, e, hid] at this
        simp at this
      · have := find_range_none.1 hf 0 hlen
        have e2 : j + 1 = v.rows.length := by omega
        rw [e2, Nat.add_mod_left, Nat.mod_mod] at e
        rw [Nat.zero_add, e, hid] at this
        simp at this
  unfold trySelectNext
  rw [if_neg hpos]
  obtain ⟨j0, hj0⟩ := first
  by_cases c : v.displayedCount = 1 ∨ v.selection = none
  · rw [if_pos c, hj0]
    obtain ⟨a1, a2, a3⟩ := find_range.1 hj0
    refine ⟨_, rfl, ?_, ?_⟩
    · intro s hs
      rcases c with c | c
      · obtain ⟨j, hj⟩ := next s (k.sel s hs)
        have hcn := cyclicNext_of_find hj
        have := unique_displayed (by rw [← hc]; exact c) a2 (find_range.1 hj).2.1
        rw [this]
        exact hcn
      · rw [hs] at c; simp at c
    · intro _
      refine ⟨j0, a1, by rw [Nat.add_comm], a2, ?_⟩
      intro j hj
      have := a3 j hj
      rw [Nat.add_comm] at this
      exact this
  · rw [if_neg c]
    have hsome : v.selection ≠ none := fun h => c (.inr h)
    cases hs : v.selection with
    | none => exact absurd hs hsome
    | some s =>
      obtain ⟨j, hj⟩ := next s (k.sel s hs)
      unfold selectAfter
      rw [if_neg (by omega)]
      simp only [hs, hj]
      refine ⟨_, rfl, ?_, by simp⟩
      rintro s' ⟨⟩
      exact cyclicNext_of_find hj

theorem cyclicNext_unique {len s t t' : Nat} {p : Nat → Bool} {up : Bool} (h : CyclicNext len p up s t) (h' : CyclicNext len p up s t') :
    t = t' := by
  obtain ⟨k, a1, a2, a3, a4, a5⟩ := h
  obtain ⟨k', b1, b2, b3, b4, b5⟩ := h'
  rcases Nat.lt_trichotomy k k' with c | c | c
  · have := b5 k a1 c
    rw [← a3, a4] at this; simp at this
  · subst c; rw [a3, b3]
  · have := a5 k' b1 c
    rw [← b3, b4] at this; simp at this

theorem displayed_bound {v : ListView T} {n : Nat} (h : ∀ j, v.isDisplayed j = true → j < n) :
    (v.rows.filter (·.displayed)).length ≤ n := by
  have e : v.rows = v.rows.take n ++ v.rows.drop n := (List.take_append_drop n v.rows).symm
  have h0 : (v.rows.drop n).filter (·.displayed) = [] := by
    rw [List.filter_eq_nil_iff]
    intro r hr hd
    obtain ⟨i, hi, rfl⟩ := List.mem_iff_getElem.1 hr
    rw [List.length_drop] at hi
    rw [List.getElem_drop] at hd
    have := h (n + i) (isDisplayed_iff.2 ⟨by omega, hd⟩)
    omega
  rw [e, List.filter_append, h0, List.append_nil]
  exact Nat.le_trans (List.length_filter_le _ _) (by rw [List.length_take]; omega)

/-- C32: whatever the history, selecting panics exactly when the list has more displayed rows than its area shows, at least 2, isn't scrolled, and when
the row to select is the last one of the first page: the next one in circle, or the first displayed one if there's no selection. Selecting the
last row never panics. -/
theorem C32_select_panics (ok : ListOp T → Prop) (area : Area) (columns : List (ListColumn T)) (v : ListView T) (h : ListHistory T)
    (hr : ReachableList ok area columns v h) :
    let unscrolled := v.scroll = 0 ∧ 2 ≤ v.tbodyHeight ∧ v.tbodyHeight < v.displayedCount
    let isFirst := v.isDisplayed (v.tbodyHeight - 1) = true ∧ ∀ j, j < v.tbodyHeight - 1 → v.isDisplayed j = false
    (∀ up, v.trySelectNext up = none ↔ unscrolled ∧ (v.selection = none ∧ isFirst ∨
      ∃ s, v.selection = some s ∧ CyclicNext v.rows.length v.isDisplayed up s (v.tbodyHeight - 1))) ∧
    (v.selectFirstLine = none ↔ unscrolled ∧ isFirst) ∧
    v.selectLastLine ≠ none ∧
    (v.makeSelectionVisible = none ↔ unscrolled ∧ v.selection = some (v.tbodyHeight - 1)) := by
  have k := known_of_reachable hr
  have hc := k.count'
  intro unscrolled isFirst
  have msv : ∀ i, ({ v with selection := some i } : ListView T).makeSelectionVisible = none ↔ unscrolled ∧ i = v.tbodyHeight - 1 := by
    intro i
    rw [msv_none]
    have ht : ({ v with selection := some i } : ListView T).tbodyHeight = v.tbodyHeight := rfl
    rw [ht]
    simp only [Option.some.injEq]
    constructor
    · rintro ⟨a, b, c, d⟩; exact ⟨⟨c, b, a⟩, d⟩
    · rintro ⟨⟨c, b, a⟩, d⟩; exact ⟨a, b, c, d⟩
  refine ⟨?_, ?_, ?_, ?_⟩
  · intro up
    by_cases hpos : v.displayedCount = 0
    · have : v.trySelectNext up = some v := by unfold trySelectNext; rw [if_pos hpos]
      rw [this]
      constructor
      · intro h; cases h
      · rintro ⟨⟨_, _, h⟩, _⟩; omega
    · obtain ⟨t, e, ht1, ht2⟩ := next_target k up hpos
      rw [e, msv]
      constructor
      · rintro ⟨hu, rfl⟩
        refine ⟨hu, ?_⟩
        cases hs : v.selection with
        | some s => exact .inr ⟨s, rfl, ht1 s hs⟩
        | none =>
          left
          obtain ⟨n, b1, b2, b3, b4⟩ := ht2 hs
          rw [hu.1, Nat.zero_add, Nat.mod_eq_of_lt b1] at b2
          refine ⟨rfl, b3, ?_⟩
          intro j hj
          have := b4 j (by omega)
          rwa [hu.1, Nat.zero_add, Nat.mod_eq_of_lt (by omega)] at this
      · rintro ⟨hu, ⟨hs, hf⟩ | ⟨s, hs, hn⟩⟩
        · refine ⟨hu, ?_⟩
          obtain ⟨n, b1, b2, b3, b4⟩ := ht2 hs
          rw [hu.1, Nat.zero_add, Nat.mod_eq_of_lt b1] at b2
          subst b2
          rcases Nat.lt_trichotomy t (v.tbodyHeight - 1) with c | c | c
          · have := hf.2 t c
            rw [b3] at this; simp at this
          · exact c
          · have := b4 _ c
            rw [hu.1, Nat.zero_add, Nat.mod_eq_of_lt (by omega), hf.1] at this
            simp at this
        · exact ⟨hu, cyclicNext_unique (ht1 s hs) hn⟩
  · unfold selectFirstLine
    cases hf : (List.range v.rows.length).find? v.isDisplayed with
    | none =>
      simp only [reduceCtorEq, false_iff]
      rintro ⟨_, hd, _⟩
      have := find_range_none.1 hf _ (isDisplayed_lt hd)
      rw [hd] at this; simp at this
    | some i =>
      obtain ⟨b1, b2, b3⟩ := find_range.1 hf
      simp only
      rw [msv]
      constructor
      · rintro ⟨hu, rfl⟩; exact ⟨hu, b2, b3⟩
      · rintro ⟨hu, hd, hn⟩
        refine ⟨hu, ?_⟩
        rcases Nat.lt_trichotomy i (v.tbodyHeight - 1) with c | c | c
        · have := hn i c
          rw [b2] at this; simp at this
        · exact c
        · have := b3 _ c
          rw [hd] at this; simp at this
  · intro he
    unfold selectLastLine at he
    cases hf : (List.range v.rows.length).reverse.find? v.isDisplayed with
    | none => rw [hf] at he; cases he
    | some i =>
      rw [hf] at he
      simp only at he
      obtain ⟨hu, rfl⟩ := (msv i).1 he
      have hmax : ∀ j, v.isDisplayed j = true → j < v.tbodyHeight := by
        intro j hj
        rcases Nat.lt_or_ge j v.tbodyHeight with c | c
        · exact c
        · exfalso
          have hlt := isDisplayed_lt hj
          rw [List.find?_eq_some_iff_append] at hf
          obtain ⟨_, as, bs, e, hn⟩ := hf
          have hp : (List.range v.rows.length).reverse.Pairwise (· > ·) := by
            rw [List.pairwise_reverse]; exact List.pairwise_lt_range
          have hm : j ∈ as ++ (v.tbodyHeight - 1) :: bs := by rw [← e]; simp [hlt]
          rw [e, List.pairwise_append] at hp
          rcases List.mem_append.1 hm with hm | hm
          · have := hn j hm
            rw [hj] at this; simp at this
          · rcases List.mem_cons.1 hm with rfl | hm
            · have := hu.2.1; omega
            · have := (List.pairwise_cons.1 hp.2.1).1 j hm
              have := hu.2.1; omega
      have := displayed_bound hmax
      rw [← hc] at this
      have := hu.2.2
      omega
  · rw [msv_none]
    constructor
    · rintro ⟨a, b, c, d⟩; exact ⟨⟨c, b, a⟩, d⟩
    · rintro ⟨⟨c, b, a⟩, d⟩; exact ⟨a, b, c, d⟩

/-- The hypotheses are met by a list of 5 rows, of which 3 can be seen, scrolled back to its start: the selection of the next row panics the third time. -/
example : ((do
    let v ← (listOf ⟨0, 0, 9, 5⟩ [] [0, 1, 2, 3, 4]).tryScrollLines (-9)
    let v ← v.trySelectNext false
    let v ← v.trySelectNext false
    some (v.scroll, v.selection, (v.trySelectNext false).isNone, (v.trySelectNext true).isNone)) = some (0, some 1, true, false)) := by decide

/-- With a filter which only accepts rows from the third one on, selecting the first row panics. -/
example : ((do
    let v ← (listOf ⟨0, 0, 9, 5⟩ [] [0, 1, 2, 3, 4, 5]).tryScrollLines (-9)
    let v := v.setFilter (· ≥ 2)
    some (v.rowCounts, v.selectFirstLine.isNone, (v.trySelectNext true).isNone, v.selectLastLine.isNone)) = some ((4, 6), true, true, false)) := by decide

end Verif.Props

import Verif.Spec.ReleaseList
import Verif.Props.ListView
import Verif.Props.ListViewDisplay
/-! Property C105: list views in release builds. -/
namespace Verif.Props
open Verif Spec ListView

variable {T : Type}

/-! ## Lemmas -/

theorem wrapI32_small {x : Int} (h1 : -2147483648 ≤ x) (h2 : x ≤ 2147483647) : Release.wrapI32 x = x := by unfold Release.wrapI32; omega
theorem wrapI32_range (x : Int) : -2147483648 ≤ Release.wrapI32 x ∧ Release.wrapI32 x ≤ 2147483647 := by unfold Release.wrapI32; omega
theorem i32AsUsize_small {x : Int} (h1 : 0 ≤ x) (h2 : x ≤ 2147483647) : (Release.i32AsUsize x : Int) = x := by unfold Release.i32AsUsize; omega

theorem wrapped_visible {sel t : Nat} (h1 : t ≤ sel + 1) (h2 : sel < 2 ^ 63) : Release.wadd (Release.wsub sel t) 2 = sel + 2 - t := by
  unfold Release.wadd Release.wsub
  split <;> omega

theorem wrapped_bound {n t : Nat} (h1 : n < 2 ^ 63) (h2 : t < 65536) :
    Release.wadd (Release.wsub n t) 1 = if t ≤ n + 1 then n + 1 - t else 2 ^ 64 + n + 1 - t := by
  unfold Release.wadd Release.wsub
  split <;> split <;> omega

theorem release_msv_fields (v : ListView T) : Release.makeSelectionVisible v = { v with scroll := (Release.makeSelectionVisible v).scroll } := by
  unfold Release.makeSelectionVisible
  split
  · rfl
  · split
    · split
      · rfl
      · split <;> rfl
    · rfl

theorem release_msv_same {v v' : ListView T} (hsel : ∀ i, v.selection = some i → i < 2 ^ 63) (h : v.makeSelectionVisible = some v') :
    Release.makeSelectionVisible v = v' := by
  unfold makeSelectionVisible at h
  unfold Release.makeSelectionVisible
  by_cases c : v.displayedCount ≤ v.tbodyHeight
  · rw [if_pos c] at h ⊢; exact Option.some.inj h
  · rw [if_neg c] at h ⊢
    cases hs : v.selection with
    | none => rw [hs] at h; exact Option.some.inj h
    | some sel =>
      rw [hs] at h
      simp only at h ⊢
      by_cases c1 : sel ≤ v.scroll
      · rw [if_pos c1] at h ⊢; exact Option.some.inj h
      · rw [if_neg c1] at h ⊢
        by_cases c2 : sel + 1 ≥ v.scroll + v.tbodyHeight
        · rw [if_pos c2] at h ⊢
          unfold csub at h
          split at h
          · simp only [Option.bind_eq_bind, Option.bind_some, Option.some.injEq] at h
            rw [← h, wrapped_visible (by omega) (hsel sel hs)]
            rename_i c3
            rw [show sel + 2 - v.tbodyHeight = sel - v.tbodyHeight + 2 by omega]
          · simp at h
        · rw [if_neg c2] at h ⊢; exact Option.some.inj h

theorem release_msv_scroll {v : ListView T} (hlen : v.rows.length < 2 ^ 63) (hsel : ∀ i, v.selection = some i → i < v.rows.length) :
    (Release.makeSelectionVisible v).scroll ≤ v.scroll ∨ (Release.makeSelectionVisible v).scroll + v.tbodyHeight ≤ v.rows.length + 1 := by
  unfold Release.makeSelectionVisible
  split
  · exact .inl (Nat.le_refl _)
  · split
    · rename_i sel hs
      have := hsel sel hs
      split
      · left; simp only; split <;> omega
      · split
        · right; simp only; rw [wrapped_visible (by omega) (by omega)]; omega
        · exact .inl (Nat.le_refl _)
    · exact .inl (Nat.le_refl _)

/-- Every index is reached from any place when going in circle. -/
theorem reach_scroll {len i : Nat} (hi : i < len) (s : Nat) : ∃ j, j < len ∧ (j + s) % len = i := by
  have hm := Nat.mod_lt s (Nat.zero_lt_of_lt hi)
  obtain ⟨j, hj, e⟩ := reach_mod hi hm false
  simp only [Bool.false_eq_true, if_false] at e
  by_cases cj : j + 1 < len
  · exact ⟨j + 1, cj, by rw [← Nat.add_mod_mod]; exact e⟩
  · refine ⟨0, Nat.zero_lt_of_lt hi, ?_⟩
    rw [show j + 1 = len by omega, Nat.add_mod_left, Nat.mod_mod] at e
    rw [Nat.zero_add]; exact e

/-- The operations which are the same in both builds, and the shape of the result of the other ones. -/
theorem release_shape {v v' : ListView T} {op : ListOp T} (he : releaseExec v op = some v') :
    op.exec v = some v' ∨
    ((∀ h : ListHistory T, h.step op = h) ∧ v' = { v with scroll := v'.scroll, selection := v'.selection, columns := v'.columns } ∧
      v'.columns.map (·.unsized) = v.columns.map (·.unsized) ∧
      (v'.selection = v.selection ∨ v'.selection = none ∨ ∃ i, v'.selection = some i ∧ v.isDisplayed i = true)) := by
  have hl : ∀ n, Release.tryScrollLines v n = { v with scroll := (Release.tryScrollLines v n).scroll } := by
    intro n
    unfold Release.tryScrollLines
    split <;> exact release_msv_fields _
  have after : ∀ up, Release.selectAfter v up = some v' →
      v' = { v with scroll := v'.scroll, selection := v'.selection } ∧
      (v'.selection = v.selection ∨ v'.selection = none ∨ ∃ i, v'.selection = some i ∧ v.isDisplayed i = true) := by
    intro up h
    unfold Release.selectAfter at h
    split at h
    · cases h; exact ⟨rfl, .inl rfl⟩
    · split at h
      · simp at h
      · split at h
        · rename_i hf
          cases h
          rw [release_msv_fields]
          exact ⟨rfl, .inr (.inr ⟨_, rfl, (find_range.1 hf).2.1⟩)⟩
        · cases h; exact ⟨rfl, .inl rfl⟩
  have fin : v' = { v with scroll := v'.scroll, selection := v'.selection } → v' = { v with scroll := v'.scroll, selection := v'.selection, columns := v'.columns } ∧
      v'.columns.map (·.unsized) = v.columns.map (·.unsized) := by
    intro h
    have hc : v'.columns = v.columns := by rw [h]
    exact ⟨by rw [hc]; exact h, by rw [hc]⟩
  cases op with
  | updateDimensions =>
    cases he
    refine .inr ⟨fun _ => rfl, ?_⟩
    have hd : ∀ (cs : List (ListColumn T)) (e : Int), (Release.distribute cs e).map (·.unsized) = cs.map (·.unsized) := by
      intro cs
      induction cs with
      | nil => intro e; rfl
      | cons c cs ih => intro e; simp only [Release.distribute, List.map_cons, ih]; rfl
    unfold Release.updateDimensions
    simp only
    split
    · exact ⟨rfl, by simp [Function.comp_def, ListColumn.unsized], .inl rfl⟩
    · exact ⟨rfl, hd _ _, .inl rfl⟩
  | scrollLines n =>
    cases he
    have e := hl n
    refine .inr ⟨fun _ => rfl, ?_⟩
    rw [e]
    exact ⟨rfl, rfl, .inl rfl⟩
  | scrollPages n =>
    cases he
    have e := hl (Release.wrapI32 (n * v.tbodyHeight))
    refine .inr ⟨fun _ => rfl, ?_⟩
    unfold Release.tryScrollPages
    rw [e]
    exact ⟨rfl, rfl, .inl rfl⟩
  | selectNext up =>
    refine .inr ⟨fun _ => rfl, ?_⟩
    have key : v' = { v with scroll := v'.scroll, selection := v'.selection } ∧
      (v'.selection = v.selection ∨ v'.selection = none ∨ ∃ i, v'.selection = some i ∧ v.isDisplayed i = true) := by
      simp only [releaseExec, Release.trySelectNext] at he
      split at he
      · cases he; exact ⟨rfl, .inl rfl⟩
      · split at he
        · split at he
          · rename_i hf
            cases he
            rw [release_msv_fields]
            exact ⟨rfl, .inr (.inr ⟨_, rfl, (find_range.1 hf).2.1⟩)⟩
          · exact after up he
        · exact after up he
    exact ⟨(fin key.1).1, (fin key.1).2, key.2⟩
  | selectFirst =>
    cases he
    refine .inr ⟨fun _ => rfl, ?_⟩
    unfold Release.selectFirstLine
    split
    · rename_i hf
      rw [release_msv_fields]
      exact ⟨rfl, rfl, .inr (.inr ⟨_, rfl, List.find?_some hf⟩)⟩
    · exact ⟨rfl, rfl, .inr (.inl rfl)⟩
  | selectLast =>
    cases he
    refine .inr ⟨fun _ => rfl, ?_⟩
    unfold Release.selectLastLine
    split
    · rename_i hf
      rw [release_msv_fields]
      exact ⟨rfl, rfl, .inr (.inr ⟨_, rfl, List.find?_some hf⟩)⟩
    · exact ⟨rfl, rfl, .inr (.inl rfl)⟩
  | makeSelectionVisible =>
    cases he
    refine .inr ⟨fun _ => rfl, ?_⟩
    rw [release_msv_fields]
    exact ⟨rfl, rfl, .inl rfl⟩
  | _ => exact .inl he

theorem release_known_step {v v' : ListView T} {h : ListHistory T} (k : Known v h) {op : ListOp T} (he : releaseExec v op = some v') :
    Known v' (h.step op) := by
  rcases release_shape he with h1 | ⟨h1, h2, _, h4⟩
  · exact known_step k h1
  · rw [h1]
    have e1 : v'.rows = v.rows := by rw [h2]
    have e2 : v'.filter = v.filter := by rw [h2]
    have e3 : v'.displayedCount = v.displayedCount := by rw [h2]
    have e4 : v'.order = v.order := by rw [h2]
    refine ⟨by rw [e1]; exact k.data, by rw [e1]; exact k.flags, by rw [e3]; exact k.count, ?_, ?_, by rw [e4]; exact k.order⟩
    · intro i hi
      rw [e1]
      rcases h4 with e | e | ⟨j, e, hj⟩
      · exact k.sel i (e ▸ hi)
      · rw [e] at hi; simp at hi
      · rw [e] at hi; simp only [Option.some.injEq] at hi; subst hi; exact isDisplayed_lt hj
    · intro d
      have := k.accepts d
      unfold ListView.accepts at this ⊢
      rw [e2]; exact this

theorem release_known {ok : ListView T → ListOp T → Prop} {area : Area} {columns : List (ListColumn T)} {v : ListView T} {h : ListHistory T}
    (hr : ReleaseList ok area columns v h) : Known v h := by
  induction hr with
  | init => exact known_of_reachable (ok := fun _ => True) .init
  | step op _ _ he ih => exact release_known_step ih he

/-! ## C105 -/

/-- C105: a call which returns in a debug build gives the same list view in a release build. -/
theorem C105_same (ok : ListOp T → Prop) (area : Area) (columns : List (ListColumn T)) (v v' : ListView T) (h : ListHistory T)
    (hr : ReachableList ok area columns v h) (hreal : RealSizes v) (op : ListOp T)
    (harg : ∀ n, op = .scrollLines n → -2147483648 ≤ n ∧ n ≤ 2147483647) (he : op.exec v = some v') : releaseExec v op = some v' := by
  have k := known_of_reachable hr
  obtain ⟨hh, hlen, hcol⟩ := hreal
  have hcount : v.displayedCount ≤ v.rows.length := by rw [k.count']; exact List.length_filter_le _ _
  have ht : v.tbodyHeight < 65536 := by unfold tbodyHeight; split <;> omega
  have hsel : ∀ i, v.selection = some i → i < 2 ^ 63 := fun i hi => Nat.lt_trans (k.sel i hi) hlen
  have hl : ∀ n, -2147483648 ≤ n → n ≤ 2147483647 → v.tryScrollLines n = some v' → Release.tryScrollLines v n = v' := by
    intro n h1 h2 h
    unfold tryScrollLines at h
    unfold Release.tryScrollLines
    by_cases c : n < 0
    · rw [if_pos c] at h ⊢
      split at h
      · simp at h
      · rename_i c1
        have e : Release.i32AsUsize (Release.wrapI32 (-n)) = (-n).toNat := by
          have h3 : -n ≤ 2147483647 := by simp only [i32Min] at c1; omega
          rw [wrapI32_small (by omega) h3]
          have := i32AsUsize_small (x := -n) (by omega) h3
          omega
        rw [e]
        exact release_msv_same hsel h
    · rw [if_neg c] at h ⊢
      simp only [Option.bind_eq_bind, Option.bind_eq_some_iff] at h
      obtain ⟨d, hd, h⟩ := h
      unfold csub at hd
      split at hd
      · rename_i c1
        simp only [Option.some.injEq] at hd
        have e : Release.i32AsUsize n = n.toNat := by
          have := i32AsUsize_small (x := n) (by omega) h2
          omega
        rw [e, wrapped_bound (by omega) ht, if_pos (by omega), show v.displayedCount + 1 - v.tbodyHeight = d + 1 by omega]
        exact release_msv_same hsel h
      · simp at hd
  have after : ∀ up, v.selectAfter up = some v' → Release.selectAfter v up = some v' := by
    intro up h
    unfold selectAfter at h
    unfold Release.selectAfter
    by_cases c : v.rows.length = 0
    · rw [if_pos c] at h ⊢; exact h
    · rw [if_neg c] at h ⊢
      cases hs : v.selection with
      | none => rw [hs] at h; exact h
      | some sel =>
        rw [hs] at h
        simp only at h ⊢
        cases hf : (List.range v.rows.length).find? (fun i => v.isDisplayed (((if up then v.rows.length - 1 - i else i + 1) + sel) % v.rows.length)) with
        | none => rw [hf] at h; exact h
        | some i =>
          rw [hf] at h
          simp only at h ⊢
          rw [release_msv_same (by rintro j ⟨⟩; exact Nat.lt_trans (isDisplayed_lt (find_range.1 hf).2.1) hlen) h]
  cases op with
  | updateDimensions =>
    simp only [ListOp.exec, ListView.updateDimensions, Option.bind_eq_bind, Option.bind_eq_some_iff] at he
    obtain ⟨seps, h1, a, h2, av, h3, sum, h4, he⟩ := he
    have chk : ∀ {x y : Int}, i32Check x = some y → y = x ∧ Release.wrapI32 x = x := by
      intro x y hx
      unfold i32Check at hx
      split at hx
      · rename_i c
        simp only [i32Min, i32Max] at c
        exact ⟨(Option.some.inj hx).symm, wrapI32_small c.1 c.2⟩
      · simp at hx
    obtain ⟨rfl, w1⟩ := chk h1
    obtain ⟨rfl, w2⟩ := chk h2
    obtain ⟨rfl, w3⟩ := chk h3
    have hsum : ∀ (cs : List (ListColumn T)) (acc s : Int), ListView.sumMinWidths cs acc = some s → Release.sumMinWidths cs acc = s := by
      intro cs
      induction cs with
      | nil => intro acc s h; exact Option.some.inj h
      | cons c cs ih =>
        intro acc s h
        simp only [ListView.sumMinWidths, Option.bind_eq_bind, Option.bind_eq_some_iff] at h
        obtain ⟨b, hb, h⟩ := h
        obtain ⟨rfl, wb⟩ := chk hb
        rw [Release.sumMinWidths, wb]
        exact ih _ _ h
    have hdist : ∀ (cs cs' : List (ListColumn T)) (e : Int), (∀ c ∈ cs, c.minWidth < 2 ^ 64 ∧ c.maxWidth < 2 ^ 64) →
        ListView.distribute cs e = some cs' → Release.distribute cs e = cs' := by
      intro cs
      induction cs with
      | nil => intro cs' e _ h; exact Option.some.inj h
      | cons c cs ih =>
        intro cs' e hcs h
        simp only [ListView.distribute, Option.bind_eq_bind, Option.bind_eq_some_iff] at h
        obtain ⟨diff, hdiff, e', he', rest, hrest, h⟩ := h
        obtain ⟨rfl, we⟩ := chk he'
        unfold csub at hdiff
        split at hdiff
        · rename_i cle
          simp only [Option.some.injEq] at hdiff
          split at h
          · rename_i clt
            simp only [Option.some.injEq] at h
            have ew : Release.wsub c.maxWidth c.minWidth = diff := by rw [← hdiff]; unfold Release.wsub; rw [if_pos cle]
            simp only [Release.distribute, ew]
            rw [we, ih _ _ (fun c' hc' => hcs c' (List.mem_cons_of_mem _ hc')) hrest, ← h]
            have : Release.wadd c.minWidth (Release.i32AsUsize (min (asI32 diff) e)) = c.minWidth + (min (asI32 diff) e % 18446744073709551616).toNat := by
              unfold Release.wadd Release.i32AsUsize
              exact Nat.mod_eq_of_lt clt
            rw [this]
          · simp at h
        · simp at hdiff
    simp only [releaseExec, Release.updateDimensions, w1, w2, w3, hsum _ _ _ h4]
    split at he
    · rename_i c
      rw [if_pos c]; exact he
    · rename_i c
      rw [if_neg c]
      simp only [Option.bind_eq_some_iff] at he
      obtain ⟨ex, hex, cs, hcs, he⟩ := he
      obtain ⟨rfl, wx⟩ := chk hex
      rw [wx, hdist _ _ _ hcol hcs]
      exact he
  | scrollLines n => exact congrArg some (hl n (harg n rfl).1 (harg n rfl).2 he)
  | scrollPages n =>
    simp only [ListOp.exec, ListView.tryScrollPages, Option.bind_eq_bind, Option.bind_eq_some_iff] at he
    obtain ⟨l, hl', he⟩ := he
    unfold i32Check at hl'
    split at hl'
    · rename_i c
      simp only [i32Min, i32Max] at c
      simp only [Option.some.injEq] at hl'
      subst hl'
      simp only [releaseExec, Release.tryScrollPages]
      rw [wrapI32_small c.1 c.2]
      exact congrArg some (hl _ c.1 c.2 he)
    · simp at hl'
  | selectNext up =>
    simp only [ListOp.exec, ListView.trySelectNext] at he
    simp only [releaseExec, Release.trySelectNext]
    by_cases c : v.displayedCount = 0
    · rw [if_pos c] at he ⊢; exact he
    · rw [if_neg c] at he ⊢
      by_cases c1 : v.displayedCount = 1 ∨ v.selection = none
      · rw [if_pos c1] at he ⊢
        cases hf : (List.range v.rows.length).find? (fun i => v.isDisplayed ((i + v.scroll) % v.rows.length)) with
        | none => rw [hf] at he; exact after up he
        | some i =>
          rw [hf] at he
          simp only at he ⊢
          rw [release_msv_same (by rintro j ⟨⟩; exact Nat.lt_trans (isDisplayed_lt (find_range.1 hf).2.1) hlen) he]
      · rw [if_neg c1] at he ⊢; exact after up he
  | selectFirst =>
    simp only [ListOp.exec, ListView.selectFirstLine] at he
    simp only [releaseExec, Release.selectFirstLine]
    cases hf : (List.range v.rows.length).find? v.isDisplayed with
    | none => rw [hf] at he; exact he
    | some i =>
      rw [hf] at he
      simp only at he ⊢
      rw [release_msv_same (by rintro j ⟨⟩; exact Nat.lt_trans (isDisplayed_lt (List.find?_some hf)) hlen) he]
  | selectLast =>
    simp only [ListOp.exec, ListView.selectLastLine] at he
    simp only [releaseExec, Release.selectLastLine]
    cases hf : (List.range v.rows.length).reverse.find? v.isDisplayed with
    | none => rw [hf] at he; exact he
    | some i =>
      rw [hf] at he
      simp only at he ⊢
      rw [release_msv_same (by rintro j ⟨⟩; exact Nat.lt_trans (isDisplayed_lt (List.find?_some hf)) hlen) he]
  | makeSelectionVisible => exact congrArg some (release_msv_same hsel he)
  | _ => exact he

/-- C105: whatever the history in a release build, rows, counts and selection are consistent, as in a debug build. -/
theorem C105_consistent (ok : ListView T → ListOp T → Prop) (area : Area) (columns : List (ListColumn T)) (v : ListView T) (h : ListHistory T)
    (hr : ReleaseList ok area columns v h) :
    (v.rows.map (·.data)).Perm h.added ∧ (∀ r ∈ v.rows, r.displayed = h.filter r.data) ∧
    v.rowCounts = ((h.added.filter h.filter).length, h.added.length) ∧
    ∃ s, v.getSelection = some s ∧ v.hasSelection = s.isSome ∧ ∀ d, s = some d → d ∈ h.added := by
  have k := release_known hr
  refine ⟨k.data, k.flags, by rw [rowCounts, k.count, k.length], ?_⟩
  unfold getSelection hasSelection
  cases hs : v.selection with
  | none => exact ⟨none, rfl, rfl, by simp⟩
  | some i =>
    have hi := k.sel i hs
    refine ⟨some (v.rows[i]).data, by simp only [List.getElem?_eq_getElem hi, Option.map_some], rfl, ?_⟩
    rintro d ⟨⟩
    exact k.data.mem_iff.1 (List.mem_map_of_mem (List.getElem_mem hi))

/-- C105: in a release build no operation panics. -/
theorem C105_total (ok : ListView T → ListOp T → Prop) (area : Area) (columns : List (ListColumn T)) (v : ListView T) (h : ListHistory T)
    (hr : ReleaseList ok area columns v h) (op : ListOp T) : (releaseExec v op).isSome = true := by
  have k := release_known hr
  cases op with
  | selectNext up =>
    simp only [releaseExec, Release.trySelectNext]
    split
    · rfl
    · rename_i c0
      have after : v.selection ≠ none → (Release.selectAfter v up).isSome = true := by
        intro c
        unfold Release.selectAfter
        split
        · rfl
        · split
          · rename_i hs; exact absurd hs c
          · split <;> rfl
      split
      · split
        · rfl
        · rename_i hf
          refine after fun hs => ?_
          have hpos : 0 < (v.rows.filter (·.displayed)).length := by rw [← k.count']; omega
          obtain ⟨r, hr'⟩ := List.exists_mem_of_length_pos hpos
          obtain ⟨hm, hd⟩ := List.mem_filter.1 hr'
          obtain ⟨i, hi, rfl⟩ := List.mem_iff_getElem.1 hm
          obtain ⟨j, hj, e⟩ := reach_scroll hi v.scroll
          have := find_range_none.1 hf j hj
          rw [e, isDisplayed_iff.2 ⟨hi, hd⟩] at this
          simp at this
      · rename_i c1
        exact after (fun hs => c1 (.inr hs))
  | _ => rfl

/-- The same list view in an area which is high enough for all its rows. -/
def inHighArea (v : ListView T) : ListView T := { v with area := { v.area with height := v.displayedCount + 3 } }

theorem high_msv (v : ListView T) (s : Option Nat) : ({ inHighArea v with selection := s } : ListView T).makeSelectionVisible = some { inHighArea v with selection := s } := by
  unfold makeSelectionVisible
  rw [if_pos]
  unfold tbodyHeight inHighArea
  simp only
  split <;> omega

theorem high_known {v : ListView T} {h : ListHistory T} (k : Known v h) : Known (inHighArea v) h :=
  ⟨k.data, k.flags, k.count, k.sel, k.accepts, k.order⟩

/-- C105: the row selected by `try_select_next` in a release build is the same as in a debug build: see C31. -/
theorem C105_next (ok : ListView T → ListOp T → Prop) (area : Area) (columns : List (ListColumn T)) (v v' : ListView T) (h : ListHistory T)
    (hr : ReleaseList ok area columns v h) (up : Bool) (he : releaseExec v (.selectNext up) = some v') :
    ((∀ r ∈ v.rows, r.displayed = false) → v' = v) ∧
    ((∃ r ∈ v.rows, r.displayed = true) → ∃ t, v'.selection = some t ∧
      (∀ s, v.selection = some s → CyclicNext v.rows.length v.isDisplayed up s t) ∧
      (v.selection = none → ∃ k, k < v.rows.length ∧ t = (v.scroll + k) % v.rows.length ∧ v.isDisplayed t = true ∧
        ∀ j, j < k → v.isDisplayed ((v.scroll + j) % v.rows.length) = false)) := by
  have k := release_known hr
  have hc := k.count'
  have msel : ∀ w : ListView T, (Release.makeSelectionVisible w).selection = w.selection := fun w => by rw [release_msv_fields]
  have after : Release.selectAfter v up = some v' → ∃ w, (inHighArea v).selectAfter up = some w ∧ w.selection = v'.selection := by
    intro h
    unfold Release.selectAfter at h
    unfold selectAfter
    have e1 : (inHighArea v).rows = v.rows := rfl
    have e2 : (inHighArea v).selection = v.selection := rfl
    have e3 : (inHighArea v).isDisplayed = v.isDisplayed := rfl
    rw [e1, e2, e3]
    by_cases c : v.rows.length = 0
    · rw [if_pos c] at h ⊢; cases h; exact ⟨_, rfl, rfl⟩
    · rw [if_neg c] at h ⊢
      cases hs : v.selection with
      | none => rw [hs] at h; simp at h
      | some sel =>
        rw [hs] at h
        simp only at h ⊢
        cases hf : (List.range v.rows.length).find? (fun i => v.isDisplayed (((if up then v.rows.length - 1 - i else i + 1) + sel) % v.rows.length)) with
        | none => rw [hf] at h; cases h; exact ⟨_, rfl, rfl⟩
        | some i =>
          rw [hf] at h
          simp only [Option.some.injEq] at h
          simp only
          refine ⟨_, high_msv v _, ?_⟩
          rw [← h, msel]
  have key : ∃ w, (inHighArea v).trySelectNext up = some w ∧ w.selection = v'.selection := by
    simp only [releaseExec, Release.trySelectNext] at he
    unfold trySelectNext
    have e1 : (inHighArea v).rows = v.rows := rfl
    have e2 : (inHighArea v).selection = v.selection := rfl
    have e3 : (inHighArea v).isDisplayed = v.isDisplayed := rfl
    have e4 : (inHighArea v).displayedCount = v.displayedCount := rfl
    have e5 : (inHighArea v).scroll = v.scroll := rfl
    rw [e1, e2, e3, e4, e5]
    by_cases c : v.displayedCount = 0
    · rw [if_pos c] at he ⊢; cases he; exact ⟨_, rfl, rfl⟩
    · rw [if_neg c] at he ⊢
      by_cases c1 : v.displayedCount = 1 ∨ v.selection = none
      · rw [if_pos c1] at he ⊢
        cases hf : (List.range v.rows.length).find? (fun i => v.isDisplayed ((i + v.scroll) % v.rows.length)) with
        | none => rw [hf] at he; exact after he
        | some i =>
          rw [hf] at he
          simp only [Option.some.injEq] at he
          simp only
          refine ⟨_, high_msv v _, ?_⟩
          rw [← he, msel]
      · rw [if_neg c1] at he ⊢; exact after he
  obtain ⟨w, hw, hsel⟩ := key
  obtain ⟨_, n2⟩ := next_of_known (high_known k) up hw
  refine ⟨fun hn => ?_, fun hd => ?_⟩
  · have h0 : v.displayedCount = 0 := by
      rw [hc, List.length_eq_zero_iff, List.filter_eq_nil_iff]
      intro r hr'; rw [hn r hr']; simp
    simp only [releaseExec, Release.trySelectNext] at he
    rw [if_pos h0] at he
    exact (Option.some.inj he).symm
  · obtain ⟨t, ht, r⟩ := n2 hd
    exact ⟨t, hsel ▸ ht, r⟩

/-- C105: the first and last displayed rows, when asked, are selected. -/
theorem C105_ends (v v' : ListView T) :
    (releaseExec v .selectFirst = some v' → (∀ i, v'.selection = some i ↔ v.isDisplayed i = true ∧ ∀ j, v.isDisplayed j = true → i ≤ j)) ∧
    (releaseExec v .selectLast = some v' → (∀ i, v'.selection = some i ↔ v.isDisplayed i = true ∧ ∀ j, v.isDisplayed j = true → j ≤ i)) := by
  have msel : ∀ w : ListView T, (Release.makeSelectionVisible w).selection = w.selection := fun w => by rw [release_msv_fields]
  constructor
  · intro he
    have : ∃ w, (inHighArea v).selectFirstLine = some w ∧ w.selection = v'.selection := by
      simp only [releaseExec, Release.selectFirstLine, Option.some.injEq] at he
      unfold selectFirstLine
      have e1 : (inHighArea v).rows = v.rows := rfl
      have e3 : (inHighArea v).isDisplayed = v.isDisplayed := rfl
      rw [e1, e3]
      cases hf : (List.range v.rows.length).find? v.isDisplayed with
      | none => rw [hf] at he; exact ⟨_, rfl, by rw [← he]⟩
      | some i => rw [hf] at he; exact ⟨_, high_msv v _, by rw [← he]; simp only; rw [msel]⟩
    obtain ⟨w, hw, e⟩ := this
    rw [← e]
    exact (C31_ends (inHighArea v) w).1 hw
  · intro he
    have : ∃ w, (inHighArea v).selectLastLine = some w ∧ w.selection = v'.selection := by
      simp only [releaseExec, Release.selectLastLine, Option.some.injEq] at he
      unfold selectLastLine
      have e1 : (inHighArea v).rows = v.rows := rfl
      have e3 : (inHighArea v).isDisplayed = v.isDisplayed := rfl
      rw [e1, e3]
      cases hf : (List.range v.rows.length).reverse.find? v.isDisplayed with
      | none => rw [hf] at he; exact ⟨_, rfl, by rw [← he]⟩
      | some i => rw [hf] at he; exact ⟨_, high_msv v _, by rw [← he]; simp only; rw [msel]⟩
    obtain ⟨w, hw, e⟩ := this
    rw [← e]
    exact (C31_ends (inHighArea v) w).2 hw

/-- C105: in an area of at least 5 rows, a row which was selected by a function is visible, if the list is too long for the area or
isn't scrolled: there's no panic when the row is the last one of the area. -/
theorem C105_visible (ok : ListView T → ListOp T → Prop) (area : Area) (columns : List (ListColumn T)) (v v' : ListView T) (h : ListHistory T)
    (hr : ReleaseList ok area columns v h) (hreal : RealSizes v) (hh : 5 ≤ v.area.height) (op : ListOp T)
    (hop : (∃ up, op = .selectNext up) ∨ op = .selectFirst ∨ op = .selectLast) (he : releaseExec v op = some v')
    (hs : v.scroll = 0 ∨ v.area.height - 2 < v.rowCounts.1) (hd : ∃ r ∈ v.rows, r.displayed = true) :
    ∃ i, v'.selection = some i ∧ v'.Visible i := by
  have k := release_known hr
  have hc := k.count'
  have ht : v.tbodyHeight = v.area.height - 2 := by unfold tbodyHeight; rw [if_pos (by omega)]
  have msv : ∀ {i : Nat}, v.isDisplayed i = true → ∃ j, (Release.makeSelectionVisible { v with selection := some i }).selection = some j ∧
      (Release.makeSelectionVisible { v with selection := some i }).Visible j := by
    intro i hi
    have hlt := isDisplayed_lt hi
    have hb := between_le (Release.makeSelectionVisible { v with selection := some i }) (Release.makeSelectionVisible { v with selection := some i }).scroll i
    have hb' := between_lt v v.scroll i hi
    refine ⟨i, by rw [release_msv_fields], by rw [release_msv_fields]; exact hi, ?_⟩
    have ha : (Release.makeSelectionVisible { v with selection := some i }).area = v.area := by rw [release_msv_fields]
    rw [ha]
    unfold Release.makeSelectionVisible at hb ⊢
    have ht' : ({ v with selection := some i } : ListView T).tbodyHeight = v.area.height - 2 := ht
    simp only [rowCounts] at hs
    by_cases c : v.displayedCount ≤ v.area.height - 2
    · rw [if_pos (by rw [ht']; exact c)] at hb ⊢
      have e : ({ v with selection := some i } : ListView T).displayedBetween v.scroll i = v.displayedBetween v.scroll i := rfl
      simp only [e]
      omega
    · rw [if_neg (by rw [ht']; exact c)] at hb ⊢
      simp only [ht'] at hb ⊢
      by_cases c1 : i ≤ v.scroll
      · rw [if_pos c1] at hb ⊢
        simp only at hb ⊢
        constructor
        · split <;> omega
        · split at hb <;> rename_i c2 <;> simp only [c2, if_true, if_false] <;> omega
      · rw [if_neg c1] at hb ⊢
        by_cases c2 : i + 1 ≥ v.scroll + (v.area.height - 2)
        · rw [if_pos c2] at hb ⊢
          simp only at hb ⊢
          rw [wrapped_visible (by omega) (Nat.lt_trans hlt hreal.2.1)] at hb ⊢
          omega
        · rw [if_neg c2] at hb ⊢
          simp only at hb ⊢
          omega
  obtain ⟨r, hrm, hrd⟩ := hd
  have hpos : v.displayedCount ≠ 0 := by
    rw [hc]; have := filter_pos_of_mem (p := (·.displayed)) hrm hrd; omega
  obtain ⟨i, hi, rfl⟩ := List.mem_iff_getElem.1 hrm
  have hid : v.isDisplayed i = true := isDisplayed_iff.2 ⟨hi, hrd⟩
  rcases hop with ⟨up, rfl⟩ | rfl | rfl
  · simp only [releaseExec, Release.trySelectNext] at he
    rw [if_neg hpos] at he
    have after : Release.selectAfter v up = some v' → ∃ i, v'.selection = some i ∧ v'.Visible i := by
      intro he
      unfold Release.selectAfter at he
      rw [if_neg (by omega)] at he
      split at he
      · simp at he
      · rename_i s hs'
        split at he
        · rename_i hf; cases he; exact msv (find_range.1 hf).2.1
        · rename_i hf
          obtain ⟨j, hj, e⟩ := reach_mod hi (k.sel s hs') up
          have := find_range_none.1 hf j hj
          rw [e, hid] at this
          simp at this
    split at he
    · split at he
      · rename_i hf; cases he; exact msv (find_range.1 hf).2.1
      · exact after he
    · exact after he
  · simp only [releaseExec, Release.selectFirstLine, Option.some.injEq] at he
    split at he
    · rename_i hf; subst he; exact msv (find_range.1 hf).2.1
    · rename_i hf
      have := find_range_none.1 hf i hi
      rw [hid] at this; simp at this
  · simp only [releaseExec, Release.selectLastLine, Option.some.injEq] at he
    split at he
    · rename_i hf; subst he; exact msv (List.find?_some hf)
    · rename_i hf
      rw [List.find?_eq_none] at hf
      exact absurd hid (hf i (by simp [hi]))

/-- C105: the effect of a scroll when no row is selected: a list which has at least two rows less than its height is scrolled down without limit. -/
theorem C105_scroll_lines (v : ListView T) (n : Int) (hreal : RealSizes v) (hcount : v.displayedCount ≤ v.rows.length) (hscroll : v.scroll < 2 ^ 63)
    (hn : -2147483648 ≤ n ∧ n ≤ 2147483647) (hsel : v.selection = none) :
    ∃ v', releaseExec v (.scrollLines n) = some v' ∧ v' = { v with scroll := v'.scroll } ∧
      (n = -2147483648 → v'.scroll = 0) ∧ (n < 0 → n ≠ -2147483648 → (v'.scroll : Int) = max 0 (v.scroll + n)) ∧
      (0 ≤ n → v.tbodyHeight ≤ v.rowCounts.1 + 1 → (v'.scroll : Int) = min (v.scroll + n) (v.rowCounts.1 + 1 - v.tbodyHeight)) ∧
      (0 ≤ n → v.rowCounts.1 + 1 < v.tbodyHeight → (v'.scroll : Int) = v.scroll + n) := by
  obtain ⟨hh, hlen, _⟩ := hreal
  have ht : v.tbodyHeight < 65536 := by unfold tbodyHeight; split <;> omega
  have msv : ∀ s, Release.makeSelectionVisible { v with scroll := s } = { v with scroll := s } := by
    intro s
    unfold Release.makeSelectionVisible
    simp only [hsel]
    split <;> rfl
  refine ⟨_, rfl, ?_⟩
  unfold Release.tryScrollLines
  simp only [rowCounts]
  by_cases c : n < 0
  · rw [if_pos c, msv]
    refine ⟨rfl, fun c1 => ?_, fun _ c1 => ?_, fun h => absurd h (by omega), fun h => absurd h (by omega)⟩
    · simp only
      rw [if_pos]
      rw [c1]
      have : Release.i32AsUsize (Release.wrapI32 (- -2147483648)) = 18446744071562067968 := by decide
      omega
    · simp only
      rw [wrapI32_small (by omega) (by omega)]
      have := i32AsUsize_small (x := -n) (by omega) (by omega)
      split <;> omega
  · rw [if_neg c, msv]
    have e := i32AsUsize_small (x := n) (by omega) hn.2
    refine ⟨rfl, fun h => absurd h (by omega), fun h => absurd h c, fun _ h => ?_, fun _ h => ?_⟩
    · simp only
      rw [wrapped_bound (by omega) ht, if_pos h]
      omega
    · simp only
      rw [wrapped_bound (by omega) ht, if_neg (by omega)]
      omega

theorem release_step_scroll {v v' : ListView T} {h : ListHistory T} (k : Known v h) (hreal : RealSizes v) {op : ListOp T} (hop : ScrollsFull v op)
    (he : releaseExec v op = some v') :
    (v'.scroll ≤ v.scroll ∧ (v.rows.length ≤ v'.rows.length ∨ v'.scroll = 0)) ∨ v'.scroll + v.tbodyHeight ≤ v'.rows.length + 1 := by
  obtain ⟨hh, hlen, _⟩ := hreal
  have hcount : v.displayedCount ≤ v.rows.length := by rw [k.count']; exact List.length_filter_le _ _
  have ht : v.tbodyHeight < 65536 := by unfold tbodyHeight; split <;> omega
  have msv : ∀ {w : ListView T}, (∀ i, w.selection = some i → i < w.rows.length) → w.rows = v.rows →
      w.area = v.area → (w.scroll ≤ v.scroll ∨ w.scroll + v.tbodyHeight ≤ v.rows.length + 1) →
      ((Release.makeSelectionVisible w).scroll ≤ v.scroll ∧ (v.rows.length ≤ (Release.makeSelectionVisible w).rows.length ∨ (Release.makeSelectionVisible w).scroll = 0)) ∨
        (Release.makeSelectionVisible w).scroll + v.tbodyHeight ≤ (Release.makeSelectionVisible w).rows.length + 1 := by
    intro w hsel hr ha hs
    have h1 := release_msv_scroll (by rw [hr]; exact hlen) hsel
    have h2 : (Release.makeSelectionVisible w).rows = w.rows := by rw [release_msv_fields]
    have h3 : w.tbodyHeight = v.tbodyHeight := by unfold tbodyHeight; rw [ha]
    rw [h2, hr]
    rw [hr, h3] at h1
    omega
  have hl : ∀ n, (n < 0 ∨ v.tbodyHeight ≤ v.rowCounts.1 + 1) → v' = Release.tryScrollLines v n →
      (v'.scroll ≤ v.scroll ∧ (v.rows.length ≤ v'.rows.length ∨ v'.scroll = 0)) ∨ v'.scroll + v.tbodyHeight ≤ v'.rows.length + 1 := by
    rintro n hn rfl
    simp only [rowCounts] at hn
    unfold Release.tryScrollLines
    by_cases c : n < 0
    · rw [if_pos c]
      refine msv k.sel rfl rfl (.inl ?_)
      simp only; split <;> omega
    · rw [if_neg c]
      refine msv k.sel rfl rfl (.inr ?_)
      simp only
      rw [wrapped_bound (by omega) ht, if_pos (by omega)]
      omega
  have same : (v'.scroll = v.scroll ∧ v'.rows = v.rows) → (v'.scroll ≤ v.scroll ∧ (v.rows.length ≤ v'.rows.length ∨ v'.scroll = 0)) ∨ v'.scroll + v.tbodyHeight ≤ v'.rows.length + 1 :=
    fun h => .inl ⟨Nat.le_of_eq h.1, .inl (by rw [h.2]; exact Nat.le_refl _)⟩
  have after : ∀ up, Release.selectAfter v up = some v' → (v'.scroll ≤ v.scroll ∧ (v.rows.length ≤ v'.rows.length ∨ v'.scroll = 0)) ∨ v'.scroll + v.tbodyHeight ≤ v'.rows.length + 1 := by
    intro up h
    unfold Release.selectAfter at h
    split at h
    · cases h; exact same ⟨rfl, rfl⟩
    · split at h
      · simp at h
      · split at h
        · rename_i hf
          cases h
          refine msv ?_ rfl rfl (.inl (Nat.le_refl _))
          rintro i ⟨⟩
          exact isDisplayed_lt (find_range.1 hf).2.1
        · cases h; exact same ⟨rfl, rfl⟩
  cases op with
  | updateDimensions =>
    cases he
    refine same ?_
    unfold Release.updateDimensions
    simp only
    split <;> exact ⟨rfl, rfl⟩
  | scrollLines n => exact hl n hop (Option.some.inj he).symm
  | scrollPages n =>
    refine hl _ ?_ (Option.some.inj he).symm
    rcases hop with hop | hop
    · left; rw [wrapI32_small hop.1 (by omega)]; exact hop.2
    · exact .inr hop
  | selectNext up =>
    simp only [releaseExec, Release.trySelectNext] at he
    split at he
    · cases he; exact same ⟨rfl, rfl⟩
    · split at he
      · split at he
        · rename_i hf
          cases he
          refine msv ?_ rfl rfl (.inl (Nat.le_refl _))
          rintro i ⟨⟩
          exact isDisplayed_lt (find_range.1 hf).2.1
        · exact after up he
      · exact after up he
  | selectFirst =>
    simp only [releaseExec, Release.selectFirstLine, Option.some.injEq] at he
    split at he
    · rename_i hf
      subst he
      refine msv ?_ rfl rfl (.inl (Nat.le_refl _))
      rintro i ⟨⟩
      exact (find_range.1 hf).1
    · subst he; exact same ⟨rfl, rfl⟩
  | selectLast =>
    simp only [releaseExec, Release.selectLastLine, Option.some.injEq] at he
    split at he
    · rename_i hf
      subst he
      refine msv ?_ rfl rfl (.inl (Nat.le_refl _))
      rintro i ⟨⟩
      exact isDisplayed_lt (List.find?_some hf)
    · subst he; exact same ⟨rfl, rfl⟩
  | makeSelectionVisible =>
    cases he
    exact msv k.sel rfl rfl (.inl (Nat.le_refl _))
  | addRow d => exact step_scroll_list k (op := .addRow d) he
  | clearRows => exact step_scroll_list k (op := .clearRows) he
  | setFilter f => exact step_scroll_list k (op := .setFilter f) he
  | removeFilter => exact step_scroll_list k (op := .removeFilter) he
  | sort o => exact step_scroll_list k (op := .sort o) he
  | setArea a => exact step_scroll_list k (op := .setArea a) he
  | scrollToBottom => exact step_scroll_list k (op := .scrollToBottom) he
  | unselect => exact step_scroll_list k (op := .unselect) he

/-- C105: when the list is never scrolled down while it has at least two rows less than its height, and always has a height, the scroll is at most the number of rows. -/
theorem C105_bounded (area : Area) (columns : List (ListColumn T)) (v : ListView T) (h : ListHistory T) (h1 : 1 ≤ area.height)
    (hr : ReleaseList (fun v op => RealSizes v ∧ ScrollsFull v op) area columns v h) : v.scroll ≤ h.added.length := by
  have key : 1 ≤ v.area.height ∧ v.scroll ≤ v.rows.length := by
    induction hr with
    | init => exact ⟨h1, Nat.zero_le _⟩
    | @step v v' h op hr hop he ih =>
      have ht : 1 ≤ v.tbodyHeight := by unfold tbodyHeight; split <;> omega
      have hs := release_step_scroll (release_known hr) hop.1 hop.2 he
      refine ⟨?_, by omega⟩
      rcases release_shape he with e | ⟨_, e, _⟩
      · by_cases c : ∃ a, op = .setArea a
        · obtain ⟨a, rfl⟩ := c
          cases he
          exact hop.2
        · rw [step_area e (fun a ha => c ⟨a, ha⟩)]; exact ih.1
      · rw [e]; exact ih.1
  rw [← (release_known hr).length]
  exact key.2

theorem release_groups {ok : ListView T → ListOp T → Prop} {area : Area} {columns : List (ListColumn T)} {v : ListView T} {h : ListHistory T}
    (hr : ReleaseList ok area columns v h) : TitleGroups (v.columns.map (·.title)) v.columns.length v.titles := by
  induction hr with
  | init => exact groups_of_reachable (ok := fun _ => True) .init
  | @step v v' h op _ _ he ih =>
    have key : v'.titles = v.titles ∧ v'.columns.map (·.unsized) = v.columns.map (·.unsized) := by
      rcases release_shape he with e | ⟨_, e, e', _⟩
      · exact step_titles e
      · exact ⟨by rw [e], e'⟩
    have h2 : v'.columns.map (·.title) = v.columns.map (·.title) := by
      have := congrArg (List.map (·.title)) key.2
      simpa [Function.comp_def, ListColumn.unsized] using this
    have hl : v'.columns.length = v.columns.length := by simpa using congrArg List.length key.2
    rw [key.1, h2, hl]
    exact ih

/-- C105: the display of a list view in an area which is on the screen, with no operation on integers wrapping, fails exactly when the scroll is more than the number of
rows and there's a row of the area for the content. -/
theorem C105_write (ok : ListView T → ListOp T → Prop) (area : Area) (columns : List (ListColumn T)) (v : ListView T) (h : ListHistory T)
    (hr : ReleaseList ok area columns v h) (skin : Skin) (hscreen : Spec.OnScreen v.area) (h1 : 3 ≤ v.area.height)
    (hlen : h.added.length + v.area.top + v.area.height < 65536) :
    v.writeOn skin = none ↔ h.added.length < v.scroll := by
  have g := release_groups hr
  have k := release_known hr
  have hl := k.length
  have hd : v.displayedCount ≤ v.rows.length := by rw [k.count']; exact List.length_filter_le _ _
  obtain ⟨ps, e1, _⟩ := writeTitles_eq v skin v.titles true (groups_lt g)
  obtain ⟨ps', e2, _⟩ := writeRule_eq v skin v.titles true (groups_lt g)
  have e3 : u16Add v.area.left v.area.width = some (v.area.left + v.area.width) := by
    unfold u16Add; rw [if_pos (by have := hscreen.1; simp only [u16Size]; omega)]
  have e4 : u16Add v.area.top 1 = some (v.area.top + 1) := by
    unfold u16Add; rw [if_pos (by have := hscreen.2; simp only [u16Size]; omega)]
  constructor
  · intro hn
    apply Classical.byContradiction
    intro c
    have e5 : ∃ bar, v.scrollbar = some bar := by
      have hb : asU16 v.scroll = v.scroll := Nat.mod_eq_of_lt (by simp only [u16Size]; omega)
      have ht : v.tbodyHeight ≤ v.area.height := by unfold tbodyHeight; split <;> omega
      exact C19_total _ _ _ _ (by rw [hb]; omega)
    obtain ⟨bar, e5⟩ := e5
    have e6 := writeBody_eq v skin bar (v.area.left + v.area.width) (v.area.height - 2) 2 v.scroll (by omega) (by omega)
    simp [writeOn, e1, e2, e3, e4, e5, e6] at hn
  · intro hgt
    have e6 : ∀ bar, v.writeBody skin bar (v.area.left + v.area.width) (v.area.height - 2) 2 v.scroll = none := by
      intro bar
      obtain ⟨m, hm⟩ : ∃ m, v.area.height - 2 = m + 1 := ⟨v.area.height - 3, by omega⟩
      have hseek : v.seek v.scroll = none := by unfold seek; rw [if_neg (by omega)]
      rw [hm, writeBody, hseek]
      cases u16Add v.area.top 2 <;> rfl
    cases e5 : v.scrollbar with
    | none => simp [writeOn, e1, e2, e3, e4, e5]
    | some bar => simp [writeOn, e1, e2, e3, e4, e5, e6]

/-- C105: a list of three rows in an area with room for seven of them, which is scrolled down: by 4 rows, its display panics; by 1 row, its first row isn't displayed
although there's room for it. In a debug build the scroll itself panics. -/
theorem C105_short_counterexample :
    (∃ v', releaseExec (listOf ⟨0, 0, 9, 9⟩ displayColumns [0, 1, 2]) (.scrollLines 4) = some v' ∧ v'.writeOn {} = none) ∧
    (∃ v' w, releaseExec (listOf ⟨0, 0, 9, 9⟩ displayColumns [0, 1, 2]) (.scrollLines 1) = some v' ∧ v'.writeOn {} = some w ∧
      w.body.map (fun r => r.content.map (·.1)) = [some 1, some 2, none, none, none, none, none]) ∧
    ∀ n, n = 1 ∨ n = 4 → (ListOp.scrollLines n).exec (listOf ⟨0, 0, 9, 9⟩ displayColumns [0, 1, 2]) = none := by
  refine ⟨⟨_, rfl, by decide⟩, ⟨_, _, rfl, rfl, by decide⟩, ?_⟩
  rintro n (rfl | rfl)
  · rfl
  · rfl

/-- C105: an area without height makes possible a scroll which is more than the number of rows. -/
theorem C105_height_counterexample :
    ∃ v1 v2 : ListView Nat, releaseExec (listOf ⟨0, 0, 9, 0⟩ displayColumns [0, 1, 2]) (.scrollLines 9) = some v1 ∧
      ScrollsFull (listOf ⟨0, 0, 9, 0⟩ displayColumns [0, 1, 2]) (.scrollLines 9) ∧
      releaseExec v1 (.setArea ⟨0, 0, 9, 9⟩) = some v2 ∧ v2.scroll = 4 ∧ v2.writeOn {} = none :=
  ⟨_, _, rfl, .inr (by decide), rfl, by decide, by decide⟩

/-- C105: a list view of eight rows in an area showing three of them, which is built, scrolled and has its third row selected: a debug build panics. -/
example : let v := listOf ⟨0, 0, 9, 5⟩ displayColumns [0, 1, 2, 3, 4, 5, 6, 7]
    RealSizes v ∧ ∃ v1 v2 v3, releaseExec v (.selectFirst) = some v1 ∧ releaseExec v1 (.selectNext false) = some v2 ∧ (v1.trySelectNext false = some v2) ∧
      releaseExec v2 (.selectNext false) = some v3 ∧ v2.trySelectNext false = none ∧ v3.selection = some 2 ∧ v3.scroll = 1 ∧ (v3.writeOn {}).isSome = true :=
  ⟨by unfold RealSizes; decide, _, _, _, rfl, rfl, by rfl, rfl, by rfl, by decide, by decide, by decide⟩

/-- C105: an acceptable history. -/
example : ∃ (v : ListView Nat) (h : ListHistory Nat), ReleaseList (fun v op => RealSizes v ∧ ScrollsFull v op) ⟨0, 0, 9, 5⟩ displayColumns v h ∧
    h.added.length = 4 ∧ v.scroll = 2 ∧ Spec.OnScreen v.area ∧ h.added.length + v.area.top + v.area.height < 65536 :=
  ⟨_, _, .step (.scrollLines 9) (.step (.addRow 4) (.step (.addRow 3) (.step (.addRow 2) (.step (.addRow 1) .init ⟨by unfold RealSizes; decide, trivial⟩ rfl)
    ⟨by unfold RealSizes; decide, trivial⟩ rfl) ⟨by unfold RealSizes; decide, trivial⟩ rfl) ⟨by unfold RealSizes; decide, trivial⟩ rfl)
    ⟨by unfold RealSizes; decide, .inr (by decide)⟩ rfl, rfl, by decide, by unfold Spec.OnScreen; decide, by decide⟩

end Verif.Props

import Verif.Props.ListView
/-! Property C33: the widths of the columns of a list view. -/
namespace Verif.Props
open Verif ListView

variable {T : Type}

/-- The natural distribution of an excess: each column in turn takes what it can. -/
private def fill : List (ListColumn T) → Nat → List Nat
  | [], _ => []
  | c :: cs, e => (c.minWidth + min (c.maxWidth - c.minWidth) e) :: fill cs (e - min (c.maxWidth - c.minWidth) e)

private theorem fill_length : ∀ (cs : List (ListColumn T)) (e : Nat), (fill cs e).length = cs.length
  | [], _ => rfl
  | c :: cs, e => by simp [fill, fill_length cs]

private theorem asI32_small {n : Nat} (h : n < 2147483648) : asI32 n = n := by
  unfold asI32
  rw [Nat.mod_eq_of_lt (by omega), if_pos h]

private theorem i32Check_some {x : Int} (h1 : -2147483648 ≤ x) (h2 : x ≤ 2147483647) : i32Check x = some x := by
  unfold i32Check i32Min i32Max
  rw [if_pos ⟨h1, h2⟩]

private theorem sumMinWidths_eq : ∀ (cs : List (ListColumn T)) (acc : Nat), acc + (cs.map (·.minWidth)).sum < 2147483648 →
    sumMinWidths cs (acc : Int) = some ((acc + (cs.map (·.minWidth)).sum : Nat) : Int)
  | [], acc, _ => by simp [sumMinWidths]
  | c :: cs, acc, h => by
    simp only [List.map_cons, List.sum_cons] at h
    have h1 : i32Check ((acc : Int) + asI32 c.minWidth) = some ((acc + c.minWidth : Nat) : Int) := by
      rw [asI32_small (by omega), i32Check_some (by omega) (by omega)]
      simp
    simp only [sumMinWidths, h1, Option.bind_eq_bind, Option.bind_some]
    rw [sumMinWidths_eq cs (acc + c.minWidth) (by omega)]
    simp [Nat.add_assoc]

private theorem distribute_eq : ∀ (cs : List (ListColumn T)) (e : Nat), e < 2147483648 → (cs.map (·.minWidth)).sum < 2147483648 →
    (∀ c ∈ cs, c.minWidth ≤ c.maxWidth ∧ c.maxWidth - c.minWidth < 2147483648) →
    distribute cs (e : Int) = some (cs.zipWith (fun c w => { c with width := w }) (fill cs e))
  | [], _, _, _, _ => rfl
  | c :: cs, e, he, hs, hc => by
    obtain ⟨h1, h2⟩ := hc c (by simp)
    simp only [List.map_cons, List.sum_cons] at hs
    have hm : min (asI32 (c.maxWidth - c.minWidth)) (e : Int) = ((min (c.maxWidth - c.minWidth) e : Nat) : Int) := by
      rw [asI32_small h2]; omega
    have hk : i32Check ((e : Int) - min (asI32 (c.maxWidth - c.minWidth)) (e : Int)) = some ((e - min (c.maxWidth - c.minWidth) e : Nat) : Int) := by
      rw [hm, i32Check_some (by omega) (by omega)]; congr 1; omega
    have hd : csub c.maxWidth c.minWidth = some (c.maxWidth - c.minWidth) := by unfold csub; rw [if_pos h1]
    have hr := distribute_eq cs (e - min (c.maxWidth - c.minWidth) e) (by omega) (by omega) (fun c' h' => hc c' (by simp [h']))
    simp only [distribute, hd, hk, hr, Option.bind_eq_bind, Option.bind_some]
    have hmod : (min (asI32 (c.maxWidth - c.minWidth)) (e : Int) % 18446744073709551616).toNat = min (c.maxWidth - c.minWidth) e := by
      rw [hm]; omega
    rw [hmod, if_pos (by omega)]
    simp [fill]

private theorem fill_spec : ∀ (cs : List (ListColumn T)) (e : Nat), (∀ c ∈ cs, c.minWidth ≤ c.maxWidth) →
    (∀ (i : Nat) (c : ListColumn T) (w : Nat), cs[i]? = some c → (fill cs e)[i]? = some w → c.minWidth ≤ w ∧ w ≤ c.maxWidth) ∧
    (fill cs e).sum ≤ (cs.map (·.minWidth)).sum + e ∧
    ((fill cs e).sum = (cs.map (·.minWidth)).sum + e ∨ fill cs e = cs.map (·.maxWidth)) ∧
    (∀ (i j : Nat) (ci cj : ListColumn T) (wi wj : Nat), i < j → cs[i]? = some ci → cs[j]? = some cj → (fill cs e)[i]? = some wi → (fill cs e)[j]? = some wj →
      cj.minWidth < wj → wi = ci.maxWidth)
  | [], e, _ => by simp [fill]
  | c :: cs, e, h => by
    have hc := h c (by simp)
    obtain ⟨h1, h2, h3, h4⟩ := fill_spec cs (e - min (c.maxWidth - c.minWidth) e) (fun c' h' => h c' (by simp [h']))
    refine ⟨?_, ?_, ?_, ?_⟩
    · rintro (_ | i) c' w hi hw
      · simp only [List.getElem?_cons_zero, Option.some.injEq, fill] at hi hw
        subst hi hw; omega
      · simp only [List.getElem?_cons_succ, fill] at hi hw
        exact h1 i c' w hi hw
    · simp only [fill, List.sum_cons, List.map_cons]; omega
    · simp only [fill, List.sum_cons, List.map_cons]
      rcases h3 with h3 | h3
      · left; omega
      · by_cases hle : c.maxWidth - c.minWidth ≤ e
        · right; rw [h3]; congr 1; omega
        · left
          have : e - min (c.maxWidth - c.minWidth) e = 0 := by omega
          rw [this] at h2 h3 h1 ⊢
          have hge : (cs.map (·.minWidth)).sum ≤ (fill cs 0).sum := by
            clear h1 h2 h3 h4
            have : ∀ cs : List (ListColumn T), (cs.map (·.minWidth)).sum ≤ (fill cs 0).sum := by
              intro cs
              induction cs with
              | nil => simp
              | cons a l ih => simp only [fill, List.map_cons, List.sum_cons, Nat.zero_sub]; omega
            exact this cs
          omega
    · rintro (_ | i) (_ | j) ci cj wi wj hij hi hj hwi hwj hlt
      · omega
      · simp only [List.getElem?_cons_zero, List.getElem?_cons_succ, Option.some.injEq, fill] at hi hj hwi hwj
        subst hi hwi
        by_cases hle : c.maxWidth - c.minWidth ≤ e
        · omega
        · exfalso
          have h0 : e - min (c.maxWidth - c.minWidth) e = 0 := by omega
          rw [h0] at hwj
          have : ∀ (cs : List (ListColumn T)) (j : Nat) cj wj, cs[j]? = some cj → (fill cs 0)[j]? = some wj → wj = cj.minWidth := by
            intro cs
            induction cs with
            | nil => simp
            | cons a l ih =>
              rintro (_ | j) cj wj h1 h2
              · simp only [List.getElem?_cons_zero, Option.some.injEq, fill] at h1 h2
                subst h1 h2; omega
              · simp only [List.getElem?_cons_succ, fill, Nat.zero_sub] at h1 h2
                exact ih j cj wj h1 h2
          have := this cs j cj wj hj hwj
          omega
      · omega
      · simp only [List.getElem?_cons_succ, fill] at hi hj hwi hwj
        exact h4 i j ci cj wi wj (by omega) hi hj hwi hwj hlt

/-- C33: with natural limits of width, the update changes only the widths of the columns. Each width is between the minimum and the
maximum. If the minimums, the separators and the scrollbar fit in the area, then so do the widths, which use all the area or are all at
their maximum, the first columns being served first; if they don't fit, the widths are the minimums. -/
theorem C33_widths (v : ListView T) (hw : v.area.width < 65536) (hn : v.columns.length < 2147483648)
    (hs : (v.columns.map (·.minWidth)).sum < 2147483648)
    (hc : ∀ c ∈ v.columns, c.minWidth ≤ c.maxWidth ∧ c.maxWidth - c.minWidth < 2147483648) :
    ∃ widths : List Nat, widths.length = v.columns.length ∧
      v.updateDimensions = some { v with columns := v.columns.zipWith (fun c w => { c with width := w }) widths } ∧
      (∀ (i : Nat) (c : ListColumn T) (w : Nat), v.columns[i]? = some c → widths[i]? = some w → c.minWidth ≤ w ∧ w ≤ c.maxWidth) ∧
      ((v.columns.map (·.minWidth)).sum + (v.columns.length - 1) + 1 ≤ v.area.width →
        widths.sum + (v.columns.length - 1) + 1 ≤ v.area.width ∧
        (widths.sum + (v.columns.length - 1) + 1 = v.area.width ∨ widths = v.columns.map (·.maxWidth)) ∧
        ∀ (i j : Nat) (ci cj : ListColumn T) (wi wj : Nat), i < j → v.columns[i]? = some ci → v.columns[j]? = some cj → widths[i]? = some wi → widths[j]? = some wj →
          cj.minWidth < wj → wi = ci.maxWidth) ∧
      (v.area.width < (v.columns.map (·.minWidth)).sum + (v.columns.length - 1) + 1 → widths = v.columns.map (·.minWidth)) := by
  have e1 : i32Check (asI32 v.columns.length - 1) = some ((v.columns.length : Int) - 1) := by
    rw [asI32_small hn, i32Check_some (by omega) (by omega)]
  have e2 : i32Check ((v.area.width : Int) - ((v.columns.length : Int) - 1)) = some ((v.area.width : Int) - ((v.columns.length : Int) - 1)) :=
    i32Check_some (by omega) (by omega)
  have e3 : i32Check ((v.area.width : Int) - ((v.columns.length : Int) - 1) - 1) = some ((v.area.width : Int) - v.columns.length) := by
    rw [i32Check_some (by omega) (by omega)]; congr 1; omega
  have e4 := sumMinWidths_eq v.columns 0 (by omega)
  simp only [Nat.zero_add, Int.ofNat_zero] at e4
  have e4' : sumMinWidths v.columns 0 = some (((v.columns.map (·.minWidth)).sum : Nat) : Int) := e4
  have hmins : v.columns.map (fun c => { c with width := c.minWidth }) =
      v.columns.zipWith (fun c w => { c with width := w }) (v.columns.map (·.minWidth)) := by
    generalize v.columns = l
    induction l with
    | nil => rfl
    | cons a l ih => simp [ih]
  have hsum0 : v.columns.length = 0 → (v.columns.map (·.minWidth)).sum = 0 := by
    intro h; rw [List.length_eq_zero_iff.1 h]; rfl
  by_cases hfit : (v.columns.map (·.minWidth)).sum + v.columns.length < v.area.width
  · obtain ⟨f1, f2, f3, f4⟩ := fill_spec v.columns (v.area.width - v.columns.length - (v.columns.map (·.minWidth)).sum) (fun c h => (hc c h).1)
    have hlen0 : v.columns.length = 0 → v.columns = [] := List.length_eq_zero_iff.1
    have hd : i32Check ((v.area.width : Int) - v.columns.length - (((v.columns.map (·.minWidth)).sum : Nat) : Int)) =
        some ((v.area.width - v.columns.length - (v.columns.map (·.minWidth)).sum : Nat) : Int) := by
      rw [i32Check_some (by omega) (by omega)]; congr 1; omega
    refine ⟨_, fill_length v.columns (v.area.width - v.columns.length - (v.columns.map (·.minWidth)).sum), ?_, f1, ?_, ?_⟩
    · simp only [updateDimensions, e1, e2, e3, e4', Option.bind_eq_bind, Option.bind_some]
      rw [if_neg (by omega), hd]
      simp only [Option.bind_some]
      rw [distribute_eq _ _ (by omega) hs hc]
      rfl
    · intro _
      refine ⟨?_, ?_, f4⟩
      · by_cases h0 : v.columns.length = 0
        · rw [hlen0 h0] at *; simp [fill] at *; omega
        · omega
      · rcases f3 with f3 | f3
        · by_cases h0 : v.columns.length = 0
          · right; rw [hlen0 h0]; rfl
          · left; omega
        · exact .inr f3
    · intro hlt
      by_cases h0 : v.columns.length = 0
      · rw [hlen0 h0]; rfl
      · omega
  · have hex : v.updateDimensions = some { v with columns := v.columns.zipWith (fun c w => { c with width := w }) (v.columns.map (·.minWidth)) } := by
      simp only [updateDimensions, e1, e2, e3, e4', Option.bind_eq_bind, Option.bind_some]
      rw [if_pos (by omega), hmins]
    refine ⟨v.columns.map (·.minWidth), by simp, hex, ?_, ?_, fun _ => rfl⟩
    · intro i c w hi hwi
      rw [List.getElem?_map, hi] at hwi
      simp only [Option.map_some, Option.some.injEq] at hwi
      subst hwi
      exact ⟨Nat.le_refl _, (hc c (List.mem_of_getElem? hi)).1⟩
    · intro hle
      refine ⟨hle, ?_, ?_⟩
      · by_cases h0 : v.columns.length = 0
        · right; rw [List.length_eq_zero_iff.1 h0]; rfl
        · left; omega
      · intro i j ci cj wi wj _ _ hj _ hwj hlt
        rw [List.getElem?_map, hj] at hwj
        simp only [Option.map_some, Option.some.injEq] at hwj
        omega

private theorem distribute_none : ∀ (cs : List (ListColumn T)) (e : Nat), e < 2147483648 → (∀ c ∈ cs, c.maxWidth < 2147483648) →
    (∃ c ∈ cs, c.maxWidth < c.minWidth) → distribute cs (e : Int) = none
  | [], _, _, _, h => by obtain ⟨_, h, _⟩ := h; cases h
  | c :: cs, e, he, hc, h => by
    by_cases hb : c.maxWidth < c.minWidth
    · have : csub c.maxWidth c.minWidth = none := by unfold csub; rw [if_neg (by omega)]
      simp [distribute, this]
    · have hd : csub c.maxWidth c.minWidth = some (c.maxWidth - c.minWidth) := by unfold csub; rw [if_pos (by omega)]
      have hmax := hc c (by simp)
      have hm : min (asI32 (c.maxWidth - c.minWidth)) (e : Int) = ((min (c.maxWidth - c.minWidth) e : Nat) : Int) := by
        rw [asI32_small (by omega)]; omega
      have hk : i32Check ((e : Int) - min (asI32 (c.maxWidth - c.minWidth)) (e : Int)) = some ((e - min (c.maxWidth - c.minWidth) e : Nat) : Int) := by
        rw [hm, i32Check_some (by omega) (by omega)]; congr 1; omega
      obtain ⟨c', hin, hlt⟩ := h
      have hr := distribute_none cs (e - min (c.maxWidth - c.minWidth) e) (by omega) (fun c' h' => hc c' (by simp [h']))
        ⟨c', by simpa [show c' ≠ c by intro he; subst he; omega] using hin, hlt⟩
      simp only [distribute, hd, hk, hr, Option.bind_eq_bind, Option.bind_some, Option.bind_none]

/-- C33: for widths which are counted by an `i32`, the update panics exactly when a column has a maximum lower than its minimum and the area is larger
than the minimums with the separators and the scrollbar. -/
theorem C33_panics (v : ListView T) (hw : v.area.width < 65536) (hn : v.columns.length < 2147483648)
    (hs : (v.columns.map (·.minWidth)).sum < 2147483648) (hm : ∀ c ∈ v.columns, c.maxWidth < 2147483648) :
    v.updateDimensions = none ↔
      (v.columns.map (·.minWidth)).sum + (v.columns.length - 1) + 1 < v.area.width ∧ ∃ c ∈ v.columns, c.maxWidth < c.minWidth := by
  by_cases hbad : ∃ c ∈ v.columns, c.maxWidth < c.minWidth
  · have hpos : 1 ≤ v.columns.length := by
      obtain ⟨c, hc, _⟩ := hbad
      exact List.length_pos_of_mem hc
    have e1 : i32Check (asI32 v.columns.length - 1) = some ((v.columns.length : Int) - 1) := by
      rw [asI32_small hn, i32Check_some (by omega) (by omega)]
    have e2 : i32Check ((v.area.width : Int) - ((v.columns.length : Int) - 1)) = some ((v.area.width : Int) - ((v.columns.length : Int) - 1)) :=
      i32Check_some (by omega) (by omega)
    have e3 : i32Check ((v.area.width : Int) - ((v.columns.length : Int) - 1) - 1) = some ((v.area.width : Int) - v.columns.length) := by
      rw [i32Check_some (by omega) (by omega)]; congr 1; omega
    have e4 := sumMinWidths_eq v.columns 0 (by omega)
    simp only [Nat.zero_add, Int.ofNat_zero] at e4
    have e4' : sumMinWidths v.columns 0 = some (((v.columns.map (·.minWidth)).sum : Nat) : Int) := e4
    simp only [updateDimensions, e1, e2, e3, e4', Option.bind_eq_bind, Option.bind_some]
    by_cases hfit : (v.columns.map (·.minWidth)).sum + v.columns.length < v.area.width
    · have hd : i32Check ((v.area.width : Int) - v.columns.length - (((v.columns.map (·.minWidth)).sum : Nat) : Int)) =
          some ((v.area.width - v.columns.length - (v.columns.map (·.minWidth)).sum : Nat) : Int) := by
        rw [i32Check_some (by omega) (by omega)]; congr 1; omega
      rw [if_neg (by omega), hd]
      simp only [Option.bind_some]
      rw [distribute_none _ _ (by omega) hm hbad]
      simp only [Option.bind_none, true_iff]
      exact ⟨by omega, hbad⟩
    · rw [if_pos (by omega)]
      simp only [reduceCtorEq, false_iff]
      omega
  · obtain ⟨_, _, h, _⟩ := C33_widths v hw hn hs fun c hc => by
      have := hm c hc
      have : ¬ c.maxWidth < c.minWidth := fun h' => hbad ⟨c, hc, h'⟩
      omega
    rw [h]
    simp [hbad]

/-- C33: a maximum lower than the minimum, in an area of 4 columns, where there's no excess, and in a larger one. -/
example : let v := fun w => ListView.new ⟨0, 0, w, 9⟩ [.new ['a'] 3 2 (fun (_ : Nat) => ⟨[], {}⟩)]
    ((v 4).updateDimensions).isSome = true ∧ ((v 5).updateDimensions).isSome = false := by decide

/-- Columns for the examples. -/
def widthColumns : List (ListColumn Nat) :=
  [.new ['a'] 2 5 (fun _ => ⟨[], {}⟩), .new ['b'] 3 10 (fun _ => ⟨[], {}⟩), .new ['c'] 1 4 (fun _ => ⟨[], {}⟩)]

/-- C33: three columns in areas of 15, 40 and 8 columns. -/
example : ((ListView.new ⟨0, 0, 15, 9⟩ widthColumns).updateDimensions.map fun v => v.columns.map (·.width)) = some [5, 6, 1] ∧
    ((ListView.new ⟨0, 0, 40, 9⟩ widthColumns).updateDimensions.map fun v => v.columns.map (·.width)) = some [5, 10, 4] ∧
    ((ListView.new ⟨0, 0, 8, 9⟩ widthColumns).updateDimensions.map fun v => v.columns.map (·.width)) = some [2, 3, 1] := by decide

example : (∀ c ∈ widthColumns, c.minWidth ≤ c.maxWidth ∧ c.maxWidth - c.minWidth < 2147483648) ∧
    (widthColumns.map (·.minWidth)).sum + (widthColumns.length - 1) + 1 ≤ 15 := by decide

/-- C33: giving the greatest `usize` as maximum for "no maximum" sets the width to this maximum in all areas where the minimum fits. -/
theorem C33_max_counterexample (area : Area) (title : Text) (m : Nat) (extract : T → ListCell) (hm : m + 1 < area.width) (hw : area.width < 65536) :
    (ListView.new area [.new title m 18446744073709551615 extract]).updateDimensions.map (fun v => v.columns.map (·.width)) =
      some [18446744073709551615] := by
  have hd : asI32 (18446744073709551615 - m) = -1 - (m : Int) := by
    unfold asI32
    have : (18446744073709551615 - m) % 4294967296 = 4294967295 - m := by omega
    rw [this, if_neg (by omega)]
    omega
  have e1 : i32Check (asI32 1 - 1) = some 0 := by decide
  have e2 : i32Check ((area.width : Int) - 0) = some (area.width : Int) := by
    rw [i32Check_some (by omega) (by omega)]; simp
  have e3 : i32Check ((area.width : Int) - 1) = some ((area.width : Int) - 1) := i32Check_some (by omega) (by omega)
  have e4 : i32Check ((0 : Int) + asI32 m) = some (m : Int) := by
    rw [asI32_small (by omega), i32Check_some (by omega) (by omega)]; simp
  have e5 : i32Check ((area.width : Int) - 1 - m) = some ((area.width : Int) - 1 - m) := i32Check_some (by omega) (by omega)
  have hmin : min (-1 - (m : Int)) ((area.width : Int) - 1 - m) = -1 - (m : Int) := by omega
  have e6 : i32Check ((area.width : Int) - 1 - m - (-1 - (m : Int))) = some (area.width : Int) := by
    rw [i32Check_some (by omega) (by omega)]; congr 1; omega
  have hmod : ((-1 - (m : Int)) % 18446744073709551616).toNat = 18446744073709551615 - m := by omega
  have hc : csub 18446744073709551615 m = some (18446744073709551615 - m) := by unfold csub; rw [if_pos (by omega)]
  simp only [updateDimensions, ListView.new, ListColumn.new, List.length_cons, List.length_nil, Nat.zero_add, e1, Option.bind_eq_bind, Option.bind_some, e2, e3,
    sumMinWidths, e4, e5]
  rw [if_neg (by omega)]
  simp only [distribute, hc, Option.bind_eq_bind, Option.bind_some, hd, hmin, e6, hmod]
  rw [if_pos (by omega)]
  simp only [Option.bind_some, Option.map_some, List.map_cons, List.map_nil]
  rw [show m + (18446744073709551615 - m) = 18446744073709551615 by omega]

/-- C33: a maximum lower than the minimum panics as soon as there's an excess. -/
theorem C33_order_counterexample :
    (ListView.new (T := Nat) ⟨0, 0, 15, 9⟩ [.new ['a'] 5 2 (fun _ => ⟨[], {}⟩)]).updateDimensions.isNone = true := by decide

end Verif.Props

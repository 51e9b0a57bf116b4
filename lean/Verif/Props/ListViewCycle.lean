import Verif.Spec.ListViewCycle
import Verif.Props.ListView
/-! C31: the cycle of selections. -/
namespace Verif.Props
open Verif ListView
variable {T : Type}

/-- What the next row is, with intervals instead of remainders. -/
def Around (len : Nat) (acc : Nat → Bool) (up : Bool) (s t : Nat) : Prop :=
  t < len ∧ acc t = true ∧
    if up then (t < s ∧ ∀ i, t < i → i < s → acc i = false) ∨ (s ≤ t ∧ ∀ i, i < len → (i < s ∨ t < i) → acc i = false)
    else (s < t ∧ ∀ i, s < i → i < t → acc i = false) ∨ (t ≤ s ∧ ∀ i, i < len → (s < i ∨ i < t) → acc i = false)

theorem around_of_cyclicNext {len : Nat} {acc : Nat → Bool} {up : Bool} {s t : Nat} (hs : s < len)
    (h : CyclicNext len acc up s t) : Around len acc up s t := by
  obtain ⟨k, h1, h2, h3, h4, h5⟩ := h
  have hlen : 0 < len := by omega
  refine ⟨by rw [h3]; exact Nat.mod_lt _ hlen, h4, ?_⟩
  cases up with
  | true =>
    simp only [if_true] at h3 h5 ⊢
    by_cases c : k ≤ s
    · have e : t = s - k := by
        rw [h3, show s + len - k = (s - k) + len by omega, Nat.add_mod_right, Nat.mod_eq_of_lt (by omega)]
      refine .inl ⟨by omega, fun i hi hi' => ?_⟩
      have := h5 (s - i) (by omega) (by omega)
      rwa [show s + len - (s - i) = i + len by omega, Nat.add_mod_right, Nat.mod_eq_of_lt (by omega)] at this
    · have e : t = s + len - k := by rw [h3, Nat.mod_eq_of_lt (by omega)]
      refine .inr ⟨by omega, fun i hi hi' => ?_⟩
      rcases hi' with hi' | hi'
      · have := h5 (s - i) (by omega) (by omega)
        rwa [show s + len - (s - i) = i + len by omega, Nat.add_mod_right, Nat.mod_eq_of_lt (by omega)] at this
      · by_cases ci : s < i
        · have := h5 (s + len - i) (by omega) (by omega)
          rwa [show s + len - (s + len - i) = i by omega, Nat.mod_eq_of_lt (by omega)] at this
        · omega
  | false =>
    simp only [Bool.false_eq_true, if_false] at h3 h5 ⊢
    by_cases c : s + k < len
    · have e : t = s + k := by rw [h3, Nat.mod_eq_of_lt c]
      refine .inl ⟨by omega, fun i hi hi' => ?_⟩
      have := h5 (i - s) (by omega) (by omega)
      rwa [show s + (i - s) = i by omega, Nat.mod_eq_of_lt (by omega)] at this
    · have e : t = s + k - len := by
        rw [h3, show s + k = (s + k - len) + len by omega, Nat.add_mod_right, Nat.mod_eq_of_lt (by omega)]
        omega
      refine .inr ⟨by omega, fun i hi hi' => ?_⟩
      rcases hi' with hi' | hi'
      · have := h5 (i - s) (by omega) (by omega)
        rwa [show s + (i - s) = i by omega, Nat.mod_eq_of_lt (by omega)] at this
      · have := h5 (i + len - s) (by omega) (by omega)
        rwa [show s + (i + len - s) = i + len by omega, Nat.add_mod_right, Nat.mod_eq_of_lt (by omega)] at this

private def Iv (acc : Nat → Bool) (a b : Nat) : List Nat := (List.range' a (b - a)).filter acc

private theorem iv_split {acc : Nat → Bool} {a b c : Nat} (h : a ≤ b) (h' : b ≤ c) : Iv acc a c = Iv acc a b ++ Iv acc b c := by
  unfold Iv
  rw [← List.filter_append]
  congr 1
  rw [show c - a = (b - a) + (c - b) by omega, ← List.range'_append_1, show a + (b - a) = b by omega]

private theorem iv_nil {acc : Nat → Bool} {a b : Nat} (h : ∀ i, a ≤ i → i < b → acc i = false) : Iv acc a b = [] := by
  unfold Iv
  rw [List.filter_eq_nil_iff]
  intro i hi
  rw [List.mem_range'_1] at hi
  rw [h i hi.1 (by omega)]
  simp

private theorem iv_one {acc : Nat → Bool} {t : Nat} (h : acc t = true) : Iv acc t (t + 1) = [t] := by
  unfold Iv
  rw [show t + 1 - t = 1 by omega]
  simp [h]

/-- The displayed rows in the order in which they're met. -/
private def ring (len : Nat) (acc : Nat → Bool) (up : Bool) (s : Nat) : List Nat :=
  if up then (Iv acc 0 s).reverse ++ (Iv acc s len).reverse else Iv acc (s + 1) len ++ Iv acc 0 (s + 1)

private theorem ring_step {len : Nat} {acc : Nat → Bool} {up : Bool} {s t : Nat} (hs : s < len) (h : Around len acc up s t) :
    ∃ X, ring len acc up s = t :: X ∧ ring len acc up t = X ++ [t] := by
  obtain ⟨h1, h2, h3⟩ := h
  cases up with
  | true =>
    simp only [if_true] at h3
    simp only [ring, if_true]
    rcases h3 with ⟨h3, h4⟩ | ⟨h3, h4⟩
    · refine ⟨(Iv acc 0 t).reverse ++ (Iv acc s len).reverse, ?_, ?_⟩
      · rw [iv_split (Nat.zero_le t) (by omega : t ≤ s), iv_split (by omega : t ≤ t + 1) (by omega : t + 1 ≤ s), iv_one h2,
          iv_nil (a := t + 1) (b := s) (fun i a b => h4 i (by omega) b)]
        simp
      · rw [iv_split (by omega : t ≤ s) (by omega : s ≤ len), iv_split (by omega : t ≤ t + 1) (by omega : t + 1 ≤ s), iv_one h2,
          iv_nil (a := t + 1) (b := s) (fun i a b => h4 i (by omega) b)]
        simp
    · refine ⟨(Iv acc s t).reverse, ?_, ?_⟩
      · rw [iv_nil (a := 0) (b := s) (fun i a b => h4 i (by omega) (.inl b)), iv_split h3 (by omega : t ≤ len),
          iv_split (by omega : t ≤ t + 1) (by omega : t + 1 ≤ len), iv_one h2,
          iv_nil (a := t + 1) (b := len) (fun i a b => h4 i b (.inr (by omega)))]
        simp
      · rw [iv_split (Nat.zero_le s) h3, iv_nil (a := 0) (b := s) (fun i a b => h4 i (by omega) (.inl b)),
          iv_split (by omega : t ≤ t + 1) (by omega : t + 1 ≤ len), iv_one h2,
          iv_nil (a := t + 1) (b := len) (fun i a b => h4 i b (.inr (by omega)))]
        simp
  | false =>
    simp only [Bool.false_eq_true, if_false] at h3
    simp only [ring, Bool.false_eq_true, if_false]
    rcases h3 with ⟨h3, h4⟩ | ⟨h3, h4⟩
    · refine ⟨Iv acc (t + 1) len ++ Iv acc 0 (s + 1), ?_, ?_⟩
      · rw [iv_split (by omega : s + 1 ≤ t) (by omega : t ≤ len), iv_split (by omega : t ≤ t + 1) (by omega : t + 1 ≤ len), iv_one h2,
          iv_nil (a := s + 1) (b := t) (fun i a b => h4 i (by omega) b)]
        simp
      · rw [iv_split (Nat.zero_le (s + 1)) (by omega : s + 1 ≤ t + 1), iv_split (by omega : s + 1 ≤ t) (by omega : t ≤ t + 1), iv_one h2,
          iv_nil (a := s + 1) (b := t) (fun i a b => h4 i (by omega) b)]
        simp
    · refine ⟨Iv acc (t + 1) (s + 1), ?_, ?_⟩
      · rw [iv_nil (a := s + 1) (b := len) (fun i a b => h4 i b (.inl (by omega))), iv_split (Nat.zero_le t) (by omega : t ≤ s + 1),
          iv_nil (a := 0) (b := t) (fun i a b => h4 i (by omega) (.inr b)), iv_split (by omega : t ≤ t + 1) (by omega : t + 1 ≤ s + 1), iv_one h2]
        simp
      · rw [iv_split (by omega : t + 1 ≤ s + 1) (by omega : s + 1 ≤ len), iv_nil (a := s + 1) (b := len) (fun i a b => h4 i b (.inl (by omega))),
          iv_split (Nat.zero_le t) (by omega : t ≤ t + 1), iv_nil (a := 0) (b := t) (fun i a b => h4 i (by omega) (.inr b)), iv_one h2]
        simp

private theorem around_back {len : Nat} {acc : Nat → Bool} {up : Bool} {s t u : Nat} (hs : s < len) (ha : acc s = true)
    (h : Around len acc up s t) (h' : Around len acc (!up) t u) : u = s := by
  obtain ⟨h1, h2, h3⟩ := h
  obtain ⟨g1, g2, g3⟩ := h'
  have n : ∀ i, acc i = true → acc i = false → False := by intro i a b; rw [a] at b; cases b
  by_cases e : u = s
  · exact e
  exfalso
  cases up <;> simp only [Bool.not_true, Bool.not_false, Bool.false_eq_true, if_false, if_true] at h3 g3
  · rcases h3 with ⟨h3, h4⟩ | ⟨h3, h4⟩ <;> rcases g3 with ⟨g3, g4⟩ | ⟨g3, g4⟩
    · rcases Nat.lt_or_gt_of_ne e with c | c
      · exact n s ha (g4 s c h3)
      · exact n u g2 (h4 u c g3)
    · exact n s ha (g4 s hs (.inl h3))
    · exact n u g2 (h4 u g1 (.inr g3))
    · rcases Nat.lt_or_gt_of_ne e with c | c
      · exact n s ha (g4 s hs (.inr c))
      · exact n u g2 (h4 u g1 (.inl c))
  · rcases h3 with ⟨h3, h4⟩ | ⟨h3, h4⟩ <;> rcases g3 with ⟨g3, g4⟩ | ⟨g3, g4⟩
    · rcases Nat.lt_or_gt_of_ne e with c | c
      · exact n u g2 (h4 u g3 c)
      · exact n s ha (g4 s h3 c)
    · exact n s ha (g4 s hs (.inl h3))
    · exact n u g2 (h4 u g1 (.inr g3))
    · rcases Nat.lt_or_gt_of_ne e with c | c
      · exact n u g2 (h4 u g1 (.inl c))
      · exact n s ha (g4 s hs (.inr c))

private theorem next_around {ok : ListOp T → Prop} {area : Area} {columns : List (ListColumn T)} {v v' : ListView T} {h : ListHistory T}
    (hr : ReachableList ok area columns v h) {up : Bool} {s : Nat} (hs : v.selection = some s) (hd : v.isDisplayed s = true)
    (he : v.trySelectNext up = some v') :
    v'.rows = v.rows ∧ ∃ t, v'.selection = some t ∧ Around v.rows.length v.isDisplayed up s t := by
  have hl := isDisplayed_iff.1 hd
  obtain ⟨t, h1, h2, _⟩ := (C31_next ok area columns v v' h hr up he).2 ⟨v.rows[s]'hl.1, List.getElem_mem _, hl.2⟩
  refine ⟨(frame (op := .selectNext up) he nofun nofun nofun nofun nofun).1, t, h1, around_of_cyclicNext hl.1 (h2 s hs)⟩

private theorem isDisplayed_rows {v v' : ListView T} (h : v'.rows = v.rows) : v'.isDisplayed = v.isDisplayed := by
  funext i
  unfold isDisplayed
  rw [h]

/-- C31: selecting the next row then the previous one, or the contrary, comes back to the row which was selected, if it was displayed. -/
theorem C31_back (area : Area) (columns : List (ListColumn T)) (v v' v'' : ListView T) (h : ListHistory T)
    (hr : ReachableList (fun _ => True) area columns v h) (up : Bool) (s : Nat) (hs : v.selection = some s) (hd : v.isDisplayed s = true)
    (h1 : v.trySelectNext up = some v') (h2 : v'.trySelectNext (!up) = some v'') : v''.selection = some s := by
  obtain ⟨e1, t, ht, a1⟩ := next_around hr hs hd h1
  have hr' : ReachableList (fun _ => True) area columns v' _ := .step (.selectNext up) hr trivial h1
  obtain ⟨e2, u, hu, a2⟩ := next_around hr' ht (by rw [isDisplayed_rows e1]; exact a1.2.1) h2
  rw [e1, isDisplayed_rows e1] at a2
  rw [hu, around_back (isDisplayed_iff.1 hd).1 hd a1 a2]

private theorem presses_ring {area : Area} {columns : List (ListColumn T)} {up : Bool} : ∀ (L M : List Nat) (v : ListView T) (h : ListHistory T)
    (s : Nat) (vs : List (ListView T)), ReachableList (fun _ => True) area columns v h → v.selection = some s → v.isDisplayed s = true →
    ring v.rows.length v.isDisplayed up s = L ++ M → presses up L.length v = some vs → vs.map (·.selection) = L.map some := by
  intro L
  induction L with
  | nil =>
    intro M v h s vs _ _ _ _ hp
    cases hp; rfl
  | cons a L ih =>
    intro M v h s vs hr hs hd hring hp
    simp only [List.length_cons, presses, Option.bind_eq_bind, Option.bind_eq_some_iff, Option.some.injEq] at hp
    obtain ⟨v', hv', ws, hws, rfl⟩ := hp
    obtain ⟨e1, t, ht, a1⟩ := next_around hr hs hd hv'
    obtain ⟨X, x1, x2⟩ := ring_step (isDisplayed_iff.1 hd).1 a1
    rw [hring, List.cons_append] at x1
    injection x1 with y1 y2
    subst y1 y2
    have hr' : ReachableList (fun _ => True) area columns v' _ := .step (.selectNext up) hr trivial hv'
    rw [List.map_cons, List.map_cons, ht, ih (M ++ [a]) v' _ a ws hr' ht (by rw [isDisplayed_rows e1]; exact a1.2.1)
      (by rw [e1, isDisplayed_rows e1, x2, List.append_assoc]) hws]

private theorem length_iv (v : ListView T) : ∀ n, n ≤ v.rows.length →
    (Iv v.isDisplayed 0 n).length = ((v.rows.take n).filter (·.displayed)).length := by
  intro n
  induction n with
  | zero => intro _; rfl
  | succ n ih =>
    intro hn
    rw [iv_split (Nat.zero_le n) (by omega : n ≤ n + 1), List.length_append, ih (by omega), List.take_succ_eq_append_getElem (by omega),
      List.filter_append, List.length_append]
    congr 1
    unfold Iv
    rw [show n + 1 - n = 1 by omega]
    have e : v.isDisplayed n = (v.rows[n]).displayed := by unfold isDisplayed; rw [List.getElem?_eq_getElem (by omega)]; rfl
    cases hd : (v.rows[n]).displayed <;> simp [e, hd]

private theorem count_iv {ok : ListOp T → Prop} {area : Area} {columns : List (ListColumn T)} {v : ListView T} {h : ListHistory T}
    (hr : ReachableList ok area columns v h) : (Iv v.isDisplayed 0 v.rows.length).length = v.rowCounts.1 := by
  rw [length_iv v _ (Nat.le_refl _), List.take_length]
  exact (known_of_reachable hr).count'.symm

/-- C31: when a displayed row is selected, selecting the next row again and again, as many times as there are displayed rows, selects all
the displayed rows once: first the ones which are after the initial one, in their order, then the ones from the start of the list up to
the initial one, which is thus selected again in the end. -/
theorem C31_cycle_down (area : Area) (columns : List (ListColumn T)) (v : ListView T) (h : ListHistory T)
    (hr : ReachableList (fun _ => True) area columns v h) (s : Nat) (hs : v.selection = some s) (hd : v.isDisplayed s = true)
    (vs : List (ListView T)) (hp : presses false v.rowCounts.1 v = some vs) :
    vs.map (·.selection) = (v.displayedIn (s + 1) v.rows.length ++ v.displayedIn 0 (s + 1)).map some := by
  refine presses_ring (up := false) _ [] v h s vs hr hs hd (by simp only [ring, Bool.false_eq_true, if_false, List.append_nil]; rfl) ?_
  rw [← hp]
  congr 1
  have hl := (isDisplayed_iff.1 hd).1
  rw [← count_iv hr, iv_split (Nat.zero_le (s + 1)) hl, List.length_append, List.length_append, Nat.add_comm]
  rfl

/-- C31: the same with the previous row, in the reverse order. -/
theorem C31_cycle_up (area : Area) (columns : List (ListColumn T)) (v : ListView T) (h : ListHistory T)
    (hr : ReachableList (fun _ => True) area columns v h) (s : Nat) (hs : v.selection = some s) (hd : v.isDisplayed s = true)
    (vs : List (ListView T)) (hp : presses true v.rowCounts.1 v = some vs) :
    vs.map (·.selection) = ((v.displayedIn 0 s).reverse ++ (v.displayedIn s v.rows.length).reverse).map some := by
  refine presses_ring (up := true) _ [] v h s vs hr hs hd (by simp only [ring, if_true, List.append_nil]; rfl) ?_
  rw [← hp]
  congr 1
  have hl := (isDisplayed_iff.1 hd).1
  rw [← count_iv hr, iv_split (Nat.zero_le s) (Nat.le_of_lt hl), List.length_append, List.length_append, List.length_reverse, List.length_reverse]
  rfl

/-- C31: the whole cycle in a filtered list. -/
example : (do
    let v ← ((listOf ⟨0, 0, 9, 9⟩ [] [0, 1, 2, 3, 4, 5, 6]).setFilter (· % 2 == 0)).trySelectNext false
    let v ← v.trySelectNext false
    let vs ← presses false v.rowCounts.1 v
    let ws ← presses true v.rowCounts.1 v
    some (v.selection, v.isDisplayed 2, vs.map (·.selection), ws.map (·.selection))) =
      some (some 2, true, [some 4, some 6, some 0, some 2], [some 0, some 6, some 4, some 2]) := by decide

end Verif.Props

import Verif.Lemmas.ListView
import Verif.Props.Area
/-! Lemmas on the display of list views. -/
namespace Verif
open ListView

variable {T : Type}

/-- The groups of indices of columns: they cover the indices in order, and are the maximal ones having the same name. -/
structure TitleGroups (names : List Text) (n : Nat) (titles : List (List Nat)) : Prop where
  flat : titles.flatten = List.range n
  same : ∀ t ∈ titles, t ≠ [] ∧ ∀ i ∈ t, ∀ j ∈ t, names[i]? = names[j]?
  differ : ∀ k t t', titles[k]? = some t → titles[k + 1]? = some t' → ∀ i ∈ t, ∀ j ∈ t', names[i]? ≠ names[j]?

theorem TitleGroups.lt {names : List Text} {n : Nat} {titles : List (List Nat)} (h : TitleGroups names n titles) {t : List Nat} (ht : t ∈ titles)
    {i : Nat} (hi : i ∈ t) : i < n := by
  have : i ∈ titles.flatten := List.mem_flatten.2 ⟨t, ht, hi⟩
  rw [h.flat] at this
  exact List.mem_range.1 this

theorem mergeTitles_groups (names : List Text) : ∀ (rest : List Text) (idx : Nat) (titles : List (List Nat)), names.drop idx = rest → idx ≤ names.length →
    TitleGroups names idx titles → TitleGroups names names.length (mergeTitles names rest idx titles)
  | [], idx, titles, hd, hl, h => by
    have : names.length ≤ idx := List.drop_eq_nil_iff.1 hd
    rw [show names.length = idx by omega]
    exact h
  | name :: rest, idx, titles, hd, hl, h => by
    have hlt : idx < names.length := by
      rcases Nat.lt_or_ge idx names.length with h' | h'
      · exact h'
      · rw [List.drop_eq_nil_of_le h'] at hd; simp at hd
    have hname : names[idx]? = some name := by
      have : (names.drop idx)[0]? = some name := by rw [hd]; rfl
      rwa [List.getElem?_drop, Nat.add_zero] at this
    have hrest : names.drop (idx + 1) = rest := by
      have : (names.drop idx).drop 1 = rest := by rw [hd]; rfl
      rwa [List.drop_drop] at this
    have fresh : (∀ last, titles.getLast? = some last → ∀ i ∈ last, names[i]? ≠ some name) → TitleGroups names (idx + 1) (titles ++ [[idx]]) := by
      intro hlast
      refine ⟨by simp [h.flat, List.range_succ], ?_, ?_⟩
      · intro t ht
        rcases List.mem_append.1 ht with ht | ht
        · exact h.same t ht
        · simp only [List.mem_singleton] at ht
          subst ht
          exact ⟨by simp, by intro i hi j hj; simp only [List.mem_singleton] at hi hj; rw [hi, hj]⟩
      · intro k t t' hk hk' i hi j hj
        rw [List.getElem?_append] at hk hk'
        split at hk'
        · rw [if_pos (by omega)] at hk
          exact h.differ k t t' hk hk' i hi j hj
        · rename_i hge
          have h0 : k + 1 - titles.length = 0 := by
            rcases Nat.eq_zero_or_pos (k + 1 - titles.length) with h0 | h0
            · exact h0
            · rw [List.getElem?_eq_none (by simp; omega)] at hk'; simp at hk'
          rw [h0] at hk'
          simp only [List.getElem?_cons_zero, Option.some.injEq] at hk'
          subst hk'
          simp only [List.mem_singleton] at hj
          subst hj
          rw [if_pos (by omega)] at hk
          rw [hname]
          refine hlast t ?_ i hi
          rw [List.getLast?_eq_getElem?, show titles.length - 1 = k by omega]
          exact hk
    simp only [mergeTitles]
    split
    · rename_i last hlast
      have hne : titles ≠ [] := by rintro rfl; simp at hlast
      have hmem : last ∈ titles := List.mem_of_getLast? hlast
      obtain ⟨hln, hls⟩ := h.same last hmem
      have hcat : titles = titles.dropLast ++ [last] := by
        rw [List.getLast?_eq_some_getLast hne] at hlast
        simp only [Option.some.injEq] at hlast
        rw [← hlast, List.dropLast_concat_getLast]
      obtain ⟨a, hhead, ha⟩ : ∃ a, last.head? = some a ∧ a ∈ last := by
        cases last with
        | nil => exact absurd rfl hln
        | cons a l => exact ⟨a, rfl, by simp⟩
      have hbind : (last.head?.bind fun i => names[i]?) = names[a]? := by rw [hhead]; rfl
      by_cases heq : names[a]? = some name
      · rw [if_pos (by rw [hbind]; exact heq)]
        refine mergeTitles_groups names rest (idx + 1) _ hrest (by omega) ⟨?_, ?_, ?_⟩
        · have hf := h.flat
          rw [hcat] at hf
          simp only [List.flatten_append, List.flatten_cons, List.flatten_nil, List.append_nil] at hf ⊢
          rw [← List.append_assoc, hf, List.range_succ]
        · intro t ht
          rcases List.mem_append.1 ht with ht | ht
          · exact h.same t ((List.dropLast_sublist _).mem ht)
          · simp only [List.mem_singleton] at ht
            subst ht
            have hall : ∀ i ∈ last ++ [idx], names[i]? = some name := by
              intro i hi
              rcases List.mem_append.1 hi with hi | hi
              · rw [hls i hi a ha]; exact heq
              · simp only [List.mem_singleton] at hi; rw [hi]; exact hname
            exact ⟨by simp, fun i hi j hj => by rw [hall i hi, hall j hj]⟩
        · intro k t t' hk hk' i hi j hj
          have hlen : titles.length = titles.dropLast.length + 1 := by
            have := congrArg List.length hcat
            simpa using this
          rw [List.getElem?_append] at hk hk'
          split at hk'
          · rename_i hlt'
            rw [if_pos (by omega)] at hk
            have e1 : titles[k]? = some t := by rw [hcat, List.getElem?_append_left (by omega)]; exact hk
            have e2 : titles[k + 1]? = some t' := by rw [hcat, List.getElem?_append_left (by omega)]; exact hk'
            exact h.differ k t t' e1 e2 i hi j hj
          · rename_i hge
            have h0 : k + 1 - titles.dropLast.length = 0 := by
              rcases Nat.eq_zero_or_pos (k + 1 - titles.dropLast.length) with h0 | h0
              · exact h0
              · rw [List.getElem?_eq_none (by simp only [List.length_cons, List.length_nil]; omega)] at hk'; simp at hk'
            rw [h0] at hk'
            simp only [List.getElem?_cons_zero, Option.some.injEq] at hk'
            subst hk'
            rw [if_pos (by omega)] at hk
            have e1 : titles[k]? = some t := by rw [hcat, List.getElem?_append_left (by omega)]; exact hk
            have e2 : titles[k + 1]? = some last := by
              rw [hcat, List.getElem?_append_right (by omega), h0]; rfl
            have := h.differ k t last e1 e2 i hi a ha
            rcases List.mem_append.1 hj with hj | hj
            · exact h.differ k t last e1 e2 i hi j hj
            · simp only [List.mem_singleton] at hj
              rw [hj, hname, ← heq]
              exact this
      · rw [if_neg (by rw [hbind]; exact heq)]
        refine mergeTitles_groups names rest (idx + 1) _ hrest (by omega) (fresh ?_)
        intro last' hl' i hi
        rw [hlast] at hl'
        simp only [Option.some.injEq] at hl'
        subst hl'
        rw [hls i hi a ha]
        exact heq
    · rename_i hlast
      refine mergeTitles_groups names rest (idx + 1) _ hrest (by omega) (fresh ?_)
      intro last' hl'
      rw [hlast] at hl'
      simp at hl'

/-- A column but for its current width. -/
def _root_.Verif.ListColumn.unsized (c : ListColumn T) : ListColumn T := { c with width := 0 }

/-- The titles and the columns don't change, but for the widths. -/
theorem step_titles {v v' : ListView T} {op : ListOp T} (he : op.exec v = some v') :
    v'.titles = v.titles ∧ v'.columns.map (·.unsized) = v.columns.map (·.unsized) := by
  have msv : ∀ {w w' : ListView T}, w.makeSelectionVisible = some w' → w.titles = v.titles → w.columns = v.columns →
      v.titles = v.titles ∧ w'.titles = v.titles ∧ w'.columns = v.columns := by
    intro w w' hw ht hc
    rw [msv_fields hw]; exact ⟨rfl, ht, hc⟩
  have fin : (v'.titles = v.titles ∧ v'.columns = v.columns) → v'.titles = v.titles ∧ v'.columns.map (·.unsized) = v.columns.map (·.unsized) := by
    rintro ⟨h1, h2⟩; exact ⟨h1, by rw [h2]⟩
  have hl : ∀ n, v.tryScrollLines n = some v' → v'.titles = v.titles ∧ v'.columns = v.columns := by
    intro n h
    unfold tryScrollLines at h
    split at h
    · split at h
      · simp at h
      · exact (msv h rfl rfl).2
    · simp only [Option.bind_eq_bind, Option.bind_eq_some_iff] at h
      obtain ⟨d, hd, h⟩ := h
      exact (msv h rfl rfl).2
  have after : ∀ up, v.selectAfter up = some v' → v'.titles = v.titles ∧ v'.columns = v.columns := by
    intro up h
    unfold selectAfter at h
    split at h
    · cases h; exact ⟨rfl, rfl⟩
    · split at h
      · simp at h
      · split at h
        · exact (msv h rfl rfl).2
        · cases h; exact ⟨rfl, rfl⟩
  cases op with
  | addRow d =>
    cases he
    apply fin
    unfold addRow
    simp only
    cases v.accepts d <;> cases (v.order.isNone && v.doScrollShowBottom) <;> exact ⟨rfl, rfl⟩
  | clearRows => cases he; exact ⟨rfl, rfl⟩
  | setFilter f => cases he; exact ⟨rfl, rfl⟩
  | removeFilter => cases he; exact ⟨rfl, rfl⟩
  | sort o => cases he; exact ⟨rfl, rfl⟩
  | updateDimensions =>
    have hd : ∀ (cs : List (ListColumn T)) (e : Int) (cs' : List (ListColumn T)), distribute cs e = some cs' → cs'.map (·.unsized) = cs.map (·.unsized) := by
      intro cs
      induction cs with
      | nil => intro e cs' h; simp only [distribute, Option.some.injEq] at h; rw [← h]
      | cons c cs ih =>
        intro e cs' h
        simp only [distribute, Option.bind_eq_bind, Option.bind_eq_some_iff] at h
        obtain ⟨_, _, _, _, r, hr, h⟩ := h
        split at h
        · simp only [Option.some.injEq] at h
          rw [← h, List.map_cons, List.map_cons, ih _ _ hr]; rfl
        · simp at h
    simp only [ListOp.exec, updateDimensions, Option.bind_eq_bind, Option.bind_eq_some_iff] at he
    obtain ⟨a, _, b, _, c, _, d, _, he⟩ := he
    split at he
    · cases he; exact ⟨rfl, by simp [Function.comp_def, ListColumn.unsized]⟩
    · simp only [Option.bind_eq_some_iff] at he
      obtain ⟨_, _, _, hcs, he⟩ := he
      cases he; exact ⟨rfl, hd _ _ _ hcs⟩
  | setArea area => cases he; exact ⟨rfl, rfl⟩
  | scrollLines n => exact fin (hl n he)
  | scrollPages n =>
    simp only [ListOp.exec, tryScrollPages, Option.bind_eq_bind, Option.bind_eq_some_iff] at he
    obtain ⟨_, _, he⟩ := he
    exact fin (hl _ he)
  | scrollToBottom => cases he; exact ⟨rfl, rfl⟩
  | selectNext up =>
    apply fin
    simp only [ListOp.exec, trySelectNext] at he
    split at he
    · cases he; exact ⟨rfl, rfl⟩
    · split at he
      · split at he
        · exact (msv he rfl rfl).2
        · exact after up he
      · exact after up he
  | selectFirst =>
    apply fin
    simp only [ListOp.exec, selectFirstLine] at he
    split at he
    · exact (msv he rfl rfl).2
    · cases he; exact ⟨rfl, rfl⟩
  | selectLast =>
    apply fin
    simp only [ListOp.exec, selectLastLine] at he
    split at he
    · exact (msv he rfl rfl).2
    · cases he; exact ⟨rfl, rfl⟩
  | unselect => cases he; exact ⟨rfl, rfl⟩
  | makeSelectionVisible => exact fin (msv he rfl rfl).2

theorem columns_of_reachable {ok : ListOp T → Prop} {area : Area} {columns : List (ListColumn T)} {v : ListView T} {h : ListHistory T}
    (hr : ReachableList ok area columns v h) : v.columns.map (·.unsized) = columns.map (·.unsized) := by
  induction hr with
  | init => rfl
  | step op _ _ he ih => exact (step_titles he).2.trans ih

theorem groups_of_reachable {ok : ListOp T → Prop} {area : Area} {columns : List (ListColumn T)} {v : ListView T} {h : ListHistory T}
    (hr : ReachableList ok area columns v h) : TitleGroups (v.columns.map (·.title)) v.columns.length v.titles := by
  have hnew : TitleGroups (columns.map (·.title)) columns.length (ListView.new area columns).titles := by
    have := mergeTitles_groups (columns.map (·.title)) (columns.map (·.title)) 0 [] rfl (Nat.zero_le _) ⟨rfl, by simp, by simp⟩
    rw [List.length_map] at this
    exact this
  have key : v.titles = (ListView.new area columns).titles ∧ v.columns.map (·.title) = columns.map (·.title) := by
    refine ⟨?_, ?_⟩
    · induction hr with
      | init => rfl
      | step op _ _ he ih => exact (step_titles he).1.trans ih
    · have := congrArg (List.map (·.title)) (columns_of_reachable hr)
      simpa [Function.comp_def, ListColumn.unsized] using this
  have hl : v.columns.length = columns.length := by simpa using congrArg List.length key.2
  rw [key.1, key.2, hl]
  exact hnew

/-- Texts joined by the same separator, possibly with one at the start. -/
def joinSep (sep : Char) : Bool → List Text → Text
  | _, [] => []
  | first, a :: l => (if first then [] else [sep]) ++ a ++ joinSep sep false l

theorem joinSep_weave (sep : Char) : ∀ l : List Text, joinSep sep true l = weave l (List.replicate (l.length - 1) sep)
  | [] => rfl
  | [a] => by simp [joinSep, weave]
  | a :: b :: l => by
    have ih := joinSep_weave sep (b :: l)
    simp only [List.length_cons, Nat.add_sub_cancel] at ih ⊢
    rw [List.replicate_succ]
    show [] ++ a ++ joinSep sep false (b :: l) = a ++ sep :: weave (b :: l) _
    rw [← ih]
    simp [joinSep]

/-- Texts of elements joined by separators depending on both sides. -/
def chainSep {α : Type} (sep : α → α → Char) (f : α → Text) : List α → Text
  | [] => []
  | [a] => f a
  | a :: b :: l => f a ++ sep a b :: chainSep sep f (b :: l)

theorem chainSep_weave {α : Type} (sep : α → α → Char) (f : α → Text) : ∀ l : List α,
    chainSep sep f l = weave (l.map f) (List.zipWith sep l l.tail)
  | [] => rfl
  | [a] => by simp [chainSep, weave]
  | a :: b :: l => by
    have ih := chainSep_weave sep f (b :: l)
    simp only [chainSep, ih, List.map_cons, List.tail_cons, List.zipWith_cons_cons, weave]

theorem chainSep_append {α : Type} (sep : α → α → Char) (f : α → Text) (b : α) (l2 : List α) : ∀ (l : List α) (a : α),
    chainSep sep f (a :: l ++ b :: l2) = chainSep sep f (a :: l) ++ sep ((a :: l).getLast (by simp)) b :: chainSep sep f (b :: l2)
  | [], a => rfl
  | c :: l, a => by
    have ih := chainSep_append sep f b l2 l c
    simp only [List.cons_append, chainSep] at ih ⊢
    rw [ih]
    simp

theorem chainSep_const {α : Type} {sep : α → α → Char} {f : α → Text} {c : Char} : ∀ {l : List α}, (∀ a ∈ l, ∀ b ∈ l, sep a b = c) →
    chainSep sep f l = joinSep c true (l.map f)
  | [], _ => rfl
  | [a], _ => by simp [chainSep, joinSep]
  | a :: b :: l, h => by
    have ih := chainSep_const (f := f) (l := b :: l) (fun x hx y hy => h x (by simp [hx]) y (by simp [hy]))
    simp only [chainSep, ih, h a (by simp) b (by simp), List.map_cons, joinSep]
    simp

/-- Elements in groups: one separator in the groups, another one between them. -/
theorem chainSep_groups {α : Type} {sep : α → α → Char} {f : α → Text} {c d : Char} : ∀ {gs : List (List α)}, (∀ g ∈ gs, g ≠ []) →
    (∀ g ∈ gs, ∀ a ∈ g, ∀ b ∈ g, sep a b = c) →
    (∀ (k : Nat) (g g' : List α), gs[k]? = some g → gs[k + 1]? = some g' → ∀ a ∈ g, ∀ b ∈ g', sep a b = d) →
    chainSep sep f gs.flatten = joinSep d true (gs.map fun g => joinSep c true (g.map f))
  | [], _, _, _ => rfl
  | [g], h1, h2, h3 => by
    simp only [List.flatten_cons, List.flatten_nil, List.append_nil, List.map_cons, List.map_nil, joinSep, if_true, List.nil_append]
    exact chainSep_const (h2 g (by simp))
  | g :: g' :: gs, h1, h2, h3 => by
    have ih := chainSep_groups (f := f) (gs := g' :: gs) (fun x hx => h1 x (by simp [hx])) (fun x hx => h2 x (by simp [hx]))
      (fun k x y hx hy => h3 (k + 1) x y (by simpa using hx) (by simpa using hy))
    obtain ⟨a, l, rfl⟩ : ∃ a l, g = a :: l := List.exists_cons_of_ne_nil (h1 g (by simp))
    obtain ⟨b, l', rfl⟩ : ∃ b l', g' = b :: l' := List.exists_cons_of_ne_nil (h1 g' (by simp))
    have hfl : ((a :: l) :: (b :: l') :: gs).flatten = a :: l ++ b :: (l' ++ gs.flatten) := by simp
    have hfl' : ((b :: l') :: gs).flatten = b :: (l' ++ gs.flatten) := by simp
    rw [hfl'] at ih
    rw [hfl, chainSep_append, ih, h3 0 (a :: l) (b :: l') rfl rfl _ (List.getLast_mem _) b (by simp), chainSep_const (h2 (a :: l) (by simp))]
    simp [joinSep]

/-- The columns of the given indices. -/
def ListView.colsOf (v : ListView T) (t : List Nat) : List (ListColumn T) := t.filterMap fun i => v.columns[i]?

theorem colsOf_cons (v : ListView T) {i : Nat} {t : List Nat} {c : ListColumn T} (h : v.columns[i]? = some c) : v.colsOf (i :: t) = c :: v.colsOf t := by
  simp [colsOf, h]

theorem sumWidths_eq (v : ListView T) : ∀ t : List Nat, (∀ i ∈ t, i < v.columns.length) → v.sumWidths t = some ((v.colsOf t).map (·.width)).sum
  | [], _ => rfl
  | i :: t, h => by
    have hi : i < v.columns.length := h i (by simp)
    have hc : v.columns[i]? = some v.columns[i] := List.getElem?_eq_getElem hi
    simp only [sumWidths, columnWidth, hc, Option.map_some, Option.bind_eq_bind, Option.bind_some, sumWidths_eq v t (fun j hj => h j (by simp [hj])),
      colsOf_cons v hc, List.map_cons, List.sum_cons]

theorem colsOf_length (v : ListView T) : ∀ t : List Nat, (∀ i ∈ t, i < v.columns.length) → (v.colsOf t).length = t.length
  | [], _ => rfl
  | i :: t, h => by
    have hi : i < v.columns.length := h i (by simp)
    have hc : v.columns[i]? = some v.columns[i] := List.getElem?_eq_getElem hi
    simp [colsOf_cons v hc, colsOf_length v t (fun j hj => h j (by simp [hj]))]

theorem piecesText_append' (a b : List Piece) : piecesText (a ++ b) = piecesText a ++ piecesText b := by simp [piecesText]

theorem piecesText_char (s : CompoundStyle) (c : Char) : piecesText (StyledChar.new s c).display = [c] := by
  simp [piecesText, StyledChar.display, StyledChar.new]

theorem writeTitles_eq (v : ListView T) (skin : Skin) : ∀ (tt : List (List Nat)) (first : Bool), (∀ t ∈ tt, t ≠ [] ∧ ∀ i ∈ t, i < v.columns.length) →
    ∃ ps, v.writeTitles skin first tt = some ps ∧ piecesText ps = joinSep '│' first (tt.map fun t => centeredTitle (v.colsOf t))
  | [], first, _ => ⟨[], rfl, rfl⟩
  | t :: tt, first, h => by
    obtain ⟨ps, e, ht⟩ := writeTitles_eq v skin tt false (fun x hx => h x (by simp [hx]))
    obtain ⟨hne, hlt⟩ := h t (by simp)
    obtain ⟨i, l, rfl⟩ : ∃ i l, t = i :: l := List.exists_cons_of_ne_nil hne
    have hi : i < v.columns.length := hlt i (by simp)
    have hc : v.columns[i]? = some v.columns[i] := List.getElem?_eq_getElem hi
    have hw : csub (((v.colsOf (i :: l)).map (·.width)).sum + (i :: l).length) 1 = some (((v.colsOf (i :: l)).map (·.width)).sum + l.length) := by
      unfold csub
      rw [if_pos (by simp only [List.length_cons]; omega)]
      congr 1
    have hcl := colsOf_length v l (fun j hj => hlt j (by simp [hj]))
    refine ⟨_, by simp only [writeTitles, sumWidths_eq v (i :: l) hlt, Option.bind_eq_bind, Option.bind_some, hw, List.head?_cons, hc, e]; rfl, ?_⟩
    rw [piecesText_append', piecesText_append', ht]
    simp only [List.map_cons, joinSep, colsOf_cons v hc, centeredTitle, hcl]
    congr 2
    · cases first
      · simp [piecesText_char]
      · rfl
    · simp [piecesText]

theorem writeTitleRule_eq (v : ListView T) (skin : Skin) : ∀ (t : List Nat) (first : Bool), (∀ i ∈ t, i < v.columns.length) →
    ∃ ps, v.writeTitleRule skin first t = some ps ∧ piecesText ps = joinSep '┬' first ((v.colsOf t).map fun c => List.replicate c.width '─')
  | [], first, _ => ⟨[], rfl, rfl⟩
  | i :: t, first, h => by
    obtain ⟨ps, e, ht⟩ := writeTitleRule_eq v skin t false (fun x hx => h x (by simp [hx]))
    have hi : i < v.columns.length := h i (by simp)
    have hc : v.columns[i]? = some v.columns[i] := List.getElem?_eq_getElem hi
    refine ⟨_, by simp only [writeTitleRule, columnWidth, hc, Option.map_some, Option.bind_eq_bind, Option.bind_some, e]; rfl, ?_⟩
    rw [piecesText_append', piecesText_append', ht]
    simp only [colsOf_cons v hc, List.map_cons, joinSep]
    congr 2
    · cases first
      · simp [piecesText_char]
      · rfl
    · have : ∀ n, piecesText (List.replicate n (StyledChar.new skin.table.style '─').display).flatten = List.replicate n '─' := by
        intro n
        induction n with
        | zero => rfl
        | succ n ih => rw [List.replicate_succ, List.flatten_cons, piecesText_append', ih, piecesText_char]; rfl
      exact this _

theorem writeRule_eq (v : ListView T) (skin : Skin) : ∀ (tt : List (List Nat)) (first : Bool), (∀ t ∈ tt, t ≠ [] ∧ ∀ i ∈ t, i < v.columns.length) →
    ∃ ps, v.writeRule skin first tt = some ps ∧
      piecesText ps = joinSep '┼' first (tt.map fun t => joinSep '┬' true ((v.colsOf t).map fun c => List.replicate c.width '─'))
  | [], first, _ => ⟨[], rfl, rfl⟩
  | t :: tt, first, h => by
    obtain ⟨ps, e, ht⟩ := writeRule_eq v skin tt false (fun x hx => h x (by simp [hx]))
    obtain ⟨ps', e', ht'⟩ := writeTitleRule_eq v skin t true (h t (by simp)).2
    refine ⟨_, by simp only [writeRule, e', Option.bind_eq_bind, Option.bind_some, e]; rfl, ?_⟩
    rw [piecesText_append', piecesText_append', ht, ht']
    simp only [List.map_cons, joinSep]
    congr 2
    cases first
    · simp [piecesText_char]
    · rfl

theorem displayedFrom_step (v : ListView T) {idx : Nat} (h : idx < v.rows.length) :
    v.displayedFrom idx = if v.isDisplayed idx then idx :: v.displayedFrom (idx + 1) else v.displayedFrom (idx + 1) := by
  unfold displayedFrom
  rw [show v.rows.length - idx = (v.rows.length - (idx + 1)) + 1 by omega, List.range'_succ, List.filter_cons]

theorem displayedFrom_end (v : ListView T) {idx : Nat} (h : v.rows.length ≤ idx) : v.displayedFrom idx = [] := by
  unfold displayedFrom
  rw [show v.rows.length - idx = 0 by omega]
  rfl

theorem seekIn_eq (v : ListView T) : ∀ (l : List (ListRow T)) (idx : Nat), v.rows.drop idx = l → idx ≤ v.rows.length →
    match seekIn l idx with
    | none => v.displayedFrom idx = []
    | some (i, r) => v.rows[i]? = some r ∧ v.displayedFrom idx = i :: v.displayedFrom (i + 1)
  | [], idx, hd, _ => by
    simp only [seekIn]
    exact displayedFrom_end v (List.drop_eq_nil_iff.1 hd)
  | r :: l, idx, hd, hle => by
    have hlt : idx < v.rows.length := by
      rcases Nat.lt_or_ge idx v.rows.length with h' | h'
      · exact h'
      · rw [List.drop_eq_nil_of_le h'] at hd; simp at hd
    have hr : v.rows[idx]? = some r := by
      have : (v.rows.drop idx)[0]? = some r := by rw [hd]; rfl
      rwa [List.getElem?_drop, Nat.add_zero] at this
    have hrest : v.rows.drop (idx + 1) = l := by
      have : (v.rows.drop idx).drop 1 = l := by rw [hd]; rfl
      rwa [List.drop_drop] at this
    have hdisp : v.isDisplayed idx = r.displayed := by simp [isDisplayed, hr]
    rw [displayedFrom_step v hlt, hdisp]
    unfold seekIn
    cases hc : r.displayed
    · simp only [Bool.false_eq_true, if_false]
      exact seekIn_eq v l (idx + 1) hrest (by omega)
    · simp only [if_true]
      exact ⟨hr, trivial⟩

/-- What the row of the body of the given index shows. -/
def ListView.shown (v : ListView T) (skin : Skin) (idx j : Nat) : Option (Nat × List Piece) :=
  (v.displayedFrom idx)[j]?.bind fun i => v.rows[i]?.map fun r =>
    (i, writeCells (if some i = v.selection then some v.selectionBg else none) skin r.data true v.columns)

theorem writeBody_eq (v : ListView T) (skin : Skin) (bar : Option (Nat × Nat)) (sx : Nat) : ∀ (n y idx : Nat), idx ≤ v.rows.length →
    v.area.top + y + n ≤ 65536 →
    v.writeBody skin bar sx n y idx = some ((List.range n).map fun j => ⟨v.area.left, v.area.top + y + j, v.shown skin idx j, writeBar skin bar sx v.area.top (y + j)⟩)
  | 0, y, idx, _, _ => rfl
  | n + 1, y, idx, hidx, htop => by
    have hu : u16Add v.area.top y = some (v.area.top + y) := by unfold u16Add; rw [if_pos (by simp only [u16Size]; omega)]
    have hs : v.seek idx = some (seekIn (v.rows.drop idx) idx) := by unfold seek; rw [if_pos hidx]
    have key := seekIn_eq v (v.rows.drop idx) idx rfl hidx
    simp only [writeBody, hu, hs, Option.bind_eq_bind, Option.bind_some]
    rw [List.range_succ_eq_map, List.map_cons, List.map_map]
    split
    · rename_i hnone
      rw [hnone] at key
      simp only at key
      rw [writeBody_eq v skin bar sx n (y + 1) v.rows.length (Nat.le_refl _) (by omega)]
      have hsh : ∀ j, v.shown skin idx j = none := by intro j; simp [shown, key]
      have hsh' : ∀ j, v.shown skin v.rows.length j = none := by intro j; simp [shown, displayedFrom_end v (Nat.le_refl _)]
      simp only [Option.bind_some, Nat.add_zero, hsh, hsh']
      congr 2
      apply List.map_congr_left
      intro j _
      simp only [Function.comp_apply, Nat.succ_eq_add_one]
      rw [show v.area.top + (y + 1) + j = v.area.top + y + (j + 1) by omega, show y + 1 + j = y + (j + 1) by omega]
    · rename_i i r hsome
      rw [hsome] at key
      obtain ⟨hr, hdf⟩ := key
      have hilt : i < v.rows.length := (List.getElem?_eq_some_iff.1 hr).1
      rw [writeBody_eq v skin bar sx n (y + 1) (i + 1) (by omega) (by omega)]
      simp only [Option.bind_some, Nat.add_zero]
      have h0 : v.shown skin idx 0 = some (i, writeCells (if some i = v.selection then some v.selectionBg else none) skin r.data true v.columns) := by
        simp [shown, hdf, hr]
      have hsh : ∀ j, v.shown skin idx (j + 1) = v.shown skin (i + 1) j := by intro j; simp [shown, hdf]
      rw [h0]
      congr 2
      apply List.map_congr_left
      intro j _
      simp only [Function.comp_apply, Nat.succ_eq_add_one, hsh]
      rw [show v.area.top + (y + 1) + j = v.area.top + y + (j + 1) by omega, show y + 1 + j = y + (j + 1) by omega]

theorem listCells_text (bg : Option Color) (skin : Skin) (data : T) : ∀ (cs : List (ListColumn T)) (first : Bool),
    piecesText (writeCells bg skin data first cs) = joinSep '│' first (cs.map fun c => (Spacing.mk c.width c.align).writeStr (c.extract data).con)
  | [], _ => rfl
  | c :: cs, first => by
    simp only [writeCells, List.map_cons, joinSep]
    rw [piecesText_append', piecesText_append', listCells_text bg skin data cs false]
    congr 2
    · cases first <;> simp [piecesText]
    · simp [piecesText, Spacing.writeStr]

end Verif

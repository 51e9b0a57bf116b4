import Verif.Props.ListView
import Verif.Lemmas.ListViewDisplay
import Verif.Props.Spacing
/-! Property C47: what a list view writes; and the end of C32. -/
namespace Verif.Props
open Verif ListView

variable {T : Type}

theorem groups_lt {v : ListView T} (g : TitleGroups (v.columns.map (·.title)) v.columns.length v.titles) :
    ∀ t ∈ v.titles, t ≠ [] ∧ ∀ i ∈ t, i < v.columns.length :=
  fun t ht => ⟨(g.same t ht).1, fun _ hi => g.lt ht hi⟩

private theorem writeOn_some {v : ListView T} {skin : Skin} {w : Written} (h : v.writeOn skin = some w) :
    ∃ sx titles y1 rule bar body, u16Add v.area.left v.area.width = some sx ∧ v.writeTitles skin true v.titles = some titles ∧
      u16Add v.area.top 1 = some y1 ∧ v.writeRule skin true v.titles = some rule ∧ v.scrollbar = some bar ∧
      v.writeBody skin bar sx (v.area.height - 2) 2 v.scroll = some body ∧
      w = ⟨⟨v.area.left, v.area.top, titles⟩, ⟨v.area.left, y1, rule⟩, body⟩ := by
  simp only [writeOn, Option.bind_eq_bind, Option.bind_eq_some_iff, Option.some.injEq] at h
  obtain ⟨sx, h1, titles, h2, y1, h3, rule, h4, bar, h5, body, h6, h7⟩ := h
  exact ⟨sx, titles, y1, rule, bar, body, h1, h2, h3, h4, h5, h6, h7.symm⟩

/-- C47: the title line shows, over each maximal group of successive columns of same title, this title centered. Under it the rule
draws the columns, with a tee between the columns of same title and a cross between the other ones. -/
theorem C47_header (ok : ListOp T → Prop) (area : Area) (columns : List (ListColumn T)) (v : ListView T) (h : ListHistory T)
    (hr : ReachableList ok area columns v h) (skin : Skin) (w : Written) (hw : v.writeOn skin = some w) :
    (w.titles.x = v.area.left ∧ w.titles.y = v.area.top ∧ w.rule.x = v.area.left ∧ w.rule.y = v.area.top + 1) ∧
    (∃ groups : List (List (ListColumn T)), groups.flatten = v.columns ∧
      (∀ g ∈ groups, g ≠ [] ∧ ∀ c ∈ g, ∀ d ∈ g, c.title = d.title) ∧
      (∀ (k : Nat) (g g' : List (ListColumn T)), groups[k]? = some g → groups[k + 1]? = some g' → ∀ c ∈ g, ∀ d ∈ g', c.title ≠ d.title) ∧
      piecesText w.titles.pieces = weave (groups.map centeredTitle) (List.replicate (groups.length - 1) '│')) ∧
    piecesText w.rule.pieces = weave (v.columns.map fun c => List.replicate c.width '─')
      (List.zipWith (fun c d => if c.title = d.title then '┬' else '┼') v.columns v.columns.tail) := by
  have g := groups_of_reachable hr
  obtain ⟨sx, titles, y1, rule, bar, body, h1, h2, h3, h4, h5, h6, rfl⟩ := writeOn_some hw
  obtain ⟨ps, e, ht⟩ := writeTitles_eq v skin v.titles true (groups_lt g)
  rw [h2] at e; cases e
  obtain ⟨ps, e, hrule⟩ := writeRule_eq v skin v.titles true (groups_lt g)
  rw [h4] at e; cases e
  have hy : y1 = v.area.top + 1 := by
    unfold u16Add at h3
    split at h3
    · simpa using h3.symm
    · simp at h3
  have hmem : ∀ t, ∀ c ∈ v.colsOf t, ∃ i ∈ t, v.columns[i]? = some c := by
    intro t c hc; exact List.mem_filterMap.1 hc
  have hflat : (v.titles.map v.colsOf).flatten = v.columns := by
    have : (v.titles.map v.colsOf).flatten = v.colsOf v.titles.flatten := by
      generalize v.titles = tt
      induction tt with
      | nil => rfl
      | cons t tt ih => simp only [List.map_cons, List.flatten_cons, ih]; simp [colsOf]
    rw [this, g.flat]
    unfold colsOf
    have : ∀ l : List (ListColumn T), (List.range l.length).filterMap (fun i => l[i]?) = l := by
      intro l
      induction l with
      | nil => rfl
      | cons a l ih =>
        rw [List.length_cons, List.range_succ_eq_map, List.filterMap_cons]
        simp only [List.getElem?_cons_zero, List.filterMap_map]
        congr 1
    exact this _
  have hsame : ∀ t ∈ v.titles, ∀ c ∈ v.colsOf t, ∀ d ∈ v.colsOf t, c.title = d.title := by
    intro t ht c hc d hd
    obtain ⟨i, hi, ei⟩ := hmem t c hc
    obtain ⟨j, hj, ej⟩ := hmem t d hd
    have := (g.same t ht).2 i hi j hj
    simpa [List.getElem?_map, ei, ej] using this
  have hdiff : ∀ (k : Nat) (t t' : List Nat), v.titles[k]? = some t → v.titles[k + 1]? = some t' → ∀ c ∈ v.colsOf t, ∀ d ∈ v.colsOf t', c.title ≠ d.title := by
    intro k t t' hk hk' c hc d hd
    obtain ⟨i, hi, ei⟩ := hmem t c hc
    obtain ⟨j, hj, ej⟩ := hmem t' d hd
    have := g.differ k t t' hk hk' i hi j hj
    simpa [List.getElem?_map, ei, ej] using this
  have hne : ∀ t ∈ v.titles, v.colsOf t ≠ [] := by
    intro t ht h0
    have hl := colsOf_length v t (groups_lt g t ht).2
    rw [h0] at hl
    exact (groups_lt g t ht).1 (List.length_eq_zero_iff.1 hl.symm)
  refine ⟨⟨rfl, rfl, rfl, hy⟩, ⟨v.titles.map v.colsOf, hflat, ?_, ?_, ?_⟩, ?_⟩
  · intro gr hgr
    obtain ⟨t, ht, rfl⟩ := List.mem_map.1 hgr
    exact ⟨hne t ht, hsame t ht⟩
  · intro k gr gr' hk hk'
    rw [List.getElem?_map, Option.map_eq_some_iff] at hk hk'
    obtain ⟨t, ht, rfl⟩ := hk
    obtain ⟨t', ht', rfl⟩ := hk'
    exact hdiff k t t' ht ht'
  · show piecesText titles = _
    rw [ht, joinSep_weave]
    simp [List.map_map, Function.comp_def]
  · show piecesText rule = _
    rw [hrule, ← chainSep_weave]
    have := chainSep_groups (sep := fun c d : ListColumn T => if c.title = d.title then '┬' else '┼') (f := fun c => List.replicate c.width '─')
      (c := '┬') (d := '┼') (gs := v.titles.map v.colsOf) (by
        intro gr hgr
        obtain ⟨t, ht, rfl⟩ := List.mem_map.1 hgr
        exact hne t ht) (by
        intro gr hgr a ha b hb
        obtain ⟨t, ht, rfl⟩ := List.mem_map.1 hgr
        exact if_pos (hsame t ht a ha b hb)) (by
        intro k gr gr' hk hk' a ha b hb
        rw [List.getElem?_map, Option.map_eq_some_iff] at hk hk'
        obtain ⟨t, ht, rfl⟩ := hk
        obtain ⟨t', ht', rfl⟩ := hk'
        exact if_neg (hdiff k t t' ht ht' a ha b hb))
    rw [hflat] at this
    rw [this, List.map_map]
    rfl

private theorem body_some {v : ListView T} {skin : Skin} {w : Written} (h : v.writeOn skin = some w) (hs : v.scroll ≤ v.rows.length)
    (ht : v.area.top + v.area.height < 65536) :
    ∃ bar, v.scrollbar = some bar ∧
    w.body = (List.range (v.area.height - 2)).map fun j =>
      ⟨v.area.left, v.area.top + 2 + j, v.shown skin v.scroll j, writeBar skin bar (v.area.left + v.area.width) v.area.top (2 + j)⟩ := by
  obtain ⟨sx, titles, y1, rule, bar, body, h1, h2, h3, h4, h5, h6, rfl⟩ := writeOn_some h
  have hsx : sx = v.area.left + v.area.width := by
    unfold u16Add at h1
    split at h1
    · simpa using h1.symm
    · simp at h1
  subst hsx
  refine ⟨bar, h5, ?_⟩
  show body = _
  by_cases c : 2 ≤ v.area.height
  · rw [writeBody_eq _ _ _ _ _ _ _ hs (by omega)] at h6
    simpa using h6.symm
  · rw [show v.area.height - 2 = 0 by omega] at h6 ⊢
    simpa [writeBody] using h6.symm

/-- C47: the body has a row of the screen for each row of the area after the header. They show the displayed rows of the list, in order,
starting at the scroll, and the remaining ones are cleared. -/
theorem C47_rows (v : ListView T) (skin : Skin) (w : Written) (hw : v.writeOn skin = some w) (hs : v.scroll ≤ v.rows.length)
    (ht : v.area.top + v.area.height < 65536) :
    w.body.length = v.area.height - 2 ∧
    ∀ (j : Nat) (row : BodyRow), w.body[j]? = some row →
      row.x = v.area.left ∧ row.y = v.area.top + 2 + j ∧
      row.content.map (·.1) = (v.displayedFrom v.scroll)[j]? ∧
      ∀ i ps, row.content = some (i, ps) → ∃ r, v.rows[i]? = some r ∧ r.displayed = true ∧
        piecesText ps = weave (v.columns.map fun c => (Spacing.mk c.width c.align).writeStr (c.extract r.data).con)
          (List.replicate (v.columns.length - 1) '│') := by
  obtain ⟨bar, _, hb⟩ := body_some hw hs ht
  refine ⟨by simp [hb], ?_⟩
  intro j row hj
  rw [hb, List.getElem?_map] at hj
  by_cases c : j < v.area.height - 2
  · rw [List.getElem?_range c] at hj
    simp only [Option.map_some, Option.some.injEq] at hj
    subst hj
    have hdisp : ∀ i, (v.displayedFrom v.scroll)[j]? = some i → ∃ r, v.rows[i]? = some r ∧ r.displayed = true := by
      intro i hi
      have := (List.mem_filter.1 (List.mem_of_getElem? hi)).2
      obtain ⟨hlt, hd⟩ := isDisplayed_iff.1 this
      exact ⟨v.rows[i], List.getElem?_eq_getElem hlt, hd⟩
    refine ⟨rfl, rfl, ?_, ?_⟩
    · simp only [shown]
      cases hd : (v.displayedFrom v.scroll)[j]? with
      | none => rfl
      | some i =>
        obtain ⟨r, hr, _⟩ := hdisp i hd
        simp [hr]
    · intro i ps hc
      simp only [shown, Option.bind_eq_some_iff, Option.map_eq_some_iff, Prod.mk.injEq] at hc
      obtain ⟨i', hi', r, hr, rfl, rfl⟩ := hc
      obtain ⟨r', hr', hd⟩ := hdisp _ hi'
      rw [hr] at hr'
      cases hr'
      refine ⟨r, hr, hd, ?_⟩
      rw [listCells_text, joinSep_weave]
      simp
  · rw [List.getElem?_eq_none (by simp; omega)] at hj
    simp at hj

/-- Cells of a row: pieces in even positions, the other ones being the separators. -/
private theorem cells_get (bg : Option Color) (skin : Skin) (data : T) : ∀ (cs : List (ListColumn T)) (k : Nat) (c : ListColumn T), cs[k]? = some c →
    (writeCells bg skin data true cs)[2 * k]? = some ((match bg with
      | some color => (c.extract data).style.setBg color
      | none => (c.extract data).style), (Spacing.mk c.width c.align).writeStr (c.extract data).con) ∧
    (writeCells bg skin data false cs)[2 * k + 1]? = some ((match bg with
      | some color => (c.extract data).style.setBg color
      | none => (c.extract data).style), (Spacing.mk c.width c.align).writeStr (c.extract data).con) ∧
    (writeCells bg skin data false cs)[2 * k]? = some ({ skin.table.style with bg := skin.table.style.bg.or bg }, ['│'])
  | [], _, _, h => by simp at h
  | c :: cs, 0, c', h => by
    simp only [List.getElem?_cons_zero, Option.some.injEq] at h
    subst h
    exact ⟨rfl, rfl, rfl⟩
  | c :: cs, k + 1, c', h => by
    simp only [List.getElem?_cons_succ] at h
    obtain ⟨_, h2, h3⟩ := cells_get bg skin data cs k c' h
    refine ⟨?_, ?_, ?_⟩
    · simp only [writeCells, if_true, List.nil_append, List.singleton_append]
      rw [show 2 * (k + 1) = (2 * k + 1) + 1 by omega, List.getElem?_cons_succ]
      exact h2
    · simp only [writeCells, Bool.false_eq_true, if_false, List.cons_append, List.nil_append]
      rw [show 2 * (k + 1) + 1 = (2 * k + 1) + 1 + 1 by omega, List.getElem?_cons_succ, List.getElem?_cons_succ]
      exact h2
    · simp only [writeCells, Bool.false_eq_true, if_false, List.cons_append, List.nil_append]
      rw [show 2 * (k + 1) = (2 * k) + 1 + 1 by omega, List.getElem?_cons_succ, List.getElem?_cons_succ]
      exact h3

/-- C47: the cells are written in the style they were given, with the background of the selection in the selected row and in no
other one. -/
theorem C47_styles (v : ListView T) (skin : Skin) (w : Written) (hw : v.writeOn skin = some w) (hs : v.scroll ≤ v.rows.length)
    (ht : v.area.top + v.area.height < 65536) (row : BodyRow) (hrow : row ∈ w.body) (i : Nat) (ps : List Piece)
    (hc : row.content = some (i, ps)) (k : Nat) (c : ListColumn T) (hk : v.columns[k]? = some c) :
    ∃ r, v.rows[i]? = some r ∧
      ps[2 * k]? = some (if v.selection = some i then { (c.extract r.data).style with bg := some v.selectionBg } else (c.extract r.data).style,
        (Spacing.mk c.width c.align).writeStr (c.extract r.data).con) ∧
      (∀ k', k = k' + 1 → ps[2 * k' + 1]? =
        some (if v.selection = some i ∧ skin.table.style.bg = none then { skin.table.style with bg := some v.selectionBg } else skin.table.style, ['│'])) := by
  obtain ⟨bar, _, hb⟩ := body_some hw hs ht
  rw [hb] at hrow
  obtain ⟨j, hj, rfl⟩ := List.mem_map.1 hrow
  simp only [shown, Option.bind_eq_some_iff, Option.map_eq_some_iff, Prod.mk.injEq] at hc
  obtain ⟨i', hi', r, hr, rfl, rfl⟩ := hc
  refine ⟨r, hr, ?_, ?_⟩
  · rw [(cells_get _ skin r.data v.columns k c hk).1]
    by_cases hsel : v.selection = some i'
    · rw [if_pos hsel, if_pos hsel.symm]; rfl
    · rw [if_neg hsel, if_neg (fun h => hsel h.symm)]
  · rintro k' rfl
    obtain ⟨c0, cs, hcs⟩ : ∃ c0 cs, v.columns = c0 :: cs := by
      cases hcols : v.columns with
      | nil => rw [hcols] at hk; simp at hk
      | cons c0 cs => exact ⟨c0, cs, rfl⟩
    rw [hcs] at hk ⊢
    simp only [List.getElem?_cons_succ] at hk
    have := (cells_get (if some i' = v.selection then some v.selectionBg else none) skin r.data cs k' c hk).2.2
    simp only [writeCells, if_true, List.nil_append, List.singleton_append, List.getElem?_cons_succ, this]
    congr 2
    by_cases hsel : v.selection = some i'
    · rw [if_pos hsel.symm]
      cases hbg : skin.table.style.bg with
      | none => rw [if_pos ⟨hsel, rfl⟩]; rfl
      | some b =>
        rw [if_neg (by simp)]
        show ({ skin.table.style with bg := some b } : CompoundStyle) = skin.table.style
        rw [← hbg]
    · rw [if_neg (fun h => hsel h.symm), if_neg (fun h => hsel h.1)]
      show ({ skin.table.style with bg := skin.table.style.bg.or none } : CompoundStyle) = skin.table.style
      rw [Option.or_none]

private theorem weave_length : ∀ (l : List Text) (seps : List Char), l.length - 1 ≤ seps.length →
    (weave l seps).length = (l.map List.length).sum + (l.length - 1)
  | [], _, _ => rfl
  | [a], seps, _ => by cases seps <;> simp [weave]
  | a :: b :: l, [], h => by simp at h
  | a :: b :: l, c :: cs, h => by
    have := weave_length (b :: l) cs (by simp at h ⊢; omega)
    simp only [weave, List.length_append, List.length_cons, this, List.map_cons, List.sum_cons]
    simp only [Nat.add_sub_cancel]
    omega

/-- C47: the title line, the rule and all the rows have the same number of characters: the sum of the widths of the columns, and a
separator between columns. -/
theorem C47_aligned (ok : ListOp T → Prop) (area : Area) (columns : List (ListColumn T)) (v : ListView T) (h : ListHistory T)
    (hr : ReachableList ok area columns v h) (skin : Skin) (w : Written) (hw : v.writeOn skin = some w) (hs : v.scroll ≤ v.rows.length)
    (ht : v.area.top + v.area.height < 65536) :
    (piecesText w.titles.pieces).length = (v.columns.map (·.width)).sum + (v.columns.length - 1) ∧
    (piecesText w.rule.pieces).length = (v.columns.map (·.width)).sum + (v.columns.length - 1) ∧
    ∀ row ∈ w.body, ∀ i ps, row.content = some (i, ps) → (piecesText ps).length = (v.columns.map (·.width)).sum + (v.columns.length - 1) := by
  obtain ⟨_, ⟨groups, g1, g2, g3, g4⟩, h2⟩ := C47_header ok area columns v h hr skin w hw
  refine ⟨?_, ?_, ?_⟩
  · rw [g4, weave_length _ _ (by simp), ← g1]
    have : ∀ gs : List (List (ListColumn T)), (∀ g ∈ gs, g ≠ []) →
        ((gs.map centeredTitle).map List.length).sum + gs.length = (gs.flatten.map (·.width)).sum + gs.flatten.length := by
      intro gs
      induction gs with
      | nil => intro _; rfl
      | cons g gs ih =>
        intro hne
        have ih := ih (fun x hx => hne x (by simp [hx]))
        obtain ⟨c, cs, rfl⟩ : ∃ c cs, g = c :: cs := List.exists_cons_of_ne_nil (hne g (by simp))
        have hlen : (centeredTitle (c :: cs)).length = ((c :: cs).map (·.width)).sum + cs.length := (C14_writeStr _ _).1
        simp only [List.map_cons, List.sum_cons, hlen, List.length_cons, List.flatten_cons, List.map_append, List.sum_append, List.length_append]
        omega
    have := this groups (fun g hg => (g2 g hg).1)
    have hz : groups.length = 0 ↔ groups.flatten.length = 0 := by
      constructor
      · intro h0; rw [List.length_eq_zero_iff.1 h0]; rfl
      · intro h0
        cases groups with
        | nil => rfl
        | cons g gs =>
          exfalso
          have := (g2 g (by simp)).1
          have hl : g.length = 0 := by simp only [List.flatten_cons, List.length_append] at h0; omega
          exact this (List.length_eq_zero_iff.1 hl)
    simp only [List.length_map] at this ⊢
    by_cases h0 : groups.length = 0
    · have := hz.1 h0; omega
    · have : groups.flatten.length ≠ 0 := fun h' => h0 (hz.2 h')
      omega
  · rw [h2, weave_length _ _ (by simp)]
    simp [List.map_map, Function.comp_def]
  · intro row hrow i ps hc
    obtain ⟨j, hj⟩ := List.getElem?_of_mem hrow
    obtain ⟨r, _, _, e⟩ := ((C47_rows v skin w hw hs ht).2 j row hj).2.2.2 i ps hc
    rw [e, weave_length _ _ (by simp)]
    simp only [List.map_map, Function.comp_def, List.length_map, (C14_writeStr _ _).1]

private theorem range_filter_get (p : Nat → Bool) : ∀ (n s j i : Nat),
    ((List.range' s n).filter p)[j]? = some i ↔ p i = true ∧ s ≤ i ∧ i < s + n ∧ ((List.range' s (i - s)).filter p).length = j
  | 0, s, j, i => by simp; omega
  | n + 1, s, j, i => by
    rw [List.range'_succ, List.filter_cons]
    have ih := range_filter_get p n (s + 1)
    have hlen : ∀ i, s < i → ((List.range' s (i - s)).filter p).length = (if p s then 1 else 0) + ((List.range' (s + 1) (i - (s + 1))).filter p).length := by
      intro i hi
      rw [show i - s = (i - (s + 1)) + 1 by omega, List.range'_succ, List.filter_cons]
      split <;> simp [Nat.add_comm]
    by_cases hp : p s = true
    · rw [if_pos hp]
      cases j with
      | zero =>
        simp only [List.getElem?_cons_zero, Option.some.injEq]
        constructor
        · rintro rfl; exact ⟨hp, Nat.le_refl _, by omega, by simp⟩
        · rintro ⟨_, h2, _, h4⟩
          rcases Nat.lt_or_ge s i with hlt | hge
          · rw [hlen i hlt, if_pos hp] at h4; omega
          · omega
      | succ j =>
        simp only [List.getElem?_cons_succ, ih]
        constructor
        · rintro ⟨h1, h2, h3, h4⟩
          exact ⟨h1, by omega, by omega, by rw [hlen i (by omega), if_pos hp, h4]; omega⟩
        · rintro ⟨h1, h2, h3, h4⟩
          rcases Nat.lt_or_ge s i with hlt | hge
          · rw [hlen i hlt, if_pos hp] at h4
            exact ⟨h1, by omega, by omega, by omega⟩
          · rw [show i - s = 0 by omega] at h4; simp at h4
    · rw [if_neg hp, ih]
      constructor
      · rintro ⟨h1, h2, h3, h4⟩
        exact ⟨h1, by omega, by omega, by rw [hlen i (by omega), if_neg hp, h4]; omega⟩
      · rintro ⟨h1, h2, h3, h4⟩
        rcases Nat.lt_or_ge s i with hlt | hge
        · rw [hlen i hlt, if_neg hp] at h4
          exact ⟨h1, by omega, by omega, by omega⟩
        · exact absurd (show i = s by omega) (by rintro rfl; exact hp h1)

private theorem between_range (v : ListView T) (s : Nat) : ∀ i, i ≤ v.rows.length →
    v.displayedBetween s i = ((List.range' s (i - s)).filter v.isDisplayed).length
  | 0, _ => by simp [displayedBetween]
  | i + 1, h => by
    have ih := between_range v s i (by omega)
    unfold displayedBetween at ih ⊢
    have hlt : i < v.rows.length := by omega
    rcases Nat.lt_or_ge i s with hs | hs
    · rw [show i + 1 - s = 0 by omega, List.drop_eq_nil_of_le (by simp; omega)]; rfl
    · rw [List.take_add_one, List.drop_append_of_le_length (by simp; omega), List.filter_append, List.length_append, ih,
        show i + 1 - s = (i - s) + 1 by omega, List.range'_concat, List.filter_append, List.length_append]
      congr 1
      rw [show s + 1 * (i - s) = i by omega, List.getElem?_eq_getElem hlt]
      have : v.isDisplayed i = v.rows[i].displayed := by simp [isDisplayed, List.getElem?_eq_getElem hlt]
      simp only [Option.toList_some, List.filter_cons, List.filter_nil, this]
      split <;> rfl

/-- C47: a row of the list is in the written body exactly when it's visible. -/
theorem C47_visible (v : ListView T) (skin : Skin) (w : Written) (hw : v.writeOn skin = some w) (hs : v.scroll ≤ v.rows.length)
    (ht : v.area.top + v.area.height < 65536) (i : Nat) :
    v.Visible i ↔ ∃ row ∈ w.body, ∃ ps, row.content = some (i, ps) := by
  obtain ⟨hlen, hrows⟩ := C47_rows v skin w hw hs ht
  have key : ∀ j, (v.displayedFrom v.scroll)[j]? = some i ↔ v.isDisplayed i = true ∧ v.scroll ≤ i ∧ v.displayedBetween v.scroll i = j := by
    intro j
    unfold displayedFrom
    rw [range_filter_get]
    constructor
    · rintro ⟨h1, h2, h3, h4⟩
      exact ⟨h1, h2, by rw [between_range v _ i (by omega)]; exact h4⟩
    · rintro ⟨h1, h2, h3⟩
      have := isDisplayed_lt h1
      exact ⟨h1, h2, by omega, by rw [← between_range v _ i (by omega)]; exact h3⟩
  constructor
  · rintro ⟨h1, h2, h3⟩
    have hj : v.displayedBetween v.scroll i < w.body.length := by rw [hlen]; exact h3
    have hg := List.getElem?_eq_getElem hj
    have := (hrows _ _ hg).2.2.1
    rw [(key _).2 ⟨h1, h2, rfl⟩, Option.map_eq_some_iff] at this
    obtain ⟨⟨i', ps⟩, hc, rfl⟩ := this
    exact ⟨_, List.getElem_mem hj, ps, hc⟩
  · rintro ⟨row, hrow, ps, hc⟩
    obtain ⟨j, hj⟩ := List.getElem?_of_mem hrow
    have := (hrows j row hj).2.2.1
    rw [hc] at this
    obtain ⟨h1, h2, h3⟩ := (key j).1 this.symm
    refine ⟨h1, h2, ?_⟩
    have hlt : j < w.body.length := (List.getElem?_eq_some_iff.1 hj).1
    omega

/-- C47: the scrollbar is drawn in all rows of the body when there are more displayed rows than rows in the body, in none of them if not.
It's at the column after the area. -/
theorem C47_bar (v : ListView T) (skin : Skin) (w : Written) (hw : v.writeOn skin = some w) (hs : v.scroll ≤ v.rows.length)
    (ht : v.area.top + v.area.height < 65536) (hc : v.displayedCount < 65536) :
    (v.displayedCount ≤ v.area.height - 2 → ∀ row ∈ w.body, row.bar = none) ∧
    (v.area.height - 2 < v.displayedCount → ∀ row ∈ w.body, ∃ ps, row.bar = some (v.area.left + v.area.width, row.y, ps) ∧
      (ps = skin.scrollbar.thumb.display ∨ ps = skin.scrollbar.track.display)) := by
  obtain ⟨bar, hbar, hb⟩ := body_some hw hs ht
  rw [hb]
  unfold ListView.scrollbar at hbar
  have hcount : asU16 v.displayedCount = v.displayedCount := Nat.mod_eq_of_lt hc
  rw [hcount] at hbar
  have htb : v.area.height - 2 ≠ 0 → v.tbodyHeight = v.area.height - 2 := by
    intro h0; unfold tbodyHeight; rw [if_pos (by omega)]
  constructor
  · intro hle row hrow
    obtain ⟨j, hj, rfl⟩ := List.mem_map.1 hrow
    rw [List.mem_range] at hj
    have := (C19_none_iff (asU16 v.scroll) v.displayedCount v.tbodyHeight v.area.top).2 (by rw [htb (by omega)]; exact hle)
    rw [hbar] at this
    cases this
    rfl
  · intro hlt row hrow
    obtain ⟨j, hj, rfl⟩ := List.mem_map.1 hrow
    rw [List.mem_range] at hj
    cases bar with
    | none =>
      have := (C19_none_iff _ _ _ _).1 hbar
      rw [htb (by omega)] at this
      omega
    | some tb =>
      obtain ⟨t, b⟩ := tb
      refine ⟨_, by simp only [writeBar]; rw [← Nat.add_assoc], ?_⟩
      split
      · exact .inl rfl
      · exact .inr rfl

/-- C47: in an area at the top of the screen, for a list not scrolled after its last page, the thumb is a non empty range of rows, which is
at the top exactly when the list isn't scrolled, and at the bottom when the last page is shown. -/
theorem C47_thumb (v : ListView T) (skin : Skin) (w : Written) (hw : v.writeOn skin = some w) (hs : v.scroll + (v.area.height - 2) ≤ v.displayedCount)
    (hd : v.displayedCount ≤ v.rows.length)
    (htop : v.area.top = 0) (hh : v.area.height < 65536) (h4 : 4 ≤ v.area.height) (hc : v.displayedCount < 65536) (hlt : v.area.height - 2 < v.displayedCount) :
    ∃ t b, t ≤ b ∧ t < v.area.height - 2 ∧ (t = 0 ↔ v.scroll = 0) ∧
      (v.scroll + (v.area.height - 2) = v.displayedCount → v.area.height - 3 ≤ b) ∧
      ∀ j row, w.body[j]? = some row →
        row.bar = some (v.area.left + v.area.width, row.y, if t ≤ j ∧ j ≤ b then skin.scrollbar.thumb.display else skin.scrollbar.track.display) := by
  obtain ⟨bar, hbar, hb⟩ := body_some hw (by omega) (by omega)
  have htb : v.tbodyHeight = v.area.height - 2 := by unfold tbodyHeight; rw [if_pos (by omega)]
  unfold ListView.scrollbar at hbar
  have hcount : asU16 v.displayedCount = v.displayedCount := Nat.mod_eq_of_lt hc
  have hscroll : asU16 v.scroll = v.scroll := Nat.mod_eq_of_lt (by simp only [u16Size]; omega)
  rw [hcount, hscroll, htb] at hbar
  obtain ⟨t, b, e, h1, h2, h3, h5, h6, h7, h8⟩ := C19_scrollbar v.scroll v.displayedCount (v.area.height - 2) v.area.top hlt hs (by omega) (by omega)
  rw [e] at hbar
  cases hbar
  rw [htop] at h1 h2 h5 h6 h7 h8
  refine ⟨t, b, h3, by omega, h6, fun h => by have := h8 h; omega, ?_⟩
  intro j row hj
  rw [hb, List.getElem?_map] at hj
  by_cases c : j < v.area.height - 2
  · rw [List.getElem?_range c] at hj
    simp only [Option.map_some, Option.some.injEq] at hj
    subst hj
    simp only [writeBar]
    rw [show 2 + j - 2 = j by omega, ← Nat.add_assoc]
  · rw [List.getElem?_eq_none (by simp; omega)] at hj
    simp at hj

/-- C47: the place of the thumb counts the top of the area twice: in an area whose top is at least the number of rows of the body, the
thumb is never drawn. -/
theorem C47_thumb_counterexample (v : ListView T) (skin : Skin) (w : Written) (hw : v.writeOn skin = some w) (hs : v.scroll ≤ v.rows.length)
    (ht : v.area.top + v.area.height < 65536) (htop : v.area.height - 2 ≤ v.area.top) :
    ∀ row ∈ w.body, ∀ x y ps, row.bar = some (x, y, ps) → ps = skin.scrollbar.track.display := by
  obtain ⟨bar, hbar, hb⟩ := body_some hw hs ht
  rw [hb]
  intro row hrow x y ps hps
  obtain ⟨j, hj, rfl⟩ := List.mem_map.1 hrow
  rw [List.mem_range] at hj
  cases bar with
  | none => simp [writeBar] at hps
  | some tb =>
    obtain ⟨t, b⟩ := tb
    have htt : v.area.top ≤ t := (C19_top _ _ _ _ _ _ hbar).1
    simp only [writeBar, Option.some.injEq, Prod.mk.injEq] at hps
    rw [← hps.2.2, if_neg (by omega)]

/-- C47: the scrollbar isn't in the area. -/
theorem C47_bar_counterexample (v : ListView T) (skin : Skin) (w : Written) (hw : v.writeOn skin = some w) (hs : v.scroll ≤ v.rows.length)
    (ht : v.area.top + v.area.height < 65536) (hc : v.displayedCount < 65536) (hlt : v.area.height - 2 < v.displayedCount) :
    ∀ row ∈ w.body, ∃ x y ps, row.bar = some (x, y, ps) ∧ ¬ Spec.InArea v.area x y := by
  intro row hrow
  obtain ⟨ps, e, _⟩ := (C47_bar v skin w hw hs ht hc).2 hlt row hrow
  refine ⟨_, _, ps, e, ?_⟩
  rintro ⟨i, j, hi, hj, hx, hy⟩
  omega

/-- C32: displaying the list doesn't panic, for an area on the screen and a number of rows fitting in a `u16` with the area. -/
theorem C32_write (ok : ListOp T → Prop) (area : Area) (columns : List (ListColumn T)) (v : ListView T) (h : ListHistory T)
    (hr : ReachableList ok area columns v h) (skin : Skin) (hs : v.scroll ≤ h.added.length) (hscreen : Spec.OnScreen v.area)
    (h1 : 1 ≤ v.area.height) (hlen : h.added.length + v.area.top + v.area.height < 65536) :
    (v.writeOn skin).isSome = true := by
  have g := groups_of_reachable hr
  have k := known_of_reachable hr
  have hl := k.length
  have hd : v.displayedCount ≤ v.rows.length := by rw [k.count']; exact List.length_filter_le _ _
  obtain ⟨ps, e1, _⟩ := writeTitles_eq v skin v.titles true (groups_lt g)
  obtain ⟨ps', e2, _⟩ := writeRule_eq v skin v.titles true (groups_lt g)
  have e3 : u16Add v.area.left v.area.width = some (v.area.left + v.area.width) := by
    unfold u16Add; rw [if_pos (by have := hscreen.1; simp only [u16Size]; omega)]
  have e4 : u16Add v.area.top 1 = some (v.area.top + 1) := by
    unfold u16Add; rw [if_pos (by have := hscreen.2; simp only [u16Size]; omega)]
  have e5 : ∃ bar, v.scrollbar = some bar := by
    have hb : asU16 v.scroll = v.scroll := Nat.mod_eq_of_lt (by simp only [u16Size]; omega)
    have ht : v.tbodyHeight ≤ v.area.height := by unfold tbodyHeight; split <;> omega
    exact C19_total _ _ _ _ (by rw [hb]; omega)
  obtain ⟨bar, e5⟩ := e5
  have e6 : ∃ body, v.writeBody skin bar (v.area.left + v.area.width) (v.area.height - 2) 2 v.scroll = some body := by
    by_cases c : 2 ≤ v.area.height
    · exact ⟨_, writeBody_eq _ _ _ _ _ _ _ (by omega) (by omega)⟩
    · rw [show v.area.height - 2 = 0 by omega]; exact ⟨[], rfl⟩
  obtain ⟨body, e6⟩ := e6
  simp [writeOn, e1, e2, e3, e4, e5, e6]

private theorem body_none (v : ListView T) (skin : Skin) (bar : Option (Nat × Nat)) (sx : Nat) : ∀ (n y idx : Nat), idx ≤ v.rows.length → 0 < n →
    65536 < v.area.top + y + n → v.writeBody skin bar sx n y idx = none
  | n + 1, y, idx, hidx, _, hbig => by
    by_cases c : v.area.top + y < 65536
    · have hu : u16Add v.area.top y = some (v.area.top + y) := by unfold u16Add; rw [if_pos (by simp only [u16Size]; omega)]
      have hs : v.seek idx = some (seekIn (v.rows.drop idx) idx) := by unfold seek; rw [if_pos hidx]
      simp only [writeBody, hu, hs, Option.bind_eq_bind, Option.bind_some]
      have key := seekIn_eq v (v.rows.drop idx) idx rfl hidx
      cases hf : seekIn (v.rows.drop idx) idx with
      | none => simp [body_none v skin bar sx n (y + 1) v.rows.length (Nat.le_refl _) (by omega) (by omega)]
      | some f =>
        rw [hf] at key
        obtain ⟨i, row⟩ := f
        have hi : i < v.rows.length := (List.getElem?_eq_some_iff.1 key.1).1
        simp [body_none v skin bar sx n (y + 1) (i + 1) (by omega) (by omega) (by omega)]
    · have hu : u16Add v.area.top y = none := by unfold u16Add; rw [if_neg (by simp only [u16Size]; omega)]
      simp [writeBody, hu]

/-- C32: the exact cases in which displaying the list panics: the column of the scrollbar or a row isn't a `u16`, the scroll is after the rows, or the
scrollbar can't be computed (see `C19_panics`), with the scroll and the number of rows as `u16`. -/
theorem C32_write_panics (ok : ListOp T → Prop) (area : Area) (columns : List (ListColumn T)) (v : ListView T) (h : ListHistory T)
    (hr : ReachableList ok area columns v h) (skin : Skin) : v.writeOn skin = none ↔
      65536 ≤ v.area.left + v.area.width ∨ 65536 ≤ v.area.top + 1 ∨ 2 < v.area.height ∧ 65536 < v.area.top + v.area.height ∨
      2 < v.area.height ∧ h.added.length < v.scroll ∨
      computeScrollbar (v.scroll % 65536) ((h.added.filter h.filter).length % 65536)
        (if 2 < v.area.height then v.area.height - 2 else v.area.height) v.area.top = none := by
  have g := groups_of_reachable hr
  have k := known_of_reachable hr
  have hl := k.length
  obtain ⟨ps, e1, _⟩ := writeTitles_eq v skin v.titles true (groups_lt g)
  obtain ⟨ps', e2, _⟩ := writeRule_eq v skin v.titles true (groups_lt g)
  have eb : computeScrollbar (v.scroll % 65536) ((h.added.filter h.filter).length % 65536)
      (if 2 < v.area.height then v.area.height - 2 else v.area.height) v.area.top = v.scrollbar := by
    rw [← k.count]; rfl
  rw [eb]
  by_cases c1 : 65536 ≤ v.area.left + v.area.width
  · have : u16Add v.area.left v.area.width = none := by unfold u16Add; rw [if_neg (by simp only [u16Size]; omega)]
    simp [writeOn, this, c1]
  have e3 : u16Add v.area.left v.area.width = some (v.area.left + v.area.width) := by
    unfold u16Add; rw [if_pos (by simp only [u16Size]; omega)]
  by_cases c2 : 65536 ≤ v.area.top + 1
  · have : u16Add v.area.top 1 = none := by unfold u16Add; rw [if_neg (by simp only [u16Size]; omega)]
    simp [writeOn, e1, e3, this, c2]
  have e4 : u16Add v.area.top 1 = some (v.area.top + 1) := by
    unfold u16Add; rw [if_pos (by simp only [u16Size]; omega)]
  cases e5 : v.scrollbar with
  | none => simp [writeOn, e1, e2, e3, e4, e5]
  | some bar =>
    have e6 : v.writeBody skin bar (v.area.left + v.area.width) (v.area.height - 2) 2 v.scroll = none ↔
        2 < v.area.height ∧ 65536 < v.area.top + v.area.height ∨ 2 < v.area.height ∧ h.added.length < v.scroll := by
      by_cases c3 : 2 < v.area.height
      · by_cases c4 : v.scroll ≤ v.rows.length
        · by_cases c5 : 65536 < v.area.top + v.area.height
          · rw [body_none _ _ _ _ _ _ _ c4 (by omega) (by omega)]
            simp [c3, c5]
          · rw [writeBody_eq _ _ _ _ _ _ _ c4 (by omega)]
            simp only [reduceCtorEq, false_iff]
            omega
        · obtain ⟨n, hn⟩ : ∃ n, v.area.height - 2 = n + 1 := ⟨v.area.height - 3, by omega⟩
          have hs : v.seek v.scroll = none := by unfold seek; rw [if_neg c4]
          rw [hn]
          have : v.writeBody skin bar (v.area.left + v.area.width) (n + 1) 2 v.scroll = none := by
            simp only [writeBody, hs]
            cases u16Add v.area.top 2 <;> rfl
          rw [this]
          simp only [true_iff]
          omega
      · rw [show v.area.height - 2 = 0 by omega]
        simp only [writeBody, reduceCtorEq, false_iff]
        omega
    rw [show v.writeOn skin = none ↔ v.writeBody skin bar (v.area.left + v.area.width) (v.area.height - 2) 2 v.scroll = none by
      simp only [writeOn, e1, e2, e3, e4, e5, Option.bind_eq_bind, Option.bind_some]
      cases v.writeBody skin bar (v.area.left + v.area.width) (v.area.height - 2) 2 v.scroll <;> simp, e6]
    simp only [reduceCtorEq, or_false]
    omega

/-- C32: a list of five rows too low in the terminal can't be displayed, but the same one can be one row higher. -/
example : let v := fun top => listOf ⟨0, top, 12, 5⟩ ([] : List (ListColumn Nat)) [0, 1, 2, 3, 4]
    (v 65532).writeOn {} = none ∧ ((v 65531).writeOn {}).isSome = true := by decide

/-- Columns of titles and numbers for the examples, the two last ones sharing a title. -/
def displayColumns : List (ListColumn Nat) :=
  [(ListColumn.new "key".toList 4 4 (fun n => ⟨['k', Char.ofNat (48 + n)], {}⟩)).withAlign .left, .new "v".toList 2 2 (fun _ => ⟨['a'], {}⟩),
   .new "v".toList 3 3 (fun _ => ⟨"long".toList, {}⟩)]

/-- C47: a list of five rows, one of which is filtered, in an area showing three of them. -/
example : let v := ((listOf ⟨0, 0, 12, 5⟩ displayColumns [0, 1, 2, 3, 4]).setFilter (· ≠ 1))
    v.scroll ≤ v.rows.length ∧ ∃ w, v.writeOn {} = some w ∧
      piecesText w.titles.pieces = "key │  v   ".toList ∧
      piecesText w.rule.pieces = "────┼──┬───".toList ∧
      w.body.map (fun r => r.content.map (fun c => (c.1, piecesText c.2))) =
        [some (0, "k0  │a │lon".toList), some (2, "k2  │a │lon".toList), some (3, "k3  │a │lon".toList)] ∧
      w.body.map (fun r => r.bar.map (fun b => (b.1, b.2.1))) = [some (12, 2), some (12, 3), some (12, 4)] := by
  refine ⟨by decide, _, rfl, by decide, by decide, by decide, by decide⟩

end Verif.Props

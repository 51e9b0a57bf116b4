import Verif.Spec.Panics
import Verif.Lemmas.FmtText
import Verif.Lemmas.WrapLines
import Verif.Lemmas.SkinRender
/-! Lemmas on the panics of the formatting. -/
namespace Verif
open Spec

theorem wrapTokens_total (cw : Char → Nat) (skin : Skin) (width : Nat) : ∀ (ts : List Token) (dst : FmtComposite),
    (∀ t ∈ ts, t.toCompound ≠ none) → ∃ ls, wrapTokens cw skin width dst ts = some ls := by
  intro ts
  induction ts with
  | nil => intro dst _; exact ⟨[dst], rfl⟩
  | cons t ts ih =>
    intro dst h
    have ht := h t (by simp)
    have hts := fun x (hx : x ∈ ts) => h x (by simp [hx])
    cases hc : t.toCompound with
    | none => exact absurd hc ht
    | some c =>
      unfold wrapTokens
      split
      · split
        · obtain ⟨ls, hl⟩ := ih ((followUpComposite skin dst).addCompound cw c) hts
          exact ⟨dst :: ls, by simp [hc, hl]⟩
        · exact ih dst hts
      · obtain ⟨ls, hl⟩ := ih (dst.addCompound cw c) hts
        exact ⟨ls, by simp [hc, hl]⟩

theorem mapM_some_mem {α β : Type} {f : α → Option β} : ∀ {l : List α} {r : List β}, l.mapM f = some r →
    ∀ a ∈ l, f a ≠ none := by
  intro l
  induction l with
  | nil => intro r _ a ha; cases ha
  | cons x l ih =>
    intro r h a ha
    rw [List.mapM_cons] at h
    cases hx : f x with
    | none => rw [hx] at h; simp at h
    | some b =>
      rw [hx] at h
      cases hl : l.mapM f with
      | none => rw [hl] at h; simp at h
      | some bs =>
        simp only [List.mem_cons] at ha
        rcases ha with rfl | ha
        · simp [hx]
        · exact ih hl a ha

/-- Wrapping a composite which is too large panics exactly when its bullet doesn't hold in the width. -/
theorem hardWrapComposite_total (cw : Char → Nat) (ws : Char → Bool) (skin : Skin) (fc : FmtComposite) (width : Nat)
    (h3 : 3 ≤ width) (hl : width < fc.visibleLength) (hp : prefixCols skin.indentMode fc.kind ≤ width) :
    ∃ ls, hardWrapComposite cw ws skin fc width = some (.ok ls) := by
  unfold hardWrapComposite
  rw [if_neg (by omega), if_neg (by omega)]
  simp only
  split
  · exact ⟨_, rfl⟩
  · have hm : csub width (compositeKindWidths skin fc.kind).1
        = some (width - prefixCols skin.indentMode fc.kind) := by
      rw [kindWidths_fst]; simp [csub, hp]
    rw [hm]
    simp only [Option.bind_eq_bind, Option.bind_some]
    obtain ⟨qs, g1, _, _⟩ := tokenize_ok cw ws (width - prefixCols skin.indentMode fc.kind) fc.compounds
    obtain ⟨ls, h⟩ := wrapTokens_total cw skin width _ (firstLine skin fc) (mapM_some_mem g1)
    simp only [firstLine] at h
    exact ⟨ls, by rw [h]; rfl⟩

theorem hardWrapComposite_none (cw : Char → Nat) (ws : Char → Bool) (skin : Skin) (fc : FmtComposite) (width : Nat)
    (h3 : 3 ≤ width) (hp : width < prefixCols skin.indentMode fc.kind) :
    hardWrapComposite cw ws skin fc width = none := by
  unfold hardWrapComposite
  rw [if_neg (by omega)]
  split
  · rfl
  · simp only
    split
    · rename_i a b hcut
      obtain ⟨ha, _, _⟩ := cleanCut_spec hcut
      rw [kindWidths_fst] at ha
      omega
    · have hm : csub width (compositeKindWidths skin fc.kind).1 = none := by
        rw [kindWidths_fst]; simp [csub]; omega
      rw [hm]; rfl

/-! ### Rows of tables -/

theorem wrapCell_total {cw : Char → Nat} {ws : Char → Bool} {skin : Skin} {c : FmtComposite} {w : Nat} (h3 : 3 ≤ w)
    (hp : prefixCols skin.indentMode c.kind ≤ 3) : ∃ p, wrapCell cw ws skin c w = some p := by
  unfold wrapCell
  split
  · obtain ⟨ls, h⟩ := hardWrapComposite_total cw ws skin c w h3 (by omega) (by omega)
    obtain ⟨_, _, _, l0, more, rfl, _⟩ := hardWrapComposite_text h
    exact ⟨(l0, more), by rw [h]⟩
  · exact ⟨_, rfl⟩

theorem wrapCells_total {cw : Char → Nat} {ws : Char → Bool} {skin : Skin} : ∀ (cells : List FmtComposite)
    (widths : List Nat), cells.length ≤ widths.length → (∀ w ∈ widths, 3 ≤ w) →
    (∀ c ∈ cells, prefixCols skin.indentMode c.kind ≤ 3) →
    ∃ r, wrapCells cw ws skin cells widths = some r ∧ r.length = cells.length ∧
      (∀ p ∈ r, ∃ c ∈ cells, ∃ w ∈ widths, wrapCell cw ws skin c w = some p) ∧
      ∀ c ∈ cells, ∃ p ∈ r, ∃ w ∈ widths, wrapCell cw ws skin c w = some p := by
  intro cells
  induction cells with
  | nil => intro widths _ _ _; exact ⟨[], by simp [wrapCells], rfl, by simp, by simp⟩
  | cons c cells ih =>
    intro widths hl h3 hp
    cases widths with
    | nil => simp at hl
    | cons w widths =>
      obtain ⟨r, r1, r2, r3, r4⟩ := ih widths (by simpa using hl) (fun x hx => h3 x (by simp [hx]))
        (fun x hx => hp x (by simp [hx]))
      obtain ⟨p, hw⟩ := wrapCell_total (cw := cw) (ws := ws) (h3 w (by simp)) (hp c (by simp))
      refine ⟨p :: r, by simp [wrapCells, hw, r1], by simp [r2], ?_, ?_⟩
      · intro q hq
        simp only [List.mem_cons] at hq
        rcases hq with rfl | hq
        · exact ⟨c, by simp, w, by simp, hw⟩
        · obtain ⟨c', a, w', b, e⟩ := r3 q hq
          exact ⟨c', by simp [a], w', by simp [b], e⟩
      · intro x hx
        simp only [List.mem_cons] at hx
        rcases hx with rfl | hx
        · exact ⟨p, by simp, w, by simp, hw⟩
        · obtain ⟨p', a, w', b, e⟩ := r4 x hx
          exact ⟨p', by simp [a], w', by simp [b], e⟩

theorem wrapCell_more {cw : Char → Nat} {ws : Char → Bool} {skin : Skin} {c : FmtComposite} {p : FmtComposite × List FmtComposite}
    (h : wrapCell cw ws skin c 3 = some p) : p.2 ≠ [] ↔ CellWraps cw ws skin c := by
  unfold wrapCell at h
  unfold CellWraps
  split at h
  · rename_i hv
    split at h
    · rename_i a b heq
      simp only [Option.some.injEq] at h
      subst h
      constructor
      · intro hb
        cases b with
        | nil => exact absurd rfl hb
        | cons x y => exact ⟨hv, a, x, y, heq⟩
      · rintro ⟨_, l0, l1, more, he⟩
        rw [he] at heq
        simp only [Option.some.injEq, Except.ok.injEq, List.cons.injEq] at heq
        obtain ⟨_, rfl⟩ := heq
        simp
    · simp at h
  · simp only [Option.some.injEq] at h
    subst h
    constructor
    · intro hb; exact absurd rfl hb
    · rintro ⟨hv, _⟩; omega

theorem nbNewLines_foldl (add : List (List FmtComposite)) : ∀ m, m ≤ add.foldl (fun m l => max m l.length) m ∧
    ∀ col ∈ add, col.length ≤ add.foldl (fun m l => max m l.length) m := by
  induction add with
  | nil => intro m; simp
  | cons a add ih =>
    intro m
    obtain ⟨h1, h2⟩ := ih (max m a.length)
    simp only [List.foldl_cons]
    refine ⟨by omega, ?_⟩
    intro col hc
    simp only [List.mem_cons] at hc
    rcases hc with rfl | hc
    · omega
    · exact h2 col hc

/-- The rows a row becomes: they have all the columns, except the ones after the first one when cells are missing. -/
theorem splitRow_total {cw : Char → Nat} {ws : Char → Bool} {skin : Skin} {nb : Nat} {widths : List Nat}
    {cells : List FmtComposite} (hw : widths.length = nb) (h3 : ∀ w ∈ widths, 3 ≤ w)
    (hp : ∀ c ∈ cells, prefixCols skin.indentMode c.kind ≤ 3) :
    ∃ rows, splitRow cw ws skin nb widths cells = some rows ∧
      (nb ≤ cells.length → ∀ row ∈ rows, row.length = nb) ∧
      ((∀ w ∈ widths, w = 3) → cells.length < nb →
        ((∀ row ∈ rows, nb ≤ row.length) ↔ ∀ c ∈ cells, ¬ CellWraps cw ws skin c)) := by
  obtain ⟨r, r1, r2, r3, r4⟩ := wrapCells_total (cw := cw) (ws := ws) (skin := skin) (cells.take nb) widths
    (by simp; omega) h3 (fun c hc => hp c (List.mem_of_mem_take hc))
  refine ⟨_, by simp only [splitRow, r1, Option.bind_eq_bind, Option.bind_some]; rfl, ?_, ?_⟩
  · intro hn row hrow
    simp only [List.mem_cons, List.mem_map, List.mem_range] at hrow
    rcases hrow with rfl | ⟨inl, _, rfl⟩
    · simp [r2]; omega
    · simp [newRow, r2]; omega
  · intro h3' hn
    have htake : cells.take nb = cells := List.take_of_length_le (by omega)
    rw [htake] at r2 r3 r4
    constructor
    · intro h c hc hcw
      obtain ⟨p, hpr, w, hw', e⟩ := r4 c hc
      rw [h3' w hw'] at e
      have hne := (wrapCell_more e).2 hcw
      have hlen := (nbNewLines_foldl (r.map (·.2)) 0).2 p.2 (List.mem_map.2 ⟨p, hpr, rfl⟩)
      have hpos : 0 < p.2.length := List.length_pos_iff.2 hne
      have hlt : 0 < nbNewLines (r.map (·.2)) := by unfold nbNewLines; omega
      have := h (newRow (r.map (·.2)) 0)
        (List.mem_cons_of_mem _ (List.mem_map.2 ⟨0, List.mem_range.2 hlt, rfl⟩))
      simp [newRow, r2] at this
      omega
    · intro h row hrow
      have hz := nbNewLines_zero (r.map (·.2)) (by
        intro col hc
        simp only [List.mem_map] at hc
        obtain ⟨p, hpr, rfl⟩ := hc
        obtain ⟨c, hc, w, hw', e⟩ := r3 p hpr
        rw [h3' w hw'] at e
        exact Classical.byContradiction fun hne => h c hc ((wrapCell_more e).1 hne))
      rw [hz] at hrow
      simp only [List.range_zero, List.map_nil, List.mem_singleton] at hrow
      subst hrow
      simp [r2]; omega

/-! ### Alignment -/

theorem alignRows_lengths {nb : Nat} {widths : List Nat} {cr : Bool} {height : Nat} : ∀ (rows : List FmtLine) (idx : Nat)
    (al : List Alignment) (out : List FmtLine), alignRows nb widths cr height idx al rows = some out →
    ∀ cells, .tableRow cells ∈ rows → widths.length ≤ cells.length := by
  intro rows
  induction rows with
  | nil => intro idx al out _ cells hc; cases hc
  | cons line rows ih =>
    intro idx al out h cells hc
    cases line with
    | tableRow cs =>
      simp only [alignRows, Option.bind_eq_bind] at h
      cases hs : setSpacings cs widths al with
      | none => rw [hs] at h; simp at h
      | some cs' =>
        rw [hs] at h
        simp only [Option.bind_some] at h
        cases ha : alignRows nb widths cr height (idx + 1) al rows with
        | none => rw [ha] at h; simp at h
        | some o =>
          simp only [List.mem_cons, FmtLine.tableRow.injEq] at hc
          rcases hc with rfl | hc
          · exact (setSpacings_ok _ _ _ _ hs).2.1
          · exact ih _ _ _ ha cells hc
    | tableRule rule =>
      simp only [alignRows, Option.bind_eq_bind] at h
      generalize (if cr = true then rule.setNbcols nb else rule) = R at h
      split at h
      · simp at h
      · generalize hal : List.take nb R.aligns = al' at h
        cases ha : alignRows nb widths cr height (idx + 1) al' rows with
        | none => rw [ha] at h; simp at h
        | some o =>
          simp only [List.mem_cons, reduceCtorEq, false_or] at hc
          exact ih _ _ _ ha cells hc
    | normal fc => simp [alignRows] at h
    | horizontalRule => simp [alignRows] at h

theorem alignRows_total {nb : Nat} {widths : List Nat} {cr : Bool} {height : Nat} (hw : widths.length = nb) :
    ∀ (rows : List FmtLine) (idx : Nat) (al : List Alignment), al.length = nb → (∀ l ∈ rows, IsTableLine l) →
    (∀ cells, .tableRow cells ∈ rows → nb ≤ cells.length) →
    (∀ r, .tableRule r ∈ rows → (if cr then r.setNbcols nb else r).widths.length = nb ∧
      (if cr then r.setNbcols nb else r).aligns.length = nb) →
    ∃ out, alignRows nb widths cr height idx al rows = some out := by
  intro rows
  induction rows with
  | nil => intro idx al _ _ _ _; exact ⟨[], rfl⟩
  | cons line rows ih =>
    intro idx al hal ht hr hrule
    have hl := ht line (by simp)
    have ht' : ∀ l ∈ rows, IsTableLine l := fun l h => ht l (by simp [h])
    have hr' := fun cells (h : FmtLine.tableRow cells ∈ rows) => hr cells (by simp [h])
    have hrule' := fun r (h : FmtLine.tableRule r ∈ rows) => hrule r (by simp [h])
    cases line with
    | tableRow cells =>
      have hc := hr cells (by simp)
      obtain ⟨cells', hs⟩ := setSpacings_some widths cells al (by omega) (by omega)
      obtain ⟨out, o1⟩ := ih (idx + 1) al hal ht' hr' hrule'
      exact ⟨.tableRow cells' :: out, by simp [alignRows, hs, o1]⟩
    | tableRule rule =>
      obtain ⟨r1, r2⟩ := hrule rule (by simp)
      generalize hR : (if cr then rule.setNbcols nb else rule) = R at r1 r2
      obtain ⟨out, o1⟩ := ih (idx + 1) (R.aligns.take nb) (by simp; omega) ht' hr' hrule'
      refine ⟨.tableRule ⟨rulePosition idx height R.position, widths ++ R.widths.drop nb, R.aligns⟩ :: out, ?_⟩
      simp only [alignRows, hR]
      rw [if_neg (by omega)]
      simp [o1]
    | normal fc => exact False.elim hl
    | horizontalRule => exact False.elim hl

theorem splitRows_total {cw : Char → Nat} {ws : Char → Bool} {skin : Skin} {nb : Nat} {widths : List Nat}
    (hw : widths.length = nb) (h3 : ∀ w ∈ widths, 3 ≤ w) : ∀ (lines : List FmtLine), (∀ l ∈ lines, IsTableLine l) →
    (∀ cells, .tableRow cells ∈ lines → ∀ c ∈ cells, prefixCols skin.indentMode c.kind ≤ 3) →
    ∃ out, splitRows cw ws skin nb widths lines = some out ∧ (∀ l ∈ out, IsTableLine l) ∧
      (∀ r, .tableRule r ∈ out ↔ .tableRule r ∈ lines) ∧
      ((∀ cells, .tableRow cells ∈ lines → nb ≤ cells.length) → ∀ cells, .tableRow cells ∈ out → nb ≤ cells.length) ∧
      ((∀ w ∈ widths, w = 3) → ((∀ cells, .tableRow cells ∈ out → nb ≤ cells.length) ↔
        ∀ cells, .tableRow cells ∈ lines → cells.length < nb → ∀ c ∈ cells, ¬ CellWraps cw ws skin c)) := by
  intro lines
  induction lines with
  | nil => intro _ _; exact ⟨[], rfl, by simp, by simp, by simp, by simp⟩
  | cons line lines ih =>
    intro ht hp
    obtain ⟨rest, i1, i2, i3, i4, i5⟩ := ih (fun l hl => ht l (by simp [hl])) (fun cells hc => hp cells (by simp [hc]))
    cases line with
    | tableRow cells =>
      obtain ⟨rws, h1, h2, h4⟩ := splitRow_total (cw := cw) (ws := ws) hw h3 (hp cells (by simp))
      refine ⟨rws.map .tableRow ++ rest, by simp [splitRows, i1, h1], ?_, ?_, ?_, ?_⟩
      · intro l hl
        simp only [List.mem_append, List.mem_map] at hl
        rcases hl with ⟨r, _, rfl⟩ | hl
        · trivial
        · exact i2 l hl
      · intro r
        simp only [List.mem_append, List.mem_map, reduceCtorEq, and_false, exists_false, false_or, List.mem_cons, i3]
      · intro hn cs hcs
        simp only [List.mem_append, List.mem_map, FmtLine.tableRow.injEq, exists_eq_right] at hcs
        rcases hcs with hcs | hcs
        · exact Nat.le_of_eq (h2 (hn cells (by simp)) cs hcs).symm
        · exact i4 (fun x hx => hn x (by simp [hx])) cs hcs
      · intro h3'
        have i5' := i5 h3'
        simp only [List.mem_append, List.mem_map, FmtLine.tableRow.injEq, exists_eq_right, List.mem_cons]
        constructor
        · intro h cs hcs hlt
          rcases hcs with rfl | hcs
          · exact (h4 h3' hlt).1 (fun row hrow => h row (.inl hrow))
          · exact i5'.1 (fun x hx => h x (.inr hx)) cs hcs hlt
        · intro h cs hcs
          rcases hcs with hcs | hcs
          · by_cases hlt : cells.length < nb
            · exact (h4 h3' hlt).2 (h cells (.inl rfl) hlt) cs hcs
            · exact Nat.le_of_eq (h2 (by omega) cs hcs).symm
          · exact i5'.2 (fun x hx => h x (.inr hx)) cs hcs
    | tableRule rule =>
      refine ⟨.tableRule rule :: rest, by simp [splitRows, i1], ?_, ?_, ?_, ?_⟩
      · intro l hl
        simp only [List.mem_cons] at hl
        rcases hl with rfl | hl
        · trivial
        · exact i2 l hl
      · intro r; simp [i3]
      · intro hn cs hcs
        simp only [List.mem_cons, reduceCtorEq, false_or] at hcs
        exact i4 (fun x hx => hn x (by simp [hx])) cs hcs
      · intro h3'
        simpa using i5 h3'
    | normal fc => exact False.elim (ht (.normal fc) (by simp))
    | horizontalRule => exact False.elim (ht .horizontalRule (by simp))

/-- Fixing a table panics exactly when it's ragged. -/
theorem fixTableLines_none {cw : Char → Nat} {ws : Char → Bool} {skin : Skin} {width : Nat} {tbl : List FmtLine}
    (hl : ∀ l ∈ tbl, IsTableLine l)
    (hp : ∀ cells, .tableRow cells ∈ tbl → ∀ c ∈ cells, prefixCols skin.indentMode c.kind ≤ 3) :
    fixTableLines cw ws skin (tableColumns tbl) width tbl = none ↔ Ragged cw ws skin width tbl := by
  by_cases h0 : tableColumns tbl = 0 ∨ width = 0
  · simp only [fixTableLines, h0, if_true, reduceCtorEq, false_iff]
    rintro ⟨_, cells, hc, hlt, c, hcm, _⟩
    have := le_tableColumns tbl _ hc
    simp only [lineColumns] at this
    have hpos := List.length_pos_of_mem hcm
    rcases h0 with h0 | h0
    · omega
    · subst h0; simp at hlt
  · obtain ⟨widths, w1, w2, w3, w4, w5⟩ := fixTableLines_eq cw ws skin (tableColumns tbl) width tbl hl (by omega) (by omega)
    generalize hnb : keptColumns (tableColumns tbl) width = nb at w1 w3 w4 w5
    by_cases hc : 4 * tableColumns tbl + 1 ≤ width
    · have hnb' : nb = tableColumns tbl := by rw [← hnb]; simp [keptColumns, hc]
      rw [w4 hc]
      obtain ⟨out, o1, o2, o3, o4, _⟩ := splitRows_total (cw := cw) (ws := ws) (skin := skin) w1 w2
        (tbl.map (prepLine (tableColumns tbl)))
        (by
          intro l h
          simp only [List.mem_map] at h
          obtain ⟨l0, h0, rfl⟩ := h
          have := hl l0 h0
          cases l0 <;> first | trivial | exact this)
        (by
          intro cells h c hc'
          simp only [List.mem_map] at h
          obtain ⟨l0, h0, h1⟩ := h
          cases l0 with
          | tableRow cs =>
            simp only [prepLine, FmtLine.tableRow.injEq] at h1
            subst h1
            simp only [List.mem_append] at hc'
            rcases hc' with hc' | hc'
            · exact hp cs h0 c hc'
            · rw [List.eq_of_mem_replicate hc']; simp [FmtComposite.new, prefixCols]
          | _ => simp [prepLine] at h1)
      have o4' := o4 (by
        intro cells h
        simp only [List.mem_map] at h
        obtain ⟨l0, h0, h1⟩ := h
        cases l0 with
        | tableRow cs =>
          simp only [prepLine, FmtLine.tableRow.injEq] at h1
          subst h1
          simp; omega
        | _ => simp [prepLine] at h1)
      obtain ⟨out', ho⟩ := alignRows_total (cr := false) (height := out.length) w1 out 0 (List.replicate nb .center) (by simp)
        o2 o4' (by
          intro r hr
          have hr := (o3 r).1 hr
          simp only [List.mem_map] at hr
          obtain ⟨l0, h0, hr⟩ := hr
          cases l0 with
          | tableRule rule =>
            simp only [prepLine, FmtLine.tableRule.injEq] at hr
            subst hr
            simp [FmtTableRule.setNbcols, resizeTo_length, hnb']
          | _ => simp [prepLine] at hr)
      simp only [layoutRows, o1, Option.bind_eq_bind, Option.bind_some, ho, reduceCtorEq, false_iff]
      rintro ⟨h, _⟩
      omega
    · have hnb' : nb = (width - 1) / 4 := by rw [← hnb]; simp [keptColumns, hc]
      obtain ⟨w6, w7⟩ := w5 hc
      rw [w7]
      obtain ⟨out, o1, o2, o3, _, o5⟩ := splitRows_total (cw := cw) (ws := ws) (skin := skin) w1 w2 tbl hl hp
      have o5 := o5 w6
      simp only [layoutRows, o1, Option.bind_eq_bind, Option.bind_some]
      constructor
      · intro h
        refine ⟨by omega, ?_⟩
        apply Classical.byContradiction
        intro hno
        obtain ⟨out', ho⟩ := alignRows_total (cr := true) (height := out.length) w1 out 0 (List.replicate nb .center) (by simp)
          o2 (o5.2 fun cells h1 h2 c h3 h4 => hno ⟨cells, h1, by omega, c, h3, h4⟩)
          (by intro r _; simp [FmtTableRule.setNbcols, resizeTo_length])
        rw [ho] at h
        cases h
      · rintro ⟨_, cells, h1, h2, c, h4, h5⟩
        cases ha : alignRows nb widths true out.length 0 (List.replicate nb .center) out with
        | none => rfl
        | some o =>
          have := alignRows_lengths _ _ _ _ ha
          rw [w1] at this
          exact absurd h5 (o5.1 this cells h1 (by omega) c h4)

theorem fixAllTables_each {cw : Char → Nat} {ws : Char → Bool} {skin : Skin} {width : Nat} :
    ∀ (lines out : List FmtLine), fixAllTables cw ws skin width lines = some out →
    ∀ tbl, IsTableOf lines tbl → ∃ tbl', fixTableLines cw ws skin (tableColumns tbl) width tbl = some tbl' := by
  intro lines
  induction lines using tables_induction with
  | hnil =>
    rintro out _ tbl ⟨t1, _, b, a, t3, _⟩
    simp only [List.nil_eq, List.append_eq_nil_iff] at t3
    exact absurd t3.1.2 t1
  | hother l lines hl ih =>
    intro out h tbl ht
    rw [fixAllTables_other hl] at h
    simp only [Option.map_eq_some_iff] at h
    obtain ⟨o, h1, rfl⟩ := h
    obtain ⟨t1, t2, b, a, t3, t4, t5⟩ := ht
    refine ih o h1 tbl ?_
    cases b with
    | nil =>
      cases tbl with
      | nil => exact absurd rfl t1
      | cons x tbl =>
        simp only [List.nil_append, List.cons_append, List.cons.injEq] at t3
        rw [t3.1] at hl
        exact absurd (t2 x (by simp)) hl
    | cons x b =>
      simp only [List.cons_append, List.cons.injEq] at t3
      refine ⟨t1, t2, b, a, t3.2, ?_, t5⟩
      intro y hy
      cases b with
      | nil => simp at hy
      | cons z b => exact t4 y (by simpa using hy)
  | htable tbl lines hne hl hmax ih =>
    intro out h t ht
    rw [fixAllTables_table hne hl hmax] at h
    cases h1 : fixAllTables cw ws skin width lines with
    | none => rw [h1] at h; simp at h
    | some o =>
      rw [h1] at h
      simp only [Option.bind_some, Option.map_eq_some_iff] at h
      obtain ⟨t', h2, _⟩ := h
      obtain ⟨t1, t2, b, a, t3, t4, t5⟩ := ht
      rw [List.append_assoc] at t3
      rcases List.append_eq_append_iff.1 t3 with ⟨c, hc1, hc2⟩ | ⟨c, hc1, hc2⟩
      · -- the table is after
        cases c with
        | nil =>
          simp only [List.nil_append] at hc2
          exact ih o h1 t ⟨t1, t2, [], a, by simp [hc2], by simp, t5⟩
        | cons x c =>
          refine ih o h1 t ⟨t1, t2, x :: c, a, by rw [hc2, List.append_assoc], ?_, t5⟩
          intro y hy
          exact t4 y (by rw [hc1, List.getLast?_append, hy]; rfl)
      · -- the table starts in the first one
        have hb : b = [] := by
          cases hb : b.getLast? with
          | none => simpa using hb
          | some y =>
            have hy := List.mem_of_getLast? hb
            exact absurd (hl y (by rw [hc1]; simp [hy])) (t4 y hb)
        subst hb
        simp only [List.nil_append] at hc1
        subst hc1
        have hteq : t = tbl := by
          rcases List.append_eq_append_iff.1 hc2 with ⟨d, hd1, hd2⟩ | ⟨d, hd1, hd2⟩
          · cases d with
            | nil => first | simpa using hd1 | simpa using hd1.symm
            | cons x d => first
              | exact absurd (hl x (by rw [hd1]; simp)) (t5 x (by rw [hd2]; rfl))
              | exact absurd (t2 x (by rw [hd1]; simp)) (hmax x (by rw [hd2]; rfl))
          · cases d with
            | nil => first | simpa using hd1 | simpa using hd1.symm
            | cons x d => first
              | exact absurd (hl x (by rw [hd1]; simp)) (t5 x (by rw [hd2]; rfl))
              | exact absurd (t2 x (by rw [hd1]; simp)) (hmax x (by rw [hd2]; rfl))
        rw [hteq]
        exact ⟨t', h2⟩

/-! ### Kinds of the composites -/

theorem fcOk_wrap {cw : Char → Nat} {ws : Char → Bool} {skin : Skin} {c : FmtComposite} {w : Nat}
    {ls : List FmtComposite} (h : DepthOk c.kind ∧ styleOf skin c.kind ≠ none)
    (hw : hardWrapComposite cw ws skin c w = some (.ok ls)) :
    ∀ l ∈ ls, DepthOk l.kind ∧ styleOf skin l.kind ≠ none := by
  obtain ⟨_, _, _, l0, more, rfl, h5, _, h7⟩ := hardWrapComposite_text hw
  intro l hl
  simp only [List.mem_cons] at hl
  rcases hl with rfl | hl
  · rw [h5]; exact h
  · rw [(h7 l hl).1, styleOf_followUp]; exact ⟨followUp_depth h.1, h.2⟩

/-- The composites of a line can be displayed. -/
def LineOk (skin : Skin) : FmtLine → Prop
  | .normal fc => DepthOk fc.kind ∧ styleOf skin fc.kind ≠ none
  | .tableRow cells => ∀ c ∈ cells, DepthOk c.kind ∧ styleOf skin c.kind ≠ none
  | _ => True

theorem normal_mem_tables {R : List FmtLine → List FmtLine → Prop}
    (hR : ∀ a b, R a b → ∀ l ∈ b, IsTableLine l) {lines out : List FmtLine} (h : TablesFixed R lines out)
    (fc : FmtComposite) : .normal fc ∈ out ↔ .normal fc ∈ lines := by
  induction h with
  | nil => simp
  | other _ _ ih => simp [ih]
  | @table tbl tbl' ls out hne hl hmax hr h ih =>
    have h1 : .normal fc ∉ tbl := fun h => hl _ h
    have h2 : .normal fc ∉ tbl' := fun h => hR _ _ hr _ h
    simp [h1, h2, ih]

/-- The normal lines after the tables and the code are laid out are the ones of the source, with another spacing. -/
theorem Justified.normal_mem {lines out : List FmtLine} (h : Justified lines out) :
    (∀ fc, .normal fc ∈ lines → ∃ sp, .normal { fc with spacing := sp } ∈ out) ∧
    (∀ fc, .normal fc ∈ out → ∃ sp, .normal { fc with spacing := sp } ∈ lines) ∧
    (∀ l, l ∈ out → (∃ fc, l = .normal fc) ∨ l ∈ lines) := by
  refine ⟨?_, ?_, ?_⟩
  · induction h with
    | nil => intro fc h; cases h
    | @other x ls out hl h ih =>
      intro fc hm
      simp only [List.mem_cons] at hm
      rcases hm with rfl | hm
      · exact ⟨fc.spacing, by simp⟩
      · obtain ⟨sp, hsp⟩ := ih fc hm; exact ⟨sp, by simp [hsp]⟩
    | @block blk blk' ls out w hne hc hmax hlong hlen hsp h ih =>
      intro fc hm
      simp only [List.mem_append] at hm
      rcases hm with hm | hm
      · obtain ⟨i, hi, he⟩ := List.getElem_of_mem hm
        have hi' : i < blk'.length := by omega
        obtain ⟨g, g1, g2⟩ := hsp i _ _ (List.getElem?_eq_getElem hi) (List.getElem?_eq_getElem hi')
        rw [he] at g1
        simp only [FmtLine.normal.injEq] at g1
        subst g1
        exact ⟨_, by rw [← g2]; simp [List.getElem_mem hi']⟩
      · obtain ⟨sp, hsp⟩ := ih fc hm; exact ⟨sp, by simp [hsp]⟩
  · intro fc hm
    rcases h.mem _ hm with ⟨_, h2⟩ | ⟨g, w, h1, h2, h3, _⟩
    · exact ⟨fc.spacing, h2⟩
    · simp only [FmtLine.normal.injEq] at h3
      subst h3
      exact ⟨g.spacing, h1⟩
  · intro l hm
    rcases h.mem _ hm with ⟨_, h2⟩ | ⟨g, w, _, _, h3, _⟩
    · exact .inr h2
    · exact .inl ⟨_, h3⟩

/-- Wrapping a line panics exactly when its bullet doesn't hold. -/
theorem wrapOne_none {cw : Char → Nat} {ws : Char → Bool} {skin : Skin} {width : Nat} (h3 : 3 ≤ width)
    {fc : FmtComposite} {ls : LineStyle} (hs : styleOf skin fc.kind = some ls)
    (hv : prefixCols skin.indentMode fc.kind ≤ fc.visibleLength) :
    (∀ b, wrapOne cw ws skin width (.normal fc) ≠ some (.ok b)) ↔ width < prefixCols skin.indentMode fc.kind + marginSum ls width := by
  have hm := marginSum_3 ls width h3
  simp only [wrapOne]
  rw [hardWrapLine_eq, hs]
  simp only [Option.bind_some]
  split
  · constructor
    · intro h; exact absurd rfl (h [.normal fc])
    · intro h; omega
  · by_cases hp : prefixCols skin.indentMode fc.kind ≤ width - marginSum ls width
    · obtain ⟨l, hl⟩ := hardWrapComposite_total cw ws skin fc (width - marginSum ls width) (by omega) (by omega) hp
      rw [hl]
      constructor
      · intro h; exact absurd rfl (h (l.map .normal))
      · intro h; omega
    · rw [hardWrapComposite_none cw ws skin fc (width - marginSum ls width) (by omega) (by omega)]
      constructor
      · intro _; omega
      · intro _ b h; cases h

theorem writeFmtComposite_total {skin : Skin} {fc : FmtComposite} (h : DepthOk fc.kind ∧ styleOf skin fc.kind ≠ none)
    (outer : Option Nat) (rc m : Bool) : ∃ ps, skin.writeFmtComposite fc outer rc m = some ps := by
  cases hs : styleOf skin fc.kind with
  | none => exact absurd hs h.2
  | some ls =>
    obtain ⟨pre, hp, _⟩ := writePrefix_ok skin fc.kind (fun d hd => h.1 d (.inr hd))
    unfold Skin.writeFmtComposite
    rw [lineStyle_eq, hs]
    simp only [Option.bind_eq_bind, Option.bind_some]
    rw [hp]
    exact ⟨_, rfl⟩

theorem writeFmtLine_total {skin : Skin} {l : FmtLine} (h : LineOk skin l) (outer : Option Nat) (rc : Bool) :
    ∃ ps, skin.writeFmtLine l outer rc = some ps := by
  cases l with
  | normal fc => exact writeFmtComposite_total h outer rc true
  | tableRow cells =>
    have key : ∃ ps, skin.writeCells cells = some ps := by
      have h' : ∀ c ∈ cells, DepthOk c.kind ∧ styleOf skin c.kind ≠ none := h
      clear h
      induction cells with
      | nil => exact ⟨[], rfl⟩
      | cons c cells ih =>
        obtain ⟨ps, hps⟩ := ih (fun x hx => h' x (by simp [hx]))
        obtain ⟨p, hp⟩ := writeFmtComposite_total (h' c (by simp)) none false false
        exact ⟨_, by simp only [Skin.writeCells, hps, hp]; rfl⟩
    obtain ⟨ps, hps⟩ := key
    exact ⟨_, by simp only [Skin.writeFmtLine, hps]; rfl⟩
  | tableRule rule => exact ⟨_, rfl⟩
  | horizontalRule => cases outer <;> exact ⟨_, rfl⟩

theorem mapM_total {α β : Type} {f : α → Option β} : ∀ (l : List α), (∀ a ∈ l, ∃ b, f a = some b) →
    ∃ r, l.mapM f = some r ∧ r.length = l.length := by
  intro l
  induction l with
  | nil => intro _; exact ⟨[], rfl, rfl⟩
  | cons a l ih =>
    intro h
    obtain ⟨b, hb⟩ := h a (by simp)
    obtain ⟨r, hr, hl⟩ := ih (fun x hx => h x (by simp [hx]))
    exact ⟨b :: r, by rw [List.mapM_cons, hb, hr]; rfl, by simp [hl]⟩

end Verif

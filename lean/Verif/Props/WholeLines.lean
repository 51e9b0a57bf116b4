import Verif.Props.Displayed
import Verif.Props.TblFit
import Verif.Spec.WholeLines
/-! C61: tables and texts which have enough room are laid out line by line. -/
namespace Verif.Props
open Verif Spec

/-! ### Tables -/

private theorem foldl_max_from (l : List (Nat × Nat)) : ∀ a, l.foldl (fun m c => max m c.2) a =
    max a (l.foldl (fun m c => max m c.2) 0) := by
  induction l with
  | nil => simp
  | cons x l ih => intro a; simp only [List.foldl_cons]; rw [ih (max a x.2), ih (max 0 x.2)]; omega

private theorem zipIdx_filter (cells : List FmtComposite) (ic : Nat) : ∀ k,
    ((cells.zipIdx k).map (fun ci => (ci.2, ci.1.visibleLength))).filter (fun c => c.1 = k + ic) =
      match cells[ic]? with | some c => [(k + ic, c.visibleLength)] | none => [] := by
  induction cells generalizing ic with
  | nil => intro k; simp
  | cons c cells ih =>
    intro k
    simp only [List.zipIdx_cons, List.map_cons, List.filter_cons]
    cases ic with
    | zero =>
      simp only [Nat.add_zero, decide_true, if_true, List.getElem?_cons_zero, List.cons.injEq, true_and]
      rw [List.filter_eq_nil_iff]
      intro x hx
      simp only [List.mem_map] at hx
      obtain ⟨y, hy, rfl⟩ := hx
      have := List.le_snd_of_mem_zipIdx hy
      simp; omega
    | succ ic =>
      have h0 : ¬ (k = k + (ic + 1)) := by omega
      simp only [h0, decide_false, Bool.false_eq_true, if_false, List.getElem?_cons_succ]
      have := ih ic (k + 1)
      have e : k + 1 + ic = k + (ic + 1) := by omega
      rw [e] at this
      exact this

/-- The cells seen by the fitter have the widths needed by the columns. -/
theorem prepare_needs (nb : Nat) : ∀ (tbl : List FmtLine) (r : List (Nat × Nat) × List FmtLine), prepareRows nb tbl = some r →
    ∀ ic, ic < nb → naturalWidth r.1 ic = columnNeed tbl ic := by
  intro tbl
  induction tbl with
  | nil => intro r h ic _; simp [prepareRows] at h; subst h; rfl
  | cons l tbl ih =>
    intro r h ic hic
    cases l with
    | tableRow cells =>
      simp only [prepareRows, Option.bind_eq_bind, Option.bind_eq_some_iff, Option.some.injEq] at h
      obtain ⟨r', hr', rfl⟩ := h
      have := ih r' hr' ic hic
      simp only [naturalWidth, columnNeed, List.filter_append, List.foldl_append] at this ⊢
      have hz := zipIdx_filter (cells.take nb) ic 0
      rw [Nat.zero_add] at hz
      rw [hz, ← this, List.getElem?_take_of_lt hic]
      have h3 := foldl_max_from (r'.1.filter fun c => c.1 = ic) 3
      cases cells[ic]? with
      | none => simp
      | some c =>
        simp only [List.foldl_cons, List.foldl_nil]
        have h4 := foldl_max_from (r'.1.filter fun c => c.1 = ic) (max 3 c.visibleLength)
        omega
    | tableRule rule =>
      simp only [prepareRows, Option.bind_eq_bind, Option.bind_eq_some_iff, Option.some.injEq] at h
      obtain ⟨r', hr', rfl⟩ := h
      exact ih r' hr' ic hic
    | normal fc => simp [prepareRows] at h
    | horizontalRule => simp [prepareRows] at h

theorem wrapCells_same {cw : Char → Nat} {ws : Char → Bool} {skin : Skin} : ∀ (cells : List FmtComposite) (widths : List Nat),
    cells.length ≤ widths.length →
    (∀ (ic : Nat) c w, cells[ic]? = some c → widths[ic]? = some w → c.visibleLength ≤ w) →
    wrapCells cw ws skin cells widths = some (cells.map fun c => (c, [])) := by
  intro cells
  induction cells with
  | nil => intro widths _ _; rfl
  | cons c cells ih =>
    intro widths hl h
    cases widths with
    | nil => simp at hl
    | cons w widths =>
      have h0 := h 0 c w rfl rfl
      have := ih widths (by simpa using hl) fun ic c w hc hw => h (ic + 1) c w (by simpa using hc) (by simpa using hw)
      simp [wrapCells, wrapCell, Nat.not_lt.2 h0, this]

theorem splitRow_same {cw : Char → Nat} {ws : Char → Bool} {skin : Skin} {nb : Nat} {widths : List Nat} {cells : List FmtComposite}
    (hw : widths.length = nb) (hl : cells.length = nb)
    (h : ∀ (ic : Nat) c w, cells[ic]? = some c → widths[ic]? = some w → c.visibleLength ≤ w) :
    splitRow cw ws skin nb widths cells = some [cells] := by
  have ht : cells.take nb = cells := List.take_of_length_le (by omega)
  have hz : nbNewLines ((cells.map fun c => (c, ([] : List FmtComposite))).map (·.2)) = 0 := by
    apply nbNewLines_zero
    intro col hc
    simp only [List.map_map, List.mem_map, Function.comp] at hc
    obtain ⟨_, _, rfl⟩ := hc
    rfl
  simp only [splitRow, ht, wrapCells_same cells widths (by omega) h, Option.bind_eq_bind, Option.bind_some, hz, hl, Nat.sub_self,
    List.replicate_zero, List.append_nil, List.range_zero, List.map_nil]
  simp only [List.map_map, Function.comp_def, List.map_id']

theorem splitRows_same {cw : Char → Nat} {ws : Char → Bool} {skin : Skin} {nb : Nat} {widths : List Nat} (hw : widths.length = nb) :
    ∀ (lines : List FmtLine), (∀ l ∈ lines, Ready nb widths l) → splitRows cw ws skin nb widths lines = some lines := by
  intro lines
  induction lines with
  | nil => intro _; rfl
  | cons l lines ih =>
    intro h
    have hrest := ih (fun x hx => h x (by simp [hx]))
    have hl := h l (by simp)
    cases l with
    | tableRow cells => simp [splitRows, hrest, splitRow_same hw hl.1 hl.2]
    | _ => simp [splitRows, hrest]

/-- What the alignment pass does of each line. -/
theorem alignRows_get {nb : Nat} {widths : List Nat} {height : Nat} (hw : widths.length = nb) :
    ∀ (rows out : List FmtLine) (idx : Nat) (al : List Alignment),
    alignRows nb widths false height idx al rows = some out →
    (∀ (i : Nat) cells, rows[i]? = some (.tableRow cells) → ∃ cells', out[i]? = some (.tableRow cells') ∧ SameCells cells cells' ∧
      ∀ (ic : Nat) c w, cells'[ic]? = some c → widths[ic]? = some w →
        c.spacing = some ⟨w, match lastAligns (rows.take i) with
          | some as => as.getD ic .center
          | none => al.getD ic .center⟩) ∧
    (∀ (i : Nat) rule, rows[i]? = some (.tableRule rule) → out[i]? = some (.tableRule {
      position := rulePosition (idx + i) height rule.position
      widths := widths ++ rule.widths.drop nb
      aligns := rule.aligns })) := by
  intro rows
  induction rows with
  | nil => intro out idx al _; simp
  | cons line rows ih =>
    intro out idx al h
    cases line with
    | tableRow cs =>
      simp only [alignRows, Option.bind_eq_bind, Option.bind_eq_some_iff, Option.some.injEq] at h
      obtain ⟨cs', hs, rest, hr, rfl⟩ := h
      obtain ⟨i1, i2⟩ := ih rest (idx + 1) al hr
      obtain ⟨s1, s2, s3⟩ := setSpacings_ok _ _ _ _ hs
      refine ⟨?_, ?_⟩
      · intro i cells hc
        cases i with
        | zero =>
          simp only [List.getElem?_cons_zero, Option.some.injEq, FmtLine.tableRow.injEq] at hc
          subst hc
          exact ⟨cs', rfl, s1, fun ic c w hc hw => s3 ic c w hc hw⟩
        | succ i =>
          obtain ⟨cells', h1, h2, h3⟩ := i1 i cells (by simpa using hc)
          refine ⟨cells', by simpa using h1, h2, ?_⟩
          intro ic c w hc' hw'
          rw [h3 ic c w hc' hw', List.take_succ_cons]
          simp only [lastAligns]
          cases lastAligns (rows.take i) <;> rfl
      · intro i rule hc
        cases i with
        | zero => simp at hc
        | succ i =>
          have := i2 i rule (by simpa using hc)
          rw [List.getElem?_cons_succ, this]
          have e : idx + 1 + i = idx + (i + 1) := by omega
          rw [e]
    | tableRule rule =>
      simp only [alignRows, Bool.false_eq_true, if_false] at h
      split at h
      · cases h
      · rename_i hlen
        simp only [Option.bind_eq_bind, Option.bind_eq_some_iff, Option.some.injEq] at h
        obtain ⟨rest, hr, rfl⟩ := h
        obtain ⟨i1, i2⟩ := ih rest (idx + 1) _ hr
        refine ⟨?_, ?_⟩
        · intro i cells hc
          cases i with
          | zero => simp at hc
          | succ i =>
            obtain ⟨cells', h1, h2, h3⟩ := i1 i cells (by simpa using hc)
            refine ⟨cells', by simpa using h1, h2, ?_⟩
            intro ic c w hc' hw'
            rw [h3 ic c w hc' hw', List.take_succ_cons]
            simp only [lastAligns]
            cases lastAligns (rows.take i) with
            | some as => rfl
            | none =>
              have hic : ic < nb := by have := (List.getElem?_eq_some_iff.1 hw').1; omega
              simp only [List.getD_eq_getElem?_getD, List.getElem?_take_of_lt hic]
        · intro i rule' hc
          cases i with
          | zero =>
            simp only [List.getElem?_cons_zero, Option.some.injEq, FmtLine.tableRule.injEq] at hc
            subst hc
            rfl
          | succ i =>
            have := i2 i rule' (by simpa using hc)
            rw [List.getElem?_cons_succ, this]
            have e : idx + 1 + i = idx + (i + 1) := by omega
            rw [e]
    | normal fc => simp [alignRows] at h
    | horizontalRule => simp [alignRows] at h

theorem columnNeed_ge3 (tbl : List FmtLine) (ic : Nat) : 3 ≤ columnNeed tbl ic := by
  induction tbl with
  | nil => exact Nat.le_refl _
  | cons l tbl ih => cases l <;> simp only [columnNeed] <;> omega

theorem columnNeed_cell {tbl : List FmtLine} {cells : List FmtComposite} {ic : Nat} {c : FmtComposite}
    (h : .tableRow cells ∈ tbl) (hc : cells[ic]? = some c) : c.visibleLength ≤ columnNeed tbl ic := by
  induction tbl with
  | nil => simp at h
  | cons l tbl ih =>
    simp only [List.mem_cons] at h
    rcases h with rfl | h
    · simp only [columnNeed, hc]; omega
    · have := ih h
      cases l <;> simp only [columnNeed] <;> omega

private theorem sum_ge (n : Nat) (f : Nat → Nat) (h : ∀ i, 3 ≤ f i) : 3 * n ≤ ((List.range n).map f).sum := by
  induction n with
  | zero => simp
  | succ n ih => have := h n; simp only [List.range_succ, List.map_append, List.map_cons, List.map_nil, List.sum_append_nat, List.sum_cons, List.sum_nil]; omega

theorem tableFits_columns {width : Nat} {tbl : List FmtLine} (h : TableFits width tbl) : 4 * tableColumns tbl + 1 ≤ width := by
  have := sum_ge (tableColumns tbl) (columnNeed tbl) (columnNeed_ge3 tbl)
  simp only [TableFits, columnNeeds] at h
  omega

theorem lastAligns_prep (nb : Nat) (al : Alignment) (ic : Nat) (hic : ic < nb) : ∀ (above : List FmtLine),
    (match lastAligns (above.map (prepLine nb)) with
      | some as => as.getD ic .center
      | none => al) = match lastAligns above with | some as => as.getD ic .unspecified | none => al := by
  intro above
  induction above with
  | nil => rfl
  | cons l above ih =>
    simp only [List.map_cons, lastAligns]
    cases h1 : lastAligns (above.map (prepLine nb)) <;> cases h2 : lastAligns above <;> simp only [h1, h2] at ih ⊢
    · cases l with
      | tableRule r =>
        simp only [prepLine, FmtTableRule.setNbcols, List.getD_eq_getElem?_getD, resizeTo_get _ _ _ _ hic]
        rfl
      | _ => rfl
    · exfalso
      have : ∀ (a : List FmtLine), lastAligns (a.map (prepLine nb)) = none → lastAligns a = none := by
        intro a
        induction a with
        | nil => intro _; rfl
        | cons x a iha =>
          intro h
          simp only [List.map_cons, lastAligns] at h ⊢
          cases h3 : lastAligns (a.map (prepLine nb)) with
          | some y => rw [h3] at h; simp at h
          | none =>
            rw [h3] at h
            rw [iha h3]
            cases x <;> simp_all [prepLine]
      rw [this above h1] at h2; cases h2
    · exfalso
      have : ∀ (a : List FmtLine), lastAligns a = none → lastAligns (a.map (prepLine nb)) = none := by
        intro a
        induction a with
        | nil => intro _; rfl
        | cons x a iha =>
          intro h
          simp only [List.map_cons, lastAligns] at h ⊢
          cases h3 : lastAligns a with
          | some y => rw [h3] at h; simp at h
          | none =>
            rw [h3] at h
            rw [iha h3]
            cases x <;> simp_all [prepLine]
      rw [this above h2] at h1; cases h1
    · exact ih

theorem fixTableLines_roomy {cw : Char → Nat} {ws : Char → Bool} {skin : Skin} {width : Nat} {tbl : List FmtLine}
    (hl : ∀ l ∈ tbl, IsTableLine l) (h0 : tableColumns tbl ≠ 0) (hfit : TableFits width tbl) :
    ∃ out, fixTableLines cw ws skin (tableColumns tbl) width tbl = some out ∧ LaidOut tbl out := by
  have h4 := tableFits_columns hfit
  generalize hnb : tableColumns tbl = nb at *
  obtain ⟨seen, hp⟩ := prepareRows_ok nb tbl hl
  obtain ⟨f, r, f1, f2, f3, f4, f5, f6, _⟩ := C06_fit nb width h4 seen
  have hneeds : naturalWidths seen nb = columnNeeds tbl := by
    simp only [naturalWidths, columnNeeds, hnb]
    apply List.map_congr_left
    intro ic hic
    exact prepare_needs nb tbl _ hp ic (by simpa using hic)
  have hcw : r.colWidths = columnNeeds tbl := by
    rw [hneeds] at f6
    apply f6
    simpa [TableFits, hnb] using hfit
  have hlen : (columnNeeds tbl).length = nb := by rw [← hcw]; exact f3
  have hget : ∀ ic w, (columnNeeds tbl)[ic]? = some w → w = columnNeed tbl ic := by
    intro ic w h
    have hic : ic < tableColumns tbl := by have := (List.getElem?_eq_some_iff.1 h).1; simpa [columnNeeds] using this
    simp only [columnNeeds, List.getElem?_map, List.getElem?_range hic, Option.map_some, Option.some.injEq] at h
    exact h.symm
  have hrl : ∀ cells, .tableRow cells ∈ tbl → cells.length ≤ nb := by
    intro cells h; rw [← hnb]; exact le_tableColumns tbl _ h
  have hcell : ∀ cells (ic : Nat) c, .tableRow cells ∈ tbl →
      (cells ++ List.replicate (nb - cells.length) FmtComposite.new)[ic]? = some c →
      c = cells.getD ic FmtComposite.new ∧ c.visibleLength ≤ columnNeed tbl ic := by
    intro cells ic c hm hc
    by_cases hic : ic < cells.length
    · rw [List.getElem?_append_left hic] at hc
      exact ⟨by simp [List.getD_eq_getElem?_getD, hc], columnNeed_cell hm hc⟩
    · rw [List.getElem?_append_right (by omega)] at hc
      have := List.eq_of_mem_replicate (List.mem_of_getElem? hc)
      subst this
      refine ⟨by simp [List.getD_eq_getElem?_getD, List.getElem?_eq_none (Nat.not_lt.1 hic)], ?_⟩
      simp [FmtComposite.new]
  have hready : ∀ l ∈ tbl.map (prepLine nb), Ready nb (columnNeeds tbl) l := by
    intro l hm
    simp only [List.mem_map] at hm
    obtain ⟨x, hx, rfl⟩ := hm
    cases x with
    | tableRow cells =>
      refine ⟨by have := hrl cells hx; simp; omega, ?_⟩
      intro ic c w hc hw
      rw [hget ic w hw]
      exact (hcell cells ic c hx hc).2
    | tableRule rule => trivial
    | normal fc => exact absurd (hl _ hx) id
    | horizontalRule => exact absurd (hl _ hx) id
  obtain ⟨out, ho, _⟩ := alignRows_fit (cr := false) (height := (tbl.map (prepLine nb)).length) hlen (tbl.map (prepLine nb)) 0
    (List.replicate nb .center) (by simp) hready (by
      intro rr hr
      simp only [List.mem_map] at hr
      obtain ⟨x, hx, he⟩ := hr
      cases x with
      | tableRule rule =>
        simp only [prepLine, FmtLine.tableRule.injEq] at he
        subst he
        simp [FmtTableRule.setNbcols, resizeTo_length]
      | tableRow cells => simp [prepLine] at he
      | normal fc => simp [prepLine] at he
      | horizontalRule => simp [prepLine] at he)
  refine ⟨out, ?_, ?_⟩
  · have hn : ¬ (nb = 0 ∨ width = 0) := by omega
    simp only [fixTableLines, hn, if_false, f1, hp, f2, hcw, Option.bind_eq_bind, Option.bind_some, layoutRows,
      splitRows_same hlen _ hready]
    exact ho
  · obtain ⟨a1, a2⟩ := alignRows_get hlen _ _ _ _ ho
    obtain ⟨l1, _⟩ := alignRows_length _ _ _ _ ho
    refine ⟨by simpa using l1, ?_, ?_⟩
    · intro i cells hc
      have hm := List.mem_of_getElem? hc
      obtain ⟨cells', c1, c2, c3⟩ := a1 i (cells ++ List.replicate (nb - cells.length) FmtComposite.new) (by
        simp only [List.getElem?_map, hc, Option.map_some, prepLine])
      have hcl : cells'.length = nb := by rw [← c2.length]; have := hrl cells hm; simp; omega
      refine ⟨cells', c1, by rw [hcl, hnb], ?_⟩
      intro ic c hcc
      have hic : ic < nb := by have := (List.getElem?_eq_some_iff.1 hcc).1; omega
      obtain ⟨c', e1, e2, e3, e4⟩ := c2.get hcc
      obtain ⟨e5, _⟩ := hcell cells ic c' hm e1
      have hs := c3 ic c _ hcc (List.getElem?_eq_getElem (by omega))
      rw [hget ic _ (List.getElem?_eq_getElem (by omega))] at hs
      have hal := lastAligns_prep nb .center ic hic (tbl.take i)
      have e6 : (List.replicate nb Alignment.center).getD ic .center = .center := by
        simp [List.getD_eq_getElem?_getD, hic]
      rw [← List.map_take, e6, hal] at hs
      rw [← e5]
      cases c
      cases c'
      simp only at e2 e3 e4 hs
      subst e2 e3 e4 hs
      rfl
    · intro i rule hc
      have := a2 i (rule.setNbcols nb) (by simp only [List.getElem?_map, hc, Option.map_some, prepLine])
      rw [this]
      have hi : i < tbl.length := (List.getElem?_eq_some_iff.1 hc).1
      have d : (rule.setNbcols nb).widths.drop nb = [] := by
        apply List.drop_eq_nil_of_le; simp [FmtTableRule.setNbcols, resizeTo_length]
      have ea : resizeTo .unspecified nb rule.aligns = (List.range nb).map fun ic => rule.aligns.getD ic .unspecified := by
        apply List.ext_getElem?
        intro ic
        by_cases hic : ic < nb
        · rw [resizeTo_get _ _ _ _ hic]; simp [hic]
        · rw [List.getElem?_eq_none (by rw [resizeTo_length]; omega), List.getElem?_eq_none (by simp; omega)]
      rw [d, List.append_nil, hnb, ← ea]
      simp only [rulePosition, Nat.zero_add, List.length_map]
      have e : i = tbl.length - 1 ↔ i + 1 = tbl.length := by omega
      simp only [e]
      rfl

/-- C61: when the columns of the tables have their place, with the borders, in the width, fixing the tables doesn't panic (whatever
the characters), all the lines are kept, each row in one row with the whole content of its cells, and the columns have exactly the
width they need. -/
theorem C61_tables (cw : Char → Nat) (ws : Char → Bool) (skin : Skin) (width : Nat) (lines : List FmtLine)
    (h : ∀ tbl, IsTableOf lines tbl → TableFits width tbl) :
    ∃ out, fixAllTables cw ws skin width lines = some out ∧
      TablesFixed (fun tbl tbl' => tableColumns tbl = 0 ∧ tbl' = tbl ∨ tableColumns tbl ≠ 0 ∧ LaidOut tbl tbl') lines out := by
  have key : ∀ tbl, IsTableOf lines tbl → ∃ out, fixTableLines cw ws skin (tableColumns tbl) width tbl = some out ∧
      (tableColumns tbl = 0 ∧ out = tbl ∨ tableColumns tbl ≠ 0 ∧ LaidOut tbl out) := by
    intro tbl ht
    by_cases h0 : tableColumns tbl = 0
    · exact ⟨tbl, by simp [fixTableLines, h0], .inl ⟨h0, rfl⟩⟩
    · obtain ⟨out, o1, o2⟩ := fixTableLines_roomy (cw := cw) (ws := ws) (skin := skin) ht.2.1 h0 (h tbl ht)
      exact ⟨out, o1, .inr ⟨h0, o2⟩⟩
  obtain ⟨out, ho⟩ := fixAllTables_ok (cw := cw) (ws := ws) (skin := skin) (width := width) lines
    (fun tbl ht => by obtain ⟨o, o1, _⟩ := key tbl ht; exact ⟨o, o1⟩)
  refine ⟨out, ho, ?_⟩
  have hfix := (fixAllTables_spec (R := fun tbl tbl' => fixTableLines cw ws skin (tableColumns tbl) width tbl = some tbl')
    (fun _ _ _ h => h) _ out ho).isTable
  refine hfix.imp ?_
  rintro tbl tbl' ⟨ht, hf⟩
  obtain ⟨o, o1, o2⟩ := key tbl ht
  rw [o1] at hf
  simp only [Option.some.injEq] at hf
  subst hf
  exact o2

/-! ### Texts -/

theorem matched_append {α β : Type} {R : α → β → Prop} {as as' : List α} {bs bs' : List β} (h : Matched R as bs)
    (h' : Matched R as' bs') : Matched R (as ++ as') (bs ++ bs') := by
  induction h with
  | nil => exact h'
  | cons h1 _ ih => exact .cons h1 ih

theorem matched_comp {α β γ : Type} {R : α → β → Prop} {S : β → γ → Prop} {T : α → γ → Prop} (hT : ∀ a b c, R a b → S b c → T a c) :
    ∀ {as : List α} {bs : List β} {cs : List γ}, Matched R as bs → Matched S bs cs → Matched T as cs := by
  intro as bs cs h
  induction h generalizing cs with
  | nil => intro h'; cases h'; exact .nil
  | cons h1 _ ih =>
    intro h'
    cases h' with
    | cons h2 h'' => exact .cons (hT _ _ _ h1 h2) (ih h'')

theorem matched_mem {α β : Type} {R : α → β → Prop} {as : List α} {bs : List β} (h : Matched R as bs) :
    ∀ b ∈ bs, ∃ a ∈ as, R a b := by
  induction h with
  | nil => simp
  | cons h1 _ ih =>
    intro b hb
    simp only [List.mem_cons] at hb
    rcases hb with rfl | hb
    · exact ⟨_, by simp, h1⟩
    · obtain ⟨a, ha, hR⟩ := ih b hb
      exact ⟨a, by simp [ha], hR⟩

/-- A line kept by the layout of tables which have enough room. -/
def KeptWhole : FmtLine → FmtLine → Prop
  | .tableRow cells, l' => ∃ extra cells', l' = .tableRow cells' ∧
      SameCells (cells ++ List.replicate extra FmtComposite.new) cells' ∧ ∀ c ∈ cells', c.visibleLength ≤ spacedCols c
  | .tableRule _, l' => ∃ rule', l' = .tableRule rule'
  | .normal fc, l' => l' = .normal fc
  | .horizontalRule, l' => l' = .horizontalRule

theorem laidOut_kept {tbl out : List FmtLine} (hl : ∀ l ∈ tbl, IsTableLine l) (h : LaidOut tbl out) :
    Matched KeptWhole tbl out := by
  obtain ⟨h1, h2, h3⟩ := h
  refine matched_of_get h1 ?_
  intro i l l' ha hb
  have hm := List.mem_of_getElem? ha
  cases l with
  | tableRow cells =>
    obtain ⟨cells', c1, c2, c3⟩ := h2 i cells ha
    rw [c1] at hb
    simp only [Option.some.injEq] at hb
    have hle := le_tableColumns tbl _ hm
    simp only [lineColumns] at hle
    refine ⟨tableColumns tbl - cells.length, cells', hb.symm, ?_, ?_⟩
    · simp only [SameCells]
      apply List.ext_getElem?
      intro ic
      simp only [List.getElem?_map]
      by_cases hic : ic < tableColumns tbl
      · have e := List.getElem?_eq_getElem (l := cells') (i := ic) (by omega)
        have := c3 ic _ e
        rw [e, this]
        by_cases hi : ic < cells.length
        · rw [List.getElem?_append_left hi]
          simp [List.getD_eq_getElem?_getD, List.getElem?_eq_getElem hi]
        · rw [List.getElem?_append_right (by omega), List.getElem?_replicate, if_pos (by omega)]
          simp [List.getD_eq_getElem?_getD, List.getElem?_eq_none (Nat.not_lt.1 hi)]
      · rw [List.getElem?_eq_none (by simp; omega), List.getElem?_eq_none (by omega)]
    · intro c hc
      obtain ⟨ic, hic, e⟩ := List.getElem_of_mem hc
      have := c3 ic c (by rw [List.getElem?_eq_getElem hic, e])
      rw [this]
      simp only [spacedCols, List.getD_eq_getElem?_getD]
      cases hg : cells[ic]? with
      | none => simp [FmtComposite.new]
      | some c0 => exact columnNeed_cell hm hg
  | tableRule rule =>
    rw [h3 i rule ha] at hb
    simp only [Option.some.injEq] at hb
    exact ⟨_, hb.symm⟩
  | normal fc => exact absurd (hl _ hm) id
  | horizontalRule => exact absurd (hl _ hm) id

theorem empty_kept {tbl : List FmtLine} (h : tableColumns tbl = 0) : ∀ l ∈ tbl, KeptWhole l l := by
  intro l hl
  cases l with
  | tableRow cells =>
    have := le_tableColumns tbl _ hl
    simp only [lineColumns, h, Nat.le_zero, List.length_eq_zero_iff] at this
    subst this
    exact ⟨0, [], rfl, rfl, by simp⟩
  | tableRule rule => exact ⟨rule, rfl⟩
  | normal fc => rfl
  | horizontalRule => rfl

theorem matched_refl {α : Type} {R : α → α → Prop} {l : List α} (h : ∀ a ∈ l, R a a) : Matched R l l := by
  induction l with
  | nil => exact .nil
  | cons a l ih => exact .cons (h a (by simp)) (ih fun x hx => h x (by simp [hx]))

theorem tables_kept {lines out : List FmtLine}
    (h : TablesFixed (fun tbl tbl' => tableColumns tbl = 0 ∧ tbl' = tbl ∨ tableColumns tbl ≠ 0 ∧ LaidOut tbl tbl') lines out) :
    Matched KeptWhole lines out := by
  induction h with
  | nil => exact .nil
  | @other l ls out hl _ ih => exact .cons (by cases l <;> first | rfl | exact absurd trivial hl) ih
  | @table tbl tbl' ls out hne hl hmax hR _ ih =>
    refine matched_append ?_ ih
    rcases hR with ⟨h0, rfl⟩ | ⟨_, hR⟩
    · exact matched_refl (empty_kept h0)
    · exact laidOut_kept hl hR

/-- A line kept by the justification of code. -/
def KeptCode (l l' : FmtLine) : Prop :=
  l' = l ∨ ∃ fc w, l = .normal fc ∧ l' = .normal { fc with spacing := some ⟨w, .left⟩ } ∧ fc.visibleLength ≤ w

theorem code_kept {lines out : List FmtLine} (h : Justified lines out) : Matched KeptCode lines out := by
  induction h with
  | nil => exact .nil
  | other _ _ ih => exact .cons (.inl rfl) ih
  | @block blk blk' ls out w hne hc hmax hlong hlen hsp _ ih =>
    refine matched_append (matched_of_get hlen ?_) ih
    intro i l l' ha hb
    obtain ⟨fc, f1, f2⟩ := hsp i l l' ha hb
    have := hlong.2 l (List.mem_of_getElem? ha)
    rw [f1] at this
    exact .inr ⟨fc, w, f1, f2, this⟩

/-- What becomes of a line of source. -/
def FormattedWhole (cw : Char → Nat) (skin : Skin) : MLine → FmtLine → Prop
  | .normal k cs, l => ∃ sp, l = .normal { FmtComposite.ofComposite skin cw k cs with spacing := sp } ∧
      ∀ s, sp = some s → (FmtComposite.ofComposite skin cw k cs).visibleLength ≤ s.width
  | .tableRow cells, l => ∃ extra cells', l = .tableRow cells' ∧
      SameCells (cells.map (fun c => FmtComposite.ofComposite skin cw c.1 c.2) ++ List.replicate extra FmtComposite.new) cells' ∧
      ∀ c ∈ cells', c.visibleLength ≤ spacedCols c
  | .tableRule _, l => ∃ rule', l = .tableRule rule'
  | .horizontalRule, l => l = .horizontalRule
  | .codeFence, l => l = .horizontalRule

theorem formatted_whole {cw : Char → Nat} {skin : Skin} {mlines : List MLine} {l1 l2 : List FmtLine}
    (h1 : Matched KeptWhole (mlines.map (FmtLine.ofMLine skin cw)) l1) (h2 : Matched KeptCode l1 l2) :
    Matched (FormattedWhole cw skin) mlines l2 := by
  refine matched_comp ?_ (matched_of_map_left h1) h2
  intro m l l' hk hc
  rcases hc with rfl | ⟨fc, w, rfl, rfl, hw⟩
  · cases m with
    | normal k cs => exact ⟨none, hk, by simp⟩
    | tableRow cells => exact hk
    | tableRule a => exact hk
    | horizontalRule => exact hk
    | codeFence => exact hk
  · cases m with
    | normal k cs =>
      have e : FmtLine.normal fc = .normal (FmtComposite.ofComposite skin cw k cs) := hk
      simp only [FmtLine.normal.injEq] at e
      subst e
      exact ⟨some ⟨w, .left⟩, rfl, by rintro s ⟨⟩; exact hw⟩
    | tableRow cells => obtain ⟨_, _, e, _⟩ := hk; cases e
    | tableRule a => obtain ⟨_, e⟩ := hk; cases e
    | horizontalRule => cases (show FmtLine.normal fc = .horizontalRule from hk)
    | codeFence => cases (show FmtLine.normal fc = .horizontalRule from hk)

theorem hardWrapLines_fits {cw : Char → Nat} {ws : Char → Bool} {skin : Skin} {width : Nat} {lines : List FmtLine}
    (h : ∀ l ∈ lines, Fits skin width l) : hardWrapLines cw ws skin width lines = some (.ok lines) := by
  refine hardWrapLines_flatMap cw ws skin width lines _ (fun l => [l]) ?_ (by simp)
  intro l hl
  have := h l hl
  cases l with
  | normal fc =>
    obtain ⟨ls, hs, hle⟩ := this
    simp only [wrapOne]
    rw [hardWrapLine_eq, hs]
    simp [hle, Except.map]
  | _ => rfl

/-- C61: a text which has enough room (in particular when formatted without width) is formatted and displayed without panic, one row
for each line of the source, in order, with the whole text of the line. -/
theorem C61_text (cw : Char → Nat) (ws : Char → Bool) (skin : Skin) (hsp : ∀ c, skin.specialChars c = none) (width : Option Nat)
    (mlines : List MLine) (h : RoomyText cw skin width mlines) :
    ∃ t drawn, FmtText.fromText cw ws skin mlines width = some t ∧ t.display skin = some drawn ∧
      Matched (ShownWhole skin width) mlines (drawn.map piecesText) := by
  obtain ⟨l1, hf, hfix⟩ := C61_tables cw ws skin (width.getD usizeMax) _ h.tables
  have hm := formatted_whole (tables_kept hfix) (code_kept (justifyBlocks_spec l1))
  generalize hl2 : justifyBlocks l1 = l2 at hm
  have hwrap : wrapText cw ws skin width l2 = some l2 := by
    cases width with
    | none => rfl
    | some w =>
      simp only [wrapText]
      split
      · rw [hardWrapLines_fits]
        intro l hl
        obtain ⟨m, hmm, hr⟩ := matched_mem hm l hl
        cases m with
        | normal k cs =>
          obtain ⟨sp, rfl, _⟩ := hr
          obtain ⟨_, ls, hs, hle⟩ := h.normal k cs hmm
          refine ⟨ls, hs, ?_⟩
          have hc := (GoodFc.ofComposite (cw := cw) (skin := skin) (k := k) (cs := cs) (by rw [hs]; simp) (h.normal k cs hmm).1).cached
          have := hle w rfl
          simp only [lineCols] at hc
          exact hc ▸ this
        | tableRow cells => obtain ⟨_, _, rfl, _⟩ := hr; trivial
        | tableRule a => obtain ⟨_, rfl⟩ := hr; trivial
        | horizontalRule => have e : l = .horizontalRule := hr; subst e; trivial
        | codeFence => have e : l = .horizontalRule := hr; subst e; trivial
      · rfl
  have ht : FmtText.fromText cw ws skin mlines width = some ⟨l2, width⟩ := by
    simp only [FmtText.fromText, hf, Option.bind_eq_bind, Option.bind_some, hl2, hwrap]
  have hgood : ∀ m ∈ mlines, ∀ l, FormattedWhole cw skin m l → DrawableLine cw skin l ∨ ∃ rule, l = .tableRule rule := by
    intro m hmm l hr
    cases m with
    | normal k cs =>
      obtain ⟨sp, rfl, hsp'⟩ := hr
      obtain ⟨hd, ls, hs, _⟩ := h.normal k cs hmm
      have g := GoodFc.ofComposite (cw := cw) (skin := skin) (k := k) (cs := cs) (by rw [hs]; simp) hd
      refine .inl ⟨g.styled, g.cached, ?_, fun d hd' => g.depth d (.inr hd')⟩
      cases sp with
      | none => exact Nat.le_refl _
      | some s => exact hsp' s rfl
    | tableRow cells =>
      obtain ⟨extra, cells', rfl, hsame, hfit⟩ := hr
      refine .inl ?_
      intro c hc
      obtain ⟨ic, hic, e⟩ := List.getElem_of_mem hc
      obtain ⟨c0, e0, e1, e2, e3⟩ := hsame.get (ic := ic) (c := c) (by rw [List.getElem?_eq_getElem hic, e])
      have hg : GoodFc cw skin c0 := by
        have hm0 := List.mem_of_getElem? e0
        simp only [List.mem_append, List.mem_map] at hm0
        rcases hm0 with ⟨x, hx, rfl⟩ | hm0
        · obtain ⟨x1, x2⟩ := h.cells cells hmm x hx
          exact GoodFc.ofComposite x2 x1
        · rw [List.eq_of_mem_replicate hm0]
          exact ⟨by simp [FmtComposite.new, styleOf], rfl, by intro d hd; simp [FmtComposite.new] at hd⟩
      refine ⟨by rw [← e1]; exact hg.styled, ?_, hfit c hc, fun d hd => hg.depth d (.inr (by rw [e1]; exact hd))⟩
      have := hg.cached
      simp only [lineCols, e1, e2, e3] at this ⊢
      exact this
    | tableRule a => obtain ⟨r, rfl⟩ := hr; exact .inr ⟨r, rfl⟩
    | horizontalRule => have e : l = .horizontalRule := hr; subst e; exact .inl trivial
    | codeFence => have e : l = .horizontalRule := hr; subst e; exact .inl trivial
  have hdraw : ∀ l ∈ l2, ∃ ps, skin.writeFmtLine l width false = some ps ∧ LineShown skin (width.getD 0) l (piecesText ps) := by
    intro l hl
    obtain ⟨m, hmm, hr⟩ := matched_mem hm l hl
    exact lineShown hsp (hgood m hmm l hr) width
  obtain ⟨drawn, hdr⟩ := mapM_some (f := fun l => skin.writeFmtLine l width false) (l := l2)
    (fun l hm => by obtain ⟨ps, p1, _⟩ := hdraw l hm; exact ⟨ps, p1⟩)
  refine ⟨⟨l2, width⟩, drawn, ht, hdr, ?_⟩
  refine matched_comp ?_ hm (matched_mapM (g := piecesText) hdr hdraw)
  intro m l row hr hs
  cases m with
  | normal k cs => obtain ⟨sp, rfl, _⟩ := hr; exact hs
  | tableRow cells =>
    obtain ⟨extra, cells', rfl, hsame, _⟩ := hr
    obtain ⟨n, txts, h1, h2⟩ := hs
    refine ⟨n, extra, txts, ?_, h2⟩
    have e : cells'.map (fun c => (c.kind, sourceText c.compounds)) =
        cells.map (fun c => (c.1, sourceText c.2)) ++ List.replicate extra (.paragraph, []) := by
      have := congrArg (List.map fun x : Kind × List Compound × Nat => (x.1, sourceText x.2.1)) hsame
      simp only [List.map_map, Function.comp_def, List.map_append, List.map_replicate] at this
      rw [← this]
      rfl
    rw [← e]
    exact h1
  | tableRule a => obtain ⟨r, rfl⟩ := hr; obtain ⟨n, e⟩ := hs; exact ⟨n, _, _, e⟩
  | horizontalRule => have e : l = .horizontalRule := hr; subst e; exact hs
  | codeFence => have e : l = .horizontalRule := hr; subst e; exact hs

/-- C61: a simple sufficient condition for the tables: no more than `m` columns, of cells of no more than `k` columns of text. -/
theorem C61_small_tables (w m k : Nat) (h3 : 3 ≤ k) (lines : List FmtLine) (hm : m * (k + 1) + 1 ≤ w)
    (hc : ∀ l ∈ lines, IsTableLine l → lineColumns l ≤ m)
    (hcells : ∀ cells, .tableRow cells ∈ lines → ∀ c ∈ cells, c.visibleLength ≤ k) :
    ∀ tbl, IsTableOf lines tbl → TableFits w tbl := by
  rintro tbl ⟨h1, h2, before, after, rfl, _⟩
  have hle : ∀ t : List FmtLine, (∀ l ∈ t, lineColumns l ≤ m) → tableColumns t ≤ m := by
    intro t
    induction t with
    | nil => intro _; exact Nat.zero_le _
    | cons a t ih =>
      intro h
      have := ih (fun l hl => h l (by simp [hl]))
      have := h a (by simp)
      simp only [tableColumns]; omega
  have hub := hle tbl (fun l hl => hc l (by simp [hl]) (h2 l hl))
  have hneed : ∀ ic, columnNeed tbl ic ≤ k := by
    intro ic
    have hx : ∀ cells, .tableRow cells ∈ tbl → ∀ c ∈ cells, c.visibleLength ≤ k := fun cells hcm => hcells cells (by simp [hcm])
    clear hub hle hcells hc h1 h2
    induction tbl with
    | nil => exact h3
    | cons l t ih =>
      have := ih fun cells hcm => hx cells (by simp [hcm])
      cases l with
      | tableRow cells =>
        simp only [columnNeed]
        cases hg : cells[ic]? with
        | none => simpa using this
        | some c => have := hx cells (by simp) c (List.mem_of_getElem? hg); simp only; omega
      | _ => exact this
  have hsum : ∀ n, ((List.range n).map (columnNeed tbl)).sum ≤ n * k := by
    intro n
    induction n with
    | zero => simp
    | succ n ih =>
      have := hneed n
      simp only [List.range_succ, List.map_append, List.map_cons, List.map_nil, List.sum_append_nat, List.sum_cons, List.sum_nil,
        Nat.succ_mul]
      omega
  have h4 := hsum (tableColumns tbl)
  have h5 : tableColumns tbl * k ≤ m * k := Nat.mul_le_mul_right _ hub
  have h6 : m * (k + 1) = m * k + m := by rw [Nat.mul_succ]
  simp only [TableFits, columnNeeds]
  omega

/-- The text of C11 has enough room without width... -/
theorem exText_roomy : RoomyText renderCw renderSkin none exText := by
  refine ⟨?_, exText_fits.cells, C61_small_tables _ 2 9 (by decide) _ (by decide) ?_ ?_⟩
  · intro kind cs hm
    obtain ⟨hd, ls, hs, _⟩ := exText_fits.normal kind cs hm
    exact ⟨hd, ls, hs, by simp⟩
  · decide
  · intro cells hm
    simp only [exText, List.map_cons, List.map_nil, FmtLine.ofMLine, List.mem_cons, FmtLine.tableRow.injEq, reduceCtorEq,
      List.not_mem_nil, or_false, false_or] at hm
    rcases hm with rfl | rfl
    · decide
    · decide

/-- ...and in a width of 23 columns. -/
example : RoomyText renderCw renderSkin (some 23) exText := by
  refine ⟨?_, exText_fits.cells, C61_small_tables _ 2 9 (by decide) _ (by decide) ?_ ?_⟩
  · intro kind cs hm
    obtain ⟨hd, ls, hs, _⟩ := exText_fits.normal kind cs hm
    refine ⟨hd, ls, hs, ?_⟩
    rintro w ⟨⟩
    simp only [exText, List.mem_cons, MLine.normal.injEq, reduceCtorEq, List.not_mem_nil, or_false] at hm
    rcases hm with ⟨rfl, rfl⟩ | ⟨rfl, rfl⟩ | ⟨rfl, rfl⟩ | ⟨rfl, rfl⟩ <;>
      (simp only [styleOf, Option.some.injEq, Nat.reduceLT, dite_true] at hs; subst hs; decide)
  · decide
  · intro cells hm
    simp only [exText, List.map_cons, List.map_nil, FmtLine.ofMLine, List.mem_cons, FmtLine.tableRow.injEq, reduceCtorEq,
      List.not_mem_nil, or_false, false_or] at hm
    rcases hm with rfl | rfl
    · decide
    · decide

example : ((FmtText.fromText renderCw (· == ' ') renderSkin exText none).bind fun t => (t.display renderSkin).map fun rows =>
      rows.map fun ps => String.ofList (piecesText ps)) =
    some ["A title", "  • some words to wrap", "fn f()", "{}    ", "│col │一 second│", "├────┼─────────┤", "│cell│         │", ""] := by
  decide +kernel

/-- A table which needs one more column than the width has its rows cut. -/
theorem C61_narrow_counterexample :
    fixAllTables renderCw (· == ' ') {} 5 [.tableRow [FmtComposite.ofComposite {} renderCw .paragraph [⟨"abcd".toList, {}⟩]]] =
      some [.tableRow [{ FmtComposite.ofComposite {} renderCw .paragraph [⟨"abc".toList, {}⟩] with spacing := some ⟨3, .center⟩ }],
        .tableRow [{ FmtComposite.ofComposite {} renderCw .paragraph [⟨"d".toList, {}⟩] with spacing := some ⟨3, .center⟩ }]] ∧
    ∃ out, fixAllTables renderCw (· == ' ') {} 6 [.tableRow [FmtComposite.ofComposite {} renderCw .paragraph [⟨"abcd".toList, {}⟩]]] =
      some [out] := by
  exact ⟨by decide, _, rfl⟩

end Verif.Props

import Verif.Model.Release
import Verif.Lemmas.Panics
import Verif.Spec.Release
/-! Lemmas on the formatting in a release build, compared to the one in a debug build. -/
namespace Verif
open Spec

theorem wsub_of_le {a b : Nat} (h : b ≤ a) : Release.wsub a b = a - b := by simp [Release.wsub, h]

theorem release_composite_same {cw : Char → Nat} {ws : Char → Bool} {skin : Skin} {fc : FmtComposite} {width : Nat}
    {r : Except InsufficientWidth (List FmtComposite)} (h : hardWrapComposite cw ws skin fc width = some r) :
    Release.hardWrapComposite cw ws skin fc width = some r := by
  unfold hardWrapComposite at h
  unfold Release.hardWrapComposite
  by_cases h3 : width < 3
  · rw [if_pos h3] at h ⊢; exact h
  · rw [if_neg h3] at h ⊢
    by_cases hv : fc.visibleLength > width
    · rw [if_neg (by omega)] at h
      simp only at h ⊢
      cases hc : cleanCut cw ws (compositeKindWidths skin fc.kind).1 (compositeKindWidths skin fc.kind).2 width fc.compounds with
      | some ab => rw [hc] at h; exact h
      | none =>
        rw [hc] at h
        simp only at h ⊢
        by_cases hp : (compositeKindWidths skin fc.kind).1 ≤ width
        · rw [show csub width (compositeKindWidths skin fc.kind).1 = some (width - (compositeKindWidths skin fc.kind).1) by simp [csub, hp]] at h
          rw [wsub_of_le hp]
          exact h
        · rw [show csub width (compositeKindWidths skin fc.kind).1 = none by simp [csub, hp]] at h
          cases h
    · rw [if_pos (by omega)] at h
      cases h

/-- Wrapping along tokens: a line which is too large has one word at most. -/
theorem wrapTokens_overflow (cw : Char → Nat) (ws : Char → Bool) (skin : Skin) (width max : Nat) :
    ∀ (ts : List Token) (dst : FmtComposite) (ls : List FmtComposite), wrapTokens cw skin width dst ts = some ls →
    (∀ t ∈ ts, ∃ c, ∃ p, IsTok cw ws max c t p) → (dst.visibleLength ≤ width ∨ OneWord ws dst.compounds) →
    ∀ l ∈ ls, l.visibleLength ≤ width ∨ OneWord ws l.compounds := by
  intro ts
  induction ts with
  | nil =>
    intro dst ls h _ hd l hl
    simp only [wrapTokens, Option.some.injEq] at h
    subst h
    simp only [List.mem_singleton] at hl
    subst hl; exact hd
  | cons t ts ih =>
    intro dst ls h ht hd
    obtain ⟨c, p, hp⟩ := ht t (by simp)
    have hc := hp.toCompound
    have ht' : ∀ t ∈ ts, ∃ c, ∃ p, IsTok cw ws max c t p := fun t' h' => ht t' (by simp [h'])
    unfold wrapTokens at h
    split at h
    · split at h
      · rename_i hb
        rw [hc] at h
        simp only [Option.bind_eq_bind, Option.bind_some] at h
        cases hr : wrapTokens cw skin width ((followUpComposite skin dst).addCompound cw { c with src := p }) ts with
        | none => rw [hr] at h; simp at h
        | some rest =>
          rw [hr] at h
          simp only [Option.bind_some, Option.some.injEq] at h
          subst h
          intro l hl
          simp only [List.mem_cons] at hl
          rcases hl with rfl | hl
          · exact hd
          · exact ih _ _ hr ht' (.inr (.inr ⟨{ c with src := p }, by simp [FmtComposite.addCompound, followUpComposite], hp.ink hb⟩)) l hl
      · exact ih _ _ h ht' hd
    · rename_i hw
      rw [hc] at h
      simp only [Option.bind_eq_bind, Option.bind_some] at h
      refine ih _ _ h ht' (.inl ?_)
      have := hp.width
      simp only [FmtComposite.addCompound]
      omega

/-- Wrapping a composite which is too large in a release build never panics, and keeps the text. -/
theorem release_composite_text {cw : Char → Nat} {ws : Char → Bool} {skin : Skin} {fc : FmtComposite} {width : Nat}
    (h3 : 3 ≤ width) (hv : width < fc.visibleLength) :
    ∃ ls, Release.hardWrapComposite cw ws skin fc width = some (.ok ls) ∧
      (linesChars ls).Sublist (styledChars fc.compounds) ∧
      ink ws (linesChars ls) = ink ws (styledChars fc.compounds) ∧
      (∀ l ∈ ls, l.visibleLength = lineCols cw skin.indentMode l ∧ (l.visibleLength ≤ width ∨ OneWord ws l.compounds)) ∧
      ∃ l0 more, ls = l0 :: more ∧ l0.kind = fc.kind ∧ l0.spacing = fc.spacing ∧
        ∀ l ∈ more, l.kind = followUpKind fc.kind ∧ l.spacing = fc.spacing := by
  have tok : ∀ max ls, wrapTokens cw skin width (firstLine skin fc) (tokenize cw ws fc.compounds max) = some ls →
      ∀ l ∈ ls, l.visibleLength ≤ width ∨ OneWord ws l.compounds := by
    intro max ls h
    obtain ⟨qs, g1, g2, g3⟩ := tokenize_ok cw ws max fc.compounds
    exact wrapTokens_overflow cw ws skin width max _ _ _ h
      (fun t ht => by obtain ⟨c, _, p, hp⟩ := g3 t ht; exact ⟨c, p, hp⟩) (.inr (.inl (by simp [firstLine])))
  have over : ∀ ls, Release.hardWrapComposite cw ws skin fc width = some (.ok ls) →
      ∀ l ∈ ls, l.visibleLength ≤ width ∨ OneWord ws l.compounds := by
    intro ls h
    unfold Release.hardWrapComposite at h
    rw [if_neg (by omega)] at h
    simp only at h
    cases hc : cleanCut cw ws (compositeKindWidths skin fc.kind).1 (compositeKindWidths skin fc.kind).2 width fc.compounds with
    | some ab =>
      obtain ⟨ha, hb, _⟩ := cleanCut_spec (a := ab.1) (b := ab.2) hc
      rw [hc] at h
      simp only [Option.some.injEq, Except.ok.injEq] at h
      subst h
      intro l hl
      simp only [List.mem_cons, List.not_mem_nil, or_false] at hl
      left
      rw [kindWidths_snd] at hb
      rcases hl with rfl | rfl
      · simp only [FmtComposite.addCompound]; omega
      · simp only [FmtComposite.addCompound, followUpComposite, followUpLength_eq]; omega
    | none =>
      rw [hc] at h
      cases hw : wrapTokens cw skin width (firstLine skin fc)
          (tokenize cw ws fc.compounds (Release.wsub width (compositeKindWidths skin fc.kind).1)) with
      | none => simp only [firstLine] at hw; rw [hw] at h; simp at h
      | some ls' =>
        have hw' := hw
        simp only [firstLine] at hw
        rw [hw] at h
        simp only [Option.bind_eq_bind, Option.bind_some, Option.some.injEq, Except.ok.injEq] at h
        subst h
        exact tok _ _ hw'
  by_cases hp : prefixCols skin.indentMode fc.kind ≤ width
  · obtain ⟨ls, hl⟩ := hardWrapComposite_total cw ws skin fc width h3 hv hp
    obtain ⟨h1, h2, h4, h5⟩ := hardWrapComposite_text hl
    have hr := release_composite_same hl
    exact ⟨ls, hr, h1, h2, fun l hl' => ⟨h4 l hl', over ls hr l hl'⟩, h5⟩
  · obtain ⟨qs, g1, g2, g3⟩ := tokenize_ok cw ws (Release.wsub width (compositeKindWidths skin fc.kind).1) fc.compounds
    obtain ⟨ls, hw⟩ := wrapTokens_total cw skin width _ (firstLine skin fc) (mapM_some_mem g1)
    have hr : Release.hardWrapComposite cw ws skin fc width = some (.ok ls) := by
      unfold Release.hardWrapComposite
      rw [if_neg (by omega)]
      simp only
      cases hc : cleanCut cw ws (compositeKindWidths skin fc.kind).1 (compositeKindWidths skin fc.kind).2 width fc.compounds with
      | some ab =>
        obtain ⟨ha, _, _⟩ := cleanCut_spec (a := ab.1) (b := ab.2) hc
        rw [kindWidths_fst] at ha
        omega
      | none =>
        simp only [firstLine] at hw
        simp only [hw]
        rfl
    obtain ⟨ps, h1, h2, h3, h4, h5⟩ := wrapTokens_text cw ws skin width (Release.wsub width (compositeKindWidths skin fc.kind).1) _ _ _ hw
      (fun t ht => by obtain ⟨c, _, p, hp⟩ := g3 t ht; exact ⟨c, p, hp⟩)
    rw [g1] at h1
    simp only [Option.some.injEq] at h1
    subst h1
    rw [g2] at h2 h3
    refine ⟨ls, hr, ?_, ?_, fun l hl => ⟨h4 (firstLine_good skin cw fc) l hl, over ls hr l hl⟩, h5⟩
    · simpa [firstLine, styledChars_nil] using h2
    · simpa [firstLine, styledChars_nil] using h3

/-! ### Lines -/

theorem release_line_eq (cw : Char → Nat) (ws : Char → Bool) (skin : Skin) (width : Nat) (fc : FmtComposite) :
    Release.hardWrapLine cw ws skin width fc =
      (styleOf skin fc.kind).bind fun ls =>
        if fc.visibleLength + marginSum ls width ≤ width then some (.ok [fc])
        else Release.hardWrapComposite cw ws skin fc (width - marginSum ls width) := by
  unfold Release.hardWrapLine
  rw [lineStyle_eq]
  cases h : styleOf skin fc.kind with
  | none => rfl
  | some ls =>
    have hm := margins_sum ls width
    have hle := marginSum_le ls width
    simp only [Option.bind_eq_bind, Option.bind_some]
    rw [Nat.add_assoc, hm]
    split
    · rfl
    · rw [wsub_of_le (show (ls.marginsIn (some width)).1 ≤ width by omega), wsub_of_le (by omega)]
      congr 1
      omega

theorem release_lines_same {cw : Char → Nat} {ws : Char → Bool} {skin : Skin} {width : Nat} : ∀ {lines : List FmtLine}
    {r : Except InsufficientWidth (List FmtLine)}, hardWrapLines cw ws skin width lines = some r →
    Release.hardWrapLines cw ws skin width lines = some r := by
  intro lines
  induction lines with
  | nil => intro r h; exact h
  | cons l lines ih =>
    intro r h
    have key : ∀ {r'}, hardWrapLines cw ws skin width lines = some r' → Release.hardWrapLines cw ws skin width lines = some r' := fun h => ih h
    cases l with
    | normal fc =>
      simp only [hardWrapLines, Release.hardWrapLines, Option.bind_eq_bind, Option.bind_eq_some_iff] at h ⊢
      obtain ⟨a, h1, h2⟩ := h
      refine ⟨a, ?_, ?_⟩
      · rw [hardWrapLine_eq] at h1
        rw [release_line_eq]
        cases hs : styleOf skin fc.kind with
        | none => rw [hs] at h1; cases h1
        | some ls =>
          rw [hs] at h1
          simp only [Option.bind_some] at h1 ⊢
          split at h1
          · rename_i hf; rw [if_pos hf]; exact h1
          · rename_i hf; rw [if_neg hf]; exact release_composite_same h1
      · cases a with
        | error e => exact h2
        | ok fcs =>
          simp only [Option.bind_eq_some_iff] at h2 ⊢
          obtain ⟨b, h3, h4⟩ := h2
          exact ⟨b, key h3, h4⟩
    | _ =>
      simp only [hardWrapLines, Release.hardWrapLines, Option.bind_eq_bind, Option.bind_eq_some_iff] at h ⊢
      obtain ⟨b, h3, h4⟩ := h
      exact ⟨b, key h3, h4⟩

/-! ### Tables -/

theorem release_cell {cw : Char → Nat} {ws : Char → Bool} {skin : Skin} {c : FmtComposite} {w : Nat} (h3 : 3 ≤ w)
    (hp : prefixCols skin.indentMode c.kind ≤ 3) : Release.wrapCell cw ws skin c w = wrapCell cw ws skin c w := by
  unfold Release.wrapCell wrapCell
  by_cases hv : c.visibleLength > w
  · obtain ⟨ls, h⟩ := hardWrapComposite_total cw ws skin c w h3 (by omega) (by omega)
    rw [if_pos hv, if_pos hv, h, release_composite_same h]
    rfl
  · rw [if_neg hv, if_neg hv]

theorem release_cells {cw : Char → Nat} {ws : Char → Bool} {skin : Skin} : ∀ (cells : List FmtComposite) (widths : List Nat),
    (∀ w ∈ widths, 3 ≤ w) → (∀ c ∈ cells, prefixCols skin.indentMode c.kind ≤ 3) →
    Release.wrapCells cw ws skin cells widths = wrapCells cw ws skin cells widths := by
  intro cells
  induction cells with
  | nil => intro widths _ _; simp [Release.wrapCells, wrapCells]
  | cons c cells ih =>
    intro widths h3 hp
    cases widths with
    | nil => simp [Release.wrapCells, wrapCells]
    | cons w widths =>
      simp only [Release.wrapCells, wrapCells]
      rw [release_cell (h3 w (by simp)) (hp c (by simp)), ih widths (fun x hx => h3 x (by simp [hx])) (fun x hx => hp x (by simp [hx]))]

theorem release_rows {cw : Char → Nat} {ws : Char → Bool} {skin : Skin} {nb : Nat} {widths : List Nat} (h3 : ∀ w ∈ widths, 3 ≤ w) :
    ∀ (lines : List FmtLine), (∀ cells, .tableRow cells ∈ lines → ∀ c ∈ cells, prefixCols skin.indentMode c.kind ≤ 3) →
    Release.splitRows cw ws skin nb widths lines = splitRows cw ws skin nb widths lines := by
  intro lines
  induction lines with
  | nil => intro _; rfl
  | cons l lines ih =>
    intro hp
    have ih := ih fun cells hc => hp cells (by simp [hc])
    cases l with
    | tableRow cells =>
      simp only [Release.splitRows, splitRows, Release.splitRow, splitRow]
      rw [ih, release_cells (cells.take nb) widths h3 (fun c hc => hp cells (by simp) c (List.mem_of_mem_take hc))]
    | _ => simp only [Release.splitRows, splitRows]; rw [ih]

theorem release_table {cw : Char → Nat} {ws : Char → Bool} {skin : Skin} {n width : Nat} {lines : List FmtLine}
    (hl : ∀ l ∈ lines, IsTableLine l)
    (hp : ∀ cells, .tableRow cells ∈ lines → ∀ c ∈ cells, prefixCols skin.indentMode c.kind ≤ 3) :
    Release.fixTableLines cw ws skin n width lines = fixTableLines cw ws skin n width lines := by
  by_cases h0 : n = 0 ∨ width = 0
  · simp only [Release.fixTableLines, fixTableLines, h0, if_true]
  · simp only [Release.fixTableLines, fixTableLines, h0, if_false]
    by_cases h : 4 * n + 1 ≤ width
    · obtain ⟨seen, hpr⟩ := prepareRows_ok n lines hl
      obtain ⟨f, r, f1, f2, f3, f4, f5⟩ := fitter_widths n width h seen
      simp only [f1, hpr, f2, Option.bind_eq_bind, Option.bind_some, Release.layoutRows, layoutRows]
      rw [release_rows f4]
      intro cells h c hc'
      simp only [List.mem_map] at h
      obtain ⟨l0, h0, h1⟩ := h
      cases l0 with
      | tableRow cs =>
        simp only [prepLine, FmtLine.tableRow.injEq] at h1
        subst h1
        simp only [List.mem_append] at hc'
        rcases hc' with hc' | hc'
        · exact hp cs h0 c hc'
        · rw [List.eq_of_mem_replicate hc']; simp [FmtComposite.new, prefixCols]
      | _ => simp [prepLine] at h1
    · have hnew : TblFit.new n width = some none := by
        have : width < n * 4 + 1 := by omega
        simp [TblFit.new, this]
      simp only [hnew, Option.bind_eq_bind, Option.bind_some, csub_of_le (show 1 ≤ width by omega), wsub_of_le (show 1 ≤ width by omega),
        Release.layoutRows, layoutRows]
      rw [release_rows (fun w hw => by rw [List.eq_of_mem_replicate hw]; exact Nat.le_refl _) _ hp]

theorem release_tables_append {cw : Char → Nat} {ws : Char → Bool} {skin : Skin} {width : Nat} :
    ∀ (a b : List Table) (lines : List FmtLine), Release.fixTables cw ws skin width (a ++ b) lines =
      (Release.fixTables cw ws skin width a lines).bind (Release.fixTables cw ws skin width b) := by
  intro a
  induction a with
  | nil => intro b lines; rfl
  | cons t a ih =>
    intro b lines
    simp only [List.cons_append, Release.fixTables, Option.bind_eq_bind]
    cases Release.fixColumns cw ws skin width t lines with
    | none => rfl
    | some l => exact ih b l

theorem release_tables_shift {cw : Char → Nat} {ws : Char → Bool} {skin : Skin} {width : Nat} (pre : List FmtLine) :
    ∀ (ts : List Table) (lines : List FmtLine),
    Release.fixTables cw ws skin width (ts.map (Table.shift pre.length)) (pre ++ lines) =
      (Release.fixTables cw ws skin width ts lines).map (pre ++ ·) := by
  intro ts
  induction ts with
  | nil => intro lines; rfl
  | cons t ts ih =>
    intro lines
    have e1 : ((pre ++ lines).drop (t.start + pre.length)) = lines.drop t.start := by
      rw [List.drop_append, List.drop_eq_nil_of_le (by omega)]
      simp
    have e2 : ((pre ++ lines).take (t.start + pre.length)) = pre ++ lines.take t.start := by
      rw [List.take_append, List.take_of_length_le (by omega)]
      simp
    have e3 : ((pre ++ lines).drop (t.start + pre.length + t.height)) = lines.drop (t.start + t.height) := by
      rw [List.drop_append, List.drop_eq_nil_of_le (by omega)]
      simp only [List.nil_append]
      congr 1; omega
    simp only [List.map_cons, Release.fixTables, Release.fixColumns, Table.shift, Option.bind_eq_bind, e1, e2, e3]
    cases Release.fixTableLines cw ws skin t.nbcols width (List.take t.height (List.drop t.start lines)) with
    | none => rfl
    | some mid =>
      simp only [Option.bind_some, List.append_assoc]
      exact ih _

theorem release_all_other {cw : Char → Nat} {ws : Char → Bool} {skin : Skin} {width : Nat} {l : FmtLine}
    (hl : ¬ IsTableLine l) (lines : List FmtLine) :
    Release.fixAllTables cw ws skin width (l :: lines) = (Release.fixAllTables cw ws skin width lines).map (l :: ·) := by
  unfold Release.fixAllTables findTables
  have h1 : findTablesLoop 0 none (l :: lines) = (findTablesLoop 0 none lines).map (Table.shift 1) := by
    simp only [findTablesLoop, tableCols_none hl]
    exact findTablesLoop_shift 1 lines 0 none
  rw [h1, ← List.map_reverse]
  exact release_tables_shift [l] _ lines

theorem release_all_table {cw : Char → Nat} {ws : Char → Bool} {skin : Skin} {width : Nat} {tbl lines : List FmtLine}
    (hne : tbl ≠ []) (hl : ∀ l ∈ tbl, IsTableLine l) (hmax : ∀ l, lines.head? = some l → ¬ IsTableLine l) :
    Release.fixAllTables cw ws skin width (tbl ++ lines) = (Release.fixAllTables cw ws skin width lines).bind fun out =>
      (Release.fixTableLines cw ws skin (tableColumns tbl) width tbl).map (· ++ out) := by
  cases tbl with
  | nil => exact absurd rfl hne
  | cons a tbl =>
    unfold Release.fixAllTables findTables
    have h1 : findTablesLoop 0 none (a :: tbl ++ lines) =
        ⟨0, (a :: tbl).length, tableColumns (a :: tbl)⟩ ::
          (findTablesLoop 0 none lines).map (Table.shift (a :: tbl).length) := by
      simp only [List.cons_append, findTablesLoop, tableCols_some (hl a (by simp))]
      rw [findTablesLoop_table hmax tbl (fun l h => hl l (by simp [h]))]
      have := findTablesLoop_shift (a :: tbl).length lines 0 none
      simp only [Option.map_none] at this
      rw [← this]
      simp only [List.length_cons, tableColumns, List.cons.injEq]
      refine ⟨?_, ?_⟩
      · congr 1; omega
      · congr 1; omega
    rw [h1, List.reverse_cons, ← List.map_reverse, release_tables_append, release_tables_shift]
    cases Release.fixTables cw ws skin width (findTablesLoop 0 none lines).reverse lines with
    | none => rfl
    | some out =>
      simp only [Option.map_some, Option.bind_some, Release.fixTables, Release.fixColumns, Option.bind_eq_bind, List.drop_zero,
        List.take_zero, List.nil_append, Nat.zero_add]
      rw [List.take_left, List.drop_left]
      cases Release.fixTableLines cw ws skin (tableColumns (a :: tbl)) width (a :: tbl) <;> rfl

/-- The tables are laid out the same in a release build. -/
theorem release_all {cw : Char → Nat} {ws : Char → Bool} {skin : Skin} {width : Nat} : ∀ (lines : List FmtLine),
    (∀ cells, .tableRow cells ∈ lines → ∀ c ∈ cells, prefixCols skin.indentMode c.kind ≤ 3) →
    Release.fixAllTables cw ws skin width lines = fixAllTables cw ws skin width lines := by
  intro lines
  induction lines using tables_induction with
  | hnil => intro _; rfl
  | hother l lines hl ih =>
    intro hp
    rw [release_all_other hl, fixAllTables_other hl, ih fun cells hc => hp cells (by simp [hc])]
  | htable tbl lines hne hl hmax ih =>
    intro hp
    rw [release_all_table hne hl hmax, fixAllTables_table hne hl hmax, ih fun cells hc => hp cells (by simp [hc]),
      release_table hl fun cells hc => hp cells (by simp [hc])]

end Verif

import Verif.Spec.FmtText
import Verif.Lemmas.Table
import Verif.Lemmas.Code
import Verif.Lemmas.Render
/-! Lemmas on the formatting of whole texts. -/
namespace Verif

theorem TablesFixed.isTable {R : List FmtLine → List FmtLine → Prop} {lines out : List FmtLine}
    (h : TablesFixed R lines out) : TablesFixed (fun a b => IsTableOf lines a ∧ R a b) lines out := by
  have key : ∀ {suf out}, TablesFixed R suf out → ∀ pre, lines = pre ++ suf →
      ((∀ l, pre.getLast? = some l → ¬ IsTableLine l) ∨ (∀ l, suf.head? = some l → ¬ IsTableLine l)) →
      TablesFixed (fun a b => IsTableOf lines a ∧ R a b) suf out := by
    intro suf out h
    induction h with
    | nil => intro _ _ _; exact .nil
    | @other l ls out hl h ih =>
      intro pre hpre _
      refine .other hl (ih (pre ++ [l]) (by simp [hpre]) (.inl ?_))
      intro x hx
      simp at hx
      subst hx
      exact hl
    | @table tbl tbl' ls out hne hl hmax hR h ih =>
      intro pre hpre hb
      refine .table hne hl hmax ⟨⟨hne, hl, pre, ls, by simp [hpre], ?_, hmax⟩, hR⟩ (ih (pre ++ tbl) (by simp [hpre]) (.inr hmax))
      rcases hb with hb | hb
      · exact hb
      · cases tbl with
        | nil => exact absurd rfl hne
        | cons a tbl => exact absurd (hl a (by simp)) (hb a (by simp))
  exact key h [] rfl (.inl (by simp))

theorem TablesFixed.imp {R S : List FmtLine → List FmtLine → Prop} (hRS : ∀ a b, R a b → S a b) {lines out : List FmtLine}
    (h : TablesFixed R lines out) : TablesFixed S lines out := by
  induction h with
  | nil => exact .nil
  | other hl _ ih => exact .other hl ih
  | table hne hl hmax hR _ ih => exact .table hne hl hmax (hRS _ _ hR) ih

theorem TablesFixed.mem {R : List FmtLine → List FmtLine → Prop} {lines out : List FmtLine}
    (h : TablesFixed R lines out) : ∀ l ∈ out, (¬ IsTableLine l ∧ l ∈ lines) ∨
      ∃ tbl tbl', R tbl tbl' ∧ (∀ x ∈ tbl, x ∈ lines ∧ IsTableLine x) ∧ l ∈ tbl' := by
  induction h with
  | nil => simp
  | @other x ls out hl h ih =>
    intro l hm
    simp only [List.mem_cons] at hm
    rcases hm with rfl | hm
    · exact .inl ⟨hl, by simp⟩
    · rcases ih l hm with ⟨h1, h2⟩ | ⟨t, t', h1, h2, h3⟩
      · exact .inl ⟨h1, by simp [h2]⟩
      · exact .inr ⟨t, t', h1, fun x hx => ⟨by simp [(h2 x hx).1], (h2 x hx).2⟩, h3⟩
  | @table tbl tbl' ls out hne hl hmax hR h ih =>
    intro l hm
    simp only [List.mem_append] at hm
    rcases hm with hm | hm
    · exact .inr ⟨tbl, tbl', hR, fun x hx => ⟨by simp [hx], hl x hx⟩, hm⟩
    · rcases ih l hm with ⟨h1, h2⟩ | ⟨t, t', h1, h2, h3⟩
      · exact .inl ⟨h1, by simp [h2]⟩
      · exact .inr ⟨t, t', h1, fun x hx => ⟨by simp [(h2 x hx).1], (h2 x hx).2⟩, h3⟩

/-! ### A property of all the cells -/

section Cells
variable {cw : Char → Nat} {ws : Char → Bool} {skin : Skin} {P : FmtComposite → Prop}

def RowsAll (P : FmtComposite → Prop) (lines : List FmtLine) : Prop :=
  ∀ cells, .tableRow cells ∈ lines → ∀ c ∈ cells, P c

variable (hnew : P FmtComposite.new) (hsp : ∀ c sp, P c → P { c with spacing := sp })
  (hwrap : ∀ c w ls, P c → hardWrapComposite cw ws skin c w = some (.ok ls) → ∀ l ∈ ls, P l)

include hwrap in
theorem wrapCells_all : ∀ {cells : List FmtComposite} {widths : List Nat}
    {r : List (FmtComposite × List FmtComposite)}, wrapCells cw ws skin cells widths = some r → (∀ c ∈ cells, P c) →
    ∀ p ∈ r, P p.1 ∧ ∀ c ∈ p.2, P c := by
  intro cells
  induction cells with
  | nil => intro widths r h _; simp [wrapCells] at h; subst h; simp
  | cons c cells ih =>
    intro widths r h hP
    cases widths with
    | nil => simp [wrapCells] at h
    | cons w widths =>
      simp only [wrapCells, Option.bind_eq_bind] at h
      cases h1 : wrapCell cw ws skin c w with
      | none => rw [h1] at h; simp at h
      | some q =>
        rw [h1] at h
        simp only [Option.bind_some] at h
        cases h2 : wrapCells cw ws skin cells widths with
        | none => rw [h2] at h; simp at h
        | some qs =>
          rw [h2] at h
          simp only [Option.bind_some, Option.some.injEq] at h
          subst h
          intro p hp
          simp only [List.mem_cons] at hp
          rcases hp with rfl | hp
          · unfold wrapCell at h1
            split at h1
            · split at h1
              · rename_i a b heq
                simp only [Option.some.injEq] at h1
                subst h1
                have := hwrap c w _ (hP c (by simp)) heq
                exact ⟨this a (by simp), fun x hx => this x (by simp [hx])⟩
              · simp at h1
            · simp only [Option.some.injEq] at h1
              subst h1
              exact ⟨hP c (by simp), by simp⟩
          · exact ih h2 (fun x hx => hP x (by simp [hx])) p hp

include hnew hwrap in
theorem splitRow_all {nb : Nat} {widths : List Nat} {cells : List FmtComposite} {rows : List (List FmtComposite)}
    (h : splitRow cw ws skin nb widths cells = some rows) (hP : ∀ c ∈ cells, P c) : ∀ r ∈ rows, ∀ c ∈ r, P c := by
  unfold splitRow at h
  cases h1 : wrapCells cw ws skin (cells.take nb) widths with
  | none => rw [h1] at h; simp at h
  | some r =>
    rw [h1] at h
    simp only [Option.bind_eq_bind, Option.bind_some, Option.some.injEq] at h
    have key := wrapCells_all hwrap h1 (fun c hc => hP c (List.mem_of_mem_take hc))
    subst h
    intro row hrow c hc
    simp only [List.mem_cons, List.mem_map] at hrow
    rcases hrow with rfl | ⟨i, _, rfl⟩
    · simp only [List.mem_append, List.mem_map] at hc
      rcases hc with ⟨p, hp, rfl⟩ | hc
      · exact (key p hp).1
      · rw [List.eq_of_mem_replicate hc]; exact hnew
    · simp only [newRow, List.mem_map] at hc
      obtain ⟨col, ⟨p, hp, rfl⟩, rfl⟩ := hc
      rw [List.getD_eq_getElem?_getD]
      cases hg : p.2[i]? with
      | none => exact hnew
      | some x => exact (key p hp).2 x (List.mem_of_getElem? hg)

include hnew hwrap in
theorem splitRows_all {nb : Nat} {widths : List Nat} : ∀ {lines rows : List FmtLine},
    splitRows cw ws skin nb widths lines = some rows → RowsAll P lines → RowsAll P rows := by
  intro lines
  induction lines with
  | nil => intro rows h _; simp [splitRows] at h; subst h; intro c hc; simp at hc
  | cons line lines ih =>
    intro rows h hP
    have other : ∀ l, (∀ cells, l ≠ .tableRow cells) →
        (splitRows cw ws skin nb widths lines).bind (fun rest' => some (l :: rest')) = some rows →
        RowsAll P lines → RowsAll P rows := by
      intro l hne h hP
      cases hr' : splitRows cw ws skin nb widths lines with
      | none => rw [hr'] at h; simp at h
      | some rest =>
        rw [hr'] at h
        simp only [Option.bind_some, Option.some.injEq] at h
        subst h
        intro cells hc
        simp only [List.mem_cons] at hc
        rcases hc with hc | hc
        · exact absurd hc.symm (hne cells)
        · exact ih hr' hP cells hc
    have hP' : RowsAll P lines := fun cells hc => hP cells (by simp [hc])
    cases line with
    | tableRow cells =>
      simp only [splitRows, Option.bind_eq_bind] at h
      cases hr' : splitRows cw ws skin nb widths lines with
      | none => rw [hr'] at h; simp at h
      | some rest =>
        rw [hr'] at h
        simp only [Option.bind_some] at h
        cases hs : splitRow cw ws skin nb widths cells with
        | none => rw [hs] at h; simp at h
        | some rws =>
          rw [hs] at h
          simp only [Option.bind_some, Option.some.injEq] at h
          subst h
          intro cs hc
          simp only [List.mem_append, List.mem_map, FmtLine.tableRow.injEq, exists_eq_right] at hc
          rcases hc with hc | hc
          · exact splitRow_all hnew hwrap hs (hP cells (by simp)) cs hc
          · exact ih hr' hP' cs hc
    | tableRule rule => exact other _ (by simp) h hP'
    | normal fc => exact other _ (by simp) h hP'
    | horizontalRule => exact other _ (by simp) h hP'

include hsp in
theorem setSpacings_all : ∀ {cells : List FmtComposite} {widths : List Nat} {al : List Alignment}
    {out : List FmtComposite}, setSpacings cells widths al = some out → (∀ c ∈ cells, P c) → ∀ c ∈ out, P c := by
  intro cells widths
  induction widths generalizing cells with
  | nil => intro al out h hP; simp [setSpacings] at h; subst h; exact hP
  | cons w widths ih =>
    intro al out h hP
    cases cells with
    | nil => simp [setSpacings] at h
    | cons c cells =>
      cases al with
      | nil => simp [setSpacings] at h
      | cons a al =>
        simp only [setSpacings, Option.bind_eq_bind] at h
        cases h1 : setSpacings cells widths al with
        | none => rw [h1] at h; simp at h
        | some rest =>
          rw [h1] at h
          simp only [Option.bind_some, Option.some.injEq] at h
          subst h
          intro x hx
          simp only [List.mem_cons] at hx
          rcases hx with rfl | hx
          · exact hsp c _ (hP c (by simp))
          · exact ih h1 (fun y hy => hP y (by simp [hy])) x hx

include hsp in
theorem alignRows_all {nb : Nat} {widths : List Nat} {cr : Bool} {height : Nat} :
    ∀ (rows out : List FmtLine) (idx : Nat) (al : List Alignment),
    alignRows nb widths cr height idx al rows = some out → RowsAll P rows → RowsAll P out := by
  intro rows
  induction rows with
  | nil => intro out idx al h _; simp [alignRows] at h; subst h; intro c hc; simp at hc
  | cons line rows ih =>
    intro out idx al h hP
    have hP' : RowsAll P rows := fun cells hc => hP cells (by simp [hc])
    cases line with
    | tableRow cs =>
      simp only [alignRows, Option.bind_eq_bind] at h
      cases hs : setSpacings cs widths al with
      | none => rw [hs] at h; simp at h
      | some cs' =>
        rw [hs] at h
        simp only [Option.bind_some] at h
        cases ha : alignRows nb widths cr height (idx + 1) al rows with
        | none => rw [ha] at h; simp at h
        | some rest =>
          rw [ha] at h
          simp only [Option.bind_some, Option.some.injEq] at h
          subst h
          intro cells hc
          simp only [List.mem_cons, FmtLine.tableRow.injEq] at hc
          rcases hc with rfl | hc
          · exact setSpacings_all hsp hs (hP cs (by simp))
          · exact ih _ _ _ ha hP' cells hc
    | tableRule rule =>
      simp only [alignRows] at h
      generalize hR : (if cr = true then rule.setNbcols nb else rule) = R at h
      split at h
      · simp at h
      · simp only [Option.bind_eq_bind] at h
        cases ha : alignRows nb widths cr height (idx + 1) (R.aligns.take nb) rows with
        | none => rw [ha] at h; simp at h
        | some rest =>
          rw [ha] at h
          simp only [Option.bind_some, Option.some.injEq] at h
          subst h
          intro cells hc
          simp only [List.mem_cons, reduceCtorEq, false_or] at hc
          exact ih _ _ _ ha hP' cells hc
    | normal fc => simp [alignRows] at h
    | horizontalRule => simp [alignRows] at h

include hnew hsp hwrap in
theorem fixTableLines_all {n width : Nat} {lines out : List FmtLine} (hl : ∀ l ∈ lines, IsTableLine l)
    (h : fixTableLines cw ws skin n width lines = some out) (hP : RowsAll P lines) : RowsAll P out := by
  by_cases h0 : n = 0 ∨ width = 0
  · simp only [fixTableLines, h0, if_true, Option.some.injEq] at h
    subst h; exact hP
  · obtain ⟨widths, w1, w2, w3, w4, w5⟩ := fixTableLines_eq cw ws skin n width lines hl (by omega) (by omega)
    have key : ∀ cr ls, layoutRows cw ws skin (keptColumns n width) widths cr ls = some out → RowsAll P ls → RowsAll P out := by
      intro cr ls h hP
      simp only [layoutRows, Option.bind_eq_bind] at h
      cases hs : splitRows cw ws skin (keptColumns n width) widths ls with
      | none => rw [hs] at h; simp at h
      | some rows =>
        rw [hs] at h
        simp only [Option.bind_some] at h
        exact alignRows_all hsp _ _ _ _ h (splitRows_all hnew hwrap hs hP)
    by_cases hc : 4 * n + 1 ≤ width
    · rw [w4 hc] at h
      refine key _ _ h ?_
      intro cells hm c hc'
      simp only [List.mem_map] at hm
      obtain ⟨l, hl1, hl2⟩ := hm
      cases l with
      | tableRow cs =>
        simp only [prepLine, FmtLine.tableRow.injEq] at hl2
        subst hl2
        simp only [List.mem_append] at hc'
        rcases hc' with hc' | hc'
        · exact hP cs hl1 c hc'
        · rw [List.eq_of_mem_replicate hc']; exact hnew
      | _ => simp [prepLine] at hl2
    · rw [(w5 hc).2] at h
      exact key _ _ h hP

end Cells

/-! ### Drawable lines -/

/-- What is true of all composites along the process. -/
structure GoodFc (cw : Char → Nat) (skin : Skin) (fc : FmtComposite) : Prop where
  styled : styleOf skin fc.kind ≠ none
  cached : fc.visibleLength = lineCols cw skin.indentMode fc
  depth : DepthOk fc.kind

theorem followUp_depth {k : Kind} (h : DepthOk k) : DepthOk (followUpKind k) := by
  cases k with
  | listItem d =>
    intro d' hd
    rcases hd with hd | hd
    · cases hd
    · simp only [followUpKind, Kind.listItemFollowUp.injEq] at hd; subst hd; exact h d (.inl rfl)
  | listItemFollowUp d => exact h
  | _ => exact h

theorem GoodFc.wrap {cw : Char → Nat} {ws : Char → Bool} {skin : Skin} {c : FmtComposite} {w : Nat}
    {ls : List FmtComposite} (h : GoodFc cw skin c) (hw : hardWrapComposite cw ws skin c w = some (.ok ls)) :
    ∀ l ∈ ls, GoodFc cw skin l := by
  obtain ⟨_, _, h3, l0, more, rfl, h5, _, h7⟩ := hardWrapComposite_text hw
  intro l hl
  have h3' := h3 l hl
  simp only [List.mem_cons] at hl
  rcases hl with rfl | hl
  · exact ⟨by rw [h5]; exact h.styled, h3', by rw [h5]; exact h.depth⟩
  · refine ⟨by rw [(h7 l hl).1, styleOf_followUp]; exact h.styled, h3', ?_⟩
    rw [(h7 l hl).1]; exact followUp_depth h.depth

theorem GoodFc.ofComposite {cw : Char → Nat} {skin : Skin} {k : Kind} {cs : List Compound} (h1 : styleOf skin k ≠ none)
    (h2 : DepthOk k) : GoodFc cw skin (FmtComposite.ofComposite skin cw k cs) :=
  ⟨h1, by rw [lineCols_eq]; rfl, h2⟩

theorem GoodFc.drawable {cw : Char → Nat} {skin : Skin} {c : FmtComposite} (h : GoodFc cw skin c)
    (hf : c.visibleLength ≤ spacedCols c) : Drawable cw skin c :=
  ⟨h.styled, h.cached, hf, fun d hd => h.depth d (.inr hd)⟩

/-- A line which is rendered in the given width. -/
def FinalLine (cw : Char → Nat) (skin : Skin) (width : Nat) (l : FmtLine) : Prop :=
  DrawableLine cw skin l ∧ ownCols skin width l ≤ width

/-- A line which is ready to be wrapped. -/
def ReadyLine (cw : Char → Nat) (skin : Skin) (width : Nat) (l : FmtLine) : Prop :=
  FinalLine cw skin width l ∨ ∃ fc, l = .normal fc ∧ GoodFc cw skin fc ∧ fc.spacing = none ∧ Wrappable cw skin width fc

theorem wrapOne_final {cw : Char → Nat} {ws : Char → Bool} {skin : Skin} {width : Nat} (h3 : 3 ≤ width) {l : FmtLine}
    (h : ReadyLine cw skin width l) :
    ∃ b, wrapOne cw ws skin width l = some (.ok b) ∧ ∀ x ∈ b, FinalLine cw skin width x := by
  cases l with
  | normal fc =>
    have fits : ∀ ls, styleOf skin fc.kind = some ls → fc.visibleLength + marginSum ls width ≤ width →
        FinalLine cw skin width (.normal fc) →
        ∃ b, wrapOne cw ws skin width (.normal fc) = some (.ok b) ∧ ∀ x ∈ b, FinalLine cw skin width x := by
      intro ls hs hle hf
      refine ⟨[.normal fc], ?_, by simpa using hf⟩
      simp only [wrapOne]
      rw [hardWrapLine_eq, hs]
      simp [hle, Except.map]
    rcases h with h | ⟨fc', h1, h2, h4, ls, hs, hvl, hp, hr⟩
    · obtain ⟨hd, ho⟩ := h
      cases hs : styleOf skin fc.kind with
      | none => exact absurd hs hd.styled
      | some ls =>
        refine fits ls hs ?_ ⟨hd, ho⟩
        simp only [ownCols, hs, Option.map_some, Option.getD_some] at ho
        have := hd.fits
        omega
    · simp only [FmtLine.normal.injEq] at h1
      subst h1
      have hsc : ∀ c : FmtComposite, c.spacing = none → spacedCols c = c.visibleLength := by
        intro c hc; simp [spacedCols, hc]
      by_cases hle : fc.visibleLength + marginSum ls width ≤ width
      · refine fits ls hs hle ⟨h2.drawable (by rw [hsc _ h4]; exact Nat.le_refl _), ?_⟩
        simp only [ownCols, hs, Option.map_some, Option.getD_some, hsc _ h4]
        exact hle
      · have hm := marginSum_3 ls width h3
        obtain ⟨fcs, w1, w2, _⟩ := hardWrapComposite_fit cw ws skin fc (width - marginSum ls width) (by omega)
          (by omega) (by omega) (fun p hp => by have := hr p hp; omega)
        obtain ⟨_, _, _, l0, more, w6, w7, w9, w8⟩ := hardWrapComposite_text w1
        refine ⟨fcs.map .normal, ?_, ?_⟩
        · simp only [wrapOne]
          rw [hardWrapLine_eq, hs]
          simp only [Option.bind_some, if_neg hle, w1]
          rfl
        · intro x hx
          simp only [List.mem_map] at hx
          obtain ⟨g, hg, rfl⟩ := hx
          have hspn : g.spacing = none ∧ styleOf skin g.kind = some ls := by
            rw [w6] at hg
            simp only [List.mem_cons] at hg
            rcases hg with rfl | hg
            · exact ⟨by rw [w9, h4], by rw [w7, hs]⟩
            · exact ⟨by rw [(w8 g hg).2, h4], by rw [(w8 g hg).1, styleOf_followUp, hs]⟩
          have hgood := h2.wrap w1 g hg
          refine ⟨hgood.drawable (by rw [hsc _ hspn.1]; exact Nat.le_refl _), ?_⟩
          simp only [ownCols, hspn.2, Option.map_some, Option.getD_some, hsc _ hspn.1]
          have := w2 g hg
          omega
  | _ =>
    refine ⟨_, rfl, ?_⟩
    rcases h with h | ⟨_, h, _⟩
    · simpa using h
    · cases h

theorem hardWrapLines_final {cw : Char → Nat} {ws : Char → Bool} {skin : Skin} {width : Nat} (h3 : 3 ≤ width)
    {lines : List FmtLine} (h : ∀ l ∈ lines, ReadyLine cw skin width l) :
    ∃ out, hardWrapLines cw ws skin width lines = some (.ok out) ∧ ∀ l ∈ out, FinalLine cw skin width l := by
  have hb : ∀ line ∈ lines, wrapOne cw ws skin width line = some (.ok (blockOf cw ws skin width line)) := by
    intro line hl
    obtain ⟨b, hb, _⟩ := wrapOne_final (ws := ws) h3 (h line hl)
    rw [hb]; simp [blockOf, hb]
  refine ⟨_, hardWrapLines_flatMap cw ws skin width lines _ _ hb rfl, ?_⟩
  intro l hl
  simp only [List.mem_flatMap] at hl
  obtain ⟨line, hline, hl⟩ := hl
  obtain ⟨b, hb, hfin⟩ := wrapOne_final (ws := ws) h3 (h line hline)
  have : blockOf cw ws skin width line = b := by simp [blockOf, hb]
  rw [this] at hl
  exact hfin l hl

theorem Justified.mem {lines out : List FmtLine} (h : Justified lines out) : ∀ l ∈ out,
    (¬ IsCodeLine l ∧ l ∈ lines) ∨
    ∃ fc w, .normal fc ∈ lines ∧ fc.kind = .code ∧ l = .normal { fc with spacing := some ⟨w, .left⟩ } ∧
      fc.visibleLength ≤ w ∧ ∃ fc', .normal fc' ∈ lines ∧ fc'.kind = .code ∧ fc'.visibleLength = w := by
  induction h with
  | nil => simp
  | @other x ls out hl h ih =>
    intro l hm
    simp only [List.mem_cons] at hm
    rcases hm with rfl | hm
    · exact .inl ⟨hl, by simp⟩
    · rcases ih l hm with ⟨h1, h2⟩ | ⟨fc, w, h1, h2, h3, h4, fc', h5, h6⟩
      · exact .inl ⟨h1, by simp [h2]⟩
      · exact .inr ⟨fc, w, by simp [h1], h2, h3, h4, fc', by simp [h5], h6⟩
  | @block blk blk' ls out w hne hc hmax hlong hlen hsp h ih =>
    intro l hm
    simp only [List.mem_append] at hm
    rcases hm with hm | hm
    · right
      obtain ⟨i, hi, he⟩ := List.getElem_of_mem hm
      have e0 := List.getElem?_eq_getElem (l := blk) (i := i) (by omega)
      obtain ⟨fc, f1, f2⟩ := hsp i _ l e0 (by rw [List.getElem?_eq_getElem hi, he])
      have hmem : .normal fc ∈ blk := by rw [← f1]; exact List.getElem_mem _
      obtain ⟨⟨ll, hll, hw⟩, hall⟩ := hlong
      have hcl := hc ll hll
      cases ll with
      | normal fc' =>
        exact ⟨fc, w, by simp [hmem], hc _ hmem, f2, hall _ hmem, fc', by simp [hll], hcl, hw⟩
      | _ => exact False.elim hcl
    · rcases ih l hm with ⟨h1, h2⟩ | ⟨fc, w, h1, h2, h3, h4, fc', h5, h6⟩
      · exact .inl ⟨h1, by simp [h2]⟩
      · exact .inr ⟨fc, w, by simp [h1], h2, h3, h4, fc', by simp [h5], h6⟩

end Verif

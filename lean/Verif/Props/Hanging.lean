import Verif.Props.StyledDisplay
import Verif.Spec.Hanging
/-! C104: the place of the rows of a displayed text. -/
namespace Verif.Props
open Verif Spec

/-- The lines which aren't code have no spacing, and the lengths are right. -/
def PlainLine (cw : Char → Nat) (skin : Skin) : FmtLine → Prop
  | .normal fc => fc.visibleLength = lineCols cw skin.indentMode fc ∧ (fc.kind ≠ .code → fc.spacing = none)
  | _ => True

theorem plain_source (cw : Char → Nat) (skin : Skin) (mlines : List MLine) : ∀ l ∈ mlines.map (FmtLine.ofMLine skin cw), PlainLine cw skin l := by
  intro l hl
  obtain ⟨m, _, rfl⟩ := List.mem_map.1 hl
  cases m with
  | normal k cs => exact ⟨by rw [lineCols_eq]; rfl, fun _ => rfl⟩
  | _ => trivial

theorem plain_tables {cw : Char → Nat} {ws : Char → Bool} {skin : Skin} {width : Nat} {lines out : List FmtLine}
    (h : ReplacedBy (TableStep ws width) lines out) (hl : ∀ l ∈ lines, PlainLine cw skin l) : ∀ l ∈ out, PlainLine cw skin l := by
  induction h with
  | nil => exact hl
  | @cons x b xs out hx _ ih =>
    intro l hm
    rcases List.mem_append.1 hm with hm | hm
    · rcases hx with rfl | ⟨n, _, hk⟩
      · simp only [List.mem_singleton] at hm
        subst hm
        exact hl l (by simp)
      · cases x with
        | tableRow cells =>
          obtain ⟨rows, rfl, _⟩ := hk
          obtain ⟨r, _, rfl⟩ := List.mem_map.1 hm
          trivial
        | tableRule rule =>
          obtain ⟨r, rfl, _⟩ := hk
          simp only [List.mem_singleton] at hm
          subst hm
          trivial
        | normal fc => exact hk.elim
        | horizontalRule => exact hk.elim
    · exact ih (fun y hy => hl y (by simp [hy])) l hm

theorem plain_justified {cw : Char → Nat} {skin : Skin} {lines out : List FmtLine}
    (h : Justified lines out) (hl : ∀ l ∈ lines, PlainLine cw skin l) : ∀ l ∈ out, PlainLine cw skin l := by
  induction h with
  | nil => exact hl
  | @other x lines out _ _ ih =>
    intro l hm
    rcases List.mem_cons.1 hm with rfl | hm
    · exact hl _ (by simp)
    · exact ih (fun y hy => hl y (by simp [hy])) l hm
  | @block blk blk' lines out w _ hc _ _ hlen hsp _ ih =>
    intro l hm
    rcases List.mem_append.1 hm with hm | hm
    · obtain ⟨i, hi, e⟩ := List.mem_iff_getElem.1 hm
      have h1 : blk'[i]? = some l := by rw [List.getElem?_eq_getElem hi, e]
      have hi2 : i < blk.length := by omega
      obtain ⟨fc, e1, e2⟩ := hsp i blk[i] l (List.getElem?_eq_getElem hi2) h1
      have hcode := hc blk[i] (List.getElem_mem hi2)
      have hpl := hl blk[i] (by simp)
      rw [e1] at hcode hpl
      subst e2
      exact ⟨hpl.1, fun hne => absurd hcode hne⟩
    · exact ih (fun y hy => hl y (by simp [hy])) l hm

theorem plain_wrapped {cw : Char → Nat} {ws : Char → Bool} {skin : Skin} {width : Option Nat} {lines out : List FmtLine}
    (h : wrapText cw ws skin width lines = some out) (hl : ∀ l ∈ lines, PlainLine cw skin l) : ∀ l ∈ out, PlainLine cw skin l := by
  cases width with
  | none => cases h; exact hl
  | some w =>
    simp only [wrapText] at h
    by_cases hw : w ≥ 3
    · rw [if_pos hw] at h
      cases hh : hardWrapLines cw ws skin w lines with
      | none => rw [hh] at h; simp at h
      | some r =>
        cases r with
        | error e => rw [hh] at h; simp at h
        | ok o =>
          rw [hh] at h
          simp only [Option.some.injEq] at h
          subst h
          obtain ⟨e1, e2⟩ := hardWrapLines_ok hh
          rw [e1]
          intro l hm
          obtain ⟨x, hx, hb⟩ := List.mem_flatMap.1 hm
          have h3 := e2 x hx
          have hpl := hl x hx
          generalize blockOf cw ws skin w x = b at h3 hb
          cases x with
          | normal fc =>
            simp only [wrapOne, hardWrapLine_eq, Option.map_eq_some_iff, Option.bind_eq_some_iff] at h3
            obtain ⟨r, ⟨ls, _, e3⟩, e4⟩ := h3
            cases r with
            | error e => simp [Except.map] at e4
            | ok fcs =>
              simp only [Except.map, Except.ok.injEq] at e4
              subst e4
              obtain ⟨g, hg, rfl⟩ := List.mem_map.1 hb
              split at e3
              · simp only [Option.some.injEq, Except.ok.injEq] at e3
                subst e3
                simp only [List.mem_singleton] at hg
                subst hg
                exact hpl
              · obtain ⟨_, _, h6, l0, more, e, h7, h8, h9⟩ := hardWrapComposite_text e3
                refine ⟨h6 g hg, fun hne => ?_⟩
                rw [e] at hg
                rcases List.mem_cons.1 hg with rfl | hg
                · rw [h8]; exact hpl.2 (by rw [← h7]; exact hne)
                · rw [(h9 g hg).2]
                  refine hpl.2 (fun hk => hne ?_)
                  rw [(h9 g hg).1, hk]; rfl
          | _ =>
            simp only [wrapOne, Option.some.injEq, Except.ok.injEq] at h3
            subst h3
            simp only [List.mem_singleton] at hb
            subst hb
            trivial
    · rw [if_neg hw] at h
      cases h; exact hl

theorem plain_text {cw : Char → Nat} {ws : Char → Bool} {skin : Skin} {mlines : List MLine} {width : Option Nat} {t : FmtText}
    (h : FmtText.fromText cw ws skin mlines width = some t) : ∀ l ∈ t.lines, PlainLine cw skin l := by
  simp only [FmtText.fromText, Option.bind_eq_bind, Option.bind_eq_some_iff, Option.some.injEq] at h
  obtain ⟨l1, h1, l2, h2, h3⟩ := h
  subst h3
  have s1 := tables_blocks (C08_text cw ws skin (width.getD usizeMax) _ l1 h1)
  exact plain_wrapped h2 (plain_justified (justifyBlocks_spec l1) (plain_tables s1 (plain_source cw skin mlines)))

theorem placed_row (ls : LineStyle) (m : Nat) (rendering : Option Nat) :
    RowPlaced ls m ((Spacing.optionalCompletions ls.align (m + (ls.marginsIn rendering).1 + (ls.marginsIn rendering).2) rendering).1 +
      (ls.marginsIn rendering).1) rendering := by
  have hm : ls.marginsIn rendering = appliedMargins ls rendering := by
    cases rendering with
    | none => rfl
    | some w =>
      simp only [LineStyle.marginsIn, appliedMargins]
      by_cases h : w < ls.leftMargin + ls.rightMargin + 3
      · rw [if_pos h, if_neg (by omega)]
      · rw [if_neg h, if_pos (by omega)]
  rw [hm]
  simp only [RowPlaced]
  generalize appliedMargins ls rendering = mg
  obtain ⟨l, r⟩ := mg
  cases rendering with
  | none => simp [Spacing.optionalCompletions]
  | some w =>
    simp only [Spacing.optionalCompletions, Spacing.completions]
    by_cases h : m + l + r ≤ w
    · rw [if_pos h]
      by_cases h2 : m + l + r ≥ w
      · rw [if_pos h2]
        cases ls.align <;> simp only [Placed] <;> omega
      · rw [if_neg h2]
        cases ls.align <;> simp only [Placed] <;> omega
    · rw [if_neg h, if_pos (by omega)]
      simp

theorem shown_in_place {cw : Char → Nat} {skin : Skin} (hsp : ∀ c, skin.specialChars c = none) {fc : FmtComposite} (hk : fc.kind ≠ .code)
    (hp : PlainLine cw skin (.normal fc)) {rendering : Option Nat} {ps : List Piece} (h : skin.writeFmtLine (.normal fc) rendering false = some ps) :
    ShownInPlace cw skin rendering (fc.kind, styledChars fc.compounds) (piecesCells ps) := by
  simp only [Skin.writeFmtLine, Skin.writeFmtComposite, Option.bind_eq_bind, Option.bind_eq_some_iff, Option.some.injEq, lineStyle_eq, if_true] at h
  obtain ⟨ls, hls, pre, hpre, h⟩ := h
  subst h
  have hs := hp.2 hk
  have e1 : fc.innerWidth = prefixCols skin.indentMode fc.kind + ((styledChars fc.compounds).map fun p => cw p.1).sum := by
    simp only [FmtComposite.innerWidth, hs, hp.1, lineCols]
  have e2 : fc.completions = (0, 0) := by simp only [FmtComposite.completions, hs]
  refine ⟨ls, _, piecesCells (fc.compounds.flatMap (skin.writeCompound ls)), hls, ?_, writeCompounds_styled hsp ls fc.compounds,
    placed_row ls _ rendering⟩
  rw [← writePrefix_cells skin fc.kind hpre, e1, e2]
  simp only [piecesCells_append, piecesCells_repeat, Bool.false_eq_true, if_false, List.append_assoc, List.append_nil, List.replicate_zero,
    List.nil_append]

/-- What is displayed for a formatted line, in its place. -/
def LineInPlace (cw : Char → Nat) (skin : Skin) (rendering : Option Nat) : FmtLine → List StyledCell → Prop
  | .normal fc, row => fc.kind ≠ .code → ShownInPlace cw skin rendering (fc.kind, styledChars fc.compounds) row
  | _, _ => True

theorem holds_placed {cw : Char → Nat} {ws : Char → Bool} {skin : Skin} {w rendering : Option Nat} {m : MLine} {out : List FmtLine}
    {rows : List (List StyledCell)} (hh : Holds ws w m out) (hm : Matched (LineInPlace cw skin rendering) out rows) :
    PlacedRows cw ws skin rendering m rows := by
  cases m with
  | normal kind cs =>
    intro hne
    obtain ⟨fcs, e, ⟨first, more, e2, hk, hmore⟩, hi, hs⟩ := hh
    subst e; subst e2
    have hm1 : Matched (fun (fc : FmtComposite) row => fc.kind ≠ .code → ShownInPlace cw skin rendering (fc.kind, styledChars fc.compounds) row)
        (first :: more) rows := matched_of_map_left (R := LineInPlace cw skin rendering) (f := FmtLine.normal) hm
    have hkinds : ∀ fc ∈ first :: more, fc.kind ≠ .code := by
      intro fc hfc
      rcases List.mem_cons.1 hfc with rfl | hfc
      · rw [hk]; exact hne
      · have := hmore fc hfc
        cases kind <;> simp_all
    have hm2 : Matched (fun (fc : FmtComposite) row => ShownInPlace cw skin rendering (fc.kind, styledChars fc.compounds) row) (first :: more) rows := by
      clear hm hi hs hmore hk
      generalize first :: more = fcs at hm1 hkinds
      induction hm1 with
      | nil => exact .nil
      | cons hx _ ih => exact .cons (hx (hkinds _ (by simp))) (ih fun fc hfc => hkinds fc (by simp [hfc]))
    have hm' := matched_map_left (f := fun fc : FmtComposite => (fc.kind, styledChars fc.compounds)) (R := ShownInPlace cw skin rendering) hm2
    rw [List.map_cons, hk] at hm'
    refine ⟨styledChars first.compounds, more.map fun fc => (fc.kind, styledChars fc.compounds), hm', ?_, ?_⟩
    · intro p hp
      simp only [List.mem_map] at hp
      obtain ⟨fc, hfc, rfl⟩ := hp
      have := hmore fc hfc
      cases kind <;> exact this
    · have e : linesChars (first :: more) = styledChars first.compounds ++ (more.map fun fc => (fc.kind, styledChars fc.compounds)).flatMap (·.2) := by
        simp only [linesChars, List.flatMap_cons, List.flatMap_map]
      rw [← e]
      exact ⟨hi, hs⟩
  | _ => trivial

/-- C104: whatever the text, the width it's formatted in (or without width) and the one it's rendered in, if the text is displayed, the rows of each
line which isn't in a table nor a block of code are in their place: blanks, in the style of paragraphs, according to the margins and alignment of the style of
the line; then the bullet, the quote mark or the indentation; then the part of the text; and nothing else. -/
theorem C104_places (cw : Char → Nat) (ws : Char → Bool) (skin : Skin) (hsp : ∀ c, skin.specialChars c = none) (w : Option Nat)
    (mlines : List MLine) (t t' : FmtText) (drawn : List (List Piece)) (ht : FmtText.fromText cw ws skin mlines w = some t)
    (ht' : t' = t ∨ ∃ n, t' = t.setRenderingWidth n) (hd : t'.display skin = some drawn) :
    InBlocks (PlacedRows cw ws skin t'.width) mlines (drawn.map piecesCells) := by
  have hb := C51_content cw ws skin mlines w _ ht
  have hpl := plain_text ht
  have hl : t'.lines = t.lines := by
    rcases ht' with rfl | ⟨n, rfl⟩ <;> rfl
  unfold FmtText.display at hd
  rw [hl] at hd
  generalize t'.width = wr at hd ⊢
  have hm : Matched (LineInPlace cw skin wr) t.lines (drawn.map piecesCells) := by
    generalize t.lines = out at hd hpl
    clear hb
    induction out generalizing drawn with
    | nil => simp at hd; subst hd; exact .nil
    | cons a l ih =>
      simp only [List.mapM_cons, Option.bind_eq_bind, Option.bind_eq_some_iff] at hd
      obtain ⟨b, hb, bs, hbs, e⟩ := hd
      simp only [Option.pure_def, Option.some.injEq] at e
      subst e
      refine .cons ?_ (ih bs hbs fun x hx => hpl x (by simp [hx]))
      cases a with
      | normal fc => exact fun hk => shown_in_place hsp hk (hpl _ (by simp)) hb
      | _ => trivial
  generalize drawn.map piecesCells = rows at hm
  generalize t.lines = out at hb hm
  clear hd ht ht' hl hpl
  induction hb generalizing rows with
  | nil => cases hm; exact .nil
  | cons hx _ ih =>
    obtain ⟨oa, ob, e, h1, h2⟩ := matched_split hm
    subst e
    exact .cons (holds_placed hx h1) (ih ob h2)

/-- C104: hanging indentation. When paragraphs are aligned on the left, all the rows of a list item start after the same left margin: the bullet of
an item of depth `d` is `d` columns after it, and the text of all the rows (of the first one only if the indentation is only for it) `d + 2` columns after it. -/
theorem C104_hanging {cw : Char → Nat} {ws : Char → Bool} {skin : Skin} {rendering : Option Nat} {d : Nat} {cs : List Compound}
    {rows : List (List StyledCell)} (hal : skin.paragraph.align = .left ∨ skin.paragraph.align = .unspecified)
    (h : PlacedRows cw ws skin rendering (.normal (.listItem d) cs) rows) :
    let margin := List.replicate (appliedMargins skin.paragraph rendering).1 (' ', skin.paragraph.style)
    let spaces n := List.replicate n (' ', skin.paragraph.style)
    ∃ (first : List StyledCell) (more : List (List StyledCell)), rows = (margin ++ spaces d ++ [(skin.bullet.drawn.2, skin.bullet.drawn.1)] ++ spaces 1 ++ first) ::
        more.map (fun part => margin ++ spaces (if skin.indentMode = .block then d + 2 else 0) ++ part) := by
  intro margin spaces
  have left : ∀ m a, RowPlaced skin.paragraph m a rendering → a = (appliedMargins skin.paragraph rendering).1 := by
    intro m a hr
    simp only [RowPlaced] at hr
    split at hr
    · exact hr
    · split at hr
      · rcases hal with e | e <;> (rw [e] at hr; exact hr.2)
      · exact hr
  obtain ⟨first, more, hm, hk, _⟩ := h (by simp)
  cases hm with
  | cons hx hm =>
    obtain ⟨ls, a, shown, e1, e2, _, e4⟩ := hx
    cases e1
    have ea := left _ _ e4
    subst ea
    have hmore : ∀ (more : List (Kind × List (Char × Flags))) (bs : List (List StyledCell)), (∀ p ∈ more, p.1 = .listItemFollowUp d) →
        Matched (ShownInPlace cw skin rendering) more bs →
        ∃ parts : List (List StyledCell), bs = parts.map fun part => margin ++ spaces (if skin.indentMode = .block then d + 2 else 0) ++ part := by
      intro more bs hk hm
      induction hm with
      | nil => exact ⟨[], rfl⟩
      | @cons p b _ _ hx _ ih =>
        obtain ⟨parts, ep⟩ := ih fun q hq => hk q (by simp [hq])
        obtain ⟨ls, a, shown, e1, e2, _, e4⟩ := hx
        rw [hk p (by simp)] at e1 e2
        cases e1
        have ea := left _ _ e4
        subst ea
        refine ⟨shown :: parts, ?_⟩
        rw [ep, List.map_cons, e2]
        congr 2
        simp only [prefixCells]
        split <;> rfl
    obtain ⟨parts, ep⟩ := hmore more _ (fun p hp => hk p hp) hm
    refine ⟨shown, parts, ?_⟩
    rw [ep, e2]
    simp only [prefixCells, List.append_assoc]
    rfl

/-- An item and a quote, with a left margin, in 12 columns. -/
def hangText : List MLine := [.normal (.listItem 1) [⟨"some words to wrap".toList, {}⟩], .normal .quote [⟨"quoted words".toList, {}⟩]]
def hangSkin : Skin := { ({} : Skin) with paragraph := { ({} : Skin).paragraph with leftMargin := 2 } }

example : ((FmtText.fromText (fun _ => 1) (· == ' ') hangSkin hangText (some 12)).bind fun t => (t.display hangSkin).map fun rows =>
      rows.map fun ps => String.ofList (piecesText ps)) =
    some ["   • some ", "     words ", "     to wrap", "  ▐ quoted ", "  ▐ words"] ∧ hangSkin.specialChars ⟨"a".toList, {}⟩ = none := by decide +kernel

/-- With the indentation of the first line only. -/
example : ((FmtText.fromText (fun _ => 1) (· == ' ') { hangSkin with indentMode := .firstLineOnly } hangText (some 12)).bind fun t =>
      (t.display { hangSkin with indentMode := .firstLineOnly }).map fun rows => rows.map fun ps => String.ofList (piecesText ps)) =
    some ["   • some ", "  words to ", "  wrap", "  ▐ quoted ", "  ▐ words"] := by decide +kernel

/-- With paragraphs which are centered, the text isn't in one column: each row is centered. -/
theorem C104_centered_counterexample : ∃ skin : Skin, skin.paragraph.align = .center ∧
    ((FmtText.fromText (fun _ => 1) (· == ' ') skin hangText (some 12)).bind fun t => (t.display skin).map fun rows =>
      rows.map fun ps => String.ofList (piecesText ps)) =
    some ["   • some ", "   words to ", "     wrap", " ▐ quoted ", "  ▐ words"] :=
  ⟨{ ({} : Skin) with paragraph := { ({} : Skin).paragraph with align := .center } }, rfl, by decide +kernel⟩

end Verif.Props

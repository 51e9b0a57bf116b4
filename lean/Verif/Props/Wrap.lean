import Verif.Lemmas.WrapLines
/-! C01, C02, C03, C04, C05: tokens and wrapping. -/
namespace Verif.Props
open Verif

/-- Widths for the examples: ideographs take two columns, the other characters one. -/
def exCw (c : Char) : Nat := if c.toNat ≥ 0x3000 then 2 else 1
/-- White space for the examples. -/
def exWs (c : Char) : Bool := c == ' ' || c == '\t'

/-- C05: the tokens of a list of compounds can all be turned back in text without panicking, and give back, put end
to end, the characters with their styles. Each token is a non empty piece of one of the compounds; its width is
exact; a blank token holds only whitespace out of code, another one holds no whitespace or is code; and a token
wider than the maximum is a single character. -/
theorem C05_tokenize (cw : Char → Nat) (ws : Char → Bool) (cs : List Compound) (max : Nat) :
    (∃ ps, (tokenize cw ws cs max).mapM Token.toCompound = some ps ∧ styledChars ps = styledChars cs) ∧
    ∀ t ∈ tokenize cw ws cs max, ∃ p, t.toCompound = some p ∧ (∃ c ∈ cs, p.flags = c.flags) ∧
      p.src ≠ [] ∧
      t.width = (p.src.map cw).sum ∧
      (t.blank = true → p.flags.code = false ∧ ∀ ch ∈ p.src, ws ch = true) ∧
      (t.blank = false → p.flags.code = true ∨ ∀ ch ∈ p.src, ws ch = false) ∧
      (t.width ≤ max ∨ ∃ ch, p.src = [ch]) := by
  obtain ⟨ps, h1, h2, h3⟩ := tokenize_ok cw ws max cs
  refine ⟨⟨ps, h1, h2⟩, ?_⟩
  intro t ht
  obtain ⟨c, hc, p, hp⟩ := h3 t ht
  refine ⟨_, hp.toCompound, ⟨c, hc, rfl⟩, hp.ne, ?_, ?_, ?_, ?_⟩
  · rw [hp.width, textWidth_eq_sum]
  · exact hp.blank
  · exact hp.ink
  · rcases Nat.lt_or_ge max t.width with h | h
    · exact Or.inr (hp.wide h)
    · exact Or.inl h

example : (tokenize exCw exWs [⟨"ab 一c".toList, {}⟩, ⟨"x y".toList, { code := true }⟩] 2).mapM Token.toCompound =
    some [⟨"ab".toList, {}⟩, ⟨" ".toList, {}⟩, ⟨"一".toList, {}⟩, ⟨"c".toList, {}⟩, ⟨"x ".toList, { code := true }⟩,
      ⟨"y".toList, { code := true }⟩] := by decide

/-- C01: if the width is at least 3, if the composite has to be wrapped, and if the bullet, quote mark or indentation
leaves room for each character of the text, then wrapping doesn't panic nor fails, and every line fits. -/
theorem C01_fits (cw : Char → Nat) (ws : Char → Bool) (skin : Skin) (fc : FmtComposite) (width : Nat)
    (h3 : 3 ≤ width) (hlong : width < fc.visibleLength)
    (hprefix : prefixCols skin.indentMode fc.kind ≤ width)
    (hroom : ∀ p ∈ styledChars fc.compounds, prefixCols skin.indentMode fc.kind + cw p.1 ≤ width) :
    ∃ lines, hardWrapComposite cw ws skin fc width = some (.ok lines) ∧
      ∀ l ∈ lines, lineCols cw skin.indentMode l ≤ width := by
  obtain ⟨ls, h1, h2, _⟩ := hardWrapComposite_fit cw ws skin fc width h3 hlong hprefix hroom
  refine ⟨ls, h1, ?_⟩
  intro l hl
  rw [← (hardWrapComposite_text h1).2.2.1 l hl]
  exact h2 l hl

/-- C01: in the same conditions, when no compound is empty, wrapping makes no empty line. -/
theorem C01_no_empty_line (cw : Char → Nat) (ws : Char → Bool) (skin : Skin) (fc : FmtComposite) (width : Nat)
    (h3 : 3 ≤ width) (hlong : width < fc.visibleLength)
    (hprefix : prefixCols skin.indentMode fc.kind ≤ width)
    (hroom : ∀ p ∈ styledChars fc.compounds, prefixCols skin.indentMode fc.kind + cw p.1 ≤ width)
    (hne : fc.compounds ≠ []) (hnes : ∀ c ∈ fc.compounds, c.src ≠ []) (lines : List FmtComposite)
    (hok : hardWrapComposite cw ws skin fc width = some (.ok lines)) :
    ∀ l ∈ lines, styledChars l.compounds ≠ [] := by
  obtain ⟨ls, h1, _, h⟩ := hardWrapComposite_fit cw ws skin fc width h3 hlong hprefix hroom
  rw [h1] at hok
  simp only [Option.some.injEq, Except.ok.injEq] at hok
  subst hok
  refine h ?_ hnes
  cases hc : fc.compounds with
  | nil => exact absurd hc hne
  | cons c cs =>
    have := hnes c (by simp [hc])
    simp [styledChars_cons, this]

/-- The example used for the wrapping theorems: a list item with a bold part and a wide character. -/
def exItem : FmtComposite :=
  FmtComposite.ofComposite {} exCw (.listItem 1) [⟨"abcd efgh ".toList, {}⟩, ⟨"bold".toList, { bold := true }⟩,
    ⟨" 一".toList, {}⟩]

example : 3 ≤ 8 ∧ 8 < exItem.visibleLength ∧ prefixCols .block exItem.kind ≤ 8 ∧
    (∀ p ∈ styledChars exItem.compounds, prefixCols .block exItem.kind + exCw p.1 ≤ 8) ∧
    exItem.compounds ≠ [] ∧ ∀ c ∈ exItem.compounds, c.src ≠ [] := by decide

example : hardWrapComposite exCw exWs {} exItem 8 = some (.ok [
    ⟨.listItem 1, [⟨"abcd".toList, {}⟩, ⟨" ".toList, {}⟩], 8, none⟩,
    ⟨.listItemFollowUp 1, [⟨"efgh".toList, {}⟩, ⟨" ".toList, {}⟩], 8, none⟩,
    ⟨.listItemFollowUp 1, [⟨"bold".toList, { bold := true }⟩, ⟨" ".toList, {}⟩], 8, none⟩,
    ⟨.listItemFollowUp 1, [⟨"一".toList, {}⟩], 5, none⟩]) := by decide

/-- C01: without room after the indentation the claim fails: a list item of depth 1 wrapped to 3 columns gives an
empty line, then lines of 4 columns. -/
theorem C01_no_room_counterexample :
    ∃ fc lines, 3 < fc.visibleLength ∧ fc.visibleLength = lineCols exCw .block fc ∧
      hardWrapComposite exCw exWs {} fc 3 = some (.ok lines) ∧
      (∃ l ∈ lines, lineCols exCw .block l > 3) ∧ (∃ l ∈ lines, styledChars l.compounds = []) :=
  ⟨FmtComposite.ofComposite {} exCw (.listItem 1) [⟨"ab".toList, {}⟩],
    [⟨.listItem 1, [], 3, none⟩, ⟨.listItemFollowUp 1, [⟨"a".toList, {}⟩], 4, none⟩,
      ⟨.listItemFollowUp 1, [⟨"b".toList, {}⟩], 4, none⟩], by decide, by decide, by decide, by decide, by decide⟩

/-- C01: with an indentation deeper than the width, wrapping panics (`width - first_width` underflows): a list item
of depth 2 at 3 columns. -/
theorem C01_deep_panic_counterexample :
    hardWrapComposite exCw exWs {} (FmtComposite.ofComposite {} exCw (.listItem 2) [⟨"ab".toList, {}⟩]) 3 = none := by
  decide

/-- C02: whenever wrapping succeeds, the lines put end to end hold the visible characters of the composite, in
order, each exactly once and with its style; and nothing was added: only whitespace may have disappeared. -/
theorem C02_text (cw : Char → Nat) (ws : Char → Bool) (skin : Skin) (fc : FmtComposite) (width : Nat)
    (lines : List FmtComposite) (h : hardWrapComposite cw ws skin fc width = some (.ok lines)) :
    ink ws (linesChars lines) = ink ws (styledChars fc.compounds) ∧
    (linesChars lines).Sublist (styledChars fc.compounds) :=
  ⟨(hardWrapComposite_text h).2.1, (hardWrapComposite_text h).1⟩

/-- C02: the first line keeps the kind of the composite (bullet, quote…); the next ones have the same kind, or the
follow-up kind for list items. All keep the spacing. -/
theorem C02_kinds (cw : Char → Nat) (ws : Char → Bool) (skin : Skin) (fc : FmtComposite) (width : Nat)
    (lines : List FmtComposite) (h : hardWrapComposite cw ws skin fc width = some (.ok lines)) :
    ∃ l0 more, lines = l0 :: more ∧ l0.kind = fc.kind ∧ l0.spacing = fc.spacing ∧
      ∀ l ∈ more, l.spacing = fc.spacing ∧
        ((∃ d, fc.kind = .listItem d ∧ l.kind = .listItemFollowUp d) ∨
         ((∀ d, fc.kind ≠ .listItem d) ∧ l.kind = fc.kind)) := by
  obtain ⟨_, _, _, l0, more, h1, h2, h3, h4⟩ := hardWrapComposite_text h
  refine ⟨l0, more, h1, h2, h3, ?_⟩
  intro l hl
  obtain ⟨h5, h6⟩ := h4 l hl
  refine ⟨h6, ?_⟩
  rw [h5]
  cases fc.kind <;> simp [followUpKind]

/-- C02: wrapping may however glue two words of the composite: a blank which doesn't fit is dropped, but the next
word is put on the same line if it is shorter than the blank. -/
theorem C02_glued_words_counterexample :
    ∃ fc lines, fc.compounds = [⟨"aaaaaaaa   bb cc".toList, {}⟩] ∧
      hardWrapComposite exCw exWs {} fc 10 = some (.ok lines) ∧
      (lines.map fun l => l.compounds.flatMap (·.src)) = ["aaaaaaaabb".toList, "cc".toList] :=
  ⟨FmtComposite.ofComposite {} exCw .paragraph [⟨"aaaaaaaa   bb cc".toList, {}⟩],
    [⟨.paragraph, [⟨"aaaaaaaa".toList, {}⟩, ⟨"bb".toList, {}⟩], 10, none⟩,
     ⟨.paragraph, [⟨"cc".toList, {}⟩], 2, none⟩], by decide, by decide, by decide⟩

/-- C03: the cached visible length of every line produced is the number of columns of its prefix and text, and is
what `visible_composite_length` computes. -/
theorem C03_cached_length (cw : Char → Nat) (ws : Char → Bool) (skin : Skin) (fc : FmtComposite) (width : Nat)
    (lines : List FmtComposite) (h : hardWrapComposite cw ws skin fc width = some (.ok lines)) :
    ∀ l ∈ lines, l.visibleLength = lineCols cw skin.indentMode l ∧
      l.visibleLength = skin.visibleCompositeLength cw l.kind l.compounds := by
  intro l hl
  have := (hardWrapComposite_text h).2.2.1 l hl
  exact ⟨this, by rw [this, lineCols_eq]⟩

/-- C03: the cached length is also right on creation, and kept right by `add_compound` and `recompute_width`. -/
theorem C03_creation (cw : Char → Nat) (skin : Skin) (kind : Kind) (cs : List Compound) (c : Compound)
    (fc : FmtComposite) :
    (FmtComposite.ofComposite skin cw kind cs).visibleLength =
      lineCols cw skin.indentMode (FmtComposite.ofComposite skin cw kind cs) ∧
    (fc.recomputeWidth skin cw).visibleLength = lineCols cw skin.indentMode (fc.recomputeWidth skin cw) ∧
    (fc.visibleLength = lineCols cw skin.indentMode fc →
      (fc.addCompound cw c).visibleLength = lineCols cw skin.indentMode (fc.addCompound cw c)) := by
  refine ⟨?_, ?_, addCompound_good c⟩
  · rw [lineCols_eq]; rfl
  · rw [lineCols_eq]; rfl

/-- C04: when `hard_wrap_lines` succeeds, the lines stay in order; those which fit (and all lines of tables and rules)
are kept unchanged, the other ones are replaced by lines with the same visible text. -/
theorem C04_lines (cw : Char → Nat) (ws : Char → Bool) (skin : Skin) (width : Nat) (lines out : List FmtLine)
    (h : hardWrapLines cw ws skin width lines = some (.ok out)) :
    ∃ f : FmtLine → List FmtLine, out = lines.flatMap f ∧
      ∀ line ∈ lines, (Fits skin width line → f line = [line]) ∧
        (¬ Fits skin width line → ∃ fc fcs, line = .normal fc ∧ f line = fcs.map .normal ∧
          ink ws (linesChars fcs) = ink ws (styledChars fc.compounds) ∧
          (linesChars fcs).Sublist (styledChars fc.compounds)) := by
  obtain ⟨h1, h2⟩ := hardWrapLines_ok h
  refine ⟨_, h1, ?_⟩
  intro line hl
  have h3 := h2 line hl
  cases line with
  | normal fc =>
    simp only [wrapOne, Option.map_eq_some_iff] at h3
    obtain ⟨r, hr, hr2⟩ := h3
    rw [hardWrapLine_eq] at hr
    cases hs : styleOf skin fc.kind with
    | none => rw [hs] at hr; simp at hr
    | some ls =>
      rw [hs] at hr
      simp only [Option.bind_some] at hr
      cases r with
      | error e => simp [Except.map] at hr2
      | ok fcs =>
        simp only [Except.map, Except.ok.injEq] at hr2
        split at hr
        · rename_i hfit
          simp only [Option.some.injEq, Except.ok.injEq] at hr
          subst hr
          refine ⟨fun _ => by rw [← hr2]; rfl, ?_⟩
          intro hn
          exact absurd ⟨ls, hs, hfit⟩ hn
        · rename_i hfit
          refine ⟨?_, ?_⟩
          · rintro ⟨ls', hs', hfit'⟩
            rw [hs] at hs'
            simp only [Option.some.injEq] at hs'
            subst hs'
            exact absurd hfit' hfit
          · intro _
            exact ⟨fc, fcs, rfl, hr2.symm, (hardWrapComposite_text hr).2.1, (hardWrapComposite_text hr).1⟩
  | _ =>
    simp only [wrapOne, Option.some.injEq, Except.ok.injEq] at h3
    refine ⟨fun _ => h3.symm, fun hn => absurd trivial hn⟩

/-- C04: `hard_wrap_lines` reports an error only for widths below 3. -/
theorem C04_error (cw : Char → Nat) (ws : Char → Bool) (skin : Skin) (width : Nat) (lines : List FmtLine)
    (e : InsufficientWidth) (h : hardWrapLines cw ws skin width lines = some (.error e)) : width < 3 :=
  hardWrapLines_error h

/-- C04: from width 3, when all lines can be wrapped, `hard_wrap_lines` succeeds, all the lines it gives fit the
width (margins included), can be wrapped again, and wrapping them again changes nothing. -/
theorem C04_stable (cw : Char → Nat) (ws : Char → Bool) (skin : Skin) (width : Nat) (lines : List FmtLine)
    (h3 : 3 ≤ width) (hw : ∀ fc, .normal fc ∈ lines → Wrappable cw skin width fc) :
    ∃ out, hardWrapLines cw ws skin width lines = some (.ok out) ∧
      (∀ line ∈ out, Fits skin width line) ∧
      (∀ fc, .normal fc ∈ out → fc.visibleLength = lineCols cw skin.indentMode fc) ∧
      hardWrapLines cw ws skin width out = some (.ok out) := by
  have key : ∀ line ∈ lines, ∃ b, wrapOne cw ws skin width line = some (.ok b) ∧
      (∀ l ∈ b, Fits skin width l) ∧
      (∀ fc, .normal fc ∈ b → fc.visibleLength = lineCols cw skin.indentMode fc) := by
    intro line hl
    cases line with
    | normal fc =>
      obtain ⟨ls, hs, hvl, hp, hr⟩ := hw fc hl
      simp only [wrapOne]
      rw [hardWrapLine_eq, hs]
      simp only [Option.bind_some]
      have hm := marginSum_3 ls width h3
      split
      · rename_i hfit
        refine ⟨[.normal fc], rfl, ?_, ?_⟩
        · intro l hl; simp at hl; subst hl; exact ⟨ls, hs, hfit⟩
        · intro fc' hl; simp at hl; subst hl; exact hvl
      · obtain ⟨fcs, h1, h2, _⟩ := hardWrapComposite_fit cw ws skin fc (width - marginSum ls width) (by omega)
          (by omega) (by omega) (fun p hp => by have := hr p hp; omega)
        obtain ⟨_, _, h5, l0, more, h6, h7, _, h8⟩ := hardWrapComposite_text h1
        refine ⟨fcs.map .normal, by rw [h1]; rfl, ?_, ?_⟩
        · intro l hl
          simp only [List.mem_map] at hl
          obtain ⟨g, hg, rfl⟩ := hl
          refine ⟨ls, ?_, by have := h2 g hg; omega⟩
          rw [h6] at hg
          simp only [List.mem_cons] at hg
          rcases hg with rfl | hg
          · rw [h7]; exact hs
          · rw [(h8 g hg).1, styleOf_followUp]; exact hs
        · intro g hg
          simp only [List.mem_map, FmtLine.normal.injEq, exists_eq_right] at hg
          exact h5 g hg
    | _ => exact ⟨_, rfl, by simp [Fits], by simp⟩
  have hb : ∀ line ∈ lines, wrapOne cw ws skin width line = some (.ok (blockOf cw ws skin width line)) := by
    intro line hl
    obtain ⟨b, h, _⟩ := key line hl
    rw [h]; simp [blockOf, h]
  have hfit : ∀ line ∈ lines.flatMap (blockOf cw ws skin width), Fits skin width line := by
    intro l hl
    simp only [List.mem_flatMap] at hl
    obtain ⟨line, hline, hl⟩ := hl
    obtain ⟨b, h, hfit, _⟩ := key line hline
    have : blockOf cw ws skin width line = b := by simp [blockOf, h]
    rw [this] at hl
    exact hfit l hl
  refine ⟨_, hardWrapLines_flatMap cw ws skin width lines _ _ hb rfl, hfit, ?_, ?_⟩
  · intro fc hl
    simp only [List.mem_flatMap] at hl
    obtain ⟨line, hline, hl⟩ := hl
    obtain ⟨b, h, _, hvl⟩ := key line hline
    have : blockOf cw ws skin width line = b := by simp [blockOf, h]
    rw [this] at hl
    exact hvl fc hl
  · refine hardWrapLines_flatMap cw ws skin width _ _ (fun l => [l]) ?_ ?_
    · intro l hl
      have := hfit l hl
      cases l with
      | normal fc =>
        obtain ⟨ls, hs, hf⟩ := this
        simp only [wrapOne]
        rw [hardWrapLine_eq, hs]
        simp [hf, Except.map]
      | _ => rfl
    · simp

/-- The hypotheses of C04 are met by a list item with margins. -/
def exSkin : Skin := { paragraph := { leftMargin := 2, rightMargin := 1 } }

example : Wrappable exCw exSkin 11 exItem ∧ ¬ Fits exSkin 11 (.normal exItem) := by
  refine ⟨⟨exSkin.paragraph, rfl, by decide, by decide, by decide⟩, ?_⟩
  rintro ⟨ls, h, h2⟩
  have : ls = exSkin.paragraph := by simpa [styleOf, exItem, FmtComposite.ofComposite] using h.symm
  subst this
  exact absurd h2 (by decide)

example : (hardWrapLines exCw exWs exSkin 11 [.normal exItem, .horizontalRule]).map
    (fun r => r.map List.length) = some (.ok 5) := by decide

end Verif.Props

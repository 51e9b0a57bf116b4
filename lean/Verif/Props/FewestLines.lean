import Verif.Lemmas.FewestLines
import Verif.Props.WrapBreaks
/-! C70: lines are wrapped in as few lines as possible. -/
namespace Verif.Props
open Verif

theorem nextKind_eq (k : Kind) : Spec.nextKind k = followUpKind k := by cases k <;> rfl

/-- C70: a wrapped line takes as few lines as possible: whatever the way to lay out the text on several lines fitting the
same width, without cutting words (nor adding a hyphen), and even if the blanks around line breaks aren't counted, there
are at least as many lines. -/
theorem C70_fewest (cw : Char → Nat) (ws : Char → Bool) (skin : Skin) (fc : FmtComposite) (width : Nat)
    (lines : List FmtComposite) (hlen : fc.visibleLength = lineCols cw skin.indentMode fc)
    (h : hardWrapComposite cw ws skin fc width = some (.ok lines)) (others : List (List Compound))
    (ho : Spec.Layout cw ws (prefixCols skin.indentMode fc.kind) (prefixCols skin.indentMode (Spec.nextKind fc.kind)) width fc.compounds others) :
    lines.length ≤ others.length := by
  obtain ⟨hne, hsame, hfits⟩ := ho
  obtain ⟨hlong, hc⟩ := hardWrapComposite_cases h
  rw [hlen] at hlong
  rw [nextKind_eq] at hfits
  have hcells := Fewest.cells_cut cw hsame
  rw [Fewest.cells_flatten] at hcells
  rcases hc with ⟨x, y, hcut, hls⟩ | ⟨max, hmax, hw⟩
  · rw [hls]
    cases others with
    | nil => exact absurd rfl hne
    | cons g gs =>
      cases gs with
      | cons g' gs => simp
      | nil =>
        exfalso
        have := hfits [] g [] rfl
        simp only [List.map_cons, List.map_nil, List.flatten_cons, List.flatten_nil, List.append_nil] at hcells
        have hseen := congrArg (List.map fun c : Fewest.Cell => (c.blank, c.width)) hcells
        rw [Fewest.cells_seen, Fewest.cells_seen] at hseen
        have hsum := congrArg (fun l => (List.map Prod.snd l).sum) hseen
        simp only [List.map_map, Function.comp_def, Fewest.seen] at hsum
        simp only [if_true, Spec.needed, decide_true, Spec.partCols, hsum] at this
        simp only [lineCols] at hlong
        omega
  · obtain ⟨qs, g1, g2, g3⟩ := tokenize_ok cw ws max fc.compounds
    have hl := Fewest.wrapTokens_length cw ws skin width max (followUpKind fc.kind) _ _ _ hw rfl
      (fun t ht => by obtain ⟨c, _, p, hp⟩ := g3 t ht; exact ⟨c, p, hp⟩)
    rw [hl]
    have hpieces := Fewest.tokenize_pieces cw ws max fc.compounds
    rw [← hcells] at hpieces
    cases others with
    | nil => exact absurd rfl hne
    | cons g gs =>
      have hway := Fewest.way_of_groups width (prefixCols skin.indentMode (followUpKind fc.kind)) _ _ (Fewest.cells cw ws g) (gs.map (Fewest.cells cw ws))
        (prefixCols skin.indentMode fc.kind) false (Nat.le_refl _) hpieces
        (by
          intro g' hg'
          simp only [List.mem_map] at hg'
          obtain ⟨cs, _, rfl⟩ := hg'
          exact Fewest.cells_head cw ws cs)
        (by
          have := hfits [] g gs rfl
          simp only [if_true, decide_true] at this
          exact Fewest.fits_of_seen (Fewest.cells_seen cw ws g) (by simpa using this))
        (by
          intro g' hg'
          simp only [List.mem_map] at hg'
          obtain ⟨cs, hcs, rfl⟩ := hg'
          obtain ⟨b, a, rfl⟩ := List.append_of_mem hcs
          have := hfits (g :: b) cs a rfl
          rw [if_neg (by simp)] at this
          exact Fewest.fits_of_seen (Fewest.cells_seen cw ws cs) (by simpa using this))
      have := (Fewest.breaks_le hway (prefix_followUp_le _ _)).1 (prefixCols skin.indentMode fc.kind) (Nat.le_refl _) rfl
      rw [List.length_map] at this
      rw [List.length_cons]
      have e : (firstLine skin fc).visibleLength = prefixCols skin.indentMode fc.kind := by simp [firstLine, kindWidths_fst]
      rw [e]
      omega

/-- What is asked of a text for a greater width to never need more lines: spaces are alone, words take at least a column and
fit in the first line, and the text doesn't end with a space. -/
structure Spec.SingleSpaced (cw : Char → Nat) (ws : Char → Bool) (max : Nat) (cs : List Compound) : Prop where
  spaces : ∀ c ∈ cs, ∀ w, w <:+: c.src → (∀ ch ∈ w, isBlankIn ws c ch) → cols cw w ≤ 1
  chars : ∀ c ∈ cs, ∀ ch ∈ c.src, ¬ isBlankIn ws c ch → 1 ≤ cw ch
  words : ∀ c ∈ cs, ∀ w, w <:+: c.src → (∀ ch ∈ w, ¬ isBlankIn ws c ch) → cols cw w ≤ max
  last : ∃ l p, styledChars cs = l ++ [p] ∧ Spec.blank ws p = false

/-- The tokens of a text with single spaces. -/
theorem singleSpaced_tokens {cw : Char → Nat} {ws : Char → Bool} {max : Nat} {cs : List Compound} (h : Spec.SingleSpaced cw ws max cs)
    (max' : Nat) : ∀ t ∈ (tokenize cw ws cs max').map (fun t => (t.blank, t.width)),
      (t.1 = true → t.2 ≤ 1) ∧ (t.1 = false → 1 ≤ t.2 ∧ t.2 ≤ max) := by
  intro t ht
  simp only [List.mem_map] at ht
  obtain ⟨t, ht, rfl⟩ := ht
  obtain ⟨T1, T2, hT⟩ := List.append_of_mem ht
  obtain ⟨pre, c, post, u, p, ps, k1, k2, k3, k4⟩ := tokenize_cut cw ws max' cs T1 t T2 hT
  obtain ⟨v, hv⟩ := k2.src
  have hc : c ∈ cs := by simp [k1]
  have hin : p <:+: c.src := ⟨u, v, hv.symm⟩
  have hw : t.width = cols cw p := by rw [k2.width, textWidth_eq_sum]; rfl
  simp only [hw]
  constructor
  · intro hb
    exact h.spaces c hc p hin fun ch hch => (blankBit_iff ws c ch).1 ((k2.blank ch hch).trans hb)
  · intro hb
    have hnb : ∀ ch ∈ p, ¬ isBlankIn ws c ch := fun ch hch => (blankBit_false ws c ch).1 ((k2.blank ch hch).trans hb)
    refine ⟨?_, h.words c hc p hin hnb⟩
    obtain ⟨ch, q, rfl, _⟩ := k2.cut
    have := h.chars c hc ch (hin.subset (by simp)) (hnb ch (by simp))
    simp only [cols, List.map_cons, List.sum_cons]
    omega

/-- A text which can be cut in two for a width can be for a greater one. -/
theorem cleanCut_wider {cw : Char → Nat} {ws : Char → Bool} {first other width1 width2 : Nat} {cs : List Compound} {p : Compound × Compound}
    (hw : width1 ≤ width2) (h : cleanCut cw ws first other width1 cs = some p) : ∃ p, cleanCut cw ws first other width2 cs = some p := by
  unfold cleanCut at h
  split at h
  · split at h
    · rename_i hc
      simp only [cleanCut]
      rw [if_pos (by omega)]; exact ⟨_, rfl⟩
    · cases h
  · split at h
    · rename_i hc
      simp only [cleanCut]
      rw [if_pos ⟨by omega, by omega, hc.2.2⟩]; exact ⟨_, rfl⟩
    · cases h
  · cases h

/-- C70: when spaces are alone and words fit, a greater width never needs more lines. -/
theorem C70_wider (cw : Char → Nat) (ws : Char → Bool) (skin : Skin) (fc : FmtComposite) (width1 width2 : Nat)
    (lines1 lines2 : List FmtComposite) (hlen : fc.visibleLength = lineCols cw skin.indentMode fc)
    (hw : width1 ≤ width2) (hprefix : prefixCols skin.indentMode fc.kind < width1)
    (hs : Spec.SingleSpaced cw ws (width1 - prefixCols skin.indentMode fc.kind) fc.compounds)
    (h1 : hardWrapComposite cw ws skin fc width1 = some (.ok lines1))
    (h2 : hardWrapComposite cw ws skin fc width2 = some (.ok lines2)) :
    lines2.length ≤ lines1.length := by
  have hle := prefix_followUp_le skin.indentMode fc.kind
  obtain ⟨hlong1, hc1⟩ := hardWrapComposite_cases h1
  rcases hc1 with ⟨x, y, hcut, hls⟩ | ⟨max1, hmax1, hw1⟩
  · -- it can be cut in two
    have hcut2 : ∃ p, cleanCut cw ws (compositeKindWidths skin fc.kind).1 (compositeKindWidths skin fc.kind).2 width2 fc.compounds = some p :=
      cleanCut_wider hw hcut
    obtain ⟨p, hp⟩ := hcut2
    rw [hls]
    unfold hardWrapComposite at h2
    split at h2
    · simp at h2
    · split at h2
      · simp at h2
      · simp only [hp] at h2
        simp only [Option.some.injEq, Except.ok.injEq] at h2
        rw [← h2]; simp
  · have htok := singleSpaced_tokens hs max1
    obtain ⟨qs, _, _, g3⟩ := tokenize_ok cw ws max1 fc.compounds
    have hl1 := Fewest.wrapTokens_length cw ws skin width1 max1 (followUpKind fc.kind) _ _ _ hw1 rfl
      (fun t ht => by obtain ⟨c, _, p, hp⟩ := g3 t ht; exact ⟨c, p, hp⟩)
    have e : (firstLine skin fc).visibleLength = prefixCols skin.indentMode fc.kind := by simp [firstLine, kindWidths_fst]
    rw [e] at hl1
    obtain ⟨hlong2, hc2⟩ := hardWrapComposite_cases h2
    rcases hc2 with ⟨x, y, hcut, hls⟩ | ⟨max2, hmax2, hw2⟩
    · -- there was a line break in the lesser width
      have hl2 : lines2.length = 2 := by rw [hls]; rfl
      rw [hl2, hl1]
      have hpieces := Fewest.tokenize_pieces cw ws max1 fc.compounds
      have hlast : ∃ l0 c, Fewest.cells cw ws fc.compounds = l0 ++ [c] ∧ c.blank = false := by
        obtain ⟨l, p, hl, hb⟩ := hs.last
        have hseen := Fewest.cells_seen cw ws fc.compounds
        rw [hl, List.map_append] at hseen
        obtain ⟨l0, l1, h3, h4, h5⟩ := List.map_eq_append_iff.1 hseen
        simp only [List.map_cons, List.map_nil] at h5
        obtain ⟨c, l2, rfl, h6, h7⟩ := List.map_eq_cons_iff.1 h5
        simp only [List.map_eq_nil_iff] at h7
        subst h7
        refine ⟨l0, c, h3, ?_⟩
        have := congrArg Prod.fst h6
        simpa [Fewest.seen, hb] using this
      obtain ⟨l0, c, hl0, hcb⟩ := hlast
      have hlastTok := hpieces.last l0 c hl0 hcb
      have htotal := hpieces.total
      have hcols : Fewest.cellCols (Fewest.cells cw ws fc.compounds) = ((styledChars fc.compounds).map fun p => cw p.1).sum := by
        have := congrArg (fun l => (List.map Prod.snd l).sum) (Fewest.cells_seen cw ws fc.compounds)
        simpa [Function.comp_def, Fewest.seen, Fewest.cellCols] using this
      rcases Nat.eq_zero_or_pos (Fewest.breaks width1 (prefixCols skin.indentMode (followUpKind fc.kind)) (prefixCols skin.indentMode fc.kind)
        ((tokenize cw ws fc.compounds max1).map fun t => (t.blank, t.width))) with hz | hz
      · exfalso
        have := Fewest.fits_of_no_break width1 _ _ (prefixCols skin.indentMode fc.kind)
          (fun t ht => ⟨(htok t ht).1, fun hb => ((htok t ht).2 hb).1⟩) (by omega) hlastTok hz
        rw [htotal, hcols] at this
        rw [hlen] at hlong1
        simp only [lineCols] at hlong1
        omega
      · omega
    · obtain ⟨qs, _, _, g3⟩ := tokenize_ok cw ws max2 fc.compounds
      have hl2 := Fewest.wrapTokens_length cw ws skin width2 max2 (followUpKind fc.kind) _ _ _ hw2 rfl
        (fun t ht => by obtain ⟨c, _, p, hp⟩ := g3 t ht; exact ⟨c, p, hp⟩)
      rw [e] at hl2
      have hsame : tokenize cw ws fc.compounds max1 = tokenize cw ws fc.compounds max2 := by
        refine Fewest.tokenize_max cw ws fc.compounds max1 max2 (by omega) ?_
        intro c hc b w hin hb
        rw [textWidth_eq_sum]
        cases b with
        | true =>
          have := hs.spaces c hc w hin fun ch hch => (blankBit_iff ws c ch).1 (hb ch hch)
          simp only [cols] at this
          omega
        | false =>
          have := hs.words c hc w hin fun ch hch => (blankBit_false ws c ch).1 (hb ch hch)
          simp only [cols] at this
          omega
      rw [← hsame] at hl2
      have hway := Fewest.way_of_breaks width1 width2 (prefixCols skin.indentMode (followUpKind fc.kind)) hw
        ((tokenize cw ws fc.compounds max1).map fun t => (t.blank, t.width)) (prefixCols skin.indentMode fc.kind) (prefixCols skin.indentMode fc.kind)
        (by
          intro t ht
          refine ⟨(htok t ht).1, fun hb => ?_⟩
          have := (htok t ht).2 hb
          exact ⟨this.1, by omega⟩) (by omega) (Or.inl rfl)
      have := (Fewest.breaks_le hway hle).1 (prefixCols skin.indentMode fc.kind) (Nat.le_refl _) rfl
      rw [hl1, hl2]
      omega

/-- The wrapping of a line of a kind without margins. -/
theorem hardWrapLine_noMargin {cw : Char → Nat} {ws : Char → Bool} {skin : Skin} {width : Nat} {fc : FmtComposite}
    (hm : ∀ ls, skin.lineStyle fc.kind = some ls → ls.leftMargin = 0 ∧ ls.rightMargin = 0) {fcs : List FmtComposite}
    (h : hardWrapLine cw ws skin width fc = some (.ok fcs)) :
    (fc.visibleLength ≤ width ∧ fcs = [fc]) ∨ (width < fc.visibleLength ∧ hardWrapComposite cw ws skin fc width = some (.ok fcs)) := by
  unfold hardWrapLine at h
  cases hls : skin.lineStyle fc.kind with
  | none => rw [hls] at h; simp at h
  | some ls =>
    obtain ⟨h1, h2⟩ := hm ls hls
    have hmi : ls.marginsIn (some width) = (0, 0) := by
      simp only [LineStyle.marginsIn, h1, h2]; split <;> rfl
    rw [hls] at h
    simp only [Option.bind_eq_bind, Option.bind_some, hmi, Nat.add_zero] at h
    split at h
    · rename_i hf
      simp only [Option.some.injEq, Except.ok.injEq] at h
      exact Or.inl ⟨hf, h.symm⟩
    · rename_i hf
      have hz : ∀ n, csub n 0 = some n := by intro n; simp [csub]
      simp only [hz, Option.bind_some] at h
      exact Or.inr ⟨by omega, h⟩

/-- The first line of a wrapped text. -/
theorem hardWrapLines_normal {cw : Char → Nat} {ws : Char → Bool} {skin : Skin} {width : Nat} {fc : FmtComposite} {lines out : List FmtLine}
    (h : hardWrapLines cw ws skin width (.normal fc :: lines) = some (.ok out)) :
    ∃ a b, hardWrapLine cw ws skin width fc = some (.ok a) ∧ hardWrapLines cw ws skin width lines = some (.ok b) ∧
      out = a.map .normal ++ b := by
  simp only [hardWrapLines] at h
  cases ha : hardWrapLine cw ws skin width fc with
  | none => rw [ha] at h; simp at h
  | some r =>
    rw [ha] at h
    cases r with
    | error e => simp at h
    | ok a =>
      simp only [Option.bind_eq_bind, Option.bind_some] at h
      cases hb : hardWrapLines cw ws skin width lines with
      | none => rw [hb] at h; simp at h
      | some r' =>
        rw [hb] at h
        cases r' with
        | error e => simp at h
        | ok b => simp at h; exact ⟨a, b, rfl, rfl, h.symm⟩

/-- C70: so, without margins, a text of single spaced lines and rules never needs more rows in a greater width. -/
theorem C70_text (cw : Char → Nat) (ws : Char → Bool) (skin : Skin) (width1 width2 : Nat) (hw : width1 ≤ width2)
    (hm : ∀ k ls, skin.lineStyle k = some ls → ls.leftMargin = 0 ∧ ls.rightMargin = 0) :
    ∀ (lines out1 out2 : List FmtLine),
    (∀ fc, .normal fc ∈ lines → width1 < fc.visibleLength → fc.visibleLength = lineCols cw skin.indentMode fc ∧
      prefixCols skin.indentMode fc.kind < width1 ∧ Spec.SingleSpaced cw ws (width1 - prefixCols skin.indentMode fc.kind) fc.compounds) →
    hardWrapLines cw ws skin width1 lines = some (.ok out1) → hardWrapLines cw ws skin width2 lines = some (.ok out2) →
    out2.length ≤ out1.length := by
  intro lines
  induction lines with
  | nil => intro out1 out2 _ h1 h2; simp [hardWrapLines] at h1 h2; subst h1 h2; simp
  | cons line lines ih =>
    intro out1 out2 hl h1 h2
    have hl' : ∀ fc, .normal fc ∈ lines → width1 < fc.visibleLength → fc.visibleLength = lineCols cw skin.indentMode fc ∧
      prefixCols skin.indentMode fc.kind < width1 ∧ Spec.SingleSpaced cw ws (width1 - prefixCols skin.indentMode fc.kind) fc.compounds :=
      fun fc h => hl fc (by simp [h])
    by_cases hn : ∃ fc, line = .normal fc
    · obtain ⟨fc, rfl⟩ := hn
      obtain ⟨a1, b1, ha1, hb1, rfl⟩ := hardWrapLines_normal h1
      obtain ⟨a2, b2, ha2, hb2, rfl⟩ := hardWrapLines_normal h2
      have hrest := ih b1 b2 hl' hb1 hb2
      have hfirst : a2.length ≤ a1.length := by
        rcases hardWrapLine_noMargin (hm fc.kind) ha1 with ⟨g1, rfl⟩ | ⟨g1, g2⟩
        · rcases hardWrapLine_noMargin (hm fc.kind) ha2 with ⟨_, rfl⟩ | ⟨g3, _⟩
          · simp
          · omega
        · rcases hardWrapLine_noMargin (hm fc.kind) ha2 with ⟨_, rfl⟩ | ⟨g3, g4⟩
          · obtain ⟨l0, more, rfl, _⟩ := C02_kinds cw ws skin fc width1 a1 g2
            simp
          · obtain ⟨k1, k2, k3⟩ := hl fc (by simp) g1
            exact C70_wider cw ws skin fc width1 width2 a1 a2 k1 hw k2 k3 g2 g4
      simp only [List.length_append, List.length_map]
      omega
    · have hother : ∀ w out, hardWrapLines cw ws skin w (line :: lines) = some (.ok out) →
          ∃ b, hardWrapLines cw ws skin w lines = some (.ok b) ∧ out = line :: b := by
        intro w out h
        cases line with
        | normal fc => exact absurd ⟨fc, rfl⟩ hn
        | _ =>
          simp only [hardWrapLines] at h
          cases hr : hardWrapLines cw ws skin w lines with
          | none => rw [hr] at h; simp at h
          | some r =>
            rw [hr] at h
            cases r with
            | error e => simp at h
            | ok b => simp at h; exact ⟨b, rfl, h.symm⟩
      obtain ⟨b1, hb1, rfl⟩ := hother _ _ h1
      obtain ⟨b2, hb2, rfl⟩ := hother _ _ h2
      have := ih b1 b2 hl' hb1 hb2
      simp only [List.length_cons]
      omega

/-- What is displayed of the lines. -/
def shownTexts (r : Run (Except InsufficientWidth (List FmtComposite))) : Option (List Text) :=
  match r with
  | some (.ok ls) => some (ls.map fun l => l.compounds.flatMap (·.src))
  | _ => none

/-- A quote with a bold part, and another way to lay it out in as many lines. -/
example : let fc := FmtComposite.ofComposite {} exCw .quote [⟨"one two ".toList, {}⟩, ⟨"three".toList, { bold := true }⟩, ⟨" four five".toList, {}⟩]
    fc.visibleLength = lineCols exCw .block fc ∧
    shownTexts (hardWrapComposite exCw exWs {} fc 12) = some ["one two ".toList, "three four".toList, "five".toList] ∧
    Spec.Layout exCw exWs 2 2 12 fc.compounds [[⟨"one".toList, {}⟩], [⟨" two ".toList, {}⟩, ⟨"three".toList, { bold := true }⟩], [⟨" four five".toList, {}⟩]] := by
  refine ⟨by decide, by decide, by simp, ?_, ?_⟩
  · exact .cut _ "one".toList " two ".toList _ _ rfl (Or.inr ⟨' ', "two ".toList, rfl, by decide⟩) (.whole _ _ _ (.whole _ _ _ (.whole _ _ _ .nil)))
  · intro before l after h
    cases before with
    | nil => simp at h; obtain ⟨rfl, rfl⟩ := h; decide
    | cons a before =>
      cases before with
      | nil => simp at h; obtain ⟨rfl, rfl, rfl⟩ := h; decide
      | cons b before =>
        cases before with
        | nil => simp at h; obtain ⟨rfl, rfl, rfl, rfl⟩ := h; decide
        | cons c before => simp at h

/-- To check the parts of a given text. -/
theorem infix_check {cw : Char → Nat} (P : Char → Bool) (l : Text) (k : Nat)
    (h : ∀ i < l.length + 1, ∀ j < l.length + 1, ((l.drop i).take j).all P = true → cols cw ((l.drop i).take j) ≤ k) :
    ∀ w, w <:+: l → (∀ ch ∈ w, P ch = true) → cols cw w ≤ k := by
  rintro w ⟨u, v, rfl⟩ hw
  have e : (((u ++ w ++ v).drop u.length).take w.length) = w := by simp
  have := h u.length (by simp; omega) w.length (by simp; omega) (by rw [e]; simpa using hw)
  rwa [e] at this

/-- A text with single spaces, in two widths. -/
example : let fc := FmtComposite.ofComposite {} exCw .paragraph [⟨"ab cd".toList, {}⟩, ⟨"efghi".toList, { code := true }⟩, ⟨" jk".toList, {}⟩]
    Spec.SingleSpaced exCw exWs 5 fc.compounds ∧
    shownTexts (hardWrapComposite exCw exWs {} fc 5) = some ["ab cd".toList, "efghi".toList, "jk".toList] ∧
    shownTexts (hardWrapComposite exCw exWs {} fc 9) = some ["ab cd".toList, "efghi jk".toList] := by
  refine ⟨⟨?_, ?_, ?_, ?_⟩, by decide, by decide⟩
  · intro c hc w hw hb
    refine infix_check (fun ch => exWs ch && !c.flags.code) c.src 1 ?_ w hw fun ch h => by simpa [isBlankIn] using hb ch h
    simp only [FmtComposite.ofComposite, List.mem_cons, List.not_mem_nil, or_false] at hc
    rcases hc with rfl | rfl | rfl <;> decide
  · intro c hc ch hch _
    have hall : ∀ ch ∈ c.src, 1 ≤ exCw ch := ?_
    · exact hall ch hch
    clear hch
    simp only [FmtComposite.ofComposite, List.mem_cons, List.not_mem_nil, or_false] at hc
    rcases hc with rfl | rfl | rfl <;> decide
  · intro c hc w hw hb
    refine infix_check (fun ch => !(exWs ch && !c.flags.code)) c.src 5 ?_ w hw fun ch h => by simp [← Bool.not_eq_true, Classical.or_iff_not_imp_left]; simpa [isBlankIn] using hb ch h
    simp only [FmtComposite.ofComposite, List.mem_cons, List.not_mem_nil, or_false] at hc
    rcases hc with rfl | rfl | rfl <;> decide
  · exact ⟨(styledChars [⟨"ab cd".toList, {}⟩, ⟨"efghi".toList, { code := true }⟩, ⟨" j".toList, {}⟩]), ('k', {}), by decide, by decide⟩

/-- C70: but with several spaces between words, a greater width may need one more line: a blank which doesn't fit is dropped,
and the next word may then fit, while a blank which fits leaves no room for it. -/
theorem C70_wider_counterexample :
    ∃ fc, fc.compounds = [⟨"aaaaaaaa   bb".toList, {}⟩] ∧
      shownTexts (hardWrapComposite exCw exWs {} fc 10) = some ["aaaaaaaabb".toList] ∧
      shownTexts (hardWrapComposite exCw exWs {} fc 11) = some ["aaaaaaaa   ".toList, "bb".toList] :=
  ⟨FmtComposite.ofComposite {} exCw .paragraph [⟨"aaaaaaaa   bb".toList, {}⟩], rfl, by decide, by decide⟩

/-- The default skin has no margins. -/
example : ∀ k ls, ({} : Skin).lineStyle k = some ls → ls.leftMargin = 0 ∧ ls.rightMargin = 0 := by
  intro k ls h
  cases k with
  | header level =>
    simp only [Skin.lineStyle] at h
    split at h
    · split at h
      · simp at h; subst h; exact ⟨rfl, rfl⟩
      · cases h
    · simp at h; subst h; exact ⟨rfl, rfl⟩
  | _ => simp [Skin.lineStyle] at h; subst h; exact ⟨rfl, rfl⟩

/-- C70: with margins, a greater width may need more rows: margins are dropped when they leave less than 3 columns, and
are applied with one more column. -/
theorem C70_margins_counterexample :
    ∃ skin : Skin, ∃ fc out1 out2, skin.paragraph.leftMargin = 4 ∧ fc.compounds = [⟨"ab cd".toList, {}⟩] ∧
      hardWrapLines exCw exWs skin 6 [.normal fc] = some (.ok out1) ∧ hardWrapLines exCw exWs skin 7 [.normal fc] = some (.ok out2) ∧
      out1.length = 1 ∧ out2.length = 2 :=
  ⟨{ paragraph := { leftMargin := 4 } }, FmtComposite.ofComposite {} exCw .paragraph [⟨"ab cd".toList, {}⟩],
    [.normal ⟨.paragraph, [⟨"ab cd".toList, {}⟩], 5, none⟩],
    [.normal ⟨.paragraph, [⟨"ab".toList, {}⟩, ⟨" ".toList, {}⟩], 3, none⟩, .normal ⟨.paragraph, [⟨"cd".toList, {}⟩], 2, none⟩],
    by decide, by decide, by decide, by decide, rfl, rfl⟩

end Verif.Props

import Verif.Lemmas.WrapBreaks
import Verif.Props.Wrap
/-! C54: where and when lines are broken. -/
namespace Verif.Props
open Verif

/-- What is known of a wrapping: it's a cut in two between compounds, or a fold over tokens. -/
theorem hardWrapComposite_cases {cw : Char → Nat} {ws : Char → Bool} {skin : Skin} {fc : FmtComposite} {width : Nat}
    {ls : List FmtComposite} (h : hardWrapComposite cw ws skin fc width = some (.ok ls)) :
    width < fc.visibleLength ∧
    ((∃ a b, cleanCut cw ws (compositeKindWidths skin fc.kind).1 (compositeKindWidths skin fc.kind).2 width fc.compounds = some (a, b) ∧
      ls = [(firstLine skin fc).addCompound cw a, (followUpComposite skin ((firstLine skin fc).addCompound cw a)).addCompound cw b]) ∨
    ∃ max, max = width - prefixCols skin.indentMode fc.kind ∧
      wrapTokens cw skin width (firstLine skin fc) (tokenize cw ws fc.compounds max) = some ls) := by
  unfold hardWrapComposite at h
  split at h
  · simp at h
  · split at h
    · simp at h
    · rename_i hlong
      refine ⟨by omega, ?_⟩
      simp only at h
      split at h
      · rename_i a b hcut
        simp only [Option.some.injEq, Except.ok.injEq] at h
        exact Or.inl ⟨a, b, hcut, h.symm⟩
      · right
        cases hm : csub width (compositeKindWidths skin fc.kind).1 with
        | none => rw [hm] at h; simp at h
        | some max =>
          rw [hm] at h
          simp only [Option.bind_eq_bind, Option.bind_some] at h
          cases hw : wrapTokens cw skin width (firstLine skin fc) (tokenize cw ws fc.compounds max) with
          | none => simp only [firstLine] at hw; rw [hw] at h; simp at h
          | some ls' =>
            have hw' := hw
            simp only [firstLine] at hw
            rw [hw] at h
            simp only [Option.bind_some, Option.some.injEq, Except.ok.injEq] at h
            subst h
            refine ⟨max, ?_, hw'⟩
            rw [← kindWidths_fst]
            unfold csub at hm
            split at hm
            · simpa using hm.symm
            · simp at hm

/-- The two lines of a list of two ones. -/
theorem two_lines {x y a b : α} {before after : List α} (h : [x, y] = before ++ a :: b :: after) :
    before = [] ∧ after = [] ∧ a = x ∧ b = y := by
  cases before with
  | nil => simp at h; exact ⟨rfl, h.2.2, h.1.symm, h.2.1.symm⟩
  | cons z zs =>
    cases zs with
    | nil => simp at h
    | cons z' zs => simp at h

/-- C54: a line is ended only if what follows doesn't fit in it: with the first compound of the next line (and, in the cut
of three compounds, the blank one which is dropped between them), it would be too wide. -/
theorem C54_needed (cw : Char → Nat) (ws : Char → Bool) (skin : Skin) (fc : FmtComposite) (width : Nat)
    (lines : List FmtComposite) (hlen : fc.visibleLength = lineCols cw skin.indentMode fc)
    (h : hardWrapComposite cw ws skin fc width = some (.ok lines))
    (before after : List FmtComposite) (a b : FmtComposite) (hab : lines = before ++ a :: b :: after) :
    ∃ c rest, b.compounds = c :: rest ∧
      (width < lineCols cw skin.indentMode a + cols cw c.src ∨
       ∃ x m, fc.compounds = [x, m, c] ∧ (∀ ch ∈ m.src, ws ch = true) ∧
         width < lineCols cw skin.indentMode a + cols cw m.src + cols cw c.src) := by
  have hgood := (hardWrapComposite_text h).2.2.1
  obtain ⟨hlong, hc⟩ := hardWrapComposite_cases h
  rw [hlen] at hlong
  rcases hc with ⟨x, y, hcut, hls⟩ | ⟨max, hmax, hw⟩
  · rw [hls] at hab
    obtain ⟨rfl, rfl, rfl, rfl⟩ := two_lines hab
    obtain ⟨_, _, hcs⟩ := cleanCut_spec hcut
    refine ⟨y, [], by simp [FmtComposite.addCompound, followUpComposite], ?_⟩
    have e1 : lineCols cw skin.indentMode ((firstLine skin fc).addCompound cw x) = prefixCols skin.indentMode fc.kind + cols cw x.src := by
      simp [lineCols, firstLine, FmtComposite.addCompound, styledChars_cons, styledChars_nil, cols, Function.comp_def]
    rcases hcs with hcs | ⟨m, hcs, hm⟩
    · left
      rw [e1]
      simp only [lineCols, hcs, styledChars_cons, styledChars_nil, List.map_append, List.map_map, List.sum_append, List.map_nil, List.sum_nil] at hlong
      simp only [cols]
      simpa [Function.comp_def, Nat.add_assoc] using hlong
    · right
      refine ⟨x, m, hcs, hm, ?_⟩
      rw [e1]
      simp only [lineCols, hcs, styledChars_cons, styledChars_nil, List.map_append, List.map_map, List.sum_append, List.map_nil, List.sum_nil] at hlong
      simp only [cols]
      simpa [Function.comp_def, Nat.add_assoc] using hlong
  · obtain ⟨qs, g1, g2, g3⟩ := tokenize_ok cw ws max fc.compounds
    obtain ⟨T1, t, T2, ps, q, rest, h1, h2, h3, h4, h5, h6, h7⟩ := wrapTokens_breaks cw ws skin width max _ _ _ hw
      (fun t ht => by obtain ⟨c, _, p, hp⟩ := g3 t ht; exact ⟨c, p, hp⟩) before a b after hab
    refine ⟨q, rest, h5, Or.inl ?_⟩
    have ha := hgood a (by rw [hab]; simp)
    obtain ⟨c, _, p, hp⟩ := g3 t (by rw [h1]; simp)
    have hq := hp.toCompound
    rw [h4] at hq
    simp only [Option.some.injEq] at hq
    rw [← ha, hq, cols, ← textWidth_eq_sum, ← hp.width]
    exact h6

/-- C54: lines are broken only at allowed places: each line after the first one starts with a piece of a compound, at the
start of this compound, after a blank of it, or in a part of it without blank which doesn't fit in the first line. What is
before this place is what the previous lines show. And a line starts with a blank only if it's the last of two or three
compounds, cut from the others. -/
theorem C54_places (cw : Char → Nat) (ws : Char → Bool) (skin : Skin) (fc : FmtComposite) (width : Nat)
    (lines : List FmtComposite) (h : hardWrapComposite cw ws skin fc width = some (.ok lines))
    (before after : List FmtComposite) (a b : FmtComposite) (hab : lines = before ++ a :: b :: after) :
    ∃ pre c post u v q rest, fc.compounds = pre ++ c :: post ∧ c.src = u ++ v ∧
      b.compounds = { c with src := q } :: rest ∧ q <+: v ∧
      ink ws (linesChars (before ++ [a])) = ink ws (styledChars pre ++ u.map fun ch => (ch, c.flags)) ∧
      CutAllowed cw ws (width - prefixCols skin.indentMode fc.kind) c u v ∧
      ((∃ ch q', q = ch :: q' ∧ ¬ isBlankIn ws c ch) ∨ (u = [] ∧ q = v ∧ post = [] ∧ rest = [] ∧ fc.compounds.length ≤ 3)) := by
  obtain ⟨hlong, hc⟩ := hardWrapComposite_cases h
  rcases hc with ⟨x, y, hcut, hls⟩ | ⟨max, hmax, hw⟩
  · rw [hls] at hab
    obtain ⟨rfl, rfl, rfl, rfl⟩ := two_lines hab
    obtain ⟨_, _, hcs⟩ := cleanCut_spec hcut
    rcases hcs with hcs | ⟨m, hcs, hm⟩
    · refine ⟨[x], y, [], [], y.src, y.src, [], hcs, rfl, rfl, List.prefix_refl _, ?_, CutAllowed.start _, Or.inr ⟨rfl, rfl, rfl, rfl, by simp [hcs]⟩⟩
      simp [linesChars, FmtComposite.addCompound, firstLine]
    · refine ⟨[x, m], y, [], [], y.src, y.src, [], hcs, rfl, rfl, List.prefix_refl _, ?_, CutAllowed.start _, Or.inr ⟨rfl, rfl, rfl, rfl, by simp [hcs]⟩⟩
      have : List.filter (fun q : Char × Flags => !ws q.1) (m.src.map fun ch => (ch, m.flags)) = [] := by
        rw [List.filter_eq_nil_iff]
        intro q hq
        simp only [List.mem_map] at hq
        obtain ⟨ch, hch, rfl⟩ := hq
        simp [hm ch hch]
      simp [linesChars, FmtComposite.addCompound, firstLine, styledChars_cons, styledChars_nil, ink, this]
  · obtain ⟨qs, g1, g2, g3⟩ := tokenize_ok cw ws max fc.compounds
    obtain ⟨T1, t, T2, ps, q, rest, h1, h2, h3, h4, h5, h6, h7⟩ := wrapTokens_breaks cw ws skin width max _ _ _ hw
      (fun t ht => by obtain ⟨c, _, p, hp⟩ := g3 t ht; exact ⟨c, p, hp⟩) before a b after hab
    obtain ⟨pre, c, post, u, p, ps', k1, k2, k3, k4⟩ := tokenize_cut cw ws max fc.compounds T1 t T2 h1
    rw [h2] at k3
    simp only [Option.some.injEq] at k3
    subst k3
    obtain ⟨v, hv⟩ := k2.src
    have hq := k2.compound
    rw [h4] at hq
    simp only [Option.some.injEq] at hq
    obtain ⟨ch, p', hp', hcut⟩ := k2.cut
    have hch : blankBit ws c ch = false := by rw [k2.blank ch (by simp [hp']), h3]
    refine ⟨pre, c, post, u, p ++ v, p, rest, k1, by simp [hv], by rw [h5, hq], List.prefix_append _ _, ?_, ?_, Or.inl ⟨ch, p', hp', ?_⟩⟩
    · rw [h7, k4]
      simp [firstLine, styledChars_nil]
    · rw [← hmax, hp']
      cases hcut with
      | start => exact CutAllowed.start _
      | kind u' x _ hx =>
        refine CutAllowed.afterBlank _ _ _ ?_
        rw [← blankBit_iff]
        rw [hch] at hx
        simpa using hx
      | long u' w _ hw' hx hlong' =>
        refine CutAllowed.longWord _ _ _ _ hw' ?_ (by rw [cols, ← textWidth_eq_sum]; exact hlong')
        intro z hz
        rw [← blankBit_false]
        simp only [List.mem_append, List.mem_singleton] at hz
        rcases hz with hz | rfl
        · rw [hx z hz, hch]
        · exact hch
    · rw [← blankBit_false]; exact hch

/-- C54: when every word fits in the first line, no word is cut: lines start with the start of a compound or after a blank.
A word is here a part without blank of one compound (a code one has no blank). -/
theorem C54_words (cw : Char → Nat) (ws : Char → Bool) (skin : Skin) (fc : FmtComposite) (width : Nat)
    (lines : List FmtComposite) (h : hardWrapComposite cw ws skin fc width = some (.ok lines))
    (hwords : ∀ c ∈ fc.compounds, ∀ w, w <:+: c.src → (∀ ch ∈ w, ¬ isBlankIn ws c ch) →
      cols cw w ≤ width - prefixCols skin.indentMode fc.kind)
    (before after : List FmtComposite) (a b : FmtComposite) (hab : lines = before ++ a :: b :: after) :
    ∃ pre c post u v q rest, fc.compounds = pre ++ c :: post ∧ c.src = u ++ v ∧
      b.compounds = { c with src := q } :: rest ∧ q <+: v ∧
      ink ws (linesChars (before ++ [a])) = ink ws (styledChars pre ++ u.map fun ch => (ch, c.flags)) ∧
      (u = [] ∨ ∃ u' ch, u = u' ++ [ch] ∧ isBlankIn ws c ch) := by
  obtain ⟨pre, c, post, u, v, q, rest, h1, h2, h3, h4, h5, h6, _⟩ := C54_places cw ws skin fc width lines h before after a b hab
  refine ⟨pre, c, post, u, v, q, rest, h1, h2, h3, h4, h5, ?_⟩
  cases h6 with
  | start => exact Or.inl rfl
  | afterBlank u' ch _ hb => exact Or.inr ⟨u', ch, rfl, hb⟩
  | longWord u' w ch v' hne hnb hlong =>
    have := hwords c (by rw [h1]; simp) (w ++ [ch]) ⟨u', v', by rw [h2]; simp⟩ hnb
    omega

/-- A text with a bold part and a long word: the places of the breaks, one in the long word. -/
def exBreaks : FmtComposite :=
  FmtComposite.ofComposite {} exCw .quote [⟨"one two ".toList, {}⟩, ⟨"three".toList, { bold := true }⟩, ⟨" antidisestablish no".toList, {}⟩]

example : exBreaks.visibleLength = lineCols exCw .block exBreaks ∧
    hardWrapComposite exCw exWs {} exBreaks 12 = some (.ok [
      ⟨.quote, [⟨"one".toList, {}⟩, ⟨" ".toList, {}⟩, ⟨"two".toList, {}⟩, ⟨" ".toList, {}⟩], 10, none⟩,
      ⟨.quote, [⟨"three".toList, { bold := true }⟩, ⟨" ".toList, {}⟩], 8, none⟩,
      ⟨.quote, [⟨"antidisest".toList, {}⟩], 12, none⟩,
      ⟨.quote, [⟨"ablish".toList, {}⟩, ⟨" ".toList, {}⟩, ⟨"no".toList, {}⟩], 11, none⟩]) := by decide

/-- A text meeting the hypothesis of `C54_words`: its words have at most 5 columns. -/
example : let fc := FmtComposite.ofComposite {} exCw .paragraph [⟨"ab cd".toList, {}⟩, ⟨"efghi".toList, { code := true }⟩, ⟨" j k".toList, {}⟩, ⟨"l".toList, { bold := true }⟩]
    (∀ c ∈ fc.compounds, ∀ w, w <:+: c.src → (∀ ch ∈ w, ¬ isBlankIn exWs c ch) → cols exCw w ≤ 5 - prefixCols .block fc.kind) ∧
    (hardWrapComposite exCw exWs {} fc 5).map (fun r => r.toOption.map fun ls => ls.map fun l => l.compounds.flatMap (·.src)) =
      some (some ["ab cd".toList, "efghi".toList, "j kl".toList]) := by
  refine ⟨?_, by decide⟩
  intro c hc w hw _
  have hl : c.src.length ≤ 5 ∧ ∀ ch ∈ c.src, exCw ch = 1 := by
    simp only [FmtComposite.ofComposite, List.mem_cons, List.not_mem_nil, or_false] at hc
    rcases hc with rfl | rfl | rfl | rfl <;> decide
  have h1 : cols exCw w = w.length := by
    have : ∀ t : Text, (∀ ch ∈ t, exCw ch = 1) → cols exCw t = t.length := by
      intro t ht
      induction t with
      | nil => rfl
      | cons x t ih =>
        have := ih (fun ch h => ht ch (by simp [h]))
        simp only [cols, List.map_cons, List.sum_cons, List.length_cons, ht x (by simp)] at this ⊢
        omega
    exact this w (fun ch h => hl.2 ch (hw.subset h))
  have := hw.length_le
  simp only [FmtComposite.ofComposite, prefixCols]
  omega

/-- C54: a line may be broken between compounds in the middle of a (partly styled) word, even if a space would allow to break it before. -/
theorem C54_styled_word_counterexample :
    ∃ fc lines, fc.compounds = [⟨"aa bb".toList, {}⟩, ⟨"cc".toList, { bold := true }⟩] ∧
      hardWrapComposite exCw exWs {} fc 6 = some (.ok lines) ∧
      (lines.map fun l => l.compounds.flatMap (·.src)) = ["aa bb".toList, "cc".toList] :=
  ⟨FmtComposite.ofComposite {} exCw .paragraph [⟨"aa bb".toList, {}⟩, ⟨"cc".toList, { bold := true }⟩],
    [⟨.paragraph, [⟨"aa bb".toList, {}⟩], 5, none⟩, ⟨.paragraph, [⟨"cc".toList, { bold := true }⟩], 2, none⟩], by decide, by decide, by decide⟩

/-- C54: when the last of two or three compounds is put in the second line, its leading spaces are kept. -/
theorem C54_leading_space_counterexample :
    ∃ fc lines, fc.compounds = [⟨"aaaa".toList, { bold := true }⟩, ⟨" bb".toList, {}⟩] ∧
      hardWrapComposite exCw exWs {} fc 6 = some (.ok lines) ∧
      (lines.map fun l => l.compounds.flatMap (·.src)) = ["aaaa".toList, " bb".toList] :=
  ⟨FmtComposite.ofComposite {} exCw .paragraph [⟨"aaaa".toList, { bold := true }⟩, ⟨" bb".toList, {}⟩],
    [⟨.paragraph, [⟨"aaaa".toList, { bold := true }⟩], 4, none⟩, ⟨.paragraph, [⟨" bb".toList, {}⟩], 3, none⟩], by decide, by decide, by decide⟩

end Verif.Props

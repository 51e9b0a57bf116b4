import Verif.Spec.ContentAlign
import Verif.Props.Rendering
/-! C57: a text can be aligned on its content. -/
namespace Verif.Props
open Verif

private theorem matched_at {α β : Type} {R : α → β → Prop} {as : List α} {bs : List β} (h : Spec.Matched R as bs) :
    as.length = bs.length ∧ ∀ (i : Nat) (a : α) (b : β), as[i]? = some a → bs[i]? = some b → R a b := by
  induction h with
  | nil => exact ⟨rfl, fun i a b h => by simp at h⟩
  | @cons x y xs ys hr _ ih =>
    refine ⟨by simp [ih.1], ?_⟩
    intro i a b ha hb
    cases i with
    | zero => simp at ha hb; subst ha hb; exact hr
    | succ i => simp at ha hb; exact ih.2 i a b ha hb

private theorem noMargins {skin : Skin} (h : Spec.NoMargins skin) (w : Nat) (l : FmtLine) : Spec.margins skin w l = (0, 0) := by
  cases l with
  | normal fc =>
    simp only [Spec.margins]
    cases hs : styleOf skin fc.kind with
    | none => rfl
    | some ls =>
      obtain ⟨h1, h2⟩ := h _ _ hs
      simp [h1, h2]
  | _ => rfl

private theorem cols_spaces {cw : Char → Nat} (h : cw ' ' = 1) (st : CompoundStyle) (n : Nat) : piecesCols cw (Spec.spaces st n) = n := by
  cases n with
  | zero => rfl
  | succ n =>
    have e : piecesText (Spec.spaces st (n + 1)) = List.replicate (n + 1) ' ' := by simp [Spec.spaces, piecesText]
    rw [piecesCols, e, textWidth_replicate, h, Nat.mul_one]

/-- C57: a text whose rendering width is set to its content width is aligned on its content: horizontal rules are exactly as wide as the widest
line, and all the other lines are on the left, in the middle or on the right of this width, according to their alignment. -/
theorem C57_content_align (cw : Char → Nat) (ws : Char → Bool) (skin : Skin) (hs : OneColumnSkin cw skin) (hm : Spec.NoMargins skin)
    (ow : Option Nat) (h3 : ∀ w, ow = some w → 3 ≤ w) (mlines : List MLine) (h : FittingText cw skin (ow.getD usizeMax) mlines)
    (hrules : ∀ tbl, IsTableOf (mlines.map (FmtLine.ofMLine skin cw)) tbl → ∃ rule, .tableRule rule ∈ tbl) :
    ∃ t drawn, FmtText.fromText cw ws skin mlines ow = some t ∧ (t.setRenderingWidth t.contentWidth).display skin = some drawn ∧
      drawn.length = t.lines.length ∧
      (∀ (i : Nat) (line : FmtLine) (written : List Piece), t.lines[i]? = some line → drawn[i]? = some written →
        Spec.OnContent cw skin t.contentWidth line written) ∧
      (t.lines ≠ [] → ∃ line ∈ t.lines, Spec.contentCols line = t.contentWidth) := by
  obtain ⟨t, ht, h1, h2⟩ := C57_content_width cw ws skin ow h3 mlines h hrules
  obtain ⟨contents, c1, c2⟩ := C57_moved cw skin hs t fun l hl => (h1 l hl).1
  obtain ⟨drawn, d1, d2⟩ := c2 t.contentWidth
  obtain ⟨l1, m1⟩ := matched_at c1
  obtain ⟨l2, m2⟩ := matched_at d2
  refine ⟨t, drawn, ht, d1, by rw [← l2, List.length_zip, ← l1]; omega, ?_, h2⟩
  intro i line written hi hw
  have hil : i < t.lines.length := by
    by_cases hh : i < t.lines.length
    · exact hh
    · rw [List.getElem?_eq_none (by omega)] at hi; cases hi
  have hc : contents[i]? = some (contents[i]'(by omega)) := List.getElem?_eq_getElem (by omega)
  generalize contents[i]'(by omega) = content at hc
  have hz : (t.lines.zip contents)[i]? = some (line, content) := by
    rw [List.getElem?_zip_eq_some]; exact ⟨hi, hc⟩
  have hr := m2 i _ _ hz hw
  have hcols := m1 i _ _ hi hc
  have hle := (h1 line (List.mem_of_getElem? hi)).2
  have hnm := noMargins hm t.contentWidth line
  have other : ∀ (_ : line ≠ .horizontalRule) (_ : written = Spec.spaces skin.paragraph.style (Spec.startCol skin t.contentWidth line) ++ content),
      piecesCols cw written ≤ t.contentWidth ∧
      ∃ (before : Nat) (content : List Piece) (after : Nat), written = Spec.spaces skin.paragraph.style before ++ content ∧
        piecesCols cw content = Spec.contentCols line ∧ before + Spec.contentCols line + after = t.contentWidth ∧
        match Spec.alignOf skin line with
        | .left | .unspecified => before = 0
        | .center => after = before ∨ after = before + 1
        | .right => after = 0 := by
    intro hne e
    have hst : Spec.startCol skin t.contentWidth line = Spec.share (Spec.alignOf skin line) (t.contentWidth - Spec.contentCols line) := by
      simp [Spec.startCol, hnm]
    have hsh : ∀ al free, Spec.share al free ≤ free := by
      intro al free; cases al <;> simp only [Spec.share] <;> omega
    have hsh' := hsh (Spec.alignOf skin line) (t.contentWidth - Spec.contentCols line)
    refine ⟨?_, Spec.startCol skin t.contentWidth line, content,
      t.contentWidth - Spec.contentCols line - Spec.startCol skin t.contentWidth line, e, hcols hne, by omega, ?_⟩
    · rw [e, piecesCols_append, cols_spaces hs.space, hcols hne]; omega
    · rw [hst]
      cases Spec.alignOf skin line <;> simp only [Spec.share] <;> omega
  cases line with
  | horizontalRule =>
    have e : piecesText written = List.replicate t.contentWidth skin.horizontalRule.char := hr
    refine ⟨?_, e⟩
    rw [piecesCols, e, textWidth_replicate, hs.rule, Nat.mul_one]
    exact Nat.le_refl _
  | normal fc => exact other (by simp) hr
  | tableRow cells => exact other (by simp) hr
  | tableRule rule => exact other (by simp) hr

/-- The skin of the example: code is aligned on the right, and headers of level 1 are centered. -/
def alignedSkin : Skin := { ({} : Skin) with codeBlock := { align := .right }, headers := fun i => if i.val = 0 then { align := .center } else {} }

/-- A text like the one of the example. -/
def alignedText : List MLine :=
  [.horizontalRule, .normal (.header 1) [⟨"Title".toList, {}⟩], .normal .paragraph [⟨"A medium text.".toList, {}⟩],
    .normal .code [⟨"right".toList, { code := true }⟩], .horizontalRule]

theorem alignedText_fits : FittingText renderCw alignedSkin 80 alignedText := by
  refine ⟨?_, ?_, ?_⟩
  · intro kind cs hm
    simp only [alignedText, List.mem_cons, MLine.normal.injEq, reduceCtorEq, List.not_mem_nil, or_false, false_or] at hm
    rcases hm with ⟨rfl, rfl⟩ | ⟨rfl, rfl⟩ | ⟨rfl, rfl⟩
    · exact ⟨by intro d h; simp at h, _, rfl, by simp, by decide +kernel, by decide +kernel⟩
    · exact ⟨by intro d h; simp at h, _, rfl, by simp, by decide +kernel, by decide +kernel⟩
    · exact ⟨by intro d h; simp at h, _, rfl, by decide +kernel, by decide +kernel, by decide +kernel⟩
  · intro cells hm
    simp [alignedText] at hm
  · intro tbl ht
    obtain ⟨hne, htl, before, after, e, _⟩ := ht
    obtain ⟨x, hx⟩ := List.exists_mem_of_ne_nil _ hne
    have hx' : x ∈ alignedText.map (FmtLine.ofMLine alignedSkin renderCw) := by rw [e]; simp [hx]
    have := htl x hx
    simp only [alignedText, List.map_cons, List.map_nil, FmtLine.ofMLine, List.mem_cons, List.not_mem_nil, or_false] at hx'
    rcases hx' with rfl | rfl | rfl | rfl | rfl <;> exact absurd this id

/-- The lines are aligned on the content: the paragraph, which is the widest one. -/
example : Spec.NoMargins alignedSkin ∧ ((FmtText.fromText renderCw (· == ' ') alignedSkin alignedText (some 80)).bind fun t =>
      ((t.setRenderingWidth t.contentWidth).display alignedSkin).map fun rows => rows.map fun ps => String.ofList (piecesText ps)) =
    some ["――――――――――――――", "    Title", "A medium text.", "         right", "――――――――――――――"] := by
  refine ⟨?_, by decide +kernel⟩
  intro kind ls h
  cases kind with
  | header n =>
    cases n with
    | zero => simp [styleOf] at h
    | succ n =>
      simp only [styleOf] at h
      by_cases hn : n < 8
      · rw [dif_pos hn] at h
        simp only [Option.some.injEq] at h
        rw [← h]
        simp only [alignedSkin]
        by_cases h0 : n = 0 <;> simp [h0]
      · rw [dif_neg hn] at h
        simp only [Option.some.injEq] at h
        rw [← h]
        exact ⟨rfl, rfl⟩
  | _ =>
    simp only [styleOf, Option.some.injEq] at h
    rw [← h]
    exact ⟨rfl, rfl⟩

/-- Margins aren't in the content width: with a margin, the widest line goes beyond it. -/
theorem C57_margin_counterexample :
    ((FmtText.fromText renderCw (· == ' ') { alignedSkin with codeBlock := { leftMargin := 4 } } [.normal .code [⟨"some code".toList, { code := true }⟩], .horizontalRule] (some 80)).bind
      fun t => ((t.setRenderingWidth t.contentWidth).display { alignedSkin with codeBlock := { leftMargin := 4 } }).map
        fun rows => rows.map fun ps => String.ofList (piecesText ps)) = some ["    some code", "―――――――――"] := by decide +kernel

end Verif.Props

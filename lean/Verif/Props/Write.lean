import Verif.Model.Write
import Verif.Props.Fitter
/-! Property C55: composites written by a skin. -/
namespace Verif.Props
open Verif

/-- What a composite must be to be written in a given width: its kind has a style, its prefix leaves room for an ellipsis, its
compounds aren't empty if the left can be cut, and tokens are not just two wide characters if they can be elided. -/
structure Fillable (cw : Char → Nat) (ws : Char → Bool) (skin : Skin) (kind : Kind) (cs : List Compound) (width : Nat)
    (align : Alignment) : Prop where
  styled : styleOf skin kind ≠ none
  depth : ∀ d, kind = .listItemFollowUp d → d < 255
  room : prefixCols skin.indentMode kind = 0 ∨ prefixCols skin.indentMode kind + 1 ≤ width ∧ 2 ≤ width
  nonEmpty : align = .right ∨ align = .center → ∀ c ∈ cs, c.src ≠ []
  tokens : align = .unspecified → ThickTokens cw ws cs

private theorem fittable {cw : Char → Nat} {ws : Char → Bool} {skin : Skin} {kind : Kind} {cs : List Compound} {width : Nat}
    {align : Alignment} (h : Fillable cw ws skin kind cs width align) :
    Fittable cw ws skin (Fitter.forAlign align) width (FmtComposite.ofComposite skin cw kind cs) := by
  refine ⟨?_, h.room, ?_, ?_⟩
  · rw [lineCols_eq]; rfl
  · intro ha; apply h.nonEmpty; cases align <;> simp_all [Fitter.forAlign]
  · intro ha; apply h.tokens; cases align <;> simp_all [Fitter.forAlign]

/-- What `fill_width` gives, with its kind and its text. -/
private theorem filled {cw : Char → Nat} {ws : Char → Bool} {skin : Skin} (he : cw '…' = 1) {kind : Kind} {cs : List Compound}
    {width : Nat} {align : Alignment} (h : Fillable cw ws skin kind cs width align) :
    ∃ fc, (FmtComposite.ofComposite skin cw kind cs).fillWidth cw ws width align skin = some fc ∧ Drawable cw skin fc ∧
      spacedCols fc = width ∧ fc.kind = kind ∧ (∀ sp, fc.spacing = some sp → sp.align = align) ∧
      ∃ g, (FmtComposite.ofComposite skin cw kind cs).fitWidth cw ws width align skin = some g ∧ fc.compounds = g.compounds ∧
        (lineCols cw skin.indentMode (FmtComposite.ofComposite skin cw kind cs) ≤ width → g.compounds = cs) := by
  have hf := fittable h
  obtain ⟨g, h1, h2, h3, h4, h5, h6⟩ := C12_fits cw ws skin he _ width _ hf
  obtain ⟨fc, f1, f2, f3, f4, f5⟩ := C12_fill cw ws skin he align width _ hf rfl
  have hfc : fc = g.extendWidth width align := by
    simp only [FmtComposite.fillWidth, FmtComposite.fitWidth, h1, Option.map_some, Option.some.injEq] at f1
    exact f1.symm
  have hk : fc.kind = kind := by
    rw [hfc, FmtComposite.extendWidth]
    split
    · exact h4
    · split <;> exact h4
  have hc : fc.compounds = g.compounds := by
    rw [hfc, FmtComposite.extendWidth]
    split
    · rfl
    · split <;> rfl
  refine ⟨fc, f1, ⟨by rw [hk]; exact h.styled, f4, by omega, by rw [hk]; exact h.depth⟩, f2, hk, f5, g, h1, hc, ?_⟩
  intro hle
  rw [← hf.cached] at hle
  rw [h6 hle]
  rfl

/-- The text written for a composite which can be drawn. -/
private theorem inline_text {cw : Char → Nat} {skin : Skin} {fc : FmtComposite} (hd : Drawable cw skin fc)
    (hsp : ∀ c ∈ fc.compounds, skin.specialChars c = none) :
    ∃ ps ls, skin.writeInline fc = some ps ∧ styleOf skin fc.kind = some ls ∧
      piecesText ps = List.replicate (ls.leftMargin + fc.completions.1) ' ' ++ compositeText skin fc ++
        List.replicate fc.completions.2 ' ' := by
  obtain ⟨ls, pre, h1, h2, h3⟩ := writeFmtComposite_ok hd none true
  simp only [if_true] at h3
  refine ⟨_, ls, h3.1, h1, ?_⟩
  simp only [piecesText_append, piecesText_repeat, h2, writeCompounds_text ls fc.compounds hsp, compositeText,
    Spacing.optionalCompletions, LineStyle.marginsIn, Nat.zero_add, ← List.replicate_append_replicate, List.append_assoc]

/-- C55: `write_composite_fill` doesn't panic and writes exactly the asked width, after the left margin. -/
theorem C55_fill (cw : Char → Nat) (ws : Char → Bool) (skin : Skin) (he : cw '…' = 1) (hs : OneColumnSkin cw skin) (kind : Kind)
    (cs : List Compound) (width : Nat) (align : Alignment) (h : Fillable cw ws skin kind cs width align) :
    ∃ ps ls, skin.writeCompositeFill cw ws kind cs width align = some ps ∧ styleOf skin kind = some ls ∧
      piecesCols cw ps = ls.leftMargin + width := by
  obtain ⟨fc, h1, h2, h3, h4, _, _⟩ := filled he h
  obtain ⟨ps, ls, p1, p2, p3⟩ := C10_inline cw skin hs fc h2
  refine ⟨ps, ls, ?_, by rw [← h4]; exact p2, by rw [p3, h3]⟩
  simp only [Skin.writeCompositeFill, h1, Option.bind_eq_bind, Option.bind_some, p1]

/-- C55: what fits is written whole, in blanks distributed as asked. -/
theorem C55_whole (cw : Char → Nat) (ws : Char → Bool) (skin : Skin) (he : cw '…' = 1) (kind : Kind)
    (cs : List Compound) (width : Nat) (align : Alignment) (h : Fillable cw ws skin kind cs width align)
    (hsp : ∀ c, skin.specialChars c = none)
    (hfit : prefixCols skin.indentMode kind + ((styledChars cs).map fun p => cw p.1).sum ≤ width) :
    ∃ ps ls a b, skin.writeCompositeFill cw ws kind cs width align = some ps ∧ styleOf skin kind = some ls ∧
      piecesText ps = List.replicate ls.leftMargin ' ' ++ List.replicate a ' ' ++ prefixText skin kind ++
        (styledChars cs).map (·.1) ++ List.replicate b ' ' ∧
      a + (prefixCols skin.indentMode kind + ((styledChars cs).map fun p => cw p.1).sum) + b = width ∧
      Placed align 0 0 a b := by
  obtain ⟨fc, h1, h2, h3, h4, h5, g, g1, g2, g3⟩ := filled he h
  obtain ⟨ps, ls, p1, p2, p3⟩ := inline_text h2 (fun c _ => hsp c)
  have hcs : fc.compounds = cs := by rw [g2]; exact g3 hfit
  have hlen : fc.visibleLength = prefixCols skin.indentMode kind + ((styledChars cs).map fun p => cw p.1).sum := by
    rw [h2.cached, lineCols, hcs, h4]
  refine ⟨ps, ls, fc.completions.1, fc.completions.2, ?_, by rw [← h4]; exact p2, ?_, ?_, ?_⟩
  · simp only [Skin.writeCompositeFill, h1, Option.bind_eq_bind, Option.bind_some, p1]
  · rw [p3, compositeText, hcs, h4]
    simp only [← List.replicate_append_replicate, List.append_assoc]
  · have := completions_fc (fc := fc)
    omega
  · cases hsp : fc.spacing with
    | none =>
      have : fc.completions = (0, 0) := by simp [FmtComposite.completions, hsp]
      rw [this]
      cases align <;> simp [Placed]
    | some sp =>
      have := placed_completions fc sp hsp
      rw [h5 sp hsp] at this
      exact this

/-- C55: what doesn't fit is written with some parts replaced by ellipses, at the end for a left alignment, at the start for a right one,
on the end and maybe the start for a centered one, anywhere otherwise. -/
theorem C55_elided (cw : Char → Nat) (ws : Char → Bool) (skin : Skin) (he : cw '…' = 1) (kind : Kind)
    (cs : List Compound) (width : Nat) (align : Alignment) (h : Fillable cw ws skin kind cs width align)
    (hsp : ∀ c, skin.specialChars c = none) (h2 : 2 ≤ width)
    (hgt : width < prefixCols skin.indentMode kind + ((styledChars cs).map fun p => cw p.1).sum) :
    ∃ ps ls a b t, skin.writeCompositeFill cw ws kind cs width align = some ps ∧ styleOf skin kind = some ls ∧
      piecesText ps = List.replicate ls.leftMargin ' ' ++ List.replicate a ' ' ++ prefixText skin kind ++
        t.map (·.1) ++ List.replicate b ' ' ∧ Placed align 0 0 a b ∧ Elided (styledChars cs) t ∧
      (align = .left → ∃ kept removed, styledChars cs = kept ++ removed ∧ removed ≠ [] ∧ t = kept ++ [dots]) ∧
      (align = .right → ∃ removed kept, styledChars cs = removed ++ kept ∧ removed ≠ [] ∧ t = dots :: kept) ∧
      (align = .center → ∃ before kept after, styledChars cs = before ++ kept ++ after ∧ after ≠ [] ∧
        (before = [] ∧ t = kept ++ [dots] ∨ before ≠ [] ∧ t = dots :: kept ++ [dots])) := by
  obtain ⟨fc, h1, hd, h3, h4, h5, g, g1, g2, g3⟩ := filled he h
  have hf := fittable h
  have hgt' : width < (FmtComposite.ofComposite skin cw kind cs).visibleLength := by rw [hf.cached]; exact hgt
  obtain ⟨ps, ls, p1, p2, p3⟩ := inline_text hd (fun c _ => hsp c)
  refine ⟨ps, ls, fc.completions.1, fc.completions.2, styledChars g.compounds, ?_, by rw [← h4]; exact p2, ?_, ?_, ?_, ?_, ?_, ?_⟩
  · simp only [Skin.writeCompositeFill, h1, Option.bind_eq_bind, Option.bind_some, p1]
  · rw [p3, compositeText, g2, h4]
    simp only [← List.replicate_append_replicate, List.append_assoc]
  · cases hsp : fc.spacing with
    | none =>
      have : fc.completions = (0, 0) := by simp [FmtComposite.completions, hsp]
      rw [this]
      cases align <;> simp [Placed]
    | some sp =>
      have := placed_completions fc sp hsp
      rw [h5 sp hsp] at this
      exact this
  · obtain ⟨g', k1, k2⟩ := C13_elided cw ws skin he _ width _ hf h2 hgt'
    rw [FmtComposite.fitWidth, k1] at g1
    cases g1
    exact k2
  · rintro rfl
    obtain ⟨g', kept, removed, k1, k2, k3, k4, _⟩ := C13_left cw ws skin he width _ hf h2 hgt'
    rw [k1] at g1
    cases g1
    exact ⟨kept, removed, k2, k3, k4⟩
  · rintro rfl
    obtain ⟨g', removed, kept, k1, k2, k3, k4, _⟩ := C13_right cw ws skin he width _ hf h2 hgt'
    rw [k1] at g1
    cases g1
    exact ⟨removed, kept, k2, k3, k4⟩
  · rintro rfl
    obtain ⟨g', before, kept, after, k1, k2, k3, k4⟩ := C13_center cw ws skin he width _ hf h2 hgt'
    rw [k1] at g1
    cases g1
    refine ⟨before, kept, after, k2, k3, ?_⟩
    rcases k4 with ⟨rfl, k4, _⟩ | ⟨k5, k4, _⟩ | ⟨rfl, rfl, k4, _⟩
    · exact Or.inl ⟨rfl, k4⟩
    · exact Or.inr ⟨k5, k4⟩
    · exact Or.inl ⟨rfl, k4⟩

/-- C55: `write_composite` writes the whole composite, after the left margin and without right one. -/
theorem C55_composite (cw : Char → Nat) (skin : Skin) (kind : Kind) (cs : List Compound) (hst : styleOf skin kind ≠ none)
    (hdepth : ∀ d, kind = .listItemFollowUp d → d < 255) (hsp : ∀ c ∈ cs, skin.specialChars c = none) :
    ∃ ps ls, skin.writeComposite cw kind cs = some ps ∧ styleOf skin kind = some ls ∧
      piecesText ps = List.replicate ls.leftMargin ' ' ++ prefixText skin kind ++ (styledChars cs).map (·.1) := by
  have hd : Drawable cw skin (FmtComposite.ofComposite skin cw kind cs) :=
    ⟨hst, by rw [lineCols_eq]; rfl, Nat.le_refl _, hdepth⟩
  obtain ⟨ps, ls, p1, p2, p3⟩ := inline_text hd hsp
  refine ⟨ps, ls, p1, p2, ?_⟩
  rw [p3]
  simp [FmtComposite.ofComposite, FmtComposite.completions, compositeText]

/-- A list item with styles. -/
def writeExample : List Compound := [⟨"a long ".toList, {}⟩, ⟨"word".toList, { bold := true }⟩]

example : Fillable fitCw fitWs {} (.listItem 1) writeExample 9 .center :=
  ⟨by simp [styleOf], by simp, .inr (by decide), by decide, by simp⟩

example : Fillable fitCw fitWs renderSkin (.listItem 1) writeExample 20 .unspecified :=
  ⟨by simp [styleOf], by simp, .inr (by decide), by simp, fun _ => thin_thick fitWs (by decide)⟩

example : (({} : Skin).writeCompositeFill fitCw fitWs (.listItem 1) writeExample 9 .left).map (fun ps => String.ofList (piecesText ps)) =
    some " • a lon…" := by decide

example : (({} : Skin).writeCompositeFill fitCw fitWs (.listItem 1) writeExample 18 .center).map (fun ps => String.ofList (piecesText ps)) =
    some "   • a long word  " := by decide

/-- The left margin isn't taken into account: more columns than asked are written. -/
theorem C55_margin_counterexample :
    (renderSkin.writeCompositeFill fitCw fitWs .paragraph writeExample 12 .left).map (piecesCols fitCw) = some 14 := by decide

end Verif.Props

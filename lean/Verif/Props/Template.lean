import Verif.Spec.Template
import Verif.Props.Print
import Verif.Props.StyledDisplay
/-! C86: inline templates. -/
namespace Verif
open Spec Props

/-- The compounds of a template when the values from some index have been put in it. -/
private theorem fill_loop (parts : List TemplatePart) : ∀ (values : List Text) (k : Nat) (g : TemplatePart → Compound),
    (values.zipIdx k).foldl (fun cs v => applyArg parts cs v.2 v.1) (parts.map g) =
      parts.map fun p => match p with
        | .text s f => g (.text s f)
        | .place a f => { g (.place a f) with src := if k ≤ a.val then (values[a.val - k]?).getD (g (.place a f)).src else (g (.place a f)).src } := by
  intro values
  induction values with
  | nil =>
    intro k g
    simp only [List.zipIdx_nil, List.foldl_nil]
    apply List.map_congr_left
    intro p _
    cases p with
    | text s f => rfl
    | place a f => simp
  | cons v values ih =>
    intro k g
    rw [List.zipIdx_cons, List.foldl_cons]
    have e : applyArg parts (parts.map g) k v = parts.map (fun p => match p with
        | .text s f => g (.text s f)
        | .place a f => if a.val = k then { g (.place a f) with src := v } else g (.place a f)) := by
      unfold applyArg
      clear ih
      induction parts with
      | nil => rfl
      | cons p parts ih =>
        rw [List.map_cons, List.zipWith_cons_cons, List.map_cons, ih]
        cases p <;> rfl
    show List.foldl _ (applyArg parts (parts.map g) k v) _ = _
    rw [e, ih]
    apply List.map_congr_left
    intro p _
    cases p with
    | text s f => rfl
    | place a f =>
      dsimp only
      by_cases h : a.val = k
      · rw [if_pos h, if_neg (by omega), if_pos (by omega), h, Nat.sub_self]
        rfl
      · rw [if_neg h]
        by_cases h1 : k + 1 ≤ a.val
        · rw [if_pos h1, if_pos (by omega)]
          have : a.val - k = (a.val - (k + 1)) + 1 := by omega
          rw [this, List.getElem?_cons_succ]
        · rw [if_neg h1, if_neg (by omega)]

theorem fillTemplate_eq (parts : List TemplatePart) (values : List Text) :
    fillTemplate parts values = parts.map fun p => ⟨partText values p, partFlags p⟩ := by
  unfold fillTemplate rawComposite
  rw [fill_loop]
  apply List.map_congr_left
  intro p _
  cases p with
  | text s f => rfl
  | place a f => simp [TemplatePart.compound, partText, partFlags]

/-- A compound of a paragraph is written with the style of its markers. -/
private theorem shows_part (skin : Skin) (hsp : ∀ c, skin.specialChars c = none) (values : List Text) (p : TemplatePart) :
    ShowsTemplatePart skin values p (piecesCells (skin.writeCompound skin.paragraph ⟨partText values p, partFlags p⟩)) := by
  have e2 : piecesCells (skin.writeCompound skin.paragraph ⟨partText values p, partFlags p⟩) =
      (partText values p).map fun ch => (ch, skin.compoundStyle skin.paragraph ⟨partText values p, partFlags p⟩) := by
    simp [Skin.writeCompound, hsp, piecesCells]
  rw [e2]
  constructor
  · simp [Function.comp_def]
  · intro c hc
    obtain ⟨ch, _, rfl⟩ := List.mem_map.1 hc
    by_cases h : partText values p = ['…']
    · rw [if_pos h]
      simp only [Skin.compoundStyle, if_pos h]
    · rw [if_neg h]
      have hl : ∀ c : Compound, layers skin skin.paragraph c = layers skin skin.paragraph ⟨[], c.flags⟩ := fun _ => rfl
      have hc1 := C41_compound_colors skin skin.paragraph ⟨partText values p, partFlags p⟩ h
      have hc2 := fun a => C41_compound_attrs skin skin.paragraph ⟨partText values p, partFlags p⟩ a h
      rw [hl] at hc1
      simp only [hl ⟨partText values p, partFlags p⟩] at hc2
      exact ⟨hc1.1, hc1.2, hc2⟩

namespace Props

/-- C86: what is printed for a template filled with values is, after the margin of paragraphs, its parts in order, each one being its text, or the
value put in its place, exactly as it is, in the style of the markers of the template. -/
theorem C86_template (cw : Char → Nat) (skin : Skin) (hsp : ∀ c, skin.specialChars c = none) (parts : List TemplatePart) (values : List Text) :
    ∃ ps cells, skin.printTemplate cw parts values = some (ps.map Piece.cmd) ∧ Matched (ShowsTemplatePart skin values) parts cells ∧
      piecesCells ps = List.replicate skin.paragraph.leftMargin (' ', skin.paragraph.style) ++ cells.flatten := by
  refine ⟨repeatChar skin.paragraph.style ' ' skin.paragraph.leftMargin ++ (fillTemplate parts values).flatMap (skin.writeCompound skin.paragraph),
    parts.map fun p => piecesCells (skin.writeCompound skin.paragraph ⟨partText values p, partFlags p⟩), ?_, ?_, ?_⟩
  · simp [Skin.printTemplate, Skin.printComposite, Skin.writeComposite, Skin.writeInline, Skin.writeFmtComposite, Skin.lineStyle, FmtComposite.ofComposite,
      Skin.writePrefix, LineStyle.marginsIn, Spacing.optionalCompletions, FmtComposite.completions, repeatChar]
  · have h := matched_maps (R := ShowsTemplatePart skin values) parts id
      (fun p => piecesCells (skin.writeCompound skin.paragraph ⟨partText values p, partFlags p⟩)) (fun p _ => shows_part skin hsp values p)
    rwa [List.map_id] at h
  · rw [piecesCells_append, piecesCells_repeat, fillTemplate_eq, List.flatMap_map]
    congr 1
    induction parts with
    | nil => rfl
    | cons p parts ih => rw [List.flatMap_cons, piecesCells_append, ih, List.map_cons, List.flatten_cons]

/-- C86: on a terminal, the row gets exactly this, if there's enough place for it and no control character in it. -/
theorem C86_console (cw : Char → Nat) (hsp1 : cw ' ' = 1) {skin : Skin} (hsp : ∀ c, skin.specialChars c = none) (hs : TidySkin skin)
    (parts : List TemplatePart) (values : List Text) (con : Console) (hpen : con.pen = {})
    (hctl : ∀ p ∈ parts, ∀ c ∈ partText values p, ¬ IsControl c)
    (hw : columns cw con.current + skin.paragraph.leftMargin + (parts.map fun p => textWidth cw (partText values p)).sum ≤ con.width) :
    ∃ cmds cells, skin.printTemplate cw parts values = some cmds ∧ Matched (ShowsTemplatePart skin values) parts cells ∧
      con.play cw cmds = some { con with current := con.current ++
        (List.replicate skin.paragraph.leftMargin (' ', skin.paragraph.style) ++ cells.flatten).map fun c => (seen c.2, c.1) } := by
  obtain ⟨ps, cells, h1, h2, h3⟩ := C86_template cw skin hsp parts values
  have htext := piecesCells_text ps
  rw [h3, List.map_append, List.map_replicate] at htext
  have hcells : cells.flatten.map (·.1) = (parts.map (partText values)).flatten := by
    clear h3 h1 htext hw hctl
    induction h2 with
    | nil => rfl
    | cons h _ ih => rw [List.flatten_cons, List.map_append, ih, h.1, List.map_cons, List.flatten_cons]
  rw [hcells] at htext
  refine ⟨ps.map Piece.cmd, cells, h1, h2, ?_⟩
  have hl : skin.writeFmtLine (.normal (FmtComposite.ofComposite skin cw .paragraph (fillTemplate parts values))) none false = some ps := by
    have h : (skin.writeComposite cw .paragraph (fillTemplate parts values)).bind (fun ps => some (ps.map Piece.cmd)) = some (ps.map Piece.cmd) := h1
    cases h' : skin.writeComposite cw .paragraph (fillTemplate parts values) with
    | none => rw [h'] at h; cases h
    | some ps' =>
      rw [h'] at h
      have h := Option.some.inj h
      have inj : ∀ {a b : List Piece}, a.map Piece.cmd = b.map Piece.cmd → a = b := by
        intro a
        induction a with
        | nil => intro b hb; cases b with | nil => rfl | cons _ _ => cases hb
        | cons x a ih =>
          intro b hb
          cases b with
          | nil => cases hb
          | cons y b =>
            simp only [List.map_cons, List.cons.injEq, Piece.cmd, TtyCmd.styled.injEq] at hb
            rw [ih hb.2, Prod.ext hb.1.1 hb.1.2]
      rw [← inj h]
      exact h'
  rw [← h3]
  have e : (piecesCells ps).map (fun c => (seen c.2, c.1)) = pieceChars (seenPieces ps) := by
    clear h1 h3 htext hl
    induction ps with
    | nil => rfl
    | cons p ps ih =>
      rw [piecesCells_cons, List.map_append, ih]
      simp [pieceChars, seenPieces, Function.comp_def]
  rw [e]
  apply play_printed ps con hpen (tidy_line hs hl)
  · intro p hp c hc
    have : c ∈ piecesText ps := by
      unfold piecesText
      exact List.mem_flatMap.2 ⟨p, hp, hc⟩
    rw [← htext] at this
    rcases List.mem_append.1 this with h | h
    · have e : c = ' ' := (List.mem_replicate.1 h).2
      rw [e]; decide
    · obtain ⟨t, ht, hct⟩ := List.mem_flatten.1 h
      obtain ⟨q, hq, rfl⟩ := List.mem_map.1 ht
      exact hctl q hq c hct
  · have : piecesCols cw ps = skin.paragraph.leftMargin + (parts.map fun p => textWidth cw (partText values p)).sum := by
      show textWidth cw (piecesText ps) = _
      rw [← htext, textWidth_append]
      congr 1
      · generalize skin.paragraph.leftMargin = n
        induction n with
        | zero => rfl
        | succ n ih => simp only [List.replicate_succ, textWidth, hsp1, ih]; omega
      · clear hctl hw h1 h2 h3 htext hcells hl
        induction parts with
        | nil => rfl
        | cons p parts ih => rw [List.map_cons, List.flatten_cons, textWidth_append, ih, List.map_cons, List.sum_cons]
    omega

/-- C86: what is printed depends only on the values which have a place. -/
theorem C86_used (cw : Char → Nat) (skin : Skin) (parts : List TemplatePart) (values values' : List Text)
    (h : ∀ a f, TemplatePart.place a f ∈ parts → values[a.val]? = values'[a.val]?) :
    skin.printTemplate cw parts values = skin.printTemplate cw parts values' := by
  unfold Skin.printTemplate
  rw [fillTemplate_eq, fillTemplate_eq]
  congr 1
  apply List.map_congr_left
  intro p hp
  cases p with
  | text s f => rfl
  | place a f => simp only [partText, h a f hp]

/-- C86: a value which is an ellipsis isn't shown in the style of its place. -/
theorem C86_ellipsis_counterexample : ∃ (skin : Skin) (ps : List Piece), skin.printTemplate (fun _ => 1) [.place 0 { bold := true }] [['…']] = some (ps.map Piece.cmd) ∧
    ps = [(skin.ellipsis, ['…'])] ∧ ¬ Marked skin skin.paragraph { bold := true } skin.ellipsis :=
  ⟨{ bold := CompoundStyle.withAttr .bold, ellipsis := {} : Skin }, [({}, ['…'])], by decide +kernel, rfl, by
    intro h
    have := (h.2.2 .bold).2 ⟨CompoundStyle.withAttr .bold, by decide +kernel, by decide +kernel⟩
    revert this
    decide +kernel⟩

/-- `mad_print_inline!(skin, "**$0** is *$1* or $0", "a*b", "c")`: the star of the first value is shown. -/
example : renderSkin.printTemplate (fun _ => 1)
    [.place 0 { bold := true }, .text " is ".toList {}, .place 1 { italic := true }, .text " or ".toList {}, .place 0 {}, .place 7 {}] ["a*b".toList, "c".toList] =
    some (([(renderSkin.paragraph.style, "  ".toList), (renderSkin.compoundStyle renderSkin.paragraph ⟨[], { bold := true }⟩, "a*b".toList), (renderSkin.compoundStyle renderSkin.paragraph ⟨[], {}⟩, " is ".toList),
      (renderSkin.compoundStyle renderSkin.paragraph ⟨[], { italic := true }⟩, "c".toList), (renderSkin.compoundStyle renderSkin.paragraph ⟨[], {}⟩, " or ".toList),
      (renderSkin.compoundStyle renderSkin.paragraph ⟨[], {}⟩, "a*b".toList), (renderSkin.compoundStyle renderSkin.paragraph ⟨[], {}⟩, "$7".toList)] : List Piece).map Piece.cmd) := by
  decide +kernel

/-- A terminal on which this can be printed. -/
example : ∀ p ∈ [TemplatePart.place 0 { bold := true }, .text " is ".toList {}], ∀ c ∈ partText ["a*b".toList] p, ¬ IsControl c := by decide +kernel

end Props
end Verif

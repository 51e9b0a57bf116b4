import Verif.Model.Render
import Verif.Spec.Render
import Verif.Lemmas.WrapLines
/-! Lemmas on the rendering of lines. -/
namespace Verif

theorem piecesText_append (a b : List Piece) : piecesText (a ++ b) = piecesText a ++ piecesText b := by
  simp [piecesText]

theorem piecesText_nil : piecesText [] = [] := rfl

theorem piecesText_cons (p : Piece) (b : List Piece) : piecesText (p :: b) = p.2 ++ piecesText b := by
  simp [piecesText]

theorem piecesText_repeat (s : CompoundStyle) (c : Char) (n : Nat) : piecesText (repeatChar s c n) = List.replicate n c := by
  unfold repeatChar
  split
  · simp [piecesText]
  · have : n = 0 := by omega
    simp [this, piecesText]

theorem completions_sum (al : Alignment) (inner outer : Nat) :
    (Spacing.completions al inner outer).1 + (Spacing.completions al inner outer).2 = outer - inner := by
  unfold Spacing.completions
  split
  · simp; omega
  · cases al <;> simp; omega

theorem textWidth_map (cw : Char → Nat) (l : List (Char × Flags)) :
    textWidth cw (l.map (·.1)) = (l.map fun p => cw p.1).sum := by
  induction l with
  | nil => rfl
  | cons a l ih => simp [textWidth, ih]

theorem writePrefix_ok (skin : Skin) (k : Kind) (h : ∀ d, k = .listItemFollowUp d → d < 255) :
    ∃ pre, skin.writePrefix k = some pre ∧ piecesText pre = prefixText skin k := by
  have rep : ∀ n (p : Piece), p.2 = [' '] → piecesText (List.replicate n p) = List.replicate n ' ' := by
    intro n p hp
    induction n with
    | zero => rfl
    | succ n ih => rw [List.replicate_succ, piecesText_cons, ih, hp]; rfl
  cases k with
  | listItem d =>
    refine ⟨_, rfl, ?_⟩
    rw [piecesText_append, piecesText_append, rep _ _ rfl]
    simp [prefixText, StyledChar.display, piecesText]
  | listItemFollowUp d =>
    have hd := h d rfl
    simp only [Skin.writePrefix, prefixText]
    split
    · rw [if_pos (by omega)]
      refine ⟨_, rfl, ?_⟩
      rw [piecesText_append, rep _ _ rfl]
      simp only [piecesText_cons, piecesText_nil]
      rw [List.replicate_succ' (n := d + 1)]
      rfl
    · exact ⟨[], rfl, rfl⟩
  | quote => exact ⟨_, rfl, by simp [prefixText, StyledChar.display, piecesText]⟩
  | _ => exact ⟨[], rfl, rfl⟩

theorem prefixText_width {cw : Char → Nat} {skin : Skin} (hs : OneColumnSkin cw skin) (k : Kind) :
    textWidth cw (prefixText skin k) = prefixCols skin.indentMode k := by
  cases k with
  | listItem d =>
    simp only [prefixText, textWidth_append, textWidth_replicate, textWidth, hs.space, hs.bullet, prefixCols]; omega
  | listItemFollowUp d =>
    simp only [prefixText, prefixCols]
    split
    · simp only [textWidth_replicate, hs.space]; omega
    · rfl
  | quote => simp only [prefixText, textWidth, hs.space, hs.quoteMark, prefixCols]
  | _ => rfl

theorem writeCompounds_width {cw : Char → Nat} {skin : Skin} (hs : OneColumnSkin cw skin) (ls : LineStyle)
    (cs : List Compound) : textWidth cw (piecesText (cs.flatMap (skin.writeCompound ls))) = compoundsWidth cw cs := by
  induction cs with
  | nil => rfl
  | cons c cs ih =>
    simp only [List.flatMap_cons, piecesText_append, textWidth_append, ih, compoundsWidth, List.map_cons, List.sum_cons]
    congr 1
    simp only [Skin.writeCompound]
    cases h : skin.specialChars c with
    | none => simp [piecesText]
    | some sc => simp [piecesText, StyledChar.display, textWidth, hs.special c sc h]

theorem writeCompounds_text {skin : Skin} (ls : LineStyle) (cs : List Compound)
    (h : ∀ c ∈ cs, skin.specialChars c = none) :
    piecesText (cs.flatMap (skin.writeCompound ls)) = (styledChars cs).map (·.1) := by
  induction cs with
  | nil => rfl
  | cons c cs ih =>
    simp only [List.flatMap_cons, piecesText_append, ih (fun c hc => h c (by simp [hc])), styledChars, List.map_append]
    congr 1
    simp [Skin.writeCompound, h c (by simp), piecesText, Function.comp_def]

/-- What is written for a composite. -/
theorem writeFmtComposite_ok {cw : Char → Nat} {skin : Skin} {fc : FmtComposite}
    (hd : Drawable cw skin fc) (outer : Option Nat) (margins : Bool) :
    ∃ ls pre, styleOf skin fc.kind = some ls ∧ piecesText pre = prefixText skin fc.kind ∧
      let m := if margins then ls.marginsIn outer else (0, 0)
      let po := Spacing.optionalCompletions ls.align (spacedCols fc + m.1 + m.2) outer
      let front := repeatChar skin.paragraph.style ' ' (po.1 + m.1) ++ repeatChar ls.style ' ' fc.completions.1 ++
        pre ++ fc.compounds.flatMap (skin.writeCompound ls) ++ repeatChar ls.style ' ' fc.completions.2
      skin.writeFmtComposite fc outer false margins = some front ∧
      skin.writeFmtComposite fc outer true margins = some (front ++ repeatChar skin.paragraph.style ' ' (po.2 + m.2)) := by
  obtain ⟨h1, _, _, h4⟩ := hd
  cases hls : styleOf skin fc.kind with
  | none => exact absurd hls h1
  | some ls =>
    obtain ⟨pre, hp, ht⟩ := writePrefix_ok skin fc.kind h4
    refine ⟨ls, pre, rfl, ht, ?_⟩
    have e : fc.innerWidth = spacedCols fc := rfl
    simp only [Skin.writeFmtComposite, lineStyle_eq, hls, hp, Option.bind_eq_bind, Option.bind_some, e]
    refine ⟨by simp, rfl⟩

theorem completions_fc {fc : FmtComposite} : 
    fc.completions.1 + fc.completions.2 = spacedCols fc - fc.visibleLength := by
  unfold FmtComposite.completions spacedCols
  cases fc.spacing with
  | none => simp
  | some sp => exact completions_sum _ _ _

theorem front_width {cw : Char → Nat} {skin : Skin} (hs : OneColumnSkin cw skin) {fc : FmtComposite}
    (hd : Drawable cw skin fc) (ls : LineStyle) (pre : List Piece) (hp : piecesText pre = prefixText skin fc.kind) (n : Nat) :
    piecesCols cw (repeatChar skin.paragraph.style ' ' n ++ repeatChar ls.style ' ' fc.completions.1 ++
        pre ++ fc.compounds.flatMap (skin.writeCompound ls) ++ repeatChar ls.style ' ' fc.completions.2) =
      n + spacedCols fc := by
  simp only [piecesCols, piecesText_append, textWidth_append, piecesText_repeat, textWidth_replicate, hs.space, hp,
    prefixText_width hs, writeCompounds_width hs]
  have h1 := completions_fc (fc := fc)
  have h2 := hd.fits
  have h3 := hd.cached
  rw [lineCols_eq, visible_eq] at h3
  omega

theorem repeat_cols {cw : Char → Nat} {skin : Skin} (hs : OneColumnSkin cw skin) (st : CompoundStyle) (n : Nat) :
    piecesCols cw (repeatChar st ' ' n) = n := by
  simp [piecesCols, piecesText_repeat, textWidth_replicate, hs.space]

theorem piecesCols_append (cw : Char → Nat) (a b : List Piece) :
    piecesCols cw (a ++ b) = piecesCols cw a + piecesCols cw b := by
  simp [piecesCols, piecesText_append, textWidth_append]

theorem writeCells_ok {cw : Char → Nat} {skin : Skin} (hs : OneColumnSkin cw skin) : ∀ (cells : List FmtComposite),
    (∀ c ∈ cells, Drawable cw skin c) →
    ∃ ps, skin.writeCells cells = some ps ∧ piecesCols cw ps = (cells.map fun c => spacedCols c + 1).sum := by
  intro cells
  induction cells with
  | nil => intro _; exact ⟨[], rfl, rfl⟩
  | cons c cells ih =>
    intro h
    obtain ⟨rest, r1, r2⟩ := ih (fun x hx => h x (by simp [hx]))
    obtain ⟨ls, pre, _, h2, h3⟩ := writeFmtComposite_ok (h c (by simp)) none false
    simp only [Bool.false_eq_true, if_false, Spacing.optionalCompletions] at h3
    refine ⟨_, by simp only [Skin.writeCells, h3.1, r1, Option.bind_eq_bind, Option.bind_some]; rfl, ?_⟩
    have hv : cw skin.tableBorderChars.vertical = 1 := hs.border _ (by simp)
    rw [List.cons_append]
    have : ∀ (p : Piece) l, piecesCols cw (p :: l) = textWidth cw p.2 + piecesCols cw l := by
      intro p l; simp [piecesCols, piecesText_cons, textWidth_append]
    rw [this, piecesCols_append, r2, front_width hs (h c (by simp)) ls pre h2 _]
    simp only [textWidth, hv, List.map_cons, List.sum_cons]; omega

theorem foldl_sum_aux (f : α → Nat) : ∀ (l : List α) (s : Nat), l.foldl (fun s c => s + f c + 1) s = s + (l.map fun c => f c + 1).sum := by
  intro l
  induction l with
  | nil => intro s; simp
  | cons a l ih => intro s; simp only [List.foldl_cons, ih, List.map_cons, List.sum_cons]; omega

theorem writeRuleCols_cols {cw : Char → Nat} {skin : Skin} (hh : cw skin.tableBorderChars.horizontal = 1) (j : Char)
    (hj : cw j = 1) : ∀ (l : List Nat),
    piecesCols cw (skin.writeRuleCols j false l) = (l.map fun w => w + 1).sum ∧
    (l ≠ [] → piecesCols cw (skin.writeRuleCols j true l) + 1 = (l.map fun w => w + 1).sum) := by
  intro l
  induction l with
  | nil => exact ⟨rfl, fun h => absurd rfl h⟩
  | cons w l ih =>
    have e : ∀ p, piecesCols cw [(skin.table.style, [p])] = cw p := by intro p; simp [piecesCols, piecesText, textWidth]
    have e2 : piecesCols cw (repeatChar skin.table.style skin.tableBorderChars.horizontal w) = w := by
      simp [piecesCols, piecesText_repeat, textWidth_replicate, hh]
    refine ⟨?_, fun _ => ?_⟩
    · simp only [Skin.writeRuleCols, piecesCols_append, ih.1, Bool.false_eq_true, if_false, e, e2, hj, List.map_cons, List.sum_cons]
      omega
    · simp only [Skin.writeRuleCols, piecesCols_append, ih.1, if_true, e2, List.map_cons, List.sum_cons]
      simp [piecesCols, piecesText]; omega

theorem ruleChars_one {cw : Char → Nat} {skin : Skin} (hs : OneColumnSkin cw skin) (p : RelPos) :
    cw (skin.tableBorderChars.ruleChars p).1 = 1 ∧ cw (skin.tableBorderChars.ruleChars p).2.1 = 1 ∧
    cw (skin.tableBorderChars.ruleChars p).2.2 = 1 := by
  cases p <;> exact ⟨hs.border _ (by simp [TableBorderChars.ruleChars]), hs.border _ (by simp [TableBorderChars.ruleChars]),
    hs.border _ (by simp [TableBorderChars.ruleChars])⟩

theorem placed_completions (fc : FmtComposite) (sp : Spacing) (h : fc.spacing = some sp) :
    Placed sp.align 0 0 fc.completions.1 fc.completions.2 := by
  simp only [FmtComposite.completions, h, Spacing.completionsFor, Spacing.completions]
  split
  · cases sp.align <;> simp [Placed]
  · cases sp.align <;> simp [Placed]; omega

theorem writeCells_text {cw : Char → Nat} {skin : Skin} : ∀ (cells : List FmtComposite),
    (∀ c ∈ cells, Drawable cw skin c) → (∀ c ∈ cells, ∀ cp ∈ c.compounds, skin.specialChars cp = none) →
    ∃ ps, ∃ txts : List Text, skin.writeCells cells = some ps ∧ txts.length = cells.length ∧
      piecesText ps = txts.flatMap (fun t => skin.tableBorderChars.vertical :: t) ∧
      ∀ (i : Nat) (c : FmtComposite) (t : Text), cells[i]? = some c → txts[i]? = some t → CellText skin c t := by
  intro cells
  induction cells with
  | nil => intro _ _; exact ⟨[], [], rfl, rfl, rfl, by simp⟩
  | cons c cells ih =>
    intro h hsp
    obtain ⟨rest, txts, r1, r2, r3, r4⟩ := ih (fun x hx => h x (by simp [hx])) (fun x hx => hsp x (by simp [hx]))
    obtain ⟨ls, pre, _, h2, h3⟩ := writeFmtComposite_ok (h c (by simp)) none false
    simp only [Bool.false_eq_true, if_false, Spacing.optionalCompletions] at h3
    refine ⟨_, (List.replicate c.completions.1 ' ' ++ compositeText skin c ++ List.replicate c.completions.2 ' ') :: txts,
      by simp only [Skin.writeCells, h3.1, r1, Option.bind_eq_bind, Option.bind_some]; rfl, by simp [r2], ?_, ?_⟩
    · simp only [List.cons_append, piecesText_cons, piecesText_append, piecesText_repeat, h2,
        writeCompounds_text ls c.compounds (hsp c (by simp)), r3, compositeText, List.flatMap_cons]
      simp
    · intro i c' t hc ht
      cases i with
      | zero =>
        simp only [List.getElem?_cons_zero, Option.some.injEq] at hc ht
        subst hc; subst ht
        have hd := h c (by simp)
        refine ⟨_, _, rfl, ?_, fun sp hs => placed_completions c sp hs⟩
        have := completions_fc (fc := c)
        have := hd.fits
        omega
      | succ i =>
        simp only [List.getElem?_cons_succ] at hc ht
        exact r4 i c' t hc ht

theorem writeRuleCols_text {skin : Skin} (j : Char) : ∀ (l : List Nat),
    piecesText (skin.writeRuleCols j false l) =
      l.flatMap (fun w => j :: List.replicate w skin.tableBorderChars.horizontal) ∧
    piecesText (skin.writeRuleCols j true l) =
      [j].intercalate (l.map fun w => List.replicate w skin.tableBorderChars.horizontal) := by
  intro l
  induction l with
  | nil => exact ⟨rfl, rfl⟩
  | cons w l ih =>
    have e : ∀ (x : Text) (l : List Text), [j].intercalate (x :: l) = x ++ l.flatMap (fun t => j :: t) := by
      intro x l
      induction l generalizing x with
      | nil => simp [List.intercalate]
      | cons y l ihl =>
        have := ihl y
        simp only [List.intercalate, List.intersperse, List.flatten_cons, List.flatMap_cons] at this ⊢
        rw [this]; simp
    refine ⟨?_, ?_⟩
    · simp only [Skin.writeRuleCols, piecesText_append, ih.1, Bool.false_eq_true, if_false, piecesText_cons, piecesText_nil,
        piecesText_repeat, List.flatMap_cons]
      simp
    · simp only [Skin.writeRuleCols, piecesText_append, ih.1, if_true, piecesText_nil, piecesText_repeat, List.map_cons, e,
        List.flatMap_map]
      simp

end Verif

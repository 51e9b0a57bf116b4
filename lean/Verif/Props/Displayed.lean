import Verif.Props.FmtText
import Verif.Props.WholeText
import Verif.Spec.Displayed
/-! C56: a displayed text reads as its source. -/
namespace Verif.Props
open Verif Spec

theorem sourceText_eq (cs : List Compound) : (styledChars cs).map (·.1) = sourceText cs := by
  induction cs with
  | nil => rfl
  | cons c cs ih =>
    have : sourceText (c :: cs) = c.src ++ sourceText cs := by simp [sourceText]
    rw [this, ← ih]
    simp [styledChars, List.map_flatMap, Function.comp_def]

theorem ink_text (ws : Char → Bool) (l : List (Char × Flags)) : (ink ws l).map (·.1) = visibleText ws (l.map (·.1)) := by
  simp [ink, visibleText, List.filter_map, Function.comp_def]

theorem readsAs_of_styled {ws : Char → Bool} {a b : List (Char × Flags)} (h1 : ink ws a = ink ws b) (h2 : a.Sublist b) :
    ReadsAs ws (a.map (·.1)) (b.map (·.1)) := by
  refine ⟨?_, h2.map _⟩
  rw [← ink_text, ← ink_text, h1]

/-- What is displayed for a formatted line. -/
def LineShown (skin : Skin) (width : Nat) : FmtLine → Text → Prop
  | .normal fc, txt => ShowsPart skin (fc.kind, sourceText fc.compounds) txt
  | .tableRow cells, row => ∃ n txts, Matched (ShowsPart skin) (cells.map fun c => (c.kind, sourceText c.compounds)) txts ∧
      row = List.replicate n ' ' ++ txts.flatMap (fun t => skin.tableBorderChars.vertical :: t) ++ [skin.tableBorderChars.vertical]
  | .tableRule rule, row => ∃ n, row = List.replicate n ' ' ++ ruleText skin.tableBorderChars rule.position rule.widths
  | .horizontalRule, row => row = List.replicate width skin.horizontalRule.char

theorem matched_of_get {α β : Type} {R : α → β → Prop} : ∀ {as : List α} {bs : List β}, bs.length = as.length →
    (∀ (i : Nat) a b, as[i]? = some a → bs[i]? = some b → R a b) → Matched R as bs := by
  intro as
  induction as with
  | nil =>
    intro bs h _
    have e : bs = [] := List.length_eq_zero_iff.1 (by simpa using h)
    subst e; exact .nil
  | cons a as ih =>
    intro bs h hR
    cases bs with
    | nil => simp at h
    | cons b bs =>
      exact .cons (hR 0 a b rfl rfl) (ih (by simpa using h) fun i x y hx hy => hR (i + 1) x y (by simpa using hx) (by simpa using hy))

theorem matched_map_left {α β γ : Type} {R : β → γ → Prop} {f : α → β} : ∀ {as : List α} {cs : List γ},
    Matched (fun a c => R (f a) c) as cs → Matched R (as.map f) cs := by
  intro as cs h
  induction h with
  | nil => exact .nil
  | cons h _ ih => exact .cons h ih

theorem lineShown {cw : Char → Nat} {skin : Skin} (hsp : ∀ c, skin.specialChars c = none) {l : FmtLine}
    (hd : DrawableLine cw skin l ∨ ∃ rule, l = .tableRule rule) (w : Option Nat) :
    ∃ ps, skin.writeFmtLine l w false = some ps ∧ LineShown skin (w.getD 0) l (piecesText ps) := by
  cases l with
  | normal fc =>
    obtain ⟨ls, pre, h1, h2, h3⟩ := writeFmtComposite_ok (hd.resolve_right (by rintro ⟨r, h⟩; cases h)) w true
    simp only [if_true] at h3
    refine ⟨_, h3.1, ?_⟩
    generalize (ls.marginsIn w) = m
    generalize Spacing.optionalCompletions ls.align (spacedCols fc + m.1 + m.2) w = po
    refine ⟨po.1 + m.1 + fc.completions.1, fc.completions.2, ?_⟩
    simp only [piecesText_append, piecesText_repeat, h2, writeCompounds_text ls fc.compounds (fun c _ => hsp c), sourceText_eq]
    simp only [← List.replicate_append_replicate, List.append_assoc]
  | tableRow cells =>
    obtain ⟨ps, n, txts, h1, h2, h3, h4⟩ := C10_row_text cw skin cells (hd.resolve_right (by rintro ⟨r, h⟩; cases h)) (fun c _ cp _ => hsp cp) w
    refine ⟨ps, h1, n, txts, matched_map_left (matched_of_get h2 ?_), h3⟩
    intro i c t hc ht
    obtain ⟨a, b, h5, _⟩ := h4 i c t hc ht
    refine ⟨a, b, ?_⟩
    rw [h5, compositeText, sourceText_eq]
    simp only [List.append_assoc]
  | tableRule rule =>
    obtain ⟨ps, n, h1, h2⟩ := C10_rule_text skin rule w
    exact ⟨ps, h1, n, h2⟩
  | horizontalRule =>
    cases w with
    | none => exact ⟨_, rfl, by simp [LineShown, piecesText]⟩
    | some w => exact ⟨_, rfl, by simp [LineShown, StyledChar.repeated, piecesText]⟩

theorem matched_mapM {α β γ : Type} {f : α → Option β} {g : β → γ} {R : α → γ → Prop} : ∀ {l : List α} {l' : List β},
    l.mapM f = some l' → (∀ a ∈ l, ∃ b, f a = some b ∧ R a (g b)) → Matched R l (l'.map g) := by
  intro l
  induction l with
  | nil => intro l' h _; simp at h; subst h; exact .nil
  | cons a l ih =>
    intro l' h hR
    obtain ⟨b, hb, hr⟩ := hR a (by simp)
    simp only [List.mapM_cons, Option.bind_eq_bind, hb, Option.bind_some, Option.bind_eq_some_iff] at h
    obtain ⟨bs, hbs, e⟩ := h
    simp only [Option.pure_def, Option.some.injEq] at e
    subst e
    exact .cons hr (ih hbs fun x hx => hR x (by simp [hx]))

theorem matched_split {α β : Type} {R : α → β → Prop} : ∀ {a b : List α} {out : List β}, Matched R (a ++ b) out →
    ∃ oa ob, out = oa ++ ob ∧ Matched R a oa ∧ Matched R b ob := by
  intro a
  induction a with
  | nil => intro b out h; exact ⟨[], out, rfl, .nil, h⟩
  | cons x xs ih =>
    intro b out h
    cases h with
    | cons hx h =>
      obtain ⟨oa, ob, e, h1, h2⟩ := ih h
      exact ⟨_ :: oa, ob, by rw [e]; rfl, .cons hx h1, h2⟩

theorem matched_of_map_left {α β γ : Type} {R : β → γ → Prop} {f : α → β} : ∀ {as : List α} {cs : List γ},
    Matched R (as.map f) cs → Matched (fun a c => R (f a) c) as cs := by
  intro as
  induction as with
  | nil => intro cs h; cases h; exact .nil
  | cons a as ih => intro cs h; cases h with | cons hx h => exact .cons hx (ih h)

theorem holds_displayed {ws : Char → Bool} {skin : Skin} {w : Nat} {m : MLine} {out : List FmtLine} {rows : List Text}
    (hh : Holds ws (some w) m out) (hm : Matched (LineShown skin w) out rows) : Displayed ws skin w m rows := by
  cases m with
  | normal kind cs =>
    obtain ⟨fcs, e, ⟨first, more, e2, hk, hmore⟩, hi, hs⟩ := hh
    subst e; subst e2
    have hm1 : Matched (fun (fc : FmtComposite) txt => ShowsPart skin (fc.kind, sourceText fc.compounds) txt) (first :: more) rows :=
      matched_of_map_left (R := LineShown skin w) (f := FmtLine.normal) hm
    have hm' := matched_map_left (f := fun fc : FmtComposite => (fc.kind, sourceText fc.compounds)) (R := ShowsPart skin) hm1
    rw [List.map_cons, hk] at hm'
    refine ⟨sourceText first.compounds, more.map fun fc => (fc.kind, sourceText fc.compounds), hm', ?_, ?_⟩
    · intro p hp
      simp only [List.mem_map] at hp
      obtain ⟨fc, hfc, rfl⟩ := hp
      have := hmore fc hfc
      cases kind <;> exact this
    · have := readsAs_of_styled hi hs
      rw [sourceText_eq] at this
      have e : (linesChars (first :: more)).map (·.1) =
          sourceText first.compounds ++ (more.map fun fc => (fc.kind, sourceText fc.compounds)).flatMap (·.2) := by
        simp only [linesChars, List.flatMap_cons, List.map_append, List.map_flatMap, List.flatMap_map, sourceText_eq]
      rw [← e]
      exact this
  | tableRow cells =>
    obtain ⟨nb, rws, e, hne, hnb, hc⟩ := hh
    subst e
    refine ⟨nb, rws.map fun r => r.map fun c => (c.kind, sourceText c.compounds), by simpa using hne, hnb, ?_, ?_⟩
    · refine matched_map_left ?_
      exact matched_of_map_left hm
    · intro ic hic
      obtain ⟨h1, h2⟩ := hc ic hic
      have := readsAs_of_styled h1 h2
      have e1 : (rws.flatMap fun r => cellChars r ic).map (·.1) =
          (rws.map fun r => r.map fun c => (c.kind, sourceText c.compounds)).flatMap fun parts =>
            match parts[ic]? with | some p => p.2 | none => [] := by
        rw [List.flatMap_map, List.map_flatMap]
        congr 1
        funext r
        simp only [cellChars, List.getElem?_map]
        cases r[ic]? with
        | none => rfl
        | some c => exact sourceText_eq _
      rw [e1] at this
      cases hcell : cells[ic]? with
      | none => rw [hcell] at this; exact this
      | some c =>
        rw [hcell] at this
        simp only [sourceText_eq] at this
        exact this
  | tableRule al =>
    obtain ⟨rule, e⟩ := hh
    subst e
    cases hm with
    | cons h h' => cases h'; obtain ⟨n, e⟩ := h; exact ⟨n, rule.position, rule.widths, by rw [e]⟩
  | horizontalRule =>
    have e : out = [.horizontalRule] := hh
    subst e
    cases hm with
    | cons h h' => cases h'; have e : _ = _ := h; subst e; rfl
  | codeFence =>
    have e : out = [.horizontalRule] := hh
    subst e
    cases hm with
    | cons h h' => cases h'; have e : _ = _ := h; subst e; rfl

/-- C56: in every width of at least 3, the rows displayed for a text (whose lines can have a place in this width) show the lines of
the source in order: each line is shown by rows made of blanks, the prefix of its kind and its text cut in parts, each row of
a table by rows of cells between borders, and these parts read as the source. -/
theorem C56_displayed (cw : Char → Nat) (ws : Char → Bool) (skin : Skin) (hsp : ∀ c, skin.specialChars c = none) (w : Nat) (h3 : 3 ≤ w)
    (mlines : List MLine) (h : FittingText cw skin w mlines) :
    ∃ t drawn, FmtText.fromText cw ws skin mlines (some w) = some t ∧ t.display skin = some drawn ∧
      InBlocks (Displayed ws skin w) mlines (drawn.map piecesText) := by
  obtain ⟨out, ht, hfin⟩ := fromText_final (ws := ws) h3 h
  have hdraw : ∀ l ∈ out, ∃ ps, skin.writeFmtLine l (some w) false = some ps ∧ LineShown skin w l (piecesText ps) :=
    fun l hm => lineShown hsp (.inl (hfin l hm).1) (some w)
  obtain ⟨drawn, hdr⟩ := mapM_some (f := fun l => skin.writeFmtLine l (some w) false) (l := out)
    (fun l hm => by obtain ⟨ps, p1, _⟩ := hdraw l hm; exact ⟨ps, p1⟩)
  refine ⟨⟨out, some w⟩, drawn, ht, hdr, ?_⟩
  have hm := matched_mapM (g := piecesText) hdr hdraw
  have hb := C51_content cw ws skin mlines (some w) _ ht
  generalize drawn.map piecesText = rows at hm
  simp only at hb
  clear hdr hdraw hfin ht h
  induction hb generalizing rows with
  | nil => cases hm; exact .nil
  | cons hx _ ih =>
    obtain ⟨oa, ob, e, h1, h2⟩ := matched_split hm
    subst e
    exact .cons (holds_displayed hx h1) (ih ob h2)

/-- The text of C11 in 13 columns. -/
example : FittingText renderCw renderSkin 13 exText := exText_fits

example : ((FmtText.fromText renderCw (· == ' ') renderSkin exText (some 13)).bind fun t => (t.display renderSkin).map fun rows =>
      rows.map fun ps => String.ofList (piecesText ps)) =
    some ["A title", "     • some ", "    words to", "        wrap", "fn f()", "{}    ", "│col │ 一   │", "│    │second│",
      "├────┼──────┤", "│cell│      │", "―――――――――――――"] := by decide +kernel


end Verif.Props

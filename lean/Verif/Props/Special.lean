import Verif.Spec.Special
import Verif.Props.Render
import Verif.Lemmas.WrapLines
/-! C92: special characters. -/
namespace Verif.Props
open Verif Verif.Spec

theorem writeCompounds_drawnFor (skin : Skin) (ls : LineStyle) (cs : List Compound) :
    cs.flatMap (skin.writeCompound ls) = cs.map (drawnFor skin ls) := by
  induction cs with
  | nil => rfl
  | cons c cs ih =>
    rw [List.flatMap_cons, List.map_cons, ih]
    show skin.writeCompound ls c ++ _ = [drawnFor skin ls c] ++ _
    congr 1
    unfold Skin.writeCompound drawnFor
    cases skin.specialChars c <;> rfl

/-- C92: the compounds of a line are drawn in order, each one as the character the skin has for it, if there's one, and as its text otherwise. -/
theorem C92_drawn (cw : Char → Nat) (skin : Skin) (fc : FmtComposite) (hd : Drawable cw skin fc) (outer : Option Nat) (rc margins : Bool) :
    ∃ ps ls, skin.writeFmtComposite fc outer rc margins = some ps ∧ styleOf skin fc.kind = some ls ∧
      fc.compounds.map (drawnFor skin ls) <:+: ps := by
  obtain ⟨ls, pre, h1, h2, h3⟩ := writeFmtComposite_ok hd outer margins
  simp only [writeCompounds_drawnFor] at h3
  cases rc with
  | false =>
    refine ⟨_, ls, h3.1, h1, ?_⟩
    rw [List.append_assoc _ (List.map _ _)]
    exact ⟨_, _, (List.append_assoc _ _ _)⟩
  | true =>
    refine ⟨_, ls, h3.2, h1, ?_⟩
    rw [List.append_assoc _ (repeatChar ls.style ' ' _), List.append_assoc _ (List.map _ _)]
    exact ⟨_, _, (List.append_assoc _ _ _)⟩

/-- Tokens without some of the blank ones. -/
private inductive LessBlanks : List Token → List Token → Prop
  | nil : LessBlanks [] []
  | keep {t : Token} {ts ks : List Token} : LessBlanks ts ks → LessBlanks (t :: ts) (t :: ks)
  | drop {t : Token} {ts ks : List Token} : t.blank = true → LessBlanks ts ks → LessBlanks (t :: ts) ks

private theorem lessBlanks_append {a b ks : List Token} (h : LessBlanks (a ++ b) ks) :
    ∃ ka kb, ks = ka ++ kb ∧ LessBlanks a ka ∧ LessBlanks b kb := by
  induction a generalizing ks with
  | nil => exact ⟨[], ks, rfl, .nil, h⟩
  | cons t a ih =>
    cases h with
    | keep h =>
      obtain ⟨ka, kb, rfl, h1, h2⟩ := ih h
      exact ⟨t :: ka, kb, rfl, .keep h1, h2⟩
    | drop hb h =>
      obtain ⟨ka, kb, rfl, h1, h2⟩ := ih h
      exact ⟨ka, kb, rfl, .drop hb h1, h2⟩

private theorem wrapTokens_less (cw : Char → Nat) (skin : Skin) (width : Nat) : ∀ (ts : List Token) (dst : FmtComposite) (ls : List FmtComposite),
    wrapTokens cw skin width dst ts = some ls →
    ∃ ks ps, LessBlanks ts ks ∧ ks.mapM Token.toCompound = some ps ∧ ls.flatMap (·.compounds) = dst.compounds ++ ps := by
  intro ts
  induction ts with
  | nil =>
    intro dst ls h
    simp only [wrapTokens, Option.some.injEq] at h
    subst h
    exact ⟨[], [], .nil, rfl, by simp⟩
  | cons t ts ih =>
    intro dst ls h
    simp only [wrapTokens] at h
    split at h
    · split at h
      · cases hc : t.toCompound with
        | none => rw [hc] at h; simp at h
        | some c =>
          rw [hc] at h
          simp only [Option.bind_eq_bind, Option.bind_some] at h
          cases hr : wrapTokens cw skin width ((followUpComposite skin dst).addCompound cw c) ts with
          | none => rw [hr] at h; simp at h
          | some rest =>
            rw [hr] at h
            simp only [Option.bind_some, Option.some.injEq] at h
            subst h
            obtain ⟨ks, ps, h1, h2, h3⟩ := ih _ _ hr
            refine ⟨t :: ks, c :: ps, .keep h1, by simp [hc, h2], ?_⟩
            rw [List.flatMap_cons, h3]
            simp [followUpComposite, FmtComposite.addCompound]
      · rename_i hb
        obtain ⟨ks, ps, h1, h2, h3⟩ := ih _ _ h
        exact ⟨ks, ps, .drop (by simpa using hb) h1, h2, h3⟩
    · cases hc : t.toCompound with
      | none => rw [hc] at h; simp at h
      | some c =>
        rw [hc] at h
        simp only [Option.bind_eq_bind, Option.bind_some] at h
        obtain ⟨ks, ps, h1, h2, h3⟩ := ih _ _ h
        refine ⟨t :: ks, c :: ps, .keep h1, by simp [hc, h2], ?_⟩
        rw [h3]
        simp [FmtComposite.addCompound]

private theorem less_text {cw : Char → Nat} {ws : Char → Bool} {max : Nat} {c : Compound} {ts ks : List Token} (h : LessBlanks ts ks) :
    ∀ {qs ps : List Compound}, (∀ t ∈ ts, ∃ p, IsTok cw ws max c t p) → ts.mapM Token.toCompound = some qs → ks.mapM Token.toCompound = some ps →
    (∀ p ∈ ps, p.flags = c.flags) ∧ (styledChars ps).Sublist (styledChars qs) ∧ ink ws (styledChars ps) = ink ws (styledChars qs) := by
  induction h with
  | nil =>
    intro qs ps _ h1 h2
    simp only [List.mapM_nil, Option.pure_def, Option.some.injEq] at h1 h2
    subst h1 h2
    exact ⟨by simp, List.Sublist.refl _, rfl⟩
  | @keep t ts ks _ ih =>
    intro qs ps ht h1 h2
    obtain ⟨p, hp⟩ := ht t (by simp)
    have hc := hp.toCompound
    cases hq : ts.mapM Token.toCompound with
    | none => simp [List.mapM_cons, hc, hq] at h1
    | some qs' =>
      cases hk : ks.mapM Token.toCompound with
      | none => simp [List.mapM_cons, hc, hk] at h2
      | some ps' =>
        simp [List.mapM_cons, hc, hq] at h1
        simp [List.mapM_cons, hc, hk] at h2
        subst h1 h2
        obtain ⟨a1, a2, a3⟩ := ih (fun t' h' => ht t' (by simp [h'])) hq hk
        refine ⟨?_, ?_, ?_⟩
        · intro x hx
          simp only [List.mem_cons] at hx
          rcases hx with rfl | hx
          · rfl
          · exact a1 x hx
        · rw [styledChars_cons, styledChars_cons]
          exact List.Sublist.append (List.Sublist.refl _) a2
        · rw [styledChars_cons, styledChars_cons]
          simp only [ink, List.filter_append] at a3 ⊢
          rw [a3]
  | @drop t ts ks hb _ ih =>
    intro qs ps ht h1 h2
    obtain ⟨p, hp⟩ := ht t (by simp)
    have hc := hp.toCompound
    have hw := (hp.blank hb).2
    cases hq : ts.mapM Token.toCompound with
    | none => simp [List.mapM_cons, hc, hq] at h1
    | some qs' =>
      simp [List.mapM_cons, hc, hq] at h1
      subst h1
      obtain ⟨a1, a2, a3⟩ := ih (fun t' h' => ht t' (by simp [h'])) hq h2
      refine ⟨a1, ?_, ?_⟩
      · rw [styledChars_cons]
        exact a2.trans (List.sublist_append_right _ _)
      · rw [styledChars_cons, a3]
        simp only [ink, List.filter_append]
        have : List.filter (fun q : Char × Flags => !ws q.1) (p.map fun ch => (ch, c.flags)) = [] := by
          rw [List.filter_eq_nil_iff]
          intro q hq
          simp only [List.mem_map] at hq
          obtain ⟨ch, hch, rfl⟩ := hq
          simp [hw ch hch]
        simp [this]

private theorem tokens_cutInto (cw : Char → Nat) (ws : Char → Bool) (max : Nat) : ∀ (cs : List Compound) (ks : List Token) (ps : List Compound),
    LessBlanks (tokenize cw ws cs max) ks → ks.mapM Token.toCompound = some ps → CutInto ws cs ps := by
  intro cs
  induction cs with
  | nil =>
    intro ks ps h h2
    have : tokenize cw ws [] max = [] := rfl
    rw [this] at h
    cases h
    simp only [List.mapM_nil, Option.pure_def, Option.some.injEq] at h2
    subst h2
    exact .nil
  | cons c cs ih =>
    intro ks ps h h2
    have e : tokenize cw ws (c :: cs) max = tokenizeLoop cw ws c max 0 none c.src ++ tokenize cw ws cs max := by simp [tokenize]
    rw [e] at h
    obtain ⟨ka, kb, rfl, l1, l2⟩ := lessBlanks_append h
    obtain ⟨qs, g1, g2, g3⟩ := (tokenizeLoop_ok cw ws c max c.src).1 [] rfl
    simp only [byteLen] at g1 g3
    rw [List.mapM_append] at h2
    cases hka : ka.mapM Token.toCompound with
    | none => rw [hka] at h2; simp at h2
    | some parts =>
      cases hkb : kb.mapM Token.toCompound with
      | none => rw [hka, hkb] at h2; simp at h2
      | some rest =>
        rw [hka, hkb] at h2
        simp at h2
        subst h2
        obtain ⟨a1, a2, a3⟩ := less_text l1 g3 g1 hka
        have es : styledChars qs = styledChars [c] := by rw [g2, styledChars_cons, styledChars_nil, List.append_nil]
        refine .cons a1 (es ▸ a2) (es ▸ a3) ?_ (ih kb rest l2 hkb)
        intro ch hch hw
        have ht : tokenizeLoop cw ws c max 0 none c.src = [⟨c, ws ch && !c.flags.code, cw ch, 0, 0 + ch.utf8Size⟩] := by
          rw [hch]; simp [tokenizeLoop]
        have hk := isTok_single cw ws max c [] [] ch (by simpa using hch)
        have htc := hk.toCompound
        rw [ht] at l1
        cases l1 with
        | keep l =>
          cases l
          have htc' : Token.toCompound ⟨c, ws ch && !c.flags.code, cw ch, 0, 0 + ch.utf8Size⟩ = some c := by
            rw [← hch] at htc; exact htc
          rw [List.mapM_cons, htc'] at hka
          simp at hka
          exact hka.symm
        | drop hb _ =>
          rw [hw] at hb
          simp at hb

/-- The compounds which aren't cut. -/
theorem cutInto_refl (ws : Char → Bool) : ∀ cs : List Compound, CutInto ws cs cs
  | [] => .nil
  | c :: cs => .cons (parts := [c]) (by simp) (List.Sublist.refl _) rfl (fun _ _ _ => rfl) (cutInto_refl ws cs)

/-- C92: a composite which is wrapped, to any width, has its compounds cut in parts with the same style; those made of one visible character are
kept as they are, so that the ones which have a special character in the skin are drawn as this character (see `C92_drawn`). -/
theorem C92_wrapped (cw : Char → Nat) (ws : Char → Bool) (skin : Skin) (fc : FmtComposite) (width : Nat) (lines : List FmtComposite)
    (h : hardWrapComposite cw ws skin fc width = some (.ok lines)) : CutInto ws fc.compounds (lines.flatMap (·.compounds)) := by
  unfold hardWrapComposite at h
  split at h
  · simp at h
  · split at h
    · simp at h
    · simp only at h
      split at h
      · rename_i a b hcut
        simp only [Option.some.injEq, Except.ok.injEq] at h
        subst h
        simp only [List.flatMap_cons, List.flatMap_nil, FmtComposite.addCompound, followUpComposite, List.nil_append, List.append_nil]
        generalize fc.compounds = cs at hcut
        unfold cleanCut at hcut
        split at hcut
        · split at hcut
          · simp only [Option.some.injEq, Prod.mk.injEq] at hcut
            obtain ⟨rfl, rfl⟩ := hcut
            exact cutInto_refl ws _
          · simp at hcut
        · rename_i x m y
          split at hcut
          · rename_i hc
            simp only [Option.some.injEq, Prod.mk.injEq] at hcut
            obtain ⟨rfl, rfl⟩ := hcut
            have hall : ∀ ch ∈ m.src, ws ch = true := by simpa using hc.2.2
            refine .cons (parts := [x]) (by simp) (List.Sublist.refl _) rfl (fun _ _ _ => rfl) ?_
            refine .cons (parts := []) (ps := [y]) (by simp) (by simp [styledChars_nil]) ?_ ?_ (cutInto_refl ws _)
            · symm
              rw [styledChars_nil]
              simp only [ink, List.filter_nil, List.filter_eq_nil_iff]
              intro q hq
              rw [styledChars_cons, styledChars_nil, List.append_nil, List.mem_map] at hq
              obtain ⟨ch, hch, rfl⟩ := hq
              simp [hall ch hch]
            · intro ch hch hw
              have := hall ch (by rw [hch]; simp)
              rw [hw] at this
              cases this
          · simp at hcut
        · simp at hcut
      · cases hm : csub width (compositeKindWidths skin fc.kind).1 with
        | none => rw [hm] at h; simp at h
        | some max =>
          rw [hm] at h
          simp only [Option.bind_eq_bind, Option.bind_some] at h
          generalize hd : ({ kind := fc.kind, compounds := [], visibleLength := (compositeKindWidths skin fc.kind).1, spacing := fc.spacing } : FmtComposite) = dst at h
          have hdc : dst.compounds = [] := by rw [← hd]
          cases hr : wrapTokens cw skin width dst (tokenize cw ws fc.compounds max) with
          | none => rw [hr] at h; simp at h
          | some ls =>
            rw [hr] at h
            simp only [Option.bind_some, Option.some.injEq, Except.ok.injEq] at h
            subst h
            obtain ⟨ks, ps, h1, h2, h3⟩ := wrapTokens_less cw skin width _ _ _ hr
            rw [h3, hdc, List.nil_append]
            exact tokens_cutInto cw ws max _ _ _ h1 h2

/-- C92: a compound made of one visible character is as many times, at least, in the lines of the composite wrapped to any width as in the composite. -/
theorem C92_kept (cw : Char → Nat) (ws : Char → Bool) (skin : Skin) (fc : FmtComposite) (width : Nat) (lines : List FmtComposite)
    (h : hardWrapComposite cw ws skin fc width = some (.ok lines)) (c : Compound) (ch : Char) (hc : c.src = [ch]) (hw : ws ch = false) :
    fc.compounds.count c ≤ (lines.flatMap (·.compounds)).count c := by
  have hcut := C92_wrapped cw ws skin fc width lines h
  generalize fc.compounds = cs at hcut
  generalize lines.flatMap (·.compounds) = ps at hcut
  induction hcut with
  | nil => exact Nat.le_refl _
  | @cons d cs parts ps _ _ _ hone _ ih =>
    rw [List.count_append, List.count_cons]
    by_cases e : d = c
    · subst e
      rw [hone ch hc hw]
      simp
      omega
    · simp [e]
      omega

/-- A skin drawing a bold `>` as a red arrow. -/
private def specialSkin : Skin :=
  { ({} : Skin) with
    specialChars := fun c => if c = ⟨['>'], { bold := true }⟩ then some (StyledChar.fromFgChar (.ansi 9) '▶') else none }

private def specialLine : FmtComposite :=
  FmtComposite.ofComposite specialSkin renderCw .paragraph [⟨"ab cd ".toList, {}⟩, ⟨['>'], { bold := true }⟩, ⟨" ef".toList, {}⟩]

example : Drawable renderCw specialSkin specialLine := by
  refine ⟨by simp [specialLine, FmtComposite.ofComposite, styleOf], by decide, by decide, by intro d h; cases h⟩

example : (specialSkin.writeFmtLine (.normal specialLine) none false).map (fun ps => String.ofList (piecesText ps)) = some "ab cd ▶ ef" := by decide

example : (match hardWrapComposite renderCw (· == ' ') specialSkin specialLine 4 with
    | some (.ok ls) => ls.map fun l => l.compounds.map fun c => (String.ofList c.src, c.flags.bold)
    | _ => []) = [[("ab", false), (" ", false)], [("cd", false), (" ", false), (">", true)], [("ef", false)]] := by decide

/-- A word of a longer compound may become a compound in a wrapped line: it's then replaced, when it's not in a line which fits. -/
theorem C92_word_counterexample :
    ∃ (skin : Skin) (fc : FmtComposite), fc.visibleLength = 9 ∧
      (skin.writeFmtLine (.normal fc) none false).map piecesText = some "aaa > bbb".toList ∧
      (match hardWrapComposite renderCw (· == ' ') skin fc 5 with
        | some (.ok ls) => ls.map fun l => (skin.writeFmtLine (.normal l) none false).map piecesText
        | _ => []) = [some "aaa ▶".toList, some "bbb".toList] :=
  ⟨{ ({} : Skin) with specialChars := fun c => if c = ⟨['>'], {}⟩ then some (StyledChar.nude '▶') else none },
    FmtComposite.ofComposite {} renderCw .paragraph [⟨"aaa > bbb".toList, {}⟩], by decide, by decide, by decide⟩

/-- A replaced compound of several characters isn't replaced any more when a line break cuts it. -/
theorem C92_long_counterexample :
    ∃ (skin : Skin) (fc : FmtComposite), (skin.writeFmtLine (.normal fc) none false).map piecesText = some "▶".toList ∧
      (match hardWrapComposite renderCw (· == ' ') skin fc 3 with
        | some (.ok ls) => ls.map fun l => (skin.writeFmtLine (.normal l) none false).map piecesText
        | _ => []) = [some "---".toList, some ">".toList] :=
  ⟨{ ({} : Skin) with specialChars := fun c => if c = ⟨"--->".toList, {}⟩ then some (StyledChar.nude '▶') else none },
    FmtComposite.ofComposite {} renderCw .paragraph [⟨"--->".toList, {}⟩], by decide, by decide⟩

/-- The widths are counted with the replaced text: with a character of another width, a line is not as wide as asked. -/
theorem C92_width_counterexample :
    ∃ (skin : Skin) (fc : FmtComposite), Drawable renderCw skin fc ∧ fc.visibleLength ≤ 6 ∧
      (skin.writeFmtLine (.normal fc) (some 6) true).map (piecesCols renderCw) = some 7 := by
  refine ⟨{ ({} : Skin) with specialChars := fun c => if c = ⟨['>'], {}⟩ then some (StyledChar.nude '一') else none },
    FmtComposite.ofComposite {} renderCw .paragraph [⟨['>'], {}⟩], ⟨?_, by decide, by decide, ?_⟩, by decide, by decide⟩
  · simp [FmtComposite.ofComposite, styleOf]
  · intro d h; cases h

end Verif.Props

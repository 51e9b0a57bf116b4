import Verif.Model.Wrap
import Verif.Spec.Styled
import Verif.Lemmas.Bytes
/-! Lemmas on tokens and wrapping. -/
namespace Verif

theorem styledChars_append (a b : List Compound) : styledChars (a ++ b) = styledChars a ++ styledChars b := by
  simp [styledChars]

theorem styledChars_cons (a : Compound) (b : List Compound) :
    styledChars (a :: b) = a.src.map (fun ch => (ch, a.flags)) ++ styledChars b := by
  simp [styledChars]

theorem styledChars_nil : styledChars [] = [] := rfl

theorem styledChars_width (cw : Char → Nat) (cs : List Compound) :
    ((styledChars cs).map fun p => cw p.1).sum = compoundsWidth cw cs := by
  induction cs with
  | nil => rfl
  | cons c cs ih =>
    simp only [styledChars_cons, List.map_append, List.sum_append, ih, compoundsWidth, List.map_cons, List.sum_cons,
      textWidth_eq_sum, List.map_map]
    rfl

theorem mem_styledChars {cs : List Compound} {p : Char × Flags} :
    p ∈ styledChars cs ↔ ∃ c ∈ cs, p.1 ∈ c.src ∧ p.2 = c.flags := by
  simp only [styledChars, List.mem_flatMap, List.mem_map]
  constructor
  · rintro ⟨c, hc, ch, h, rfl⟩; exact ⟨c, hc, h, rfl⟩
  · rintro ⟨c, hc, h1, h2⟩; exact ⟨c, hc, p.1, h1, by rw [← h2]⟩

theorem visible_eq (skin : Skin) (cw : Char → Nat) (k : Kind) (cs : List Compound) :
    skin.visibleCompositeLength cw k cs = prefixCols skin.indentMode k + compoundsWidth cw cs := by
  cases h : skin.indentMode <;> cases k <;> simp [Skin.visibleCompositeLength, prefixCols, h] <;> omega

theorem lineCols_eq (skin : Skin) (cw : Char → Nat) (l : FmtComposite) :
    lineCols cw skin.indentMode l = skin.visibleCompositeLength cw l.kind l.compounds := by
  rw [visible_eq, lineCols, styledChars_width]

/-- What a token stands for: the piece of text `p` of the compound `c`. -/
structure IsTok (cw : Char → Nat) (ws : Char → Bool) (max : Nat) (c : Compound) (t : Token) (p : Text) : Prop where
  compound : t.compound = c
  ne : p ≠ []
  slice : sliceBytes c.src t.start t.stop = some p
  width : t.width = textWidth cw p
  blank : t.blank = true → c.flags.code = false ∧ ∀ ch ∈ p, ws ch = true
  ink : t.blank = false → c.flags.code = true ∨ ∀ ch ∈ p, ws ch = false
  wide : t.width > max → ∃ ch, p = [ch]

theorem IsTok.toCompound {cw : Char → Nat} {ws : Char → Bool} {max : Nat} {c : Compound} {t : Token} {p : Text}
    (h : IsTok cw ws max c t p) : t.toCompound = some { c with src := p } := by
  simp [Token.toCompound, h.compound, h.slice]

theorem isTok_single (cw : Char → Nat) (ws : Char → Bool) (max : Nat) (c : Compound) (pre rest : Text) (ch : Char)
    (hsrc : c.src = pre ++ ch :: rest) :
    IsTok cw ws max c ⟨c, ws ch && !c.flags.code, cw ch, byteLen pre, byteLen pre + ch.utf8Size⟩ [ch] := by
  refine ⟨rfl, by simp, ?_, by simp [textWidth], ?_, ?_, fun _ => ⟨ch, rfl⟩⟩
  · have := sliceBytes_mid pre [ch] rest
    simpa [hsrc, byteLen] using this
  · simp; intro h1 h2; exact ⟨h2, h1⟩
  · simp; intro h; by_cases hw : ws ch = true
    · exact Or.inl (h hw)
    · exact Or.inr (by simpa using hw)

theorem tokenizeLoop_ok (cw : Char → Nat) (ws : Char → Bool) (c : Compound) (max : Nat) : ∀ (rest : Text),
    (∀ pre, c.src = pre ++ rest → ∃ ps,
      (tokenizeLoop cw ws c max (byteLen pre) none rest).mapM Token.toCompound = some ps ∧
      styledChars ps = rest.map (fun ch => (ch, c.flags)) ∧
      ∀ t ∈ tokenizeLoop cw ws c max (byteLen pre) none rest, ∃ p, IsTok cw ws max c t p) ∧
    (∀ pre mid t, c.src = pre ++ mid ++ rest → IsTok cw ws max c t mid → t.start = byteLen pre →
      t.stop = byteLen pre + byteLen mid → ∃ ps,
      (tokenizeLoop cw ws c max (byteLen pre + byteLen mid) (some t) rest).mapM Token.toCompound = some ps ∧
      styledChars ps = (mid ++ rest).map (fun ch => (ch, c.flags)) ∧
      ∀ t' ∈ tokenizeLoop cw ws c max (byteLen pre + byteLen mid) (some t) rest, ∃ p, IsTok cw ws max c t' p) := by
  intro rest
  induction rest with
  | nil =>
    refine ⟨?_, ?_⟩
    · intro pre _; exact ⟨[], by simp [tokenizeLoop], by simp [styledChars], by simp [tokenizeLoop]⟩
    · intro pre mid t hsrc ht _ _
      refine ⟨[{ c with src := mid }], ?_, ?_, ?_⟩
      · simp [tokenizeLoop, ht.toCompound]
      · simp [styledChars]
      · simp [tokenizeLoop]; exact ⟨mid, ht⟩
  | cons ch rest ih =>
    obtain ⟨_, ih⟩ := ih
    refine ⟨?_, ?_⟩
    · intro pre hsrc
      have hk := isTok_single cw ws max c pre rest ch hsrc
      obtain ⟨ps, h1, h2, h3⟩ := ih pre [ch] _ (by simpa using hsrc) hk rfl (by simp [byteLen])
      have hb : byteLen pre + byteLen [ch] = byteLen pre + ch.utf8Size := by simp [byteLen]
      rw [hb] at h1 h3
      refine ⟨ps, ?_, by simpa using h2, ?_⟩
      · simpa [tokenizeLoop] using h1
      · simpa [tokenizeLoop] using h3
    · intro pre mid t hsrc ht hs he
      simp only [tokenizeLoop]
      split
      · rename_i hc
        have hk : IsTok cw ws max c { t with width := t.width + cw ch, stop := t.stop + ch.utf8Size }
            (mid ++ [ch]) := by
          refine ⟨ht.compound, by simp, ?_, by simp [ht.width, textWidth], ?_, ?_, ?_⟩
          · have := sliceBytes_mid pre (mid ++ [ch]) rest
            have e : c.src = pre ++ (mid ++ [ch]) ++ rest := by rw [hsrc]; simp
            have e2 : byteLen pre + byteLen (mid ++ [ch]) = t.stop + ch.utf8Size := by
              simp [byteLen, he]; omega
            rw [e2] at this
            simp only [hs, e]; exact this
          · intro hb
            have hb' : t.blank = true := hb
            have h0 := ht.blank hb'
            have h1 := hc.1; rw [hb'] at h1
            simp at h1
            refine ⟨h0.1, ?_⟩
            intro x hx
            simp at hx
            rcases hx with hx | hx
            · exact h0.2 x hx
            · rw [hx]; exact h1.1
          · intro hb
            have hb' : t.blank = false := hb
            have h1 := hc.1; rw [hb'] at h1
            rcases ht.ink hb' with h0 | h0
            · exact Or.inl h0
            · by_cases hcode : c.flags.code = true
              · exact Or.inl hcode
              · right
                intro x hx
                simp at hx
                rcases hx with hx | hx
                · exact h0 x hx
                · rw [hx]; simp at h1; simp at hcode; by_cases hw : ws ch = true
                  · simp [h1 hw] at hcode
                  · simpa using hw
          · intro hw
            have : t.width + cw ch > max := hw
            omega
        obtain ⟨ps, h1, h2, h3⟩ := ih pre (mid ++ [ch]) _ (by simp [hsrc]) hk hs (by simp [byteLen, he]; omega)
        have hb : byteLen pre + byteLen (mid ++ [ch]) = byteLen pre + byteLen mid + ch.utf8Size := by
          simp [byteLen]; omega
        rw [hb] at h1 h3
        exact ⟨ps, h1, by simpa using h2, h3⟩
      · have hk := isTok_single cw ws max c (pre ++ mid) rest ch (by simp [hsrc])
        obtain ⟨ps, h1, h2, h3⟩ := ih (pre ++ mid) [ch] _ (by simp [hsrc]) hk rfl (by simp [byteLen])
        have hb : byteLen (pre ++ mid) + byteLen [ch] = byteLen pre + byteLen mid + ch.utf8Size := by
          simp [byteLen]
        have hb' : byteLen (pre ++ mid) = byteLen pre + byteLen mid := by simp
        rw [hb] at h1 h3
        rw [hb'] at h1 h3
        refine ⟨{ c with src := mid } :: ps, ?_, ?_, ?_⟩
        · simp [ht.toCompound, h1]
        · simp only [styledChars_cons, h2]; simp
        · intro t' ht'
          simp only [List.mem_cons] at ht'
          rcases ht' with rfl | ht'
          · exact ⟨mid, ht⟩
          · exact h3 t' (by simpa using ht')

theorem tokenize_ok (cw : Char → Nat) (ws : Char → Bool) (max : Nat) (cs : List Compound) : ∃ ps,
    (tokenize cw ws cs max).mapM Token.toCompound = some ps ∧ styledChars ps = styledChars cs ∧
    ∀ t ∈ tokenize cw ws cs max, ∃ c ∈ cs, ∃ p, IsTok cw ws max c t p := by
  induction cs with
  | nil => exact ⟨[], by simp [tokenize], rfl, by simp [tokenize]⟩
  | cons c cs ih =>
    obtain ⟨ps, h1, h2, h3⟩ := ih
    obtain ⟨qs, g1, g2, g3⟩ := (tokenizeLoop_ok cw ws c max c.src).1 [] rfl
    simp only [byteLen] at g1 g3
    refine ⟨qs ++ ps, ?_, ?_, ?_⟩
    · have : tokenize cw ws (c :: cs) max = tokenizeLoop cw ws c max 0 none c.src ++ tokenize cw ws cs max := by
        simp [tokenize]
      rw [this, List.mapM_append, g1, h1]; rfl
    · rw [styledChars_append, styledChars_cons, g2, h2]
    · intro t ht
      have : tokenize cw ws (c :: cs) max = tokenizeLoop cw ws c max 0 none c.src ++ tokenize cw ws cs max := by
        simp [tokenize]
      rw [this, List.mem_append] at ht
      rcases ht with ht | ht
      · obtain ⟨p, hp⟩ := g3 t ht; exact ⟨c, by simp, p, hp⟩
      · obtain ⟨c', hc', p, hp⟩ := h3 t ht; exact ⟨c', by simp [hc'], p, hp⟩

theorem addCompound_good {skin : Skin} {cw : Char → Nat} {d : FmtComposite} (c : Compound)
    (h : d.visibleLength = lineCols cw skin.indentMode d) :
    (d.addCompound cw c).visibleLength = lineCols cw skin.indentMode (d.addCompound cw c) := by
  simp only [FmtComposite.addCompound, h, lineCols, styledChars_width, compoundsWidth, List.map_append,
    List.sum_append, List.map_cons, List.map_nil, List.sum_cons, List.sum_nil]
  omega

theorem followUpKind_idem (k : Kind) : followUpKind (followUpKind k) = followUpKind k := by cases k <;> rfl

theorem followUpLength_eq (mode : IndentMode) (k : Kind) :
    followUpLength mode (followUpKind k) = prefixCols mode (followUpKind k) := by
  cases mode <;> cases k <;> simp [followUpLength, followUpKind, prefixCols] <;> omega

theorem kindWidths_fst (skin : Skin) (k : Kind) : (compositeKindWidths skin k).1 = prefixCols skin.indentMode k := by
  cases h : skin.indentMode <;> cases k <;> simp [compositeKindWidths, prefixCols, h] <;> omega

theorem kindWidths_snd (skin : Skin) (k : Kind) :
    (compositeKindWidths skin k).2 = prefixCols skin.indentMode (followUpKind k) := by
  cases h : skin.indentMode <;> cases k <;> simp [compositeKindWidths, prefixCols, followUpKind, h] <;> omega

theorem prefix_followUp_le (mode : IndentMode) (k : Kind) :
    prefixCols mode (followUpKind k) ≤ prefixCols mode k := by
  cases mode <;> cases k <;> simp [prefixCols, followUpKind]

theorem followUp_good (skin : Skin) (cw : Char → Nat) (d : FmtComposite) :
    (followUpComposite skin d).visibleLength = lineCols cw skin.indentMode (followUpComposite skin d) := by
  simp [followUpComposite, lineCols, styledChars_nil, followUpLength_eq]

/-- What can be said of any successful wrapping along tokens. -/
theorem wrapTokens_text (cw : Char → Nat) (ws : Char → Bool) (skin : Skin) (width max : Nat) :
    ∀ (ts : List Token) (dst : FmtComposite) (ls : List FmtComposite),
    wrapTokens cw skin width dst ts = some ls →
    (∀ t ∈ ts, ∃ c, ∃ p, IsTok cw ws max c t p) →
    ∃ ps, ts.mapM Token.toCompound = some ps ∧
      (linesChars ls).Sublist (styledChars dst.compounds ++ styledChars ps) ∧
      ink ws (linesChars ls) = ink ws (styledChars dst.compounds ++ styledChars ps) ∧
      (dst.visibleLength = lineCols cw skin.indentMode dst →
        ∀ l ∈ ls, l.visibleLength = lineCols cw skin.indentMode l) ∧
      ∃ l0 more, ls = l0 :: more ∧ l0.kind = dst.kind ∧ l0.spacing = dst.spacing ∧
        ∀ l ∈ more, l.kind = followUpKind dst.kind ∧ l.spacing = dst.spacing := by
  intro ts
  induction ts with
  | nil =>
    intro dst ls h _
    simp only [wrapTokens, Option.some.injEq] at h
    subst h
    refine ⟨[], rfl, ?_, ?_, ?_, dst, [], rfl, rfl, rfl, by simp⟩
    · simp [linesChars, styledChars_nil]
    · simp [linesChars, styledChars_nil]
    · intro hg l hl; simp at hl; rw [hl]; exact hg
  | cons t ts ih =>
    intro dst ls h ht
    obtain ⟨c, p, hp⟩ := ht t (by simp)
    have hc := hp.toCompound
    have ht' : ∀ t ∈ ts, ∃ c, ∃ p, IsTok cw ws max c t p := fun t' h' => ht t' (by simp [h'])
    simp only [wrapTokens] at h
    split at h
    · split at h
      · rw [hc] at h
        simp only [Option.bind_eq_bind, Option.bind_some] at h
        cases hr : wrapTokens cw skin width ((followUpComposite skin dst).addCompound cw { c with src := p }) ts with
        | none => rw [hr] at h; simp at h
        | some rest =>
          rw [hr] at h
          simp only [Option.bind_some, Option.some.injEq] at h
          subst h
          obtain ⟨ps, h1, h2, h3, h4, l0, more, h5, h6, h7, h8⟩ := ih _ _ hr ht'
          refine ⟨{ c with src := p } :: ps, by simp [hc, h1], ?_, ?_, ?_, dst, rest, rfl, rfl, rfl, ?_⟩
          · have : linesChars (dst :: rest) = styledChars dst.compounds ++ linesChars rest := by simp [linesChars]
            rw [this]
            refine List.Sublist.append (List.Sublist.refl _) ?_
            simpa [followUpComposite, FmtComposite.addCompound, styledChars_cons, styledChars_nil] using h2
          · have : linesChars (dst :: rest) = styledChars dst.compounds ++ linesChars rest := by simp [linesChars]
            rw [this]
            simp only [ink, List.filter_append] at h3 ⊢
            rw [h3]
            simp [followUpComposite, FmtComposite.addCompound, styledChars_cons, styledChars_nil]
          · intro hg l hl
            simp only [List.mem_cons] at hl
            rcases hl with rfl | hl
            · exact hg
            · exact h4 (addCompound_good _ (followUp_good skin cw dst)) l hl
          · intro l hl
            rw [h5] at hl
            simp only [List.mem_cons] at hl
            rcases hl with rfl | hl
            · exact ⟨h6, h7⟩
            · have := h8 l hl
              simp only [FmtComposite.addCompound, followUpComposite, followUpKind_idem] at this
              exact this
      · rename_i hb
        have hb : t.blank = true := by simpa using hb
        obtain ⟨ps, h1, h2, h3, h4, h5⟩ := ih _ _ h ht'
        have hw := (hp.blank hb).2
        refine ⟨{ c with src := p } :: ps, by simp [hc, h1], ?_, ?_, h4, h5⟩
        · refine h2.trans ?_
          refine List.Sublist.append (List.Sublist.refl _) ?_
          rw [styledChars_cons]
          exact List.sublist_append_right _ _
        · rw [h3]
          simp only [ink, List.filter_append, styledChars_cons]
          have : List.filter (fun q : Char × Flags => !ws q.1) (p.map fun ch => (ch, c.flags)) = [] := by
            rw [List.filter_eq_nil_iff]
            intro q hq
            simp only [List.mem_map] at hq
            obtain ⟨ch, hch, rfl⟩ := hq
            simp [hw ch hch]
          simp [this]
    · rw [hc] at h
      simp only [Option.bind_eq_bind, Option.bind_some] at h
      obtain ⟨ps, h1, h2, h3, h4, h5⟩ := ih _ _ h ht'
      have e : styledChars (dst.addCompound cw { c with src := p }).compounds ++ styledChars ps
          = styledChars dst.compounds ++ styledChars ({ c with src := p } :: ps) := by
        simp [FmtComposite.addCompound, styledChars_cons, styledChars_append, styledChars_nil]
      rw [e] at h2 h3
      exact ⟨{ c with src := p } :: ps, by simp [hc, h1], h2, h3, fun hg => h4 (addCompound_good _ hg), h5⟩

/-- With tokens narrow enough, wrapping succeeds and no line is too wide. -/
theorem wrapTokens_fit (cw : Char → Nat) (ws : Char → Bool) (skin : Skin) (width max : Nat) :
    ∀ (ts : List Token) (dst : FmtComposite),
    (∀ t ∈ ts, (∃ c, ∃ p, IsTok cw ws max c t p) ∧
      prefixCols skin.indentMode (followUpKind dst.kind) + t.width ≤ width) →
    dst.visibleLength ≤ width →
    ∃ ls, wrapTokens cw skin width dst ts = some ls ∧ (∀ l ∈ ls, l.visibleLength ≤ width) ∧
      ((styledChars dst.compounds ≠ [] ∨ ∃ t ts', ts = t :: ts' ∧ dst.visibleLength + t.width ≤ width) →
        ∀ l ∈ ls, styledChars l.compounds ≠ []) := by
  intro ts
  induction ts with
  | nil =>
    intro dst _ hd
    exact ⟨[dst], rfl, by simpa using hd, by simp⟩
  | cons t ts ih =>
    intro dst ht hd
    obtain ⟨⟨c, p, hp⟩, hw⟩ := ht t (by simp)
    have hc := hp.toCompound
    have hwp := hp.width
    simp only [wrapTokens]
    split
    · rename_i hover
      split
      · obtain ⟨ls, h1, h2, h3⟩ := ih ((followUpComposite skin dst).addCompound cw { c with src := p })
          (by
            intro t' h'
            have := ht t' (by simp [h'])
            simpa [FmtComposite.addCompound, followUpComposite, followUpKind_idem] using this)
          (by simp only [FmtComposite.addCompound, followUpComposite, followUpLength_eq]; omega)
        refine ⟨dst :: ls, by simp [hc, h1], ?_, ?_⟩
        · intro l hl
          simp only [List.mem_cons] at hl
          rcases hl with rfl | hl
          · exact hd
          · exact h2 l hl
        · intro hne l hl
          simp only [List.mem_cons] at hl
          rcases hl with rfl | hl
          · rcases hne with h | ⟨t', ts', h, h'⟩
            · exact h
            · simp only [List.cons.injEq] at h; rw [← h.1] at h'; omega
          · exact h3 (Or.inl (by simp [FmtComposite.addCompound, styledChars_append, styledChars_cons, hp.ne])) l hl
      · obtain ⟨ls, h1, h2, h3⟩ := ih dst (fun t' h' => ht t' (by simp [h'])) hd
        refine ⟨ls, h1, h2, ?_⟩
        intro hne
        rcases hne with h | ⟨t', ts', h, h'⟩
        · exact h3 (Or.inl h)
        · simp only [List.cons.injEq] at h; rw [← h.1] at h'; omega
    · obtain ⟨ls, h1, h2, h3⟩ := ih (dst.addCompound cw { c with src := p })
        (by
          intro t' h'
          have := ht t' (by simp [h'])
          simpa [FmtComposite.addCompound] using this)
        (by simp only [FmtComposite.addCompound]; omega)
      exact ⟨ls, by simp [hc, h1], h2, fun _ => h3 (Or.inl (by simp [FmtComposite.addCompound, styledChars_append, styledChars_cons, hp.ne]))⟩

theorem cleanCut_spec {cw : Char → Nat} {ws : Char → Bool} {first other width : Nat} {cs : List Compound}
    {a b : Compound} (h : cleanCut cw ws first other width cs = some (a, b)) :
    textWidth cw a.src + first ≤ width ∧ textWidth cw b.src + other ≤ width ∧
    (cs = [a, b] ∨ ∃ m, cs = [a, m, b] ∧ ∀ ch ∈ m.src, ws ch = true) := by
  unfold cleanCut at h
  split at h
  · split at h
    · rename_i hc
      simp only [Option.some.injEq, Prod.mk.injEq] at h
      obtain ⟨rfl, rfl⟩ := h
      exact ⟨hc.1, hc.2, Or.inl rfl⟩
    · simp at h
  · split at h
    · rename_i hc
      simp only [Option.some.injEq, Prod.mk.injEq] at h
      obtain ⟨rfl, rfl⟩ := h
      exact ⟨hc.1, hc.2.1, Or.inr ⟨_, rfl, by simpa using hc.2.2⟩⟩
    · simp at h
  · simp at h

/-- The composite in which the first tokens are put. -/
def firstLine (skin : Skin) (fc : FmtComposite) : FmtComposite :=
  { kind := fc.kind, compounds := [], visibleLength := (compositeKindWidths skin fc.kind).1, spacing := fc.spacing }

theorem firstLine_good (skin : Skin) (cw : Char → Nat) (fc : FmtComposite) :
    (firstLine skin fc).visibleLength = lineCols cw skin.indentMode (firstLine skin fc) := by
  simp [firstLine, lineCols, styledChars_nil, kindWidths_fst]

/-- Everything known of a successful wrapping. -/
theorem hardWrapComposite_text {cw : Char → Nat} {ws : Char → Bool} {skin : Skin} {fc : FmtComposite} {width : Nat}
    {ls : List FmtComposite} (h : hardWrapComposite cw ws skin fc width = some (.ok ls)) :
    (linesChars ls).Sublist (styledChars fc.compounds) ∧
    ink ws (linesChars ls) = ink ws (styledChars fc.compounds) ∧
    (∀ l ∈ ls, l.visibleLength = lineCols cw skin.indentMode l) ∧
    ∃ l0 more, ls = l0 :: more ∧ l0.kind = fc.kind ∧ l0.spacing = fc.spacing ∧
      ∀ l ∈ more, l.kind = followUpKind fc.kind ∧ l.spacing = fc.spacing := by
  unfold hardWrapComposite at h
  split at h
  · simp at h
  · split at h
    · simp at h
    · simp only at h
      split at h
      · rename_i a b hcut
        obtain ⟨_, _, hcs⟩ := cleanCut_spec hcut
        simp only [Option.some.injEq, Except.ok.injEq] at h
        subst h
        have e : linesChars [(firstLine skin fc).addCompound cw a,
            (followUpComposite skin ((firstLine skin fc).addCompound cw a)).addCompound cw b]
            = styledChars [a, b] := by
          simp [linesChars, FmtComposite.addCompound, followUpComposite, firstLine, styledChars_cons, styledChars_nil]
        refine ⟨?_, ?_, ?_, _, _, rfl, rfl, rfl, ?_⟩
        · show (linesChars [(firstLine skin fc).addCompound cw a,
            (followUpComposite skin ((firstLine skin fc).addCompound cw a)).addCompound cw b]).Sublist _
          rw [e]
          rcases hcs with hcs | ⟨m, hcs, _⟩
          · rw [hcs]; exact List.Sublist.refl _
          · rw [hcs]; simp only [styledChars_cons, styledChars_nil]
            exact List.Sublist.append (List.Sublist.refl _) (List.sublist_append_right _ _)
        · show ink ws (linesChars [(firstLine skin fc).addCompound cw a,
            (followUpComposite skin ((firstLine skin fc).addCompound cw a)).addCompound cw b]) = _
          rw [e]
          rcases hcs with hcs | ⟨m, hcs, hm⟩
          · rw [hcs]
          · rw [hcs]; simp only [styledChars_cons, styledChars_nil, ink, List.filter_append]
            have : List.filter (fun q : Char × Flags => !ws q.1) (m.src.map fun ch => (ch, m.flags)) = [] := by
              rw [List.filter_eq_nil_iff]
              intro q hq
              simp only [List.mem_map] at hq
              obtain ⟨ch, hch, rfl⟩ := hq
              simp [hm ch hch]
            simp [this]
        · intro l hl
          simp only [List.mem_cons, List.not_mem_nil, or_false] at hl
          rcases hl with rfl | rfl
          · exact addCompound_good a (firstLine_good skin cw fc)
          · exact addCompound_good b (followUp_good skin cw _)
        · intro l hl
          simp only [List.mem_cons, List.not_mem_nil, or_false] at hl
          subst hl
          exact ⟨rfl, rfl⟩
      · cases hm : csub width (compositeKindWidths skin fc.kind).1 with
        | none => rw [hm] at h; simp at h
        | some max =>
          rw [hm] at h
          simp only [Option.bind_eq_bind, Option.bind_some] at h
          cases hw : wrapTokens cw skin width (firstLine skin fc) (tokenize cw ws fc.compounds max) with
          | none => simp only [firstLine] at hw; rw [hw] at h; simp at h
          | some ls' =>
            have hw' := hw
            simp only [firstLine] at hw
            rw [hw] at h
            simp only [Option.bind_some, Option.some.injEq, Except.ok.injEq] at h
            subst h
            obtain ⟨qs, g1, g2, g3⟩ := tokenize_ok cw ws max fc.compounds
            obtain ⟨ps, h1, h2, h3, h4, h5⟩ := wrapTokens_text cw ws skin width max _ _ _ hw'
              (fun t ht => by obtain ⟨c, _, p, hp⟩ := g3 t ht; exact ⟨c, p, hp⟩)
            rw [g1] at h1
            simp only [Option.some.injEq] at h1
            subst h1
            rw [g2] at h2 h3
            refine ⟨?_, ?_, h4 (firstLine_good skin cw fc), h5⟩
            · simpa [firstLine, styledChars_nil] using h2
            · simpa [firstLine, styledChars_nil] using h3

/-- Wrapping succeeds and fits when there is room for each character. -/
theorem hardWrapComposite_fit (cw : Char → Nat) (ws : Char → Bool) (skin : Skin) (fc : FmtComposite) (width : Nat)
    (h3 : 3 ≤ width) (hl : width < fc.visibleLength) (hp : prefixCols skin.indentMode fc.kind ≤ width)
    (hroom : ∀ p ∈ styledChars fc.compounds, prefixCols skin.indentMode fc.kind + cw p.1 ≤ width) :
    ∃ ls, hardWrapComposite cw ws skin fc width = some (.ok ls) ∧ (∀ l ∈ ls, l.visibleLength ≤ width) ∧
      (styledChars fc.compounds ≠ [] → (∀ c ∈ fc.compounds, c.src ≠ []) →
        ∀ l ∈ ls, styledChars l.compounds ≠ []) := by
  unfold hardWrapComposite
  rw [if_neg (by omega), if_neg (by omega)]
  simp only
  split
  · rename_i a b hcut
    obtain ⟨ha, hb, hcs⟩ := cleanCut_spec hcut
    rw [kindWidths_snd] at hb
    refine ⟨_, rfl, ?_, ?_⟩
    · intro l hl
      simp only [List.mem_cons, List.not_mem_nil, or_false] at hl
      rcases hl with rfl | rfl
      · simp only [FmtComposite.addCompound]; omega
      · simp only [FmtComposite.addCompound, followUpComposite, followUpLength_eq]; omega
    · intro _ hne
      have hna : a.src ≠ [] := hne a (by rcases hcs with h | ⟨m, h, _⟩ <;> rw [h] <;> simp)
      have hnb : b.src ≠ [] := hne b (by rcases hcs with h | ⟨m, h, _⟩ <;> rw [h] <;> simp)
      intro l hl
      simp only [List.mem_cons, List.not_mem_nil, or_false] at hl
      rcases hl with rfl | rfl
      · simp [FmtComposite.addCompound, styledChars_cons, hna]
      · simp [FmtComposite.addCompound, followUpComposite, styledChars_cons, hnb]
  · have hm : csub width (compositeKindWidths skin fc.kind).1
        = some (width - prefixCols skin.indentMode fc.kind) := by
      rw [kindWidths_fst]; simp [csub, hp]
    rw [hm]
    simp only [Option.bind_eq_bind, Option.bind_some]
    obtain ⟨qs, g1, g2, g3⟩ := tokenize_ok cw ws (width - prefixCols skin.indentMode fc.kind) fc.compounds
    have key : ∀ t ∈ tokenize cw ws fc.compounds (width - prefixCols skin.indentMode fc.kind),
        prefixCols skin.indentMode fc.kind + t.width ≤ width := by
      intro t ht
      obtain ⟨c, hc, p, htok⟩ := g3 t ht
      by_cases hw : t.width > width - prefixCols skin.indentMode fc.kind
      · obtain ⟨ch, rfl⟩ := htok.wide hw
        have hmem : ch ∈ c.src := by
          have := htok.slice
          unfold sliceBytes at this
          split at this
          · cases hd : dropBytes c.src t.start with
            | none => rw [hd] at this; simp at this
            | some d =>
              rw [hd] at this; simp only [Option.bind_some] at this
              exact dropBytes_mem hd (takeBytes_mem this (by simp))
          · simp at this
        have : prefixCols skin.indentMode fc.kind + cw ch ≤ width :=
          hroom (ch, c.flags) (mem_styledChars.2 ⟨c, hc, hmem, rfl⟩)
        have hwid := htok.width
        simp only [textWidth] at hwid
        omega
      · omega
    have hpf := prefix_followUp_le skin.indentMode fc.kind
    obtain ⟨ls, w1, w2, w3⟩ := wrapTokens_fit cw ws skin width _
      (tokenize cw ws fc.compounds (width - prefixCols skin.indentMode fc.kind)) (firstLine skin fc)
      (by
        intro t ht
        obtain ⟨c, _, p, htok⟩ := g3 t ht
        have := key t ht
        exact ⟨⟨c, p, htok⟩, by simp only [firstLine]; omega⟩)
      (by simp only [firstLine, kindWidths_fst]; exact hp)
    simp only [firstLine] at w1
    refine ⟨ls, by rw [w1]; rfl, w2, ?_⟩
    intro hne _
    apply w3
    right
    cases htk : tokenize cw ws fc.compounds (width - prefixCols skin.indentMode fc.kind) with
    | nil =>
      rw [htk] at g1
      simp at g1
      subst g1
      exact absurd g2.symm hne
    | cons t ts =>
      refine ⟨t, ts, rfl, ?_⟩
      have := key t (by rw [htk]; simp)
      simp only [firstLine, kindWidths_fst]; exact this

end Verif

import Verif.Lemmas.Wrap
import Verif.Spec.Breaks
/-! Lemmas on the places where lines are broken. -/
namespace Verif

/-- The blankness of a character, as computed. -/
def blankBit (ws : Char → Bool) (c : Compound) (ch : Char) : Bool := ws ch && !c.flags.code

theorem blankBit_iff (ws : Char → Bool) (c : Compound) (ch : Char) : blankBit ws c ch = true ↔ isBlankIn ws c ch := by
  simp [blankBit, isBlankIn]

theorem blankBit_false (ws : Char → Bool) (c : Compound) (ch : Char) : blankBit ws c ch = false ↔ ¬ isBlankIn ws c ch := by
  rw [← blankBit_iff]; simp

/-- The start of a token: at the start of a compound, after a character of another kind, or in a long part of one kind. -/
inductive TokCut (cw : Char → Nat) (ws : Char → Bool) (max : Nat) (c : Compound) : Text → Char → Prop
  | start (ch : Char) : TokCut cw ws max c [] ch
  | kind (u : Text) (x ch : Char) : blankBit ws c x ≠ blankBit ws c ch → TokCut cw ws max c (u ++ [x]) ch
  | long (u w : Text) (ch : Char) : w ≠ [] → (∀ x ∈ w, blankBit ws c x = blankBit ws c ch) →
      max < textWidth cw (w ++ [ch]) → TokCut cw ws max c (u ++ w) ch

/-- Where a token is in the source. -/
structure TokAt (cw : Char → Nat) (ws : Char → Bool) (max : Nat) (c : Compound) (u : Text) (t : Token) (p : Text) : Prop where
  src : ∃ v, c.src = u ++ p ++ v
  compound : t.toCompound = some { c with src := p }
  width : t.width = textWidth cw p
  blank : ∀ x ∈ p, blankBit ws c x = t.blank
  cut : ∃ ch q, p = ch :: q ∧ TokCut cw ws max c u ch

theorem tokAt_of {cw : Char → Nat} {ws : Char → Bool} {max : Nat} {c : Compound} {u p rest : Text} {t : Token}
    (hsrc : c.src = u ++ p ++ rest) (hc : t.compound = c) (hs : t.start = byteLen u) (he : t.stop = byteLen u + byteLen p)
    (hw : t.width = textWidth cw p) (hb : ∀ x ∈ p, blankBit ws c x = t.blank)
    (hcut : ∃ ch q, p = ch :: q ∧ TokCut cw ws max c u ch) : TokAt cw ws max c u t p := by
  refine ⟨⟨rest, hsrc⟩, ?_, hw, hb, hcut⟩
  have h := sliceBytes_mid u p rest
  rw [Token.toCompound, hc, hs, he, hsrc, h]
  rfl

theorem tokenizeLoop_cut (cw : Char → Nat) (ws : Char → Bool) (c : Compound) (max : Nat) : ∀ (rest : Text),
    (∀ u mid t, c.src = u ++ mid ++ rest → t.compound = c → t.start = byteLen u → t.stop = byteLen u + byteLen mid →
      t.width = textWidth cw mid → (∀ x ∈ mid, blankBit ws c x = t.blank) →
      (∃ ch q, mid = ch :: q ∧ TokCut cw ws max c u ch) →
      ∀ T1 t1 T2, tokenizeLoop cw ws c max (byteLen u + byteLen mid) (some t) rest = T1 ++ t1 :: T2 →
      ∃ u1 p ps, TokAt cw ws max c u1 t1 p ∧ T1.mapM Token.toCompound = some ps ∧
        u.map (fun ch => (ch, c.flags)) ++ styledChars ps = u1.map (fun ch => (ch, c.flags))) := by
  intro rest
  induction rest with
  | nil =>
    intro u mid t hsrc hc hs he hw hb hcut T1 t1 T2 h
    simp only [tokenizeLoop] at h
    cases T1 with
    | nil =>
      simp at h
      obtain ⟨rfl, _⟩ := h
      exact ⟨u, mid, [], tokAt_of hsrc hc hs he hw hb hcut, rfl, by simp [styledChars_nil]⟩
    | cons a T1 => simp at h
  | cons ch rest ih =>
    intro u mid t hsrc hc hs he hw hb hcut T1 t1 T2 h
    simp only [tokenizeLoop] at h
    split at h
    · rename_i hcond
      have hlen : byteLen u + byteLen mid + ch.utf8Size = byteLen u + byteLen (mid ++ [ch]) := by simp [byteLen]; omega
      rw [hlen] at h
      refine ih u (mid ++ [ch]) { t with width := t.width + cw ch, stop := t.stop + ch.utf8Size } (by simp [hsrc]) hc hs (by simp [byteLen, he]; omega) (by simp [hw, textWidth]) ?_ ?_ T1 t1 T2 h
      · intro x hx
        simp at hx
        rcases hx with hx | rfl
        · exact hb x hx
        · exact hcond.1.symm
      · obtain ⟨d, q, rfl, hq⟩ := hcut
        exact ⟨d, q ++ [ch], rfl, hq⟩
    · rename_i hcond
      cases T1 with
      | nil =>
        simp at h
        obtain ⟨rfl, _⟩ := h
        exact ⟨u, mid, [], tokAt_of hsrc hc hs he hw hb hcut, rfl, by simp [styledChars_nil]⟩
      | cons a T1 =>
        simp only [List.cons_append, List.cons.injEq] at h
        obtain ⟨rfl, h⟩ := h
        have hlen : byteLen u + byteLen mid + ch.utf8Size = byteLen (u ++ mid) + byteLen [ch] := by simp [byteLen]
        rw [hlen] at h
        have hne : mid ≠ [] := by obtain ⟨d, q, rfl, _⟩ := hcut; simp
        have hnext : TokCut cw ws max c (u ++ mid) ch := by
          by_cases hk : t.blank = (ws ch && !c.flags.code)
          · refine TokCut.long u mid ch hne (fun x hx => (hb x hx).trans hk) ?_
            have : ¬ t.width + cw ch ≤ max := fun h' => hcond ⟨hk, h'⟩
            simp [textWidth, ← hw]; omega
          · obtain ⟨m', x, hm⟩ : ∃ m' x, mid = m' ++ [x] := ⟨mid.dropLast, mid.getLast hne, (List.dropLast_concat_getLast hne).symm⟩
            have hx := hb x (by simp [hm])
            rw [hm, ← List.append_assoc]
            exact TokCut.kind _ x ch (by rw [hx]; exact hk)
        obtain ⟨u1, p, ps, h1, h2, h3⟩ := ih (u ++ mid) [ch] ⟨c, ws ch && !c.flags.code, cw ch, byteLen u + byteLen mid, byteLen (u ++ mid) + byteLen [ch]⟩
          (by simp [hsrc]) rfl (by simp) rfl (by simp [textWidth]) (by simp [blankBit]) ⟨ch, [], rfl, hnext⟩ T1 t1 T2 h
        refine ⟨u1, p, { c with src := mid } :: ps, h1, ?_, ?_⟩
        · have := (tokAt_of hsrc hc hs he hw hb hcut).compound
          simp [this, h2]
        · rw [← h3]; simp [styledChars_cons]

theorem tokenizeLoop_none_cut (cw : Char → Nat) (ws : Char → Bool) (c : Compound) (max : Nat) (T1 : List Token) (t1 : Token) (T2 : List Token)
    (h : tokenizeLoop cw ws c max 0 none c.src = T1 ++ t1 :: T2) :
    ∃ u1 p ps, TokAt cw ws max c u1 t1 p ∧ T1.mapM Token.toCompound = some ps ∧
        styledChars ps = u1.map (fun ch => (ch, c.flags)) := by
  cases hs : c.src with
  | nil => rw [hs] at h; simp [tokenizeLoop] at h
  | cons ch rest =>
    rw [hs] at h
    simp only [tokenizeLoop] at h
    have hlen : 0 + ch.utf8Size = byteLen ([] : Text) + byteLen [ch] := by simp [byteLen]
    rw [hlen] at h
    have := tokenizeLoop_cut cw ws c max rest [] [ch] _ (by simp [hs]) rfl rfl (by simp) (by simp [textWidth]) (by simp [blankBit])
      ⟨ch, [], rfl, TokCut.start ch⟩ T1 t1 T2 h
    simpa using this

/-- Where the tokens of compounds are. -/
theorem tokenize_cut (cw : Char → Nat) (ws : Char → Bool) (max : Nat) : ∀ (cs : List Compound) (T1 : List Token) (t1 : Token) (T2 : List Token),
    tokenize cw ws cs max = T1 ++ t1 :: T2 →
    ∃ pre c post u p ps, cs = pre ++ c :: post ∧ TokAt cw ws max c u t1 p ∧ T1.mapM Token.toCompound = some ps ∧
      styledChars ps = styledChars pre ++ u.map (fun ch => (ch, c.flags)) := by
  intro cs
  induction cs with
  | nil => intro T1 t1 T2 h; simp [tokenize] at h
  | cons c cs ih =>
    intro T1 t1 T2 h
    have e : tokenize cw ws (c :: cs) max = tokenizeLoop cw ws c max 0 none c.src ++ tokenize cw ws cs max := by simp [tokenize]
    rw [e] at h
    rcases List.append_eq_append_iff.1 h with ⟨a', h1, h2⟩ | ⟨b', h1, h2⟩
    · obtain ⟨pre, c', post, u, p, ps, g1, g2, g3, g4⟩ := ih a' t1 T2 h2
      obtain ⟨qs, k1, k2, _⟩ := (tokenizeLoop_ok cw ws c max c.src).1 [] rfl
      simp only [byteLen] at k1
      refine ⟨c :: pre, c', post, u, p, qs ++ ps, by simp [g1], g2, ?_, ?_⟩
      · rw [h1, List.mapM_append, k1, g3]; rfl
      · rw [styledChars_append, k2, g4, styledChars_cons]; simp
    · cases b' with
      | nil =>
        simp at h1 h2
        obtain ⟨pre, c', post, u, p, ps, g1, g2, g3, g4⟩ := ih [] t1 T2 h2.symm
        obtain ⟨qs, k1, k2, _⟩ := (tokenizeLoop_ok cw ws c max c.src).1 [] rfl
        simp only [byteLen] at k1
        simp at g3; subst g3
        refine ⟨c :: pre, c', post, u, p, qs, by simp [g1], g2, ?_, ?_⟩
        · rw [← h1, k1]
        · rw [k2, styledChars_cons, List.append_assoc, ← g4]; simp [styledChars_nil]
      | cons b b' =>
        simp only [List.cons_append, List.cons.injEq] at h2
        obtain ⟨rfl, h2⟩ := h2
        obtain ⟨u, p, ps, g1, g2, g3⟩ := tokenizeLoop_none_cut cw ws c max T1 t1 b' h1
        exact ⟨[], c, cs, u, p, ps, rfl, g1, g2, by simpa [styledChars_nil] using g3⟩

/-- The first line starts with what is already in it. -/
theorem wrapTokens_head (cw : Char → Nat) (skin : Skin) (width : Nat) :
    ∀ (ts : List Token) (dst : FmtComposite) (ls : List FmtComposite), wrapTokens cw skin width dst ts = some ls →
    ∀ b after, ls = b :: after → ∃ r, b.compounds = dst.compounds ++ r := by
  intro ts
  induction ts with
  | nil =>
    intro dst ls h b after hls
    simp only [wrapTokens, Option.some.injEq] at h
    subst h
    simp only [List.cons.injEq] at hls
    exact ⟨[], by simp [hls.1]⟩
  | cons t ts ih =>
    intro dst ls h b after hls
    simp only [wrapTokens] at h
    split at h
    · split at h
      · cases hc : t.toCompound with
        | none => rw [hc] at h; simp at h
        | some c =>
          rw [hc] at h
          simp only [Option.bind_eq_bind, Option.bind_some] at h
          cases hr : wrapTokens cw skin width ((followUpComposite skin dst).addCompound cw c) ts with
          | none => rw [hr] at h; simp at h
          | some rest =>
            rw [hr] at h
            simp only [Option.bind_some, Option.some.injEq] at h
            subst h
            simp only [List.cons.injEq] at hls
            exact ⟨[], by simp [hls.1]⟩
      · exact ih _ _ h b after hls
    · cases hc : t.toCompound with
      | none => rw [hc] at h; simp at h
      | some c =>
        rw [hc] at h
        simp only [Option.bind_eq_bind, Option.bind_some] at h
        obtain ⟨r, hr⟩ := ih _ _ h b after hls
        exact ⟨c :: r, by simpa [FmtComposite.addCompound] using hr⟩

/-- Each break between the lines made of tokens is before a token which isn't blank and doesn't fit. -/
theorem wrapTokens_breaks (cw : Char → Nat) (ws : Char → Bool) (skin : Skin) (width max : Nat) :
    ∀ (ts : List Token) (dst : FmtComposite) (ls : List FmtComposite),
    wrapTokens cw skin width dst ts = some ls → (∀ t ∈ ts, ∃ c, ∃ p, IsTok cw ws max c t p) →
    ∀ before a b after, ls = before ++ a :: b :: after →
    ∃ T1 t T2 ps q rest, ts = T1 ++ t :: T2 ∧ T1.mapM Token.toCompound = some ps ∧ t.blank = false ∧
      t.toCompound = some q ∧ b.compounds = q :: rest ∧ width < a.visibleLength + t.width ∧
      ink ws (linesChars (before ++ [a])) = ink ws (styledChars dst.compounds ++ styledChars ps) := by
  intro ts
  induction ts with
  | nil =>
    intro dst ls h _ before a b after hls
    simp only [wrapTokens, Option.some.injEq] at h
    subst h
    cases before with
    | nil => simp at hls
    | cons x xs => cases xs <;> simp at hls
  | cons t ts ih =>
    intro dst ls h ht before a b after hls
    obtain ⟨c, p, hp⟩ := ht t (by simp)
    have hc := hp.toCompound
    have ht' : ∀ t ∈ ts, ∃ c, ∃ p, IsTok cw ws max c t p := fun t' h' => ht t' (by simp [h'])
    simp only [wrapTokens] at h
    split at h
    · rename_i hover
      split at h
      · rename_i hb
        rw [hc] at h
        simp only [Option.bind_eq_bind, Option.bind_some] at h
        cases hr : wrapTokens cw skin width ((followUpComposite skin dst).addCompound cw { c with src := p }) ts with
        | none => rw [hr] at h; simp at h
        | some rest =>
          rw [hr] at h
          simp only [Option.bind_some, Option.some.injEq] at h
          subst h
          cases before with
          | nil =>
            simp only [List.nil_append, List.cons.injEq] at hls
            obtain ⟨rfl, hls⟩ := hls
            obtain ⟨r, hr'⟩ := wrapTokens_head cw skin width ts _ _ hr b after hls
            refine ⟨[], t, ts, [], { c with src := p }, r, rfl, rfl, hb, hc, ?_, hover, ?_⟩
            · simpa [FmtComposite.addCompound, followUpComposite] using hr'
            · simp [linesChars, styledChars_nil]
          | cons d before =>
            simp only [List.cons_append, List.cons.injEq] at hls
            obtain ⟨rfl, hls⟩ := hls
            obtain ⟨T1, t', T2, ps, q, r, h1, h2, h3, h4, h5, h6, h7⟩ := ih _ _ hr ht' before a b after hls
            refine ⟨t :: T1, t', T2, { c with src := p } :: ps, q, r, by simp [h1], by simp [hc, h2], h3, h4, h5, h6, ?_⟩
            have : linesChars (dst :: before ++ [a]) = styledChars dst.compounds ++ linesChars (before ++ [a]) := by simp [linesChars]
            rw [this]
            simp only [ink, List.filter_append] at h7 ⊢
            rw [h7]
            simp [FmtComposite.addCompound, followUpComposite, styledChars_cons, styledChars_nil]
      · rename_i hb
        have hb : t.blank = true := by simpa using hb
        have hw := (hp.blank hb).2
        obtain ⟨T1, t', T2, ps, q, r, h1, h2, h3, h4, h5, h6, h7⟩ := ih _ _ h ht' before a b after hls
        refine ⟨t :: T1, t', T2, { c with src := p } :: ps, q, r, by simp [h1], by simp [hc, h2], h3, h4, h5, h6, ?_⟩
        rw [h7]
        simp only [ink, List.filter_append, styledChars_cons]
        have : List.filter (fun q : Char × Flags => !ws q.1) (p.map fun ch => (ch, c.flags)) = [] := by
          rw [List.filter_eq_nil_iff]
          intro q hq
          simp only [List.mem_map] at hq
          obtain ⟨ch, hch, rfl⟩ := hq
          simp [hw ch hch]
        simp [this]
    · rw [hc] at h
      simp only [Option.bind_eq_bind, Option.bind_some] at h
      obtain ⟨T1, t', T2, ps, q, r, h1, h2, h3, h4, h5, h6, h7⟩ := ih _ _ h ht' before a b after hls
      refine ⟨t :: T1, t', T2, { c with src := p } :: ps, q, r, by simp [h1], by simp [hc, h2], h3, h4, h5, h6, ?_⟩
      rw [h7]
      simp [FmtComposite.addCompound, styledChars_cons, styledChars_append, styledChars_nil]

end Verif

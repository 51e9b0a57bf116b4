import Verif.Lemmas.ParseTokens
import Verif.Props.Style
/-! C39: reading what is written for styles. -/
namespace Verif
open Spec

theorem isWord_visible {k : Classes} (hk : RegexClasses k) (w : Text) (hne : w ≠ [])
    (h : ∀ c ∈ w, 33 ≤ c.toNat ∧ c.toNat < 127 ∧ c ≠ '(' ∧ c ≠ ')') : IsWord k w := by
  refine ⟨hne, fun c hc => ?_⟩
  obtain ⟨h1, h2, h3, h4⟩ := h c hc
  simp [Classes.sep, hk.visible c h1 h2, h3, h4]

theorem digit_arg {k : Classes} (hk : RegexClasses k) (c : Char) (h : 48 ≤ c.toNat ∧ c.toNat ≤ 57) : k.arg c = true := by
  simp [Classes.arg, hk.word c (by omega), h]

theorem isWord_decimal {k : Classes} (hk : RegexClasses k) (n : Nat) : IsWord k (decimal n) := by
  apply isWord_visible hk _ (decimal_ne n)
  intro c hc
  have h := decimal_digits n c hc
  refine ⟨by omega, by omega, ?_, ?_⟩
  · rintro rfl; revert h; decide
  · rintro rfl; revert h; decide

/-- Tokenization of a written token followed by others. -/
theorem token_step {k : Classes} (hk : RegexClasses k) (t : StyleToken) (ht : IsToken t) (rest : Text) (hr : TokenEnd rest) :
    (rereadToken k t = none ∧ styleWords k (t.write ++ rest) = styleWords k rest) ∨
    (∃ t', rereadToken k t = some t' ∧ styleWords k (t.write ++ rest) = t.write :: styleWords k rest ∧ parseStyleToken k t.write = .ok t') := by
  have word : ∀ w t', t.write = w → IsWord k w → rereadToken k t = some t' → parseStyleToken k w = .ok t' →
      ∃ t', rereadToken k t = some t' ∧ styleWords k (t.write ++ rest) = t.write :: styleWords k rest ∧ parseStyleToken k t.write = .ok t' := by
    intro w t' e hw h1 h2
    subst e
    exact ⟨t', h1, styleWords_word k hk _ _ hw hr, h2⟩
  cases t with
  | char c =>
    by_cases hs : k.ws c = true ∨ c = '(' ∨ c = ')'
    · left
      refine ⟨by simp only [rereadToken, if_pos hs], ?_⟩
      exact styleWords_sep k c rest (by simpa [Classes.sep, or_assoc] using hs)
    · right
      have hw : IsWord k [c] := ⟨by simp, by
        intro d hd
        rw [List.mem_singleton] at hd; subst hd
        cases hsep : k.sep d
        · rfl
        · exact absurd (by simpa [Classes.sep, or_assoc] using hsep) hs⟩
      by_cases hd : 48 ≤ c.toNat ∧ c.toNat ≤ 57
      · exact word [c] (.dimension (c.toNat - 48)) rfl hw (by simp only [rereadToken, if_neg hs, if_pos hd]) (by rw [parse_char_token, if_pos hd])
      · exact word [c] (.char c) rfl hw (by simp only [rereadToken, if_neg hs, if_neg hd]) (by rw [parse_char_token, if_neg hd])
  | color c =>
    cases hrr : reread c with
    | none =>
      left
      have : c = .reset := by cases c <;> simp [reread] at hrr; rfl
      subst this
      exact ⟨rfl, rfl⟩
    | some c' =>
      right
      have hp := parse_color_token hk c c' ht hrr
      have hrt : rereadToken k (.color c) = some (.color c') := by simp only [rereadToken, hrr, Option.map_some]
      cases c with
      | reset => cases hrr
      | rgb r g b =>
        refine ⟨.color c', hrt, ?_, hp⟩
        have e : (StyleToken.color (.rgb r g b)).write = ['r', 'g', 'b'] ++ '(' :: (decimal r ++ ',' :: ' ' :: (decimal g ++ ',' :: ' ' :: decimal b)) ++ [')'] := by
          unfold StyleToken.write writeColor
          dsimp only
          rw [rgb_text]; simp
        rw [e]
        apply styleWords_call k hk
        · apply isWord_visible hk _ (by simp); decide
        · simp
        · intro c hc
          simp only [List.mem_append, List.mem_cons] at hc
          have comma : k.arg ',' = true := by simp [Classes.arg]
          have space : k.arg ' ' = true := by simp [Classes.arg, hk.space]
          rcases hc with hc | rfl | rfl | hc | rfl | rfl | hc
          · exact digit_arg hk c (decimal_digits _ c hc)
          · exact comma
          · exact space
          · exact digit_arg hk c (decimal_digits _ c hc)
          · exact comma
          · exact space
          · exact digit_arg hk c (decimal_digits _ c hc)
      | ansi v =>
        refine ⟨.color c', hrt, ?_, hp⟩
        have e : (StyleToken.color (.ansi v)).write = ['a', 'n', 's', 'i'] ++ '(' :: decimal v ++ [')'] := rfl
        rw [e]
        apply styleWords_call k hk
        · apply isWord_visible hk _ (by simp); decide
        · exact decimal_ne v
        · intro c hc; exact digit_arg hk c (decimal_digits _ c hc)
      | _ => exact word _ _ rfl (isWord_visible hk _ (by decide) (by decide)) hrt hp
  | «attribute» a =>
    right
    refine word _ _ rfl (isWord_visible hk _ ?_ ?_) rfl (parse_attribute_token k a ht)
    · rcases ht with h | h | h | h | h | h | h | h <;> subst h <;> decide
    · rcases ht with h | h | h | h | h | h | h | h <;> subst h <;> decide
  | align a =>
    cases a with
    | unspecified => left; exact ⟨rfl, rfl⟩
    | _ => right; exact word _ _ rfl (isWord_visible hk _ (by decide) (by decide)) rfl rfl
  | dimension n => right; exact word _ _ rfl (isWord_decimal hk n) rfl (parse_dimension k n ht)
  | none => right; exact word _ _ rfl (isWord_visible hk _ (by decide) (by decide)) rfl rfl

/-- What follows a first token. -/
def moreTokens (ts : List StyleToken) : Text := (ts.map fun t => ' ' :: t.write).flatten

theorem pushTokens (ts : List StyleToken) : ∀ s, s ≠ [] → ts.foldl pushToken s = s ++ moreTokens ts := by
  induction ts with
  | nil => intro s _; simp [moreTokens]
  | cons t ts ih =>
    intro s hs
    rw [List.foldl_cons, ih _ (by simp [pushToken, hs])]
    simp [pushToken, hs, moreTokens]

theorem moreTokens_end (ts : List StyleToken) : TokenEnd (moreTokens ts) := by
  cases ts with
  | nil => exact Or.inl rfl
  | cons t ts => exact Or.inr ⟨_, rfl⟩

theorem parseTokens_more {k : Classes} (hk : RegexClasses k) (ts : List StyleToken) (h : ∀ t ∈ ts, IsToken t) :
    parseTokens k (styleWords k (moreTokens ts)) = .ok (ts.filterMap (rereadToken k)) := by
  induction ts with
  | nil => rfl
  | cons t ts ih =>
    have e : moreTokens (t :: ts) = ' ' :: (t.write ++ moreTokens ts) := rfl
    have ih' := ih (fun x hx => h x (by simp [hx]))
    rw [e, styleWords_sep k _ _ (by simp [Classes.sep, hk.space])]
    rcases token_step hk t (h t (by simp)) _ (moreTokens_end ts) with ⟨h1, h2⟩ | ⟨t', h1, h2, h3⟩
    · rw [h2, ih', List.filterMap_cons_none h1]
    · rw [h2, List.filterMap_cons_some h1]
      simp only [parseTokens, h3, ih']
      rfl

namespace Props

/-- Reading what is written for tokens gives the tokens read back for each of them, in order. -/
theorem C39_tokens {k : Classes} (hk : RegexClasses k) (ts : List StyleToken) (h : ∀ t ∈ ts, IsToken t) :
    parseStyleTokens k (writeTokens ts) = .ok (ts.filterMap (rereadToken k)) := by
  unfold parseStyleTokens writeTokens
  induction ts with
  | nil => rfl
  | cons t ts ih =>
    rw [List.foldl_cons]
    have e : pushToken [] t = t.write := by simp [pushToken]
    rw [e]
    by_cases hw : t.write = []
    · rw [hw]
      have hn : rereadToken k t = none := by
        rcases token_step hk t (h t (by simp)) [] (Or.inl rfl) with ⟨h1, _⟩ | ⟨t', _, h2, _⟩
        · exact h1
        · rw [hw] at h2; cases h2
      rw [List.filterMap_cons_none hn]
      exact ih (fun x hx => h x (by simp [hx]))
    · rw [pushTokens ts _ hw]
      rcases token_step hk t (h t (by simp)) _ (moreTokens_end ts) with ⟨h1, h2⟩ | ⟨t', h1, h2, h3⟩
      · rw [h2, List.filterMap_cons_none h1]
        exact parseTokens_more hk ts (fun x hx => h x (by simp [hx]))
      · rw [h2, List.filterMap_cons_some h1]
        simp only [parseTokens, h3, parseTokens_more hk ts (fun x hx => h x (by simp [hx]))]
        rfl

/-- The attributes which are written and read. -/
theorem attrs_roundtrip (s : Attrs) : ∀ (st : CompoundStyle × Bool),
    (((writtenAttributes.filter (Attrs.has s)).map StyleToken.attribute).foldl CompoundStyle.addToken st) =
      ({ st.1 with attrs := st.1.attrs ||| (s &&& writtenBits) }, st.2) := by
  intro st
  have key : ∀ (l : List Attr) (st : CompoundStyle × Bool),
      ((l.map StyleToken.attribute).foldl CompoundStyle.addToken st) = ({ st.1 with attrs := l.foldl Attrs.set st.1.attrs }, st.2) := by
    intro l
    induction l with
    | nil => intro st; rfl
    | cons a l ih => intro st; rw [List.map_cons, List.foldl_cons, ih]; rfl
  rw [key]
  suffices h : ∀ t : Attrs, (writtenAttributes.filter (Attrs.has s)).foldl Attrs.set t = t ||| (s &&& writtenBits) by rw [h]
  intro t
  have one : ∀ (a : Attr), (if Attrs.has s a then a.bytes else 0#32) = s &&& a.bytes := by
    intro a
    rw [Attrs.has_eq, Attr.bytes, BitVec.and_twoPow]
  have fold : ∀ (l : List Attr) (t : Attrs), (l.filter (Attrs.has s)).foldl Attrs.set t = l.foldl (fun t a => t ||| (s &&& a.bytes)) t := by
    intro l
    induction l with
    | nil => intro t; rfl
    | cons a l ih =>
      intro t
      rw [List.foldl_cons, ← one a]
      by_cases h : Attrs.has s a = true
      · rw [List.filter_cons_of_pos h, List.foldl_cons, ih, if_pos h]; rfl
      · rw [List.filter_cons_of_neg h, ih, if_neg h, BitVec.or_zero]
  rw [fold]
  simp only [writtenAttributes, List.foldl_cons, List.foldl_nil, writtenBits]
  apply BitVec.eq_of_getElem_eq
  intro i hi
  simp only [BitVec.getElem_or, BitVec.getElem_and]
  generalize s[i] = x
  cases x <;> simp [Bool.or_assoc]

theorem style_tokens_ok (s : CompoundStyle) (hfg : ∀ c, s.fg = some c → IsColor c) (hbg : ∀ c, s.bg = some c → IsColor c) :
    ∀ t ∈ s.tokens, IsToken t := by
  intro t ht
  simp only [CompoundStyle.tokens, List.mem_append, List.mem_map, List.mem_filter] at ht
  rcases ht with (ht | ht) | ⟨a, ⟨ha, _⟩, rfl⟩
  · cases h : s.fg with
    | none =>
      rw [h] at ht
      dsimp only at ht
      split at ht
      · rw [List.mem_singleton] at ht; subst ht; trivial
      · cases ht
    | some c => rw [h] at ht; rw [List.mem_singleton] at ht; subst ht; exact hfg c h
  · cases h : s.bg with
    | none => rw [h] at ht; cases ht
    | some c => rw [h] at ht; rw [List.mem_singleton] at ht; subst ht; exact hbg c h
  · simp only [writtenAttributes, List.mem_cons, List.not_mem_nil, or_false] at ha
    exact ha

theorem reread_reset (c : Color) : reread c = none ↔ c = .reset := by
  cases c <;> simp [reread]

theorem filterMap_attrs (k : Classes) (l : List Attr) : (l.map StyleToken.attribute).filterMap (rereadToken k) = l.map StyleToken.attribute := by
  induction l with
  | nil => rfl
  | cons a l ih => rw [List.map_cons, List.filterMap_cons_some (f := rereadToken k) (b := StyleToken.attribute a) rfl, ih]

/-- The colors and attributes read from the tokens read back for a style, after any tokens which aren't of use for a style. -/
theorem style_ofTokens (k : Classes) (s : CompoundStyle) :
    (s.tokens.filterMap (rereadToken k)).foldl CompoundStyle.addToken ({}, false) =
      (rereadStyle s, ((s.tokens.filterMap (rereadToken k)).foldl CompoundStyle.addToken ({}, false)).2) := by
  unfold CompoundStyle.tokens
  rw [List.filterMap_append, filterMap_attrs, List.foldl_append]
  have : (List.filter s.hasAttr writtenAttributes) = List.filter (Attrs.has s.attrs) writtenAttributes := rfl
  rw [this, attrs_roundtrip]
  congr 1
  have hr0 : reread .reset = none := rfl
  have zero : ∀ x : Attrs, 0#32 ||| x = x := fun x => BitVec.zero_or
  unfold rereadStyle
  cases hf : s.fg with
  | none =>
    cases hb : s.bg with
    | none => simp [zero]
    | some b =>
      cases hrb : reread b <;>
        simp [rereadToken, hrb, CompoundStyle.addToken, CompoundStyle.setBg, zero]
  | some f =>
    by_cases hreset : f = .reset
    · subst hreset
      cases hb : s.bg with
      | none => simp [rereadToken, hr0, zero]
      | some b =>
        cases hrb : reread b <;>
          simp [rereadToken, hrb, hr0, CompoundStyle.addToken, CompoundStyle.setFg, zero]
    · cases hrf : reread f with
      | none => exact absurd ((reread_reset f).mp hrf) hreset
      | some f' =>
        cases hb : s.bg with
        | none => simp [rereadToken, hrf, hreset, CompoundStyle.addToken, CompoundStyle.setFg, zero]
        | some b =>
          cases hrb : reread b <;>
            simp [rereadToken, hrf, hrb, hreset, CompoundStyle.addToken, CompoundStyle.setFg, CompoundStyle.setBg, zero]

/-- Reading what is written for a compound style never fails, and gives the style read back for it, whatever the style. -/
theorem C39_compound_style {k : Classes} (hk : RegexClasses k) (s : CompoundStyle)
    (hfg : ∀ c, s.fg = some c → IsColor c) (hbg : ∀ c, s.bg = some c → IsColor c) :
    parseCompoundStyle k (writeTokens s.tokens) = .ok (rereadStyle s) := by
  unfold parseCompoundStyle CompoundStyle.ofTokens
  rw [C39_tokens hk _ (style_tokens_ok s hfg hbg)]
  simp only [bind, Except.bind]
  rw [style_ofTokens]

/-- Colors which are faithful are read back as they are, and conversely. -/
theorem C39_color (c : Color) (h : IsColor c) : Faithful c ↔ reread c = some c := by
  cases c <;> simp_all [Faithful, reread]

/-- Hence a style is the same once read exactly if it's faithful: no lost color, attribute or underline color. -/
theorem C39_compound_roundtrip {k : Classes} (hk : RegexClasses k) (s : CompoundStyle)
    (hfg : ∀ c, s.fg = some c → IsColor c) (hbg : ∀ c, s.bg = some c → IsColor c) :
    parseCompoundStyle k (writeTokens s.tokens) = .ok s ↔ FaithfulStyle s := by
  rw [C39_compound_style hk s hfg hbg]
  constructor
  · intro h
    have h : rereadStyle s = s := by injection h
    have h1 : (rereadStyle s).fg = s.fg := by rw [h]
    have h2 : (rereadStyle s).bg = s.bg := by rw [h]
    have h3 : (rereadStyle s).underline = s.underline := by rw [h]
    have h4 : (rereadStyle s).attrs = s.attrs := by rw [h]
    simp only [rereadStyle] at h1 h2 h3 h4
    have hnr : s.fg ≠ some .reset := by
      intro hr
      rw [if_pos hr, hr] at h1
      rw [if_pos hr] at h2
      rw [← h2] at h1
      cases h1
    rw [if_neg hnr] at h1 h2
    refine ⟨?_, ?_, h3.symm, h4⟩
    · intro c hc
      rw [hc] at h1
      exact (C39_color c (hfg c hc)).mpr h1
    · intro c hc
      rw [hc] at h2
      exact (C39_color c (hbg c hc)).mpr h2
  · intro h
    congr 1
    have hnr : s.fg ≠ some .reset := fun hr => (h.fg _ hr).2.1 rfl
    have e1 : s.fg.bind reread = s.fg := by
      cases hf : s.fg with
      | none => rfl
      | some c => exact (C39_color c (hfg c hf)).mp (h.fg c hf)
    have e2 : s.bg.bind reread = s.bg := by
      cases hf : s.bg with
      | none => rfl
      | some c => exact (C39_color c (hbg c hf)).mp (h.bg c hf)
    unfold rereadStyle
    rw [if_neg hnr, if_neg hnr, e1, e2, h.attrs, ← h.underline]

/-- Tokens without color, attribute nor none don't change a style. -/
theorem addToken_idle (l : List StyleToken) (h : ∀ t ∈ l, ∀ st, CompoundStyle.addToken st t = st) : ∀ st, l.foldl CompoundStyle.addToken st = st := by
  induction l with
  | nil => intro st; rfl
  | cons t l ih => intro st; rw [List.foldl_cons, h t (by simp)]; exact ih (fun x hx => h x (by simp [hx])) st

/-- The same for the alignment and margins. -/
theorem lineToken_idle (l : List StyleToken) (h : ∀ t ∈ l, ∀ st, LineStyle.addToken st t = st) : ∀ st, l.foldl LineStyle.addToken st = st := by
  induction l with
  | nil => intro st; rfl
  | cons t l ih => intro st; rw [List.foldl_cons, h t (by simp)]; exact ih (fun x hx => h x (by simp [hx])) st

theorem style_tokens_line (k : Classes) (s : CompoundStyle) : ∀ t ∈ s.tokens.filterMap (rereadToken k), ∀ st, LineStyle.addToken st t = st := by
  intro t ht st
  obtain ⟨t0, h0, h1⟩ := List.mem_filterMap.mp ht
  simp only [CompoundStyle.tokens, List.mem_append, List.mem_map, List.mem_filter] at h0
  have hcol : ∀ c, rereadToken k (.color c) = some t → LineStyle.addToken st t = st := by
    intro c h
    simp only [rereadToken] at h
    cases hr : reread c with
    | none => rw [hr] at h; cases h
    | some c' => rw [hr] at h; injection h with h; subst h; rcases st with ⟨_, _ | _, _⟩ <;> rfl
  rcases h0 with (h0 | h0) | ⟨a, _, rfl⟩
  · cases h : s.fg with
    | none =>
      rw [h] at h0
      dsimp only at h0
      split at h0
      · rw [List.mem_singleton] at h0; subst h0; injection h1 with h1; subst h1; rcases st with ⟨_, _ | _, _⟩ <;> rfl
      · cases h0
    | some c => rw [h] at h0; rw [List.mem_singleton] at h0; subst h0; exact hcol c h1
  · cases h : s.bg with
    | none => rw [h] at h0; cases h0
    | some c => rw [h] at h0; rw [List.mem_singleton] at h0; subst h0; exact hcol c h1
  · injection h1 with h1; subst h1; rcases st with ⟨_, _ | _, _⟩ <;> rfl

/-- Reading what is written for a line style never fails, and gives the style read back, with the same alignment and the same margins up to 65535. -/
theorem C39_line_style {k : Classes} (hk : RegexClasses k) (ls : LineStyle)
    (hfg : ∀ c, ls.style.fg = some c → IsColor c) (hbg : ∀ c, ls.style.bg = some c → IsColor c) :
    parseLineStyle k (writeTokens ls.tokens) = .ok (rereadLine ls) := by
  have hm : ∀ n : Nat, min n 65536 % 65536 = if n < 65536 then n else 0 := by intro n; split <;> omega
  have hok : ∀ t ∈ ls.tokens, IsToken t := by
    intro t ht
    simp only [LineStyle.tokens, List.mem_append, List.mem_singleton] at ht
    rcases ht with (ht | rfl) | ht
    · exact style_tokens_ok _ hfg hbg t ht
    · trivial
    · split at ht
      · simp only [List.mem_cons, List.not_mem_nil, or_false] at ht
        rcases ht with rfl | rfl <;> (show _ % 65536 < 65536; omega)
      · cases ht
  unfold parseLineStyle
  rw [C39_tokens hk _ hok]
  simp only [bind, Except.bind]
  congr 1
  unfold LineStyle.ofTokens CompoundStyle.ofTokens LineStyle.tokens
  simp only [List.filterMap_append, List.foldl_append]
  rw [style_ofTokens, lineToken_idle _ (style_tokens_line k ls.style)]
  rw [addToken_idle ([StyleToken.align ls.align].filterMap (rereadToken k)), addToken_idle]
  · have ha : ([StyleToken.align ls.align].filterMap (rereadToken k)).foldl LineStyle.addToken (Alignment.unspecified, none, none) =
        (ls.align, none, none) := by
      cases ls.align <;> rfl
    rw [ha]
    unfold rereadLine
    by_cases h : ls.leftMargin > 0 ∨ ls.rightMargin > 0
    · rw [if_pos h]
      simp only [List.filterMap_cons, rereadToken, List.filterMap_nil, List.foldl_cons, List.foldl_nil, LineStyle.addToken, Option.getD_some, hm]
    · rw [if_neg h]
      have h1 : ls.leftMargin = 0 := by omega
      have h2 : ls.rightMargin = 0 := by omega
      simp [h1, h2]
  · intro t ht st
    obtain ⟨t0, h0, h1⟩ := List.mem_filterMap.mp ht
    split at h0
    · simp only [List.mem_cons, List.not_mem_nil, or_false] at h0
      rcases h0 with rfl | rfl <;> (injection h1 with h1; subst h1; rfl)
    · cases h0
  · intro t ht st
    obtain ⟨t0, h0, h1⟩ := List.mem_filterMap.mp ht
    rw [List.mem_singleton] at h0
    subst h0
    cases hal : ls.align <;> rw [hal] at h1 <;> first | (cases h1; done) | (injection h1 with h1; subst h1; rfl)

theorem firstChar_none (l : List StyleToken) (h : ∀ t ∈ l, ∀ c, t ≠ .char c) : firstChar l = none := by
  induction l with
  | nil => rfl
  | cons t l ih =>
    have := h t (by simp)
    cases t <;> first | exact absurd rfl (this _) | exact ih (fun x hx => h x (by simp [hx]))

theorem style_tokens_nochar (s : CompoundStyle) : ∀ t ∈ s.tokens, ∀ c, t ≠ .char c := by
  intro t ht c hc
  subst hc
  simp only [CompoundStyle.tokens, List.mem_append, List.mem_map, List.mem_filter] at ht
  rcases ht with (ht | ht) | ⟨a, _, h⟩
  · cases h : s.fg with
    | none => rw [h] at ht; dsimp only at ht; split at ht <;> simp at ht
    | some c => rw [h] at ht; simp at ht
  · cases h : s.bg with
    | none => rw [h] at ht; cases ht
    | some c => rw [h] at ht; simp at ht
  · cases h

/-- Reading what is written for a styled char never fails, and gives the character (or the default one if it can't be read) in the style read back. -/
theorem C39_styled_char {k : Classes} (hk : RegexClasses k) (sc : StyledChar) (default : Char)
    (hfg : ∀ c, sc.style.fg = some c → IsColor c) (hbg : ∀ c, sc.style.bg = some c → IsColor c) :
    (IsReadable k sc.char → parseStyledChar k (writeTokens sc.tokens) default = .ok (StyledChar.new (rereadStyle sc.style) sc.char)) ∧
    (¬ IsReadable k sc.char → parseStyledChar k (writeTokens sc.tokens) default = .ok (StyledChar.new (rereadStyle sc.style) default)) := by
  have hok : ∀ t ∈ sc.tokens, IsToken t := by
    intro t ht
    rcases List.mem_cons.mp ht with rfl | ht
    · trivial
    · exact style_tokens_ok _ hfg hbg t ht
  have hfirst : firstChar (sc.style.tokens.filterMap (rereadToken k)) = none := by
    apply firstChar_none
    intro t ht c hc
    obtain ⟨t0, h0, h1⟩ := List.mem_filterMap.mp ht
    subst hc
    have := style_tokens_nochar sc.style t0 h0
    cases t0 <;> simp_all [rereadToken]
    rename_i a; cases a <;> simp at h1
  have hs := style_ofTokens k sc.style
  constructor
  · rintro ⟨h1, h2, h3, h4⟩
    unfold parseStyledChar
    rw [C39_tokens hk _ hok]
    have e : sc.tokens.filterMap (rereadToken k) = .char sc.char :: sc.style.tokens.filterMap (rereadToken k) := by
      unfold StyledChar.tokens
      exact List.filterMap_cons_some (by simp only [rereadToken]; rw [if_neg (by simp [h1, h2, h3]), if_neg h4])
    rw [e]
    simp only [bind, Except.bind, firstChar, CompoundStyle.ofTokens, List.foldl_cons, Option.getD_some]
    rw [show CompoundStyle.addToken (({} : CompoundStyle), false) (.char sc.char) = ({}, false) from rfl, hs]
  · intro hnr
    unfold parseStyledChar
    rw [C39_tokens hk _ hok]
    have e : sc.tokens.filterMap (rereadToken k) = sc.style.tokens.filterMap (rereadToken k) ∨
        ∃ n, sc.tokens.filterMap (rereadToken k) = .dimension n :: sc.style.tokens.filterMap (rereadToken k) := by
      unfold StyledChar.tokens
      by_cases h : k.ws sc.char = true ∨ sc.char = '(' ∨ sc.char = ')'
      · left; exact List.filterMap_cons_none (by simp only [rereadToken]; rw [if_pos h])
      · right
        have hd : 48 ≤ sc.char.toNat ∧ sc.char.toNat ≤ 57 := by
          apply Classical.byContradiction
          intro hd
          apply hnr
          refine ⟨?_, fun e => h (Or.inr (Or.inl e)), fun e => h (Or.inr (Or.inr e)), hd⟩
          cases hw : k.ws sc.char
          · rfl
          · exact absurd (Or.inl hw) h
        exact ⟨_, List.filterMap_cons_some (by simp only [rereadToken]; rw [if_neg h, if_pos hd])⟩
    rcases e with e | ⟨n, e⟩
    · rw [e]
      simp only [bind, Except.bind, hfirst, CompoundStyle.ofTokens, Option.getD_none]
      rw [hs]
    · rw [e]
      simp only [bind, Except.bind, firstChar, hfirst, CompoundStyle.ofTokens, List.foldl_cons, Option.getD_none]
      rw [show CompoundStyle.addToken (({} : CompoundStyle), false) (.dimension n) = ({}, false) from rfl, hs]

/-- The usual classes, for examples: only ASCII. -/
def asciiClasses : Classes where
  ws := fun c => c == ' ' || (decide (9 ≤ c.toNat) && decide (c.toNat ≤ 13))
  wd := fun c => decide ((48 ≤ c.toNat ∧ c.toNat ≤ 57) ∨ (65 ≤ c.toNat ∧ c.toNat ≤ 90) ∨ (97 ≤ c.toNat ∧ c.toNat ≤ 122) ∨ c = '_')
  dg := fun c => decide (48 ≤ c.toNat ∧ c.toNat ≤ 57)

theorem asciiClasses_ok : RegexClasses asciiClasses where
  space := by decide
  visible := by
    intro c h1 h2
    have : c ≠ ' ' := by rintro rfl; revert h1; decide
    simp [asciiClasses, this]; omega
  digit := fun _ _ => rfl
  word := fun _ _ => rfl

/-- A faithful style, its writing, and its reading. -/
example : let s : CompoundStyle := { fg := some (.rgb 51 0 158), bg := some .darkRed, attrs := Attrs.set (Attrs.set 0#32 .bold) .overLined }
    FaithfulStyle s ∧ writeTokens s.tokens = "rgb(51, 0, 158) DarkRed Bold OverLined".toList ∧
    (parseCompoundStyle asciiClasses "rgb(51, 0, 158) DarkRed Bold OverLined".toList).toOption = some s := by
  refine ⟨⟨?_, ?_, rfl, by decide⟩, by decide, by decide⟩
  · intro c h; injection h with h; subst h; simp [Faithful, IsColor]
  · intro c h; injection h with h; subst h; simp [Faithful, IsColor]

/-- A line style and a styled char. -/
example : writeTokens (LineStyle.tokens { style := { bg := some (.ansi 7) }, align := .center, leftMargin := 2, rightMargin := 0 }) = "none ansi(7) center 2 0".toList ∧
    (parseLineStyle asciiClasses "none ansi(7) center 2 0".toList).toOption =
      some { style := { bg := some (.ansi 7) }, align := .center, leftMargin := 2, rightMargin := 0 } ∧
    (parseStyledChar asciiClasses "| Yellow".toList '*').toOption = some (StyledChar.fromFgChar .yellow '|') := by decide

/-- Some dark colors are lightened, and the `Reset` foreground is replaced by the background. -/
theorem C39_dark_counterexample :
    (parseCompoundStyle asciiClasses (writeTokens (CompoundStyle.withFg .darkBlue).tokens)).toOption = some (CompoundStyle.withFg .blue) ∧
    (parseCompoundStyle asciiClasses (writeTokens (CompoundStyle.withFgBg .reset .red).tokens)).toOption = some (CompoundStyle.withFg .red) := by decide

/-- An attribute which isn't in the list is lost. -/
theorem C39_blink_counterexample :
    (parseCompoundStyle asciiClasses (writeTokens (CompoundStyle.withAttr .slowBlink).tokens)).toOption = some {} := by decide

/-- A digit can't be a styled char. -/
theorem C39_digit_counterexample :
    (parseStyledChar asciiClasses (writeTokens (StyledChar.nude '7').tokens) '*').toOption = some (StyledChar.nude '*') := by decide

/-- A too large margin is lost. -/
theorem C39_margin_counterexample :
    (parseLineStyle asciiClasses (writeTokens (LineStyle.tokens { leftMargin := 65536 }))).toOption = some {} := by decide

/-- `write_style_tokens` writes a space before the first token, and none between the other ones: they can't be read. -/
theorem C39_write_style_tokens_counterexample :
    writeStyleTokens [.attribute .bold, .attribute .italic] = " BoldItalic".toList ∧
    (parseStyleTokens asciiClasses (writeStyleTokens [.attribute .bold, .attribute .italic])).toOption = some [.attribute .bold] := by decide

end Props
end Verif

import Verif.Spec.Serde
import Verif.Props.Parse
/-! Skins survive serialization (C40). -/
namespace Verif
open Spec

namespace Props

theorem readStyle_written {k : Classes} (hk : RegexClasses k) {s : CompoundStyle} (h : IsStyle s) :
    readStyle k (.str (writeTokens s.tokens)) = .ok (rereadStyle s) := by
  dsimp only [readStyle]
  rw [C39_compound_style hk s h.1 h.2]; rfl

theorem readLine_written {k : Classes} (hk : RegexClasses k) {ls : LineStyle} (h : IsStyle ls.style) :
    readLine k (.str (writeTokens ls.tokens)) = .ok (rereadLine ls) := by
  dsimp only [readLine]
  rw [C39_line_style hk ls h.1 h.2]; rfl

theorem readChar_written {k : Classes} (hk : RegexClasses k) {sc : StyledChar} (h : IsStyle sc.style) :
    readChar k (.str (writeTokens sc.tokens)) = .ok (rereadChar k sc) := by
  dsimp only [readChar, rereadChar]
  have := C39_styled_char hk sc '*' h.1 h.2
  by_cases hr : IsReadable k sc.char
  · rw [this.1 hr, if_pos hr]; rfl
  · rw [this.2 hr, if_neg hr]; rfl

theorem readLines_written {k : Classes} (hk : RegexClasses k) (l : List LineStyle) (h : ∀ ls ∈ l, IsStyle ls.style) :
    readLines k (l.map fun ls => writeTokens ls.tokens) = .ok (l.map rereadLine) := by
  induction l with
  | nil => rfl
  | cons ls l ih =>
    simp only [List.map_cons, readLines]
    rw [readLine_written hk (h ls (by simp)), ih (fun x hx => h x (by simp [hx]))]
    rfl

theorem readScrollbar_written {k : Classes} (hk : RegexClasses k) {sb : ScrollBarStyle} (h1 : IsStyle sb.track.style)
    (h2 : IsStyle sb.thumb.style) :
    (readScrollbar k (ScrollBarStyleDef.ofStyle sb).serialize).map ScrollBarStyleDef.toStyle = .ok (rereadScrollbar k sb) := by
  unfold ScrollBarStyleDef.ofStyle rereadScrollbar
  by_cases h : IsSimple sb
  · rw [if_pos h]
    rw [if_pos (show sb.track.char = sb.thumb.char ∧ sb.track.style.bg = none ∧ sb.thumb.style.bg = none from h)]
    simp only [ScrollBarStyleDef.serialize, readScrollbar]
    rw [readChar_written hk (sc := StyledChar.new (CompoundStyle.new sb.thumb.style.fg sb.track.style.fg 0#32) sb.track.char) ⟨h2.1, h1.1⟩]
    rfl
  · rw [if_neg h]
    rw [if_neg (show ¬ (sb.track.char = sb.thumb.char ∧ sb.track.style.bg = none ∧ sb.thumb.style.bg = none) from h)]
    simp only [ScrollBarStyleDef.serialize, readScrollbar]
    rw [show uniqueField [("track", writeTokens sb.track.tokens), ("thumb", writeTokens sb.thumb.tokens)] "track" = .ok (writeTokens sb.track.tokens) from rfl,
      show uniqueField [("track", writeTokens sb.track.tokens), ("thumb", writeTokens sb.thumb.tokens)] "thumb" = .ok (writeTokens sb.thumb.tokens) from rfl]
    simp only [bind, Except.bind]
    rw [readChar_written hk h1, readChar_written hk h2]
    rfl

/-- The copy of a field of a skin. -/
def copyField (src : Skin) (key : String) (z : Skin) : Skin :=
  { bold := if key = "bold" then src.bold else z.bold
    italic := if key = "italic" then src.italic else z.italic
    strikeout := if key = "strikeout" then src.strikeout else z.strikeout
    inlineCode := if key = "inline_code" then src.inlineCode else z.inlineCode
    ellipsis := if key = "ellipsis" then src.ellipsis else z.ellipsis
    bullet := if key = "bullet" then src.bullet else z.bullet
    quoteMark := if key = "quote" then src.quoteMark else z.quoteMark
    horizontalRule := if key = "horizontal_rule" then src.horizontalRule else z.horizontalRule
    scrollbar := if key = "scrollbar" then src.scrollbar else z.scrollbar
    paragraph := if key = "paragraph" then src.paragraph else z.paragraph
    codeBlock := if key = "code_block" then src.codeBlock else z.codeBlock
    table := if key = "table" then src.table else z.table
    headers := if key = "headers" then src.headers else z.headers
    tableBorderChars := if key = "table_border_chars" then src.tableBorderChars else z.tableBorderChars
    indentMode := z.indentMode
    specialChars := z.specialChars }

theorem byKey_key (t : TableBorderChars) (key : Text) (h : t.key = some key) : IsStandardBorder t ∧ TableBorderChars.byKey key = some t := by
  unfold TableBorderChars.key at h
  split at h
  · rename_i e; subst e; injection h with h; subst h; exact ⟨Or.inl rfl, rfl⟩
  split at h
  · rename_i e; subst e; injection h with h; subst h; exact ⟨Or.inr (Or.inl rfl), rfl⟩
  split at h
  · rename_i e; subst e; injection h with h; subst h; exact ⟨Or.inr (Or.inr rfl), rfl⟩
  · cases h

theorem entry_copied {k : Classes} (hk : RegexClasses k) (skin : Skin) (h : IsSkin skin) (e : String × DataValue) (he : e ∈ skin.serialize) (z : Skin) :
    z.setEntry k e.1 e.2 = .ok (copyField (rereadSkin k skin) e.1 z) := by
  unfold Skin.serialize at he
  rw [List.mem_append] at he
  rcases he with he | he
  · simp only [List.mem_cons, List.not_mem_nil, or_false] at he
    rcases he with rfl | rfl | rfl | rfl | rfl | rfl | rfl | rfl | rfl | rfl | rfl | rfl | rfl
    all_goals simp only [Skin.setEntry, copyField, String.reduceEq, if_true, if_false, or_true, or_false]
    · rw [readStyle_written hk h.bold]; rfl
    · rw [readStyle_written hk h.italic]; rfl
    · rw [readStyle_written hk h.strikeout]; rfl
    · rw [readStyle_written hk h.inlineCode]; rfl
    · rw [readStyle_written hk h.ellipsis]; rfl
    · rw [readChar_written hk h.bullet]; rfl
    · rw [readChar_written hk h.quoteMark]; rfl
    · rw [readChar_written hk h.horizontalRule]; rfl
    · have := readScrollbar_written hk h.track h.thumb
      cases hs : readScrollbar k (ScrollBarStyleDef.ofStyle skin.scrollbar).serialize with
      | error e => rw [hs] at this; cases this
      | ok d =>
        rw [hs] at this
        injection this with this
        simp only [bind, Except.bind, this]; rfl
    · rw [readLine_written hk h.paragraph]; rfl
    · rw [readLine_written hk h.codeBlock]; rfl
    · rw [readLine_written hk h.table]; rfl
    · unfold Skin.readHeaders
      have e : ((List.finRange 8).map fun i => writeTokens (skin.headers i).tokens) =
          ((List.finRange 8).map skin.headers).map fun ls => writeTokens ls.tokens := by rw [List.map_map]; rfl
      rw [e]
      simp only []
      rw [readLines_written hk _ (by intro ls hls; obtain ⟨i, _, rfl⟩ := List.mem_map.mp hls; exact h.headers i)]
      simp only [bind, Except.bind, rereadSkin]
      congr 2
      funext i
      simp
  · cases hkey : skin.tableBorderChars.key with
    | none => rw [hkey] at he; cases he
    | some key =>
      rw [hkey] at he
      simp only [List.mem_singleton] at he
      subst he
      have := byKey_key _ _ hkey
      simp only [Skin.setEntry, copyField, String.reduceEq, if_true, if_false, or_false]
      rw [this.2]
      simp only [rereadSkin]
      rw [if_pos this.1]

theorem ite_swap {α : Type} (p q : Prop) [Decidable p] [Decidable q] (a z : α) :
    (if p then a else if q then a else z) = (if q then a else if p then a else z) := by split <;> split <;> rfl

theorem copyField_comm (src : Skin) (a b : String) (z : Skin) : copyField src a (copyField src b z) = copyField src b (copyField src a z) := by
  unfold copyField
  congr 1 <;> exact ite_swap _ _ _ _

theorem serialize_copied (k : Classes) (skin : Skin) :
    skin.serialize.foldl (fun z e => copyField (rereadSkin k skin) e.1 z) Skin.default = rereadSkin k skin := by
  unfold Skin.serialize
  rw [List.foldl_append]
  simp only [List.foldl_cons, List.foldl_nil, copyField, String.reduceEq, if_true, if_false]
  cases hkey : skin.tableBorderChars.key with
  | none =>
    have : ¬ IsStandardBorder skin.tableBorderChars := by
      rintro (h | h | h) <;> rw [h] at hkey <;> revert hkey <;> decide
    simp only [List.foldl_nil, rereadSkin]
    rw [if_neg this]; rfl
  | some key =>
    simp only [List.foldl_cons, List.foldl_nil, String.reduceEq, if_false]
    rfl

/-- Deserializing the serialization of a skin never fails, and gives the specified skin, in whatever order the data format gives back the
entries. -/
theorem C40_reread {k : Classes} (hk : RegexClasses k) (skin : Skin) (h : IsSkin skin) (entries : List (String × DataValue))
    (hp : entries.Perm skin.serialize) : Skin.deserialize k entries = .ok (rereadSkin k skin) := by
  have step : ∀ l : List (String × DataValue), (∀ e ∈ l, e ∈ skin.serialize) → ∀ z,
      l.foldl (fun r e => r.bind fun s => s.setEntry k e.1 e.2) (.ok z) =
        Except.ok (l.foldl (fun z e => copyField (rereadSkin k skin) e.1 z) z) := by
    intro l
    induction l with
    | nil => intro _ z; rfl
    | cons e l ih =>
      intro hl z
      rw [List.foldl_cons, List.foldl_cons]
      rw [show (Except.ok (ε := SkinError) z).bind (fun s => s.setEntry k e.1 e.2) = z.setEntry k e.1 e.2 from rfl,
        entry_copied hk skin h e (hl e (by simp)), ih (fun x hx => hl x (by simp [hx]))]
  unfold Skin.deserialize
  rw [step entries (fun e he => hp.mem_iff.mp he)]
  congr 1
  refine Eq.trans ?_ (serialize_copied k skin)
  exact hp.foldl_eq' (f := fun z e => copyField (rereadSkin k skin) e.1 z) (fun x _ y _ z => copyField_comm _ _ _ _) _

theorem rereadStyle_self {k : Classes} (hk : RegexClasses k) {s : CompoundStyle} (h : IsStyle s) : rereadStyle s = s ↔ FaithfulStyle s := by
  rw [← C39_compound_roundtrip hk s h.1 h.2, C39_compound_style hk s h.1 h.2]
  exact ⟨fun e => by rw [e], fun e => by injection e⟩

theorem rereadLine_self {k : Classes} (hk : RegexClasses k) {ls : LineStyle} (h : IsStyle ls.style) : rereadLine ls = ls ↔ FaithfulLine ls := by
  unfold FaithfulLine
  rw [← rereadStyle_self hk h]
  obtain ⟨s, a, l, r⟩ := ls
  simp only [rereadLine, LineStyle.mk.injEq, true_and]
  constructor
  · rintro ⟨h1, h2, h3⟩
    refine ⟨h1, ?_, ?_⟩
    · by_cases hl : l < 65536
      · exact hl
      · rw [if_neg hl] at h2; omega
    · by_cases hl : r < 65536
      · exact hl
      · rw [if_neg hl] at h3; omega
  · rintro ⟨h1, h2, h3⟩
    exact ⟨h1, if_pos h2, if_pos h3⟩

theorem rereadChar_self {k : Classes} (hk : RegexClasses k) {sc : StyledChar} (h : IsStyle sc.style) : rereadChar k sc = sc ↔ FaithfulChar k sc := by
  unfold FaithfulChar
  rw [← rereadStyle_self hk h]
  obtain ⟨s, c, d⟩ := sc
  simp only [rereadChar, StyledChar.new, StyledChar.mk.injEq]
  by_cases hr : IsReadable k c
  · simp only [hr, if_true, true_or, true_and]
    constructor
    · rintro ⟨h1, h2⟩; rw [h1] at h2; exact ⟨h1, h2.symm⟩
    · rintro ⟨h1, h2⟩; rw [h1]; exact ⟨rfl, h2.symm⟩
  · simp only [hr, if_false, false_or]
    constructor
    · rintro ⟨h1, h2, h3⟩; rw [h1, h2] at h3; exact ⟨h1, h2.symm, h3.symm⟩
    · rintro ⟨h1, h2, h3⟩; rw [h1, h3, h2]; exact ⟨rfl, rfl, rfl⟩

theorem reread_ne_reset (c : Color) : reread c ≠ some .reset := by cases c <;> simp [reread]

theorem rereadScrollbar_self {k : Classes} (hk : RegexClasses k) {sb : ScrollBarStyle} (h1 : IsStyle sb.track.style)
    (h2 : IsStyle sb.thumb.style) : rereadScrollbar k sb = sb ↔
      (IsSimple sb → FaithfulPart k sb.track ∧ FaithfulPart k sb.thumb) ∧
      (¬ IsSimple sb → FaithfulChar k sb.track ∧ FaithfulChar k sb.thumb) := by
  unfold rereadScrollbar
  by_cases hs : IsSimple sb
  · rw [if_pos hs]
    simp only [hs, true_implies, not_true, false_implies, and_true]
    obtain ⟨⟨rs, c, rd⟩, ⟨ts, c', td⟩⟩ := sb
    obtain ⟨hc, hb1, hb2⟩ := hs
    dsimp only at hc hb1 hb2 h1 h2
    subst hc
    obtain ⟨rf, rb, ru, ra⟩ := rs
    obtain ⟨tf, tb, tu, ta⟩ := ts
    dsimp only at hb1 hb2 h1 h2
    subst hb1 hb2
    simp only [StyledChar.new, FaithfulPart, ScrollBarStyle.mk.injEq, StyledChar.mk.injEq, CompoundStyle.mk.injEq, true_and, rereadStyle]
    constructor
    · rintro ⟨⟨⟨e1, e2, e3⟩, e4, e5⟩, ⟨⟨f1, f2, f3⟩, -, f5⟩⟩
      have hch : IsReadable k c ∨ c = '*' := by
        by_cases hr : IsReadable k c
        · exact Or.inl hr
        · rw [if_neg hr] at e4; exact Or.inr e4.symm
      have htr : tf ≠ some .reset := by
        intro ht
        rw [if_pos ht, ht] at f1
        cases hrf : rf.bind reread with
        | none => rw [hrf] at f1; cases f1
        | some d =>
          rw [hrf] at f1
          injection f1 with f1
          dsimp only [Option.getD_some] at f1
          subst f1
          cases rf with
          | none => cases hrf
          | some x => exact reread_ne_reset x hrf
      rw [if_neg htr] at e1 f1
      have hrc : ∃ a, rf = some a := ⟨_, e1.symm⟩
      have htc : ∃ b, tf = some b := ⟨_, f1.symm⟩
      obtain ⟨a, rfl⟩ := hrc
      obtain ⟨b, rfl⟩ := htc
      have ha : reread a = some a := by
        simp only [Option.bind_some] at e1
        injection e1 with e1
        cases hra : reread a with
        | none =>
          exfalso
          rw [hra] at e1; dsimp only [Option.getD_none] at e1
          subst e1; cases hra
        | some x => rw [hra] at e1; dsimp only [Option.getD_some] at e1; rw [e1]
      have hb : reread b = some b := by
        simp only [Option.bind_some] at f1
        injection f1 with f1
        cases hrb : reread b with
        | none =>
          exfalso
          rw [hrb] at f1; dsimp only [Option.getD_none] at f1
          subst f1; cases hrb
        | some x => rw [hrb] at f1; dsimp only [Option.getD_some] at f1; rw [f1]
      rw [← e2, ← e3, ← f2, ← f3]
      refine ⟨⟨a, (C39_color a (h1.1 a rfl)).mpr ha, ⟨rfl, rfl, rfl⟩, hch, ?_⟩, ⟨b, (C39_color b (h2.1 b rfl)).mpr hb, ⟨rfl, rfl, rfl⟩, hch, ?_⟩⟩
      · rw [← e5, e4]
        simp only [Option.bind_some] at e1
        rw [if_neg htr]
        simp only [Option.bind_some, ha, Option.getD_some]
      · rw [← f5, e4]
        rw [if_neg htr]
        simp only [Option.bind_some, hb, Option.getD_some]
    · rintro ⟨⟨a, ha, ⟨rfl, rfl, rfl⟩, hch, rfl⟩, ⟨b, hb, ⟨rfl, rfl, rfl⟩, -, rfl⟩⟩
      have hchar : ∀ i : Decidable (IsReadable k c), (@ite _ _ i c '*') = c := by
        intro i
        by_cases hr : IsReadable k c
        · rw [if_pos hr]
        · rw [if_neg hr]; exact (hch.resolve_left hr).symm
      have h : (some b : Option Color) ≠ some .reset := by intro h; injection h with h; exact hb.2.1 h
      have ha' := (C39_color a ha.1).mp ha
      have hb' := (C39_color b hb.1).mp hb
      simp only [h, if_false, Option.bind_some, ha', hb', Option.getD_some]
      simp only [hchar, and_self]
  · rw [if_neg hs]
    simp only [hs, false_implies, not_false_eq_true, true_implies, true_and]
    obtain ⟨tr, th⟩ := sb
    simp only [ScrollBarStyle.mk.injEq]
    rw [rereadChar_self hk h1, rereadChar_self hk h2]

/-- Hence the skin is the same once deserialized exactly if it's faithful. -/
theorem C40_roundtrip {k : Classes} (hk : RegexClasses k) (skin : Skin) (h : IsSkin skin) (entries : List (String × DataValue))
    (hp : entries.Perm skin.serialize) : Skin.deserialize k entries = .ok skin ↔ FaithfulSkin k skin := by
  rw [C40_reread hk skin h entries hp]
  have e : (Except.ok (rereadSkin k skin) : Except SkinError Skin) = .ok skin ↔ rereadSkin k skin = skin :=
    ⟨fun e => by injection e, fun e => by rw [e]⟩
  rw [e]
  constructor
  · intro e
    have f : ∀ {α : Type} (g : Skin → α), g (rereadSkin k skin) = g skin := fun g => by rw [e]
    refine ⟨(rereadLine_self hk h.paragraph).mp (f Skin.paragraph), (rereadStyle_self hk h.bold).mp (f Skin.bold),
      (rereadStyle_self hk h.italic).mp (f Skin.italic), (rereadStyle_self hk h.strikeout).mp (f Skin.strikeout),
      (rereadStyle_self hk h.inlineCode).mp (f Skin.inlineCode), (rereadLine_self hk h.codeBlock).mp (f Skin.codeBlock),
      fun i => (rereadLine_self hk (h.headers i)).mp (f (fun s => s.headers i)),
      (rereadScrollbar_self hk h.track h.thumb).mp (f Skin.scrollbar), (rereadLine_self hk h.table).mp (f Skin.table),
      (rereadChar_self hk h.bullet).mp (f Skin.bullet), (rereadChar_self hk h.quoteMark).mp (f Skin.quoteMark),
      (rereadChar_self hk h.horizontalRule).mp (f Skin.horizontalRule), (rereadStyle_self hk h.ellipsis).mp (f Skin.ellipsis), ?_,
      (f Skin.indentMode).symm, fun c => (f (fun s => s.specialChars c)).symm⟩
    have := f Skin.tableBorderChars
    simp only [rereadSkin] at this
    by_cases hb : IsStandardBorder skin.tableBorderChars
    · exact hb
    · rw [if_neg hb] at this; exact Or.inl this.symm
  · intro hf
    have hsp : skin.specialChars = fun _ => none := funext hf.specialChars
    simp only [rereadSkin, (rereadLine_self hk h.paragraph).mpr hf.paragraph, (rereadStyle_self hk h.bold).mpr hf.bold,
      (rereadStyle_self hk h.italic).mpr hf.italic, (rereadStyle_self hk h.strikeout).mpr hf.strikeout,
      (rereadStyle_self hk h.inlineCode).mpr hf.inlineCode, (rereadLine_self hk h.codeBlock).mpr hf.codeBlock,
      fun i => (rereadLine_self hk (h.headers i)).mpr (hf.headers i),
      (rereadScrollbar_self hk h.track h.thumb).mpr hf.scrollbar, (rereadLine_self hk h.table).mpr hf.table,
      (rereadChar_self hk h.bullet).mpr hf.bullet, (rereadChar_self hk h.quoteMark).mpr hf.quoteMark,
      (rereadChar_self hk h.horizontalRule).mpr hf.horizontalRule, (rereadStyle_self hk h.ellipsis).mpr hf.ellipsis]
    rw [if_pos hf.borders, ← hsp, ← hf.indentMode]

/-! Decision procedures, for the concrete skins. -/

instance (c : Color) : Decidable (IsColor c) := by cases c <;> simp only [IsColor] <;> infer_instance
instance (c : Color) : Decidable (Faithful c) := by unfold Faithful; infer_instance
instance decOpt {α : Type} (P : α → Prop) [DecidablePred P] : (o : Option α) → Decidable (∀ c, o = some c → P c)
  | none => isTrue (fun _ h => by cases h)
  | some a => if h : P a then isTrue (fun _ e => by injection e with e; exact e ▸ h) else isFalse (fun f => h (f a rfl))
instance (s : CompoundStyle) : Decidable (FaithfulStyle s) :=
  decidable_of_iff ((∀ c, s.fg = some c → Faithful c) ∧ (∀ c, s.bg = some c → Faithful c) ∧ s.underline = none ∧ s.attrs &&& writtenBits = s.attrs)
    ⟨fun h => ⟨h.1, h.2.1, h.2.2.1, h.2.2.2⟩, fun h => ⟨h.fg, h.bg, h.underline, h.attrs⟩⟩
instance (ls : LineStyle) : Decidable (FaithfulLine ls) := by unfold FaithfulLine; infer_instance
instance (sb : ScrollBarStyle) : Decidable (IsSimple sb) := by unfold IsSimple; infer_instance

theorem faithful_isStyle {s : CompoundStyle} (h : FaithfulStyle s) : IsStyle s := ⟨fun c hc => (h.fg c hc).1, fun c hc => (h.bg c hc).1⟩

theorem part_isStyle {k : Classes} {sc : StyledChar} (h : FaithfulPart k sc) : IsStyle sc.style := by
  obtain ⟨c, hc, hs, -⟩ := h
  rw [hs]
  exact ⟨fun d hd => by injection hd with hd; exact hd ▸ hc.1, fun d hd => by cases hd⟩

theorem faithful_isSkin {k : Classes} {skin : Skin} (h : FaithfulSkin k skin) : IsSkin skin where
  paragraph := faithful_isStyle h.paragraph.1
  bold := faithful_isStyle h.bold
  italic := faithful_isStyle h.italic
  strikeout := faithful_isStyle h.strikeout
  inlineCode := faithful_isStyle h.inlineCode
  codeBlock := faithful_isStyle h.codeBlock.1
  headers := fun i => faithful_isStyle (h.headers i).1
  track := by
    by_cases hs : IsSimple skin.scrollbar
    · exact part_isStyle (h.scrollbar.1 hs).1
    · exact faithful_isStyle (h.scrollbar.2 hs).1.1
  thumb := by
    by_cases hs : IsSimple skin.scrollbar
    · exact part_isStyle (h.scrollbar.1 hs).2
    · exact faithful_isStyle (h.scrollbar.2 hs).2.1
  table := faithful_isStyle h.table.1
  bullet := faithful_isStyle h.bullet.1
  quoteMark := faithful_isStyle h.quoteMark.1
  horizontalRule := faithful_isStyle h.horizontalRule.1
  ellipsis := faithful_isStyle h.ellipsis

/-- The skins of the crate are faithful, even limited to ASCII: they're the same once deserialized. (The three characters aren't whitespace.) -/
theorem C40_crate_skins {k : Classes} (hk : RegexClasses k) (h1 : k.ws '•' = false) (h2 : k.ws '▐' = false) (h3 : k.ws '―' = false)
    (skin : Skin) (hs : skin = Skin.default ∨ skin = Skin.noStyle ∨ skin = Skin.defaultDark ∨ skin = Skin.defaultLight) :
    (FaithfulSkin k skin ∧ Skin.deserialize k skin.serialize = .ok skin) ∧
    (FaithfulSkin k skin.limitToAscii ∧ Skin.deserialize k skin.limitToAscii.serialize = .ok skin.limitToAscii) := by
  have r1 : IsReadable k '•' := ⟨h1, by decide, by decide, by decide⟩
  have r2 : IsReadable k '▐' := ⟨h2, by decide, by decide, by decide⟩
  have r3 : IsReadable k '―' := ⟨h3, by decide, by decide, by decide⟩
  have r4 : IsReadable k '*' := ⟨hk.visible _ (by decide) (by decide), by decide, by decide, by decide⟩
  have r5 : IsReadable k '>' := ⟨hk.visible _ (by decide) (by decide), by decide, by decide, by decide⟩
  have r6 : IsReadable k '-' := ⟨hk.visible _ (by decide) (by decide), by decide, by decide, by decide⟩
  have f1 : FaithfulSkin k skin := by
    rcases hs with rfl | rfl | rfl | rfl
    all_goals refine ⟨by decide, by decide, by decide, by decide, by decide, by decide, by decide, ⟨fun _ => ⟨?_, ?_⟩, fun h => absurd (by decide) h⟩, by decide,
      ⟨by decide, Or.inl r1, rfl⟩, ⟨by decide, Or.inl r2, rfl⟩, ⟨by decide, Or.inl r3, rfl⟩, by decide, Or.inl rfl, rfl, fun _ => rfl⟩
    all_goals exact ⟨_, by decide, rfl, Or.inl r2, rfl⟩
  have f2 : FaithfulSkin k skin.limitToAscii :=
    { f1 with
      bullet := ⟨f1.bullet.1, Or.inl r4, rfl⟩
      quoteMark := ⟨f1.quoteMark.1, Or.inl r5, rfl⟩
      horizontalRule := ⟨f1.horizontalRule.1, Or.inl r6, rfl⟩
      borders := Or.inr (Or.inl rfl) }
  exact ⟨⟨f1, (C40_roundtrip hk skin (faithful_isSkin f1) _ (List.Perm.refl _)).mpr f1⟩,
    ⟨f2, (C40_roundtrip hk _ (faithful_isSkin f2) _ (List.Perm.refl _)).mpr f2⟩⟩

theorem except_bind_ok {α : Type} {r : Except SkinError α} {f : α → Skin} {z' : Skin} (h : (r >>= fun x => .ok (f x)) = .ok z') : ∃ x, z' = f x := by
  cases r with
  | error e => cases h
  | ok x => injection h with h; exact ⟨x, h.symm⟩

theorem sameBut_refl (keys : List String) (z : Skin) : SameBut keys z z := by constructor <;> intros <;> rfl

/-- An entry only changes its field. -/
theorem setEntry_same {k : Classes} {z z' : Skin} {key : String} {v : DataValue} (h : z.setEntry k key v = .ok z') : SameBut [key] z z' := by
  unfold Skin.setEntry at h
  by_cases h0 : key = "bold"
  · rw [if_pos h0] at h
    obtain ⟨x, rfl⟩ := except_bind_ok h
    exact { sameBut_refl _ z with bold := fun hk => absurd h0 (hk key (List.mem_singleton.mpr rfl)) }
  rw [if_neg h0] at h
  by_cases h1 : key = "italic"
  · rw [if_pos h1] at h
    obtain ⟨x, rfl⟩ := except_bind_ok h
    exact { sameBut_refl _ z with italic := fun hk => absurd h1 (hk key (List.mem_singleton.mpr rfl)) }
  rw [if_neg h1] at h
  by_cases h2 : key = "strikeout"
  · rw [if_pos h2] at h
    obtain ⟨x, rfl⟩ := except_bind_ok h
    exact { sameBut_refl _ z with strikeout := fun hk => absurd h2 (hk key (List.mem_singleton.mpr rfl)) }
  rw [if_neg h2] at h
  by_cases h3 : key = "inline_code" ∨ key = "inline-code"
  · rw [if_pos h3] at h
    obtain ⟨x, rfl⟩ := except_bind_ok h
    exact { sameBut_refl _ z with inlineCode := fun hk => absurd h3 (hk key (List.mem_singleton.mpr rfl)) }
  rw [if_neg h3] at h
  by_cases h4 : key = "ellipsis"
  · rw [if_pos h4] at h
    obtain ⟨x, rfl⟩ := except_bind_ok h
    exact { sameBut_refl _ z with ellipsis := fun hk => absurd h4 (hk key (List.mem_singleton.mpr rfl)) }
  rw [if_neg h4] at h
  by_cases h5 : key = "bullet"
  · rw [if_pos h5] at h
    obtain ⟨x, rfl⟩ := except_bind_ok h
    exact { sameBut_refl _ z with bullet := fun hk => absurd h5 (hk key (List.mem_singleton.mpr rfl)) }
  rw [if_neg h5] at h
  by_cases h6 : key = "quote_mark" ∨ key = "quote" ∨ key = "quote-mark"
  · rw [if_pos h6] at h
    obtain ⟨x, rfl⟩ := except_bind_ok h
    exact { sameBut_refl _ z with quoteMark := fun hk => absurd h6 (hk key (List.mem_singleton.mpr rfl)) }
  rw [if_neg h6] at h
  by_cases h7 : key = "horizontal_rule" ∨ key = "horizontal-rule" ∨ key = "rule"
  · rw [if_pos h7] at h
    obtain ⟨x, rfl⟩ := except_bind_ok h
    exact { sameBut_refl _ z with horizontalRule := fun hk => absurd h7 (hk key (List.mem_singleton.mpr rfl)) }
  rw [if_neg h7] at h
  by_cases h8 : key = "scrollbar"
  · rw [if_pos h8] at h
    obtain ⟨x, rfl⟩ := except_bind_ok h
    exact { sameBut_refl _ z with scrollbar := fun hk => absurd h8 (hk key (List.mem_singleton.mpr rfl)) }
  rw [if_neg h8] at h
  by_cases h9 : key = "paragraph"
  · rw [if_pos h9] at h
    obtain ⟨x, rfl⟩ := except_bind_ok h
    exact { sameBut_refl _ z with paragraph := fun hk => absurd h9 (hk key (List.mem_singleton.mpr rfl)) }
  rw [if_neg h9] at h
  by_cases h10 : key = "code_block" ∨ key = "code-block"
  · rw [if_pos h10] at h
    obtain ⟨x, rfl⟩ := except_bind_ok h
    exact { sameBut_refl _ z with codeBlock := fun hk => absurd h10 (hk key (List.mem_singleton.mpr rfl)) }
  rw [if_neg h10] at h
  by_cases h11 : key = "table"
  · rw [if_pos h11] at h
    obtain ⟨x, rfl⟩ := except_bind_ok h
    exact { sameBut_refl _ z with table := fun hk => absurd h11 (hk key (List.mem_singleton.mpr rfl)) }
  rw [if_neg h11] at h
  by_cases h12 : key = "headers"
  · rw [if_pos h12] at h
    cases v with
    | str s => obtain ⟨x, rfl⟩ := except_bind_ok h; exact { sameBut_refl _ z with headers := fun hk => absurd h12 (hk key (List.mem_singleton.mpr rfl)) }
    | list l => obtain ⟨x, rfl⟩ := except_bind_ok h; exact { sameBut_refl _ z with headers := fun hk => absurd h12 (hk key (List.mem_singleton.mpr rfl)) }
    | map m => cases h
    | other => cases h
  rw [if_neg h12] at h
  by_cases h13 : key = "table_border_chars" ∨ key = "table-border-chars"
  · rw [if_pos h13] at h
    cases v with
    | str s =>
      dsimp only at h
      cases hb : TableBorderChars.byKey s with
      | none => rw [hb] at h; injection h with h; subst h; exact sameBut_refl _ z
      | some x => rw [hb] at h; injection h with h; subst h; exact { sameBut_refl _ z with tableBorderChars := fun hk => absurd h13 (hk key (List.mem_singleton.mpr rfl)) }
    | list l => cases h
    | map m => cases h
    | other => cases h
  rw [if_neg h13] at h
  cases v with
  | str s => injection h with h; subst h; exact sameBut_refl _ z
  | list l => cases h
  | map m => cases h
  | other => cases h

theorem SameBut.trans {ks ks' : List String} {a b c : Skin} (h : SameBut ks a b) (h' : SameBut ks' b c) : SameBut (ks ++ ks') a c := by
  constructor
  all_goals try intro hk
  case indentMode => rw [h'.indentMode, h.indentMode]
  case specialChars => rw [h'.specialChars, h.specialChars]
  case bold => exact (h'.bold fun x hx => hk x (by simp [hx])).trans (h.bold fun x hx => hk x (by simp [hx]))
  case italic => exact (h'.italic fun x hx => hk x (by simp [hx])).trans (h.italic fun x hx => hk x (by simp [hx]))
  case strikeout => exact (h'.strikeout fun x hx => hk x (by simp [hx])).trans (h.strikeout fun x hx => hk x (by simp [hx]))
  case inlineCode => exact (h'.inlineCode fun x hx => hk x (by simp [hx])).trans (h.inlineCode fun x hx => hk x (by simp [hx]))
  case ellipsis => exact (h'.ellipsis fun x hx => hk x (by simp [hx])).trans (h.ellipsis fun x hx => hk x (by simp [hx]))
  case bullet => exact (h'.bullet fun x hx => hk x (by simp [hx])).trans (h.bullet fun x hx => hk x (by simp [hx]))
  case quoteMark => exact (h'.quoteMark fun x hx => hk x (by simp [hx])).trans (h.quoteMark fun x hx => hk x (by simp [hx]))
  case horizontalRule => exact (h'.horizontalRule fun x hx => hk x (by simp [hx])).trans (h.horizontalRule fun x hx => hk x (by simp [hx]))
  case scrollbar => exact (h'.scrollbar fun x hx => hk x (by simp [hx])).trans (h.scrollbar fun x hx => hk x (by simp [hx]))
  case paragraph => exact (h'.paragraph fun x hx => hk x (by simp [hx])).trans (h.paragraph fun x hx => hk x (by simp [hx]))
  case codeBlock => exact (h'.codeBlock fun x hx => hk x (by simp [hx])).trans (h.codeBlock fun x hx => hk x (by simp [hx]))
  case table => exact (h'.table fun x hx => hk x (by simp [hx])).trans (h.table fun x hx => hk x (by simp [hx]))
  case headers => exact (h'.headers fun x hx => hk x (by simp [hx])).trans (h.headers fun x hx => hk x (by simp [hx]))
  case tableBorderChars => exact (h'.tableBorderChars fun x hx => hk x (by simp [hx])).trans (h.tableBorderChars fun x hx => hk x (by simp [hx]))

/-- What isn't in the data is as in the default skin. -/
theorem C40_missing {k : Classes} (entries : List (String × DataValue)) (skin : Skin) (h : Skin.deserialize k entries = .ok skin) :
    SameBut (entries.map (·.1)) Skin.default skin := by
  have gen : ∀ (l : List (String × DataValue)) (z : Skin), l.foldl (fun r e => Except.bind r fun s => s.setEntry k e.1 e.2) (Except.ok (ε := SkinError) z) = .ok skin →
      SameBut (l.map (·.1)) z skin := by
    intro l
    induction l with
    | nil => intro z h; injection h with h; subst h; constructor <;> intros <;> rfl
    | cons e l ih =>
      intro z h
      rw [List.foldl_cons] at h
      rw [show (Except.ok (ε := SkinError) z).bind (fun s => s.setEntry k e.1 e.2) = z.setEntry k e.1 e.2 from rfl] at h
      cases hz : z.setEntry k e.1 e.2 with
      | error x =>
        exfalso
        rw [hz] at h
        have : ∀ l : List (String × DataValue), l.foldl (fun r e => r.bind fun s => s.setEntry k e.1 e.2) (Except.error x) = (.error x : Except SkinError Skin) := by
          intro l
          induction l with
          | nil => rfl
          | cons _ _ ih => rw [List.foldl_cons]; exact ih
        rw [this] at h; cases h
      | ok z' =>
        rw [hz] at h
        exact SameBut.trans (setEntry_same hz) (ih z' h)
  exact gen entries _ h

/-- A string given for the headers is added to the default style of all of them. -/
theorem C40_headers_string {k : Classes} (s : Text) (skin : Skin) (h : Skin.deserialize k [("headers", .str s)] = .ok skin) :
    ∃ ls, parseLineStyle k s = .ok ls ∧ ∀ i, skin.headers i = addedStyle ls (Skin.default.headers i) := by
  have e : Skin.deserialize k [("headers", .str s)] = Skin.default.readHeaders k (.str s) := rfl
  rw [e] at h
  simp only [Skin.readHeaders, readLine, bind, Except.bind, ofParsing] at h
  cases hp : parseLineStyle k s with
  | error x => rw [hp] at h; cases h
  | ok ls =>
    rw [hp] at h
    injection h with h
    subst h
    refine ⟨ls, rfl, fun i => ?_⟩
    simp only
    generalize Skin.default.headers i = hd
    obtain ⟨⟨f, b, u, at'⟩, a, l, r⟩ := hd
    obtain ⟨⟨f', b', u', at''⟩, a', l', r'⟩ := ls
    simp only [LineStyle.addTo, addedStyle]
    have key : ∀ st : CompoundStyle, CompoundStyle.addAttrsOf st ⟨f', b', u', at''⟩ = { st with attrs := st.attrs ||| (at'' &&& writtenBits) } := by
      intro st
      have fold : ∀ (l : List Attr) (t : CompoundStyle), l.foldl (fun s a => if (⟨f', b', u', at''⟩ : CompoundStyle).hasAttr a then s.addAttr a else s) t =
          (((l.filter (Attrs.has at'')).map StyleToken.attribute).foldl CompoundStyle.addToken (t, false)).1 := by
        intro l
        induction l with
        | nil => intro t; rfl
        | cons a l ih =>
          intro t
          rw [List.foldl_cons, ih]
          by_cases ha : Attrs.has at'' a = true
          · rw [List.filter_cons_of_pos ha, if_pos (show CompoundStyle.hasAttr ⟨f', b', u', at''⟩ a = true from ha)]; rfl
          · rw [List.filter_cons_of_neg ha, if_neg (show ¬ CompoundStyle.hasAttr ⟨f', b', u', at''⟩ a = true from ha)]
      unfold CompoundStyle.addAttrsOf
      rw [fold, attrs_roundtrip]
    rw [key]
    cases f' <;> cases b' <;> cases a' <;> rfl

/-- The deserialization of what isn't accepted fails: no skin is returned when a style can't be parsed. -/
theorem C40_invalid {k : Classes} (key : String) (s : Text) (before after : List (String × DataValue)) (e : ParseStyleTokenError)
    (hkey : key = "bold" ∨ key = "italic" ∨ key = "strikeout" ∨ key = "inline_code" ∨ key = "inline-code" ∨ key = "ellipsis")
    (hs : parseCompoundStyle k s = .error e) (skin : Skin) :
    Skin.deserialize k (before ++ (key, .str s) :: after) ≠ .ok skin := by
  have err : ∀ (x : SkinError) (l : List (String × DataValue)), l.foldl (fun r e => r.bind fun s => s.setEntry k e.1 e.2) (Except.error x) = (.error x : Except SkinError Skin) := by
    intro x l
    induction l with
    | nil => rfl
    | cons _ _ ih => rw [List.foldl_cons]; exact ih
  unfold Skin.deserialize
  rw [List.foldl_append, List.foldl_cons]
  generalize before.foldl (fun r e => Except.bind r fun s => s.setEntry k e.1 e.2) (Except.ok (ε := SkinError) Skin.default) = r
  cases r with
  | error x =>
    rw [show (Except.error x : Except SkinError Skin).bind (fun sk => sk.setEntry k (key, DataValue.str s).1 (key, DataValue.str s).2) = .error x from rfl, err]
    intro h; cases h
  | ok z =>
    have : (Except.ok (ε := SkinError) z).bind (fun sk => sk.setEntry k (key, DataValue.str s).1 (key, DataValue.str s).2) = .error (.style e) := by
      show z.setEntry k key (.str s) = _
      rcases hkey with rfl | rfl | rfl | rfl | rfl | rfl
      all_goals simp only [Skin.setEntry, String.reduceEq, if_true, if_false, or_true, true_or, or_self, readStyle, hs, ofParsing, bind, Except.bind]
    rw [this, err]
    intro h; cases h

/-- A skin with many changes (similar to the one of the unit test of the crate) meets the hypotheses, and is faithful: it's deserialized as it
was, even when entries are reversed. -/
def exampleSkin : Skin :=
  { (Skin.default.setHeadersFg (.ansi 178)).limitToAscii with
    bold := Skin.default.bold.setFg .yellow
    italic := (Skin.default.italic.setFgBg .magenta (.rgb 30 30 40)).addAttr .overLined
    paragraph := { ({} : LineStyle).setFgBg .magenta (.rgb 30 30 40) with align := .center, leftMargin := 2 }
    scrollbar := { track := StyledChar.fromFgChar .red '|', thumb := (StyledChar.fromFgChar (.ansi 178) '#').setBg .green }
    tableBorderChars := TableBorderChars.rounded }

theorem exampleSkin_faithful : FaithfulSkin asciiClasses exampleSkin := by
  refine ⟨by decide, by decide, by decide, by decide, by decide, by decide, by decide, ⟨fun h => absurd h (by decide), fun _ => ⟨?_, ?_⟩⟩, by decide,
    ⟨by decide, Or.inr rfl, rfl⟩, ⟨by decide, Or.inl ?_, rfl⟩, ⟨by decide, Or.inl ?_, rfl⟩, by decide, Or.inr (Or.inr rfl), rfl, fun _ => rfl⟩
  · exact ⟨by decide, Or.inl ⟨by decide, by decide, by decide, by decide⟩, rfl⟩
  · exact ⟨by decide, Or.inl ⟨by decide, by decide, by decide, by decide⟩, rfl⟩
  · exact ⟨by decide, by decide, by decide, by decide⟩
  · exact ⟨by decide, by decide, by decide, by decide⟩

example : IsSkin exampleSkin ∧ exampleSkin.serialize.reverse.Perm exampleSkin.serialize ∧
    Skin.deserialize asciiClasses exampleSkin.serialize.reverse = .ok exampleSkin :=
  ⟨faithful_isSkin exampleSkin_faithful, List.reverse_perm _,
    (C40_roundtrip asciiClasses_ok _ (faithful_isSkin exampleSkin_faithful) _ (List.reverse_perm _)).mpr exampleSkin_faithful⟩

/-- The extract of a skin given by a user. -/
example : (Skin.deserialize asciiClasses [("bold", .str "yellow #224".toList), ("rule", .str "~ red".toList), ("headers", .str "gray(22) italic".toList)]).toOption.map
      (fun s => (s.bold, s.horizontalRule, s.headers 3, s.italic)) =
    some (CompoundStyle.withFgBg .yellow (.rgb 34 34 68), StyledChar.fromFgChar .red '~',
      { style := { fg := some (.ansi 254), attrs := Attrs.set (Attrs.set 0#32 .underlined) .italic } }, Skin.default.italic) := by decide

/-- The indentation mode, the special characters and custom characters of tables are lost. -/
theorem C40_lost_counterexample :
    let skin := { Skin.default with
      indentMode := .firstLineOnly, specialChars := fun _ => some (StyledChar.nude '!'), tableBorderChars := { TableBorderChars.standard with cross := '*' } }
    IsSkin skin ∧ (Skin.deserialize asciiClasses skin.serialize).toOption.map (fun s => (s.indentMode, s.specialChars ⟨[], false, false, false, false⟩, s.tableBorderChars)) =
      some (.block, none, TableBorderChars.standard) := by
  refine ⟨?_, by decide⟩
  have h : FaithfulSkin asciiClasses Skin.default :=
    (C40_crate_skins asciiClasses_ok (by decide) (by decide) (by decide) _ (Or.inl rfl)).1.1
  exact { faithful_isSkin h with }

/-- Attributes of a scrollbar without background are lost, and missing colors are replaced. -/
theorem C40_scrollbar_counterexample :
    let sb : ScrollBarStyle := { track := StyledChar.new { attrs := Attrs.set 0#32 .dim } '|', thumb := StyledChar.new { attrs := Attrs.set 0#32 .bold } '|' }
    (Skin.deserialize asciiClasses { Skin.default with scrollbar := sb }.serialize).toOption.map (·.scrollbar) =
      some { track := StyledChar.fromFgChar (gray 5) '|', thumb := StyledChar.fromFgChar (gray 21) '|' } := by decide

end Props
end Verif

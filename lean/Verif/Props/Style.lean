import Verif.Spec.Style
/-! C41: the laws of styles. C42: styled characters. -/
namespace Verif

/-- The attribute at a position. -/
def Attr.ofIndex : Nat → Attr
  | 0 => .reset | 1 => .bold | 2 => .dim | 3 => .italic | 4 => .underlined | 5 => .doubleUnderlined
  | 6 => .undercurled | 7 => .underdotted | 8 => .underdashed | 9 => .slowBlink | 10 => .rapidBlink
  | 11 => .reverse | 12 => .hidden | 13 => .crossedOut | 14 => .fraktur | 15 => .noBold
  | 16 => .normalIntensity | 17 => .noItalic | 18 => .noUnderline | 19 => .noBlink | 20 => .noReverse
  | 21 => .noHidden | 22 => .notCrossedOut | 23 => .framed | 24 => .encircled | 25 => .overLined
  | 26 => .notFramedOrEncircled | _ => .notOverLined

theorem Attr.index_inj {a b : Attr} (h : a.index = b.index) : a = b := by
  have h1 : ∀ a : Attr, Attr.ofIndex a.index = a := by intro a; cases a <;> rfl
  rw [← h1 a, ← h1 b, h]

theorem Attr.index_lt (a : Attr) : a.index + 1 < 32 := by cases a <;> decide

theorem Attrs.has_eq (s : Attrs) (a : Attr) : Attrs.has s a = s.getLsbD (a.index + 1) := by
  simp only [Attrs.has, Attr.bytes, BitVec.and_twoPow]
  have h32 := a.index_lt
  cases hb : s.getLsbD (a.index + 1)
  · rfl
  · simp only [if_true, bne_iff_ne, ne_eq]
    intro h0
    have := congrArg (fun v => v.getLsbD (a.index + 1)) h0
    simp [BitVec.getLsbD_twoPow] at this
    omega

theorem Attrs.bytes_bit (a b : Attr) : (a.bytes).getLsbD (b.index + 1) = decide (a = b) := by
  have h1 := a.index_lt
  have h2 := b.index_lt
  simp only [Attr.bytes, BitVec.getLsbD_twoPow]
  by_cases h : a = b
  · subst h; simp [h1]
  · have : a.index ≠ b.index := fun e => h (Attr.index_inj e)
    simp [h, this]

namespace Props

/-- Overwriting: each color is that of the second style if it has one, else that of the first one. -/
theorem C41_overwrite_colors (s o : CompoundStyle) :
    (s.overwriteWith o).fg = (match o.fg with | some c => some c | none => s.fg) ∧
    (s.overwriteWith o).bg = (match o.bg with | some c => some c | none => s.bg) := by
  simp only [CompoundStyle.overwriteWith]
  constructor
  · cases o.fg <;> simp
  · cases o.bg <;> simp

/-- Overwriting: an attribute is there if it's in one of the styles. -/
theorem C41_overwrite_attrs (s o : CompoundStyle) (a : Attr) :
    (s.overwriteWith o).hasAttr a = true ↔ s.hasAttr a = true ∨ o.hasAttr a = true := by
  simp [CompoundStyle.overwriteWith, CompoundStyle.hasAttr, Attrs.has_eq, Attrs.extend]

theorem C41_overwrite_assoc (s o p : CompoundStyle) :
    (s.overwriteWith o).overwriteWith p = s.overwriteWith (o.overwriteWith p) := by
  simp only [CompoundStyle.overwriteWith, Attrs.extend]
  congr 1
  · cases o.fg <;> cases p.fg <;> simp
  · cases o.bg <;> cases p.bg <;> simp
  · exact BitVec.or_assoc _ _ _

theorem C41_overwrite_idem (s o : CompoundStyle) :
    s.overwriteWith s = s ∧ (s.overwriteWith o).overwriteWith o = s.overwriteWith o := by
  constructor
  · cases s with
    | mk fg bg u a => cases fg <;> cases bg <;> simp [CompoundStyle.overwriteWith, Attrs.extend]
  · simp only [CompoundStyle.overwriteWith, Attrs.extend]
    congr 1
    · cases o.fg <;> simp
    · cases o.bg <;> simp
    · rw [BitVec.or_assoc, BitVec.or_self]

/-- The default style overrides nothing, and is overridden by everything but the underline color. -/
theorem C41_overwrite_default (s : CompoundStyle) :
    s.overwriteWith {} = s ∧ (({} : CompoundStyle).overwriteWith s) = { s with underline := none } := by
  cases s
  simp [CompoundStyle.overwriteWith, Attrs.extend]

/-- The underline color is that of the overwritten style. -/
theorem C41_overwrite_underline (s o : CompoundStyle) : (s.overwriteWith o).underline = s.underline := rfl

/-- Hence an underline color is lost, contrary to the other ones. -/
theorem C41_underline_counterexample :
    ∃ s o : CompoundStyle, o.underline = some .red ∧ s.underline = none ∧ (s.overwriteWith o).underline = none :=
  ⟨{}, { underline := some .red }, rfl, rfl, rfl⟩

/-- Overwriting a style with one made of a color or of an attribute (`with_fg`, `with_bg`, `with_fgbg`, `with_attr`) sets this color or this attribute,
and nothing else; and a style made of both colors and a set of attributes has them. -/
theorem C41_constructors (s : CompoundStyle) (f b : Color) (a : Attr) :
    s.overwriteWith (CompoundStyle.withFg f) = { s with fg := some f } ∧ s.overwriteWith (CompoundStyle.withBg b) = { s with bg := some b } ∧
    s.overwriteWith (CompoundStyle.withFgBg f b) = { s with fg := some f, bg := some b } ∧
    s.overwriteWith (CompoundStyle.withAttr a) = s.addAttr a ∧
    CompoundStyle.new s.fg s.bg s.attrs = { s with underline := none } := by
  simp [CompoundStyle.overwriteWith, CompoundStyle.withFg, CompoundStyle.withBg, CompoundStyle.withFgBg, CompoundStyle.withAttr, CompoundStyle.new,
    CompoundStyle.addAttr, Attrs.extend, Attrs.set]

/-- The effect of `add_attr` and `remove_attr` on `has_attr`, and that a new style has only the given attributes. -/
theorem C41_attrs (s : CompoundStyle) (a b : Attr) :
    ((s.addAttr a).hasAttr b = true ↔ a = b ∨ s.hasAttr b = true) ∧
    ((s.removeAttr a).hasAttr b = true ↔ a ≠ b ∧ s.hasAttr b = true) ∧
    ((CompoundStyle.withAttr a).hasAttr b = true ↔ a = b) ∧
    ({} : CompoundStyle).hasAttr b = false := by
  have hb := b.index_lt
  refine ⟨?_, ?_, ?_, ?_⟩
  · simp only [CompoundStyle.addAttr, CompoundStyle.hasAttr, Attrs.has_eq, Attrs.set, BitVec.getLsbD_or, Attrs.bytes_bit]
    simp [or_comm]
  · simp only [CompoundStyle.removeAttr, CompoundStyle.hasAttr, Attrs.has_eq, Attrs.unset, BitVec.getLsbD_and, BitVec.getLsbD_not, Attrs.bytes_bit]
    simp [hb, and_comm]
  · simp only [CompoundStyle.withAttr, CompoundStyle.addAttr, CompoundStyle.hasAttr, Attrs.has_eq, Attrs.set, BitVec.getLsbD_or, Attrs.bytes_bit]
    simp
  · simp [CompoundStyle.hasAttr, Attrs.has_eq]

/-- Attributes and colors don't interfere, and each setter sets what it says and nothing else. -/
theorem C41_setters (s : CompoundStyle) (a : Attr) (f b : Color) :
    s.setFg f = { s with fg := some f } ∧ s.setBg b = { s with bg := some b } ∧ s.setFgBg f b = (s.setFg f).setBg b ∧
    (s.addAttr a).fg = s.fg ∧ (s.addAttr a).bg = s.bg ∧ (s.addAttr a).underline = s.underline ∧
    (s.removeAttr a).fg = s.fg ∧ (s.removeAttr a).bg = s.bg ∧ (s.removeAttr a).underline = s.underline := by
  refine ⟨rfl, rfl, rfl, rfl, rfl, rfl, rfl, rfl, rfl⟩

theorem overwrite_fg (s o : CompoundStyle) : (s.overwriteWith o).fg = (match o.fg with | some c => some c | none => s.fg) :=
  (C41_overwrite_colors s o).1
theorem overwrite_bg (s o : CompoundStyle) : (s.overwriteWith o).bg = (match o.bg with | some c => some c | none => s.bg) :=
  (C41_overwrite_colors s o).2

/-- The colors of a compound which isn't an ellipsis are those of the strongest of the line style, the italic style, the
strikeout style, the bold style and the inline code style, among those which apply and have such a color. -/
theorem C41_compound_colors (skin : Skin) (ls : LineStyle) (c : Compound) (h : c.src ≠ ['…']) :
    (skin.compoundStyle ls c).fg = Spec.topmost (·.fg) (Spec.layers skin ls c) ∧
    (skin.compoundStyle ls c).bg = Spec.topmost (·.bg) (Spec.layers skin ls c) := by
  simp only [Skin.compoundStyle, if_neg h, Spec.layers, Spec.topmost]
  constructor
  · cases c.flags.italic <;> cases c.flags.strikeout <;> cases c.flags.bold <;> cases c.flags.code <;>
      simp [overwrite_fg] <;> cases ls.style.fg <;> rfl
  · cases c.flags.italic <;> cases c.flags.strikeout <;> cases c.flags.bold <;> cases c.flags.code <;>
      simp [overwrite_bg] <;> cases ls.style.bg <;> rfl

/-- ... and its attributes are those of all the styles which apply. -/
theorem C41_compound_attrs (skin : Skin) (ls : LineStyle) (c : Compound) (a : Attr) (h : c.src ≠ ['…']) :
    (skin.compoundStyle ls c).hasAttr a = true ↔ ∃ s ∈ Spec.layers skin ls c, s.hasAttr a = true := by
  simp only [Skin.compoundStyle, if_neg h, Spec.layers]
  cases c.flags.italic <;> cases c.flags.strikeout <;> cases c.flags.bold <;> cases c.flags.code <;>
    simp [C41_overwrite_attrs, or_assoc]

/-- A compound without marker has the style of its line. -/
theorem C41_compound_plain (skin : Skin) (ls : LineStyle) (t : Text) (h : t ≠ ['…']) :
    skin.compoundStyle ls ⟨t, {}⟩ = ls.style := by
  simp [Skin.compoundStyle, h]

/-- The ellipsis has its own style, whatever its line and markers. -/
theorem C41_ellipsis (skin : Skin) (ls : LineStyle) (f : Flags) : skin.compoundStyle ls ⟨['…'], f⟩ = skin.ellipsis := by
  simp [Skin.compoundStyle]

example : (Skin.default.compoundStyle Skin.default.paragraph ⟨['a'], { bold := true, code := true }⟩).fg = some (gray 17) ∧
    (Skin.default.compoundStyle Skin.default.paragraph ⟨['a'], { bold := true, code := true }⟩).hasAttr .bold = true ∧
    (Skin.default.compoundStyle Skin.default.paragraph ⟨['a'], { bold := true, code := true }⟩).hasAttr .italic = false := by decide

/-- Blending only changes the foreground, which is blended twice; a blend which changes no color changes nothing. -/
theorem C41_blend (s : CompoundStyle) (mix : Color → Color) :
    (s.blendWith mix).fg = s.fg.map (fun c => mix (mix c)) ∧ (s.blendWith mix).bg = s.bg ∧
    (s.blendWith mix).underline = s.underline ∧ (∀ a, (s.blendWith mix).hasAttr a = s.hasAttr a) ∧ s.blendWith id = s := by
  cases s with
  | mk fg bg u a =>
    refine ⟨?_, rfl, rfl, fun _ => rfl, ?_⟩
    · cases fg <;> rfl
    · cases fg <;> rfl

/-- Hence, contrary to the documentation, the background isn't blended. -/
theorem C41_blend_counterexample : ∃ (s : CompoundStyle) (mix : Color → Color),
    s.bg = some .red ∧ mix .red = .blue ∧ (s.blendWith mix).bg = some .red :=
  ⟨{ bg := some .red }, fun _ => .blue, rfl, rfl, rfl⟩

/-- ... and the foreground is blended more than asked. -/
theorem C41_blend_twice_counterexample : ∃ (s : CompoundStyle) (mix : Color → Color),
    s.fg = some (.rgb 0 0 0) ∧ mix (.rgb 0 0 0) = .rgb 10 10 10 ∧ (s.blendWith mix).fg = some (.rgb 20 20 20) :=
  ⟨{ fg := some (.rgb 0 0 0) }, fun c => match c with | .rgb r g b => .rgb (r + 10) (g + 10) (b + 10) | c => c, rfl, rfl, rfl⟩

/-- A blend of weight 0 lets a skin unchanged. -/
theorem C41_skin_blend_unchanged (skin : Skin) : skin.blendWith id = skin := by
  have h (s : CompoundStyle) : s.blendWith id = s := (C41_blend s id).2.2.2.2
  have hl (s : LineStyle) : s.blendWith id = s := by simp [LineStyle.blendWith, h]
  have hc (s : StyledChar) : s.blendWith id = s := by simp [StyledChar.blendWith, h]
  simp [Skin.blendWith, h, hl, hc]

/-- After setters, whatever they are, a styled char draws what its accessors say, whether displayed or repeated. -/
theorem C42_setters (sc : StyledChar) (h : Spec.DrawsItsState sc) (ops : List SCOp) (hs : ∀ op ∈ ops, op.IsSetter) (n : Nat) :
    Spec.DrawsItsState (ops.foldl SCOp.run sc) ∧
    (ops.foldl SCOp.run sc).repeated n = [((ops.foldl SCOp.run sc).style, List.replicate n (ops.foldl SCOp.run sc).char)] := by
  refine ⟨?_, rfl⟩
  induction ops generalizing sc with
  | nil => exact h
  | cons op rest ih =>
    apply ih _ _ (fun o ho => hs o (List.mem_cons_of_mem _ ho))
    have := hs op List.mem_cons_self
    cases op <;> first | rfl | exact this.elim

/-- All the constructors give such a char, with the given style and char. -/
theorem C42_new (s : CompoundStyle) (f : Color) (c : Char) :
    Spec.DrawsItsState (.new s c) ∧ (StyledChar.new s c).style = s ∧ (StyledChar.new s c).char = c ∧
    Spec.DrawsItsState (.nude c) ∧ (StyledChar.nude c).style = {} ∧ (StyledChar.nude c).char = c ∧
    Spec.DrawsItsState (.fromFgChar f c) ∧ (StyledChar.fromFgChar f c).style = { fg := some f } ∧ (StyledChar.fromFgChar f c).char = c := by
  refine ⟨rfl, rfl, rfl, rfl, rfl, rfl, rfl, rfl, rfl⟩

/-- Whatever happened before, blends included, a setter makes the drawing right. -/
theorem C42_restored (sc : StyledChar) (ops : List SCOp) (op : SCOp) (hs : op.IsSetter) :
    Spec.DrawsItsState ((ops ++ [op]).foldl SCOp.run sc) := by
  rw [List.foldl_append]
  cases op <;> first | rfl | exact hs.elim

/-- Setting the char, a color or the style changes nothing else. -/
theorem C42_frame (sc : StyledChar) (c : Char) (f b : Color) (s : CompoundStyle) :
    (sc.setChar c).char = c ∧ (sc.setChar c).style = sc.style ∧
    (sc.setFg f).char = sc.char ∧ (sc.setFg f).style = { sc.style with fg := some f } ∧
    (sc.setBg b).char = sc.char ∧ (sc.setBg b).style = { sc.style with bg := some b } ∧
    (sc.setCompoundStyle s).char = sc.char ∧ (sc.setCompoundStyle s).style = s := by
  refine ⟨rfl, rfl, rfl, rfl, rfl, rfl, rfl, rfl⟩

/-- But blending lets the char drawn with its former color, while it's repeated with the new one. -/
theorem C42_blend_counterexample : ∃ (sc : StyledChar) (mix : Color → Color), Spec.DrawsItsState sc ∧
    (sc.blendWith mix).style = { fg := some .blue } ∧ (sc.blendWith mix).display = [({ fg := some .red }, ['*'])] ∧
    (sc.blendWith mix).repeated 1 = [({ fg := some .blue }, ['*'])] :=
  ⟨.fromFgChar .red '*', fun _ => .blue, rfl, rfl, rfl, rfl⟩

/-- The styled characters of all the constructible skins, after any of their setters, draw what their accessors say. -/
theorem C42_skin (skin : Skin) (h : skin = .default ∨ skin = .noStyle ∨ skin = .defaultDark ∨ skin = .defaultLight) (ops : List SkinOp)
    (sc : StyledChar) (hsc : Spec.IsCharOf (ops.foldl SkinOp.run skin) sc) : Spec.DrawsItsState sc := by
  have h0 : ∀ sc, Spec.IsCharOf skin sc → Spec.DrawsItsState sc := by
    intro sc hsc
    rcases h with h | h | h | h <;> subst h <;>
      (simp only [Spec.IsCharOf] at hsc
       rcases hsc with h | h | h | h | h | ⟨c, h⟩
       · subst h; rfl
       · subst h; rfl
       · subst h; rfl
       · subst h; rfl
       · subst h; rfl
       · cases h)
  clear h
  induction ops generalizing skin with
  | nil => exact h0 sc hsc
  | cons op rest ih =>
    refine ih (op.run skin) hsc ?_
    intro sc hsc
    simp only [Spec.IsCharOf] at h0 hsc
    cases op <;>
      (rcases hsc with h | h | h | h | h | ⟨c, h⟩
       · first | (subst h; rfl) | exact h0 _ (.inl h)
       · first | (subst h; rfl) | exact h0 _ (.inr (.inl h))
       · first | (subst h; rfl) | exact h0 _ (.inr (.inr (.inl h)))
       · first | (subst h; rfl) | exact h0 _ (.inr (.inr (.inr (.inl h))))
       · first | (subst h; rfl) | exact h0 _ (.inr (.inr (.inr (.inr (.inl h)))))
       · first
         | exact h0 _ (.inr (.inr (.inr (.inr (.inr ⟨c, h⟩)))))
         | (simp only [SkinOp.run, Skin.setFg, Skin.setBg, Option.map_eq_some_iff] at h
            obtain ⟨sc', _, h⟩ := h
            subst h; rfl))

example : Spec.IsCharOf ([SkinOp.setFg .red, .limitToAscii].foldl SkinOp.run .default) ⟨{ fg := some .red }, '*', ({ fg := some .red }, '*')⟩ := .inl rfl

/-- But blending a skin lets its bullets with their former color. -/
theorem C42_skin_blend_counterexample : ∃ mix : Color → Color,
    (Skin.default.blendWith mix).bullet.style = { fg := some .red } ∧ (Skin.default.blendWith mix).bullet.display = [({ fg := some (gray 8) }, ['•'])] :=
  ⟨fun _ => .red, rfl, rfl⟩

end Props
end Verif

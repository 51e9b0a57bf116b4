import Verif.Props.Serde
import Verif.Props.SkinRender
/-! What is displayed with a skin which has been serialized and deserialized (C40). -/
namespace Verif
open Spec

/-- A skin whose characters are all written in its serialization, and drawn as they should: readable characters (or stars), margins which
are `u16`, one of the sets of characters for tables of the crate, indentation by blocks, no special character. Colors and attributes are any
ones. -/
structure Spec.WrittenSkin (k : Classes) (skin : Skin) : Prop where
  bullet : (IsReadable k skin.bullet.char ∨ skin.bullet.char = '*') ∧ skin.bullet.drawn.2 = skin.bullet.char
  quoteMark : (IsReadable k skin.quoteMark.char ∨ skin.quoteMark.char = '*') ∧ skin.quoteMark.drawn.2 = skin.quoteMark.char
  horizontalRule : IsReadable k skin.horizontalRule.char ∨ skin.horizontalRule.char = '*'
  margins : ∀ ls, (ls = skin.paragraph ∨ ls = skin.codeBlock ∨ ∃ i, ls = skin.headers i) → ls.leftMargin < 65536 ∧ ls.rightMargin < 65536
  borders : IsStandardBorder skin.tableBorderChars
  indentMode : skin.indentMode = .block
  specialChars : ∀ c, skin.specialChars c = none

namespace Props

private theorem lineShape_reread {ls : LineStyle} (h : ls.leftMargin < 65536 ∧ ls.rightMargin < 65536) :
    lineShape (rereadLine ls) = lineShape ls := by
  simp [lineShape, rereadLine, h.1, h.2]

private theorem char_reread {k : Classes} {sc : StyledChar} (h : IsReadable k sc.char ∨ sc.char = '*') :
    (rereadChar k sc).char = sc.char ∧ (rereadChar k sc).drawn.2 = sc.char := by
  by_cases hr : IsReadable k sc.char
  · simp [rereadChar, hr, StyledChar.new]
  · have := h.resolve_left hr
    simp [rereadChar, StyledChar.new, this]

/-- A skin which is saved then read back displays the same characters for all texts, even if its colors or attributes are among those which
can't be written. -/
theorem C40_same_text {k : Classes} (hk : RegexClasses k) (skin : Skin) (h : IsSkin skin) (hw : WrittenSkin k skin)
    (entries : List (String × DataValue)) (hp : entries.Perm skin.serialize) :
    ∃ skin', Skin.deserialize k entries = .ok skin' ∧ ∀ (cw : Char → Nat) (ws : Char → Bool) (mlines : List MLine) (width : Option Nat),
      shownText cw ws skin' mlines width = shownText cw ws skin mlines width := by
  refine ⟨_, C40_reread hk skin h entries hp, fun cw ws mlines width => C49_same_text cw ws _ _ ?_ mlines width⟩
  exact {
    paragraph := lineShape_reread (hw.margins _ (.inl rfl))
    codeBlock := lineShape_reread (hw.margins _ (.inr (.inl rfl)))
    headers := fun i => lineShape_reread (hw.margins _ (.inr (.inr ⟨i, rfl⟩)))
    table := rfl
    indentMode := hw.indentMode.symm
    bullet := (char_reread hw.bullet.1).2.trans hw.bullet.2.symm
    quoteMark := (char_reread hw.quoteMark.1).2.trans hw.quoteMark.2.symm
    horizontalRule := (char_reread hw.horizontalRule).1
    borders := by simp [rereadSkin, hw.borders]
    special := fun c => by simp [rereadSkin, hw.specialChars c] }

/-- A skin whose colors aren't all kept, and whose characters are. -/
example : WrittenSkin asciiClasses { Skin.default with bold := CompoundStyle.withFg .darkBlue, bullet := StyledChar.fromFgChar .darkCyan '-' } ∧
    ¬ FaithfulSkin asciiClasses { Skin.default with bold := CompoundStyle.withFg .darkBlue, bullet := StyledChar.fromFgChar .darkCyan '-' } := by
  refine ⟨⟨⟨.inl ⟨by decide, by decide, by decide, by decide⟩, rfl⟩, ⟨.inl ⟨by decide, by decide, by decide, by decide⟩, rfl⟩,
    .inl ⟨by decide, by decide, by decide, by decide⟩, ?_, .inl rfl, rfl, fun _ => rfl⟩, fun h => ?_⟩
  · rintro ls (rfl | rfl | ⟨i, rfl⟩)
    · decide
    · decide
    · revert i; decide
  · have := h.bold
    revert this
    decide

/-- A bullet which is a digit can't be read: it's displayed as a star by the skin which is read back. -/
theorem C40_text_counterexample :
    (Skin.deserialize asciiClasses { Skin.default with bullet := StyledChar.fromFgChar .red '1' }.serialize).toOption.map
      (fun s => s.bullet.drawn.2) = some '*' := by decide

end Props
end Verif

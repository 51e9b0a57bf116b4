import Verif.Model.Spacing
import Verif.Lemmas.Bytes
/-! Property C14: alignment paddings. -/
namespace Verif.Props
open Verif

/-- C14: the two completions fill exactly the missing columns, on the side(s) the alignment says. -/
theorem C14_completions (align : Alignment) (inner outer : Nat) :
    ∃ l r, Spacing.completions align inner outer = (l, r) ∧
      (outer ≤ inner → l = 0 ∧ r = 0) ∧
      (inner ≤ outer → l + inner + r = outer) ∧
      (align = .left ∨ align = .unspecified → l = 0) ∧
      (align = .right → r = 0) ∧
      (align = .center → l ≤ r ∧ r ≤ l + 1) := by
  refine ⟨(Spacing.completions align inner outer).1, (Spacing.completions align inner outer).2, by simp, ?_⟩
  unfold Spacing.completions
  by_cases h : inner ≥ outer
  · simp [h]; omega
  · cases align <;> simp [h] <;> omega

/-- C14: with no outer width there is no completion; a spacing's completions are those of its width. -/
theorem C14_optional (align : Alignment) (inner : Nat) (outer : Option Nat) (sp : Spacing) :
    (outer = none → Spacing.optionalCompletions align inner outer = (0, 0)) ∧
    (∀ o, outer = some o → Spacing.optionalCompletions align inner outer = Spacing.completions align inner o) ∧
    sp.completionsFor inner = Spacing.completions sp.align inner sp.width := by
  cases outer <;> simp [Spacing.optionalCompletions, Spacing.completionsFor]

/-- C14: `write_str` writes exactly `width` characters: the start of the text if it is too long, otherwise the
text surrounded by spaces, on the side(s) the alignment says. -/
theorem C14_writeStr (sp : Spacing) (s : Text) :
    (sp.writeStr s).length = sp.width ∧
    (sp.width ≤ s.length → sp.writeStr s <+: s) ∧
    (s.length ≤ sp.width → ∃ l r, sp.writeStr s = List.replicate l ' ' ++ s ++ List.replicate r ' ' ∧
      (sp.align = .left ∨ sp.align = .unspecified → l = 0) ∧
      (sp.align = .right → r = 0) ∧
      (sp.align = .center → l ≤ r ∧ r ≤ l + 1)) := by
  obtain ⟨l, r, e, h1, h2, h3, h4, h5⟩ := C14_completions sp.align s.length sp.width
  unfold Spacing.writeStr Spacing.writeCountedStr
  by_cases h : s.length ≥ sp.width
  · simp only [h, if_true, Spacing.truncate]
    refine ⟨by simp; omega, fun _ => List.take_prefix _ _, fun h' => ⟨0, 0, ?_, by simp⟩⟩
    have : s.length = sp.width := by omega
    simp [← this]
  · simp only [h, if_false]
    rw [show sp.completionsFor s.length = (l, r) from e]
    refine ⟨?_, fun h' => False.elim h', fun _ => ⟨l, r, rfl, h3, h4, h5⟩⟩
    simp
    have := h2 (by omega)
    omega

example : (Spacing.mk 7 .center).writeStr "abcd".toList = " abcd  ".toList := by decide
example : (Spacing.mk 3 .center).writeStr "abcd".toList = "abc".toList := by decide

/-- C14: the same for a caller-counted string, when the count is right. -/
theorem C14_writeCountedStr (sp : Spacing) (s : Text) :
    sp.writeCountedStr s s.length = sp.writeStr s := rfl

/-- C14: with the right column count given for `s`, and a text which isn't too wide, exactly `width` columns are
written, whatever the widths of the characters. -/
theorem C14_counted_columns (cw : Char → Nat) (hsp : cw ' ' = 1) (sp : Spacing) (s : Text)
    (h : textWidth cw s < sp.width) :
    textWidth cw (sp.writeCountedStr s (textWidth cw s)) = sp.width := by
  obtain ⟨l, r, e, _, h2, _, _, _⟩ := C14_completions sp.align (textWidth cw s) sp.width
  have h' : ¬ textWidth cw s ≥ sp.width := by omega
  simp only [Spacing.writeCountedStr, h', if_false]
  rw [show sp.completionsFor (textWidth cw s) = (l, r) from e]
  simp [textWidth_replicate, hsp]
  have := h2 (by omega)
  omega

/-- C14: for a too wide text with wide characters, the text is cut at `width` *characters* and overflows (this is
the FIXME of the code). -/
theorem C14_wide_counterexample :
    let cw : Char → Nat := fun c => if c = '一' then 2 else 1
    textWidth cw ((Spacing.mk 2 .left).writeCountedStr "一一一".toList 6) = 4 := by decide

end Verif.Props

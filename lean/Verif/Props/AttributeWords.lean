import Verif.Props.StyleLayout
import Verif.Props.ColorParse
/-! What's written for all attributes, and what's read of it; the error of a wrong level of gray in a style. -/
namespace Verif
open Spec

/-- A pattern with a letter which is neither a digit nor in the names of grays isn't found in a gray. -/
theorem gray_lacks (level : Nat) (name : String) (hname : name ∈ grayNames) (pat : Text) (p : Char) (hp : p ∈ pat)
    (hlo : ¬ (48 ≤ p.toNat ∧ p.toNat ≤ 57) ∧ p ∈ ['b', 'o', 'd', 'i', 'u', 'v', 'n', 'p', 'f']) :
    ciContains pat (name.toList ++ decimal level ++ [')']) = false := by
  obtain ⟨_, hlo⟩ := hlo
  apply ciContains_false _ _ p hp
  intro c hc
  simp only [List.mem_append, List.mem_cons, List.not_mem_nil, or_false] at hc
  rcases hc with (hc | hc) | rfl
  · simp only [grayNames, List.mem_cons, List.not_mem_nil, or_false] at hname
    simp only [List.mem_cons, List.not_mem_nil, or_false] at hlo
    revert c
    rcases hname with rfl | rfl | rfl | rfl <;> rcases hlo with rfl | rfl | rfl | rfl | rfl | rfl | rfl | rfl | rfl <;> decide
  · simp only [List.mem_cons, List.not_mem_nil, or_false] at hlo
    rcases hlo with rfl | rfl | rfl | rfl | rfl | rfl | rfl | rfl | rfl
    all_goals exact ciChar_digit _ _ (by decide) (decimal_digits level c hc)
  · simp only [List.mem_cons, List.not_mem_nil, or_false] at hlo
    rcases hlo with rfl | rfl | rfl | rfl | rfl | rfl | rfl | rfl | rfl <;> decide

namespace Props

/-- Two different attributes are never written in the same way, except those which aren't written at all: `Reset` and the special underlines. -/
theorem C39_attribute_names (a b : Attr) (h : writeAttribute a = writeAttribute b) :
    a = b ∨ (∀ x ∈ [a, b], x ∈ [Attr.reset, .doubleUnderlined, .undercurled, .underdotted, .underdashed] ∧ writeAttribute x = []) := by
  revert h
  cases a <;> cases b <;> decide

example : writeAttribute .noBold = "NoBold".toList ∧ writeAttribute .noBold ≠ writeAttribute .bold ∧
    writeAttribute .notOverLined ≠ writeAttribute .overLined := by decide

/-- The attributes which are read as themselves are those of styles and the blinking ones. -/
theorem C39_attribute_read {k : Classes} (a : Attr) :
    parseStyleToken k (writeAttribute a) = .ok (.attribute a) ↔ IsWritten a ∨ a = .slowBlink ∨ a = .rapidBlink := by
  cases a <;> simp [IsWritten] <;> first | rfl | (intro h; cases h)

/-- An attribute removing another one is read as the one it removes: the names of attributes are searched anywhere in a word. -/
theorem C39_removal_counterexample (k : Classes) :
    parseStyleToken k (writeAttribute .noBold) = .ok (.attribute .bold) ∧
    parseStyleToken k (writeAttribute .noItalic) = .ok (.attribute .italic) ∧
    parseStyleToken k (writeAttribute .noReverse) = .ok (.attribute .reverse) ∧
    parseStyleToken k (writeAttribute .notCrossedOut) = .ok (.attribute .crossedOut) ∧
    parseStyleToken k (writeAttribute .notOverLined) = .ok (.attribute .overLined) ∧
    parseStyleToken k (writeAttribute .notFramedOrEncircled) = .ok (.attribute .encircled) := ⟨rfl, rfl, rfl, rfl, rfl, rfl⟩

/-- In a style, a level of gray under 24 is a color, a greater one under 256 is an invalid color and not an unknown word, and a number over 255
is an unknown word. -/
theorem C52_gray_token {k : Classes} (hk : RegexClasses k) (level : Nat) (name : String) (hname : name ∈ grayNames) :
    parseStyleToken k (name.toList ++ decimal level ++ [')']) =
      if level < 24 then .ok (.color (.ansi (232 + level)))
      else if level < 256 then .error (.invalidColor (.invalidGreyLevel level))
      else .error (.unrecognized (name.toList ++ decimal level ++ [')'])) := by
  have key : ∀ (pat : Text) (p : Char), p ∈ pat → ¬ (48 ≤ p.toNat ∧ p.toNat ≤ 57) ∧ p ∈ ['b', 'o', 'd', 'i', 'u', 'v', 'n', 'p', 'f'] →
      ciContains pat (name.toList ++ decimal level ++ [')']) = false := fun pat p hp hlo => gray_lacks level name hname pat p hp hlo
  have hn := key "none".toList 'n' (by decide) (by decide)
  have hu : parseUnsigned 65536 (name.toList ++ decimal level ++ [')']) = none := by
    simp only [grayNames, List.mem_cons, List.not_mem_nil, or_false] at hname
    rcases hname with rfl | rfl | rfl | rfl
    all_goals exact parseUnsigned_none _ _ _ (by decide) (by decide)
  have ha : parseAttribute (name.toList ++ decimal level ++ [')']) = none := by
    unfold parseAttribute ciContainsSep
    rw [key "bold".toList 'b' (by decide) (by decide), key ("crossed".toList ++ "out".toList) 'o' (by decide) (by decide),
      key ("crossed".toList ++ '_' :: "out".toList) 'o' (by decide) (by decide), key ("crossed".toList ++ '-' :: "out".toList) 'o' (by decide) (by decide),
      key "dim".toList 'd' (by decide) (by decide), key "italic".toList 'i' (by decide) (by decide),
      key ("under".toList ++ "lined".toList) 'u' (by decide) (by decide), key ("under".toList ++ '_' :: "lined".toList) 'u' (by decide) (by decide),
      key ("under".toList ++ '-' :: "lined".toList) 'u' (by decide) (by decide), key ("over".toList ++ "lined".toList) 'o' (by decide) (by decide),
      key ("over".toList ++ '_' :: "lined".toList) 'o' (by decide) (by decide), key ("over".toList ++ '-' :: "lined".toList) 'o' (by decide) (by decide),
      key "reverse".toList 'v' (by decide) (by decide), key "encircled".toList 'n' (by decide) (by decide),
      key ("slow".toList ++ "blink".toList) 'o' (by decide) (by decide), key ("slow".toList ++ '_' :: "blink".toList) 'o' (by decide) (by decide),
      key ("slow".toList ++ '-' :: "blink".toList) 'o' (by decide) (by decide), key ("rapid".toList ++ "blink".toList) 'p' (by decide) (by decide),
      key ("rapid".toList ++ '_' :: "blink".toList) 'p' (by decide) (by decide), key ("rapid".toList ++ '-' :: "blink".toList) 'p' (by decide) (by decide)]
    rfl
  have hal : parseAlign (name.toList ++ decimal level ++ [')']) = none := by
    unfold parseAlign
    rw [key "left".toList 'f' (by decide) (by decide), key "center".toList 'n' (by decide) (by decide), key "right".toList 'i' (by decide) (by decide)]
    rfl
  have hc := C52_gray hk level name hname
  have hlen : 2 ≤ (name.toList ++ decimal level ++ [')']).length := by
    simp only [grayNames, List.mem_cons, List.not_mem_nil, or_false] at hname
    rcases hname with rfl | rfl | rfl | rfl <;> simp <;> omega
  generalize name.toList ++ decimal level ++ [')'] = s at *
  unfold parseStyleToken
  simp only [hn, hu, hc, Bool.false_eq_true, if_false]
  by_cases h1 : level < 24
  · simp only [if_pos h1]
  · by_cases h2 : level < 256
    · simp only [if_neg h1, if_pos h2]
    · simp only [if_neg h1, if_neg h2, ha, hal]
      match s, hlen with
      | a :: b :: t, _ => rfl

example : "gray(" ∈ grayNames ∧ parseStyleToken asciiClasses "gray(23)".toList = .ok (.color (.ansi 255)) ∧
    parseStyleToken asciiClasses "gray(24)".toList = .error (.invalidColor (.invalidGreyLevel 24)) ∧
    parseStyleToken asciiClasses "gray(256)".toList = .error (.unrecognized "gray(256)".toList) := by
  refine ⟨by decide, rfl, rfl, rfl⟩

end Props
end Verif

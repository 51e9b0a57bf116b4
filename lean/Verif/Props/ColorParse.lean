import Verif.Lemmas.ParseTokens
import Verif.Props.Parse
/-! Strings denote the expected colors (C52). -/
namespace Verif
open Spec

/-- The character is the hexadecimal digit, in any case, with the value. -/
def Spec.IsHexDigit (c : Char) (v : Nat) : Prop :=
  (v < 10 ∧ c.toNat = 48 + v) ∨ (10 ≤ v ∧ v < 16 ∧ (c.toNat = 87 + v ∨ c.toNat = 55 + v))

/-- The colors of names. -/
def Spec.namedColors : List (String × Color) :=
  [("black", .ansi 16), ("blue", .blue), ("cyan", .cyan), ("darkgreen", .darkGreen), ("darkmagenta", .darkMagenta), ("darkred", .darkRed),
   ("green", .green), ("grey", .grey), ("magenta", .magenta), ("red", .red), ("yellow", .yellow), ("white", .ansi 231)]

/-- The beginnings of a level of gray. -/
def Spec.grayNames : List String := ["gray(", "grey(", "grayscale(", "greyscale("]

namespace Props

theorem decimalAux_eq : ∀ (fuel n : Nat) (acc : List Char), n < fuel → Nat.toDigitsCore 10 fuel n acc = decimalAux fuel n ++ acc := by
  intro fuel
  induction fuel with
  | zero => intro n acc h; omega
  | succ fuel ih =>
    intro n acc h
    have hd : Nat.digitChar (n % 10) = Char.ofNat ('0'.toNat + n % 10) := by
      have : n % 10 < 10 := Nat.mod_lt _ (by decide)
      generalize n % 10 = d at *
      match d, this with
      | 0, _ => rfl
      | 1, _ => rfl
      | 2, _ => rfl
      | 3, _ => rfl
      | 4, _ => rfl
      | 5, _ => rfl
      | 6, _ => rfl
      | 7, _ => rfl
      | 8, _ => rfl
      | 9, _ => rfl
    simp only [Nat.toDigitsCore, decimalAux]
    rw [hd]
    by_cases h10 : n < 10
    · rw [if_pos (show n / 10 = 0 by omega), if_pos h10]; rfl
    · rw [if_neg (show ¬ n / 10 = 0 by omega), if_neg h10, ih _ _ (by omega)]
      simp

/-- The decimal writing of the model is the one of the standard library. -/
theorem C52_decimal (n : Nat) : decimal n = Nat.toDigits 10 n := by
  have := decimalAux_eq (n + 1) n [] (by omega)
  rw [List.append_nil] at this
  exact this.symm

theorem parse_decimal_over (n limit : Nat) (h : limit ≤ n) : parseUnsigned limit (decimal n) = none := by
  have e := parse_decimal n (n + 1) (by omega)
  unfold parseUnsigned at e ⊢
  split
  · rfl
  · rename_i hne
    rw [if_neg hne] at e
    cases hv : digitsVal digitVal 10 0 (stripPlus (decimal n)) with
    | none => rfl
    | some m =>
      rw [hv] at e
      simp only [Option.bind_eq_bind, Option.bind_some] at e ⊢
      split at e
      · injection e with e; subst e; rw [if_neg (by omega)]
      · cases e

/-- A number of the palette. -/
theorem C52_ansi {k : Classes} (hk : RegexClasses k) (v : Nat) :
    parseColor k ("ansi(".toList ++ decimal v ++ [')']) = if v < 256 then .ok (.ansi v) else .error .unrecognized := by
  have hm : matchAnsi k ("ansi(".toList ++ decimal v ++ [')']) = some (decimal v) := by
    rw [List.append_assoc]
    have : ciPrefix "ansi(".toList ("ansi(".toList ++ (decimal v ++ [')'])) = some (decimal v ++ [')']) := rfl
    unfold matchAnsi
    rw [this]
    exact digitsEnd_decimal hk v
  unfold parseColor
  rw [hm]
  by_cases h : v < 256
  · simp only [parse_decimal v 256 h, if_pos h]
  · simp only [parse_decimal_over v 256 (by omega), if_neg h]

/-- A level of gray. -/
theorem C52_gray {k : Classes} (hk : RegexClasses k) (level : Nat) (name : String) (hname : name ∈ grayNames) :
    parseColor k (name.toList ++ decimal level ++ [')']) =
      if level < 24 then .ok (.ansi (232 + level)) else if level < 256 then .error (.invalidGreyLevel level) else .error .unrecognized := by
  have hm : matchAnsi k (name.toList ++ decimal level ++ [')']) = none ∧ matchGray k (name.toList ++ decimal level ++ [')']) = some (decimal level) := by
    rw [List.append_assoc]
    have e := digitsEnd_decimal hk level
    generalize decimal level ++ [')'] = t at *
    simp only [grayNames, List.mem_cons, List.not_mem_nil, or_false] at hname
    rcases hname with rfl | rfl | rfl | rfl
    all_goals exact ⟨rfl, e⟩
  unfold parseColor
  rw [hm.1, hm.2]
  by_cases h1 : level < 24
  · simp only [parse_decimal level 256 (by omega), if_pos h1, if_neg (show ¬ level > 23 by omega)]
    simp only [gray]
    congr 2; omega
  · by_cases h2 : level < 256
    · simp only [parse_decimal level 256 h2, if_neg h1, if_pos h2, if_pos (show level > 23 by omega)]
    · simp only [parse_decimal_over level 256 (by omega), if_neg h1, if_neg h2]

theorem digitsComma_spaces {k : Classes} (hk : RegexClasses k) (n m : Nat) (w rest : Text) (hw : ∀ c ∈ w, k.ws c = true) :
    digitsComma k (decimal n ++ ',' :: (w ++ (decimal m ++ rest))) = some (decimal n, decimal m ++ rest) := by
  unfold digitsComma
  rw [takeDigits_decimal hk n ',' _ (by rw [hk.digit _ (by decide)]; decide)]
  have hd : ∀ x, (decimal m ++ rest).head? = some x → k.ws x = false := by
    intro x hx
    have hn := decimal_ne m
    have hdd := decimal_digits m
    generalize decimal m = ds at *
    match ds, hn with
    | d :: ds, _ =>
      simp only [List.cons_append, List.head?_cons, Option.some.injEq] at hx
      subst hx; exact ws_digit hk _ (hdd d (by simp))
  have := (takeWhile_all k.ws w (decimal m ++ rest) hw hd).2
  simp [this]

/-- A RGB color, with any spaces after commas. -/
theorem C52_rgb {k : Classes} (hk : RegexClasses k) (r g b : Nat) (w1 w2 : Text) (h1 : ∀ c ∈ w1, k.ws c = true) (h2 : ∀ c ∈ w2, k.ws c = true) :
    parseColor k ("rgb(".toList ++ (decimal r ++ ',' :: (w1 ++ (decimal g ++ ',' :: (w2 ++ (decimal b ++ [')'])))))) =
      if r < 256 ∧ g < 256 ∧ b < 256 then .ok (.rgb r g b) else .error .unrecognized := by
  have hma : ∀ t, matchAnsi k ("rgb(".toList ++ t) = none := fun _ => rfl
  have hmg : ∀ t, matchGray k ("rgb(".toList ++ t) = none := fun _ => rfl
  have hm : matchRgb k ("rgb(".toList ++ (decimal r ++ ',' :: (w1 ++ (decimal g ++ ',' :: (w2 ++ (decimal b ++ [')'])))))) = some (decimal r, decimal g, decimal b) := by
    have : ∀ t, ciPrefix "rgb(".toList ("rgb(".toList ++ t) = some t := fun _ => rfl
    unfold matchRgb
    rw [this]
    simp only [Option.bind_eq_bind, Option.bind_some, digitsComma_spaces hk r g w1 _ h1, digitsComma_spaces hk g b w2 _ h2, digitsEnd_decimal hk b]
  unfold parseColor
  rw [hma, hmg, hm]
  by_cases hr : r < 256
  · by_cases hg : g < 256
    · by_cases hb : b < 256
      · simp only [parse_decimal r 256 hr, parse_decimal g 256 hg, parse_decimal b 256 hb, hr, hg, hb, and_self, if_true]
      · simp only [parse_decimal r 256 hr, parse_decimal g 256 hg, parse_decimal_over b 256 (by omega), hb, and_false, if_false]
    · simp only [parse_decimal r 256 hr, parse_decimal_over g 256 (by omega), hg, and_false, false_and, if_false]
  · simp only [parse_decimal_over r 256 (by omega), hr, false_and, if_false]

theorem hexVal_digit {c : Char} {v : Nat} (h : IsHexDigit c v) : hexVal c = some v := by
  have e0 : '0'.toNat = 48 := rfl
  have e9 : '9'.toNat = 57 := rfl
  have ea : 'a'.toNat = 97 := rfl
  have ef : 'f'.toNat = 102 := rfl
  have eA : 'A'.toNat = 65 := rfl
  have eF : 'F'.toNat = 70 := rfl
  unfold hexVal
  rw [e0, e9, ea, ef, eA, eF]
  rcases h with ⟨h1, h2⟩ | ⟨h1, h2, h3 | h3⟩
  · rw [if_pos (by omega)]; congr 1; omega
  · rw [if_neg (by omega), if_pos (by omega)]; congr 1; omega
  · rw [if_neg (by omega), if_neg (by omega), if_pos (by omega)]; congr 1; omega

theorem hexClass_digit {k : Classes} (hk : RegexClasses k) {c : Char} {v : Nat} (h : IsHexDigit c v) : isHexClass k c = true := by
  unfold isHexClass
  have le : ∀ a b : Char, (a ≤ b) = (a.toNat ≤ b.toNat) := fun a b => rfl
  simp only [le, Bool.or_eq_true, Bool.and_eq_true, decide_eq_true_eq]
  have ea : 'a'.toNat = 97 := rfl
  have ef : 'f'.toNat = 102 := rfl
  have eA : 'A'.toNat = 65 := rfl
  have eF : 'F'.toNat = 70 := rfl
  rw [ea, ef, eA, eF]
  rcases h with ⟨h1, h2⟩ | ⟨h1, h2, h3 | h3⟩
  · left; left; exact dg_digit hk c (by omega)
  · left; right; omega
  · right; omega

theorem hex_others (k : Classes) (t : Text) : matchAnsi k ('#' :: t) = none ∧ matchGray k ('#' :: t) = none ∧ matchRgb k ('#' :: t) = none := ⟨rfl, rfl, rfl⟩

/-- Six hexadecimal digits. -/
theorem C52_hex {k : Classes} (hk : RegexClasses k) (c1 c2 c3 c4 c5 c6 : Char) (v1 v2 v3 v4 v5 v6 : Nat)
    (h1 : IsHexDigit c1 v1) (h2 : IsHexDigit c2 v2) (h3 : IsHexDigit c3 v3) (h4 : IsHexDigit c4 v4) (h5 : IsHexDigit c5 v5) (h6 : IsHexDigit c6 v6) :
    parseColor k ['#', c1, c2, c3, c4, c5, c6] = .ok (.rgb (16 * v1 + v2) (16 * v3 + v4) (16 * v5 + v6)) := by
  obtain ⟨e1, e2, e3⟩ := hex_others k [c1, c2, c3, c4, c5, c6]
  unfold parseColor
  rw [e1, e2, e3]
  have hm : matchHex k ['#', c1, c2, c3, c4, c5, c6] = some ([c1, c2], [c3, c4], [c5, c6]) := by
    simp only [matchHex, List.all_cons, List.all_nil, hexClass_digit hk h1, hexClass_digit hk h2, hexClass_digit hk h3, hexClass_digit hk h4,
      hexClass_digit hk h5, hexClass_digit hk h6, Bool.and_true, if_true]
  rw [hm]
  simp only [parseHex, digitsVal, hexVal_digit h1, hexVal_digit h2, hexVal_digit h3, hexVal_digit h4, hexVal_digit h5, hexVal_digit h6,
    Option.bind_eq_bind, Option.bind_some, Nat.mul_comm _ 16, Nat.mul_zero, Nat.zero_add]

/-- Three hexadecimal digits: they're doubled. -/
theorem C52_short_hex {k : Classes} (hk : RegexClasses k) (c1 c2 c3 : Char) (v1 v2 v3 : Nat)
    (h1 : IsHexDigit c1 v1) (h2 : IsHexDigit c2 v2) (h3 : IsHexDigit c3 v3) :
    parseColor k ['#', c1, c2, c3] = .ok (.rgb (17 * v1) (17 * v2) (17 * v3)) := by
  obtain ⟨e1, e2, e3⟩ := hex_others k [c1, c2, c3]
  unfold parseColor
  rw [e1, e2, e3]
  have hm : matchHex k ['#', c1, c2, c3] = some ([c1], [c2], [c3]) := by
    simp only [matchHex, List.all_cons, List.all_nil, hexClass_digit hk h1, hexClass_digit hk h2, hexClass_digit hk h3, Bool.and_true, if_true]
  rw [hm]
  simp only [parseHex, digitsVal, hexVal_digit h1, hexVal_digit h2, hexVal_digit h3, Option.bind_eq_bind, Option.bind_some, Nat.zero_mul, Nat.zero_add]
  congr 2 <;> omega

/-- Names (here in lower case, see `C53_case` for the other ones). -/
theorem C52_names (k : Classes) (name : String) (c : Color) (h : (name, c) ∈ namedColors) : parseColor k name.toList = .ok c := by
  simp only [namedColors, List.mem_cons, Prod.mk.injEq, List.not_mem_nil, or_false] at h
  rcases h with ⟨rfl, rfl⟩ | ⟨rfl, rfl⟩ | ⟨rfl, rfl⟩ | ⟨rfl, rfl⟩ | ⟨rfl, rfl⟩ | ⟨rfl, rfl⟩ | ⟨rfl, rfl⟩ | ⟨rfl, rfl⟩ | ⟨rfl, rfl⟩ | ⟨rfl, rfl⟩ | ⟨rfl, rfl⟩ | ⟨rfl, rfl⟩
  all_goals rfl

/-- C52: `gray` gives the 24 grays of the palette of 256 colors, from the darkest to the lightest one, and the lightest one for greater levels. -/
theorem C52_gray_level (level : Nat) : gray level = .ansi (if level < 24 then 232 + level else 255) := by
  unfold gray
  by_cases h : level < 24
  · rw [if_pos h, Nat.min_eq_left (by omega)]
  · rw [if_neg h, Nat.min_eq_right (by omega)]

/-- Four dark colors are read as the normal ones. -/
theorem C52_dark_counterexample (k : Classes) :
    parseColor k "darkblue".toList = .ok .blue ∧ parseColor k "darkcyan".toList = .ok .cyan ∧ parseColor k "darkyellow".toList = .ok .yellow ∧
    parseColor k "darkgrey".toList = .ok .grey := ⟨rfl, rfl, rfl, rfl⟩

/-- Names are searched anywhere: an unknown name containing a known one is accepted. -/
theorem C52_contains_counterexample (k : Classes) : parseColor k "redish".toList = .ok .red := rfl

/-- Four or five hexadecimal digits are accepted: the first components take two digits. -/
theorem C52_four_hex_counterexample : parseColor asciiClasses "#1234".toList = .ok (.rgb 0x12 0x33 0x44) := by decide

example : IsHexDigit 'c' 12 ∧ IsHexDigit 'F' 15 ∧ IsHexDigit '7' 7 ∧ parseColor asciiClasses "#7cF".toList = .ok (.rgb 0x77 0xcc 0xff) ∧
    parseColor asciiClasses "#7cF07c".toList = .ok (.rgb 0x7c 0xf0 0x7c) ∧
    parseColor asciiClasses "grey(23)".toList = .ok (.ansi 255) ∧ parseColor asciiClasses "gray(24)".toList = .error (.invalidGreyLevel 24) ∧
    parseColor asciiClasses "rgb(0,  12,255)".toList = .ok (.rgb 0 12 255) ∧ parseColor asciiClasses "rgb(0,256,0)".toList = .error .unrecognized := by
  refine ⟨?_, ?_, ?_, by decide, by decide, by decide, by decide, by decide, by decide⟩ <;> simp [IsHexDigit]

end Props
end Verif

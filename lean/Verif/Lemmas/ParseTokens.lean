import Verif.Lemmas.Parse
/-! Lemmas on the reading of the tokens which are written. -/
namespace Verif
open Spec

theorem dg_digit {k : Classes} (hk : RegexClasses k) (c : Char) (h : 48 ≤ c.toNat ∧ c.toNat ≤ 57) : k.dg c = true := by
  rw [hk.digit c (by omega)]; simp [h]

theorem ws_digit {k : Classes} (hk : RegexClasses k) (c : Char) (h : 48 ≤ c.toNat ∧ c.toNat ≤ 57) : k.ws c = false :=
  hk.visible c (by omega) (by omega)

theorem takeDigits_decimal {k : Classes} (hk : RegexClasses k) (n : Nat) (c : Char) (rest : Text) (hc : k.dg c = false) :
    takeDigits k (decimal n ++ c :: rest) = some (decimal n, c :: rest) := by
  obtain ⟨t1, t2⟩ := takeWhile_all k.dg (decimal n) (c :: rest) (fun x hx => dg_digit hk x (decimal_digits n x hx))
    (by intro x hx; simp only [List.head?_cons, Option.some.injEq] at hx; subst hx; exact hc)
  unfold takeDigits
  rw [t1, t2, if_neg (decimal_ne n)]

theorem digitsEnd_decimal {k : Classes} (hk : RegexClasses k) (n : Nat) : digitsEnd k (decimal n ++ [')']) = some (decimal n) := by
  unfold digitsEnd
  rw [takeDigits_decimal hk n ')' [] (by rw [hk.digit _ (by decide)]; decide)]
  simp

theorem digitsComma_decimal {k : Classes} (hk : RegexClasses k) (n : Nat) (rest : Text) (hr : ∀ x, rest.head? = some x → k.ws x = false) :
    digitsComma k (decimal n ++ ',' :: ' ' :: rest) = some (decimal n, rest) := by
  unfold digitsComma
  rw [takeDigits_decimal hk n ',' _ (by rw [hk.digit _ (by decide)]; decide)]
  have := (takeWhile_all k.ws [] rest (by simp) hr).2
  simp only [List.nil_append] at this
  simp [hk.space, this]

/-- A digit isn't a letter. -/
theorem ciChar_digit (p c : Char) (hp : 97 ≤ p.toNat ∧ p.toUpper.toNat ≥ 58) (h : 48 ≤ c.toNat ∧ c.toNat ≤ 57) : ciChar p c = false := by
  have h1 : c ≠ p := by rintro rfl; omega
  have h2 : c ≠ p.toUpper := by rintro rfl; omega
  have h3 : c ≠ Char.ofNat 0x212A := by rintro rfl; revert h; decide
  have h4 : c ≠ Char.ofNat 0x17F := by rintro rfl; revert h; decide
  simp [ciChar, h1, h2, h3, h4]

/-- A text whose first character isn't a digit nor a plus isn't a number. -/
theorem parseUnsigned_none (limit : Nat) (c : Char) (cs : Text) (h1 : c ≠ '+') (h2 : digitVal c = none) : parseUnsigned limit (c :: cs) = none := by
  simp [parseUnsigned, stripPlus, h1, digitsVal, h2]

theorem parse_ansi {k : Classes} (hk : RegexClasses k) (v : Nat) (h : v < 256) :
    parseStyleToken k (writeColor (.ansi v)) = .ok (.color (.ansi v)) := by
  have e : writeColor (.ansi v) = 'a' :: 'n' :: 's' :: 'i' :: '(' :: (decimal v ++ [')']) := rfl
  have hn : ciContains "none".toList (writeColor (.ansi v)) = false := by
    apply ciContains_false _ _ 'e' (by decide)
    intro c hc
    rw [e] at hc
    simp only [List.mem_cons, List.mem_append, List.not_mem_nil, or_false] at hc
    rcases hc with rfl | rfl | rfl | rfl | rfl | hc | rfl
    all_goals first | decide | exact ciChar_digit _ _ (by decide) (decimal_digits v c hc)
  have hu : parseUnsigned 65536 (writeColor (.ansi v)) = none := by
    rw [e]; exact parseUnsigned_none _ _ _ (by decide) (by decide)
  have hm : matchAnsi k (writeColor (.ansi v)) = some (decimal v) := by
    rw [e]
    have : ciPrefix "ansi(".toList ('a' :: 'n' :: 's' :: 'i' :: '(' :: (decimal v ++ [')'])) = some (decimal v ++ [')']) := rfl
    unfold matchAnsi
    rw [this]
    exact digitsEnd_decimal hk v
  have hc : parseColor k (writeColor (.ansi v)) = .ok (.ansi v) := by
    unfold parseColor
    rw [hm]
    simp only [parse_decimal v 256 h]
  unfold parseStyleToken
  simp only [hn, hu, hc, Bool.false_eq_true, if_false]

theorem rgb_text (x y z : Text) : "rgb(".toList ++ x ++ ", ".toList ++ y ++ ", ".toList ++ z ++ [')'] =
    'r' :: 'g' :: 'b' :: '(' :: (x ++ ',' :: ' ' :: (y ++ ',' :: ' ' :: (z ++ [')']))) := by
  have a : "rgb(".toList = ['r', 'g', 'b', '('] := rfl
  have b : ", ".toList = [',', ' '] := rfl
  rw [a, b]
  simp

theorem parse_rgb {k : Classes} (hk : RegexClasses k) (r g b : Nat) (hr : r < 256) (hg : g < 256) (hb : b < 256) :
    parseStyleToken k (writeColor (.rgb r g b)) = .ok (.color (.rgb r g b)) := by
  have e : writeColor (.rgb r g b) = 'r' :: 'g' :: 'b' :: '(' :: (decimal r ++ ',' :: ' ' :: (decimal g ++ ',' :: ' ' :: (decimal b ++ [')']))) := by
    unfold writeColor
    exact rgb_text _ _ _
  have hn : ciContains "none".toList (writeColor (.rgb r g b)) = false := by
    apply ciContains_false _ _ 'e' (by decide)
    intro c hc
    rw [e] at hc
    simp only [List.mem_cons, List.mem_append, List.not_mem_nil, or_false] at hc
    rcases hc with rfl | rfl | rfl | rfl | hc | rfl | rfl | hc | rfl | rfl | hc | rfl
    all_goals first | decide | exact ciChar_digit _ _ (by decide) (decimal_digits _ c hc)
  have hu : parseUnsigned 65536 (writeColor (.rgb r g b)) = none := by
    rw [e]; exact parseUnsigned_none _ _ _ (by decide) (by decide)
  have hma : matchAnsi k (writeColor (.rgb r g b)) = none := by rw [e]; rfl
  have hmg : matchGray k (writeColor (.rgb r g b)) = none := by rw [e]; rfl
  have hd : ∀ (n : Nat) (t : Text) x, (decimal n ++ t).head? = some x → k.ws x = false := by
    intro n t x hx
    have hn := decimal_ne n
    have hdd := decimal_digits n
    generalize decimal n = ds at *
    match ds, hn with
    | d :: ds, _ =>
      simp only [List.cons_append, List.head?_cons, Option.some.injEq] at hx
      subst hx; exact ws_digit hk _ (hdd d (by simp))
  have hm : matchRgb k (writeColor (.rgb r g b)) = some (decimal r, decimal g, decimal b) := by
    rw [e]
    have : ∀ t, ciPrefix "rgb(".toList ('r' :: 'g' :: 'b' :: '(' :: t) = some t := fun _ => rfl
    unfold matchRgb
    rw [this]
    simp only [Option.bind_eq_bind, Option.bind_some, digitsComma_decimal hk r _ (hd g _), digitsComma_decimal hk g _ (hd b _), digitsEnd_decimal hk b]
  have hc : parseColor k (writeColor (.rgb r g b)) = .ok (.rgb r g b) := by
    unfold parseColor
    rw [hma, hmg, hm]
    simp only [parse_decimal r 256 hr, parse_decimal g 256 hg, parse_decimal b 256 hb]
  unfold parseStyleToken
  simp only [hn, hu, hc, Bool.false_eq_true, if_false]

/-- Every written color is read as said by the specification. -/
theorem parse_color_token {k : Classes} (hk : RegexClasses k) (c c' : Color) (hc : IsColor c) (h : reread c = some c') :
    parseStyleToken k (writeColor c) = .ok (.color c') := by
  cases c with
  | reset => cases h
  | rgb r g b =>
    have : c' = .rgb r g b := by simpa [reread] using h.symm
    subst this; exact parse_rgb hk r g b hc.1 hc.2.1 hc.2.2
  | ansi v =>
    have : c' = .ansi v := by simpa [reread] using h.symm
    subst this; exact parse_ansi hk v hc
  | _ => simp only [reread, Option.some.injEq] at h; subst h; rfl

theorem parse_attribute_token (k : Classes) (a : Attr) (h : IsWritten a) : parseStyleToken k (writeAttribute a) = .ok (.attribute a) := by
  rcases h with h | h | h | h | h | h | h | h <;> subst h <;> rfl

theorem parse_align_token (k : Classes) (a : Alignment) (h : a ≠ .unspecified) : parseStyleToken k (writeAlign a) = .ok (.align a) := by
  cases a
  · exact absurd rfl h
  all_goals rfl

theorem parse_none_token (k : Classes) : parseStyleToken k "none".toList = .ok .none := rfl

theorem parse_dimension (k : Classes) (n : Nat) (h : n < 65536) : parseStyleToken k (decimal n) = .ok (.dimension n) := by
  have hn : ciContains "none".toList (decimal n) = false := by
    apply ciContains_false _ _ 'e' (by decide)
    intro c hc
    exact ciChar_digit _ _ (by decide) (decimal_digits n c hc)
  unfold parseStyleToken
  simp only [hn, parse_decimal n 65536 h, Bool.false_eq_true, if_false]

/-- A single character is read as a character, or a number if it's a digit. -/
theorem parse_char_token (k : Classes) (c : Char) :
    parseStyleToken k [c] = if 48 ≤ c.toNat ∧ c.toNat ≤ 57 then .ok (.dimension (c.toNat - 48)) else .ok (.char c) := by
  have short : ∀ pat : Text, 2 ≤ pat.length → ciContains pat [c] = false := fun pat h => ciContains_short pat [c] (by simp; omega)
  have pre : ∀ pat : Text, 2 ≤ pat.length → ciPrefix pat [c] = none := by
    intro pat h
    cases hp : ciPrefix pat [c]
    · rfl
    · have := ciPrefix_length _ _ _ hp; simp at this; omega
  have hu : parseUnsigned 65536 [c] = if 48 ≤ c.toNat ∧ c.toNat ≤ 57 then some (c.toNat - 48) else none := by
    by_cases hp : c = '+'
    · subst hp; decide
    · unfold parseUnsigned
      by_cases hd : 48 ≤ c.toNat ∧ c.toNat ≤ 57
      · have : digitVal c = some (c.toNat - 48) := by unfold digitVal; exact if_pos hd
        rw [if_pos hd]
        simp [stripPlus, hp, digitsVal, this]; omega
      · have : digitVal c = none := by unfold digitVal; exact if_neg hd
        rw [if_neg hd]
        simp [stripPlus, hp, digitsVal, this]
  have hc : parseColor k [c] = .error .unrecognized := by
    have hma : matchAnsi k [c] = none := by unfold matchAnsi; rw [pre _ (by decide)]; rfl
    have hmg : matchGray k [c] = none := by unfold matchGray; rw [pre _ (by decide), pre _ (by decide)]; rfl
    have hmr : matchRgb k [c] = none := by unfold matchRgb; rw [pre _ (by decide)]; rfl
    have hmh : matchHex k [c] = none := by
      unfold matchHex
      split <;> first | rfl | (rename_i h; simp at h)
    have hf : (colorNames.find? fun nc => ciContains nc.1 [c]) = none := by
      rw [List.find?_eq_none]
      intro nc hnc
      have hl : ∀ nc ∈ colorNames, 2 ≤ nc.1.length := by decide
      rw [short _ (hl nc hnc)]; decide
    unfold parseColor
    rw [hma, hmg, hmr, hmh, hf]
  have ha : parseAttribute [c] = none := by
    unfold parseAttribute ciContainsSep
    repeat rw [short _ (by decide)]
    rfl
  have hal : parseAlign [c] = none := by
    unfold parseAlign
    repeat rw [short _ (by decide)]
    rfl
  unfold parseStyleToken
  rw [short _ (by decide), hu, hc, ha, hal]
  by_cases hd : 48 ≤ c.toNat ∧ c.toNat ≤ 57
  · simp only [if_pos hd, Bool.false_eq_true, if_false]
  · simp only [if_neg hd, Bool.false_eq_true, if_false]

end Verif

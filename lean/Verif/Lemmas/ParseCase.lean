import Verif.Lemmas.ParseTokens
/-! Lemmas on the case of the strings of styles. -/
namespace Verif
open Spec

theorem toLower_cases (c : Char) : (65 ≤ c.toNat ∧ c.toNat ≤ 90 ∧ c.toLower.toNat = c.toNat + 32) ∨ (¬ (65 ≤ c.toNat ∧ c.toNat ≤ 90) ∧ c.toLower = c) := by
  unfold Char.toLower
  split
  · rename_i h
    left
    have h1 : 65 ≤ c.toNat := by have := h.1; simpa [UInt32.le_iff_toNat_le] using this
    have h2 : c.toNat ≤ 90 := by have := h.2; simpa [UInt32.le_iff_toNat_le] using this
    refine ⟨h1, h2, ?_⟩
    show (c.val + _).toNat = c.val.toNat + 32
    rw [UInt32.toNat_add]
    have : c.val.toNat = c.toNat := rfl
    rw [this]
    have : (('a'.val - 'A'.val : UInt32)).toNat = 32 := by decide
    rw [this]; omega
  · rename_i h
    right
    refine ⟨fun hc => h ?_, rfl⟩
    simpa [UInt32.le_iff_toNat_le] using hc

theorem toUpper_cases (c : Char) : (97 ≤ c.toNat ∧ c.toNat ≤ 122 ∧ c.toUpper.toNat = c.toNat - 32) ∨ (¬ (97 ≤ c.toNat ∧ c.toNat ≤ 122) ∧ c.toUpper = c) := by
  unfold Char.toUpper
  split
  · rename_i h
    left
    have h1 : 97 ≤ c.toNat := by have := h.1; simpa [UInt32.le_iff_toNat_le] using this
    have h2 : c.toNat ≤ 122 := by have := h.2; simpa [UInt32.le_iff_toNat_le] using this
    refine ⟨h1, h2, ?_⟩
    show (c.val + _).toNat = c.val.toNat - 32
    rw [UInt32.toNat_add]
    have : c.val.toNat = c.toNat := rfl
    rw [this]
    have : (('A'.val - 'a'.val : UInt32)).toNat = 4294967264 := by decide
    rw [this]; omega
  · rename_i h
    right
    refine ⟨fun hc => h ?_, rfl⟩
    simpa [UInt32.le_iff_toNat_le] using hc

theorem char_eq_iff (a b : Char) : a = b ↔ a.toNat = b.toNat := by
  constructor
  · intro h; rw [h]
  · intro h
    apply Char.ext
    exact UInt32.toNat_inj.mp h

/-- The text in lower case (ASCII only). -/
abbrev lowered (s : Text) : Text := s.map Char.toLower

/-- A function which doesn't depend on the case. -/
def IgnoresCase {α : Type} (q : Char → α) : Prop := ∀ c, q c.toLower = q c

theorem ignores_of {α : Type} (q : Char → α) (h : ∀ c d : Char, 65 ≤ c.toNat → c.toNat ≤ 90 → d.toNat = c.toNat + 32 → q d = q c) : IgnoresCase q := by
  intro c
  rcases toLower_cases c with ⟨h1, h2, h3⟩ | ⟨_, h⟩
  · exact h c _ h1 h2 h3
  · rw [h]

/-- A pattern in lower case. -/
def IsLower (p : Char) : Prop := ¬ (65 ≤ p.toNat ∧ p.toNat ≤ 90)

theorem ciChar_ignores (p : Char) (hp : IsLower p) : IgnoresCase (ciChar p) := by
  apply ignores_of
  intro c d h1 h2 h3
  have k : (Char.ofNat 0x212A).toNat = 8490 := by decide
  have s : (Char.ofNat 0x17F).toNat = 383 := by decide
  unfold ciChar
  rw [Bool.eq_iff_iff]
  simp only [Bool.or_eq_true, Bool.and_eq_true, beq_iff_eq]
  simp only [char_eq_iff, k, s]
  unfold IsLower at hp
  rcases toUpper_cases p with ⟨u1, u2, u3⟩ | ⟨u1, u2⟩
  · rw [u3]; omega
  · rw [u2]; omega

theorem eq_ignores (x : Char) (h : ¬ (65 ≤ x.toNat ∧ x.toNat ≤ 90) ∧ ¬ (97 ≤ x.toNat ∧ x.toNat ≤ 122)) : IgnoresCase (fun c => c = x) := by
  apply ignores_of
  intro c d h1 h2 h3
  simp only [char_eq_iff, eq_iff_iff]
  omega

section
variable {k : Classes} (hk : RegexClasses k)
include hk

theorem ws_ignores : IgnoresCase k.ws := by
  apply ignores_of
  intro c d h1 h2 h3
  rw [hk.visible c (by omega) (by omega), hk.visible d (by omega) (by omega)]

theorem dg_ignores : IgnoresCase k.dg := by
  apply ignores_of
  intro c d h1 h2 h3
  rw [hk.digit c (by omega), hk.digit d (by omega)]
  rw [decide_eq_decide]; omega

theorem wd_ignores : IgnoresCase k.wd := by
  apply ignores_of
  intro c d h1 h2 h3
  rw [hk.word c (by omega), hk.word d (by omega)]
  rw [decide_eq_decide]; omega

omit hk in
theorem beq_ignores (x : Char) (h : ¬ (65 ≤ x.toNat ∧ x.toNat ≤ 90) ∧ ¬ (97 ≤ x.toNat ∧ x.toNat ≤ 122)) : IgnoresCase (fun c => c == x) := by
  intro c
  have := eq_ignores x h c
  simp only [eq_iff_iff] at this
  rw [Bool.eq_iff_iff, beq_iff_eq, beq_iff_eq]; exact this

theorem sep_ignores : IgnoresCase k.sep := by
  intro c
  unfold Classes.sep
  rw [ws_ignores hk c, show (c.toLower == '(') = (c == '(') from beq_ignores '(' (by decide) c, show (c.toLower == ')') = (c == ')') from beq_ignores ')' (by decide) c]

theorem arg_ignores : IgnoresCase k.arg := by
  intro c
  unfold Classes.arg
  rw [ws_ignores hk c, wd_ignores hk c, show (c.toLower == ',') = (c == ',') from beq_ignores ',' (by decide) c]

theorem hexClass_ignores : IgnoresCase (isHexClass k) := by
  apply ignores_of
  intro c d h1 h2 h3
  unfold isHexClass
  have le : ∀ a b : Char, (a ≤ b) = (a.toNat ≤ b.toNat) := fun a b => rfl
  have ea : 'a'.toNat = 97 := rfl
  have ef : 'f'.toNat = 102 := rfl
  have eA : 'A'.toNat = 65 := rfl
  have eF : 'F'.toNat = 70 := rfl
  have hd : k.dg d = k.dg c := by
    rw [hk.digit c (by omega), hk.digit d (by omega), decide_eq_decide]; omega
  rw [hd]
  simp only [le, ea, ef, eA, eF]
  rw [Bool.eq_iff_iff]
  simp only [Bool.or_eq_true, Bool.and_eq_true, decide_eq_true_eq]
  constructor
  · rintro ((h | h) | h)
    · exact Or.inl (Or.inl h)
    · right; omega
    · omega
  · rintro ((h | h) | h)
    · exact Or.inl (Or.inl h)
    · omega
    · left; right; omega

end

theorem digitVal_ignores : IgnoresCase digitVal := by
  apply ignores_of
  intro c d h1 h2 h3
  have e0 : '0'.toNat = 48 := rfl
  have e9 : '9'.toNat = 57 := rfl
  unfold digitVal
  rw [e0, e9, if_neg (by omega), if_neg (by omega)]

theorem hexVal_ignores : IgnoresCase hexVal := by
  apply ignores_of
  intro c d h1 h2 h3
  have e0 : '0'.toNat = 48 := rfl
  have e9 : '9'.toNat = 57 := rfl
  have ea : 'a'.toNat = 97 := rfl
  have ef : 'f'.toNat = 102 := rfl
  have eA : 'A'.toNat = 65 := rfl
  have eF : 'F'.toNat = 70 := rfl
  unfold hexVal
  rw [e0, e9, ea, ef, eA, eF]
  by_cases h : c.toNat ≤ 70
  · rw [if_neg (by omega), if_pos (by omega), if_neg (by omega), if_neg (by omega), if_pos (by omega)]; congr 1; omega
  · rw [if_neg (by omega), if_neg (by omega), if_neg (by omega), if_neg (by omega), if_neg (by omega), if_neg (by omega)]

theorem takeWhile_lowered (q : Char → Bool) (h : IgnoresCase q) (s : Text) : (lowered s).takeWhile q = lowered (s.takeWhile q) := by
  induction s with
  | nil => rfl
  | cons c s ih =>
    simp only [lowered, List.map_cons, List.takeWhile_cons, h c]
    split
    · rw [List.map_cons]; congr 1
    · rfl

theorem dropWhile_lowered (q : Char → Bool) (h : IgnoresCase q) (s : Text) : (lowered s).dropWhile q = lowered (s.dropWhile q) := by
  induction s with
  | nil => rfl
  | cons c s ih =>
    simp only [lowered, List.map_cons, List.dropWhile_cons, h c]
    split
    · exact ih
    · rfl

theorem ciPrefix_lowered (pat : Text) (hp : ∀ p ∈ pat, IsLower p) (s : Text) : ciPrefix pat (lowered s) = (ciPrefix pat s).map lowered := by
  induction pat generalizing s with
  | nil => rfl
  | cons p ps ih =>
    cases s with
    | nil => rfl
    | cons c s =>
      simp only [lowered, List.map_cons, ciPrefix]
      rw [ciChar_ignores p (hp p (by simp)) c]
      split
      · exact ih (fun x hx => hp x (by simp [hx])) s
      · rfl

theorem ciContains_lowered (pat : Text) (hp : ∀ p ∈ pat, IsLower p) (s : Text) : ciContains pat (lowered s) = ciContains pat s := by
  induction s with
  | nil => rfl
  | cons c s ih =>
    have := ciPrefix_lowered pat hp (c :: s)
    simp only [lowered, List.map_cons] at this
    simp only [lowered, List.map_cons, ciContains] at ih ⊢
    rw [this, ih, Option.isSome_map]

theorem ciContainsSep_lowered (a b : Text) (ha : ∀ p ∈ a, IsLower p) (hb : ∀ p ∈ b, IsLower p) (s : Text) : ciContainsSep a b (lowered s) = ciContainsSep a b s := by
  have l1 : IsLower '_' := by unfold IsLower; decide
  have l2 : IsLower '-' := by unfold IsLower; decide
  unfold ciContainsSep
  rw [ciContains_lowered, ciContains_lowered, ciContains_lowered]
  · intro p hp
    simp only [List.mem_append, List.mem_cons] at hp
    rcases hp with hp | rfl | hp
    · exact ha p hp
    · exact l2
    · exact hb p hp
  · intro p hp
    simp only [List.mem_append, List.mem_cons] at hp
    rcases hp with hp | rfl | hp
    · exact ha p hp
    · exact l1
    · exact hb p hp
  · intro p hp
    simp only [List.mem_append] at hp
    exact hp.elim (ha p) (hb p)

theorem digitsVal_lowered (val : Char → Option Nat) (h : IgnoresCase val) (base : Nat) (s : Text) : ∀ acc, digitsVal val base acc (lowered s) = digitsVal val base acc s := by
  induction s with
  | nil => intro acc; rfl
  | cons c s ih =>
    intro acc
    simp only [lowered, List.map_cons, digitsVal, h c] at ih ⊢
    cases val c with
    | none => rfl
    | some d => exact ih _

theorem stripPlus_lowered (s : Text) : stripPlus (lowered s) = lowered (stripPlus s) := by
  cases s with
  | nil => rfl
  | cons c s =>
    have := eq_ignores '+' (by decide) c
    simp only [eq_iff_iff] at this
    simp only [lowered, List.map_cons, stripPlus, this]
    split <;> rfl

theorem parseUnsigned_lowered (limit : Nat) (s : Text) : parseUnsigned limit (lowered s) = parseUnsigned limit s := by
  unfold parseUnsigned
  rw [stripPlus_lowered, digitsVal_lowered _ digitVal_ignores]
  simp only [lowered, List.map_eq_nil_iff]

theorem parseHex_lowered (s : Text) : parseHex (lowered s) = parseHex s := by
  match s with
  | [] => rfl
  | [a] => exact digitsVal_lowered hexVal hexVal_ignores 16 [a, a] 0
  | a :: b :: t => exact digitsVal_lowered hexVal hexVal_ignores 16 (a :: b :: t) 0

section
variable {k : Classes} (hk : RegexClasses k)
include hk

theorem takeDigits_lowered (s : Text) : takeDigits k (lowered s) = (takeDigits k s).map (fun x => (lowered x.1, lowered x.2)) := by
  unfold takeDigits
  rw [takeWhile_lowered _ (dg_ignores hk), dropWhile_lowered _ (dg_ignores hk)]
  simp only [lowered, List.map_eq_nil_iff]
  split <;> rfl

theorem digitsEnd_lowered (s : Text) : digitsEnd k (lowered s) = (digitsEnd k s).map lowered := by
  unfold digitsEnd
  rw [takeDigits_lowered hk]
  cases takeDigits k s with
  | none => rfl
  | some x =>
    obtain ⟨ds, rest⟩ := x
    simp only [Option.map_some, Option.bind_eq_bind, Option.bind_some]
    have e : lowered rest = [')'] ↔ rest = [')'] := by
      match rest with
      | [] => simp
      | [c] =>
        have := eq_ignores ')' (by decide) c
        simp only [eq_iff_iff] at this
        simp [this]
      | _ :: _ :: _ => simp
    by_cases h : rest = [')']
    · rw [if_pos h, if_pos (e.mpr h)]; rfl
    · rw [if_neg h, if_neg (fun h' => h (e.mp h'))]; rfl

theorem digitsComma_lowered (s : Text) : digitsComma k (lowered s) = (digitsComma k s).map (fun x => (lowered x.1, lowered x.2)) := by
  unfold digitsComma
  rw [takeDigits_lowered hk]
  cases takeDigits k s with
  | none => rfl
  | some x =>
    obtain ⟨ds, rest⟩ := x
    simp only [Option.map_some, Option.bind_eq_bind, Option.bind_some]
    match rest with
    | [] => rfl
    | c :: rest =>
      have hc := eq_ignores ',' (by decide) c
      simp only [eq_iff_iff] at hc
      simp only [lowered, List.map_cons]
      by_cases h : c = ','
      · subst h
        have : Char.toLower ',' = ',' := hc.mpr rfl
        rw [this]
        simp only [Option.map_some]
        have := dropWhile_lowered k.ws (ws_ignores hk) rest
        simp only [lowered] at this
        rw [this]
      · have h' : c.toLower ≠ ',' := fun e => h (hc.mp e)
        split
        · rename_i e; injection e with e; exact absurd e h'
        · split
          · rename_i e; injection e with e; exact absurd e h
          · rfl

theorem matchAnsi_lowered (s : Text) : matchAnsi k (lowered s) = (matchAnsi k s).map lowered := by
  unfold matchAnsi
  rw [ciPrefix_lowered _ (by unfold IsLower; decide)]
  cases ciPrefix "ansi(".toList s with
  | none => rfl
  | some r => exact digitsEnd_lowered hk r

theorem matchGray_lowered (s : Text) : matchGray k (lowered s) = (matchGray k s).map lowered := by
  unfold matchGray
  rw [ciPrefix_lowered _ (by unfold IsLower; decide), ciPrefix_lowered _ (by unfold IsLower; decide), ← Option.map_or]
  cases (ciPrefix "gray".toList s).or (ciPrefix "grey".toList s) with
  | none => rfl
  | some r =>
    simp only [Option.map_some, Option.bind_eq_bind, Option.bind_some]
    rw [ciPrefix_lowered _ (by unfold IsLower; decide), ciPrefix_lowered _ (by unfold IsLower; decide), ← Option.map_or]
    cases (ciPrefix "scale(".toList r).or (ciPrefix "(".toList r) with
    | none => rfl
    | some r => exact digitsEnd_lowered hk r

theorem matchRgb_lowered (s : Text) : matchRgb k (lowered s) = (matchRgb k s).map (fun x => (lowered x.1, lowered x.2.1, lowered x.2.2)) := by
  unfold matchRgb
  rw [ciPrefix_lowered _ (by unfold IsLower; decide)]
  cases ciPrefix "rgb(".toList s with
  | none => rfl
  | some r =>
    simp only [Option.map_some, Option.bind_eq_bind, Option.bind_some]
    rw [digitsComma_lowered hk]
    cases digitsComma k r with
    | none => rfl
    | some x =>
      simp only [Option.map_some, Option.bind_some]
      rw [digitsComma_lowered hk]
      cases digitsComma k x.2 with
      | none => rfl
      | some y =>
        simp only [Option.map_some, Option.bind_some]
        rw [digitsEnd_lowered hk]
        cases digitsEnd k y.2 <;> rfl

theorem matchHex_lowered (s : Text) : matchHex k (lowered s) = (matchHex k s).map (fun x => (lowered x.1, lowered x.2.1, lowered x.2.2)) := by
  have hh := hexClass_ignores hk
  have ite_low : ∀ (l : Text) (f : Text × Text × Text → Text × Text × Text) (x : Text × Text × Text),
      (if (l.map Char.toLower).all (isHexClass k) then some (f x) else none) = (if l.all (isHexClass k) then some x else none).map f := by
    intro l f x
    have : (l.map Char.toLower).all (isHexClass k) = l.all (isHexClass k) := by
      induction l with
      | nil => rfl
      | cons c l ih => rw [List.map_cons, List.all_cons, List.all_cons, ih, hh c]
    rw [this]
    split <;> rfl
  match s with
  | [] => rfl
  | c :: t =>
    have hc := eq_ignores '#' (by decide) c
    simp only [eq_iff_iff] at hc
    by_cases h : c = '#'
    · subst h
      have : Char.toLower '#' = '#' := hc.mpr rfl
      simp only [lowered, List.map_cons, this]
      match t with
      | [] => rfl
      | [_] => rfl
      | [_, _] => rfl
      | [a, b, c] => exact ite_low [a, b, c] (fun x => (lowered x.1, lowered x.2.1, lowered x.2.2)) ([a], [b], [c])
      | [a, b, c, d] => exact ite_low [a, b, c, d] (fun x => (lowered x.1, lowered x.2.1, lowered x.2.2)) ([a, b], [c], [d])
      | [a, b, c, d, e] => exact ite_low [a, b, c, d, e] (fun x => (lowered x.1, lowered x.2.1, lowered x.2.2)) ([a, b], [c, d], [e])
      | [a, b, c, d, e, f] => exact ite_low [a, b, c, d, e, f] (fun x => (lowered x.1, lowered x.2.1, lowered x.2.2)) ([a, b], [c, d], [e, f])
      | _ :: _ :: _ :: _ :: _ :: _ :: _ :: _ => rfl
    · have h' : c.toLower ≠ '#' := fun e => h (hc.mp e)
      have none_of : ∀ (c : Char) (t : Text), c ≠ '#' → matchHex k (c :: t) = none := by
        intro c t h
        unfold matchHex
        split <;> first | rfl | (rename_i e; injection e with e; exact absurd e h)
      simp only [lowered, List.map_cons]
      rw [none_of _ _ h, none_of _ _ h']
      rfl

theorem parseColor_lowered (s : Text) : parseColor k (lowered s) = parseColor k s := by
  unfold parseColor
  rw [matchAnsi_lowered hk, matchGray_lowered hk, matchRgb_lowered hk, matchHex_lowered hk]
  cases matchAnsi k s with
  | some v => simp only [Option.map_some, parseUnsigned_lowered]
  | none =>
  cases matchGray k s with
  | some v => simp only [Option.map_some, Option.map_none, parseUnsigned_lowered]
  | none =>
  cases matchRgb k s with
  | some v => simp only [Option.map_some, Option.map_none, parseUnsigned_lowered]
  | none =>
  cases matchHex k s with
  | some v => simp only [Option.map_some, Option.map_none, parseHex_lowered]
  | none =>
    simp only [Option.map_none]
    have e : (colorNames.find? fun nc => ciContains nc.1 (lowered s)) = colorNames.find? fun nc => ciContains nc.1 s := by
      have hl : ∀ nc ∈ colorNames, ∀ p ∈ nc.1, IsLower p := by unfold IsLower; decide
      generalize colorNames = l at hl
      induction l with
      | nil => rfl
      | cons x l ih =>
        rw [List.find?_cons, List.find?_cons, ciContains_lowered _ (hl x (by simp)), ih (fun y hy => hl y (by simp [hy]))]
    rw [e]

end

theorem parseAttribute_lowered (s : Text) : parseAttribute (lowered s) = parseAttribute s := by
  unfold parseAttribute
  simp only [ciContains_lowered "bold".toList (by unfold IsLower; decide), ciContains_lowered "dim".toList (by unfold IsLower; decide),
    ciContains_lowered "italic".toList (by unfold IsLower; decide), ciContains_lowered "reverse".toList (by unfold IsLower; decide),
    ciContains_lowered "encircled".toList (by unfold IsLower; decide),
    ciContainsSep_lowered "crossed".toList "out".toList (by unfold IsLower; decide) (by unfold IsLower; decide),
    ciContainsSep_lowered "under".toList "lined".toList (by unfold IsLower; decide) (by unfold IsLower; decide),
    ciContainsSep_lowered "over".toList "lined".toList (by unfold IsLower; decide) (by unfold IsLower; decide),
    ciContainsSep_lowered "slow".toList "blink".toList (by unfold IsLower; decide) (by unfold IsLower; decide),
    ciContainsSep_lowered "rapid".toList "blink".toList (by unfold IsLower; decide) (by unfold IsLower; decide)]

theorem parseAlign_lowered (s : Text) : parseAlign (lowered s) = parseAlign s := by
  unfold parseAlign
  simp only [ciContains_lowered "left".toList (by unfold IsLower; decide), ciContains_lowered "center".toList (by unfold IsLower; decide),
    ciContains_lowered "right".toList (by unfold IsLower; decide)]

/-- A token whose character is in lower case. -/
def StyleToken.lowered : StyleToken → StyleToken
  | .char c => .char c.toLower
  | t => t

theorem parseStyleToken_lowered {k : Classes} (hk : RegexClasses k) (s : Text) :
    (parseStyleToken k (lowered s)).toOption = (parseStyleToken k s).toOption.map StyleToken.lowered := by
  unfold parseStyleToken
  rw [ciContains_lowered "none".toList (by unfold IsLower; decide), parseUnsigned_lowered, parseColor_lowered hk, parseAttribute_lowered, parseAlign_lowered]
  split
  · rfl
  cases parseUnsigned 65536 s with
  | some n => rfl
  | none =>
  cases parseColor k s with
  | ok c => rfl
  | error e =>
  cases e with
  | invalidGreyLevel l => rfl
  | unrecognized =>
  cases parseAttribute s with
  | some a => rfl
  | none =>
  cases parseAlign s with
  | some a => rfl
  | none =>
  match s with
  | [] => rfl
  | [c] => rfl
  | _ :: _ :: _ => rfl

theorem tokenGroup_lowered {k : Classes} (hk : RegexClasses k) (s : Text) :
    tokenGroup k (lowered s) = (tokenGroup k s).map (fun x => (lowered x.1, lowered x.2)) := by
  match s with
  | [] => rfl
  | c :: s =>
    have hc := eq_ignores '(' (by decide) c
    simp only [eq_iff_iff] at hc
    by_cases h : c = '('
    · subst h
      have : Char.toLower '(' = '(' := hc.mpr rfl
      simp only [lowered, List.map_cons, this, tokenGroup]
      have e1 := takeWhile_lowered k.arg (arg_ignores hk) s
      have e2 := dropWhile_lowered k.arg (arg_ignores hk) s
      simp only [lowered] at e1 e2
      rw [e1, e2]
      simp only [List.map_eq_nil_iff]
      by_cases ht : s.takeWhile k.arg = []
      · rw [if_pos ht, if_pos ht]; rfl
      · rw [if_neg ht, if_neg ht]
        cases s.dropWhile k.arg with
        | nil => rfl
        | cons d r =>
          have hd := eq_ignores ')' (by decide) d
          simp only [eq_iff_iff] at hd
          by_cases h : d = ')'
          · subst h
            have h2 : Char.toLower ')' = ')' := hd.mpr rfl
            simp only [List.map_cons, h2]
            simp [this, h2]
          · have h' : d.toLower ≠ ')' := fun e => h (hd.mp e)
            simp only [List.map_cons]
            split
            · rename_i e; injection e with e; exact absurd e h'
            · split
              · rename_i e; injection e with e; exact absurd e h
              · rfl
    · have h' : c.toLower ≠ '(' := fun e => h (hc.mp e)
      have none_of : ∀ (c : Char) (t : Text), c ≠ '(' → tokenGroup k (c :: t) = none := by
        intro c t h
        unfold tokenGroup
        split
        · rename_i e; injection e with e; exact absurd e h
        · rfl
      simp only [lowered, List.map_cons]
      rw [none_of _ _ h, none_of _ _ h']
      rfl

theorem styleWordsAux_lowered {k : Classes} (hk : RegexClasses k) : ∀ (n : Nat) (s : Text), styleWordsAux k n (lowered s) = (styleWordsAux k n s).map lowered := by
  intro n
  induction n with
  | zero => intro s; rfl
  | succ n ih =>
    intro s
    cases s with
    | nil => rfl
    | cons c s =>
      simp only [lowered, List.map_cons, styleWordsAux]
      rw [sep_ignores hk c]
      have hi : IgnoresCase (fun c => !k.sep c) := by intro c; show (!k.sep c.toLower) = !k.sep c; rw [sep_ignores hk c]
      have e1 := takeWhile_lowered _ hi s
      have e2 := dropWhile_lowered _ hi s
      have e3 := tokenGroup_lowered hk (s.dropWhile fun c => !k.sep c)
      simp only [lowered] at e1 e2 e3 ih
      split
      · exact ih s
      · rw [e1, e2, e3]
        cases tokenGroup k (s.dropWhile fun c => !k.sep c) with
        | none => simp only [Option.map_none, List.map_cons, ih]
        | some g => simp only [Option.map_some, List.map_cons, List.map_append, ih]

theorem styleWords_lowered {k : Classes} (hk : RegexClasses k) (s : Text) : styleWords k (lowered s) = (styleWords k s).map lowered := by
  unfold styleWords
  rw [styleWordsAux_lowered hk]
  simp [lowered]

theorem parseTokens_lowered {k : Classes} (hk : RegexClasses k) (l : List Text) :
    (parseTokens k (l.map lowered)).toOption = (parseTokens k l).toOption.map (fun ts => ts.map StyleToken.lowered) := by
  induction l with
  | nil => rfl
  | cons s l ih =>
    simp only [List.map_cons, parseTokens, bind, Except.bind]
    have e := parseStyleToken_lowered hk s
    cases h1 : parseStyleToken k s with
    | error x =>
      rw [h1] at e
      cases h2 : parseStyleToken k (lowered s) with
      | error y => rfl
      | ok t => rw [h2] at e; cases e
    | ok t =>
      rw [h1] at e
      cases h2 : parseStyleToken k (lowered s) with
      | error y => rw [h2] at e; cases e
      | ok t' =>
        rw [h2] at e
        simp only [Except.toOption, Option.map_some, Option.some.injEq] at e
        subst e
        simp only []
        cases h3 : parseTokens k l with
        | error x =>
          rw [h3] at ih
          cases h4 : parseTokens k (l.map lowered) with
          | error y => rfl
          | ok t => rw [h4] at ih; cases ih
        | ok ts =>
          rw [h3] at ih
          cases h4 : parseTokens k (l.map lowered) with
          | error y => rw [h4] at ih; cases ih
          | ok t =>
            rw [h4] at ih
            simp only [Except.toOption, Option.map_some, Option.some.injEq] at ih
            subst ih
            rfl

theorem parseStyleTokens_lowered {k : Classes} (hk : RegexClasses k) (s : Text) :
    (parseStyleTokens k (lowered s)).toOption = (parseStyleTokens k s).toOption.map (fun ts => ts.map StyleToken.lowered) := by
  unfold parseStyleTokens
  rw [styleWords_lowered hk, parseTokens_lowered hk]

end Verif

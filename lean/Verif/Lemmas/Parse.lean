import Verif.Spec.Parse
/-! Lemmas on the reading and writing of styles. -/
namespace Verif
open Spec

/-! ### Tokenization -/

theorem length_dropWhile_le' {α} (p : α → Bool) (l : List α) : (l.dropWhile p).length ≤ l.length := by
  induction l with
  | nil => simp
  | cons a l ih => simp only [List.dropWhile_cons]; split <;> simp <;> omega

theorem tokenGroup_length (k : Classes) (s g r : Text) (h : tokenGroup k s = some (g, r)) : r.length < s.length := by
  unfold tokenGroup at h
  split at h
  · rename_i s'
    split at h
    · cases h
    · split at h
      · rename_i rest heq
        have := length_dropWhile_le' k.arg s'
        rw [heq] at this
        simp only [Option.some.injEq, Prod.mk.injEq] at h
        rw [← h.2]; simp at this ⊢; omega
      · cases h
  · cases h

theorem styleWordsAux_fuel (k : Classes) : ∀ (n m : Nat) (s : Text), s.length ≤ n → s.length ≤ m → styleWordsAux k n s = styleWordsAux k m s := by
  intro n
  induction n with
  | zero =>
    intro m s h _
    have : s = [] := List.length_eq_zero_iff.mp (by omega)
    subst this
    cases m <;> rfl
  | succ n ih =>
    intro m s h h'
    cases s with
    | nil => cases m <;> rfl
    | cons c cs =>
      cases m with
      | zero => simp at h'
      | succ m =>
        simp only [List.length_cons] at h h'
        simp only [styleWordsAux]
        by_cases hc : k.sep c = true
        · rw [if_pos hc, if_pos hc]; exact ih m cs (by omega) (by omega)
        · rw [if_neg hc, if_neg hc]
          have hd := length_dropWhile_le' (fun c => !k.sep c) cs
          split
          · rename_i g r hg
            have := tokenGroup_length k _ _ _ hg
            rw [ih m r (by omega) (by omega)]
          · rw [ih m _ (by omega) (by omega)]

theorem styleWords_nil (k : Classes) : styleWords k [] = [] := rfl

theorem styleWords_sep (k : Classes) (c : Char) (s : Text) (h : k.sep c = true) : styleWords k (c :: s) = styleWords k s := by
  unfold styleWords
  simp only [List.length_cons, styleWordsAux, h, if_true]

theorem takeWhile_all {α} (p : α → Bool) (a b : List α) (ha : ∀ x ∈ a, p x = true) (hb : ∀ x, b.head? = some x → p x = false) :
    (a ++ b).takeWhile p = a ∧ (a ++ b).dropWhile p = b := by
  induction a with
  | nil =>
    cases b with
    | nil => exact ⟨rfl, rfl⟩
    | cons x b => have := hb x rfl; simp [this]
  | cons x a ih =>
    have := ih (fun y hy => ha y (by simp [hy]))
    have hx := ha x (by simp)
    simp [hx, this]

/-- What may follow a token. -/
def TokenEnd (s : Text) : Prop := s = [] ∨ ∃ t, s = ' ' :: t

/-- A word without separator. -/
def IsWord (k : Classes) (w : Text) : Prop := w ≠ [] ∧ ∀ c ∈ w, k.sep c = false

theorem styleWords_word (k : Classes) (hk : RegexClasses k) (w rest : Text) (hw : IsWord k w) (hr : TokenEnd rest) :
    styleWords k (w ++ rest) = w :: styleWords k rest := by
  obtain ⟨hne, hall⟩ := hw
  match w, hne with
  | c :: cs, _ =>
    have hc : k.sep c = false := hall c (by simp)
    have hrest : ∀ x, rest.head? = some x → (!k.sep x) = false := by
      intro x hx
      rcases hr with rfl | ⟨t, rfl⟩
      · cases hx
      · simp only [List.head?_cons, Option.some.injEq] at hx
        subst hx; simp [Classes.sep, hk.space]
    obtain ⟨t1, t2⟩ := takeWhile_all (fun c => !k.sep c) cs rest (fun x hx => by simp [hall x (by simp [hx])]) hrest
    have hg : tokenGroup k rest = none := by
      rcases hr with rfl | ⟨t, rfl⟩ <;> rfl
    unfold styleWords
    simp only [List.cons_append, List.length_cons, styleWordsAux, hc, t1, t2, hg, if_false, Bool.false_eq_true]
    rw [styleWordsAux_fuel k _ rest.length rest (by simp) (by simp)]

/-- A word followed by arguments. -/
theorem styleWords_call (k : Classes) (hk : RegexClasses k) (w body rest : Text) (hw : IsWord k w) (hb : body ≠ [])
    (hbody : ∀ c ∈ body, k.arg c = true) :
    styleWords k (w ++ '(' :: body ++ [')'] ++ rest) = (w ++ '(' :: body ++ [')']) :: styleWords k rest := by
  obtain ⟨hne, hall⟩ := hw
  match w, hne with
  | c :: cs, _ =>
    have hc : k.sep c = false := hall c (by simp)
    obtain ⟨t1, t2⟩ := takeWhile_all (fun c => !k.sep c) cs ('(' :: (body ++ ')' :: rest)) (fun x hx => by simp [hall x (by simp [hx])])
      (by intro x hx; simp only [List.head?_cons, Option.some.injEq] at hx; subst hx; simp [Classes.sep])
    have hp : k.arg ')' = false := by
      have h1 := hk.word ')' (by decide)
      have h2 := hk.visible ')' (by decide) (by decide)
      unfold Classes.arg
      rw [h1, h2]; decide
    obtain ⟨t3, t4⟩ := takeWhile_all k.arg body (')' :: rest) hbody
      (by intro x hx; simp only [List.head?_cons, Option.some.injEq] at hx; subst hx; exact hp)
    have hg : tokenGroup k ('(' :: (body ++ ')' :: rest)) = some ('(' :: body ++ [')'], rest) := by
      simp only [tokenGroup, t3, t4, hb, if_false]
    have e : c :: cs ++ '(' :: body ++ [')'] ++ rest = c :: (cs ++ '(' :: (body ++ ')' :: rest)) := by simp
    rw [e]
    unfold styleWords
    simp only [List.length_cons, styleWordsAux, hc, t1, t2, hg, if_false, Bool.false_eq_true]
    rw [styleWordsAux_fuel k _ rest.length rest (by simp; omega) (by simp)]
    simp

/-! ### Numbers -/

theorem digitsVal_append (val : Char → Option Nat) (base : Nat) (a b : Text) : ∀ acc,
    digitsVal val base acc (a ++ b) = (digitsVal val base acc a).bind fun n => digitsVal val base n b := by
  induction a with
  | nil => intro acc; rfl
  | cons c cs ih =>
    intro acc
    simp only [List.cons_append, digitsVal]
    cases val c with
    | none => rfl
    | some d => simp only [Option.bind_eq_bind, Option.bind_some, ih]

theorem digitChar (d : Nat) (h : d < 10) : (Char.ofNat ('0'.toNat + d)).toNat = 48 + d := by
  have : d = 0 ∨ d = 1 ∨ d = 2 ∨ d = 3 ∨ d = 4 ∨ d = 5 ∨ d = 6 ∨ d = 7 ∨ d = 8 ∨ d = 9 := by omega
  rcases this with h | h | h | h | h | h | h | h | h | h <;> subst h <;> rfl

theorem decimalAux_val : ∀ fuel n, n < fuel → digitsVal digitVal 10 0 (decimalAux fuel n) = some n := by
  intro fuel
  induction fuel with
  | zero => intro n h; omega
  | succ fuel ih =>
    intro n h
    have hd : ∀ acc, digitsVal digitVal 10 acc [Char.ofNat ('0'.toNat + n % 10)] = some (acc * 10 + n % 10) := by
      intro acc
      have hc := digitChar (n % 10) (by omega)
      have : digitVal (Char.ofNat ('0'.toNat + n % 10)) = some (n % 10) := by
        unfold digitVal
        rw [hc, if_pos (by simp; omega)]
        simp
      simp only [digitsVal, this, Option.bind_eq_bind, Option.bind_some]
    simp only [decimalAux]
    rw [digitsVal_append]
    by_cases h10 : n < 10
    · rw [if_pos h10]
      simp only [digitsVal, Option.bind_some]
      have := hd 0
      simp only [digitsVal] at this
      rw [this]; simp; omega
    · rw [if_neg h10, ih (n / 10) (by omega), Option.bind_some, hd]
      congr 1; omega

theorem decimalAux_digits : ∀ fuel n, ∀ c ∈ decimalAux fuel n, 48 ≤ c.toNat ∧ c.toNat ≤ 57 := by
  intro fuel
  induction fuel with
  | zero => intro n c h; cases h
  | succ fuel ih =>
    intro n c h
    simp only [decimalAux, List.mem_append, List.mem_singleton] at h
    rcases h with h | h
    · split at h
      · cases h
      · exact ih _ c h
    · rw [h, digitChar _ (by omega)]; omega

theorem decimal_ne (n : Nat) : decimal n ≠ [] := by simp [decimal, decimalAux]

theorem decimal_digits (n : Nat) : ∀ c ∈ decimal n, 48 ≤ c.toNat ∧ c.toNat ≤ 57 := decimalAux_digits _ _

theorem parse_decimal (n limit : Nat) (h : n < limit) : parseUnsigned limit (decimal n) = some n := by
  have hv := decimalAux_val (n + 1) n (by omega)
  have hd := decimal_digits n
  have hn := decimal_ne n
  unfold parseUnsigned
  rw [← decimal] at hv
  generalize decimal n = s at *
  match s, hn with
  | c :: cs, _ =>
    have hc : c ≠ '+' := by
      rintro rfl
      have := (hd '+' (by simp)).1
      revert this; decide
    have : stripPlus (c :: cs) = c :: cs := by simp [stripPlus, hc]
    simp [this, hv, h]

/-! ### Case insensitive search -/

theorem ciPrefix_some (pat : Text) : ∀ (s r : Text), ciPrefix pat s = some r → ∀ p ∈ pat, ∃ c ∈ s, ciChar p c = true := by
  induction pat with
  | nil => intro _ _ _ p hp; cases hp
  | cons q qs ih =>
    intro s r h p hp
    match s with
    | [] => cases h
    | c :: cs =>
      simp only [ciPrefix] at h
      split at h
      · rename_i hq
        rcases List.mem_cons.mp hp with rfl | hp
        · exact ⟨c, by simp, hq⟩
        · obtain ⟨x, hx, hpx⟩ := ih cs r h p hp
          exact ⟨x, by simp [hx], hpx⟩
      · cases h

theorem ciContains_mem (pat : Text) : ∀ (s : Text), ciContains pat s = true → ∀ p ∈ pat, ∃ c ∈ s, ciChar p c = true := by
  intro s
  induction s with
  | nil =>
    intro h p hp
    simp only [ciContains, Option.isSome_iff_exists] at h
    obtain ⟨r, h⟩ := h
    exact ciPrefix_some pat [] r h p hp
  | cons c cs ih =>
    intro h p hp
    simp only [ciContains, Bool.or_eq_true, Option.isSome_iff_exists] at h
    rcases h with ⟨r, h⟩ | h
    · exact ciPrefix_some pat _ r h p hp
    · obtain ⟨x, hx, hpx⟩ := ih h p hp
      exact ⟨x, by simp [hx], hpx⟩

/-- A pattern isn't found if one of its characters isn't there. -/
theorem ciContains_false (pat s : Text) (p : Char) (hp : p ∈ pat) (h : ∀ c ∈ s, ciChar p c = false) : ciContains pat s = false := by
  cases hc : ciContains pat s
  · rfl
  · obtain ⟨c, hc, hpc⟩ := ciContains_mem pat s hc p hp
    rw [h c hc] at hpc; cases hpc

/-- A pattern isn't found in a shorter text. -/
theorem ciPrefix_length (pat : Text) : ∀ (s r : Text), ciPrefix pat s = some r → pat.length ≤ s.length := by
  induction pat with
  | nil => intro _ _ _; simp
  | cons q qs ih =>
    intro s r h
    match s with
    | [] => cases h
    | c :: cs =>
      simp only [ciPrefix] at h
      split at h
      · have := ih cs r h; simp; omega
      · cases h

theorem ciContains_short (pat : Text) : ∀ s : Text, s.length < pat.length → ciContains pat s = false := by
  intro s
  induction s with
  | nil =>
    intro h
    simp only [ciContains]
    cases hp : ciPrefix pat []
    · rfl
    · have := ciPrefix_length _ _ _ hp; omega
  | cons c cs ih =>
    intro h
    simp only [ciContains, ih (by simp at h; omega), Bool.or_false]
    cases hp : ciPrefix pat (c :: cs)
    · rfl
    · have := ciPrefix_length _ _ _ hp; omega

end Verif

import Verif.Model.Basic
/-! Lemmas on byte slicing and text widths. -/
namespace Verif

theorem utf8Size_pos (c : Char) : 0 < c.utf8Size := c.utf8Size_pos

@[simp] theorem byteLen_append (a b : Text) : byteLen (a ++ b) = byteLen a + byteLen b := by
  induction a with
  | nil => simp [byteLen]
  | cons c t ih => simp [byteLen, ih]; omega

@[simp] theorem textWidth_append (cw : Char → Nat) (a b : Text) :
    textWidth cw (a ++ b) = textWidth cw a + textWidth cw b := by
  induction a with
  | nil => simp [textWidth]
  | cons c t ih => simp [textWidth, ih]; omega

@[simp] theorem textWidth_nil (cw : Char → Nat) : textWidth cw [] = 0 := rfl

theorem textWidth_singleton (cw : Char → Nat) (c : Char) : textWidth cw [c] = cw c := by
  simp [textWidth]

theorem textWidth_eq_sum (cw : Char → Nat) (t : Text) : textWidth cw t = (t.map cw).sum := by
  induction t with
  | nil => rfl
  | cons c t ih => simp [textWidth, ih]

theorem textWidth_replicate (cw : Char → Nat) (n : Nat) (c : Char) :
    textWidth cw (List.replicate n c) = n * cw c := by
  induction n with
  | zero => simp
  | succ n ih => simp [List.replicate_succ, textWidth, ih, Nat.add_mul]; omega

theorem byteLen_eq_zero {t : Text} : byteLen t = 0 ↔ t = [] := by
  cases t with
  | nil => simp [byteLen]
  | cons c t => have := utf8Size_pos c; simp [byteLen]; omega

theorem byteLen_replicate (n : Nat) (c : Char) : byteLen (List.replicate n c) = n * c.utf8Size := by
  induction n with
  | zero => simp [byteLen]
  | succ n ih => simp [List.replicate_succ, byteLen, ih, Nat.add_mul]; omega

/-- Slicing at the end of a prefix gives the prefix. -/
theorem takeBytes_prefix (p rest : Text) : takeBytes (p ++ rest) (byteLen p) = some p := by
  induction p with
  | nil => cases rest <;> simp [byteLen, takeBytes]
  | cons c t ih =>
    have hc := utf8Size_pos c
    obtain ⟨n, hn⟩ : ∃ n, byteLen (c :: t) = n + 1 := ⟨byteLen (c :: t) - 1, by simp [byteLen]; omega⟩
    rw [hn]
    have h1 : n + 1 = c.utf8Size + byteLen t := by rw [← hn]; rfl
    have h2 : c.utf8Size ≤ n + 1 := by omega
    have h3 : n + 1 - c.utf8Size = byteLen t := by omega
    simp [takeBytes, h2, h3, ih]

theorem dropBytes_prefix (p rest : Text) : dropBytes (p ++ rest) (byteLen p) = some rest := by
  induction p with
  | nil => cases rest <;> simp [byteLen, dropBytes]
  | cons c t ih =>
    have hc := utf8Size_pos c
    obtain ⟨n, hn⟩ : ∃ n, byteLen (c :: t) = n + 1 := ⟨byteLen (c :: t) - 1, by simp [byteLen]; omega⟩
    rw [hn]
    have h1 : n + 1 = c.utf8Size + byteLen t := by rw [← hn]; rfl
    have h2 : c.utf8Size ≤ n + 1 := by omega
    have h3 : n + 1 - c.utf8Size = byteLen t := by omega
    simp [dropBytes, h2, h3, ih]

theorem sliceBytes_mid (a b c : Text) :
    sliceBytes (a ++ b ++ c) (byteLen a) (byteLen a + byteLen b) = some b := by
  have h : byteLen a + byteLen b - byteLen a = byteLen b := by omega
  simp [sliceBytes, List.append_assoc, dropBytes_prefix, h, takeBytes_prefix]

theorem sliceBytes_prefix (p rest : Text) : sliceBytes (p ++ rest) 0 (byteLen p) = some p := by
  have := sliceBytes_mid [] p rest
  simpa [byteLen] using this

theorem takeBytes_spec {t : Text} : ∀ {n p}, takeBytes t n = some p → ∃ rest, t = p ++ rest ∧ byteLen p = n := by
  induction t with
  | nil =>
    intro n p h
    cases n with
    | zero => simp [takeBytes] at h; subst h; exact ⟨[], rfl, rfl⟩
    | succ n => simp [takeBytes] at h
  | cons c t ih =>
    intro n p h
    cases n with
    | zero => simp [takeBytes] at h; subst h; exact ⟨c :: t, rfl, rfl⟩
    | succ n =>
      simp only [takeBytes] at h
      split at h
      · cases h' : takeBytes t (n + 1 - c.utf8Size) with
        | none => rw [h'] at h; simp at h
        | some q =>
          rw [h'] at h; simp at h; subst h
          obtain ⟨rest, h1, h2⟩ := ih h'
          exact ⟨rest, by simp [h1], by simp [byteLen]; omega⟩
      · simp at h

theorem dropBytes_spec {t : Text} : ∀ {n d}, dropBytes t n = some d → ∃ pre, t = pre ++ d ∧ byteLen pre = n := by
  induction t with
  | nil =>
    intro n p h
    cases n with
    | zero => simp [dropBytes] at h; subst h; exact ⟨[], rfl, rfl⟩
    | succ n => simp [dropBytes] at h
  | cons c t ih =>
    intro n p h
    cases n with
    | zero => simp [dropBytes] at h; subst h; exact ⟨[], rfl, rfl⟩
    | succ n =>
      simp only [dropBytes] at h
      split at h
      · obtain ⟨pre, h1, h2⟩ := ih h
        exact ⟨c :: pre, by simp [h1], by simp [byteLen]; omega⟩
      · simp at h

theorem takeBytes_mem {t : Text} {n : Nat} {p : Text} (h : takeBytes t n = some p) {ch : Char} (hc : ch ∈ p) :
    ch ∈ t := by
  obtain ⟨rest, rfl, _⟩ := takeBytes_spec h
  simp [hc]

theorem dropBytes_mem {t : Text} {n : Nat} {p : Text} (h : dropBytes t n = some p) {ch : Char} (hc : ch ∈ p) :
    ch ∈ t := by
  obtain ⟨rest, rfl, _⟩ := dropBytes_spec h
  simp [hc]

end Verif

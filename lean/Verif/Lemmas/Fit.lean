import Verif.Model.Fit
import Verif.Spec.Screen
import Verif.Lemmas.Bytes
/-! Lemmas for `StrFit`, `Filling` and `CropWriter`. -/
namespace Verif
open Spec

theorem prefix_append_cases {α : Type u} {p a b : List α} (h : p <+: a ++ b) :
    p <+: a ∨ ∃ q, p = a ++ q ∧ q <+: b := by
  obtain ⟨r, hr⟩ := h
  rcases List.append_eq_append_iff.mp hr with ⟨x, h1, h2⟩ | ⟨x, h1, h2⟩
  · exact Or.inl ⟨x, h1.symm⟩
  · exact Or.inr ⟨x, h1, ⟨r, h2.symm⟩⟩

theorem position_append (cw : Char → Nat) (tw : Nat) (a b : Text) :
    position cw tw (a ++ b) = position cw tw a + position cw tw b := by
  induction a with
  | nil => simp [position]
  | cons c t ih => simp [position, ih]; omega

theorem untab_eq (t : Text) : StrFit.untab t = noTab t := by
  induction t with
  | nil => rfl
  | cons c t ih =>
    simp only [StrFit.untab, ih, noTab, List.flatMap_cons]
    rfl

theorem noTab_append (a b : Text) : noTab (a ++ b) = noTab a ++ noTab b := by
  simp [noTab]

theorem noTab_of_not_mem {t : Text} (h : '\t' ∉ t) : noTab t = t := by
  induction t with
  | nil => rfl
  | cons c t ih =>
    simp at h
    have hc : c ≠ '\t' := fun e => h.1 e.symm
    have := ih h.2
    simp only [noTab, List.flatMap_cons] at *
    rw [this]; simp [hc]

theorem tab_not_mem_noTab (t : Text) : '\t' ∉ noTab t := by
  simp only [noTab, List.mem_flatMap, not_exists, not_and]
  intro c _
  split
  · decide
  · rename_i h
    simp
    exact fun e => h e.symm

theorem charWidth_eq (cw : Char → Nat) (c : Char) : StrFit.charWidth cw c = move cw 2 c := by
  unfold StrFit.charWidth move tabChar bsChar
  by_cases h1 : c = '\t'
  · simp [h1]
  · by_cases h2 : c = '\x08' <;> simp [h1, h2]

/-- The loop of `StrFit::from` stops after some prefix `p`. -/
theorem strFit_loop (cw : Char → Nat) (m : Nat) (t : Text) : ∀ (i : Nat) (cols : Int) (tab : Bool),
    cols ≤ m →
    ∃ p rest tab', t = p ++ rest ∧ StrFit.loop cw m t i i cols tab = (i + byteLen p, cols + position cw 2 p, tab') ∧
      (∀ q, q <+: p → cols + position cw 2 q ≤ m) ∧
      (∀ c r, rest = c :: r → (m : Int) < cols + position cw 2 (p ++ [c])) ∧
      ('\t' ∈ p → tab' = true) := by
  induction t with
  | nil =>
    intro i cols tab h
    refine ⟨[], [], tab, rfl, by simp [StrFit.loop, byteLen, position], ?_, by simp, by simp⟩
    intro q hq
    simp at hq; subst hq; simpa [position] using h
  | cons c t ih =>
    intro i cols tab h
    by_cases hb : cols + StrFit.charWidth cw c > 0 ∧ (cols + StrFit.charWidth cw c).toNat > m
    · refine ⟨[], c :: t, (if c = tabChar then true else tab), rfl, ?_, ?_, ?_, by simp⟩
      · simp only [StrFit.loop]; rw [if_pos hb]; simp [byteLen, position]
      · intro q hq
        simp at hq; subst hq; simpa [position] using h
      · intro c' r e
        cases e
        simp only [List.nil_append, position, ← charWidth_eq]
        omega
    · have hle : cols + StrFit.charWidth cw c ≤ m := by omega
      obtain ⟨p, rest, tab', e, hl, hq, hr, ht⟩ :=
        ih (i + c.utf8Size) (cols + StrFit.charWidth cw c) (if c = tabChar then true else tab) hle
      refine ⟨c :: p, rest, (StrFit.loop cw m (c :: t) i i cols tab).2.2, by simp [e], ?_, ?_, ?_, ?_⟩
      · simp only [StrFit.loop]; rw [if_neg hb, hl]
        simp [byteLen, position, charWidth_eq]; omega
      · intro q hq'
        rcases List.prefix_cons_iff.mp hq' with rfl | ⟨q', rfl, hq2⟩
        · simpa [position] using h
        · have := hq q' hq2
          simp only [position, ← charWidth_eq]; omega
      · intro c' r e'
        have := hr c' r e'
        simp only [List.cons_append, position, ← charWidth_eq]; omega
      · intro hmem
        simp only [StrFit.loop]; rw [if_neg hb, hl]
        rcases List.mem_cons.mp hmem with h0 | h0
        · have hloop : ∀ (t : Text) i b cols, (StrFit.loop cw m t i b cols true).2.2 = true := by
            intro t
            induction t with
            | nil => intros; rfl
            | cons d t ih => intro i b cols; simp only [StrFit.loop]; split <;> simp [ih]
          have h1 := hloop t (i + c.utf8Size) (i + c.utf8Size) (cols + StrFit.charWidth cw c)
          have hc : c = tabChar := h0.symm
          simp only [hc, if_true] at hl h1
          rw [hl] at h1
          simpa using h1
        · exact ht h0

theorem within_append {cw : Char → Nat} {tw : Nat} {a b : Text} {m : Nat} (h1 : Within cw tw a m)
    (h2 : ∀ q, q <+: b → position cw tw a + position cw tw q ≤ m) : Within cw tw (a ++ b) m := by
  intro p hp
  rcases prefix_append_cases hp with h | ⟨q, rfl, hq⟩
  · exact h1 p h
  · rw [position_append]; exact h2 q hq

/-- Positions are the same once tabs are replaced. -/
theorem position_noTab (cw : Char → Nat) (hsp : cw ' ' = 1) (tw : Nat) (t : Text) :
    position cw tw (noTab t) = position cw 2 t := by
  induction t with
  | nil => rfl
  | cons c t ih =>
    have : noTab (c :: t) = (if c = '\t' then [' ', ' '] else [c]) ++ noTab t := by simp [noTab]
    rw [this, position_append, ih]
    by_cases hc : c = '\t'
    · subst hc
      simp [position, move, hsp]
    · simp [position, move, hc]

/-- A prefix of the tab-replaced text is at most one space away of a tab-replaced prefix. -/
theorem within_noTab (cw : Char → Nat) (hsp : cw ' ' = 1) (tw : Nat) (t : Text) (m : Int)
    (h : ∀ q, q <+: t → position cw 2 q ≤ m) :
    ∀ q, q <+: noTab t → position cw tw q ≤ m := by
  induction t generalizing m with
  | nil => intro q hq; simp [noTab] at hq; subst hq; exact h [] (by simp)
  | cons c t ih =>
    intro q hq
    have e : noTab (c :: t) = (if c = '\t' then [' ', ' '] else [c]) ++ noTab t := by simp [noTab]
    have ht : ∀ q, q <+: t → position cw 2 q ≤ m - move cw 2 c := by
      intro q hq
      have := h (c :: q) (by simpa using hq)
      simp only [position] at this; omega
    have ih' := ih (m - move cw 2 c) ht
    have h0 := h [] (by simp)
    have h1 := h [c] (by simp)
    simp only [position] at h0 h1
    rw [e] at hq
    by_cases hc : c = '\t'
    · subst hc
      simp only [if_true] at hq
      rcases prefix_append_cases hq with hq | ⟨q', rfl, hq'⟩
      · simp only [move] at h1
        have : q = [] ∨ q = [' '] ∨ q = [' ', ' '] := by
          rcases List.prefix_cons_iff.mp hq with rfl | ⟨q1, rfl, hq1⟩
          · simp
          · rcases List.prefix_cons_iff.mp hq1 with rfl | ⟨q2, rfl, hq2⟩
            · simp
            · simp at hq2; simp [hq2]
        rcases this with rfl | rfl | rfl <;> simp [position, move, hsp] <;> simp at h1 <;> omega
      · have := ih' q' hq'
        rw [position_append]
        simp [move] at this
        simp [position, move, hsp]; omega
    · simp only [hc, if_false] at hq
      rcases prefix_append_cases hq with hq | ⟨q', rfl, hq'⟩
      · rcases List.prefix_cons_iff.mp hq with rfl | ⟨q1, rfl, hq1⟩
        · simpa [position] using h0
        · simp at hq1; subst hq1
          simp [position, move, hc] at h1 ⊢; omega
      · have := ih' q' hq'
        rw [position_append]
        simp only [position]
        have e2 : move cw tw c = move cw 2 c := by simp [move, hc]
        omega

theorem filling_queue (c : Char) (len : Nat) :
    ∃ chunks, (Filling.fromChar c).queue len = some chunks ∧ chunks.flatten = List.replicate len c := by
  induction len using Nat.strongRecOn with
  | _ len ih =>
    rw [Filling.queue]
    by_cases h : 0 < len
    · simp only [h, dite_true]
      have hsl : min len fillingStringCharLen ≤ fillingStringCharLen := Nat.min_le_right ..
      have hpos : 0 < min len fillingStringCharLen := by simp only [fillingStringCharLen]; omega
      have hle : min len fillingStringCharLen ≤ len := Nat.min_le_left ..
      generalize min len fillingStringCharLen = sl at *
      obtain ⟨chunks, e1, e2⟩ := ih (len - sl) (by omega)
      have hs : sliceBytes (Filling.fromChar c).fillingString 0 (sl * (Filling.fromChar c).charSize)
          = some (List.replicate sl c) := by
        have : (Filling.fromChar c).fillingString
            = List.replicate sl c ++ List.replicate (fillingStringCharLen - sl) c := by
          simp only [Filling.fromChar, List.replicate_append_replicate]
          congr 1; omega
        rw [this]
        have h2 := sliceBytes_prefix (List.replicate sl c) (List.replicate (fillingStringCharLen - sl) c)
        rw [byteLen_replicate] at h2
        exact h2
      refine ⟨List.replicate sl c :: chunks, by simp [hs, e1], ?_⟩
      simp only [List.flatten_cons, e2, List.replicate_append_replicate]
      congr 1; omega
    · have : len = 0 := by omega
      subst this
      exact ⟨[], by simp, by simp⟩

end Verif

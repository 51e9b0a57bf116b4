import Verif.Lemmas.Code
/-! Property C09: justification of code blocks. -/
namespace Verif.Props
open Verif

/-- C09: the lines of each maximal run of consecutive code lines get a spacing width equal to the length of the
longest one, and nothing else is changed. -/
theorem C09_justify (lines : List FmtLine) : Justified lines (justifyBlocks lines) := justifyBlocks_spec lines

/-- C09: the specification leaves only one possible result. -/
theorem C09_unique (lines out out' : List FmtLine) (h : Justified lines out) (h' : Justified lines out') : out = out' := by
  have longest : ∀ {blk : List FmtLine} {w w' : Nat}, IsLongest blk w → IsLongest blk w' → w = w' := by
    rintro blk w w' ⟨⟨l, hl, e⟩, ha⟩ ⟨⟨l', hl', e'⟩, ha'⟩
    have := ha l' hl'
    have := ha' l hl
    omega
  have split : ∀ {a b c d : List FmtLine}, a ++ b = c ++ d → (∀ l ∈ a, IsCodeLine l) → (∀ l ∈ c, IsCodeLine l) →
      (∀ l, b.head? = some l → ¬ IsCodeLine l) → (∀ l, d.head? = some l → ¬ IsCodeLine l) → a = c ∧ b = d := by
    intro a
    induction a with
    | nil =>
      intro b c d h _ hc hb _
      cases c with
      | nil => exact ⟨rfl, by simpa using h⟩
      | cons x c =>
        simp only [List.nil_append] at h
        subst h
        exact absurd (hc x (by simp)) (hb x rfl)
    | cons y a ih =>
      intro b c d h ha hc hb hd
      cases c with
      | nil =>
        simp only [List.nil_append] at h
        subst h
        exact absurd (ha y (by simp)) (hd y rfl)
      | cons x c =>
        simp only [List.cons_append, List.cons.injEq] at h
        obtain ⟨rfl, h⟩ := h
        obtain ⟨rfl, rfl⟩ := ih h (fun l hl => ha l (by simp [hl])) (fun l hl => hc l (by simp [hl])) hb hd
        exact ⟨rfl, rfl⟩
  induction h generalizing out' with
  | nil =>
    generalize hn : ([] : List FmtLine) = L at h'
    cases h' with
    | nil => rfl
    | other => simp at hn
    | block hne =>
      simp only [List.nil_eq, List.append_eq_nil_iff] at hn
      exact absurd hn.1 hne
  | @other l lines out hl h ih =>
    generalize hn : l :: lines = L at h'
    cases h' with
    | nil => simp at hn
    | other hl2 h2 =>
      simp only [List.cons.injEq] at hn
      obtain ⟨rfl, rfl⟩ := hn
      rw [ih _ h2]
    | @block blk _ _ _ _ hne hc =>
      cases blk with
      | nil => exact absurd rfl hne
      | cons x blk =>
        simp only [List.cons_append, List.cons.injEq] at hn
        obtain ⟨rfl, _⟩ := hn
        exact absurd (hc _ (by simp)) hl
  | @block blk blk' lines out w hne hc hmax hlong hlen hsp h ih =>
    generalize hn : blk ++ lines = L at h'
    cases h' with
    | nil =>
      simp only [List.append_eq_nil_iff] at hn
      exact absurd hn.1 hne
    | other hl2 h2 =>
      cases blk with
      | nil => exact absurd rfl hne
      | cons x blk =>
        simp only [List.cons_append, List.cons.injEq] at hn
        obtain ⟨rfl, _⟩ := hn
        exact absurd (hc _ (by simp)) hl2
    | @block blk2 blk2' lines2 out2 w2 hne2 hc2 hmax2 hlong2 hlen2 hsp2 h2 =>
      obtain ⟨rfl, rfl⟩ := split hn hc hc2 hmax hmax2
      have hw := longest hlong hlong2
      subst hw
      rw [ih _ h2]
      congr 1
      apply List.ext_getElem?
      intro i
      rcases Nat.lt_or_ge i blk.length with hi | hi
      · have e0 := List.getElem?_eq_getElem hi
        have e1 := List.getElem?_eq_getElem (l := blk') (i := i) (by omega)
        have e2 := List.getElem?_eq_getElem (l := blk2') (i := i) (by omega)
        obtain ⟨fc, f1, f2⟩ := hsp i _ _ e0 e1
        obtain ⟨fc', g1, g2⟩ := hsp2 i _ _ e0 e2
        rw [f1] at g1
        simp only [FmtLine.normal.injEq] at g1
        subst g1
        rw [e1, e2, f2, g2]
      · rw [List.getElem?_eq_none (by omega), List.getElem?_eq_none (by omega)]

/-- A code line of a given length. -/
def codeOfLen (n : Nat) : FmtLine := .normal { kind := .code, visibleLength := n }

/-- Two blocks, one at the end. -/
example : (justifyBlocks [codeOfLen 3, codeOfLen 7, codeOfLen 2, .horizontalRule, codeOfLen 4]).map
    (fun l => match l with | .normal fc => fc.spacing.map (·.width) | _ => none) =
    [some 7, some 7, some 7, none, some 4] := by decide

end Verif.Props

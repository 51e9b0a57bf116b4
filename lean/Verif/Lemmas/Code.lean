import Verif.Model.Code
import Verif.Spec.Code
/-! Lemmas on code blocks. -/
namespace Verif

/-- Induction following maximal runs of elements with a property. -/
theorem runs_induction {α : Type} {p : α → Prop} [DecidablePred p] {P : List α → Prop} (hnil : P [])
    (hother : ∀ l lines, ¬ p l → P lines → P (l :: lines))
    (hrun : ∀ run lines, run ≠ [] → (∀ l ∈ run, p l) → (∀ l, lines.head? = some l → ¬ p l) →
      P lines → P (run ++ lines)) : ∀ lines, P lines := by
  have cut : ∀ (lines : List α), ∃ run rest, lines = run ++ rest ∧ (∀ l ∈ run, p l) ∧
      (∀ l, rest.head? = some l → ¬ p l) := by
    intro lines
    induction lines with
    | nil => exact ⟨[], [], rfl, by simp, by simp⟩
    | cons l lines ih =>
      by_cases h : p l
      · obtain ⟨run, rest, h1, h2, h3⟩ := ih
        refine ⟨l :: run, rest, by simp [h1], ?_, h3⟩
        intro x hx
        simp only [List.mem_cons] at hx
        rcases hx with rfl | hx
        · exact h
        · exact h2 x hx
      · exact ⟨[], l :: lines, rfl, by simp, by simpa using h⟩
  have : ∀ n (lines : List α), lines.length ≤ n → P lines := by
    intro n
    induction n with
    | zero => intro lines h; cases lines with
      | nil => exact hnil
      | cons _ _ => simp at h
    | succ n ih =>
      intro lines h
      cases lines with
      | nil => exact hnil
      | cons l lines =>
        by_cases hl : p l
        · obtain ⟨run, rest, h1, h2, h3⟩ := cut (l :: lines)
          have hne : run ≠ [] := by
            intro h0; subst h0
            simp only [List.nil_append] at h1
            subst h1
            exact h3 l rfl hl
          rw [h1]
          refine hrun run rest hne h2 h3 (ih rest ?_)
          have hlen := congrArg List.length h1
          simp only [List.length_append] at hlen
          have : 0 < run.length := List.length_pos_iff.2 hne
          omega
        · exact hother l lines hl (ih lines (by simpa using h))
  exact fun lines => this lines.length lines (Nat.le_refl _)

def CodeBlock.shift (k : Nat) (b : CodeBlock) : CodeBlock := { b with start := b.start + k }

theorem codeLen_none {l : FmtLine} (h : ¬ IsCodeLine l) : codeLineLength l = none := by
  cases l <;> simp [IsCodeLine, codeLineLength] at h ⊢
  exact h

theorem codeLen_some {l : FmtLine} (h : IsCodeLine l) : codeLineLength l = some l.visibleLength := by
  cases l <;> simp [IsCodeLine, codeLineLength, FmtLine.visibleLength] at h ⊢
  exact h

theorem findBlocksLoop_shift (k : Nat) : ∀ (lines : List FmtLine) (idx : Nat) (cur : Option CodeBlock),
    findBlocksLoop (idx + k) (cur.map (CodeBlock.shift k)) lines =
      (findBlocksLoop idx cur lines).map (CodeBlock.shift k) := by
  intro lines
  induction lines with
  | nil => intro idx cur; cases cur <;> simp [findBlocksLoop]
  | cons line lines ih =>
    intro idx cur
    have e : idx + k + 1 = idx + 1 + k := by omega
    cases cur with
    | none =>
      simp only [Option.map_none, findBlocksLoop]
      cases codeLineLength line with
      | none => simp only [e]; exact ih (idx + 1) none
      | some n => simp only [e]; exact ih (idx + 1) (some ⟨idx, 1, n⟩)
    | some t =>
      simp only [Option.map_some, findBlocksLoop]
      cases codeLineLength line with
      | none => simp only [List.map_cons, e]; congr 1; exact ih (idx + 1) none
      | some n =>
        simp only [e]
        exact ih (idx + 1) (some { t with height := t.height + 1, width := max t.width n })

theorem justify_shift (pre : List FmtLine) : ∀ (bs : List CodeBlock) (lines : List FmtLine),
    (bs.map (CodeBlock.shift pre.length)).foldl (fun ls b => b.justify ls) (pre ++ lines) =
      pre ++ bs.foldl (fun ls b => b.justify ls) lines := by
  intro bs
  induction bs with
  | nil => intro lines; rfl
  | cons b bs ih =>
    intro lines
    simp only [List.map_cons, List.foldl_cons]
    have : (b.shift pre.length).justify (pre ++ lines) = pre ++ b.justify lines := by
      have e1 : ((pre ++ lines).drop (b.start + pre.length)) = lines.drop b.start := by
        rw [List.drop_append, List.drop_eq_nil_of_le (by omega)]
        simp
      have e2 : ((pre ++ lines).take (b.start + pre.length)) = pre ++ lines.take b.start := by
        rw [List.take_append, List.take_of_length_le (by omega)]
        simp
      have e3 : ((pre ++ lines).drop (b.start + pre.length + b.height)) = lines.drop (b.start + b.height) := by
        rw [List.drop_append, List.drop_eq_nil_of_le (by omega)]
        simp only [List.nil_append]
        congr 1; omega
      simp only [CodeBlock.justify, CodeBlock.shift, e1, e2, e3, List.append_assoc]
    rw [this, ih]

theorem justifyBlocks_other {l : FmtLine} (hl : ¬ IsCodeLine l) (lines : List FmtLine) :
    justifyBlocks (l :: lines) = l :: justifyBlocks lines := by
  unfold justifyBlocks findBlocks
  have h1 : findBlocksLoop 0 none (l :: lines) = (findBlocksLoop 0 none lines).map (CodeBlock.shift 1) := by
    simp only [findBlocksLoop, codeLen_none hl]
    exact findBlocksLoop_shift 1 lines 0 none
  rw [h1]
  exact justify_shift [l] _ lines

/-- Longest line. -/
def maxLen : List FmtLine → Nat
  | [] => 0
  | l :: ls => max l.visibleLength (maxLen ls)

theorem findBlocksLoop_block {lines : List FmtLine} (hmax : ∀ l, lines.head? = some l → ¬ IsCodeLine l) :
    ∀ (blk : List FmtLine), (∀ l ∈ blk, IsCodeLine l) → ∀ (idx : Nat) (b : CodeBlock),
    findBlocksLoop idx (some b) (blk ++ lines) =
      { b with height := b.height + blk.length, width := max b.width (maxLen blk) } ::
        findBlocksLoop (idx + blk.length) none lines := by
  intro blk
  induction blk with
  | nil =>
    intro _ idx b
    cases lines with
    | nil => simp [findBlocksLoop, maxLen]
    | cons l lines =>
      simp only [List.nil_append, findBlocksLoop, codeLen_none (hmax l rfl), maxLen, List.length_nil,
        Nat.add_zero, Nat.max_zero]
  | cons a blk ih =>
    intro h idx b
    simp only [List.cons_append, findBlocksLoop, codeLen_some (h a (by simp))]
    rw [ih (fun l hl => h l (by simp [hl]))]
    simp only [List.length_cons, maxLen, List.cons.injEq]
    refine ⟨?_, ?_⟩
    · congr 1 <;> omega
    · congr 1; omega

theorem justifyBlocks_block {blk lines : List FmtLine} (hne : blk ≠ []) (hl : ∀ l ∈ blk, IsCodeLine l)
    (hmax : ∀ l, lines.head? = some l → ¬ IsCodeLine l) :
    justifyBlocks (blk ++ lines) = blk.map (setCodeSpacing (maxLen blk)) ++ justifyBlocks lines := by
  cases blk with
  | nil => exact absurd rfl hne
  | cons a blk =>
    unfold justifyBlocks findBlocks
    have h1 : findBlocksLoop 0 none (a :: blk ++ lines) =
        ⟨0, (a :: blk).length, maxLen (a :: blk)⟩ ::
          (findBlocksLoop 0 none lines).map (CodeBlock.shift (a :: blk).length) := by
      simp only [List.cons_append, findBlocksLoop, codeLen_some (hl a (by simp))]
      rw [findBlocksLoop_block hmax blk (fun l h => hl l (by simp [h]))]
      have := findBlocksLoop_shift (a :: blk).length lines 0 none
      simp only [Option.map_none] at this
      rw [← this]
      simp only [List.length_cons, maxLen, List.cons.injEq]
      refine ⟨?_, ?_⟩
      · congr 1; omega
      · congr 1; omega
    rw [h1, List.foldl_cons]
    have h2 : (CodeBlock.mk 0 (a :: blk).length (maxLen (a :: blk))).justify (a :: blk ++ lines) =
        (a :: blk).map (setCodeSpacing (maxLen (a :: blk))) ++ lines := by
      simp only [CodeBlock.justify, List.drop_zero, List.take_zero, List.nil_append, Nat.zero_add]
      rw [List.take_left, List.drop_left]
    rw [h2]
    have h3 := justify_shift ((a :: blk).map (setCodeSpacing (maxLen (a :: blk)))) (findBlocksLoop 0 none lines) lines
    rw [List.length_map] at h3
    exact h3

theorem maxLen_longest : ∀ (blk : List FmtLine), blk ≠ [] → IsLongest blk (maxLen blk) := by
  intro blk
  induction blk with
  | nil => intro h; exact absurd rfl h
  | cons a blk ih =>
    intro _
    cases blk with
    | nil => exact ⟨⟨a, by simp, by simp [maxLen]⟩, by simp [maxLen]⟩
    | cons b blk =>
      obtain ⟨⟨l, hl, hm⟩, hall⟩ := ih (by simp)
      simp only [maxLen] at hm hall ⊢
      refine ⟨?_, ?_⟩
      · rcases Nat.le_total a.visibleLength (max b.visibleLength (maxLen blk)) with h | h
        · exact ⟨l, by simp at hl ⊢; exact .inr hl, by omega⟩
        · exact ⟨a, by simp, by omega⟩
      · intro x hx
        rw [List.mem_cons] at hx
        rcases hx with rfl | hx
        · exact Nat.le_max_left _ _
        · have := hall x hx; omega

theorem justifyBlocks_spec : ∀ lines, Justified lines (justifyBlocks lines) := by
  intro lines
  induction lines using runs_induction (p := IsCodeLine) with
  | hnil => exact .nil
  | hother l lines hl ih => rw [justifyBlocks_other hl]; exact .other hl ih
  | hrun blk lines hne hl hmax ih =>
    rw [justifyBlocks_block hne hl hmax]
    refine .block hne hl hmax (maxLen_longest blk hne) (by simp) ?_ ih
    intro i l l' h1 h2
    simp only [List.getElem?_map, h1, Option.map_some, Option.some.injEq] at h2
    have := hl l (List.mem_of_getElem? h1)
    cases l with
    | normal fc => exact ⟨fc, rfl, by rw [← h2]; rfl⟩
    | _ => exact False.elim this

end Verif

import Verif.Lemmas.TblFit
/-! Property C06: column widths computed for a table. -/
namespace Verif.Props
open Verif Spec

/-- C06: the fitter is refused exactly when there are not 3 columns of text per table column plus the borders. -/
theorem C06_new (n aw : Nat) :
    ∃ r, TblFit.new n aw = some r ∧ (r = none ↔ aw < 4 * n + 1) := by
  unfold TblFit.new
  by_cases h : aw < n * 4 + 1
  · exact ⟨none, by simp [h], by simp; omega⟩
  · simp only [h, if_false]
    rw [csub_of_le (by omega)]
    simp only [Option.bind_eq_bind, Option.bind_some]
    rw [csub_of_le (by omega)]
    exact ⟨_, rfl, by simp; omega⟩

private theorem new_cols (n aw : Nat) (h : 4 * n + 1 ≤ aw) :
    TblFit.new n aw = some (some ⟨List.replicate n {}, aw - 1 - n⟩) := by
  have h' : ¬ aw < n * 4 + 1 := by omega
  simp only [TblFit.new, h', if_false]
  rw [csub_of_le (by omega)]
  simp only [Option.bind_eq_bind, Option.bind_some]
  rw [csub_of_le (by omega)]
  rfl

/-- C06: for any cells seen, in any order, with enough room for 3 characters per column, `fit` does not panic and
gives one width per column, each at least 3 and at most the natural width of the column, which fit in the available
width with the borders. The natural widths are kept if they fit, and otherwise the available width is used up.
(`naturalWidth` is the width of the widest cell of the column, and at least 3.) -/
theorem C06_fit (n aw : Nat) (h : 4 * n + 1 ≤ aw) (cells : List (Nat × Nat)) :
    ∃ f r, TblFit.new n aw = some (some f) ∧ (f.seeCells cells).fit = some r ∧
      r.colWidths.length = n ∧
      (∀ w ∈ r.colWidths, 3 ≤ w) ∧
      r.colWidths.sum + n + 1 ≤ aw ∧
      ((naturalWidths cells n).sum + n + 1 ≤ aw → r.colWidths = naturalWidths cells n) ∧
      (aw < (naturalWidths cells n).sum + n + 1 → r.colWidths.sum + n + 1 = aw) ∧
      (∀ (i w : Nat), r.colWidths[i]? = some w → w ≤ naturalWidth cells i) ∧
      (n ≠ 1 → (r.reduced = true ↔ aw < (naturalWidths cells n).sum + n + 1)) := by
  refine ⟨⟨List.replicate n {}, aw - 1 - n⟩, ?_⟩
  have hg0 : ∀ c ∈ (List.replicate n ({} : ColData)), c.Good := by
    intro c hc; rw [List.eq_of_mem_replicate hc]; exact ⟨Nat.le_refl _, by simp⟩
  obtain ⟨g1, g2, g3, g4⟩ := seeCells_cols cells ⟨List.replicate n {}, aw - 1 - n⟩ hg0
  have hw : ((TblFit.mk (List.replicate n {}) (aw - 1 - n)).seeCells cells).cols.map (·.width)
      = naturalWidths cells n := by
    apply List.ext_getElem?
    intro i
    rw [List.getElem?_map, g4]
    by_cases hi : i < n
    · simp [naturalWidths, hi, naturalWidth]
    · simp [naturalWidths, hi]
  simp only [List.length_replicate] at g2
  obtain ⟨r, r1, r2, r3, r4, r5, r6, r7, r8⟩ := fit_ok _ g1 (by rw [g2, g3]; simp; omega)
  rw [hw, g3] at r4 r5 r7 r8
  rw [hw] at r6
  rw [g2] at r2 r8
  simp only at r4 r5 r7 r8
  refine ⟨r, new_cols n aw h, r1, r2, r3, ?_, fun h => r4 (by omega), fun h => by have := r5 (by omega); omega, ?_, ?_⟩
  · by_cases hle : (naturalWidths cells n).sum ≤ aw - 1 - n
    · rw [r4 hle]; omega
    · have := r5 (by omega); omega
  · intro i w hi
    obtain ⟨m, hm, hle⟩ := r6 i w hi
    simp [naturalWidths] at hm
    obtain ⟨x, hx, rfl⟩ := hm
    rw [List.getElem?_eq_some_iff] at hx
    obtain ⟨_, hx⟩ := hx
    simp at hx
    subst hx
    exact hle
  · intro hn
    exact ⟨fun h => by have := r7 h; omega, fun h => r8 hn (by omega)⟩

/-- A table of 3 columns, of natural widths 12, 3 and 30, in 25 columns. -/
example : ((TblFit.new 3 25).map (Option.map (fun f =>
    (f.seeCells [(0, 12), (1, 2), (2, 30), (0, 4), (2, 5)]).fit))) =
    some (some (some ⟨true, [8, 3, 10]⟩)) := by decide

/-- The documentation of `TblFitResult::reduced` ("whether some cells will have to be wrapped") is wrong for a
single column: the column is reduced but the flag is not set. -/
theorem C06_reduced_counterexample : ((TblFit.new 1 10).map (Option.map (fun f => (f.seeCells [(0, 20)]).fit))) =
    some (some (some ⟨false, [8]⟩)) := by decide

end Verif.Props

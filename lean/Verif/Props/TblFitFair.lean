import Verif.Lemmas.TblFitFair
import Verif.Props.TblFit
/-! Property C76: the columns which are reduced when a table is too wide. -/
namespace Verif.Props
open Verif Spec

private theorem pairwise_mem {R : α → α → Prop} {l : List α} (h : l.Pairwise R) :
    ∀ a ∈ l, ∀ b ∈ l, a = b ∨ R a b ∨ R b a := by
  induction l with
  | nil => simp
  | cons x xs ih =>
    rw [List.pairwise_cons] at h
    intro a ha b hb
    rcases List.mem_cons.mp ha with ha' | ha' <;> rcases List.mem_cons.mp hb with hb' | hb'
    · exact .inl (by rw [ha', hb'])
    · rw [ha']; exact .inr (.inl (h.1 b hb'))
    · rw [hb']; exact .inr (.inr (h.1 a ha'))
    · exact ih h.2 a ha' b hb'

/-- The state of the fitter after the cells are seen. -/
private theorem seen (n aw : Nat) (h : 4 * n + 1 ≤ aw) (cells : List (Nat × Nat)) :
    ∃ f, TblFit.new n aw = some (some f) ∧ (∀ c ∈ (f.seeCells cells).cols, c.Good) ∧
      (f.seeCells cells).cols.length = n ∧ (f.seeCells cells).availableSumWidth = aw - 1 - n ∧
      (f.seeCells cells).cols.map (·.width) = naturalWidths cells n ∧
      ∀ i, i < n → ((f.seeCells cells).cols[i]?).bind (·.avgWidth) = some (averageWidth cells i) := by
  have hnew : TblFit.new n aw = some (some ⟨List.replicate n {}, aw - 1 - n⟩) := by
    have h' : ¬ aw < n * 4 + 1 := by omega
    simp only [TblFit.new, h', if_false]
    rw [csub_of_le (by omega)]
    simp only [Option.bind_eq_bind, Option.bind_some]
    rw [csub_of_le (by omega)]
    rfl
  refine ⟨_, hnew, ?_⟩
  have hg0 : ∀ c ∈ (List.replicate n ({} : ColData)), c.Good := by
    intro c hc; rw [List.eq_of_mem_replicate hc]; exact ⟨Nat.le_refl _, by simp⟩
  obtain ⟨g1, g2, g3, g4⟩ := seeCells_cols cells ⟨List.replicate n {}, aw - 1 - n⟩ hg0
  refine ⟨g1, by rw [g2]; simp, g3, ?_, ?_⟩
  · apply List.ext_getElem?
    intro i
    rw [List.getElem?_map, g4]
    by_cases hi : i < n
    · simp [naturalWidths, hi, naturalWidth]
    · simp [naturalWidths, hi]
  · intro i hi
    have hs := seeCells_stats cells ⟨List.replicate n {}, aw - 1 - n⟩ i
    simp only [List.getElem?_replicate, hi, if_true, Option.map_some] at hs
    rw [Option.map_eq_some_iff] at hs
    obtain ⟨c, hc, hp⟩ := hs
    simp only [Prod.mk.injEq, Nat.zero_add] at hp
    rw [hc]
    simp only [Option.bind_some, ColData.avgWidth, hp.1, hp.2, averageWidth]
    by_cases h0 : (cellWidths cells i).length = 0
    · simp only [h0, if_true]; rfl
    · simp only [h0, if_false]; exact divCeil_eq _ _ h0

private theorem getElem?_naturalWidths {cells : List (Nat × Nat)} {n i w : Nat}
    (h : (naturalWidths cells n)[i]? = some w) : i < n ∧ w = naturalWidth cells i := by
  simp only [naturalWidths, List.getElem?_map, Option.map_eq_some_iff] at h
  obtain ⟨x, hx, rfl⟩ := h
  obtain ⟨h1, h2⟩ := List.getElem?_eq_some_iff.mp hx
  simp at h1 h2
  subst h2
  exact ⟨h1, rfl⟩

private theorem average_le (n : Nat) (cells : List (Nat × Nat)) (i : Nat) (hi : i < n) :
    averageWidth cells i ≤ naturalWidth cells i := by
  obtain ⟨f, _, g1, g2, _, g4, g5⟩ := seen n (4 * n + 1) (Nat.le_refl _) cells
  have h5 := g5 i hi
  cases hc : (f.seeCells cells).cols[i]? with
  | none => simp [hc] at h5
  | some c =>
    simp only [hc, Option.bind_some] at h5
    obtain ⟨a, ha, hle⟩ := (g1 c (List.mem_of_getElem? hc)).avg
    rw [ha] at h5
    have h4 := congrArg (fun l => l[i]?) g4
    simp only [List.getElem?_map, hc, Option.map_some] at h4
    have := (getElem?_naturalWidths h4.symm).2
    cases h5
    omega

/-- The facts on the columns of a table which is too wide. -/
private theorem split (n aw : Nat) (h : 4 * n + 1 ≤ aw) (hn : 2 ≤ n) (cells : List (Nat × Nat))
    (hx : aw < (naturalWidths cells n).sum + n + 1) :
    ∃ f r sfits l1 x1 l2 x2, TblFit.new n aw = some (some f) ∧ (f.seeCells cells).fit = some r ∧
      TblFit.doStep1 sfits ((naturalWidths cells n).sum + n + 1 - aw) = some (l1, x1) ∧
      TblFit.doStep2 l1 x1 = some (l2, x2) ∧
      Reduced sfits l1 ∧ Reduced l1 l2 ∧
      x1 + 3 * l1.length ≤ sumW l1 ∧
      (sfits.map (·.idx)).Perm (List.range n) ∧
      sfits.Pairwise (fun a b => b.width ≤ a.width ∧ (a.width ≤ b.width → a.idx < b.idx)) ∧
      (∀ c ∈ sfits, 3 ≤ c.width ∧ c.width = c.stdWidth ∧ c.avgWidth ≤ c.width ∧ c.idx < n ∧
        c.stdWidth = naturalWidth cells c.idx ∧ c.avgWidth = averageWidth cells c.idx) ∧
      (∀ (i w : Nat), r.colWidths[i]? = some w → ∃ c ∈ l2, c.idx = i ∧ c.width = w) := by
  obtain ⟨f, g0, g1, g2, g3, g4, g5⟩ := seen n aw h cells
  obtain ⟨sfits, l1, x1, l2, x2, r, a1, a2, a3, a4, a5, a6, a7, a8, a9, a10⟩ :=
    fit_split (f.seeCells cells) g1 (by omega) (by omega) (by rw [g4, g3]; omega)
  have he : (naturalWidths cells n).sum - (aw - 1 - n) = (naturalWidths cells n).sum + n + 1 - aw := by omega
  rw [g4, g3, he] at a2
  rw [g2] at a7
  refine ⟨f, r, sfits, l1, x1, l2, x2, g0, a1, a2, a3, a4, a5, a6, a7, a8, ?_, a10⟩
  intro c hc
  obtain ⟨b1, b2, b3, b4, b5⟩ := a9 c hc
  rw [g4] at b4
  obtain ⟨b6, b7⟩ := getElem?_naturalWidths b4
  rw [g5 c.idx b6] at b5
  refine ⟨b1, b2, b3, b6, by omega, ?_⟩
  injection b5 with b5
  exact b5.symm

private theorem irr_iff {cells : List (Nat × Nat)} {c : ColFit} (h1 : c.stdWidth = naturalWidth cells c.idx)
    (h2 : c.avgWidth = averageWidth cells c.idx) : c.Irr ↔ ¬ RegularColumn cells c.idx := by
  unfold ColFit.Irr RegularColumn
  rw [h1, h2]; omega

private theorem step1_regular {sfits l1 : List ColFit} {e x1 : Nat}
    (hs : ∀ c ∈ sfits, c.width = c.stdWidth)
    (h : TblFit.doStep1 sfits e = some (l1, x1)) :
    ∀ c ∈ l1, c.width = c.stdWidth ∨ (c.Irr ∧ 4 ≤ c.width) := by
  simp only [TblFit.doStep1, Option.bind_eq_bind] at h
  cases hu : TblFit.potentialUncutGain1 sfits with
  | none => simp [hu] at h
  | some uncut =>
    simp only [hu, Option.bind_some] at h
    by_cases hc : min uncut e > 0
    · rw [if_pos hc] at h
      exact step1_kept _ _ sfits hs _ _ _ h
    · rw [if_neg hc] at h
      cases h
      exact fun c hc => .inl (hs c hc)

private theorem same_fields {l l' : List ColFit} (h : Reduced l l') : ∀ c' ∈ l', ∃ c ∈ l,
    c'.idx = c.idx ∧ c'.stdWidth = c.stdWidth ∧ c'.avgWidth = c.avgWidth := by
  intro c' hc'
  have : (fun c : ColFit => (c.idx, c.stdWidth, c.avgWidth)) c' ∈ l'.map (fun c => (c.idx, c.stdWidth, c.avgWidth)) :=
    List.mem_map_of_mem hc'
  rw [h.forall₂] at this
  obtain ⟨c, hc, he⟩ := List.mem_map.mp this
  simp only [Prod.mk.injEq] at he
  exact ⟨c, hc, he.1.symm, he.2.1.symm, he.2.2.symm⟩

/-- C76: when what columns have in excess of the mean width of their cells is enough to make the table fit (counting
at most 4 per column and nothing for the columns within 1 of their mean, all the columns wider than their mean having
a mean of at least 4), then no column is made narrower than the mean width of its cells, and regular columns keep
their natural width. -/
theorem C76_average (n aw : Nat) (h : 4 * n + 1 ≤ aw) (cells : List (Nat × Nat))
    (hexcess : (naturalWidths cells n).sum + n + 1 ≤ aw + ((List.range n).map (slack cells)).sum)
    (hmean : ∀ i, i < n → RegularColumn cells i ∨ 4 ≤ averageWidth cells i) :
    ∃ f r, TblFit.new n aw = some (some f) ∧ (f.seeCells cells).fit = some r ∧ r.colWidths.length = n ∧
      ∀ (i w : Nat), r.colWidths[i]? = some w →
        averageWidth cells i ≤ w ∧ (RegularColumn cells i → w = naturalWidth cells i) := by
  obtain ⟨f, r, h1, h2, h3, _, _, h6, h7, h8, _⟩ := C06_fit n aw h cells
  refine ⟨f, r, h1, h2, h3, ?_⟩
  by_cases hx : aw < (naturalWidths cells n).sum + n + 1
  · by_cases hn : 2 ≤ n
    · obtain ⟨f', r', sfits, l1, x1, l2, x2, b1, b2, b3, b4, b5, b6, b7, b8, b9, b10, b11⟩ := split n aw h hn cells hx
      rw [h1] at b1; cases b1
      rw [h2] at b2; cases b2
      have hreg := step1_regular (fun c hc => (b10 c hc).2.1) b3
      -- the first step is enough
      obtain ⟨n1, p1, p2, p3⟩ := potential_le sfits (fun c hc => ⟨(b10 c hc).2.1, (b10 c hc).2.2.1⟩)
      have hslack : n1 = ((List.range n).map (slack cells)).sum := by
        rw [p3, ← ((b8.map (slack cells)).sum_nat), List.map_map]
        congr 1
        apply List.map_congr_left
        intro c hc
        obtain ⟨_, _, _, _, q1, q2⟩ := b10 c hc
        simp only [Function.comp, slack, ← q1, ← q2]
      obtain ⟨e, he⟩ : ∃ e, e = (naturalWidths cells n).sum + n + 1 - aw := ⟨_, rfl⟩
      rw [← he] at b3
      have hmin : min n1 e = e := by omega
      have b3' := b3
      simp only [TblFit.doStep1, p1, Option.bind_eq_bind, Option.bind_some, hmin] at b3'
      rw [if_pos (by omega)] at b3'
      obtain ⟨l', s1, s2⟩ := step1_enough e n1 (by omega) (by omega) sfits (fun c hc => by
        obtain ⟨_, q0, q1, q2, q3, q4⟩ := b10 c hc
        refine ⟨q0, q1, fun hir => ?_⟩
        rcases hmean c.idx q2 with hr | hr
        · exact absurd hr ((irr_iff q3 q4).mp hir)
        · omega) e (by rw [Nat.mul_comm]; exact Nat.mul_le_mul_right e p2)
      rw [s1] at b3'
      cases b3'
      simp [TblFit.doStep2] at b4
      obtain ⟨rfl, rfl⟩ := b4
      intro i w hi
      obtain ⟨c, hc, rfl, rfl⟩ := b11 i w hi
      obtain ⟨d, hd, d1, d2, d3⟩ := same_fields b5 c hc
      obtain ⟨_, _, _, _, q3, q4⟩ := b10 d hd
      rw [← d1] at q3 q4
      rw [← d2] at q3
      rw [← d3] at q4
      refine ⟨by rw [← q4]; exact s2 c hc, fun hr => ?_⟩
      rcases hreg c hc with hk | ⟨hk, _⟩
      · rw [hk]; exact q3
      · exact absurd hr ((irr_iff q3 q4).mp hk)
    · -- at most one column
      intro i w hi
      have hi' : i < n := by
        have := (List.getElem?_eq_some_iff.mp hi).1; omega
      have hn1 : n = 1 := by omega
      have hi0 : i = 0 := by omega
      subst hn1 hi0
      have hsum := h7 hx
      obtain ⟨v, hv⟩ := List.length_eq_one_iff.mp h3
      rw [hv] at hi hsum
      simp at hi hsum
      subst hi
      have hle := average_le 1 cells 0 (by omega)
      simp only [naturalWidths, List.range_one, List.map_cons, List.map_nil, List.sum_cons, List.sum_nil] at hexcess hx
      unfold slack at hexcess
      unfold RegularColumn
      split at hexcess <;> omega
  · intro i w hi
    rw [h6 (by omega)] at hi
    obtain ⟨q1, q2⟩ := getElem?_naturalWidths hi
    rw [q2]
    exact ⟨average_le n cells i q1, fun _ => rfl⟩

/-- C76: otherwise the columns are narrowed down to 3 one after the other, by decreasing natural width and from left
to right: when a regular column is narrowed, or when any column is narrowed to 3, all the columns coming before it in
this order have a width of 3. -/
theorem C76_widest_first (n aw : Nat) (h : 4 * n + 1 ≤ aw) (cells : List (Nat × Nat)) :
    ∃ f r, TblFit.new n aw = some (some f) ∧ (f.seeCells cells).fit = some r ∧ r.colWidths.length = n ∧
      ∀ (i j wi wj : Nat), r.colWidths[i]? = some wi → r.colWidths[j]? = some wj → TakenBefore cells i j →
        wj < naturalWidth cells j → (RegularColumn cells j ∨ wj = 3) → wi = 3 := by
  obtain ⟨f, r, h1, h2, h3, _, _, h6, _, _, _⟩ := C06_fit n aw h cells
  refine ⟨f, r, h1, h2, h3, ?_⟩
  intro i j wi wj hi hj hb hlt hor
  have hi' : i < n := by
    have := (List.getElem?_eq_some_iff.mp hi).1; omega
  have hj' : j < n := by
    have := (List.getElem?_eq_some_iff.mp hj).1; omega
  have hij : i ≠ j := by
    rintro rfl
    rcases hb with hb | hb <;> omega
  by_cases hx : aw < (naturalWidths cells n).sum + n + 1
  · obtain ⟨f', r', sfits, l1, x1, l2, x2, b1, b2, b3, b4, b5, b6, b7, b8, b9, b10, b11⟩ :=
      split n aw h (by omega) cells hx
    rw [h1] at b1; cases b1
    rw [h2] at b2; cases b2
    have hreg := step1_regular (fun c hc => (b10 c hc).2.1) b3
    -- what is known of the columns of the result
    have hcol : ∀ c ∈ l2, c.stdWidth = naturalWidth cells c.idx ∧ c.avgWidth = averageWidth cells c.idx := by
      intro c hc
      obtain ⟨d, hd, d1, d2, d3⟩ := same_fields b6 c hc
      obtain ⟨d', hd', d1', d2', d3'⟩ := same_fields b5 d hd
      obtain ⟨_, _, _, _, q3, q4⟩ := b10 d' hd'
      rw [d1, d1', d2, d2', d3, d3']
      exact ⟨q3, q4⟩
    have hpw : l2.Pairwise (fun a b => ¬ b.Irr ∨ b.width = 3 → b.width < b.stdWidth → a.width = 3) := by
      by_cases hx1 : x1 > 0
      · simp only [TblFit.doStep2, hx1, if_true, Option.bind_eq_bind] at b4
        have hl1 : ∀ c ∈ l1, 3 ≤ c.width := fun c hc => by
          obtain ⟨d, _, _, _, _, h⟩ := b5.mem c hc; exact h
        obtain ⟨s, a1, a2⟩ := sumOver3_ok l1 hl1
        have hm : min s x1 = x1 := by omega
        simp only [a1, Option.bind_some, hm] at b4
        exact step2_greedy x1 hx1 l1 (fun c hc => ⟨hl1 c hc, hreg c hc⟩) _ _ _ b4
      · simp only [TblFit.doStep2, hx1, if_false] at b4
        cases b4
        rw [List.pairwise_iff_forall_sublist]
        intro a b hab q1 q2
        rcases hreg b (hab.subset (by simp)) with hk | ⟨hk, hk4⟩
        · omega
        · rcases q1 with q1 | q1
          · exact absurd hk q1
          · omega
    have hord : l2.Pairwise (fun a b => b.stdWidth ≤ a.stdWidth ∧ (a.stdWidth ≤ b.stdWidth → a.idx < b.idx)) := by
      have hmap : l2.map (fun c => (c.idx, c.stdWidth, c.avgWidth)) = sfits.map (fun c => (c.idx, c.stdWidth, c.avgWidth)) :=
        b6.forall₂.trans b5.forall₂
      have h9 : sfits.Pairwise (fun a b => b.stdWidth ≤ a.stdWidth ∧ (a.stdWidth ≤ b.stdWidth → a.idx < b.idx)) := by
        refine b9.imp_of_mem ?_
        intro a b ha hb hab
        rw [← (b10 a ha).2.1, ← (b10 b hb).2.1]; exact hab
      have h10 : (sfits.map (fun c => (c.idx, c.stdWidth, c.avgWidth))).Pairwise
          (fun a b => b.2.1 ≤ a.2.1 ∧ (a.2.1 ≤ b.2.1 → a.1 < b.1)) := by
        rw [List.pairwise_map]; exact h9
      rw [← hmap, List.pairwise_map] at h10
      exact h10
    obtain ⟨ci, ci1, ci2, ci3⟩ := b11 i wi hi
    obtain ⟨cj, cj1, cj2, cj3⟩ := b11 j wj hj
    obtain ⟨qi, _⟩ := hcol ci ci1
    obtain ⟨qj, qj'⟩ := hcol cj cj1
    have hirr := irr_iff qj qj'
    rw [ci2] at qi
    rw [cj2] at qj hirr
    rcases pairwise_mem (hpw.and hord) ci ci1 cj cj1 with hq | hq | hq
    · rw [hq] at ci2; omega
    · rw [← ci3]
      refine hq.1 ?_ (by omega)
      rcases hor with hor | hor
      · exact .inl (fun hk => hirr.mp hk hor)
      · exact .inr (by omega)
    · -- the columns can't be in the other order
      exfalso
      obtain ⟨o1, o2⟩ := hq.2
      rw [qi, qj] at o1 o2
      rcases hb with hb | ⟨hb1, hb2⟩
      · omega
      · have := o2 (by omega)
        omega
  · rw [h6 (by omega)] at hj
    have := (getElem?_naturalWidths hj).2
    omega

/-- Three columns: the first one has a title of 20 over cells of 10, the others are regular. The first one only is
reduced, from 20 to 17, and keeps more than its mean of 12. -/
example :
    let cells := [(0, 20), (1, 12), (2, 12), (0, 10), (1, 12), (2, 12), (0, 10), (1, 12), (2, 12), (0, 8), (1, 12), (2, 12)]
    (naturalWidths cells 3).sum + 3 + 1 ≤ 45 + ((List.range 3).map (slack cells)).sum ∧
    (List.range 3).map (averageWidth cells) = [12, 12, 12] ∧
    ((TblFit.new 3 45).map (Option.map (fun f => (f.seeCells cells).fit))) =
      some (some (some ⟨true, [17, 12, 12]⟩)) := by decide

/-- Columns of widths 20, 30, 20 in 60 columns: the second one is narrowed. In 40 columns the first one is too, not the
last one. -/
example : ((TblFit.new 3 60).map (Option.map (fun f => (f.seeCells [(0, 20), (1, 30), (2, 20)]).fit))) =
      some (some (some ⟨true, [20, 16, 20]⟩)) ∧
    ((TblFit.new 3 40).map (Option.map (fun f => (f.seeCells [(0, 20), (1, 30), (2, 20)]).fit))) =
      some (some (some ⟨true, [13, 3, 20]⟩)) := by decide

/-- The comment of the code says that the excess is removed proportionally: it's not. Of two columns of 20, one is
narrowed to 3 and the other one isn't changed. -/
theorem C76_proportional_counterexample :
    ((TblFit.new 2 26).map (Option.map (fun f => (f.seeCells [(0, 20), (1, 20)]).fit))) =
      some (some (some ⟨true, [3, 20]⟩)) := by decide

/-- Without room enough over the means, a column may be made narrower than the mean of its cells while another one,
regular, isn't changed. -/
theorem C76_average_counterexample :
    ∃ cells, averageWidth cells 0 = 13 ∧
      ((TblFit.new 2 30).map (Option.map (fun f => (f.seeCells cells).fit))) =
        some (some (some ⟨true, [12, 15]⟩)) :=
  ⟨[(0, 20), (1, 15), (0, 5), (1, 15)], by decide⟩

end Verif.Props

import Verif.Model.TblFit
import Verif.Spec.TblFit
import Verif.Lemmas.Sort
/-! Lemmas for the table fitter. -/
namespace Verif
open Spec

theorem csub_of_le {a b : Nat} (h : b ≤ a) : csub a b = some (a - b) := by simp [csub, h]

/-- What is true of column data after any number of cells are seen. -/
def ColData.Good (c : ColData) : Prop := 3 ≤ c.width ∧ c.sumWidths ≤ c.count * c.width

theorem ColData.Good.seeCell {c : ColData} (h : c.Good) (w : Nat) : (c.seeCell w).Good := by
  obtain ⟨h1, h2⟩ := h
  refine ⟨by simp [ColData.seeCell]; omega, ?_⟩
  simp only [ColData.seeCell]
  have h3 : c.count * c.width ≤ c.count * max c.width w := Nat.mul_le_mul_left _ (Nat.le_max_left ..)
  rw [Nat.add_mul]; omega

theorem ColData.Good.avg {c : ColData} (h : c.Good) : ∃ a, c.avgWidth = some a ∧ a ≤ c.width := by
  obtain ⟨_, h2⟩ := h
  unfold ColData.avgWidth
  by_cases h0 : c.count = 0
  · exact ⟨0, by simp [h0], by omega⟩
  · simp only [h0, if_false, divCeil]
    refine ⟨_, rfl, ?_⟩
    have hd := Nat.div_add_mod c.sumWidths c.count
    split
    · have : c.sumWidths / c.count < c.width := by
        apply Nat.lt_of_mul_lt_mul_left (a := c.count)
        omega
      omega
    · apply Nat.div_le_of_le_mul; exact h2

/-- Sum of the widths. -/
def sumW (l : List ColFit) : Nat := (l.map (·.width)).sum

theorem sumW_cons (c : ColFit) (l : List ColFit) : sumW (c :: l) = c.width + sumW l := by simp [sumW]

theorem sumW_perm {l l' : List ColFit} (h : l.Perm l') : sumW l = sumW l' :=
  (h.map _).sum_nat

/-- `l'` is `l` with some widths reduced, not under 3, and all the rest unchanged. -/
inductive Reduced : List ColFit → List ColFit → Prop
  | nil : Reduced [] []
  | cons (c : ColFit) (w : Nat) (l l' : List ColFit) (h1 : w ≤ c.width) (h2 : 3 ≤ w) (h : Reduced l l') :
      Reduced (c :: l) ({ c with width := w } :: l')

theorem Reduced.refl (l : List ColFit) (h : ∀ c ∈ l, 3 ≤ c.width) : Reduced l l := by
  induction l with
  | nil => exact .nil
  | cons c l ih =>
    exact .cons c c.width l l (Nat.le_refl _) (h c (by simp)) (ih (fun d hd => h d (by simp [hd])))

theorem Reduced.map_idx {l l' : List ColFit} (h : Reduced l l') : l'.map (·.idx) = l.map (·.idx) := by
  induction h with
  | nil => rfl
  | cons c w l l' _ _ _ ih => simp [ih]

theorem Reduced.mem {l l' : List ColFit} (h : Reduced l l') :
    ∀ c' ∈ l', ∃ c ∈ l, c'.idx = c.idx ∧ c'.stdWidth = c.stdWidth ∧ c'.width ≤ c.width ∧ 3 ≤ c'.width := by
  induction h with
  | nil => simp
  | cons c w l l' h1 h2 _ ih =>
    intro c' hc'
    rcases List.mem_cons.mp hc' with rfl | hc'
    · exact ⟨c, by simp, rfl, rfl, h1, h2⟩
    · obtain ⟨d, hd, h⟩ := ih c' hc'
      exact ⟨d, by simp [hd], h⟩

theorem step1_ok (cut uncut : Nat) (hu : 0 < uncut) (l : List ColFit)
    (hl : ∀ c ∈ l, 3 ≤ c.width ∧ c.width = c.stdWidth ∧ c.avgWidth ≤ c.width) : ∀ e,
    ∃ l' e', TblFit.step1 cut uncut l e = some (l', e') ∧ Reduced l l' ∧ e' ≤ e ∧
      sumW l' + e = sumW l + e' := by
  induction l with
  | nil => intro e; exact ⟨[], e, rfl, .nil, Nat.le_refl _, rfl⟩
  | cons c cs ih =>
    intro e
    obtain ⟨h3, hs, ha⟩ := hl c (by simp)
    have hcs := fun d hd => hl d (List.mem_cons_of_mem c hd)
    simp only [TblFit.step1]
    by_cases hc : c.stdWidth > 4 ∧ c.stdWidth > c.avgWidth
    · have hw4 : 4 ≤ c.width := by omega
      obtain ⟨g0, hg0⟩ : ∃ g, divCeil ((c.width - c.avgWidth) * cut) uncut = some g := by
        have hu' : uncut ≠ 0 := by omega
        simp only [divCeil, hu', if_false]; exact ⟨_, rfl⟩
      have hg1 : min (min g0 e) (c.width - 4) ≤ c.width := by omega
      have hg2 : min (min g0 e) (c.width - 4) ≤ e := by omega
      simp only [hc, and_self, if_true]
      simp only [csub_of_le ha, csub_of_le hw4, hg0, csub_of_le hg1, csub_of_le hg2, Option.bind_eq_bind,
        Option.bind_some]
      have hg3 : min (min g0 e) (c.width - 4) ≤ c.width - 4 := by omega
      generalize min (min g0 e) (c.width - 4) = g at *
      by_cases he : e - g = 0
      · simp only [he, if_true]
        refine ⟨_, _, rfl, .cons c (c.width - g) cs cs (by omega) (by omega) (Reduced.refl cs (fun d hd => (hcs d hd).1)),
          by omega, ?_⟩
        simp only [sumW_cons]; omega
      · simp only [he, if_false]
        obtain ⟨l', e', h1, h2, h4, h5⟩ := ih hcs (e - g)
        refine ⟨{ c with width := c.width - g } :: l', e', by simp [h1], .cons c (c.width - g) cs l' (by omega) (by omega) h2, by omega, ?_⟩
        simp only [sumW_cons]; omega
    · simp only [hc, if_false]
      obtain ⟨l', e', h1, h2, h4, h5⟩ := ih hcs e
      refine ⟨c :: l', e', by simp [h1], ?_, h4, by simp only [sumW_cons]; omega⟩
      exact .cons c c.width cs l' (Nat.le_refl _) h3 h2

theorem sumOver3_ok (l : List ColFit) (hl : ∀ c ∈ l, 3 ≤ c.width) :
    ∃ s, TblFit.sumOver3 l = some s ∧ s + 3 * l.length = sumW l := by
  induction l with
  | nil => exact ⟨0, rfl, rfl⟩
  | cons c cs ih =>
    obtain ⟨s, h1, h2⟩ := ih (fun d hd => hl d (by simp [hd]))
    have h3 := hl c (by simp)
    refine ⟨c.width - 3 + s, by simp [TblFit.sumOver3, csub_of_le h3, h1], ?_⟩
    simp only [sumW_cons, List.length_cons]; omega

theorem step2_ok (pot : Nat) (hp : 0 < pot) (l : List ColFit) (hl : ∀ c ∈ l, 3 ≤ c.width) : ∀ e,
    ∃ l' e', TblFit.step2 pot pot l e = some (l', e') ∧ Reduced l l' ∧ e' ≤ e ∧
      sumW l' + e = sumW l + e' ∧ (e + 3 * l.length ≤ sumW l → e' = 0) := by
  induction l with
  | nil => intro e; exact ⟨[], e, rfl, .nil, Nat.le_refl _, rfl, by simp [sumW]⟩
  | cons c cs ih =>
    intro e
    have h3 := hl c (by simp)
    have hcs := fun d hd => hl d (List.mem_cons_of_mem c hd)
    have hg0 : divCeil ((c.width - 3) * pot) pot = some (c.width - 3) := by
      have hp' : pot ≠ 0 := by omega
      simp [divCeil, hp', Nat.mul_div_cancel _ hp]
    have hg1 : min (min (c.width - 3) e) (c.width - 3) ≤ c.width := by omega
    have hg2 : min (min (c.width - 3) e) (c.width - 3) ≤ e := by omega
    simp only [TblFit.step2, csub_of_le h3, hg0, csub_of_le hg1, csub_of_le hg2, Option.bind_eq_bind,
        Option.bind_some]
    have hg3 : min (min (c.width - 3) e) (c.width - 3) = min (c.width - 3) e := by omega
    rw [hg3]
    by_cases he : e - min (c.width - 3) e = 0
    · simp only [he, if_true]
      refine ⟨_, _, rfl, .cons c _ cs cs (by omega) (by omega) (Reduced.refl cs hcs), by omega, ?_, fun _ => rfl⟩
      simp only [sumW_cons]; omega
    · simp only [he, if_false]
      obtain ⟨l', e', h1, h2, h4, h5, h6⟩ := ih hcs (e - min (c.width - 3) e)
      refine ⟨{ c with width := c.width - min (c.width - 3) e } :: l', e', by simp [h1],
        .cons c _ cs l' (by omega) (by omega) h2, by omega, ?_, ?_⟩
      · simp only [sumW_cons]; omega
      · simp only [sumW_cons, List.length_cons]
        intro h; apply h6; omega

theorem makeFits_ok (cols : List ColData) (hg : ∀ c ∈ cols, c.Good) : ∀ i,
    ∃ fits, TblFit.makeFits cols i = some fits ∧ fits.map (·.idx) = List.range' i cols.length ∧
      sumW fits = (cols.map (·.width)).sum ∧
      ∀ f ∈ fits, 3 ≤ f.width ∧ f.width = f.stdWidth ∧ f.avgWidth ≤ f.width ∧ i ≤ f.idx ∧
        (cols.map (·.width))[f.idx - i]? = some f.width := by
  induction cols with
  | nil => intro i; exact ⟨[], rfl, rfl, rfl, by simp⟩
  | cons c cs ih =>
    intro i
    obtain ⟨a, ha, hle⟩ := (hg c (by simp)).avg
    obtain ⟨fits, h1, h2, h3, h4⟩ := ih (fun d hd => hg d (by simp [hd])) (i + 1)
    refine ⟨⟨i, c.width, a, c.width⟩ :: fits, by simp [TblFit.makeFits, ha, h1], ?_, ?_, ?_⟩
    · simp [h2, List.range'_succ]
    · simp [sumW_cons, h3]
    · intro f hf
      rcases List.mem_cons.mp hf with rfl | hf
      · exact ⟨(hg c (by simp)).1, rfl, hle, Nat.le_refl _, by simp⟩
      · obtain ⟨g1, g2, g3, g4, g5⟩ := h4 f hf
        refine ⟨g1, g2, g3, by omega, ?_⟩
        have : f.idx - i = (f.idx - (i + 1)) + 1 := by omega
        rw [this, List.map_cons, List.getElem?_cons_succ]; exact g5

theorem potential_ok (l : List ColFit) (h : ∀ c ∈ l, c.avgWidth ≤ c.width) :
    ∃ n, TblFit.potentialUncutGain1 l = some n := by
  induction l with
  | nil => exact ⟨0, rfl⟩
  | cons c cs ih =>
    obtain ⟨n, hn⟩ := ih (fun d hd => h d (by simp [hd]))
    simp only [TblFit.potentialUncutGain1, hn, Option.bind_eq_bind, Option.bind_some]
    split
    · simp [csub_of_le (h c (by simp))]
    · exact ⟨n, rfl⟩

/-- Sorting back by index puts the columns back in order. -/
theorem sort_idx (l : List ColFit) (n : Nat) (h : (l.map (·.idx)).Perm (List.range n)) :
    (sortBy (fun a b => decide (a.idx ≤ b.idx)) l).map (·.idx) = List.range n := by
  have hp : ((sortBy (fun a b => decide (a.idx ≤ b.idx)) l).map (·.idx)).Perm (List.range n) :=
    ((sortBy_perm _ l).map _).trans h
  apply List.Perm.eq_of_pairwise (le := fun a b => a ≤ b) _ _ _ hp
  · intro a b _ _ h1 h2; exact Nat.le_antisymm h1 h2
  · rw [List.pairwise_map]
    have := sortBy_pairwise (fun (a b : ColFit) => decide (a.idx ≤ b.idx))
      (by intro a b c; simp; omega) (by intro a b; simp; omega) l
    exact this.imp (by simp)
  · exact List.pairwise_le_range

theorem fit_ok (f : TblFit) (hg : ∀ c ∈ f.cols, c.Good) (h3 : 3 * f.cols.length ≤ f.availableSumWidth) :
    ∃ r, f.fit = some r ∧ r.colWidths.length = f.cols.length ∧ (∀ w ∈ r.colWidths, 3 ≤ w) ∧
      ((f.cols.map (·.width)).sum ≤ f.availableSumWidth → r.colWidths = f.cols.map (·.width)) ∧
      (f.availableSumWidth < (f.cols.map (·.width)).sum → r.colWidths.sum = f.availableSumWidth) ∧
      (∀ (i w : Nat), r.colWidths[i]? = some w → ∃ n, (f.cols.map (·.width))[i]? = some n ∧ w ≤ n) ∧
      ((r.reduced = true → f.availableSumWidth < (f.cols.map (·.width)).sum) ∧
       (f.cols.length ≠ 1 → f.availableSumWidth < (f.cols.map (·.width)).sum → r.reduced = true)) := by
  unfold TblFit.fit
  have hnat : ∀ w ∈ f.cols.map (·.width), 3 ≤ w := by
    intro w hw
    obtain ⟨c, hc, rfl⟩ := List.mem_map.mp hw
    exact (hg c hc).1
  by_cases h1 : (f.cols.map (·.width)).sum ≤ f.availableSumWidth
  · simp only [h1, if_true]
    exact ⟨_, rfl, by simp, hnat, fun _ => rfl, fun h => by omega, fun i w h => ⟨w, h, Nat.le_refl _⟩, by simp, fun _ h => by omega⟩
  simp only [h1, if_false]
  by_cases h0 : f.cols.length = 0
  · have : f.cols = [] := List.length_eq_zero_iff.mp h0
    simp [this] at h1
  simp only [h0, if_false]
  by_cases hone : f.cols.length = 1
  · obtain ⟨c, hc⟩ := List.length_eq_one_iff.mp hone
    simp only [hone, if_true]
    refine ⟨_, rfl, rfl, by simp; omega, fun h => absurd h (by simp), by simp, ?_, by simp, by simp⟩
    intro i w hi
    cases i with
    | zero =>
      simp at hi
      refine ⟨c.width, by simp [hc], ?_⟩
      simp [hc] at h1; omega
    | succ i => simp at hi
  simp only [hone, if_false]
  obtain ⟨fits, e1, e2, e3, e4⟩ := makeFits_ok f.cols hg 0
  simp only [e1, Option.bind_eq_bind, Option.bind_some]
  rw [csub_of_le (by omega)]
  simp only [Option.bind_some]
  generalize hsort : sortBy (fun a b => decide (b.width ≤ a.width)) fits = sfits
  have hperm : sfits.Perm fits := by rw [← hsort]; exact sortBy_perm _ _
  have hs4 : ∀ c ∈ sfits, 3 ≤ c.width ∧ c.width = c.stdWidth ∧ c.avgWidth ≤ c.width := by
    intro c hc
    have := e4 c (hperm.mem_iff.mp hc)
    exact ⟨this.1, this.2.1, this.2.2.1⟩
  have hsum : sumW sfits = (f.cols.map (·.width)).sum := by rw [sumW_perm hperm, e3]
  have hlen : sfits.length = f.cols.length := by
    have := congrArg List.length e2
    simp at this
    rw [hperm.length_eq, this]
  -- step 1
  obtain ⟨l1, x1, s1, r1, q1, w1⟩ : ∃ l1 x1,
      TblFit.doStep1 sfits ((f.cols.map (·.width)).sum - f.availableSumWidth) = some (l1, x1) ∧
      Reduced sfits l1 ∧ x1 ≤ (f.cols.map (·.width)).sum - f.availableSumWidth ∧
      sumW l1 = f.availableSumWidth + x1 := by
    obtain ⟨uncut, hu⟩ := potential_ok sfits (fun c hc => (hs4 c hc).2.2)
    simp only [TblFit.doStep1, hu, Option.bind_eq_bind, Option.bind_some]
    split
    · obtain ⟨l', e', a1, a2, a3, a4⟩ := step1_ok (min uncut ((f.cols.map (·.width)).sum - f.availableSumWidth))
        uncut (by omega) sfits hs4 ((f.cols.map (·.width)).sum - f.availableSumWidth)
      exact ⟨l', e', a1, a2, a3, by omega⟩
    · exact ⟨_, _, rfl, Reduced.refl _ (fun c hc => (hs4 c hc).1), Nat.le_refl _, by omega⟩
  rw [s1]
  simp only [Option.bind_some]
  have hl1 : ∀ c ∈ l1, 3 ≤ c.width := fun c hc => by
    obtain ⟨d, _, _, _, _, h⟩ := r1.mem c hc; exact h
  have hlen1 : l1.length = f.cols.length := by
    have := congrArg List.length r1.map_idx
    simp at this; omega
  -- step 2
  obtain ⟨l2, x2, s2, r2, w2⟩ : ∃ l2 x2,
      TblFit.doStep2 l1 x1 = some (l2, x2) ∧ Reduced l1 l2 ∧ sumW l2 = f.availableSumWidth := by
    unfold TblFit.doStep2
    split
    · obtain ⟨s, a1, a2⟩ := sumOver3_ok l1 hl1
      have : min s x1 = x1 := by omega
      obtain ⟨l', e', b1, b2, b3, b4, b5⟩ := step2_ok x1 (by omega) l1 hl1 x1
      refine ⟨l', e', by simp [a1, this, b1], b2, ?_⟩
      have := b5 (by omega)
      omega
    · exact ⟨_, _, rfl, Reduced.refl _ hl1, by omega⟩
  rw [s2]
  simp only [Option.bind_some]
  have hidx : (l2.map (·.idx)).Perm (List.range f.cols.length) := by
    rw [r2.map_idx, r1.map_idx]
    have := hperm.map (·.idx)
    rw [e2] at this
    rw [List.range_eq_range']; exact this
  have hsorted := sort_idx l2 _ hidx
  generalize hl3 : sortBy (fun a b => decide (a.idx ≤ b.idx)) l2 = l3 at *
  have hp3 : l3.Perm l2 := by rw [← hl3]; exact sortBy_perm _ _
  have hmem3 : ∀ c ∈ l3, 3 ≤ c.width ∧ ∃ n, (f.cols.map (·.width))[c.idx]? = some n ∧ c.width ≤ n := by
    intro c hc
    obtain ⟨d, hd, i1, _, i3, i4⟩ := r2.mem c (hp3.mem_iff.mp hc)
    obtain ⟨d', hd', j1, _, j3, _⟩ := r1.mem d hd
    have := (e4 d' (hperm.mem_iff.mp hd')).2.2.2.2
    refine ⟨i4, d'.width, ?_, by omega⟩
    rw [i1, j1]; simpa using this
  refine ⟨_, rfl, ?_, ?_, fun h => False.elim h, fun _ => ?_, ?_, ⟨fun _ => by omega, fun _ _ => rfl⟩⟩
  · have := congrArg List.length hsorted
    simpa using this
  · intro w hw
    obtain ⟨c, hc, rfl⟩ := List.mem_map.mp hw
    exact (hmem3 c hc).1
  · show sumW l3 = _
    rw [sumW_perm hp3, w2]
  · intro i w hi
    simp only [List.getElem?_map, Option.map_eq_some_iff] at hi
    obtain ⟨c, hc, rfl⟩ := hi
    obtain ⟨n, hn, hle⟩ := (hmem3 c (List.mem_of_getElem? hc)).2
    have : c.idx = i := by
      have h := congrArg (fun l => l[i]?) hsorted
      simp only [List.getElem?_map, hc, Option.map_some] at h
      have hi' : i < f.cols.length := by
        have h5 := (List.getElem?_eq_some_iff.mp hc).1
        have := congrArg List.length hsorted
        simp at this; omega
      rw [List.getElem?_range hi'] at h
      simpa using h
    exact ⟨n, by rw [← this]; exact hn, hle⟩

/-- The widths of the columns after cells are seen. -/
theorem seeCells_cols (cells : List (Nat × Nat)) : ∀ (f : TblFit), (∀ c ∈ f.cols, c.Good) →
    (∀ c ∈ (f.seeCells cells).cols, c.Good) ∧ (f.seeCells cells).cols.length = f.cols.length ∧
    (f.seeCells cells).availableSumWidth = f.availableSumWidth ∧
    ∀ i, ((f.seeCells cells).cols[i]?).map (·.width) =
      (f.cols[i]?).map (fun c => (cells.filter (fun c => c.1 = i)).foldl (fun m c => max m c.2) c.width) := by
  induction cells with
  | nil => intro f hf; exact ⟨hf, rfl, rfl, fun i => by simp [TblFit.seeCells]⟩
  | cons cell cells ih =>
    intro f hf
    have e : f.seeCells (cell :: cells) = (f.seeCell cell.1 cell.2).seeCells cells := rfl
    rw [e]
    obtain ⟨g1, g2, g3, g4⟩ := ih (f.seeCell cell.1 cell.2) (by
      intro c hc
      simp only [TblFit.seeCell] at hc
      obtain ⟨i, hi⟩ := List.getElem?_of_mem hc
      rw [List.getElem?_modify] at hi
      cases hfi : f.cols[i]? with
      | none => simp [hfi] at hi
      | some d =>
        have hd := hf d (List.mem_of_getElem? hfi)
        simp [hfi] at hi
        rw [← hi]
        split
        · exact hd.seeCell _
        · exact hd)
    refine ⟨g1, by rw [g2]; simp [TblFit.seeCell], by rw [g3]; rfl, ?_⟩
    intro i
    rw [g4]
    simp only [TblFit.seeCell, List.getElem?_modify]
    cases hfi : f.cols[i]? with
    | none => simp
    | some d =>
      by_cases hi : cell.1 = i
      · simp [hi, ColData.seeCell]
      · simp [hi]

end Verif

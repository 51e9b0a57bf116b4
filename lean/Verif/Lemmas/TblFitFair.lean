import Verif.Lemmas.TblFit
import Verif.Spec.TblFitFair
/-! Lemmas on the order in which the columns of a table are reduced. -/
namespace Verif
open Spec

/-- The sort is stable. -/
theorem insertBy_stable (le : α → α → Bool) (trans : ∀ a b c, le a b → le b c → le a c)
    (total : ∀ a b, le a b || le b a) (R : α → α → Prop) (x : α) (l : List α) (hx : ∀ y ∈ l, R x y)
    (h : l.Pairwise (fun a b => le a b ∧ (le b a → R a b))) :
    (insertBy le x l).Pairwise (fun a b => le a b ∧ (le b a → R a b)) := by
  induction l with
  | nil => simp [insertBy]
  | cons y ys ih =>
    simp only [insertBy]
    rw [List.pairwise_cons] at h
    split
    · rename_i hxy
      rw [List.pairwise_cons]
      refine ⟨?_, List.pairwise_cons.mpr h⟩
      intro z hz
      refine ⟨?_, fun _ => hx z hz⟩
      rcases List.mem_cons.mp hz with rfl | hz
      · exact hxy
      · exact trans _ _ _ hxy (h.1 z hz).1
    · rename_i hxy
      rw [List.pairwise_cons]
      refine ⟨?_, ih (fun z hz => hx z (by simp [hz])) h.2⟩
      intro z hz
      rcases List.mem_cons.mp ((insertBy_perm le x ys).mem_iff.mp hz) with rfl | hz
      · have := total z y
        simp only [hxy, Bool.false_or] at this
        exact ⟨this, fun h => absurd h hxy⟩
      · exact h.1 z hz

theorem sortBy_stable (le : α → α → Bool) (trans : ∀ a b c, le a b → le b c → le a c)
    (total : ∀ a b, le a b || le b a) (R : α → α → Prop) (l : List α) (h : l.Pairwise R) :
    (sortBy le l).Pairwise (fun a b => le a b ∧ (le b a → R a b)) := by
  induction l with
  | nil => simp [sortBy]
  | cons x xs ih =>
    rw [List.pairwise_cons] at h
    exact insertBy_stable le trans total R x _ (fun y hy => h.1 y ((mem_sortBy le xs y).mp hy)) (ih h.2)

theorem seeCells_stats (cells : List (Nat × Nat)) : ∀ (f : TblFit) (i : Nat),
    ((f.seeCells cells).cols[i]?).map (fun c => (c.sumWidths, c.count)) =
      (f.cols[i]?).map (fun c => (c.sumWidths + (cellWidths cells i).sum, c.count + (cellWidths cells i).length)) := by
  induction cells with
  | nil => intro f i; simp [TblFit.seeCells, cellWidths]
  | cons cell cells ih =>
    intro f i
    have e : f.seeCells (cell :: cells) = (f.seeCell cell.1 cell.2).seeCells cells := rfl
    rw [e, ih]
    simp only [TblFit.seeCell, List.getElem?_modify]
    cases hfi : f.cols[i]? with
    | none => simp
    | some d =>
      by_cases hi : cell.1 = i
      · simp [hi, ColData.seeCell, cellWidths]; omega
      · simp [hi, cellWidths]

theorem divCeil_eq (q r : Nat) (h : r ≠ 0) : divCeil q r = some ((q + r - 1) / r) := by
  have hr : 0 < r := by omega
  simp only [divCeil, h, if_false]
  congr 1
  have hd := Nat.div_add_mod q r
  have hm := Nat.mod_lt q hr
  split
  · have e : q + r - 1 = (q % r - 1) + r * (q / r + 1) := by rw [Nat.mul_add]; omega
    rw [e, Nat.add_mul_div_left _ _ hr, Nat.div_eq_of_lt (a := q % r - 1) (by omega)]; omega
  · have e : q + r - 1 = (r - 1) + r * (q / r) := by omega
    rw [e, Nat.add_mul_div_left _ _ hr, Nat.div_eq_of_lt (a := r - 1) (by omega)]; omega

/-- Irregular columns, those of the first step. -/
def ColFit.Irr (c : ColFit) : Prop := c.stdWidth > 4 ∧ c.stdWidth > c.avgWidth

instance (c : ColFit) : Decidable c.Irr := by unfold ColFit.Irr; infer_instance

/-- The sum of what exceeds the averages of irregular columns. -/
def sumOverAvg : List ColFit → Nat
  | [] => 0
  | c :: cs => (if c.Irr then c.width - c.avgWidth else 0) + sumOverAvg cs

theorem Reduced.forall₂ {l l' : List ColFit} (h : Reduced l l') :
    l'.map (fun c => (c.idx, c.stdWidth, c.avgWidth)) = l.map (fun c => (c.idx, c.stdWidth, c.avgWidth)) := by
  induction h with
  | nil => rfl
  | cons c w l l' _ _ _ ih => simp [ih]

/-- The first step changes only irregular columns, and they keep at least 4. -/
theorem step1_kept (cut uncut : Nat) (l : List ColFit) (hl : ∀ c ∈ l, c.width = c.stdWidth) : ∀ e l' e',
    TblFit.step1 cut uncut l e = some (l', e') →
      ∀ c ∈ l', c.width = c.stdWidth ∨ (c.Irr ∧ 4 ≤ c.width) := by
  induction l with
  | nil => intro e l' e' h; cases h; simp
  | cons c cs ih =>
    intro e l' e' h
    have hc := hl c (by simp)
    have hcs := fun d hd => hl d (List.mem_cons_of_mem c hd)
    simp only [TblFit.step1] at h
    by_cases hi : c.stdWidth > 4 ∧ c.stdWidth > c.avgWidth
    · have h1 : c.avgWidth ≤ c.width := by omega
      have h2 : 4 ≤ c.width := by omega
      simp only [hi, and_self, if_true, csub_of_le h1, csub_of_le h2, Option.bind_eq_bind, Option.bind_some] at h
      cases hg : divCeil ((c.width - c.avgWidth) * cut) uncut with
      | none => simp [hg] at h
      | some g =>
        simp only [hg, Option.bind_some] at h
        have h3 : min (min g e) (c.width - 4) ≤ c.width := by omega
        have h4 : min (min g e) (c.width - 4) ≤ e := by omega
        have h5 : min (min g e) (c.width - 4) ≤ c.width - 4 := by omega
        simp only [csub_of_le h3, csub_of_le h4, Option.bind_some] at h
        generalize min (min g e) (c.width - 4) = k at *
        by_cases he : e - k = 0
        · simp only [he, if_true] at h
          cases h
          intro d hd
          rcases List.mem_cons.mp hd with rfl | hd
          · exact .inr ⟨hi, by simp only; omega⟩
          · exact .inl (hcs d hd)
        · simp only [he, if_false] at h
          cases hr : TblFit.step1 cut uncut cs (e - k) with
          | none => simp [hr] at h
          | some p =>
            simp only [hr, Option.bind_some] at h
            cases h
            intro d hd
            rcases List.mem_cons.mp hd with rfl | hd
            · exact .inr ⟨hi, by simp only; omega⟩
            · exact ih hcs _ p.1 p.2 hr d hd
    · simp only [hi, if_false, Option.bind_eq_bind] at h
      cases hr : TblFit.step1 cut uncut cs e with
      | none => simp [hr] at h
      | some p =>
        simp only [hr, Option.bind_some] at h
        cases h
        intro d hd
        rcases List.mem_cons.mp hd with rfl | hd
        · exact .inl hc
        · exact ih hcs _ p.1 p.2 hr d hd

/-- When what exceeds the averages is enough, and averages are of at least 4, the first step is enough and keeps
all columns above their averages. -/
theorem step1_enough (cut uncut : Nat) (hu : 0 < uncut) (hcu : cut ≤ uncut) (l : List ColFit)
    (hl : ∀ c ∈ l, c.width = c.stdWidth ∧ c.avgWidth ≤ c.width ∧ (c.Irr → 4 ≤ c.avgWidth)) : ∀ e,
    e * uncut ≤ sumOverAvg l * cut →
    ∃ l', TblFit.step1 cut uncut l e = some (l', 0) ∧ ∀ c ∈ l', c.avgWidth ≤ c.width := by
  induction l with
  | nil =>
    intro e he
    have : e = 0 := by
      simp only [sumOverAvg, Nat.zero_mul, Nat.le_zero] at he
      rcases Nat.mul_eq_zero.mp he with h | h <;> omega
    subst this
    exact ⟨[], rfl, by simp⟩
  | cons c cs ih =>
    intro e he
    obtain ⟨hs, ha, h4⟩ := hl c (by simp)
    have hcs := fun d hd => hl d (List.mem_cons_of_mem c hd)
    simp only [TblFit.step1]
    by_cases hi : c.stdWidth > 4 ∧ c.stdWidth > c.avgWidth
    · have h4' : 4 ≤ c.avgWidth := h4 hi
      have hw4 : 4 ≤ c.width := by omega
      have hir : c.Irr := hi
      simp only [sumOverAvg, hir, if_true, Nat.add_mul] at he
      have hu' : uncut ≠ 0 := by omega
      have hg0 := divCeil_eq ((c.width - c.avgWidth) * cut) uncut hu'
      obtain ⟨g0, hg⟩ : ∃ g0, g0 = ((c.width - c.avgWidth) * cut + uncut - 1) / uncut := ⟨_, rfl⟩
      rw [← hg] at hg0
      -- bounds on the gain
      have hlow : (c.width - c.avgWidth) * cut ≤ g0 * uncut := by
        have h1 := Nat.div_add_mod ((c.width - c.avgWidth) * cut + uncut - 1) uncut
        have h2 := Nat.mod_lt ((c.width - c.avgWidth) * cut + uncut - 1) hu
        rw [← hg, Nat.mul_comm] at h1
        omega
      have hhigh : g0 ≤ c.width - c.avgWidth := by
        rw [hg]
        apply Nat.le_of_lt_succ
        rw [Nat.div_lt_iff_lt_mul hu, Nat.succ_mul]
        have := Nat.mul_le_mul_left (c.width - c.avgWidth) hcu
        omega
      have hmin : min (min g0 e) (c.width - 4) = min g0 e := by omega
      have hg1 : min g0 e ≤ c.width := by omega
      have hg2 : min g0 e ≤ e := by omega
      simp only [hi, and_self, if_true, csub_of_le ha, csub_of_le hw4, hg0, hmin, csub_of_le hg1, csub_of_le hg2,
        Option.bind_eq_bind, Option.bind_some]
      by_cases h0 : e - min g0 e = 0
      · simp only [h0, if_true]
        refine ⟨_, rfl, ?_⟩
        intro d hd
        rcases List.mem_cons.mp hd with rfl | hd
        · simp only; omega
        · exact (hcs d hd).2.1
      · simp only [h0, if_false]
        have hm : min g0 e = g0 := by omega
        rw [hm]
        obtain ⟨l', r1, r2⟩ := ih hcs (e - g0) (by rw [Nat.sub_mul]; omega)
        refine ⟨{ c with width := c.width - g0 } :: l', by simp [r1], ?_⟩
        intro d hd
        rcases List.mem_cons.mp hd with rfl | hd
        · simp only; omega
        · exact r2 d hd
    · have hir : ¬ c.Irr := hi
      simp only [sumOverAvg, hir, if_false, Nat.zero_add] at he
      simp only [hi, if_false]
      obtain ⟨l', r1, r2⟩ := ih hcs e he
      refine ⟨c :: l', by simp [r1], ?_⟩
      intro d hd
      rcases List.mem_cons.mp hd with rfl | hd
      · exact ha
      · exact r2 d hd

/-- The potential of the first step is under the sum of what exceeds the averages. -/
theorem potential_le (l : List ColFit) (hl : ∀ c ∈ l, c.width = c.stdWidth ∧ c.avgWidth ≤ c.width) :
    ∃ n, TblFit.potentialUncutGain1 l = some n ∧ n ≤ sumOverAvg l ∧
      n = (l.map (fun c => if 4 < c.stdWidth ∧ c.avgWidth + 1 < c.stdWidth then min (c.stdWidth - c.avgWidth) 4 else 0)).sum := by
  induction l with
  | nil => exact ⟨0, rfl, Nat.le_refl _, rfl⟩
  | cons c cs ih =>
    obtain ⟨n, h1, h2, h3⟩ := ih (fun d hd => hl d (by simp [hd]))
    obtain ⟨hs, ha⟩ := hl c (by simp)
    simp only [TblFit.potentialUncutGain1, h1, Option.bind_eq_bind, Option.bind_some, sumOverAvg]
    by_cases hc : c.width > 4 ∧ c.width > c.avgWidth + 1
    · have hir : c.Irr := ⟨by omega, by omega⟩
      have hc' : 4 < c.stdWidth ∧ c.avgWidth + 1 < c.stdWidth := by omega
      simp only [hc, and_self, if_true, csub_of_le ha, Option.bind_some, hir]
      refine ⟨_, rfl, by omega, ?_⟩
      simp only [List.map_cons, List.sum_cons, hc', and_self, if_true, h3, hs]
    · have hc' : ¬ (4 < c.stdWidth ∧ c.avgWidth + 1 < c.stdWidth) := by omega
      simp only [hc, if_false]
      refine ⟨n, rfl, by omega, ?_⟩
      simp only [List.map_cons, List.sum_cons, hc', if_false, h3, Nat.zero_add]

/-- The second step takes all it can from the first columns. -/
theorem step2_greedy (pot : Nat) (hp : 0 < pot) (l : List ColFit)
    (hl : ∀ c ∈ l, 3 ≤ c.width ∧ (c.width = c.stdWidth ∨ (c.Irr ∧ 4 ≤ c.width))) : ∀ e l' e',
    TblFit.step2 pot pot l e = some (l', e') →
      l'.Pairwise (fun a b => ¬ b.Irr ∨ b.width = 3 → b.width < b.stdWidth → a.width = 3) := by
  induction l with
  | nil => intro e l' e' h; cases h; simp
  | cons c cs ih =>
    intro e l' e' h
    have h3 := (hl c (by simp)).1
    have hcs := fun d hd => hl d (List.mem_cons_of_mem c hd)
    have hg0 : divCeil ((c.width - 3) * pot) pot = some (c.width - 3) := by
      have hp' : pot ≠ 0 := by omega
      simp [divCeil, hp', Nat.mul_div_cancel _ hp]
    have hg1 : min (min (c.width - 3) e) (c.width - 3) ≤ c.width := by omega
    have hg2 : min (min (c.width - 3) e) (c.width - 3) ≤ e := by omega
    simp only [TblFit.step2, csub_of_le h3, hg0, csub_of_le hg1, csub_of_le hg2, Option.bind_eq_bind,
        Option.bind_some] at h
    have hg3 : min (min (c.width - 3) e) (c.width - 3) = min (c.width - 3) e := by omega
    rw [hg3] at h
    have kept : ∀ b ∈ cs, ¬ b.Irr ∨ b.width = 3 → ¬ b.width < b.stdWidth := by
      intro b hb hb1 hb2
      rcases (hcs b hb).2 with h | h
      · omega
      · rcases hb1 with h' | h'
        · exact h' h.1
        · omega
    by_cases he : e - min (c.width - 3) e = 0
    · simp only [he, if_true] at h
      cases h
      rw [List.pairwise_cons]
      refine ⟨fun b hb h1 h2 => absurd h2 (kept b hb h1), ?_⟩
      rw [List.pairwise_iff_forall_sublist]
      intro a b hab h1 h2
      exact absurd h2 (kept b (hab.subset (by simp)) h1)
    · simp only [he, if_false] at h
      cases hr : TblFit.step2 pot pot cs (e - min (c.width - 3) e) with
      | none => simp [hr] at h
      | some p =>
        simp only [hr, Option.bind_some] at h
        cases h
        rw [List.pairwise_cons]
        refine ⟨fun b _ _ _ => ?_, ih hcs _ p.1 p.2 hr⟩
        simp only; omega

theorem makeFits_avg (cols : List ColData) : ∀ i fits, TblFit.makeFits cols i = some fits →
    ∀ f ∈ fits, i ≤ f.idx ∧ (cols[f.idx - i]?).bind (·.avgWidth) = some f.avgWidth := by
  induction cols with
  | nil => intro i fits h; cases h; simp
  | cons c cs ih =>
    intro i fits h
    simp only [TblFit.makeFits, Option.bind_eq_bind] at h
    cases ha : c.avgWidth with
    | none => simp [ha] at h
    | some a =>
      cases hr : TblFit.makeFits cs (i + 1) with
      | none => simp [ha, hr] at h
      | some rest =>
        simp only [ha, hr, Option.bind_some] at h
        cases h
        intro f hf
        rcases List.mem_cons.mp hf with rfl | hf
        · exact ⟨Nat.le_refl _, by simp [ha]⟩
        · obtain ⟨h1, h2⟩ := ih (i + 1) rest hr f hf
          refine ⟨by omega, ?_⟩
          have : f.idx - i = (f.idx - (i + 1)) + 1 := by omega
          rw [this, List.getElem?_cons_succ]; exact h2

/-- The columns as taken by the fitter, and what its two steps give. -/
theorem fit_split (f : TblFit) (hg : ∀ c ∈ f.cols, c.Good) (h3 : 3 * f.cols.length ≤ f.availableSumWidth)
    (h2 : 2 ≤ f.cols.length) (hx : f.availableSumWidth < (f.cols.map (·.width)).sum) :
    ∃ sfits l1 x1 l2 x2 r, f.fit = some r ∧
      TblFit.doStep1 sfits ((f.cols.map (·.width)).sum - f.availableSumWidth) = some (l1, x1) ∧
      TblFit.doStep2 l1 x1 = some (l2, x2) ∧
      Reduced sfits l1 ∧ Reduced l1 l2 ∧
      x1 + 3 * l1.length ≤ sumW l1 ∧
      (sfits.map (·.idx)).Perm (List.range f.cols.length) ∧
      sfits.Pairwise (fun a b => b.width ≤ a.width ∧ (a.width ≤ b.width → a.idx < b.idx)) ∧
      (∀ c ∈ sfits, 3 ≤ c.width ∧ c.width = c.stdWidth ∧ c.avgWidth ≤ c.width ∧
        (f.cols.map (·.width))[c.idx]? = some c.width ∧
        (f.cols[c.idx]?).bind (·.avgWidth) = some c.avgWidth) ∧
      (∀ (i w : Nat), r.colWidths[i]? = some w → ∃ c ∈ l2, c.idx = i ∧ c.width = w) := by
  have h1 : ¬ (f.cols.map (·.width)).sum ≤ f.availableSumWidth := by omega
  have h0 : ¬ f.cols.length = 0 := by omega
  have hone : ¬ f.cols.length = 1 := by omega
  unfold TblFit.fit
  simp only [h1, h0, hone, if_false]
  obtain ⟨fits, e1, e2, e3, e4⟩ := makeFits_ok f.cols hg 0
  have e5 := makeFits_avg f.cols 0 fits e1
  simp only [e1, Option.bind_eq_bind, Option.bind_some]
  rw [csub_of_le (by omega)]
  simp only [Option.bind_some]
  have hpw : fits.Pairwise (fun a b => a.idx < b.idx) := by
    have : (fits.map (·.idx)).Pairwise (· < ·) := by rw [e2]; exact List.pairwise_lt_range'
    rw [List.pairwise_map] at this; exact this
  have hstable := sortBy_stable (fun (a b : ColFit) => decide (b.width ≤ a.width))
    (by intro a b c; simp; omega) (by intro a b; simp; omega) (fun a b => a.idx < b.idx) fits hpw
  generalize hsort : sortBy (fun a b => decide (b.width ≤ a.width)) fits = sfits at *
  have hperm : sfits.Perm fits := by rw [← hsort]; exact sortBy_perm _ _
  have hs4 : ∀ c ∈ sfits, 3 ≤ c.width ∧ c.width = c.stdWidth ∧ c.avgWidth ≤ c.width := by
    intro c hc
    have := e4 c (hperm.mem_iff.mp hc)
    exact ⟨this.1, this.2.1, this.2.2.1⟩
  have hsum : sumW sfits = (f.cols.map (·.width)).sum := by rw [sumW_perm hperm, e3]
  have hlen : sfits.length = f.cols.length := by
    have := congrArg List.length e2
    simp at this
    rw [hperm.length_eq, this]
  obtain ⟨l1, x1, s1, r1, q1, w1⟩ : ∃ l1 x1,
      TblFit.doStep1 sfits ((f.cols.map (·.width)).sum - f.availableSumWidth) = some (l1, x1) ∧
      Reduced sfits l1 ∧ x1 ≤ (f.cols.map (·.width)).sum - f.availableSumWidth ∧
      sumW l1 = f.availableSumWidth + x1 := by
    obtain ⟨uncut, hu⟩ := potential_ok sfits (fun c hc => (hs4 c hc).2.2)
    simp only [TblFit.doStep1, hu, Option.bind_eq_bind, Option.bind_some]
    split
    · obtain ⟨l', e', a1, a2, a3, a4⟩ := step1_ok (min uncut ((f.cols.map (·.width)).sum - f.availableSumWidth))
        uncut (by omega) sfits hs4 ((f.cols.map (·.width)).sum - f.availableSumWidth)
      exact ⟨l', e', a1, a2, a3, by omega⟩
    · exact ⟨_, _, rfl, Reduced.refl _ (fun c hc => (hs4 c hc).1), Nat.le_refl _, by omega⟩
  rw [s1]
  simp only [Option.bind_some]
  have hl1 : ∀ c ∈ l1, 3 ≤ c.width := fun c hc => by
    obtain ⟨d, _, _, _, _, h⟩ := r1.mem c hc; exact h
  have hlen1 : l1.length = f.cols.length := by
    have := congrArg List.length r1.map_idx
    simp at this; omega
  obtain ⟨l2, x2, s2, r2⟩ : ∃ l2 x2, TblFit.doStep2 l1 x1 = some (l2, x2) ∧ Reduced l1 l2 := by
    unfold TblFit.doStep2
    split
    · obtain ⟨s, a1, a2⟩ := sumOver3_ok l1 hl1
      have : min s x1 = x1 := by omega
      obtain ⟨l', e', b1, b2, b3, b4, b5⟩ := step2_ok x1 (by omega) l1 hl1 x1
      exact ⟨l', e', by simp [a1, this, b1], b2⟩
    · exact ⟨_, _, rfl, Reduced.refl _ hl1⟩
  have hidx0 : (sfits.map (·.idx)).Perm (List.range f.cols.length) := by
    have := hperm.map (·.idx)
    rw [e2] at this
    rw [List.range_eq_range']; exact this
  have hidx : (l2.map (·.idx)).Perm (List.range f.cols.length) := by
    rw [r2.map_idx, r1.map_idx]; exact hidx0
  have hsorted := sort_idx l2 _ hidx
  refine ⟨sfits, l1, x1, l2, x2, ⟨true, (sortBy (fun a b => decide (a.idx ≤ b.idx)) l2).map (·.width)⟩,
    ?_, s1, s2, r1, r2, by omega, hidx0, ?_, ?_, ?_⟩
  · simp only [s2, Option.bind_some]; rfl
  · exact hstable.imp (by simp)
  · intro c hc
    have hc' := hperm.mem_iff.mp hc
    have a := e4 c hc'
    have b := e5 c hc'
    exact ⟨a.1, a.2.1, a.2.2.1, by simpa using a.2.2.2.2, by simpa using b.2⟩
  · intro i w hi
    generalize hl3 : sortBy (fun a b => decide (a.idx ≤ b.idx)) l2 = l3 at *
    have hp3 : l3.Perm l2 := by rw [← hl3]; exact sortBy_perm _ _
    simp only [List.getElem?_map, Option.map_eq_some_iff] at hi
    obtain ⟨c, hc, rfl⟩ := hi
    refine ⟨c, hp3.mem_iff.mp (List.mem_of_getElem? hc), ?_, rfl⟩
    have h := congrArg (fun l => l[i]?) hsorted
    simp only [List.getElem?_map, hc, Option.map_some] at h
    have hi' : i < f.cols.length := by
      have h5 := (List.getElem?_eq_some_iff.mp hc).1
      have := congrArg List.length hsorted
      simp at this; omega
    rw [List.getElem?_range hi'] at h
    simpa using h

end Verif

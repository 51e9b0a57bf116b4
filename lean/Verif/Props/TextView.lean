import Verif.Lemmas.TextView
import Verif.Lemmas.Fit
import Verif.Props.FmtText
import Verif.Props.Area
import Verif.Props.ProgressFloat
/-! Properties C28 and C29: text views and markdown views. -/
namespace Verif.Props
open Verif TextView

/-! ## C28 -/

theorem f64_int (n : Int) (h : n.natAbs < 2 ^ 53) : f64.nearest n = n :=
  (C44_nearest f64 (by decide) n).exact ⟨n, 0, by simpa [f64] using h, by decide, by rw [Rat.zpow_zero, Rat.mul_one]⟩

theorem clipped_lines {L y : Rat} (big : (((2147483648 : Int)) : Rat) ≤ L) (low : (((-2147483647 : Int)) : Rat) ≤ y) (n : Int) (hn : RoundedAway y n)
    (z : Flt) (hz : z = if L ≤ y then .inf else if y ≤ -L then .negInf else .fin y) :
    -2147483647 ≤ n ∧ (if z.isNegative then z.floor else z.ceil).toI32 = if n ≤ 2147483647 then n else 2147483647 := by
  have hn' := (roundedAway_ok _ _).1 hn
  have hlow : -2147483647 ≤ n := by
    rw [hn']
    split
    · exact Rat.le_floor_iff.2 low
    · have := Rat.lt_ceil_iff (x := y) (y := -2147483648)
      have : -2147483648 < y.ceil := this.2 (by push_cast at low ⊢; grind)
      omega
  refine ⟨hlow, ?_⟩
  by_cases c1 : L ≤ y
  · rw [if_pos c1] at hz
    subst hz
    simp only [Flt.isNegative, Bool.false_eq_true, if_false, Flt.ceil, Flt.toI32]
    have : ¬ n ≤ 2147483647 := by
      rw [hn', if_neg (by push_cast at big; grind)]
      have : ((2147483648 : Int) : Rat) ≤ (y.ceil : Rat) := Rat.le_trans big (Rat.le_trans c1 Rat.le_ceil)
      have : (2147483648 : Int) ≤ y.ceil := Rat.intCast_le_intCast.1 this
      omega
    rw [if_neg this]
    rfl
  · rw [if_neg c1, if_neg (by push_cast at big low; grind)] at hz
    subst hz
    have e : (if (Flt.fin y).isNegative then (Flt.fin y).floor else (Flt.fin y).ceil) = Flt.fin n := by
      simp only [Flt.isNegative, decide_eq_true_eq, Flt.floor, Flt.ceil]
      rw [hn']
      split <;> rfl
    rw [e]
    simp only [Flt.toI32, ratTrunc_intCast, saturateI32, i32Min, i32Max]
    split <;> omega

/-- The number of lines of a number of pages. -/
theorem f64_lines (x : Rat) (h : Nat) (hx : -2147483647 ≤ x * h) (n : Int) (hn : RoundedAway (f64.nearest (x * h)) n) :
    -2147483647 ≤ n ∧
    (if (Flt.mul f64.round (.fin x) (.fin h)).isNegative then (Flt.mul f64.round (.fin x) (.fin h)).floor
      else (Flt.mul f64.round (.fin x) (.fin h)).ceil).toI32 = if n ≤ 2147483647 then n else 2147483647 := by
  have low : (((-2147483647 : Int)) : Rat) ≤ f64.nearest (x * h) := by
    have := (C44_nearest f64 (by decide) (-2147483647 : Int)).mono (C44_nearest f64 (by decide) (x * h)) (by push_cast; exact hx)
    rw [f64_int _ (by decide)] at this
    exact this
  exact clipped_lines (L := (2 : Rat) ^ f64.limit) (by decide +kernel) low n hn _ rfl

/-- C28: every operation brings the scroll to the requested value bounded by 0 and the maximum, changes nothing else, and the
functions moving by a line or a page, and keys, return true exactly if the scroll changed (in an area with a row). -/
theorem C28_ops (v : TextView) (hs : v.scroll ≤ v.maxScroll) (op : ViewOp) (ha : op.Allowed v) :
    ∃ t b, op.Requests v t ∧ op.exec v = some ({ v with scroll := clampTo v.maxScroll t }, b) ∧
      (1 ≤ v.area.height → (∀ n, op ≠ .setScroll n) → (∀ n, op ≠ .lines n) → (∀ n, op ≠ .pages n) →
        (b = true ↔ clampTo v.maxScroll t ≠ v.scroll)) := by
  have hself : clampTo v.maxScroll v.scroll = v.scroll := by
    unfold clampTo; rw [if_neg (by omega), if_pos (by omega)]; omega
  have pu : ∃ b, v.pageUp = ({ v with scroll := clampTo v.maxScroll (v.scroll - v.area.height) }, b) ∧
      (1 ≤ v.area.height → (b = true ↔ clampTo v.maxScroll (v.scroll - v.area.height) ≠ v.scroll)) := by
    obtain ⟨h1, h2⟩ := pageUp_ok v hs
    refine ⟨_, h1, fun h => ?_⟩
    have h2 := h2 h
    rw [h1] at h2
    exact h2
  have pd : ∃ b, v.pageDown = ({ v with scroll := clampTo v.maxScroll (v.scroll + v.area.height) }, b) ∧
      (1 ≤ v.area.height → (b = true ↔ clampTo v.maxScroll (v.scroll + v.area.height) ≠ v.scroll)) := by
    obtain ⟨h1, h2⟩ := pageDown_ok v hs
    refine ⟨_, h1, fun h => ?_⟩
    have h2 := h2 h
    rw [h1] at h2
    exact h2
  obtain ⟨bu, pu1, pu2⟩ := pu
  obtain ⟨bd, pd1, pd2⟩ := pd
  cases op with
  | setScroll n => exact ⟨_, true, .setScroll n, by simp only [ViewOp.exec, setScroll_ok], fun _ h => absurd rfl (h n)⟩
  | lines n =>
    refine ⟨_, true, .lines n, ?_, fun _ _ h => absurd rfl (h n)⟩
    have h1 := ha.1
    simp only [ViewOp.exec, scrollLines_ok v hs n (by unfold i32Min; omega), Option.map_some]
  | pages count =>
    have hself' : some ({ v with scroll := clampTo v.maxScroll v.scroll }, true) = some (v, true) := by rw [hself]
    have nan : ∀ n, n = 0 → (v.tryScrollLines n).map (·, true) = some ({ v with scroll := clampTo v.maxScroll v.scroll }, true) := by
      rintro n rfl
      rw [scrollLines_ok v hs 0 (by decide)]
      simp
    cases count with
    | nan => exact ⟨_, true, .pagesNan _ (.inl rfl), nan _ rfl, fun _ _ _ h => absurd rfl (h _)⟩
    | inf =>
      by_cases hh : v.area.height = 0
      · refine ⟨_, true, .pagesNan _ (.inr ⟨hh, .inl rfl⟩), nan _ ?_, fun _ _ _ h => absurd rfl (h _)⟩
        simp [Flt.mul, hh, Flt.isNegative, Flt.ceil, Flt.toI32]
      · refine ⟨_, true, .pagesInf hh, ?_, fun _ _ _ h => absurd rfl (h _)⟩
        have h1 : (0 : Rat) < (v.area.height : Rat) := by exact_mod_cast Nat.pos_of_ne_zero hh
        have h2 : ¬ (v.area.height : Rat) = 0 := by grind
        simp only [ViewOp.exec, tryScrollPages, Flt.mul, if_neg h2, if_pos h1, Flt.isNegative, Flt.ceil, Flt.toI32, Bool.false_eq_true, if_false]
        rw [scrollLines_ok v hs _ (by decide)]
        rfl
    | negInf =>
      have hh : v.area.height = 0 := ha
      refine ⟨_, true, .pagesNan _ (.inr ⟨hh, .inr rfl⟩), nan _ ?_, fun _ _ _ h => absurd rfl (h _)⟩
      simp [Flt.mul, hh, Flt.isNegative, Flt.ceil, Flt.toI32]
    | fin x =>
      have ha : -2147483647 ≤ x * v.area.height := ha
      have hn := C44_nearest f64 (by decide) (x * v.area.height)
      have hr := (roundedAway_ok (f64.nearest (x * v.area.height)) _).2 rfl
      refine ⟨_, true, .pages x _ _ hn hr, ?_, fun _ _ _ h => absurd rfl (h _)⟩
      obtain ⟨hl, e⟩ := f64_lines x v.area.height ha _ hr
      simp only [ViewOp.exec, tryScrollPages]
      rw [e, scrollLines_ok v hs _ (by generalize (if f64.nearest (x * v.area.height) < 0 then _ else _ : Int) = n at hl ⊢; unfold i32Min; split <;> omega)]
      rfl
  | lineUp => exact ⟨_, _, .lineUp, by rw [ViewOp.exec, lineUp_ok v hs], fun _ _ _ _ => by simp⟩
  | lineDown => exact ⟨_, _, .lineDown, by rw [ViewOp.exec, lineDown_ok v hs], fun _ _ _ _ => by simp⟩
  | pageUp => exact ⟨_, bu, .pageUp, by rw [ViewOp.exec, pu1], fun h _ _ _ => pu2 h⟩
  | pageDown => exact ⟨_, bd, .pageDown, by rw [ViewOp.exec, pd1], fun h _ _ _ => pd2 h⟩
  | key k =>
    by_cases hk : k.mods ≠ .none ∨ k.others ≠ [] ∨ (k.code ≠ .up ∧ k.code ≠ .down ∧ k.code ≠ .pageUp ∧ k.code ≠ .pageDown)
    · refine ⟨_, false, .other k hk, ?_, fun _ _ _ _ => by simp [hself]⟩
      rw [hself]
      simp only [ViewOp.exec, applyKeyCombination]
      split
      · rfl
      · rename_i hm
        split
        · rename_i h1 h2; simp only [h1, h2, ne_eq, not_true_eq_false, or_false, false_and] at hk hm; exact absurd hk (by simpa using hm)
        · rename_i h1 h2; simp [h1, h2] at hk hm; exact absurd hm hk
        · rename_i h1 h2; simp [h1, h2] at hk hm; exact absurd hm hk
        · rename_i h1 h2; simp [h1, h2] at hk hm; exact absurd hm hk
        · rfl
    · obtain ⟨code, others, mods⟩ := k
      simp only [not_or, not_and, Classical.not_not] at hk
      obtain ⟨rfl, rfl, hk⟩ := hk
      by_cases c1 : code = .up
      · subst c1; exact ⟨_, _, .keyUp, by rw [ViewOp.exec]; exact congrArg some (lineUp_ok v hs), fun _ _ _ _ => by simp⟩
      by_cases c2 : code = .down
      · subst c2; exact ⟨_, _, .keyDown, by rw [ViewOp.exec]; exact congrArg some (lineDown_ok v hs), fun _ _ _ _ => by simp⟩
      by_cases c3 : code = .pageUp
      · subst c3; exact ⟨_, bu, .keyPageUp, by rw [ViewOp.exec]; exact congrArg some pu1, fun h _ _ _ => pu2 h⟩
      have c4 := hk c1 c2 c3
      subst c4
      exact ⟨_, bd, .keyPageDown, by rw [ViewOp.exec]; exact congrArg some pd1, fun h _ _ _ => pd2 h⟩

/-- C28: whatever the history of a view, its scroll is at most the maximum, and no allowed operation panics. -/
theorem C28_reachable (area : Area) (lines : List FmtLine) {v : TextView} (h : ReachableView area lines v) :
    v.area = area ∧ v.lines = lines ∧ v.scroll ≤ lines.length - area.height ∧ ∀ op : ViewOp, op.Allowed v → op.exec v ≠ none := by
  have : v.area = area ∧ v.lines = lines ∧ v.scroll ≤ v.maxScroll := by
    induction h with
    | init bar => exact ⟨rfl, rfl, Nat.zero_le _⟩
    | step op _ ha he ih =>
      obtain ⟨t, b, _, h2, _⟩ := C28_ops _ ih.2.2 op ha
      rw [h2] at he
      simp only [Option.some.injEq, Prod.mk.injEq] at he
      obtain ⟨rfl, rfl⟩ := he
      exact ⟨ih.1, ih.2.1, clampTo_le _ _⟩
  obtain ⟨h1, h2, h3⟩ := this
  refine ⟨h1, h2, by rw [← h1, ← h2]; exact h3, ?_⟩
  intro op ha
  obtain ⟨t, b, _, h2, _⟩ := C28_ops v h3 op ha
  rw [h2]; simp

/-- `k` pages down. -/
def pagesDown (v : TextView) : Nat → TextView
  | 0 => v
  | k + 1 => (pagesDown v k).pageDown.1

/-- C28: all the lines are displayed, one time or another, when paging down from the start. -/
theorem C28_all_seen (area : Area) (lines : List FmtLine) (hh : 1 ≤ area.height) (i : Nat) (hi : i < lines.length) :
    ∃ k, (pagesDown { area, lines } k).scroll ≤ i ∧ i < (pagesDown { area, lines } k).scroll + area.height := by
  have hk : ∀ k, pagesDown { area, lines } k = { area, lines, scroll := min (k * area.height) (lines.length - area.height) } := by
    intro k
    induction k with
    | zero => simp [pagesDown]
    | succ k ih =>
      rw [pagesDown, ih]
      have := (pageDown_ok { area, lines, scroll := min (k * area.height) (lines.length - area.height) } (by simp only [maxScroll]; omega)).1
      rw [this]
      simp only
      congr 1
      unfold clampTo maxScroll
      simp only [Nat.succ_mul]
      rw [if_neg (by omega)]
      split <;> omega
  refine ⟨i / area.height, ?_⟩
  rw [hk]
  have h1 := Nat.div_add_mod i area.height
  have h2 := Nat.mod_lt i (show area.height > 0 by omega)
  rw [Nat.mul_comm] at h1
  simp only
  omega

/-- C28: an example of history. -/
example : ∃ v, ReachableView ⟨0, 0, 10, 3⟩ (List.replicate 10 .horizontalRule) v ∧ v.scroll = 5 :=
  ⟨{ area := ⟨0, 0, 10, 3⟩, lines := List.replicate 10 .horizontalRule, scroll := 5 },
    .step .lineUp (v := { area := ⟨0, 0, 10, 3⟩, lines := List.replicate 10 .horizontalRule, scroll := 6 }) (b := true)
      (.step (.pages (.fin 2)) (.init true) (show (-2147483647 : Rat) ≤ 2 * ((3 : Nat) : Rat) by decide +kernel) (b := true) (by decide +kernel)) trivial (by decide), rfl⟩

/-- C28: in an area without row, `page_down` says that it moved and doesn't. -/
theorem C28_height_counterexample : ∃ v : TextView, v.pageDown = (v, true) :=
  ⟨{ area := ⟨0, 0, 10, 0⟩, lines := [.horizontalRule] }, by decide⟩

/-- C28: a whole number of pages asks for as many times the height (when these lines are counted by an `i32`). -/
theorem C28_pages_whole (v : TextView) (k : Int) (h : -2147483648 < k * v.area.height ∧ k * v.area.height ≤ 2147483647) :
    v.tryScrollPages (.fin k) = v.tryScrollLines (k * v.area.height) := by
  have e : (k : Rat) * (v.area.height : Rat) = ((k * v.area.height : Int) : Rat) := by push_cast; rfl
  have hn : f64.nearest ((k : Rat) * v.area.height) = ((k * v.area.height : Int) : Rat) := by rw [e]; exact f64_int _ (by omega)
  have hr : RoundedAway (f64.nearest ((k : Rat) * v.area.height)) (k * v.area.height) := by
    rw [hn]
    exact ⟨fun _ => ⟨Rat.le_refl, by grind⟩, fun _ => ⟨Rat.le_refl, by grind⟩⟩
  obtain ⟨_, e2⟩ := f64_lines k v.area.height (by
    rw [e]
    have : ((-2147483647 : Int) : Rat) ≤ ((k * v.area.height : Int) : Rat) := by
      have : (-2147483647 : Int) ≤ k * v.area.height := by omega
      exact Rat.intCast_le_intCast.2 this
    exact this) _ hr
  simp only [tryScrollPages]
  rw [e2, if_pos h.2]

theorem f64_error {x : Rat} (h0 : -2147483647 ≤ x) (h1 : x ≤ 2147483647) : x - 1 / 2 ^ 20 ≤ f64.nearest x ∧ f64.nearest x ≤ x + 1 / 2 ^ 20 := by
  have pos : ∀ y : Rat, 0 ≤ y → y ≤ 2147483647 → y - 1 / 2 ^ 20 ≤ f64.nearest y ∧ f64.nearest y ≤ y + 1 / 2 ^ 20 := by
    intro y y0 y1
    obtain ⟨e1, e2⟩ := nearest_error f64 (by decide) y0
    have hd : y / (2 : Rat) ^ f64.bits * (2 : Rat) ^ f64.bits = y := Rat.div_mul_cancel (by decide +kernel)
    have hle : y / (2 : Rat) ^ f64.bits ≤ 1 / 2 ^ 21 := by
      apply Rat.le_of_mul_le_mul_right (c := (2 : Rat) ^ f64.bits) _ (by decide +kernel)
      rw [hd]
      exact Rat.le_trans y1 (by decide +kernel)
    have hs : (2 : Rat) ^ (f64.least - 1) ≤ 1 / 2 ^ 21 := by decide +kernel
    have hh : (1 : Rat) / 2 ^ 20 = 1 / 2 ^ 21 + 1 / 2 ^ 21 := by decide +kernel
    rw [hh]
    generalize (1 : Rat) / 2 ^ 21 = t at *
    generalize (2 : Rat) ^ (f64.least - 1) = a at *
    generalize y / (2 : Rat) ^ f64.bits = b at *
    constructor <;> grind
  by_cases c : 0 ≤ x
  · exact pos x c h1
  · obtain ⟨e1, e2⟩ := pos (-x) (by grind) (by grind)
    rw [nearest_neg f64 (C44_nearest f64 (by decide))] at e1 e2
    generalize (1 : Rat) / 2 ^ 20 = t at *
    constructor <;> grind

/-- C28: the number of lines of a number of pages is a number of lines at least as large, by less than a line, but for the error of the product, which is less than a millionth
(when these lines are counted by an `i32`). -/
theorem C28_pages_close (v : TextView) (x : Rat) (h0 : -2147483647 ≤ x * v.area.height) (h1 : x * v.area.height ≤ 2147483647) :
    ∃ n : Int, v.tryScrollPages (.fin x) = v.tryScrollLines n ∧
      (0 ≤ x → x * v.area.height - 1 / 2 ^ 20 ≤ n ∧ n < x * v.area.height + 1 + 1 / 2 ^ 20) ∧
      (x < 0 → n ≤ x * v.area.height + 1 / 2 ^ 20 ∧ x * v.area.height - 1 - 1 / 2 ^ 20 < n) := by
  have hr := (roundedAway_ok (f64.nearest (x * v.area.height)) _).2 rfl
  obtain ⟨_, e2⟩ := f64_lines x v.area.height h0 _ hr
  have hh : (0 : Rat) ≤ (v.area.height : Rat) := by exact_mod_cast Nat.zero_le _
  have hup : f64.nearest (x * v.area.height) ≤ ((2147483647 : Int) : Rat) := by
    have := (C44_nearest f64 (by decide) (x * v.area.height)).mono (C44_nearest f64 (by decide) ((2147483647 : Int) : Rat)) (by push_cast; exact h1)
    rw [f64_int _ (by decide)] at this
    exact this
  obtain ⟨r1, r2⟩ := f64_error h0 h1
  have mono := fun (a b : Rat) (hab : a ≤ b) => (C44_nearest f64 (by decide) a).mono (C44_nearest f64 (by decide) b) hab
  have hz : f64.nearest 0 = 0 := f64_int 0 (by decide)
  have p1 : 0 ≤ x → 0 ≤ f64.nearest (x * v.area.height) := by
    intro h
    have := mono 0 _ (Rat.mul_nonneg h hh)
    rw [hz] at this
    exact this
  have p2 : x < 0 → f64.nearest (x * v.area.height) ≤ 0 := by
    intro h
    have h' : 0 ≤ (-x) * v.area.height := Rat.mul_nonneg (by grind) hh
    have := mono (x * v.area.height) 0 (by grind)
    rw [hz] at this
    exact this
  generalize hy : f64.nearest (x * v.area.height) = y at *
  generalize hn : (if y < 0 then y.floor else y.ceil) = n at *
  have hle : n ≤ 2147483647 := by
    rw [← hn]
    split
    · have := Rat.floor_lt_iff (a := y) (x := 2147483648)
      have : y.floor < 2147483648 := this.2 (by push_cast at hup ⊢; grind)
      omega
    · exact Rat.ceil_le_iff.2 hup
  rw [if_pos hle] at e2
  refine ⟨n, by simp only [tryScrollPages]; rw [e2], fun h => ?_, fun h => ?_⟩
  · have := hr.1 (p1 h)
    generalize (1 : Rat) / 2 ^ 20 = t at *
    constructor <;> grind
  · have p2 := p2 h
    have ht : (0 : Rat) < 1 / 2 ^ 20 := by decide +kernel
    generalize (1 : Rat) / 2 ^ 20 = t at *
    by_cases c : y < 0
    · have := hr.2 c
      constructor <;> grind
    · have := hr.1 (by grind)
      have : n = 0 := by
        rw [← hn, if_neg c]
        have : y = ((0 : Int) : Rat) := Rat.le_antisymm p2 (by grind)
        rw [this, Rat.ceil_intCast]
      subst this
      constructor <;> push_cast <;> grind

/-- C28: two pages, and minus a third of a page, of 20 rows. -/
example : let v : TextView := { area := ⟨0, 0, 10, 20⟩, lines := List.replicate 100 .horizontalRule, scroll := 30 }
    v.tryScrollPages (.fin 2) = some { v with scroll := 70 } ∧ v.tryScrollPages (f64.round (-1/3)) = some { v with scroll := 23 } :=
  ⟨(C28_pages_whole _ 2 (by decide)).trans (by decide), (congrArg (TextView.tryScrollLines _) (show _ = (-7 : Int) by decide +kernel)).trans (by decide)⟩

/-- C28: 7 hundredths of a page of 100 rows are 8 lines, as the product is a bit more than 7 with the arithmetic of `f64`, but a tenth of a page of 10 rows is a line. -/
theorem C28_float_counterexample (v : TextView) :
    (v.area.height = 100 → v.tryScrollPages (f64.round (7/100)) = v.tryScrollLines 8) ∧
    (v.area.height = 10 → v.tryScrollPages (f64.round (1/10)) = v.tryScrollLines 1) := by
  constructor
  · intro h
    simp only [tryScrollPages, h]
    congr 1
    decide +kernel
  · intro h
    simp only [tryScrollPages, h]
    congr 1
    decide +kernel

/-- C28: the least `i32` panics, and so do large negative numbers of pages. -/
theorem C28_min_counterexample (v : TextView) (hh : 1 ≤ v.area.height) :
    v.tryScrollLines (-2147483648) = none ∧ v.tryScrollPages .negInf = none ∧ (v.area.height = 20 → v.tryScrollPages (.fin (-3000000000)) = none) := by
  refine ⟨rfl, ?_, ?_⟩
  · have h1 : (0 : Rat) < (v.area.height : Rat) := by exact_mod_cast hh
    have h2 : ¬ (v.area.height : Rat) = 0 := by grind
    simp only [tryScrollPages, Flt.mul, if_neg h2, if_pos h1, Flt.isNegative, if_true, Flt.floor, Flt.toI32]
    rfl
  · intro h
    simp only [tryScrollPages, h]
    exact (congrArg v.tryScrollLines (show _ = (-2147483648 : Int) by decide +kernel)).trans rfl

/-- What is written when the scrollbar is known. -/
theorem written_with (v : TextView) (skin : Skin) (bar : Option (Nat × Nat)) (hb : v.scrollbar = some bar) (hw : 1 ≤ v.area.width)
    (ho : Spec.OnScreen v.area) (hd : ∀ l ∈ v.lines, ∀ w, ∃ ps, skin.writeFmtLine l (some w) true = some ps) :
    ∃ rows, v.writeOn skin = some rows ∧
      rows.length = v.area.height ∧
      ∀ (j : Nat) (row : WrittenRow), rows[j]? = some row → row.x = v.area.left ∧ row.y = v.area.top + j ∧
        ∃ text last, row.pieces = text ++ last ∧
          (∀ l, v.lines[v.scroll + j]? = some l →
            skin.writeFmtLine l (some (if bar = none then v.area.width else v.area.width - 1)) true = some text) ∧
          (v.lines[v.scroll + j]? = none → piecesText text = List.replicate (if bar = none then v.area.width else v.area.width - 1) ' ' ∧
            ∀ p ∈ text, p.1 = skin.paragraph.style) ∧
          (bar = none → last = []) ∧
          (∀ t b, bar = some (t, b) → last = if t ≤ row.y ∧ row.y ≤ b then skin.scrollbar.thumb.display else skin.scrollbar.track.display) := by
  have hwd : v.textWidth bar = some (if bar = none then v.area.width else v.area.width - 1) := by
    cases bar with
    | none => rfl
    | some p => simp [TextView.textWidth, csub, hw]
  generalize hwe : (if bar = none then v.area.width else v.area.width - 1) = w at hwd
  have key : ∀ n j, v.area.top + j + n < 65536 → ∃ rows, v.writeRows skin w bar n j = some rows ∧ rows.length = n ∧
      ∀ (i : Nat) (row : WrittenRow), rows[i]? = some row → row.x = v.area.left ∧ row.y = v.area.top + (j + i) ∧
        ∃ text, row.pieces = text ++ writeBar skin bar row.y ∧ v.writeText skin w (j + i) = some text := by
    intro n
    induction n with
    | zero => intro j _; exact ⟨[], rfl, rfl, by simp⟩
    | succ n ih =>
      intro j hj
      obtain ⟨rest, h1, h2, h3⟩ := ih (j + 1) (by omega)
      obtain ⟨text, ht⟩ : ∃ text, v.writeText skin w j = some text := by
        unfold writeText
        cases hl : v.lines[v.scroll + j]? with
        | none =>
          obtain ⟨ch, e, _⟩ := filling_queue ' ' w
          exact ⟨ch.map fun t => (skin.paragraph.style, t), by simp only [e, Option.bind_eq_bind, Option.bind_some]⟩
        | some l => exact hd l (List.mem_of_getElem? hl) w
      have hu : u16Add v.area.top j = some (v.area.top + j) := by unfold u16Add u16Size; rw [if_pos (by omega)]
      refine ⟨⟨v.area.left, v.area.top + j, text ++ writeBar skin bar (v.area.top + j)⟩ :: rest, by simp only [writeRows, hu, ht, h1, Option.bind_eq_bind, Option.bind_some], by simp [h2], ?_⟩
      intro i row hi
      cases i with
      | zero =>
        simp only [List.getElem?_cons_zero, Option.some.injEq] at hi
        subst hi
        exact ⟨rfl, rfl, text, rfl, ht⟩
      | succ i =>
        simp only [List.getElem?_cons_succ] at hi
        have := h3 i row hi
        rw [show j + 1 + i = j + (i + 1) by omega] at this
        exact this
  obtain ⟨rows, h1, h2, h3⟩ := key v.area.height 0 (by have := ho.2; omega)
  refine ⟨rows, by simp only [writeOn, hb, hwd, h1, Option.bind_eq_bind, Option.bind_some], h2, ?_⟩
  intro j row hj
  obtain ⟨a1, a2, text, a3, a4⟩ := h3 j row hj
  rw [Nat.zero_add] at a2 a4
  refine ⟨a1, a2, text, _, a3, ?_, ?_, ?_, ?_⟩
  · intro l hl
    simp only [writeText, hl] at a4
    exact a4
  · intro hl
    simp only [writeText, hl] at a4
    obtain ⟨ch, e, e2⟩ := filling_queue ' ' w
    simp only [e, Option.bind_eq_bind, Option.bind_some, Option.some.injEq] at a4
    subst a4
    constructor
    · rw [← e2]; simp [piecesText, List.flatMap_map, List.flatMap_id']
    · intro p hp
      simp only [List.mem_map] at hp
      obtain ⟨_, _, rfl⟩ := hp
      rfl
  · rintro rfl; rfl
  · rintro t b rfl; rfl

/-- C28: the exact cases in which displaying a view, whose lines can be displayed, panics: a row isn't a `u16`, or there's a scrollbar (the number of
lines, truncated to a `u16`, is more than the height) and no column for it, or it can't be computed (see `C19_panics`). -/
theorem C28_panics (v : TextView) (skin : Skin) (hd : ∀ l ∈ v.lines, ∀ w, ∃ ps, skin.writeFmtLine l (some w) true = some ps) :
    v.writeOn skin = none ↔ 1 ≤ v.area.height ∧ 65536 < v.area.top + v.area.height ∨
      v.showScrollbar = true ∧ v.area.height < v.lines.length % 65536 ∧
        (v.area.width = 0 ∨ computeScrollbar (v.scroll % 65536) (v.lines.length % 65536) v.area.height v.area.top = none) := by
  have text : ∀ w j, ∃ text, v.writeText skin w j = some text := by
    intro w j
    unfold writeText
    cases hl : v.lines[v.scroll + j]? with
    | none =>
      obtain ⟨ch, e, _⟩ := filling_queue ' ' w
      exact ⟨ch.map fun t => (skin.paragraph.style, t), by simp only [e, Option.bind_eq_bind, Option.bind_some]⟩
    | some l => exact hd l (List.mem_of_getElem? hl) w
  have key : ∀ w bar n j, v.writeRows skin w bar n j = none ↔ 1 ≤ n ∧ 65536 < v.area.top + j + n := by
    intro w bar n
    induction n with
    | zero => intro j; simp [writeRows]
    | succ n ih =>
      intro j
      obtain ⟨t, ht⟩ := text w j
      have := ih (j + 1)
      by_cases c : v.area.top + j < 65536
      · have hu : u16Add v.area.top j = some (v.area.top + j) := by unfold u16Add u16Size; rw [if_pos c]
        simp only [writeRows, hu, ht, Option.bind_eq_bind, Option.bind_some]
        cases hr : v.writeRows skin w bar n (j + 1) with
        | none => simp only [Option.bind_none, true_iff]; have := this.1 hr; omega
        | some rest =>
          simp only [Option.bind_some, reduceCtorEq, false_iff]
          intro h
          have : ¬ (1 ≤ n ∧ 65536 < v.area.top + (j + 1) + n) := fun h' => by rw [this.2 h'] at hr; cases hr
          omega
      · have hu : u16Add v.area.top j = none := by unfold u16Add u16Size; rw [if_neg c]
        simp only [writeRows, hu, Option.bind_eq_bind, Option.bind_none, true_iff]
        omega
  unfold writeOn
  by_cases c : v.showScrollbar = true
  · have hb : v.scrollbar = computeScrollbar (v.scroll % 65536) (v.lines.length % 65536) v.area.height v.area.top := by
      unfold TextView.scrollbar; rw [if_pos c]; rfl
    rw [hb]
    by_cases hc : v.lines.length % 65536 ≤ v.area.height
    · rw [(C19_none_iff _ _ _ _).2 hc]
      simp only [TextView.textWidth, Option.bind_eq_bind, Option.bind_some]
      rw [key]
      constructor
      · intro h; exact .inl (by omega)
      · rintro (h | h) <;> omega
    · cases hs : computeScrollbar (v.scroll % 65536) (v.lines.length % 65536) v.area.height v.area.top with
      | none => simp only [Option.bind_eq_bind, Option.bind_none, true_iff]; exact .inr ⟨c, by omega, .inr trivial⟩
      | some bar =>
        cases bar with
        | none => exact absurd ((C19_none_iff _ _ _ _).1 hs) hc
        | some tb =>
          simp only [TextView.textWidth, Option.bind_eq_bind, Option.bind_some, reduceCtorEq, or_false]
          by_cases hw : v.area.width = 0
          · have : csub v.area.width 1 = none := by unfold csub; rw [if_neg (by omega)]
            simp only [this, Option.bind_none, true_iff]
            exact .inr ⟨c, by omega, hw⟩
          · have : csub v.area.width 1 = some (v.area.width - 1) := by unfold csub; rw [if_pos (by omega)]
            simp only [this, Option.bind_some]
            rw [key]
            constructor
            · intro h; exact .inl (by omega)
            · rintro (h | h)
              · omega
              · exact absurd h.2.2 hw
  · have hb : v.scrollbar = some none := by unfold TextView.scrollbar; rw [if_neg c]
    simp only [hb, TextView.textWidth, Option.bind_eq_bind, Option.bind_some]
    rw [key]
    constructor
    · intro h; exact .inl (by omega)
    · rintro (h | h)
      · omega
      · exact absurd h.1 c

/-- C28: a view without column can be displayed when it has no scrollbar. -/
example : let v : TextView := { area := ⟨0, 0, 0, 2⟩, lines := List.replicate 3 .horizontalRule }
    v.writeOn {} = none ∧ ({ v with showScrollbar := false }.writeOn {}).isSome = true := by decide

/-- C28: what is written: a row per row of the area, at its position; the row `j` is the line `scroll + j` written in the width of
the area less the column of the scrollbar, or else spaces; then the scrollbar, present when there are more lines than rows. -/
theorem C28_written (v : TextView) (skin : Skin) (hw : 1 ≤ v.area.width) (hh : 1 ≤ v.area.height) (ho : Spec.OnScreen v.area)
    (hn : v.lines.length < 65536) (hs : v.scroll ≤ v.lines.length - v.area.height)
    (hd : ∀ l ∈ v.lines, ∀ w, ∃ ps, skin.writeFmtLine l (some w) true = some ps) :
    ∃ rows bar, v.writeOn skin = some rows ∧ v.scrollbar = some bar ∧
      (bar = none ↔ v.showScrollbar = false ∨ v.lines.length ≤ v.area.height) ∧
      rows.length = v.area.height ∧
      ∀ (j : Nat) (row : WrittenRow), rows[j]? = some row → row.x = v.area.left ∧ row.y = v.area.top + j ∧
        ∃ text last, row.pieces = text ++ last ∧
          (∀ l, v.lines[v.scroll + j]? = some l →
            skin.writeFmtLine l (some (if bar = none then v.area.width else v.area.width - 1)) true = some text) ∧
          (v.lines[v.scroll + j]? = none → piecesText text = List.replicate (if bar = none then v.area.width else v.area.width - 1) ' ' ∧
            ∀ p ∈ text, p.1 = skin.paragraph.style) ∧
          (bar = none → last = []) ∧
          (∀ t b, bar = some (t, b) → last = if t ≤ row.y ∧ row.y ≤ b then skin.scrollbar.thumb.display else skin.scrollbar.track.display) := by
  obtain ⟨bar, hb, hbn⟩ : ∃ bar, v.scrollbar = some bar ∧ (bar = none ↔ v.showScrollbar = false ∨ v.lines.length ≤ v.area.height) := by
    unfold scrollbar
    by_cases c : v.showScrollbar = true
    · rw [if_pos c]
      have e1 : asU16 v.scroll = v.scroll := by unfold asU16 u16Size; omega
      have e2 : asU16 v.contentHeight = v.lines.length := by unfold asU16 u16Size contentHeight; omega
      rw [Area.scrollbar, e1, e2]
      by_cases c2 : v.lines.length ≤ v.area.height
      · exact ⟨none, (C19_none_iff ..).2 c2, by simp [c2]⟩
      · obtain ⟨t, b, h⟩ := C19_no_panic v.scroll v.lines.length v.area.height v.area.top (by omega) (by omega) hh ho.2
        exact ⟨_, h, by simp [c, c2]⟩
    · rw [if_neg c]
      exact ⟨none, rfl, by simp at c; simp [c]⟩
  obtain ⟨rows, h1, h2, h3⟩ := written_with v skin bar hb hw ho hd
  exact ⟨rows, bar, h1, hb, hbn, h2, h3⟩

/-- The columns of what is written when the scrollbar is known. -/
theorem columns_with (cw : Char → Nat) (v : TextView) (skin : Skin) (hk : OneColumnSkin cw skin)
    (ht : piecesCols cw skin.scrollbar.thumb.display = 1) (ht' : piecesCols cw skin.scrollbar.track.display = 1)
    (bar : Option (Nat × Nat)) (hb : v.scrollbar = some bar) (h3 : bar = none ↔ v.showScrollbar = false ∨ v.lines.length ≤ v.area.height)
    (hw : 1 ≤ v.area.width) (ho : Spec.OnScreen v.area)
    (hd : ∀ l ∈ v.lines, DrawableLine cw skin l ∧
      ∀ w, (w = if v.showScrollbar = false ∨ v.lines.length ≤ v.area.height then v.area.width else v.area.width - 1) → ownCols skin w l ≤ w) :
    ∃ rows, v.writeOn skin = some rows ∧ rows.length = v.area.height ∧ ∀ row ∈ rows, piecesCols cw row.pieces = v.area.width := by
  obtain ⟨rows, h1, h4, h5⟩ := written_with v skin bar hb hw ho
    (fun l hl w => by obtain ⟨ps, p1, _⟩ := C10_columns cw skin hk l (hd l hl).1 w; exact ⟨ps, p1⟩)
  refine ⟨rows, h1, h4, ?_⟩
  intro row hr
  obtain ⟨j, hj⟩ := List.getElem?_of_mem hr
  obtain ⟨_, _, text, last, e, t1, t2, b1, b2⟩ := h5 j row hj
  have hwe : (if bar = none then v.area.width else v.area.width - 1) =
      if v.showScrollbar = false ∨ v.lines.length ≤ v.area.height then v.area.width else v.area.width - 1 := by
    by_cases c : bar = none
    · rw [if_pos c, if_pos (h3.1 c)]
    · rw [if_neg c, if_neg (fun h => c (h3.2 h))]
  have htext : piecesCols cw text = if bar = none then v.area.width else v.area.width - 1 := by
    generalize hg : (if bar = none then v.area.width else v.area.width - 1) = w at t1 t2 hwe ⊢
    cases hl : v.lines[v.scroll + j]? with
    | none =>
      have := (t2 hl).1
      have hsp : ∀ n, Verif.textWidth cw (List.replicate n ' ') = n := by
        intro n
        induction n with
        | zero => rfl
        | succ n ih => rw [List.replicate_succ, Verif.textWidth, ih, hk.space]; omega
      unfold piecesCols
      rw [this, hsp]
    | some l =>
      have hm := List.mem_of_getElem? hl
      obtain ⟨ps, p1, p2⟩ := C10_columns cw skin hk l (hd l hm).1 w
      rw [t1 l hl] at p1
      simp only [Option.some.injEq] at p1
      subst p1
      have := (hd l hm).2 w hwe
      omega
  rw [e, piecesCols_append, htext]
  cases bar with
  | none => rw [b1 rfl]; simp [piecesCols, piecesText]
  | some p =>
    obtain ⟨t, b⟩ := p
    rw [b2 t b rfl]
    simp only [reduceCtorEq, if_false]
    split <;> omega

/-- C28: every row takes the whole width of the area and no more, when the lines have their place in the width left by the scrollbar,
which takes a column. -/
theorem C28_columns (cw : Char → Nat) (v : TextView) (skin : Skin) (hk : OneColumnSkin cw skin)
    (ht : piecesCols cw skin.scrollbar.thumb.display = 1) (ht' : piecesCols cw skin.scrollbar.track.display = 1)
    (hw : 1 ≤ v.area.width) (hh : 1 ≤ v.area.height) (ho : Spec.OnScreen v.area)
    (hn : v.lines.length < 65536) (hs : v.scroll ≤ v.lines.length - v.area.height)
    (hd : ∀ l ∈ v.lines, DrawableLine cw skin l ∧
      ∀ w, (w = if v.showScrollbar = false ∨ v.lines.length ≤ v.area.height then v.area.width else v.area.width - 1) → ownCols skin w l ≤ w) :
    ∃ rows, v.writeOn skin = some rows ∧ rows.length = v.area.height ∧ ∀ row ∈ rows, piecesCols cw row.pieces = v.area.width := by
  obtain ⟨_, bar, _, hb, h3, _⟩ := C28_written v skin hw hh ho hn hs
    (fun l hl w => by obtain ⟨ps, p1, _⟩ := C10_columns cw skin hk l (hd l hl).1 w; exact ⟨ps, p1⟩)
  exact columns_with cw v skin hk ht ht' bar hb h3 hw ho hd

/-- C28: a scrolled view, with a scrollbar. -/
example : (({ area := ⟨2, 1, 8, 4⟩, lines := List.replicate 5 .horizontalRule ++ [.normal renderQuote], scroll := 2 } : TextView).writeOn {}).map
    (fun rows => rows.map fun r => (r.x, r.y, String.ofList (piecesText r.pieces))) =
    some [(2, 1, "―――――――▐"), (2, 2, "―――――――▐"), (2, 3, "―――――――▐"), (2, 4, "▐ a一 b▐")] := by decide

/-- C28: with 65536 lines no scrollbar is shown (and a view without column can't show one). -/
theorem C28_bar_counterexample : ({ area := ⟨0, 0, 10, 3⟩, lines := List.replicate 65536 .horizontalRule } : TextView).scrollbar = some none ∧
    ∀ (v : TextView) (p : Nat × Nat), v.area.width = 0 → v.textWidth (some p) = none := by
  constructor
  · unfold scrollbar contentHeight
    rw [List.length_replicate]
    rfl
  · intro v p h; simp [TextView.textWidth, csub, h]

/-! ## C29 -/

private theorem view_of {cw : Char → Nat} {ws : Char → Bool} {m : MadView} {v : TextView} (h : m.view cw ws = some v) :
    v.area = m.area ∧ v.scroll = m.scroll ∧ m.HasLines cw ws v.lines.length := by
  simp only [MadView.view, Skin.areaText, csub, Option.bind_eq_bind] at h
  by_cases c : 1 ≤ m.area.width
  · rw [if_pos c, Option.bind_some] at h
    cases ht : FmtText.fromText cw ws m.skin m.mlines (some (m.area.width - 1)) with
    | none => rw [ht] at h; simp at h
    | some t =>
      rw [ht] at h
      simp only [Option.bind_some, Option.some.injEq] at h
      subst h
      exact ⟨rfl, rfl, t, ht, rfl⟩
  · rw [if_neg c] at h; simp at h

private theorem hasLines_unique {cw : Char → Nat} {ws : Char → Bool} {m : MadView} {a b : Nat} (h : m.HasLines cw ws a)
    (h' : m.HasLines cw ws b) : a = b := by
  obtain ⟨t, h1, rfl⟩ := h
  obtain ⟨t', h2, rfl⟩ := h'
  rw [h1] at h2
  simp only [Option.some.injEq] at h2
  rw [h2]

/-- C29: scrolling by lines, when it was valid, brings the scroll to the requested value bounded by 0 and the maximum; when it was not
valid, a scroll downwards makes it the maximum, and a scroll upwards removes the number of lines, as long as it's possible. -/
theorem C29_scroll (cw : Char → Nat) (ws : Char → Bool) (m m' : MadView) (n : Int) (count : Nat) (hc : m.HasLines cw ws count)
    (h : m.tryScrollLines cw ws n = some m') :
    m'.mlines = m.mlines ∧ m'.area = m.area ∧
    (m.scroll ≤ count - m.area.height → m'.scroll = clampTo (count - m.area.height) (m.scroll + n)) ∧
    (0 ≤ n → m'.scroll = clampTo (count - m.area.height) (m.scroll + n)) ∧
    (n < 0 → m'.scroll = clampTo m.scroll (m.scroll + n)) := by
  simp only [MadView.tryScrollLines, Option.bind_eq_bind] at h
  cases hv : m.view cw ws with
  | none => rw [hv] at h; simp at h
  | some v =>
    obtain ⟨h1, h2, h3⟩ := view_of hv
    have := hasLines_unique hc h3
    subst this
    rw [hv, Option.bind_some] at h
    cases hs : v.tryScrollLines n with
    | none => rw [hs] at h; simp at h
    | some v' =>
      rw [hs] at h
      simp only [Option.bind_some, Option.some.injEq] at h
      subst h
      refine ⟨rfl, rfl, ?_, ?_, ?_⟩
      · intro hle
        by_cases hmin : n = i32Min
        · subst hmin; simp [tryScrollLines, i32Min] at hs
        · rw [scrollLines_ok v (by unfold maxScroll; rw [h1, h2]; exact hle) n hmin] at hs
          simp only [Option.some.injEq] at hs
          subst hs
          unfold maxScroll; rw [h1, h2]
      · intro hn
        unfold tryScrollLines at hs
        rw [if_neg (by omega), setScroll_ok, Option.some.injEq] at hs
        subst hs
        unfold maxScroll
        rw [h1, h2]
        have e : ((m.scroll + n.toNat : Nat) : Int) = m.scroll + n := by omega
        rw [e]
      · intro hn
        unfold tryScrollLines at hs
        rw [if_pos (by omega)] at hs
        split at hs
        · simp at hs
        · simp only [Option.some.injEq] at hs
          subst hs
          simp only [clampTo]
          split <;> split <;> (try split) <;> omega

/-- What a key can do to the scroll of a text view. -/
private theorem key_scroll (v : TextView) (k : KeyComb) :
    let v' := (v.applyKeyCombination k).1
    v'.scroll ≤ v.scroll ∨ v'.scroll ≤ v.maxScroll := by
  intro v'
  have hk : v' = v ∨ v' = v.lineUp.1 ∨ v' = v.lineDown.1 ∨ v' = v.pageUp.1 ∨ v' = v.pageDown.1 := by
    show (v.applyKeyCombination k).1 = v ∨ (v.applyKeyCombination k).1 = _ ∨ (v.applyKeyCombination k).1 = _ ∨
      (v.applyKeyCombination k).1 = _ ∨ (v.applyKeyCombination k).1 = _
    unfold applyKeyCombination
    split
    · exact .inl rfl
    · split
      · exact .inr (.inl rfl)
      · exact .inr (.inr (.inl rfl))
      · exact .inr (.inr (.inr (.inl rfl)))
      · exact .inr (.inr (.inr (.inr rfl)))
      · exact .inl rfl
  rcases hk with h | h | h | h | h <;> rw [h]
  · simp
  · unfold lineUp; split <;> simp
  · unfold lineDown contentHeight maxScroll; split <;> simp; omega
  · unfold pageUp; split
    · simp
    · split <;> simp
  · unfold pageDown contentHeight maxScroll; split
    · simp; omega
    · split <;> simp

/-- No operation on the scroll makes a bad scroll. -/
private theorem step_scroll {cw : Char → Nat} {ws : Char → Bool} {m m' : MadView} {op : MadOp} (hno : ∀ a, op ≠ .resize a)
    (h : op.exec cw ws m = some m') :
    m'.mlines = m.mlines ∧ m'.area = m.area ∧ m'.skin = m.skin ∧
      ∃ count, m.HasLines cw ws count ∧ (m'.scroll ≤ m.scroll ∨ m'.scroll ≤ count - m.area.height) := by
  have hl : ∀ n, m.tryScrollLines cw ws n = some m' → m'.mlines = m.mlines ∧ m'.area = m.area ∧ m'.skin = m.skin ∧
      ∃ count, m.HasLines cw ws count ∧ (m'.scroll ≤ m.scroll ∨ m'.scroll ≤ count - m.area.height) := by
    intro n h
    have h0 := h
    simp only [MadView.tryScrollLines, Option.bind_eq_bind] at h
    cases hv : m.view cw ws with
    | none => rw [hv] at h; simp at h
    | some v =>
      obtain ⟨h1, h2, h3⟩ := view_of hv
      obtain ⟨e1, e2, e3, e4, e5⟩ := C29_scroll cw ws m m' n _ h3 h0
      refine ⟨e1, e2, ?_, _, h3, ?_⟩
      · rw [hv, Option.bind_some] at h
        cases hs : v.tryScrollLines n with
        | none => rw [hs] at h; simp at h
        | some v' =>
          rw [hs] at h
          simp only [Option.bind_some, Option.some.injEq] at h
          subst h
          rfl
      · by_cases c : 0 ≤ n
        · right; rw [e4 c]; exact clampTo_le _ _
        · left; rw [e5 (by omega)]; exact clampTo_le _ _
  cases op with
  | resize a => exact absurd rfl (hno a)
  | lines n => exact hl n h
  | pages n =>
    simp only [MadOp.exec, MadView.tryScrollPages] at h
    split at h
    · exact hl _ h
    · simp at h
  | key k =>
    simp only [MadOp.exec, MadView.applyKeyCombination, Option.bind_eq_bind] at h
    cases hv : m.view cw ws with
    | none => rw [hv] at h; simp at h
    | some v =>
      obtain ⟨h1, h2, h3⟩ := view_of hv
      rw [hv] at h
      simp only [Option.bind_some, Option.map_some, Option.some.injEq] at h
      split at h
      · subst h
        refine ⟨rfl, rfl, rfl, _, h3, ?_⟩
        have := key_scroll v k
        simp only [maxScroll, h1, h2] at this
        exact this
      · subst h
        exact ⟨rfl, rfl, rfl, _, h3, .inl (Nat.le_refl _)⟩

/-- C29: scrolling by pages is scrolling by that many times the height of the area. -/
theorem C29_pages (cw : Char → Nat) (ws : Char → Bool) (m : MadView) (n : Int) (h : -2147483648 ≤ n * m.area.height)
    (h' : n * m.area.height ≤ 2147483647) : m.tryScrollPages cw ws n = m.tryScrollLines cw ws (n * m.area.height) := by
  rw [MadView.tryScrollPages, if_pos ⟨h, h'⟩]

/-- C29: display and keys are those of a text view with the same area, lines and scroll. -/
theorem C29_delegates (cw : Char → Nat) (ws : Char → Bool) (m : MadView) (t : FmtText) (hw : 1 ≤ m.area.width)
    (ht : FmtText.fromText cw ws m.skin m.mlines (some (m.area.width - 1)) = some t) :
    m.writeOn cw ws = ({ area := m.area, lines := t.lines, scroll := m.scroll } : TextView).writeOn m.skin ∧
    ∀ key, m.applyKeyCombination cw ws key = some
      ({ m with scroll := (({ area := m.area, lines := t.lines, scroll := m.scroll } : TextView).applyKeyCombination key).1.scroll },
        (({ area := m.area, lines := t.lines, scroll := m.scroll } : TextView).applyKeyCombination key).2) := by
  have hv : m.view cw ws = some { area := m.area, lines := t.lines, scroll := m.scroll } := by
    simp only [MadView.view, Skin.areaText, csub, Option.bind_eq_bind]
    rw [if_pos hw, Option.bind_some, ht, Option.bind_some]
  constructor
  · simp only [MadView.writeOn, hv, Option.bind_eq_bind, Option.bind_some]
  · intro key
    simp only [MadView.applyKeyCombination, hv, Option.bind_eq_bind, Option.bind_some]
    generalize hvv : ({ area := m.area, lines := t.lines, scroll := m.scroll } : TextView) = v
    have hs : v.scroll = m.scroll := by rw [← hvv]
    split
    · rename_i h; rw [h]
    · rename_i h
      have hsame : (v.applyKeyCombination key).1.scroll = v.scroll := by
        unfold applyKeyCombination at h ⊢
        split at h
        · rw [if_pos (by assumption)]
        · rename_i hm
          rw [if_neg hm]
          split at h
          · unfold lineUp at h ⊢; split at h <;> simp at h; rw [if_neg (by assumption)]
          · unfold lineDown at h ⊢; split at h <;> simp at h; rw [if_neg (by assumption)]
          · unfold pageUp at h ⊢
            split at h
            · simp at h
            · split at h
              · simp at h
              · rw [if_neg (by assumption), if_neg (by assumption)]
          · unfold pageDown at h ⊢
            split at h
            · simp at h
            · split at h
              · simp at h
              · rw [if_neg (by assumption), if_neg (by assumption)]
          · simp
      rw [hsame, hs]
      simp only [Bool.not_eq_true] at h
      rw [h]

/-- C29: whatever the history, resizes included, the scroll of a view isn't more than the number of lines of its content in the
current width. -/
theorem C29_bound (cw : Char → Nat) (ws : Char → Bool) (m0 m : MadView) (h : ReachableMad cw ws (fun _ _ => True) m0 m) (count : Nat)
    (hc : m.HasLines cw ws count) : m.scroll ≤ count := by
  induction h generalizing count with
  | init => exact Nat.zero_le _
  | @step m m' op hr ha he ih =>
    by_cases hop : ∃ a, op = .resize a
    · obtain ⟨a, rfl⟩ := hop
      simp only [MadOp.exec, Option.some.injEq, MadView.resize] at he
      split at he
      · subst he; exact ih _ hc
      · subst he
        by_cases c : a.width = m.area.width
        · have : m.HasLines cw ws count := by
            simp only [MadView.HasLines, c] at hc ⊢; exact hc
          simp only [c, ne_eq, not_true_eq_false, if_false]
          exact ih _ this
        · simp [c]
    · obtain ⟨e1, e2, e3, n, e4, e5⟩ := step_scroll (fun a h => hop ⟨a, h⟩) he
      have hc' : m.HasLines cw ws count := by
        simp only [MadView.HasLines, e1, e2, e3] at hc ⊢; exact hc
      have := hasLines_unique e4 hc'
      subst this
      have := ih _ hc'
      omega

/-- C29: the scroll is never more than the maximum for the current size, if no resize is to a greater height in the same width. -/
theorem C29_valid (cw : Char → Nat) (ws : Char → Bool) (m0 m : MadView)
    (h : ReachableMad cw ws (fun old new => new.width ≠ old.width ∨ new.height ≤ old.height) m0 m) (count : Nat)
    (hc : m.HasLines cw ws count) : m.scroll ≤ count - m.area.height := by
  induction h generalizing count with
  | init => exact Nat.zero_le _
  | @step m m' op hr ha he ih =>
    by_cases hop : ∃ a, op = .resize a
    · obtain ⟨a, rfl⟩ := hop
      have ha := ha a rfl
      simp only [MadOp.exec, Option.some.injEq, MadView.resize] at he
      split at he
      · subst he; exact ih _ hc
      · subst he
        by_cases c : a.width = m.area.width
        · have : m.HasLines cw ws count := by
            simp only [MadView.HasLines, c] at hc ⊢; exact hc
          simp only [c, ne_eq, not_true_eq_false, if_false]
          have := ih _ this
          rcases ha with ha | ha
          · exact absurd c ha
          · omega
        · simp [c]
    · obtain ⟨e1, e2, e3, n, e4, e5⟩ := step_scroll (fun a h => hop ⟨a, h⟩) he
      have hc' : m.HasLines cw ws count := by
        simp only [MadView.HasLines, e1, e2, e3] at hc ⊢; exact hc
      have := hasLines_unique e4 hc'
      subst this
      have := ih _ hc'
      rw [e2]
      omega

/-- C29: the scroll is kept by a resize in the same width, and comes back to the start when the width changes. -/
theorem C29_resize (m : MadView) (a : Area) :
    (m.resize a).area = a ∧ (m.resize a).mlines = m.mlines ∧
      (m.resize a).scroll = if a.width = m.area.width then m.scroll else 0 := by
  unfold MadView.resize
  by_cases c : a = m.area
  · rw [if_pos c]; subst c; simp
  · rw [if_neg c]
    refine ⟨rfl, rfl, ?_⟩
    by_cases c2 : a.width = m.area.width
    · simp [c2]
    · simp [c2]

theorem ownCols_succ {skin : Skin} {w : Nat} (hm : NoMarginEdge skin w) {l : FmtLine} (h : ownCols skin (w - 1) l ≤ w - 1) :
    ownCols skin w l ≤ w := by
  cases l with
  | normal fc =>
    simp only [ownCols] at *
    cases hs : styleOf skin fc.kind with
    | none => rw [hs] at h; simp at h ⊢; omega
    | some ls =>
      have := hm _ _ hs
      rw [hs] at h
      simp only [Option.map_some, Option.getD_some, marginSum] at h ⊢
      split
      · rw [if_pos (by omega)] at h; omega
      · split at h <;> omega
  | tableRow cells => simp only [ownCols] at *; omega
  | tableRule rule => simp only [ownCols] at *; omega
  | horizontalRule => simp only [ownCols] at *; omega

/-- C29: a text written by a view, or in an area, takes exactly the rows and columns of the area, whatever the text: its lines
are formatted for a width which leaves the column of the scrollbar. -/
theorem C29_fills_area (cw : Char → Nat) (ws : Char → Bool) (m : MadView) (hk : OneColumnSkin cw m.skin)
    (ht : piecesCols cw m.skin.scrollbar.thumb.display = 1) (ht' : piecesCols cw m.skin.scrollbar.track.display = 1)
    (hw : 4 ≤ m.area.width) (hh : 1 ≤ m.area.height) (ho : Spec.OnScreen m.area) (hm : NoMarginEdge m.skin m.area.width)
    (hf : FittingText cw m.skin (m.area.width - 1) m.mlines) :
    (∃ count, m.HasLines cw ws count ∧ (count < 65536 → m.scroll ≤ count - m.area.height →
      ∃ rows, m.writeOn cw ws = some rows ∧ rows.length = m.area.height ∧ ∀ row ∈ rows, piecesCols cw row.pieces = m.area.width)) ∧
    ((∃ count, m.HasLines cw ws count ∧ count < 65536) → ∃ rows, m.skin.writeInArea cw ws m.mlines m.area = some rows ∧ rows.length = m.area.height ∧
      ∀ row ∈ rows, piecesCols cw row.pieces = m.area.width) := by
  obtain ⟨out, e1, e2⟩ := fromText_final (ws := ws) (by omega) hf
  have hat : m.skin.areaText cw ws m.mlines m.area = some ⟨out, some (m.area.width - 1)⟩ := by
    simp only [Skin.areaText, csub, Option.bind_eq_bind]
    rw [if_pos (by omega), Option.bind_some, e1]
  have hd : ∀ (P : Prop) [Decidable P], ∀ l ∈ out, DrawableLine cw m.skin l ∧
      ∀ w, (w = if P then m.area.width else m.area.width - 1) → ownCols m.skin w l ≤ w := by
    intro P _ l hl
    refine ⟨(e2 l hl).1, ?_⟩
    rintro w rfl
    split
    · exact ownCols_succ hm (e2 l hl).2
    · exact (e2 l hl).2
  refine ⟨⟨out.length, ⟨_, e1, rfl⟩, ?_⟩, ?_⟩
  · intro hn hs
    obtain ⟨rows, h1, h2, h3⟩ := C28_columns cw { area := m.area, lines := out, scroll := m.scroll } m.skin hk ht ht' (by simp only; omega) hh ho hn hs (hd _)
    exact ⟨rows, by simp only [MadView.writeOn, MadView.view, hat, Option.bind_eq_bind, Option.bind_some, h1], h2, h3⟩
  · rintro ⟨count, hcount, hn⟩
    have := hasLines_unique hcount ⟨_, e1, rfl⟩
    subst this
    obtain ⟨rows, h1, h2, h3⟩ := C28_columns cw { area := m.area, lines := out, showScrollbar := false } m.skin hk ht ht' (by simp only; omega) hh ho hn
      (Nat.zero_le _) (hd _)
    exact ⟨rows, by simp only [Skin.writeInArea, hat, Option.bind_eq_bind, Option.bind_some, h1], h2, h3⟩

/-- Ten lines of one letter. -/
def exMad : MadView := { mlines := List.replicate 10 (.normal .paragraph [⟨['a'], {}⟩]), area := ⟨0, 0, 10, 3⟩, skin := {} }

/-- C29: a history with a resize. -/
example : ReachableMad renderCw (· == ' ') (fun old new => new.width ≠ old.width ∨ new.height ≤ old.height) exMad
    { exMad with area := ⟨0, 0, 10, 2⟩, scroll := 6 } :=
  .step (m := { exMad with scroll := 6 }) (.resize ⟨0, 0, 10, 2⟩)
    (.step (.pages 2) .init (fun _ h => by simp at h) (by rfl)) (by intro a h; cases h; decide) (by rfl)

/-- C29: after a resize to a greater height, the scroll may be too big: here the last lines are in the first rows, which a
valid scroll never gives. -/
theorem C29_taller_counterexample : ReachableMad renderCw (· == ' ') (fun _ _ => True) exMad { exMad with area := ⟨0, 0, 10, 9⟩, scroll := 7 } ∧
    ({ exMad with area := ⟨0, 0, 10, 9⟩, scroll := 7 } : MadView).HasLines renderCw (· == ' ') 10 ∧ ¬ 7 ≤ 10 - 9 :=
  ⟨.step (m := { exMad with scroll := 7 }) (.resize ⟨0, 0, 10, 9⟩)
    (.step (.lines 100) .init (fun _ h => by simp at h) (by rfl)) (by intro a h; trivial) (by rfl), ⟨_, rfl, by decide⟩, by decide⟩

/-- C29: a text in margins which are applied in the width of the area and not in the width less one is written out of the area. -/
theorem C29_margins_counterexample :
    (({ paragraph := { leftMargin := 2 } } : Skin).writeInArea renderCw (· == ' ') [.normal .paragraph [⟨['a', 'b', 'c', 'd'], {}⟩]] ⟨0, 0, 5, 1⟩).map
      (fun rows => rows.map fun r => piecesCols renderCw r.pieces) = some [6] := by decide

/-- C29: an area without column panics, and so does a number of pages which is a too large number of lines. -/
theorem C29_panic_counterexample (cw : Char → Nat) (ws : Char → Bool) (m : MadView) :
    (m.area.width = 0 → m.writeOn cw ws = none) ∧ (m.area.height = 30 → m.tryScrollPages cw ws 100000000 = none) := by
  constructor
  · intro h; simp [MadView.writeOn, MadView.view, Skin.areaText, csub, h]
  · intro h; simp [MadView.tryScrollPages, h, i32Max]

/-- C29: a text with tables, code and lists, which satisfies the conditions of `C29_fills_area` in an area of width 14. -/
example : ∃ rows, ({ mlines := exText, area := ⟨3, 2, 14, 5⟩, skin := renderSkin } : MadView).writeOn renderCw (· == ' ') = some rows ∧
    rows.length = 5 ∧ ∀ row ∈ rows, piecesCols renderCw row.pieces = 14 := by
  have hm : NoMarginEdge renderSkin 14 := by
    intro k ls h
    unfold styleOf at h
    split at h
    · simp only [Option.some.injEq] at h; subst h; decide
    · simp at h
    · split at h <;> simp only [Option.some.injEq] at h <;> subst h <;> simp [renderSkin]
    · simp only [Option.some.injEq] at h; subst h; decide
  obtain ⟨⟨count, h1, h2⟩, _⟩ := C29_fills_area renderCw (· == ' ') { mlines := exText, area := ⟨3, 2, 14, 5⟩, skin := renderSkin } renderSkin_one
    (by decide) (by decide) (by decide) (by decide) ⟨by decide, by decide⟩ hm exText_fits
  refine h2 ?_ (Nat.zero_le _)
  obtain ⟨t, e1, rfl⟩ := h1
  have : (FmtText.fromText renderCw (· == ' ') renderSkin exText (some 13)).map (·.lines.length) = some t.lines.length := by
    rw [show FmtText.fromText renderCw (· == ' ') renderSkin exText (some 13) = some t from e1]; rfl
  have e : (FmtText.fromText renderCw (· == ' ') renderSkin exText (some 13)).map (·.lines.length) = some 11 := by decide +kernel
  rw [e] at this
  simp only [Option.some.injEq] at this
  omega

end Verif.Props

import Verif.Props.ReadAll
/-! C28 and C29: exactly when scrolling a text view, and using a `MadView`, panics. -/
namespace Verif.Props
open Verif TextView Spec

private theorem scrollLines_none (v : TextView) (n : Int) : v.tryScrollLines n = none ↔ n = -2147483648 := by
  unfold TextView.tryScrollLines i32Min
  by_cases c : n < 0
  · rw [if_pos c]
    by_cases c2 : n = -2147483648
    · rw [if_pos c2]; exact iff_of_true rfl c2
    · rw [if_neg c2]; exact iff_of_false (by simp) c2
  · rw [if_neg c]
    exact iff_of_false (by simp) (by omega)

private theorem toI32_least (y : Rat) : (if (Flt.fin y).isNegative then (Flt.fin y).floor else (Flt.fin y).ceil).toI32 = -2147483648 ↔ y < -2147483647 := by
  simp only [Flt.isNegative, decide_eq_true_eq, Flt.floor, Flt.ceil]
  by_cases c : y < 0
  · rw [if_pos c]
    simp only [Flt.toI32, ratTrunc_intCast, saturateI32, i32Min, i32Max]
    have : y.floor < -2147483647 ↔ y < ((-2147483647 : Int) : Rat) := Rat.floor_lt_iff
    push_cast at this
    rw [← this]
    omega
  · rw [if_neg c]
    have h0 : (0 : Rat) ≤ (y.ceil : Rat) := Rat.le_trans (by grind) Rat.le_ceil
    have h1 : (0 : Int) ≤ y.ceil := by exact_mod_cast h0
    simp only [Flt.toI32, ratTrunc_intCast, saturateI32, i32Min, i32Max]
    refine iff_of_false (by omega) (by grind)

/-- C28: scrolling by lines panics exactly for the least `i32`, and by pages exactly when the product (as a `f64`) is less than `-2147483647`: it's so for all
products up to `-2147483648`, for no product from `-2147483647` on, and for the negative infinity when there's a row. -/
theorem C28_scroll_panics (v : TextView) :
    (∀ n, v.tryScrollLines n = none ↔ n = -2147483648) ∧
    (∀ x : Rat, (v.tryScrollPages (.fin x) = none ↔ f64.nearest (x * v.area.height) < -2147483647) ∧
      (x * v.area.height ≤ -2147483648 → v.tryScrollPages (.fin x) = none) ∧ (-2147483647 ≤ x * v.area.height → v.tryScrollPages (.fin x) ≠ none)) ∧
    (v.tryScrollPages .negInf = none ↔ 1 ≤ v.area.height) ∧ v.tryScrollPages .inf ≠ none ∧ v.tryScrollPages .nan ≠ none := by
  have pages : ∀ x : Rat, v.tryScrollPages (.fin x) = none ↔ f64.nearest (x * v.area.height) < -2147483647 := by
    intro x
    have big : (((2147483648 : Int)) : Rat) ≤ (2 : Rat) ^ f64.limit := by decide +kernel
    push_cast at big
    unfold TextView.tryScrollPages
    dsimp only [Flt.mul]
    rw [scrollLines_none]
    unfold FloatFormat.round
    by_cases c1 : (2 : Rat) ^ f64.limit ≤ f64.nearest (x * v.area.height)
    · rw [if_pos c1]
      refine iff_of_false (by decide) ?_
      grind
    · rw [if_neg c1]
      by_cases c2 : f64.nearest (x * v.area.height) ≤ -(2 : Rat) ^ f64.limit
      · rw [if_pos c2]
        refine iff_of_true (by decide) ?_
        grind
      · rw [if_neg c2]
        exact toI32_least _
  refine ⟨scrollLines_none v, fun x => ⟨pages x, fun h => ?_, fun h => ?_⟩, ?_, ?_, ?_⟩
  · rw [pages]
    have := (C44_nearest f64 (by decide) (x * v.area.height)).mono (C44_nearest f64 (by decide) (-2147483648 : Int)) (by push_cast; exact h)
    rw [f64_int _ (by decide)] at this
    push_cast at this
    grind
  · rw [Ne, pages]
    have := (C44_nearest f64 (by decide) (-2147483647 : Int)).mono (C44_nearest f64 (by decide) (x * v.area.height)) (by push_cast; exact h)
    rw [f64_int _ (by decide)] at this
    push_cast at this
    grind
  · unfold TextView.tryScrollPages
    dsimp only [Flt.mul]
    rw [scrollLines_none]
    by_cases c : 1 ≤ v.area.height
    · have h1 : (0 : Rat) < (v.area.height : Rat) := by exact_mod_cast c
      have h2 : ¬ (v.area.height : Rat) = 0 := by grind
      rw [if_neg h2, if_pos h1]
      exact iff_of_true (by decide) c
    · have h0 : v.area.height = 0 := by omega
      have h1 : ((v.area.height : Nat) : Rat) = 0 := by rw [h0]; rfl
      rw [if_pos h1]
      exact iff_of_false (by decide) c
  · unfold TextView.tryScrollPages
    dsimp only [Flt.mul]
    rw [Ne, scrollLines_none]
    by_cases c : (v.area.height : Rat) = 0
    · rw [if_pos c]; decide
    · have h1 : (0 : Rat) ≤ (v.area.height : Rat) := by exact_mod_cast Nat.zero_le _
      have h2 : (0 : Rat) < (v.area.height : Rat) := by grind
      rw [if_neg c, if_pos h2]
      decide
  · unfold TextView.tryScrollPages
    dsimp only [Flt.mul]
    rw [Ne, scrollLines_none]
    decide

/-- Concrete case: in 20 rows, 107374182.4 pages up make `2147483648` lines, which is too much; 107374182 pages are not. -/
example (v : TextView) (h : v.area.height = 20) : v.tryScrollPages (.fin (-1073741824 / 10)) = none ∧ v.tryScrollPages (.fin (-107374182)) ≠ none :=
  ⟨((C28_scroll_panics v).2.1 _).2.1 (by rw [h]; decide +kernel), ((C28_scroll_panics v).2.1 _).2.2 (by rw [h]; decide +kernel)⟩

private theorem view_none (cw : Char → Nat) (ws : Char → Bool) (m : MadView) :
    m.view cw ws = none ↔ m.area.width = 0 ∨ FmtText.fromText cw ws m.skin m.mlines (some (m.area.width - 1)) = none := by
  simp only [MadView.view, Skin.areaText, csub, Option.bind_eq_bind]
  by_cases c : 1 ≤ m.area.width
  · rw [if_pos c, Option.bind_some]
    cases FmtText.fromText cw ws m.skin m.mlines (some (m.area.width - 1)) with
    | none => exact iff_of_true rfl (.inr rfl)
    | some t => exact iff_of_false (by simp) (by rintro (h | h) <;> first | omega | cases h)
  · rw [if_neg c]
    exact iff_of_true rfl (.inl (by omega))

/-- C29: a key, or a scroll by lines or by pages, makes a `MadView` panic exactly when its area has no column or its text can't be formatted in the width less one, or when
the number of lines, or the one of the pages, is the least `i32`, or is too large for an `i32`. A resize never panics. -/
theorem C29_panics (cw : Char → Nat) (ws : Char → Bool) (m : MadView) :
    let unreadable := m.area.width = 0 ∨ FmtText.fromText cw ws m.skin m.mlines (some (m.area.width - 1)) = none
    (∀ key, m.applyKeyCombination cw ws key = none ↔ unreadable) ∧
    (∀ n, m.tryScrollLines cw ws n = none ↔ unreadable ∨ n = -2147483648) ∧
    (∀ n, m.tryScrollPages cw ws n = none ↔ unreadable ∨ n * m.area.height ≤ -2147483648 ∨ 2147483647 < n * m.area.height) := by
  intro unreadable
  have hv : m.view cw ws = none ↔ unreadable := view_none cw ws m
  have lines : ∀ n, m.tryScrollLines cw ws n = none ↔ unreadable ∨ n = -2147483648 := by
    intro n
    unfold MadView.tryScrollLines
    rw [← hv]
    cases m.view cw ws with
    | none => exact iff_of_true rfl (.inl rfl)
    | some v =>
      have := scrollLines_none v n
      simp only [Option.bind_eq_bind, Option.bind_some, reduceCtorEq, false_or]
      rw [← this]
      cases v.tryScrollLines n <;> simp
  refine ⟨fun key => ?_, lines, fun n => ?_⟩
  · unfold MadView.applyKeyCombination
    rw [← hv]
    cases m.view cw ws <;> simp
  · unfold MadView.tryScrollPages i32Min i32Max
    by_cases c : -2147483648 ≤ n * (m.area.height : Int) ∧ n * (m.area.height : Int) ≤ 2147483647
    · rw [if_pos c, lines]
      generalize n * (m.area.height : Int) = k at c ⊢
      constructor
      · rintro (h | h)
        · exact .inl h
        · exact .inr (by omega)
      · rintro (h | h)
        · exact .inl h
        · exact .inr (by omega)
    · rw [if_neg c]
      refine iff_of_true rfl (.inr ?_)
      generalize n * (m.area.height : Int) = k at c ⊢
      omega

/-- Concrete case. -/
example : (({ exMad with area := ⟨0, 0, 10, 30⟩ } : MadView).tryScrollPages renderCw (· == ' ') (-71582789) = none) ∧
    (({ exMad with area := ⟨0, 0, 10, 30⟩ } : MadView).tryScrollPages renderCw (· == ' ') (-71582788) ≠ none) := by
  have h : ¬ (({ exMad with area := ⟨0, 0, 10, 30⟩ } : MadView).area.width = 0 ∨
      FmtText.fromText renderCw (· == ' ') exMad.skin exMad.mlines (some 9) = none) := by
    rintro (h | h)
    · cases h
    · exact absurd h (by decide)
  refine ⟨((C29_panics renderCw (· == ' ') _).2.2 _).2 (.inr (by decide)), fun hn => ?_⟩
  rcases ((C29_panics renderCw (· == ' ') _).2.2 _).1 hn with h' | h'
  · exact h h'
  · exact absurd h' (by decide)

/-- C29: a `MadView`, with a text given by the parser, can't be displayed exactly when its area has no column, when its text can't be formatted in the width less one,
when a row isn't a `u16`, or when it has a scrollbar which can't be computed; and `write_in_area`, which has no scrollbar, in the other cases only. -/
theorem C29_write_panics (cw : Char → Nat) (ws : Char → Bool) (m : MadView) (hr : Readable m.skin m.mlines) :
    let far := 1 ≤ m.area.height ∧ 65536 < m.area.top + m.area.height
    (m.writeOn cw ws = none ↔ m.area.width = 0 ∨
      ∀ t, FmtText.fromText cw ws m.skin m.mlines (some (m.area.width - 1)) = some t → far ∨ m.area.height < t.lines.length % 65536 ∧
        computeScrollbar (m.scroll % 65536) (t.lines.length % 65536) m.area.height m.area.top = none) ∧
    (m.skin.writeInArea cw ws m.mlines m.area = none ↔ m.area.width = 0 ∨
      ∀ t, FmtText.fromText cw ws m.skin m.mlines (some (m.area.width - 1)) = some t → far) := by
  intro far
  simp only [MadView.writeOn, MadView.view, Skin.writeInArea, Skin.areaText, csub, Option.bind_eq_bind]
  by_cases c : 1 ≤ m.area.width
  · rw [if_pos c, Option.bind_some]
    have c0 : ¬ m.area.width = 0 := by omega
    cases ht : FmtText.fromText cw ws m.skin m.mlines (some (m.area.width - 1)) with
    | none => exact ⟨iff_of_true rfl (.inr fun t h => by cases h), iff_of_true rfl (.inr fun t h => by cases h)⟩
    | some t =>
      have ok : ∀ l ∈ t.lines, ∀ w, ∃ ps, m.skin.writeFmtLine l (some w) true = some ps :=
        fun l hl w => writeFmtLine_total (formatted_ok cw ws m.skin m.mlines _ hr t ht l hl) _ _
      have h1 := C28_panics { area := m.area, lines := t.lines, scroll := m.scroll } m.skin ok
      have h2 := C28_panics { area := m.area, lines := t.lines, showScrollbar := false } m.skin ok
      simp only [Option.bind_some, Option.some.injEq, forall_eq', c0, false_or]
      rw [h1, h2]
      simp only [true_and, c0, false_or, Bool.false_eq_true, false_and, or_false]
      exact ⟨Iff.rfl, Iff.rfl⟩
  · rw [if_neg c]
    exact ⟨iff_of_true rfl (.inl (by omega)), iff_of_true rfl (.inl (by omega))⟩

/-- Concrete case: a readable text, in an area of the largest height under the first row. -/
example : ({ mlines := panicText, area := ⟨0, 2, 20, 65535⟩, skin := {} } : MadView).writeOn renderCw (· == ' ') = none ∧
    ({} : Skin).writeInArea renderCw (· == ' ') panicText ⟨0, 2, 20, 65535⟩ = none :=
  ⟨(C29_write_panics renderCw (· == ' ') { mlines := panicText, area := ⟨0, 2, 20, 65535⟩, skin := {} } panicText_readable).1.2
    (.inr fun t h => .inl ⟨by decide, by decide⟩),
   (C29_write_panics renderCw (· == ' ') { mlines := panicText, area := ⟨0, 2, 20, 65535⟩, skin := {} } panicText_readable).2.2
    (.inr fun t h => ⟨by decide, by decide⟩)⟩

end Verif.Props

import Verif.Model.Area
import Verif.Spec.Area
/-! Properties C18 (area geometry) and C19 (scrollbar). -/
namespace Verif.Props
open Verif Spec

/-! ## C18 -/

/-- C18: `contains` is true exactly for the cells of the area, and does not panic. -/
theorem C18_contains (a : Area) (h : OnScreen a) (x y : Nat) :
    ∃ b, a.contains x y = some b ∧ (b = true ↔ InArea a x y) := by
  obtain ⟨h1, h2⟩ := h
  have key : (a.left ≤ x ∧ x < a.left + a.width ∧ a.top ≤ y ∧ y < a.top + a.height) ↔ InArea a x y := by
    constructor
    · rintro ⟨_, _, _, _⟩
      exact ⟨x - a.left, y - a.top, by omega, by omega, by omega, by omega⟩
    · rintro ⟨i, j, _, _, rfl, rfl⟩
      omega
  rw [← key]
  unfold Area.contains u16Add u16Size
  by_cases c1 : a.left ≤ x
  · by_cases c2 : x < a.left + a.width
    · by_cases c3 : a.top ≤ y
      · exact ⟨decide (y < a.top + a.height), by simp [h1, h2, c1, c2, c3]⟩
      · exact ⟨false, by simp [h1, c1, c2, c3]⟩
    · exact ⟨false, by simp [h1, c1, c2]⟩
  · exact ⟨false, by simp [c1]⟩

example : OnScreen ⟨3, 4, 10, 20⟩ ∧ InArea ⟨3, 4, 10, 20⟩ 12 23 ∧ ¬ InArea ⟨3, 4, 10, 20⟩ 13 5 :=
  ⟨by simp [OnScreen], ⟨9, 19, by decide⟩, by rintro ⟨i, j, h, _, h', _⟩; simp at h h'; omega⟩

/-- C18: out of the screen bounds, `contains` panics (debug build) instead of answering. -/
theorem C18_contains_counterexample : (Area.mk 65530 0 10 1).contains 65532 0 = none := by decide

/-- C18: for any area, `contains` panics exactly when the cell isn't before the left of the area and the right of the area isn't a `u16`, or the cell is in
the columns of the area, not above it, and its bottom isn't a `u16`; and when it answers, the answer is right. -/
theorem C18_contains_panics (a : Area) (x y : Nat) :
    (a.contains x y = none ↔ a.left ≤ x ∧ (65536 ≤ a.left + a.width ∨ x < a.left + a.width ∧ a.top ≤ y ∧ 65536 ≤ a.top + a.height)) ∧
    ∀ b, a.contains x y = some b → (b = true ↔ InArea a x y) := by
  have hin : InArea a x y ↔ a.left ≤ x ∧ x < a.left + a.width ∧ a.top ≤ y ∧ y < a.top + a.height := by
    constructor
    · rintro ⟨i, j, hi, hj, rfl, rfl⟩; omega
    · rintro ⟨h1, h2, h3, h4⟩; exact ⟨x - a.left, y - a.top, by omega, by omega, by omega, by omega⟩
  rw [hin]
  unfold Area.contains u16Add u16Size
  by_cases c1 : a.left ≤ x <;> by_cases c2 : a.left + a.width < 65536 <;> by_cases c3 : x < a.left + a.width <;> by_cases c4 : a.top ≤ y <;>
    by_cases c5 : a.top + a.height < 65536 <;> simp [c1, c2, c3, c4, c5] <;> omega

/-- C18: with a bottom which isn't a `u16`, only the test of the cells above or beside the area works. -/
example : let a := Area.mk 10 65530 10 10
    a.contains 12 65531 = none ∧ a.contains 12 3 = some false ∧ a.contains 20 65531 = some false := by decide

/-- C18: `pad` panics exactly when the padding is too big (or the padded origin overflows), and otherwise gives the
area made of the cells at distance at least `dx`, `dy` of the sides. -/
theorem C18_pad (a : Area) (ha : a.WF) (dx dy : Nat) :
    (a.pad dx dy = none ↔
      ¬ (2 * dx ≤ a.width ∧ 2 * dy ≤ a.height ∧ a.left + dx < 65536 ∧ a.top + dy < 65536)) ∧
    ∀ a', a.pad dx dy = some a' → ∀ x y, InArea a' x y ↔
      (a.left + dx ≤ x ∧ x + dx < a.left + a.width ∧ a.top + dy ≤ y ∧ y + dy < a.top + a.height) := by
  obtain ⟨w1, w2, w3, w4⟩ := ha
  simp only [u16Size] at w1 w2 w3 w4
  have hpad : a.pad dx dy =
      if (2 * dx ≤ a.width ∧ 2 * dy ≤ a.height ∧ a.left + dx < 65536 ∧ a.top + dy < 65536)
      then some ⟨a.left + dx, a.top + dy, a.width - 2 * dx, a.height - 2 * dy⟩ else none := by
    simp only [Area.pad, u16Add, u16Mul, csub, u16Size]
    by_cases h1 : a.left + dx < 65536 <;> by_cases h2 : a.top + dy < 65536 <;>
      by_cases h3 : 2 * dx ≤ a.width <;> by_cases h4 : 2 * dy ≤ a.height <;>
      by_cases h5 : 2 * dx < 65536 <;> by_cases h6 : 2 * dy < 65536 <;>
      first
        | omega
        | simp [h1, h2, h3, h4, h5, h6]
  rw [hpad]
  constructor
  · split <;> simp_all
  · intro a' h x y
    split at h
    · rename_i hc
      cases h
      constructor
      · rintro ⟨i, j, hi, hj, rfl, rfl⟩; simp at *; omega
      · intro hx
        exact ⟨x - (a.left + dx), y - (a.top + dy), by simp; omega, by simp; omega, by simp; omega,
          by simp; omega⟩
    · cases h

example : (Area.mk 1 1 20 10).pad 2 3 = some ⟨3, 4, 16, 4⟩ ∧ (Area.mk 1 1 20 10).pad 2 6 = none := by decide

/-- C18: `pad_for_max_width` never panics, leaves a narrow enough area unchanged, and otherwise gives a sub-area with
the same rows, exactly `max_width` columns, with as many columns removed on the left as on the right (up to one). -/
theorem C18_padForMaxWidth (a : Area) (h : OnScreen a) (m : Nat) :
    ∃ a', a.padForMaxWidth m = some a' ∧
      (a.width ≤ m → a' = a) ∧
      (m < a.width → a'.width = m ∧ a'.top = a.top ∧ a'.height = a.height ∧
        ∃ l r, a'.left = a.left + l ∧ a.left + a.width = a'.left + a'.width + r ∧ l ≤ r ∧ r ≤ l + 1) ∧
      (∀ x y, InArea a' x y → InArea a x y) := by
  obtain ⟨h1, h2⟩ := h
  by_cases hm : a.width ≤ m
  · refine ⟨a, by simp [Area.padForMaxWidth, hm], fun _ => rfl, fun h => by omega, fun _ _ h => h⟩
  · refine ⟨{ a with left := a.left + (a.width - m) / 2, width := m }, ?_, fun h => absurd h hm, ?_, ?_⟩
    · have e1 : m ≤ a.width := by omega
      have e2 : a.left + (a.width - m) / 2 < 65536 := by omega
      have e3 : a.width - (a.width - m) = m := by omega
      simp [Area.padForMaxWidth, hm, csub, u16Add, u16Size, e1, e2, e3]
    · intro _
      refine ⟨rfl, rfl, rfl, (a.width - m) / 2, a.width - m - (a.width - m) / 2, rfl, ?_, ?_, ?_⟩
      · dsimp only; omega
      · omega
      · omega
    · rintro x y ⟨i, j, hi, hj, rfl, rfl⟩
      exact ⟨(a.width - m) / 2 + i, j, by simp at hi; omega, hj, by simp; omega, rfl⟩

example : (Area.mk 1 1 21 10).padForMaxWidth 16 = some ⟨3, 1, 16, 10⟩ := by decide

/-- C18: `right` and `bottom` are the first coordinates after the area. -/
theorem C18_right_bottom (a : Area) (h : OnScreen a) :
    ∃ r b, a.right = some r ∧ a.bottom = some b ∧ a.left ≤ r ∧ a.top ≤ b ∧
      ∀ x y, InArea a x y ↔ a.left ≤ x ∧ x < r ∧ a.top ≤ y ∧ y < b := by
  obtain ⟨h1, h2⟩ := h
  refine ⟨a.left + a.width, a.top + a.height, by simp [Area.right, u16Add, u16Size, h1],
    by simp [Area.bottom, u16Add, u16Size, h2], by omega, by omega, fun x y => ⟨?_, fun h => ?_⟩⟩
  · rintro ⟨i, j, hi, hj, rfl, rfl⟩
    omega
  · exact ⟨x - a.left, y - a.top, by omega, by omega, by omega, by omega⟩

/-! ## C19 -/

/-- The value of the scrollbar without the `u16` conversions. -/
private theorem scrollbar_eq (scroll content avail top : Nat) (h : avail < content) :
    computeScrollbar scroll content avail top =
      let tb := if scroll * avail / content = 0 ∧ scroll > 0 then 1 else scroll * avail / content
      let t := top + tb
      let b0 := t + avail * avail / content
      let b := if scroll + avail < content ∧ avail > 3 then max (min b0 (top + avail - 2)) t else b0
      if t < 65536 ∧ b < 65536 then some (some (t, b)) else none := by
  have h' : ¬ content ≤ avail := by omega
  simp only [computeScrollbar, h', if_false, toU16, u16Size, csub]
  generalize (if scroll * avail / content = 0 ∧ scroll > 0 then 1 else scroll * avail / content) = tb
  by_cases hc : scroll + avail < content ∧ avail > 3
  · have h2 : 2 ≤ top + avail := by omega
    simp only [hc, and_self, if_true, h2]
    by_cases g1 : top + tb < 65536 <;>
      by_cases g2 : max (min (top + tb + avail * avail / content) (top + avail - 2)) (top + tb) < 65536 <;>
      simp [g1, g2]
  · simp only [hc, if_false]
    by_cases g1 : top + tb < 65536 <;> by_cases g2 : top + tb + avail * avail / content < 65536 <;>
      simp [g1, g2]

/-- Thumb and track before it never take more than the available height, for a valid scroll. -/
private theorem track_bound (s c a : Nat) (h : a < c) (hs : s + a ≤ c) (ha : 1 ≤ a) :
    (if s * a / c = 0 ∧ s > 0 then 1 else s * a / c) + a * a / c ≤ a := by
  have hc : 0 < c := by omega
  have e1 : s * a + a * a ≤ c * a := by rw [← Nat.add_mul]; exact Nat.mul_le_mul_right a hs
  have d1 : s * a / c * c ≤ s * a := Nat.div_mul_le_self ..
  have d2 : a * a / c * c ≤ a * a := Nat.div_mul_le_self ..
  split
  · have d3 : a * a < a * c := Nat.mul_lt_mul_of_pos_left h ha
    have : a * a / c < a := Nat.div_lt_of_lt_mul (by rw [Nat.mul_comm c a]; exact d3)
    omega
  · have : (s * a / c + a * a / c) * c ≤ a * c := by
      rw [Nat.add_mul, Nat.mul_comm a c]; omega
    exact Nat.le_of_mul_le_mul_right this hc

private theorem track_lt (s c a : Nat) (_h : a < c) (hs : s + a ≤ c) (ha : 2 ≤ a) :
    (if s * a / c = 0 ∧ s > 0 then 1 else s * a / c) < a := by
  split
  · omega
  · apply Nat.div_lt_of_lt_mul
    rw [Nat.mul_comm c a, Nat.mul_comm s a]
    exact Nat.mul_lt_mul_of_pos_left (by omega) (by omega)

private theorem track_mono (s s' c a : Nat) (_h : a < c) (hs : s ≤ s') :
    (if s * a / c = 0 ∧ s > 0 then 1 else s * a / c) ≤
    (if s' * a / c = 0 ∧ s' > 0 then 1 else s' * a / c) := by
  have : s * a / c ≤ s' * a / c := Nat.div_le_div_right (Nat.mul_le_mul_right a hs)
  split <;> split <;> omega

/-- C19: there is no scrollbar exactly when the content fits (whatever the other arguments). -/
theorem C19_none_iff (scroll content avail top : Nat) :
    computeScrollbar scroll content avail top = some none ↔ content ≤ avail := by
  by_cases h : content ≤ avail
  · simp [computeScrollbar, h]
  · rw [scrollbar_eq _ _ _ _ (by omega)]
    simp only [h, iff_false]
    split <;> split <;> simp

/-- C19: for a valid scroll of a content bigger than the area, the computation does not panic and the thumb
`(t, b)`: starts in the area; is at the first row exactly if the scroll is zero; ends at most one row after the
area; doesn't reach the last row before the end of the content unless it starts there (areas of more than 3 rows);
covers the last row when the scroll is maximal. -/
theorem C19_scrollbar (scroll content avail top : Nat) (hc : avail < content) (hs : scroll + avail ≤ content)
    (ha : 2 ≤ avail) (ht : top + avail < 65536) :
    ∃ t b, computeScrollbar scroll content avail top = some (some (t, b)) ∧
      top ≤ t ∧ t < top + avail ∧ t ≤ b ∧ b ≤ top + avail ∧
      (t = top ↔ scroll = 0) ∧
      (3 < avail → scroll + avail < content → t < top + avail - 1 → b < top + avail - 1) ∧
      (scroll + avail = content → top + avail - 1 ≤ b) := by
  rw [scrollbar_eq _ _ _ _ hc]
  have hb := track_bound scroll content avail hc hs (by omega)
  have hl := track_lt scroll content avail hc hs ha
  have hz : (if scroll * avail / content = 0 ∧ scroll > 0 then 1 else scroll * avail / content) = 0 ↔ scroll = 0 := by
    constructor
    · intro h; split at h <;> omega
    · rintro rfl; simp
  have hend : scroll + avail = content →
      avail - 1 ≤ (if scroll * avail / content = 0 ∧ scroll > 0 then 1 else scroll * avail / content)
        + avail * avail / content := by
    intro he
    have hge : scroll * avail / content ≤
        (if scroll * avail / content = 0 ∧ scroll > 0 then 1 else scroll * avail / content) := by
      split <;> omega
    have e1 : scroll * avail + avail * avail = content * avail := by rw [← Nat.add_mul, he]
    have d1 := Nat.div_add_mod (scroll * avail) content
    have d2 := Nat.div_add_mod (avail * avail) content
    have m1 := Nat.mod_lt (scroll * avail) (show content > 0 by omega)
    have m2 := Nat.mod_lt (avail * avail) (show content > 0 by omega)
    have : content * avail < content * (scroll * avail / content + avail * avail / content + 2) := by
      rw [Nat.mul_add, Nat.mul_add]; omega
    have := Nat.lt_of_mul_lt_mul_left this
    omega
  generalize (if scroll * avail / content = 0 ∧ scroll > 0 then 1 else scroll * avail / content) = tb at *
  generalize avail * avail / content = th at *
  dsimp only
  by_cases hcase : scroll + avail < content ∧ avail > 3
  · have g : top + tb < 65536 ∧ max (min (top + tb + th) (top + avail - 2)) (top + tb) < 65536 := by omega
    simp only [hcase, and_self, if_true]
    rw [if_pos g]
    exact ⟨_, _, rfl, by omega, by omega, by omega, by omega, by omega, by omega, by omega⟩
  · have g : top + tb < 65536 ∧ top + tb + th < 65536 := by omega
    simp only [hcase, if_false]
    rw [if_pos g]
    exact ⟨_, _, rfl, by omega, by omega, by omega, by omega, by omega, by omega, by omega⟩

/-- C19: the place of the thumb `(t, b)` is proportional to the scroll, and its extent to the part of the content which is visible: `t - top` is
the integer part of `scroll * avail / content` (but 1 when this is 0 and the content is scrolled), and `b - t` is the integer part of
`avail * avail / content`, unless the end of the content isn't visible in an area of more than 3 rows: the thumb then stops at most just before
the last row (without being shorter than its first row). -/
theorem C19_thumb (scroll content avail top t b : Nat) (hc : avail < content) (h : computeScrollbar scroll content avail top = some (some (t, b))) :
    ∃ p n, p * content ≤ scroll * avail ∧ scroll * avail < (p + 1) * content ∧ n * content ≤ avail * avail ∧ avail * avail < (n + 1) * content ∧
      t = top + (if p = 0 ∧ 0 < scroll then 1 else p) ∧
      b = (if scroll + avail < content ∧ 3 < avail then max t (min (t + n) (top + avail - 2)) else t + n) := by
  rw [scrollbar_eq _ _ _ _ hc] at h
  refine ⟨scroll * avail / content, avail * avail / content, Nat.div_mul_le_self _ _, ?_, Nat.div_mul_le_self _ _, ?_, ?_⟩
  · rw [Nat.mul_comm (_ + 1)]; exact Nat.lt_mul_div_succ _ (show 0 < content by omega)
  · rw [Nat.mul_comm (_ + 1)]; exact Nat.lt_mul_div_succ _ (show 0 < content by omega)
  generalize scroll * avail / content = p at *
  generalize avail * avail / content = n at *
  dsimp only at h
  generalize (if p = 0 ∧ scroll > 0 then 1 else p) = tb at *
  by_cases hcase : scroll + avail < content ∧ avail > 3
  · simp only [hcase, and_self, if_true] at h ⊢
    split at h
    · simp only [Option.some.injEq, Prod.mk.injEq] at h
      refine ⟨h.1.symm, ?_⟩
      omega
    · cases h
  · simp only [hcase, if_false] at h
    rw [if_neg hcase]
    split at h
    · simp only [Option.some.injEq, Prod.mk.injEq] at h
      refine ⟨h.1.symm, ?_⟩
      omega
    · cases h

/-- Rows 5 to 24 show lines 100 to 119 of 400: the thumb is at row 10, on one row more. -/
example : computeScrollbar 100 400 20 5 = some (some (10, 11)) := by decide

/-- C19: the scrollbar of an area with a row never panics, for a valid scroll. -/
theorem C19_no_panic (scroll content avail top : Nat) (hc : avail < content) (hs : scroll + avail ≤ content)
    (ha : 1 ≤ avail) (ht : top + avail < 65536) : ∃ t b, computeScrollbar scroll content avail top = some (some (t, b)) := by
  rw [scrollbar_eq _ _ _ _ hc]
  have hb := track_bound scroll content avail hc hs ha
  generalize (if scroll * avail / content = 0 ∧ scroll > 0 then 1 else scroll * avail / content) = tb at *
  generalize avail * avail / content = th at *
  dsimp only
  split
  · rw [if_pos (by omega)]; exact ⟨_, _, rfl⟩
  · rw [if_pos (by omega)]; exact ⟨_, _, rfl⟩

/-- C19: for any scroll, the thumb doesn't start above the area and isn't empty. -/
theorem C19_top (scroll content avail top t b : Nat) (h : computeScrollbar scroll content avail top = some (some (t, b))) : top ≤ t ∧ t ≤ b := by
  have hc : avail < content := by
    rcases Nat.lt_or_ge avail content with h' | h'
    · exact h'
    · rw [(C19_none_iff scroll content avail top).2 h'] at h; simp at h
  rw [scrollbar_eq _ _ _ _ hc] at h
  generalize (if scroll * avail / content = 0 ∧ scroll > 0 then 1 else scroll * avail / content) = tb at *
  generalize avail * avail / content = th at *
  dsimp only at h
  split at h <;> split at h <;> simp at h <;> omega

/-- C19: there's no panic either for scrolls past the end of the content, if the coordinates are small enough. -/
theorem C19_total (scroll content avail top : Nat) (ht : top + scroll + avail < 65536) : ∃ r, computeScrollbar scroll content avail top = some r := by
  by_cases hc : content ≤ avail
  · exact ⟨none, (C19_none_iff scroll content avail top).2 hc⟩
  rw [scrollbar_eq _ _ _ _ (by omega)]
  have h1 : scroll * avail / content ≤ scroll := Nat.div_le_of_le_mul (by rw [Nat.mul_comm content]; exact Nat.mul_le_mul_left _ (by omega))
  have h2 : avail * avail / content ≤ avail := Nat.div_le_of_le_mul (by rw [Nat.mul_comm content]; exact Nat.mul_le_mul_left _ (by omega))
  have h3 : (if scroll * avail / content = 0 ∧ scroll > 0 then 1 else scroll * avail / content) ≤ scroll := by split <;> omega
  generalize (if scroll * avail / content = 0 ∧ scroll > 0 then 1 else scroll * avail / content) = tb at *
  generalize avail * avail / content = th at *
  dsimp only
  split
  · rw [if_pos (by omega)]; exact ⟨_, rfl⟩
  · rw [if_pos (by omega)]; exact ⟨_, rfl⟩

example : computeScrollbar 70 40 10 5 = some (some (22, 24)) := by decide

/-- C19: the exact cases of panic: the content doesn't fit and the end of the thumb isn't a `u16`. -/
theorem C19_panics (scroll content avail top : Nat) : computeScrollbar scroll content avail top = none ↔
    avail < content ∧ ∃ p n t, p * content ≤ scroll * avail ∧ scroll * avail < (p + 1) * content ∧ n * content ≤ avail * avail ∧
      avail * avail < (n + 1) * content ∧ t = top + (if p = 0 ∧ 0 < scroll then 1 else p) ∧
      65536 ≤ (if scroll + avail < content ∧ 3 < avail then max t (min (t + n) (top + avail - 2)) else t + n) := by
  by_cases hc : content ≤ avail
  · rw [(C19_none_iff scroll content avail top).2 hc]
    constructor
    · intro h; cases h
    · intro h; omega
  have hc : avail < content := by omega
  rw [scrollbar_eq _ _ _ _ hc]
  have uniq : ∀ {x q : Nat}, q * content ≤ x → x < (q + 1) * content → q = x / content := by
    intro x q h1 h2
    exact (Nat.div_eq_of_lt_le h1 h2).symm
  constructor
  · intro h
    refine ⟨hc, scroll * avail / content, avail * avail / content, _, Nat.div_mul_le_self _ _, ?_, Nat.div_mul_le_self _ _, ?_, rfl, ?_⟩
    · rw [Nat.mul_comm (_ + 1)]; exact Nat.lt_mul_div_succ _ (show 0 < content by omega)
    · rw [Nat.mul_comm (_ + 1)]; exact Nat.lt_mul_div_succ _ (show 0 < content by omega)
    generalize scroll * avail / content = p at *
    generalize avail * avail / content = n at *
    dsimp only at h
    grind
  · rintro ⟨_, p, n, t, h1, h2, h3, h4, ht, h⟩
    have e1 := uniq h1 h2
    have e2 := uniq h3 h4
    rw [← e1, ← e2]
    clear h1 h2 h3 h4 e1 e2 uniq
    dsimp only
    grind

/-- C19: a thumb of 19 rows starting at the row 65520 of the terminal: the content is scrolled past its end. -/
example : computeScrollbar 21 21 20 65510 = none ∧ computeScrollbar 1 21 20 65510 = some (some (65511, 65530)) := by decide

/-- C19: scrolling down never moves the thumb up. -/
theorem C19_monotone (s s' content avail top t b t' b' : Nat) (hc : avail < content) (hs : s ≤ s')
    (h1 : computeScrollbar s content avail top = some (some (t, b)))
    (h2 : computeScrollbar s' content avail top = some (some (t', b'))) :
    t ≤ t' ∧ b ≤ b' := by
  rw [scrollbar_eq _ _ _ _ hc] at h1 h2
  have hm := track_mono s s' content avail hc hs
  generalize (if s * avail / content = 0 ∧ s > 0 then 1 else s * avail / content) = x at *
  generalize (if s' * avail / content = 0 ∧ s' > 0 then 1 else s' * avail / content) = x' at *
  generalize avail * avail / content = th at *
  dsimp only at h1 h2
  split at h1 <;> split at h2 <;> simp at h1 h2 <;> omega

example : computeScrollbar 7 40 10 5 = some (some (6, 8)) := by decide
example : computeScrollbar 0 40 10 5 = some (some (5, 7)) := by decide

/-- The documentation says that both bounds of the thumb are inclusive rows, but the lower one can be the row just
after the area (here rows are 0 to 9). -/
theorem C19_bottom_counterexample : computeScrollbar 10 20 10 0 = some (some (5, 10)) := by decide

/-- With a height of 1, the thumb of a scrolled content is out of the area. -/
theorem C19_height_one_counterexample : computeScrollbar 1 3 1 0 = some (some (1, 1)) := by decide

/-- In an area of more than 3 rows the thumb may touch the last row while the content can still be scrolled. -/
theorem C19_last_row_counterexample : computeScrollbar 995 1000 4 0 = some (some (3, 3)) := by decide

end Verif.Props

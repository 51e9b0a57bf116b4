import Verif.Spec.Progress
/-! C44: progress bars. -/
namespace Verif
open Spec

theorem ratTrunc_nonneg {x : Rat} (h : 0 ≤ x) : ratTrunc x = x.floor := by
  unfold ratTrunc; rw [if_neg (Rat.not_lt.mpr h)]

/-- A fractional part is less than 1, in absolute value. -/
theorem ratFract_bounds (x : Rat) : -1 < ratFract x ∧ ratFract x < 1 := by
  unfold ratFract ratTrunc
  by_cases h : x < 0
  · rw [if_pos h]
    have h1 := Rat.floor_le (-x)
    have h2 := Rat.lt_floor_add_one (-x)
    push_cast at *
    constructor <;> grind
  · rw [if_neg h]
    have h1 := Rat.floor_le x
    have h2 := Rat.lt_floor_add_one x
    push_cast at *
    constructor <;> grind

theorem ratRound_le (x : Rat) (h : x < 8) : ratRound x ≤ 8 := by
  unfold ratRound
  by_cases hx : x < 0
  · rw [if_pos hx]
    have : 0 ≤ (-x + 1/2).floor := Rat.le_floor_iff.mpr (by grind)
    omega
  · rw [if_neg hx]
    have : (x + 1/2).floor < 9 := Rat.floor_lt_iff.mpr (by grind)
    omega

theorem ratRound_nonneg (x : Rat) (h : 0 ≤ x) : ratRound x = (x + 1/2).floor ∧ 0 ≤ ratRound x := by
  unfold ratRound
  rw [if_neg (Rat.not_lt.mpr h)]
  exact ⟨rfl, Rat.le_floor_iff.mpr (by grind)⟩

theorem remain_le (x : Rat) : intToUsize (ratRound (ratFract x * 8)) ≤ 8 := by
  have h := ratRound_le (ratFract x * 8) (by have := (ratFract_bounds x).2; grind)
  unfold intToUsize
  omega

theorem progressChars_eighths (n : Nat) (h : 0 < n) (h' : n ≤ 8) : ∃ c, progressChars[n - 1]? = some c ∧ charEighths c = n := by
  have : n = 1 ∨ n = 2 ∨ n = 3 ∨ n = 4 ∨ n = 5 ∨ n = 6 ∨ n = 7 ∨ n = 8 := by omega
  rcases this with h | h | h | h | h | h | h | h <;> subst h
  · exact ⟨'▏', by decide⟩
  · exact ⟨'▎', by decide⟩
  · exact ⟨'▍', by decide⟩
  · exact ⟨'▌', by decide⟩
  · exact ⟨'▋', by decide⟩
  · exact ⟨'▊', by decide⟩
  · exact ⟨'▉', by decide⟩
  · exact ⟨'█', by decide⟩

theorem eighths_full (n : Nat) : eighths (List.replicate n '█') = 8 * n := by
  induction n with
  | zero => rfl
  | succ n ih =>
    simp only [eighths, List.replicate_succ, List.map_cons, List.sum_cons] at ih ⊢
    rw [ih]
    have : charEighths '█' = 8 := by decide
    omega

theorem eighths_append (a b : Text) : eighths (a ++ b) = eighths a + eighths b := by simp [eighths]

/-- The form of the bar. -/
theorem ProgressBar.render_form (rnd : Rat → Rat) (p : ProgressBar) :
    ∃ last, p.render rnd = some (List.replicate (intToUsize (ratTrunc (p.mp rnd))) '█' ++ last) ∧
      eighths last = intToUsize (ratRound (ratFract (p.mp rnd) * 8)) ∧ eighths last ≤ 8 ∧
      (eighths last = 0 ∧ last = [] ∨ 0 < eighths last ∧ last.length = 1) := by
  unfold render
  simp only
  have hr := remain_le (p.mp rnd)
  generalize intToUsize (ratRound (ratFract (p.mp rnd) * 8)) = remain at hr
  by_cases h : remain > 0
  · obtain ⟨c, e1, e2⟩ := progressChars_eighths remain h hr
    refine ⟨[c], by simp [h, e1], ?_⟩
    have : eighths [c] = remain := by simp [eighths, e2]
    rw [this]
    exact ⟨rfl, hr, Or.inr ⟨h, rfl⟩⟩
  · have h0 : remain = 0 := by omega
    subst h0
    exact ⟨[], by simp, rfl, by simp [eighths], Or.inl ⟨rfl, rfl⟩⟩

/-- The number of eighths of a number of cells. -/
theorem eighths_split (x : Rat) (h : 0 ≤ x) : (x * 8 + 1/2).floor = 8 * ratTrunc x + ratRound (ratFract x * 8) := by
  have hf : 0 ≤ ratFract x := by
    unfold ratFract; rw [ratTrunc_nonneg h]; have := Rat.floor_le x; grind
  rw [(ratRound_nonneg _ (by grind)).1]
  have : x * 8 + 1/2 = (ratFract x * 8 + 1/2) + ((8 * ratTrunc x : Int) : Rat) := by
    unfold ratFract; push_cast; grind
  rw [this, Rat.floor_add_intCast]
  omega

/-- What the rounding does of a part of a length. -/
theorem ProgressBar.mp_bounds {rnd : Rat → Rat} (hr : F32Rounding rnd) (p : ProgressBar) (hlen : p.charsLen ≤ 2 ^ 24)
    (h0 : 0 ≤ p.part) (h1 : p.part ≤ 1) : 0 ≤ p.mp rnd ∧ p.mp rnd ≤ p.charsLen := by
  unfold mp
  rw [hr.exact _ hlen]
  have hl : (0 : Rat) ≤ (p.charsLen : Rat) := by exact_mod_cast Nat.zero_le _
  have hz : rnd 0 = 0 := by have := hr.exact 0 (by decide); simpa using this
  refine ⟨?_, ?_⟩
  · rw [← hz]; exact hr.mono _ _ (Rat.mul_nonneg hl h0)
  · rw [← hr.exact _ hlen]
    have : (p.charsLen : Rat) * p.part ≤ p.charsLen := by
      have := Rat.mul_le_mul_of_nonneg_left h1 hl
      rwa [Rat.mul_one] at this
    rw [hr.exact _ hlen]
    have h := hr.mono _ _ this
    rwa [hr.exact _ hlen] at h

/-- The length in eighths of the bar. -/
theorem ProgressBar.render_eighths {rnd : Rat → Rat} (hr : F32Rounding rnd) (p : ProgressBar) (hlen : p.charsLen ≤ 2 ^ 24)
    (h0 : 0 ≤ p.part) (h1 : p.part ≤ 1) : ∃ last, p.render rnd = some (List.replicate (p.mp rnd).floor.toNat '█' ++ last) ∧
      ((8 * (p.mp rnd).floor.toNat + eighths last : Nat) : Int) = (p.mp rnd * 8 + 1/2).floor ∧
      (p.mp rnd).floor.toNat ≤ p.charsLen ∧ (eighths last = 0 ∧ last = [] ∨ 0 < eighths last ∧ last.length = 1) := by
  obtain ⟨b0, b1⟩ := mp_bounds hr p hlen h0 h1
  obtain ⟨last, e1, e2, e3, e4⟩ := render_form rnd p
  have hs := eighths_split _ b0
  have hf : 0 ≤ (p.mp rnd).floor := Rat.le_floor_iff.mpr (by simpa using b0)
  have hl : (p.mp rnd).floor ≤ p.charsLen := by
    have := Rat.floor_monotone b1
    have h' : ((p.charsLen : Int) : Rat).floor = p.charsLen := Rat.floor_intCast _
    have h'' : ((p.charsLen : Int) : Rat) = (p.charsLen : Rat) := by norm_cast
    rw [h''] at h'; omega
  rw [ratTrunc_nonneg b0] at e1 hs
  have hu : intToUsize (p.mp rnd).floor = (p.mp rnd).floor.toNat := by unfold intToUsize usizeMax; omega
  rw [hu] at e1
  refine ⟨last, e1, ?_, by omega, e4⟩
  have hfr : 0 ≤ ratFract (p.mp rnd) := by
    unfold ratFract; rw [ratTrunc_nonneg b0]; have := Rat.floor_le (p.mp rnd); grind
  have hn := (ratRound_nonneg (ratFract (p.mp rnd) * 8) (by grind)).2
  have hle := ratRound_le (ratFract (p.mp rnd) * 8) (by have := (ratFract_bounds (p.mp rnd)).2; grind)
  unfold intToUsize usizeMax at e2
  rw [hs, e2]
  omega

namespace Props

/-- Displaying a bar never fails, whatever the part (even out of `[0,1]`), the length and the rounding, and gives full cells and maybe a
last one which is not empty. -/
theorem C44_never_fails (rnd : Rat → Rat) (p : ProgressBar) :
    ∃ n last, p.render rnd = some (List.replicate n '█' ++ last) ∧ (last = [] ∨ ∃ c, last = [c] ∧ 1 ≤ charEighths c) := by
  obtain ⟨last, e1, _, _, e4⟩ := p.render_form rnd
  refine ⟨_, last, e1, ?_⟩
  rcases e4 with ⟨_, h⟩ | ⟨h1, h2⟩
  · exact Or.inl h
  · match last, h2 with
    | [c], _ => exact Or.inr ⟨c, rfl, by rw [show eighths [c] = charEighths c by simp [eighths]] at h1; omega⟩

/-- A bar has at most the given number of characters. -/
theorem C44_length {rnd : Rat → Rat} (hr : F32Rounding rnd) (p : ProgressBar) (hlen : p.charsLen ≤ 2 ^ 24) (h0 : 0 ≤ p.part) (h1 : p.part ≤ 1) :
    ∃ s, p.render rnd = some s ∧ s.length ≤ p.charsLen := by
  obtain ⟨b0, b1⟩ := p.mp_bounds hr hlen h0 h1
  obtain ⟨last, e1, e2, e3, e4⟩ := p.render_eighths hr hlen h0 h1
  refine ⟨_, e1, ?_⟩
  have hle : (p.mp rnd * 8 + 1/2).floor < 8 * p.charsLen + 1 := by
    apply Rat.floor_lt_iff.mpr; push_cast; grind
  simp only [List.length_append, List.length_replicate]
  rcases e4 with ⟨_, h⟩ | ⟨h, h'⟩
  · rw [h, List.length_nil]; omega
  · omega

/-- The bar has the number of eighths of cell which is the nearest of the asked one. -/
theorem C44_precision {rnd : Rat → Rat} (hr : F32Rounding rnd) (p : ProgressBar) (hlen : p.charsLen ≤ 2 ^ 24) (h0 : 0 ≤ p.part) (h1 : p.part ≤ 1) :
    ∃ s, p.render rnd = some s ∧
      (eighths s : Rat) - 1/2 ≤ rnd (p.charsLen * p.part) * 8 ∧ rnd (p.charsLen * p.part) * 8 < (eighths s : Rat) + 1/2 := by
  obtain ⟨last, e1, e2, e3, e4⟩ := p.render_eighths hr hlen h0 h1
  refine ⟨_, e1, ?_⟩
  rw [eighths_append, eighths_full]
  have hm : p.mp rnd = rnd (p.charsLen * p.part) := by unfold ProgressBar.mp; rw [hr.exact _ hlen]
  rw [← hm]
  have f1 := Rat.floor_le (p.mp rnd * 8 + 1/2)
  have f2 := Rat.lt_floor_add_one (p.mp rnd * 8 + 1/2)
  rw [← e2] at f1 f2
  generalize 8 * (p.mp rnd).floor.toNat + eighths last = n at f1 f2 ⊢
  push_cast at f1 f2
  constructor <;> grind

/-- Displayed in a format with a width at least the length of the bar, it takes exactly this width: the bar is on the left unless another
alignment is asked, the rest is the filling character. -/
theorem C44_padded {rnd : Rat → Rat} (hr : F32Rounding rnd) (p : ProgressBar) (hlen : p.charsLen ≤ 2 ^ 24) (h0 : 0 ≤ p.part) (h1 : p.part ≤ 1)
    (fill : Char) (align : Alignment) (width : Nat) (hw : p.charsLen ≤ width) :
    ∃ s t a b, p.render rnd = some s ∧ p.display rnd { fill, align, width := some width } = some t ∧ t.length = width ∧
      t = List.replicate a fill ++ s ++ List.replicate b fill ∧
      (align = .left ∨ align = .unspecified → a = 0) ∧ (align = .right → b = 0) ∧ (align = .center → a ≤ b ∧ b ≤ a + 1) := by
  obtain ⟨s, e, hl⟩ := C44_length hr p hlen h0 h1
  suffices h : ∃ a b, (({ fill, align, width := some width } : ProgressBar.FormatSpec).pad s).length = width ∧
      ({ fill, align, width := some width } : ProgressBar.FormatSpec).pad s = List.replicate a fill ++ s ++ List.replicate b fill ∧
      (align = .left ∨ align = .unspecified → a = 0) ∧ (align = .right → b = 0) ∧ (align = .center → a ≤ b ∧ b ≤ a + 1) by
    obtain ⟨a, b, h⟩ := h
    exact ⟨s, _, a, b, e, by unfold ProgressBar.display; rw [e]; rfl, h⟩
  unfold ProgressBar.FormatSpec.pad
  cases align with
  | unspecified =>
    refine ⟨0, width - s.length, ?_, by simp, by simp, by simp, by simp⟩
    simp; omega
  | left =>
    refine ⟨0, width - s.length, ?_, by simp, by simp, by simp, by simp⟩
    simp; omega
  | center =>
    refine ⟨(width - s.length) / 2, width - s.length - (width - s.length) / 2, ?_, by simp, by simp, by simp, ?_⟩
    · simp; omega
    · intro _; omega
  | right =>
    refine ⟨width - s.length, 0, ?_, by simp, by simp, by simp, by simp⟩
    simp; omega

example : (ProgressBar.mk (1/2) 5).display id { width := some 8 } = some "██▌     ".toList ∧
    (ProgressBar.mk (1/2) 5).display id { fill := '.', align := .right, width := some 5 } = some "..██▌".toList := by decide +kernel

/-- A greater part never gives a shorter bar. -/
theorem C44_monotone {rnd : Rat → Rat} (hr : F32Rounding rnd) (len : Nat) (hlen : len ≤ 2 ^ 24) (a b : Rat) (h0 : 0 ≤ a) (hab : a ≤ b) (h1 : b ≤ 1) :
    ∃ s t, (ProgressBar.mk a len).render rnd = some s ∧ (ProgressBar.mk b len).render rnd = some t ∧
      eighths s ≤ eighths t ∧ s.length ≤ t.length := by
  obtain ⟨la, a1, a2, a3, a4⟩ := (ProgressBar.mk a len).render_eighths hr hlen h0 (Rat.le_trans hab h1)
  obtain ⟨lb, b1, b2, b3, b4⟩ := (ProgressBar.mk b len).render_eighths hr hlen (Rat.le_trans h0 hab) h1
  have hmp : (ProgressBar.mk a len).mp rnd ≤ (ProgressBar.mk b len).mp rnd := by
    unfold ProgressBar.mp
    simp only [hr.exact _ hlen]
    apply hr.mono
    exact Rat.mul_le_mul_of_nonneg_left hab (by exact_mod_cast Nat.zero_le _)
  refine ⟨_, _, a1, b1, ?_, ?_⟩
  · rw [eighths_append, eighths_full, eighths_append, eighths_full]
    have := Rat.floor_monotone (a := (ProgressBar.mk a len).mp rnd * 8 + 1/2) (b := (ProgressBar.mk b len).mp rnd * 8 + 1/2) (by grind)
    omega
  · have hfl := Rat.floor_monotone hmp
    have := Rat.floor_monotone (a := (ProgressBar.mk a len).mp rnd * 8 + 1/2) (b := (ProgressBar.mk b len).mp rnd * 8 + 1/2) (by grind)
    simp only [List.length_append, List.length_replicate]
    rcases a4 with ⟨ha, h⟩ | ⟨ha, h⟩ <;> rcases b4 with ⟨hb, h'⟩ | ⟨hb, h'⟩ <;> simp only [h, h', List.length_nil] <;> omega

/-- The bar is empty at 0 and full at 1. -/
theorem C44_ends {rnd : Rat → Rat} (hr : F32Rounding rnd) (len : Nat) (hlen : len ≤ 2 ^ 24) :
    (ProgressBar.mk 0 len).render rnd = some [] ∧ (ProgressBar.mk 1 len).render rnd = some (List.replicate len '█') := by
  have hz : rnd 0 = 0 := by have := hr.exact 0 (by decide); simpa using this
  have key : ∀ (q : Rat) (n : Nat), n ≤ 2 ^ 24 → (ProgressBar.mk q len).mp rnd = n →
      (ProgressBar.mk q len).render rnd = some (List.replicate n '█') := by
    intro q n hn hq
    obtain ⟨last, e1, e2, e3, e4⟩ := (ProgressBar.mk q len).render_form rnd
    have hn0 : (0 : Rat) ≤ (n : Rat) := by exact_mod_cast Nat.zero_le _
    have hfl : (n : Rat).floor = n := by
      have := Rat.floor_intCast (n : Int)
      rwa [show ((n : Int) : Rat) = (n : Rat) by norm_cast] at this
    have hfr : ratFract (n : Rat) = 0 := by
      unfold ratFract; rw [ratTrunc_nonneg hn0, hfl, show ((n : Int) : Rat) = (n : Rat) by norm_cast]; grind
    have hrd : ratRound (0 * 8) = 0 := by decide +kernel
    rw [hq, hfr, hrd] at e2
    have e0 : eighths last = 0 := by rw [e2]; decide
    have hl : last = [] := by rcases e4 with ⟨_, h⟩ | ⟨h, _⟩; exact h; omega
    rw [e1, hl, hq, ratTrunc_nonneg hn0, hfl]
    have : intToUsize (n : Int) = n := by unfold intToUsize usizeMax; omega
    rw [this, List.append_nil]
  constructor
  · have := key 0 0 (by decide) (by unfold ProgressBar.mp; simp [Rat.mul_zero, hz])
    simpa using this
  · exact key 1 len hlen (by unfold ProgressBar.mp; simp only [hr.exact _ hlen, Rat.mul_one])

/-- A part under 0 gives an empty bar. -/
theorem C44_negative {rnd : Rat → Rat} (hr : F32Rounding rnd) (p : ProgressBar) (hlen : p.charsLen ≤ 2 ^ 24) (h : p.part ≤ 0) :
    p.render rnd = some [] := by
  obtain ⟨last, e1, e2, e3, e4⟩ := p.render_form rnd
  have hl : (0 : Rat) ≤ (p.charsLen : Rat) := by exact_mod_cast Nat.zero_le _
  have hz : rnd 0 = 0 := by have := hr.exact 0 (by decide); simpa using this
  have hm : p.mp rnd ≤ 0 := by
    unfold ProgressBar.mp
    rw [hr.exact _ hlen]
    have h' := Rat.mul_le_mul_of_nonneg_left h hl
    rw [Rat.mul_zero] at h'
    rw [← hz]; exact hr.mono _ _ h'
  generalize p.mp rnd = x at *
  have ht : ratTrunc x ≤ 0 ∧ x ≤ ratTrunc x := by
    unfold ratTrunc
    by_cases hx : x < 0
    · rw [if_pos hx]
      have h1 : 0 ≤ (-x).floor := Rat.le_floor_iff.mpr (by grind)
      have h2 := Rat.floor_le (-x)
      refine ⟨by omega, by push_cast; grind⟩
    · have : x = 0 := by grind
      subst this
      decide +kernel
  have hf : ratFract x * 8 ≤ 0 := by unfold ratFract; grind
  have hro : ratRound (ratFract x * 8) ≤ 0 := by
    generalize ratFract x * 8 = z at hf
    unfold ratRound
    by_cases hx : z < 0
    · rw [if_pos hx]
      have : 0 ≤ (-z + 1/2).floor := Rat.le_floor_iff.mpr (by grind)
      omega
    · have : z = 0 := by grind
      subst this
      decide +kernel
  have h1 : intToUsize (ratTrunc x) = 0 := by unfold intToUsize; omega
  have h2 : intToUsize (ratRound (ratFract x * 8)) = 0 := by unfold intToUsize; omega
  have : last = [] := by rcases e4 with ⟨_, h⟩ | ⟨h, _⟩; exact h; omega
  rw [e1, h1, this]
  rfl

/-- The exact arithmetic is a case of the rounding. -/
theorem exact_rounding : F32Rounding id := ⟨fun _ _ h => h, fun _ _ => rfl⟩

/-- A half of 5 cells, the rounding to 8 eighths of the last cell, and the end. -/
example : (ProgressBar.mk (1/2) 5).render id = some ['█', '█', '▌'] ∧
    (ProgressBar.mk (99/100) 5).render id = some ['█', '█', '█', '█', '█'] ∧
    (ProgressBar.mk (95/100) 5).render id = some ['█', '█', '█', '█', '▊'] := by decide +kernel

end Props

end Verif

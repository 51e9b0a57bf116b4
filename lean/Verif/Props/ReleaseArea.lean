import Verif.Model.ReleaseArea
import Verif.Props.Area
/-! Property C107: the geometry of areas in release builds. -/
namespace Verif.Props
open Verif Verif.Spec

/-- C107: in a release build `contains` tells whether the cell is in the area when the area is on the screen; an area which isn't contains nothing. -/
theorem C107_contains (a : Area) (h : a.WF) (x y : Nat) : Release.contains a x y = true ↔ OnScreen a ∧ InArea a x y := by
  obtain ⟨h1, h2, h3, h4⟩ := h
  simp only [u16Size] at h1 h2 h3 h4
  simp only [Release.contains, Bool.and_eq_true, decide_eq_true_eq]
  simp only [Release.addU16]
  constructor
  · rintro ⟨⟨⟨k1, k2⟩, k3⟩, k4⟩
    exact ⟨⟨by omega, by omega⟩, x - a.left, y - a.top, by omega, by omega, by omega, by omega⟩
  · rintro ⟨⟨k1, k2⟩, i, j, k3, k4, rfl, rfl⟩
    omega

/-- C107: what doesn't panic in a debug build is the same in a release build. -/
theorem C107_same (a : Area) (h : a.WF) (x y dx dy m : Nat) :
    (∀ b, a.contains x y = some b → Release.contains a x y = b) ∧ (∀ a', a.pad dx dy = some a' → Release.pad a dx dy = a') ∧
    (∀ a', a.padForMaxWidth m = some a' → Release.padForMaxWidth a m = a') ∧
    (∀ r, a.right = some r → Release.right a = r) ∧ (∀ b, a.bottom = some b → Release.bottom a = b) := by
  obtain ⟨h1, h2, h3, h4⟩ := h
  simp only [u16Size] at h1 h2 h3 h4
  have add : ∀ p q r, u16Add p q = some r → Release.addU16 p q = r := by
    intro p q r hr
    unfold u16Add u16Size at hr
    unfold Release.addU16
    split at hr
    · cases hr; omega
    · cases hr
  have sub : ∀ p q r, p < 65536 → csub p q = some r → Release.subU16 p q = r := by
    intro p q r hp hr
    unfold csub at hr
    unfold Release.subU16
    split at hr
    · cases hr; omega
    · cases hr
  have mul : ∀ p q r, u16Mul p q = some r → Release.mulU16 p q = r := by
    intro p q r hr
    unfold u16Mul u16Size at hr
    unfold Release.mulU16
    split at hr
    · cases hr; omega
    · cases hr
  refine ⟨?_, ?_, ?_, add _ _, add _ _⟩
  · intro b hb
    unfold Area.contains at hb
    unfold Release.contains
    by_cases c1 : a.left ≤ x
    · rw [if_pos c1] at hb
      simp only [Option.bind_eq_bind, Option.bind_eq_some_iff] at hb
      obtain ⟨r, hr, hb⟩ := hb
      rw [add _ _ _ hr]
      by_cases c2 : x < r
      · rw [if_pos c2] at hb
        by_cases c3 : a.top ≤ y
        · rw [if_pos c3] at hb
          simp only [Option.bind_eq_some_iff] at hb
          obtain ⟨s, hs, hb⟩ := hb
          rw [add _ _ _ hs]
          have := Option.some.inj hb
          simp only [c1, c2, c3, decide_true, Bool.true_and]
          exact this
        · rw [if_neg c3] at hb
          have := Option.some.inj hb
          simp only [c1, c2, c3, decide_true, decide_false, Bool.true_and, Bool.false_and]
          exact this
      · rw [if_neg c2] at hb
        have := Option.some.inj hb
        simp only [c1, c2, decide_true, decide_false, Bool.true_and, Bool.false_and]
        exact this
    · rw [if_neg c1] at hb
      have := Option.some.inj hb
      simp only [c1, decide_false, Bool.false_and]
      exact this
  · intro a' ha
    simp only [Area.pad, Option.bind_eq_bind, Option.bind_eq_some_iff] at ha
    obtain ⟨l, k1, t, k2, dx2, k3, w, k4, dy2, k5, hh, k6, k7⟩ := ha
    have e := Option.some.inj k7
    rw [← e]
    simp only [Release.pad, add _ _ _ k1, add _ _ _ k2, mul _ _ _ k3, mul _ _ _ k5, sub _ _ _ h3 k4, sub _ _ _ h4 k6]
  · intro a' ha
    unfold Area.padForMaxWidth at ha
    unfold Release.padForMaxWidth
    by_cases c : m ≥ a.width
    · rw [if_pos c] at ha ⊢; exact Option.some.inj ha
    · rw [if_neg c] at ha ⊢
      simp only [Option.bind_eq_bind, Option.bind_eq_some_iff] at ha
      obtain ⟨pw, k1, l, k2, w, k3, k4⟩ := ha
      have e := Option.some.inj k4
      rw [← e]
      simp only [sub _ _ _ h3 k1, add _ _ _ k2, sub _ _ _ h3 k3]

/-- C107: in a release build the fields of a padded area are those expected, up to a multiple of 65536. -/
theorem C107_pad (a : Area) (h : a.WF) (dx dy : Nat) :
    (Release.pad a dx dy).WF ∧
    (∃ k, (Release.pad a dx dy).left + 65536 * k = a.left + dx) ∧ (∃ k, (Release.pad a dx dy).top + 65536 * k = a.top + dy) ∧
    (∃ k, (Release.pad a dx dy).width + 2 * dx = a.width + 65536 * k) ∧ (∃ k, (Release.pad a dx dy).height + 2 * dy = a.height + 65536 * k) := by
  obtain ⟨h1, h2, h3, h4⟩ := h
  simp only [u16Size] at h1 h2 h3 h4
  simp only [Release.pad, Release.addU16, Release.subU16, Release.mulU16, Area.WF, u16Size]
  refine ⟨by omega, ⟨(a.left + dx) / 65536, by omega⟩, ⟨(a.top + dy) / 65536, by omega⟩,
    ⟨((a.width + 65536 - 2 * dx % 65536) % 65536 + 2 * dx - a.width) / 65536, by omega⟩,
    ⟨((a.height + 65536 - 2 * dy % 65536) % 65536 + 2 * dy - a.height) / 65536, by omega⟩⟩

/-- C107: a padding which is too big, with which a debug build panics, gives in a release build an area larger than before, and in which no cell is said to be. -/
theorem C107_too_much (a : Area) (h : OnScreen a) (dx dy : Nat) (hx : a.width < 2 * dx ∨ a.height < 2 * dy) (hdx : dx ≤ a.left + a.width) (hdy : dy ≤ a.top + a.height)
    (hbx : dx < 32768) (hby : dy < 32768) (hlx : a.left + dx < 65536) (hly : a.top + dy < 65536) :
    a.pad dx dy = none ∧ (a.width < 2 * dx → a.width < (Release.pad a dx dy).width) ∧ (a.height < 2 * dy → a.height < (Release.pad a dx dy).height) ∧
    ∀ x y, Release.contains (Release.pad a dx dy) x y = false := by
  obtain ⟨h1, h2⟩ := h
  have wf : a.WF := by simp only [Area.WF, u16Size]; omega
  refine ⟨(C18_pad a wf dx dy).1.2 (by omega), ?_, ?_, ?_⟩
  · intro _; simp only [Release.pad, Release.subU16, Release.mulU16]; omega
  · intro _; simp only [Release.pad, Release.subU16, Release.mulU16]; omega
  · intro x y
    cases hc : Release.contains (Release.pad a dx dy) x y with
    | false => rfl
    | true =>
      have := ((C107_contains _ (C107_pad a wf dx dy).1 x y).1 hc).1
      simp only [OnScreen, Release.pad, Release.addU16, Release.subU16, Release.mulU16] at this
      omega

/-- C107: the padding to a maximal width never panics nor wraps for an area on the screen. -/
theorem C107_max_width (a : Area) (h : OnScreen a) (m : Nat) : a.padForMaxWidth m = some (Release.padForMaxWidth a m) := by
  obtain ⟨a', h', _⟩ := C18_padForMaxWidth a h m
  have wf : a.WF := by obtain ⟨h1, h2⟩ := h; simp only [Area.WF, u16Size]; omega
  rw [h', (C107_same a wf 0 0 0 0 m).2.2.1 a' h']

/-- C107: a terminal of 3 columns and 24 rows, padded as in the examples. -/
example : OnScreen ⟨0, 0, 3, 24⟩ ∧ (3 < 2 * 2 ∨ 24 < 2 * 1) ∧ (⟨0, 0, 3, 24⟩ : Area).pad 2 1 = none ∧ Release.pad ⟨0, 0, 3, 24⟩ 2 1 = ⟨2, 1, 65535, 22⟩ := by
  refine ⟨⟨by decide, by decide⟩, by decide, by decide, by decide⟩

/-- C107: an area on the screen has cells, and another one has none. -/
example : Release.contains ⟨5, 5, 10, 10⟩ 14 14 = true ∧ Release.contains ⟨65530, 0, 10, 1⟩ 65532 0 = false := by decide

/-- A padding which is too big may also give a small area, out of the padded one, when it's larger than the width and the position together. -/
theorem C107_far_counterexample : Release.pad ⟨0, 0, 3, 24⟩ 10 1 = ⟨10, 1, 65519, 22⟩ ∧ Release.contains (Release.pad ⟨0, 0, 3, 24⟩ 10 1) 20 5 = true := by decide

end Verif.Props

import Verif.Props.FormScreen
import Verif.Props.Used
/-! C80: redrawing a form only after the events which were used. -/
namespace Verif.Props
open Verif Verif.Spec Verif.Form InputField Verif.Pager

theorem inputKey_unused {cw : Char → Nat} {clip : Clipboard} {f f' : InputField} {k : KeyComb} {g : Option Text}
    (h : inputKey cw clip f k = some (f', false, g)) (hcut : k = keyCut → clip.accepts = true) :
    f.applyKeyCombination cw k = some (f', false) := by
  simp only [inputKey, Option.bind_eq_bind, Option.bind_eq_some_iff] at h
  obtain ⟨⟨p, b⟩, hp, h⟩ := h
  cases b with
  | true => simp at h
  | false =>
    simp only [Bool.false_eq_true, if_false] at h
    rw [hp]
    split at h
    · simp only [copyFromInput, Option.bind_eq_bind, Option.bind_eq_some_iff, Option.some.injEq, Prod.mk.injEq] at h
      obtain ⟨_, _, rfl, _⟩ := h
      rfl
    split at h
    · next hk =>
      simp only [cutFromInput, Option.bind_eq_bind, Option.bind_eq_some_iff, Option.some.injEq, Prod.mk.injEq] at h
      obtain ⟨_, _, _, h, _⟩ := h
      rw [hcut hk] at h
      cases h
    split at h
    · unfold pasteIntoInput at h
      split at h
      · simp only [Option.map_eq_some_iff, Prod.mk.injEq, Bool.true_eq_false, false_and, and_false, exists_false] at h
      · simp only [Option.some.injEq, Prod.mk.injEq] at h
        rw [h.1]
    · simp only [Option.some.injEq, Prod.mk.injEq] at h
      rw [h.1]

/-- C80: the form is redrawn only after the events for which true is returned, and it's enough: after the other ones the same would be drawn, unless there was
a selection or the clipboard refused what was cut. -/
theorem C80_not_late (cw : Char → Nat) (ws alnum : Char → Bool) (c : Config) (hfit : ∀ w, 3 ≤ w → FittingText cw c.skin w c.introduction) (text : Text)
    {w h : Nat} (hs : SmallSize w h) (es : List View.Event) (hes : SmallSizes es) {v : View} (hv : FormAfter cw ws alnum c text w h es v) (e : View.Event)
    {v' : View} {given : Option Text} (ha : v.apply cw ws alnum e = some (v', false, given))
    (hsel : ∀ n, v.focus = n.focus → (input v n).content.hasWideSelection = false) (hcut : ∀ clip, e = .key keyCut clip → clip.accepts = true) :
    v'.queueOn cw ws c = v.queueOn cw ws c ∧ ∀ n, (input v' n).content.lines = (input v n).content.lines ∧ (input v' n).content.pos = (input v n).content.pos := by
  have hm := formAfter_matches hfit hs hes hv
  have field : ∀ (f f' : InputField) (k : KeyComb), f.applyKeyCombination cw k = some (f', false) → f.content.hasWideSelection = false →
      c.styles.cmds cw f' = c.styles.cmds cw f ∧ f'.content.lines = f.content.lines ∧ f'.content.pos = f.content.pos := by
    intro f f' k hk hw
    refine ⟨(C79_same_display cw alnum (.key k) hk hw).2 _, ?_⟩
    rcases C79_unused cw alnum (.key k) hk with rfl | ⟨_, rfl⟩ | ⟨_, rfl⟩ <;> exact ⟨rfl, rfl⟩
  cases e with
  | mouse e => simp only [View.apply, Option.map_eq_some_iff, Prod.mk.injEq, Bool.true_eq_false, false_and, and_false, exists_false] at ha
  | other => simp only [View.apply, Option.some.injEq, Prod.mk.injEq] at ha; rw [ha.1]; exact ⟨rfl, fun _ => ⟨rfl, rfl⟩⟩
  | resize w h =>
    simp only [View.apply, Option.map_eq_some_iff, Prod.mk.injEq] at ha
    obtain ⟨⟨r, b⟩, h1, rfl, h2, _⟩ := ha
    simp only at h2
    rw [h2] at h1
    unfold View.resize at h1
    split at h1
    · simp only [Option.some.injEq, Prod.mk.injEq, and_true] at h1
      rw [h1]; exact ⟨rfl, fun _ => ⟨rfl, rfl⟩⟩
    split at h1
    · simp only [Option.bind_eq_bind, Option.bind_eq_some_iff, Option.some.injEq, Prod.mk.injEq, Bool.true_eq_false, and_false, exists_false] at h1
    · simp at h1
  | key k clip =>
    simp only [View.apply, View.applyKey] at ha
    split at ha
    · simp only [Option.map_eq_some_iff, Prod.mk.injEq, Bool.true_eq_false, false_and, and_false, exists_false] at ha
    split at ha
    · simp only [Option.map_eq_some_iff, Prod.mk.injEq, Bool.true_eq_false, false_and, and_false, exists_false] at ha
    have hc : k = keyCut → clip.accepts = true := fun hk => hcut clip (by rw [hk])
    split at ha
    · next hf =>
      simp only [Option.map_eq_some_iff, Prod.mk.injEq] at ha
      obtain ⟨⟨f', b, g⟩, h1, rfl, rfl, rfl⟩ := ha
      obtain ⟨a1, a2⟩ := field _ _ k (inputKey_unused h1 hc) (hsel .login hf)
      refine ⟨by simp only [View.queueOn, a1], fun n => ?_⟩
      cases n
      · exact a2
      · exact ⟨rfl, rfl⟩
      · exact ⟨rfl, rfl⟩
    · next hf =>
      simp only [Option.map_eq_some_iff, Prod.mk.injEq] at ha
      obtain ⟨⟨f', b, g⟩, h1, rfl, rfl, rfl⟩ := ha
      obtain ⟨a1, a2⟩ := field _ _ k (inputKey_unused h1 hc) (hsel .password hf)
      refine ⟨by simp only [View.queueOn, a1], fun n => ?_⟩
      cases n
      · exact ⟨rfl, rfl⟩
      · exact a2
      · exact ⟨rfl, rfl⟩
    · next hf =>
      simp only [Option.map_eq_some_iff, Prod.mk.injEq] at ha
      obtain ⟨⟨f', b, g⟩, h1, rfl, rfl, rfl⟩ := ha
      obtain ⟨a1, a2⟩ := field _ _ k (inputKey_unused h1 hc) (hsel .comments hf)
      refine ⟨by simp only [View.queueOn, a1], fun n => ?_⟩
      cases n
      · exact ⟨rfl, rfl⟩
      · exact ⟨rfl, rfl⟩
      · exact a2
    · simp only [Option.map_eq_some_iff, Prod.mk.injEq] at ha
      obtain ⟨⟨m, b⟩, h1, rfl, rfl, _⟩ := ha
      have hh : 1 ≤ v.introduction.area.height := by
        rw [hm.intro]
        unfold Desk.intro
        split
        · simp only [introIn]; omega
        · decide
      obtain ⟨k1, k2⟩ := C79_mad_view cw ws v.introduction hh k h1
      have : m.scroll = v.introduction.scroll := by
        apply Classical.byContradiction
        intro hne
        have := k1.2 hne
        cases this
      rw [this] at k2
      have : m = v.introduction := k2
      rw [this]
      exact ⟨rfl, fun _ => ⟨rfl, rfl⟩⟩

/-- C80: the hypotheses are met: a key which does nothing in the login. -/
example : (View.new renderCw exForm [] ⟨0, 0, 20, 15⟩).bind (fun v => (v.apply renderCw (· == ' ') (fun _ => true) (.key ⟨.left, [], .none⟩ ⟨true, none⟩)).map
    fun r => (v.login.content.hasWideSelection, r.2)) = some (false, false, none) := by decide +kernel

/-- C80: after a cut refused by the clipboard, even without selection, the character which was cut isn't in the input any more but false is returned. -/
theorem C80_late_counterexample : (View.new renderCw exForm [] ⟨0, 0, 20, 15⟩).bind (fun v => (runForm renderCw (· == ' ') (fun _ => true) v
      [.key ⟨.char 'x', [], .none⟩ ⟨true, none⟩, .key ⟨.home, [], .none⟩ ⟨true, none⟩]).bind fun v =>
      (v.apply renderCw (· == ' ') (fun _ => true) (.key keyCut ⟨false, none⟩)).map fun r =>
        (r.2.1, v.login.content.hasWideSelection, v.login.content.lines, r.1.login.content.lines)) =
    some (false, false, ["x".toList], [[]]) := by decide +kernel

end Verif.Props

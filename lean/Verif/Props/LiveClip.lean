import Verif.Props.LiveEdit
/-! C81: the clipboard of a live editor. -/
namespace Verif.Props
open Verif Verif.Spec Verif.Form Verif.LiveEdit InputField

section
variable {cw : Char → Nat} {alnum : Char → Bool}

theorem live_ctrl {s : Nat × Nat} {v : Editor} (hm : LiveOk s v) (ch : Char) : (⟨.char ch, [], modCtrl⟩ : KeyComb) ∉ v.input.newLineKeys := by
  rw [hm.keys]
  simp [keyEnter]

/-- C81: ctrl-c gives the selected text to the clipboard, and changes nothing. -/
theorem C81_copy (text : Text) {w h : Nat} (hs : SmallSize w h) (es : List View.Event) (hes : SmallSizes es) {v : Editor}
    (hv : LiveAfter cw alnum text w h es v) (clip : Clipboard) :
    ∃ a sel b, v.input.content.toText = a ++ sel ++ b ∧ a = textBefore v.input.content.lines v.input.content.selection.min ∧
      a ++ sel = textBefore v.input.content.lines v.input.content.selection.max ++ (textAfter v.input.content.lines v.input.content.selection.max).take 1 ∧
      v.apply cw alnum (.key keyCopy clip) = some (v, clip.accepts, if clip.accepts then some sel else none) := by
  have hm := liveAfter_ok hs hes hv
  obtain ⟨s, h1, h2, h3⟩ := C23_string hm.ok.1
  refine ⟨_, s, _, h2.symm, rfl, h3, ?_⟩
  simp only [Editor.apply, live_key hm.keys, inputKey, keyCopy, ctrl_ignored cw (live_ctrl hm) 'c', Option.bind_eq_bind, Option.bind_some]
  rw [if_neg (by decide), if_pos trivial]
  simp only [copyFromInput, copySelection, h1, Option.bind_eq_bind, Option.bind_some, Option.map_some]

/-- C81: when several characters are selected, in a line or as whole lines, ctrl-x gives it to the clipboard and removes it from the text, and
ctrl-v replaces it with what the clipboard gives (without its carriage returns), the cursor being after it. -/
theorem C81_cut_paste (text : Text) {w h : Nat} (hs : SmallSize w h) (es : List View.Event) (hes : SmallSizes es) {v : Editor}
    (hv : LiveAfter cw alnum text w h es v) (clip : Clipboard) (hws : v.input.content.hasWideSelection = true) (hec : ExactlyCut v.input.content) :
    ∃ a sel b, v.input.content.toText = a ++ sel ++ b ∧ v.input.content.selectionString = some sel ∧
      (∃ v', v.apply cw alnum (.key keyCut clip) = some (v', clip.accepts, if clip.accepts then some sel else none) ∧
        v'.input.content.before = a ∧ v'.input.content.after = b) ∧
      (∀ s, clip.gives = some s → ∃ v', v.apply cw alnum (.key keyPaste clip) = some (v', true, none) ∧
        v'.input.content.before = a ++ keptText s ∧ v'.input.content.after = b) ∧
      (clip.gives = none → v.apply cw alnum (.key keyPaste clip) = some (v, false, none)) := by
  have hm := liveAfter_ok hs hes hv
  obtain ⟨a, sel, b, h1, h2, _, h4, _, h6⟩ := C45_replace cw hm.ok.1 hm.ok.2.1 hws hec
  have h6' : ∃ f', v.input.cutSelection cw = some (f', sel) ∧ f'.content.before = a ∧ f'.content.after = b := by
    first | exact h6 | exact h6.2
  refine ⟨a, sel, b, h2, h1, ?_, ?_, ?_⟩
  · obtain ⟨f', k1, k2, k3⟩ := h6'
    refine ⟨{ v with input := f' }, ?_, k2, k3⟩
    simp only [Editor.apply, live_key hm.keys, inputKey, keyCut, ctrl_ignored cw (live_ctrl hm) 'x', Option.bind_eq_bind, Option.bind_some]
    rw [if_neg (by decide), if_neg (by decide), if_pos trivial]
    simp only [cutFromInput, k1, Option.bind_eq_bind, Option.bind_some, Option.map_some]
  · intro s hg
    obtain ⟨f', k1, k2, k3⟩ := h4 s
    refine ⟨{ v with input := f' }, ?_, k2, k3⟩
    simp only [Editor.apply, live_key hm.keys, inputKey, keyPaste, ctrl_ignored cw (live_ctrl hm) 'v', Option.bind_eq_bind, Option.bind_some]
    rw [if_neg (by decide), if_neg (by decide), if_neg (by decide), if_pos trivial]
    simp only [pasteIntoInput, hg, k1, Option.map_some]
  · intro hg
    simp only [Editor.apply, live_key hm.keys, inputKey, keyPaste, ctrl_ignored cw (live_ctrl hm) 'v', Option.bind_eq_bind, Option.bind_some]
    rw [if_neg (by decide), if_neg (by decide), if_neg (by decide), if_pos trivial]
    simp only [pasteIntoInput, hg, Option.map_some]

/-- C81: nothing else is put in the clipboard: only ctrl-c and ctrl-x do it, with the selected text, and when the clipboard accepts it. -/
theorem C81_clipboard (text : Text) {w h : Nat} (hs : SmallSize w h) (es : List View.Event) (hes : SmallSizes es) {v : Editor}
    (hv : LiveAfter cw alnum text w h es v) (e : View.Event) {v' : Editor} {b : Bool} {s : Text} (ha : v.apply cw alnum e = some (v', b, some s)) :
    ∃ k clip, e = .key k clip ∧ (k = keyCopy ∨ k = keyCut) ∧ clip.accepts = true ∧ v.input.content.selectionString = some s := by
  have hm := liveAfter_ok hs hes hv
  cases e with
  | mouse e => simp only [Editor.apply, Option.map_eq_some_iff, Prod.mk.injEq, reduceCtorEq, and_false, exists_false] at ha
  | resize w h => simp only [Editor.apply, Option.map_eq_some_iff, Prod.mk.injEq, reduceCtorEq, and_false, exists_false] at ha
  | other => simp [Editor.apply] at ha
  | key k clip =>
    simp only [Editor.apply, live_key hm.keys, Option.map_eq_some_iff, Prod.mk.injEq] at ha
    obtain ⟨⟨f', b', g'⟩, h1, _, h2⟩ := ha
    cases h2
    obtain ⟨a1, a2, a3⟩ := inputKey_given h1 (live_ctrl hm)
    exact ⟨k, clip, rfl, a1, a2, a3⟩

end

/-- C81: the hypotheses are met: two characters are selected with the shift key, then cut, then pasted twice. -/
example : (Editor.new renderCw "abcd".toList ⟨0, 0, 20, 15⟩).bind (fun v => (runLive renderCw (fun _ => true) v
      [.key ⟨.home, [], .none⟩ ⟨true, none⟩, .key ⟨.right, [], .shift⟩ ⟨true, none⟩]).bind fun v =>
      (v.apply renderCw (fun _ => true) (.key keyCut ⟨true, none⟩)).bind fun r =>
        (runLive renderCw (fun _ => true) r.1 [.key keyPaste ⟨true, r.2.2⟩, .key keyPaste ⟨true, r.2.2⟩]).map fun v' =>
          (v.input.content.hasWideSelection, r.2, v'.input.content.toText)) =
    some (true, (true, some "ab".toList), "ababcd".toList) := by decide +kernel

end Verif.Props
